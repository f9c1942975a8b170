import Verif.Model.Program
import Verif.Spec.Client

/-!
# Specification: the real functions a straight-line program computes
-/

namespace HJ

variable {V : Type}

/-- The real operation. -/
noncomputable def AOp.den : AOp → ℝ → ℝ → ℝ
  | .add => fun x y => x + y
  | .sub => fun x y => x - y
  | .mul => fun x y => x * y
  | .div => fun x y => x / y

/-- Replace the value under one name. -/
def setVal [DecidableEq V] (σ : V → ℝ) (t : V) (x : ℝ) : V → ℝ := fun v => if v = t then x else σ v

/-- Effect of a statement on values (component setters have no meaning as functions). -/
noncomputable def Stmt.den [DecidableEq V] (σ : V → ℝ) : Stmt ℝ V → V → ℝ
  | .assign t e => setVal σ t (e.den σ)
  | .upd o t e => setVal σ t (o.den (σ t) (e.den σ))
  | .updS o t (.val s) => setVal σ t (o.den (σ t) s)
  | _ => σ

/-- Values after a program. -/
noncomputable def progDen [DecidableEq V] : List (Stmt ℝ V) → (V → ℝ) → V → ℝ
  | [], σ => σ
  | s :: p, σ => progDen p (s.den σ)

/-- The statement stays inside the domains of its operations, is an assignment or in-place update,
and is not a `*=` with the same object on both sides (nor, at order 2, a `*=` on jets without
variables). -/
def Stmt.Ok (order n : Nat) (σ : V → ℝ) : Stmt ℝ V → Prop
  | .assign _ e => e.Dom order σ ∧ e.Regular σ
  | .upd o t e => e.Dom order σ ∧ e.Regular σ ∧ (o = .div → e.den σ ≠ 0) ∧
      (o = .mul → e ≠ .var t ∧ (order = 2 → 0 < n))
  | .updS o _ (.val s) => o = .div → s ≠ 0
  | _ => False

/-- Every statement of the program is all right when its turn comes. -/
def ProgOk [DecidableEq V] (order n : Nat) : List (Stmt ℝ V) → (V → ℝ) → Prop
  | [], _ => True
  | s :: p, σ => s.Ok order n σ ∧ ProgOk order n p (s.den σ)

/-- Change the scalar constants. -/
def Stmt.map {α β : Type} (f : α → β) : Stmt α V → Stmt β V
  | .assign t e => .assign t (e.map f)
  | .upd o t e => .upd o t (e.map f)
  | .updS o t (.val s) => .updS o t (.val (f s))
  | .updS o t (.cell k) => .updS o t (.cell k)
  | .setF t v => .setF t (f v)
  | .setG t i v => .setG t i (f v)
  | .setH t i j v => .setH t i j (f v)
  | .setZero t => .setZero t

end HJ
