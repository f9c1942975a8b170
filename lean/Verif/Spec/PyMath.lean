import Verif.Spec.PyHeap
import Verif.Spec.Client
import Verif.Spec.Calculus

/-!
# Specification: what Python programs mean

Every name stands for a real number or a real function of `n` variables; `x` is the point at which
the derivatives are asked for.  A statement is described by a relation, so that a statement has a
meaning only where all operations are applied inside their domains.
-/

namespace HJ

variable {V W : Type} {n : Nat}

/-- A real number or a real function of `n` real variables. -/
inductive PMath (n : Nat) where
  | num (r : ℝ)
  | fn (F : (Fin n → ℝ) → ℝ)

/-- The Python value is the number, or holds value and derivatives of the function at `x`. -/
def PVal.IsAt (c : Cfg) (n : Nat) (x : Fin n → ℝ) : PVal XReal → PMath n → Prop
  | .num a, .num r => a = XReal.num r
  | .jet y, .fn F => ∃ K : Jet ℝ, Shows c n y K.lift ∧ IsJet c.order n F x K
  | _, _ => False

/-- The arithmetic operation. -/
noncomputable def POp.den : POp → ℝ → ℝ → ℝ
  | .add => fun x y => x + y
  | .sub => fun x y => x - y
  | .mul => fun x y => x * y
  | .div => fun x y => x / y

/-- Meaning of an expression, for names with meaning `σ`.  An operator with one number and one
function works pointwise; `T.variable(i, s, n)` is the `i`-th coordinate, shifted such that its value
at `x` is `s`. -/
inductive PyE.Den (order : Nat) (x : Fin n → ℝ) (σ : V → PMath n) : PyE ℝ V → PMath n → Prop
  | name (v : V) : Den order x σ (.name v) (σ v)
  | lit (s : ℝ) : Den order x σ (.lit s) (.num s)
  | const (s : ℝ) : Den order x σ (.const s) (.fn fun _ => s)
  | vari (i : Fin n) (s : ℝ) : Den order x σ (.vari i s) (.fn fun y => s + (y i - x i))
  | negNum {e : PyE ℝ V} {r : ℝ} (h : Den order x σ e (.num r)) : Den order x σ (.neg e) (.num (-r))
  | neg {e : PyE ℝ V} {F : (Fin n → ℝ) → ℝ} (h : Den order x σ e (.fn F)) :
      Den order x σ (.neg e) (.fn fun y => -F y)
  | absNum {e : PyE ℝ V} {r : ℝ} (h : Den order x σ e (.num r)) : Den order x σ (.abs e) (.num |r|)
  | abs {e : PyE ℝ V} {F : (Fin n → ℝ) → ℝ} (h : Den order x σ e (.fn F)) (hd : F x ≠ 0) :
      Den order x σ (.abs e) (.fn fun y => |F y|)
  | fn {φ : Fn ℝ} {e : PyE ℝ V} {F : (Fin n → ℝ) → ℝ} (h : Den order x σ e (.fn F))
      (hd : φ.dom order (F x)) : Den order x σ (.fn φ e) (.fn fun y => φ.den (F y))
  | opNums {o : POp} {e₁ e₂ : PyE ℝ V} {r s : ℝ} (h₁ : Den order x σ e₁ (.num r))
      (h₂ : Den order x σ e₂ (.num s)) (hd : o = .div → s ≠ 0) :
      Den order x σ (.op o e₁ e₂) (.num (o.den r s))
  | opFns {o : POp} {e₁ e₂ : PyE ℝ V} {F G : (Fin n → ℝ) → ℝ} (h₁ : Den order x σ e₁ (.fn F))
      (h₂ : Den order x σ e₂ (.fn G)) (hd : o = .div → G x ≠ 0) :
      Den order x σ (.op o e₁ e₂) (.fn fun y => o.den (F y) (G y))
  | opRight {o : POp} {e₁ e₂ : PyE ℝ V} {F : (Fin n → ℝ) → ℝ} {s : ℝ}
      (h₁ : Den order x σ e₁ (.fn F)) (h₂ : Den order x σ e₂ (.num s)) (hd : o = .div → s ≠ 0) :
      Den order x σ (.op o e₁ e₂) (.fn fun y => o.den (F y) s)
  | opLeft {o : POp} {e₁ e₂ : PyE ℝ V} {r : ℝ} {G : (Fin n → ℝ) → ℝ}
      (h₁ : Den order x σ e₁ (.num r)) (h₂ : Den order x σ e₂ (.fn G)) (hd : o = .div → G x ≠ 0) :
      Den order x σ (.op o e₁ e₂) (.fn fun y => o.den r (G y))
  | atan2 {e₁ e₂ : PyE ℝ V} {F G : (Fin n → ℝ) → ℝ} (h₁ : Den order x σ e₁ (.fn F))
      (h₂ : Den order x σ e₂ (.fn G)) (hd : F x ≠ 0 ∨ 0 < G x) :
      Den order x σ (.atan2 e₁ e₂) (.fn fun y => Complex.arg ⟨G y, F y⟩)
  | hypot {e₁ e₂ : PyE ℝ V} {F G : (Fin n → ℝ) → ℝ} (h₁ : Den order x σ e₁ (.fn F))
      (h₂ : Den order x σ e₂ (.fn G)) (hd : F x ≠ 0 ∨ G x ≠ 0) :
      Den order x σ (.hypot e₁ e₂) (.fn fun y => √(F y ^ 2 + G y ^ 2))
  | hypot3 {e₁ e₂ e₃ : PyE ℝ V} {F G H : (Fin n → ℝ) → ℝ} (h₁ : Den order x σ e₁ (.fn F))
      (h₂ : Den order x σ e₂ (.fn G)) (h₃ : Den order x σ e₃ (.fn H))
      (hd : F x ≠ 0 ∨ G x ≠ 0 ∨ H x ≠ 0) :
      Den order x σ (.hypot3 e₁ e₂ e₃) (.fn fun y => √(F y ^ 2 + G y ^ 2 + H y ^ 2))
  | getF {e : PyE ℝ V} {F : (Fin n → ℝ) → ℝ} (h : Den order x σ e (.fn F)) :
      Den order x σ (.getF e) (.num (F x))

/-- Give a name a new meaning. -/
def setMath [DecidableEq V] (σ : V → PMath n) (t : V) (m : PMath n) : V → PMath n :=
  fun v => if v = t then m else σ v

/-- Meaning of a statement: `t = e`, `t o= e`, and `t.f = s`, which shifts the function such that its
value at `x` is `s`. -/
inductive PyStmt.Den [DecidableEq V] (order : Nat) (x : Fin n → ℝ) (σ : V → PMath n) :
    PyStmt ℝ V W → (V → PMath n) → Prop
  | assign {t : V} {e : PyE ℝ V} {m : PMath n} (h : e.Den order x σ m) :
      Den order x σ (.assign t e) (setMath σ t m)
  | upd {o : POp} {t : V} {e : PyE ℝ V} {m : PMath n}
      (h : (PyE.op o (.name t) e).Den order x σ m) : Den order x σ (.upd o t e) (setMath σ t m)
  | setF {t : V} {s : ℝ} {F : (Fin n → ℝ) → ℝ} (h : σ t = .fn F) :
      Den order x σ (.setF t s) (setMath σ t (.fn fun y => F y + (s - F x)))

/-- Meaning of a program. -/
inductive PyDen [DecidableEq V] (order : Nat) (x : Fin n → ℝ) :
    List (PyStmt ℝ V W) → (V → PMath n) → (V → PMath n) → Prop
  | nil (σ : V → PMath n) : PyDen order x [] σ σ
  | cons {s : PyStmt ℝ V W} {p : List (PyStmt ℝ V W)} {σ σ' σ'' : V → PMath n}
      (h : s.Den order x σ σ') (hp : PyDen order x p σ' σ'') : PyDen order x (s :: p) σ σ''

/-- Change the scalar constants. -/
def PyE.map {α β : Type} (f : α → β) : PyE α V → PyE β V
  | .name v => .name v
  | .lit s => .lit (f s)
  | .const s => .const (f s)
  | .vari i s => .vari i (f s)
  | .neg e => .neg (e.map f)
  | .abs e => .abs (e.map f)
  | .fn φ e => .fn (φ.map f) (e.map f)
  | .op o e₁ e₂ => .op o (e₁.map f) (e₂.map f)
  | .atan2 e₁ e₂ => .atan2 (e₁.map f) (e₂.map f)
  | .hypot e₁ e₂ => .hypot (e₁.map f) (e₂.map f)
  | .hypot3 e₁ e₂ e₃ => .hypot3 (e₁.map f) (e₂.map f) (e₃.map f)
  | .getF e => .getF (e.map f)

/-- Change the scalar constants. -/
def PyStmt.map {α β : Type} (f : α → β) : PyStmt α V W → PyStmt β V W
  | .assign t e => .assign t (e.map f)
  | .upd o t e => .upd o t (e.map f)
  | .setF t s => .setF t (f s)
  | .setH t i j s => .setH t i j (f s)
  | .resize t m => .resize t m
  | .data w t => .data w t
  | .grad w t => .grad w t
  | .poke w i s => .poke w i (f s)
  | .peek t w i => .peek t w i

end HJ
