import Verif.Model.SProgram
import Verif.Spec.Caller
import Verif.Spec.SPyControl

/-!
# Specification: C++ client code on `SScalar`

The independent variables have names; a sparse scalar stands for a function on assignments
`String → ℝ`, and `x` is the assignment at which the derivatives are asked for.
-/

open scoped Topology

namespace HJ

variable {α V : Type}

/-- Change the scalar constants. -/
def SStmt.map {β : Type} (f : α → β) : SStmt α V → SStmt β V
  | .assign t e => .assign t (e.map f)
  | .vari t k s => .vari t k (f s)
  | .make t s d => .make t (f s) (d.map fun e => (e.1, f e.2))
  | .upd o t e => .upd o t (e.map f)
  | .updS o t s => .updS o t (f s)

/-- Change the scalar constants. -/
def SCall.map {β : Type} (f : α → β) : SCall α V → SCall β V
  | .act s => .act (s.map f)
  | .ask b => .ask (b.map f)
  | .f v => .f v
  | .d v k => .d v k
  | .size v m => .size v m

/-- A table of derivatives has every name once (`std::unordered_map`). -/
def SStmt.DictOk : SStmt α V → Prop
  | .make _ _ d => (d.map Prod.fst).Nodup
  | _ => True

/-- A table of derivatives has every name once. -/
def SCall.DictOk : SCall α V → Prop
  | .act s => s.DictOk
  | _ => True

/-- Moreover derivatives are not looked at. -/
def SCall.NoDerivs : SCall α V → Prop
  | .act s => s.DictOk
  | .ask _ => True
  | .f _ => True
  | .d _ _ => False
  | .size _ _ => False

/-- The statement on a dense jet; a new variable is just its value. -/
def SStmt.dense : SStmt α V → Stmt α V
  | .assign t e => .assign t e
  | .vari t _ s => .assign t (.const s)
  | .make t s _ => .assign t (.const s)
  | .upd o t e => .upd o t e
  | .updS o t s => .updS o t (.val s)

/-- The call on dense jets (for calls that do not look at derivatives). -/
def SCall.dense : SCall α V → Call α V
  | .act s => .act s.dense
  | .ask b => .ask b
  | .f v => .f v
  | .d v _ => .f v
  | .size v _ => .f v

section plain

variable [CMath α] [DecidableEq V]

/-- The statement with plain scalars. -/
def SStmt.plain (σ : V → α) : SStmt α V → V → α
  | .assign t e => fun v => if v = t then e.plain recipDiv σ else σ v
  | .vari t _ s => fun v => if v = t then s else σ v
  | .make t s _ => fun v => if v = t then s else σ v
  | .upd o t e => fun v => if v = t then o.plain (σ t) (e.plain recipDiv σ) else σ v
  | .updS .div t s => fun v => if v = t then recipDiv (σ t) s else σ v
  | .updS o t s => fun v => if v = t then o.plain (σ t) s else σ v

/-- The library of plain scalars (there are no derivatives to be read). -/
def splainLibrary (α V : Type) [CMath α] [DecidableEq V] : Library (SCall α V) (Answer α) (V → α)
  | .act s, σ => (.ok .done, s.plain σ)
  | .ask b, σ => (.ok (.truth (b.plain σ)), σ)
  | .f v, σ => (.ok (.number (σ v)), σ)
  | .d _ _, σ => (.ok (.number (Arith.lit 0)), σ)
  | .size _ _, σ => (.ok (.truth false), σ)

end plain

section real

/-- The statement is inside the domains of its operations and is not `*=` or `/=` with the same object
on both sides. -/
def SStmt.Ok (σ : V → ℝ) : SStmt ℝ V → Prop
  | .assign _ e => e.Dom 1 σ ∧ e.Regular σ
  | .vari _ _ _ => True
  | .make _ _ d => (d.map Prod.fst).Nodup
  | .upd o t e => e.Dom 1 σ ∧ e.Regular σ ∧ (o = .div → e.den σ ≠ 0) ∧
      (e = .var t → o = .add ∨ o = .sub)
  | .updS o _ s => o = .div → s ≠ 0

variable [DecidableEq V]

/-- The statement on real values at the point `y`.  `SScalar::variable(k, s)` is the coordinate `k`,
shifted such that its value at `x` is `s`; `SScalar(s, d)` is the affine function with value `s` at `x`
and slopes `d`. -/
noncomputable def SStmt.den (x y : String → ℝ) (σ : V → ℝ) : SStmt ℝ V → V → ℝ
  | .assign t e => setVal σ t (e.den σ)
  | .vari t k s => setVal σ t (s + (y k - x k))
  | .make t s d => setVal σ t (s + (d.map fun e => e.2 * (y e.1 - x e.1)).sum)
  | .upd o t e => setVal σ t (o.den (σ t) (e.den σ))
  | .updS o t s => setVal σ t (o.den (σ t) s)

/-- Calls on real values at the point `y`.  Reading numbers is left out: what is computed from them is not
followed by the derivatives. -/
inductive SRealCall (x y : String → ℝ) : SCall ℝ V → (V → ℝ) → Answer ℝ → (V → ℝ) → Prop
  | act (s : SStmt ℝ V) (σ : V → ℝ) : SRealCall x y (.act s) σ .done (s.den x y σ)
  | ask (b : Cond ℝ V) (σ : V → ℝ) {r : Bool} (h : r = true ↔ b.Holds σ) :
      SRealCall x y (.ask b) σ (.truth r) σ

/-- The same at `x`, inside the domains and without ties. -/
inductive SSureCall (x : String → ℝ) : SCall ℝ V → (V → ℝ) → Answer ℝ → (V → ℝ) → Prop
  | act (s : SStmt ℝ V) (σ : V → ℝ) (hs : s.Ok σ) : SSureCall x (.act s) σ .done (s.den x x σ)
  | ask (b : Cond ℝ V) (σ : V → ℝ) {r : Bool} (hb : b.Sure 1 σ) (h : r = true ↔ b.Holds σ) :
      SSureCall x (.ask b) σ (.truth r) σ

/-- Calls on values that are functions `u` of the point, executed at the point `x`: statements change the
functions; comparisons look at the values; reading gives values and partial derivatives. -/
inductive SPointCall (x : String → ℝ) :
    SCall XReal V → ((String → ℝ) → V → ℝ) → Answer XReal → ((String → ℝ) → V → ℝ) → Prop
  | act (s : SStmt ℝ V) (u : (String → ℝ) → V → ℝ) (hs : s.Ok (u x)) :
      SPointCall x (.act (s.map .num)) u .done (fun y => s.den x y (u y))
  | ask (b : Cond ℝ V) (u : (String → ℝ) → V → ℝ) {r : Bool} (hb : b.Inside 1 (u x))
      (h : r = true ↔ b.Holds (u x)) : SPointCall x (.ask (b.map .num)) u (.truth r) u
  | f (v : V) (u : (String → ℝ) → V → ℝ) : SPointCall x (.f v) u (.number (.num (u x v))) u
  | d (v : V) (k : String) (u : (String → ℝ) → V → ℝ) :
      SPointCall x (.d v k) u (.number (.num (deriv (fun t => u (Function.update x k t) v) (x k)))) u

end real

end HJ
