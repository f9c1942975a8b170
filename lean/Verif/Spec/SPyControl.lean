import Verif.Spec.PyControl
import Verif.Spec.PySparse

/-!
# Specification: Python programs on sparse scalars with branches and loops

As `Spec/PyControl.lean`, for functions of named variables.  A sparse scalar has partial derivatives
only, so "near `x`" means: on every coordinate line through `x`, near `x`.
-/

open scoped Topology

namespace HJ

variable {V : Type}

/-- Points near `x` that differ from `x` in one coordinate at most. -/
def nearLines (x : String → ℝ) : Filter (String → ℝ) :=
  ⨆ k, (𝓝 (x k)).map fun t => Function.update x k t

/-- The state at the point `y`. -/
def SMathSt.at (σ : SMathSt V) (y : String → ℝ) : PtSt V := ⟨σ.env, fun a => σ.mean a y, σ.next⟩

/-- The number an expression stands for at the point `y` (nothing is said about `e.d(k)`). -/
noncomputable def SPyE.real (x y : String → ℝ) (σ : V → ℝ) : SPyE ℝ V → ℝ
  | .name v => σ v
  | .lit s => s
  | .const s => s
  | .vari k s => s + (y k - x k)
  | .make s d => s + (d.map fun e => e.2 * (y e.1 - x e.1)).sum
  | .neg e => -e.real x y σ
  | .abs e => |e.real x y σ|
  | .fn φ e => φ.den (e.real x y σ)
  | .op o e₁ e₂ => o.den (e₁.real x y σ) (e₂.real x y σ)
  | .atan2 e₁ e₂ => Complex.arg ⟨e₂.real x y σ, e₁.real x y σ⟩
  | .hypot e₁ e₂ => √(e₁.real x y σ ^ 2 + e₂.real x y σ ^ 2)
  | .hypot3 e₁ e₂ e₃ => √(e₁.real x y σ ^ 2 + e₂.real x y σ ^ 2 + e₃.real x y σ ^ 2)
  | .getF e => e.real x y σ
  | .getD _ _ => 0

/-- The expression gives a plain number, not an object. -/
def SPyE.isNum (env : V → PyV ℝ) : SPyE ℝ V → Bool
  | .name v => match env v with
    | .num _ => true
    | .ref _ => false
  | .lit _ => true
  | .neg e | .abs e => e.isNum env
  | .op _ e₁ e₂ => e₁.isNum env && e₂.isNum env
  | .getF _ | .getD _ _ => true
  | _ => false

/-- The statement on numbers, at the point `y`. -/
noncomputable def SPyStmt.real [DecidableEq V] (x y : String → ℝ) (σ : PtSt V) :
    SPyStmt ℝ V → PtSt V
  | .assign t (.name s) => σ.bind t (σ.env s)
  | .assign t e => σ.put t (e.isNum σ.env) (e.real x y σ.read)
  | .upd o t e =>
    match σ.env t with
    | .num r => σ.put t (e.isNum σ.env) (o.den r (e.real x y σ.read))
    | .ref a =>
      if e.isNum σ.env ∧ (o = .add ∨ o = .sub) then
        σ.make t (o.den (σ.mean a) (e.real x y σ.read))
      else σ.write a (o.den (σ.mean a) (e.real x y σ.read))

/-- The comparison holds for the numbers at the point `y`. -/
def SPyCond.Holds (x y : String → ℝ) (σ : PtSt V) (b : SPyCond ℝ V) : Prop :=
  b.op.rel (b.left.real x y σ.read) (b.right.real x y σ.read)

/-- The program on numbers, at the point `y`. -/
def SPyRealRun [DecidableEq V] (x y : String → ℝ) (p : Ctl (SPyStmt ℝ V) (SPyCond ℝ V))
    (σ σ' : PtSt V) : Prop :=
  Runs (fun s σ σ' => σ' = s.real x y σ) (fun b σ r => r = true ↔ b.Holds x y σ) p σ σ'

/-- `e.d(k)` does not occur. -/
def SPyE.NoGetD : SPyE ℝ V → Prop
  | .neg e | .abs e | .fn _ e | .getF e => e.NoGetD
  | .op _ e₁ e₂ | .atan2 e₁ e₂ | .hypot e₁ e₂ => e₁.NoGetD ∧ e₂.NoGetD
  | .hypot3 e₁ e₂ e₃ => e₁.NoGetD ∧ e₂.NoGetD ∧ e₃.NoGetD
  | .getD _ _ => False
  | _ => True

/-- Neither `e.f` nor `e.d(k)` occurs. -/
def SPyE.NoGet : SPyE ℝ V → Prop
  | .neg e | .abs e | .fn _ e => e.NoGet
  | .op _ e₁ e₂ | .atan2 e₁ e₂ | .hypot e₁ e₂ => e₁.NoGet ∧ e₂.NoGet
  | .hypot3 e₁ e₂ e₃ => e₁.NoGet ∧ e₂.NoGet ∧ e₃.NoGet
  | .getF _ | .getD _ _ => False
  | _ => True

/-- The statement does not throw derivatives away. -/
def SPyStmt.Smooth : SPyStmt ℝ V → Prop
  | .assign _ e | .upd _ _ e => e.NoGet

/-- Both sides are inside the domains of their operations (`e.f` is allowed). -/
def SPyCond.Inside (x : String → ℝ) (σ : SMathSt V) (b : SPyCond ℝ V) : Prop :=
  ((∃ m, b.left.Den x σ.val m) ∧ b.left.NoGetD) ∧ (∃ m, b.right.Den x σ.val m) ∧ b.right.NoGetD

/-- The number itself, or the value of the function. -/
def SMath.at (m : SMath) (y : String → ℝ) : ℝ :=
  match m with
  | .num r => r
  | .fn F => F y

/-- The program on functions: every executed statement has a meaning at `x`, and the comparisons are
decided by the values at `x`. -/
def SPyPathRun [DecidableEq V] (x : String → ℝ) (p : Ctl (SPyStmt ℝ V) (SPyCond ℝ V))
    (σ σ' : SMathSt V) : Prop :=
  Runs (fun s σ σ' => s.Den x σ σ')
    (fun b σ r => ∃ m k, b.left.Den x σ.val m ∧ b.right.Den x σ.val k ∧
      (r = true ↔ b.op.rel (m.at x) (k.at x))) p σ σ'

/-- The program on functions: every executed statement has a meaning at `x` and keeps derivatives, and
every executed comparison gives the same result at all points near `x`. -/
def SPySteadyRun [DecidableEq V] (x : String → ℝ) (p : Ctl (SPyStmt ℝ V) (SPyCond ℝ V))
    (σ σ' : SMathSt V) : Prop :=
  Runs (fun s σ σ' => s.Smooth ∧ s.Den x σ σ')
    (fun b σ r => b.Inside x σ ∧ ∀ᶠ y in nearLines x, (r = true ↔ b.Holds x y (σ.at y))) p σ σ'

/-- The program on functions: every executed statement has a meaning at `x` and keeps derivatives, and
no executed comparison is between equal values at `x`. -/
def SPySafeRun [DecidableEq V] (x : String → ℝ) (p : Ctl (SPyStmt ℝ V) (SPyCond ℝ V))
    (σ σ' : SMathSt V) : Prop :=
  Runs (fun s σ σ' => s.Smooth ∧ s.Den x σ σ')
    (fun b σ r => b.Inside x σ ∧
      b.left.real x x (σ.at x).read ≠ b.right.real x x (σ.at x).read ∧
      (r = true ↔ b.Holds x x (σ.at x))) p σ σ'

/-- Change the scalar constants. -/
def SPyCond.map {α β : Type} (f : α → β) (b : SPyCond α V) : SPyCond β V :=
  ⟨b.op, b.left.map f, b.right.map f⟩

end HJ
