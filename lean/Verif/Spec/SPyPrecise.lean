import Verif.Spec.PyPrecise
import Verif.Spec.SPrecise
import Verif.Spec.SPyControl

/-!
# Specification: rounding errors of Python client code on `SScalar`
-/

namespace HJ

variable {V : Type}

/-- `**` with a number is applied to functions with positive value only. -/
def SPyE.PowPos (x : String → ℝ) (σ : V → SMath) : SPyE ℝ V → Prop
  | .neg e | .abs e | .getF e | .getD e _ => e.PowPos x σ
  | .fn φ e => e.PowPos x σ ∧ ∀ b F, φ = .pow b → e.Den x σ (.fn F) → 0 < F x
  | .op _ e₁ e₂ | .atan2 e₁ e₂ | .hypot e₁ e₂ => e₁.PowPos x σ ∧ e₂.PowPos x σ
  | .hypot3 e₁ e₂ e₃ => e₁.PowPos x σ ∧ e₂.PowPos x σ ∧ e₃.PowPos x σ
  | _ => True

/-- `**` is applied to functions with positive value only. -/
def SPyStmt.PowPos (x : String → ℝ) (σ : V → SMath) : SPyStmt ℝ V → Prop
  | .assign _ e | .upd _ _ e => e.PowPos x σ

/-- Calls on functions at `x`: inside the domains, no comparison of equal values, `**` of positive
numbers only, and no `float(v)`. -/
def SPyPreciseCall [DecidableEq V] (x : String → ℝ) :
    PyCall (SPyStmt ℝ V) (SPyCond ℝ V) V → SMathSt V → Answer ℝ → SMathSt V → Prop :=
  PyMakes (fun s σ σ' => s.Den x σ σ' ∧ s.PowPos x σ.val)
    (fun b σ r => ∃ m k, b.left.Den x σ.val m ∧ b.right.Den x σ.val k ∧ m.at x ≠ k.at x ∧
      (r = true ↔ b.op.rel (m.at x) (k.at x)) ∧ b.left.PowPos x σ.val ∧ b.right.PowPos x σ.val)

/-- The state of the Python program is that of the mathematical program: the same objects under the same
names, numbers in the relation `B`, and objects in the relation `O`. -/
structure SPySt.Like {α : Type} (B : α → ℝ → Prop) (O : Nat → SS α → Prop) (st : SPySt α V)
    (σ : SMathSt V) : Prop where
  next : st.next = σ.next
  env : ∀ v, (∃ s r, st.env v = .num s ∧ σ.env v = .num r ∧ B s r) ∨
    ∃ a < σ.next, st.env v = .ref a ∧ σ.env v = .ref a
  obj : ∀ a < σ.next, O a (st.heap a)

end HJ
