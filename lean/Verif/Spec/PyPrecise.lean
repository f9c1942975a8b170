import Verif.Spec.PyCaller
import Verif.Spec.PreciseRun
import Verif.Spec.FinErr

/-!
# Specification: rounding errors of Python client code on dense jets
-/

namespace HJ

variable {V W : Type} {n : Nat}

/-- `**` with a number is applied to positive numbers only, if the names stand for the numbers `σ`. -/
def PyE.PowPos (x : Fin n → ℝ) (σ : V → ℝ) : PyE ℝ V → Prop
  | .neg e | .abs e | .getF e => e.PowPos x σ
  | .fn φ e => e.PowPos x σ ∧ ∀ b, φ = .pow b → 0 < e.real x x σ
  | .op _ e₁ e₂ | .atan2 e₁ e₂ | .hypot e₁ e₂ => e₁.PowPos x σ ∧ e₂.PowPos x σ
  | .hypot3 e₁ e₂ e₃ => e₁.PowPos x σ ∧ e₂.PowPos x σ ∧ e₃.PowPos x σ
  | _ => True

/-- `**` is applied to positive numbers only. -/
def PyStmt.PowPos (x : Fin n → ℝ) (σ : V → ℝ) : PyStmt ℝ V W → Prop
  | .assign _ e | .upd _ _ e => e.PowPos x σ
  | _ => True

/-- Calls on functions at `x`: inside the domains, no comparison of equal values, `**` of positive
numbers only, and no `float(v)`. -/
def PyPreciseCall [DecidableEq V] (order : Nat) (x : Fin n → ℝ) :
    PyCall (PyStmt ℝ V W) (PyCond ℝ V) V → MathSt n V → Answer ℝ → MathSt n V → Prop :=
  PyMakes (fun s σ σ' => s.Means order x σ σ' ∧ s.PowPos x (σ.at x).read)
    (fun b σ r => b.Inside order x σ ∧
      b.left.real x x (σ.at x).read ≠ b.right.real x x (σ.at x).read ∧
      (r = true ↔ b.Holds x x (σ.at x)) ∧
      b.left.PowPos x (σ.at x).read ∧ b.right.PowPos x (σ.at x).read)

/-- The state of the Python program is that of the mathematical program: the same objects under the same
names, numbers in the relation `B`, and objects in the relation `O`. -/
structure PySt.Like {α : Type} (B : α → ℝ → Prop) (O : Nat → DD α → Prop) (st : PySt α V W)
    (σ : MathSt n V) : Prop where
  next : st.next = σ.next
  env : ∀ v, (∃ s r, st.env v = .num s ∧ σ.env v = .num r ∧ B s r) ∨
    ∃ a < σ.next, st.env v = .ref a ∧ σ.env v = .ref a
  obj : ∀ a < σ.next, O a (st.heap a)

end HJ
