import Verif.Spec.SPrecise
import Mathlib.Algebra.BigOperators.Group.Finset.Basic

/-!
# Specification: the linear part of a function of named variables
-/

namespace HJ

/-- The partial derivative of `F` at `x` for the name `k`. -/
noncomputable def partialS (F : (String → ℝ) → ℝ) (x : String → ℝ) (k : String) : ℝ :=
  deriv (fun t => F (Function.update x k t)) (x k)

/-- The first-order change of `F` at `x` when the names in `N` move by `δ`. -/
noncomputable def changeAt (N : Finset String) (F : (String → ℝ) → ℝ) (x δ : String → ℝ) : ℝ :=
  ∑ k ∈ N, partialS F x k * δ k

end HJ
