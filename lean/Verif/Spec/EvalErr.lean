import Verif.Spec.Precision

/-!
# Specification: the Taylor polynomial of a function
-/

namespace HJ

/-- The Taylor polynomial of degree `order` of `F` at `x`, at `x + δ`. -/
noncomputable def taylorAt {n : Nat} (order : Nat) (F : (Fin n → ℝ) → ℝ) (x δ : Fin n → ℝ) : ℝ :=
  F x + ∑ i, partialD F x i * δ i +
    if order = 1 then 0
    else 1 / 2 * ∑ i, ∑ j, partialD (fun y => partialD F y i) x j * δ i * δ j

/-- Value, gradient and at order 2 the Hessian of `F` at `x` are at most `R`. -/
structure BoundedBy {n : Nat} (order : Nat) (R : ℝ) (F : (Fin n → ℝ) → ℝ) (x : Fin n → ℝ) : Prop where
  f : |F x| ≤ R
  g : ∀ i, |partialD F x i| ≤ R
  h : order = 2 → ∀ i j, |partialD (fun y => partialD F y i) x j| ≤ R

end HJ
