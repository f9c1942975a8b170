import Verif.Spec.Jet
import Mathlib.Analysis.Calculus.FDeriv.Basic
import Mathlib.Analysis.Calculus.FDeriv.Pi
import Mathlib.Analysis.Normed.Operator.Mul

/-!
# Specification: the jet of a real function at a point
-/

namespace HJ

open Topology

/-- The linear form with coefficients `g 0, …, g (n-1)`. -/
noncomputable def lin (n : Nat) (g : Nat → ℝ) : (Fin n → ℝ) →L[ℝ] ℝ :=
  ∑ i : Fin n, g i • ContinuousLinearMap.proj (R := ℝ) (φ := fun _ : Fin n => ℝ) i

/-- `J` is the jet of `F : ℝⁿ → ℝ` at `x`: value, total derivative with coefficients `J.g`, and for
order 2: `F` is differentiable near `x` and every partial derivative `∂F/∂xᵢ` is (totally)
differentiable at `x` with coefficients `J.h i 0, …, J.h i (n-1)`. -/
structure IsJet (order n : Nat) (F : (Fin n → ℝ) → ℝ) (x : Fin n → ℝ) (J : Jet ℝ) : Prop where
  value : F x = J.f
  grad : HasFDerivAt F (lin n J.g) x
  near : order = 2 → ∀ᶠ y in 𝓝 x, DifferentiableAt ℝ F y
  hess : order = 2 → ∀ i : Fin n,
    HasFDerivAt (fun y => fderiv ℝ F y (Pi.single i 1)) (lin n (J.h i)) x

end HJ
