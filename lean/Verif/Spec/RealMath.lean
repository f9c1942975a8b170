import Verif.Spec.Exact
import Verif.Spec.Real

/-!
# Specification: the real numbers as exact scalars

The mathematical functions on `ℝ` with the usual conventions outside their domains.  Used as an
instance of `Exact` with all functions.
-/

namespace HJ

open Classical in
noncomputable instance : CMath ℝ where
  toArith := fieldArith ℝ
  eqB a b := decide (a = b)
  neB a b := decide (a ≠ b)
  ltB a b := decide (a < b)
  gtB a b := decide (a > b)
  leB a b := decide (a ≤ b)
  geB a b := decide (a ≥ b)
  pow x y := x ^ y
  sqrt := Real.sqrt
  cbrt := XReal.cbrtR
  cos := Real.cos
  sin := Real.sin
  tan := Real.tan
  acos := Real.arccos
  asin := Real.arcsin
  atan := Real.arctan
  atan2 y x := Complex.arg ⟨x, y⟩
  hypot x y := √(x ^ 2 + y ^ 2)
  hypot3 x y z := √(x ^ 2 + y ^ 2 + z ^ 2)
  cosh := Real.cosh
  sinh := Real.sinh
  tanh := Real.tanh
  acosh := Real.arcosh
  asinh := Real.arsinh
  atanh := Real.artanh
  exp := Real.exp
  log := Real.log
  log2 := Real.logb 2
  log10 := Real.logb 10

instance : Exact ℝ := inferInstanceAs (@Exact ℝ _ (fieldArith ℝ))

/-- A dynamic second-order jet of 2 variables over the reals. -/
def exR : DD ℝ := ⟨2, [some 10, some 20, some 30, some 40, some 50, some 60]⟩

theorem exR_wf : WF exDyn2 2 exR := ⟨Or.inl rfl, rfl, rfl, by simp [exR]⟩

end HJ
