import Verif.Model.Scalar
import Mathlib.Algebra.Order.Field.Rat
import Mathlib.Algebra.Order.AbsoluteValue.Basic
import Mathlib.Algebra.Field.Rat
import Mathlib.Tactic.NormNum

/-!
# Specification: binary64 arithmetic with rounding

Rational numbers; every operation returns a double nearest to the exact result.  How ties are broken
is left open.  The exponent range is not limited, so there are no infinities and NaNs (dividing by
zero gives 0), no underflow and no signed zero.
-/

namespace HJ

/-- The numbers with 53 significant bits. -/
def IsF53 (x : ℚ) : Prop := ∃ (m e : ℤ), |m| < 2 ^ 53 ∧ x = m * (2 : ℚ) ^ e

/-- Rounding to nearest. -/
structure Nearest (rnd : ℚ → ℚ) : Prop where
  repr : ∀ q, IsF53 (rnd q)
  near : ∀ q y, IsF53 y → |q - rnd q| ≤ |q - y|

/-- Rational numbers computed with by rounding every result. -/
@[ext] structure Rounded (rnd : ℚ → ℚ) where
  val : ℚ

/-- Arithmetic operators with rounding. -/
instance instArithRounded (rnd : ℚ → ℚ) : Arith (Rounded rnd) where
  add x y := ⟨rnd (x.val + y.val)⟩
  sub x y := ⟨rnd (x.val - y.val)⟩
  mul x y := ⟨rnd (x.val * y.val)⟩
  div x y := ⟨rnd (x.val / y.val)⟩
  neg x := ⟨-x.val⟩
  lit z := ⟨rnd z⟩
  half := ⟨1 / 2⟩
  powN x n := ⟨rnd (x.val ^ n)⟩

end HJ
