import Verif.Model.Machine
import Verif.Spec.Round
import Verif.Spec.Jet
import Mathlib.Analysis.Real.Sqrt

/-!
# Specification: memory and binary64
-/

namespace HJ

/-- `q` is a double nearest to `x`. -/
def IsNearest (x : ℝ) (q : ℚ) : Prop :=
  IsF53 q ∧ ∀ y, IsF53 y → |x - (q : ℝ)| ≤ |x - (y : ℝ)|

/-- Every operation returns a double nearest to the exact result (IEEE 754). -/
structure Fpu.Correct (u : Fpu) : Prop where
  conv : ∀ z : Int, IsNearest z (u.conv z)
  sqrt : ∀ q : ℚ, 0 ≤ q → IsNearest (Real.sqrt q) (u.sqrt q)
  sub : ∀ p q : ℚ, IsNearest (p - q : ℚ) (u.sub p q)

/-- `len` doubles fit into the address space of a 64-bit machine (object sizes are below `2⁶³`). -/
def Storable (len : Nat) : Prop := 8 * len < 2 ^ 63

end HJ
