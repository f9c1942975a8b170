import Verif.Spec.Error

/-!
# Specification: number of roundings of a sparse derivative
-/

namespace HJ

/-- Bound for the number of roundings the value and any derivative of a sparse scalar go through.  A sum
multiplies the derivatives by the constant 1, which counts as a rounding. -/
def Expr.sparseRoundings {α V : Type} : Expr α V → Nat
  | .neg e => e.sparseRoundings
  | .bin .mul e₁ e₂ => e₁.sparseRoundings + e₂.sparseRoundings + 2
  | .bin _ e₁ e₂ => max e₁.sparseRoundings e₂.sparseRoundings + 2
  | .sbin .divS e _ => e.sparseRoundings + 2
  | .sbin _ e _ => e.sparseRoundings + 1
  | _ => 0

end HJ
