import Verif.Spec.Plain

/-!
# Specification: the library's operations of two operands, as user code writes them
-/

namespace HJ

variable {α : Type} [CMath α]

/-- The operation as a formula with numbers; a quotient is a product with the reciprocal. -/
def Bin.formula : Bin → Expr α Bool
  | .div => .bin .mul (.var false) (.sbin .sDiv (.var true) (Arith.lit 1))
  | o => .bin o (.var false) (.var true)

/-- `x² + y²` as a formula. -/
def sumOfSquares : Expr α Bool :=
  .bin .add (.bin .mul (.var false) (.var false)) (.bin .mul (.var true) (.var true))

/-- The partial derivative for the first operand as a formula with numbers. -/
def Bin.slope₁ : Bin → Expr α Bool
  | .add => .const (Arith.lit 1)
  | .sub => .const (Arith.lit 1)
  | .mul => .var true
  | .div => .sbin .sDiv (.var true) (Arith.lit 1)
  | .atan2 => .bin .div (.var true) sumOfSquares
  | .hypot => .bin .div (.var false) (.bin .hypot (.var false) (.var true))

/-- The partial derivative for the second operand as a formula with numbers. -/
def Bin.slope₂ : Bin → Expr α Bool
  | .add => .const (Arith.lit 1)
  | .sub => .const (Arith.lit (-1))
  | .mul => .var false
  | .div => .bin .div (.neg (.var false)) (.bin .mul (.var true) (.var true))
  | .atan2 => .bin .div (.neg (.var false)) sumOfSquares
  | .hypot => .bin .div (.var true) (.bin .hypot (.var false) (.var true))

end HJ
