import Verif.Model.Expr

/-!
# Specification: the same formula with plain scalars

What a user gets by evaluating the formula with `double` instead of jets.  `dv` is the division
used for `x / y` and `x / s`; the others are the operators and `<cmath>` functions themselves.
-/

namespace HJ

variable {α V : Type}

/-- Unary functions on scalars. -/
def Fn.plain [CMath α] : Fn α → α → α
  | .sqrt, x => CMath.sqrt x
  | .cbrt, x => CMath.cbrt x
  | .reciprocal, x => Arith.lit 1 ÷ₛ x
  | .cos, x => CMath.cos x
  | .sin, x => CMath.sin x
  | .tan, x => CMath.tan x
  | .acos, x => CMath.acos x
  | .asin, x => CMath.asin x
  | .atan, x => CMath.atan x
  | .cosh, x => CMath.cosh x
  | .sinh, x => CMath.sinh x
  | .tanh, x => CMath.tanh x
  | .acosh, x => CMath.acosh x
  | .asinh, x => CMath.asinh x
  | .atanh, x => CMath.atanh x
  | .exp, x => CMath.exp x
  | .log, x => CMath.log x
  | .log2, x => CMath.log2 x
  | .log10, x => CMath.log10 x
  | .pow b, x => CMath.pow x b
  | .logB base, x => CMath.log x ÷ₛ CMath.log base

/-- Two-operand operations on scalars. -/
def Bin.plain [CMath α] (dv : α → α → α) : Bin → α → α → α
  | .add, x, y => x +ₛ y
  | .sub, x, y => x -ₛ y
  | .mul, x, y => x *ₛ y
  | .div, x, y => dv x y
  | .atan2, x, y => CMath.atan2 x y
  | .hypot, x, y => CMath.hypot x y

/-- Operators with a scalar constant `s`. -/
def SBin.plain [Arith α] (dv : α → α → α) : SBin → α → α → α
  | .addS, x, s => x +ₛ s
  | .sAdd, x, s => s +ₛ x
  | .subS, x, s => x -ₛ s
  | .sSub, x, s => s -ₛ x
  | .mulS, x, s => x *ₛ s
  | .sMul, x, s => s *ₛ x
  | .divS, x, s => dv x s
  | .sDiv, x, s => s ÷ₛ x

/-- The formula with plain scalars `p`. -/
def Expr.plain [CMath α] (dv : α → α → α) (p : V → α) : Expr α V → α
  | .var v => p v
  | .const s => s
  | .neg e => -ₛ e.plain dv p
  | .abs e => if Cmp.ltB (e.plain dv p) (Arith.lit 0) then -ₛ e.plain dv p else e.plain dv p
  | .fn φ e => φ.plain (e.plain dv p)
  | .bin o e₁ e₂ => o.plain dv (e₁.plain dv p) (e₂.plain dv p)
  | .sbin o e s => o.plain dv (e.plain dv p) s
  | .hypot3 e₁ e₂ e₃ => CMath.hypot3 (e₁.plain dv p) (e₂.plain dv p) (e₃.plain dv p)

/-- No `x / y` and no `x / s` occurs (`s / x` and `reciprocal` may). -/
def Expr.NoDiv : Expr α V → Prop
  | .var _ => True
  | .const _ => True
  | .neg e => e.NoDiv
  | .abs e => e.NoDiv
  | .fn _ e => e.NoDiv
  | .bin o e₁ e₂ => o ≠ .div ∧ e₁.NoDiv ∧ e₂.NoDiv
  | .sbin o e _ => o ≠ .divS ∧ e.NoDiv
  | .hypot3 e₁ e₂ e₃ => e₁.NoDiv ∧ e₂.NoDiv ∧ e₃.NoDiv

/-- Laws of the scalar arithmetic that IEEE doubles satisfy bit for bit (payloads of NaNs aside). -/
structure CommLaws (α : Type) [Arith α] : Prop where
  add_comm : ∀ x y : α, x +ₛ y = y +ₛ x
  mul_comm : ∀ x y : α, x *ₛ y = y *ₛ x
  add_neg : ∀ x y : α, x +ₛ -ₛ y = x -ₛ y

/-- Division as the multiplication by the rounded reciprocal. -/
def recipDiv [Arith α] (x y : α) : α := x *ₛ (Arith.lit 1 ÷ₛ y)

end HJ
