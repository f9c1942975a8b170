import Verif.Model.Expr
import Verif.Model.XReal

/-!
# Specification: the real function an expression stands for

`den` is ordinary real arithmetic; `Dom` is the open set (per operation) on which the operation is
differentiable often enough, `Regular` excludes the kink of `abs` and the cut of `atan2`.
-/

namespace HJ

/-- The real function. -/
noncomputable def Fn.den : Fn ℝ → ℝ → ℝ
  | .sqrt => Real.sqrt
  | .cbrt => XReal.cbrtR
  | .reciprocal => fun x => x⁻¹
  | .cos => Real.cos
  | .sin => Real.sin
  | .tan => Real.tan
  | .acos => Real.arccos
  | .asin => Real.arcsin
  | .atan => Real.arctan
  | .cosh => Real.cosh
  | .sinh => Real.sinh
  | .tanh => Real.tanh
  | .acosh => Real.arcosh
  | .asinh => Real.arsinh
  | .atanh => Real.artanh
  | .exp => Real.exp
  | .log => Real.log
  | .log2 => Real.logb 2
  | .log10 => Real.logb 10
  | .pow b => fun x => x ^ b
  | .logB base => Real.logb base

/-- Where the function is finite with finite derivatives up to `order`. -/
def Fn.dom (order : Nat) : Fn ℝ → ℝ → Prop
  | .sqrt => fun x => 0 < x
  | .cbrt => fun x => x ≠ 0
  | .reciprocal => fun x => x ≠ 0
  | .cos => fun _ => True
  | .sin => fun _ => True
  | .tan => fun x => Real.cos x ≠ 0
  | .acos => fun x => -1 < x ∧ x < 1
  | .asin => fun x => -1 < x ∧ x < 1
  | .atan => fun _ => True
  | .cosh => fun _ => True
  | .sinh => fun _ => True
  | .tanh => fun _ => True
  | .acosh => fun x => 1 < x
  | .asinh => fun _ => True
  | .atanh => fun x => -1 < x ∧ x < 1
  | .exp => fun _ => True
  | .log => fun x => 0 < x
  | .log2 => fun x => 0 < x
  | .log10 => fun x => 0 < x
  | .pow b => fun x => 0 < x ∨ (x < 0 ∧ ∃ k : ℤ, b = k) ∨ (x = 0 ∧ (order : ℝ) ≤ b)
  | .logB base => fun x => 0 < x ∧ 0 < base ∧ base ≠ 1

/-- The real operation; `atan2 y x` is the argument of `x + iy`. -/
noncomputable def Bin.den : Bin → ℝ → ℝ → ℝ
  | .add => fun x y => x + y
  | .sub => fun x y => x - y
  | .mul => fun x y => x * y
  | .div => fun x y => x / y
  | .atan2 => fun y x => Complex.arg ⟨x, y⟩
  | .hypot => fun x y => √(x ^ 2 + y ^ 2)

/-- Where the operation's derivatives are finite. -/
def Bin.dom : Bin → ℝ → ℝ → Prop
  | .div => fun _ y => y ≠ 0
  | .atan2 => fun x y => ¬ (x = 0 ∧ y = 0)
  | .hypot => fun x y => ¬ (x = 0 ∧ y = 0)
  | _ => fun _ _ => True

/-- Off the cut of `atan2` (the half line `y = 0`, `x ≤ 0`). -/
def Bin.reg : Bin → ℝ → ℝ → Prop
  | .atan2 => fun y x => y ≠ 0 ∨ 0 < x
  | _ => fun _ _ => True

/-- The real operation with a scalar; `subS` is `x - s`, `sSub` is `s - x`, … -/
noncomputable def SBin.den : SBin → ℝ → ℝ → ℝ
  | .addS => fun x s => x + s
  | .sAdd => fun x s => s + x
  | .subS => fun x s => x - s
  | .sSub => fun x s => s - x
  | .mulS => fun x s => x * s
  | .sMul => fun x s => s * x
  | .divS => fun x s => x / s
  | .sDiv => fun x s => s / x

/-- Where the operation is defined. -/
def SBin.dom : SBin → ℝ → ℝ → Prop
  | .divS => fun _ s => s ≠ 0
  | .sDiv => fun x _ => x ≠ 0
  | _ => fun _ _ => True

namespace Expr

variable {V : Type}

/-- The real function. -/
noncomputable def den (ρ : V → ℝ) : Expr ℝ V → ℝ
  | .var v => ρ v
  | .const s => s
  | .neg e => -e.den ρ
  | .abs e => |e.den ρ|
  | .fn φ e => φ.den (e.den ρ)
  | .bin o e₁ e₂ => o.den (e₁.den ρ) (e₂.den ρ)
  | .sbin o e s => o.den (e.den ρ) s
  | .hypot3 e₁ e₂ e₃ => √(e₁.den ρ ^ 2 + e₂.den ρ ^ 2 + e₃.den ρ ^ 2)

/-- Every operation is applied inside its domain. -/
def Dom (order : Nat) (ρ : V → ℝ) : Expr ℝ V → Prop
  | .var _ => True
  | .const _ => True
  | .neg e => e.Dom order ρ
  | .abs e => e.Dom order ρ
  | .fn φ e => e.Dom order ρ ∧ φ.dom order (e.den ρ)
  | .bin o e₁ e₂ => e₁.Dom order ρ ∧ e₂.Dom order ρ ∧ o.dom (e₁.den ρ) (e₂.den ρ)
  | .sbin o e s => e.Dom order ρ ∧ o.dom (e.den ρ) s
  | .hypot3 e₁ e₂ e₃ => e₁.Dom order ρ ∧ e₂.Dom order ρ ∧ e₃.Dom order ρ ∧
      ¬ (e₁.den ρ = 0 ∧ e₂.den ρ = 0 ∧ e₃.den ρ = 0)

/-- No `abs` at zero, no `atan2` on its cut. -/
def Regular (ρ : V → ℝ) : Expr ℝ V → Prop
  | .var _ => True
  | .const _ => True
  | .neg e => e.Regular ρ
  | .abs e => e.Regular ρ ∧ e.den ρ ≠ 0
  | .fn _ e => e.Regular ρ
  | .bin o e₁ e₂ => e₁.Regular ρ ∧ e₂.Regular ρ ∧ o.reg (e₁.den ρ) (e₂.den ρ)
  | .sbin _ e _ => e.Regular ρ
  | .hypot3 e₁ e₂ e₃ => e₁.Regular ρ ∧ e₂.Regular ρ ∧ e₃.Regular ρ

/-- No logarithm to base zero: there the code computes finite garbage, see `log_base_zero`. -/
def NoBaseZero : Expr ℝ V → Prop
  | .var _ => True
  | .const _ => True
  | .neg e => e.NoBaseZero
  | .abs e => e.NoBaseZero
  | .fn φ e => e.NoBaseZero ∧ φ ≠ .logB 0
  | .bin _ e₁ e₂ => e₁.NoBaseZero ∧ e₂.NoBaseZero
  | .sbin _ e _ => e.NoBaseZero
  | .hypot3 e₁ e₂ e₃ => e₁.NoBaseZero ∧ e₂.NoBaseZero ∧ e₃.NoBaseZero

/-- The operand `v` occurs in the expression. -/
def Mentions {α : Type} (v : V) : Expr α V → Prop
  | .var w => w = v
  | .const _ => False
  | .neg e => e.Mentions v
  | .abs e => e.Mentions v
  | .fn _ e => e.Mentions v
  | .bin _ e₁ e₂ => e₁.Mentions v ∨ e₂.Mentions v
  | .sbin _ e _ => e.Mentions v
  | .hypot3 e₁ e₂ e₃ => e₁.Mentions v ∨ e₂.Mentions v ∨ e₃.Mentions v

end Expr

/-- Change the scalar constants. -/
def Fn.map {α β : Type} (f : α → β) : Fn α → Fn β
  | .sqrt => .sqrt | .cbrt => .cbrt | .reciprocal => .reciprocal | .cos => .cos | .sin => .sin
  | .tan => .tan | .acos => .acos | .asin => .asin | .atan => .atan | .cosh => .cosh
  | .sinh => .sinh | .tanh => .tanh | .acosh => .acosh | .asinh => .asinh | .atanh => .atanh
  | .exp => .exp | .log => .log | .log2 => .log2 | .log10 => .log10
  | .pow b => .pow (f b) | .logB b => .logB (f b)

/-- Change the scalar constants. -/
def Expr.map {α β V : Type} (f : α → β) : Expr α V → Expr β V
  | .var v => .var v
  | .const s => .const (f s)
  | .neg e => .neg (e.map f)
  | .abs e => .abs (e.map f)
  | .fn φ e => .fn (φ.map f) (e.map f)
  | .bin o e₁ e₂ => .bin o (e₁.map f) (e₂.map f)
  | .sbin o e s => .sbin o (e.map f) (f s)
  | .hypot3 e₁ e₂ e₃ => .hypot3 (e₁.map f) (e₂.map f) (e₃.map f)

end HJ
