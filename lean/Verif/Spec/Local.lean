import Verif.Spec.LibErr

/-!
# Specification: the error made by one operation

The exact result of an operation on jets is given by the chain rule.  The error of the computed one is
measured against the chain rule with the absolute values of all its terms.
-/

namespace HJ

/-- One operation with `m` jets as operands. -/
inductive Op (α : Type) : Nat → Type
  | neg : Op α 1
  | abs : Op α 1
  | fn (φ : Fn α) : Op α 1
  | sbin (o : SBin) (s : α) : Op α 1
  | bin (o : Bin) : Op α 2
  | hypot3 : Op α 3

variable {α : Type} {m : Nat}

/-- The operation as an expression of its operands. -/
def Op.expr : Op α m → Expr α (Fin m)
  | .neg => .neg (.var 0)
  | .abs => .abs (.var 0)
  | .fn φ => .fn φ (.var 0)
  | .sbin o s => .sbin o (.var 0) s
  | .bin o => .bin o (.var 0) (.var 1)
  | .hypot3 => .hypot3 (.var 0) (.var 1) (.var 2)

/-- The real function of the operation. -/
noncomputable def Op.den (val : α → ℝ) (o : Op α m) : (Fin m → ℝ) → ℝ := (o.expr.map val).den

/-- No cancellation inside the formulas for the derivatives: `1 - x²` is at least one half of its terms,
and the exponents `b - 1`, `b - 2` of the derivatives of `x ^ b` are computed exactly. -/
def Fn.Steady [Arith α] (val : α → ℝ) : Fn α → ℝ → Prop
  | .acos => fun x => x ^ 2 ≤ 1 / 2
  | .asin => fun x => x ^ 2 ≤ 1 / 2
  | .atanh => fun x => x ^ 2 ≤ 1 / 2
  | .tanh => fun x => Real.tanh x ^ 2 ≤ 1 / 2
  | .pow b => fun x => x ≠ 0 ∧ val (b -ₛ Arith.lit 1) = val b - 1 ∧ val (b -ₛ Arith.lit 2) = val b - 2
  | _ => fun _ => True

/-- The operation is inside its domain, not at a kink or a cut, and steady. -/
def Op.Stable [Arith α] (val : α → ℝ) : {m : Nat} → Op α m → (Fin m → ℝ) → Prop
  | _, .neg => fun _ => True
  | _, .abs => fun p => p 0 ≠ 0
  | _, .fn φ => fun p => (φ.map val).dom 2 (p 0) ∧ φ.Steady val (p 0)
  | _, .sbin o s => fun p => o.dom (p 0) (val s)
  | _, .bin o => fun p => o.dom (p 0) (p 1) ∧ o.reg (p 0) (p 1)
  | _, .hypot3 => fun p => ¬ (p 0 = 0 ∧ p 1 = 0 ∧ p 2 = 0)

/-- Second partial derivative. -/
noncomputable def partialDD (F : (Fin m → ℝ) → ℝ) (p : Fin m → ℝ) (a b : Fin m) : ℝ :=
  partialD (fun y => partialD F y a) p b

/-- The chain rule with value `f`, first partial derivatives `d` and second ones `dd` of the
outer function, for operands `P`. -/
def chainJet (f : ℝ) (d : Fin m → ℝ) (dd : Fin m → Fin m → ℝ) (P : Fin m → Jet ℝ) : Jet ℝ where
  f := f
  g := fun i => ∑ a, d a * (P a).g i
  h := fun i j => ∑ a, d a * (P a).h i j + ∑ a, ∑ b, dd a b * ((P a).g i * (P b).g j)

/-- The exact result of an operation `F` on the jets `P`. -/
noncomputable def exactJet (F : (Fin m → ℝ) → ℝ) (P : Fin m → Jet ℝ) : Jet ℝ :=
  chainJet (F fun a => (P a).f) (partialD F fun a => (P a).f) (partialDD F fun a => (P a).f) P

/-- The size of the second derivatives.  For `atan2` they are computed as a difference; there it is
that of the terms. -/
noncomputable def Op.size2 (val : α → ℝ) : {m : Nat} → Op α m → (Fin m → ℝ) → Fin m → Fin m → ℝ
  | _, .bin .atan2 => fun p _ _ => 1 / (p 0 ^ 2 + p 1 ^ 2)
  | _, o => fun p a b => |partialDD (o.den val) p a b|

/-- The terms of the exact result with absolute values. -/
noncomputable def Op.sizeJet (val : α → ℝ) (o : Op α m) (P : Fin m → Jet ℝ) : Jet ℝ :=
  chainJet |o.den val fun a => (P a).f| (fun a => |partialD (o.den val) (fun a => (P a).f) a|)
    (o.size2 val fun a => (P a).f) fun a => (P a).mapv fun s => |s|

/-- Sixteen roundings. -/
noncomputable def roundings16 (u : ℝ) : ℝ := (1 / (1 - u)) ^ 16 - 1

end HJ
