import Verif.Spec.RealMath
import Verif.Spec.Jet
import Verif.Model.Expr

/-!
# Specification: arithmetic with bounded relative error

The standard model of floating point arithmetic: every operation returns the exact result up to a
relative error of at most `u`.  Nothing else is assumed about the scalar type.
-/

namespace HJ

/-- The operators of `α` compute with the real numbers `val` up to a relative error `u`.  Negation
and the small integer literals of the code are exact. -/
structure RelErr (α : Type) [Arith α] (u : ℝ) where
  val : α → ℝ
  nonneg : 0 ≤ u
  add : ∀ a b : α, |val (a +ₛ b) - (val a + val b)| ≤ u * |val a + val b|
  sub : ∀ a b : α, |val (a -ₛ b) - (val a - val b)| ≤ u * |val a - val b|
  mul : ∀ a b : α, |val (a *ₛ b) - val a * val b| ≤ u * |val a * val b|
  div : ∀ a b : α, val b ≠ 0 → |val (a ÷ₛ b) - val a / val b| ≤ u * |val a / val b|
  neg : ∀ a : α, val (-ₛ a) = -val a
  lit : ∀ z : Int, |z| ≤ 2 → val (Arith.lit z) = z

/-- The jet with a function applied to every component. -/
def Jet.mapv {α β : Type} (φ : α → β) (J : Jet α) : Jet β :=
  ⟨φ J.f, fun i => φ (J.g i), fun i j => φ (J.h i j)⟩

/-- `|J - K| ≤ γ P` in every component that exists. -/
def Jet.Within (order n : Nat) (γ : ℝ) (P J K : Jet ℝ) : Prop :=
  |J.f - K.f| ≤ γ * P.f ∧ (∀ i < n, |J.g i - K.g i| ≤ γ * P.g i) ∧
    (order = 2 → ∀ i j : Nat, i < n → j < n → |J.h i j - K.h i j| ≤ γ * P.h i j)

/-- The client program: create `variables(x)` and evaluate the expression on them. -/
def evalOn {α : Type} [CMath α] {n : Nat} (c : Cfg) (e : Expr α (Fin n)) (x : Fin n → α) :
    Res (DD α) := do
  let vars ← DD.variables c (List.ofFn x)
  e.evalDD c n fun i => vars.getD i.val (DD.default c)

namespace Expr

variable {V : Type}

/-- Polynomials: sums, differences, products and negation, and the operators with a scalar except
division by the jet.  A scalar divisor is not zero. -/
def Poly {α : Type} (val : α → ℝ) : Expr α V → Prop
  | .var _ => True
  | .const _ => True
  | .neg e => e.Poly val
  | .bin .add e₁ e₂ => e₁.Poly val ∧ e₂.Poly val
  | .bin .sub e₁ e₂ => e₁.Poly val ∧ e₂.Poly val
  | .bin .mul e₁ e₂ => e₁.Poly val ∧ e₂.Poly val
  | .sbin .sDiv _ _ => False
  | .sbin .divS e s => e.Poly val ∧ val s ≠ 0
  | .sbin _ e _ => e.Poly val
  | _ => False

/-- The polynomial with every minus replaced by a plus and every constant by its absolute value.
(Only meant for polynomials.) -/
noncomputable def majorant : Expr ℝ V → Expr ℝ V
  | .var v => .var v
  | .const s => .const |s|
  | .neg e => e.majorant
  | .bin .sub e₁ e₂ => .bin .add e₁.majorant e₂.majorant
  | .bin o e₁ e₂ => .bin o e₁.majorant e₂.majorant
  | .sbin .subS e s => .sbin .addS e.majorant |s|
  | .sbin .sSub e s => .sbin .addS e.majorant |s|
  | .sbin o e s => .sbin o e.majorant |s|
  | e => e

/-- Bound for the number of roundings any component of the result goes through.  A product counts
three more than its factors together (the Hessian entry `b h_a + a h_b + (g_b g_a + g_a g_b)`). -/
def roundings {α : Type} : Expr α V → Nat
  | .neg e => e.roundings
  | .bin .mul e₁ e₂ => e₁.roundings + e₂.roundings + 3
  | .bin _ e₁ e₂ => max e₁.roundings e₂.roundings + 1
  | .sbin .divS e _ => e.roundings + 2
  | .sbin _ e _ => e.roundings + 1
  | _ => 0

/-- Nothing is subtracted or negated, and constants are not negative. -/
def Positive : Expr ℝ V → Prop
  | .var _ => True
  | .const s => 0 ≤ s
  | .bin .add e₁ e₂ => e₁.Positive ∧ e₂.Positive
  | .bin .mul e₁ e₂ => e₁.Positive ∧ e₂.Positive
  | .sbin .addS e s => e.Positive ∧ 0 ≤ s
  | .sbin .sAdd e s => e.Positive ∧ 0 ≤ s
  | .sbin .mulS e s => e.Positive ∧ 0 ≤ s
  | .sbin .sMul e s => e.Positive ∧ 0 ≤ s
  | .sbin .divS e s => e.Positive ∧ 0 ≤ s
  | _ => False

end Expr

end HJ
