import Verif.Spec.FinErr
import Verif.Spec.Client
import Verif.Spec.Error

/-!
# Specification: the same program in arithmetics of different precision
-/

namespace HJ

/-- `pow` is applied to positive numbers only. -/
def Expr.PowPos {V : Type} (ρ : V → ℝ) : Expr ℝ V → Prop
  | .var _ => True
  | .const _ => True
  | .neg e => e.PowPos ρ
  | .abs e => e.PowPos ρ
  | .fn φ e => e.PowPos ρ ∧ ∀ b, φ = .pow b → 0 < e.den ρ
  | .bin _ e₁ e₂ => e₁.PowPos ρ ∧ e₂.PowPos ρ
  | .sbin _ e _ => e.PowPos ρ
  | .hypot3 e₁ e₂ e₃ => e₁.PowPos ρ ∧ e₂.PowPos ρ ∧ e₃.PowPos ρ

/-- The object `r` has `n` variables, and its value, its gradient and at order 2 its Hessian stand in
the relation `B` to those of `F` at `x`. -/
structure Within {α : Type} (c : Cfg) {n : Nat} (B : α → ℝ → Prop) (F : (Fin n → ℝ) → ℝ)
    (x : Fin n → ℝ) (r : DD α) : Prop where
  size : r.size c = n
  f : ∃ s, r.f = .ok s ∧ B s (F x)
  g : ∀ i : Fin n, ∃ s, r.g c i = .ok s ∧ B s (partialD F x i)
  h : c.order = 2 → ∀ i j : Fin n, ∃ s, r.h c i j = .ok s ∧
    B s (partialD (fun y => partialD F y i) x j)

/-- The object `r` has `n` variables, and its value, its gradient and at order 2 its Hessian are
within `ε` of those of `F` at `x`. -/
abbrev Approx {α : Type} (c : Cfg) {n : Nat} (val : α → ℝ) (ε : ℝ) (F : (Fin n → ℝ) → ℝ)
    (x : Fin n → ℝ) (r : DD α) : Prop :=
  Within c (fun s t => |val s - t| < ε) F x r

/-- The object `r` has `n` variables, and its value, its gradient and at order 2 its Hessian differ by
at most `δ` from those of `F` at `x`. -/
abbrev ErrLe {α : Type} (c : Cfg) {n : Nat} (val : α → ℝ) (δ : ℝ) (F : (Fin n → ℝ) → ℝ)
    (x : Fin n → ℝ) (r : DD α) : Prop :=
  Within c (fun s t => |val s - t| ≤ δ) F x r

end HJ
