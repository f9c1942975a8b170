import Verif.Spec.SProgram
import Verif.Spec.PreciseRun
import Verif.Spec.FinErr

/-!
# Specification: rounding errors of client code on `SScalar`
-/

namespace HJ

variable {V : Type}

/-- `pow` is applied to positive numbers only. -/
def SStmt.PowPos (σ : V → ℝ) : SStmt ℝ V → Prop
  | .assign _ e => e.PowPos σ
  | .upd _ _ e => e.PowPos σ
  | _ => True

/-- `pow` is applied to positive numbers only. -/
def SCall.PowPos (σ : V → ℝ) : SCall ℝ V → Prop
  | .act s => s.PowPos σ
  | .ask b => b.PowPos σ
  | _ => True

/-- Calls on real values at `x`: inside the domains, no comparison of equal values, and `pow` of positive
numbers only. -/
def SPreciseCall [DecidableEq V] (x : String → ℝ) (k : SCall ℝ V) (σ : V → ℝ) (r : Answer ℝ)
    (σ' : V → ℝ) : Prop :=
  SSureCall x k σ r σ' ∧ k.PowPos σ

/-- The object `r` has a value that stands in the relation `B` to `F x`, and for every name in `N` a
derivative that stands in this relation to the partial derivative of `F` at `x`. -/
def SWithin {α : Type} [CMath α] (B : α → ℝ → Prop) (N : Set String) (F : (String → ℝ) → ℝ)
    (x : String → ℝ) (r : SS α) : Prop :=
  (∃ a, r.f = .ok a ∧ B a (F x)) ∧
    ∀ k ∈ N, B (r.d k) (deriv (fun t => F (Function.update x k t)) (x k))

end HJ
