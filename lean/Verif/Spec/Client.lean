import Verif.Spec.Real
import Verif.Spec.Calculus

/-!
# Specification: client programs in exact arithmetic
-/

namespace HJ

/-- A real jet as a jet of (finite) scalars. -/
noncomputable def Jet.lift (J : Jet ℝ) : Jet XReal :=
  ⟨XReal.num J.f, fun i => XReal.num (J.g i), fun i j => XReal.num (J.h i j)⟩

/-- Every stored component is a finite number. -/
def FiniteDD (x : DD XReal) : Prop := ∀ cell ∈ x.mData, ∃ v : ℝ, cell = some (XReal.num v)

/-- The client program: create `variables(x)` and evaluate the expression on them. -/
noncomputable def evalAt {n : Nat} (c : Cfg) (e : Expr ℝ (Fin n)) (x : Fin n → ℝ) :
    Res (DD XReal) := do
  let vars ← DD.variables c (List.ofFn fun i => XReal.num (x i))
  (e.map XReal.num).evalDD c n fun i => vars.getD i.val (DD.default c)

/-- The result `r` of evaluating `e` can be trusted: every operation of `e` was applied inside its
domain, or simply (with at least one variable and no logarithm to base zero) every component of `r`
is finite. -/
def Accepted {V : Type} (c : Cfg) (n : Nat) (e : Expr ℝ V) (x : V → ℝ) (r : DD XReal) : Prop :=
  e.Dom c.order x ∨ (0 < n ∧ e.NoBaseZero ∧ FiniteDD r)

/-- Partial derivative. -/
noncomputable def partialD {n : Nat} (F : (Fin n → ℝ) → ℝ) (x : Fin n → ℝ) (i : Fin n) : ℝ :=
  fderiv ℝ F x (Pi.single i 1)

end HJ
