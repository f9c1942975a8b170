import Verif.Model.SS
import Verif.Spec.Real
import Verif.Spec.Client

/-!
# Specification vocabulary for sparse scalars
-/

namespace HJ

variable {α V : Type}

/-- The names an object stores. -/
def SS.names (x : SS α) : List String := x.mD.map Prod.fst

/-- An object with a value whose map has every name once (as every hash map does). -/
structure SWF (x : SS α) : Prop where
  init : x.mF ≠ none
  nodup : x.names.Nodup

/-- Two objects that cannot be told apart with `f()`, `size()`, `d(name)` and the stored names. -/
structure SameSS [Arith α] (x y : SS α) : Prop where
  f : x.f = y.f
  size : x.size = y.size
  d : ∀ k, x.d k = y.d k
  names : ∀ k, k ∈ x.names ↔ k ∈ y.names

/-- The value and every stored coefficient is a finite number. -/
structure FiniteSS (x : SS XReal) : Prop where
  f : ∃ v : ℝ, x.f = .ok (XReal.num v)
  d : ∀ k, ∃ v : ℝ, x.d k = XReal.num v

/-- Subexpressions without variables stay inside the domain. -/
def Expr.ConstDom (order : Nat) (x : V → ℝ) : Expr ℝ V → Prop
  | .var _ => True
  | .const _ => True
  | .neg e => e.ConstDom order x
  | .abs e => e.ConstDom order x
  | .fn φ e => e.ConstDom order x ∧ ((∀ v, ¬ e.Mentions v) → φ.dom order (e.den x))
  | .bin o e₁ e₂ => e₁.ConstDom order x ∧ e₂.ConstDom order x ∧
      ((∀ v, ¬ e₁.Mentions v) → (∀ v, ¬ e₂.Mentions v) → o.dom (e₁.den x) (e₂.den x))
  | .sbin o e s => e.ConstDom order x ∧ ((∀ v, ¬ e.Mentions v) → o.dom (e.den x) s)
  | .hypot3 e₁ e₂ e₃ => e₁.ConstDom order x ∧ e₂.ConstDom order x ∧ e₃.ConstDom order x ∧
      ((∀ v, ¬ e₁.Mentions v) → (∀ v, ¬ e₂.Mentions v) → (∀ v, ¬ e₃.Mentions v) →
        ¬ (e₁.den x = 0 ∧ e₂.den x = 0 ∧ e₃.den x = 0))

/-- The sparse result `r` of evaluating `e` can be trusted: every operation was applied inside its
domain, or simply every number of `r` is finite, provided that every operand stores a name, that
operations among constants only are inside their domain, and that there is no logarithm to base
zero. -/
def AcceptedSS (e : Expr ℝ V) (x : V → ℝ) (ρ : V → SS XReal) (r : SS XReal) : Prop :=
  e.Dom 1 x ∨ (e.NoBaseZero ∧ e.ConstDom 1 x ∧ (∀ v, e.Mentions v → 0 < (ρ v).size) ∧ FiniteSS r)

/-- The client program: create a variable for every operand and evaluate the expression. -/
noncomputable def evalNamed {V : Type} (ord : Order XReal) (vord : V → Order XReal)
    (name : V → String) (e : Expr ℝ V) (x : V → ℝ) : Res (SS XReal) :=
  (e.map XReal.num).evalSS ord fun v => SS.var (vord v) (name v) (XReal.num (x v))

end HJ
