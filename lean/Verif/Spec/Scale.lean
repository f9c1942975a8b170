import Verif.Spec.Block
import Verif.Spec.Watch
import Verif.Spec.SBlock

/-!
# Scaled seeds

What it means that the derivatives of a jet are those of another one, measured in other units.
-/

namespace HJ

/-- `σ i` is how numbers change when the unit of variable `i` changes.  Adding, and multiplying by numbers
without unit, commutes with the change, and changes of different units commute. -/
structure Scales {α ι : Type} [Arith α] (σ : ι → α → α) : Prop where
  zero : ∀ i, σ i (Arith.lit 0) = Arith.lit 0
  add : ∀ i x y, σ i (x +ₛ y) = σ i x +ₛ σ i y
  sub : ∀ i x y, σ i (x -ₛ y) = σ i x -ₛ σ i y
  neg : ∀ i x, σ i (-ₛ x) = -ₛ σ i x
  mulL : ∀ i x y, σ i (x *ₛ y) = σ i x *ₛ y
  mulR : ∀ i x y, σ i (x *ₛ y) = x *ₛ σ i y
  comm : ∀ i j x, σ i (σ j x) = σ j (σ i x)

/-- The jets `x` and `x'` have the same value; the derivatives of `x'` are those of `x`, in other units. -/
structure ScaledBy {α : Type} (c : Cfg) (n : Nat) (σ : Nat → α → α) (x x' : DD α) : Prop where
  wf : WF c n x
  wf' : WF c n x'
  f : x'.f = x.f
  g : ∀ i : Nat, i < n → ∃ u, x.g c i = .ok u ∧ x'.g c i = .ok (σ i u)
  h : c.order = 2 → ∀ i j : Nat, i < n → j < n → ∃ u, x.h c i j = .ok u ∧ x'.h c i j = .ok (σ i (σ j u))

/-- The same for sparse scalars: the same names are stored. -/
structure SScaledBy {α : Type} [Arith α] (σ : String → α → α) (x x' : SS α) : Prop where
  wf : SWF x
  wf' : SWF x'
  f : x'.f = x.f
  names : ∀ k, k ∈ x'.names ↔ k ∈ x.names
  d : ∀ k, x'.d k = σ k (x.d k)

/-- A call on sparse scalars that does not look at derivatives (but perhaps at their number) and makes no new
variables. -/
def SCall.NoSeeds {α V : Type} : SCall α V → Prop
  | .act (.assign _ _) => True
  | .act (.upd _ _ _) => True
  | .act (.updS _ _ _) => True
  | .ask _ => True
  | .f _ => True
  | .size _ _ => True
  | _ => False

/-- Some variables change their sign. -/
def flip {α ι : Type} [Arith α] (s : ι → Bool) (i : ι) (x : α) : α := if s i then -ₛ x else x

/-- Variable `i` is measured in a unit that is `2 ^ k i` times smaller. -/
noncomputable def unitTwo {ι : Type} {rnd : ℝ → ℝ} (k : ι → ℤ) (i : ι) (x : Flt rnd) : Flt rnd :=
  ⟨2 ^ k i * x.val⟩

end HJ
