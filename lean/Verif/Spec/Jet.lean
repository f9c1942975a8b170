import Verif.Model.DD

/-!
# Specification vocabulary for dense jets

What a well-formed jet is and which components it has, in terms of the public accessors.
-/

namespace HJ

/-- Number of scalars a jet of `n` variables has: value and gradient, and for order 2 the upper
triangle of the Hessian. -/
def storedLen (order n : Nat) : Nat := if order = 1 then 1 + n else (n + 1) * (n + 2) / 2

/-- `x` is a well-formed jet of `n` variables of the type described by `c`. -/
structure WF {α : Type} (c : Cfg) (n : Nat) (x : DD α) : Prop where
  /-- the type is dynamic or has exactly `n` variables -/
  fits : c.tsize = -1 ∨ c.tsize = n
  /-- dynamic objects record their size; static objects have no size field -/
  msize : x.mSize = if c.tsize = -1 then (n : Int) else 0
  len : x.mData.length = storedLen c.order n
  init : ∀ cell ∈ x.mData, cell ≠ none

/-- Mathematical content of a jet: value, gradient, Hessian. -/
structure Jet (α : Type) where
  f : α
  g : Nat → α
  h : Nat → Nat → α

/-- The accessors of `x` report the jet `J` (the Hessian only for order 2). -/
structure Shows {α : Type} (c : Cfg) (n : Nat) (x : DD α) (J : Jet α) : Prop where
  wf : WF c n x
  size : x.size c = n
  f : x.f = .ok J.f
  g : ∀ i : Nat, i < n → x.g c i = .ok (J.g i)
  h : c.order = 2 → ∀ i j : Nat, i < n → j < n → x.h c i j = .ok (J.h i j)

/-- Equality of jets on the components that exist. -/
def Jet.Eqv {α : Type} (order n : Nat) (J K : Jet α) : Prop :=
  J.f = K.f ∧ (∀ i < n, J.g i = K.g i) ∧
    (order = 2 → ∀ i j : Nat, i < n → j < n → J.h i j = K.h i j)

end HJ
