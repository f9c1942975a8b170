import Verif.Spec.Jet
import Verif.Model.Caller

/-!
# Some of the variables only

A selection takes `m` of `n` variables, in the same order.  `Picks` says that a jet of `m` variables
has the components of a jet of `n` variables that belong to the selected variables, bit for bit.
-/

namespace HJ

/-- `s` selects `m` of `n` variables and keeps their order. -/
structure Selects (s : Nat → Nat) (m n : Nat) : Prop where
  lt : ∀ i, i < m → s i < n
  mono : ∀ i j, i < j → j < m → s i < s j

/-- The jet `x'` of `m` variables has the value of `x` and its derivatives with respect to the selected
variables (the second ones if both types have them). -/
structure Picks {α : Type} (c c' : Cfg) (n m : Nat) (s : Nat → Nat) (x x' : DD α) : Prop where
  wf : WF c n x
  wf' : WF c' m x'
  f : x'.f = x.f
  g : ∀ i : Nat, i < m → x'.g c' i = x.g c (s i)
  h : c.order = 2 → c'.order = 2 → ∀ i j : Nat, i < m → j < m → x'.h c' i j = x.h c (s i) (s j)

/-- The statement names no variable by its index (and takes no reference into a jet). -/
def Stmt.NoIndex {α V : Type} : Stmt α V → Prop
  | .assign _ _ => True
  | .upd _ _ _ => True
  | .updS _ _ (.val _) => True
  | .setF _ _ => True
  | .setZero _ => True
  | _ => False

/-- Two jets of `n` variables have the same value and the same derivatives with respect to the variables
in `P`; the other derivatives may be anything. -/
structure AgreeOn {α : Type} (c : Cfg) (n : Nat) (P : Nat → Prop) (x y : DD α) : Prop where
  wf : WF c n x
  wf' : WF c n y
  f : y.f = x.f
  g : ∀ i : Nat, i < n → P i → y.g c i = x.g c i
  h : c.order = 2 → ∀ i j : Nat, i < n → j < n → P i → P j → y.h c i j = x.h c i j

/-- A call that reads derivatives, if at all, with respect to the variables in `P`. -/
def Call.ReadsOnly {α V : Type} (S : Stmt α V → Prop) (P : Nat → Prop) (order n : Nat) : Call α V → Prop
  | .act s => S s
  | .ask _ => True
  | .f _ => True
  | .g _ i => 0 ≤ i ∧ i < n ∧ P i.toNat
  | .h _ i j => order = 2 ∧ (0 ≤ i ∧ i < n ∧ P i.toNat) ∧ 0 ≤ j ∧ j < n ∧ P j.toNat

end HJ
