import Verif.Model.Objects
import Verif.Spec.Jet

/-!
# Specification: what becomes of objects, from their sizes alone

`sz v = some n`: the object `v` is a jet of `n` variables.  `sz v = none`: `v` may only be overwritten
(it was moved from, or constructed without a value).
-/

namespace HJ

variable {α V : Type}

/-- What to expect. -/
inductive Fate (A : Type) where
  /-- it ends normally -/
  | ends (a : A)
  /-- it throws and changes nothing -/
  | throws (e : Err)
  /-- nothing is promised -/
  | unknown

/-- A factory that is told a size. -/
def Fate.sized (c : Cfg) (size : Int) : Fate (Option Nat) :=
  if c.tsize = -1 then if 0 ≤ size then .ends (some size.toNat) else .unknown
  else if size = c.tsize then .ends (some size.toNat) else .throws .invalidSize

/-- If the object is a jet. -/
def Fate.live {A : Type} : Option Nat → (Nat → Fate A) → Fate A
  | some n, k => k n
  | none, _ => .unknown

/-- The number of variables of the new object. -/
def Maker.fate (c : Cfg) (sz : V → Option Nat) : Maker α V → Fate (Option Nat)
  | .zero size => .sized c size
  | .const _ size => .sized c size
  | .var i _ size => if 0 ≤ i ∧ i < size then .sized c size else .unknown
  | .blank => .ends none
  | .ofScalar _ => .ends (if c.tsize = -1 then none else some c.tsize.toNat)
  | .neg a | .abs a | .fn _ a | .sbin _ a _ => .live (sz a) fun n => .ends (some n)
  | .bin o a b => .live (sz a) fun n => .live (sz b) fun m =>
      if n = m then .ends (some n) else if o = .atan2 then .unknown else .throws .incompatibleSize
  | .hypot3 a b e => .live (sz a) fun n => .live (sz b) fun m => .live (sz e) fun k =>
      if n ≠ m then .throws .incompatibleSize else if n = k then .ends (some n) else .unknown
  | .padRight a m | .padLeft a m => .live (sz a) fun n =>
      if c.tsize = -1 ∧ n ≤ m then .ends (some m.toNat) else .unknown

/-- The number of variables of the changed object. -/
def Change.fate (c : Cfg) (sz : V → Option Nat) (v : V) : Change α V → Fate (Option Nat)
  | .asg o b => .live (sz v) fun n => .live (sz b) fun m =>
      if n ≠ m then .throws .incompatibleSize
      else if o = .mul ∧ c.order = 2 ∧ n = 0 then .unknown else .ends (some n)
  | .asgS _ _ | .setF _ | .setZero => .live (sz v) fun n => .ends (some n)
  | .setG i _ => .live (sz v) fun n => if 0 ≤ i ∧ i < n then .ends (some n) else .unknown
  | .setH i j _ => .live (sz v) fun n =>
      if c.order = 2 ∧ 0 ≤ i ∧ i < n ∧ 0 ≤ j ∧ j < n then .ends (some n) else .unknown
  | .resize m => .live (sz v) fun _ =>
      if c.tsize = -1 ∧ 0 ≤ m then .ends (some m.toNat) else .unknown

/-- Which queries are answered. -/
def Query.fate (c : Cfg) (sz : V → Option Nat) : Query α V → Fate Unit
  | .f a | .size a | .cmpS _ a _ | .sCmp _ _ a => .live (sz a) fun _ => .ends ()
  | .g a i => .live (sz a) fun n => if 0 ≤ i ∧ i < n then .ends () else .unknown
  | .h a i j => .live (sz a) fun n =>
      if c.order = 2 ∧ 0 ≤ i ∧ i < n ∧ 0 ≤ j ∧ j < n then .ends () else .unknown
  | .cmp _ a b => .live (sz a) fun _ => .live (sz b) fun _ => .ends ()
  | .eval a d => .live (sz a) fun n => if n ≤ d.length then .ends () else .unknown

/-- Record the size of one object. -/
def setSize [DecidableEq V] (sz : V → Option Nat) (v : V) (n : Option Nat) : V → Option Nat :=
  fun w => if w = v then n else sz w

/-- Go on after something that ends normally. -/
def Fate.map {A B : Type} (f : A → B) : Fate A → Fate B
  | .ends a => .ends (f a)
  | .throws e => .throws e
  | .unknown => .unknown

/-- The sizes after a call. -/
def ObjCall.fate [DecidableEq V] (c : Cfg) (sz : V → Option Nat) : ObjCall α V → Fate (V → Option Nat)
  | .make v m => (m.fate c sz).map (setSize sz v)
  | .change v o => (o.fate c sz v).map (setSize sz v)
  | .ask k => (k.fate c sz).map fun _ => sz
  | .copy v a => .live (sz a) fun n => .ends (setSize sz v (some n))
  | .move v a => .live (sz a) fun n =>
      .ends (setSize (setSize sz v (some n)) a (if c.tsize = -1 then none else some n))
  | .swap a b => .live (sz a) fun n => .live (sz b) fun m =>
      .ends (setSize (setSize sz a (some m)) b (some n))

/-- The objects are as the sizes say. -/
def ObjSizes (c : Cfg) (sz : V → Option Nat) (ρ : Store α V) : Prop :=
  ∀ v n, sz v = some n → WF c n (ρ v)

/-- Client code that keeps within the table, whatever the answers are: `I q sz` says that it may be in
state `q` when the objects have the sizes `sz`. -/
def Caller.Careful {Q : Type} [DecidableEq V] (cl : Caller (ObjCall α V) (Reply α) Q) (c : Cfg)
    (I : Q → (V → Option Nat) → Prop) : Prop :=
  ∀ q sz k, I q sz → cl.next q = some k →
    match k.fate c sz with
    | .ends sz' => ∀ r, (∀ e, r ≠ .threw e) → I (cl.after q r) sz'
    | .throws e => I (cl.after q (.threw e)) sz
    | .unknown => False

/-- Replace every move by a copy. -/
def ObjCall.copying : ObjCall α V → ObjCall α V
  | .move v a => .copy v a
  | k => k

end HJ
