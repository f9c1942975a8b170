import Verif.Model.PyApi
import Verif.Spec.Jet

/-!
# Specification: what a Python call does, from the sizes of the objects alone

`verdict` is the table of calls: which return (and how many variables the new jets have), which
raise which exception, and which are unsafe.  It looks at sizes, indices and lengths only, never at
stored numbers.
-/

namespace HJ

open DD

variable {α : Type}

/-- What to expect of a call. -/
inductive Verdict where
  /-- it returns; the new jets have these numbers of variables, the others keep theirs -/
  | returns (news : List Nat)
  /-- it returns, and object `a` now has `m` variables -/
  | resizes (a m : Nat)
  /-- it raises `e` and changes nothing -/
  | raises (e : Err)
  /-- it is undefined behaviour, or leaves a broken object behind -/
  | danger
  deriving DecidableEq

/-- The number of variables of a jet that stores `len` values. -/
def decodeLen (order len : Nat) : Option Nat :=
  (List.range (len + 1)).find? fun n => storedLen order n == len

/-- The cell of `h(i, j)` in a jet of `n` variables, for arbitrary indices. -/
def hCell (n : Nat) (i j : Int) : Int :=
  1 + n + ((2 * n - 1 - min i j) * min i j).tdiv 2 + max i j

/-- A factory that is told the number of variables. -/
def sizedFactory (c : Cfg) (size : Int) (k : Nat → Verdict) : Verdict :=
  if c.tsize = -1 then
    if 0 ≤ size then k size.toNat
    else if c.order = 1 ∧ size < -1 then .raises .lengthError
    else .danger
  else if size = c.tsize then k size.toNat
  else .raises .invalidSize

/-- Setting derivative `i` of a new jet of `n` variables to 1. -/
def seeded (c : Cfg) (i : Int) (n : Nat) : Verdict :=
  if 0 ≤ 1 + i ∧ 1 + i < storedLen c.order n then .returns [n] else .danger

/-- A jet made from a list of stored values. -/
def fromData (c : Cfg) (len : Nat) : Verdict :=
  if c.tsize = -1 then
    if len = 0 then .danger
    else match decodeLen c.order len with
      | some n => .returns [n]
      | none => .raises .invalidLength
  else if len = storedLen c.order c.tsize.toNat then .returns [c.tsize.toNat]
  else .raises .typeError

/-- The argument has as many elements as a static class has variables. -/
def lenOk (c : Cfg) (len : Nat) : Prop := c.tsize = -1 ∨ (len : Int) = c.tsize

/-- The argument has the shape that a static class requires. -/
def shapeOk (c : Cfg) (M : NpMat α) : Prop :=
  c.tsize = -1 ∨ ((M.rows : Int) = c.tsize ∧ (M.cols : Int) = c.tsize)

instance (c : Cfg) (len : Nat) : Decidable (lenOk c len) := inferInstanceAs (Decidable (_ ∨ _))
instance (c : Cfg) (M : NpMat α) : Decidable (shapeOk c M) := inferInstanceAs (Decidable (_ ∨ _))

/-- Padding to `m` variables. -/
def padded (c : Cfg) (n : Nat) (m : Int) : Verdict :=
  if c.tsize ≠ -1 then .raises .attributeError
  else if n ≤ m then .returns [m.toNat]
  else if c.order = 1 ∧ m < -1 then .raises .lengthError
  else .danger

/-- The table.  `sz a` is the number of variables of object `a`. -/
def ApiCall.verdict (c : Cfg) (sz : Nat → Nat) (st : ApiSt α) : ApiCall α → Verdict
  | .const2 _ size => sizedFactory c size fun n => .returns [n]
  | .zeroN size => sizedFactory c size fun n => .returns [n]
  | .emptyN size => sizedFactory c size fun n =>
      if c.tsize = -1 then .returns [n] else .danger
  | .vari i _ size => sizedFactory c size fun n => seeded c i n
  | .vari2 i _ => if c.tsize = -1 then .raises .typeError else seeded c i c.tsize.toNat
  | .const1 _ => .returns [if c.tsize = -1 then 0 else c.tsize.toNat]
  | .zero0 => .returns [if c.tsize = -1 then 0 else c.tsize.toNat]
  | .empty0 => if c.tsize = -1 then .returns [0] else .danger
  | .create xs => fromData c xs.length
  | .setState [.seq xs] => fromData c xs.length
  | .setState [.other] => .raises .typeError
  | .setState _ => .raises .invalidState
  | .variables vs =>
      if lenOk c vs.length then .returns (List.replicate vs.length vs.length)
      else .raises .typeError
  | .fromGradient _ g =>
      if c.order = 1 ∧ lenOk c g.length then .returns [g.length] else .raises .typeError
  | .fromArrays _ g M =>
      if ¬ (c.order = 2 ∧ lenOk c g.length ∧ shapeOk c M) then .raises .typeError
      else if g.length ≤ M.rows ∧ g.length ≤ M.cols then .returns [g.length]
      else if g.length = 0 then .returns [0]
      else .danger
  | .neg a => .returns [sz a]
  | .abs a => .returns [sz a]
  | .fn _ a => .returns [sz a]
  | .copy a => .returns [sz a]
  | .sbin _ a _ => .returns [sz a]
  | .bin .atan2 a b => if sz a ≤ sz b then .returns [sz a] else .danger
  | .bin _ a b => if sz a = sz b then .returns [sz a] else .raises .incompatibleSize
  | .hypot3 a b e =>
      if sz a ≠ sz b then .raises .incompatibleSize
      else if sz a ≤ sz e then .returns [sz a]
      else .danger
  | .padRight a m => padded c (sz a) m
  | .padLeft a m => padded c (sz a) m
  | .asg o a b =>
      if sz a ≠ sz b then .raises .incompatibleSize
      else if o = .mul ∧ c.order = 2 ∧ sz a = 0 then .danger
      else .returns []
  | .setH a i j _ =>
      if 0 ≤ hCell (sz a) i j ∧ hCell (sz a) i j < storedLen c.order (sz a) then .returns []
      else .danger
  | .getH a i j =>
      if 0 ≤ hCell (sz a) i j ∧ hCell (sz a) i j < storedLen c.order (sz a) then .returns []
      else .danger
  | .setHm a M =>
      if ¬ shapeOk c M then .raises .typeError
      else if sz a = 0 then .returns []
      else if c.order = 2 ∧ sz a ≤ M.rows ∧ sz a ≤ M.cols then .returns []
      else .danger
  | .getHm a mode =>
      if c.order = 1 ∧ sz a ≠ 0 then .danger
      else if mode = "zeros" ∨ mode = "full" then .returns []
      else .raises .invalidMode
  | .eval a d =>
      if ¬ lenOk c d.length then .raises .typeError
      else if sz a ≤ d.length then .returns []
      else .danger
  | .resize a m =>
      if c.tsize ≠ -1 then .raises .attributeError
      else if 0 ≤ m then .resizes a m.toNat
      else .danger
  | .peek w i =>
      let v := st.views w
      if v.len ≤ i then .raises .indexError
      else if st.gen v.obj = v.gen ∧ v.off + i < storedLen c.order (sz v.obj) then .returns []
      else .danger
  | .poke w i _ =>
      let v := st.views w
      if v.len ≤ i then .raises .indexError
      else if st.gen v.obj = v.gen ∧ v.off + i < storedLen c.order (sz v.obj) then .returns []
      else .danger
  | .mulS _ _ | .divS _ _ | .setF _ _ | .getF _ | .getSize _ | .cmp _ _ _ | .cmpS _ _ _
  | .sCmp _ _ _ | .repr _ | .getState _ | .data _ | .grad _ => .returns []

/-- Every object is a well-formed jet, of `sz a` variables; arrays belong to objects. -/
structure ApiSt.Sized (c : Cfg) (sz : Nat → Nat) (st : ApiSt α) : Prop where
  objs : ∀ a < st.next, WF c (sz a) (st.heap a)
  arrays : ∀ w < st.nviews, (st.views w).obj < st.next

/-- The objects and arrays that a call mentions exist. -/
def ApiCall.Held (st : ApiSt α) : ApiCall α → Prop
  | .neg a | .abs a | .fn _ a | .copy a | .sbin _ a _ | .padRight a _ | .padLeft a _
  | .mulS a _ | .divS a _ | .setF a _ | .setH a _ _ _ | .setHm a _ | .resize a _ | .getF a
  | .getSize a | .getH a _ _ | .getHm a _ | .eval a _ | .cmpS _ a _ | .sCmp _ _ a | .repr a
  | .getState a | .data a | .grad a => a < st.next
  | .bin _ a b | .asg _ a b | .cmp _ a b => a < st.next ∧ b < st.next
  | .hypot3 a b e => a < st.next ∧ b < st.next ∧ e < st.next
  | .peek w _ | .poke w _ _ => w < st.nviews
  | _ => True

/-- Sizes after new objects have been added. -/
def addSizes (sz : Nat → Nat) (next : Nat) (news : List Nat) (a : Nat) : Nat :=
  if next ≤ a then news.getD (a - next) 0 else sz a

/-- A call with outcome `r` from state `st` with sizes `sz` did as the verdict says. -/
def Verdict.Holds (c : Cfg) (sz : Nat → Nat) (st : ApiSt α) (r : Res (ApiOut α) × ApiSt α) :
    Verdict → Prop
  | .returns news => (∃ out, r.1 = .ok out) ∧ r.2.next = st.next + news.length ∧
      r.2.Sized c (addSizes sz st.next news)
  | .resizes a m => (∃ out, r.1 = .ok out) ∧ r.2.next = st.next ∧
      r.2.Sized c (fun b => if b = a then m else sz b)
  | .raises e => r = (.throw e, st)
  | .danger => (∃ u, r.1 = .ub u) ∨ ∀ sz', ¬ r.2.Sized c sz'

/-- The object that a call may write to. -/
def ApiCall.target (st : ApiSt α) : ApiCall α → Option Nat
  | .asg _ a _ | .mulS a _ | .divS a _ | .setF a _ | .setH a _ _ _ | .setHm a _ | .resize a _ =>
      some a
  | .poke w _ _ => some (st.views w).obj
  | _ => none

/-- States that a Python program can reach by safe calls from `st₀`: any calls in any order, going
on after exceptions. -/
inductive Reaches [CMath α] (c : Cfg) (fmt : α → String) (sz₀ : Nat → Nat) (st₀ : ApiSt α) :
    (Nat → Nat) → ApiSt α → Prop
  | start : Reaches c fmt sz₀ st₀ sz₀ st₀
  | returns {sz : Nat → Nat} {st : ApiSt α} {k : ApiCall α}
      {news : List Nat} : Reaches c fmt sz₀ st₀ sz st → k.Held st →
      k.verdict c sz st = .returns news →
      Reaches c fmt sz₀ st₀ (addSizes sz st.next news) (k.run c fmt st).2
  | resizes {sz : Nat → Nat} {st : ApiSt α} {k : ApiCall α}
      {a m : Nat} : Reaches c fmt sz₀ st₀ sz st → k.Held st →
      k.verdict c sz st = .resizes a m →
      Reaches c fmt sz₀ st₀ (fun b => if b = a then m else sz b) (k.run c fmt st).2
  | raises {sz : Nat → Nat} {st : ApiSt α} {k : ApiCall α}
      {e : Err} : Reaches c fmt sz₀ st₀ sz st → k.Held st →
      k.verdict c sz st = .raises e →
      Reaches c fmt sz₀ st₀ sz (k.run c fmt st).2

end HJ
