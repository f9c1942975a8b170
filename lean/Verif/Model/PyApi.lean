import Verif.Model.PyHeap
import Verif.Model.Python

/-!
# The Python class, call by call

Every call a Python program can make on the objects of one class bound by
`/repo/python/src/common.h`, with any arguments of the right kind.  Objects are referred to by
address and keep their own sizes, so objects of different sizes meet.  A call may raise; the state
it leaves behind is part of the result, because a Python program may catch the exception and go
on.

What is simplified: arguments have the right kind (a number where a number is expected, an object
of the class where an object is expected), so the overload is known from the call; numpy arrays are
passed as lists and as `NpMat`; names are left out, a program may use any object it has made.
-/

namespace HJ

open DD

variable {α : Type}

/-- A two-dimensional numpy array of numbers, an argument of `from_arrays` and `set_hm`
(`common.h` lines 39, 98). -/
structure NpMat (α : Type) where
  rows : Nat
  cols : Nat
  val : Nat → Nat → α

/-- The `Eigen::Ref<const Matrix>` made from a numpy array (`hyperjet.h` lines 857, 892). -/
def NpMat.toMat (M : NpMat α) : Mat α :=
  ⟨M.rows, M.cols, fun i j => some (M.val i.toNat j.toNat)⟩

/-- The calls (`common.h` lines 26-215, each constructor says which). -/
inductive ApiCall (α : Type) where
  /-- `T(f, size)`, `T.constant(f, size)` (lines 27, 61) -/
  | const2 (f : α) (size : Int)
  /-- `T(data)` (line 28) -/
  | create (data : List α)
  /-- `T(f)`, `T()`, `T.constant(f)` (lines 29, 62) -/
  | const1 (f : α)
  /-- `T(f, g)` (line 34), first-order classes -/
  | fromGradient (f : α) (g : List α)
  /-- `T(f, g, hm)` (line 39), second-order classes -/
  | fromArrays (f : α) (g : List α) (hm : NpMat α)
  /-- `T.empty()` (line 63) -/
  | empty0
  /-- `T.empty(size)` (line 64) -/
  | emptyN (size : Int)
  /-- `T.variable(i, f, size)` (line 65) -/
  | vari (i : Int) (f : α) (size : Int)
  /-- `T.zero()` (line 66) -/
  | zero0
  /-- `T.zero(size)` (line 67) -/
  | zeroN (size : Int)
  /-- `T.variable(i, f)` (line 80), static classes -/
  | vari2 (i : Int) (f : α)
  /-- `T.variables(values)` (lines 72-75, 81-84) -/
  | variables (values : List α)
  /-- `-a` (line 149) -/
  | neg (a : Nat)
  /-- `abs(a)`, `a.abs()` (lines 89, 93) -/
  | abs (a : Nat)
  /-- `a.sqrt()`, `a ** b`, ... (lines 91, 110-118, 120-122, 129-145) -/
  | fn (φ : Fn α) (a : Nat)
  /-- `copy.copy(a)`, `copy.deepcopy(a)` (lines 212-217) -/
  | copy (a : Nat)
  /-- `a + b`, ..., `a.atan2(b)`, `a.hypot(b)`, `hj.hypot(a, b)` (lines 119, 123-124,
  168, 170, 172, 174, 219) -/
  | bin (o : Bin) (a b : Nat)
  /-- `a + s`, `s + a`, ... (lines 169, 171, 173, 175, 182-185) -/
  | sbin (o : SBin) (a : Nat) (s : α)
  /-- `a.hypot(b, e)`, `hj.hypot(a, b, e)` (lines 125, 220) -/
  | hypot3 (a b e : Nat)
  /-- `a.pad_right(m)` (line 104), dynamic classes -/
  | padRight (a : Nat) (m : Int)
  /-- `a.pad_left(m)` (line 105), dynamic classes -/
  | padLeft (a : Nat) (m : Int)
  /-- `a += b`, ... (lines 176-178, 180) -/
  | asg (o : AOp) (a b : Nat)
  /-- `a *= s` (line 179) -/
  | mulS (a : Nat) (s : α)
  /-- `a /= s` (line 181) -/
  | divS (a : Nat) (s : α)
  /-- `a.f = s` (line 44) -/
  | setF (a : Nat) (s : α)
  /-- `a.set_h(i, j, s)` (line 96) -/
  | setH (a : Nat) (i j : Int) (s : α)
  /-- `a.set_hm(M)` (line 98) -/
  | setHm (a : Nat) (M : NpMat α)
  /-- `a.resize(m)` (line 103), dynamic classes -/
  | resize (a : Nat) (m : Int)
  /-- `a.f` (line 44) -/
  | getF (a : Nat)
  /-- `a.size`, `len(a)` (lines 57, 90) -/
  | getSize (a : Nat)
  /-- `a.h(i, j)` (line 95) -/
  | getH (a : Nat) (i j : Int)
  /-- `a.hm(mode)` (line 97) -/
  | getHm (a : Nat) (mode : String)
  /-- `a.eval(d)` (line 94) -/
  | eval (a : Nat) (d : List α)
  /-- `a < b`, ... (lines 150-155) -/
  | cmp (o : CmpOp) (a b : Nat)
  /-- `a < s`, ... (lines 156-161) -/
  | cmpS (o : CmpOp) (a : Nat) (s : α)
  /-- `s < a`, ... (lines 162-167) -/
  | sCmp (o : CmpOp) (s : α) (a : Nat)
  /-- `repr(a)` (line 92) -/
  | repr (a : Nat)
  /-- `a.__getstate__()` (lines 190-193) -/
  | getState (a : Nat)
  /-- `T.__setstate__(t)` on a new object (lines 194-211) -/
  | setState (t : List (PyVal α))
  /-- `w = a.data` (line 55) -/
  | data (a : Nat)
  /-- `w = a.g` (line 56) -/
  | grad (a : Nat)
  /-- `w[i]` (numpy) -/
  | peek (w i : Nat)
  /-- `w[i] = s` (numpy) -/
  | poke (w i : Nat) (s : α)

/-- What a call returns (`common.h` lines 26-220). -/
inductive ApiOut (α : Type) where
  | none
  | objs (l : List Nat)
  | num (s : α)
  | int (z : Int)
  | bool (b : Bool)
  | str (s : String)
  | mat (M : Mat α)
  | state (t : List (PyVal α))
  | arr (w : Nat)

/-- State: the objects and arrays made so far, and per object how often its storage may have moved
(Python language; `std::vector` in `hyperjet.h` lines 49-55). -/
structure ApiSt (α : Type) where
  heap : Nat → DD α
  next : Nat
  views : Nat → View
  nviews : Nat
  gen : Nat → Nat

namespace ApiSt

/-- Keep new objects (pybind11 moves a returned jet into a new Python object). -/
def alloc (st : ApiSt α) (xs : List (DD α)) : ApiSt α :=
  { st with
    heap := fun b => if st.next ≤ b then (xs[b - st.next]?).getD (st.heap b) else st.heap b
    next := st.next + xs.length }

/-- Outcome of a call that returns new objects (pybind11). -/
def makeAll (st : ApiSt α) : Res (List (DD α)) → Res (ApiOut α) × ApiSt α
  | .ok xs => (.ok (.objs (List.range' st.next xs.length)), st.alloc xs)
  | .throw e => (.throw e, st)
  | .abort => (.abort, st)
  | .ub u => (.ub u, st)

/-- Outcome of a call that returns one new object (pybind11). -/
def make (st : ApiSt α) (r : Res (DD α)) : Res (ApiOut α) × ApiSt α :=
  st.makeAll (do let x ← r; .ok [x])

/-- Replace the contents of an object (`hyperjet.h` lines 707-797, 1020-1249: `*this`). -/
def set (st : ApiSt α) (a : Nat) (x : DD α) : ApiSt α :=
  { st with heap := fun b => if b = a then x else st.heap b }

/-- Outcome of an in-place operator, which returns its object (`hyperjet.h` lines 1020-1249). -/
def inplace (st : ApiSt α) (a : Nat) (r : Res Unit × DD α) : Res (ApiOut α) × ApiSt α :=
  (do r.1; .ok (.objs [a]), st.set a r.2)

/-- Outcome of a setter (`hyperjet.h` lines 707-797, 857-868). -/
def put (st : ApiSt α) (a : Nat) : Res (DD α) → Res (ApiOut α) × ApiSt α
  | .ok x => (.ok .none, st.set a x)
  | .throw e => (.throw e, st)
  | .abort => (.abort, st)
  | .ub u => (.ub u, st)

/-- Outcome of a call that only reads (`hyperjet.h` lines 707-797, 810-817, 907-968). -/
def tell (st : ApiSt α) (r : Res (ApiOut α)) : Res (ApiOut α) × ApiSt α := (r, st)

/-- Make an array (`hyperjet.h` lines 805-808, 870-873). -/
def look (st : ApiSt α) (a off len : Nat) : Res (ApiOut α) × ApiSt α :=
  (.ok (.arr st.nviews), { st with
    views := fun w => if w = st.nviews then ⟨a, st.gen a, off, len⟩ else st.views w
    nviews := st.nviews + 1 })

/-- Access through an array: numpy checks the index, the memory may be gone
(`hyperjet.h` lines 422-428, 805-808, 870-873). -/
def access (st : ApiSt α) (w i : Nat) : Res Unit :=
  if (st.views w).len ≤ i then .throw .indexError
  else if st.gen (st.views w).obj ≠ (st.views w).gen then .ub .dangling
  else .ok ()

end ApiSt

/-- Conversion of a Python list to `std::vector` (any length) or `std::array` (exactly `len`
elements) (`hyperjet.h` lines 49-55, 678, 907), and of a numpy vector to `Eigen::Ref` of a vector
of dynamic or static length (`hyperjet.h` line 796). -/
def castLen (c : Cfg) (len : Int) (xs : List α) : Res Unit :=
  if c.isDynamic then .ok () else if (xs.length : Int) = len then .ok () else .throw .typeError

/-- Conversion of a numpy array to `Eigen::Ref` of a matrix of dynamic or static shape
(`hyperjet.h` line 797). -/
def castMat (c : Cfg) (M : NpMat α) : Res Unit :=
  if c.isDynamic then .ok ()
  else if (M.rows : Int) = c.tsize ∧ (M.cols : Int) = c.tsize then .ok () else .throw .typeError

/-- A method that only dynamic classes have (`common.h` lines 100-106). -/
def onlyDynamic (c : Cfg) : Res Unit :=
  if c.isDynamic then .ok () else .throw .attributeError

/-- Run one call (`common.h` lines 26-220).  `fmt` is `ostream << scalar`. -/
def ApiCall.run [CMath α] (c : Cfg) (fmt : α → String) (st : ApiSt α) :
    ApiCall α → Res (ApiOut α) × ApiSt α
  | .const2 f size => st.make (DD.constant c f size)
  | .create xs => st.make (do
      castLen c c.staticDataSize xs
      DD.create c (xs.map some))
  | .const1 f => st.make (DD.constant0 c f)
  | .fromGradient f g => st.make (do
      if c.order = 1 then
        castLen c c.tsize g
        DD.fromGradient c f g
      else .throw .typeError)
  | .fromArrays f g M => st.make (do
      if c.order = 2 then
        castLen c c.tsize g
        castMat c M
        DD.fromArrays c f g M.toMat
      else .throw .typeError)
  | .empty0 => st.make (.ok (DD.empty0 c))
  | .emptyN size => st.make (DD.empty c size)
  | .vari i f size => st.make (DD.var c i f size)
  | .zero0 => st.make (.ok (DD.zero0 c))
  | .zeroN size => st.make (DD.zero c size)
  | .vari2 i f => st.make (if c.isDynamic then .throw .typeError else DD.variable0 c i f)
  | .variables values => st.makeAll (do
      castLen c c.tsize values
      DD.variables c values)
  | .neg a => st.make ((st.heap a).neg c)
  | .abs a => st.make ((st.heap a).abs c)
  | .fn φ a => st.make (DD.un c (st.heap a) φ.coef)
  | .copy a => st.make (.ok (st.heap a))
  | .bin o a b => st.make (o.run c (st.heap a) (st.heap b))
  | .sbin o a s => st.make (o.run c (st.heap a) s)
  | .hypot3 a b e => st.make (DD.hypot3 c (st.heap a) (st.heap b) (st.heap e))
  | .padRight a m => st.make (do
      onlyDynamic c
      (st.heap a).padRight c m)
  | .padLeft a m => st.make (do
      onlyDynamic c
      (st.heap a).padLeft c m)
  | .asg o a b => st.inplace a (o.run c (st.heap a) (if b = a then .self else .obj (st.heap b)))
  | .mulS a s => st.inplace a (AOp.mul.runS (st.heap a) (.val s))
  | .divS a s => st.inplace a (AOp.div.runS (st.heap a) (.val s))
  | .setF a s => st.put a ((st.heap a).setF s)
  | .setH a i j s => st.put a ((st.heap a).setH c i j s)
  | .setHm a M => st.put a (do
      castMat c M
      (st.heap a).setHm c M.toMat)
  | .resize a m =>
    if c.isDynamic then
      let r := (st.heap a).resize c m
      (do r.1; .ok .none, { st.set a r.2 with
        gen := fun b => if b = a ∧ (st.heap a).mData.length < r.2.mData.length then st.gen a + 1
          else st.gen b })
    else (.throw .attributeError, st)
  | .getF a => st.tell (do
      let v ← (st.heap a).f
      .ok (.num v))
  | .getSize a => st.tell (.ok (.int ((st.heap a).size c)))
  | .getH a i j => st.tell (do
      let v ← (st.heap a).h c i j
      .ok (.num v))
  | .getHm a mode => st.tell (do
      let M ← (st.heap a).hm c mode
      .ok (.mat M))
  | .eval a d => st.tell (do
      castLen c c.tsize d
      let v ← (st.heap a).eval c d
      .ok (.num v))
  | .cmp o a b => st.tell (do
      let r ← DD.cmp o (st.heap a) (st.heap b)
      .ok (.bool r))
  | .cmpS o a s => st.tell (do
      let r ← DD.cmpS o (st.heap a) s
      .ok (.bool r))
  | .sCmp o s a => st.tell (do
      let r ← DD.sCmp o s (st.heap a)
      .ok (.bool r))
  | .repr a => st.tell (do
      let s ← DD.toStr fmt (st.heap a)
      .ok (.str s))
  | .getState a => st.tell (do
      let t ← pickleGet (st.heap a)
      .ok (.state t))
  | .setState t => st.make (pickleSet c t)
  | .data a => st.look a 0 (st.heap a).mData.length
  | .grad a => st.look a 1 ((st.heap a).size c).toNat
  | .peek w i => st.tell (do
      st.access w i
      let v ← rd (st.heap (st.views w).obj).mData ((st.views w).off + i)
      .ok (.num v))
  | .poke w i s => st.put (st.views w).obj (do
      st.access w i
      let d ← wr (st.heap (st.views w).obj).mData ((st.views w).off + i) s
      .ok { st.heap (st.views w).obj with mData := d })

end HJ
