import Verif.Model.Program

/-!
# Python programs: objects, names and array views

Python user code on one class bound by `/repo/python/src/common.h`.  Names hold numbers or
references to objects, so two names may refer to the same object.  What is in place and what makes
a new object is decided by which operators are bound (`common.h` lines 147-185): there are
`__iadd__`, `__isub__`, `__imul__`, `__itruediv__` with a jet, but with a number only `__imul__` and
`__itruediv__`; for a missing or refusing in-place operator Python falls back to the binary one.
pybind11 returns the existing Python object when an in-place operator returns `*this`.

`x.data` and `x.g` (`common.h` lines 54-56) are numpy arrays that refer to the memory of the object
(`hyperjet.h` lines 805-808, 870-873).  They keep the object alive but cannot know when its
`std::vector` reallocates.
-/

namespace HJ

variable {α V W : Type}

/-- Value of a Python expression: a number (Python `float`) or a jet (instance of the class bound
in `common.h` line 23). -/
inductive PVal (α : Type) where
  | num (s : α)
  | jet (x : DD α)

/-- Binary operators of Python (`common.h` lines 168-175, 182-185). -/
inductive POp where
  | add | sub | mul | div
  deriving DecidableEq

/-- The C++ operator bound for two jets (`common.h` lines 168, 170, 172, 174). -/
def POp.bin : POp → Bin
  | .add => .add | .sub => .sub | .mul => .mul | .div => .div
/-- The C++ operator bound for a jet and a `double` (`common.h` lines 169, 171, 173, 175). -/
def POp.right : POp → SBin
  | .add => .addS | .sub => .subS | .mul => .mulS | .div => .divS
/-- The C++ operator bound for a `double` and a jet (`common.h` lines 182-185). -/
def POp.left : POp → SBin
  | .add => .sAdd | .sub => .sSub | .mul => .sMul | .div => .sDiv
/-- The C++ in-place operator (`common.h` lines 176-181). -/
def POp.asg : POp → AOp
  | .add => .add | .sub => .sub | .mul => .mul | .div => .div

/-- Python's own arithmetic on two floats (no line of `/repo`): division by zero raises. -/
def POp.nums [CMath α] : POp → α → α → Res α
  | .add, x, y => .ok (x +ₛ y)
  | .sub, x, y => .ok (x -ₛ y)
  | .mul, x, y => .ok (x *ₛ y)
  | .div, x, y => if Cmp.eqB y (Arith.lit 0) then .throw .zeroDivision else .ok (x ÷ₛ y)

/-- `x o y` in Python (`common.h` lines 168-175, 182-185). -/
def POp.run [CMath α] (c : Cfg) (o : POp) : PVal α → PVal α → Res (PVal α)
  | .num x, .num y => do
      let r ← o.nums x y
      .ok (.num r)
  | .jet x, .jet y => do
      let r ← o.bin.run c x y
      .ok (.jet r)
  | .jet x, .num y => do
      let r ← o.right.run c x y
      .ok (.jet r)
  | .num x, .jet y => do
      let r ← o.left.run c y x
      .ok (.jet r)

/-- Python expressions (user code calling `common.h` lines 44, 61, 65, 88-145, 149, 168-185). -/
inductive PyE (α V : Type) where
  | name (v : V)
  | lit (s : α)
  /-- `T.constant(s, n)` -/
  | const (s : α)
  /-- `T.variable(i, s, n)` -/
  | vari (i : Int) (s : α)
  | neg (e : PyE α V)
  | abs (e : PyE α V)
  /-- a method without jet arguments, or `e ** b` -/
  | fn (φ : Fn α) (e : PyE α V)
  | op (o : POp) (e₁ e₂ : PyE α V)
  | atan2 (e₁ e₂ : PyE α V)
  | hypot (e₁ e₂ : PyE α V)
  | hypot3 (e₁ e₂ e₃ : PyE α V)
  /-- `e.f` -/
  | getF (e : PyE α V)

/-- Evaluate an expression; `σ` says what the names stand for, `n` is the number of variables given
to `constant` and `variable` (`common.h` lines 44, 61, 65, 88-145, 149, 168-185).  Methods on a
number raise `AttributeError` (also used for `**` on two numbers, which is not modelled); a number in place of a
jet argument raises `TypeError`. -/
def PyE.eval [CMath α] (c : Cfg) (n : Nat) (σ : V → PVal α) : PyE α V → Res (PVal α)
  | .name v => .ok (σ v)
  | .lit s => .ok (.num s)
  | .const s => do
      let r ← DD.constant c s n
      .ok (.jet r)
  | .vari i s => do
      let r ← DD.var c i s n
      .ok (.jet r)
  | .neg e => do
      match ← e.eval c n σ with
      | .num s => .ok (.num (-ₛ s))
      | .jet x => do
          let r ← x.neg c
          .ok (.jet r)
  | .abs e => do
      match ← e.eval c n σ with
      | .num s => .ok (.num (if Cmp.ltB s (Arith.lit 0) then -ₛ s else s))
      | .jet x => do
          let r ← x.abs c
          .ok (.jet r)
  | .fn φ e => do
      match ← e.eval c n σ with
      | .num _ => .throw .attributeError
      | .jet x => do
          let r ← DD.un c x φ.coef
          .ok (.jet r)
  | .op o e₁ e₂ => do
      let x ← e₁.eval c n σ
      let y ← e₂.eval c n σ
      o.run c x y
  | .atan2 e₁ e₂ => do
      let x ← e₁.eval c n σ
      let y ← e₂.eval c n σ
      match x, y with
      | .jet x, .jet y => do
          let r ← x.atan2 c y
          .ok (.jet r)
      | .num _, _ => .throw .attributeError
      | .jet _, .num _ => .throw .typeError
  | .hypot e₁ e₂ => do
      let x ← e₁.eval c n σ
      let y ← e₂.eval c n σ
      match x, y with
      | .jet x, .jet y => do
          let r ← x.hypot c y
          .ok (.jet r)
      | .num _, _ => .throw .attributeError
      | .jet _, .num _ => .throw .typeError
  | .hypot3 e₁ e₂ e₃ => do
      let x ← e₁.eval c n σ
      let y ← e₂.eval c n σ
      let z ← e₃.eval c n σ
      match x, y, z with
      | .jet x, .jet y, .jet z => do
          let r ← DD.hypot3 c x y z
          .ok (.jet r)
      | .num _, _, _ => .throw .attributeError
      | _, _, _ => .throw .typeError
  | .getF e => do
      match ← e.eval c n σ with
      | .num _ => .throw .attributeError
      | .jet x => do
          let v ← x.f
          .ok (.num v)

/-- What a name is bound to: a number or the object with address `a` (Python language). -/
inductive PyV (α : Type) where
  | num (s : α)
  | ref (a : Nat)

/-- A numpy array made by `x.data` or `x.g` (`hyperjet.h` lines 805-808, 870-873): `len` scalars
from position `off` of the storage that object `obj` had when its generation was `gen`. -/
structure View where
  obj : Nat
  gen : Nat
  off : Nat
  len : Nat

/-- State of a Python program: names for jets and numbers (`env`), names for arrays (`views`),
objects by address, the next free address, and per object how often its storage may have moved
(Python language; `std::vector` in `hyperjet.h` lines 49-55). -/
structure PySt (α V W : Type) where
  env : V → PyV α
  views : W → Option View
  heap : Nat → DD α
  next : Nat
  gen : Nat → Nat

/-- Python statements (user code calling `common.h` lines 44, 54-57, 96, 103, 176-185). -/
inductive PyStmt (α V W : Type) where
  /-- `t = e` -/
  | assign (t : V) (e : PyE α V)
  /-- `t o= e` -/
  | upd (o : POp) (t : V) (e : PyE α V)
  /-- `t.f = s` -/
  | setF (t : V) (s : α)
  /-- `t.set_h(i, j, s)` -/
  | setH (t : V) (i j : Int) (s : α)
  /-- `t.resize(m)` -/
  | resize (t : V) (m : Int)
  /-- `w = t.data` -/
  | data (w : W) (t : V)
  /-- `w = t.g` -/
  | grad (w : W) (t : V)
  /-- `w[i] = s` -/
  | poke (w : W) (i : Nat) (s : α)
  /-- `t = w[i]` -/
  | peek (t : V) (w : W) (i : Nat)

namespace PySt

/-- What a name stands for (Python language). -/
def val (st : PySt α V W) (v : V) : PVal α :=
  match st.env v with
  | .num s => .num s
  | .ref a => .jet (st.heap a)

variable [DecidableEq V] [DecidableEq W]

/-- Bind a name (Python language). -/
def bind (st : PySt α V W) (t : V) (b : PyV α) : PySt α V W :=
  { st with env := fun v => if v = t then b else st.env v }

/-- Replace the contents of an object (`hyperjet.h` lines 1020-1249: `*this`). -/
def write (st : PySt α V W) (a : Nat) (x : DD α) : PySt α V W :=
  { st with heap := fun b => if b = a then x else st.heap b }

/-- Bind a name to a computed value; a jet becomes a new object (pybind11 moves the returned jet
into a new Python object). -/
def fresh (st : PySt α V W) (t : V) : PVal α → PySt α V W
  | .num s => st.bind t (.num s)
  | .jet x => { (st.write st.next x).bind t (.ref st.next) with next := st.next + 1 }

/-- Outcome of a computation whose result is bound to `t` (Python language). -/
def store (st : PySt α V W) (t : V) : Res (PVal α) → Res Unit × PySt α V W
  | .ok r => (.ok (), st.fresh t r)
  | .throw e => (.throw e, st)
  | .abort => (.abort, st)
  | .ub u => (.ub u, st)

/-- Outcome of changing object `a` in place (`hyperjet.h` lines 1020-1249). -/
def change (st : PySt α V W) (a : Nat) (r : Res Unit × DD α) : Res Unit × PySt α V W :=
  (r.1, st.write a r.2)

/-- Outcome of a setter on object `a` (`hyperjet.h` lines 707-797). -/
def putAt (st : PySt α V W) (a : Nat) : Res (DD α) → Res Unit × PySt α V W
  | .ok x => (.ok (), st.write a x)
  | .throw e => (.throw e, st)
  | .abort => (.abort, st)
  | .ub u => (.ub u, st)

/-- Make an array view of object `a` (`hyperjet.h` lines 805-808, 870-873). -/
def look (st : PySt α V W) (w : W) (a off len : Nat) : PySt α V W :=
  { st with views := fun u => if u = w then some ⟨a, st.gen a, off, len⟩ else st.views u }

end PySt

/-- The right operand of `t o= e` for `t` bound to object `a`: `self` if `e` is a name of the same
object (`common.h` lines 176-181: arguments are passed by reference). -/
def PySt.operand [DecidableEq V] (st : PySt α V W) (a : Nat) (e : PyE α V) (y : DD α) :
    DD.Operand α :=
  match e with
  | .name s =>
    match st.env s with
    | .ref b => if b = a then .self else .obj y
    | .num _ => .obj y
  | _ => .obj y

/-- Read or write through an array is possible: the index is inside, and the storage cannot have
been released (numpy indexing; `hyperjet.h` line 427). -/
def View.check (st : PySt α V W) (w : View) (i : Nat) : Res Unit :=
  if w.len ≤ i then .throw .indexError
  else if st.gen w.obj ≠ w.gen then .ub .dangling
  else .ok ()

/-- Run one statement (`common.h` lines 44, 54-57, 96, 103, 176-185; `hyperjet.h` lines 422-428,
707-797, 805-808, 870-873, 1020-1249).  Using a name for a number as an object raises `AttributeError`. -/
def PyStmt.run [CMath α] [DecidableEq V] [DecidableEq W] (c : Cfg) (n : Nat) (st : PySt α V W) :
    PyStmt α V W → Res Unit × PySt α V W
  | .assign t e =>
    match e with
    | .name s => (.ok (), st.bind t (st.env s))
    | e => st.store t (e.eval c n st.val)
  | .upd o t e =>
    match e.eval c n st.val with
    | .ok y =>
      match st.env t, y with
      | .ref a, .jet y => st.change a (o.asg.run c (st.heap a) (st.operand a e y))
      | .ref a, .num s =>
        match o with
        | .mul => st.change a (AOp.mul.runS (st.heap a) (.val s))
        | .div => st.change a (AOp.div.runS (st.heap a) (.val s))
        | o => st.store t (o.run c (.jet (st.heap a)) (.num s))
      | .num s, y => st.store t (o.run c (.num s) y)
    | .throw e => (.throw e, st)
    | .abort => (.abort, st)
    | .ub u => (.ub u, st)
  | .setF t s =>
    match st.env t with
    | .ref a => st.putAt a ((st.heap a).setF s)
    | .num _ => (.throw .attributeError, st)
  | .setH t i j s =>
    match st.env t with
    | .ref a => st.putAt a ((st.heap a).setH c i j s)
    | .num _ => (.throw .attributeError, st)
  | .resize t m =>
    match st.env t with
    | .ref a =>
      if c.isDynamic then
        let r := (st.heap a).resize c m
        (r.1, { st.write a r.2 with
          gen := fun b => if b = a ∧ (st.heap a).mData.length < r.2.mData.length then st.gen a + 1
            else st.gen b })
      else (.throw .attributeError, st)
    | .num _ => (.throw .attributeError, st)
  | .data w t =>
    match st.env t with
    | .ref a => (.ok (), st.look w a 0 (st.heap a).mData.length)
    | .num _ => (.throw .attributeError, st)
  | .grad w t =>
    match st.env t with
    | .ref a => (.ok (), st.look w a 1 ((st.heap a).size c).toNat)
    | .num _ => (.throw .attributeError, st)
  | .poke w i s =>
    match st.views w with
    | none => (.throw .typeError, st)
    | some v =>
      match v.check st i with
      | .ok () => st.putAt v.obj (do
          let d ← wr (st.heap v.obj).mData (v.off + i) s
          .ok { st.heap v.obj with mData := d })
      | .throw e => (.throw e, st)
      | .abort => (.abort, st)
      | .ub u => (.ub u, st)
  | .peek t w i =>
    match st.views w with
    | none => (.throw .typeError, st)
    | some v => st.store t (do
        v.check st i
        let x ← rd (st.heap v.obj).mData (v.off + i)
        .ok (.num x))

/-- Run statements one after the other, until one does not end normally (Python language). -/
def pyRun [CMath α] [DecidableEq V] [DecidableEq W] (c : Cfg) (n : Nat) :
    List (PyStmt α V W) → PySt α V W → Res Unit × PySt α V W
  | [], st => (.ok (), st)
  | s :: p, st =>
    match s.run c n st with
    | (.ok (), st') => pyRun c n p st'
    | r => r

end HJ
