import Verif.Model.SS
import Verif.Model.PyHeap

/-!
# Python programs on sparse scalars

Python user code on the class bound by `/repo/python/src/bind_sscalar.cpp`.  As in `Model/PyHeap.lean`
names hold numbers or references to objects, so two names may refer to the same object.  In place are
`+=`, `-=`, `*=`, `/=` with a jet and `*=`, `/=` with a number (`bind_sscalar.cpp` lines 103-108);
for `+=` and `-=` with a number Python falls back to `+` and `-` and makes a new object.

The order in which a hash table is iterated is asked from an oracle (see `Model/SS.lean`).
-/

namespace HJ

variable {α V : Type}

/-- Value of a Python expression: a number (Python `float`) or a jet (instance of the class bound
in `bind_sscalar.cpp` line 7). -/
inductive SPVal (α : Type) where
  | num (s : α)
  | jet (x : SS α)

/-- `x o y` in Python (`bind_sscalar.cpp` lines 95-102, 109-112). -/
def POp.runSS [CMath α] (ord : Order α) (o : POp) : SPVal α → SPVal α → Res (SPVal α)
  | .num x, .num y => do
      let r ← o.nums x y
      .ok (.num r)
  | .jet x, .jet y => do
      let r ← o.bin.runS ord x y
      .ok (.jet r)
  | .jet x, .num y => do
      let r ← o.right.runS ord x y
      .ok (.jet r)
  | .num x, .jet y => do
      let r ← o.left.runS ord y x
      .ok (.jet r)

/-- Python expressions (user code calling `bind_sscalar.cpp` lines 13-14, 18-19, 23, 28-33,
38-75, 79, 95-102, 109-112). -/
inductive SPyE (α V : Type) where
  | name (v : V)
  | lit (s : α)
  /-- `SScalar.constant(s)` or `SScalar(s)` -/
  | const (s : α)
  /-- `SScalar.variable(k, s)` -/
  | vari (k : String) (s : α)
  /-- `SScalar(s, {k: g, …})` -/
  | make (s : α) (d : SMap α)
  | neg (e : SPyE α V)
  | abs (e : SPyE α V)
  /-- a method without jet arguments, or `e ** b` -/
  | fn (φ : Fn α) (e : SPyE α V)
  | op (o : POp) (e₁ e₂ : SPyE α V)
  | atan2 (e₁ e₂ : SPyE α V)
  | hypot (e₁ e₂ : SPyE α V)
  | hypot3 (e₁ e₂ e₃ : SPyE α V)
  /-- `e.f` -/
  | getF (e : SPyE α V)
  /-- `e.d(k)` -/
  | getD (e : SPyE α V) (k : String)

/-- Evaluate an expression; `σ` says what the names stand for (`bind_sscalar.cpp` lines 13-14, 18-19,
23, 28-33, 38-75, 79, 95-102, 109-112).  Methods on a number raise `AttributeError` (also used for
`**` on two numbers, which is not modelled); a number in place of a jet argument raises
`TypeError`. -/
def SPyE.eval [CMath α] (ord : Order α) (σ : V → SPVal α) : SPyE α V → Res (SPVal α)
  | .name v => .ok (σ v)
  | .lit s => .ok (.num s)
  | .const s => .ok (.jet (SS.constant ord s))
  | .vari k s => .ok (.jet (SS.var ord k s))
  | .make s d => .ok (.jet (SS.make ord s d))
  | .neg e => do
      match ← e.eval (ord.sub 1) σ with
      | .num s => .ok (.num (-ₛ s))
      | .jet x => do
          let r ← x.neg (ord.sub 0)
          .ok (.jet r)
  | .abs e => do
      match ← e.eval (ord.sub 1) σ with
      | .num s => .ok (.num (if Cmp.ltB s (Arith.lit 0) then -ₛ s else s))
      | .jet x => do
          let r ← x.abs (ord.sub 0)
          .ok (.jet r)
  | .fn φ e => do
      match ← e.eval (ord.sub 1) σ with
      | .num _ => .throw .attributeError
      | .jet x => do
          let r ← x.un (ord.sub 0) φ.coefS
          .ok (.jet r)
  | .op o e₁ e₂ => do
      let x ← e₁.eval (ord.sub 1) σ
      let y ← e₂.eval (ord.sub 2) σ
      o.runSS (ord.sub 0) x y
  | .atan2 e₁ e₂ => do
      let x ← e₁.eval (ord.sub 1) σ
      let y ← e₂.eval (ord.sub 2) σ
      match x, y with
      | .jet x, .jet y => do
          let r ← x.atan2 (ord.sub 0) y
          .ok (.jet r)
      | .num _, _ => .throw .attributeError
      | .jet _, .num _ => .throw .typeError
  | .hypot e₁ e₂ => do
      let x ← e₁.eval (ord.sub 1) σ
      let y ← e₂.eval (ord.sub 2) σ
      match x, y with
      | .jet x, .jet y => do
          let r ← x.hypot (ord.sub 0) y
          .ok (.jet r)
      | .num _, _ => .throw .attributeError
      | .jet _, .num _ => .throw .typeError
  | .hypot3 e₁ e₂ e₃ => do
      let x ← e₁.eval (ord.sub 1) σ
      let y ← e₂.eval (ord.sub 2) σ
      let z ← e₃.eval (ord.sub 3) σ
      match x, y, z with
      | .jet x, .jet y, .jet z => do
          let r ← SS.hypot3 (ord.sub 0) x y z
          .ok (.jet r)
      | .num _, _, _ => .throw .attributeError
      | _, _, _ => .throw .typeError
  | .getF e => do
      match ← e.eval (ord.sub 1) σ with
      | .num _ => .throw .attributeError
      | .jet x => do
          let v ← x.f
          .ok (.num v)
  | .getD e k => do
      match ← e.eval (ord.sub 1) σ with
      | .num _ => .throw .attributeError
      | .jet x => .ok (.num (x.d k))

/-- State of a Python program: what the names are bound to, the objects by address, and the next free
address (Python language). -/
structure SPySt (α V : Type) where
  env : V → PyV α
  heap : Nat → SS α
  next : Nat

/-- Python statements (user code calling `bind_sscalar.cpp` lines 95-112). -/
inductive SPyStmt (α V : Type) where
  /-- `t = e` -/
  | assign (t : V) (e : SPyE α V)
  /-- `t o= e` -/
  | upd (o : POp) (t : V) (e : SPyE α V)

namespace SPySt

/-- What a name stands for (Python language). -/
def val (st : SPySt α V) (v : V) : SPVal α :=
  match st.env v with
  | .num s => .num s
  | .ref a => .jet (st.heap a)

variable [DecidableEq V]

/-- Bind a name (Python language). -/
def bind (st : SPySt α V) (t : V) (b : PyV α) : SPySt α V :=
  { st with env := fun v => if v = t then b else st.env v }

/-- Replace the contents of an object (`hyperjet.h` lines 2166-2332: `*this`). -/
def write (st : SPySt α V) (a : Nat) (x : SS α) : SPySt α V :=
  { st with heap := fun b => if b = a then x else st.heap b }

/-- Bind a name to a computed value; a jet becomes a new object (pybind11 moves the returned jet
into a new Python object). -/
def fresh (st : SPySt α V) (t : V) : SPVal α → SPySt α V
  | .num s => st.bind t (.num s)
  | .jet x => { (st.write st.next x).bind t (.ref st.next) with next := st.next + 1 }

/-- Outcome of a computation whose result is bound to `t` (Python language). -/
def store (st : SPySt α V) (t : V) : Res (SPVal α) → Res Unit × SPySt α V
  | .ok r => (.ok (), st.fresh t r)
  | .throw e => (.throw e, st)
  | .abort => (.abort, st)
  | .ub u => (.ub u, st)

/-- Outcome of changing object `a` in place (`hyperjet.h` lines 2166-2332). -/
def change (st : SPySt α V) (a : Nat) : Res (SS α) → Res Unit × SPySt α V
  | .ok x => (.ok (), st.write a x)
  | .throw e => (.throw e, st)
  | .abort => (.abort, st)
  | .ub u => (.ub u, st)

/-- The right operand of `t o= e` for `t` bound to object `a`: `self` if `e` is a name of the same
object (`bind_sscalar.cpp` lines 103-107: arguments are passed by reference). -/
def operand (st : SPySt α V) (a : Nat) (e : SPyE α V) (y : SS α) : SS.Operand α :=
  match e with
  | .name s =>
    match st.env s with
    | .ref b => if b = a then .self else .obj y
    | .num _ => .obj y
  | _ => .obj y

end SPySt

/-- The C++ in-place operator with a jet (`bind_sscalar.cpp` lines 103-105, 107). -/
def POp.asgSS [CMath α] (ord : Order α) : POp → SS α → SS.Operand α → Res (SS α)
  | .add => SS.addAssign ord
  | .sub => SS.subAssign ord
  | .mul => SS.mulAssign ord
  | .div => SS.divAssign ord

/-- Run one statement (`bind_sscalar.cpp` lines 95-112; `hyperjet.h` lines 2166-2332). -/
def SPyStmt.run [CMath α] [DecidableEq V] (ord : Order α) (st : SPySt α V) :
    SPyStmt α V → Res Unit × SPySt α V
  | .assign t e =>
    match e with
    | .name s => (.ok (), st.bind t (st.env s))
    | e => st.store t (e.eval (ord.sub 1) st.val)
  | .upd o t e =>
    match e.eval (ord.sub 1) st.val with
    | .ok y =>
      match st.env t, y with
      | .ref a, .jet y => st.change a (o.asgSS (ord.sub 0) (st.heap a) (st.operand a e y))
      | .ref a, .num s =>
        match o with
        | .mul => st.change a ((st.heap a).mulAssignS s)
        | .div => st.change a ((st.heap a).divAssignS s)
        | o => st.store t (o.runSS (ord.sub 0) (.jet (st.heap a)) (.num s))
      | .num s, y => st.store t (o.runSS (ord.sub 0) (.num s) y)
    | .throw e => (.throw e, st)
    | .abort => (.abort, st)
    | .ub u => (.ub u, st)

/-- Run statements one after the other, until one does not end normally (Python language). -/
def spyRun [CMath α] [DecidableEq V] (ord : Order α) :
    List (SPyStmt α V) → SPySt α V → Res Unit × SPySt α V
  | [], st => (.ok (), st)
  | s :: p, st =>
    match s.run (ord.sub 0) st with
    | (.ok (), st') => spyRun (ord.sub 1) p st'
    | r => r

end HJ
