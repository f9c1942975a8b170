import Verif.Model.PyControl
import Verif.Spec.Control
import Verif.Spec.PyHeap
import Verif.Spec.PySparse

/-!
# Specification: the same Python program with one number in place of every jet

Names are bound to numbers or to cells; a cell holds one number, and several names may be bound to the
same cell.  What raises an exception for jets raises the same exception here.
-/

namespace HJ

variable {α V W : Type}

/-- A number, or the number in a cell. -/
inductive CVal (α : Type) where
  | num (s : α)
  | cell (s : α)

/-- The number. -/
def CVal.get : CVal α → α
  | .num s => s
  | .cell s => s

/-- The four operations; `dv` is the division. -/
def POp.arith [Arith α] (dv : α → α → α) : POp → α → α → α
  | .add, x, y => x +ₛ y
  | .sub, x, y => x -ₛ y
  | .mul, x, y => x *ₛ y
  | .div, x, y => dv x y

/-- `x o y`.  Python's own division raises an exception for a zero divisor; what stands for a jet is
divided by multiplying with the reciprocal. -/
def POp.cells [CMath α] (o : POp) : CVal α → CVal α → Res (CVal α)
  | .num x, .num y =>
    if o = .div ∧ Cmp.eqB y (Arith.lit 0) then .throw .zeroDivision
    else .ok (.num (o.arith Arith.div x y))
  | .num x, .cell y => .ok (.cell (o.arith Arith.div x y))
  | .cell x, .num y => .ok (.cell (o.arith recipDiv x y))
  | .cell x, .cell y => .ok (.cell (o.arith recipDiv x y))

/-- The value of an expression. -/
def PyE.cells [CMath α] (σ : V → CVal α) : PyE α V → Res (CVal α)
  | .name v => .ok (σ v)
  | .lit s => .ok (.num s)
  | .const s => .ok (.cell s)
  | .vari _ s => .ok (.cell s)
  | .neg e => do
      match ← e.cells σ with
      | .num s => .ok (.num (-ₛ s))
      | .cell s => .ok (.cell (-ₛ s))
  | .abs e => do
      match ← e.cells σ with
      | .num s => .ok (.num (if Cmp.ltB s (Arith.lit 0) then -ₛ s else s))
      | .cell s => .ok (.cell (if Cmp.ltB s (Arith.lit 0) then -ₛ s else s))
  | .fn φ e => do
      match ← e.cells σ with
      | .num _ => .throw .attributeError
      | .cell s => .ok (.cell (φ.plain s))
  | .op o e₁ e₂ => do
      let x ← e₁.cells σ
      let y ← e₂.cells σ
      o.cells x y
  | .atan2 e₁ e₂ => do
      let x ← e₁.cells σ
      let y ← e₂.cells σ
      match x, y with
      | .cell x, .cell y => .ok (.cell (CMath.atan2 x y))
      | .num _, _ => .throw .attributeError
      | .cell _, .num _ => .throw .typeError
  | .hypot e₁ e₂ => do
      let x ← e₁.cells σ
      let y ← e₂.cells σ
      match x, y with
      | .cell x, .cell y => .ok (.cell (CMath.hypot x y))
      | .num _, _ => .throw .attributeError
      | .cell _, .num _ => .throw .typeError
  | .hypot3 e₁ e₂ e₃ => do
      let x ← e₁.cells σ
      let y ← e₂.cells σ
      let z ← e₃.cells σ
      match x, y, z with
      | .cell x, .cell y, .cell z => .ok (.cell (CMath.hypot3 x y z))
      | .num _, _, _ => .throw .attributeError
      | _, _, _ => .throw .typeError
  | .getF e => do
      match ← e.cells σ with
      | .num _ => .throw .attributeError
      | .cell s => .ok (.num s)

/-- What the names are bound to, the numbers in the cells, and the number of cells made so far. -/
structure CellSt (α V : Type) where
  env : V → PyV α
  cell : Nat → α
  next : Nat

namespace CellSt

/-- What a name stands for. -/
def val (σ : CellSt α V) (v : V) : CVal α :=
  match σ.env v with
  | .num s => .num s
  | .ref a => .cell (σ.cell a)

variable [DecidableEq V]

/-- The name `t` gets bound to `b`. -/
def bind (σ : CellSt α V) (t : V) (b : PyV α) : CellSt α V :=
  { σ with env := fun v => if v = t then b else σ.env v }

/-- The cell `a` gets the number `s`. -/
def write (σ : CellSt α V) (a : Nat) (s : α) : CellSt α V :=
  { σ with cell := fun b => if b = a then s else σ.cell b }

/-- The name `t` gets bound to a number, or to a new cell. -/
def fresh (σ : CellSt α V) (t : V) : CVal α → CellSt α V
  | .num s => σ.bind t (.num s)
  | .cell s => { (σ.write σ.next s).bind t (.ref σ.next) with next := σ.next + 1 }

/-- The outcome of a computation whose result is bound to `t`. -/
def store (σ : CellSt α V) (t : V) : Res (CVal α) → Res Unit × CellSt α V
  | .ok r => (.ok (), σ.fresh t r)
  | .throw e => (.throw e, σ)
  | .abort => (.abort, σ)
  | .ub u => (.ub u, σ)

end CellSt

/-- One statement.  With a cell on the left, `+=`, `-=`, `*=`, `/=` with a cell and `*=`, `/=` with a
number change the cell, for all its names; `+=` and `-=` with a number make a new cell. -/
def PyStmt.cells [CMath α] [DecidableEq V] (σ : CellSt α V) :
    PyStmt α V W → Res Unit × CellSt α V
  | .assign t (.name s) => (.ok (), σ.bind t (σ.env s))
  | .assign t e => σ.store t (e.cells σ.val)
  | .upd o t e =>
    match e.cells σ.val with
    | .ok y =>
      match σ.env t, y with
      | .ref a, .cell y => (.ok (), σ.write a (o.arith Arith.div (σ.cell a) y))
      | .ref a, .num s =>
        if o = .mul ∨ o = .div then (.ok (), σ.write a (o.arith recipDiv (σ.cell a) s))
        else σ.store t (.ok (.cell (o.arith recipDiv (σ.cell a) s)))
      | .num r, y => σ.store t (o.cells (.num r) y)
    | .throw e => (.throw e, σ)
    | .abort => (.abort, σ)
    | .ub u => (.ub u, σ)
  | .setF t s =>
    match σ.env t with
    | .ref a => (.ok (), σ.write a s)
    | .num _ => (.throw .attributeError, σ)
  | .setH t _ _ _ | .data _ t | .grad _ t =>
    match σ.env t with
    | .ref _ => (.ok (), σ)
    | .num _ => (.throw .attributeError, σ)
  | _ => (.ok (), σ)

/-- A comparison. -/
def PyCond.cells [CMath α] (σ : V → CVal α) (b : PyCond α V) : Res Bool := do
  let x ← b.left.cells σ
  let y ← b.right.cells σ
  .ok (b.op.scalar x.get y.get)

/-- Programs on numbers and cells. -/
def cellMachine (α V W : Type) [CMath α] [DecidableEq V] :
    Machine (PyStmt α V W) (PyCond α V) (CellSt α V) where
  step s σ := s.cells σ
  test b σ := b.cells σ.val

/-- Arrays are neither read nor written. -/
def PyStmt.NoArray : PyStmt α V W → Prop
  | .poke _ _ _ | .peek _ _ _ => False
  | _ => True

/-- Indices given to `variable` are in range. -/
def PyCond.InRange (n : Nat) (b : PyCond α V) : Prop := b.left.InRange n ∧ b.right.InRange n

/-- Names are bound alike, and the values of the objects are the numbers in the cells. -/
structure PySt.Carries (st : PySt α V W) (σ : CellSt α V) : Prop where
  env : st.env = σ.env
  next : st.next = σ.next
  obj : ∀ a < σ.next, (st.heap a).f = .ok (σ.cell a)

/-! ## Sparse scalars -/

/-- Names are bound alike, and the values of the objects are the numbers in the cells. -/
structure SPySt.Carries (st : SPySt α V) (σ : CellSt α V) : Prop where
  env : st.env = σ.env
  next : st.next = σ.next
  obj : ∀ a < σ.next, (st.heap a).f = .ok (σ.cell a)

/-- `e.d(k)` does not occur. -/
def SPyE.NoD : SPyE α V → Prop
  | .neg e | .abs e | .fn _ e | .getF e => e.NoD
  | .op _ e₁ e₂ | .atan2 e₁ e₂ | .hypot e₁ e₂ => e₁.NoD ∧ e₂.NoD
  | .hypot3 e₁ e₂ e₃ => e₁.NoD ∧ e₂.NoD ∧ e₃.NoD
  | .getD _ _ => False
  | _ => True

/-- `e.d(k)` does not occur. -/
def SPyStmt.NoD : SPyStmt α V → Prop
  | .assign _ e | .upd _ _ e => e.NoD

/-- `e.d(k)` does not occur. -/
def SPyCond.NoD (b : SPyCond α V) : Prop := b.left.NoD ∧ b.right.NoD

/-- Maps given to `SScalar(s, {…})` have every key once. -/
def SPyCond.DictOk (b : SPyCond α V) : Prop := b.left.DictOk ∧ b.right.DictOk

/-- The same expression for a class with numbered variables; `ix` numbers the names.  (`e.d(k)` has no
counterpart and is dropped.) -/
def SPyE.numbered (ix : String → Int) : SPyE α V → PyE α V
  | .name v => .name v
  | .lit s => .lit s
  | .const s => .const s
  | .vari k s => .vari (ix k) s
  | .make s _ => .const s
  | .neg e => .neg (e.numbered ix)
  | .abs e => .abs (e.numbered ix)
  | .fn φ e => .fn φ (e.numbered ix)
  | .op o e₁ e₂ => .op o (e₁.numbered ix) (e₂.numbered ix)
  | .atan2 e₁ e₂ => .atan2 (e₁.numbered ix) (e₂.numbered ix)
  | .hypot e₁ e₂ => .hypot (e₁.numbered ix) (e₂.numbered ix)
  | .hypot3 e₁ e₂ e₃ => .hypot3 (e₁.numbered ix) (e₂.numbered ix) (e₃.numbered ix)
  | .getF e => .getF (e.numbered ix)
  | .getD e _ => e.numbered ix

/-- The same statement for a class with numbered variables. -/
def SPyStmt.numbered (ix : String → Int) : SPyStmt α V → PyStmt α V W
  | .assign t e => .assign t (e.numbered ix)
  | .upd o t e => .upd o t (e.numbered ix)

/-- The same comparison for a class with numbered variables. -/
def SPyCond.numbered (ix : String → Int) (b : SPyCond α V) : PyCond α V :=
  ⟨b.op, b.left.numbered ix, b.right.numbered ix⟩

end HJ
