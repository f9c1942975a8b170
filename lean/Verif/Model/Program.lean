import Verif.Model.Expr

/-!
# Straight-line programs over named jets

C++ user code: a sequence of statements on jets declared under names (value semantics, every name
is its own object).  A statement ends normally, throws, fails an assertion or has undefined
behaviour; the store afterwards is part of the result.
-/

namespace HJ

variable {α V : Type}

/-- Compound assignment operators (`hyperjet.h` lines 1020-1037, 1080-1097, 1138-1178,
1224-1249). -/
inductive AOp where
  | add | sub | mul | div
  deriving DecidableEq

/-- `x op= b` with a jet (`hyperjet.h` lines 1020, 1080, 1138, 1224). -/
def AOp.run [Arith α] (c : Cfg) : AOp → DD α → DD.Operand α → Res Unit × DD α
  | .add => DD.addAssign c
  | .sub => DD.subAssign c
  | .mul => DD.mulAssign c
  | .div => DD.divAssign c

/-- `x op= s` with a scalar (`hyperjet.h` lines 1032, 1092, 1170, 1244). -/
def AOp.runS [Arith α] : AOp → DD α → DD.SRef α → Res Unit × DD α
  | .add => DD.addAssignS
  | .sub => DD.subAssignS
  | .mul => DD.mulAssignS
  | .div => DD.divAssignS

/-- Statements. User code calling `hyperjet.h` lines 707-792 (setters), 970-1655. -/
inductive Stmt (α V : Type) where
  /-- `t = e;` -/
  | assign (t : V) (e : Expr α V)
  /-- `t op= e;` (`e` may be a name, also `t` itself, or a compound expression, i.e. a temporary) -/
  | upd (o : AOp) (t : V) (e : Expr α V)
  /-- `t op= s;` with a scalar, possibly a reference to a component of `t` -/
  | updS (o : AOp) (t : V) (s : DD.SRef α)
  /-- `t.set_f(v);` -/
  | setF (t : V) (v : α)
  /-- `t.set_g(i, v);` -/
  | setG (t : V) (i : Int) (v : α)
  /-- `t.set_h(i, j, v);` -/
  | setH (t : V) (i j : Int) (v : α)
  /-- `t.set_zero();` -/
  | setZero (t : V)

/-- The object a statement writes. User code, no line of `hyperjet.h`. -/
def Stmt.target : Stmt α V → V
  | .assign t _ => t
  | .upd _ t _ => t
  | .updS _ t _ => t
  | .setF t _ => t
  | .setG t _ _ => t
  | .setH t _ _ _ => t
  | .setZero t => t

/-- The jets by name. User code, no line of `hyperjet.h`. -/
abbrev Store (α V : Type) := V → DD α

variable [DecidableEq V]

/-- Replace the object named `t` (the implicit copy/move assignment of `DDScalar`,
`hyperjet.h` line 44, or an in-place change). -/
def Store.set (ρ : Store α V) (t : V) (x : DD α) : Store α V := fun v => if v = t then x else ρ v

/-- Outcome of computing a new object for `t`: stored if the computation succeeds.
(`hyperjet.h` line 44: implicit assignment of `DDScalar`.) -/
def Store.put (ρ : Store α V) (t : V) : Res (DD α) → Res Unit × Store α V
  | .ok x => (.ok (), ρ.set t x)
  | .throw e => (.throw e, ρ)
  | .abort => (.abort, ρ)
  | .ub u => (.ub u, ρ)

/-- Outcome of changing the object `t` in place. (`hyperjet.h` lines 1020-1249.) -/
def Store.change (ρ : Store α V) (t : V) (r : Res Unit × DD α) : Res Unit × Store α V :=
  (r.1, ρ.set t r.2)

/-- The right operand of `t op= e`: a name refers to the object itself, any other expression to a
temporary. (`hyperjet.h` lines 1020, 1080, 1138, 1224: parameter `const Type &b`.) -/
def Store.operand [CMath α] (c : Cfg) (n : Nat) (ρ : Store α V) (t : V) (e : Expr α V) :
    Res (DD.Operand α) :=
  match e with
  | .var s => if s = t then .ok .self else .ok (.obj (ρ s))
  | e => do
      let y ← e.evalDD c n ρ
      .ok (.obj y)

/-- Run one statement. (`hyperjet.h` lines 707-792, 970-1655.) -/
def Stmt.run [CMath α] (c : Cfg) (n : Nat) (ρ : Store α V) : Stmt α V → Res Unit × Store α V
  | .assign t e => ρ.put t (e.evalDD c n ρ)
  | .upd o t e =>
    match ρ.operand c n t e with
    | .ok b => ρ.change t (o.run c (ρ t) b)
    | .throw e => (.throw e, ρ)
    | .abort => (.abort, ρ)
    | .ub u => (.ub u, ρ)
  | .updS o t s => ρ.change t (o.runS (ρ t) s)
  | .setF t v => ρ.put t ((ρ t).setF v)
  | .setG t i v => ρ.put t ((ρ t).setG c i v)
  | .setH t i j v => ρ.put t ((ρ t).setH c i j v)
  | .setZero t => ρ.put t (.ok (ρ t).setZero)

/-- Run statements one after the other, until one does not end normally.
User code, no line of `hyperjet.h`. -/
def runProg [CMath α] (c : Cfg) (n : Nat) : List (Stmt α V) → Store α V → Res Unit × Store α V
  | [], ρ => (.ok (), ρ)
  | s :: p, ρ =>
    match s.run c n ρ with
    | (.ok (), ρ') => runProg c n p ρ'
    | r => r

end HJ
