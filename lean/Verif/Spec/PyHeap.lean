import Verif.Model.PyHeap
import Verif.Spec.Plain
import Verif.Spec.Jet

/-!
# Specification: Python programs with value semantics

Every name stands for its own value.  `t o= e` is `t = t o e`.
-/

namespace HJ

variable {α V W : Type}

/-- Assign the outcome of a computation. -/
def assignVal [DecidableEq V] (σ : V → PVal α) (t : V) : Res (PVal α) → Res Unit × (V → PVal α)
  | .ok r => (.ok (), fun v => if v = t then r else σ v)
  | .throw e => (.throw e, σ)
  | .abort => (.abort, σ)
  | .ub u => (.ub u, σ)

/-- Apply a setter to a value. -/
def PVal.set (k : DD α → Res (DD α)) : PVal α → Res (PVal α)
  | .num _ => .throw .attributeError
  | .jet x => do
      let r ← k x
      .ok (.jet r)

/-- A statement with value semantics. -/
def PyStmt.values [CMath α] [DecidableEq V] (c : Cfg) (n : Nat) (σ : V → PVal α) :
    PyStmt α V W → Res Unit × (V → PVal α)
  | .assign t e => assignVal σ t (e.eval c n σ)
  | .upd o t e => assignVal σ t ((PyE.op o (.name t) e).eval c n σ)
  | .setF t s => assignVal σ t ((σ t).set fun x => x.setF s)
  | .setH t i j s => assignVal σ t ((σ t).set fun x => x.setH c i j s)
  | _ => (.ok (), σ)

/-- A program with value semantics. -/
def valRun [CMath α] [DecidableEq V] (c : Cfg) (n : Nat) :
    List (PyStmt α V W) → (V → PVal α) → Res Unit × (V → PVal α)
  | [], σ => (.ok (), σ)
  | s :: p, σ =>
    match s.values c n σ with
    | (.ok (), σ') => valRun c n p σ'
    | r => r

/-- Statements that make no second name for an object and do not multiply or divide an object in
place by itself; arrays and `resize` do not occur. -/
def PyStmt.Plain : PyStmt α V W → Prop
  | .assign _ e => ∀ s, e ≠ .name s
  | .upd o t e => (o = .mul ∨ o = .div) → e ≠ .name t
  | .setF _ _ => True
  | .setH _ _ _ _ => True
  | _ => False

/-- The statement is not `t /= e`. -/
def PyStmt.NoDivAssign : PyStmt α V W → Prop
  | .upd o _ _ => o ≠ .div
  | _ => True

/-- All jets of a state have `n` variables and are well-formed. -/
def PVal.WF (c : Cfg) (n : Nat) : PVal α → Prop
  | .num _ => True
  | .jet x => HJ.WF c n x

/-- No two names share an object, and new objects get unused addresses. -/
structure Unshared (st : PySt α V W) : Prop where
  inj : ∀ v w a, st.env v = .ref a → st.env w = .ref a → v = w
  fresh : ∀ v a, st.env v = .ref a → a < st.next

/-- A state in which everything is in order: names refer to existing objects, existing objects are
well-formed jets of `n` variables, arrays lie inside the storage of an existing object that has not
been reallocated since. -/
structure PySt.Good (c : Cfg) (n : Nat) (st : PySt α V W) : Prop where
  names : ∀ v a, st.env v = .ref a → a < st.next
  objects : ∀ a, a < st.next → HJ.WF c n (st.heap a)
  arrays : ∀ w r, st.views w = some r →
    r.obj < st.next ∧ r.gen = st.gen r.obj ∧ r.off + r.len ≤ storedLen c.order n

/-- Indices given to `variable` are in range. -/
def PyE.InRange (n : Nat) : PyE α V → Prop
  | .vari i _ => 0 ≤ i ∧ i < n
  | .neg e | .abs e | .fn _ e | .getF e => e.InRange n
  | .op _ e₁ e₂ | .atan2 e₁ e₂ | .hypot e₁ e₂ => e₁.InRange n ∧ e₂.InRange n
  | .hypot3 e₁ e₂ e₃ => e₁.InRange n ∧ e₂.InRange n ∧ e₃.InRange n
  | _ => True

/-- Indices given to `variable` and `set_h` are in range, `set_h` is used on second-order jets only,
and `resize` does not occur.  (Array indices may be anything.) -/
def PyStmt.InRange (c : Cfg) (n : Nat) : PyStmt α V W → Prop
  | .assign _ e => e.InRange n
  | .upd _ _ e => e.InRange n
  | .setH _ i j _ => c.order = 2 ∧ 0 ≤ i ∧ i < n ∧ 0 ≤ j ∧ j < n
  | .resize _ _ => False
  | _ => True

/-- A normal end or an exception of Python itself. -/
inductive PyOutcome {A : Type} : Res A → Prop
  | ok (a : A) : PyOutcome (.ok a)
  | zeroDivision : PyOutcome (.throw .zeroDivision)
  | attributeError : PyOutcome (.throw .attributeError)
  | typeError : PyOutcome (.throw .typeError)
  | indexError : PyOutcome (.throw .indexError)

/-- The statement gives the array name `w` a new meaning. -/
def PyStmt.Makes (w : W) : PyStmt α V W → Prop
  | .data u _ | .grad u _ => u = w
  | _ => False

end HJ
