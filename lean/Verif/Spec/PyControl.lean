import Verif.Model.PyControl
import Verif.Spec.Control
import Verif.Spec.PyMath
import Verif.Spec.PyValues

/-!
# Specification: Python programs with shared objects, branches and loops

Names are bound to real numbers or to objects, every object stands for a real function of `n`
variables; several names may be bound to the same object.  Beside it stands the same program with a
mutable real number in place of every jet, at an arbitrary point `y`.
-/

open scoped Topology

namespace HJ

variable {V W : Type} {n : Nat}

/-! ## Functions -/

/-- What the names are bound to, the function each object stands for, and the number of objects made
so far. -/
structure MathSt (n : Nat) (V : Type) where
  env : V → PyV ℝ
  mean : Nat → (Fin n → ℝ) → ℝ
  next : Nat

namespace MathSt

/-- What a name stands for. -/
def val (σ : MathSt n V) (v : V) : PMath n :=
  match σ.env v with
  | .num r => .num r
  | .ref a => .fn (σ.mean a)

variable [DecidableEq V]

/-- The name `t` gets bound to `b`. -/
def bind (σ : MathSt n V) (t : V) (b : PyV ℝ) : MathSt n V :=
  { σ with env := fun v => if v = t then b else σ.env v }

/-- The object `a` gets the meaning `F`. -/
def write (σ : MathSt n V) (a : Nat) (F : (Fin n → ℝ) → ℝ) : MathSt n V :=
  { σ with mean := fun b => if b = a then F else σ.mean b }

/-- The name `t` gets bound to a number, or to a new object. -/
def fresh (σ : MathSt n V) (t : V) : PMath n → MathSt n V
  | .num r => σ.bind t (.num r)
  | .fn F => { (σ.write σ.next F).bind t (.ref σ.next) with next := σ.next + 1 }

end MathSt

/-- The expression is a name of object `a`. -/
def PyE.Names (σ : MathSt n V) (a : Nat) (e : PyE ℝ V) : Prop :=
  ∃ s, e = .name s ∧ σ.env s = .ref a

/-- Meaning of a statement.  `t = s` makes a second name for an object.  `t o= e` with a function `e`
changes the object, whatever names it has; so do `t *= s` and `t /= s` with a number, while `t += s` and
`t -= s` with a number make a new object.  `t.f = s` shifts the function.  At order 2, `t *= e` has no
meaning here if `e` is a name of the object `t`, or if there are no variables. -/
inductive PyStmt.Means [DecidableEq V] (order : Nat) (x : Fin n → ℝ) (σ : MathSt n V) :
    PyStmt ℝ V W → MathSt n V → Prop
  | share (t s : V) : Means order x σ (.assign t (.name s)) (σ.bind t (σ.env s))
  | assign {t : V} {e : PyE ℝ V} {m : PMath n} (h : e.Den order x σ.val m) (hn : ∀ s, e ≠ .name s) :
      Means order x σ (.assign t e) (σ.fresh t m)
  | updFn {o : POp} {t : V} {e : PyE ℝ V} {a : Nat} {G : (Fin n → ℝ) → ℝ}
      (ht : σ.env t = .ref a) (h : e.Den order x σ.val (.fn G)) (hd : o = .div → G x ≠ 0)
      (hs : o = .mul → order = 2 → 0 < n ∧ ¬ e.Names σ a) :
      Means order x σ (.upd o t e) (σ.write a fun y => o.den (σ.mean a y) (G y))
  | updScale {o : POp} {t : V} {e : PyE ℝ V} {a : Nat} {s : ℝ} (ht : σ.env t = .ref a)
      (h : e.Den order x σ.val (.num s)) (ho : o = .mul ∨ o = .div) (hd : o = .div → s ≠ 0) :
      Means order x σ (.upd o t e) (σ.write a fun y => o.den (σ.mean a y) s)
  | updShift {o : POp} {t : V} {e : PyE ℝ V} {a : Nat} {s : ℝ} (ht : σ.env t = .ref a)
      (h : e.Den order x σ.val (.num s)) (ho : o = .add ∨ o = .sub) :
      Means order x σ (.upd o t e) (σ.fresh t (.fn fun y => o.den (σ.mean a y) s))
  | updNum {o : POp} {t : V} {e : PyE ℝ V} {r : ℝ} {m : PMath n} (ht : σ.env t = .num r)
      (h : (PyE.op o (.lit r) e).Den order x σ.val m) : Means order x σ (.upd o t e) (σ.fresh t m)
  | setF {t : V} {s : ℝ} {a : Nat} (ht : σ.env t = .ref a) :
      Means order x σ (.setF t s) (σ.write a fun y => σ.mean a y + (s - σ.mean a x))

/-- The state of the Python program has the meaning `σ` at `x`. -/
structure PySt.IsAt (c : Cfg) (n : Nat) (x : Fin n → ℝ) (st : PySt XReal V W) (σ : MathSt n V) :
    Prop where
  next : st.next = σ.next
  env : ∀ v, (∃ r : ℝ, st.env v = .num (XReal.num r) ∧ σ.env v = .num r) ∨
    ∃ a < σ.next, st.env v = .ref a ∧ σ.env v = .ref a
  obj : ∀ a < σ.next, JetAt c n (st.heap a) (σ.mean a) x

/-! ## Numbers -/

/-- What the names are bound to, the number in each object, and the number of objects made so far. -/
structure PtSt (V : Type) where
  env : V → PyV ℝ
  mean : Nat → ℝ
  next : Nat

/-- The state at the point `y`. -/
def MathSt.at (σ : MathSt n V) (y : Fin n → ℝ) : PtSt V := ⟨σ.env, fun a => σ.mean a y, σ.next⟩

namespace PtSt

/-- The number a name stands for. -/
def read (σ : PtSt V) (v : V) : ℝ :=
  match σ.env v with
  | .num r => r
  | .ref a => σ.mean a

variable [DecidableEq V]

/-- The name `t` gets bound to `b`. -/
def bind (σ : PtSt V) (t : V) (b : PyV ℝ) : PtSt V :=
  { σ with env := fun v => if v = t then b else σ.env v }

/-- The object `a` gets the number `s`. -/
def write (σ : PtSt V) (a : Nat) (s : ℝ) : PtSt V :=
  { σ with mean := fun b => if b = a then s else σ.mean b }

/-- The name `t` gets bound to a new object with the number `s`. -/
def make (σ : PtSt V) (t : V) (s : ℝ) : PtSt V :=
  { (σ.write σ.next s).bind t (.ref σ.next) with next := σ.next + 1 }

/-- The name `t` gets a result: a plain number or a new object. -/
def put (σ : PtSt V) (t : V) (plain : Bool) (s : ℝ) : PtSt V :=
  if plain then σ.bind t (.num s) else σ.make t s

end PtSt

/-- The number an expression stands for at the point `y`; `T.variable(i, s, n)` is the `i`-th
coordinate, shifted such that it is `s` at `x`. -/
noncomputable def PyE.real (x y : Fin n → ℝ) (σ : V → ℝ) : PyE ℝ V → ℝ
  | .name v => σ v
  | .lit s => s
  | .const s => s
  | .vari i s => if h : 0 ≤ i ∧ i < n then
      s + (y ⟨i.toNat, by omega⟩ - x ⟨i.toNat, by omega⟩) else s
  | .neg e => -e.real x y σ
  | .abs e => |e.real x y σ|
  | .fn φ e => φ.den (e.real x y σ)
  | .op o e₁ e₂ => o.den (e₁.real x y σ) (e₂.real x y σ)
  | .atan2 e₁ e₂ => Complex.arg ⟨e₂.real x y σ, e₁.real x y σ⟩
  | .hypot e₁ e₂ => √(e₁.real x y σ ^ 2 + e₂.real x y σ ^ 2)
  | .hypot3 e₁ e₂ e₃ => √(e₁.real x y σ ^ 2 + e₂.real x y σ ^ 2 + e₃.real x y σ ^ 2)
  | .getF e => e.real x y σ

/-- The expression gives a plain number, not an object. -/
def PyE.isNum (env : V → PyV ℝ) : PyE ℝ V → Bool
  | .name v => match env v with
    | .num _ => true
    | .ref _ => false
  | .lit _ => true
  | .neg e | .abs e => e.isNum env
  | .op _ e₁ e₂ => e₁.isNum env && e₂.isNum env
  | .getF _ => true
  | _ => false

/-- The statement on numbers, at the point `y`. -/
noncomputable def PyStmt.real [DecidableEq V] (x y : Fin n → ℝ) (σ : PtSt V) :
    PyStmt ℝ V W → PtSt V
  | .assign t (.name s) => σ.bind t (σ.env s)
  | .assign t e => σ.put t (e.isNum σ.env) (e.real x y σ.read)
  | .upd o t e =>
    match σ.env t with
    | .num r => σ.put t (e.isNum σ.env) (o.den r (e.real x y σ.read))
    | .ref a =>
      if e.isNum σ.env ∧ (o = .add ∨ o = .sub) then
        σ.make t (o.den (σ.mean a) (e.real x y σ.read))
      else σ.write a (o.den (σ.mean a) (e.real x y σ.read))
  | _ => σ

/-- The comparison holds for the numbers at the point `y`. -/
def PyCond.Holds (x y : Fin n → ℝ) (σ : PtSt V) (b : PyCond ℝ V) : Prop :=
  b.op.rel (b.left.real x y σ.read) (b.right.real x y σ.read)

/-- The program on numbers, at the point `y`. -/
def PyRealRun [DecidableEq V] (x y : Fin n → ℝ) (p : Ctl (PyStmt ℝ V W) (PyCond ℝ V))
    (σ σ' : PtSt V) : Prop :=
  Runs (fun s σ σ' => σ' = s.real x y σ) (fun b σ r => r = true ↔ b.Holds x y σ) p σ σ'

/-! ## Runs along a path -/

/-- `e.f` does not occur. -/
def PyE.NoGetF : PyE ℝ V → Prop
  | .neg e | .abs e | .fn _ e => e.NoGetF
  | .op _ e₁ e₂ | .atan2 e₁ e₂ | .hypot e₁ e₂ => e₁.NoGetF ∧ e₂.NoGetF
  | .hypot3 e₁ e₂ e₃ => e₁.NoGetF ∧ e₂.NoGetF ∧ e₃.NoGetF
  | .getF _ => False
  | _ => True

/-- An assignment or in-place operator that does not throw derivatives away (`e.f` makes a number, and
`t.f = s` replaces the value). -/
def PyStmt.Smooth : PyStmt ℝ V W → Prop
  | .assign _ e | .upd _ _ e => e.NoGetF
  | _ => False

/-- Both sides are inside the domains of their operations (`e.f` is allowed). -/
def PyCond.Inside (order : Nat) (x : Fin n → ℝ) (σ : MathSt n V) (b : PyCond ℝ V) : Prop :=
  (∃ m, b.left.Den order x σ.val m) ∧ ∃ m, b.right.Den order x σ.val m

/-- The program on functions: every executed statement has a meaning at `x`, and the comparisons are
decided by the values at `x`. -/
def PyPathRun [DecidableEq V] (order : Nat) (x : Fin n → ℝ) (p : Ctl (PyStmt ℝ V W) (PyCond ℝ V))
    (σ σ' : MathSt n V) : Prop :=
  Runs (fun s σ σ' => s.Means order x σ σ')
    (fun b σ r => b.Inside order x σ ∧ (r = true ↔ b.Holds x x (σ.at x))) p σ σ'

/-- The program on functions: every executed statement has a meaning at `x` and keeps derivatives, and
every executed comparison gives the same result at all points near `x`. -/
def PySteadyRun [DecidableEq V] (order : Nat) (x : Fin n → ℝ) (p : Ctl (PyStmt ℝ V W) (PyCond ℝ V))
    (σ σ' : MathSt n V) : Prop :=
  Runs (fun s σ σ' => s.Smooth ∧ s.Means order x σ σ')
    (fun b σ r => b.Inside order x σ ∧ ∀ᶠ y in 𝓝 x, (r = true ↔ b.Holds x y (σ.at y))) p σ σ'

/-- The program on functions: every executed statement has a meaning at `x` and keeps derivatives, and
no executed comparison is between equal values at `x`. -/
def PySafeRun [DecidableEq V] (order : Nat) (x : Fin n → ℝ) (p : Ctl (PyStmt ℝ V W) (PyCond ℝ V))
    (σ σ' : MathSt n V) : Prop :=
  Runs (fun s σ σ' => s.Smooth ∧ s.Means order x σ σ')
    (fun b σ r => b.Inside order x σ ∧
      b.left.real x x (σ.at x).read ≠ b.right.real x x (σ.at x).read ∧
      (r = true ↔ b.Holds x x (σ.at x))) p σ σ'

/-- Change the scalar constants. -/
def PyCond.map {α β : Type} (f : α → β) (b : PyCond α V) : PyCond β V :=
  ⟨b.op, b.left.map f, b.right.map f⟩

end HJ
