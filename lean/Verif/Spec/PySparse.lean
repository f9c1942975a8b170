import Verif.Model.PySparse
import Verif.Spec.Sparse
import Verif.Spec.PyMath

/-!
# Specification: what Python programs on sparse scalars mean

The independent variables have names, so a jet stands for a real function on assignments
`String → ℝ`; `x` is the assignment at which the derivatives are asked for.  Names of the program are
bound to real numbers or to objects, and every object stands for a function.
-/

namespace HJ

variable {α V : Type}

/-- A real number or a real function of named variables. -/
inductive SMath where
  | num (r : ℝ)
  | fn (F : (String → ℝ) → ℝ)

/-- The object holds the value at `x` and, for every name, the partial derivative. -/
structure SIsAt (x : String → ℝ) (y : SS XReal) (F : (String → ℝ) → ℝ) : Prop where
  wf : SWF y
  f : y.f = .ok (XReal.num (F x))
  d : ∀ k, ∃ g : ℝ, y.d k = XReal.num g ∧ HasDerivAt (fun t => F (Function.update x k t)) g (x k)

/-- The Python value is the number, or holds value and derivatives of the function at `x`. -/
def SPVal.IsAt (x : String → ℝ) : SPVal XReal → SMath → Prop
  | .num a, .num r => a = XReal.num r
  | .jet y, .fn F => SIsAt x y F
  | _, _ => False

/-- Meaning of an expression, for names with meaning `σ`.  `SScalar.variable(k, s)` is the coordinate
`k`, shifted such that its value at `x` is `s`; `SScalar(s, d)` is the affine function with value `s` at
`x` and slopes `d`. -/
inductive SPyE.Den (x : String → ℝ) (σ : V → SMath) : SPyE ℝ V → SMath → Prop
  | name (v : V) : Den x σ (.name v) (σ v)
  | lit (s : ℝ) : Den x σ (.lit s) (.num s)
  | const (s : ℝ) : Den x σ (.const s) (.fn fun _ => s)
  | vari (k : String) (s : ℝ) : Den x σ (.vari k s) (.fn fun y => s + (y k - x k))
  | make (s : ℝ) (d : SMap ℝ) (hd : (d.map Prod.fst).Nodup) :
      Den x σ (.make s d) (.fn fun y => s + (d.map fun e => e.2 * (y e.1 - x e.1)).sum)
  | negNum {e : SPyE ℝ V} {r : ℝ} (h : Den x σ e (.num r)) : Den x σ (.neg e) (.num (-r))
  | neg {e : SPyE ℝ V} {F : (String → ℝ) → ℝ} (h : Den x σ e (.fn F)) :
      Den x σ (.neg e) (.fn fun y => -F y)
  | absNum {e : SPyE ℝ V} {r : ℝ} (h : Den x σ e (.num r)) : Den x σ (.abs e) (.num |r|)
  | abs {e : SPyE ℝ V} {F : (String → ℝ) → ℝ} (h : Den x σ e (.fn F)) (hd : F x ≠ 0) :
      Den x σ (.abs e) (.fn fun y => |F y|)
  | fn {φ : Fn ℝ} {e : SPyE ℝ V} {F : (String → ℝ) → ℝ} (h : Den x σ e (.fn F))
      (hd : φ.dom 1 (F x)) : Den x σ (.fn φ e) (.fn fun y => φ.den (F y))
  | opNums {o : POp} {e₁ e₂ : SPyE ℝ V} {r s : ℝ} (h₁ : Den x σ e₁ (.num r))
      (h₂ : Den x σ e₂ (.num s)) (hd : o = .div → s ≠ 0) : Den x σ (.op o e₁ e₂) (.num (o.den r s))
  | opFns {o : POp} {e₁ e₂ : SPyE ℝ V} {F G : (String → ℝ) → ℝ} (h₁ : Den x σ e₁ (.fn F))
      (h₂ : Den x σ e₂ (.fn G)) (hd : o = .div → G x ≠ 0) :
      Den x σ (.op o e₁ e₂) (.fn fun y => o.den (F y) (G y))
  | opRight {o : POp} {e₁ e₂ : SPyE ℝ V} {F : (String → ℝ) → ℝ} {s : ℝ} (h₁ : Den x σ e₁ (.fn F))
      (h₂ : Den x σ e₂ (.num s)) (hd : o = .div → s ≠ 0) :
      Den x σ (.op o e₁ e₂) (.fn fun y => o.den (F y) s)
  | opLeft {o : POp} {e₁ e₂ : SPyE ℝ V} {r : ℝ} {G : (String → ℝ) → ℝ} (h₁ : Den x σ e₁ (.num r))
      (h₂ : Den x σ e₂ (.fn G)) (hd : o = .div → G x ≠ 0) :
      Den x σ (.op o e₁ e₂) (.fn fun y => o.den r (G y))
  | atan2 {e₁ e₂ : SPyE ℝ V} {F G : (String → ℝ) → ℝ} (h₁ : Den x σ e₁ (.fn F))
      (h₂ : Den x σ e₂ (.fn G)) (hd : F x ≠ 0 ∨ 0 < G x) :
      Den x σ (.atan2 e₁ e₂) (.fn fun y => Complex.arg ⟨G y, F y⟩)
  | hypot {e₁ e₂ : SPyE ℝ V} {F G : (String → ℝ) → ℝ} (h₁ : Den x σ e₁ (.fn F))
      (h₂ : Den x σ e₂ (.fn G)) (hd : F x ≠ 0 ∨ G x ≠ 0) :
      Den x σ (.hypot e₁ e₂) (.fn fun y => √(F y ^ 2 + G y ^ 2))
  | hypot3 {e₁ e₂ e₃ : SPyE ℝ V} {F G H : (String → ℝ) → ℝ} (h₁ : Den x σ e₁ (.fn F))
      (h₂ : Den x σ e₂ (.fn G)) (h₃ : Den x σ e₃ (.fn H)) (hd : F x ≠ 0 ∨ G x ≠ 0 ∨ H x ≠ 0) :
      Den x σ (.hypot3 e₁ e₂ e₃) (.fn fun y => √(F y ^ 2 + G y ^ 2 + H y ^ 2))
  | getF {e : SPyE ℝ V} {F : (String → ℝ) → ℝ} (h : Den x σ e (.fn F)) :
      Den x σ (.getF e) (.num (F x))
  | getD {e : SPyE ℝ V} {F : (String → ℝ) → ℝ} (k : String) (h : Den x σ e (.fn F)) :
      Den x σ (.getD e k) (.num (deriv (fun t => F (Function.update x k t)) (x k)))

/-- Meaning of a whole state: what the names are bound to, the function each object stands for, and
the number of objects made so far. -/
structure SMathSt (V : Type) where
  env : V → PyV ℝ
  mean : Nat → (String → ℝ) → ℝ
  next : Nat

namespace SMathSt

/-- What a name stands for. -/
def val (σ : SMathSt V) (v : V) : SMath :=
  match σ.env v with
  | .num r => .num r
  | .ref a => .fn (σ.mean a)

variable [DecidableEq V]

/-- The name `t` gets bound to `b`. -/
def bind (σ : SMathSt V) (t : V) (b : PyV ℝ) : SMathSt V :=
  { σ with env := fun v => if v = t then b else σ.env v }

/-- The object `a` gets the meaning `F`. -/
def write (σ : SMathSt V) (a : Nat) (F : (String → ℝ) → ℝ) : SMathSt V :=
  { σ with mean := fun b => if b = a then F else σ.mean b }

/-- The name `t` gets bound to a number, or to a new object. -/
def fresh (σ : SMathSt V) (t : V) : SMath → SMathSt V
  | .num r => σ.bind t (.num r)
  | .fn F => { (σ.write σ.next F).bind t (.ref σ.next) with next := σ.next + 1 }

end SMathSt

/-- The expression is a name of object `a`. -/
def SPyE.Names (σ : SMathSt V) (a : Nat) (e : SPyE ℝ V) : Prop :=
  ∃ s, e = .name s ∧ σ.env s = .ref a

/-- Meaning of a statement.  `t = s` makes a second name for an object.  `t o= e` with a function `e`
changes the object, whatever names it has; so do `t *= s` and `t /= s` with a number.  `t *= e` and
`t /= e` have no meaning here if `e` is a name of the object `t`. -/
inductive SPyStmt.Den [DecidableEq V] (x : String → ℝ) (σ : SMathSt V) :
    SPyStmt ℝ V → SMathSt V → Prop
  | share (t s : V) : Den x σ (.assign t (.name s)) (σ.bind t (σ.env s))
  | assign {t : V} {e : SPyE ℝ V} {m : SMath} (h : e.Den x σ.val m) (hn : ∀ s, e ≠ .name s) :
      Den x σ (.assign t e) (σ.fresh t m)
  | updFn {o : POp} {t : V} {e : SPyE ℝ V} {a : Nat} {G : (String → ℝ) → ℝ}
      (ht : σ.env t = .ref a) (h : e.Den x σ.val (.fn G)) (hd : o = .div → G x ≠ 0)
      (hs : o = .mul ∨ o = .div → ¬ e.Names σ a) :
      Den x σ (.upd o t e) (σ.write a fun y => o.den (σ.mean a y) (G y))
  | updScale {o : POp} {t : V} {e : SPyE ℝ V} {a : Nat} {s : ℝ} (ht : σ.env t = .ref a)
      (h : e.Den x σ.val (.num s)) (ho : o = .mul ∨ o = .div) (hd : o = .div → s ≠ 0) :
      Den x σ (.upd o t e) (σ.write a fun y => o.den (σ.mean a y) s)
  | updShift {o : POp} {t : V} {e : SPyE ℝ V} {a : Nat} {s : ℝ} (ht : σ.env t = .ref a)
      (h : e.Den x σ.val (.num s)) (ho : o = .add ∨ o = .sub) :
      Den x σ (.upd o t e) (σ.fresh t (.fn fun y => o.den (σ.mean a y) s))
  | updNum {o : POp} {t : V} {e : SPyE ℝ V} {r : ℝ} {m : SMath} (ht : σ.env t = .num r)
      (h : (SPyE.op o (.lit r) e).Den x σ.val m) : Den x σ (.upd o t e) (σ.fresh t m)

/-- Meaning of a program. -/
inductive SPyDen [DecidableEq V] (x : String → ℝ) :
    List (SPyStmt ℝ V) → SMathSt V → SMathSt V → Prop
  | nil (σ : SMathSt V) : SPyDen x [] σ σ
  | cons {s : SPyStmt ℝ V} {p : List (SPyStmt ℝ V)} {σ σ' σ'' : SMathSt V}
      (h : s.Den x σ σ') (hp : SPyDen x p σ' σ'') : SPyDen x (s :: p) σ σ''

/-- The state of the Python program has the meaning `σ`. -/
structure SPySt.IsAt (x : String → ℝ) (st : SPySt XReal V) (σ : SMathSt V) : Prop where
  next : st.next = σ.next
  env : ∀ v, (∃ r : ℝ, st.env v = .num (XReal.num r) ∧ σ.env v = .num r) ∨
    ∃ a < σ.next, st.env v = .ref a ∧ σ.env v = .ref a
  obj : ∀ a < σ.next, SIsAt x (st.heap a) (σ.mean a)

/-- Every object is a proper one, and every name is bound to a number or to an object. -/
structure SPySt.WF (st : SPySt α V) : Prop where
  env : ∀ v a, st.env v = .ref a → a < st.next
  obj : ∀ a < st.next, SWF (st.heap a)

/-- The maps given to `SScalar(s, {…})` have every key once (as every Python `dict`). -/
def SPyE.DictOk : SPyE α V → Prop
  | .make _ d => (d.map Prod.fst).Nodup
  | .neg e | .abs e | .fn _ e | .getF e | .getD e _ => e.DictOk
  | .op _ e₁ e₂ | .atan2 e₁ e₂ | .hypot e₁ e₂ => e₁.DictOk ∧ e₂.DictOk
  | .hypot3 e₁ e₂ e₃ => e₁.DictOk ∧ e₂.DictOk ∧ e₃.DictOk
  | _ => True

/-- The same for statements. -/
def SPyStmt.DictOk : SPyStmt α V → Prop
  | .assign _ e | .upd _ _ e => e.DictOk

/-- Two states that cannot be told apart by reading names, `f`, `size`, `d(name)`, and asking for
the identity of objects. -/
structure SameSt [Arith α] (st st' : SPySt α V) : Prop where
  env : st.env = st'.env
  next : st.next = st'.next
  obj : ∀ a < st.next, SameSS (st.heap a) (st'.heap a)

/-- Change the scalar constants. -/
def SPyE.map {β : Type} (f : α → β) : SPyE α V → SPyE β V
  | .name v => .name v
  | .lit s => .lit (f s)
  | .const s => .const (f s)
  | .vari k s => .vari k (f s)
  | .make s d => .make (f s) (d.map fun e => (e.1, f e.2))
  | .neg e => .neg (e.map f)
  | .abs e => .abs (e.map f)
  | .fn φ e => .fn (φ.map f) (e.map f)
  | .op o e₁ e₂ => .op o (e₁.map f) (e₂.map f)
  | .atan2 e₁ e₂ => .atan2 (e₁.map f) (e₂.map f)
  | .hypot e₁ e₂ => .hypot (e₁.map f) (e₂.map f)
  | .hypot3 e₁ e₂ e₃ => .hypot3 (e₁.map f) (e₂.map f) (e₃.map f)
  | .getF e => .getF (e.map f)
  | .getD e k => .getD (e.map f) k

/-- Change the scalar constants. -/
def SPyStmt.map {β : Type} (f : α → β) : SPyStmt α V → SPyStmt β V
  | .assign t e => .assign t (e.map f)
  | .upd o t e => .upd o t (e.map f)

end HJ
