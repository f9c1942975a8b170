import Verif.Model.PyCaller
import Verif.Spec.Caller
import Verif.Spec.PyCells
import Verif.Spec.SPyControl
import Verif.Spec.Watch

/-!
# Specification: arbitrary Python client code
-/

open scoped Topology

namespace HJ

variable {α β V W S S' B B' A Q : Type}

/-- Change statements and comparisons. -/
def PyCall.map (f : S → S') (g : B → B') : PyCall S B V → PyCall S' B' V
  | .act s => .act (f s)
  | .ask b => .ask (g b)
  | .look v => .look v

/-- All parts have a property. -/
def PyCall.Each (P : S → Prop) (Q : B → Prop) : PyCall S B V → Prop
  | .act s => P s
  | .ask b => Q b
  | .look _ => True

/-- The answers a call can have; `E` are the possible exceptions. -/
inductive PyCall.Answers (E : Err → Prop) : PyCall S B V → Answer α → Prop
  | done (s : S) : Answers E (.act s) .done
  | truth (b : B) (r : Bool) : Answers E (.ask b) (.truth r)
  | number (v : V) (x : α) : Answers E (.look v) (.number x)
  | threw (k : PyCall S B V) {e : Err} (h : E e) : Answers E k (.threw e)

/-- Client code that stays within the calls `P` as long as it gets possible answers: `I` are the states it
can be in. -/
def Caller.Within (cl : Caller (PyCall S B V) (Answer α) Q) (E : Err → Prop) (P : PyCall S B V → Prop)
    (I : Q → Prop) : Prop :=
  ∀ q k, I q → cl.next q = some k → P k ∧ ∀ r, k.Answers E r → I (cl.after q r)

/-- The exceptions of programs on dense jets. -/
inductive DenseErr : Err → Prop
  | zeroDivision : DenseErr .zeroDivision
  | attributeError : DenseErr .attributeError
  | typeError : DenseErr .typeError
  | indexError : DenseErr .indexError

/-- The exceptions of programs on sparse scalars. -/
inductive SparseErr : Err → Prop
  | zeroDivision : SparseErr .zeroDivision
  | attributeError : SparseErr .attributeError
  | typeError : SparseErr .typeError

/-- Calls on mathematical states: `step` says what statements do, `test` what comparisons give, `number`
which number a name is bound to (`none`: an object). -/
inductive PyDoes (step : S → A → A → Prop) (test : B → A → Bool → Prop) (number : A → V → Option ℝ) :
    PyCall S B V → A → Answer ℝ → A → Prop
  | act {s : S} {a a' : A} (h : step s a a') : PyDoes step test number (.act s) a .done a'
  | ask {b : B} {a : A} {r : Bool} (h : test b a r) : PyDoes step test number (.ask b) a (.truth r) a
  | look {v : V} {a : A} {x : ℝ} (h : number a v = some x) :
      PyDoes step test number (.look v) a (.number x) a
  | noNumber {v : V} {a : A} (h : number a v = none) :
      PyDoes step test number (.look v) a (.threw .typeError) a

/-- The same without `float(v)`. -/
inductive PyMakes (step : S → A → A → Prop) (test : B → A → Bool → Prop) :
    PyCall S B V → A → Answer ℝ → A → Prop
  | act {s : S} {a a' : A} (h : step s a a') : PyMakes step test (.act s) a .done a'
  | ask {b : B} {a : A} {r : Bool} (h : test b a r) : PyMakes step test (.ask b) a (.truth r) a

/-- The number, if it is one. -/
def PyV.number? : PyV α → Option α
  | .num x => some x
  | .ref _ => none

/-- The same client code in another arithmetic. -/
noncomputable def Caller.encoded (cl : Caller (PyCall S B V) (Answer ℝ) Q) (f : S → S') (g : B → B') :
    Caller (PyCall S' B' V) (Answer XReal) Q :=
  cl.map (PyCall.map f g) (Answer.map XReal.real)

section calls
variable [DecidableEq V] {n : Nat}

/-- Dense jets as functions at `x`: statements change functions, comparisons look at the values at `x`. -/
def PyPointCall (order : Nat) (x : Fin n → ℝ) : PyCall (PyStmt ℝ V W) (PyCond ℝ V) V → MathSt n V →
    Answer ℝ → MathSt n V → Prop :=
  PyDoes (fun s σ σ' => s.Means order x σ σ')
    (fun b σ r => b.Inside order x σ ∧ (r = true ↔ b.Holds x x (σ.at x))) fun σ v => (σ.env v).number?

/-- The same without `float(v)`, without throwing derivatives away and without ties. -/
def PySureCall (order : Nat) (x : Fin n → ℝ) : PyCall (PyStmt ℝ V W) (PyCond ℝ V) V → MathSt n V →
    Answer ℝ → MathSt n V → Prop :=
  PyMakes (fun s σ σ' => s.Smooth ∧ s.Means order x σ σ')
    (fun b σ r => b.Inside order x σ ∧
      b.left.real x x (σ.at x).read ≠ b.right.real x x (σ.at x).read ∧ (r = true ↔ b.Holds x x (σ.at x)))

/-- Plain numbers in place of jets, at the point `y`. -/
def PyRealCall (x y : Fin n → ℝ) : PyCall (PyStmt ℝ V W) (PyCond ℝ V) V → PtSt V → Answer ℝ → PtSt V →
    Prop :=
  PyMakes (fun s σ σ' => σ' = s.real x y σ) (fun b σ r => r = true ↔ b.Holds x y σ)

/-- Sparse scalars as functions at `x`. -/
def SPyPointCall (x : String → ℝ) : PyCall (SPyStmt ℝ V) (SPyCond ℝ V) V → SMathSt V → Answer ℝ →
    SMathSt V → Prop :=
  PyDoes (fun s σ σ' => s.Den x σ σ')
    (fun b σ r => ∃ m k, b.left.Den x σ.val m ∧ b.right.Den x σ.val k ∧
      (r = true ↔ b.op.rel (m.at x) (k.at x))) fun σ v => (σ.env v).number?

/-- The same without `float(v)`, without throwing derivatives away and without ties. -/
def SPySureCall (x : String → ℝ) : PyCall (SPyStmt ℝ V) (SPyCond ℝ V) V → SMathSt V → Answer ℝ →
    SMathSt V → Prop :=
  PyMakes (fun s σ σ' => s.Smooth ∧ s.Den x σ σ')
    (fun b σ r => b.Inside x σ ∧ b.left.real x x (σ.at x).read ≠ b.right.real x x (σ.at x).read ∧
      (r = true ↔ b.Holds x x (σ.at x)))

/-- Plain numbers in place of sparse scalars, at the point `y`. -/
def SPyRealCall (x y : String → ℝ) : PyCall (SPyStmt ℝ V) (SPyCond ℝ V) V → PtSt V → Answer ℝ →
    PtSt V → Prop :=
  PyMakes (fun s σ σ' => σ' = s.real x y σ) (fun b σ r => r = true ↔ b.Holds x y σ)

end calls

end HJ
