import Verif.Model.Caller
import Verif.Model.PyControl

/-!
# Arbitrary Python client code

Python code of any kind - functions, lists, dictionaries, recursion, `try`/`except` - as seen from the
extension module: in every state of its own it either is done or does something with jets, and the answer
decides its next state.  Names stand for whatever holds a reference: variables, list elements, attributes.
-/

namespace HJ

variable {α V W : Type}

/-- What Python client code does with jets: a statement, a comparison, `float(v)`.
(Python language; statements and comparisons: `common.h` lines 26-220, `bind_sscalar.cpp` lines 7-112.) -/
inductive PyCall (S B V : Type) where
  | act (s : S)
  | ask (b : B)
  | look (v : V)

/-- The library with the given statements, comparisons and bindings.  Exceptions are answers; a jet cannot
be made a `float`. (Python language.) -/
def Machine.library {S B T : Type} (M : Machine S B T) (env : T → V → PyV α) :
    Library (PyCall S B V) (Answer α) T
  | .act s, st => (Answer.of (fun _ => .done) (M.step s st).1, (M.step s st).2)
  | .ask b, st => (Answer.of .truth (M.test b st), st)
  | .look v, st =>
    match env st v with
    | .num x => (.ok (.number x), st)
    | .ref _ => (.ok (.threw .typeError), st)

/-- The dense classes as Python client code sees them (`common.h` lines 26-220). -/
def pyLibrary (α V W : Type) [CMath α] [DecidableEq V] [DecidableEq W] (c : Cfg) (n : Nat) :
    Library (PyCall (PyStmt α V W) (PyCond α V) V) (Answer α) (PySt α V W) :=
  (pyMachine α V W c n).library PySt.env

/-- `SScalar` as Python client code sees it (`bind_sscalar.cpp` lines 7-112). -/
def spyLibrary (α V : Type) [CMath α] [DecidableEq V] :
    Library (PyCall (SPyStmt α V) (SPyCond α V) V) (Answer α) (Order α × SPySt α V) :=
  (spyMachine α V).library fun st => st.2.env

end HJ
