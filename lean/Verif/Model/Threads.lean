import Verif.Model.Caller
import Mathlib.Logic.Function.Basic

/-!
# Threads

Several pieces of client code that run at the same time on one memory of jets.  One step of a thread is
one call of the library; a schedule says whose turn it is.  `hyperjet.h` has no global or static
variables that are written (lines 1-2939), so the memory is that of the objects.
-/

namespace HJ

variable {C R T : Type}

/-- One call of client code; nothing happens if it is done.  A failed assertion or undefined behaviour
ends the program. (Language, no line of `hyperjet.h`.) -/
def Caller.step {Q : Type} (cl : Caller C R Q) (L : Library C R T) (q : Q) (st : T) : Res Q × T :=
  match cl.next q with
  | none => (.ok q, st)
  | some a =>
    match L a st with
    | (.ok r, st') => (.ok (cl.after q r), st')
    | (.throw e, st') => (.throw e, st')
    | (.abort, st') => (.abort, st')
    | (.ub u, st') => (.ub u, st')

/-- `k` calls of client code, less if it is done or fails. (Language, no line of `hyperjet.h`.) -/
def Caller.steps {Q : Type} (cl : Caller C R Q) (L : Library C R T) : Nat → Q → T → Res Q × T
  | 0, q, st => (.ok q, st)
  | k + 1, q, st =>
    match cl.step L q st with
    | (.ok q', st') => cl.steps L k q' st'
    | (.throw e, st') => (.throw e, st')
    | (.abort, st') => (.abort, st')
    | (.ub u, st') => (.ub u, st')

/-- Threads `I` that take turns according to a schedule.  A failure of one ends all of them.
(Language, no line of `hyperjet.h`.) -/
def runThreads {I : Type} [DecidableEq I] {Q : I → Type} (cl : (t : I) → Caller C R (Q t))
    (L : Library C R T) : List I → ((t : I) → Q t) → T → Res ((t : I) → Q t) × T
  | [], q, st => (.ok q, st)
  | t :: l, q, st =>
    match (cl t).step L (q t) st with
    | (.ok p, st') => runThreads cl L l (Function.update q t p) st'
    | (.throw e, st') => (.throw e, st')
    | (.abort, st') => (.abort, st')
    | (.ub u, st') => (.ub u, st')

end HJ
