import Verif.Model.Control

/-!
# Arbitrary client code

C++ user code of any kind - loops with integer counters, arrays, recursion, data structures, classes,
`try`/`catch` - as seen from the library: in every state of its own it either is done or makes a call,
and the answer of the call decides its next state.  The states are of any type and the transitions are
any functions, so nothing is assumed of the client code but that it is deterministic and reaches the
jets through calls only.
-/

namespace HJ

/-- Client code with calls `C`, answers `R` and states `Q`. User code, no line of `hyperjet.h`. -/
structure Caller (C R Q : Type) where
  /-- the call to be made in a state; `none` if the code is done -/
  next : Q → Option C
  /-- the state after the answer -/
  after : Q → R → Q

/-- What the library does with a call, in states `T` of the memory.
(Language, no line of `hyperjet.h`.) -/
abbrev Library (C R T : Type) := C → T → Res R × T

/-- Run client code up to its end, with less than `k` calls; `none` if that is not enough.  A failed
assertion or undefined behaviour ends the run. (Language, no line of `hyperjet.h`.) -/
def Caller.run {C R Q T : Type} (cl : Caller C R Q) (L : Library C R T) : Nat → Q → T → Option
    (Res Q × T)
  | 0, _, _ => none
  | k + 1, q, st =>
    match cl.next q with
    | none => some (.ok q, st)
    | some a =>
      match L a st with
      | (.ok r, st') => cl.run L k (cl.after q r) st'
      | (.throw e, st') => some (.throw e, st')
      | (.abort, st') => some (.abort, st')
      | (.ub u, st') => some (.ub u, st')

/-- Calls on dense jets: statements, comparisons, reading a component as a number
(`hyperjet.h` lines 707-792, 970-1754). -/
inductive Call (α V : Type) where
  | act (s : Stmt α V)
  | ask (b : Cond α V)
  /-- `v.f()` -/
  | f (v : V)
  /-- `v.g(i)` -/
  | g (v : V) (i : Int)
  /-- `v.h(i, j)` -/
  | h (v : V) (i j : Int)

/-- What the client code gets back. (C++ language; `threw` is an exception that it may catch.) -/
inductive Answer (α : Type) where
  | done
  | truth (b : Bool)
  | number (x : α)
  | threw (e : Err)

/-- Make an answer of the outcome of a call. (C++ language: `try { ... } catch`.) -/
def Answer.of {α A : Type} (f : A → Answer α) : Res A → Res (Answer α)
  | .ok a => .ok (f a)
  | .throw e => .ok (.threw e)
  | .abort => .abort
  | .ub u => .ub u

/-- The library of dense jets of `n` variables (`hyperjet.h` lines 707-792, 970-1754). -/
def ddLibrary (α V : Type) [CMath α] [DecidableEq V] (c : Cfg) (n : Nat) :
    Library (Call α V) (Answer α) (Store α V)
  | .act s, ρ => (Answer.of (fun _ => .done) (s.run c n ρ).1, (s.run c n ρ).2)
  | .ask b, ρ => (Answer.of .truth (b.run c n ρ), ρ)
  | .f v, ρ => (Answer.of .number (ρ v).f, ρ)
  | .g v i, ρ => (Answer.of .number ((ρ v).g c i), ρ)
  | .h v i j, ρ => (Answer.of .number ((ρ v).h c i j), ρ)

end HJ
