import Verif.Model.Caller
import Verif.Model.SS

/-!
# C++ client code on `SScalar`

Statements on sparse scalars declared under names (value semantics, every name is its own object),
comparisons, and reading values and derivatives.  Where a hash table is copied or enlarged the oracle is
asked for its new order (see `Model/SS.lean`).  `eval` and the text output are not among the calls.
-/

namespace HJ

variable {α V : Type}

/-- Statements. User code calling `hyperjet.h` lines 2044-2063, 2129-2609. -/
inductive SStmt (α V : Type) where
  /-- `t = e;` -/
  | assign (t : V) (e : Expr α V)
  /-- `t = SScalar::variable(k, s);` -/
  | vari (t : V) (k : String) (s : α)
  /-- `t = SScalar(s, {{k, g}, ...});` -/
  | make (t : V) (s : α) (d : SMap α)
  /-- `t op= e;` (`e` may be a name, also `t` itself, or a compound expression, i.e. a temporary) -/
  | upd (o : AOp) (t : V) (e : Expr α V)
  /-- `t op= s;` with a scalar (`f()` and `d(k)` return copies, lines 2071, 2076) -/
  | updS (o : AOp) (t : V) (s : α)

/-- `x op= b` with a sparse scalar (`hyperjet.h` lines 2166, 2208, 2253, 2309). -/
def AOp.runSS [Arith α] (ord : Order α) : AOp → SS α → SS.Operand α → Res (SS α)
  | .add => SS.addAssign ord
  | .sub => SS.subAssign ord
  | .mul => SS.mulAssign ord
  | .div => SS.divAssign ord

/-- `x op= s` with a scalar (`hyperjet.h` lines 2176, 2218, 2269, 2327). -/
def AOp.runSSs [Arith α] : AOp → SS α → α → Res (SS α)
  | .add => SS.addAssignS
  | .sub => SS.subAssignS
  | .mul => SS.mulAssignS
  | .div => SS.divAssignS

/-- The implicit copy assignment (`hyperjet.h` line 1990): the hash table is copied. -/
def SS.copied (ord : Order α) (x : SS α) : Res (SS α) := do
  let v ← x.f
  .ok ⟨some v, ord [0] x.mD⟩

/-- The sparse scalars by name. User code, no line of `hyperjet.h`. -/
abbrev SStore (α V : Type) := V → SS α

variable [DecidableEq V]

/-- Outcome of computing or changing the object `t`: stored if that succeeds
(`hyperjet.h` line 1990: implicit assignment of `SScalar`; lines 2166-2332). -/
def SStore.put (ρ : SStore α V) (t : V) : Res (SS α) → Res Unit × SStore α V
  | .ok x => (.ok (), fun v => if v = t then x else ρ v)
  | .throw e => (.throw e, ρ)
  | .abort => (.abort, ρ)
  | .ub u => (.ub u, ρ)

/-- The right operand of `t op= e`: a name refers to the object itself, any other expression to a
temporary. (`hyperjet.h` lines 2166, 2208, 2253, 2309: parameter `const Type &b`.) -/
def SStore.operand [CMath α] (ord : Order α) (ρ : SStore α V) (t : V) (e : Expr α V) :
    Res (SS.Operand α) :=
  match e with
  | .var s => if s = t then .ok .self else .ok (.obj (ρ s))
  | e => do
      let y ← e.evalSS ord ρ
      .ok (.obj y)

/-- Run one statement. (`hyperjet.h` lines 2044-2063, 2129-2609.) -/
def SStmt.run [CMath α] (ord : Order α) (ρ : SStore α V) : SStmt α V → Res Unit × SStore α V
  | .assign t (.var s) => ρ.put t ((ρ s).copied ord)
  | .assign t e => ρ.put t (e.evalSS ord ρ)
  | .vari t k s => ρ.put t (.ok (SS.var ord k s))
  | .make t s d => ρ.put t (.ok (SS.make ord s d))
  | .upd o t e => ρ.put t (do
      let b ← ρ.operand (ord.sub 1) t e
      o.runSS (ord.sub 0) (ρ t) b)
  | .updS o t s => ρ.put t (o.runSSs (ρ t) s)

omit [DecidableEq V] in
/-- Evaluate a comparison (`hyperjet.h` lines 2612-2705). -/
def Cond.runSS [CMath α] (ord : Order α) (ρ : SStore α V) : Cond α V → Res Bool
  | .cmp op e₁ e₂ => do
      let x ← e₁.evalSS (ord.sub 0) ρ
      let y ← e₂.evalSS (ord.sub 1) ρ
      SS.cmp op x y
  | .cmpS op e s => do
      let x ← e.evalSS ord ρ
      SS.cmpS op x s
  | .sCmp op s e => do
      let x ← e.evalSS ord ρ
      SS.sCmp op s x

/-- Calls on sparse scalars: statements, comparisons, reading a component as a number
(`hyperjet.h` lines 2044-2084, 2129-2705). -/
inductive SCall (α V : Type) where
  | act (s : SStmt α V)
  | ask (b : Cond α V)
  /-- `v.f()` -/
  | f (v : V)
  /-- `v.d(k)` -/
  | d (v : V) (k : String)
  /-- `v.size()` gives the number of stored derivatives; the answer is whether it is `m` -/
  | size (v : V) (m : Int)

/-- The library of sparse scalars (`hyperjet.h` lines 2044-2084, 2129-2705).  The state contains the
oracle for the iteration orders; every statement and the comparisons between two statements use a new part
of it. -/
def ssLibrary (α V : Type) [CMath α] [DecidableEq V] :
    Library (SCall α V) (Answer α) (Order α × SStore α V)
  | .act s, st => (Answer.of (fun _ => .done) (s.run (st.1.sub 0) st.2).1,
      (st.1.sub 1, (s.run (st.1.sub 0) st.2).2))
  | .ask b, st => (Answer.of .truth (b.runSS (st.1.sub 2) st.2), st)
  | .f v, st => (Answer.of .number (st.2 v).f, st)
  | .d v k, st => (.ok (.number ((st.2 v).d k)), st)
  | .size v m, st => (.ok (.truth (decide ((st.2 v).size = m))), st)

end HJ
