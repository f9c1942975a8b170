import Verif.Model.Program

/-!
# Programs with branches and loops

C++ user code in which comparisons of jets decide what is executed next: `if`, `while`, `!`, `&&`,
`||`.  The statements and the elementary conditions are those of a *machine*; the machine of C++ code
on dense jets is `ddMachine`.
-/

namespace HJ

/-- Conditions built from elementary ones `B` (C++ and Python language). -/
inductive Test (B : Type) where
  | atom (b : B)
  | not (t : Test B)
  | and (s t : Test B)
  | or (s t : Test B)

/-- Programs built from statements `S` (C++ and Python language). -/
inductive Ctl (S B : Type) where
  | skip
  | act (s : S)
  | seq (p q : Ctl S B)
  /-- `if (t) p else q` -/
  | ite (t : Test B) (p q : Ctl S B)
  /-- `while (t) p` -/
  | loop (t : Test B) (p : Ctl S B)

/-- What statements and elementary conditions do to a state `T`. (Language, no line of `hyperjet.h`.) -/
structure Machine (S B T : Type) where
  step : S → T → Res Unit × T
  test : B → T → Res Bool

variable {S B T : Type}

/-- Evaluate a condition; `&&` and `||` skip the second operand if the first one decides.
(C++ and Python language, no line of `hyperjet.h`.) -/
def Test.run (M : Machine S B T) : Test B → T → Res Bool
  | .atom b, st => M.test b st
  | .not t, st => do
      let r ← t.run M st
      .ok !r
  | .and s t, st => do
      if ← s.run M st then t.run M st else .ok false
  | .or s t, st => do
      if ← s.run M st then .ok true else t.run M st

/-- At most `k` rounds of `while`; `none` if that is not enough.  A throwing condition or body ends
the loop. (C++ and Python language, no line of `hyperjet.h`.) -/
def whileN (test : T → Res Bool) (body : T → Option (Res Unit × T)) : Nat → T → Option (Res Unit × T)
  | 0, _ => none
  | k + 1, st =>
    match test st with
    | .ok false => some (.ok (), st)
    | .ok true =>
      match body st with
      | some (.ok (), st') => whileN test body k st'
      | r => r
    | .throw e => some (.throw e, st)
    | .abort => some (.abort, st)
    | .ub u => some (.ub u, st)

/-- Run a program with at most `fuel` rounds of every loop (each time it is entered); `none` if that
is not enough. (C++ and Python language, no line of `hyperjet.h`.) -/
def Ctl.run (M : Machine S B T) (fuel : Nat) : Ctl S B → T → Option (Res Unit × T)
  | .skip, st => some (.ok (), st)
  | .act s, st => some (M.step s st)
  | .seq p q, st =>
    match p.run M fuel st with
    | some (.ok (), st') => q.run M fuel st'
    | r => r
  | .ite t p q, st =>
    match t.run M st with
    | .ok true => p.run M fuel st
    | .ok false => q.run M fuel st
    | .throw e => some (.throw e, st)
    | .abort => some (.abort, st)
    | .ub u => some (.ub u, st)
  | .loop t p, st => whileN (t.run M) (p.run M fuel) fuel st

/-- Comparisons in user code, of jets and scalars (`hyperjet.h` lines 1666-1754). -/
inductive Cond (α V : Type) where
  /-- `e₁ op e₂` -/
  | cmp (op : DD.CmpOp) (e₁ e₂ : Expr α V)
  /-- `e op s` -/
  | cmpS (op : DD.CmpOp) (e : Expr α V) (s : α)
  /-- `s op e` -/
  | sCmp (op : DD.CmpOp) (s : α) (e : Expr α V)

/-- Evaluate a comparison of jets of `n` variables (`hyperjet.h` lines 1666-1754). -/
def Cond.run {α V : Type} [CMath α] (c : Cfg) (n : Nat) (ρ : Store α V) : Cond α V → Res Bool
  | .cmp op e₁ e₂ => do
      let x ← e₁.evalDD c n ρ
      let y ← e₂.evalDD c n ρ
      DD.cmp op x y
  | .cmpS op e s => do
      let x ← e.evalDD c n ρ
      DD.cmpS op x s
  | .sCmp op s e => do
      let x ← e.evalDD c n ρ
      DD.sCmp op s x

/-- C++ code on dense jets (`hyperjet.h` lines 707-792, 970-1754). -/
def ddMachine (α V : Type) [CMath α] [DecidableEq V] (c : Cfg) (n : Nat) :
    Machine (Stmt α V) (Cond α V) (Store α V) where
  step s ρ := s.run c n ρ
  test b ρ := b.run c n ρ

end HJ
