import Verif.Model.Caller
import Verif.Spec.PreciseRun
import Verif.Spec.Local

/-!
# Specification: arbitrary client code

The client code on plain scalars, on real numbers and on functions of the point.
-/

open scoped Topology

namespace HJ

variable {C R Q A V : Type}

/-- The client code, started in state `q` on `a`, ends in state `q'` on `a'`; `call` says what the calls
do and which answers they give. -/
inductive Caller.Ends (cl : Caller C R Q) (call : C → A → R → A → Prop) : Q → A → Q → A → Prop
  | stop {q : Q} {a : A} (h : cl.next q = none) : Ends cl call q a q a
  | call {q q' : Q} {a a' a'' : A} {k : C} {r : R} (h : cl.next q = some k) (hk : call k a r a')
      (rest : Ends cl call (cl.after q r) a' q' a'') : Ends cl call q a q' a''

/-- The client code with other constants; it gets the answers of `C`. -/
def Caller.map {C' R' : Type} (f : C → C') (g : R' → R) (cl : Caller C R Q) : Caller C' R' Q where
  next q := (cl.next q).map f
  after q r := cl.after q (g r)

/-- Change the scalar constants. -/
def Call.map {α β : Type} (f : α → β) : Call α V → Call β V
  | .act s => .act (s.map f)
  | .ask b => .ask (b.map f)
  | .f v => .f v
  | .g v i => .g v i
  | .h v i j => .h v i j

/-- Change the numbers. -/
def Answer.map {α β : Type} (f : α → β) : Answer α → Answer β
  | .done => .done
  | .truth b => .truth b
  | .number x => .number (f x)
  | .threw e => .threw e

/-- The call has valid indices. -/
def Call.Valid {α : Type} (P : Stmt α V → Prop) (order n : Nat) : Call α V → Prop
  | .act s => P s
  | .ask _ => True
  | .f _ => True
  | .g _ i => 0 ≤ i ∧ i < n
  | .h _ i j => order = 2 ∧ 0 ≤ i ∧ i < n ∧ 0 ≤ j ∧ j < n

/-- The call does not read derivatives. -/
def Call.NoDerivs {α : Type} (P : Stmt α V → Prop) : Call α V → Prop
  | .act s => P s
  | .ask _ => True
  | .f _ => True
  | .g _ _ => False
  | .h _ _ _ => False

/-- The library of plain scalars (there are no derivatives to be read). -/
def plainLibrary (α V : Type) [CMath α] [DecidableEq V] : Library (Call α V) (Answer α) (V → α)
  | .act s, σ => (.ok .done, s.plain σ)
  | .ask b, σ => (.ok (.truth (b.plain σ)), σ)
  | .f v, σ => (.ok (.number (σ v)), σ)
  | .g _ _, σ => (.ok (.number (Arith.lit 0)), σ)
  | .h _ _ _, σ => (.ok (.number (Arith.lit 0)), σ)

section
variable [DecidableEq V] {n : Nat}

/-- Calls on real values.  Reading numbers is left out: what is computed from them is not followed by
the derivatives. -/
inductive RealCall : Call ℝ V → (V → ℝ) → Answer ℝ → (V → ℝ) → Prop
  | act (s : Stmt ℝ V) (σ : V → ℝ) : RealCall (.act s) σ .done (s.den σ)
  | ask (b : Cond ℝ V) (σ : V → ℝ) {r : Bool} (h : r = true ↔ b.Holds σ) :
      RealCall (.ask b) σ (.truth r) σ

/-- The same, inside the domains and without ties. -/
inductive SureCall (order n : Nat) : Call ℝ V → (V → ℝ) → Answer ℝ → (V → ℝ) → Prop
  | act (s : Stmt ℝ V) (σ : V → ℝ) (hs : s.Ok order n σ) : SureCall order n (.act s) σ .done (s.den σ)
  | ask (b : Cond ℝ V) (σ : V → ℝ) {r : Bool} (hb : b.Sure order σ) (h : r = true ↔ b.Holds σ) :
      SureCall order n (.ask b) σ (.truth r) σ

omit [DecidableEq V] in
/-- `pow` is applied to positive numbers only. -/
def Call.PowPos (σ : V → ℝ) : Call ℝ V → Prop
  | .act s => s.PowPos σ
  | .ask b => b.PowPos σ
  | _ => True

/-- Moreover `pow` is applied to positive numbers only. -/
def PreciseCall (order n : Nat) (k : Call ℝ V) (σ : V → ℝ) (r : Answer ℝ) (σ' : V → ℝ) : Prop :=
  SureCall order n k σ r σ' ∧ k.PowPos σ

/-- Calls on values that are functions `u` of the point, executed at the point `x`: statements change the
functions; comparisons look at the values; reading gives values and partial derivatives. -/
inductive PointCall (order : Nat) (x : Fin n → ℝ) :
    Call XReal V → ((Fin n → ℝ) → V → ℝ) → Answer XReal → ((Fin n → ℝ) → V → ℝ) → Prop
  | act (s : Stmt ℝ V) (u : (Fin n → ℝ) → V → ℝ) (hs : s.Ok order n (u x)) :
      PointCall order x (.act (s.map .num)) u .done (fun y => s.den (u y))
  | ask (b : Cond ℝ V) (u : (Fin n → ℝ) → V → ℝ) {r : Bool} (hb : b.Inside order (u x))
      (h : r = true ↔ b.Holds (u x)) : PointCall order x (.ask (b.map .num)) u (.truth r) u
  | f (v : V) (u : (Fin n → ℝ) → V → ℝ) : PointCall order x (.f v) u (.number (.num (u x v))) u
  | g (v : V) (i : Fin n) (u : (Fin n → ℝ) → V → ℝ) :
      PointCall order x (.g v i) u (.number (.num (partialD (fun y => u y v) x i))) u
  | h (v : V) (i j : Fin n) (u : (Fin n → ℝ) → V → ℝ) (ho : order = 2) :
      PointCall order x (.h v i j) u (.number (.num (partialDD (fun y => u y v) x i j))) u

end

end HJ
