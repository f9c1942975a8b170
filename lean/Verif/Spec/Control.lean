import Verif.Model.Control
import Verif.Spec.Program
import Verif.Spec.Plain
import Verif.Spec.PyValues
import Verif.Spec.Calculus

/-!
# Specification: programs with branches and loops

The usual big-step semantics of `if` and `while`, and the same program on plain scalars.
-/

open scoped Topology

namespace HJ

variable {S B A : Type}

/-- A condition gives a truth value; `test` says what elementary conditions give. -/
inductive Test.Gives (test : B → A → Bool → Prop) (a : A) : Test B → Bool → Prop
  | atom {b : B} {r : Bool} (h : test b a r) : Gives test a (.atom b) r
  | not {t : Test B} {r : Bool} (h : Gives test a t r) : Gives test a (.not t) (!r)
  | andF {s t : Test B} (h : Gives test a s false) : Gives test a (.and s t) false
  | andT {s t : Test B} {r : Bool} (h : Gives test a s true) (h' : Gives test a t r) :
      Gives test a (.and s t) r
  | orT {s t : Test B} (h : Gives test a s true) : Gives test a (.or s t) true
  | orF {s t : Test B} {r : Bool} (h : Gives test a s false) (h' : Gives test a t r) :
      Gives test a (.or s t) r

/-- A program started in `a` ends in `a'`; `step` says what the statements do. -/
inductive Runs (step : S → A → A → Prop) (test : B → A → Bool → Prop) : Ctl S B → A → A → Prop
  | skip (a : A) : Runs step test .skip a a
  | act {s : S} {a a' : A} (h : step s a a') : Runs step test (.act s) a a'
  | seq {p q : Ctl S B} {a a' a'' : A} (h : Runs step test p a a') (h' : Runs step test q a' a'') :
      Runs step test (.seq p q) a a''
  | iteT {t : Test B} {p q : Ctl S B} {a a' : A} (ht : t.Gives test a true)
      (h : Runs step test p a a') : Runs step test (.ite t p q) a a'
  | iteF {t : Test B} {p q : Ctl S B} {a a' : A} (ht : t.Gives test a false)
      (h : Runs step test q a a') : Runs step test (.ite t p q) a a'
  | loopF {t : Test B} {p : Ctl S B} {a : A} (ht : t.Gives test a false) :
      Runs step test (.loop t p) a a
  | loopT {t : Test B} {p : Ctl S B} {a a' a'' : A} (ht : t.Gives test a true)
      (h : Runs step test p a a') (h' : Runs step test (.loop t p) a' a'') :
      Runs step test (.loop t p) a a''

/-- Every statement of the program satisfies `P`. -/
def Ctl.All (P : S → Prop) : Ctl S B → Prop
  | .skip => True
  | .act s => P s
  | .seq p q => p.All P ∧ q.All P
  | .ite _ p q => p.All P ∧ q.All P
  | .loop _ p => p.All P

/-- Every elementary condition satisfies `Q`. -/
def Test.All (Q : B → Prop) : Test B → Prop
  | .atom b => Q b
  | .not t => t.All Q
  | .and s t => s.All Q ∧ t.All Q
  | .or s t => s.All Q ∧ t.All Q

/-- Every statement of the program satisfies `P` and every elementary condition satisfies `Q`. -/
def Ctl.Each (P : S → Prop) (Q : B → Prop) : Ctl S B → Prop
  | .skip => True
  | .act s => P s
  | .seq p q => p.Each P Q ∧ q.Each P Q
  | .ite t p q => t.All Q ∧ p.Each P Q ∧ q.Each P Q
  | .loop t p => t.All Q ∧ p.Each P Q

/-! ## Real numbers -/

section
variable {V : Type}

/-- The comparison holds for the real values `σ`. -/
def Cond.Holds (σ : V → ℝ) : Cond ℝ V → Prop
  | .cmp op e₁ e₂ => op.rel (e₁.den σ) (e₂.den σ)
  | .cmpS op e s => op.rel (e.den σ) s
  | .sCmp op s e => op.rel s (e.den σ)

/-- Both sides of the comparison are inside the domains of their operations. -/
def Cond.Inside (order : Nat) (σ : V → ℝ) : Cond ℝ V → Prop
  | .cmp _ e₁ e₂ => (e₁.Dom order σ ∧ e₁.Regular σ) ∧ e₂.Dom order σ ∧ e₂.Regular σ
  | .cmpS _ e _ => e.Dom order σ ∧ e.Regular σ
  | .sCmp _ _ e => e.Dom order σ ∧ e.Regular σ

/-- Moreover they are not equal. -/
def Cond.Sure (order : Nat) (σ : V → ℝ) (b : Cond ℝ V) : Prop :=
  b.Inside order σ ∧
    match b with
    | .cmp _ e₁ e₂ => e₁.den σ ≠ e₂.den σ
    | .cmpS _ e s => e.den σ ≠ s
    | .sCmp _ s e => e.den σ ≠ s

variable [DecidableEq V]

/-- The program as a function on real values: started with `σ` it ends with `σ'`. -/
def RealRun (p : Ctl (Stmt ℝ V) (Cond ℝ V)) (σ σ' : V → ℝ) : Prop :=
  Runs (fun s σ σ' => σ' = s.den σ) (fun b σ r => r = true ↔ b.Holds σ) p σ σ'

/-- The same, with every executed statement inside its domain and every executed comparison between
different values. -/
def SafeRun (order n : Nat) (p : Ctl (Stmt ℝ V) (Cond ℝ V)) (σ σ' : V → ℝ) : Prop :=
  Runs (fun s σ σ' => s.Ok order n σ ∧ σ' = s.den σ)
    (fun b σ r => b.Sure order σ ∧ (r = true ↔ b.Holds σ)) p σ σ'

/-- The program on values that are functions of `y`: the executed statements are inside their domain
at `x`, and the executed comparisons give the same result for all `y` near `x`. -/
def SteadyRun (order n : Nat) (x : Fin n → ℝ) (p : Ctl (Stmt ℝ V) (Cond ℝ V))
    (u u' : (Fin n → ℝ) → V → ℝ) : Prop :=
  Runs (fun s u u' => s.Ok order n (u x) ∧ u' = fun y => s.den (u y))
    (fun b u r => b.Inside order (u x) ∧ ∀ᶠ y in 𝓝 x, (r = true ↔ b.Holds (u y))) p u u'

/-- Change the scalar constants. -/
def Cond.map {α β : Type} (f : α → β) : Cond α V → Cond β V
  | .cmp op e₁ e₂ => .cmp op (e₁.map f) (e₂.map f)
  | .cmpS op e s => .cmpS op (e.map f) (f s)
  | .sCmp op s e => .sCmp op (f s) (e.map f)

/-- Change the scalar constants. -/
def Test.map {B' : Type} (f : B → B') : Test B → Test B'
  | .atom b => .atom (f b)
  | .not t => .not (t.map f)
  | .and s t => .and (s.map f) (t.map f)
  | .or s t => .or (s.map f) (t.map f)

/-- Change the scalar constants. -/
def Ctl.map {S' B' : Type} (f : S → S') (g : B → B') : Ctl S B → Ctl S' B'
  | .skip => .skip
  | .act s => .act (f s)
  | .seq p q => .seq (p.map f g) (q.map f g)
  | .ite t p q => .ite (t.map g) (p.map f g) (q.map f g)
  | .loop t p => .loop (t.map g) (p.map f g)

end

/-! ## Plain scalars -/

section
variable {α V : Type} [CMath α]

/-- In-place operators on plain scalars. -/
def AOp.plain : AOp → α → α → α
  | .add, x, y => x +ₛ y
  | .sub, x, y => x -ₛ y
  | .mul, x, y => x *ₛ y
  | .div, x, y => x ÷ₛ y

/-- The statement with plain scalars in place of jets; `e / y`, `e / s` and `t /= s` multiply by the
reciprocal. -/
def Stmt.plain [DecidableEq V] (σ : V → α) : Stmt α V → V → α
  | .assign t e => fun v => if v = t then e.plain recipDiv σ else σ v
  | .upd o t e => fun v => if v = t then o.plain (σ t) (e.plain recipDiv σ) else σ v
  | .updS .div t (.val s) => fun v => if v = t then recipDiv (σ t) s else σ v
  | .updS o t (.val s) => fun v => if v = t then o.plain (σ t) s else σ v
  | .setF t s => fun v => if v = t then s else σ v
  | .setZero t => fun v => if v = t then Arith.lit 0 else σ v
  | _ => σ

/-- The comparison with plain scalars. -/
def Cond.plain (σ : V → α) : Cond α V → Bool
  | .cmp op e₁ e₂ => op.scalar (e₁.plain recipDiv σ) (e₂.plain recipDiv σ)
  | .cmpS op e s => op.scalar (e.plain recipDiv σ) s
  | .sCmp op s e => op.scalar s (e.plain recipDiv σ)

/-- Code on plain scalars. -/
def plainMachine (α V : Type) [CMath α] [DecidableEq V] :
    Machine (Stmt α V) (Cond α V) (V → α) where
  step s σ := (.ok (), s.plain σ)
  test b σ := .ok (b.plain σ)

/-- Swapping the sides of a comparison (true of doubles, NaN included). -/
structure CmpLaws (α : Type) [Cmp α] : Prop where
  eq : ∀ x y : α, Cmp.eqB x y = Cmp.eqB y x
  ne : ∀ x y : α, Cmp.neB x y = Cmp.neB y x
  lt : ∀ x y : α, Cmp.ltB x y = Cmp.gtB y x
  le : ∀ x y : α, Cmp.leB x y = Cmp.geB y x

end

end HJ
