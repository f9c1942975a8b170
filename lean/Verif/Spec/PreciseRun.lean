import Verif.Spec.Precision
import Verif.Spec.Control

/-!
# Specification: programs with branches and loops in arithmetics of different precision
-/

namespace HJ

/-- Comparisons of scalars compare the real numbers they stand for. -/
def ExactCmp {α : Type} [CMath α] (val : α → ℝ) : Prop :=
  ∀ (op : DD.CmpOp) (a b : α), op.scalar a b = true ↔ op.rel (val a) (val b)

variable {V : Type}

/-- `pow` is applied to positive numbers only. -/
def Stmt.PowPos (σ : V → ℝ) : Stmt ℝ V → Prop
  | .assign _ e => e.PowPos σ
  | .upd _ _ e => e.PowPos σ
  | _ => True

/-- `pow` is applied to positive numbers only. -/
def Cond.PowPos (σ : V → ℝ) : Cond ℝ V → Prop
  | .cmp _ e₁ e₂ => e₁.PowPos σ ∧ e₂.PowPos σ
  | .cmpS _ e _ => e.PowPos σ
  | .sCmp _ _ e => e.PowPos σ

/-- The program on real numbers, started with `σ`, ends with `σ'`; every executed statement is inside
its domain, every executed comparison is between different values, and `pow` is applied to positive
numbers only. -/
def PreciseRun [DecidableEq V] (order n : Nat) (p : Ctl (Stmt ℝ V) (Cond ℝ V)) (σ σ' : V → ℝ) : Prop :=
  Runs (fun s σ σ' => (s.Ok order n σ ∧ s.PowPos σ) ∧ σ' = s.den σ)
    (fun b σ r => (b.Sure order σ ∧ b.PowPos σ) ∧ (r = true ↔ b.Holds σ)) p σ σ'

/-- The object `r` shows a jet whose components stand in the relation `B` to those of `J`. -/
def SeedBy {α : Type} (c : Cfg) (n : Nat) (B : α → ℝ → Prop) (J : Jet ℝ) (r : DD α) : Prop :=
  ∃ K : Jet α, Shows c n r K ∧ B K.f J.f ∧ (∀ i < n, B (K.g i) (J.g i)) ∧
    (c.order = 2 → ∀ i < n, ∀ j < n, B (K.h i j) (J.h i j))

/-- The object `r` shows the jet `J` up to relative errors `w` in the components. -/
abbrev Seed {α : Type} (c : Cfg) (n : Nat) (val : α → ℝ) (w : ℝ) (J : Jet ℝ) (r : DD α) : Prop :=
  SeedBy c n (fun s t => Close w (val s) t) J r

/-- Every name starts as one of the objects of `variables(X)` or as `constant(s, n)`. -/
def Starts {α : Type} [CMath α] {n : Nat} (c : Cfg) (X : Fin n → α) (enc : ℝ → α)
    (start : V → Fin n ⊕ ℝ) (ρ : Store α V) : Prop :=
  ∃ vars, DD.variables c (List.ofFn X) = .ok vars ∧ ∀ v,
    match start v with
    | .inl i => vars[i.val]? = some (ρ v)
    | .inr s => DD.constant c (enc s) n = .ok (ρ v)

/-- The real number a name stands for at the start. -/
def startVal {n : Nat} (start : V → Fin n ⊕ ℝ) (y : Fin n → ℝ) (v : V) : ℝ :=
  match start v with
  | .inl i => y i
  | .inr s => s

end HJ
