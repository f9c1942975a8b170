import Verif.Model.Mixed
import Verif.Spec.Caller
import Verif.Spec.EvalErr

/-!
# Specification: client code that computes with jets and with numbers

Jets stand for functions of the point, numbers for real numbers.  Reading a jet gives the value or a partial
derivative of its function at `x`, `eval` its Taylor polynomial; a number put into a jet is a constant.  Setting a component replaces the
function by one that differs from it, at `x`, in that derivative only.
-/

namespace HJ

variable {V W : Type} {n : Nat}

/-- Change the scalar constants. -/
def MCall.map {α β : Type} (f : α → β) : MCall α V W → MCall β V W
  | .act s => .act (s.map (Sum.map f id))
  | .ask b => .ask (b.map (Sum.map f id))
  | .vari t i s => .vari t i (Sum.map f id s)
  | .compute t e => .compute t (e.map f)
  | .test op e₁ e₂ => .test op (e₁.map f) (e₂.map f)
  | .f t v => .f t v
  | .g t v i => .g t v i
  | .h t v i j => .h t v i j
  | .eval t v d => .eval t v d

/-- What the jets stand for, and the numbers. -/
structure MixSt (n : Nat) (V W : Type) where
  fns : (Fin n → ℝ) → V → ℝ
  nums : W → ℝ

/-- A formula with numbers inside its domain, without `pow` of numbers that are not positive. -/
def Expr.NumOk (ν : W → ℝ) (e : Expr ℝ W) : Prop := e.Dom 1 ν ∧ e.Regular ν ∧ e.PowPos ν

/-- `F` with the value `s` at `x`; all derivatives at `x` are those of `F`. -/
def withF (F : (Fin n → ℝ) → ℝ) (x : Fin n → ℝ) (s : ℝ) (y : Fin n → ℝ) : ℝ := F y + (s - F x)

/-- `F` with the partial derivative `∂F/∂xᵢ = s` at `x`; the value and all other derivatives at `x` are those
of `F`. -/
noncomputable def withG (F : (Fin n → ℝ) → ℝ) (x : Fin n → ℝ) (i : Fin n) (s : ℝ) (y : Fin n → ℝ) : ℝ :=
  F y + (s - partialD F x i) * (y i - x i)

/-- `F` with the second derivatives `∂²F/∂xᵢ∂xⱼ = ∂²F/∂xⱼ∂xᵢ = s` at `x`; the value and all other derivatives
at `x` are those of `F`. -/
noncomputable def withH (F : (Fin n → ℝ) → ℝ) (x : Fin n → ℝ) (i j : Fin n) (s : ℝ)
    (y : Fin n → ℝ) : ℝ :=
  F y + (s - partialDD F x i j) * ((if i = j then 1 / 2 else 1) * ((y i - x i) * (y j - x j)))

section
variable [DecidableEq V] [DecidableEq W]

/-- Calls at the point `x`, inside the domains, without comparisons of equal numbers and with `pow` of
positive numbers only. -/
inductive MixCall (order : Nat) (x : Fin n → ℝ) :
    MCall ℝ V W → MixSt n V W → Answer ℝ → MixSt n V W → Prop
  | act (s : Stmt (ℝ ⊕ W) V) (σ : MixSt n V W) (hs : (s.map (scalarOf σ.nums)).Ok order n (σ.fns x))
      (hP : (s.map (scalarOf σ.nums)).PowPos (σ.fns x)) :
      MixCall order x (.act s) σ .done ⟨fun y => (s.map (scalarOf σ.nums)).den (σ.fns y), σ.nums⟩
  | ask (b : Cond (ℝ ⊕ W) V) (σ : MixSt n V W) {r : Bool}
      (hb : (b.map (scalarOf σ.nums)).Sure order (σ.fns x))
      (hP : (b.map (scalarOf σ.nums)).PowPos (σ.fns x))
      (h : r = true ↔ (b.map (scalarOf σ.nums)).Holds (σ.fns x)) :
      MixCall order x (.ask b) σ (.truth r) σ
  | vari (t : V) (i : Fin n) (s : ℝ ⊕ W) (σ : MixSt n V W) :
      MixCall order x (.vari t i s) σ .done
        ⟨fun y => setVal (σ.fns y) t (scalarOf σ.nums s + (y i - x i)), σ.nums⟩
  | compute (t : W) (e : Expr ℝ W) (σ : MixSt n V W) (he : e.NumOk σ.nums) :
      MixCall order x (.compute t e) σ .done ⟨σ.fns, setVal σ.nums t (e.den σ.nums)⟩
  | test (op : DD.CmpOp) (e₁ e₂ : Expr ℝ W) (σ : MixSt n V W) {r : Bool} (h₁ : e₁.NumOk σ.nums)
      (h₂ : e₂.NumOk σ.nums) (hne : e₁.den σ.nums ≠ e₂.den σ.nums)
      (h : r = true ↔ op.rel (e₁.den σ.nums) (e₂.den σ.nums)) :
      MixCall order x (.test op e₁ e₂) σ (.truth r) σ
  | f (t : W) (v : V) (σ : MixSt n V W) :
      MixCall order x (.f t v) σ .done ⟨σ.fns, setVal σ.nums t (σ.fns x v)⟩
  | g (t : W) (v : V) (i : Fin n) (σ : MixSt n V W) :
      MixCall order x (.g t v i) σ .done
        ⟨σ.fns, setVal σ.nums t (partialD (fun y => σ.fns y v) x i)⟩
  | h (t : W) (v : V) (i j : Fin n) (σ : MixSt n V W) (ho : order = 2) :
      MixCall order x (.h t v i j) σ .done
        ⟨σ.fns, setVal σ.nums t (partialDD (fun y => σ.fns y v) x i j)⟩
  | eval (t : W) (v : V) (d : List W) (hl : n ≤ d.length) (σ : MixSt n V W) :
      MixCall order x (.eval t v d) σ .done
        ⟨σ.fns, setVal σ.nums t (taylorAt order (fun y => σ.fns y v) x fun i => σ.nums d[i])⟩
  | setF (t : V) (s : ℝ ⊕ W) (σ : MixSt n V W) :
      MixCall order x (.act (.setF t s)) σ .done
        ⟨fun y => setVal (σ.fns y) t (withF (fun y => σ.fns y t) x (scalarOf σ.nums s) y), σ.nums⟩
  | setG (t : V) (i : Fin n) (s : ℝ ⊕ W) (σ : MixSt n V W) :
      MixCall order x (.act (.setG t i s)) σ .done
        ⟨fun y => setVal (σ.fns y) t (withG (fun y => σ.fns y t) x i (scalarOf σ.nums s) y), σ.nums⟩
  | setH (t : V) (i j : Fin n) (s : ℝ ⊕ W) (σ : MixSt n V W) (ho : order = 2) :
      MixCall order x (.act (.setH t i j s)) σ .done
        ⟨fun y => setVal (σ.fns y) t (withH (fun y => σ.fns y t) x i j (scalarOf σ.nums s) y), σ.nums⟩
  | setZero (t : V) (σ : MixSt n V W) :
      MixCall order x (.act (.setZero t)) σ .done ⟨fun y => setVal (σ.fns y) t 0, σ.nums⟩

end

end HJ
