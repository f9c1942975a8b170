import Verif.Model.SMixed
import Verif.Spec.Mixed
import Verif.Spec.SEvalErr

/-!
# Specification: client code that computes with sparse scalars and with numbers

Sparse scalars stand for functions of the named variables, numbers for real numbers.  Reading gives the value
or a partial derivative at `x`; `eval` the first-order change.
-/

namespace HJ

variable {V W : Type}

/-- Change the scalar constants. -/
def SMCall.map {α β : Type} (f : α → β) : SMCall α V W → SMCall β V W
  | .act s => .act (s.map (Sum.map f id))
  | .ask b => .ask (b.map (Sum.map f id))
  | .compute t e => .compute t (e.map f)
  | .test op e₁ e₂ => .test op (e₁.map f) (e₂.map f)
  | .f t v => .f t v
  | .d t v k => .d t v k
  | .eval t v p => .eval t v p

/-- What the sparse scalars stand for, and the numbers. -/
structure SMixSt (V W : Type) where
  fns : (String → ℝ) → V → ℝ
  nums : W → ℝ

section
variable [DecidableEq V] [DecidableEq W]

/-- Calls at the point `x`, inside the domains, without comparisons of equal numbers and with `pow` of
positive numbers only.  The dictionary of `eval` has every name once. -/
inductive SMixCall (x : String → ℝ) :
    SMCall ℝ V W → SMixSt V W → Answer ℝ → SMixSt V W → Prop
  | act (s : SStmt (ℝ ⊕ W) V) (σ : SMixSt V W) (hs : (s.map (scalarOf σ.nums)).Ok (σ.fns x))
      (hP : (s.map (scalarOf σ.nums)).PowPos (σ.fns x)) :
      SMixCall x (.act s) σ .done ⟨fun y => (s.map (scalarOf σ.nums)).den x y (σ.fns y), σ.nums⟩
  | ask (b : Cond (ℝ ⊕ W) V) (σ : SMixSt V W) {r : Bool}
      (hb : (b.map (scalarOf σ.nums)).Sure 1 (σ.fns x))
      (hP : (b.map (scalarOf σ.nums)).PowPos (σ.fns x))
      (h : r = true ↔ (b.map (scalarOf σ.nums)).Holds (σ.fns x)) :
      SMixCall x (.ask b) σ (.truth r) σ
  | compute (t : W) (e : Expr ℝ W) (σ : SMixSt V W) (he : e.NumOk σ.nums) :
      SMixCall x (.compute t e) σ .done ⟨σ.fns, setVal σ.nums t (e.den σ.nums)⟩
  | test (op : DD.CmpOp) (e₁ e₂ : Expr ℝ W) (σ : SMixSt V W) {r : Bool} (h₁ : e₁.NumOk σ.nums)
      (h₂ : e₂.NumOk σ.nums) (hne : e₁.den σ.nums ≠ e₂.den σ.nums)
      (h : r = true ↔ op.rel (e₁.den σ.nums) (e₂.den σ.nums)) :
      SMixCall x (.test op e₁ e₂) σ (.truth r) σ
  | f (t : W) (v : V) (σ : SMixSt V W) :
      SMixCall x (.f t v) σ .done ⟨σ.fns, setVal σ.nums t (σ.fns x v)⟩
  | d (t : W) (v : V) (k : String) (σ : SMixSt V W) :
      SMixCall x (.d t v k) σ .done ⟨σ.fns, setVal σ.nums t (partialS (fun y => σ.fns y v) x k)⟩
  | eval (t : W) (v : V) (d : List (String × W)) (hd : (d.map Prod.fst).Nodup) (σ : SMixSt V W) :
      SMixCall x (.eval t v d) σ .done ⟨σ.fns, setVal σ.nums t
        (d.map fun e => partialS (fun y => σ.fns y v) x e.1 * σ.nums e.2).sum⟩

end

end HJ
