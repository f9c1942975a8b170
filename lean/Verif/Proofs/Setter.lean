import Verif.Spec.Mixed
import Verif.Proofs.ConvergeRun
import Verif.Props.PyExact

/-!
# The functions behind `set_f`, `set_g` and `set_h`
-/

namespace HJ

open Filter Topology

variable {o n : Nat} {F : (Fin n → ℝ) → ℝ} {x : Fin n → ℝ} {J : Jet ℝ}

theorem IsJet.partialD_eq (h : IsJet o n F x J) (i : Fin n) : partialD F x i = J.g i := by
  simp only [partialD, h.grad.fderiv, lin_single]

theorem IsJet.partialDD_eq (h : IsJet 2 n F x J) (i j : Fin n) : partialDD F x i j = J.h i j := by
  simp only [partialDD, partialD, (h.hess rfl i).fderiv, lin_single]

/-- Replace the value. -/
def Jet.putF (J : Jet ℝ) (s : ℝ) : Jet ℝ := { J with f := s }

/-- Replace a first derivative. -/
def Jet.putG (J : Jet ℝ) (i : Nat) (s : ℝ) : Jet ℝ := { J with g := fun k => if k = i then s else J.g k }

/-- Replace a second derivative, on both sides of the diagonal. -/
def Jet.putH (J : Jet ℝ) (i j : Nat) (s : ℝ) : Jet ℝ :=
  { J with h := fun k l => if k = i ∧ l = j ∨ k = j ∧ l = i then s else J.h k l }

theorem IsJet.withF (h : IsJet o n F x J) (s : ℝ) : IsJet o n (withF F x s) x (J.putF s) := by
  refine (h.shift (s - F x)).congr ⟨?_, fun _ _ => rfl, fun _ _ _ _ _ => rfl⟩
  simp [Jet.putF, h.value]

/-- The distance from `x` in direction `i`. -/
theorem isJet_dist (o : Nat) (x : Fin n → ℝ) (i : Fin n) :
    IsJet o n (fun y => y i - x i) x (varJet i 0) := by
  have := ((isJet_var o x i).shift (-x i))
  refine (this.congr_fun (.of_forall fun y => by ring)).congr ⟨?_, fun _ _ => rfl, fun _ _ _ _ _ => rfl⟩
  simp [varJet]

theorem IsJet.scale (h : IsJet o n F x J) (s : ℝ) :
    IsJet o n (fun y => s * F y) x (J.comp1 (s * J.f) s 0) :=
  h.comp1 (φ := fun t => s * t) (d := s) (dd := 0)
    ⟨by simpa using (hasDerivAt_id J.f).const_mul s, fun _ =>
      ⟨fun _ => s, .of_forall fun y => by
        simpa using (hasDerivAt_id y).const_mul s, hasDerivAt_const _ _⟩⟩

theorem IsJet.plus {G : (Fin n → ℝ) → ℝ} {K : Jet ℝ} (h : IsJet o n F x J) (hG : IsJet o n G x K) :
    IsJet o n (fun y => F y + G y) x (Jet.comp2 (J.f + K.f) 1 1 0 0 0 J K) :=
  h.comp2 (Φ := fun p q => p + q) hG (isJet_add o _ _)

theorem IsJet.withG (h : IsJet o n F x J) (i : Fin n) (s : ℝ) :
    IsJet o n (withG F x i s) x (J.putG i s) := by
  refine (h.plus ((isJet_dist o x i).scale (s - partialD F x i))).congr
    ⟨?_, fun k hk => ?_, fun _ k l _ _ => ?_⟩
  · simp [Jet.comp2, Jet.comp1, Jet.putG, varJet]
  · by_cases hi : k = i
    · simp [Jet.comp2, Jet.comp1, Jet.putG, varJet, hi, h.partialD_eq]
    · simp [Jet.comp2, Jet.comp1, Jet.putG, varJet, hi]
  · simp [Jet.comp2, Jet.comp1, Jet.putG, varJet]

theorem IsJet.withH (h : IsJet 2 n F x J) (i j : Fin n) (s : ℝ) :
    IsJet 2 n (withH F x i j s) x (J.putH i j s) := by
  have hd := (isJet_dist 2 x i).comp2 (Φ := fun p q => p * q) (isJet_dist 2 x j) (isJet_mul 2 _ _)
  refine (h.plus ((hd.scale (if i = j then 1 / 2 else 1)).scale (s - partialDD F x i j))).congr
    ⟨?_, fun k hk => ?_, fun _ k l hk hl => ?_⟩
  · simp [Jet.comp2, Jet.comp1, Jet.putH, varJet]
  · simp [Jet.comp2, Jet.comp1, Jet.putH, varJet]
  · have hs : J.h j i = J.h i j := h.sym j i
    rw [h.partialDD_eq]
    simp only [Jet.comp2, Jet.comp1, Jet.putH, varJet]
    by_cases hij : i = j
    · subst hij
      by_cases h1 : k = i <;> by_cases h2 : l = i <;> simp [h1, h2]
      ring
    · have hij' : i.val ≠ j.val := fun e => hij (Fin.ext e)
      by_cases h1 : k = i
      · by_cases h2 : l = j
        · simp [h1, h2, hij, hij', hij'.symm]
        · simp [h1, h2, hij, hij']
      · by_cases h2 : k = j
        · by_cases h3 : l = i
          · simp [h2, h3, hij, hij', hij'.symm, hs]
          · simp [h2, h3, hij, hij'.symm]
        · simp [h1, h2, hij]

end HJ
