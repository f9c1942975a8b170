import Verif.Spec.Calculus
import Mathlib.Analysis.Calculus.FDeriv.Comp
import Mathlib.Analysis.Calculus.FDeriv.Add
import Mathlib.Analysis.Calculus.FDeriv.Mul
import Mathlib.Analysis.Calculus.Deriv.Basic
import Mathlib.Tactic.Ring
import Mathlib.Tactic.Linarith

/-!
# Chain rule for jets (helper lemmas)
-/

namespace HJ

open Topology

theorem lin_apply (n : Nat) (g : Nat → ℝ) (v : Fin n → ℝ) : lin n g v = ∑ i : Fin n, g i * v i := by
  simp [lin]

theorem lin_single (n : Nat) (g : Nat → ℝ) (i : Fin n) : lin n g (Pi.single i 1) = g i := by
  rw [lin_apply]
  simp [Pi.single_apply]

theorem lin_ext {n : Nat} {L : (Fin n → ℝ) →L[ℝ] ℝ} {g : Nat → ℝ}
    (h : ∀ i : Fin n, L (Pi.single i 1) = g i) : L = lin n g := by
  apply ContinuousLinearMap.coe_injective
  apply LinearMap.pi_ext'
  intro i
  ext
  simp [h, lin_single]

/-- A linear form is the combination of its values on unit vectors. -/
theorem apply_eq_sum {m : Nat} (L : (Fin m → ℝ) →L[ℝ] ℝ) (v : Fin m → ℝ) :
    L v = ∑ k : Fin m, L (Pi.single k 1) * v k := by
  have hv : v = ∑ k : Fin m, v k • (Pi.single k (1 : ℝ) : Fin m → ℝ) := by
    funext i
    simp [Finset.sum_apply, Pi.single_apply]
  conv_lhs => rw [hv]
  rw [map_sum]
  apply Finset.sum_congr rfl
  intro k _
  rw [map_smul, smul_eq_mul, mul_comm]

theorem IsJet.congr {o n : Nat} {F : (Fin n → ℝ) → ℝ} {x : Fin n → ℝ} {J K : Jet ℝ}
    (h : IsJet o n F x J) (hJK : J.Eqv o n K) : IsJet o n F x K where
  value := h.value.trans hJK.1
  grad := by
    have : lin n J.g = lin n K.g := lin_ext fun i => by rw [lin_single, hJK.2.1 i i.2]
    rw [← this]; exact h.grad
  near := h.near
  hess := by
    intro ho i
    have : lin n (J.h i) = lin n (K.h i) := lin_ext fun j => by
      rw [lin_single, hJK.2.2 ho i j i.2 j.2]
    rw [← this]; exact h.hess ho i

/-- Jets are determined by the function. -/
theorem IsJet.unique {o n : Nat} {F : (Fin n → ℝ) → ℝ} {x : Fin n → ℝ} {J K : Jet ℝ}
    (h : IsJet o n F x J) (h' : IsJet o n F x K) : J.Eqv o n K := by
  refine ⟨h.value.symm.trans h'.value, ?_, ?_⟩
  · intro i hi
    have := h.grad.unique h'.grad
    have := congrArg (fun L => L (Pi.single (⟨i, hi⟩ : Fin n) 1)) this
    simpa [lin_single] using this
  · intro ho i j hi hj
    have := (h.hess ho ⟨i, hi⟩).unique (h'.hess ho ⟨i, hi⟩)
    have := congrArg (fun L => L (Pi.single (⟨j, hj⟩ : Fin n) 1)) this
    simpa [lin_single] using this

/-- Functions that agree near the point have the same jets. -/
theorem IsJet.congr_fun {o n : Nat} {F G : (Fin n → ℝ) → ℝ} {x : Fin n → ℝ} {J : Jet ℝ}
    (h : IsJet o n F x J) (hFG : F =ᶠ[𝓝 x] G) : IsJet o n G x J where
  value := by rw [← hFG.self_of_nhds]; exact h.value
  grad := h.grad.congr_of_eventuallyEq hFG.symm
  near := by
    intro ho
    filter_upwards [h.near ho, hFG.eventuallyEq_nhds] with y hy hFy
    exact hFy.symm.differentiableAt_iff.mpr hy
  hess := by
    intro ho i
    refine (h.hess ho i).congr_of_eventuallyEq ?_
    filter_upwards [hFG.eventuallyEq_nhds] with y hFy
    rw [hFy.symm.fderiv_eq]

/-- Jet of a composition `Φ (u₀, …, u_{m-1})`. -/
noncomputable def Jet.comp (m : Nat) (K : Jet ℝ) (Ju : Nat → Jet ℝ) : Jet ℝ where
  f := K.f
  g := fun i => ∑ k : Fin m, K.g k * (Ju k).g i
  h := fun i j => ∑ k : Fin m,
    ((∑ l : Fin m, K.h k l * (Ju l).g j) * (Ju k).g i + K.g k * (Ju k).h i j)

/-- Chain rule. -/
theorem IsJet.comp {o n m : Nat} {Φ : (Fin m → ℝ) → ℝ} {u : Fin m → (Fin n → ℝ) → ℝ}
    {x : Fin n → ℝ} {K : Jet ℝ} {Ju : Nat → Jet ℝ}
    (hΦ : IsJet o m Φ (fun k => u k x) K) (hu : ∀ k : Fin m, IsJet o n (u k) x (Ju k)) :
    IsJet o n (fun y => Φ fun k => u k y) x (K.comp m Ju) := by
  have hU : HasFDerivAt (fun y => fun k => u k y)
      (ContinuousLinearMap.pi fun k : Fin m => lin n (Ju k).g) x :=
    hasFDerivAt_pi.mpr fun k => (hu k).grad
  refine ⟨hΦ.value, ?_, ?_, ?_⟩
  · have := hΦ.grad.comp x hU
    have e : (lin m K.g).comp (ContinuousLinearMap.pi fun k : Fin m => lin n (Ju k).g) =
        lin n (K.comp m Ju).g := by
      apply lin_ext
      intro i
      simp only [ContinuousLinearMap.comp_apply, lin_apply m, ContinuousLinearMap.pi_apply,
        lin_single, Jet.comp]
    rw [e] at this
    exact this
  · intro ho
    have h1 : ∀ᶠ y in 𝓝 x, DifferentiableAt ℝ Φ (fun k => u k y) :=
      hU.continuousAt.eventually (hΦ.near ho)
    have h2 : ∀ᶠ y in 𝓝 x, ∀ k, DifferentiableAt ℝ (u k) y :=
      Filter.eventually_all.mpr fun k => (hu k).near ho
    filter_upwards [h1, h2] with y hy1 hy2
    exact hy1.comp y (differentiableAt_pi.mpr hy2)
  · intro ho i
    have h1 : ∀ᶠ y in 𝓝 x, DifferentiableAt ℝ Φ (fun k => u k y) :=
      hU.continuousAt.eventually (hΦ.near ho)
    have h2 : ∀ᶠ y in 𝓝 x, ∀ k, DifferentiableAt ℝ (u k) y :=
      Filter.eventually_all.mpr fun k => (hu k).near ho
    -- near `x` the partial derivative is a sum of products
    have hev : (fun y => fderiv ℝ (fun y => Φ fun k => u k y) y (Pi.single i 1)) =ᶠ[𝓝 x]
        fun y => ∑ k : Fin m, fderiv ℝ Φ (fun k => u k y) (Pi.single k 1) *
          fderiv ℝ (u k) y (Pi.single i 1) := by
      filter_upwards [h1, h2] with y hy1 hy2
      have hc : fderiv ℝ (fun y => Φ fun k => u k y) y =
          (fderiv ℝ Φ (fun k => u k y)).comp
            (ContinuousLinearMap.pi fun k : Fin m => fderiv ℝ (u k) y) := by
        have hp : HasFDerivAt (fun y => fun k => u k y)
            (ContinuousLinearMap.pi fun k : Fin m => fderiv ℝ (u k) y) y :=
          hasFDerivAt_pi.mpr fun k => (hy2 k).hasFDerivAt
        exact (hy1.hasFDerivAt.comp y hp).fderiv
      rw [hc, ContinuousLinearMap.comp_apply, apply_eq_sum]
      rfl
    refine HasFDerivAt.congr_of_eventuallyEq ?_ hev
    have hk : ∀ k : Fin m, HasFDerivAt (fun y => fderiv ℝ Φ (fun k => u k y) (Pi.single k 1) *
          fderiv ℝ (u k) y (Pi.single i 1))
        (K.g k • lin n ((Ju k).h i) + (Ju k).g i • (lin m (K.h k)).comp
          (ContinuousLinearMap.pi fun k : Fin m => lin n (Ju k).g)) x := by
      intro k
      have hA := (hΦ.hess ho k).comp x hU
      have hB := (hu k).hess ho i
      have hAB := hA.mul hB
      have e1 : fderiv ℝ Φ (fun k => u k x) (Pi.single k 1) = K.g k := by
        rw [hΦ.grad.fderiv, lin_single]
      have e2 : fderiv ℝ (u k) x (Pi.single i 1) = (Ju k).g i := by
        rw [(hu k).grad.fderiv, lin_single]
      simp only [Function.comp_apply, e1, e2] at hAB
      exact hAB
    have hsum := HasFDerivAt.fun_sum fun k (_ : k ∈ Finset.univ) => hk k
    have e : (∑ k : Fin m, (K.g k • lin n ((Ju k).h i) + (Ju k).g i • (lin m (K.h k)).comp
          (ContinuousLinearMap.pi fun k : Fin m => lin n (Ju k).g))) =
        lin n ((K.comp m Ju).h i) := by
      apply lin_ext
      intro j
      simp only [sum_apply, add_apply,
        smul_apply, lin_single, ContinuousLinearMap.comp_apply, lin_apply m,
        ContinuousLinearMap.pi_apply, Jet.comp, smul_eq_mul]
      apply Finset.sum_congr rfl
      intro k _
      ring
    rw [e] at hsum
    exact hsum

end HJ
