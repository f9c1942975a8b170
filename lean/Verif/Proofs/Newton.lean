import Mathlib.Analysis.Calculus.ImplicitContDiff
import Verif.Proofs.Smooth
import Verif.Props.Program
import Verif.Props.Taylor
import Verif.Proofs.ConvergeRun
import Mathlib.Analysis.Calculus.MeanValue
import Mathlib.Data.Fin.Tuple.Basic

/-!
# Newton's method on jets: proofs
-/

open scoped Topology
open Asymptotics Filter

namespace HJ

variable {n : Nat}

theorem norm_snoc_sub_le (q p : Fin n → ℝ) (y y₀ r : ℝ) (h1 : ‖q - p‖ ≤ r) (h2 : |y - y₀| ≤ r) :
    ‖(Fin.snoc q y : Fin (n + 1) → ℝ) - Fin.snoc p y₀‖ ≤ r := by
  rw [pi_norm_le_iff_of_nonneg (le_trans (norm_nonneg _) h1)]
  intro i
  refine Fin.lastCases ?_ (fun i => ?_) i
  · simpa using h2
  · have := norm_le_pi_norm (q - p) i
    simpa using this.trans h1

/-- One step of Newton's method multiplies the distance from the root by at most a multiple of the
distance from the point. -/
theorem newton_bound {Fr Dr : (Fin (n + 1) → ℝ) → ℝ} {p : Fin n → ℝ} {u Y : (Fin n → ℝ) → ℝ}
    (hD : DifferentiableAt ℝ Dr (Fin.snoc p (Y p)))
    (hder : ∀ᶠ σ in 𝓝 (Fin.snoc p (Y p) : Fin (n + 1) → ℝ),
      HasDerivAt (fun y => Fr (Fin.snoc (Fin.init σ) y)) (Dr σ) (σ (Fin.last n)))
    (h0 : Dr (Fin.snoc p (Y p)) ≠ 0) (hu : DifferentiableAt ℝ u p) (hY : DifferentiableAt ℝ Y p)
    (e : u p = Y p) (hroot : ∀ᶠ q in 𝓝 p, Fr (Fin.snoc q (Y q)) = 0) :
    ∃ C, ∀ᶠ q in 𝓝 p, |u q - Fr (Fin.snoc q (u q)) / Dr (Fin.snoc q (u q)) - Y q| ≤
      C * ‖q - p‖ * |u q - Y q| := by
  set σ₀ : Fin (n + 1) → ℝ := Fin.snoc p (Y p)
  set D₀ := Dr σ₀
  obtain ⟨Cu, hCu⟩ := hu.hasFDerivAt.isBigO_sub.bound
  obtain ⟨CY, hCY⟩ := hY.hasFDerivAt.isBigO_sub.bound
  obtain ⟨CD, hCD⟩ := hD.hasFDerivAt.isBigO_sub.bound
  obtain ⟨r, hr, hball⟩ := Metric.eventually_nhds_iff.1 (hCD.and hder)
  set M := max 1 (max Cu CY)
  have hM : 0 < M := lt_of_lt_of_le one_pos (le_max_left _ _)
  set K := max CD 0 * M
  have hK : 0 ≤ K := by positivity
  have hsmall : ∀ ε > 0, ∀ᶠ q in 𝓝 p, ‖q - p‖ < ε := fun ε hε => by
    filter_upwards [Metric.ball_mem_nhds p hε] with q hq
    rwa [← dist_eq_norm]
  refine ⟨4 * K / |D₀|, ?_⟩
  filter_upwards [hCu, hCY, hroot, hsmall (r / M) (by positivity),
    hsmall (|D₀| / 2 / (K + 1)) (by have := abs_pos.2 h0; positivity)] with q h1 h2 h3 h4 h5
  set δ := ‖q - p‖
  have hδ : 0 ≤ δ := norm_nonneg _
  have b1 : |u q - Y p| ≤ M * δ := by
    rw [← e]
    exact h1.trans (mul_le_mul_of_nonneg_right ((le_max_left _ _).trans (le_max_right _ _)) hδ)
  have b2 : |Y q - Y p| ≤ M * δ :=
    h2.trans (mul_le_mul_of_nonneg_right ((le_max_right _ _).trans (le_max_right _ _)) hδ)
  have b3 : M * δ < r := by
    rw [lt_div_iff₀ hM] at h4
    linarith
  have key : ∀ y, |y - Y p| ≤ M * δ → |Dr (Fin.snoc q y) - D₀| ≤ K * δ ∧
      HasDerivAt (fun z => Fr (Fin.snoc q z)) (Dr (Fin.snoc q y)) y := by
    intro y hy
    have hn : ‖(Fin.snoc q y : Fin (n + 1) → ℝ) - σ₀‖ ≤ M * δ :=
      norm_snoc_sub_le q p y (Y p) _ (le_mul_of_one_le_left hδ (le_max_left _ _)) hy
    obtain ⟨k1, k2⟩ := hball (y := Fin.snoc q y) (by rw [dist_eq_norm]; exact lt_of_le_of_lt hn b3)
    refine ⟨?_, by simpa using k2⟩
    calc |Dr (Fin.snoc q y) - D₀| ≤ CD * ‖(Fin.snoc q y : Fin (n + 1) → ℝ) - σ₀‖ := k1
      _ ≤ max CD 0 * (M * δ) := mul_le_mul (le_max_left _ _) hn (norm_nonneg _) (le_max_right _ _)
      _ = K * δ := by ring
  have hconv : Convex ℝ {y : ℝ | |y - Y p| ≤ M * δ} := by
    have : {y : ℝ | |y - Y p| ≤ M * δ} = Metric.closedBall (Y p) (M * δ) := by
      ext y; simp [Real.dist_eq]
    rw [this]
    exact convex_closedBall _ _
  have mv := Convex.norm_image_sub_le_of_norm_hasDerivWithin_le (𝕜 := ℝ)
    (f := fun y => Fr (Fin.snoc q y) - D₀ * y) (f' := fun y => Dr (Fin.snoc q y) - D₀)
    (s := {y : ℝ | |y - Y p| ≤ M * δ}) (C := K * δ) (x := Y q) (y := u q)
    (fun y hy => by
      have := (key y hy).2.sub ((hasDerivAt_id y).const_mul D₀)
      simp only [id, mul_one] at this
      exact this.hasDerivWithinAt)
    (fun y hy => (key y hy).1) hconv b2 b1
  rw [h3] at mv
  have d1 := (key _ b1).1
  have h6 : K * δ ≤ |D₀| / 2 := by
    rw [lt_div_iff₀ (by positivity)] at h5
    nlinarith
  have d2 : |D₀| / 2 ≤ |Dr (Fin.snoc q (u q))| := by
    have := abs_sub_abs_le_abs_sub D₀ (Dr (Fin.snoc q (u q)))
    rw [abs_sub_comm] at this
    linarith
  have hp : 0 < |D₀| := abs_pos.2 h0
  have dne : Dr (Fin.snoc q (u q)) ≠ 0 := by
    intro h
    rw [h, abs_zero] at d2
    linarith
  set Du := Dr (Fin.snoc q (u q))
  set Fu := Fr (Fin.snoc q (u q))
  have eq : u q - Fu / Du - Y q =
      ((Du - D₀) * (u q - Y q) - (Fu - D₀ * u q - (0 - D₀ * Y q))) / Du := by
    field_simp
    ring
  rw [eq, abs_div, div_le_iff₀ (abs_pos.2 dne)]
  have m1 : |(Du - D₀) * (u q - Y q)| ≤ K * δ * |u q - Y q| := by
    rw [abs_mul]
    exact mul_le_mul_of_nonneg_right d1 (abs_nonneg _)
  have m2 : |Fu - D₀ * u q - (0 - D₀ * Y q)| ≤ K * δ * |u q - Y q| := mv
  have m3 := abs_sub ((Du - D₀) * (u q - Y q)) (Fu - D₀ * u q - (0 - D₀ * Y q))
  have m4 : 2 * (K * δ * |u q - Y q|) ≤ 4 * K / |D₀| * δ * |u q - Y q| * |Du| := by
    have : 0 ≤ 4 * K / |D₀| * δ * |u q - Y q| := by positivity
    calc 2 * (K * δ * |u q - Y q|) = 4 * K / |D₀| * δ * |u q - Y q| * (|D₀| / 2) := by
          field_simp
          ring
      _ ≤ _ := mul_le_mul_of_nonneg_left d2 this
  linarith

/-- A function of smaller order than the distance has no first derivatives. -/
theorem isJet_small1 {o : Nat} {f : (Fin n → ℝ) → ℝ} {p : Fin n → ℝ} {J : Jet ℝ} (hJ : IsJet o n f p J)
    (h0 : f p = 0) (h : f =o[𝓝 p] fun q => ‖q - p‖) (i : Fin n) : J.g i = 0 := by
  have : HasFDerivAt f (0 : (Fin n → ℝ) →L[ℝ] ℝ) p := by
    rw [hasFDerivAt_iff_isLittleO]
    simpa [h0] using h.of_norm_right
  have e := hJ.grad.unique this
  have := congrArg (fun L => L (Pi.single i 1)) e
  simpa [lin_single] using this

theorem quad_zero {h : Fin n → Fin n → ℝ} (hs : ∀ i j, h i j = h j i)
    (ho : (fun d : Fin n → ℝ => ∑ i, ∑ j, h i j * d i * d j) =o[𝓝 0] fun d => ‖d‖ ^ 2) (i j : Fin n) :
    h i j = 0 := by
  set Q : (Fin n → ℝ) → ℝ := fun d => ∑ i, ∑ j, h i j * d i * d j
  have hQ : ∀ d, Q d = 0 := by
    intro d
    by_contra hne
    have hd : 0 < ‖d‖ := by
      rw [norm_pos_iff]
      rintro rfl
      exact hne (by simp [Q])
    have hc : Tendsto (fun t : ℝ => t • d) (𝓝 0) (𝓝 0) := by
      have : Continuous fun t : ℝ => t • d := by fun_prop
      simpa using this.tendsto 0
    have hb := hc.eventually ((isLittleO_iff.1 ho) (c := |Q d| / (2 * ‖d‖ ^ 2))
      (by have := abs_pos.2 hne; positivity))
    obtain ⟨r, hr, hball⟩ := Metric.eventually_nhds_iff.1 hb
    have hk := hball (y := r / 2) (by rw [Real.dist_eq, sub_zero, abs_of_pos] <;> linarith)
    have hh : Q ((r / 2) • d) = (r / 2) ^ 2 * Q d := by
      simp only [Q, Pi.smul_apply, smul_eq_mul, Finset.mul_sum]
      refine Finset.sum_congr rfl fun i _ => Finset.sum_congr rfl fun j _ => by ring
    rw [hh, norm_mul, norm_pow, norm_pow, norm_norm, norm_smul, Real.norm_eq_abs, Real.norm_eq_abs,
      mul_pow] at hk
    have h2 : 0 < |r / 2| ^ 2 := by positivity
    have h3 : |Q d| / (2 * ‖d‖ ^ 2) * (|r / 2| ^ 2 * ‖d‖ ^ 2) = |r / 2| ^ 2 * |Q d| / 2 := by
      field_simp
    rw [h3] at hk
    have := abs_pos.2 hne
    nlinarith
  have e1 : ∀ k : Fin n, h k k = 0 := by
    intro k
    have := hQ (Pi.single k 1)
    simpa [Q, Pi.single_apply] using this
  have := hQ (Pi.single i 1 + Pi.single j 1)
  simp only [Q, Pi.add_apply, Pi.single_apply, mul_add, mul_ite, mul_one, mul_zero,
    Finset.sum_add_distrib, Finset.sum_ite_eq', Finset.mem_univ, if_true] at this
  have a := e1 i
  have b := e1 j
  have c := hs i j
  linarith

/-- A function of smaller order than the square of the distance has no second derivatives. -/
theorem isJet_small2 {f : (Fin n → ℝ) → ℝ} {p : Fin n → ℝ} {J : Jet ℝ} (hJ : IsJet 2 n f p J)
    (h0 : f p = 0) (h : f =o[𝓝 p] fun q => ‖q - p‖ ^ 2) (i j : Fin n) : J.h i j = 0 := by
  have hs : ∀ i j, i < n → j < n → J.h i j = J.h j i := fun i j hi hj => hJ.sym ⟨i, hi⟩ ⟨j, hj⟩
  have h1 : f =o[𝓝 p] fun q => ‖q - p‖ := h.trans_isBigO (by
    refine IsBigO.of_bound 1 ?_
    filter_upwards [Metric.ball_mem_nhds p one_pos] with q hq
    rw [Metric.mem_ball, dist_eq_norm] at hq
    rw [norm_pow, norm_norm]
    nlinarith [norm_nonneg (q - p)])
  have hg := isJet_small1 hJ h0 h1
  have hc : Tendsto (fun d : Fin n → ℝ => p + d) (𝓝 0) (𝓝 p) := by
    have : Continuous fun d : Fin n → ℝ => p + d := by fun_prop
    simpa using this.tendsto 0
  have ht := taylor2 hJ hs
  have hf : (fun d : Fin n → ℝ => f (p + d)) =o[𝓝 0] fun d => ‖d‖ ^ 2 := by
    have := h.comp_tendsto hc
    simpa [Function.comp_def] using this
  have hq := (hf.sub ht).const_mul_left 2
  refine quad_zero (h := fun i j : Fin n => J.h i j) (fun i j => hs i j i.2 j.2) ?_ i j
  refine hq.congr_left fun d => ?_
  have : J.f = 0 := hJ.value.symm.trans h0
  simp [hg, this]

/-- Every symmetric jet is the jet of a function. -/
theorem exists_isJet (o : Nat) (p : Fin n → ℝ) (J : Jet ℝ)
    (hs : o = 2 → ∀ i j : Fin n, J.h i j = J.h j i) : ∃ u, IsJet o n u p J := by
  by_cases ho : o = 2
  · have hs' := hs ho
    refine
      ⟨fun y => J.f + ∑ i : Fin n, (y i - p i) *
        (J.g i + 1 / 2 * ∑ j : Fin n, J.h i j * (y j - p j)), ?_⟩
    let P : Fin n → (Fin n → ℝ) →L[ℝ] ℝ :=
      fun i => ContinuousLinearMap.proj (R := ℝ) (φ := fun _ : Fin n => ℝ) i
    have hP : ∀ (i : Fin n) (y : Fin n → ℝ), HasFDerivAt (fun d : Fin n → ℝ => d i - p i) (P i) y :=
      fun i y => (P i).hasFDerivAt.sub_const _
    have hPk : ∀ i k : Fin n, P i (Pi.single k 1) = if i = k then 1 else 0 := by
      intro i k; simp [P, Pi.single_apply]
    refine isJet_mk (fun i y => J.g i + ∑ j : Fin n, J.h i j * (y j - p j)) (by simp)
      (Eventually.of_forall fun y => ?_) (fun i hi => by simp) (fun _ i => ?_)
    · have h1 := (HasFDerivAt.fun_sum (u := Finset.univ) fun (i : Fin n) _ => (hP i y).mul
        (((HasFDerivAt.fun_sum (u := Finset.univ) fun (j : Fin n) _ =>
          (hP j y).const_mul (J.h i j)).const_mul (1 / 2 : ℝ)).const_add (J.g i))).const_add J.f
      refine h1.congr_fderiv (lin_ext fun k => ?_)
      simp only [sum_apply, add_apply, smul_apply, hPk, smul_eq_mul, mul_ite, mul_one, mul_zero,
        Finset.sum_add_distrib, Finset.sum_ite_eq', Finset.mem_univ, if_true]
      have : ∑ i : Fin n, (y i - p i) * (1 / 2 * J.h i k) = 1 / 2 * ∑ j : Fin n, J.h k j *
        (y j - p j) := by
        rw [Finset.mul_sum]
        refine Finset.sum_congr rfl fun i _ => ?_
        rw [hs' i k]
        ring
      rw [this]
      ring
    · have h1 := (HasFDerivAt.fun_sum (u := Finset.univ) fun (j : Fin n) _ =>
          (hP j p).const_mul (J.h i j)).const_add (J.g i)
      refine h1.congr_fderiv (lin_ext fun k => ?_)
      simp [hPk]
  · refine ⟨fun y => J.f + lin n J.g (y - p), ⟨by simp, ?_, fun h => absurd h ho, fun h => absurd h ho⟩⟩
    have := ((lin n J.g).hasFDerivAt.comp p ((hasFDerivAt_id p).sub_const p)).const_add J.f
    simpa [Function.comp_def] using this

/-- A function that is `o` times continuously differentiable has a jet. -/
theorem exists_jet_of_contDiffAt {o : Nat} (ho : o = 1 ∨ o = 2) {f : (Fin n → ℝ) → ℝ} {p : Fin n → ℝ}
    (h : ContDiffAt ℝ o f p) : ∃ J, IsJet o n f p J := by
  have e1 : ∀ (L : (Fin n → ℝ) →L[ℝ] ℝ),
      L = lin n fun i => if hi : i < n then L (Pi.single ⟨i, hi⟩ 1) else 0 := fun L =>
    lin_ext fun i => by simp
  refine ⟨⟨f p, fun i => if hi : i < n then fderiv ℝ f p (Pi.single ⟨i, hi⟩ 1) else 0, fun i j =>
    if hi : i < n then if hj : j < n then
      fderiv ℝ (fun y => fderiv ℝ f y (Pi.single ⟨i, hi⟩ 1)) p (Pi.single ⟨j, hj⟩ 1) else 0 else 0⟩,
    rfl, ?_, fun h2 => ?_, fun h2 i => ?_⟩
  · dsimp only
    rw [← e1]
    refine (h.differentiableAt ?_).hasFDerivAt
    rcases ho with rfl | rfl <;> simp
  · subst h2
    filter_upwards [h.eventually (by simp)] with y hy
    exact hy.differentiableAt (by simp)
  · subst h2
    simp only [i.2, dite_true]
    rw [← e1]
    have h1 : ContDiffAt ℝ 1 (fderiv ℝ f) p := h.fderiv_right (by norm_num)
    exact ((h1.differentiableAt (by simp)).clm_apply (differentiableAt_const _)).hasFDerivAt

/-- The implicit function theorem for a scalar unknown, the last one. -/
theorem implicit_fun {o : Nat} (ho : o ≠ 0) {f : (Fin (n + 1) → ℝ) → ℝ} {p : Fin n → ℝ} {y₀ d : ℝ}
    (hf : ContDiffAt ℝ o f (Fin.snoc p y₀)) (h0 : f (Fin.snoc p y₀) = 0)
    (hd : HasDerivAt (fun y => f (Fin.snoc p y)) d y₀) (hne : d ≠ 0) :
    ∃ Y : (Fin n → ℝ) → ℝ, Y p = y₀ ∧ ContDiffAt ℝ o Y p ∧
      ∀ᶠ σ in 𝓝 (Fin.snoc p y₀ : Fin (n + 1) → ℝ), f σ = 0 ↔ Y (Fin.init σ) = σ (Fin.last n) := by
  have hs : ContDiff ℝ o fun z : (Fin n → ℝ) × ℝ => (Fin.snoc z.1 z.2 : Fin (n + 1) → ℝ) := by
    refine contDiff_pi.2 fun i => ?_
    refine Fin.lastCases ?_ (fun i => ?_) i
    · simpa using contDiff_snd
    · simpa [Function.comp_def] using (contDiff_apply ℝ ℝ i).comp contDiff_fst
  have hg : ContDiffAt ℝ o (fun z : (Fin n → ℝ) × ℝ => f (Fin.snoc z.1 z.2)) (p, y₀) :=
    ContDiffAt.comp (g := f) (p, y₀) hf hs.contDiffAt
  have ho' : (o : WithTop ℕ∞) ≠ 0 := by exact_mod_cast ho
  have hder : fderiv ℝ (fun z : (Fin n → ℝ) × ℝ => f (Fin.snoc z.1 z.2)) (p, y₀) ∘L
      .inr ℝ (Fin n → ℝ) ℝ = ContinuousLinearMap.toSpanSingleton ℝ d := by
    have h1 := (hg.differentiableAt ho').hasFDerivAt.comp y₀
      (f := fun y => (p, y)) (hasFDerivAt_prodMk_right p y₀)
    exact h1.unique hd.hasFDerivAt
  have hinv : (fderiv ℝ (fun z : (Fin n → ℝ) × ℝ => f (Fin.snoc z.1 z.2)) (p, y₀) ∘L
      .inr ℝ (Fin n → ℝ) ℝ).IsInvertible := by
    rw [hder]
    refine ⟨ContinuousLinearEquiv.equivOfInverse (ContinuousLinearMap.toSpanSingleton ℝ d)
      (ContinuousLinearMap.toSpanSingleton ℝ d⁻¹) (fun x => ?_) (fun x => ?_), ?_⟩
    · simp [hne]
    · simp [hne]
    · ext; simp
  refine ⟨hg.implicitFunction ho' hinv, hg.implicitFunction_apply_self ho' hinv,
    hg.contDiffAt_implicitFunction ho' hinv, ?_⟩
  have h2 := hg.eventually_apply_eq_iff_implicitFunction ho' hinv
  have hc : Tendsto (fun σ : Fin (n + 1) → ℝ => (Fin.init σ, σ (Fin.last n))) (𝓝 (Fin.snoc p y₀))
      (𝓝 (p, y₀)) := by
    have : Continuous fun σ : Fin (n + 1) → ℝ => ((Fin.init σ : Fin n → ℝ), σ (Fin.last n)) := by
      refine Continuous.prodMk (continuous_pi fun i => ?_) (continuous_apply _)
      exact continuous_apply _
    simpa using this.tendsto (Fin.snoc p y₀)
  filter_upwards [hc.eventually h2] with σ hσ
  simpa [h0] using hσ

end HJ
