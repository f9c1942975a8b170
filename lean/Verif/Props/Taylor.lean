import Verif.Props.Calculus
import Verif.Proofs.JetOps
import Verif.Proofs.XRealBasic
import Verif.Spec.Client
import Verif.Spec.RealMath
import Mathlib.Analysis.Calculus.MeanValue
import Mathlib.Algebra.BigOperators.Fin

/-!
# C31: `eval` is the Taylor polynomial
-/

namespace HJ

open DD Topology Asymptotics

section
variable {K α : Type} [Field K] [Arith α] {c : Cfg} {n : Nat}

/-- `ι` embeds exact scalars into the scalar type. -/
structure Emb (ι : K → α) : Prop where
  add : ∀ a b, ι a +ₛ ι b = ι (a + b)
  mul : ∀ a b, ι a *ₛ ι b = ι (a * b)
  zero : Arith.lit 0 = ι 0
  half : Arith.half = ι (1 / 2)

/-- The value `eval` should return. -/
def taylorSum (order n : Nat) (J : Jet K) (d : Nat → K) : K :=
  J.f + ∑ i ∈ Finset.range n, J.g i * d i +
    if order = 1 then 0
    else 1 / 2 * ∑ i ∈ Finset.range n, ∑ j ∈ Finset.range n, J.h i j * d i * d j

omit [Arith α] in
theorem rdVal_map (ι : K → α) {l : List K} {i : Nat} (hi : i < l.length) :
    rdVal (l.map ι) (i : Int) = .ok (ι (l.getD i 0)) := by
  unfold rdVal
  rw [if_neg (by omega), Int.toNat_natCast]
  simp [hi]

theorem eval_emb {ι : K → α} (hι : Emb ι) (hc : c.order = 1 ∨ c.order = 2) (hf : Fits c n)
    (a : Nat → K) {l : List K} (hl : n ≤ l.length) :
    (obj c n fun k => ι (a k)).eval c (l.map ι) =
      .ok (ι (taylorSum c.order n (jetOf n a) fun i => l.getD i 0)) := by
  have hle := le_dlen c n
  unfold DD.eval
  simp only [size_obj hf, f_obj, Res.ok_bind]
  rw [forUp_eq' (lo := 0) (hi := n)
    (fun i => ι (a 0 + ∑ q ∈ Finset.range i, a (1 + q) * l.getD q 0)) (zlo := 0) rfl rfl
    (by simp) (Nat.zero_le _)]
  · simp only [Res.ok_bind]
    rcases hc with h1 | h2
    · rw [if_pos h1]
      simp [taylorSum, jetOf, h1]
    · rw [if_neg (by omega)]
      rw [forUp_eq' (lo := 0) (hi := n)
        (fun i => ι (∑ q ∈ Finset.range i, l.getD q 0 *
          ∑ j ∈ Finset.range n, l.getD j 0 * (jetOf n a).h q j)) (zlo := 0) rfl rfl
        (by simpa using hι.zero) (Nat.zero_le _)]
      · simp only [Res.ok_bind, hι.half, hι.mul, hι.add]
        simp only [taylorSum, h2, show ¬ (2 : Nat) = 1 by decide, if_false, jetOf]
        congr 4
        apply Finset.sum_congr rfl
        intro i _
        rw [Finset.mul_sum]
        apply Finset.sum_congr rfl
        intro j _
        ring
      · intro i _ hi
        rw [forUp_eq' (lo := 0) (hi := i)
          (fun j => (((pos n j i : Nat) : Int), ι (∑ q ∈ Finset.range j, l.getD q 0 *
            (jetOf n a).h i q))) (zlo := 0) rfl rfl
          (by simp only [Finset.range_zero, Finset.sum_empty, Prod.mk.injEq]
              exact ⟨by simp [pos, tri], hι.zero⟩) (Nat.zero_le _)]
        · simp only [Res.ok_bind]
          rw [forUp_eq' (lo := i) (hi := n)
            (fun j => (((pos n i j : Nat) : Int),
              ι (∑ q ∈ Finset.range j, l.getD q 0 * (jetOf n a).h i q))) rfl rfl rfl (by omega)]
          · simp only [Res.ok_bind, rdVal_map ι (show i < l.length by omega), hι.mul, hι.add]
            rw [Finset.sum_range_succ]
          · intro j hij hj
            have hp : pos n i j < dlen c n := pos_lt h2 hij hj
            simp only [rdVal_map ι (show j < l.length by omega), Res.ok_bind]
            rw [rd_obj (pos n i j) rfl hp]
            simp only [Res.ok_bind, hι.mul, hι.add]
            rw [Finset.sum_range_succ]
            have e : (jetOf n a).h i j = a (pos n i j) := by simp [jetOf, hij]
            rw [e]
            congr 2
            unfold pos; omega
        · intro j _ hj
          have hp : pos n j i < dlen c n := pos_lt h2 (by omega) hi
          simp only [rdVal_map ι (show j < l.length by omega), Res.ok_bind]
          rw [rd_obj (pos n j i) rfl hp]
          simp only [Res.ok_bind, hι.mul, hι.add]
          rw [Finset.sum_range_succ]
          have e : (jetOf n a).h i j = a (pos n j i) := by
            simp [jetOf, show ¬ i ≤ j by omega]
          rw [e]
          congr 2
          unfold pos
          rw [tri_succ]
          omega
  · intro i _ hi
    have := g_obj hf (fun k => ι (a k)) hi
    simp only [rdVal_map ι (show i < l.length by omega), Res.ok_bind, this, hι.mul, hι.add]
    rw [Finset.sum_range_succ, mul_comm (l.getD i 0), add_assoc]

end

/-- **C31, exact value.**  `x.eval(d)` is the Taylor polynomial of the jet, over any field. -/
theorem C31_eval_is_taylor {K : Type} [Field K] [Arith K] [Exact K] {c : Cfg} (hv : c.Valid)
    {n : Nat} {x : DD K} {J : Jet K} (hx : Shows c n x J) (d : List K) (hd : n ≤ d.length) :
    x.eval c d = .ok (J.f + ∑ i ∈ Finset.range n, J.g i * d.getD i 0 +
      if c.order = 1 then 0
      else 1 / 2 * ∑ i ∈ Finset.range n, ∑ j ∈ Finset.range n, J.h i j * d.getD i 0 * d.getD j 0) := by
  obtain ⟨hf, a, rfl⟩ := hx.wf.eq_obj hv.order
  have hι : Emb (id : K → K) := ⟨fun a b => Exact.add a b, fun a b => Exact.mul a b,
    by simp [Exact.lit], Exact.half⟩
  have := eval_emb hι hv.order hf a hd
  rw [List.map_id] at this
  refine this.trans ?_
  have hu := hx.unique (shows_obj hv.order hf a)
  simp only [id, taylorSum, ← hu.1]
  congr 1
  congr 1
  · congr 1
    apply Finset.sum_congr rfl
    intro i hi
    rw [hu.2.1 i (Finset.mem_range.1 hi)]
  · rcases hv.order with h | h
    · simp [h]
    · rw [if_neg (by omega), if_neg (by omega)]
      congr 1
      apply Finset.sum_congr rfl
      intro i hi
      apply Finset.sum_congr rfl
      intro j hj
      rw [hu.2.2 h i j (Finset.mem_range.1 hi) (Finset.mem_range.1 hj)]

example : exJet.eval exDyn2 [1, 2] = .ok (10 + (20 + 60) + 1 / 2 * (40 + 4 * 50 + 4 * 60)) := by
  rw [C31_eval_is_taylor exDyn2_valid exJet_shows [1, 2] (by decide)]
  rw [if_neg (by decide)]
  simp [Finset.sum_range_succ]
  norm_num

/-- **C31, short argument.**  With fewer than `size()` displacements the call reads past the end of
the vector. -/
theorem C31_short_argument {α : Type} [Arith α] {c : Cfg} (hv : c.Valid) {n : Nat} {x : DD α}
    (hx : WF c n x) (d : List α) (hd : d.length < n) : ∃ u, x.eval c d = .ub u := by
  obtain ⟨hf, a, rfl⟩ := hx.eq_obj hv.order
  obtain ⟨v0⟩ : Nonempty α := ⟨a 0⟩
  unfold DD.eval
  simp only [size_obj hf, f_obj, Res.ok_bind]
  rw [forUp_fail (lo := 0) (hi := n) (k := d.length)
    (fun i => (List.range i).foldl (fun acc q => acc +ₛ d.getD q v0 *ₛ a (1 + q)) (a 0))
    (zlo := 0) (u := .outOfBounds) (Nat.zero_le _) hd]
  · exact ⟨_, rfl⟩
  · intro i _ hi
    have : rdVal d (i : Int) = .ok (d.getD i v0) := by
      unfold rdVal
      rw [if_neg (by omega), Int.toNat_natCast]
      simp [hi]
    rw [this, g_obj hf a (by omega)]
    simp [List.range_succ]
  · unfold rdVal
    rw [if_neg (by omega), Int.toNat_natCast]
    simp

example : ∃ u, exJet.eval exDyn2 [1] = .ub u :=
  C31_short_argument exDyn2_valid exJet_wf [1] (by decide)

/-! ### Taylor's theorem -/

theorem lin_apply' (n : Nat) (g : Nat → ℝ) (d : Fin n → ℝ) : lin n g d = ∑ i : Fin n, g i * d i := by
  simp [lin]

theorem norm_le_sum {n : Nat} (L : (Fin n → ℝ) →L[ℝ] ℝ) :
    ‖L‖ ≤ ∑ i : Fin n, ‖L (Pi.single i 1)‖ := by
  refine L.opNorm_le_bound (Finset.sum_nonneg fun _ _ => norm_nonneg _) ?_
  intro v
  have hv : v = ∑ i : Fin n, v i • (Pi.single i (1 : ℝ) : Fin n → ℝ) := by
    ext k
    simp [Finset.sum_apply, Pi.single_apply]
  calc ‖L v‖ = ‖∑ i : Fin n, v i • L (Pi.single i 1)‖ := by
        conv_lhs => rw [hv]
        simp [map_sum]
    _ ≤ ∑ i : Fin n, ‖v i • L (Pi.single i 1)‖ := norm_sum_le _ _
    _ ≤ ∑ i : Fin n, ‖L (Pi.single i 1)‖ * ‖v‖ := by
        apply Finset.sum_le_sum
        intro i _
        rw [norm_smul, mul_comm]
        exact mul_le_mul_of_nonneg_left (norm_le_pi_norm v i) (norm_nonneg _)
    _ = _ := by rw [Finset.sum_mul]

/-- The second-order Taylor estimate for a function whose first partials are differentiable at the
point. -/
theorem taylor2 {n : Nat} {F : (Fin n → ℝ) → ℝ} {x : Fin n → ℝ} {J : Jet ℝ} (hJ : IsJet 2 n F x J)
    (hs : ∀ i j, i < n → j < n → J.h i j = J.h j i) :
    (fun d : Fin n → ℝ => F (x + d) - (J.f + ∑ i : Fin n, J.g i * d i +
      1 / 2 * ∑ i : Fin n, ∑ j : Fin n, J.h i j * d i * d j)) =o[𝓝 0] fun d => ‖d‖ ^ 2 := by
  set G : (Fin n → ℝ) → ℝ := fun d => F (x + d) - (J.f + ∑ i : Fin n, J.g i * d i +
      1 / 2 * ∑ i : Fin n, ∑ j : Fin n, J.h i j * d i * d j) with hG
  let P : Fin n → (Fin n → ℝ) →L[ℝ] ℝ :=
    fun i => ContinuousLinearMap.proj (R := ℝ) (φ := fun _ : Fin n => ℝ) i
  let G' : (Fin n → ℝ) → (Fin n → ℝ) →L[ℝ] ℝ := fun y => fderiv ℝ F (x + y) -
    (∑ i : Fin n, J.g i • P i + (1 / 2 : ℝ) • ∑ i : Fin n, ∑ j : Fin n,
      (((J.h i j * y i) • P j) + y j • (J.h i j • P i)))
  have hP : ∀ (i : Fin n) (y : Fin n → ℝ), HasFDerivAt (fun d : Fin n → ℝ => d i) (P i) y :=
    fun i y => (P i).hasFDerivAt
  have hder : ∀ᶠ y in 𝓝 (0 : Fin n → ℝ), HasFDerivAt G (G' y) y := by
    have hn := hJ.near rfl
    have hcont : Filter.Tendsto (fun y : Fin n → ℝ => x + y) (𝓝 0) (𝓝 x) := by
      have : Continuous fun y : Fin n → ℝ => x + y := by fun_prop
      have := this.tendsto 0
      simpa using this
    filter_upwards [hcont.eventually hn] with y hy
    have h1 : HasFDerivAt (fun d => F (x + d)) (fderiv ℝ F (x + y)) y := by
      have := hy.hasFDerivAt.comp y ((hasFDerivAt_id y).const_add x)
      simpa [Function.comp_def] using this
    refine h1.sub (HasFDerivAt.add ?_ ?_)
    · have := (HasFDerivAt.fun_sum (u := Finset.univ) fun (i : Fin n) _ =>
        (hP i y).const_mul (J.g i)).const_add J.f
      exact this
    · refine HasFDerivAt.const_mul ?_ (1 / 2 : ℝ)
      refine HasFDerivAt.fun_sum fun i _ => HasFDerivAt.fun_sum fun j _ => ?_
      exact ((hP i y).const_mul (J.h i j)).mul (hP j y)
  have hcoord : ∀ (y : Fin n → ℝ) (k : Fin n), G' y (Pi.single k 1) =
      fderiv ℝ F (x + y) (Pi.single k 1) - J.g k - ∑ j : Fin n, J.h k j * y j := by
    intro y k
    have hPk : ∀ i : Fin n, P i (Pi.single k 1) = if i = k then 1 else 0 := by
      intro i; simp [P, Pi.single_apply]
    have hsum : ∑ i : Fin n, J.h i k * y i = ∑ j : Fin n, J.h k j * y j :=
      Finset.sum_congr rfl fun i _ => by rw [hs i k i.2 k.2]
    have : (∑ i : Fin n, ∑ j : Fin n, (((J.h i j * y i) • P j) + y j • (J.h i j • P i)))
        (Pi.single k 1) = 2 * ∑ j : Fin n, J.h k j * y j := by
      simp only [sum_apply, add_apply, smul_apply, hPk, smul_eq_mul, mul_ite, mul_one, mul_zero,
        Finset.sum_add_distrib]
      have e2 : (∑ i : Fin n, ∑ j : Fin n, if i = k then y j * J.h i j else 0) =
          ∑ j : Fin n, J.h k j * y j := by
        rw [Finset.sum_comm]
        apply Finset.sum_congr rfl
        intro j _
        rw [Finset.sum_ite_eq' Finset.univ k (fun i => y j * J.h i j)]
        simp [mul_comm]
      rw [e2]
      simp only [Finset.sum_ite_eq', Finset.mem_univ, if_true]
      rw [hsum]; ring
    simp only [G', sub_apply, add_apply, smul_apply, this]
    simp only [sum_apply, smul_apply, hPk, smul_eq_mul, mul_ite, mul_one, mul_zero,
      Finset.sum_ite_eq', Finset.mem_univ, if_true]
    ring
  have hsmall : (fun y => ∑ k : Fin n, ‖G' y (Pi.single k 1)‖) =o[𝓝 0] fun y : Fin n → ℝ => ‖y‖ := by
    apply IsLittleO.fun_sum
    intro k _
    rw [isLittleO_norm_norm]
    have hk := hJ.hess rfl k
    rw [hasFDerivAt_iff_isLittleO_nhds_zero] at hk
    refine hk.congr_left ?_
    intro y
    rw [hcoord]
    have hg : fderiv ℝ F x (Pi.single k 1) = J.g k := by
      rw [hJ.grad.fderiv, lin_apply']
      simp [Pi.single_apply]
    rw [hg, lin_apply']
  rw [isLittleO_iff]
  intro ε hε
  have h1 := (isLittleO_iff.1 hsmall) hε
  obtain ⟨δ, hδ, hball⟩ := Metric.eventually_nhds_iff.1 (h1.and hder)
  rw [Metric.eventually_nhds_iff]
  refine ⟨δ, hδ, ?_⟩
  intro d hd
  have hd' : ‖d‖ < δ := by simpa using hd
  have hG0 : G 0 = 0 := by simp [hG, hJ.value]
  have key := Convex.norm_image_sub_le_of_norm_hasFDerivWithin_le (𝕜 := ℝ) (f := G) (f' := G')
    (s := Metric.closedBall 0 ‖d‖) (C := ε * ‖d‖) (x := 0) (y := d)
    (fun y hy => by
      have hy' : ‖y‖ ≤ ‖d‖ := by simpa using hy
      exact ((hball (y := y) (by simpa using lt_of_le_of_lt hy' hd')).2).hasFDerivWithinAt)
    (fun y hy => by
      have hy' : ‖y‖ ≤ ‖d‖ := by simpa using hy
      have := (hball (y := y) (by simpa using lt_of_le_of_lt hy' hd')).1
      have h3 := norm_le_sum (G' y)
      have h4 : ‖∑ k : Fin n, ‖G' y (Pi.single k 1)‖‖ = ∑ k : Fin n, ‖G' y (Pi.single k 1)‖ :=
        Real.norm_of_nonneg (Finset.sum_nonneg fun _ _ => norm_nonneg _)
      rw [h4, norm_norm] at this
      calc ‖G' y‖ ≤ _ := h3
        _ ≤ ε * ‖y‖ := this
        _ ≤ ε * ‖d‖ := mul_le_mul_of_nonneg_left hy' hε.le)
    (convex_closedBall 0 _) (by simp) (by simp)
  rw [hG0, sub_zero, sub_zero] at key
  calc ‖G d‖ ≤ ε * ‖d‖ * ‖d‖ := key
    _ = ε * ‖‖d‖ ^ 2‖ := by rw [norm_pow, norm_norm]; ring

/-- **C31, Taylor.**  If the finite jet `x` is the jet of `F` at `p`, then `x.eval(d)` approximates
`F(p + d)` up to `o(|d|)` (order 1) or `o(|d|²)` (order 2). -/
theorem C31_taylor {c : Cfg} (hv : c.Valid) {n : Nat} {x : DD XReal} {J : Jet ℝ}
    {F : (Fin n → ℝ) → ℝ} {p : Fin n → ℝ} (hx : Shows c n x J.lift) (hJ : IsJet c.order n F p J) :
    ∃ T : (Fin n → ℝ) → ℝ,
      (∀ d, x.eval c (List.ofFn fun i => XReal.num (d i)) = .ok (.num (T d))) ∧
      (fun d => F (p + d) - T d) =o[𝓝 0] fun d => ‖d‖ ^ c.order := by
  obtain ⟨hf, a, rfl⟩ := hx.wf.eq_obj hv.order
  have hu := hx.unique (shows_obj hv.order hf a)
  -- the stored contents are finite
  let b : Nat → ℝ := fun k => if k = 0 then J.f else if k ≤ n then J.g (k - 1)
    else J.h (dec n (k - 1 - n)).1 (dec n (k - 1 - n)).2
  have hb1 : ∀ i < n, b (1 + i) = J.g i := by
    intro i hi
    simp only [b]
    rw [if_neg (by omega), if_pos (by omega)]
    congr 1; omega
  have hb2 : ∀ i j, i ≤ j → j < n → b (pos n i j) = J.h i j := by
    intro i j hij hj
    have := pos_gt n i j
    simp only [b]
    rw [if_neg (by omega), if_neg (by omega), dec_pos hij hj]
  have hab : obj c n a = obj c n fun k => XReal.num (b k) := by
    apply obj_ext' hv.order
    · exact hu.1.symm
    · intro i hi
      rw [hb1 i hi]; exact (hu.2.1 i hi).symm
    · intro h2 i j hij hj
      rw [hb2 i j hij hj]
      have := hu.2.2 h2 i j (by omega) hj
      simpa [jetOf, hij, Jet.lift] using this.symm
  have hι : Emb XReal.num := ⟨fun _ _ => rfl, fun _ _ => rfl, by simp, rfl⟩
  refine ⟨fun d => taylorSum c.order n (jetOf n b) fun i => (List.ofFn d).getD i 0, ?_, ?_⟩
  · intro d
    have := eval_emb hι hv.order hf b (l := List.ofFn d) (by simp)
    rw [hab, ← this]
    congr 1
    rw [List.map_ofFn]; rfl
  · have hT : ∀ d : Fin n → ℝ, taylorSum c.order n (jetOf n b) (fun i => (List.ofFn d).getD i 0) =
        J.f + ∑ i : Fin n, J.g i * d i + if c.order = 1 then 0 else
          1 / 2 * ∑ i : Fin n, ∑ j : Fin n, J.h i j * d i * d j := by
      intro d
      have hd : ∀ i : Fin n, (List.ofFn d).getD i.val 0 = d i := by
        intro i; simp [List.getD]
      unfold taylorSum
      rw [Finset.sum_range]
      congr 1
      · congr 1
        apply Finset.sum_congr rfl
        intro i _
        simp only [hd, jetOf]; rw [hb1 i i.2]
      · rcases hv.order with h | h
        · simp [h]
        · rw [if_neg (by omega), if_neg (by omega), Finset.sum_range]
          congr 1
          apply Finset.sum_congr rfl
          intro i _
          rw [Finset.sum_range]
          apply Finset.sum_congr rfl
          intro j _
          simp only [hd]
          congr 2
          simp only [jetOf]
          by_cases hij : (i : Nat) ≤ j
          · rw [if_pos hij, hb2 i j hij j.2]
          · rw [if_neg hij, hb2 j i (by omega) i.2]
            have := hx.sym h i.2 j.2
            simpa [Jet.lift] using this.symm
    simp only [hT]
    rcases hv.order with h | h
    · simp only [h, if_true, add_zero, pow_one]
      have := (hasFDerivAt_iff_isLittleO_nhds_zero.1 hJ.grad).norm_right
      refine this.congr_left ?_
      intro d
      rw [lin_apply', hJ.value]; ring
    · simp only [h, show ¬ (2 : Nat) = 1 by decide, if_false]
      rw [h] at hJ
      refine taylor2 hJ ?_
      intro i j hi hj
      have := hx.sym h hi hj
      simpa [Jet.lift] using this

/-- `exp(x₀) / x₁` near `(0, 2)`: the polynomial read off the evaluated jet by `eval` is the
second-order Taylor polynomial. -/
example : ∃ r, evalAt exDyn2 exExpr ![0, 2] = .ok r ∧ ∃ T : (Fin 2 → ℝ) → ℝ,
    (∀ d, r.eval exDyn2 (List.ofFn fun i => XReal.num (d i)) = .ok (.num (T d))) ∧
    (fun d : Fin 2 → ℝ => Real.exp ((![0, 2] + d : Fin 2 → ℝ) 0) / (![0, 2] + d : Fin 2 → ℝ) 1 - T d)
      =o[𝓝 0] fun d => ‖d‖ ^ 2 := by
  obtain ⟨r, h1, h2⟩ := evalAt_jet exDyn2_valid (Or.inl rfl) exExpr ![0, 2] exExpr_regular
  obtain ⟨K, hs, hj⟩ := h2 (Or.inl (exExpr_dom _))
  obtain ⟨T, hT, ho⟩ := C31_taylor exDyn2_valid hs hj
  exact ⟨r, h1, T, hT, ho⟩

end HJ
