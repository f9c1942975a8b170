import Verif.Proofs.RealCoef
import Verif.Spec.Precision
import Mathlib.Analysis.SpecialFunctions.Pow.Continuity
import Mathlib.Analysis.SpecialFunctions.Arcosh
import Mathlib.Analysis.SpecialFunctions.Complex.Arg
import Mathlib.Topology.Order.Basic

/-!
# Families of arithmetics with vanishing error (helper lemmas)
-/

namespace HJ

open Filter Topology Asymptotics

section
variable {ι : Type} {l : Filter ι} {α : ι → Type} [∀ k, CMath (α k)] {u : ι → Prec} {ω : ι → ℝ}

/-- The error bounds tend to zero, and not slower than `ω`; every number is eventually in range. -/
structure Fine (u : ι → Prec) (l : Filter ι) (ω : ι → ℝ) : Prop where
  rel : Tendsto (fun k => (u k).rel) l (𝓝 0)
  abs : Tendsto (fun k => (u k).abs) l (𝓝 0)
  relRate : (fun k => (u k).rel) =O[l] ω
  absRate : (fun k => (u k).abs) =O[l] ω
  range : ∀ B : ℝ, ∀ᶠ k in l, Set.Icc (-B) B ⊆ (u k).range

/-- The points `p k` and `q k` converge to `r`, and their distance is of order `ω`. -/
structure Nigh {E : Type} [NormedAddCommGroup E] (l : Filter ι) (ω : ι → ℝ) (p q : ι → E) (r : E) :
    Prop where
  lim : Tendsto p l (𝓝 r)
  goal : Tendsto q l (𝓝 r)
  rate : (fun k => p k - q k) =O[l] ω

section
variable {E F : Type} [NormedAddCommGroup E] [NormedSpace ℝ E] [NormedAddCommGroup F] [NormedSpace ℝ F]

omit [NormedSpace ℝ E] in
theorem Nigh.refl {q : ι → E} {r : E} (h : Tendsto q l (𝓝 r)) : Nigh l ω q q r :=
  ⟨h, h, by simpa using isBigO_zero _ _⟩

omit [NormedSpace ℝ E] in
theorem Nigh.const (r : E) : Nigh l ω (fun _ => r) (fun _ => r) r := Nigh.refl tendsto_const_nhds

omit [NormedSpace ℝ E] in
theorem Nigh.congr' {p q p' q' : ι → E} {r : E} (e : p =ᶠ[l] p') (e' : q =ᶠ[l] q') (h : Nigh l ω p q r) :
    Nigh l ω p' q' r :=
  ⟨h.lim.congr' e, h.goal.congr' e',
    h.rate.congr' ((e.and e').mono fun k hk => by simp only [hk.1, hk.2]) .rfl⟩

/-- With the rate 1 there is nothing but convergence. -/
theorem Nigh.of_tendsto {p : ι → E} {r : E} (h : Tendsto p l (𝓝 r)) :
    Nigh l (fun _ => 1) p (fun _ => r) r :=
  ⟨h, tendsto_const_nhds, (h.sub_const r).isBigO_one ℝ⟩

omit [NormedSpace ℝ E] [NormedSpace ℝ F] in
theorem Nigh.prodMk {p p' : ι → E} {q q' : ι → F} {r : E} {s : F} (h : Nigh l ω p p' r)
    (g : Nigh l ω q q' s) : Nigh l ω (fun k => (p k, q k)) (fun k => (p' k, q' k)) (r, s) :=
  ⟨h.lim.prodMk_nhds g.lim, h.goal.prodMk_nhds g.goal, h.rate.prod_left g.rate⟩

/-- Strictly differentiable functions keep the rate. -/
theorem Nigh.comp {φ : E → F} {φ' : E →L[ℝ] F} {p q : ι → E} {r : E} (hφ : HasStrictFDerivAt φ φ' r)
    (h : Nigh l ω p q r) : Nigh l ω (fun k => φ (p k)) (fun k => φ (q k)) (φ r) :=
  ⟨hφ.continuousAt.tendsto.comp h.lim, hφ.continuousAt.tendsto.comp h.goal,
    (hφ.isBigO_sub.comp_tendsto (h.lim.prodMk_nhds h.goal)).trans h.rate⟩

theorem Nigh.comp' {φ : E → F} {p q : ι → E} {r : E} (hφ : ContDiffAt ℝ 1 φ r)
    (h : Nigh l ω p q r) : Nigh l ω (fun k => φ (p k)) (fun k => φ (q k)) (φ r) :=
  h.comp (hφ.hasStrictFDerivAt one_ne_zero)

end

/-- Bounded sequences are eventually in range. -/
theorem Fine.mem (hu : Fine u l ω) {p : ι → ℝ} {r : ℝ} (h : Tendsto p l (𝓝 r)) :
    ∀ᶠ k in l, p k ∈ (u k).range := by
  have h1 : ∀ᶠ k in l, |p k| ≤ |r| + 1 :=
    (Tendsto.eventually_lt_const (by linarith) h.abs).mono fun k hk => le_of_lt hk
  filter_upwards [h1, hu.range (|r| + 1)] with k h1 h2
  exact h2 (abs_le.1 h1)

/-- Without overflow and underflow. -/
theorem Fine.plain {w : ι → ℝ} (h : Tendsto w l (𝓝 0)) (h' : w =O[l] ω) :
    Fine (fun k => .plain (w k)) l ω :=
  ⟨h, tendsto_const_nhds, h', isBigO_zero _ _, fun _ => .of_forall fun _ => Set.subset_univ _⟩

theorem Nigh.close {p p' q : ι → ℝ} {r : ℝ} (hu : Fine u l ω) (hp : Nigh l ω p p' r)
    (h : ∀ᶠ k in l, |q k - p k| ≤ (u k).rel * |p k| + (u k).abs) : Nigh l ω q p' r := by
  have h1 : (fun k => q k - p k) =O[l] fun k => (u k).rel * |p k| + (u k).abs :=
    IsBigO.of_bound 1 (h.mono fun k hk => by
      rw [one_mul, Real.norm_eq_abs, Real.norm_eq_abs]
      exact hk.trans (le_abs_self _))
  have h2 : (fun k => (u k).rel * |p k|) =O[l] fun k => (u k).rel := by
    simpa using (isBigO_refl (fun k => (u k).rel) l).mul (hp.lim.abs.isBigO_one ℝ)
  have h3 : Tendsto (fun k => q k - p k) l (𝓝 0) := by
    refine h1.trans_tendsto ?_
    have := (h2.trans_tendsto hu.rel).add hu.abs
    simpa using this
  refine ⟨by simpa using h3.add hp.lim, hp.goal, ?_⟩
  have := (h1.trans ((h2.trans hu.relRate).add hu.absRate)).add hp.rate
  simpa using this

theorem Nigh.neg {p p' : ι → ℝ} {r : ℝ} (h : Nigh l ω p p' r) :
    Nigh l ω (fun k => -p k) (fun k => -p' k) (-r) :=
  Nigh.comp' (φ := fun z : ℝ => -z) (by fun_prop) h

theorem Nigh.add {p q p' q' : ι → ℝ} {r s : ℝ} (h : Nigh l ω p p' r) (g : Nigh l ω q q' s) :
    Nigh l ω (fun k => p k + q k) (fun k => p' k + q' k) (r + s) :=
  Nigh.comp' (φ := fun z : ℝ × ℝ => z.1 + z.2) (by fun_prop) (h.prodMk g)

theorem Nigh.sub {p q p' q' : ι → ℝ} {r s : ℝ} (h : Nigh l ω p p' r) (g : Nigh l ω q q' s) :
    Nigh l ω (fun k => p k - q k) (fun k => p' k - q' k) (r - s) :=
  Nigh.comp' (φ := fun z : ℝ × ℝ => z.1 - z.2) (by fun_prop) (h.prodMk g)

theorem Nigh.mul {p q p' q' : ι → ℝ} {r s : ℝ} (h : Nigh l ω p p' r) (g : Nigh l ω q q' s) :
    Nigh l ω (fun k => p k * q k) (fun k => p' k * q' k) (r * s) :=
  Nigh.comp' (φ := fun z : ℝ × ℝ => z.1 * z.2) (by fun_prop) (h.prodMk g)

/-- The numbers `x k` are eventually finite, they and the real numbers `y k` converge to `r`, with a
distance of order `ω`. -/
structure Lim (M : ∀ k, FinErr (α k) (u k)) (l : Filter ι) (ω : ι → ℝ) (x : ∀ k, α k) (y : ι → ℝ)
    (r : ℝ) : Prop extends Nigh l ω (fun k => (M k).val (x k)) y r where
  fin : ∀ᶠ k in l, (M k).fin (x k)

variable {M : ∀ k, FinErr (α k) (u k)} {x y z : ∀ k, α k} {xR yR zR : ι → ℝ} {r s t : ℝ}

theorem Lim.of_eq (h : Lim M l ω x xR r) (e : r = s) : Lim M l ω x xR s := e ▸ h

theorem Lim.congr' (e : ∀ᶠ k in l, x k = y k) (e' : ∀ᶠ k in l, xR k = yR k)
    (h : Lim M l ω x xR r) : Lim M l ω y yR r :=
  ⟨h.toNigh.congr' (e.mono fun k hk => by simp only [hk]) e',
    (h.fin.and e).mono fun k hk => hk.2 ▸ hk.1⟩

/-- One rounding. -/
theorem Lim.close {p p' : ι → ℝ} (hu : Fine u l ω) (hp : Nigh l ω p p' r)
    (h : ∀ᶠ k in l, (M k).Sound (x k) (p k)) : Lim M l ω x p' r := by
  have h' := (h.and (hu.mem hp.lim)).mono fun k hk => hk.1 hk.2
  exact ⟨hp.close hu (h'.mono fun k hk => hk.2), h'.mono fun k hk => hk.1⟩

theorem Lim.lit {z : Int} (hz : |z| ≤ 10) :
    Lim M l ω (fun _ => Arith.lit z) (fun _ => Arith.lit z) z := by
  refine ⟨?_, .of_forall fun k => ((M k).lit z hz).1⟩
  simp only [((M _).lit z hz).2]
  exact Nigh.const _

theorem Lim.neg (h : Lim M l ω x xR r) : Lim M l ω (fun k => -ₛ x k) (fun k => -ₛ xR k) (-r) :=
  ⟨h.toNigh.neg.congr' (h.fin.mono fun k hk => ((M k).neg _ hk).2.symm) .rfl,
    h.fin.mono fun k hk => ((M k).neg _ hk).1⟩

theorem Lim.add (hu : Fine u l ω) (h : Lim M l ω x xR r) (g : Lim M l ω y yR s) :
    Lim M l ω (fun k => x k +ₛ y k) (fun k => xR k +ₛ yR k) (r + s) :=
  Lim.close hu (Nigh.add h.toNigh g.toNigh)
    ((h.fin.and g.fin).mono fun k hk => (M k).add _ _ hk.1 hk.2)

theorem Lim.sub (hu : Fine u l ω) (h : Lim M l ω x xR r) (g : Lim M l ω y yR s) :
    Lim M l ω (fun k => x k -ₛ y k) (fun k => xR k -ₛ yR k) (r - s) :=
  Lim.close hu (Nigh.sub h.toNigh g.toNigh)
    ((h.fin.and g.fin).mono fun k hk => (M k).sub _ _ hk.1 hk.2)

theorem Lim.mul (hu : Fine u l ω) (h : Lim M l ω x xR r) (g : Lim M l ω y yR s) :
    Lim M l ω (fun k => x k *ₛ y k) (fun k => xR k *ₛ yR k) (r * s) :=
  Lim.close hu (Nigh.mul h.toNigh g.toNigh)
    ((h.fin.and g.fin).mono fun k hk => (M k).mul _ _ hk.1 hk.2)

theorem Lim.ne (g : Lim M l ω y yR s) (hs : s ≠ 0) : ∀ᶠ k in l, (M k).val (y k) ≠ 0 :=
  Tendsto.eventually_ne g.lim hs

theorem Lim.div (hu : Fine u l ω) (h : Lim M l ω x xR r) (g : Lim M l ω y yR s) (hs : s ≠ 0) :
    Lim M l ω (fun k => x k ÷ₛ y k) (fun k => xR k ÷ₛ yR k) (r / s) :=
  Lim.close hu (Nigh.comp' (φ := fun z : ℝ × ℝ => z.1 / z.2)
      (contDiffAt_fst.div contDiffAt_snd hs) (h.toNigh.prodMk g.toNigh))
    (((g.ne hs).and (h.fin.and g.fin)).mono fun k hk => (M k).div _ _ hk.1 hk.2.1 hk.2.2)

theorem Lim.powN (hu : Fine u l ω) (h : Lim M l ω x xR r) {n : Nat} (hn : n ≤ 3) :
    Lim M l ω (fun k => Arith.powN (x k) n) (fun k => Arith.powN (xR k) n) (r ^ n) :=
  Lim.close hu (Nigh.comp' (φ := fun z : ℝ => z ^ n) (by fun_prop) h.toNigh)
    (h.fin.mono fun k hk => (M k).powN _ _ hn hk)

/-- A library function, strictly differentiable at the limit. -/
theorem Lim.fnS (hu : Fine u l ω) (h : Lim M l ω x xR r) {φ : ℝ → ℝ} {φ' : ℝ}
    (hφ : HasStrictDerivAt φ φ' r) {f : ∀ k, α k → α k}
    (hf : ∀ᶠ k in l, (M k).fin (x k) → (M k).Sound (f k (x k)) (φ ((M k).val (x k)))) :
    Lim M l ω (fun k => f k (x k)) (fun k => φ (xR k)) (φ r) :=
  Lim.close hu (Nigh.comp hφ.hasStrictFDerivAt h.toNigh) ((hf.and h.fin).mono fun k hk => hk.1 hk.2)

theorem Lim.fn (hu : Fine u l ω) (h : Lim M l ω x xR r) {φ : ℝ → ℝ} (hφ : ContDiffAt ℝ 1 φ r)
    {f : ∀ k, α k → α k}
    (hf : ∀ᶠ k in l, (M k).fin (x k) → (M k).Sound (f k (x k)) (φ ((M k).val (x k)))) :
    Lim M l ω (fun k => f k (x k)) (fun k => φ (xR k)) (φ r) :=
  Lim.close hu (Nigh.comp' hφ h.toNigh) ((hf.and h.fin).mono fun k hk => hk.1 hk.2)

theorem Lim.sqrt (hu : Fine u l ω) (h : Lim M l ω x xR r) (hr : 0 < r) :
    Lim M l ω (fun k => CMath.sqrt (x k)) (fun k => CMath.sqrt (xR k)) √r :=
  h.fn hu (Real.contDiffAt_sqrt hr.ne')
    ((Tendsto.eventually_const_lt hr h.lim).mono fun k hk => (M k).sqrt _ hk.le)

theorem Lim.log (hu : Fine u l ω) (h : Lim M l ω x xR r) (hr : 0 < r) :
    Lim M l ω (fun k => CMath.log (x k)) (fun k => CMath.log (xR k)) (Real.log r) :=
  h.fn hu (Real.contDiffAt_log.2 hr.ne')
    ((Tendsto.eventually_const_lt hr h.lim).mono fun k hk => (M k).log _ hk)

theorem Lim.pow (hu : Fine u l ω) (h : Lim M l ω x xR r) (g : Lim M l ω y yR s) (hr : 0 < r) :
    Lim M l ω (fun k => CMath.pow (x k) (y k)) (fun k => CMath.pow (xR k) (yR k)) (r ^ s) :=
  Lim.close hu (Nigh.comp (φ := fun z : ℝ × ℝ => z.1 ^ z.2)
      (Real.hasStrictFDerivAt_rpow_of_pos (r, s) hr) (h.toNigh.prodMk g.toNigh))
    (((Tendsto.eventually_const_lt hr h.lim).and (h.fin.and g.fin)).mono fun k hk =>
      (M k).pow _ _ hk.1 hk.2.1 hk.2.2)

theorem logb_contDiffAt {b r : ℝ} (hr : 0 < r) : ContDiffAt ℝ 1 (Real.logb b) r := by
  unfold Real.logb
  exact (Real.contDiffAt_log.2 hr.ne').div_const _

theorem cbrtR_strict {r : ℝ} (hr : r ≠ 0) :
    HasStrictDerivAt XReal.cbrtR (1 / (3 * XReal.cbrtR r * XReal.cbrtR r)) r := by
  refine hasStrictDerivAt_of_hasDerivAt_of_continuousAt 
    (f' := fun y => 1 / (3 * XReal.cbrtR y * XReal.cbrtR y))
    ((isOpen_ne.eventually_mem hr).mono fun y hy => hasDerivAt_cbrtR hy) ?_
  have := cbrtR_ne hr
  have hc := (hasDerivAt_cbrtR hr).continuousAt
  exact continuousAt_const.div ((continuousAt_const.mul hc).mul hc)
    (mul_ne_zero (mul_ne_zero three_ne_zero this) this)

theorem tanh_contDiffAt (r : ℝ) : ContDiffAt ℝ 1 Real.tanh r := by
  have : Real.tanh = fun x => Real.sinh x / Real.cosh x := by
    funext x; exact Real.tanh_eq_sinh_div_cosh x
  rw [this]
  exact Real.contDiff_sinh.contDiffAt.div Real.contDiff_cosh.contDiffAt (Real.cosh_pos r).ne'

theorem artanh_strict {r : ℝ} (hr : -1 < r ∧ r < 1) :
    HasStrictDerivAt Real.artanh (1 / (1 - r * r)) r := by
  refine hasStrictDerivAt_of_hasDerivAt_of_continuousAt (f' := fun y => 1 / (1 - y * y))
    ((isOpen_Ioo.eventually_mem (Set.mem_Ioo.2 hr)).mono fun y hy => hasDerivAt_artanh hy) ?_
  have := one_sub_sq_pos hr
  exact continuousAt_const.div (by fun_prop) this.ne'

theorem Lim.hypot (hu : Fine u l ω) (h : Lim M l ω x xR r) (g : Lim M l ω y yR s)
    (h0 : 0 < r ^ 2 + s ^ 2) :
    Lim M l ω (fun k => CMath.hypot (x k) (y k)) (fun k => CMath.hypot (xR k) (yR k))
      √(r ^ 2 + s ^ 2) :=
  Lim.close hu (Nigh.comp' (φ := fun z : ℝ × ℝ => √(z.1 ^ 2 + z.2 ^ 2))
      (ContDiffAt.sqrt (by fun_prop) h0.ne') (h.toNigh.prodMk g.toNigh))
    ((h.fin.and g.fin).mono fun k hk => (M k).hypot _ _ hk.1 hk.2)

theorem Lim.hypot3 (hu : Fine u l ω) (h : Lim M l ω x xR r) (g : Lim M l ω y yR s)
    (f : Lim M l ω z zR t) (h0 : 0 < r ^ 2 + s ^ 2 + t ^ 2) :
    Lim M l ω (fun k => CMath.hypot3 (x k) (y k) (z k)) (fun k => CMath.hypot3 (xR k) (yR k) (zR k))
      √(r ^ 2 + s ^ 2 + t ^ 2) :=
  Lim.close hu (Nigh.comp' (φ := fun z : ℝ × ℝ × ℝ => √(z.1 ^ 2 + z.2.1 ^ 2 + z.2.2 ^ 2))
      (ContDiffAt.sqrt (by fun_prop) h0.ne') (h.toNigh.prodMk (g.toNigh.prodMk f.toNigh)))
    ((h.fin.and (g.fin.and f.fin)).mono fun k hk => (M k).hypot3 _ _ _ hk.1 hk.2.1 hk.2.2)

theorem Lim.atan2 (hu : Fine u l ω) (h : Lim M l ω x xR r) (g : Lim M l ω y yR s)
    (hr : r ≠ 0 ∨ 0 < s) :
    Lim M l ω (fun k => CMath.atan2 (x k) (y k)) (fun k => CMath.atan2 (xR k) (yR k))
      (Complex.arg ⟨s, r⟩) := by
  have hs : ((s : ℂ) + (r : ℂ) * Complex.I) ∈ Complex.slitPlane := by
    rw [Complex.mem_slitPlane_iff]
    simpa [or_comm] using hr
  have hd : ContDiffAt ℝ 1 (fun z : ℝ × ℝ => Complex.arg ⟨z.2, z.1⟩) (r, s) := by
    have h1 : ContDiffAt ℝ 1 Complex.log ((s : ℂ) + (r : ℂ) * Complex.I) :=
      (Complex.contDiffAt_log hs).restrict_scalars ℝ
    have h2 : ContDiff ℝ 1 (fun z : ℝ × ℝ => (z.2 : ℂ) + (z.1 : ℂ) * Complex.I) :=
      (Complex.ofRealCLM.contDiff.comp contDiff_snd).add
        ((Complex.ofRealCLM.contDiff.comp contDiff_fst).mul contDiff_const)
    have h3 : ContDiffAt ℝ 1 (fun z : ℝ × ℝ => (Complex.log ((z.2 : ℂ) + (z.1 : ℂ) * Complex.I)).im)
        (r, s) := 
      Complex.imCLM.contDiff.contDiffAt.comp (r, s)
        (ContDiffAt.comp (g := Complex.log) (r, s) h1 h2.contDiffAt)
    simpa only [Complex.log_im, ← Complex.mk_eq_add_mul_I] using h3
  refine Lim.close hu (Nigh.comp' (φ := fun z : ℝ × ℝ => Complex.arg ⟨z.2, z.1⟩) hd
    (h.toNigh.prodMk g.toNigh)) ?_
  have hev : ∀ᶠ k in l, (M k).val (x k) ≠ 0 ∨ 0 < (M k).val (y k) := by
    rcases hr with hr | hr
    · exact (h.ne hr).mono fun k hk => Or.inl hk
    · exact (Tendsto.eventually_const_lt hr g.lim).mono fun k hk => Or.inr hk
  exact (hev.and (h.fin.and g.fin)).mono fun k hk => (M k).atan2 _ _ hk.1 hk.2.1 hk.2.2

/-- Coefficients converge. -/
structure LimU (M : ∀ k, FinErr (α k) (u k)) (l : Filter ι) (ω : ι → ℝ) (w : ∀ k, DD.U (α k))
    (wR : ι → DD.U ℝ) (v : DD.U ℝ) :
    Prop where
  f : Lim M l ω (fun k => (w k).f) (fun k => (wR k).f) v.f
  da : Lim M l ω (fun k => (w k).da) (fun k => (wR k).da) v.da
  daa : Lim M l ω (fun k => (w k).daa) (fun k => (wR k).daa) v.daa

theorem Fn.lim (hu : Fine u l ω) (enc : ∀ k, ℝ → α k)
    (henc : ∀ s, Lim M l ω (fun k => enc k s) (fun _ => s) s) {o : Nat} (φ : Fn ℝ) (h : Lim M l ω x xR r)
    (hd : φ.dom o r) (h0 : ∀ b, φ = .pow b → 0 < r) :
    LimU M l ω (fun k => (φ.map (enc k)).coef (x k)) (fun k => φ.coef (xR k)) (φ.coef r) := by
  have l1 : Lim M l ω (fun _ => Arith.lit 1) (fun _ => Arith.lit 1) (1 : ℤ) := Lim.lit (by norm_num)
  have l2 : Lim M l ω (fun _ => Arith.lit 2) (fun _ => Arith.lit 2) (2 : ℤ) := Lim.lit (by norm_num)
  have l3 : Lim M l ω (fun _ => Arith.lit 3) (fun _ => Arith.lit 3) (3 : ℤ) := Lim.lit (by norm_num)
  have l10 : Lim M l ω (fun _ => Arith.lit 10) (fun _ => Arith.lit 10) (10 : ℤ) := Lim.lit (by norm_num)
  have m1 : Lim M l ω (fun _ => Arith.lit (-1)) (fun _ => Arith.lit (-1)) (-1 : ℤ) := Lim.lit
    (by norm_num)
  have m2 : Lim M l ω (fun _ => Arith.lit (-2)) (fun _ => Arith.lit (-2)) (-2 : ℤ) := Lim.lit
    (by norm_num)
  have hall : ∀ {P : ι → Prop}, (∀ k, P k) → ∀ᶠ k in l, P k := fun h => .of_forall h
  cases φ with
  | sqrt =>
    have hr : 0 < r := hd
    have f := h.sqrt hu hr
    have da := l1.div hu (l2.mul hu f) (by have := Real.sqrt_pos.2 hr; positivity)
    have h2 : ((2 : ℤ) : ℝ) * r ≠ 0 := by positivity
    exact ⟨f, da, da.neg.div hu (l2.mul hu h) h2⟩
  | cbrt =>
    have hr : r ≠ 0 := hd
    have f : Lim M l ω (fun k => CMath.cbrt (x k)) (fun k => CMath.cbrt (xR k)) (XReal.cbrtR r) :=
      h.fnS hu (cbrtR_strict hr) (hall fun k => (M k).cbrt _)
    have hc := cbrtR_ne hr
    have da := l1.div hu ((l3.mul hu f).mul hu f) (by positivity)
    have h3 : ((3 : ℤ) : ℝ) * r ≠ 0 := by positivity
    exact ⟨f, da, (da.neg.mul hu l2).div hu (l3.mul hu h) h3⟩
  | reciprocal =>
    have f := l1.div hu h hd
    have da := f.neg.mul hu f
    exact ⟨f, da, (m2.mul hu f).mul hu da⟩
  | cos =>
    have c : Lim M l ω (fun k => CMath.cos (x k)) (fun k => CMath.cos (xR k)) (Real.cos r) :=
      h.fn hu Real.contDiff_cos.contDiffAt (hall fun k => (M k).cos _)
    have s : Lim M l ω (fun k => CMath.sin (x k)) (fun k => CMath.sin (xR k)) (Real.sin r) :=
      h.fn hu Real.contDiff_sin.contDiffAt (hall fun k => (M k).sin _)
    exact ⟨c, s.neg, c.neg⟩
  | sin =>
    have c : Lim M l ω (fun k => CMath.cos (x k)) (fun k => CMath.cos (xR k)) (Real.cos r) :=
      h.fn hu Real.contDiff_cos.contDiffAt (hall fun k => (M k).cos _)
    have s : Lim M l ω (fun k => CMath.sin (x k)) (fun k => CMath.sin (xR k)) (Real.sin r) :=
      h.fn hu Real.contDiff_sin.contDiffAt (hall fun k => (M k).sin _)
    exact ⟨s, c, s.neg⟩
  | tan =>
    have hr : Real.cos r ≠ 0 := hd
    have f : Lim M l ω (fun k => CMath.tan (x k)) (fun k => CMath.tan (xR k)) (Real.tan r) :=
      h.fn hu (Real.contDiffAt_tan.2 hr)
        ((Tendsto.eventually_ne (Real.continuous_cos.continuousAt.tendsto.comp h.lim) hr).mono
          fun k hk => (M k).tan _ hk)
    have da := (f.mul hu f).add hu l1
    exact ⟨f, da, (da.mul hu l2).mul hu f⟩
  | acos =>
    have hr : -1 < r ∧ r < 1 := hd
    have ht : 0 < ((1 : ℤ) : ℝ) - r * r := by simpa using one_sub_sq_pos hr
    have f : Lim M l ω (fun k => CMath.acos (x k)) (fun k => CMath.acos (xR k)) (Real.arccos r) :=
      h.fn hu (Real.contDiffAt_arccos hr.1.ne' hr.2.ne)
        (((Tendsto.eventually_const_lt hr.1 h.lim).and (Tendsto.eventually_lt_const hr.2 h.lim)).mono
          fun k hk => (M k).acos _ hk.1.le hk.2.le)
    have tmp := l1.sub hu (h.mul hu h)
    have da := m1.div hu (tmp.sqrt hu ht) (Real.sqrt_pos.2 ht).ne'
    exact ⟨f, da, (da.mul hu h).div hu tmp ht.ne'⟩
  | asin =>
    have hr : -1 < r ∧ r < 1 := hd
    have ht : 0 < ((1 : ℤ) : ℝ) - r * r := by simpa using one_sub_sq_pos hr
    have f : Lim M l ω (fun k => CMath.asin (x k)) (fun k => CMath.asin (xR k)) (Real.arcsin r) :=
      h.fn hu (Real.contDiffAt_arcsin hr.1.ne' hr.2.ne)
        (((Tendsto.eventually_const_lt hr.1 h.lim).and (Tendsto.eventually_lt_const hr.2 h.lim)).mono
          fun k hk => (M k).asin _ hk.1.le hk.2.le)
    have tmp := l1.sub hu (h.mul hu h)
    have da := l1.div hu (tmp.sqrt hu ht) (Real.sqrt_pos.2 ht).ne'
    exact ⟨f, da, (da.mul hu h).div hu tmp ht.ne'⟩
  | atan =>
    have f : Lim M l ω (fun k => CMath.atan (x k)) (fun k => CMath.atan (xR k)) (Real.arctan r) :=
      h.fn hu Real.contDiff_arctan.contDiffAt (hall fun k => (M k).atan _)
    have ht : r * r + ((1 : ℤ) : ℝ) ≠ 0 := by
      have := mul_self_nonneg r
      push_cast; linarith
    have da := l1.div hu ((h.mul hu h).add hu l1) ht
    exact ⟨f, da, ((da.neg.mul hu da).mul hu l2).mul hu h⟩
  | cosh =>
    have c : Lim M l ω (fun k => CMath.cosh (x k)) (fun k => CMath.cosh (xR k)) (Real.cosh r) :=
      h.fn hu Real.contDiff_cosh.contDiffAt (hall fun k => (M k).cosh _)
    have s : Lim M l ω (fun k => CMath.sinh (x k)) (fun k => CMath.sinh (xR k)) (Real.sinh r) :=
      h.fn hu Real.contDiff_sinh.contDiffAt (hall fun k => (M k).sinh _)
    exact ⟨c, s, c⟩
  | sinh =>
    have c : Lim M l ω (fun k => CMath.cosh (x k)) (fun k => CMath.cosh (xR k)) (Real.cosh r) :=
      h.fn hu Real.contDiff_cosh.contDiffAt (hall fun k => (M k).cosh _)
    have s : Lim M l ω (fun k => CMath.sinh (x k)) (fun k => CMath.sinh (xR k)) (Real.sinh r) :=
      h.fn hu Real.contDiff_sinh.contDiffAt (hall fun k => (M k).sinh _)
    exact ⟨s, c, s⟩
  | tanh =>
    have f : Lim M l ω (fun k => CMath.tanh (x k)) (fun k => CMath.tanh (xR k)) (Real.tanh r) :=
      h.fn hu (tanh_contDiffAt r) (hall fun k => (M k).tanh _)
    have da := l1.sub hu (f.mul hu f)
    exact ⟨f, da, (m2.mul hu f).mul hu da⟩
  | acosh =>
    have hr : 1 < r := hd
    have hm : 0 < r - ((1 : ℤ) : ℝ) := by simpa using hr
    have hp : 0 < r + ((1 : ℤ) : ℝ) := by push_cast; linarith
    have f : Lim M l ω (fun k => CMath.acosh (x k)) (fun k => CMath.acosh (xR k)) (Real.arcosh r) :=
      h.fn hu (Real.contDiffAt_arcosh hr)
        ((Tendsto.eventually_const_lt hr h.lim).mono fun k hk => (M k).acosh _ hk.le)
    have a := h.sub hu l1
    have b := h.add hu l1
    have sa := Real.sqrt_pos.2 hm
    have sb := Real.sqrt_pos.2 hp
    have da := l1.div hu ((a.sqrt hu hm).mul hu (b.sqrt hu hp)) (mul_pos sa sb).ne'
    exact ⟨f, da, (da.neg.mul hu h).div hu (a.mul hu b) (mul_pos hm hp).ne'⟩
  | asinh =>
    have hp : 0 < ((1 : ℤ) : ℝ) + r * r := by
      have := mul_self_nonneg r
      push_cast; linarith
    have f : Lim M l ω (fun k => CMath.asinh (x k)) (fun k => CMath.asinh (xR k)) (Real.arsinh r) :=
      h.fn hu Real.contDiff_arsinh.contDiffAt (hall fun k => (M k).asinh _)
    have b := l1.add hu (h.mul hu h)
    have da := l1.div hu (b.sqrt hu hp) (Real.sqrt_pos.2 hp).ne'
    exact ⟨f, da, (da.neg.mul hu h).div hu b hp.ne'⟩
  | atanh =>
    have hr : -1 < r ∧ r < 1 := hd
    have ht : 0 < ((1 : ℤ) : ℝ) - r * r := by simpa using one_sub_sq_pos hr
    have f : Lim M l ω (fun k => CMath.atanh (x k)) (fun k => CMath.atanh (xR k)) (Real.artanh r) :=
      h.fnS hu (artanh_strict hr)
        (((Tendsto.eventually_const_lt hr.1 h.lim).and (Tendsto.eventually_lt_const hr.2 h.lim)).mono
          fun k hk => (M k).atanh _ hk.1 hk.2)
    have hq := h.mul hu h
    have h1 : r * r - ((1 : ℤ) : ℝ) ≠ 0 := by linarith
    exact ⟨f, l1.div hu (l1.sub hu hq) ht.ne',
      (l2.mul hu h).div hu ((hq.sub hu l1).powN hu (by norm_num)) (pow_ne_zero 2 h1)⟩
  | exp =>
    have f : Lim M l ω (fun k => CMath.exp (x k)) (fun k => CMath.exp (xR k)) (Real.exp r) :=
      h.fn hu Real.contDiff_exp.contDiffAt (hall fun k => (M k).exp _)
    exact ⟨f, f, f⟩
  | log =>
    have hr : 0 < r := hd
    have da := l1.div hu h hr.ne'
    exact ⟨h.log hu hr, da, da.neg.mul hu da⟩
  | log2 =>
    have hr : 0 < r := hd
    have f : Lim M l ω (fun k => CMath.log2 (x k)) (fun k => CMath.log2 (xR k)) (Real.logb 2 r) :=
      h.fn hu (logb_contDiffAt hr)
        ((Tendsto.eventually_const_lt hr h.lim).mono fun k hk => (M k).log2 _ hk)
    have hl : Real.log ((2 : ℤ) : ℝ) ≠ 0 :=
      Real.log_ne_zero_of_pos_of_ne_one (by norm_num) (by norm_num)
    have da := l1.div hu (h.mul hu (l2.log hu (by norm_num))) (mul_ne_zero hr.ne' hl)
    exact ⟨f, da, da.neg.div hu h hr.ne'⟩
  | log10 =>
    have hr : 0 < r := hd
    have f : Lim M l ω (fun k => CMath.log10 (x k)) (fun k => CMath.log10 (xR k)) (Real.logb 10 r) :=
      h.fn hu (logb_contDiffAt hr)
        ((Tendsto.eventually_const_lt hr h.lim).mono fun k hk => (M k).log10 _ hk)
    have hl : Real.log ((10 : ℤ) : ℝ) ≠ 0 :=
      Real.log_ne_zero_of_pos_of_ne_one (by norm_num) (by norm_num)
    have da := l1.div hu (h.mul hu (l10.log hu (by norm_num))) (mul_ne_zero hr.ne' hl)
    exact ⟨f, da, da.neg.div hu h hr.ne'⟩
  | pow b =>
    have hr := h0 b rfl
    have e := henc b
    have e1 := e.sub hu l1
    have e2 := e.sub hu l2
    exact ⟨h.pow hu e hr, e.mul hu (h.pow hu e1 hr), (e1.mul hu e).mul hu (h.pow hu e2 hr)⟩
  | logB b =>
    obtain ⟨hr, hb, hb1⟩ := hd
    have hl : Real.log b ≠ 0 := Real.log_ne_zero_of_pos_of_ne_one hb hb1
    have e := (henc b).log hu hb
    have da := l1.div hu (h.mul hu e) (mul_ne_zero hr.ne' hl)
    exact ⟨(h.log hu hr).div hu e hl, da, da.neg.div hu h hr.ne'⟩

/-- Contents `a k` converge to the jet `J`. -/
structure Conv (M : ∀ k, FinErr (α k) (u k)) (l : Filter ι) (ω : ι → ℝ) (c : Cfg) (n : Nat)
    (a : ∀ k, Nat → α k)
    (aR : ι → Nat → ℝ) (J : Jet ℝ) : Prop where
  f : Lim M l ω (fun k => a k 0) (fun k => aR k 0) J.f
  g : ∀ i < n, Lim M l ω (fun k => a k (1 + i)) (fun k => aR k (1 + i)) (J.g i)
  h : c.order = 2 → ∀ i j, i ≤ j → j < n → Lim M l ω (fun k => a k (pos n i j))
    (fun k => aR k (pos n i j)) (J.h i j)
  sym : ∀ i j, J.h i j = J.h j i

variable {c : Cfg} {n : Nat} {a b d : ∀ k, Nat → α k} {aR bR dR : ι → Nat → ℝ} {J K L : Jet ℝ}

theorem conv_uFin (hu : Fine u l ω) (ha : Conv M l ω c n a aR J) {f da daa : ∀ k, α k}
    {fR daR daaR : ι → ℝ}
    {f' d dd : ℝ} (hf : Lim M l ω f fR f') (hd : Lim M l ω da daR d) (hdd : Lim M l ω daa daaR dd) :
    Conv M l ω c n (fun k => uFin c n (a k) (f k) (da k) (daa k))
      (fun k => uFin c n (aR k) (fR k) (daR k) (daaR k)) (J.comp1 f' d dd) where
  f := by simp only [uFin_zero]; exact hf
  g := by
    intro i hi
    simp only [uFin_succ _ _ _ _ hi]
    exact hd.mul hu (ha.g i hi)
  h := by
    intro h2 i j hij hj
    simp only [uFin_pos h2 _ _ _ _ hij hj]
    exact ((hd.mul hu (ha.h h2 i j hij hj)).add hu ((hdd.mul hu (ha.g i (by omega))).mul hu
      (ha.g j hj))).of_eq (by simp [Jet.comp1])
  sym := by
    intro i j
    simp only [Jet.comp1, ha.sym i j]; ring

theorem conv_bin5 (hu : Fine u l ω) (ha : Conv M l ω c n a aR J) (hb : Conv M l ω c n b bR K)
    {f da db daa dab dbb : ∀ k, α k} {fR daR dbR daaR dabR dbbR : ι → ℝ} {f' xa xb xaa xab xbb : ℝ}
      (hf : Lim M l ω f fR f')
    (hda : Lim M l ω da daR xa) (hdb : Lim M l ω db dbR xb) (hdaa : Lim M l ω daa daaR xaa)
      (hdab : Lim M l ω dab dabR xab)
    (hdbb : Lim M l ω dbb dbbR xbb) :
    Conv M l ω c n (fun k => bin5 c n (a k) (b k) (f k) (da k) (db k) (daa k) (dab k) (dbb k))
      (fun k => bin5 c n (aR k) (bR k) (fR k) (daR k) (dbR k) (daaR k) (dabR k) (dbbR k))
      (Jet.comp2 f' xa xb xaa xab xbb J K) where
  f := by simp only [bin5, bFin_zero]; exact hf
  g := by
    intro i hi
    simp only [bin5, bFin_succ _ _ _ _ hi]
    exact (hda.mul hu (ha.g i hi)).add hu (hdb.mul hu (hb.g i hi))
  h := by
    intro h2 i j hij hj
    have ai := ha.g i (by omega)
    have bi := hb.g i (by omega)
    simp only [bin5, bFin_pos h2 _ _ _ hij hj]
    exact ((hda.mul hu (ha.h h2 i j hij hj)).add hu (hdb.mul hu (hb.h h2 i j hij hj))).add hu
      ((((hdaa.mul hu ai).add hu (hdab.mul hu bi)).mul hu (ha.g j hj)).add hu
        (((hdab.mul hu ai).add hu (hdbb.mul hu bi)).mul hu (hb.g j hj)))
  sym := by
    intro i j
    simp only [Jet.comp2, ha.sym i j, hb.sym i j]; ring

theorem conv_mul (hu : Fine u l ω) (ha : Conv M l ω c n a aR J) (hb : Conv M l ω c n b bR K) :
    Conv M l ω c n (fun k => mulC c n (a k) (b k)) (fun k => mulC c n (aR k) (bR k))
      (Jet.comp2 (J.f * K.f) K.f J.f 0 1 0 J K) where
  f := by simp only [mulC, bFin_zero]; exact ha.f.mul hu hb.f
  g := by
    intro i hi
    simp only [mulC, bFin_succ _ _ _ _ hi]
    exact (hb.f.mul hu (ha.g i hi)).add hu (ha.f.mul hu (hb.g i hi))
  h := by
    intro h2 i j hij hj
    simp only [mulC, bFin_pos h2 _ _ _ hij hj]
    exact (((hb.f.mul hu (ha.h h2 i j hij hj)).add hu (ha.f.mul hu (hb.h h2 i j hij hj))).add hu
      (((hb.g i (by omega)).mul hu (ha.g j hj)).add hu ((ha.g i (by omega)).mul hu (hb.g j hj)))).of_eq
      (by simp [Jet.comp2])
  sym := by
    intro i j
    simp only [Jet.comp2, ha.sym i j, hb.sym i j]; ring

theorem conv_div (hu : Fine u l ω) (ha : Conv M l ω c n a aR J) (hb : Conv M l ω c n b bR K)
    {f da db dab dbb : ∀ k, α k} {fR daR dbR dabR dbbR : ι → ℝ} {f' xa xb xab xbb : ℝ}
      (hf : Lim M l ω f fR f')
    (hda : Lim M l ω da daR xa) (hdb : Lim M l ω db dbR xb) (hdab : Lim M l ω dab dabR xab)
    (hdbb : Lim M l ω dbb dbbR xbb) :
    Conv M l ω c n (fun k => divC c n (a k) (b k) (f k) (da k) (db k) (dab k) (dbb k))
      (fun k => divC c n (aR k) (bR k) (fR k) (daR k) (dbR k) (dabR k) (dbbR k))
      (Jet.comp2 f' xa xb 0 xab xbb J K) where
  f := by simp only [divC, bFin_zero]; exact hf
  g := by
    intro i hi
    simp only [divC, bFin_succ _ _ _ _ hi]
    exact (hda.mul hu (ha.g i hi)).add hu (hdb.mul hu (hb.g i hi))
  h := by
    intro h2 i j hij hj
    have ai := ha.g i (by omega)
    have bi := hb.g i (by omega)
    simp only [divC, bFin_pos h2 _ _ _ hij hj]
    exact (((hda.mul hu (ha.h h2 i j hij hj)).add hu (hdb.mul hu (hb.h h2 i j hij hj))).add hu
      (((hdab.mul hu bi).mul hu (ha.g j hj)).add hu
        (((hdab.mul hu ai).add hu (hdbb.mul hu bi)).mul hu (hb.g j hj)))).of_eq (by simp [Jet.comp2])
  sym := by
    intro i j
    simp only [Jet.comp2, ha.sym i j, hb.sym i j]; ring

theorem conv_tern (hu : Fine u l ω) (ha : Conv M l ω c n a aR J) (hb : Conv M l ω c n b bR K)
    (hd : Conv M l ω c n d dR L) {f da db dc daa dab dac dbb dbc dcc : ∀ k, α k}
      {fR daR dbR dcR daaR dabR dacR dbbR dbcR dccR : ι → ℝ}
    {f' xa xb xc xaa xab xac xbb xbc xcc : ℝ} (hf : Lim M l ω f fR f') (hda : Lim M l ω da daR xa)
    (hdb : Lim M l ω db dbR xb) (hdc : Lim M l ω dc dcR xc) (hdaa : Lim M l ω daa daaR xaa)
      (hdab : Lim M l ω dab dabR xab)
    (hdac : Lim M l ω dac dacR xac) (hdbb : Lim M l ω dbb dbbR xbb) (hdbc : Lim M l ω dbc dbcR xbc)
    (hdcc : Lim M l ω dcc dccR xcc) :
    Conv M l ω c n (fun k => bFin c n true (f k) (tLin (a k) (b k) (d k) (da k) (db k) (dc k))
      (tQuad (a k) (b k) (d k) (daa k) (dab k) (dac k) (dbb k) (dbc k) (dcc k)))
        (fun k => bFin c n true (fR k) (tLin (aR k) (bR k) (dR k) (daR k) (dbR k) (dcR k))
      (tQuad (aR k) (bR k) (dR k) (daaR k) (dabR k) (dacR k) (dbbR k) (dbcR k) (dccR k)))
      (Jet.comp3 f' xa xb xc xaa xab xac xbb xbc xcc J K L) where
  f := by simp only [bFin_zero]; exact hf
  g := by
    intro i hi
    simp only [bFin_succ _ _ _ _ hi, tLin]
    exact ((hda.mul hu (ha.g i hi)).add hu (hdb.mul hu (hb.g i hi))).add hu (hdc.mul hu (hd.g i hi))
  h := by
    intro h2 i j hij hj
    have ai := ha.g i (by omega)
    have bi := hb.g i (by omega)
    have di := hd.g i (by omega)
    simp only [bFin_pos h2 _ _ _ hij hj, tLin, tQuad]
    exact (((hda.mul hu (ha.h h2 i j hij hj)).add hu (hdb.mul hu (hb.h h2 i j hij hj))).add hu
      (hdc.mul hu (hd.h h2 i j hij hj))).add hu
      (((((hdaa.mul hu ai).add hu (hdab.mul hu bi)).add hu (hdac.mul hu di)).mul hu (ha.g j hj)).add hu
        ((((hdab.mul hu ai).add hu (hdbb.mul hu bi)).add hu (hdbc.mul hu di)).mul hu
          (hb.g j hj))|>.add hu
        ((((hdac.mul hu ai).add hu (hdbc.mul hu bi)).add hu (hdcc.mul hu di)).mul hu (hd.g j hj)))
  sym := by
    intro i j
    simp only [Jet.comp3, ha.sym i j, hb.sym i j, hd.sym i j]; ring

theorem conv_const {s : ∀ k, α k} {sR : ι → ℝ} {t : ℝ} (h : Lim M l ω s sR t) :
    Conv M l ω c n (fun k => constC (s k)) (fun k => constC (sR k)) ⟨t, fun _ => 0, fun _ _ => 0⟩ where
  f := by simpa [constC] using h
  g := by
    intro i _
    simp only [constC, show ¬ 1 + i = 0 by omega, if_false]
    exact (Lim.lit (z := 0) (by norm_num)).of_eq (by simp)
  h := by
    intro _ i j _ _
    have := pos_gt n i j
    simp only [constC, show ¬ pos n i j = 0 by omega, if_false]
    exact (Lim.lit (z := 0) (by norm_num)).of_eq (by simp)
  sym := fun _ _ => rfl

theorem conv_lin (ha : Conv M l ω c n a aR J) {a' : ∀ k, Nat → α k} {a'R : ι → Nat → ℝ} {f' m : ℝ}
    (hf : Lim M l ω (fun k => a' k 0) (fun k => a'R k 0) f')
    (h : ∀ i, 0 < i → ∀ r, Lim M l ω (fun k => a k i) (fun k => aR k i) r → Lim M l ω
      (fun k => a' k i) (fun k => a'R k i) (m * r)) :
    Conv M l ω c n a' a'R (J.comp1 f' m 0) where
  f := hf
  g := fun i hi => h _ (by omega) _ (ha.g i hi)
  h := by
    intro h2 i j hij hj
    have := pos_gt n i j
    exact (h _ (by omega) _ (ha.h h2 i j hij hj)).of_eq (by simp [Jet.comp1])
  sym := by
    intro i j
    simp [Jet.comp1, ha.sym i j]

theorem SBin.conv (hu : Fine u l ω) (p : SBin) {s : ∀ k, α k} {sR : ι → ℝ} {t : ℝ}
    (hs : Lim M l ω s sR t)
    (ha : Conv M l ω c n a aR J) (h : p.dom J.f t) :
    Conv M l ω c n (fun k => p.runC c n (a k) (s k)) (fun k => p.runC c n (aR k) (sR k))
      (J.comp1 (p.den J.f t) (p.d J.f t).1 (p.d J.f t).2) := by
  have l1 : Lim M l ω (fun _ => Arith.lit 1) (fun _ => Arith.lit 1) (1 : ℤ) := Lim.lit (by norm_num)
  have l2 : Lim M l ω (fun _ => Arith.lit 2) (fun _ => Arith.lit 2) (2 : ℤ) := Lim.lit (by norm_num)
  cases p with
  | addS =>
    refine conv_lin ha (ha.f.add hu hs) fun i hi r hr => ?_
    simp only [SBin.runC, addSC, hi.ne', if_false]
    exact hr.of_eq (by simp [SBin.d])
  | sAdd =>
    refine conv_lin ha ((ha.f.add hu hs).of_eq (add_comm _ _)) fun i hi r hr => ?_
    simp only [SBin.runC, addSC, hi.ne', if_false]
    exact hr.of_eq (by simp [SBin.d])
  | subS =>
    refine conv_lin ha ((ha.f.add hu hs.neg).of_eq (by simp [SBin.den, sub_eq_add_neg]))
      fun i hi r hr => ?_
    simp only [SBin.runC, addSC, hi.ne', if_false]
    exact hr.of_eq (by simp [SBin.d])
  | sSub =>
    refine conv_lin ha ((ha.f.neg.add hu hs).of_eq (by simp [SBin.den]; ring)) fun i hi r hr => ?_
    simp only [SBin.runC, sSubC, hi.ne', if_false]
    exact hr.neg.of_eq (by simp [SBin.d])
  | mulS =>
    exact conv_lin ha (ha.f.mul hu hs) fun i hi r hr => (hr.mul hu hs).of_eq (mul_comm _ _)
  | sMul =>
    exact conv_lin ha ((ha.f.mul hu hs).of_eq (mul_comm _ _))
      fun i hi r hr => (hr.mul hu hs).of_eq (mul_comm _ _)
  | divS =>
    have hs0 : t ≠ 0 := h
    have q := l1.div hu hs hs0
    exact conv_lin ha ((ha.f.mul hu q).of_eq (by simp [SBin.den, div_eq_mul_inv]))
      fun i hi r hr => (hr.mul hu q).of_eq (by simp [SBin.d, mul_comm])
  | sDiv =>
    have hx : J.f ≠ 0 := h
    exact conv_uFin hu ha (hs.div hu ha.f hx)
      (hs.neg.div hu (ha.f.powN hu (by norm_num)) (pow_ne_zero 2 hx))
      (((l2.mul hu hs).div hu (ha.f.powN hu (by norm_num)) (pow_ne_zero 3 hx)).of_eq (by simp [SBin.d]))

theorem Bin.conv (hu : Fine u l ω) (p : Bin) (ha : Conv M l ω c n a aR J) (hb : Conv M l ω c n b bR K)
    (h : p.dom J.f K.f) (hr : p.reg J.f K.f) :
    Conv M l ω c n (fun k => p.runC c n (a k) (b k)) (fun k => p.runC c n (aR k) (bR k))
      (p.jet J K) := by
  have l1 : Lim M l ω (fun _ => Arith.lit 1) (fun _ => Arith.lit 1) (1 : ℤ) := Lim.lit (by norm_num)
  have l2 : Lim M l ω (fun _ => Arith.lit 2) (fun _ => Arith.lit 2) (2 : ℤ) := Lim.lit (by norm_num)
  have m1 : Lim M l ω (fun _ => Arith.lit (-1)) (fun _ => Arith.lit (-1)) (-1 : ℤ) := Lim.lit
    (by norm_num)
  cases p with
  | add =>
    refine ⟨ha.f.add hu hb.f, fun i hi => ?_, fun h2 i j hij hj => ?_, fun i j => ?_⟩
    · exact ((ha.g i hi).add hu (hb.g i hi)).of_eq (by simp [Bin.jet, Jet.comp2, Bin.d])
    · exact ((ha.h h2 i j hij hj).add hu (hb.h h2 i j hij hj)).of_eq
        (by simp [Bin.jet, Jet.comp2, Bin.d])
    · simp [Bin.jet, Jet.comp2, Bin.d, ha.sym i j, hb.sym i j]
  | sub =>
    refine ⟨ha.f.sub hu hb.f, fun i hi => ?_, fun h2 i j hij hj => ?_, fun i j => ?_⟩
    · simp only [Bin.runC, subC, show ¬ 1 + i = 0 by omega, if_false]
      exact ((ha.g i hi).add hu (hb.g i hi).neg).of_eq (by simp [Bin.jet, Jet.comp2, Bin.d])
    · have := pos_gt n i j
      simp only [Bin.runC, subC, show ¬ pos n i j = 0 by omega, if_false]
      exact ((ha.h h2 i j hij hj).add hu (hb.h h2 i j hij hj).neg).of_eq
        (by simp [Bin.jet, Jet.comp2, Bin.d])
    · simp [Bin.jet, Jet.comp2, Bin.d, ha.sym i j, hb.sym i j]
  | mul => exact conv_mul hu ha hb
  | div =>
    have hy : K.f ≠ 0 := h
    have q := l1.div hu hb.f hy
    have p2 := hb.f.powN hu (n := 2) (by norm_num)
    have p3 := hb.f.powN hu (n := 3) (by norm_num)
    exact conv_div hu ha hb ((ha.f.mul hu q).of_eq (by simp [Bin.den, div_eq_mul_inv]))
      (q.of_eq (by simp [Bin.d])) (ha.f.neg.div hu p2 (pow_ne_zero 2 hy))
      ((m1.div hu p2 (pow_ne_zero 2 hy)).of_eq (by simp [Bin.d]))
      (((l2.mul hu ha.f).div hu p3 (pow_ne_zero 3 hy)).of_eq (by simp [Bin.d]))
  | atan2 =>
    have hq := (sq_add_sq_pos h).ne'
    have tmp := ((ha.f.mul hu ha.f).add hu (hb.f.mul hu hb.f)).of_eq
      (show J.f * J.f + K.f * K.f = J.f ^ 2 + K.f ^ 2 by ring)
    have da := hb.f.div hu tmp hq
    have db := ha.f.neg.div hu tmp hq
    have daa := ((db.mul hu da).mul hu l2).of_eq
      (s := -(2 * J.f * K.f) / (J.f ^ 2 + K.f ^ 2) ^ 2) (by push_cast; field_simp)
    exact conv_bin5 hu ha hb (ha.f.atan2 hu hb.f hr) da db daa
      (((db.mul hu db).sub hu (da.mul hu da)).of_eq (by simp only [Bin.d]; field_simp))
      (daa.neg.of_eq (by simp only [Bin.d]; field_simp))
  | hypot =>
    have hq := sq_add_sq_pos h
    have hr := (Real.sqrt_pos.mpr hq).ne'
    have f := ha.f.hypot hu hb.f hq
    have f3 := ((f.mul hu f).mul hu f).of_eq
      (show _ = √(J.f ^ 2 + K.f ^ 2) ^ 3 by ring)
    have h3 := pow_ne_zero 3 hr
    exact conv_bin5 hu ha hb f (ha.f.div hu f hr) (hb.f.div hu f hr)
      ((hb.f.mul hu hb.f).div hu f3 h3) ((ha.f.neg.mul hu hb.f).div hu f3 h3)
      ((ha.f.mul hu ha.f).div hu f3 h3)

theorem sq3_pos {a b c : ℝ} (h : ¬ (a = 0 ∧ b = 0 ∧ c = 0)) : 0 < a ^ 2 + b ^ 2 + c ^ 2 := by
  by_cases h1 : a = 0
  · by_cases h2 : b = 0
    · have h3 : c ≠ 0 := fun h3 => h ⟨h1, h2, h3⟩
      positivity
    · positivity
  · positivity

theorem conv_hypot3 (hu : Fine u l ω) (ha : Conv M l ω c n a aR J) (hb : Conv M l ω c n b bR K)
    (hd : Conv M l ω c n d dR L) (h : ¬ (J.f = 0 ∧ K.f = 0 ∧ L.f = 0)) :
    Conv M l ω c n (fun k => hypot3C c n (a k) (b k) (d k))
      (fun k => hypot3C c n (aR k) (bR k) (dR k)) (hypot3Jet J K L) := by
  have hq := sq3_pos h
  have hr := (Real.sqrt_pos.mpr hq).ne'
  have f := ha.f.hypot3 hu hb.f hd.f hq
  have f3 := ((f.mul hu f).mul hu f).of_eq
    (show _ = √(J.f ^ 2 + K.f ^ 2 + L.f ^ 2) ^ 3 by ring)
  have h3 := pow_ne_zero 3 hr
  have a2 := ha.f.mul hu ha.f
  have b2 := hb.f.mul hu hb.f
  have c2 := hd.f.mul hu hd.f
  exact conv_tern hu ha hb hd f (ha.f.div hu f hr) (hb.f.div hu f hr) (hd.f.div hu f hr)
    ((b2.add hu c2).div hu f3 h3) ((ha.f.mul hu hb.f).neg.div hu f3 h3)
    ((ha.f.mul hu hd.f).neg.div hu f3 h3) ((a2.add hu c2).div hu f3 h3)
    ((hb.f.mul hu hd.f).neg.div hu f3 h3) ((a2.add hu b2).div hu f3 h3)

theorem conv_abs (ha : Conv M l ω c n a aR J) (hJ : J.f ≠ 0) :
    Conv M l ω c n (fun k => absC (a k)) (fun k => absC (aR k))
      (J.comp1 |J.f| (if J.f < 0 then -1 else 1) 0) := by
  have h0 : ∀ k, (M k).val (Arith.lit 0) = 0 := fun k => by
    simpa using ((M k).lit 0 (by norm_num)).2
  have f0 : ∀ k, (M k).fin (Arith.lit 0) := fun k => ((M k).lit 0 (by norm_num)).1
  rcases lt_or_gt_of_ne hJ with hneg | hpos
  · have hev : ∀ᶠ k in l, Cmp.ltB (a k 0) (Arith.lit 0) = true := by
      filter_upwards [Tendsto.eventually_lt_const hneg ha.f.lim, ha.f.fin] with k hk hf
      rw [(M k).less _ _ hf (f0 k), h0]
      exact hk
    have hevR : ∀ᶠ k in l, Cmp.ltB (aR k 0) (Arith.lit 0) = true := by
      filter_upwards [Tendsto.eventually_lt_const hneg ha.f.goal] with k hk
      exact decide_eq_true (show aR k 0 < ((0 : ℤ) : ℝ) by simpa using hk)
    have key : ∀ i r, Lim M l ω (fun k => a k i) (fun k => aR k i) r → Lim M l ω
      (fun k => absC (a k) i) (fun k => absC (aR k) i) (-r) := by
      intro i r hr
      refine Lim.congr' ?_ ?_ hr.neg
      · filter_upwards [hev] with k hk
        simp [absC, hk]
      · filter_upwards [hevR] with k hk
        simp [absC, hk]
    rw [if_pos hneg, abs_of_neg hneg]
    exact conv_lin ha (key _ _ ha.f) fun i _ r hr => (key i r hr).of_eq (by ring)
  · have hev : ∀ᶠ k in l, Cmp.ltB (a k 0) (Arith.lit 0) = false := by
      filter_upwards [Tendsto.eventually_const_lt hpos ha.f.lim, ha.f.fin] with k hk hf
      rw [Bool.eq_false_iff, Ne, (M k).less _ _ hf (f0 k), h0]
      exact not_lt.2 (le_of_lt hk)
    have hevR : ∀ᶠ k in l, Cmp.ltB (aR k 0) (Arith.lit 0) = false := by
      filter_upwards [Tendsto.eventually_const_lt hpos ha.f.goal] with k hk
      exact decide_eq_false (show ¬ aR k 0 < ((0 : ℤ) : ℝ) by simpa using le_of_lt hk)
    have key : ∀ i r, Lim M l ω (fun k => a k i) (fun k => aR k i) r → Lim M l ω
      (fun k => absC (a k) i) (fun k => absC (aR k) i) r := by
      intro i r hr
      refine Lim.congr' ?_ ?_ hr
      · filter_upwards [hev] with k hk
        simp [absC, hk]
      · filter_upwards [hevR] with k hk
        simp [absC, hk]
    rw [if_neg (not_lt.2 hpos.le), abs_of_pos hpos]
    exact conv_lin ha (key _ _ ha.f) fun i _ r hr => (key i r hr).of_eq (by ring)

/-- Evaluation of an expression converges to the exact jet. -/
theorem eval_conv (hu : Fine u l ω) (hc : c.order = 1 ∨ c.order = 2) {V : Type}
    (enc : ∀ k, ℝ → α k) (henc : ∀ s, Lim M l ω (fun k => enc k s) (fun _ => s) s)
      (ρ : ∀ k, V → Nat → α k)
    (ρR : ι → V → Nat → ℝ)
    (Jv : V → Jet ℝ) (hρ : ∀ v, Conv M l ω c n (fun k => ρ k v) (fun k => ρR k v) (Jv v)) (e : Expr ℝ V)
    (hD : e.Dom c.order fun v => (Jv v).f) (hR : e.Regular fun v => (Jv v).f)
    (hP : e.PowPos fun v => (Jv v).f) :
    ∃ J, Conv M l ω c n (fun k => (e.map (enc k)).evalC c n (ρ k)) (fun k => e.evalC c n (ρR k)) J ∧
      J.f = e.den (fun v => (Jv v).f) ∧
      ∀ (w : V → (Fin n → ℝ) → ℝ) (x : Fin n → ℝ), (∀ v, IsJet c.order n (w v) x (Jv v)) →
        IsJet c.order n (fun y => e.den fun v => w v y) x J := by
  induction e with
  | var v => exact ⟨Jv v, hρ v, rfl, fun w x hw => hw v⟩
  | const s =>
    refine ⟨_, conv_const (henc s), rfl, fun w x hw => ?_⟩
    refine isJet_mk (fun _ _ => 0) rfl (Filter.Eventually.of_forall fun y => ?_) (fun _ _ => rfl) ?_
    · exact HasFDerivAt.toLin (hasFDerivAt_const s y) (fun i => by simp)
    · exact fun _ i => HasFDerivAt.toLin (hasFDerivAt_const (0 : ℝ) x) (fun i => by simp)
  | neg e ih =>
    obtain ⟨J, hg, hf, hj⟩ := ih hD hR hP
    refine ⟨J.comp1 (-J.f) (-1) 0, conv_lin hg hg.f.neg fun i _ r hr => hr.neg.of_eq (by ring), ?_,
      fun w x hw => ?_⟩
    · simp [Jet.comp1, hf, Expr.den]
    · have := (hj w x hw).comp1 (d2At_affine c.order (-1) 0 J.f)
      simpa [Expr.den] using this
  | abs e ih =>
    obtain ⟨J, hg, hf, hj⟩ := ih hD hR.1 hP
    have hne : J.f ≠ 0 := by rw [hf]; exact hR.2
    refine ⟨_, conv_abs hg hne, ?_, fun w x hw => (hj w x hw).comp1 (d2At_abs c.order hne)⟩
    simp [Jet.comp1, hf, Expr.den]
  | fn φ e ih =>
    obtain ⟨J, hg, hf, hj⟩ := ih hD.1 hR hP.1
    have hdom := hD.2
    have hpow := hP.2
    rw [← hf] at hdom hpow
    have hφ := φ.real hc hdom fun b hb => (hpow b hb).ne'
    have hl := φ.lim hu enc henc hg.f hdom hpow
    refine ⟨_, conv_uFin hu hg hl.f hl.da hl.daa, ?_, fun w x hw => ?_⟩
    · simp only [Jet.comp1, Expr.den]; rw [hφ.f, hf]
    · rw [hφ.f]
      exact (hj w x hw).comp1 hφ.d2
  | bin o e₁ e₂ ih₁ ih₂ =>
    obtain ⟨J, hg, hf, hj⟩ := ih₁ hD.1 hR.1 hP.1
    obtain ⟨K, kg, kf, kj⟩ := ih₂ hD.2.1 hR.2.1 hP.2
    have hdom := hD.2.2
    have hreg := hR.2.2
    rw [← hf, ← kf] at hdom hreg
    refine ⟨_, o.conv hu hg kg hdom hreg, ?_, fun w x hw => ?_⟩
    · simp [Bin.jet, Jet.comp2, hf, kf, Expr.den]
    · exact o.isJet _ (hj w x hw) (kj w x hw) hdom hreg
  | sbin o e s ih =>
    obtain ⟨J, hg, hf, hj⟩ := ih hD.1 hR hP
    have hdom := hD.2
    rw [← hf] at hdom
    refine ⟨_, o.conv hu (henc s) hg hdom, ?_, fun w x hw => ?_⟩
    · simp [Jet.comp1, hf, Expr.den]
    · exact (hj w x hw).comp1 (o.d2At c.order hdom)
  | hypot3 e₁ e₂ e₃ ih₁ ih₂ ih₃ =>
    obtain ⟨J, hg, hf, hj⟩ := ih₁ hD.1 hR.1 hP.1
    obtain ⟨K, kg, kf, kj⟩ := ih₂ hD.2.1 hR.2.1 hP.2.1
    obtain ⟨L, lg, lf, lj⟩ := ih₃ hD.2.2.1 hR.2.2 hP.2.2
    have hdom := hD.2.2.2
    rw [← hf, ← kf, ← lf] at hdom
    refine ⟨_, conv_hypot3 hu hg kg lg hdom, ?_, fun w x hw => ?_⟩
    · simp [hypot3Jet, Jet.comp3, hf, kf, lf, Expr.den]
    · exact hypot3_isJet _ (hj w x hw) (kj w x hw) (lj w x hw) hdom

omit [∀ k, CMath (α k)] in
theorem Within.mono {β : Type} {B B' : β → ℝ → Prop} {F : (Fin n → ℝ) → ℝ} {x : Fin n → ℝ} {r : DD β}
    (h : Within c B F x r) (hB : ∀ s t, B s t → B' s t) : Within c B' F x r :=
  ⟨h.size, h.f.imp fun _ hs => ⟨hs.1, hB _ _ hs.2⟩, fun i => (h.g i).imp fun _ hs => ⟨hs.1, hB _ _ hs.2⟩,
    fun h2 i j => (h.h h2 i j).imp fun _ hs => ⟨hs.1, hB _ _ hs.2⟩⟩

/-- A relation for all components of an object from that for the components of its contents. -/
theorem within_of_conv {β : Type} {a : Nat → β} {B : β → ℝ → Prop} {x : Fin n → ℝ}
    {F : (Fin n → ℝ) → ℝ} (hc : c.order = 1 ∨ c.order = 2) (hfit : Fits c n) (hI : IsJet c.order n F x J)
    (hsym : ∀ i j, J.h i j = J.h j i) (hf : B (a 0) J.f) (hg : ∀ i : Fin n, B (a (1 + i)) (J.g i))
    (hh : c.order = 2 → ∀ i j : Fin n, i ≤ j → B (a (pos n i j)) (J.h i j)) :
    Within c B F x (obj c n a) := by
  have hS := shows_obj hc hfit a
  refine
    ⟨hS.size, ⟨_, hS.f, ?_⟩, fun i => ⟨_, hS.g i i.2, ?_⟩, fun h2 i j => ⟨_, hS.h h2 i j i.2 j.2, ?_⟩⟩
  · rw [hI.value]
    exact hf
  · unfold partialD
    rw [hI.grad.fderiv, lin_single]
    exact hg i
  · unfold partialD
    rw [(hI.hess h2 i).fderiv, lin_single]
    by_cases hij : i.val ≤ j.val
    · simp only [jetOf, if_pos hij]
      exact hh h2 i j hij
    · simp only [jetOf, if_neg hij]
      rw [hsym]
      exact hh h2 j i (by omega)

/-- Contents that converge are in the end finite and close to the derivatives. -/
theorem Conv.approx (hc : c.order = 1 ∨ c.order = 2) (hfit : Fits c n) {x : Fin n → ℝ}
    {F : (Fin n → ℝ) → ℝ} (h : Conv M l ω c n a aR J) (hI : IsJet c.order n F x J) {ε : ℝ} (hε : 0 < ε) :
    ∀ᶠ k in l, Within c (fun s t => (M k).fin s ∧ |(M k).val s - t| < ε) F x (obj c n (a k)) := by
  have near : ∀ {a : ∀ k, α k} {aR : ι → ℝ} {r : ℝ}, Lim M l ω a aR r →
      ∀ᶠ k in l, (M k).fin (a k) ∧ |(M k).val (a k) - r| < ε := by
    intro a aR r h
    have := (Metric.tendsto_nhds.mp h.lim) ε hε
    exact h.fin.and (by simpa [Real.dist_eq] using this)
  have hg := eventually_all.2 fun i : Fin n => near (h.g i i.2)
  have hh : ∀ᶠ k in l, c.order = 2 → ∀ i j : Fin n, i ≤ j →
      (M k).fin (a k (pos n i j)) ∧ |(M k).val (a k (pos n i j)) - J.h i j| < ε := by
    by_cases h2 : c.order = 2
    · simp only [h2, forall_const]
      refine eventually_all.2 fun i => eventually_all.2 fun j => ?_
      by_cases hij : i ≤ j
      · simp only [hij, forall_const]
        exact near (h.h h2 i j hij j.2)
      · simp [hij]
    · simp [h2]
  filter_upwards [near h.f, hg, hh] with k kf kg kh
  exact within_of_conv hc hfit hI h.sym kf kg kh

/-- The rate in terms of bounds. -/
theorem Conv.errLe (hc : c.order = 1 ∨ c.order = 2) (hfit : Fits c n) {x : ι → Fin n → ℝ}
    {F : (Fin n → ℝ) → ℝ} (h : Conv M l ω c n a aR J)
    (hI : ∀ᶠ k in l, IsJet c.order n F (x k) (jetOf n (aR k))) :
    ∀ᶠ C in atTop, ∀ᶠ k in l,
      Within c (fun s t => (M k).fin s ∧ |(M k).val s - t| ≤ C * ‖ω k‖) F (x k) (obj c n (a k)) := by
  have near : ∀ {a : ∀ k, α k} {aR : ι → ℝ} {r : ℝ}, Lim M l ω a aR r →
      ∀ᶠ C : ℝ in atTop, ∀ᶠ k in l, (M k).fin (a k) ∧ |(M k).val (a k) - aR k| ≤ C * ‖ω k‖ := fun h =>
    (Asymptotics.isBigO_iff_eventually_isBigOWith.1 h.rate).mono fun C hC => h.fin.and hC.bound
  have hg := eventually_all.2 fun i : Fin n => near (h.g i i.2)
  have hh : ∀ᶠ C : ℝ in atTop, c.order = 2 → ∀ i j : Fin n, i ≤ j →
      ∀ᶠ k in l, (M k).fin (a k (pos n i j)) ∧
        |(M k).val (a k (pos n i j)) - aR k (pos n i j)| ≤ C * ‖ω k‖ := by
    by_cases h2 : c.order = 2
    · simp only [h2, forall_const]
      refine eventually_all.2 fun i => eventually_all.2 fun j => ?_
      by_cases hij : i ≤ j
      · simp only [hij, forall_const]
        exact near (h.h h2 i j hij j.2)
      · simp [hij]
    · simp [h2]
  filter_upwards [near h.f, hg, hh] with C kf kg kh
  have kh' : ∀ᶠ k in l, c.order = 2 → ∀ i j : Fin n, i ≤ j → (M k).fin (a k (pos n i j)) ∧
      |(M k).val (a k (pos n i j)) - aR k (pos n i j)| ≤ C * ‖ω k‖ := by
    by_cases h2 : c.order = 2
    · simp only [h2, forall_const]
      refine eventually_all.2 fun i => eventually_all.2 fun j => ?_
      by_cases hij : i ≤ j
      · simp only [hij, forall_const]
        exact kh h2 i j hij
      · simp [hij]
    · simp [h2]
  filter_upwards [kf, eventually_all.2 kg, kh', hI] with k kf kg kh hI
  exact within_of_conv (B := fun s t => (M k).fin s ∧ |(M k).val s - t| ≤ C * ‖ω k‖) (a := a k) hc hfit hI
    (fun i j => by
      simp only [jetOf]
      by_cases h1 : i ≤ j
      · by_cases h2 : j ≤ i
        · obtain rfl := le_antisymm h1 h2
          rfl
        · rw [if_pos h1, if_neg h2]
      · rw [if_neg h1, if_pos (by omega)]) kf kg
    (fun h2 i j hij => by
      have := kh h2 i j hij
      simpa only [jetOf, if_pos (show i.val ≤ j.val from hij)] using this)

end

end HJ
