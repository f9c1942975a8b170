import Verif.Proofs.Converge
import Verif.Proofs.Sparse

/-!
# Sparse scalars in arithmetics with vanishing error (helper lemmas)
-/

namespace HJ

open Filter Topology SMap

section
variable {ι : Type} {l : Filter ι} {α : ι → Type} [∀ k, CMath (α k)] {u : ι → Prec} {ω : ι → ℝ}
  {M : ∀ k, FinErr (α k) (u k)}

/-- Value and entry of the name `nm` converge to those of the jet. -/
structure SConv (M : ∀ k, FinErr (α k) (u k)) (l : Filter ι) (ω : ι → ℝ) (nm : String)
    (p : ∀ k, SVal (α k))
    (pR : ι → SVal ℝ) (J : Jet ℝ) : Prop where
  f : Lim M l ω (fun k => (p k).1) (fun k => (pR k).1) J.f
  g : Lim M l ω (fun k => ((p k).2 nm).getD (Arith.lit 0))
    (fun k => ((pR k).2 nm).getD (Arith.lit 0)) (J.g 0)

variable {nm : String} {p q z : ∀ k, SVal (α k)} {pR qR zR : ι → SVal ℝ} {J K L : Jet ℝ}

theorem val_lit0 (k : ι) : (M k).val (Arith.lit 0) = 0 := by
  simpa using ((M k).lit 0 (by norm_num)).2

theorem fin_lit0 (k : ι) : (M k).fin (Arith.lit 0) := ((M k).lit 0 (by norm_num)).1

/-- No operation at all is as good as one rounding. -/
theorem sound_self {k : ι} {x : α k} (h : (M k).fin x) : (M k).Sound x ((M k).val x) := fun _ => by
  refine ⟨h, ?_⟩
  rw [sub_self, abs_zero]
  exact add_nonneg (mul_nonneg (M k).rel_nonneg (abs_nonneg _)) (M k).abs_nonneg

theorem Lim.map_mul (hu : Fine u l ω) {o : ∀ k, Option (α k)} {oR : ι → Option ℝ} {g d : ℝ}
    {da : ∀ k, α k} {daR : ι → ℝ}
    (ho : Lim M l ω (fun k => (o k).getD (Arith.lit 0)) (fun k => (oR k).getD (Arith.lit 0)) g)
    (hd : Lim M l ω da daR d) :
    Lim M l ω (fun k => ((o k).map (· *ₛ da k)).getD (Arith.lit 0))
      (fun k => ((oR k).map (· *ₛ daR k)).getD (Arith.lit 0)) (d * g) := by
  rw [mul_comm]
  refine Lim.close hu ((Nigh.mul ho.toNigh hd.toNigh).congr' .rfl (.of_forall fun k => ?_))
    ((ho.fin.and hd.fin).mono fun k hk => ?_)
  · beta_reduce
    cases oR k with
    | none => show ((0 : ℤ) : ℝ) * _ = ((0 : ℤ) : ℝ); simp
    | some w => rfl
  · beta_reduce at hk ⊢
    cases ho : o k with
    | none =>
      have := sound_self (fin_lit0 (M := M) k)
      simpa [val_lit0] using this
    | some w =>
      rw [ho] at hk
      exact (M k).mul w (da k) hk.1 hk.2

theorem Lim.map_neg {o : ∀ k, Option (α k)} {oR : ι → Option ℝ} {g : ℝ}
    (ho : Lim M l ω (fun k => (o k).getD (Arith.lit 0)) (fun k => (oR k).getD (Arith.lit 0)) g) :
    Lim M l ω (fun k => ((o k).map fun w => -ₛ w).getD (Arith.lit 0))
      (fun k => ((oR k).map fun w => -ₛ w).getD (Arith.lit 0)) (-g) := by
  have hz : ∀ k, (M k).val (-ₛ Arith.lit 0) = (M k).val (Arith.lit 0) := fun k => by
    rw [((M k).neg _ (fin_lit0 k)).2, val_lit0, neg_zero]
  refine ⟨ho.neg.toNigh.congr' (.of_forall fun k => ?_) (.of_forall fun k => ?_),
    ho.neg.fin.mono fun k hk => ?_⟩
  · beta_reduce
    cases o k with
    | none => exact hz k
    | some w => rfl
  · beta_reduce
    cases oR k with
    | none => show -((0 : ℤ) : ℝ) = ((0 : ℤ) : ℝ); simp
    | some w => rfl
  · beta_reduce at hk ⊢
    cases ho : o k with
    | none => exact fin_lit0 k
    | some w =>
      rw [ho] at hk
      exact hk

theorem Lim.step (hu : Fine u l ω) {a b : ∀ k, Option (α k)} {aR bR : ι → Option ℝ} {x y d : ℝ}
    {db : ∀ k, α k} {dbR : ι → ℝ}
    (ha : Lim M l ω (fun k => (a k).getD (Arith.lit 0)) (fun k => (aR k).getD (Arith.lit 0)) x)
    (hb : Lim M l ω (fun k => (b k).getD (Arith.lit 0)) (fun k => (bR k).getD (Arith.lit 0)) y)
    (hd : Lim M l ω db dbR d) :
    Lim M l ω (fun k => (SMap.step (fun v w => w +ₛ db k *ₛ v) (a k) (b k)).getD (Arith.lit 0))
      (fun k => (SMap.step (fun v w => w +ₛ dbR k *ₛ v) (aR k) (bR k)).getD (Arith.lit 0))
      (x + d * y) := by
  let t : ∀ k, α k := fun k => match b k with
    | none => Arith.lit 0
    | some v => db k *ₛ v
  have ht : Lim M l ω t (fun k => dbR k * (bR k).getD (Arith.lit 0)) (d * y) := by
    refine Lim.close hu (Nigh.mul hd.toNigh hb.toNigh) ((hd.fin.and hb.fin).mono fun k hk => ?_)
    simp only [t]
    cases hb : b k with
    | none =>
      have := sound_self (fin_lit0 (M := M) k)
      simpa [val_lit0] using this
    | some w =>
      rw [hb] at hk
      exact (M k).mul (db k) w hk.1 hk.2
  refine Lim.close hu ((Nigh.add ha.toNigh ht.toNigh).congr' .rfl (.of_forall fun k => ?_))
    ((ha.fin.and ht.fin).mono fun k hk => ?_)
  · beta_reduce
    cases bR k with
    | none => show _ + _ * ((0 : ℤ) : ℝ) = _; simp [SMap.step]
    | some w => rfl
  · simp only [t] at hk ⊢
    cases hb : b k with
    | none =>
      have := sound_self (M := M) hk.1
      simpa [SMap.step, val_lit0] using this
    | some w =>
      rw [hb] at hk
      simp only [SMap.step, Option.getD_some]
      exact (M k).add _ _ hk.1 hk.2

theorem sconv_un (hu : Fine u l ω) (h : SConv M l ω nm p pR J) {f da : ∀ k, α k} {fR daR : ι → ℝ}
    {f' d dd : ℝ}
    (hf : Lim M l ω f fR f') (hd : Lim M l ω da daR d) :
    SConv M l ω nm (fun k => (p k).un (f k) (da k)) (fun k => (pR k).un (fR k) (daR k))
      (J.comp1 f' d dd) :=
  ⟨hf, h.g.map_mul hu hd⟩

theorem sconv_bin (hu : Fine u l ω) (h : SConv M l ω nm p pR J) (k : SConv M l ω nm q qR K)
    {f da db : ∀ k, α k} {fR daR dbR : ι → ℝ} {f' xa xb xaa xab xbb : ℝ} (hf : Lim M l ω f fR f')
      (hda : Lim M l ω da daR xa)
    (hdb : Lim M l ω db dbR xb) :
    SConv M l ω nm (fun k => (p k).bin (q k) (f k) (da k) (db k))
      (fun k => (pR k).bin (qR k) (fR k) (daR k) (dbR k))
      (Jet.comp2 f' xa xb xaa xab xbb J K) :=
  ⟨hf, (h.g.map_mul hu hda).step hu k.g hdb⟩

theorem sconv_tern (hu : Fine u l ω) (h : SConv M l ω nm p pR J) (k : SConv M l ω nm q qR K)
    (m : SConv M l ω nm z zR L) {f da db dc : ∀ k, α k} {fR daR dbR dcR : ι → ℝ}
      {f' xa xb xc xaa xab xac xbb xbc xcc : ℝ}
    (hf : Lim M l ω f fR f') (hda : Lim M l ω da daR xa) (hdb : Lim M l ω db dbR xb)
      (hdc : Lim M l ω dc dcR xc) :
    SConv M l ω nm (fun k => (p k).tern (q k) (z k) (f k) (da k) (db k) (dc k))
      (fun k => (pR k).tern (qR k) (zR k) (fR k) (daR k) (dbR k) (dcR k))
      (Jet.comp3 f' xa xb xc xaa xab xac xbb xbc xcc J K L) :=
  ⟨hf, ((h.g.map_mul hu hda).step hu k.g hdb).step hu m.g hdc⟩

theorem sconv_neg (h : SConv M l ω nm p pR J) {dd : ℝ} :
    SConv M l ω nm (fun k => (p k).neg) (fun k => (pR k).neg) (J.comp1 (-J.f) (-1) dd) :=
  ⟨h.f.neg, h.g.map_neg.of_eq (by simp [Jet.comp1])⟩

theorem Bin.sconv (hu : Fine u l ω) (o : Bin) (h : SConv M l ω nm p pR J) (k : SConv M l ω nm q qR K)
    (hd : o.dom J.f K.f) (hr : o.reg J.f K.f) :
    SConv M l ω nm (fun k => o.val (p k) (q k)) (fun k => o.val (pR k) (qR k)) (o.jet J K) := by
  have l1 : Lim M l ω (fun _ => Arith.lit 1) (fun _ => Arith.lit 1) (1 : ℤ) := Lim.lit (by norm_num)
  have m1 : Lim M l ω (fun _ => Arith.lit (-1)) (fun _ => Arith.lit (-1)) (-1 : ℤ) := Lim.lit
    (by norm_num)
  cases o with
  | add =>
    have l1 := l1.of_eq Int.cast_one
    exact sconv_bin hu h k (h.f.add hu k.f) l1 l1
  | sub =>
    refine sconv_bin hu h k (h.f.sub hu k.f) (l1.of_eq Int.cast_one) (m1.of_eq ?_)
    simp [Bin.d]
  | mul => exact sconv_bin hu h k (h.f.mul hu k.f) k.f h.f
  | div =>
    have hy : K.f ≠ 0 := hd
    have iv := l1.div hu k.f hy
    have p2 := k.f.powN hu (n := 2) (by norm_num)
    exact sconv_bin hu h k ((h.f.mul hu iv).of_eq (by simp [Bin.den, div_eq_mul_inv]))
      (iv.of_eq (by simp [Bin.d])) (h.f.neg.div hu p2 (pow_ne_zero 2 hy))
  | atan2 =>
    have h0 := (sq_add_sq_pos hd).ne'
    have tmp := ((h.f.mul hu h.f).add hu (k.f.mul hu k.f)).of_eq
      (show J.f * J.f + K.f * K.f = J.f ^ 2 + K.f ^ 2 by ring)
    exact sconv_bin hu h k (h.f.atan2 hu k.f hr) (k.f.div hu tmp h0) (h.f.neg.div hu tmp h0)
  | hypot =>
    have h0 := (Real.sqrt_pos.mpr (sq_add_sq_pos hd)).ne'
    have f := h.f.hypot hu k.f (sq_add_sq_pos hd)
    exact sconv_bin hu h k f (h.f.div hu f h0) (k.f.div hu f h0)

theorem SBin.sconv (hu : Fine u l ω) (o : SBin) (h : SConv M l ω nm p pR J) {s : ∀ k, α k} {sR : ι → ℝ}
    {t : ℝ} (hs : Lim M l ω s sR t) (hd : o.dom J.f t) :
    SConv M l ω nm (fun k => o.val (p k) (s k)) (fun k => o.val (pR k) (sR k))
      (J.comp1 (o.den J.f t) (o.d J.f t).1 (o.d J.f t).2) := by
  have l1 : Lim M l ω (fun _ => Arith.lit 1) (fun _ => Arith.lit 1) (1 : ℤ) := Lim.lit (by norm_num)
  cases o with
  | addS => exact ⟨h.f.add hu hs, h.g.of_eq (by simp [Jet.comp1, SBin.d])⟩
  | sAdd => exact ⟨(h.f.add hu hs).of_eq (add_comm _ _), h.g.of_eq (by simp [Jet.comp1, SBin.d])⟩
  | subS => exact ⟨(h.f.add hu hs.neg).of_eq (by simp [Jet.comp1, SBin.den, sub_eq_add_neg]),
      h.g.of_eq (by simp [Jet.comp1, SBin.d])⟩
  | sSub => exact ⟨(h.f.neg.add hu hs).of_eq (by simp [Jet.comp1, SBin.den]; ring),
      h.g.map_neg.of_eq (by simp [Jet.comp1, SBin.d])⟩
  | mulS => exact sconv_un hu h (h.f.mul hu hs) hs
  | sMul => exact sconv_un hu h ((h.f.mul hu hs).of_eq (mul_comm _ _)) hs
  | divS =>
    have iv := l1.div hu hs hd
    exact sconv_un hu h ((h.f.mul hu iv).of_eq (by simp [SBin.den, div_eq_mul_inv]))
      (iv.of_eq (by simp [SBin.d]))
  | sDiv =>
    have hx : J.f ≠ 0 := hd
    exact sconv_un hu h (hs.div hu h.f hx)
      (hs.neg.div hu (h.f.powN hu (by norm_num)) (pow_ne_zero 2 hx))

/-- The coefficients of the sparse methods converge. -/
theorem Fn.limS (hu : Fine u l ω) (enc : ∀ k, ℝ → α k)
    (henc : ∀ s, Lim M l ω (fun k => enc k s) (fun _ => s) s) (φ : Fn ℝ) {x : ∀ k, α k}
      {xR : ι → ℝ} {r : ℝ}
    (h : Lim M l ω x xR r) (hd : φ.dom 1 r) (h0 : ∀ b, φ = .pow b → 0 < r) :
    Lim M l ω (fun k => ((φ.map (enc k)).coefS (x k)).1) (fun k => (φ.coefS (xR k)).1) (φ.coef r).f ∧
      Lim M l ω (fun k => ((φ.map (enc k)).coefS (x k)).2) (fun k => (φ.coefS (xR k)).2)
        (φ.coef r).da := by
  have hl := φ.lim hu enc henc h hd h0
  refine ⟨?_, ?_⟩
  · have := hl.f
    cases φ <;> exact this
  · have := hl.da
    cases φ with
    | acos =>
      have l1 : Lim M l ω (fun _ => Arith.lit 1) (fun _ => Arith.lit 1) (1 : ℤ) := Lim.lit (by norm_num)
      have hr : -1 < r ∧ r < 1 := hd
      have ht : 0 < ((1 : ℤ) : ℝ) - r * r := by simpa using one_sub_sq_pos hr
      refine (l1.neg.div hu ((l1.sub hu (h.mul hu h)).sqrt hu ht) (Real.sqrt_pos.2 ht).ne').of_eq ?_
      have : -((1 : ℤ) : ℝ) = ((-1 : ℤ) : ℝ) := by norm_num
      rw [this]
      rfl
    | _ => exact this

theorem evalV_conv (hu : Fine u l ω) {V : Type} (enc : ∀ k, ℝ → α k)
    (henc : ∀ s, Lim M l ω (fun k => enc k s) (fun _ => s) s) (ρ : ∀ k, V → SVal (α k))
      (ρR : ι → V → SVal ℝ) (Jv : V → Jet ℝ)
    (hρ : ∀ v, SConv M l ω nm (fun k => ρ k v) (fun k => ρR k v) (Jv v)) (e : Expr ℝ V)
    (hD : e.Dom 1 fun v => (Jv v).f) (hR : e.Regular fun v => (Jv v).f)
    (hP : e.PowPos fun v => (Jv v).f) :
    ∃ J, SConv M l ω nm (fun k => (e.map (enc k)).evalV (ρ k)) (fun k => e.evalV (ρR k)) J ∧
      J.f = e.den (fun v => (Jv v).f) ∧
      ∀ (w : V → (Fin 1 → ℝ) → ℝ) (x : Fin 1 → ℝ), (∀ v, IsJet 1 1 (w v) x (Jv v)) →
        IsJet 1 1 (fun y => e.den fun v => w v y) x J := by
  induction e with
  | var v => exact ⟨Jv v, hρ v, rfl, fun w x hw => hw v⟩
  | const s =>
    refine ⟨⟨s, fun _ => 0, fun _ _ => 0⟩, ⟨henc s, ?_⟩, rfl, fun w x hw => ?_⟩
    · exact (Lim.lit (z := 0) (by norm_num)).of_eq (by simp)
    · refine isJet_mk (fun _ _ => 0) rfl (Filter.Eventually.of_forall fun y => ?_) (fun _ _ => rfl) ?_
      · exact HasFDerivAt.toLin (hasFDerivAt_const s y) (fun i => by simp)
      · exact fun _ i => HasFDerivAt.toLin (hasFDerivAt_const (0 : ℝ) x) (fun i => by simp)
  | neg e ih =>
    obtain ⟨J, hg, hf, hj⟩ := ih hD hR hP
    refine ⟨J.comp1 (-J.f) (-1) 0, sconv_neg hg, ?_, fun w x hw => ?_⟩
    · simp [Jet.comp1, hf, Expr.den]
    · have := (hj w x hw).comp1 (d2At_affine 1 (-1) 0 J.f)
      simpa [Expr.den] using this
  | abs e ih =>
    obtain ⟨J, hg, hf, hj⟩ := ih hD hR.1 hP
    have hne : J.f ≠ 0 := by rw [hf]; exact hR.2
    refine ⟨J.comp1 |J.f| (if J.f < 0 then -1 else 1) 0, ?_, ?_,
      fun w x hw => (hj w x hw).comp1 (d2At_abs 1 hne)⟩
    · rcases lt_or_gt_of_ne hne with hneg | hpos
      · have hev : ∀ᶠ k in l, Cmp.ltB ((e.map (enc k)).evalV (ρ k)).1 (Arith.lit 0) = true := by
          filter_upwards [Tendsto.eventually_lt_const hneg hg.f.lim, hg.f.fin] with k hk hf
          rw [(M k).less _ _ hf (fin_lit0 k), val_lit0]
          exact hk
        have hevR : ∀ᶠ k in l, Cmp.ltB (e.evalV (ρR k)).1 (Arith.lit 0) = true := by
          filter_upwards [Tendsto.eventually_lt_const hneg hg.f.goal] with k hk
          exact decide_eq_true (show _ < ((0 : ℤ) : ℝ) by simpa using hk)
        rw [if_pos hneg, abs_of_neg hneg]
        have hn := sconv_neg (dd := 0) hg
        refine ⟨Lim.congr' ?_ ?_ hn.f, Lim.congr' ?_ ?_ hn.g⟩ <;>
        · filter_upwards [hev, hevR] with k hk hk'
          simp [Expr.map, Expr.evalV, hk, hk']
      · have hev : ∀ᶠ k in l, Cmp.ltB ((e.map (enc k)).evalV (ρ k)).1 (Arith.lit 0) = false := by
          filter_upwards [Tendsto.eventually_const_lt hpos hg.f.lim, hg.f.fin] with k hk hf
          rw [Bool.eq_false_iff, Ne, (M k).less _ _ hf (fin_lit0 k), val_lit0]
          exact not_lt.2 (le_of_lt hk)
        have hevR : ∀ᶠ k in l, Cmp.ltB (e.evalV (ρR k)).1 (Arith.lit 0) = false := by
          filter_upwards [Tendsto.eventually_const_lt hpos hg.f.goal] with k hk
          exact decide_eq_false (show ¬ _ < ((0 : ℤ) : ℝ) by simpa using le_of_lt hk)
        rw [if_neg (not_lt.2 hpos.le), abs_of_pos hpos]
        refine ⟨Lim.congr' ?_ ?_ hg.f, Lim.congr' ?_ ?_ (hg.g.of_eq (s := 1 * J.g 0) (by ring))⟩ <;>
        · filter_upwards [hev, hevR] with k hk hk'
          simp [Expr.map, Expr.evalV, hk, hk']
    · simp [Jet.comp1, hf, Expr.den]
  | fn φ e ih =>
    obtain ⟨J, hg, hf, hj⟩ := ih hD.1 hR hP.1
    have hdom := hD.2
    have hpow := hP.2
    rw [← hf] at hdom hpow
    have hφ := φ.real (Or.inl rfl) hdom fun b hb => (hpow b hb).ne'
    have hl := φ.limS hu enc henc hg.f hdom hpow
    refine ⟨_, sconv_un (dd := (φ.coef J.f).daa) hu hg hl.1 hl.2, ?_, fun w x hw => ?_⟩
    · simp only [Jet.comp1, Expr.den]; rw [hφ.f, hf]
    · rw [hφ.f]
      exact (hj w x hw).comp1 hφ.d2
  | bin o e₁ e₂ ih₁ ih₂ =>
    obtain ⟨J, hg, hf, hj⟩ := ih₁ hD.1 hR.1 hP.1
    obtain ⟨K, kg, kf, kj⟩ := ih₂ hD.2.1 hR.2.1 hP.2
    have hdom := hD.2.2
    have hreg := hR.2.2
    rw [← hf, ← kf] at hdom hreg
    refine ⟨_, o.sconv hu hg kg hdom hreg, ?_, fun w x hw => ?_⟩
    · simp [Bin.jet, Jet.comp2, hf, kf, Expr.den]
    · exact o.isJet _ (hj w x hw) (kj w x hw) hdom hreg
  | sbin o e s ih =>
    obtain ⟨J, hg, hf, hj⟩ := ih hD.1 hR hP
    have hdom := hD.2
    rw [← hf] at hdom
    refine ⟨_, o.sconv hu hg (henc s) hdom, ?_, fun w x hw => ?_⟩
    · simp [Jet.comp1, hf, Expr.den]
    · exact (hj w x hw).comp1 (o.d2At 1 hdom)
  | hypot3 e₁ e₂ e₃ ih₁ ih₂ ih₃ =>
    obtain ⟨J, hg, hf, hj⟩ := ih₁ hD.1 hR.1 hP.1
    obtain ⟨K, kg, kf, kj⟩ := ih₂ hD.2.1 hR.2.1 hP.2.1
    obtain ⟨L, lg, lf, lj⟩ := ih₃ hD.2.2.1 hR.2.2 hP.2.2
    have hdom := hD.2.2.2
    rw [← hf, ← kf, ← lf] at hdom
    have h0 := (Real.sqrt_pos.mpr (sq3_pos hdom)).ne'
    have f := hg.f.hypot3 hu kg.f lg.f (sq3_pos hdom)
    refine ⟨hypot3Jet J K L, ?_, ?_, fun w x hw => ?_⟩
    · exact sconv_tern hu hg kg lg f (hg.f.div hu f h0) (kg.f.div hu f h0) (lg.f.div hu f h0)
    · simp [hypot3Jet, Jet.comp3, hf, kf, lf, Expr.den]
    · exact hypot3_isJet _ (hj w x hw) (kj w x hw) (lj w x hw) hdom

end

end HJ
