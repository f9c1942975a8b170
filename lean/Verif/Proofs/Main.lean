import Verif.Proofs.FnsBad
import Verif.Proofs.EvalC

/-!
# Evaluation in exact arithmetic (helper lemmas)

`eval_good`: inside the domain the contents are the numbers of the exact jet.
`eval_bad`: outside, with at least one variable, some component is not finite.
-/

namespace HJ

open XReal Topology

/-- Contents `a` are the numbers of the jet `J`. -/
structure Good (c : Cfg) (n : Nat) (a : Nat → XReal) (J : Jet ℝ) : Prop where
  f : a 0 = num J.f
  g : ∀ i < n, a (1 + i) = num (J.g i)
  h : c.order = 2 → ∀ i j, i ≤ j → j < n → a (pos n i j) = num (J.h i j)
  sym : ∀ i j, J.h i j = J.h j i

section good

variable {c : Cfg} {n : Nat} {a b d : Nat → XReal} {J K L : Jet ℝ}

theorem Good.congr {J' : Jet ℝ} (h : Good c n a J) (hf : J.f = J'.f) (hg : ∀ i, J.g i = J'.g i)
    (hh : ∀ i j, J.h i j = J'.h i j) : Good c n a J' where
  f := hf ▸ h.f
  g := fun i hi => hg i ▸ h.g i hi
  h := fun h2 i j hij hj => hh i j ▸ h.h h2 i j hij hj
  sym := fun i j => by rw [← hh, ← hh]; exact h.sym i j

theorem good_uFin (ha : Good c n a J) {f da daa : XReal}
    {f' d dd : ℝ} (hf : f = num f') (hd : da = num d) (hdd : c.order = 2 → daa = num dd) :
    Good c n (uFin c n a f da daa) (J.comp1 f' d dd) where
  f := (uFin_zero ..).trans hf
  g := by
    intro i hi
    rw [uFin_succ _ _ _ _ hi]
    simp [ha.g i hi, hd, Jet.comp1]
  h := by
    intro h2 i j hij hj
    rw [uFin_pos h2 _ _ _ _ hij hj, ha.h h2 i j hij hj, ha.g i (by omega), ha.g j hj,
      hd, hdd h2]
    simp [Jet.comp1]
  sym := by
    intro i j
    simp only [Jet.comp1, ha.sym i j]; ring

theorem good_bin5 (ha : Good c n a J) (hb : Good c n b K)
    {f da db daa dab dbb : XReal} {f' xa xb xaa xab xbb : ℝ} (hf : f = num f') (hda : da = num xa)
    (hdb : db = num xb) (hdaa : daa = num xaa) (hdab : dab = num xab) (hdbb : dbb = num xbb) :
    Good c n (bin5 c n a b f da db daa dab dbb) (Jet.comp2 f' xa xb xaa xab xbb J K) where
  f := (bFin_zero ..).trans hf
  g := by
    intro i hi
    unfold bin5
    rw [bFin_succ _ _ _ _ hi]
    simp [ha.g i hi, hb.g i hi, hda, hdb, Jet.comp2]
  h := by
    intro h2 i j hij hj
    unfold bin5
    rw [bFin_pos h2 _ _ _ hij hj, ha.h h2 i j hij hj, hb.h h2 i j hij hj,
      ha.g i (by omega), ha.g j hj, hb.g i (by omega), hb.g j hj, hda, hdb, hdaa, hdab, hdbb]
    simp [Jet.comp2]
  sym := by
    intro i j
    simp only [Jet.comp2, ha.sym i j, hb.sym i j]; ring

theorem good_mul (ha : Good c n a J) (hb : Good c n b K) :
    Good c n (mulC c n a b) (Jet.comp2 (J.f * K.f) K.f J.f 0 1 0 J K) where
  f := by
    unfold mulC
    rw [bFin_zero]
    simp [ha.f, hb.f, Jet.comp2]
  g := by
    intro i hi
    unfold mulC
    rw [bFin_succ _ _ _ _ hi]
    simp [ha.g i hi, hb.g i hi, ha.f, hb.f, Jet.comp2]
  h := by
    intro h2 i j hij hj
    unfold mulC
    rw [bFin_pos h2 _ _ _ hij hj, ha.h h2 i j hij hj, hb.h h2 i j hij hj,
      ha.g i (by omega), ha.g j hj, hb.g i (by omega), hb.g j hj, ha.f, hb.f]
    simp [Jet.comp2]
  sym := by
    intro i j
    simp only [Jet.comp2, ha.sym i j, hb.sym i j]; ring

theorem good_div (ha : Good c n a J) (hb : Good c n b K)
    {f da db dab dbb : XReal} {f' xa xb xab xbb : ℝ} (hf : f = num f') (hda : da = num xa)
    (hdb : db = num xb) (hdab : dab = num xab) (hdbb : dbb = num xbb) :
    Good c n (divC c n a b f da db dab dbb) (Jet.comp2 f' xa xb 0 xab xbb J K) where
  f := (bFin_zero ..).trans hf
  g := by
    intro i hi
    unfold divC
    rw [bFin_succ _ _ _ _ hi]
    simp [ha.g i hi, hb.g i hi, hda, hdb, Jet.comp2]
  h := by
    intro h2 i j hij hj
    unfold divC
    rw [bFin_pos h2 _ _ _ hij hj, ha.h h2 i j hij hj, hb.h h2 i j hij hj,
      ha.g i (by omega), ha.g j hj, hb.g i (by omega), hb.g j hj, hda, hdb, hdab, hdbb]
    simp [Jet.comp2]
  sym := by
    intro i j
    simp only [Jet.comp2, ha.sym i j, hb.sym i j]; ring

theorem good_tern (ha : Good c n a J) (hb : Good c n b K)
    (hd : Good c n d L) {f da db dc daa dab dac dbb dbc dcc : XReal}
    {f' xa xb xc xaa xab xac xbb xbc xcc : ℝ} (hf : f = num f') (hda : da = num xa)
    (hdb : db = num xb) (hdc : dc = num xc) (hdaa : daa = num xaa) (hdab : dab = num xab)
    (hdac : dac = num xac) (hdbb : dbb = num xbb) (hdbc : dbc = num xbc) (hdcc : dcc = num xcc) :
    Good c n (bFin c n true f (tLin a b d da db dc) (tQuad a b d daa dab dac dbb dbc dcc))
      (Jet.comp3 f' xa xb xc xaa xab xac xbb xbc xcc J K L) where
  f := (bFin_zero ..).trans hf
  g := by
    intro i hi
    rw [bFin_succ _ _ _ _ hi]
    simp [tLin, ha.g i hi, hb.g i hi, hd.g i hi, hda, hdb, hdc, Jet.comp3]
  h := by
    intro h2 i j hij hj
    rw [bFin_pos h2 _ _ _ hij hj]
    unfold tLin tQuad
    rw [ha.h h2 i j hij hj, hb.h h2 i j hij hj, hd.h h2 i j hij hj,
      ha.g i (by omega), ha.g j hj, hb.g i (by omega), hb.g j hj, hd.g i (by omega), hd.g j hj,
      hda, hdb, hdc, hdaa, hdab, hdac, hdbb, hdbc, hdcc]
    simp [Jet.comp3]
  sym := by
    intro i j
    simp only [Jet.comp3, ha.sym i j, hb.sym i j, hd.sym i j]; ring

theorem good_const (s : ℝ) : Good c n (constC (num s)) ⟨s, fun _ => 0, fun _ _ => 0⟩ where
  f := rfl
  g := by intro i _; simp [constC]
  h := by
    intro _ i j _ _
    have := pos_gt n i j
    simp [constC, show pos n i j ≠ 0 by omega]
  sym := fun _ _ => rfl

/-- Componentwise affine operations. -/
theorem good_lin (ha : Good c n a J) {a' : Nat → XReal} {f' m : ℝ} (hf : a' 0 = num f')
    (h : ∀ k, 0 < k → ∀ r, a k = num r → a' k = num (m * r)) : Good c n a' (J.comp1 f' m 0) where
  f := hf
  g := fun i hi => h _ (by omega) _ (ha.g i hi)
  h := by
    intro h2 i j hij hj
    have := pos_gt n i j
    rw [h _ (by omega) _ (ha.h h2 i j hij hj)]
    simp [Jet.comp1]
  sym := by
    intro i j
    simp [Jet.comp1, ha.sym i j]

end good

/-! ### One-variable functions of the operators -/

theorem d2At_affine (o : Nat) (m t x : ℝ) : D2At o (fun y => m * y + t) x m 0 :=
  d2At_of' o (φ' := fun _ => m)
    (fun y => by simpa using ((hasDerivAt_id y).const_mul m).add_const t) (hasDerivAt_const x m)

theorem D2At.congr_fun {o : Nat} {φ ψ : ℝ → ℝ} {x d dd : ℝ} (h : D2At o φ x d dd)
    (e : ∀ᶠ y in 𝓝 x, ψ y = φ y) : D2At o ψ x d dd := by
  refine ⟨h.1.congr_of_eventuallyEq e, fun ho => ?_⟩
  obtain ⟨φ', h1, h2⟩ := h.2 ho
  refine ⟨φ', ?_, h2⟩
  filter_upwards [h1, e.eventually_nhds] with y hy hey
  exact hy.congr_of_eventuallyEq hey

theorem d2At_abs (o : Nat) {x : ℝ} (hx : x ≠ 0) :
    D2At o (fun y => |y|) x (if x < 0 then -1 else 1) 0 := by
  rcases lt_or_gt_of_ne hx with h | h
  · rw [if_pos h]
    refine (d2At_affine o (-1) 0 x).congr_fun ?_
    filter_upwards [gt_mem_nhds h] with y hy
    rw [abs_of_neg hy]; ring
  · rw [if_neg (by linarith)]
    refine (d2At_affine o 1 0 x).congr_fun ?_
    filter_upwards [lt_mem_nhds h] with y hy
    rw [abs_of_pos hy]; ring

/-- Derivatives of the operators with a scalar. -/
noncomputable def SBin.d : SBin → ℝ → ℝ → ℝ × ℝ
  | .addS, _, _ => (1, 0)
  | .sAdd, _, _ => (1, 0)
  | .subS, _, _ => (1, 0)
  | .sSub, _, _ => (-1, 0)
  | .mulS, _, s => (s, 0)
  | .sMul, _, s => (s, 0)
  | .divS, _, s => (1 / s, 0)
  | .sDiv, x, s => (-s / x ^ 2, 2 * s / x ^ 3)

theorem SBin.d2At (o : Nat) (p : SBin) {x s : ℝ} (h : p.dom x s) :
    D2At o (fun y => p.den y s) x (p.d x s).1 (p.d x s).2 := by
  cases p with
  | addS =>
    exact (d2At_affine o 1 s x).congr_fun
      (Filter.Eventually.of_forall fun y => by simp [SBin.den])
  | sAdd =>
    exact (d2At_affine o 1 s x).congr_fun
      (Filter.Eventually.of_forall fun y => by simp [SBin.den]; ring)
  | subS =>
    exact (d2At_affine o 1 (-s) x).congr_fun
      (Filter.Eventually.of_forall fun y => by simp [SBin.den]; ring)
  | sSub =>
    exact (d2At_affine o (-1) s x).congr_fun
      (Filter.Eventually.of_forall fun y => by simp [SBin.den]; ring)
  | mulS =>
    exact (d2At_affine o s 0 x).congr_fun
      (Filter.Eventually.of_forall fun y => by simp [SBin.den]; ring)
  | sMul =>
    exact (d2At_affine o s 0 x).congr_fun
      (Filter.Eventually.of_forall fun y => by simp [SBin.den])
  | divS =>
    exact (d2At_affine o (1 / s) 0 x).congr_fun
      (Filter.Eventually.of_forall fun y => by simp [SBin.den]; ring)
  | sDiv =>
    have hx : x ≠ 0 := h
    obtain ⟨h1, h2⟩ := d2At_inv o hx
    refine ⟨?_, fun ho => ?_⟩
    · refine ((h1.const_mul s).congr_deriv ?_).congr_of_eventuallyEq
        (Filter.Eventually.of_forall fun y => by simp [SBin.den, div_eq_mul_inv])
      simp [SBin.d]; ring
    · obtain ⟨φ', e1, e2⟩ := h2 ho
      refine ⟨fun y => s * φ' y, ?_, (e2.const_mul s).congr_deriv (by simp [SBin.d]; ring)⟩
      filter_upwards [e1] with y hy
      exact (hy.const_mul s).congr_of_eventuallyEq
        (Filter.Eventually.of_forall fun y => by simp [SBin.den, div_eq_mul_inv])

theorem SBin.good {c : Cfg} {n : Nat} (p : SBin)
    {a : Nat → XReal} {J : Jet ℝ} {s : ℝ} (ha : Good c n a J) (h : p.dom J.f s) :
    Good c n (p.runC c n a (num s)) (J.comp1 (p.den J.f s) (p.d J.f s).1 (p.d J.f s).2) := by
  cases p with
  | addS =>
    refine good_lin ha (by simp [SBin.runC, addSC, ha.f, SBin.den]) fun k hk r hr => ?_
    simp [SBin.runC, addSC, hk.ne', hr, SBin.d]
  | sAdd =>
    refine good_lin ha (by simp [SBin.runC, addSC, ha.f, SBin.den, add_comm]) fun k hk r hr => ?_
    simp [SBin.runC, addSC, hk.ne', hr, SBin.d]
  | subS =>
    refine good_lin ha (by simp [SBin.runC, addSC, ha.f, SBin.den, sub_eq_add_neg]) fun k hk r hr => ?_
    simp [SBin.runC, addSC, hk.ne', hr, SBin.d]
  | sSub =>
    refine good_lin ha (by simp [SBin.runC, sSubC, ha.f, SBin.den]; ring) fun k hk r hr => ?_
    simp [SBin.runC, sSubC, hk.ne', hr, SBin.d]
  | mulS =>
    refine good_lin ha (by simp [SBin.runC, ha.f, SBin.den]) fun k hk r hr => ?_
    simp [SBin.runC, hr, mul_comm, SBin.d]
  | sMul =>
    refine good_lin ha (by simp [SBin.runC, ha.f, SBin.den, mul_comm]) fun k hk r hr => ?_
    simp [SBin.runC, hr, mul_comm, SBin.d]
  | divS =>
    have hs : s ≠ 0 := h
    refine good_lin ha (by simp [SBin.runC, ha.f, SBin.den, div_num hs, div_eq_mul_inv])
      fun k hk r hr => ?_
    simp [SBin.runC, hr, div_num hs, mul_comm, SBin.d]
  | sDiv =>
    have hx : J.f ≠ 0 := h
    refine good_uFin ha ?_ ?_ fun _ => ?_
    · rw [ha.f, div_num hx]; rfl
    · rw [ha.f, neg_num, powN_num, div_num (by positivity)]; simp [SBin.d]
    · rw [ha.f, lit_num, mul_num, powN_num, div_num (by positivity)]; simp [SBin.d]

/-- Coefficients of the two-operand operations. -/
noncomputable def Bin.d : Bin → ℝ → ℝ → ℝ × ℝ × ℝ × ℝ × ℝ
  | .add, _, _ => (1, 1, 0, 0, 0)
  | .sub, _, _ => (1, -1, 0, 0, 0)
  | .mul, x, y => (y, x, 0, 1, 0)
  | .div, x, y => (1 / y, -x / y ^ 2, 0, -1 / y ^ 2, 2 * x / y ^ 3)
  | .atan2, x, y => (y / (x ^ 2 + y ^ 2), -x / (x ^ 2 + y ^ 2), -(2 * x * y) / (x ^ 2 + y ^ 2) ^ 2,
      (x ^ 2 - y ^ 2) / (x ^ 2 + y ^ 2) ^ 2, 2 * x * y / (x ^ 2 + y ^ 2) ^ 2)
  | .hypot, x, y => (x / √(x ^ 2 + y ^ 2), y / √(x ^ 2 + y ^ 2), y * y / √(x ^ 2 + y ^ 2) ^ 3,
      -x * y / √(x ^ 2 + y ^ 2) ^ 3, x * x / √(x ^ 2 + y ^ 2) ^ 3)

/-- The jet of a two-operand operation. -/
noncomputable def Bin.jet (p : Bin) (J K : Jet ℝ) : Jet ℝ :=
  Jet.comp2 (p.den J.f K.f) (p.d J.f K.f).1 (p.d J.f K.f).2.1 (p.d J.f K.f).2.2.1
    (p.d J.f K.f).2.2.2.1 (p.d J.f K.f).2.2.2.2 J K

theorem Bin.isJet (o : Nat) (p : Bin) {n : Nat} {F G : (Fin n → ℝ) → ℝ} {x : Fin n → ℝ}
    {J K : Jet ℝ} (hF : IsJet o n F x J) (hG : IsJet o n G x K) (hd : p.dom J.f K.f)
    (hr : p.reg J.f K.f) : IsJet o n (fun y => p.den (F y) (G y)) x (p.jet J K) := by
  refine IsJet.comp2 hF hG ?_
  cases p with
  | add => exact isJet_add o _ _
  | sub => exact isJet_sub o _ _
  | mul => exact isJet_mul o _ _
  | div => exact isJet_div o _ hd
  | atan2 => exact isJet_atan2 o hr
  | hypot => exact isJet_hypot o hd

theorem sq_add_sq_pos {x y : ℝ} (h : ¬ (x = 0 ∧ y = 0)) : 0 < x ^ 2 + y ^ 2 := by
  rcases not_and_or.mp h with ha | hb
  · positivity
  · positivity

theorem Bin.good {c : Cfg} {n : Nat} (p : Bin)
    {a b : Nat → XReal} {J K : Jet ℝ} (ha : Good c n a J) (hb : Good c n b K)
    (h : p.dom J.f K.f) : Good c n (p.runC c n a b) (p.jet J K) := by
  cases p with
  | add =>
    refine ⟨by simp [Bin.runC, addC, ha.f, hb.f, Bin.jet, Jet.comp2, Bin.den], ?_, ?_, ?_⟩
    · intro i hi
      simp [Bin.runC, addC, ha.g i hi, hb.g i hi, Bin.jet, Jet.comp2, Bin.d]
    · intro h2 i j hij hj
      simp [Bin.runC, addC, ha.h h2 i j hij hj, hb.h h2 i j hij hj, Bin.jet, Jet.comp2, Bin.d]
    · intro i j
      simp [Bin.jet, Jet.comp2, Bin.d, ha.sym i j, hb.sym i j]
  | sub =>
    refine ⟨by simp [Bin.runC, subC, ha.f, hb.f, Bin.jet, Jet.comp2, Bin.den], ?_, ?_, ?_⟩
    · intro i hi
      simp [Bin.runC, subC, ha.g i hi, hb.g i hi, Bin.jet, Jet.comp2, Bin.d]
    · intro h2 i j hij hj
      have := pos_gt n i j
      simp [Bin.runC, subC, show pos n i j ≠ 0 by omega, ha.h h2 i j hij hj, hb.h h2 i j hij hj,
        Bin.jet, Jet.comp2, Bin.d]
    · intro i j
      simp [Bin.jet, Jet.comp2, Bin.d, ha.sym i j, hb.sym i j]
  | mul => exact good_mul ha hb
  | div =>
    have hy : K.f ≠ 0 := h
    refine good_div ha hb ?_ ?_ ?_ ?_ ?_
    · rw [ha.f, hb.f, lit_num, div_num hy, mul_num]
      simp [Bin.den, div_eq_mul_inv]
    · rw [hb.f, lit_num, div_num hy]; simp [Bin.d]
    · rw [ha.f, hb.f, neg_num, powN_num, div_num (by positivity)]; simp [Bin.d]
    · rw [hb.f, lit_num, powN_num, div_num (by positivity)]; simp [Bin.d]
    · rw [ha.f, hb.f, lit_num, mul_num, powN_num, div_num (by positivity)]; simp [Bin.d]
  | atan2 =>
    have hq := (sq_add_sq_pos h).ne'
    have e : J.f * J.f + K.f * K.f = J.f ^ 2 + K.f ^ 2 := by ring
    refine good_bin5 ha hb ?_ ?_ ?_ ?_ ?_ ?_
    · rw [ha.f, hb.f]; rfl
    all_goals
      simp only [ha.f, hb.f, mul_num, add_num, neg_num, sub_num, lit_num, e, div_num hq, num_inj, Bin.d]
    all_goals
      try push_cast
      try field_simp
  | hypot =>
    have hq := sq_add_sq_pos h
    have hr := (Real.sqrt_pos.mpr hq).ne'
    have hf : CMath.hypot (num J.f) (num K.f) = num √(J.f ^ 2 + K.f ^ 2) := rfl
    refine good_bin5 ha hb ?_ ?_ ?_ ?_ ?_ ?_
    · rw [ha.f, hb.f]; rfl
    all_goals
      simp only [ha.f, hb.f, hf, mul_num, neg_num]
      rw [div_num (by positivity)]
      simp only [num_inj, Bin.d]
    all_goals
      try ring

/-- The jet of the three-argument `hypot`. -/
noncomputable def hypot3Jet (J K L : Jet ℝ) : Jet ℝ :=
  let r := √(J.f ^ 2 + K.f ^ 2 + L.f ^ 2)
  Jet.comp3 r (J.f / r) (K.f / r) (L.f / r) ((K.f * K.f + L.f * L.f) / r ^ 3)
    (-(J.f * K.f) / r ^ 3) (-(J.f * L.f) / r ^ 3) ((J.f * J.f + L.f * L.f) / r ^ 3)
    (-(K.f * L.f) / r ^ 3) ((J.f * J.f + K.f * K.f) / r ^ 3) J K L

theorem hypot3_isJet (o : Nat) {n : Nat} {F G H : (Fin n → ℝ) → ℝ} {x : Fin n → ℝ}
    {J K L : Jet ℝ} (hF : IsJet o n F x J) (hG : IsJet o n G x K) (hH : IsJet o n H x L)
    (h : ¬ (J.f = 0 ∧ K.f = 0 ∧ L.f = 0)) :
    IsJet o n (fun y => √(F y ^ 2 + G y ^ 2 + H y ^ 2)) x (hypot3Jet J K L) :=
  IsJet.comp3 (Φ := fun a b c => √(a ^ 2 + b ^ 2 + c ^ 2)) hF hG hH (isJet_hypot3 o h)

theorem good_hypot3 {c : Cfg} {n : Nat} {a b d : Nat → XReal}
    {J K L : Jet ℝ} (ha : Good c n a J) (hb : Good c n b K) (hd : Good c n d L)
    (h : ¬ (J.f = 0 ∧ K.f = 0 ∧ L.f = 0)) :
    Good c n (hypot3C c n a b d) (hypot3Jet J K L) := by
  have hq : 0 < J.f ^ 2 + K.f ^ 2 + L.f ^ 2 := by
    by_cases h1 : J.f = 0
    · by_cases h2 : K.f = 0
      · have h3 : L.f ≠ 0 := fun h3 => h ⟨h1, h2, h3⟩
        positivity
      · positivity
    · positivity
  have hr := (Real.sqrt_pos.mpr hq).ne'
  have hf : CMath.hypot3 (num J.f) (num K.f) (num L.f) = num √(J.f ^ 2 + K.f ^ 2 + L.f ^ 2) := rfl
  refine good_tern ha hb hd ?_ ?_ ?_ ?_ ?_ ?_ ?_ ?_ ?_ ?_
  · rw [ha.f, hb.f, hd.f]; rfl
  all_goals
    simp only [ha.f, hb.f, hd.f, hf, mul_num, neg_num, add_num]
    rw [div_num (by positivity)]
  all_goals
    simp only [num_inj]
    try ring

theorem good_abs {c : Cfg} {n : Nat} {a : Nat → XReal} {J : Jet ℝ} (ha : Good c n a J) :
    Good c n (absC a) (J.comp1 |J.f| (if J.f < 0 then -1 else 1) 0) := by
  have hl : Cmp.ltB (a 0) (Arith.lit 0) = decide (J.f < 0) := by
    rw [ha.f, lit_num]
    simp [Cmp.ltB, XReal.lt]
  refine good_lin ha ?_ fun k hk r hr => ?_
  · simp only [absC, hl, decide_eq_true_eq]
    split_ifs with h
    · rw [ha.f, neg_num, abs_of_neg h]
    · rw [ha.f, abs_of_nonneg (not_lt.mp h)]
  · simp only [absC, hl, decide_eq_true_eq]
    split_ifs with h
    · rw [hr, neg_num]; simp
    · rw [hr]; simp

/-- No dependence on variable `i`. -/
def Jet.ZeroAt (J : Jet ℝ) (i : Nat) : Prop := J.g i = 0 ∧ ∀ j, J.h i j = 0

theorem Jet.ZeroAt.comp1 {J : Jet ℝ} {i : Nat} (h : J.ZeroAt i) (f d dd : ℝ) :
    (J.comp1 f d dd).ZeroAt i := by
  simp [Jet.ZeroAt, Jet.comp1, h.1, h.2]

theorem Jet.ZeroAt.comp2 {J K : Jet ℝ} {i : Nat} (h : J.ZeroAt i) (k : K.ZeroAt i)
    (f da db daa dab dbb : ℝ) : (Jet.comp2 f da db daa dab dbb J K).ZeroAt i := by
  simp [Jet.ZeroAt, Jet.comp2, h.1, h.2, k.1, k.2]

theorem Jet.ZeroAt.comp3 {J K L : Jet ℝ} {i : Nat} (h : J.ZeroAt i) (k : K.ZeroAt i)
    (l : L.ZeroAt i) (f da db dc daa dab dac dbb dbc dcc : ℝ) :
    (Jet.comp3 f da db dc daa dab dac dbb dbc dcc J K L).ZeroAt i := by
  simp [Jet.ZeroAt, Jet.comp3, h.1, h.2, k.1, k.2, l.1, l.2]

/-- Inside the domain the result is the exact jet. -/
theorem eval_good {c : Cfg} (hc : c.order = 1 ∨ c.order = 2) {n : Nat} {V : Type}
    (ρ : V → Nat → XReal) (Jv : V → Jet ℝ) (hρ : ∀ v, Good c n (ρ v) (Jv v)) (e : Expr ℝ V)
    (hD : e.Dom c.order fun v => (Jv v).f) :
    ∃ J, Good c n ((e.map num).evalC c n ρ) J ∧ J.f = e.den (fun v => (Jv v).f) ∧
      (∀ (u : V → (Fin n → ℝ) → ℝ) (x : Fin n → ℝ), (∀ v, IsJet c.order n (u v) x (Jv v)) →
        e.Regular (fun v => (Jv v).f) →
        IsJet c.order n (fun y => e.den fun v => u v y) x J) ∧
      ∀ i, (∀ v, e.Mentions v → (Jv v).ZeroAt i) → J.ZeroAt i := by
  induction e with
  | var v => exact ⟨Jv v, hρ v, rfl, fun u x hu _ => hu v, fun i h => h v rfl⟩
  | const s =>
    refine ⟨_, good_const s, rfl, fun u x hu _ => ?_, fun i h => ⟨rfl, fun _ => rfl⟩⟩
    refine isJet_mk (fun _ _ => 0) rfl (Filter.Eventually.of_forall fun y => ?_) (fun _ _ => rfl) ?_
    · exact HasFDerivAt.toLin (hasFDerivAt_const s y) (fun i => by simp)
    · exact fun _ i => HasFDerivAt.toLin (hasFDerivAt_const (0 : ℝ) x) (fun i => by simp)
  | neg e ih =>
    obtain ⟨J, hg, hf, hj, hz⟩ := ih hD
    refine ⟨J.comp1 (-J.f) (-1) 0, good_lin hg ?_ fun k hk r hr => ?_, ?_, fun u x hu hr => ?_,
      fun i h => (hz i h).comp1 _ _ _⟩
    · simp [Expr.map, Expr.evalC, hg.f]
    · simp [Expr.map, Expr.evalC, hr]
    · simp [Jet.comp1, hf, Expr.den]
    · have := (hj u x hu hr).comp1 (d2At_affine c.order (-1) 0 J.f)
      simpa [Expr.den] using this
  | abs e ih =>
    obtain ⟨J, hg, hf, hj, hz⟩ := ih hD
    refine ⟨_, good_abs hg, ?_, fun u x hu hr => ?_, fun i h => (hz i h).comp1 _ _ _⟩
    · simp [Jet.comp1, hf, Expr.den]
    · exact (hj u x hu hr.1).comp1 (d2At_abs c.order (by rw [hf]; exact hr.2))
  | fn φ e ih =>
    obtain ⟨J, hg, hf, hj, hz⟩ := ih hD.1
    have hdom := hD.2
    rw [← hf] at hdom
    obtain ⟨d, dd, hφ⟩ := φ.good hc hdom
    refine ⟨_, good_uFin hg (f' := φ.den J.f) (d := d) (dd := dd) ?_ ?_ ?_, ?_, fun u x hu hr => ?_,
      fun i h => (hz i h).comp1 _ _ _⟩
    · rw [hg.f]; exact hφ.f
    · rw [hg.f]; exact hφ.da
    · rw [hg.f]; exact hφ.daa
    · simp [Jet.comp1, hf, Expr.den]
    · exact (hj u x hu hr).comp1 hφ.d2
  | bin o e₁ e₂ ih₁ ih₂ =>
    obtain ⟨J, hg, hf, hj, hz⟩ := ih₁ hD.1
    obtain ⟨K, kg, kf, kj, kz⟩ := ih₂ hD.2.1
    have hdom := hD.2.2
    rw [← hf, ← kf] at hdom
    refine ⟨_, o.good hg kg hdom, ?_, fun u x hu hr => ?_, fun i h =>
      (hz i fun v hv => h v (Or.inl hv)).comp2 (kz i fun v hv => h v (Or.inr hv)) ..⟩
    · simp [Bin.jet, Jet.comp2, hf, kf, Expr.den]
    · have hreg := hr.2.2
      rw [← hf, ← kf] at hreg
      exact o.isJet _ (hj u x hu hr.1) (kj u x hu hr.2.1) hdom hreg
  | sbin o e s ih =>
    obtain ⟨J, hg, hf, hj, hz⟩ := ih hD.1
    have hdom := hD.2
    rw [← hf] at hdom
    refine ⟨_, o.good hg hdom, ?_, fun u x hu hr => ?_, fun i h => (hz i h).comp1 _ _ _⟩
    · simp [Jet.comp1, hf, Expr.den]
    · exact (hj u x hu hr).comp1 (o.d2At c.order hdom)
  | hypot3 e₁ e₂ e₃ ih₁ ih₂ ih₃ =>
    obtain ⟨J, hg, hf, hj, hz⟩ := ih₁ hD.1
    obtain ⟨K, kg, kf, kj, kz⟩ := ih₂ hD.2.1
    obtain ⟨L, lg, lf, lj, lz⟩ := ih₃ hD.2.2.1
    have hdom := hD.2.2.2
    rw [← hf, ← kf, ← lf] at hdom
    refine ⟨_, good_hypot3 hg kg lg hdom, ?_, fun u x hu hr => ?_, fun i h =>
      (hz i fun v hv => h v (Or.inl hv)).comp3 (kz i fun v hv => h v (Or.inr (Or.inl hv)))
        (lz i fun v hv => h v (Or.inr (Or.inr hv))) ..⟩
    · simp [hypot3Jet, Jet.comp3, hf, kf, lf, Expr.den]
    · exact hypot3_isJet _ (hj u x hu hr.1) (kj u x hu hr.2.1) (lj u x hu hr.2.2) hdom

end HJ
