import Verif.Proofs.LocalOps

/-!
# The error made by one operation: all operations
-/

namespace HJ

variable {α : Type} [CMath α] {u : ℝ} {M : LibErr α u} {c : Cfg} {n : Nat}

theorem op_two {Φ : ℝ → ℝ → ℝ} {p : Fin 2 → ℝ} {f da db daa dab dbb : ℝ}
    (h : IsJet 2 2 (fun w => Φ (w 0) (w 1)) p
      (Jet.comp2 f da db daa dab dbb (varJet 0 (p 0)) (varJet 1 (p 1)))) :
    (partialD (fun w : Fin 2 → ℝ => Φ (w 0) (w 1)) p = ![da, db]) ∧
      partialDD (fun w : Fin 2 → ℝ => Φ (w 0) (w 1)) p = ![![daa, dab], ![dab, dbb]] := by
  obtain ⟨h1, h2⟩ := h.partials
  rw [h1, h2]
  constructor
  · funext a
    fin_cases a <;> simp [Jet.comp2, varJet]
  · funext a b
    fin_cases a <;> fin_cases b <;> simp [Jet.comp2, varJet]

theorem nears_two {o : Op α 2} {ρ : Fin 2 → Nat → α} {Φ : ℝ → ℝ → ℝ}
    {f da db daa dab dbb AA AB BB : ℝ} {a' : Nat → α}
    (ho : o.den M.val = fun w => Φ (w 0) (w 1))
    (hj : IsJet 2 2 (fun w => Φ (w 0) (w 1)) (fun v => M.val (ρ v 0))
      (Jet.comp2 f da db daa dab dbb (varJet 0 (M.val (ρ 0 0))) (varJet 1 (M.val (ρ 1 0)))))
    (hs : o.size2 M.val (fun v => M.val (ρ v 0)) = ![![AA, AB], ![AB, BB]])
    (h : Nears M 16 c n a'
      (Jet.comp2 f da db daa dab dbb ((jetOf n (ρ 0)).mapv M.val) ((jetOf n (ρ 1)).mapv M.val))
      (Jet.comp2 |f| |da| |db| AA AB BB (((jetOf n (ρ 0)).mapv M.val).mapv fun s => |s|)
        (((jetOf n (ρ 1)).mapv M.val).mapv fun s => |s|))) :
    Nears M 16 c n a' (exactJet (o.den M.val) fun v => (jetOf n (ρ v)).mapv M.val)
      (o.sizeJet M.val fun v => (jetOf n (ρ v)).mapv M.val) := by
  obtain ⟨h1, h2⟩ := op_two hj
  have hv : Φ (M.val (ρ 0 0)) (M.val (ρ 1 0)) = f := hj.value
  have e : (fun v => ((jetOf n (ρ v)).mapv M.val).f) = fun v => M.val (ρ v 0) := rfl
  unfold exactJet Op.sizeJet
  rw [e, hs, ho, h1, h2]
  rw [chainJet_two _ _ _ (by simp), chainJet_two _ _ _ (by simp)]
  simpa [hv] using h

/-- Except for `atan2`, the sizes are those of the second derivatives. -/
theorem size2_eq {o : Op α 2} {ρ : Fin 2 → Nat → α} {Φ : ℝ → ℝ → ℝ} {f da db daa dab dbb : ℝ}
    (ho : o.den M.val = fun w => Φ (w 0) (w 1))
    (hj : IsJet 2 2 (fun w => Φ (w 0) (w 1)) (fun v => M.val (ρ v 0))
      (Jet.comp2 f da db daa dab dbb (varJet 0 (M.val (ρ 0 0))) (varJet 1 (M.val (ρ 1 0)))))
    (hs : o.size2 M.val = fun p a b => |partialDD (o.den M.val) p a b|) :
    o.size2 M.val (fun v => M.val (ρ v 0)) = ![![|daa|, |dab|], ![|dab|, |dbb|]] := by
  rw [hs, ho]
  beta_reduce
  rw [(op_two hj).2]
  funext a b
  fin_cases a <;> fin_cases b <;> simp

theorem atan2_size {x y : ℝ} (hs : 0 < x ^ 2 + y ^ 2) :
    |2 * x * y / (x ^ 2 + y ^ 2) ^ 2| ≤ 1 / (x ^ 2 + y ^ 2) := by
  rw [abs_div, abs_of_pos (pow_pos hs 2), div_le_div_iff₀ (pow_pos hs 2) hs, one_mul,
    pow_two (x ^ 2 + y ^ 2)]
  refine mul_le_mul_of_nonneg_right ?_ hs.le
  rw [abs_le]
  constructor <;> nlinarith [sq_nonneg (x + y), sq_nonneg (x - y)]

theorem Bin.nears (o : Bin) (ρ : Fin 2 → Nat → α) (hd : o.dom (M.val (ρ 0 0)) (M.val (ρ 1 0)))
    (hr : o.reg (M.val (ρ 0 0)) (M.val (ρ 1 0))) :
    Nears M 16 c n (o.runC c n (ρ 0) (ρ 1))
      (exactJet ((Op.bin o).den M.val) fun v => (jetOf n (ρ v)).mapv M.val)
      ((Op.bin o).sizeJet M.val fun v => (jetOf n (ρ v)).mapv M.val) := by
  have l1 : Has M 0 (Arith.lit 1) (1 : ℤ) := Has.lit (by norm_num)
  have l2 : Has M 0 (Arith.lit 2) (2 : ℤ) := Has.lit (by norm_num)
  have m1 : Has M 0 (Arith.lit (-1)) (-1 : ℤ) := Has.lit (by norm_num)
  have hx : Has M 0 (ρ 0 0) (M.val (ρ 0 0)) := Has.self _
  have hy : Has M 0 (ρ 1 0) (M.val (ρ 1 0)) := Has.self _
  have ha := Nears.self M c n (ρ 0)
  have hb := Nears.self M c n (ρ 1)
  have hp := isJet_var 2 (fun v => M.val (ρ v 0)) (0 : Fin 2)
  have hq := isJet_var 2 (fun v => M.val (ρ v 0)) (1 : Fin 2)
  have hj := o.isJet 2 hp hq hd hr
  simp only [Bin.jet] at hj
  cases o with
  | add =>
    refine nears_two (o := .bin .add) (Φ := Bin.add.den) rfl hj (size2_eq rfl hj rfl) ?_
    simp only [Bin.d, Bin.den, varJet, abs_one, abs_zero]
    refine ⟨(Has.nr (k := 1) (.close (M.add _ _))).mono (by norm_num), fun i hi => ?_,
      fun h2 i j hij hj => ?_, fun i j => ?_, fun i j => ?_⟩
    · exact (((ha.g i hi).add (hb.g i hi)).mono (by norm_num)).of_eq (by simp [Jet.comp2])
        (by simp [Jet.comp2])
    · exact (((ha.h h2 i j hij hj).add (hb.h h2 i j hij hj)).mono (by norm_num)).of_eq
        (by simp [Jet.comp2]) (by simp [Jet.comp2])
    · simp [Jet.comp2, ha.symJ i j, hb.symJ i j]
    · simp [Jet.comp2, ha.symS i j, hb.symS i j]
  | sub =>
    refine nears_two (o := .bin .sub) (Φ := Bin.sub.den) rfl hj (size2_eq rfl hj rfl) ?_
    simp only [Bin.d, Bin.den, varJet, abs_neg, abs_one, abs_zero]
    refine ⟨(Has.nr (k := 1) (.close (M.sub _ _))).mono (by norm_num), fun i hi => ?_,
      fun h2 i j hij hj => ?_, fun i j => ?_, fun i j => ?_⟩
    · simp only [Bin.runC, subC, show ¬ 1 + i = 0 by omega, if_false]
      exact (((ha.g i hi).add (hb.g i hi).neg).mono (by norm_num)).of_eq (by simp [Jet.comp2])
        (by simp [Jet.comp2])
    · have := pos_gt n i j
      simp only [Bin.runC, subC, show ¬ pos n i j = 0 by omega, if_false]
      exact (((ha.h h2 i j hij hj).add (hb.h h2 i j hij hj).neg).mono (by norm_num)).of_eq
        (by simp [Jet.comp2]) (by simp [Jet.comp2])
    · simp [Jet.comp2, ha.symJ i j, hb.symJ i j]
    · simp [Jet.comp2, ha.symS i j, hb.symS i j]
  | mul =>
    refine nears_two (o := .bin .mul) (Φ := Bin.mul.den) rfl hj (size2_eq rfl hj rfl) ?_
    simp only [Bin.d, Bin.den, varJet, abs_mul, abs_one, abs_zero]
    exact nears_mul ha hb
  | div =>
    have h0 : M.val (ρ 1 0) ≠ 0 := hd
    have q := l1.div hy h0
    have p2 := hy.powN (n := 2) (by norm_num)
    have p3 := hy.powN (n := 3) (by norm_num)
    refine nears_two (o := .bin .div) (Φ := Bin.div.den) rfl hj (size2_eq rfl hj rfl) ?_
    simp only [Bin.d, Bin.den, varJet, abs_zero]
    exact nears_div ha hb (((hx.mul q).of_eq (by simp [div_eq_mul_inv])).nr.mono (by norm_num))
      ((q.of_eq (by simp)).nr.mono (by norm_num))
      ((hx.neg.div p2 (pow_ne_zero 2 h0)).nr.mono (by norm_num))
      (((m1.div p2 (pow_ne_zero 2 h0)).of_eq (by simp)).nr.mono (by norm_num))
      ((((l2.mul hx).div p3 (pow_ne_zero 3 h0)).of_eq (by simp)).nr.mono (by norm_num))
  | atan2 =>
    have hs := sq_add_sq_pos hd
    have hq := hs.ne'
    have tmp := ((hx.mul hx).add (hy.mul hy) (mul_self_nonneg _) (mul_self_nonneg _)).of_eq
      (show _ = M.val (ρ 0 0) ^ 2 + M.val (ρ 1 0) ^ 2 by ring)
    have da := hy.div tmp hq
    have db := hx.neg.div tmp hq
    have daa := ((db.mul da).mul l2).of_eq
      (s := -(2 * M.val (ρ 0 0) * M.val (ρ 1 0)) / (M.val (ρ 0 0) ^ 2 + M.val (ρ 1 0) ^ 2) ^ 2)
      (by push_cast; field_simp)
    have daa' := daa.neg.of_eq
      (s := 2 * M.val (ρ 0 0) * M.val (ρ 1 0) / (M.val (ρ 0 0) ^ 2 + M.val (ρ 1 0) ^ 2) ^ 2)
      (by field_simp)
    have dab := ((db.mul db).nr.sub (da.mul da).nr).of_eq
      (s := (M.val (ρ 0 0) ^ 2 - M.val (ρ 1 0) ^ 2) / (M.val (ρ 0 0) ^ 2 + M.val (ρ 1 0) ^ 2) ^ 2)
      (B := 1 / (M.val (ρ 0 0) ^ 2 + M.val (ρ 1 0) ^ 2)) (by field_simp) (by
        rw [abs_of_nonneg (mul_self_nonneg _), abs_of_nonneg (mul_self_nonneg _)]
        field_simp)
    have bound : |2 * M.val (ρ 0 0) * M.val (ρ 1 0) / (M.val (ρ 0 0) ^ 2 + M.val (ρ 1 0) ^ 2) ^ 2| ≤
        1 / (M.val (ρ 0 0) ^ 2 + M.val (ρ 1 0) ^ 2) := atan2_size hs
    refine nears_two (o := .bin .atan2) (Φ := Bin.atan2.den)
      (AA := 1 / (M.val (ρ 0 0) ^ 2 + M.val (ρ 1 0) ^ 2))
      (AB := 1 / (M.val (ρ 0 0) ^ 2 + M.val (ρ 1 0) ^ 2))
      (BB := 1 / (M.val (ρ 0 0) ^ 2 + M.val (ρ 1 0) ^ 2)) rfl hj ?_ ?_
    · funext a b
      fin_cases a <;> fin_cases b <;> simp [Op.size2]
    · simp only [Bin.d, Bin.den, varJet]
      refine nears_bin5 ha hb ((Has.nr (k := 1) (.close (M.atan2 _ _ hr))).mono (by norm_num))
        (da.nr.mono (by norm_num)) (db.nr.mono (by norm_num)) ((daa.nr.of_le ?_).mono (by norm_num))
        (dab.mono (by norm_num)) ((daa'.nr.of_le bound).mono (by norm_num))
      rwa [neg_div, abs_neg]
  | hypot =>
    have hq := sq_add_sq_pos hd
    have hr := (Real.sqrt_pos.mpr hq).ne'
    have f : Has M 1 _ _ := .close (M.hypot (ρ 0 0) (ρ 1 0))
    have f3 := ((f.mul f).mul f).of_eq
      (show _ = √(M.val (ρ 0 0) ^ 2 + M.val (ρ 1 0) ^ 2) ^ 3 by ring)
    have h3 := pow_ne_zero 3 hr
    refine nears_two (o := .bin .hypot) (Φ := Bin.hypot.den) rfl hj (size2_eq rfl hj rfl) ?_
    simp only [Bin.d, Bin.den, varJet]
    exact nears_bin5 ha hb (f.nr.mono (by norm_num)) ((hx.div f hr).nr.mono (by norm_num))
      ((hy.div f hr).nr.mono (by norm_num)) (((hy.mul hy).div f3 h3).nr.mono (by norm_num))
      (((hx.neg.mul hy).div f3 h3).nr.mono (by norm_num))
      (((hx.mul hx).div f3 h3).nr.mono (by norm_num))

theorem hypot3_nears (ρ : Fin 3 → Nat → α)
    (hd : ¬ (M.val (ρ 0 0) = 0 ∧ M.val (ρ 1 0) = 0 ∧ M.val (ρ 2 0) = 0)) :
    Nears M 16 c n (hypot3C c n (ρ 0) (ρ 1) (ρ 2))
      (exactJet (Op.hypot3.den M.val) fun v => (jetOf n (ρ v)).mapv M.val)
      (Op.hypot3.sizeJet M.val fun v => (jetOf n (ρ v)).mapv M.val) := by
  have hx : Has M 0 (ρ 0 0) (M.val (ρ 0 0)) := Has.self _
  have hy : Has M 0 (ρ 1 0) (M.val (ρ 1 0)) := Has.self _
  have hz : Has M 0 (ρ 2 0) (M.val (ρ 2 0)) := Has.self _
  have ha := Nears.self M c n (ρ 0)
  have hb := Nears.self M c n (ρ 1)
  have hc := Nears.self M c n (ρ 2)
  have hj := hypot3_isJet 2 (isJet_var 2 (fun v => M.val (ρ v 0)) (0 : Fin 3))
    (isJet_var 2 (fun v => M.val (ρ v 0)) (1 : Fin 3))
    (isJet_var 2 (fun v => M.val (ρ v 0)) (2 : Fin 3)) hd
  obtain ⟨h1, h2⟩ := hj.partials
  have hv := hj.value
  have e : (fun v => ((jetOf n (ρ v)).mapv M.val).f) = fun v => M.val (ρ v 0) := rfl
  have eo : (Op.hypot3 : Op α 3).den M.val = fun w => √(w 0 ^ 2 + w 1 ^ 2 + w 2 ^ 2) := rfl
  have hq := sq3_pos hd
  have hr := (Real.sqrt_pos.mpr hq).ne'
  have f : Has M 1 _ _ := .close (M.hypot3 (ρ 0 0) (ρ 1 0) (ρ 2 0))
  have f3 := ((f.mul f).mul f).of_eq
    (show _ = √(M.val (ρ 0 0) ^ 2 + M.val (ρ 1 0) ^ 2 + M.val (ρ 2 0) ^ 2) ^ 3 by ring)
  have h3 := pow_ne_zero 3 hr
  have a2 := hx.mul hx
  have b2 := hy.mul hy
  have c2 := hz.mul hz
  have nn : ∀ x : ℝ, 0 ≤ x * x := mul_self_nonneg
  unfold exactJet Op.sizeJet
  simp only [e, Op.size2]
  rw [eo, h1, h2, chainJet_three _ _ _ ?_ ?_ ?_, chainJet_three _ _ _ ?_ ?_ ?_]
  · have key := nears_tern ha hb hc (f.nr.mono (by norm_num)) ((hx.div f hr).nr.mono (by norm_num))
      ((hy.div f hr).nr.mono (by norm_num)) ((hz.div f hr).nr.mono (by norm_num))
      (((b2.add c2 (nn _) (nn _)).div f3 h3).nr.mono (by norm_num))
      (((hx.mul hy).neg.div f3 h3).nr.mono (by norm_num))
      (((hx.mul hz).neg.div f3 h3).nr.mono (by norm_num))
      (((a2.add c2 (nn _) (nn _)).div f3 h3).nr.mono (by norm_num))
      (((hy.mul hz).neg.div f3 h3).nr.mono (by norm_num))
      (((a2.add b2 (nn _) (nn _)).div f3 h3).nr.mono (by norm_num))
    simpa [hypot3Jet, Jet.comp3, varJet, hypot3C] using key
  all_goals simp [hypot3Jet, Jet.comp3, varJet]

/-- The error of one operation, for contents of the operands. -/
theorem Op.nears (hu : u ≤ 1 / 10) {m : Nat} (o : Op α m) (ρ : Fin m → Nat → α)
    (hs : o.Stable M.val fun v => M.val (ρ v 0)) :
    Nears M 16 c n (o.expr.evalC c n ρ)
      (exactJet (o.den M.val) fun v => (jetOf n (ρ v)).mapv M.val)
      (o.sizeJet M.val fun v => (jetOf n (ρ v)).mapv M.val) := by
  have h0 : M.val (Arith.lit 0) = 0 := by simpa using M.lit10 0 (by norm_num)
  cases o with
  | neg =>
    refine nears_one (o := .neg) (φ := fun y => -y) rfl rfl
      (by simpa using d2At_affine 2 (-1) 0 (M.val (ρ 0 0))) ?_
    simp only [abs_neg, abs_one, abs_zero]
    refine nears_lin (Nears.self M c n (ρ 0)) ?_ fun i _ r R hr => ?_
    · exact ((Has.self (ρ 0 0)).neg.nr.mono (by norm_num)).of_eq rfl (abs_neg _)
    · exact (hr.neg.mono (by norm_num)).of_eq (by ring) (by ring)
  | abs =>
    have hne : M.val (ρ 0 0) ≠ 0 := hs
    refine nears_one (o := .abs) (φ := fun y => |y|) rfl rfl (d2At_abs 2 hne) ?_
    rcases lt_or_gt_of_ne hne with hneg | hpos
    · have hb : Cmp.ltB (ρ 0 0) (Arith.lit 0) = true := by rw [M.less, h0]; exact hneg
      rw [if_pos hneg, abs_neg, abs_one, abs_zero]
      refine nears_lin (Nears.self M c n (ρ 0)) ?_ fun i _ r R hr => ?_
      · simp only [Op.expr, Expr.evalC, absC, hb, if_true]
        exact ((Has.self (ρ 0 0)).neg.nr.mono (by norm_num)).of_eq (abs_of_neg hneg).symm (by simp)
      · simp only [Op.expr, Expr.evalC, absC, hb, if_true]
        exact (hr.neg.mono (by norm_num)).of_eq (by ring) (by ring)
    · have hb : Cmp.ltB (ρ 0 0) (Arith.lit 0) = false := by
        rw [Bool.eq_false_iff, Ne, M.less, h0]; exact not_lt.2 (le_of_lt hpos)
      rw [if_neg (not_lt.2 (le_of_lt hpos)), abs_one, abs_zero]
      refine nears_lin (Nears.self M c n (ρ 0)) ?_ fun i _ r R hr => ?_
      · simp only [Op.expr, Expr.evalC, absC, hb]
        exact ((Has.self (ρ 0 0)).nr.mono (by norm_num)).of_eq (abs_of_pos hpos).symm (by simp)
      · simp only [Op.expr, Expr.evalC, absC, hb]
        exact (hr.mono (by norm_num)).of_eq (by ring) (by ring)
  | fn φ =>
    have hφ := (φ.map M.val).real (o := 2) (Or.inr rfl) hs.1 (fun b hb => by
      cases φ <;> simp only [Fn.map, Fn.pow.injEq, reduceCtorEq] at hb
      exact hs.2.1)
    have hc := φ.hasU hu (ρ 0 0) hs.1 hs.2
    refine nears_one (o := .fn φ) (φ := (φ.map M.val).den) rfl rfl hφ.d2 ?_
    rw [← hφ.f]
    exact nears_uFin (Nears.self M c n (ρ 0)) (hc.f.nr.mono (by norm_num))
      (hc.da.nr.mono (by norm_num)) hc.daa.nr
  | sbin o s =>
    refine nears_one (o := .sbin o s) (φ := fun y => o.den y (M.val s)) rfl rfl (o.d2At 2 hs) ?_
    exact o.nears s (Nears.self M c n (ρ 0)) rfl rfl hs
  | bin o => exact o.nears ρ hs.1 hs.2
  | hypot3 => exact hypot3_nears ρ hs

end HJ
