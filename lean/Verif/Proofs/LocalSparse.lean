import Verif.Proofs.LocalMain
import Verif.Proofs.ConvergeSparse

/-!
# The error made by one operation: sparse scalars
-/

namespace HJ

variable {α : Type} [CMath α] {u : ℝ} {M : LibErr α u} {k l : Nat}

theorem LibErr.lit0 (M : LibErr α u) : M.val (Arith.lit 0) = 0 := by
  simpa using M.lit10 0 (by norm_num)

theorem Nr.lit0 : Nr M k (Arith.lit 0) 0 0 := by
  unfold Nr; rw [M.lit0]; exact Near.zero k

/-- The number stored for a name, or zero. -/
noncomputable def entry (M : LibErr α u) (o : Option α) : ℝ := M.val (o.getD (Arith.lit 0))

theorem Nr.entry (o : Option α) : Nr M 0 (o.getD (Arith.lit 0)) (entry M o) |HJ.entry M o| :=
  Near.exact _

theorem Nr.map_mul (o : Option α) {da : α} {d D : ℝ} (hd : Nr M k da d D) :
    Nr M (k + 1) ((o.map (· *ₛ da)).getD (Arith.lit 0)) (d * HJ.entry M o) (D * |HJ.entry M o|) := by
  cases o with
  | none => exact Nr.lit0.of_eq (by simp [HJ.entry, M.lit0]) (by simp [HJ.entry, M.lit0])
  | some w =>
    exact (((Nr.entry (some w)).mul hd).mono (by omega)).of_eq (mul_comm _ _) (mul_comm _ _)

theorem Nr.map_neg (o : Option α) :
    Nr M 0 ((o.map fun w => -ₛ w).getD (Arith.lit 0)) (-HJ.entry M o) |HJ.entry M o| := by
  cases o with
  | none => exact Nr.lit0.of_eq (by simp [HJ.entry, M.lit0]) (by simp [HJ.entry, M.lit0])
  | some w => exact (Nr.entry (some w)).neg

theorem Nr.step {a b : Option α} {db : α} {x X d D : ℝ} (ha : Nr M k (a.getD (Arith.lit 0)) x X)
    (hd : Nr M l db d D) :
    Nr M (max k (l + 1) + 1) ((SMap.step (fun v w => w +ₛ db *ₛ v) a b).getD (Arith.lit 0))
      (x + d * HJ.entry M b) (X + D * |HJ.entry M b|) := by
  cases b with
  | none =>
    exact (ha.mono (by omega)).of_eq (by simp [HJ.entry, M.lit0]) (by simp [HJ.entry, M.lit0])
  | some w =>
    have h := ha.add (hd.mul (Nr.entry (some w)))
    exact h.mono (by simp)

/-- One operation name by name. -/
structure SNear {m : Nat} (M : LibErr α u) (o : Op α m) (p : Fin m → SVal α) (nm : String)
    (r : SVal α) : Prop where
  f : Nr M 16 r.1 (o.den M.val fun v => M.val (p v).1) |o.den M.val fun v => M.val (p v).1|
  d : Nr M 16 ((r.2 nm).getD (Arith.lit 0))
    (∑ a, partialD (o.den M.val) (fun v => M.val (p v).1) a * entry M ((p a).2 nm))
    (∑ a, |partialD (o.den M.val) (fun v => M.val (p v).1) a| * |entry M ((p a).2 nm)|)

theorem snear_one {o : Op α 1} {p : Fin 1 → SVal α} {nm : String} {r : SVal α} {φ : ℝ → ℝ}
    {d dd : ℝ} (ho : o.den M.val = fun y => φ (y 0)) (hφ : D2At 2 φ (M.val (p 0).1) d dd)
    (hf : Nr M 16 r.1 (φ (M.val (p 0).1)) |φ (M.val (p 0).1)|)
    (hd : Nr M 16 ((r.2 nm).getD (Arith.lit 0)) (d * entry M ((p 0).2 nm))
      (|d| * |entry M ((p 0).2 nm)|)) : SNear M o p nm r := by
  have h1 := (op_one (p := fun v => M.val (p v).1) hφ).1
  refine ⟨by rw [ho]; exact hf, ?_⟩
  rw [ho]
  simpa [h1] using hd

theorem snear_two {o : Op α 2} {p : Fin 2 → SVal α} {nm : String} {Φ : ℝ → ℝ → ℝ}
    {f da db daa dab dbb : ℝ} {f' ca cb : α} (ho : o.den M.val = fun w => Φ (w 0) (w 1))
    (hj : IsJet 2 2 (fun w => Φ (w 0) (w 1)) (fun v => M.val (p v).1)
      (Jet.comp2 f da db daa dab dbb (varJet 0 (M.val (p 0).1)) (varJet 1 (M.val (p 1).1))))
    (hf : Has M 3 f' f) (ha : Has M 7 ca da) (hb : Has M 7 cb db) :
    SNear M o p nm ((p 0).bin (p 1) f' ca cb) := by
  have h1 := (op_two hj).1
  have hv : Φ (M.val (p 0).1) (M.val (p 1).1) = f := hj.value
  refine ⟨?_, ?_⟩
  · rw [ho]
    simp only [hv]
    exact hf.nr.mono (by norm_num)
  · rw [ho, h1]
    have := (Nr.map_mul ((p 0).2 nm) ha.nr).step (b := (p 1).2 nm) hb.nr
    simpa [SVal.bin] using this.mono (l := 16) (by norm_num)

theorem Bin.snear (o : Bin) (p : Fin 2 → SVal α) (nm : String)
    (hd : o.dom (M.val (p 0).1) (M.val (p 1).1)) (hr : o.reg (M.val (p 0).1) (M.val (p 1).1)) :
    SNear M (.bin o) p nm (o.val (p 0) (p 1)) := by
  have l1 : Has M 0 (Arith.lit 1) (1 : ℤ) := Has.lit (by norm_num)
  have m1 : Has M 0 (Arith.lit (-1)) (-1 : ℤ) := Has.lit (by norm_num)
  have hx : Has M 0 (p 0).1 (M.val (p 0).1) := Has.self _
  have hy : Has M 0 (p 1).1 (M.val (p 1).1) := Has.self _
  have hj := o.isJet 2 (isJet_var 2 (fun v => M.val (p v).1) (0 : Fin 2))
    (isJet_var 2 (fun v => M.val (p v).1) (1 : Fin 2)) hd hr
  simp only [Bin.jet] at hj
  cases o with
  | add =>
    refine snear_two (Φ := Bin.add.den) rfl hj ((Has.close (M.add _ _)).mono (by norm_num))
      ((l1.of_eq ?_).mono (by norm_num)) ((l1.of_eq ?_).mono (by norm_num)) <;> simp [Bin.d]
  | sub =>
    refine snear_two (Φ := Bin.sub.den) rfl hj ((Has.close (M.sub _ _)).mono (by norm_num))
      ((l1.of_eq ?_).mono (by norm_num)) ((m1.of_eq ?_).mono (by norm_num)) <;> simp [Bin.d]
  | mul =>
    exact snear_two (Φ := Bin.mul.den) rfl hj ((hx.mul hy).mono (by norm_num))
      (hy.mono (by norm_num)) (hx.mono (by norm_num))
  | div =>
    have h0 : M.val (p 1).1 ≠ 0 := hd
    have q := l1.div hy h0
    have p2 := hy.powN (n := 2) (by norm_num)
    exact snear_two (Φ := Bin.div.den) rfl hj
      (((hx.mul q).of_eq (by simp [Bin.den, varJet, div_eq_mul_inv])).mono (by norm_num))
      ((q.of_eq (by simp [Bin.d, varJet])).mono (by norm_num))
      ((hx.neg.div p2 (pow_ne_zero 2 h0)).mono (by norm_num))
  | atan2 =>
    have hq := (sq_add_sq_pos hd).ne'
    have tmp := ((hx.mul hx).add (hy.mul hy) (mul_self_nonneg _) (mul_self_nonneg _)).of_eq
      (show _ = M.val (p 0).1 ^ 2 + M.val (p 1).1 ^ 2 by ring)
    exact snear_two (Φ := Bin.atan2.den) rfl hj ((Has.close (M.atan2 _ _ hr)).mono (by norm_num))
      ((hy.div tmp hq).mono (by norm_num)) ((hx.neg.div tmp hq).mono (by norm_num))
  | hypot =>
    have hr := (Real.sqrt_pos.mpr (sq_add_sq_pos hd)).ne'
    have f : Has M 1 _ _ := .close (M.hypot (p 0).1 (p 1).1)
    exact snear_two (Φ := Bin.hypot.den) rfl hj (f.mono (by norm_num))
      ((hx.div f hr).mono (by norm_num)) ((hy.div f hr).mono (by norm_num))

theorem SBin.snear (o : SBin) (s : α) (p : Fin 1 → SVal α) (nm : String)
    (h : o.dom (M.val (p 0).1) (M.val s)) : SNear M (.sbin o s) p nm (o.val (p 0) s) := by
  have l1 : Has M 0 (Arith.lit 1) (1 : ℤ) := Has.lit (by norm_num)
  have hs : Has M 0 s (M.val s) := Has.self s
  have h0 : Has M 0 (p 0).1 (M.val (p 0).1) := Has.self _
  refine snear_one (φ := fun y => o.den y (M.val s)) rfl (o.d2At 2 h) ?_ ?_
  · cases o with
    | addS => exact (Has.close (M.add _ _)).nr.mono (by norm_num)
    | sAdd =>
      exact ((Has.close (M.add _ _)).of_eq (add_comm _ _)).nr.mono (by norm_num)
    | subS =>
      refine (Has.nr (k := 1) (.close ?_)).mono (by norm_num)
      simp only [SBin.den]
      rw [sub_eq_add_neg, ← M.neg]
      exact M.add _ _
    | sSub =>
      refine (Has.nr (k := 1) (.close ?_)).mono (by norm_num)
      simp only [SBin.den]
      rw [sub_eq_add_neg, add_comm, ← M.neg]
      exact M.add _ _
    | mulS => exact (h0.mul hs).nr.mono (by norm_num)
    | sMul => exact ((h0.mul hs).of_eq (mul_comm _ _)).nr.mono (by norm_num)
    | divS =>
      have q := l1.div hs h
      exact ((h0.mul q).of_eq (by simp [SBin.den, div_eq_mul_inv])).nr.mono (by norm_num)
    | sDiv => exact (hs.div h0 h).nr.mono (by norm_num)
  · cases o with
    | addS => exact ((Nr.entry _).mono (by norm_num)).of_eq (by simp [SBin.d, SBin.val]) (by simp [SBin.d, SBin.val])
    | sAdd => exact ((Nr.entry _).mono (by norm_num)).of_eq (by simp [SBin.d, SBin.val]) (by simp [SBin.d, SBin.val])
    | subS => exact ((Nr.entry _).mono (by norm_num)).of_eq (by simp [SBin.d, SBin.val]) (by simp [SBin.d, SBin.val])
    | sSub => exact ((Nr.map_neg _).mono (by norm_num)).of_eq (by simp [SBin.d]) (by simp [SBin.d])
    | mulS => exact (Nr.map_mul _ hs.nr).mono (by norm_num)
    | sMul => exact (Nr.map_mul _ hs.nr).mono (by norm_num)
    | divS =>
      have q := (l1.div hs h).of_eq (s := 1 / M.val s) (by simp)
      exact (Nr.map_mul _ q.nr).mono (by norm_num)
    | sDiv =>
      exact (Nr.map_mul _ (hs.neg.div (h0.powN (by norm_num)) (pow_ne_zero 2 h)).nr).mono (by norm_num)

/-- The coefficients of the sparse methods. -/
theorem Fn.hasS (hu : u ≤ 1 / 10) (φ : Fn α) (x : α) (hd : (φ.map M.val).dom 2 (M.val x))
    (hs : φ.Steady M.val (M.val x)) :
    Has M 3 (φ.coefS x).1 ((φ.map M.val).coef (M.val x)).f ∧
      Has M 7 (φ.coefS x).2 ((φ.map M.val).coef (M.val x)).da := by
  have h := φ.hasU hu x hd hs
  refine ⟨?_, ?_⟩
  · have := h.f
    cases φ <;> exact this
  · have := h.da
    cases φ with
    | acos =>
      have l1 : Has M 0 (Arith.lit 1) (1 : ℤ) := Has.lit (by norm_num)
      have hx : Has M 0 x (M.val x) := Has.self x
      have ht : 0 < ((1 : ℤ) : ℝ) - M.val x * M.val x := by
        have hr : -1 < M.val x ∧ M.val x < 1 := hd
        simpa using one_sub_sq_pos hr
      have tmp := (hx.mul hx).one_sub hu (by norm_num) (mul_self_nonneg _)
        (by have : M.val x ^ 2 ≤ 1 / 2 := hs; nlinarith)
      refine ((l1.neg.div (tmp.sqrt ht.le) (Real.sqrt_pos.2 ht).ne').mono (by norm_num)).of_eq ?_
      have : -((1 : ℤ) : ℝ) = ((-1 : ℤ) : ℝ) := by norm_num
      rw [this]
      rfl
    | _ => exact this

/-- The error of one operation on sparse scalars. -/
theorem Op.snear (hu : u ≤ 1 / 10) {m : Nat} (o : Op α m) (p : Fin m → SVal α) (nm : String)
    (hs : o.Stable M.val fun v => M.val (p v).1) : SNear M o p nm (o.expr.evalV p) := by
  cases o with
  | neg =>
    refine snear_one (φ := fun y => -y) rfl
      (by simpa using d2At_affine 2 (-1) 0 (M.val (p 0).1)) ?_ ?_
    · exact (Has.self (p 0).1).neg.nr.mono (by norm_num)
    · exact ((Nr.map_neg _).mono (by norm_num)).of_eq (by simp [Expr.evalV]) (by simp [Expr.evalV])
  | abs =>
    have hne : M.val (p 0).1 ≠ 0 := hs
    refine snear_one (φ := fun y => |y|) rfl (d2At_abs 2 hne) ?_ ?_
    all_goals
      rcases lt_or_gt_of_ne hne with hneg | hpos
      · have hb : Cmp.ltB (p 0).1 (Arith.lit 0) = true := by rw [M.less, M.lit0]; exact hneg
        simp only [Op.expr, Expr.evalV, hb, if_true, if_pos hneg]
        first
        | exact ((Has.self (p 0).1).neg.nr.mono (by norm_num)).of_eq (abs_of_neg hneg).symm (by simp)
        | exact ((Nr.map_neg _).mono (by norm_num)).of_eq (by simp) (by simp)
      · have hb : Cmp.ltB (p 0).1 (Arith.lit 0) = false := by
          rw [Bool.eq_false_iff, Ne, M.less, M.lit0]; exact not_lt.2 (le_of_lt hpos)
        simp only [Op.expr, Expr.evalV, hb, Bool.false_eq_true, if_false,
          if_neg (not_lt.2 (le_of_lt hpos))]
        first
        | exact ((Has.self (p 0).1).nr.mono (by norm_num)).of_eq (abs_of_pos hpos).symm (by simp)
        | exact ((Nr.entry _).mono (by norm_num)).of_eq (by simp) (by simp)
  | fn φ =>
    have hφ := (φ.map M.val).real (o := 2) (Or.inr rfl) hs.1 (fun b hb => by
      cases φ <;> simp only [Fn.map, Fn.pow.injEq, reduceCtorEq] at hb
      exact hs.2.1)
    have hc := φ.hasS hu (p 0).1 hs.1 hs.2
    refine snear_one (φ := (φ.map M.val).den) rfl hφ.d2 ?_ ?_
    · rw [← hφ.f]
      exact hc.1.nr.mono (by norm_num)
    · exact (Nr.map_mul _ hc.2.nr).mono (by norm_num)
  | sbin o s => exact o.snear s p nm hs
  | bin o => exact o.snear p nm hs.1 hs.2
  | hypot3 =>
    have hx : Has M 0 (p 0).1 (M.val (p 0).1) := Has.self _
    have hy : Has M 0 (p 1).1 (M.val (p 1).1) := Has.self _
    have hz : Has M 0 (p 2).1 (M.val (p 2).1) := Has.self _
    have hj := hypot3_isJet 2 (isJet_var 2 (fun v => M.val (p v).1) (0 : Fin 3))
      (isJet_var 2 (fun v => M.val (p v).1) (1 : Fin 3))
      (isJet_var 2 (fun v => M.val (p v).1) (2 : Fin 3)) hs
    have h1 := hj.partials.1
    have eo : (Op.hypot3 : Op α 3).den M.val = fun w => √(w 0 ^ 2 + w 1 ^ 2 + w 2 ^ 2) := rfl
    have hr := (Real.sqrt_pos.mpr (sq3_pos hs)).ne'
    have f : Has M 1 _ _ := .close (M.hypot3 (p 0).1 (p 1).1 (p 2).1)
    refine ⟨f.nr.mono (by norm_num), ?_⟩
    rw [eo, h1]
    have key := ((Nr.map_mul ((p 0).2 nm) (hx.div f hr).nr).step (b := (p 1).2 nm)
      (hy.div f hr).nr).step (b := (p 2).2 nm) (hz.div f hr).nr
    simpa [Fin.sum_univ_three, hypot3Jet, Jet.comp3, varJet, Op.expr, Expr.evalV, SVal.tern] using
      key.mono (l := 16) (by norm_num)

end HJ
