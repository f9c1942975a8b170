import Verif.Proofs.Main
import Verif.Spec.RealMath

/-!
# Derivative coefficients over the reals (helper lemmas)

Inside the domain of a function its coefficients computed with extended reals are those computed with
reals, hence these are the derivatives.
-/

namespace HJ

open XReal (num)

/-- Coefficients computed with reals are the value and the derivatives. -/
structure RealAt (o : Nat) (φ : ℝ → ℝ) (x : ℝ) (u : DD.U ℝ) : Prop where
  f : u.f = φ x
  d2 : D2At o φ x u.da u.daa

theorem RealAt.of {o : Nat} {φ : ℝ → ℝ} {x d dd : ℝ} {u : DD.U ℝ} {w : DD.U XReal}
    (h : GoodAt o φ x w d dd) (hf : w.f = num u.f) (hda : w.da = num u.da)
    (hdaa : w.daa = num u.daa) : RealAt o φ x u := by
  have e1 : u.f = φ x := XReal.num_inj.1 (hf.symm.trans h.f)
  have e2 : u.da = d := XReal.num_inj.1 (hda.symm.trans h.da)
  refine ⟨e1, ?_⟩
  rw [e2]
  refine ⟨h.d2.1, fun ho => ?_⟩
  have e3 : u.daa = dd := XReal.num_inj.1 (hdaa.symm.trans (h.daa ho))
  rw [e3]
  exact h.d2.2 ho

theorem cbrt_num (x : ℝ) : CMath.cbrt (num x) = num (XReal.cbrtR x) := if_pos trivial
theorem sqrt_num {x : ℝ} (hx : 0 ≤ x) : CMath.sqrt (num x) = num √x := if_pos hx

/-- Inside its domain (at zero `pow` is left out) a function's coefficients over the reals are the
value and the derivatives. -/
theorem Fn.real {o : Nat} (ho : o = 1 ∨ o = 2) (φ : Fn ℝ) {x : ℝ} (h : φ.dom o x)
    (h0 : ∀ b, φ = .pow b → x ≠ 0) : RealAt o φ.den x (φ.coef x) := by
  obtain ⟨d, dd, hg⟩ := φ.good ho h
  obtain ⟨r1, r2, r3, r4, r5, r6⟩ : (∀ a b : ℝ, a +ₛ b = a + b) ∧ (∀ a b : ℝ, a -ₛ b = a - b) ∧
    (∀ a b : ℝ, a *ₛ b = a * b) ∧ (∀ a b : ℝ, a ÷ₛ b = a / b) ∧ (∀ a : ℝ, -ₛ a = -a) ∧
    ∀ z : Int, (Arith.lit z : ℝ) = z :=
    ⟨Exact.add, Exact.sub, Exact.mul, Exact.div, Exact.neg, Exact.lit⟩
  have r7 : ∀ (a : ℝ) k, Arith.powN a k = a ^ k := Exact.powN
  cases φ with
  | sqrt =>
    have hx : 0 < x := h
    have hs : √x ≠ 0 := (Real.sqrt_pos.mpr hx).ne'
    have hf := sqrt_num hx.le
    refine RealAt.of hg hf ?_ ?_
    · simp only [Fn.map, Fn.coef, DD.kSqrt, hf, XReal.lit_num, XReal.mul_num]
      rw [XReal.div_num (by simpa using hs)]; rfl
    · simp only [Fn.map, Fn.coef, DD.kSqrt, hf, XReal.lit_num, XReal.mul_num]
      rw [XReal.div_num (by simpa using hs), XReal.neg_num, XReal.div_num (by simpa using hx.ne')]; rfl
  | cbrt =>
    have hx : x ≠ 0 := h
    have hs := cbrtR_ne hx
    have hf := cbrt_num x
    refine RealAt.of hg hf ?_ ?_
    · simp only [Fn.map, Fn.coef, DD.kCbrt, hf, XReal.lit_num, XReal.mul_num]
      rw [XReal.div_num (by simpa using hs)]; rfl
    · simp only [Fn.map, Fn.coef, DD.kCbrt, hf, XReal.lit_num, XReal.mul_num]
      rw [XReal.div_num (by simpa using hs), XReal.neg_num, XReal.mul_num,
        XReal.div_num (by simpa using hx)]; rfl
  | reciprocal =>
    have hx : x ≠ 0 := h
    refine RealAt.of hg ?_ ?_ ?_ <;>
      (simp only [Fn.map, Fn.coef, DD.kReciprocal, XReal.lit_num, XReal.div_num hx, XReal.neg_num,
        XReal.mul_num]; rfl)
  | cos =>
    refine RealAt.of hg (if_pos trivial) ?_ ?_
    · simp [Fn.map, Fn.coef, DD.kCos, CMath.sin, XReal.lift, r5]
    · simp [Fn.map, Fn.coef, DD.kCos, CMath.cos, XReal.lift, r5]
  | sin =>
    refine RealAt.of hg (if_pos trivial) (if_pos trivial) ?_
    simp [Fn.map, Fn.coef, DD.kSin, CMath.sin, XReal.lift, r5]
  | tan =>
    have hf : CMath.tan (num x) = num (Real.tan x) := if_neg h
    refine RealAt.of hg hf ?_ ?_
    · simp only [Fn.map, Fn.coef, DD.kTan, hf, XReal.lit_num, XReal.mul_num, XReal.add_num]; rfl
    · simp only [Fn.map, Fn.coef, DD.kTan, hf, XReal.lit_num, XReal.mul_num, XReal.add_num]; rfl
  | acos =>
    have ht := one_sub_sq_pos h
    have hs := (Real.sqrt_pos.mpr ht).ne'
    have hq := sqrt_num ht.le
    refine RealAt.of hg (if_pos ⟨h.1.le, h.2.le⟩) ?_ ?_
    · simp only [Fn.map, Fn.coef, DD.kAcos, XReal.lit_num, XReal.mul_num, XReal.sub_num, Int.cast_one, hq]
      rw [XReal.div_num hs, r6, r6, Int.cast_one]; rfl
    · simp only [Fn.map, Fn.coef, DD.kAcos, XReal.lit_num, XReal.mul_num, XReal.sub_num, Int.cast_one, hq]
      rw [XReal.div_num hs, XReal.mul_num, XReal.div_num ht.ne', r6, r6, Int.cast_one]; rfl
  | asin =>
    have ht := one_sub_sq_pos h
    have hs := (Real.sqrt_pos.mpr ht).ne'
    have hq := sqrt_num ht.le
    refine RealAt.of hg (if_pos ⟨h.1.le, h.2.le⟩) ?_ ?_
    · simp only [Fn.map, Fn.coef, DD.kAsin, XReal.lit_num, XReal.mul_num, XReal.sub_num, Int.cast_one, hq]
      rw [XReal.div_num hs, r6, Int.cast_one]; rfl
    · simp only [Fn.map, Fn.coef, DD.kAsin, XReal.lit_num, XReal.mul_num, XReal.sub_num, Int.cast_one, hq]
      rw [XReal.div_num hs, XReal.mul_num, XReal.div_num ht.ne', r6, Int.cast_one]; rfl
  | atan =>
    have hp : x * x + 1 ≠ 0 := by nlinarith [mul_self_nonneg x]
    refine RealAt.of hg (if_pos trivial) ?_ ?_
    · simp only [Fn.map, Fn.coef, DD.kAtan, XReal.lit_num, XReal.mul_num, XReal.add_num, Int.cast_one]
      rw [XReal.div_num hp, r6, Int.cast_one]; rfl
    · simp only [Fn.map, Fn.coef, DD.kAtan, XReal.lit_num, XReal.mul_num, XReal.add_num, Int.cast_one]
      rw [XReal.div_num hp, XReal.neg_num, XReal.mul_num, XReal.mul_num, XReal.mul_num, r6, r6, Int.cast_one]; rfl
  | cosh => exact RealAt.of hg (if_pos trivial) (if_pos trivial) (if_pos trivial)
  | sinh => exact RealAt.of hg (if_pos trivial) (if_pos trivial) (if_pos trivial)
  | tanh =>
    have hf : CMath.tanh (num x) = num (Real.tanh x) := if_pos trivial
    refine RealAt.of hg hf ?_ ?_
    · simp only [Fn.map, Fn.coef, DD.kTanh, hf, XReal.lit_num, XReal.mul_num, XReal.sub_num]; rfl
    · simp only [Fn.map, Fn.coef, DD.kTanh, hf, XReal.lit_num, XReal.mul_num, XReal.sub_num]; rfl
  | acosh =>
    have hx : 1 < x := h
    have hm : 0 < x - 1 := by linarith
    have hp : 0 < x + 1 := by linarith
    have hq := sqrt_num hm.le
    have hq' := sqrt_num hp.le
    have hs := Real.sqrt_pos.mpr hm
    have hs' := Real.sqrt_pos.mpr hp
    refine RealAt.of hg (if_pos hx.le) ?_ ?_
    · simp only [Fn.map, Fn.coef, DD.kAcosh, XReal.lit_num, XReal.mul_num, XReal.sub_num, XReal.add_num,
        Int.cast_one, hq, hq']
      rw [XReal.div_num (by positivity), r6, Int.cast_one]; rfl
    · simp only [Fn.map, Fn.coef, DD.kAcosh, XReal.lit_num, XReal.mul_num, XReal.sub_num, XReal.add_num,
        Int.cast_one, hq, hq']
      rw [XReal.div_num (by positivity), XReal.neg_num, XReal.mul_num, XReal.div_num (by positivity), r6,
        Int.cast_one]; rfl
  | asinh =>
    have hp : 0 < 1 + x * x := by nlinarith [mul_self_nonneg x]
    have hs := Real.sqrt_pos.mpr hp
    have hq := sqrt_num hp.le
    refine RealAt.of hg (if_pos trivial) ?_ ?_
    · simp only [Fn.map, Fn.coef, DD.kAsinh, XReal.lit_num, XReal.mul_num, XReal.add_num, Int.cast_one, hq]
      rw [XReal.div_num hs.ne', r6, Int.cast_one]; rfl
    · simp only [Fn.map, Fn.coef, DD.kAsinh, XReal.lit_num, XReal.mul_num, XReal.add_num, Int.cast_one, hq]
      rw [XReal.div_num hs.ne', XReal.neg_num, XReal.mul_num, XReal.div_num hp.ne', r6, Int.cast_one]; rfl
  | atanh =>
    have ht := one_sub_sq_pos h
    have ht' : x * x - 1 ≠ 0 := by linarith
    refine RealAt.of hg (if_pos (abs_lt.mpr h)) ?_ ?_
    · simp only [Fn.map, Fn.coef, DD.kAtanh, XReal.lit_num, XReal.mul_num, XReal.sub_num, Int.cast_one]
      rw [XReal.div_num ht.ne', r6, Int.cast_one]; rfl
    · simp only [Fn.map, Fn.coef, DD.kAtanh, XReal.lit_num, XReal.mul_num, XReal.sub_num, Int.cast_one,
        XReal.powN_num]
      rw [XReal.div_num (by positivity), r6, r6, Int.cast_one]; rfl
  | exp => exact RealAt.of hg (if_pos trivial) (if_pos trivial) (if_pos trivial)
  | log =>
    have hx : 0 < x := h
    refine RealAt.of hg (if_pos hx) ?_ ?_ <;>
      (simp only [Fn.map, Fn.coef, DD.kLog, XReal.lit_num, XReal.div_num hx.ne', XReal.neg_num,
        XReal.mul_num]; rfl)
  | log2 =>
    have hx : 0 < x := h
    have hl : Real.log 2 ≠ 0 := Real.log_ne_zero_of_pos_of_ne_one (by norm_num) (by norm_num)
    have e2 : CMath.log (num 2) = num (Real.log 2) := if_pos (by norm_num)
    refine RealAt.of hg (if_pos hx) ?_ ?_
    · simp only [Fn.map, Fn.coef, DD.kLog2, XReal.lit_num, Int.cast_ofNat, e2, XReal.mul_num,
        XReal.div_num (mul_ne_zero hx.ne' hl), r6]; rfl
    · simp only [Fn.map, Fn.coef, DD.kLog2, XReal.lit_num, Int.cast_ofNat, e2, XReal.mul_num,
        XReal.div_num (mul_ne_zero hx.ne' hl), XReal.neg_num, XReal.div_num hx.ne', r6]; rfl
  | log10 =>
    have hx : 0 < x := h
    have hl : Real.log 10 ≠ 0 := Real.log_ne_zero_of_pos_of_ne_one (by norm_num) (by norm_num)
    have e2 : CMath.log (num 10) = num (Real.log 10) := if_pos (by norm_num)
    refine RealAt.of hg (if_pos hx) ?_ ?_
    · simp only [Fn.map, Fn.coef, DD.kLog10, XReal.lit_num, Int.cast_ofNat, e2, XReal.mul_num,
        XReal.div_num (mul_ne_zero hx.ne' hl), r6]; rfl
    · simp only [Fn.map, Fn.coef, DD.kLog10, XReal.lit_num, Int.cast_ofNat, e2, XReal.mul_num,
        XReal.div_num (mul_ne_zero hx.ne' hl), XReal.neg_num, XReal.div_num hx.ne', r6]; rfl
  | pow b =>
    have hx := h0 b rfl
    have hd : ∀ t : ℤ, powDom x (b - t) := by
      intro t
      rcases h with h | ⟨h, k, hk⟩ | ⟨h, -⟩
      · exact Or.inl h
      · exact Or.inr (Or.inl ⟨h, k - t, by rw [hk]; push_cast; ring⟩)
      · exact absurd h hx
    have d0 : powDom x b := by simpa using hd 0
    have d1 : powDom x (b - 1) := by simpa using hd 1
    have d2 : powDom x (b - 2) := by simpa using hd 2
    refine RealAt.of hg (pow_num d0) ?_ ?_
    · simp only [Fn.map, Fn.coef, DD.kPow, XReal.lit_num, XReal.sub_num, Int.cast_one, pow_num d1,
        XReal.mul_num, r6]; rfl
    · simp only [Fn.map, Fn.coef, DD.kPow, XReal.lit_num, XReal.sub_num, Int.cast_one, Int.cast_ofNat,
        pow_num d2, XReal.mul_num, r6]; rfl
  | logB b =>
    obtain ⟨hx, hb, hb1⟩ := h
    have hl : Real.log b ≠ 0 := Real.log_ne_zero_of_pos_of_ne_one hb hb1
    have e1 : CMath.log (num x) = num (Real.log x) := if_pos hx
    have e2 : CMath.log (num b) = num (Real.log b) := if_pos hb
    refine RealAt.of hg ?_ ?_ ?_
    · simp only [Fn.map, Fn.coef, DD.kLogB, e1, e2, XReal.div_num hl]; rfl
    · simp only [Fn.map, Fn.coef, DD.kLogB, e2, XReal.mul_num, XReal.lit_num,
        XReal.div_num (mul_ne_zero hx.ne' hl), r6]; rfl
    · simp only [Fn.map, Fn.coef, DD.kLogB, e2, XReal.mul_num, XReal.lit_num,
        XReal.div_num (mul_ne_zero hx.ne' hl), XReal.neg_num, XReal.div_num hx.ne', r6]; rfl

end HJ
