import Verif.Proofs.Fns

/-!
# The unary functions outside their domain (helper lemmas)
-/

namespace HJ

open XReal

/-- Some coefficient is NaN or not finite. -/
def BadU (o : Nat) (u : DD.U XReal) : Prop := u.f = nan ∨ ¬ u.da.Fin ∨ (o = 2 ∧ ¬ u.daa.Fin)

theorem not_fin_one_div_zero : ¬ (num 1 ÷ₛ num 0).Fin := not_fin_div_zero _

theorem Fn.singular {o : Nat} (ho : o = 1 ∨ o = 2) (φ : Fn ℝ) {x : ℝ} (h : ¬ φ.dom o x)
    (hb : φ ≠ .logB 0) : BadU o ((φ.map num).coef (num x)) := by
  have hlg : ∀ f, ¬ 0 < x → (lg f (num x) = nan ∨ x = 0) := by
    intro f hx
    by_cases h0 : x = 0
    · exact Or.inr h0
    · left; simp [lg, hx, h0]
  cases φ with
  | sqrt =>
    by_cases h0 : x = 0
    · right; left
      subst h0
      have hf : CMath.sqrt (num 0) = num 0 := by
        show XReal.lift _ _ _ _ _ = _
        simp [XReal.lift]
      simp only [Fn.map, Fn.coef, DD.kSqrt, hf, lit_num, mul_num, mul_zero]
      exact not_fin_div_zero _
    · left
      have : ¬ 0 ≤ x := fun hx => h (lt_of_le_of_ne hx (Ne.symm h0))
      exact if_neg this
  | cbrt =>
    have h0 : x = 0 := not_not.mp h
    right; left
    subst h0
    have hf : CMath.cbrt (num 0) = num 0 := by
      show XReal.lift _ _ _ _ _ = _
      simp [XReal.lift, cbrtR]
    simp only [Fn.map, Fn.coef, DD.kCbrt, hf, lit_num, mul_num, mul_zero]
    exact not_fin_div_zero _
  | reciprocal =>
    have h0 : x = 0 := not_not.mp h
    subst h0
    right; left
    intro hf
    exact not_fin_div_zero _ (fin_mul hf).2
  | cos => exact absurd trivial h
  | sin => exact absurd trivial h
  | tan =>
    have h0 : Real.cos x = 0 := not_not.mp h
    have hf : CMath.tan (num x) = inf false := if_pos h0
    right; left
    simp only [Fn.map, Fn.coef, DD.kTan, hf]
    intro hf
    exact (fin_mul (fin_add hf).1).1
  | acos =>
    by_cases h0 : -1 ≤ x ∧ x ≤ 1
    · right; left
      have : x = -1 ∨ x = 1 := by
        by_contra hc
        push Not at hc
        exact h ⟨lt_of_le_of_ne h0.1 (Ne.symm hc.1), lt_of_le_of_ne h0.2 hc.2⟩
      have hx : 1 - x * x = 0 := by rcases this with rfl | rfl <;> norm_num
      have hq : CMath.sqrt (num 0) = num 0 := by
        show XReal.lift _ _ _ _ _ = _
        simp [XReal.lift]
      simp only [Fn.map, Fn.coef, DD.kAcos, lit_num, mul_num, sub_num, Int.cast_one, hx, hq]
      exact not_fin_div_zero _
    · left; exact if_neg h0
  | asin =>
    by_cases h0 : -1 ≤ x ∧ x ≤ 1
    · right; left
      have : x = -1 ∨ x = 1 := by
        by_contra hc
        push Not at hc
        exact h ⟨lt_of_le_of_ne h0.1 (Ne.symm hc.1), lt_of_le_of_ne h0.2 hc.2⟩
      have hx : 1 - x * x = 0 := by rcases this with rfl | rfl <;> norm_num
      have hq : CMath.sqrt (num 0) = num 0 := by
        show XReal.lift _ _ _ _ _ = _
        simp [XReal.lift]
      simp only [Fn.map, Fn.coef, DD.kAsin, lit_num, mul_num, sub_num, Int.cast_one, hx, hq]
      exact not_fin_div_zero _
    · left; exact if_neg h0
  | atan => exact absurd trivial h
  | cosh => exact absurd trivial h
  | sinh => exact absurd trivial h
  | tanh => exact absurd trivial h
  | acosh =>
    by_cases h0 : 1 ≤ x
    · right; left
      have hx : x = 1 := le_antisymm (not_lt.mp h) h0
      subst hx
      have hq : CMath.sqrt (num 0) = num 0 := by
        show XReal.lift _ _ _ _ _ = _
        simp [XReal.lift]
      have hq2 : CMath.sqrt (num (1 + 1)) = num √(1 + 1) := if_pos (by norm_num)
      simp only [Fn.map, Fn.coef, DD.kAcosh, lit_num, mul_num, sub_num, add_num, Int.cast_one,
        sub_self, hq, hq2, zero_mul]
      exact not_fin_div_zero _
    · left; exact if_neg h0
  | asinh => exact absurd trivial h
  | atanh =>
    have h0 : ¬ |x| < 1 := fun hc => h (abs_lt.mp hc)
    by_cases h1 : x = 1 ∨ x = -1
    · right; left
      have hx : 1 - x * x = 0 := by rcases h1 with rfl | rfl <;> norm_num
      simp only [Fn.map, Fn.coef, DD.kAtanh, lit_num, mul_num, sub_num, Int.cast_one, hx]
      exact not_fin_div_zero _
    · left
      push Not at h1
      show XReal.atanh (num x) = nan
      simp [XReal.atanh, h0, h1.1, h1.2]
  | exp => exact absurd trivial h
  | log =>
    rcases hlg Real.log h with h1 | h1
    · exact Or.inl h1
    · subst h1; right; left; exact not_fin_div_zero _
  | log2 =>
    rcases hlg (Real.logb 2) h with h1 | h1
    · exact Or.inl h1
    · subst h1; right; left
      have e2 : CMath.log (num 2) = num (Real.log 2) := if_pos (by norm_num)
      simp only [Fn.map, Fn.coef, DD.kLog2, lit_num, Int.cast_ofNat, e2, mul_num, zero_mul]
      exact not_fin_div_zero _
  | log10 =>
    rcases hlg (Real.logb 10) h with h1 | h1
    · exact Or.inl h1
    · subst h1; right; left
      have e2 : CMath.log (num 10) = num (Real.log 10) := if_pos (by norm_num)
      simp only [Fn.map, Fn.coef, DD.kLog10, lit_num, Int.cast_ofNat, e2, mul_num, zero_mul]
      exact not_fin_div_zero _
  | pow b =>
    by_cases d1 : powDom x (b - 1)
    · by_cases d2 : powDom x (b - 2)
      · exfalso
        apply h
        rcases d2 with hx | ⟨hx, k, hk⟩ | ⟨hx, h0⟩
        · exact Or.inl hx
        · exact Or.inr (Or.inl ⟨hx, k + 2, by push_cast; linarith⟩)
        · refine Or.inr (Or.inr ⟨hx, ?_⟩)
          rcases ho with rfl | rfl
          · push_cast; linarith
          · push_cast; linarith
      · rcases ho with ho | ho
        · exfalso
          apply h
          rcases d1 with hx | ⟨hx, k, hk⟩ | ⟨hx, h0⟩
          · exact Or.inl hx
          · exact Or.inr (Or.inl ⟨hx, k + 1, by push_cast; linarith⟩)
          · refine Or.inr (Or.inr ⟨hx, ?_⟩)
            rw [ho]; push_cast; linarith
        · right; right
          refine ⟨ho, fun hf => ?_⟩
          have := (fin_mul hf).2
          rw [lit_num, sub_num] at this
          exact pow_not_fin d2 (by simpa using this)
    · right; left
      intro hf
      have := (fin_mul hf).2
      rw [lit_num, sub_num] at this
      exact pow_not_fin d1 (by simpa using this)
  | logB b =>
    have hb0 : b ≠ 0 := fun e => hb (by rw [e])
    have key : ¬ (0 < x ∧ 0 < b ∧ b ≠ 1) := h
    by_cases hbp : 0 < b
    · have e2 : CMath.log (num b) = num (Real.log b) := if_pos hbp
      by_cases hx : 0 < x
      · have h1 : b = 1 := by
          by_contra hb1
          exact key ⟨hx, hbp, hb1⟩
        subst h1
        right; left
        simp only [Fn.map, Fn.coef, DD.kLogB, lit_num, e2, mul_num, Real.log_one, mul_zero]
        exact not_fin_div_zero _
      · rcases hlg Real.log hx with h1 | h1
        · left
          have e1 : CMath.log (num x) = nan := h1
          simp only [Fn.map, Fn.coef, DD.kLogB, e1, nan_div]
        · subst h1
          right; left
          simp only [Fn.map, Fn.coef, DD.kLogB, lit_num, e2, mul_num, zero_mul]
          exact not_fin_div_zero _
    · have e2 : CMath.log (num b) = nan := by
        show lg _ _ = _
        simp [lg, hbp, hb0]
      left
      simp only [Fn.map, Fn.coef, DD.kLogB, e2, div_nan]

/-- NaN arguments give NaN results (for `pow`: a NaN derivative at least). -/
theorem Fn.nan {o : Nat} (φ : Fn ℝ) : BadU o ((φ.map num).coef nan) := by
  cases φ with
  | pow b =>
    by_cases hb : b = 0
    · right; left
      intro hf
      have h := (fin_mul hf).2
      rw [lit_num, sub_num] at h
      change (if b - ((1 : ℤ) : ℝ) = 0 then num 1 else XReal.nan).Fin at h
      rw [if_neg (by rw [hb]; norm_num)] at h
      exact h
    · left
      exact if_neg hb
  | reciprocal => left; simp [Fn.map, Fn.coef, DD.kReciprocal]
  | logB b =>
    left
    show lg _ XReal.nan ÷ₛ _ = _
    simp
  | _ => left; rfl

end HJ
