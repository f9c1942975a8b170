import Verif.Spec.Round
import Mathlib.Algebra.Order.Round
import Mathlib.Data.Int.Log
import Mathlib.Data.Rat.Floor
import Mathlib.Tactic.Linarith
import Mathlib.Tactic.Positivity
import Mathlib.Tactic.Ring
import Mathlib.Tactic.FieldSimp

/-!
# Rounding to nearest (helper lemmas)
-/

namespace HJ

theorem Nearest.exact {rnd : ℚ → ℚ} (h : Nearest rnd) {q : ℚ} (hq : IsF53 q) : rnd q = q := by
  have := h.near q q hq
  rw [sub_self, abs_zero] at this
  have := abs_eq_zero.1 (le_antisymm this (abs_nonneg _))
  linarith

theorem Nearest.eq_of {rnd : ℚ → ℚ} (h : Nearest rnd) {q : ℚ} (m0 E : ℤ) (hm : |m0| < 2 ^ 53)
    (hd : |q - m0 * (2 : ℚ) ^ E| < (2 : ℚ) ^ E / 2) (hq : 2 ^ 52 * (2 : ℚ) ^ E ≤ q - (2 : ℚ) ^ E / 2) :
    rnd q = m0 * (2 : ℚ) ^ E := by
  obtain ⟨m, e, hm', hy⟩ := h.repr q
  have hn := h.near q _ ⟨m0, E, hm, rfl⟩
  have hE : (0 : ℚ) < 2 ^ E := zpow_pos (by norm_num) _
  rw [hy] at hn ⊢
  by_cases he : E ≤ e
  · obtain ⟨k, hk⟩ : ∃ k : ℤ, (m : ℚ) * 2 ^ e = k * 2 ^ E := by
      refine ⟨m * 2 ^ (e - E).toNat, ?_⟩
      have : (2 : ℚ) ^ e = 2 ^ (e - E).toNat * 2 ^ E := by
        rw [← zpow_natCast, ← zpow_add₀ (by norm_num), Int.toNat_of_nonneg (by omega)]
        congr 1; omega
      rw [this]; push_cast; ring
    rw [hk] at hn ⊢
    have h1 : |((k - m0 : ℤ) : ℚ)| * 2 ^ E < 2 ^ E := by
      have : ((k - m0 : ℤ) : ℚ) * 2 ^ E = (q - m0 * 2 ^ E) - (q - k * 2 ^ E) := by push_cast; ring
      calc |((k - m0 : ℤ) : ℚ)| * 2 ^ E = |((k - m0 : ℤ) : ℚ) * 2 ^ E| := by
            rw [abs_mul, abs_of_pos hE]
        _ ≤ |q - m0 * 2 ^ E| + |q - k * 2 ^ E| := by rw [this]; exact abs_sub _ _
        _ < 2 ^ E := by linarith
    have h2 : |((k - m0 : ℤ) : ℚ)| < 1 := by
      by_contra hc
      push Not at hc
      nlinarith
    have h3 : |k - m0| < 1 := by exact_mod_cast h2
    have h4 : k - m0 = 0 := Int.abs_lt_one_iff.1 h3
    rw [show k = m0 by omega]
  · exfalso
    have hle : (2 : ℚ) ^ e ≤ 2 ^ E / 2 := by
      have : (2 : ℚ) ^ e ≤ 2 ^ (E - 1) := zpow_le_zpow_right₀ (by norm_num) (by omega)
      rwa [zpow_sub₀ (by norm_num), zpow_one] at this
    have hm2 : |(m : ℚ)| < 2 ^ 53 := by exact_mod_cast hm'
    have hpe : (0 : ℚ) < 2 ^ e := zpow_pos (by norm_num) _
    have h1 : (m : ℚ) * 2 ^ e ≤ 2 ^ 53 * (2 ^ E / 2) := by
      calc (m : ℚ) * 2 ^ e ≤ |(m : ℚ)| * 2 ^ e := by
            exact mul_le_mul_of_nonneg_right (le_abs_self _) hpe.le
        _ ≤ 2 ^ 53 * 2 ^ e := mul_le_mul_of_nonneg_right hm2.le hpe.le
        _ ≤ 2 ^ 53 * (2 ^ E / 2) := mul_le_mul_of_nonneg_left hle (by norm_num)
    have h2 : q - m * 2 ^ e < 2 ^ E / 2 := lt_of_le_of_lt (le_trans (le_abs_self _) hn) hd
    have h3 : (2 : ℚ) ^ 53 * (2 ^ E / 2) = 2 ^ 52 * 2 ^ E := by ring
    linarith

/-- A rounding to nearest. -/
def nearest (q : ℚ) : ℚ :=
  if q = 0 then 0 else round (q / 2 ^ (Int.log 2 |q| - 52)) * (2 : ℚ) ^ (Int.log 2 |q| - 52)

theorem nearest_spec : Nearest nearest where
  repr q := by
    unfold nearest
    split
    · exact ⟨0, 0, by norm_num, by simp⟩
    · rename_i hq
      have hpos : 0 < |q| := abs_pos.2 hq
      set E := Int.log 2 |q| - 52 with hE
      have hlt : |q| < 2 ^ 53 * (2 : ℚ) ^ E := by
        have := Int.lt_zpow_succ_log_self (b := 2) (by norm_num) |q|
        have e : (2 : ℚ) ^ 53 * 2 ^ E = 2 ^ (Int.log 2 |q| + 1) := by
          rw [← zpow_natCast, ← zpow_add₀ (by norm_num)]; congr 1; push_cast; omega
        rw [e]; exact_mod_cast this
      have hP : (0 : ℚ) < 2 ^ E := zpow_pos (by norm_num) _
      have hx : |q / 2 ^ E| < 2 ^ 53 := by
        rw [abs_div, abs_of_pos hP, div_lt_iff₀ hP]; exact hlt
      have hr : |round (q / 2 ^ E)| ≤ 2 ^ 53 := by
        have hc := abs_lt.1 hx
        have h1 := abs_le.1 (round_le (q / 2 ^ E) (2 ^ 53))
        have h2 := abs_le.1 (round_le (q / 2 ^ E) (-2 ^ 53))
        push_cast at h1 h2
        have e1 : |q / 2 ^ E - 2 ^ 53| = 2 ^ 53 - q / 2 ^ E := by
          rw [abs_of_neg (by linarith)]; ring
        have e2 : |q / 2 ^ E - -2 ^ 53| = q / 2 ^ E + 2 ^ 53 := by
          rw [abs_of_pos (by linarith)]; ring
        norm_num only at e1 e2 h1 h2 hc
        rw [e1] at h1
        rw [e2] at h2
        refine abs_le.2 ⟨?_, ?_⟩
        · have : (-2 ^ 53 : ℚ) ≤ (round (q / 2 ^ E) : ℤ) := by linarith
          exact_mod_cast this
        · have : ((round (q / 2 ^ E) : ℤ) : ℚ) ≤ 2 ^ 53 := by linarith
          exact_mod_cast this
      rcases lt_or_eq_of_le hr with h | h
      · exact ⟨_, _, h, rfl⟩
      · rcases (abs_eq (by norm_num)).1 h with h | h
        · refine ⟨2 ^ 52, E + 1, by norm_num, ?_⟩
          rw [h, zpow_add₀ (by norm_num)]; norm_num; ring
        · refine ⟨-2 ^ 52, E + 1, by norm_num, ?_⟩
          rw [h, zpow_add₀ (by norm_num)]; norm_num; ring
  near q y hy := by
    unfold nearest
    split
    · rename_i hq; rw [hq]; simp
    · rename_i hq
      have hpos : 0 < |q| := abs_pos.2 hq
      set E := Int.log 2 |q| - 52 with hE
      have hP : (0 : ℚ) < 2 ^ E := zpow_pos (by norm_num) _
      have hle : 2 ^ 52 * (2 : ℚ) ^ E ≤ |q| := by
        have := Int.zpow_log_le_self (b := 2) (by norm_num) hpos
        have e : (2 : ℚ) ^ 52 * 2 ^ E = 2 ^ (Int.log 2 |q|) := by
          rw [← zpow_natCast, ← zpow_add₀ (by norm_num)]; congr 1; push_cast; omega
        rw [e]; exact_mod_cast this
      have grid : ∀ k : ℤ, |q - round (q / 2 ^ E) * 2 ^ E| ≤ |q - k * 2 ^ E| := by
        intro k
        have h := round_le (q / 2 ^ E) k
        have e : ∀ z : ℤ, |q - z * 2 ^ E| = |q / 2 ^ E - z| * 2 ^ E := by
          intro z
          rw [← abs_of_pos hP, ← abs_mul, abs_of_pos hP]
          congr 1; field_simp
        rw [e, e]
        exact mul_le_mul_of_nonneg_right h hP.le
      obtain ⟨m, e, hm, rfl⟩ := hy
      by_cases he : E ≤ e
      · have : (m : ℚ) * 2 ^ e = (m * 2 ^ (e - E).toNat : ℤ) * 2 ^ E := by
          have : (2 : ℚ) ^ e = 2 ^ (e - E).toNat * 2 ^ E := by
            rw [← zpow_natCast, ← zpow_add₀ (by norm_num), Int.toNat_of_nonneg (by omega)]
            congr 1; omega
          rw [this]; push_cast; ring
        rw [this]
        exact grid _
      · have hle2 : (2 : ℚ) ^ e ≤ 2 ^ E / 2 := by
          have : (2 : ℚ) ^ e ≤ 2 ^ (E - 1) := zpow_le_zpow_right₀ (by norm_num) (by omega)
          rwa [zpow_sub₀ (by norm_num), zpow_one] at this
        have hm2 : |(m : ℚ)| < 2 ^ 53 := by exact_mod_cast hm
        have hpe : (0 : ℚ) < 2 ^ e := zpow_pos (by norm_num) _
        have hy : |(m : ℚ) * 2 ^ e| ≤ 2 ^ 52 * 2 ^ E := by
          rw [abs_mul, abs_of_pos hpe]
          calc |(m : ℚ)| * 2 ^ e ≤ 2 ^ 53 * 2 ^ e := mul_le_mul_of_nonneg_right hm2.le hpe.le
            _ ≤ 2 ^ 53 * (2 ^ E / 2) := mul_le_mul_of_nonneg_left hle2 (by norm_num)
            _ = 2 ^ 52 * 2 ^ E := by ring
        have hy' := abs_le.1 hy
        rcases lt_or_gt_of_ne hq with hneg | hpo
        · refine le_trans (grid (-2 ^ 52)) ?_
          rw [abs_of_neg hneg] at hle
          push_cast
          rw [abs_of_nonpos (by linarith), abs_of_nonpos (by linarith)]
          linarith
        · refine le_trans (grid (2 ^ 52)) ?_
          rw [abs_of_pos hpo] at hle
          push_cast
          rw [abs_of_nonneg (by linarith), abs_of_nonneg (by linarith)]
          linarith

theorem round_recip49 {rnd : ℚ → ℚ} (h : Nearest rnd) :
    rnd (1 / 49) = 5882252574524729 * (2 : ℚ) ^ (-58 : ℤ) := by
  have := h.eq_of (q := 1 / 49) 5882252574524729 (-58) (by norm_num)
    (by rw [abs_lt]; norm_num) (by norm_num)
  rw [this]; norm_num

theorem round_prod49 {rnd : ℚ → ℚ} (h : Nearest rnd) :
    rnd (49 * rnd (1 / 49)) = 1 - 1 / 2 ^ 53 := by
  have := h.eq_of (q := 49 * rnd (1 / 49)) (2 ^ 53 - 1) (-53) (by norm_num)
    (by rw [round_recip49 h, abs_lt]; norm_num) (by rw [round_recip49 h]; norm_num)
  rw [this]; norm_num

theorem round_one {rnd : ℚ → ℚ} (h : Nearest rnd) : rnd 1 = 1 :=
  h.exact ⟨1, 0, by norm_num, by norm_num⟩

end HJ
