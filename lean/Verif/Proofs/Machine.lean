import Verif.Spec.Machine
import Mathlib.Algebra.Order.Round
import Mathlib.Data.Int.Log
import Mathlib.Data.Rat.Floor
import Mathlib.Tactic.Linarith
import Mathlib.Tactic.Positivity
import Mathlib.Tactic.Ring
import Mathlib.Tactic.FieldSimp
import Mathlib.Tactic.Push

/-!
# Machine integers and double square roots (helper lemmas)
-/

namespace HJ

theorem i64_ok {z : Int} (h1 : -2 ^ 63 ≤ z) (h2 : z < 2 ^ 63) : i64 z = some z :=
  if_pos ⟨h1, h2⟩

theorem i64_none {z : Int} (h : 2 ^ 63 ≤ z) : i64 z = none := if_neg (by omega)

theorem isF53_of_int {z : Int} (hz : |z| < 2 ^ 53) : IsF53 z := ⟨z, 0, hz, by simp⟩

theorem isF53_pow (k : Nat) : IsF53 (2 ^ k) := ⟨1, k, by norm_num, by simp⟩

theorem IsNearest.exact {x q : ℚ} (h : IsNearest (x : ℝ) q) (hx : IsF53 x) : q = x := by
  have := h.2 x hx
  rw [sub_self, abs_zero] at this
  have := abs_eq_zero.1 (le_antisymm this (abs_nonneg _))
  have h2 : ((x : ℚ) : ℝ) = q := by linarith
  exact_mod_cast h2.symm

theorem IsNearest.le {x : ℝ} {q b : ℚ} (h : IsNearest x q) (hb : IsF53 b) (hx : x ≤ b) : q ≤ b := by
  by_contra hc
  push Not at hc
  have hc' : (b : ℝ) < q := by exact_mod_cast hc
  have := h.2 b hb
  rw [abs_of_nonpos (by linarith), abs_of_nonpos (by linarith)] at this
  linarith

theorem IsNearest.ge {x : ℝ} {q b : ℚ} (h : IsNearest x q) (hb : IsF53 b) (hx : b ≤ x) : b ≤ q := by
  by_contra hc
  push Not at hc
  have hc' : (q : ℝ) < b := by exact_mod_cast hc
  have := h.2 b hb
  rw [abs_of_nonneg (by linarith), abs_of_nonneg (by linarith)] at this
  linarith

/-- A number with 53 bits above `2^e` is a multiple of `2^(e-52)`. -/
theorem grid_of_gt {q : ℚ} (h : IsF53 q) {e : ℤ} (hq : (2 : ℚ) ^ e ≤ q) :
    ∃ k : ℤ, q = k * 2 ^ (e - 52) := by
  obtain ⟨m, b, hm, rfl⟩ := h
  have hP : (0 : ℚ) < 2 ^ b := zpow_pos (by norm_num) _
  have hb : e - 52 ≤ b := by
    by_contra hc
    have h1 : (2 : ℚ) ^ b ≤ 2 ^ (e - 53) := zpow_le_zpow_right₀ (by norm_num) (by omega)
    have h2 : (m : ℚ) < 2 ^ 53 := by exact_mod_cast (abs_lt.1 hm).2
    have h3 : (m : ℚ) * 2 ^ b < 2 ^ 53 * 2 ^ b := mul_lt_mul_of_pos_right h2 hP
    have h4 : (2 : ℚ) ^ 53 * 2 ^ (e - 53) = 2 ^ e := by
      rw [← zpow_natCast, ← zpow_add₀ (by norm_num)]; congr 1; push_cast; omega
    nlinarith
  refine ⟨m * 2 ^ (b - (e - 52)).toNat, ?_⟩
  have : (2 : ℚ) ^ b = 2 ^ (b - (e - 52)).toNat * 2 ^ (e - 52) := by
    rw [← zpow_natCast, ← zpow_add₀ (by norm_num), Int.toNat_of_nonneg (by omega)]
    congr 1; omega
  rw [this]; push_cast; ring

/-- Rounding a natural number to 53 bits: absolute error. -/
theorem IsNearest.err {z : ℕ} {q : ℚ} (h : IsNearest (z : ℝ) q) {E : ℕ} (hE : z < 2 ^ (E + 1)) :
    |(z : ℝ) - q| ≤ 2 ^ E / 2 ^ 53 := by
  by_cases hs : E < 53
  · have hz : IsF53 (z : ℤ) := by
      apply isF53_of_int
      have : z < 2 ^ 53 := lt_of_lt_of_le hE (Nat.pow_le_pow_right (by norm_num) (by omega))
      rw [abs_of_nonneg (by positivity)]
      exact_mod_cast this
    have := h.2 _ hz
    simp only [Int.cast_natCast, Rat.cast_natCast, sub_self, abs_zero] at this
    exact this.trans (by positivity)
  · obtain ⟨d, rfl⟩ : ∃ d, E = 53 + d := ⟨E - 53, by omega⟩
    -- multiples of `2^(d+1)` below and above
    have key : ∀ k : ℕ, k ≤ 2 ^ 53 → IsF53 ((k * 2 ^ (d + 1) : ℕ) : ℚ) := by
      intro k hk
      rcases lt_or_eq_of_le hk with hk | rfl
      · refine ⟨k, (d + 1 : ℕ), ?_, by push_cast; rw [← zpow_natCast]; norm_cast⟩
        rw [abs_of_nonneg (by positivity)]
        exact_mod_cast hk
      · refine ⟨1, (54 + d : ℕ), by norm_num, ?_⟩
        rw [zpow_natCast]; push_cast; ring
    set P := 2 ^ (d + 1) with hP
    have hPpos : 0 < P := by positivity
    have hk : z / P < 2 ^ 53 := by
      rw [Nat.div_lt_iff_lt_mul hPpos, hP, ← pow_add]
      exact lt_of_lt_of_le hE (Nat.pow_le_pow_right (by norm_num) (by omega))
    have h1 := h.2 _ (key (z / P) hk.le)
    have h2 := h.2 _ (key (z / P + 1) hk)
    have hz : (z : ℝ) = P * (z / P : ℕ) + (z % P : ℕ) := by exact_mod_cast (Nat.div_add_mod z P).symm
    have hr : ((z % P : ℕ) : ℝ) ≤ P := by exact_mod_cast (Nat.mod_lt z hPpos).le
    have hr0 : (0 : ℝ) ≤ (z % P : ℕ) := by positivity
    have hE2 : (2 : ℝ) ^ (53 + d) / 2 ^ 53 = P / 2 := by
      rw [hP]; push_cast; rw [pow_add, pow_succ]; field_simp; ring
    rw [hE2]
    push_cast at h1 h2
    rw [show |(z : ℝ) - ((z / P : ℕ) : ℝ) * P| = (z % P : ℕ) by
      rw [hz, show ∀ a b : ℝ, a * b + ((z % P : ℕ) : ℝ) - b * a = ((z % P : ℕ) : ℝ) by intros; ring]
      exact abs_of_nonneg hr0] at h1
    rw [show |(z : ℝ) - (((z / P : ℕ) : ℝ) + 1) * P| = P - (z % P : ℕ) by
      rw [hz, show ∀ a b : ℝ, a * b + ((z % P : ℕ) : ℝ) - (b + 1) * a = -(a - ((z % P : ℕ) : ℝ)) by
        intros; ring, abs_neg]
      exact abs_of_nonneg (by linarith)] at h2
    linarith

/-- The correctly rounded square root of the rounded square of an odd number. -/
theorem sqrt_square {m : ℕ} (hodd : m % 2 = 1) (hm : m < 2 ^ 52) {y r : ℚ}
    (hy : IsNearest ((m * m : ℕ) : ℝ) y) (hr : IsNearest (Real.sqrt y) r) : r = m := by
  rcases Nat.lt_or_ge m 2 with h2 | h2
  · have : m = 1 := by omega
    subst this
    have h1 : IsF53 1 := ⟨1, 0, by norm_num, by simp⟩
    have hy1 : y = 1 := by
      apply IsNearest.exact (x := 1) _ h1
      simpa using hy
    subst hy1
    rw [show Real.sqrt ((1 : ℚ) : ℝ) = ((1 : ℚ) : ℝ) by simp] at hr
    simpa using hr.exact h1
  · -- `2^e < m < 2^(e+1)`
    obtain ⟨e, he1, he2⟩ : ∃ e, 2 ^ e < m ∧ m < 2 ^ (e + 1) := by
      refine ⟨Nat.log 2 m, lt_of_le_of_ne (Nat.pow_log_le_self 2 (by omega)) fun h => ?_,
        Nat.lt_pow_succ_log_self (by norm_num) m⟩
      have hl : Nat.log 2 m ≠ 0 := by
        have := Nat.log_pos (b := 2) (by norm_num) h2
        omega
      obtain ⟨l, hl⟩ := Nat.exists_eq_succ_of_ne_zero hl
      rw [hl, pow_succ] at h
      omega
    have he : e < 52 := by
      by_contra hc
      have : 2 ^ 52 ≤ 2 ^ e := Nat.pow_le_pow_right (by norm_num) (by omega)
      omega
    set P : ℝ := 2 ^ e with hPdef
    have hP1 : 1 ≤ P := one_le_pow₀ (by norm_num)
    have hmP : P + 1 ≤ m := by
      have : 2 ^ e + 1 ≤ m := he1
      rw [hPdef]; exact_mod_cast this
    have hmP2 : (m : ℝ) + 1 ≤ 2 * P := by
      have : m + 1 ≤ 2 ^ (e + 1) := he2
      have h : ((m + 1 : ℕ) : ℝ) ≤ ((2 ^ (e + 1) : ℕ) : ℝ) := by exact_mod_cast this
      push_cast at h
      rw [pow_succ] at h
      rw [hPdef]; linarith
    have hP53 : P * 2 ≤ 2 ^ 53 := by
      rw [hPdef, ← pow_succ]; exact pow_le_pow_right₀ (by norm_num) (by omega)
    -- error of the square
    have hsq : m * m < 2 ^ (2 * e + 1 + 1) := by
      calc m * m < 2 ^ (e + 1) * 2 ^ (e + 1) := Nat.mul_lt_mul'' he2 he2
        _ = 2 ^ (2 * e + 1 + 1) := by rw [← pow_add]; congr 1; omega
    have hmm : IsF53 m := by
      have := isF53_of_int (z := m) (by rw [abs_of_nonneg (by positivity)]; exact_mod_cast (by omega : m < 2 ^ 53))
      simpa using this
    have herr : |((m : ℝ) * m) - y| ≤ 2 * P * P / 2 ^ 53 ∧ (|((m : ℝ) * m) - y| ≤ P * P / 2 ^ 53 ∨ 2 * P * P ≤ (m : ℝ) * m) := by
      have h1 := hy.err hsq
      refine ⟨?_, ?_⟩
      · refine (le_of_eq ?_).trans (h1.trans (le_of_eq ?_))
        · push_cast; rfl
        · rw [hPdef]; ring
      · rcases Nat.lt_or_ge (m * m) (2 ^ (2 * e + 1)) with hlt | hge
        · left
          have h2 := hy.err hlt
          refine (le_of_eq ?_).trans (h2.trans (le_of_eq ?_))
          · push_cast; rfl
          · rw [hPdef]; ring
        · right
          have : ((2 ^ (2 * e + 1) : ℕ) : ℝ) ≤ ((m * m : ℕ) : ℝ) := by exact_mod_cast hge
          push_cast at this
          refine (le_of_eq ?_).trans this
          rw [hPdef]; ring
    have hy0 : (0 : ℝ) ≤ y := by
      have := hy.ge (b := 0) ⟨0, 0, by norm_num, by simp⟩ (by simp; positivity)
      exact_mod_cast this
    set s := Real.sqrt (y : ℝ) with hs
    have hss : s * s = y := Real.mul_self_sqrt hy0
    have hs0 : 0 ≤ s := Real.sqrt_nonneg _
    have hsP : P ≤ s := by
      have := hy.ge (b := 2 ^ (2 * e)) (isF53_pow _) (by
        push_cast
        have : (2 : ℝ) ^ (2 * e) = P * P := by rw [hPdef]; ring
        rw [this]; nlinarith)
      have h : ((2 ^ (2 * e) : ℚ) : ℝ) ≤ y := by exact_mod_cast this
      push_cast at h
      have h' : (2 : ℝ) ^ (2 * e) = P * P := by rw [hPdef]; ring
      rw [h', ← hss] at h
      by_contra hc
      push Not at hc
      nlinarith
    -- the root is close to `m`
    have hclose : |s - m| < P / 2 ^ 53 := by
      have hfac : (m : ℝ) * m - y = (m - s) * (m + s) := by rw [← hss]; ring
      have habs : |s - m| * (m + s) = |(m : ℝ) * m - y| := by
        rw [hfac, abs_mul, abs_sub_comm s, abs_of_nonneg (a := (m : ℝ) + s) (by linarith)]
      have hpos : (0 : ℝ) < m + s := by linarith
      by_contra hc
      push Not at hc
      have hge : P / 2 ^ 53 * (m + s) ≤ |(m : ℝ) * m - y| := by
        rw [← habs]; exact mul_le_mul_of_nonneg_right hc hpos.le
      rcases herr.2 with h | h
      · have : P * P / 2 ^ 53 < P / 2 ^ 53 * (m + s) := by
          rw [mul_div_assoc, mul_comm P (P / 2 ^ 53)]
          exact mul_lt_mul_of_pos_left (by linarith) (by positivity)
        linarith
      · have hms : 2 * P < m + s := by linarith
        have : 2 * P * P / 2 ^ 53 < P / 2 ^ 53 * (m + s) := by
          have e1 : 2 * P * P / 2 ^ 53 = P / 2 ^ 53 * (2 * P) := by ring
          rw [e1]
          exact mul_lt_mul_of_pos_left hms (by positivity)
        linarith [herr.1]
    have hrm : |s - r| < P / 2 ^ 53 := lt_of_le_of_lt (by simpa using hr.2 m hmm) hclose
    have hdist : |(r : ℝ) - m| < P / 2 ^ 52 := by
      have h1 := abs_lt.1 hclose
      have h2 := abs_lt.1 hrm
      have h3 : P / 2 ^ 52 = 2 * (P / 2 ^ 53) := by rw [pow_succ (2 : ℝ) 52]; field_simp
      rw [h3, abs_lt]
      constructor <;> linarith
    -- both are multiples of `2^(e-52)`
    have hPq : P = ((2 : ℚ) ^ (e : ℤ) : ℚ) := by rw [hPdef]; push_cast; simp
    have hrP : (2 : ℚ) ^ (e : ℤ) ≤ r := by
      have h1 := (abs_lt.1 hdist).1
      have h2 : P / 2 ^ 52 ≤ 1 := by
        rw [div_le_one (by positivity)]; linarith
      have : ((2 : ℚ) ^ (e : ℤ) : ℚ) ≤ (r : ℝ) := by rw [← hPq]; linarith
      exact_mod_cast this
    have hmP' : (2 : ℚ) ^ (e : ℤ) ≤ m := by
      have : (((2 : ℚ) ^ (e : ℤ) : ℚ) : ℝ) ≤ ((m : ℚ) : ℝ) := by rw [← hPq]; push_cast; linarith
      exact_mod_cast this
    obtain ⟨k, hk⟩ := grid_of_gt hr.1 hrP
    obtain ⟨l, hl⟩ := grid_of_gt hmm hmP'
    have hQ : (0 : ℚ) < 2 ^ ((e : ℤ) - 52) := zpow_pos (by norm_num) _
    have hkl : |((k - l : ℤ) : ℚ)| < 1 := by
      have hd : |r - m| < (2 : ℚ) ^ ((e : ℤ) - 52) := by
        have e1 : P / 2 ^ 52 = (((2 : ℚ) ^ ((e : ℤ) - 52) : ℚ) : ℝ) := by
          rw [zpow_sub₀ (by norm_num)]; push_cast; rw [hPdef]; norm_cast
        rw [e1] at hdist
        exact_mod_cast hdist
      rw [hk, hl, ← sub_mul, abs_mul, abs_of_pos hQ] at hd
      push_cast
      by_contra hc
      push Not at hc
      nlinarith
    have h3 : |k - l| < 1 := by exact_mod_cast hkl
    have h4 : k - l = 0 := Int.abs_lt_one_iff.1 h3
    rw [hk, hl, show k = l by omega]

/-- A double nearest to a real number. -/
noncomputable def nearestReal (x : ℝ) : ℚ :=
  if x = 0 then 0 else round (x / 2 ^ (Int.log 2 |x| - 52)) * (2 : ℚ) ^ (Int.log 2 |x| - 52)

theorem nearestReal_spec (x : ℝ) : IsNearest x (nearestReal x) := by
  unfold nearestReal
  split
  · rename_i hx
    exact ⟨⟨0, 0, by norm_num, by simp⟩, fun y _ => by rw [hx]; simp⟩
  rename_i hx
  have hpos : 0 < |x| := abs_pos.2 hx
  set E := Int.log 2 |x| - 52 with hE
  have hP : (0 : ℝ) < 2 ^ E := zpow_pos (by norm_num) _
  refine ⟨?_, fun y hy => ?_⟩
  · have hlt : |x| < 2 ^ 53 * (2 : ℝ) ^ E := by
      have := Int.lt_zpow_succ_log_self (b := 2) (by norm_num) |x|
      have e : (2 : ℝ) ^ 53 * 2 ^ E = 2 ^ (Int.log 2 |x| + 1) := by
        rw [← zpow_natCast, ← zpow_add₀ (by norm_num)]; congr 1; push_cast; omega
      rw [e]; exact_mod_cast this
    have hx53 : |x / 2 ^ E| < 2 ^ 53 := by
      rw [abs_div, abs_of_pos hP, div_lt_iff₀ hP]; exact hlt
    have hr : |round (x / 2 ^ E)| ≤ 2 ^ 53 := by
      have hc := abs_lt.1 hx53
      have h1 := abs_le.1 (round_le (x / 2 ^ E) (2 ^ 53))
      have h2 := abs_le.1 (round_le (x / 2 ^ E) (-2 ^ 53))
      push_cast at h1 h2
      have e1 : |x / 2 ^ E - 2 ^ 53| = 2 ^ 53 - x / 2 ^ E := by
        rw [abs_of_neg (by linarith)]; ring
      have e2 : |x / 2 ^ E - -2 ^ 53| = x / 2 ^ E + 2 ^ 53 := by
        rw [abs_of_pos (by linarith)]; ring
      norm_num only at e1 e2 h1 h2 hc
      rw [e1] at h1
      rw [e2] at h2
      refine abs_le.2 ⟨?_, ?_⟩
      · have : (-2 ^ 53 : ℝ) ≤ (round (x / 2 ^ E) : ℤ) := by linarith
        exact_mod_cast this
      · have : ((round (x / 2 ^ E) : ℤ) : ℝ) ≤ 2 ^ 53 := by linarith
        exact_mod_cast this
    rcases lt_or_eq_of_le hr with h | h
    · exact ⟨_, _, h, rfl⟩
    · rcases (abs_eq (by norm_num)).1 h with h | h
      · refine ⟨2 ^ 52, E + 1, by norm_num, ?_⟩
        rw [h, zpow_add₀ (by norm_num)]; norm_num; ring
      · refine ⟨-2 ^ 52, E + 1, by norm_num, ?_⟩
        rw [h, zpow_add₀ (by norm_num)]; norm_num; ring
  · have hle : 2 ^ 52 * (2 : ℝ) ^ E ≤ |x| := by
      have := Int.zpow_log_le_self (b := 2) (by norm_num) hpos
      have e : (2 : ℝ) ^ 52 * 2 ^ E = 2 ^ (Int.log 2 |x|) := by
        rw [← zpow_natCast, ← zpow_add₀ (by norm_num)]; congr 1; push_cast; omega
      rw [e]; exact_mod_cast this
    have grid : ∀ k : ℤ, |x - round (x / 2 ^ E) * 2 ^ E| ≤ |x - k * 2 ^ E| := by
      intro k
      have h := round_le (x / 2 ^ E) k
      have e : ∀ z : ℤ, |x - z * 2 ^ E| = |x / 2 ^ E - z| * 2 ^ E := by
        intro z
        rw [← abs_of_pos hP, ← abs_mul, abs_of_pos hP]
        congr 1; field_simp
      rw [e, e]
      exact mul_le_mul_of_nonneg_right h hP.le
    push_cast
    obtain ⟨m, e, hm, rfl⟩ := hy
    push_cast
    by_cases he : E ≤ e
    · have : (m : ℝ) * 2 ^ e = (m * 2 ^ (e - E).toNat : ℤ) * 2 ^ E := by
        have : (2 : ℝ) ^ e = 2 ^ (e - E).toNat * 2 ^ E := by
          rw [← zpow_natCast, ← zpow_add₀ (by norm_num), Int.toNat_of_nonneg (by omega)]
          congr 1; omega
        rw [this]; push_cast; ring
      rw [this]
      exact grid _
    · have hle2 : (2 : ℝ) ^ e ≤ 2 ^ E / 2 := by
        have : (2 : ℝ) ^ e ≤ 2 ^ (E - 1) := zpow_le_zpow_right₀ (by norm_num) (by omega)
        rwa [zpow_sub₀ (by norm_num), zpow_one] at this
      have hm2 : |(m : ℝ)| < 2 ^ 53 := by exact_mod_cast hm
      have hpe : (0 : ℝ) < 2 ^ e := zpow_pos (by norm_num) _
      have hy : |(m : ℝ) * 2 ^ e| ≤ 2 ^ 52 * 2 ^ E := by
        rw [abs_mul, abs_of_pos hpe]
        calc |(m : ℝ)| * 2 ^ e ≤ 2 ^ 53 * 2 ^ e := mul_le_mul_of_nonneg_right hm2.le hpe.le
          _ ≤ 2 ^ 53 * (2 ^ E / 2) := mul_le_mul_of_nonneg_left hle2 (by norm_num)
          _ = 2 ^ 52 * 2 ^ E := by ring
      have hy' := abs_le.1 hy
      rcases lt_or_gt_of_ne hx with hneg | hpo
      · refine le_trans (grid (-2 ^ 52)) ?_
        rw [abs_of_neg hneg] at hle
        push_cast
        rw [abs_of_nonpos (by linarith), abs_of_nonpos (by linarith)]
        linarith
      · refine le_trans (grid (2 ^ 52)) ?_
        rw [abs_of_pos hpo] at hle
        push_cast
        rw [abs_of_nonneg (by linarith), abs_of_nonneg (by linarith)]
        linarith

/-- Correctly rounded operations. -/
noncomputable def ieee : Fpu where
  conv z := nearestReal z
  sqrt q := nearestReal (Real.sqrt q)
  sub p q := nearestReal (p - q : ℚ)

theorem ieee_correct : ieee.Correct :=
  ⟨fun _ => nearestReal_spec _, fun _ _ => nearestReal_spec _, fun _ _ => nearestReal_spec _⟩

end HJ
