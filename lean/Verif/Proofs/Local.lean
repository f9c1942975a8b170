import Verif.Spec.Local
import Verif.Proofs.Error
import Verif.Proofs.RealCoef
import Mathlib.Tactic.FieldSimp

/-!
# The error made by one operation (helper lemmas)
-/

namespace HJ

/-- `x` is `a` up to `k` factors between `1/q` and `q`. -/
def Rel (q : ℝ) (k : Nat) (x a : ℝ) : Prop := ∃ t, (q ^ k)⁻¹ ≤ t ∧ t ≤ q ^ k ∧ x = a * t

namespace Rel

variable {q : ℝ} {k l : Nat} {x y a b : ℝ}

theorem pos (hq : 1 ≤ q) (h : Rel q k x a) : ∃ t, 0 < t ∧ (q ^ k)⁻¹ ≤ t ∧ t ≤ q ^ k ∧ x = a * t := by
  obtain ⟨t, h1, h2, h3⟩ := h
  exact ⟨t, lt_of_lt_of_le (by positivity) h1, h1, h2, h3⟩

theorem exact (x : ℝ) : Rel q 0 x x := ⟨1, by simp, by simp, by simp⟩

theorem mono (hq : 1 ≤ q) (h : Rel q k x a) (hk : k ≤ l) : Rel q l x a := by
  obtain ⟨t, h1, h2, h3⟩ := h
  have := pow_le_pow_right₀ hq hk
  exact ⟨t, (inv_anti₀ (by positivity) this).trans h1, h2.trans this, h3⟩

theorem neg (h : Rel q k x a) : Rel q k (-x) (-a) := by
  obtain ⟨t, h1, h2, h3⟩ := h
  exact ⟨t, h1, h2, by rw [h3]; ring⟩

theorem mul (hq : 1 ≤ q) (h : Rel q k x a) (g : Rel q l y b) : Rel q (k + l) (x * y) (a * b) := by
  obtain ⟨t, h0, h1, h2, h3⟩ := h.pos hq
  obtain ⟨s, g0, g1, g2, g3⟩ := g.pos hq
  refine ⟨t * s, ?_, ?_, by rw [h3, g3]; ring⟩
  · rw [pow_add, mul_inv]
    exact mul_le_mul h1 g1 (by positivity) h0.le
  · rw [pow_add]
    exact mul_le_mul h2 g2 g0.le (by positivity)

theorem inv (hq : 1 ≤ q) (h : Rel q k x a) : Rel q k x⁻¹ a⁻¹ := by
  obtain ⟨t, h0, h1, h2, h3⟩ := h.pos hq
  refine ⟨t⁻¹, inv_anti₀ h0 h2, ?_, by rw [h3, mul_inv]⟩
  have := inv_anti₀ (by positivity) h1
  rwa [inv_inv] at this

theorem div (hq : 1 ≤ q) (h : Rel q k x a) (g : Rel q l y b) : Rel q (k + l) (x / y) (a / b) := by
  rw [div_eq_mul_inv, div_eq_mul_inv]
  exact h.mul hq (g.inv hq)

theorem pow (hq : 1 ≤ q) (h : Rel q k x a) (n : Nat) : Rel q (n * k) (x ^ n) (a ^ n) := by
  induction n with
  | zero => simpa using Rel.exact 1
  | succ n ih =>
    rw [pow_succ, pow_succ, Nat.succ_mul]
    exact ih.mul hq h

theorem sqrt (hq : 1 ≤ q) (ha : 0 ≤ a) (h : Rel q k x a) : Rel q k √x √a := by
  obtain ⟨t, h0, h1, h2, h3⟩ := h.pos hq
  have h4 : √x = √a * √t := by rw [h3, Real.sqrt_mul ha]
  have hp : 1 ≤ q ^ k := one_le_pow₀ hq
  refine ⟨√t, ?_, ?_, h4⟩
  · refine Real.le_sqrt_of_sq_le (le_trans ?_ h1)
    rw [sq]
    have : (q ^ k)⁻¹ ≤ 1 := inv_le_one_of_one_le₀ hp
    have h5 : 0 < (q ^ k)⁻¹ := by positivity
    nlinarith
  · rw [Real.sqrt_le_left (by positivity)]
    nlinarith

/-- Sums without cancellation. -/
theorem add (hq : 1 ≤ q) (h : Rel q k x a) (g : Rel q k y b) (ha : 0 ≤ a) (hb : 0 ≤ b) :
    Rel q k (x + y) (a + b) := by
  obtain ⟨t, h0, h1, h2, h3⟩ := h.pos hq
  obtain ⟨s, g0, g1, g2, g3⟩ := g.pos hq
  rcases eq_or_lt_of_le (add_nonneg ha hb) with he | hp
  · have h5 : a = 0 := by linarith
    have h6 : b = 0 := by linarith
    refine ⟨t, h1, h2, ?_⟩
    rw [h3, g3, h5, h6]; ring
  · refine ⟨(x + y) / (a + b), ?_, ?_, by field_simp⟩
    · rw [le_div_iff₀ hp, h3, g3]
      nlinarith [mul_le_mul_of_nonneg_left h1 ha, mul_le_mul_of_nonneg_left g1 hb]
    · rw [div_le_iff₀ hp, h3, g3]
      nlinarith [mul_le_mul_of_nonneg_left h2 ha, mul_le_mul_of_nonneg_left g2 hb]

/-- One minus something not greater than one half. -/
theorem one_sub (hq : 1 ≤ q) (hq' : q ^ k ≤ 3 / 2) (h : Rel q k x a) (ha : 0 ≤ a) (ha' : a ≤ 1 / 2) :
    Rel q (2 * k) (1 - x) (1 - a) := by
  obtain ⟨t, h0, h1, h2, h3⟩ := h.pos hq
  have hp : 1 ≤ q ^ k := one_le_pow₀ hq
  have ha1 : 0 < 1 - a := by linarith
  unfold Rel
  rw [mul_comm 2 k, pow_mul]
  generalize q ^ k = r at *
  have hr : 0 < r := by linarith
  refine ⟨(1 - x) / (1 - a), ?_, ?_, by field_simp⟩
  · rw [le_div_iff₀ ha1, inv_mul_le_iff₀ (by positivity), h3]
    have h5 : a * t ≤ a * r := mul_le_mul_of_nonneg_left h2 ha
    have h6 : 0 ≤ (r - 1) * (r + 1 - a * (r ^ 2 + r + 1)) :=
      mul_nonneg (by linarith) (by nlinarith)
    nlinarith [mul_le_mul_of_nonneg_left h5 (sq_nonneg r)]
  · rw [div_le_iff₀ ha1, h3]
    have h5 : a * r⁻¹ ≤ a * t := mul_le_mul_of_nonneg_left h1 ha
    have h6 : 0 ≤ (r - 1) * (r ^ 2 + r - a * (r ^ 2 + r + 1)) :=
      mul_nonneg (by linarith) (by nlinarith)
    have h7 : r * r⁻¹ = 1 := mul_inv_cancel₀ hr.ne'
    have h8 : r * (1 - a * t) ≤ r * (r ^ 2 * (1 - a)) := by
      have := mul_le_mul_of_nonneg_left h5 hr.le
      have h9 : r * (a * r⁻¹) = a := by rw [mul_left_comm, h7, mul_one]
      nlinarith
    exact le_of_mul_le_mul_left h8 hr

theorem of_close {u z : ℝ} (hu : 0 ≤ u) (hu1 : u < 1) (hz : Close u z x) :
    Rel (1 / (1 - u)) 1 z x := by
  have hp : 0 < 1 - u := by linarith
  have hq : 1 ≤ 1 / (1 - u) := by rw [le_div_iff₀ hp]; linarith
  rcases eq_or_ne x 0 with h0 | h0
  · have h1 : z = 0 := by
      have := hz
      simpa [Close, h0] using this
    exact ⟨1, by rw [pow_one]; exact inv_le_one_of_one_le₀ hq, by simpa using hq,
      by rw [h1, h0]; ring⟩
  · have h1 : |z / x - 1| ≤ u := by
      have h2 : z / x - 1 = (z - x) / x := by field_simp
      rw [h2, abs_div, div_le_iff₀ (abs_pos.2 h0)]
      exact hz
    obtain ⟨h2, h3⟩ := abs_le.1 h1
    refine ⟨z / x, ?_, ?_, by field_simp⟩
    · rw [pow_one, one_div, inv_inv]; linarith
    · rw [pow_one, le_div_iff₀ hp]
      nlinarith [sq_nonneg u]

theorem trans {z : ℝ} (hq : 1 ≤ q) (h : Rel q k x a) (g : Rel q l z x) : Rel q (k + l) z a := by
  obtain ⟨t, h0, h1, h2, h3⟩ := h.pos hq
  obtain ⟨s, g0, g1, g2, g3⟩ := g.pos hq
  refine ⟨t * s, ?_, ?_, by rw [g3, h3]; ring⟩
  · rw [pow_add, mul_inv]
    exact mul_le_mul h1 g1 (by positivity) h0.le
  · rw [pow_add]
    exact mul_le_mul h2 g2 g0.le (by positivity)

/-- As a bound for the absolute error. -/
theorem near (hq : 1 ≤ q) (h : Rel q k x a) : Near (q - 1) k x a |a| := by
  obtain ⟨t, h0, h1, h2, h3⟩ := h.pos hq
  refine ⟨?_, le_rfl⟩
  have h4 : 1 ≤ q ^ k := one_le_pow₀ hq
  have h5 : 1 - (q ^ k)⁻¹ ≤ q ^ k - 1 := by
    have h6 : q ^ k * (q ^ k)⁻¹ = 1 := mul_inv_cancel₀ (by positivity)
    have h7 : (q ^ k)⁻¹ ≤ 1 := inv_le_one_of_one_le₀ h4
    nlinarith
  rw [h3, show a * t - a = (t - 1) * a by ring, abs_mul, add_sub_cancel]
  refine mul_le_mul_of_nonneg_right (abs_le.2 ⟨by linarith, by linarith⟩) (abs_nonneg a)

end Rel

section
variable {α : Type} [CMath α] {u : ℝ} {M : LibErr α u} {k l : Nat} {x y : α} {r s : ℝ}

/-- The number `x` is `r` up to `k` roundings. -/
def Has (M : LibErr α u) (k : Nat) (x : α) (r : ℝ) : Prop := Rel (1 / (1 - u)) k (M.val x) r

theorem LibErr.one_le (M : LibErr α u) : 1 ≤ 1 / (1 - u) := by
  have := M.nonneg
  have := M.lt_one
  rw [le_div_iff₀ (by linarith)]; linarith

theorem Has.self (x : α) : Has M 0 x (M.val x) := Rel.exact _

theorem Has.lit {z : Int} (hz : |z| ≤ 10) : Has M 0 (Arith.lit z) z := by
  unfold Has
  rw [M.lit10 z hz]
  exact Rel.exact _

theorem Has.of_eq (h : Has M k x r) (e : r = s) : Has M k x s := e ▸ h

theorem Has.mono (h : Has M k x r) (hk : k ≤ l) : Has M l x r := Rel.mono M.one_le h hk

theorem Has.close (h : Close u (M.val x) r) : Has M 1 x r := Rel.of_close M.nonneg M.lt_one h

theorem Has.round {t : ℝ} (h : Rel (1 / (1 - u)) k t r) (hz : Close u (M.val x) t) :
    Has M (k + 1) x r := Rel.trans M.one_le h (Rel.of_close M.nonneg M.lt_one hz)

theorem Has.neg (h : Has M k x r) : Has M k (-ₛ x) (-r) := by
  unfold Has
  rw [M.neg]
  exact Rel.neg h

theorem Has.ne (h : Has M k x r) (hr : r ≠ 0) : M.val x ≠ 0 := by
  obtain ⟨t, h0, -, -, h3⟩ := Rel.pos M.one_le h
  rw [h3]
  exact mul_ne_zero hr h0.ne'

theorem Has.nonneg (h : Has M k x r) (hr : 0 ≤ r) : 0 ≤ M.val x := by
  obtain ⟨t, h0, -, -, h3⟩ := Rel.pos M.one_le h
  rw [h3]
  exact mul_nonneg hr h0.le

theorem Has.mul (h : Has M k x r) (g : Has M l y s) : Has M (k + l + 1) (x *ₛ y) (r * s) :=
  Has.round (Rel.mul M.one_le h g) (M.mul x y)

theorem Has.div (h : Has M k x r) (g : Has M l y s) (hs : s ≠ 0) :
    Has M (k + l + 1) (x ÷ₛ y) (r / s) :=
  Has.round (Rel.div M.one_le h g) (M.div x y (g.ne hs))

theorem Has.add (h : Has M k x r) (g : Has M l y s) (hr : 0 ≤ r) (hs : 0 ≤ s) :
    Has M (max k l + 1) (x +ₛ y) (r + s) :=
  Has.round (Rel.add M.one_le (h.mono (le_max_left k l)) (g.mono (le_max_right k l)) hr hs)
    (M.add x y)

theorem Has.powN (h : Has M k x r) {n : Nat} (hn : n ≤ 3) :
    Has M (n * k + 1) (Arith.powN x n) (r ^ n) :=
  Has.round (Rel.pow M.one_le h n) (M.powN x n hn)

theorem Has.sqrt (h : Has M k x r) (hr : 0 ≤ r) : Has M (k + 1) (CMath.sqrt x) √r :=
  Has.round (Rel.sqrt M.one_le hr h) (M.sqrt x (h.nonneg hr))

/-- `1 - x` without much cancellation. -/
theorem Has.one_sub (hu : u ≤ 1 / 10) (h : Has M k x r) (hk : k ≤ 3) (h0 : 0 ≤ r) (h1 : r ≤ 1 / 2) :
    Has M (2 * k + 1) (Arith.lit 1 -ₛ x) (((1 : ℤ) : ℝ) - r) := by
  have hq : (1 / (1 - u)) ^ k ≤ 3 / 2 := by
    have h2 : 1 / (1 - u) ≤ 10 / 9 := by
      rw [div_le_iff₀ (by linarith)]; linarith
    have h3 := M.one_le
    calc (1 / (1 - u)) ^ k ≤ (1 / (1 - u)) ^ 3 := pow_le_pow_right₀ h3 hk
      _ ≤ (10 / 9) ^ 3 := pow_le_pow_left₀ (by linarith) h2 3
      _ ≤ 3 / 2 := by norm_num
  have h2 := Rel.one_sub M.one_le hq h h0 h1
  have h3 := M.sub (Arith.lit 1) x
  rw [M.lit10 1 (by norm_num)] at h3
  rw [Int.cast_one] at h3 ⊢
  exact Has.round h2 h3

/-- Coefficients are right up to rounding. -/
structure HasU (M : LibErr α u) (w : DD.U α) (v : DD.U ℝ) : Prop where
  f : Has M 3 w.f v.f
  da : Has M 7 w.da v.da
  daa : Has M 11 w.daa v.daa

theorem Fn.hasU (hu : u ≤ 1 / 10) (φ : Fn α) (x : α) (hd : (φ.map M.val).dom 2 (M.val x))
    (hs : φ.Steady M.val (M.val x)) : HasU M (φ.coef x) ((φ.map M.val).coef (M.val x)) := by
  have l1 : Has M 0 (Arith.lit 1) (1 : ℤ) := Has.lit (by norm_num)
  have l2 : Has M 0 (Arith.lit 2) (2 : ℤ) := Has.lit (by norm_num)
  have l3 : Has M 0 (Arith.lit 3) (3 : ℤ) := Has.lit (by norm_num)
  have l10 : Has M 0 (Arith.lit 10) (10 : ℤ) := Has.lit (by norm_num)
  have m1 : Has M 0 (Arith.lit (-1)) (-1 : ℤ) := Has.lit (by norm_num)
  have m2 : Has M 0 (Arith.lit (-2)) (-2 : ℤ) := Has.lit (by norm_num)
  have h : Has M 0 x (M.val x) := Has.self x
  have mk : ∀ {w : DD.U α} {v : DD.U ℝ} {i j k : Nat}, Has M i w.f v.f → Has M j w.da v.da →
      Has M k w.daa v.daa → i ≤ 3 → j ≤ 7 → k ≤ 11 → HasU M w v :=
    fun h1 h2 h3 g1 g2 g3 => ⟨h1.mono g1, h2.mono g2, h3.mono g3⟩
  generalize hr' : M.val x = r at *
  have hrr : ∀ P : ℝ → Prop, P (M.val x) → P r := fun P hP => hr' ▸ hP
  cases φ with
  | sqrt =>
    have hr : 0 < r := hd
    have f := h.sqrt hr.le
    have da := l1.div (l2.mul f) (by have := Real.sqrt_pos.2 hr; positivity)
    have h2 : ((2 : ℤ) : ℝ) * r ≠ 0 := by positivity
    exact mk f da (da.neg.div (l2.mul h) h2) (by norm_num) (by norm_num) (by norm_num)
  | cbrt =>
    have hr : r ≠ 0 := hd
    have f : Has M 1 (CMath.cbrt x) (XReal.cbrtR r) := .close (hr' ▸ M.cbrt x)
    have hc := cbrtR_ne hr
    have da := l1.div ((l3.mul f).mul f) (by positivity)
    have h3 : ((3 : ℤ) : ℝ) * r ≠ 0 := by positivity
    exact mk f da ((da.neg.mul l2).div (l3.mul h) h3) (by norm_num) (by norm_num) (by norm_num)
  | reciprocal =>
    have f := l1.div h hd
    have da := f.neg.mul f
    exact mk f da ((m2.mul f).mul da) (by norm_num) (by norm_num) (by norm_num)
  | cos =>
    have c : Has M 1 (CMath.cos x) (Real.cos r) := .close (hr' ▸ M.cos x)
    have s : Has M 1 (CMath.sin x) (Real.sin r) := .close (hr' ▸ M.sin x)
    exact mk c s.neg c.neg (by norm_num) (by norm_num) (by norm_num)
  | sin =>
    have c : Has M 1 (CMath.cos x) (Real.cos r) := .close (hr' ▸ M.cos x)
    have s : Has M 1 (CMath.sin x) (Real.sin r) := .close (hr' ▸ M.sin x)
    exact mk s c s.neg (by norm_num) (by norm_num) (by norm_num)
  | tan =>
    have f : Has M 1 (CMath.tan x) (Real.tan r) := .close (hr' ▸ M.tan x (hr' ▸ hd))
    have da := (f.mul f).add l1 (mul_self_nonneg _) (by norm_num)
    exact mk f da ((da.mul l2).mul f) (by norm_num) (by norm_num) (by norm_num)
  | acos =>
    have hr : -1 < r ∧ r < 1 := hd
    have ht : 0 < ((1 : ℤ) : ℝ) - r * r := by simpa using one_sub_sq_pos hr
    have f : Has M 1 (CMath.acos x) (Real.arccos r) :=
      .close (hr' ▸ M.acos x (hr' ▸ hr.1.le) (hr' ▸ hr.2.le))
    have tmp := (h.mul h).one_sub hu (by norm_num) (mul_self_nonneg r)
      (by have : r ^ 2 ≤ 1 / 2 := hs; nlinarith)
    have da := m1.div (tmp.sqrt ht.le) (Real.sqrt_pos.2 ht).ne'
    exact mk f da ((da.mul h).div tmp ht.ne') (by norm_num) (by norm_num) (by norm_num)
  | asin =>
    have hr : -1 < r ∧ r < 1 := hd
    have ht : 0 < ((1 : ℤ) : ℝ) - r * r := by simpa using one_sub_sq_pos hr
    have f : Has M 1 (CMath.asin x) (Real.arcsin r) :=
      .close (hr' ▸ M.asin x (hr' ▸ hr.1.le) (hr' ▸ hr.2.le))
    have tmp := (h.mul h).one_sub hu (by norm_num) (mul_self_nonneg r)
      (by have : r ^ 2 ≤ 1 / 2 := hs; nlinarith)
    have da := l1.div (tmp.sqrt ht.le) (Real.sqrt_pos.2 ht).ne'
    exact mk f da ((da.mul h).div tmp ht.ne') (by norm_num) (by norm_num) (by norm_num)
  | atan =>
    have f : Has M 1 (CMath.atan x) (Real.arctan r) := .close (hr' ▸ M.atan x)
    have ht : r * r + ((1 : ℤ) : ℝ) ≠ 0 := by
      have := mul_self_nonneg r
      push_cast; linarith
    have da := l1.div ((h.mul h).add l1 (mul_self_nonneg r) (by norm_num)) ht
    exact mk f da (((da.neg.mul da).mul l2).mul h) (by norm_num) (by norm_num) (by norm_num)
  | cosh =>
    have c : Has M 1 (CMath.cosh x) (Real.cosh r) := .close (hr' ▸ M.cosh x)
    have s : Has M 1 (CMath.sinh x) (Real.sinh r) := .close (hr' ▸ M.sinh x)
    exact mk c s c (by norm_num) (by norm_num) (by norm_num)
  | sinh =>
    have c : Has M 1 (CMath.cosh x) (Real.cosh r) := .close (hr' ▸ M.cosh x)
    have s : Has M 1 (CMath.sinh x) (Real.sinh r) := .close (hr' ▸ M.sinh x)
    exact mk s c s (by norm_num) (by norm_num) (by norm_num)
  | tanh =>
    have f : Has M 1 (CMath.tanh x) (Real.tanh r) := .close (hr' ▸ M.tanh x)
    have da := (f.mul f).one_sub hu (by norm_num) (mul_self_nonneg _)
      (by have : Real.tanh r ^ 2 ≤ 1 / 2 := hs; nlinarith)
    exact mk f da ((m2.mul f).mul da) (by norm_num) (by norm_num) (by norm_num)
  | acosh =>
    have hr : 1 < r := hd
    have hm : 0 < r - ((1 : ℤ) : ℝ) := by simpa using hr
    have hp : 0 < r + ((1 : ℤ) : ℝ) := by push_cast; linarith
    have f : Has M 1 (CMath.acosh x) (Real.arcosh r) := .close (hr' ▸ M.acosh x (hr' ▸ hr.le))
    have a : Has M 1 (x -ₛ Arith.lit 1) (r - ((1 : ℤ) : ℝ)) := by
      have := M.sub x (Arith.lit 1)
      rw [M.lit10 1 (by norm_num), hr'] at this
      exact .close this
    have b := h.add l1 (by linarith) (by norm_num)
    have sa := Real.sqrt_pos.2 hm
    have sb := Real.sqrt_pos.2 hp
    have da := l1.div ((a.sqrt hm.le).mul (b.sqrt hp.le)) (mul_pos sa sb).ne'
    exact mk f da ((da.neg.mul h).div (a.mul b) (mul_pos hm hp).ne') (by norm_num) (by norm_num)
      (by norm_num)
  | asinh =>
    have hp : 0 < ((1 : ℤ) : ℝ) + r * r := by
      have := mul_self_nonneg r
      push_cast; linarith
    have f : Has M 1 (CMath.asinh x) (Real.arsinh r) := .close (hr' ▸ M.asinh x)
    have b := l1.add (h.mul h) (by norm_num) (mul_self_nonneg r)
    have da := l1.div (b.sqrt hp.le) (Real.sqrt_pos.2 hp).ne'
    exact mk f da ((da.neg.mul h).div b hp.ne') (by norm_num) (by norm_num) (by norm_num)
  | atanh =>
    have hr : -1 < r ∧ r < 1 := hd
    have ht : 0 < ((1 : ℤ) : ℝ) - r * r := by simpa using one_sub_sq_pos hr
    have f : Has M 1 (CMath.atanh x) (Real.artanh r) :=
      .close (hr' ▸ M.atanh x (hr' ▸ hr.1) (hr' ▸ hr.2))
    have hq := h.mul h
    have h0 := mul_self_nonneg r
    have h2 : r * r ≤ 1 / 2 := by have : r ^ 2 ≤ 1 / 2 := hs; nlinarith
    have tmp := hq.one_sub hu (by norm_num) h0 h2
    have h1 : r * r - ((1 : ℤ) : ℝ) ≠ 0 := by linarith
    have tmp' : Has M 3 (x *ₛ x -ₛ Arith.lit 1) (r * r - ((1 : ℤ) : ℝ)) := by
      have hq' : (1 / (1 - u)) ^ 1 ≤ 3 / 2 := by
        rw [pow_one, div_le_iff₀ (by linarith)]; linarith
      have g := (Rel.one_sub M.one_le hq' hq h0 h2).neg
      have g2 := M.sub (x *ₛ x) (Arith.lit 1)
      rw [M.lit10 1 (by norm_num)] at g2
      rw [Int.cast_one] at g2 ⊢
      rw [neg_sub, neg_sub] at g
      exact Has.round g g2
    exact mk f (l1.div tmp ht.ne')
      ((l2.mul h).div (tmp'.powN (by norm_num)) (pow_ne_zero 2 h1)) (by norm_num) (by norm_num)
      (by norm_num)
  | exp =>
    have f : Has M 1 (CMath.exp x) (Real.exp r) := .close (hr' ▸ M.exp x)
    exact mk f f f (by norm_num) (by norm_num) (by norm_num)
  | log =>
    have hr : 0 < r := hd
    have f : Has M 1 (CMath.log x) (Real.log r) := .close (hr' ▸ M.log x (hr' ▸ hr))
    have da := l1.div h hr.ne'
    exact mk f da (da.neg.mul da) (by norm_num) (by norm_num) (by norm_num)
  | log2 =>
    have hr : 0 < r := hd
    have f : Has M 1 (CMath.log2 x) (Real.logb 2 r) := .close (hr' ▸ M.log2 x (hr' ▸ hr))
    have hl : Real.log ((2 : ℤ) : ℝ) ≠ 0 :=
      Real.log_ne_zero_of_pos_of_ne_one (by norm_num) (by norm_num)
    have e : Has M 1 (CMath.log (Arith.lit 2)) (Real.log ((2 : ℤ) : ℝ)) := by
      have := M.log (Arith.lit 2) (by rw [M.lit10 2 (by norm_num)]; norm_num)
      rw [M.lit10 2 (by norm_num)] at this
      exact .close this
    have da := l1.div (h.mul e) (mul_ne_zero hr.ne' hl)
    exact mk f da (da.neg.div h hr.ne') (by norm_num) (by norm_num) (by norm_num)
  | log10 =>
    have hr : 0 < r := hd
    have f : Has M 1 (CMath.log10 x) (Real.logb 10 r) := .close (hr' ▸ M.log10 x (hr' ▸ hr))
    have hl : Real.log ((10 : ℤ) : ℝ) ≠ 0 :=
      Real.log_ne_zero_of_pos_of_ne_one (by norm_num) (by norm_num)
    have e : Has M 1 (CMath.log (Arith.lit 10)) (Real.log ((10 : ℤ) : ℝ)) := by
      have := M.log (Arith.lit 10) (by rw [M.lit10 10 (by norm_num)]; norm_num)
      rw [M.lit10 10 (by norm_num)] at this
      exact .close this
    have da := l1.div (h.mul e) (mul_ne_zero hr.ne' hl)
    exact mk f da (da.neg.div h hr.ne') (by norm_num) (by norm_num) (by norm_num)
  | pow b =>
    obtain ⟨hr, e1, e2⟩ := hs
    have hdom : ∀ k : ℤ, 0 < r ∨ (r < 0 ∧ ∃ j : ℤ, M.val b - k = j) := by
      intro k
      rcases hd with hd | ⟨hd, j, hj⟩ | ⟨hd, -⟩
      · exact Or.inl hd
      · exact Or.inr ⟨hd, j - k, by rw [show M.val b = j from hj]; push_cast; rfl⟩
      · exact absurd hd hr
    have key : ∀ (b' : α) (k : ℤ), M.val b' = M.val b - k → Has M 1 (CMath.pow x b') (r ^ (M.val b - k)) := by
      intro b' k hk
      have := M.pow x b' (by
        rw [hk, hr']
        rcases hdom k with h | h
        · exact Or.inl h
        · exact Or.inr (Or.inl h))
      rw [hk, hr'] at this
      exact .close this
    have f : Has M 1 (CMath.pow x b) (r ^ M.val b) := by simpa using key b 0 (by simp)
    have g1 : Has M 0 (b -ₛ Arith.lit 1) (M.val b - ((1 : ℤ) : ℝ)) := by
      refine (Has.self _).of_eq ?_
      rw [e1, Int.cast_one]
    have p1 := key (b -ₛ Arith.lit 1) 1 (by rw [e1, Int.cast_one])
    have p2 := key (b -ₛ Arith.lit 2) 2 (by rw [e2]; norm_num)
    exact mk f ((Has.self b).mul p1) ((g1.mul (Has.self b)).mul p2) (by norm_num) (by norm_num)
      (by norm_num)
  | logB b =>
    obtain ⟨hr, hb, hb1⟩ := hd
    have hl : Real.log (M.val b) ≠ 0 := Real.log_ne_zero_of_pos_of_ne_one hb hb1
    have e : Has M 1 (CMath.log b) (Real.log (M.val b)) := .close (M.log b hb)
    have f : Has M 1 (CMath.log x) (Real.log r) := .close (hr' ▸ M.log x (hr' ▸ hr))
    have da := l1.div (h.mul e) (mul_ne_zero hr.ne' hl)
    exact mk (f.div e hl) da (da.neg.div h hr.ne') (by norm_num) (by norm_num) (by norm_num)

end

end HJ
