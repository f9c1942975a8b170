import Verif.Proofs.Chain2
import Verif.Proofs.XRealBasic
import Verif.Spec.Real
import Mathlib.Analysis.SpecialFunctions.Trigonometric.ArctanDeriv
import Mathlib.Analysis.SpecialFunctions.Trigonometric.InverseDeriv
import Mathlib.Analysis.SpecialFunctions.Trigonometric.DerivHyp
import Mathlib.Analysis.SpecialFunctions.Pow.Deriv
import Mathlib.Analysis.SpecialFunctions.Log.Deriv

/-!
# The unary functions (helper lemmas)

For every function: inside its domain the coefficients are the value and the derivatives;
outside, some coefficient is not finite.
-/

namespace HJ

open Topology XReal

/-- Derivatives from a formula valid on an open set. -/
theorem d2At_of {φ φ' : ℝ → ℝ} {U : Set ℝ} {x dd : ℝ} (o : Nat) (hU : IsOpen U) (hx : x ∈ U)
    (h : ∀ y ∈ U, HasDerivAt φ (φ' y) y) (h' : HasDerivAt φ' dd x) : D2At o φ x (φ' x) dd :=
  ⟨h x hx, fun _ => ⟨φ', Filter.mem_of_superset (hU.mem_nhds hx) h, h'⟩⟩

/-- Derivatives from a formula valid everywhere. -/
theorem d2At_of' {φ φ' : ℝ → ℝ} {x dd : ℝ} (o : Nat)
    (h : ∀ y, HasDerivAt φ (φ' y) y) (h' : HasDerivAt φ' dd x) : D2At o φ x (φ' x) dd :=
  d2At_of o isOpen_univ (Set.mem_univ x) (fun y _ => h y) h'

theorem D2At.congr {o : Nat} {φ : ℝ → ℝ} {x d dd d' dd' : ℝ} (h : D2At o φ x d dd) (h1 : d = d')
    (h2 : dd = dd') : D2At o φ x d' dd' := by subst h1 h2; exact h

/-- `u` are the coefficients of a function with the stated derivatives. -/
structure GoodAt (o : Nat) (φ : ℝ → ℝ) (x : ℝ) (u : DD.U XReal) (d dd : ℝ) : Prop where
  f : u.f = num (φ x)
  da : u.da = num d
  daa : o = 2 → u.daa = num dd
  d2 : D2At o φ x d dd

theorem good_sqrt (o : Nat) {x : ℝ} (hx : 0 < x) : ∃ d dd, GoodAt o Real.sqrt x (DD.kSqrt (num x)) d dd := by
  have hs : √x ≠ 0 := (Real.sqrt_pos.mpr hx).ne'
  have hf : CMath.sqrt (num x) = num √x := if_pos hx.le
  refine ⟨_, _, ?_, ?_, ?_, d2At_sqrt o hx⟩
  · exact hf
  · simp only [DD.kSqrt, hf, lit_num, mul_num]
    rw [div_num (by simpa using hs)]; simp
  · intro _
    simp only [DD.kSqrt, hf, lit_num, mul_num]
    rw [div_num (by simpa using hs), neg_num, div_num (by simpa using hx.ne')]; simp

theorem cbrtR_neg {x : ℝ} (hx : x ≠ 0) : cbrtR (-x) = -cbrtR x := by
  unfold cbrtR
  rcases lt_or_gt_of_ne hx with h | h
  · rw [if_neg (by linarith), if_pos h, neg_neg]
  · rw [if_pos (by linarith), if_neg (by linarith), neg_neg]

theorem cbrtR_pow {x : ℝ} : cbrtR x ^ 3 = x := by
  have hp : ∀ y : ℝ, 0 ≤ y → (y ^ (1 / 3 : ℝ)) ^ 3 = y := by
    intro y hy
    rw [← Real.rpow_natCast, ← Real.rpow_mul hy]; norm_num
  unfold cbrtR
  split_ifs with h
  · have := hp (-x) (by linarith)
    linear_combination -this
  · exact hp x (by linarith)

theorem cbrtR_ne {x : ℝ} (hx : x ≠ 0) : cbrtR x ≠ 0 := by
  intro h
  apply hx
  rw [← cbrtR_pow (x := x), h]; norm_num

theorem hasDerivAt_cbrtR {x : ℝ} (hx : x ≠ 0) :
    HasDerivAt cbrtR (1 / (3 * cbrtR x * cbrtR x)) x := by
  have hpos : ∀ y : ℝ, 0 < y → HasDerivAt cbrtR (1 / (3 * cbrtR y * cbrtR y)) y := by
    intro y hy
    have h1 : HasDerivAt (fun y : ℝ => y ^ (1 / 3 : ℝ)) ((1 / 3) * y ^ ((1 / 3 : ℝ) - 1)) y :=
      Real.hasDerivAt_rpow_const (Or.inl hy.ne')
    have e : cbrtR =ᶠ[𝓝 y] fun y => y ^ (1 / 3 : ℝ) := by
      filter_upwards [lt_mem_nhds hy] with z hz
      unfold cbrtR; rw [if_neg (by linarith)]
    refine (h1.congr_of_eventuallyEq e).congr_deriv ?_
    have hc := cbrtR_ne hy.ne'
    have h3 := cbrtR_pow (x := y)
    have hv : y ^ (1 / 3 : ℝ) = cbrtR y := e.self_of_nhds.symm
    rw [Real.rpow_sub_one hy.ne', hv]
    field_simp
    exact h3
  rcases lt_or_gt_of_ne hx with h | h
  · have h1 := (hpos (-x) (by linarith)).scomp x (hasDerivAt_neg x)
    have h2 := h1.neg
    have e : cbrtR =ᶠ[𝓝 x] fun y => -(cbrtR ∘ Neg.neg) y := by
      filter_upwards [gt_mem_nhds h] with z hz
      simp [cbrtR_neg (x := z) (by linarith)]
    refine (h2.congr_of_eventuallyEq e).congr_deriv ?_
    rw [cbrtR_neg hx]; simp
  · exact hpos x h

theorem good_cbrt (o : Nat) {x : ℝ} (hx : x ≠ 0) : ∃ d dd, GoodAt o cbrtR x (DD.kCbrt (num x)) d dd := by
  have hs := cbrtR_ne hx
  have hf : CMath.cbrt (num x) = num (cbrtR x) := if_pos trivial
  refine ⟨_, -(1 / (3 * cbrtR x * cbrtR x)) * 2 / (3 * x), ?_, ?_, ?_,
    d2At_of o isOpen_ne hx (fun y hy => hasDerivAt_cbrtR hy) ?_⟩
  · exact hf
  · simp only [DD.kCbrt, hf, lit_num, mul_num]
    rw [div_num (by simpa using hs)]; simp
  · intro _
    simp only [DD.kCbrt, hf, lit_num, mul_num]
    rw [div_num (by simpa using hs), neg_num, mul_num, div_num (by simpa using hx)]; simp
  · have h1 := hasDerivAt_cbrtR hx
    have h2 := (((h1.const_mul 3).mul h1).inv (mul_ne_zero (mul_ne_zero three_ne_zero hs) hs))
    refine (h2.congr_deriv ?_).congr_of_eventuallyEq (Filter.Eventually.of_forall fun y => ?_)
    · have h3 := cbrtR_pow (x := x)
      simp only [Pi.mul_apply]
      generalize cbrtR x = r at *
      rw [← h3]
      field_simp
      norm_num
    · simp

theorem good_reciprocal (o : Nat) {x : ℝ} (hx : x ≠ 0) :
    ∃ d dd, GoodAt o (fun x => x⁻¹) x (DD.kReciprocal (num x)) d dd := by
  refine ⟨_, _, ?_, ?_, ?_, d2At_inv o hx⟩
  · simp [DD.kReciprocal, div_num hx]
  · simp only [DD.kReciprocal, lit_num, div_num hx, neg_num, mul_num, num_inj]
    push_cast; field_simp
  · intro _
    simp only [DD.kReciprocal, lit_num, div_num hx, neg_num, mul_num, num_inj]
    push_cast; field_simp

theorem good_cos (o : Nat) (x : ℝ) : ∃ d dd, GoodAt o Real.cos x (DD.kCos (num x)) d dd :=
  ⟨_, -Real.cos x, by simp [DD.kCos, CMath.cos, lift], by simp [DD.kCos, CMath.sin, lift],
    fun _ => by simp [DD.kCos, CMath.cos, lift],
    d2At_of' o Real.hasDerivAt_cos (Real.hasDerivAt_sin x).neg⟩

theorem good_sin (o : Nat) (x : ℝ) : ∃ d dd, GoodAt o Real.sin x (DD.kSin (num x)) d dd :=
  ⟨_, -Real.sin x, by simp [DD.kSin, CMath.sin, lift], by simp [DD.kSin, CMath.cos, lift],
    fun _ => by simp [DD.kSin, CMath.sin, lift],
    d2At_of' o Real.hasDerivAt_sin (Real.hasDerivAt_cos x)⟩

theorem hasDerivAt_tan' {x : ℝ} (hx : Real.cos x ≠ 0) :
    HasDerivAt Real.tan (Real.tan x * Real.tan x + 1) x := by
  refine (Real.hasDerivAt_tan hx).congr_deriv ?_
  rw [Real.tan_eq_sin_div_cos]
  have := Real.sin_sq_add_cos_sq x
  field_simp
  linarith

theorem good_tan (o : Nat) {x : ℝ} (hx : Real.cos x ≠ 0) :
    ∃ d dd, GoodAt o Real.tan x (DD.kTan (num x)) d dd := by
  have hf : CMath.tan (num x) = num (Real.tan x) := if_neg hx
  refine ⟨_, (Real.tan x * Real.tan x + 1) * 2 * Real.tan x, hf, ?_, ?_,
    d2At_of o (U := {y | Real.cos y ≠ 0}) (isOpen_ne_fun Real.continuous_cos continuous_const) hx
      (fun y hy => hasDerivAt_tan' hy) ?_⟩
  · simp [DD.kTan, hf]
  · intro _; simp [DD.kTan, hf]
  · have h1 := hasDerivAt_tan' hx
    refine ((h1.mul h1).add_const 1).congr_deriv ?_
    ring

/-- Derivative of `1 / √(1 - x²)`. -/
theorem hasDerivAt_inv_sqrt {x : ℝ} (hx : 0 < 1 - x * x) :
    HasDerivAt (fun y : ℝ => 1 / √(1 - y * y)) (1 / √(1 - x * x) * x / (1 - x * x)) x := by
  have h1 : HasDerivAt (fun y : ℝ => 1 - y * y) (-(2 * x)) x := by
    refine (((hasDerivAt_id x).mul (hasDerivAt_id x)).const_sub 1).congr_deriv ?_
    simp; ring
  have h2 := (h1.sqrt hx.ne').inv (Real.sqrt_pos.mpr hx).ne'
  refine (h2.congr_deriv ?_).congr_of_eventuallyEq (Filter.Eventually.of_forall fun y => ?_)
  · have hs := Real.sq_sqrt hx.le
    have hp := Real.sqrt_pos.mpr hx
    generalize √(1 - x * x) = r at *
    rw [← hs]; field_simp
  · simp

theorem one_sub_sq_pos {x : ℝ} (hx : -1 < x ∧ x < 1) : 0 < 1 - x * x := by nlinarith [hx.1, hx.2]

theorem good_acos (o : Nat) {x : ℝ} (hx : -1 < x ∧ x < 1) :
    ∃ d dd, GoodAt o Real.arccos x (DD.kAcos (num x)) d dd := by
  have ht := one_sub_sq_pos hx
  have hs := (Real.sqrt_pos.mpr ht).ne'
  have hq : CMath.sqrt (num (1 - x * x)) = num √(1 - x * x) := if_pos ht.le
  refine ⟨_, _, ?_, ?_, ?_, d2At_of o (isOpen_Ioo (a := (-1 : ℝ)) (b := 1)) hx
    (φ' := fun y => -(1 / √(1 - y * y))) ?_ (hasDerivAt_inv_sqrt ht).neg⟩
  · exact if_pos ⟨hx.1.le, hx.2.le⟩
  · simp only [DD.kAcos, lit_num, mul_num, sub_num, Int.cast_one, hq]
    rw [div_num hs]; simp [neg_div]
  · intro _
    simp only [DD.kAcos, lit_num, mul_num, sub_num, Int.cast_one, hq]
    rw [div_num hs, mul_num, div_num ht.ne']; simp; ring
  · intro y hy
    have := Real.hasDerivAt_arccos (x := y) (by linarith [hy.1]) (by linarith [hy.2])
    rwa [pow_two] at this

theorem good_asin (o : Nat) {x : ℝ} (hx : -1 < x ∧ x < 1) :
    ∃ d dd, GoodAt o Real.arcsin x (DD.kAsin (num x)) d dd := by
  have ht := one_sub_sq_pos hx
  have hs := (Real.sqrt_pos.mpr ht).ne'
  have hq : CMath.sqrt (num (1 - x * x)) = num √(1 - x * x) := if_pos ht.le
  refine ⟨_, _, ?_, ?_, ?_, d2At_of o (isOpen_Ioo (a := (-1 : ℝ)) (b := 1)) hx
    (φ' := fun y => 1 / √(1 - y * y)) ?_ (hasDerivAt_inv_sqrt ht)⟩
  · exact if_pos ⟨hx.1.le, hx.2.le⟩
  · simp only [DD.kAsin, lit_num, mul_num, sub_num, Int.cast_one, hq]
    rw [div_num hs]
  · intro _
    simp only [DD.kAsin, lit_num, mul_num, sub_num, Int.cast_one, hq]
    rw [div_num hs, mul_num, div_num ht.ne']
  · intro y hy
    have := Real.hasDerivAt_arcsin (x := y) (by linarith [hy.1]) (by linarith [hy.2])
    rwa [pow_two] at this

theorem good_atan (o : Nat) (x : ℝ) : ∃ d dd, GoodAt o Real.arctan x (DD.kAtan (num x)) d dd := by
  have hp : ∀ y : ℝ, y * y + 1 ≠ 0 := fun y => by nlinarith [mul_self_nonneg y]
  have h1 : HasDerivAt (fun y : ℝ => y * y + 1) (2 * x) x := by
    refine (((hasDerivAt_id x).mul (hasDerivAt_id x)).add_const 1).congr_deriv ?_
    simp; ring
  have h2 : HasDerivAt (fun y : ℝ => 1 / (y * y + 1))
      (-(1 / (x * x + 1)) * (1 / (x * x + 1)) * 2 * x) x := by
    refine ((h1.inv (hp x)).congr_deriv ?_).congr_of_eventuallyEq
      (Filter.Eventually.of_forall fun y => ?_)
    · have := hp x; field_simp
    · simp
  refine ⟨_, _, if_pos trivial, ?_, ?_, d2At_of' o (φ' := fun y => 1 / (y * y + 1)) ?_ h2⟩
  · simp only [DD.kAtan, lit_num, mul_num, add_num, Int.cast_one]
    rw [div_num (hp x)]
  · intro _
    simp only [DD.kAtan, lit_num, mul_num, add_num, Int.cast_one]
    rw [div_num (hp x)]; simp
  · intro y
    refine (Real.hasDerivAt_arctan y).congr_deriv ?_
    rw [pow_two, add_comm]

theorem good_cosh (o : Nat) (x : ℝ) : ∃ d dd, GoodAt o Real.cosh x (DD.kCosh (num x)) d dd :=
  ⟨_, _, if_pos trivial, if_pos trivial, fun _ => if_pos trivial,
    d2At_of' o Real.hasDerivAt_cosh (Real.hasDerivAt_sinh x)⟩

theorem good_sinh (o : Nat) (x : ℝ) : ∃ d dd, GoodAt o Real.sinh x (DD.kSinh (num x)) d dd :=
  ⟨_, _, if_pos trivial, if_pos trivial, fun _ => if_pos trivial,
    d2At_of' o Real.hasDerivAt_sinh (Real.hasDerivAt_cosh x)⟩

theorem hasDerivAt_tanh' (x : ℝ) : HasDerivAt Real.tanh (1 - Real.tanh x * Real.tanh x) x := by
  have hc := (Real.cosh_pos x).ne'
  have := (Real.hasDerivAt_sinh x).div (Real.hasDerivAt_cosh x) hc
  refine (this.congr_deriv ?_).congr_of_eventuallyEq
    (Filter.Eventually.of_forall fun y => Real.tanh_eq_sinh_div_cosh y)
  rw [Real.tanh_eq_sinh_div_cosh]
  field_simp

theorem good_tanh (o : Nat) (x : ℝ) : ∃ d dd, GoodAt o Real.tanh x (DD.kTanh (num x)) d dd := by
  have hf : CMath.tanh (num x) = num (Real.tanh x) := if_pos trivial
  refine ⟨_, -2 * Real.tanh x * (1 - Real.tanh x * Real.tanh x), hf, ?_, ?_,
    d2At_of' o hasDerivAt_tanh' ?_⟩
  · simp [DD.kTanh, hf]
  · intro _; simp [DD.kTanh, hf]
  · have h1 := hasDerivAt_tanh' x
    refine ((h1.mul h1).const_sub 1).congr_deriv ?_
    ring

theorem good_acosh (o : Nat) {x : ℝ} (hx : 1 < x) :
    ∃ d dd, GoodAt o Real.arcosh x (DD.kAcosh (num x)) d dd := by
  have hm : 0 < x - 1 := by linarith
  have hp : 0 < x + 1 := by linarith
  have hq : CMath.sqrt (num (x - 1)) = num √(x - 1) := if_pos hm.le
  have hq' : CMath.sqrt (num (x + 1)) = num √(x + 1) := if_pos hp.le
  have hs := Real.sqrt_pos.mpr hm
  have hs' := Real.sqrt_pos.mpr hp
  have hd : ∀ y : ℝ, 1 < y → HasDerivAt Real.arcosh (1 / (√(y - 1) * √(y + 1))) y := by
    intro y hy
    refine (Real.hasDerivAt_arcosh hy).congr_deriv ?_
    rw [← Real.sqrt_mul (by linarith), one_div]
    ring_nf
  refine ⟨_, -(1 / (√(x - 1) * √(x + 1))) * x / ((x - 1) * (x + 1)), if_pos hx.le, ?_, ?_,
    d2At_of o isOpen_Ioi hx (fun y hy => hd y hy) ?_⟩
  · simp only [DD.kAcosh, lit_num, mul_num, sub_num, add_num, Int.cast_one, hq, hq']
    rw [div_num (by positivity)]
  · intro _
    simp only [DD.kAcosh, lit_num, mul_num, sub_num, add_num, Int.cast_one, hq, hq']
    rw [div_num (by positivity), neg_num, mul_num, div_num (by positivity)]
  · have h1 := (((hasDerivAt_id x).sub_const 1).sqrt hm.ne').mul
      (((hasDerivAt_id x).add_const 1).sqrt hp.ne')
    have h2 := h1.inv (by simpa using ⟨hs.ne', hs'.ne'⟩)
    refine (h2.congr_deriv ?_).congr_of_eventuallyEq (Filter.Eventually.of_forall fun y => ?_)
    · have e1 := Real.sq_sqrt hm.le
      have e2 := Real.sq_sqrt hp.le
      simp only [id, Pi.mul_apply]
      generalize √(x - 1) = r at *
      generalize √(x + 1) = s at *
      have ex : x = (r ^ 2 + s ^ 2) / 2 := by linarith
      rw [← e1, ← e2, ex]
      field_simp
      ring
    · simp

theorem good_asinh (o : Nat) (x : ℝ) : ∃ d dd, GoodAt o Real.arsinh x (DD.kAsinh (num x)) d dd := by
  have hp : ∀ y : ℝ, 0 < 1 + y * y := fun y => by nlinarith [mul_self_nonneg y]
  have hs := Real.sqrt_pos.mpr (hp x)
  have hq : CMath.sqrt (num (1 + x * x)) = num √(1 + x * x) := if_pos (hp x).le
  have h1 : HasDerivAt (fun y : ℝ => 1 + y * y) (2 * x) x := by
    refine (((hasDerivAt_id x).mul (hasDerivAt_id x)).const_add 1).congr_deriv ?_
    simp; ring
  have h2 : HasDerivAt (fun y : ℝ => 1 / √(1 + y * y))
      (-(1 / √(1 + x * x)) * x / (1 + x * x)) x := by
    have h2 := (h1.sqrt (hp x).ne').inv hs.ne'
    refine (h2.congr_deriv ?_).congr_of_eventuallyEq (Filter.Eventually.of_forall fun y => ?_)
    · have e := Real.sq_sqrt (hp x).le
      generalize √(1 + x * x) = r at *
      rw [← e]; field_simp
    · simp
  refine ⟨_, _, if_pos trivial, ?_, ?_, d2At_of' o (φ' := fun y => 1 / √(1 + y * y)) ?_ h2⟩
  · simp only [DD.kAsinh, lit_num, mul_num, add_num, Int.cast_one, hq]
    rw [div_num hs.ne']
  · intro _
    simp only [DD.kAsinh, lit_num, mul_num, add_num, Int.cast_one, hq]
    rw [div_num hs.ne', neg_num, mul_num, div_num (hp x).ne']
  · intro y
    refine (Real.hasDerivAt_arsinh y).congr_deriv ?_
    rw [pow_two, one_div]

theorem hasDerivAt_artanh {x : ℝ} (hx : -1 < x ∧ x < 1) :
    HasDerivAt Real.artanh (1 / (1 - x * x)) x := by
  have h1 : (1 : ℝ) + x ≠ 0 := by linarith [hx.1]
  have h2 : (1 : ℝ) - x ≠ 0 := by linarith [hx.2]
  have hd : HasDerivAt (fun y : ℝ => 1 / 2 * (Real.log (1 + y) - Real.log (1 - y)))
      (1 / 2 * (1 / (1 + x) - -1 / (1 - x))) x :=
    ((((hasDerivAt_id x).const_add 1).log h1).sub (((hasDerivAt_id x).const_sub 1).log h2)).const_mul _
  have e : Real.artanh =ᶠ[𝓝 x] fun y => 1 / 2 * (Real.log (1 + y) - Real.log (1 - y)) := by
    filter_upwards [isOpen_Ioo.mem_nhds hx] with y hy
    rw [Real.artanh_eq_half_log ⟨hy.1.le, hy.2.le⟩,
      Real.log_div (by linarith [hy.1]) (by linarith [hy.2])]
  refine (hd.congr_of_eventuallyEq e).congr_deriv ?_
  rw [show 1 - x * x = (1 + x) * (1 - x) by ring]
  field_simp
  ring

theorem good_atanh (o : Nat) {x : ℝ} (hx : -1 < x ∧ x < 1) :
    ∃ d dd, GoodAt o Real.artanh x (DD.kAtanh (num x)) d dd := by
  have ht := one_sub_sq_pos hx
  have ht' : x * x - 1 ≠ 0 := by linarith
  refine ⟨_, 2 * x / (x * x - 1) ^ 2, if_pos (abs_lt.mpr hx), ?_, ?_,
    d2At_of o isOpen_Ioo hx (fun y hy => hasDerivAt_artanh hy) ?_⟩
  · simp only [DD.kAtanh, lit_num, mul_num, sub_num, Int.cast_one]
    rw [div_num ht.ne']
  · intro _
    simp only [DD.kAtanh, lit_num, mul_num, sub_num, Int.cast_one, powN_num]
    rw [div_num (by positivity)]; simp
  · have h1 : HasDerivAt (fun y : ℝ => 1 - y * y) (-(2 * x)) x := by
      refine (((hasDerivAt_id x).mul (hasDerivAt_id x)).const_sub 1).congr_deriv ?_
      simp; ring
    refine ((h1.inv ht.ne').congr_deriv ?_).congr_of_eventuallyEq
      (Filter.Eventually.of_forall fun y => ?_)
    · have e : (1 - x * x) ^ 2 = (x * x - 1) ^ 2 := by ring
      rw [e]; simp
    · simp

theorem good_exp (o : Nat) (x : ℝ) : ∃ d dd, GoodAt o Real.exp x (DD.kExp (num x)) d dd :=
  ⟨_, _, if_pos trivial, if_pos trivial, fun _ => if_pos trivial,
    d2At_of' o Real.hasDerivAt_exp (Real.hasDerivAt_exp x)⟩

theorem good_log (o : Nat) {x : ℝ} (hx : 0 < x) :
    ∃ d dd, GoodAt o Real.log x (DD.kLog (num x)) d dd := by
  refine ⟨_, -(1 / x) * (1 / x), if_pos hx, ?_, ?_,
    d2At_of o isOpen_ne hx.ne' (φ' := fun y => 1 / y)
      (fun y hy => by rw [one_div]; exact Real.hasDerivAt_log hy) ?_⟩
  · simp [DD.kLog, div_num hx.ne']
  · intro _; simp [DD.kLog, div_num hx.ne']
  · refine ((hasDerivAt_inv hx.ne').congr_deriv ?_).congr_of_eventuallyEq
      (Filter.Eventually.of_forall fun y => ?_)
    · field_simp
    · simp

/-- `log_b` for any `b` with `log b ≠ 0`. -/
theorem d2At_logb (o : Nat) {x b : ℝ} (hx : 0 < x) (hb : Real.log b ≠ 0) :
    D2At o (Real.logb b) x (1 / (x * Real.log b)) (-(1 / (x * Real.log b)) / x) := by
  refine d2At_of o isOpen_ne hx.ne' (φ' := fun y => 1 / (y * Real.log b)) (fun y hy => ?_) ?_
  · refine ((Real.hasDerivAt_log hy).div_const (Real.log b)).congr_deriv ?_
    have : y ≠ 0 := hy
    field_simp
  · have h1 := ((hasDerivAt_id x).mul_const (Real.log b)).inv (mul_ne_zero hx.ne' hb)
    refine (h1.congr_deriv ?_).congr_of_eventuallyEq (Filter.Eventually.of_forall fun y => ?_)
    · simp only [id]; field_simp
    · simp

theorem good_logB (o : Nat) {x b : ℝ} (hx : 0 < x) (hb : 0 < b) (hb1 : b ≠ 1) :
    ∃ d dd, GoodAt o (Real.logb b) x (DD.kLogB (num b) (num x)) d dd := by
  have hl : Real.log b ≠ 0 := Real.log_ne_zero_of_pos_of_ne_one hb hb1
  have e1 : CMath.log (num x) = num (Real.log x) := if_pos hx
  have e2 : CMath.log (num b) = num (Real.log b) := if_pos hb
  refine ⟨_, _, ?_, ?_, ?_, d2At_logb o hx hl⟩
  · simp only [DD.kLogB, e1, e2, div_num hl]; rfl
  · simp only [DD.kLogB, e2, mul_num, lit_num, div_num (mul_ne_zero hx.ne' hl)]; simp
  · intro _
    simp only [DD.kLogB, e2, mul_num, lit_num, div_num (mul_ne_zero hx.ne' hl), neg_num,
      div_num hx.ne']; simp

theorem good_log2 (o : Nat) {x : ℝ} (hx : 0 < x) :
    ∃ d dd, GoodAt o (Real.logb 2) x (DD.kLog2 (num x)) d dd := by
  have hl : Real.log 2 ≠ 0 := Real.log_ne_zero_of_pos_of_ne_one (by norm_num) (by norm_num)
  have e2 : CMath.log (num 2) = num (Real.log 2) := if_pos (by norm_num)
  refine ⟨_, _, if_pos hx, ?_, ?_, d2At_logb o hx hl⟩
  · simp only [DD.kLog2, lit_num, Int.cast_ofNat, e2, mul_num, div_num (mul_ne_zero hx.ne' hl)]; simp
  · intro _
    simp only [DD.kLog2, lit_num, Int.cast_ofNat, e2, mul_num, div_num (mul_ne_zero hx.ne' hl),
      neg_num, div_num hx.ne']; simp

theorem good_log10 (o : Nat) {x : ℝ} (hx : 0 < x) :
    ∃ d dd, GoodAt o (Real.logb 10) x (DD.kLog10 (num x)) d dd := by
  have hl : Real.log 10 ≠ 0 := Real.log_ne_zero_of_pos_of_ne_one (by norm_num) (by norm_num)
  have e2 : CMath.log (num 10) = num (Real.log 10) := if_pos (by norm_num)
  refine ⟨_, _, if_pos hx, ?_, ?_, d2At_logb o hx hl⟩
  · simp only [DD.kLog10, lit_num, Int.cast_ofNat, e2, mul_num, div_num (mul_ne_zero hx.ne' hl)]; simp
  · intro _
    simp only [DD.kLog10, lit_num, Int.cast_ofNat, e2, mul_num, div_num (mul_ne_zero hx.ne' hl),
      neg_num, div_num hx.ne']; simp

/-- Where `std::pow` is finite. -/
def powDom (x b : ℝ) : Prop := 0 < x ∨ (x < 0 ∧ ∃ k : ℤ, b = k) ∨ (x = 0 ∧ 0 ≤ b)

theorem pow_num {x b : ℝ} (h : powDom x b) : CMath.pow (num x) (num b) = num (x ^ b) := by
  change XReal.pow (num x) (num b) = _
  unfold XReal.pow
  simp only
  by_cases hb : b = 0
  · simp [hb]
  rw [if_neg hb]
  rcases h with h | ⟨h, hk⟩ | ⟨h, h0⟩
  · rw [if_pos h]
  · rw [if_neg (by linarith), if_neg h.ne, if_pos hk]
  · rw [if_neg (by linarith), if_pos h, if_pos (lt_of_le_of_ne h0 (Ne.symm hb)), h, Real.zero_rpow hb]

theorem pow_not_fin {x b : ℝ} (h : ¬ powDom x b) : ¬ (CMath.pow (num x) (num b)).Fin := by
  change ¬ (XReal.pow (num x) (num b)).Fin
  unfold XReal.pow
  simp only
  unfold powDom at h
  push Not at h
  obtain ⟨h1, h2, h3⟩ := h
  by_cases hb : b = 0
  · exfalso
    subst hb
    rcases lt_or_eq_of_le h1 with hx | hx
    · exact h2 hx 0 (by simp)
    · exact absurd (h3 hx) (lt_irrefl _)
  rw [if_neg hb, if_neg (by linarith)]
  rcases lt_or_eq_of_le h1 with hx | hx
  · rw [if_neg hx.ne, if_neg (by rintro ⟨k, hk⟩; exact h2 hx k hk)]; simp
  · rw [if_pos hx, if_neg (by linarith [h3 hx])]; simp

theorem good_pow (o : Nat) (ho : o = 1 ∨ o = 2) {x b : ℝ}
    (h : 0 < x ∨ (x < 0 ∧ ∃ k : ℤ, b = k) ∨ (x = 0 ∧ (o : ℝ) ≤ b)) :
    ∃ d dd, GoodAt o (fun x => x ^ b) x (DD.kPow (num b) (num x)) d dd := by
  have ho1 : (1 : ℝ) ≤ o := by rcases ho with rfl | rfl <;> norm_num
  have d0 : powDom x b := by
    rcases h with h | h | ⟨h, h'⟩
    · exact Or.inl h
    · exact Or.inr (Or.inl h)
    · exact Or.inr (Or.inr ⟨h, by linarith⟩)
  have d1 : powDom x (b - 1) := by
    rcases h with h | ⟨h, k, hk⟩ | ⟨h, h'⟩
    · exact Or.inl h
    · exact Or.inr (Or.inl ⟨h, k - 1, by rw [hk]; push_cast; ring⟩)
    · exact Or.inr (Or.inr ⟨h, by linarith⟩)
  have d2 : o = 2 → powDom x (b - 2) := by
    rintro rfl
    rcases h with h | ⟨h, k, hk⟩ | ⟨h, h'⟩
    · exact Or.inl h
    · exact Or.inr (Or.inl ⟨h, k - 2, by rw [hk]; push_cast; ring⟩)
    · exact Or.inr (Or.inr ⟨h, by push_cast at h'; linarith⟩)
  have hx1 : x ≠ 0 ∨ 1 ≤ b := by
    rcases h with h | ⟨h, _⟩ | ⟨h, h'⟩
    · exact Or.inl h.ne'
    · exact Or.inl h.ne
    · exact Or.inr (by linarith)
  refine ⟨b * x ^ (b - 1), (b - 1) * b * x ^ (b - 2), ?_, ?_, ?_, ?_, ?_⟩
  · exact pow_num d0
  · simp only [DD.kPow, lit_num, sub_num, Int.cast_one, pow_num d1, mul_num]
  · intro h2
    simp only [DD.kPow, lit_num, sub_num, Int.cast_one, Int.cast_ofNat, pow_num (d2 h2), mul_num]
  · exact Real.hasDerivAt_rpow_const hx1
  · intro h2
    refine ⟨fun y => b * y ^ (b - 1), ?_, ?_⟩
    · by_cases hx : x = 0
      · have hb : 1 ≤ b := by
          rcases hx1 with h | h
          · exact absurd hx h
          · exact h
        exact Filter.Eventually.of_forall fun y => Real.hasDerivAt_rpow_const (Or.inr hb)
      · filter_upwards [isOpen_ne.mem_nhds hx] with y hy
        exact Real.hasDerivAt_rpow_const (Or.inl hy)
    · have hx2 : x ≠ 0 ∨ 1 ≤ b - 1 := by
        rcases h with h | ⟨h, _⟩ | ⟨h, h'⟩
        · exact Or.inl h.ne'
        · exact Or.inl h.ne
        · right; subst h2; push_cast at h'; linarith
      refine ((Real.hasDerivAt_rpow_const hx2).const_mul b).congr_deriv ?_
      rw [show b - 1 - 1 = b - 2 by ring]; ring

/-- Inside the domain the coefficients are exact. -/
theorem Fn.good {o : Nat} (ho : o = 1 ∨ o = 2) (φ : Fn ℝ) {x : ℝ} (h : φ.dom o x) :
    ∃ d dd, GoodAt o φ.den x ((φ.map num).coef (num x)) d dd := by
  cases φ with
  | sqrt => exact good_sqrt o h
  | cbrt => exact good_cbrt o h
  | reciprocal => exact good_reciprocal o h
  | cos => exact good_cos o x
  | sin => exact good_sin o x
  | tan => exact good_tan o h
  | acos => exact good_acos o h
  | asin => exact good_asin o h
  | atan => exact good_atan o x
  | cosh => exact good_cosh o x
  | sinh => exact good_sinh o x
  | tanh => exact good_tanh o x
  | acosh => exact good_acosh o h
  | asinh => exact good_asinh o x
  | atanh => exact good_atanh o h
  | exp => exact good_exp o x
  | log => exact good_log o h
  | log2 => exact good_log2 o h
  | log10 => exact good_log10 o h
  | pow b => exact good_pow o ho h
  | logB b => exact good_logB o h.1 h.2.1 h.2.2

end HJ
