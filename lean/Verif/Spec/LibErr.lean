import Verif.Spec.Error
import Verif.Spec.Client
import Mathlib.Data.Int.Log
import Mathlib.Algebra.Order.Round
import Mathlib.Tactic.NormNum

/-!
# Specification: a mathematical library with bounded relative error

As `RelErr`, and every function of `<cmath>` returns the exact result up to a relative error of at
most `u` wherever it is defined.  Overflow and underflow are not described.
-/

namespace HJ

/-- `x` is `a` up to a relative error of at most `u`. -/
def Close (u x a : ℝ) : Prop := |x - a| ≤ u * |a|

/-- The operators and library functions of `α` compute with the real numbers `val` up to a relative
error `u`.  Negation, comparison and the integer literals of the code are exact.  Nothing is said about
`atan2` on its cut, where the result depends on the sign of zero. -/
structure LibErr (α : Type) [CMath α] (u : ℝ) extends RelErr α u where
  lt_one : u < 1
  lit10 : ∀ z : Int, |z| ≤ 10 → val (Arith.lit z) = z
  powN : ∀ (a : α) (k : Nat), k ≤ 3 → Close u (val (Arith.powN a k)) (val a ^ k)
  less : ∀ a b : α, Cmp.ltB a b = true ↔ val a < val b
  pow : ∀ a b : α, (0 < val a ∨ (val a < 0 ∧ ∃ k : ℤ, val b = k) ∨ (val a = 0 ∧ 0 ≤ val b)) →
    Close u (val (CMath.pow a b)) (val a ^ val b)
  sqrt : ∀ a : α, 0 ≤ val a → Close u (val (CMath.sqrt a)) √(val a)
  cbrt : ∀ a : α, Close u (val (CMath.cbrt a)) (XReal.cbrtR (val a))
  cos : ∀ a : α, Close u (val (CMath.cos a)) (Real.cos (val a))
  sin : ∀ a : α, Close u (val (CMath.sin a)) (Real.sin (val a))
  tan : ∀ a : α, Real.cos (val a) ≠ 0 → Close u (val (CMath.tan a)) (Real.tan (val a))
  acos : ∀ a : α, -1 ≤ val a → val a ≤ 1 → Close u (val (CMath.acos a)) (Real.arccos (val a))
  asin : ∀ a : α, -1 ≤ val a → val a ≤ 1 → Close u (val (CMath.asin a)) (Real.arcsin (val a))
  atan : ∀ a : α, Close u (val (CMath.atan a)) (Real.arctan (val a))
  atan2 : ∀ a b : α, val a ≠ 0 ∨ 0 < val b →
    Close u (val (CMath.atan2 a b)) (Complex.arg ⟨val b, val a⟩)
  hypot : ∀ a b : α, Close u (val (CMath.hypot a b)) √(val a ^ 2 + val b ^ 2)
  hypot3 : ∀ a b d : α,
    Close u (val (CMath.hypot3 a b d)) √(val a ^ 2 + val b ^ 2 + val d ^ 2)
  cosh : ∀ a : α, Close u (val (CMath.cosh a)) (Real.cosh (val a))
  sinh : ∀ a : α, Close u (val (CMath.sinh a)) (Real.sinh (val a))
  tanh : ∀ a : α, Close u (val (CMath.tanh a)) (Real.tanh (val a))
  acosh : ∀ a : α, 1 ≤ val a → Close u (val (CMath.acosh a)) (Real.arcosh (val a))
  asinh : ∀ a : α, Close u (val (CMath.asinh a)) (Real.arsinh (val a))
  atanh : ∀ a : α, -1 < val a → val a < 1 → Close u (val (CMath.atanh a)) (Real.artanh (val a))
  exp : ∀ a : α, Close u (val (CMath.exp a)) (Real.exp (val a))
  log : ∀ a : α, 0 < val a → Close u (val (CMath.log a)) (Real.log (val a))
  log2 : ∀ a : α, 0 < val a → Close u (val (CMath.log2 a)) (Real.logb 2 (val a))
  log10 : ∀ a : α, 0 < val a → Close u (val (CMath.log10 a)) (Real.logb 10 (val a))

/-! ## Correctly rounded arithmetic -/

/-- Real numbers computed with by rounding every result. -/
@[ext] structure Flt (rnd : ℝ → ℝ) where
  val : ℝ

open Classical in
/-- Every operation and library function returns the rounded exact result; negation is exact. -/
noncomputable instance (rnd : ℝ → ℝ) : CMath (Flt rnd) where
  add x y := ⟨rnd (x.val + y.val)⟩
  sub x y := ⟨rnd (x.val - y.val)⟩
  mul x y := ⟨rnd (x.val * y.val)⟩
  div x y := ⟨rnd (x.val / y.val)⟩
  neg x := ⟨-x.val⟩
  lit z := ⟨rnd z⟩
  half := ⟨1 / 2⟩
  powN x n := ⟨rnd (x.val ^ n)⟩
  eqB a b := decide (a.val = b.val)
  neB a b := decide (a.val ≠ b.val)
  ltB a b := decide (a.val < b.val)
  gtB a b := decide (a.val > b.val)
  leB a b := decide (a.val ≤ b.val)
  geB a b := decide (a.val ≥ b.val)
  pow x y := ⟨rnd (x.val ^ y.val)⟩
  sqrt x := ⟨rnd √x.val⟩
  cbrt x := ⟨rnd (XReal.cbrtR x.val)⟩
  cos x := ⟨rnd (Real.cos x.val)⟩
  sin x := ⟨rnd (Real.sin x.val)⟩
  tan x := ⟨rnd (Real.tan x.val)⟩
  acos x := ⟨rnd (Real.arccos x.val)⟩
  asin x := ⟨rnd (Real.arcsin x.val)⟩
  atan x := ⟨rnd (Real.arctan x.val)⟩
  atan2 y x := ⟨rnd (Complex.arg ⟨x.val, y.val⟩)⟩
  hypot x y := ⟨rnd √(x.val ^ 2 + y.val ^ 2)⟩
  hypot3 x y z := ⟨rnd √(x.val ^ 2 + y.val ^ 2 + z.val ^ 2)⟩
  cosh x := ⟨rnd (Real.cosh x.val)⟩
  sinh x := ⟨rnd (Real.sinh x.val)⟩
  tanh x := ⟨rnd (Real.tanh x.val)⟩
  acosh x := ⟨rnd (Real.arcosh x.val)⟩
  asinh x := ⟨rnd (Real.arsinh x.val)⟩
  atanh x := ⟨rnd (Real.artanh x.val)⟩
  exp x := ⟨rnd (Real.exp x.val)⟩
  log x := ⟨rnd (Real.log x.val)⟩
  log2 x := ⟨rnd (Real.logb 2 x.val)⟩
  log10 x := ⟨rnd (Real.logb 10 x.val)⟩

/-- A rounding function with relative error `u` that keeps the integers up to 10 gives an arithmetic
as described by `LibErr`. -/
def fltErr {rnd : ℝ → ℝ} {u : ℝ} (h0 : 0 ≤ u) (h1 : u < 1) (h : ∀ x, Close u (rnd x) x)
    (hz : ∀ z : Int, |z| ≤ 10 → rnd z = z) : LibErr (Flt rnd) u where
  val := Flt.val
  nonneg := h0
  add _ _ := h _
  sub _ _ := h _
  mul _ _ := h _
  div _ _ _ := h _
  neg _ := rfl
  lit z hz' := hz z (hz'.trans (by norm_num))
  lt_one := h1
  lit10 := hz
  powN _ _ _ := h _
  less _ _ := by
    show decide _ = true ↔ _
    rw [decide_eq_true_eq]
  pow _ _ _ := h _
  sqrt _ _ := h _
  cbrt _ := h _
  cos _ := h _
  sin _ := h _
  tan _ _ := h _
  acos _ _ _ := h _
  asin _ _ _ := h _
  atan _ := h _
  atan2 _ _ _ := h _
  hypot _ _ := h _
  hypot3 _ _ _ := h _
  cosh _ := h _
  sinh _ := h _
  tanh _ := h _
  acosh _ _ := h _
  asinh _ := h _
  atanh _ _ _ := h _
  exp _ := h _
  log _ _ := h _
  log2 _ _ := h _
  log10 _ _ := h _

/-- Rounding to the nearest number with `p` significant bits (unlimited exponent range). -/
noncomputable def rndBits (p : Nat) (x : ℝ) : ℝ :=
  round (x / 2 ^ (Int.log 2 |x| + 1 - p)) * 2 ^ (Int.log 2 |x| + 1 - p)

theorem rndBits_close (p : Nat) (x : ℝ) : Close (1 / 2 ^ p) (rndBits p x) x := by
  unfold Close rndBits
  by_cases hx : x = 0
  · simp [hx]
  have hpos : 0 < |x| := abs_pos.2 hx
  set E := Int.log 2 |x| + 1 - p with hE
  have hP : (0 : ℝ) < 2 ^ E := zpow_pos (by norm_num) _
  have hle : (2 : ℝ) ^ E / 2 ≤ 1 / 2 ^ p * |x| := by
    have h1 : ((2 : ℕ) : ℝ) ^ (Int.log 2 |x|) ≤ |x| := Int.zpow_log_le_self (b := 2) (by norm_num) hpos
    have e : (2 : ℝ) ^ E / 2 = 1 / 2 ^ p * 2 ^ (Int.log 2 |x|) := by
      rw [hE, zpow_sub₀ (by norm_num), zpow_add₀ (by norm_num), zpow_natCast]
      field_simp
    rw [e]
    exact mul_le_mul_of_nonneg_left (by exact_mod_cast h1) (by positivity)
  have e : |round (x / 2 ^ E) * 2 ^ E - x| = |x / 2 ^ E - round (x / 2 ^ E)| * 2 ^ E := by
    rw [abs_sub_comm, ← abs_of_pos hP, ← abs_mul, abs_of_pos hP]
    congr 1; field_simp
  rw [e]
  have := mul_le_mul_of_nonneg_right (abs_sub_round (x / 2 ^ E)) hP.le
  linarith

/-- Numbers with `p` bits are not changed. -/
theorem rndBits_exact {p : Nat} {x : ℝ} (m : Int) (e : Int) (hx : x = m * 2 ^ e)
    (h : Int.log 2 |x| + 1 - p ≤ e) : rndBits p x = x := by
  unfold rndBits
  set E := Int.log 2 |x| + 1 - p with hE
  have hP : (2 : ℝ) ^ E ≠ 0 := zpow_ne_zero _ (by norm_num)
  obtain ⟨k, hk⟩ : ∃ k : Nat, e = E + k := ⟨(e - E).toNat, by omega⟩
  have : x / 2 ^ E = ((m * 2 ^ k : Int) : ℝ) := by
    rw [hx, hk, zpow_add₀ (by norm_num)]
    push_cast
    rw [zpow_natCast]
    field_simp
  rw [this, round_intCast, ← this]
  field_simp

theorem rndBits_int {p : Nat} (hp : 4 ≤ p) {z : Int} (hz : |z| ≤ 10) : rndBits p z = z := by
  refine rndBits_exact z 0 (by simp) ?_
  by_cases h0 : z = 0
  · simp [h0]; omega
  have hpos : (0 : ℝ) < |(z : ℝ)| := abs_pos.2 (by exact_mod_cast h0)
  have : Int.log 2 |(z : ℝ)| < 4 := by
    rw [← Int.lt_zpow_iff_log_lt (by norm_num) hpos]
    have : |(z : ℝ)| ≤ 10 := by exact_mod_cast hz
    norm_num
    linarith
  omega

/-- Arithmetic with `p` bits, correctly rounded to nearest: `u = 2⁻ᵖ`. -/
noncomputable def bitsErr (p : Nat) (hp : 4 ≤ p) : LibErr (Flt (rndBits p)) (1 / 2 ^ p) :=
  fltErr (by positivity)
    (by
      rw [div_lt_one (by positivity)]
      exact one_lt_pow₀ (by norm_num) (by omega))
    (rndBits_close p) fun _ hz => rndBits_int hp hz

end HJ
