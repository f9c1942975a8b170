import Verif.Spec.FinErr
import Verif.Spec.Jet

/-!
# Specification: floating-point results without overflow and underflow

Arithmetic with `p` significant bits and unlimited exponents that keeps a record of what happened: a
number is `quiet` if the format with exponents up to `emax` would have raised none of the IEEE 754
exceptions overflow, underflow, division by zero and invalid operation on the way to it.
-/

namespace HJ

/-- Rounding to the nearest number with `p` significant bits, ties to even, exponents unlimited. -/
noncomputable def rndEven (p : Nat) (x : ℝ) : ℝ :=
  roundEven (x / 2 ^ (Int.log 2 |x| + 1 - p)) * 2 ^ (Int.log 2 |x| + 1 - p)

/-- A result is zero, or at least as large as the smallest normal number and does not overflow. -/
def Normal (p emax : Nat) (r : ℝ) : Prop :=
  r = 0 ∨ ((2 : ℝ) ^ (1 - emax : ℤ) ≤ |r| ∧ |rndEven p r| < 2 ^ (emax + 1))

/-- A number, and whether everything it was computed from was a finite number, zero or of normal size. -/
@[ext] structure Watched (p emax : Nat) where
  val : ℝ
  quiet : Prop

/-- The real number, 0 for infinities and NaN. -/
def XReal.real : XReal → ℝ
  | .num r => r
  | _ => 0

variable {p emax : Nat}

/-- The exact result `r` of an operation, rounded; `q` says whether the operands were quiet. -/
noncomputable def watch (r : XReal) (q : Prop) : Watched p emax :=
  ⟨rndEven p r.real, q ∧ r.Fin ∧ Normal p emax r.real⟩

open Classical in
/-- Every operation and library function gives the rounded result of `XReal`; negation is exact. -/
noncomputable instance (p emax : Nat) : CMath (Watched p emax) where
  add x y := watch (.num x.val +ₛ .num y.val) (x.quiet ∧ y.quiet)
  sub x y := watch (.num x.val -ₛ .num y.val) (x.quiet ∧ y.quiet)
  mul x y := watch (.num x.val *ₛ .num y.val) (x.quiet ∧ y.quiet)
  div x y := watch (.num x.val ÷ₛ .num y.val) (x.quiet ∧ y.quiet)
  neg x := ⟨-x.val, x.quiet⟩
  lit z := watch (Arith.lit z) True
  half := ⟨1 / 2, True⟩
  powN x n := watch (Arith.powN (.num x.val) n) x.quiet
  eqB a b := decide (a.val = b.val)
  neB a b := decide (a.val ≠ b.val)
  ltB a b := decide (a.val < b.val)
  gtB a b := decide (a.val > b.val)
  leB a b := decide (a.val ≤ b.val)
  geB a b := decide (a.val ≥ b.val)
  pow x y := watch (CMath.pow (.num x.val) (.num y.val)) (x.quiet ∧ y.quiet)
  atan2 y x := watch (CMath.atan2 (.num y.val) (.num x.val)) (y.quiet ∧ x.quiet)
  hypot x y := watch (CMath.hypot (.num x.val) (.num y.val)) (x.quiet ∧ y.quiet)
  hypot3 x y z := watch (CMath.hypot3 (.num x.val) (.num y.val) (.num z.val))
    (x.quiet ∧ y.quiet ∧ z.quiet)
  sqrt x := watch (CMath.sqrt (.num x.val)) x.quiet
  cbrt x := watch (CMath.cbrt (.num x.val)) x.quiet
  cos x := watch (CMath.cos (.num x.val)) x.quiet
  sin x := watch (CMath.sin (.num x.val)) x.quiet
  tan x := watch (CMath.tan (.num x.val)) x.quiet
  acos x := watch (CMath.acos (.num x.val)) x.quiet
  asin x := watch (CMath.asin (.num x.val)) x.quiet
  atan x := watch (CMath.atan (.num x.val)) x.quiet
  cosh x := watch (CMath.cosh (.num x.val)) x.quiet
  sinh x := watch (CMath.sinh (.num x.val)) x.quiet
  tanh x := watch (CMath.tanh (.num x.val)) x.quiet
  acosh x := watch (CMath.acosh (.num x.val)) x.quiet
  asinh x := watch (CMath.asinh (.num x.val)) x.quiet
  atanh x := watch (CMath.atanh (.num x.val)) x.quiet
  exp x := watch (CMath.exp (.num x.val)) x.quiet
  log x := watch (CMath.log (.num x.val)) x.quiet
  log2 x := watch (CMath.log2 (.num x.val)) x.quiet
  log10 x := watch (CMath.log10 (.num x.val)) x.quiet

/-- The nearest number to `s`. -/
noncomputable def Watched.enc (p emax : Nat) (s : ℝ) : Watched p emax := watch (.num s) True

/-- What the format computed is the number `y`, if `y` is quiet. -/
def Agrees (x : IEEE p emax) (y : Watched p emax) : Prop := y.quiet → x.val = .num y.val

/-- All components agree. -/
def Jet.Agree (order n : Nat) (R : Jet (IEEE p emax)) (W : Jet (Watched p emax)) : Prop :=
  Agrees R.f W.f ∧ (∀ i < n, Agrees (R.g i) (W.g i)) ∧
    (order = 2 → ∀ i j : Nat, i < n → j < n → Agrees (R.h i j) (W.h i j))

/-- Every component whose computation was quiet (`W`) is a finite number that differs from `K` by at most
`γ P`. -/
def Jet.QuietWithin (order n : Nat) (γ : ℝ) (P : Jet ℝ) (R : Jet (IEEE p emax))
    (W : Jet (Watched p emax)) (K : Jet ℝ) : Prop :=
  (W.f.quiet → ∃ s, R.f = ⟨.num s⟩ ∧ |s - K.f| ≤ γ * P.f) ∧
    (∀ i < n, (W.g i).quiet → ∃ s, R.g i = ⟨.num s⟩ ∧ |s - K.g i| ≤ γ * P.g i) ∧
    (order = 2 → ∀ i j : Nat, i < n → j < n → (W.h i j).quiet →
      ∃ s, R.h i j = ⟨.num s⟩ ∧ |s - K.h i j| ≤ γ * P.h i j)

/-- Expressions that do not contain `abs`, the only operation that compares scalars. -/
def Expr.NoAbs {α V : Type} : Expr α V → Prop
  | .var _ => True
  | .const _ => True
  | .neg e => e.NoAbs
  | .abs _ => False
  | .fn _ e => e.NoAbs
  | .bin _ e₁ e₂ => e₁.NoAbs ∧ e₂.NoAbs
  | .sbin _ e _ => e.NoAbs
  | .hypot3 e₁ e₂ e₃ => e₁.NoAbs ∧ e₂.NoAbs ∧ e₃.NoAbs

/-! ## Accuracy -/

theorem roundEven_zero : roundEven 0 = 0 := by simpa using roundEven_int 0

theorem rndEven_close (p : Nat) (x : ℝ) : Close (1 / 2 ^ p) (rndEven p x) x := by
  unfold Close rndEven
  by_cases hx : x = 0
  · simp [hx, roundEven_zero]
  have hpos : 0 < |x| := abs_pos.2 hx
  set E := Int.log 2 |x| + 1 - p with hE
  have hP : (0 : ℝ) < 2 ^ E := zpow_pos (by norm_num) _
  have hle : (2 : ℝ) ^ E / 2 ≤ 1 / 2 ^ p * |x| := by
    have h1 : ((2 : ℕ) : ℝ) ^ (Int.log 2 |x|) ≤ |x| := Int.zpow_log_le_self (b := 2) (by norm_num) hpos
    have e : (2 : ℝ) ^ E / 2 = 1 / 2 ^ p * 2 ^ (Int.log 2 |x|) := by
      rw [hE, zpow_sub₀ (by norm_num), zpow_add₀ (by norm_num), zpow_natCast]
      field_simp
    rw [e]
    exact mul_le_mul_of_nonneg_left (by exact_mod_cast h1) (by positivity)
  have e : |roundEven (x / 2 ^ E) * 2 ^ E - x| = |x / 2 ^ E - roundEven (x / 2 ^ E)| * 2 ^ E := by
    rw [abs_sub_comm, ← abs_of_pos hP, ← abs_mul, abs_of_pos hP]
    congr 1; field_simp
  rw [e]
  have h1 := mul_le_mul_of_nonneg_right (abs_sub_roundEven (x / 2 ^ E)) hP.le
  linarith

/-- Numbers with at most `p` bits are not rounded. -/
theorem rndEven_exact {x : ℝ} (m : Int) (e : Int) (hx : x = m * 2 ^ e)
    (h : Int.log 2 |x| + 1 - p ≤ e) : rndEven p x = x := by
  unfold rndEven
  set E := Int.log 2 |x| + 1 - p with hE
  have hP : (2 : ℝ) ^ E ≠ 0 := zpow_ne_zero _ (by norm_num)
  obtain ⟨k, hk⟩ : ∃ k : Nat, e = E + k := ⟨(e - E).toNat, by omega⟩
  have : x / 2 ^ E = ((m * 2 ^ k : Int) : ℝ) := by
    rw [hx, hk, zpow_add₀ (by norm_num)]
    push_cast
    rw [zpow_natCast]
    field_simp
  rw [this, roundEven_int, ← this]
  field_simp

theorem rndEven_int (hp : 4 ≤ p) {z : Int} (hz : |z| ≤ 10) : rndEven p z = z := by
  refine rndEven_exact z 0 (by simp) ?_
  by_cases h0 : z = 0
  · simp [h0]; omega
  have hpos : (0 : ℝ) < |(z : ℝ)| := abs_pos.2 (by exact_mod_cast h0)
  have : Int.log 2 |(z : ℝ)| < 4 := by
    rw [← Int.lt_zpow_iff_log_lt (by norm_num) hpos]
    have : |(z : ℝ)| ≤ 10 := by exact_mod_cast hz
    norm_num
    linarith
  omega

theorem watch_close {x : XReal} {r : ℝ} (hx : x = .num r) {q : Prop} :
    Close (1 / 2 ^ p) (watch x q : Watched p emax).val r := by
  subst hx
  exact rndEven_close p r

open Classical in
/-- It is an arithmetic with relative error `2⁻ᵖ`. -/
noncomputable def watchErr (p emax : Nat) (hp : 4 ≤ p) : LibErr (Watched p emax) (1 / 2 ^ p) where
  val := Watched.val
  nonneg := by positivity
  add _ _ := watch_close rfl
  sub a b := watch_close (by rw [sub_eq_add_neg]; rfl)
  mul _ _ := watch_close rfl
  div _ _ h := watch_close (if_neg h)
  neg _ := rfl
  lit z hz := rndEven_int hp (hz.trans (by norm_num))
  lt_one := by
    rw [div_lt_one (by positivity)]
    exact one_lt_pow₀ (by norm_num) (by omega)
  lit10 z hz := rndEven_int hp hz
  powN _ _ _ := watch_close rfl
  less _ _ := decide_eq_true_iff
  pow a b h := watch_close (by
    show (if _ then _ else if _ then _ else if _ then _ else if _ then _ else _) = _
    by_cases h0 : b.val = 0
    · rw [if_pos h0, h0, Real.rpow_zero]
    rw [if_neg h0]
    rcases h with h | ⟨h, k⟩ | ⟨h, h'⟩
    · rw [if_pos h]
    · rw [if_neg (not_lt.2 h.le), if_neg h.ne, if_pos k]
    · rw [if_neg (not_lt.2 h.le), if_pos h, if_pos (lt_of_le_of_ne h' (Ne.symm h0)), h,
        Real.zero_rpow h0])
  sqrt _ h := watch_close (if_pos h)
  cbrt _ := watch_close (if_pos trivial)
  cos _ := watch_close (if_pos trivial)
  sin _ := watch_close (if_pos trivial)
  tan _ h := watch_close (if_neg h)
  acos _ h h' := watch_close (if_pos ⟨h, h'⟩)
  asin _ h h' := watch_close (if_pos ⟨h, h'⟩)
  atan _ := watch_close (if_pos trivial)
  atan2 _ _ _ := watch_close rfl
  hypot _ _ := watch_close rfl
  hypot3 _ _ _ := watch_close rfl
  cosh _ := watch_close (if_pos trivial)
  sinh _ := watch_close (if_pos trivial)
  tanh _ := watch_close (if_pos trivial)
  acosh _ h := watch_close (if_pos h)
  asinh _ := watch_close (if_pos trivial)
  atanh _ h h' := watch_close (if_pos (abs_lt.2 ⟨h, h'⟩))
  exp _ := watch_close (if_pos trivial)
  log _ h := watch_close (if_pos h)
  log2 _ h := watch_close (if_pos h)
  log10 _ h := watch_close (if_pos h)

/-! ## Normal results are rounded in the same way -/

theorem rndFmt_normal {r : ℝ} (h : r = 0 ∨ (2 : ℝ) ^ (1 - emax : ℤ) ≤ |r|) :
    rndFmt p emax r = rndEven p r := by
  rcases h with rfl | h
  · simp [rndFmt, rndEven, roundEven_zero]
  · have hpos : 0 < |r| := lt_of_lt_of_le (by positivity) h
    have : (1 - emax : ℤ) ≤ Int.log 2 |r| := by
      rw [← Int.zpow_le_iff_le_log (by norm_num) hpos]
      exact_mod_cast h
    rw [rndFmt, max_eq_left this]
    rfl

theorem toFmt_normal {r : ℝ} (h : Normal p emax r) :
    toFmt p emax (.num r) = .num (rndEven p r) := by
  have num : ∀ x, toFmt p emax (.num x) = open Classical in if |rndFmt p emax x| < 2 ^ (emax + 1) then
      .num (rndFmt p emax x) else .inf (decide (x < 0)) := fun x => rfl
  rw [num, rndFmt_normal (h.imp_right And.left), if_pos]
  rcases h with rfl | h
  · simp [rndEven, roundEven_zero]
  · exact h.2

end HJ
