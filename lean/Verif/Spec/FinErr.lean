import Verif.Spec.LibErr
import Verif.Spec.Control

/-!
# Specification: arithmetics with overflow and underflow

As `LibErr`, but numbers may be infinite or undefined, results are accurate only while they stay in
some range, and close to zero the error is absolute.
-/

namespace HJ

/-- Precision of an arithmetic: relative error, absolute error (of results that underflow), and the real
numbers that do not overflow. -/
structure Prec where
  rel : ℝ
  abs : ℝ
  range : Set ℝ

/-- If the exact result `r` is in range, then `x` is finite and its error is that of one rounding. -/
def Sound {α : Type} (p : Prec) (fin : α → Prop) (val : α → ℝ) (x : α) (r : ℝ) : Prop :=
  r ∈ p.range → fin x ∧ |val x - r| ≤ p.rel * |r| + p.abs

/-- The operators and library functions of `α`, applied to finite numbers inside their domains, have one
rounding error as long as the result is in range.  Nothing is said about infinities and NaN.  Negation,
`<` and the integer literals of the code are exact. -/
structure FinErr (α : Type) [CMath α] (p : Prec) where
  val : α → ℝ
  fin : α → Prop
  rel_nonneg : 0 ≤ p.rel
  abs_nonneg : 0 ≤ p.abs
  lit : ∀ z : Int, |z| ≤ 10 → fin (Arith.lit z) ∧ val (Arith.lit z) = z
  neg : ∀ a, fin a → fin (-ₛ a) ∧ val (-ₛ a) = -val a
  less : ∀ a b, fin a → fin b → (Cmp.ltB a b = true ↔ val a < val b)
  add : ∀ a b, fin a → fin b → Sound p fin val (a +ₛ b) (val a + val b)
  sub : ∀ a b, fin a → fin b → Sound p fin val (a -ₛ b) (val a - val b)
  mul : ∀ a b, fin a → fin b → Sound p fin val (a *ₛ b) (val a * val b)
  div : ∀ a b, val b ≠ 0 → fin a → fin b → Sound p fin val (a ÷ₛ b) (val a / val b)
  powN : ∀ a (k : Nat), k ≤ 3 → fin a → Sound p fin val (Arith.powN a k) (val a ^ k)
  pow : ∀ a b, 0 < val a → fin a → fin b → Sound p fin val (CMath.pow a b) (val a ^ val b)
  sqrt : ∀ a, 0 ≤ val a → fin a → Sound p fin val (CMath.sqrt a) √(val a)
  cbrt : ∀ a, fin a → Sound p fin val (CMath.cbrt a) (XReal.cbrtR (val a))
  cos : ∀ a, fin a → Sound p fin val (CMath.cos a) (Real.cos (val a))
  sin : ∀ a, fin a → Sound p fin val (CMath.sin a) (Real.sin (val a))
  tan : ∀ a, Real.cos (val a) ≠ 0 → fin a → Sound p fin val (CMath.tan a) (Real.tan (val a))
  acos : ∀ a, -1 ≤ val a → val a ≤ 1 → fin a → Sound p fin val (CMath.acos a) (Real.arccos (val a))
  asin : ∀ a, -1 ≤ val a → val a ≤ 1 → fin a → Sound p fin val (CMath.asin a) (Real.arcsin (val a))
  atan : ∀ a, fin a → Sound p fin val (CMath.atan a) (Real.arctan (val a))
  atan2 : ∀ a b, val a ≠ 0 ∨ 0 < val b → fin a → fin b →
    Sound p fin val (CMath.atan2 a b) (Complex.arg ⟨val b, val a⟩)
  hypot : ∀ a b, fin a → fin b → Sound p fin val (CMath.hypot a b) √(val a ^ 2 + val b ^ 2)
  hypot3 : ∀ a b d, fin a → fin b → fin d →
    Sound p fin val (CMath.hypot3 a b d) √(val a ^ 2 + val b ^ 2 + val d ^ 2)
  cosh : ∀ a, fin a → Sound p fin val (CMath.cosh a) (Real.cosh (val a))
  sinh : ∀ a, fin a → Sound p fin val (CMath.sinh a) (Real.sinh (val a))
  tanh : ∀ a, fin a → Sound p fin val (CMath.tanh a) (Real.tanh (val a))
  acosh : ∀ a, 1 ≤ val a → fin a → Sound p fin val (CMath.acosh a) (Real.arcosh (val a))
  asinh : ∀ a, fin a → Sound p fin val (CMath.asinh a) (Real.arsinh (val a))
  atanh : ∀ a, -1 < val a → val a < 1 → fin a →
    Sound p fin val (CMath.atanh a) (Real.artanh (val a))
  exp : ∀ a, fin a → Sound p fin val (CMath.exp a) (Real.exp (val a))
  log : ∀ a, 0 < val a → fin a → Sound p fin val (CMath.log a) (Real.log (val a))
  log2 : ∀ a, 0 < val a → fin a → Sound p fin val (CMath.log2 a) (Real.logb 2 (val a))
  log10 : ∀ a, 0 < val a → fin a → Sound p fin val (CMath.log10 a) (Real.logb 10 (val a))

/-- `x` is finite and stands for `r` up to one rounding, if `r` is in range. -/
def FinErr.Sound {α : Type} [CMath α] {p : Prec} (M : FinErr α p) (x : α) (r : ℝ) : Prop :=
  HJ.Sound p M.fin M.val x r

/-- Comparisons of finite scalars compare the real numbers they stand for. -/
def FinErr.ExactCmp {α : Type} [CMath α] {p : Prec} (M : FinErr α p) : Prop :=
  ∀ (op : DD.CmpOp) (a b : α), M.fin a → M.fin b → (op.scalar a b = true ↔ op.rel (M.val a) (M.val b))

/-- No overflow and no underflow. -/
def Prec.plain (u : ℝ) : Prec := ⟨u, 0, Set.univ⟩

theorem sound_plain {α : Type} {u : ℝ} {val : α → ℝ} {x : α} {r : ℝ} :
    Sound (.plain u) (fun _ => True) val x r ↔ Close u (val x) r := by
  simp [Sound, Prec.plain, Close]

/-- Arithmetic without overflow and underflow is a special case. -/
def LibErr.toFin {α : Type} [CMath α] {u : ℝ} (M : LibErr α u) : FinErr α (.plain u) where
  val := M.val
  fin _ := True
  rel_nonneg := M.nonneg
  abs_nonneg := le_rfl
  lit z hz := ⟨trivial, M.lit10 z hz⟩
  neg a _ := ⟨trivial, M.neg a⟩
  less a b _ _ := M.less a b
  add a b _ _ := sound_plain.2 (M.add a b)
  sub a b _ _ := sound_plain.2 (M.sub a b)
  mul a b _ _ := sound_plain.2 (M.mul a b)
  div a b h _ _ := sound_plain.2 (M.div a b h)
  powN a k h _ := sound_plain.2 (M.powN a k h)
  pow a b h _ _ := sound_plain.2 (M.pow a b (Or.inl h))
  sqrt a h _ := sound_plain.2 (M.sqrt a h)
  cbrt a _ := sound_plain.2 (M.cbrt a)
  cos a _ := sound_plain.2 (M.cos a)
  sin a _ := sound_plain.2 (M.sin a)
  tan a h _ := sound_plain.2 (M.tan a h)
  acos a h h' _ := sound_plain.2 (M.acos a h h')
  asin a h h' _ := sound_plain.2 (M.asin a h h')
  atan a _ := sound_plain.2 (M.atan a)
  atan2 a b h _ _ := sound_plain.2 (M.atan2 a b h)
  hypot a b _ _ := sound_plain.2 (M.hypot a b)
  hypot3 a b d _ _ _ := sound_plain.2 (M.hypot3 a b d)
  cosh a _ := sound_plain.2 (M.cosh a)
  sinh a _ := sound_plain.2 (M.sinh a)
  tanh a _ := sound_plain.2 (M.tanh a)
  acosh a h _ := sound_plain.2 (M.acosh a h)
  asinh a _ := sound_plain.2 (M.asinh a)
  atanh a h h' _ := sound_plain.2 (M.atanh a h h')
  exp a _ := sound_plain.2 (M.exp a)
  log a h _ := sound_plain.2 (M.log a h)
  log2 a h _ := sound_plain.2 (M.log2 a h)
  log10 a h _ := sound_plain.2 (M.log10 a h)

/-! ## Binary floating-point formats -/

/-- The nearest integer, ties to even. -/
noncomputable def roundEven (x : ℝ) : ℤ :=
  open Classical in if Int.fract x = 1 / 2 ∧ Even ⌊x⌋ then ⌊x⌋ else round x

theorem abs_sub_roundEven (x : ℝ) : |x - roundEven x| ≤ 1 / 2 := by
  unfold roundEven
  split
  · rename_i h
    rw [show x - ⌊x⌋ = Int.fract x from rfl, h.1]
    norm_num
  · exact abs_sub_round x

theorem roundEven_int (z : ℤ) : roundEven (z : ℝ) = z := by
  unfold roundEven
  rw [if_neg (by simp), round_intCast]

/-- Rounding to the nearest number with `p` significant bits; below `2 ^ (1 - emax)`, the smallest normal
number, the spacing no longer decreases. -/
noncomputable def rndFmt (p emax : Nat) (x : ℝ) : ℝ :=
  roundEven (x / 2 ^ (max (Int.log 2 |x|) (1 - emax) + 1 - p)) *
    2 ^ (max (Int.log 2 |x|) (1 - emax) + 1 - p)

/-- Rounding with overflow: results of size `2 ^ (emax + 1)` and above become infinite. -/
noncomputable def toFmt (p emax : Nat) : XReal → XReal
  | .num x => open Classical in
      if |rndFmt p emax x| < 2 ^ (emax + 1) then .num (rndFmt p emax x) else .inf (decide (x < 0))
  | .inf s => .inf s
  | .nan => .nan

/-- The binary floating-point format with `p` significant bits and exponents up to `emax`: numbers,
infinities and NaN, without signed zeros.  `IEEE 53 1023` is `double`, `IEEE 24 127` is `float`. -/
@[ext] structure IEEE (p emax : Nat) where
  val : XReal

/-- Every operation and library function gives the rounded result of `XReal`; negation is exact. -/
noncomputable instance (p emax : Nat) : CMath (IEEE p emax) where
  add x y := ⟨toFmt p emax (x.val +ₛ y.val)⟩
  sub x y := ⟨toFmt p emax (x.val -ₛ y.val)⟩
  mul x y := ⟨toFmt p emax (x.val *ₛ y.val)⟩
  div x y := ⟨toFmt p emax (x.val ÷ₛ y.val)⟩
  neg x := ⟨-ₛ x.val⟩
  lit z := ⟨toFmt p emax (Arith.lit z)⟩
  half := ⟨.num (1 / 2)⟩
  powN x n := ⟨toFmt p emax (Arith.powN x.val n)⟩
  eqB a b := Cmp.eqB a.val b.val
  neB a b := Cmp.neB a.val b.val
  ltB a b := Cmp.ltB a.val b.val
  gtB a b := Cmp.gtB a.val b.val
  leB a b := Cmp.leB a.val b.val
  geB a b := Cmp.geB a.val b.val
  pow x y := ⟨toFmt p emax (CMath.pow x.val y.val)⟩
  sqrt x := ⟨toFmt p emax (CMath.sqrt x.val)⟩
  cbrt x := ⟨toFmt p emax (CMath.cbrt x.val)⟩
  cos x := ⟨toFmt p emax (CMath.cos x.val)⟩
  sin x := ⟨toFmt p emax (CMath.sin x.val)⟩
  tan x := ⟨toFmt p emax (CMath.tan x.val)⟩
  acos x := ⟨toFmt p emax (CMath.acos x.val)⟩
  asin x := ⟨toFmt p emax (CMath.asin x.val)⟩
  atan x := ⟨toFmt p emax (CMath.atan x.val)⟩
  atan2 y x := ⟨toFmt p emax (CMath.atan2 y.val x.val)⟩
  hypot x y := ⟨toFmt p emax (CMath.hypot x.val y.val)⟩
  hypot3 x y z := ⟨toFmt p emax (CMath.hypot3 x.val y.val z.val)⟩
  cosh x := ⟨toFmt p emax (CMath.cosh x.val)⟩
  sinh x := ⟨toFmt p emax (CMath.sinh x.val)⟩
  tanh x := ⟨toFmt p emax (CMath.tanh x.val)⟩
  acosh x := ⟨toFmt p emax (CMath.acosh x.val)⟩
  asinh x := ⟨toFmt p emax (CMath.asinh x.val)⟩
  atanh x := ⟨toFmt p emax (CMath.atanh x.val)⟩
  exp x := ⟨toFmt p emax (CMath.exp x.val)⟩
  log x := ⟨toFmt p emax (CMath.log x.val)⟩
  log2 x := ⟨toFmt p emax (CMath.log2 x.val)⟩
  log10 x := ⟨toFmt p emax (CMath.log10 x.val)⟩

/-- The format's nearest number to `s`, infinite if too large. -/
noncomputable def IEEE.enc (p emax : Nat) (s : ℝ) : IEEE p emax := ⟨toFmt p emax (.num s)⟩

/-- The real number, 0 for infinities and NaN. -/
def IEEE.real {p emax : Nat} (x : IEEE p emax) : ℝ :=
  match x.val with
  | .num r => r
  | _ => 0

/-- Precision of a format: relative error `2⁻ᵖ`, absolute error half the smallest positive number, range
up to `2 ^ emax`. -/
noncomputable def fmtPrec (p emax : Nat) : Prec :=
  ⟨1 / 2 ^ p, 2 / 2 ^ (emax + p), Set.Icc (-2 ^ emax) (2 ^ emax)⟩

theorem rndFmt_near (p emax : Nat) (x : ℝ) :
    |rndFmt p emax x - x| ≤ 1 / 2 ^ p * |x| + 2 / 2 ^ (emax + p) := by
  unfold rndFmt
  by_cases hx : x = 0
  · have : roundEven 0 = 0 := by simpa using roundEven_int 0
    simp [hx, this]
    positivity
  have hpos : 0 < |x| := abs_pos.2 hx
  set L := max (Int.log 2 |x|) (1 - emax) with hL
  set E := L + 1 - p with hE
  have hP : (0 : ℝ) < 2 ^ E := zpow_pos (by norm_num) _
  have e : |roundEven (x / 2 ^ E) * 2 ^ E - x| = |x / 2 ^ E - roundEven (x / 2 ^ E)| * 2 ^ E := by
    rw [abs_sub_comm, ← abs_of_pos hP, ← abs_mul, abs_of_pos hP]
    congr 1; field_simp
  rw [e]
  have h1 := mul_le_mul_of_nonneg_right (abs_sub_roundEven (x / 2 ^ E)) hP.le
  refine h1.trans ?_
  have e2 : 1 / 2 * (2 : ℝ) ^ E = 1 / 2 ^ p * 2 ^ L := by
    rw [hE, zpow_sub₀ (by norm_num), zpow_add₀ (by norm_num), zpow_natCast]
    field_simp
  rw [e2]
  rcases le_total (1 - (emax : ℤ)) (Int.log 2 |x|) with h | h
  · rw [hL, max_eq_left h]
    have h1 : ((2 : ℕ) : ℝ) ^ (Int.log 2 |x|) ≤ |x| := Int.zpow_log_le_self (b := 2) (by norm_num) hpos
    have h2 : (2 : ℝ) ^ (Int.log 2 |x|) ≤ |x| := by exact_mod_cast h1
    have := mul_le_mul_of_nonneg_left h2 (show (0 : ℝ) ≤ 1 / 2 ^ p by positivity)
    have h3 : (0 : ℝ) ≤ 2 / 2 ^ (emax + p) := by positivity
    linarith
  · rw [hL, max_eq_right h, zpow_sub₀ (by norm_num), zpow_natCast, zpow_one, pow_add]
    have : 1 / 2 ^ p * (2 / 2 ^ emax) = (2 : ℝ) / (2 ^ emax * 2 ^ p) := by field_simp
    rw [this]
    have : (0 : ℝ) ≤ 1 / 2 ^ p * |x| := by positivity
    linarith

theorem rndFmt_int {p emax : Nat} (hp : 4 ≤ p) {z : Int} (hz : |z| ≤ 10) : rndFmt p emax z = z := by
  unfold rndFmt
  by_cases h0 : z = 0
  · have : roundEven 0 = 0 := by simpa using roundEven_int 0
    simp [h0, this]
  have hpos : (0 : ℝ) < |(z : ℝ)| := abs_pos.2 (by exact_mod_cast h0)
  have hlog : Int.log 2 |(z : ℝ)| < 4 := by
    rw [← Int.lt_zpow_iff_log_lt (by norm_num) hpos]
    have : |(z : ℝ)| ≤ 10 := by exact_mod_cast hz
    norm_num
    linarith
  set E := max (Int.log 2 |(z : ℝ)|) (1 - emax) + 1 - p with hE
  have hE0 : E ≤ 0 := by omega
  obtain ⟨k, hk⟩ : ∃ k : Nat, E = -k := ⟨(-E).toNat, by omega⟩
  have : (z : ℝ) / 2 ^ E = ((z * 2 ^ k : Int) : ℝ) := by
    rw [hk, zpow_neg, zpow_natCast]
    push_cast
    rw [div_inv_eq_mul]
  rw [this, roundEven_int, ← this]
  have hP : (2 : ℝ) ^ E ≠ 0 := zpow_ne_zero _ (by norm_num)
  field_simp

theorem toFmt_sound {p emax : Nat} (hp : 4 ≤ p) {x : XReal} {r : ℝ} (hx : x = .num r) :
    Sound (fmtPrec p emax) (fun y : IEEE p emax => y.val.Fin) IEEE.real ⟨toFmt p emax x⟩ r := by
  subst hx
  intro hr
  have h1 := rndFmt_near p emax r
  have hr' : |r| ≤ 2 ^ emax := abs_le.2 hr
  have hlt : |rndFmt p emax r| < 2 ^ (emax + 1) := by
    have h2 : |rndFmt p emax r| ≤ |rndFmt p emax r - r| + |r| := by
      have := abs_add_le (rndFmt p emax r - r) r
      simpa using this
    have h3 : (1 : ℝ) / 2 ^ p ≤ 1 / 16 := by
      have : (2 : ℝ) ^ 4 ≤ 2 ^ p := pow_le_pow_right₀ (by norm_num) hp
      exact one_div_le_one_div_of_le (by norm_num) (by norm_num at this ⊢; exact this)
    have h4 : (2 : ℝ) / 2 ^ (emax + p) ≤ 1 / 8 := by
      have : (2 : ℝ) ^ 4 ≤ 2 ^ (emax + p) := pow_le_pow_right₀ (by norm_num) (by omega)
      rw [div_le_div_iff₀ (by positivity) (by norm_num)]
      norm_num at this ⊢
      linarith
    have h5 : (1 : ℝ) ≤ 2 ^ emax := one_le_pow₀ (by norm_num)
    have h6 : 1 / 2 ^ p * |r| ≤ 1 / 16 * 2 ^ emax :=
      mul_le_mul h3 hr' (abs_nonneg _) (by norm_num)
    rw [pow_succ]
    linarith
  have e : toFmt p emax (.num r) = .num (rndFmt p emax r) := by
    unfold toFmt
    simp only [hlt, if_true]
  refine ⟨?_, ?_⟩
  · simp only [e]; trivial
  · simp only [IEEE.real, e]; exact h1

theorem IEEE.real_eq {p emax : Nat} {x : IEEE p emax} (h : x.val.Fin) : x.val = .num x.real := by
  unfold IEEE.real
  cases hx : x.val with
  | num r => rfl
  | inf s => rw [hx] at h; exact h.elim
  | nan => rw [hx] at h; exact h.elim

open Classical in
/-- Floating-point formats are arithmetics as described above. -/
noncomputable def ieeeErr (p emax : Nat) (hp : 4 ≤ p) (he : 4 ≤ emax) :
    FinErr (IEEE p emax) (fmtPrec p emax) where
  val := IEEE.real
  fin x := x.val.Fin
  rel_nonneg := by simp only [fmtPrec]; positivity
  abs_nonneg := by simp only [fmtPrec]; positivity
  lit z hz := by
    have h : |rndFmt p emax z| < 2 ^ (emax + 1) := by
      rw [rndFmt_int hp hz]
      have h1 : |(z : ℝ)| ≤ 10 := by exact_mod_cast hz
      have h2 : (2 : ℝ) ^ 5 ≤ 2 ^ (emax + 1) := pow_le_pow_right₀ (by norm_num) (by omega)
      norm_num at h2
      linarith
    have e : (Arith.lit z : IEEE p emax).val = .num z := by
      show toFmt p emax (.num z) = _
      unfold toFmt
      exact (if_pos h).trans (by rw [rndFmt_int hp hz])
    refine ⟨by simp only [e]; trivial, by simp only [IEEE.real, e]⟩
  neg a ha := by
    have e : (-ₛ a).val = .num (-a.real) := by
      show XReal.neg a.val = _
      rw [IEEE.real_eq ha]
      rfl
    exact ⟨by simp only [e]; trivial, by simp only [IEEE.real, e]⟩
  less a b ha hb := by
    show Cmp.ltB a.val b.val = true ↔ _
    rw [IEEE.real_eq ha, IEEE.real_eq hb]
    exact decide_eq_true_iff
  add a b ha hb := toFmt_sound hp (by rw [IEEE.real_eq ha, IEEE.real_eq hb]; rfl)
  sub a b ha hb := toFmt_sound hp (by
    rw [IEEE.real_eq ha, IEEE.real_eq hb, sub_eq_add_neg]; rfl)
  mul a b ha hb := toFmt_sound hp (by rw [IEEE.real_eq ha, IEEE.real_eq hb]; rfl)
  div a b h ha hb := toFmt_sound hp (by
    rw [IEEE.real_eq ha, IEEE.real_eq hb]; exact if_neg h)
  powN a k _ ha := toFmt_sound hp (by rw [IEEE.real_eq ha]; rfl)
  pow a b h ha hb := toFmt_sound hp (by
    rw [IEEE.real_eq ha, IEEE.real_eq hb]
    show (if _ then _ else if _ then _ else _) = _
    by_cases h0 : b.real = 0
    · rw [if_pos h0, h0, Real.rpow_zero]
    · rw [if_neg h0, if_pos h])
  sqrt a h ha := toFmt_sound hp (by rw [IEEE.real_eq ha]; exact if_pos h)
  cbrt a ha := toFmt_sound hp (by rw [IEEE.real_eq ha]; exact if_pos trivial)
  cos a ha := toFmt_sound hp (by rw [IEEE.real_eq ha]; exact if_pos trivial)
  sin a ha := toFmt_sound hp (by rw [IEEE.real_eq ha]; exact if_pos trivial)
  tan a h ha := toFmt_sound hp (by rw [IEEE.real_eq ha]; exact if_neg h)
  acos a h h' ha := toFmt_sound hp (by rw [IEEE.real_eq ha]; exact if_pos ⟨h, h'⟩)
  asin a h h' ha := toFmt_sound hp (by rw [IEEE.real_eq ha]; exact if_pos ⟨h, h'⟩)
  atan a ha := toFmt_sound hp (by rw [IEEE.real_eq ha]; exact if_pos trivial)
  atan2 a b _ ha hb := toFmt_sound hp (by rw [IEEE.real_eq ha, IEEE.real_eq hb]; rfl)
  hypot a b ha hb := toFmt_sound hp (by rw [IEEE.real_eq ha, IEEE.real_eq hb]; rfl)
  hypot3 a b d ha hb hd := toFmt_sound hp (by
    rw [IEEE.real_eq ha, IEEE.real_eq hb, IEEE.real_eq hd]; rfl)
  cosh a ha := toFmt_sound hp (by rw [IEEE.real_eq ha]; exact if_pos trivial)
  sinh a ha := toFmt_sound hp (by rw [IEEE.real_eq ha]; exact if_pos trivial)
  tanh a ha := toFmt_sound hp (by rw [IEEE.real_eq ha]; exact if_pos trivial)
  acosh a h ha := toFmt_sound hp (by rw [IEEE.real_eq ha]; exact if_pos h)
  asinh a ha := toFmt_sound hp (by rw [IEEE.real_eq ha]; exact if_pos trivial)
  atanh a h h' ha := toFmt_sound hp (by
    rw [IEEE.real_eq ha]; exact if_pos (abs_lt.2 ⟨h, h'⟩))
  exp a ha := toFmt_sound hp (by rw [IEEE.real_eq ha]; exact if_pos trivial)
  log a h ha := toFmt_sound hp (by rw [IEEE.real_eq ha]; exact if_pos h)
  log2 a h ha := toFmt_sound hp (by rw [IEEE.real_eq ha]; exact if_pos h)
  log10 a h ha := toFmt_sound hp (by rw [IEEE.real_eq ha]; exact if_pos h)

theorem ieee_enc {p emax : Nat} (hp : 4 ≤ p) (he : 4 ≤ emax) (s : ℝ) :
    (ieeeErr p emax hp he).Sound (IEEE.enc p emax s) s :=
  toFmt_sound hp rfl

open Classical in
theorem ieee_exactCmp {p emax : Nat} (hp : 4 ≤ p) (he : 4 ≤ emax) :
    (ieeeErr p emax hp he).ExactCmp := by
  intro op a b ha hb
  have e : op.scalar a b = op.scalar (XReal.num a.real) (XReal.num b.real) := by
    rw [← IEEE.real_eq ha, ← IEEE.real_eq hb]
    cases op <;> rfl
  rw [e]
  cases op with
  | le => exact decide_eq_true_iff.trans le_iff_lt_or_eq.symm
  | ge => exact decide_eq_true_iff.trans ((or_congr Iff.rfl eq_comm).trans le_iff_lt_or_eq.symm)
  | _ => exact decide_eq_true_iff

end HJ
