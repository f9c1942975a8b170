import Verif.Proofs.Error
import Verif.Proofs.Round
import Mathlib.Data.Rat.Cast.Order
import Mathlib.Data.Rat.Cast.CharZero
import Mathlib.Tactic.NormNum

/-!
# C58: rounding errors of polynomials

Scalars are any type whose operators have a relative error of at most `u` (`RelErr`).  Rounding to
nearest with 53 bits is an instance with `u = 2⁻⁵³`.
-/

namespace HJ

variable {c : Cfg} {n : Nat} {V α : Type}

theorem within_of_near {u : ℝ} {k : Nat} {val : α → ℝ} {a : Nat → α} {e A : Nat → ℝ}
    (h : ∀ i, Near u k (val (a i)) (e i) (A i)) {o : Nat} {K P : Jet ℝ}
    (hK : K.Eqv o n (jetOf n e)) (hP : P.Eqv o n (jetOf n A)) :
    Jet.Within o n ((1 + u) ^ k - 1) P ((jetOf n a).mapv val) K := by
  refine ⟨?_, fun i hi => ?_, fun h2 i j hi hj => ?_⟩
  · rw [hK.1, hP.1]; exact (h 0).err
  · rw [hK.2.1 i hi, hP.2.1 i hi]; exact (h _).err
  · rw [hK.2.2 h2 i j hi hj, hP.2.2 h2 i j hi hj]
    simp only [jetOf, Jet.mapv]
    split <;> exact (h _).err

/-- **C58.** Let the operands be jets of functions `F v` at `x`, and their absolute values jets of
functions `G v` at `y`.  Evaluating a polynomial succeeds, and each component of the result differs
from the component of the exact jet by at most `(1 + u)^k - 1` times that component of the majorant's
jet at `y`, `k` being the number of roundings. -/
theorem C58_polynomial [CMath α] {u : ℝ} (M : RelErr α u) (hv : c.Valid) (ρ : V → DD α)
    (J : V → Jet α) (hfit : c.tsize = -1 ∨ c.tsize = n) (hρ : ∀ v, Shows c n (ρ v) (J v))
    (e : Expr α V) (he : e.Poly M.val) (F G : V → (Fin n → ℝ) → ℝ) (x y : Fin n → ℝ)
    (hF : ∀ v, IsJet c.order n (F v) x ((J v).mapv M.val))
    (hG : ∀ v, IsJet c.order n (G v) y ((J v).mapv fun s => |M.val s|)) :
    ∃ r R, ∃ K P : Jet ℝ, e.evalDD c n ρ = .ok r ∧ Shows c n r R ∧
      IsJet c.order n (fun z => (e.map M.val).den fun v => F v z) x K ∧
      IsJet c.order n (fun z => (e.map M.val).majorant.den fun v => G v z) y P ∧
      Jet.Within c.order n ((1 + u) ^ e.roundings - 1) P (R.mapv M.val) K := by
  have hc := hv.order
  choose hf a ha using fun v => (hρ v).wf.eq_obj hc
  have hfun : ρ = fun v => obj c n (a v) := funext ha
  subst hfun
  have hmap : ∀ {β : Type} (φ : α → β) v, Shows c n (obj c n fun i => φ (a v i)) ((J v).mapv φ) := by
    intro β φ v
    have hu := (hρ v).unique (shows_obj hc hfit (a v))
    refine shows_of_obj hc hfit ?_ (fun i hi => ?_) (fun h2 i j hij hj => ?_) (fun h2 i j hi hj => ?_)
    · exact congrArg φ hu.1.symm
    · exact congrArg φ (hu.2.1 i hi).symm
    · have := hu.2.2 h2 i j (by omega) hj
      simp only [jetOf, if_pos hij] at this
      exact congrArg φ this.symm
    · exact congrArg φ ((hρ v).sym h2 hi hj)
  obtain ⟨K, hK, hKe⟩ := poly_jet hc hfit _ _ (hmap M.val) (e.map M.val) he.map F x hF
  obtain ⟨P, hP, hPe⟩ := poly_jet hc hfit _ _ (hmap fun s => |M.val s|) (e.map M.val).majorant
    he.map.majorant G y hG
  exact ⟨_, _, K, P, evalDD_obj hc hfit a e, shows_obj hc hfit _, hK, hP,
    within_of_near (evalC_near M a e he) hKe hPe⟩

/-- **C58.** A polynomial evaluated on `variables(x)`: value, gradient and Hessian are off by at most
`(1 + u)^k - 1` times the same derivative of the majorant at `|x|`. -/
theorem C58_variables [CMath α] {u : ℝ} (M : RelErr α u) (hv : c.Valid)
    (hfit : c.tsize = -1 ∨ c.tsize = n) (e : Expr α (Fin n)) (he : e.Poly M.val) (x : Fin n → α) :
    let F := fun y : Fin n → ℝ => (e.map M.val).den y
    let G := fun y : Fin n → ℝ => (e.map M.val).majorant.den y
    let p := fun i => M.val (x i)
    let q := fun i => |M.val (x i)|
    let γ := (1 + u) ^ e.roundings - 1
    ∃ r, evalOn c e x = .ok r ∧ r.size c = n ∧
      (∃ s, r.f = .ok s ∧ |M.val s - F p| ≤ γ * G q) ∧
      (∀ i : Fin n, ∃ s, r.g c i = .ok s ∧ |M.val s - partialD F p i| ≤ γ * partialD G q i) ∧
      (c.order = 2 → ∀ i j : Fin n, ∃ s, r.h c i j = .ok s ∧
        |M.val s - partialD (fun y => partialD F y i) p j| ≤
          γ * partialD (fun y => partialD G y i) q j) := by
  intro F G p q γ
  have hc := hv.order
  have hl : (List.ofFn x).length = n := by simp
  have hvars := variables_obj (c := c) (vals := List.ofFn x) (by rw [hl]; exact hfit)
  let J : Fin n → Jet α := fun i => jetOf n (varC i (x i))
  have h0 : M.val (Arith.lit 0) = 0 := by simpa using M.lit 0 (by simp)
  have h1 : M.val (Arith.lit 1) = 1 := by simpa using M.lit 1 (by simp)
  have hvar : ∀ (φ : α → ℝ), φ (Arith.lit 0) = 0 → φ (Arith.lit 1) = 1 → ∀ i : Fin n,
      (varJet i (φ (x i))).Eqv c.order n ((J i).mapv φ) := by
    intro φ p0 p1 i
    refine ⟨by simp [varJet, J, jetOf, Jet.mapv, varC], fun k hk => ?_, fun _ k j _ _ => ?_⟩
    · simp only [varJet, J, jetOf, Jet.mapv, varC]
      rw [if_neg (show ¬ 1 + k = 0 by omega)]
      by_cases h : k = i
      · simp [h, p1]
      · simp [h, p0]
    · have h1 := pos_gt n k j
      have h2 := pos_gt n j k
      simp only [varJet, J, jetOf, Jet.mapv]
      have hz : ∀ m, n < m → φ (varC i (x i) m) = 0 := fun m hm => by
        unfold varC
        rw [if_neg (by omega), if_neg (by omega), p0]
      split
      · exact (hz _ (by omega)).symm
      · exact (hz _ (by omega)).symm
  obtain ⟨r, R, K, P, hr, hR, hK, hP, hw⟩ := C58_polynomial M hv
    (fun i : Fin n => obj c n (varC i (x i))) J hfit (fun i => shows_obj hc hfit _) e he
    (fun i y => y i) (fun i y => y i) p q
    (fun i => (isJet_var c.order p i).congr (hvar _ h0 h1 i))
    (fun i => (isJet_var c.order q i).congr (hvar (fun s => |M.val s|) (by simp [h0]) (by simp [h1]) i))
  refine ⟨r, ?_, hR.size, ⟨R.f, hR.f, ?_⟩, fun i => ⟨R.g i, hR.g i i.2, ?_⟩,
    fun h2 i j => ⟨R.h i j, hR.h h2 i j i.2 j.2, ?_⟩⟩
  · unfold evalOn
    rw [hvars]
    simp only [Res.ok_bind]
    rw [← hr]
    congr 1
    funext i
    simp [List.getD_eq_getElem?_getD]
  · have := hw.1
    rw [← hK.value, ← hP.value] at this
    exact this
  · have := hw.2.1 i i.2
    unfold partialD
    rw [hK.grad.fderiv, hP.grad.fderiv, lin_single, lin_single]
    exact this
  · have := hw.2.2 h2 i j i.2 j.2
    unfold partialD
    rw [(hK.hess h2 i).fderiv, (hP.hess h2 i).fderiv, lin_single, lin_single]
    exact this

/-- Without negative numbers the majorant is the polynomial itself. -/
theorem majorant_positive {e : Expr ℝ V} (he : e.Positive) : e.majorant = e := by
  induction e with
  | var v => rfl
  | const s => simp only [Expr.majorant]; rw [abs_of_nonneg he]
  | neg e => exact he.elim
  | abs e => exact he.elim
  | fn φ e => exact he.elim
  | hypot3 => exact he.elim
  | bin b e₁ e₂ ih₁ ih₂ =>
    cases b with
    | add => simp only [Expr.majorant]; rw [ih₁ he.1, ih₂ he.2]
    | mul => simp only [Expr.majorant]; rw [ih₁ he.1, ih₂ he.2]
    | _ => exact he.elim
  | sbin b e s ih =>
    cases b with
    | subS => exact he.elim
    | sSub => exact he.elim
    | sDiv => exact he.elim
    | _ => simp only [Expr.majorant]; rw [ih he.1, abs_of_nonneg he.2]

/-- **C58.** With non-negative constants and variables and no subtraction, all derivatives are
computed with a relative error of at most `(1 + u)^k - 1`. -/
theorem C58_positive [CMath α] {u : ℝ} (M : RelErr α u) (hv : c.Valid)
    (hfit : c.tsize = -1 ∨ c.tsize = n) (e : Expr α (Fin n)) (he : e.Poly M.val)
    (hpos : (e.map M.val).Positive) (x : Fin n → α) (hx : ∀ i, 0 ≤ M.val (x i)) :
    let F := fun y : Fin n → ℝ => (e.map M.val).den y
    let p := fun i => M.val (x i)
    let γ := (1 + u) ^ e.roundings - 1
    ∃ r, evalOn c e x = .ok r ∧ r.size c = n ∧
      (∃ s, r.f = .ok s ∧ |M.val s - F p| ≤ γ * F p) ∧
      (∀ i : Fin n, ∃ s, r.g c i = .ok s ∧ |M.val s - partialD F p i| ≤ γ * partialD F p i) ∧
      (c.order = 2 → ∀ i j : Fin n, ∃ s, r.h c i j = .ok s ∧
        |M.val s - partialD (fun y => partialD F y i) p j| ≤
          γ * partialD (fun y => partialD F y i) p j) := by
  have h := C58_variables M hv hfit e he x
  simp only [majorant_positive hpos, abs_of_nonneg (hx _)] at h
  exact h

/-! ## Doubles -/

/-- Rounding to nearest has a relative error of at most `2⁻⁵³`. -/
theorem nearest_relative {rnd : ℚ → ℚ} (h : Nearest rnd) (q : ℚ) : |rnd q - q| ≤ 1 / 2 ^ 53 * |q| := by
  rw [abs_sub_comm]
  refine (h.near q _ (nearest_spec.repr q)).trans ?_
  unfold nearest
  split
  · rename_i hq; simp [hq]
  · rename_i hq
    have hpos : 0 < |q| := abs_pos.2 hq
    set E := Int.log 2 |q| - 52 with hE
    have hP : (0 : ℚ) < 2 ^ E := zpow_pos (by norm_num) _
    have hle : 2 ^ 52 * (2 : ℚ) ^ E ≤ |q| := by
      have := Int.zpow_log_le_self (b := 2) (by norm_num) hpos
      have e : (2 : ℚ) ^ 52 * 2 ^ E = 2 ^ (Int.log 2 |q|) := by
        rw [← zpow_natCast, ← zpow_add₀ (by norm_num)]; congr 1; push_cast; omega
      rw [e]; exact_mod_cast this
    have e : |q - round (q / 2 ^ E) * 2 ^ E| = |q / 2 ^ E - round (q / 2 ^ E)| * 2 ^ E := by
      rw [← abs_of_pos hP, ← abs_mul, abs_of_pos hP]
      congr 1; field_simp
    rw [e]
    have := mul_le_mul_of_nonneg_right (abs_sub_round (q / 2 ^ E)) hP.le
    linarith

theorem isF53_int {z : Int} (hz : |z| ≤ 2) : IsF53 z :=
  ⟨z, 0, lt_of_le_of_lt hz (by norm_num), by simp⟩

theorem nearest_relative_real {rnd : ℚ → ℚ} (h : Nearest rnd) (q : ℚ) :
    |((rnd q : ℚ) : ℝ) - (q : ℝ)| ≤ 1 / 2 ^ 53 * |(q : ℝ)| := by
  have := (Rat.cast_le (K := ℝ)).2 (nearest_relative h q)
  push_cast at this
  exact this

section
attribute [-instance] instArithRounded

/-- Arithmetic rounding to nearest satisfies the error bound, whatever the library functions are. -/
noncomputable def roundedErr {rnd : ℚ → ℚ} (h : Nearest rnd) (m : CMath (Rounded rnd))
    (hm : m.toArith = instArithRounded rnd) : @RelErr (Rounded rnd) m.toArith (1 / 2 ^ 53) :=
  { val := fun x => (x.val : ℝ)
    nonneg := by norm_num
    add := fun a b => by
      rw [hm]; have := nearest_relative_real h (a.val + b.val); push_cast at this; exact this
    sub := fun a b => by
      rw [hm]; have := nearest_relative_real h (a.val - b.val); push_cast at this; exact this
    mul := fun a b => by
      rw [hm]; have := nearest_relative_real h (a.val * b.val); push_cast at this; exact this
    div := fun a b _ => by
      rw [hm]; have := nearest_relative_real h (a.val / b.val); push_cast at this; exact this
    neg := fun a => by rw [hm]; exact Rat.cast_neg _
    lit := fun z hz => by
      rw [hm]
      show ((rnd z : ℚ) : ℝ) = z
      rw [h.exact (isF53_int hz)]
      simp }

/-- **C58.** Doubles rounded to nearest, `u = 2⁻⁵³`: a polynomial with `k` roundings evaluated on
`variables(x)` has derivatives that are off by at most `k u / (1 - k u)` times the derivatives of the
majorant at `|x|`. -/
theorem C58_double {rnd : ℚ → ℚ} (h : Nearest rnd) (m : CMath (Rounded rnd))
    (hm : m.toArith = instArithRounded rnd) (hv : c.Valid) (hfit : c.tsize = -1 ∨ c.tsize = n)
    (e : Expr (Rounded rnd) (Fin n)) (he : e.Poly fun s => (s.val : ℝ)) (x : Fin n → Rounded rnd)
    (hk : e.roundings < 2 ^ 53) :
    let F := fun y : Fin n → ℝ => (e.map fun s => (s.val : ℝ)).den y
    let G := fun y : Fin n → ℝ => (e.map fun s => (s.val : ℝ)).majorant.den y
    let p := fun i => ((x i).val : ℝ)
    let q := fun i => |((x i).val : ℝ)|
    let γ := (e.roundings : ℝ) / (2 ^ 53 - e.roundings)
    ∃ r, evalOn c e x = .ok r ∧ r.size c = n ∧
      (∃ s, r.f = .ok s ∧ |(s.val : ℝ) - F p| ≤ γ * G q) ∧
      (∀ i : Fin n, ∃ s, r.g c i = .ok s ∧ |(s.val : ℝ) - partialD F p i| ≤ γ * partialD G q i) ∧
      (c.order = 2 → ∀ i j : Fin n, ∃ s, r.h c i j = .ok s ∧
        |(s.val : ℝ) - partialD (fun y => partialD F y i) p j| ≤
          γ * partialD (fun y => partialD G y i) q j) := by
  intro F G p q γ
  have hk' : (e.roundings : ℝ) < 2 ^ 53 := by exact_mod_cast hk
  have hγ : (1 + 1 / 2 ^ 53 : ℝ) ^ e.roundings - 1 ≤ γ := by
    have h1 := one_add_pow_le (u := 1 / 2 ^ 53) (by norm_num) e.roundings (by linarith)
    refine h1.trans (le_of_eq ?_)
    have : (2 ^ 53 - e.roundings : ℝ) ≠ 0 := by linarith
    have h2 : (1 - (e.roundings : ℝ) * (1 / 2 ^ 53)) = (2 ^ 53 - e.roundings) / 2 ^ 53 := by ring
    rw [h2]
    simp only [γ]
    field_simp
  obtain ⟨r, h1, h2, ⟨s, h3, h4⟩, h5, h6⟩ := C58_variables (roundedErr h m hm) hv hfit e he x
  have up : ∀ {a b : ℝ}, |a| ≤ ((1 + 1 / 2 ^ 53 : ℝ) ^ e.roundings - 1) * b → |a| ≤ γ * b := by
    intro a b hab
    rcases Nat.eq_zero_or_pos e.roundings with hz | hz
    · simp only [γ, hz] at hab ⊢
      simpa using hab
    · have hpos : (0 : ℝ) < (1 + 1 / 2 ^ 53 : ℝ) ^ e.roundings - 1 := by
        have := one_lt_pow₀ (by norm_num : (1 : ℝ) < 1 + 1 / 2 ^ 53) hz.ne'
        linarith
      have hb : 0 ≤ b := nonneg_of_mul_nonneg_right ((abs_nonneg a).trans hab) hpos
      exact hab.trans (mul_le_mul_of_nonneg_right hγ hb)
  refine ⟨r, h1, h2, ⟨s, h3, up h4⟩, fun i => ?_, fun ho i j => ?_⟩
  · obtain ⟨s, h7, h8⟩ := h5 i
    exact ⟨s, h7, up h8⟩
  · obtain ⟨s, h7, h8⟩ := h6 ho i j
    exact ⟨s, h7, up h8⟩

end

/-! ### Concrete cases -/

/-- Doubles with some library; polynomials do not call it. -/
@[reducible] def exLib (rnd : ℚ → ℚ) : CMath (Rounded rnd) where
  toArith := instArithRounded rnd
  eqB a b := decide (a.val = b.val)
  neB a b := decide (a.val ≠ b.val)
  ltB a b := decide (a.val < b.val)
  gtB a b := decide (a.val > b.val)
  leB a b := decide (a.val ≤ b.val)
  geB a b := decide (a.val ≥ b.val)
  pow a _ := a
  sqrt a := a
  cbrt a := a
  cos a := a
  sin a := a
  tan a := a
  acos a := a
  asin a := a
  atan a := a
  atan2 a _ := a
  hypot a _ := a
  hypot3 a _ _ := a
  cosh a := a
  sinh a := a
  tanh a := a
  acosh a := a
  asinh a := a
  atanh a := a
  exp a := a
  log a := a
  log2 a := a
  log10 a := a

/-- `(x₀ + 3 x₁) x₀ - x₁`. -/
def exPoly (rnd : ℚ → ℚ) : Expr (Rounded rnd) (Fin 2) :=
  .bin .sub (.bin .mul (.bin .add (.var 0) (.sbin .mulS (.var 1) ⟨3⟩)) (.var 0)) (.var 1)

/-- Six roundings; the derivative for `x₀` is bounded with that of `(x₀ + 3 x₁) x₀ + x₁`. -/
example : ∃ (r : DD (Rounded nearest)) (s : Rounded nearest),
    @evalOn _ (exLib nearest) 2 exDyn2 (exPoly nearest) ![⟨1 / 3⟩, ⟨-7⟩] = .ok r ∧
    r.g exDyn2 0 = .ok s ∧
    |(s.val : ℝ) - partialD (fun y : Fin 2 → ℝ => (y 0 + y 1 * 3) * y 0 - y 1)
        (fun i => (((![⟨1 / 3⟩, ⟨-7⟩] : Fin 2 → Rounded nearest) i).val : ℝ)) 0| ≤
      (6 : ℝ) / (2 ^ 53 - 6) * partialD (fun y : Fin 2 → ℝ => (y 0 + y 1 * 3) * y 0 + y 1)
        (fun i => |(((![⟨1 / 3⟩, ⟨-7⟩] : Fin 2 → Rounded nearest) i).val : ℝ)|) 0 := by
  obtain ⟨r, h1, -, -, h2, -⟩ := C58_double nearest_spec (exLib nearest) rfl exDyn2_valid (Or.inl rfl)
    (exPoly nearest) (by simp [exPoly, Expr.Poly]) ![⟨1 / 3⟩, ⟨-7⟩] (by simp [exPoly, Expr.roundings])
  obtain ⟨s, h3, h4⟩ := h2 0
  refine ⟨r, s, h1, h3, ?_⟩
  simpa [exPoly, Expr.roundings, Expr.map, Expr.den, Expr.majorant, Bin.den, SBin.den] using h4

/-- The hypotheses of `C58_positive`: `(x₀ + 3 x₁) x₀` at `(1, 2)`. -/
example : ∃ r : DD (Rounded nearest), @evalOn _ (exLib nearest) 2 exSta2
    (.bin .mul (.bin .add (.var 0) (.sbin .mulS (.var 1) ⟨3⟩)) (.var 0)) ![⟨1⟩, ⟨2⟩] = .ok r := by
  let _ := exLib nearest
  obtain ⟨r, h, -⟩ := C58_positive (roundedErr nearest_spec (exLib nearest) rfl) exSta2_valid (Or.inr rfl)
    (.bin .mul (.bin .add (.var 0) (.sbin .mulS (.var 1) ⟨3⟩)) (.var 0))
    (by simp [Expr.Poly]) (by simp [Expr.map, Expr.Positive, roundedErr]) ![⟨1⟩, ⟨2⟩]
    (by intro i; fin_cases i <;> simp [roundedErr])
  exact ⟨r, h⟩

/-! ## Why the majorant is needed -/

theorem round_big {rnd : ℚ → ℚ} (h : Nearest rnd) :
    rnd (2 ^ 53 + 1) = 2 ^ 53 ∨ rnd (2 ^ 53 + 1) = 2 ^ 53 + 2 := by
  have h1 := h.near (2 ^ 53 + 1) (2 ^ 53) ⟨2 ^ 52, 1, by norm_num, by norm_num⟩
  rw [show |(2 ^ 53 + 1 - 2 ^ 53 : ℚ)| = 1 by norm_num, abs_le] at h1
  obtain ⟨m, e, hm, hy⟩ := h.repr (2 ^ 53 + 1)
  rw [hy] at h1 ⊢
  have hm2 : (m : ℚ) < 2 ^ 53 := by
    have := (abs_lt.1 hm).2
    exact_mod_cast this
  have he : 1 ≤ e := by
    by_contra hc
    have h2 : (2 : ℚ) ^ e ≤ 1 := zpow_le_one_of_nonpos₀ (by norm_num) (by omega)
    have h3 : (0 : ℚ) < 2 ^ e := zpow_pos (by norm_num) _
    rcases le_or_gt (m : ℚ) 0 with h0 | h0
    · have := mul_nonpos_of_nonpos_of_nonneg h0 h3.le
      linarith
    · have := mul_le_mul_of_nonneg_left h2 h0.le
      linarith
  obtain ⟨k, rfl⟩ : ∃ k : Nat, e = k + 1 := ⟨(e - 1).toNat, by omega⟩
  have hz : (m : ℚ) * 2 ^ ((k : ℤ) + 1) = ((2 * (m * 2 ^ k) : ℤ) : ℚ) := by
    rw [zpow_add₀ (by norm_num), zpow_natCast]; push_cast; ring
  rw [hz] at h1 ⊢
  generalize m * 2 ^ k = t at h1
  have h2 : (2 : ℚ) ^ 53 ≤ ((2 * t : ℤ) : ℚ) := by linarith [h1.2]
  have h3 : ((2 * t : ℤ) : ℚ) ≤ 2 ^ 53 + 2 := by linarith [h1.1]
  have h2' : (2 : ℤ) ^ 53 ≤ 2 * t := by exact_mod_cast h2
  have h3' : 2 * t ≤ (2 : ℤ) ^ 53 + 2 := by exact_mod_cast h3
  have : t = 2 ^ 52 ∨ t = 2 ^ 52 + 1 := by omega
  rcases this with rfl | rfl
  · left; norm_num
  · right; norm_num

/-- **C58.** No bound relative to the exact value holds: `(x + 1) - x` at `2⁵³`, with exact value 1, is
computed as 0 or 2 under every rounding to nearest. -/
theorem C58_cancellation {rnd : ℚ → ℚ} (h : Nearest rnd) (hv : c.Valid) (hfit : c.tsize = -1 ∨ c.tsize = 1) :
    ∃ (r : DD (Rounded rnd)) (s : Rounded rnd),
      @evalOn _ (exLib rnd) 1 c (.bin .sub (.sbin .addS (.var 0) ⟨1⟩) (.var 0)) (fun _ => ⟨2 ^ 53⟩) =
        .ok r ∧ r.f = .ok s ∧ |s.val - 1| = 1 := by
  let _ := exLib rnd
  have hvars := variables_obj (c := c) (vals := [(⟨2 ^ 53⟩ : Rounded rnd)]) hfit
  let a : Fin 1 → Nat → Rounded rnd := fun i => varC i ⟨2 ^ 53⟩
  have he := evalDD_obj (c := c) hv.order (n := 1) hfit a
    (.bin .sub (.sbin .addS (.var 0) ⟨1⟩) (.var 0))
  refine ⟨_, ⟨rnd (rnd (2 ^ 53 + 1) - 2 ^ 53)⟩, ?_,
    (f_obj c 1 (Expr.evalC c 1 a (.bin .sub (.sbin .addS (.var 0) ⟨1⟩) (.var 0)))).trans rfl, ?_⟩
  · unfold evalOn
    simp only [List.ofFn_succ, List.ofFn_zero] at hvars ⊢
    rw [hvars]
    simp only [Res.ok_bind]
    rw [← he]
    congr 1
    funext i
    fin_cases i
    rfl
  · rcases round_big h with h1 | h1
    · rw [h1, sub_self, h.exact ⟨0, 0, by norm_num, by norm_num⟩]; norm_num
    · rw [h1, show (2 ^ 53 + 2 - 2 ^ 53 : ℚ) = 2 by norm_num, h.exact ⟨2, 0, by norm_num, by norm_num⟩]
      norm_num

end HJ
