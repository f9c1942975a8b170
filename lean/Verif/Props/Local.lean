import Verif.Proofs.LocalSparse
import Verif.Props.Sparse
import Verif.Props.Error
import Mathlib.Analysis.Complex.ExponentialBounds

/-!
# C67: the error made by one operation

Scalars are any type whose operators and library functions have a relative error of at most `u`
(`LibErr`).  The operands are jets with any contents.
-/

namespace HJ

variable {c : Cfg} {n m : Nat} {α : Type}

theorem Within.congr {o : Nat} {γ : ℝ} {P J K P' K' : Jet ℝ} (h : Jet.Within o n γ P J K)
    (hP : P.Eqv o n P') (hK : K.Eqv o n K') : Jet.Within o n γ P' J K' := by
  refine ⟨?_, fun i hi => ?_, fun h2 i j hi hj => ?_⟩
  · rw [← hP.1, ← hK.1]; exact h.1
  · rw [← hP.2.1 i hi, ← hK.2.1 i hi]; exact h.2.1 i hi
  · rw [← hP.2.2 h2 i j hi hj, ← hK.2.2 h2 i j hi hj]; exact h.2.2 h2 i j hi hj

theorem chainJet_congr {o : Nat} (f : ℝ) (d : Fin m → ℝ) (dd : Fin m → Fin m → ℝ)
    {P Q : Fin m → Jet ℝ} (h : ∀ v, (P v).Eqv o n (Q v)) :
    (chainJet f d dd P).Eqv o n (chainJet f d dd Q) := by
  refine ⟨rfl, fun i hi => ?_, fun h2 i j hi hj => ?_⟩
  · simp only [chainJet]
    exact Finset.sum_congr rfl fun v _ => by rw [(h v).2.1 i hi]
  · simp only [chainJet]
    congr 1
    · exact Finset.sum_congr rfl fun v _ => by rw [(h v).2.2 h2 i j hi hj]
    · exact Finset.sum_congr rfl fun v _ => Finset.sum_congr rfl fun w _ => by
        rw [(h v).2.1 i hi, (h w).2.1 j hj]

theorem mapv_eqv {β γ : Type} {o : Nat} {J K : Jet β} (φ : β → γ) (h : J.Eqv o n K) :
    (J.mapv φ).Eqv o n (K.mapv φ) :=
  ⟨congrArg φ h.1, fun i hi => congrArg φ (h.2.1 i hi),
    fun h2 i j hi hj => congrArg φ (h.2.2 h2 i j hi hj)⟩

/-- **C67.** One operation on jets with any contents, in an arithmetic with relative error `u ≤ 1/10`.
Where the operation is stable it succeeds, and each component of the result differs from the one given by
the chain rule by at most `(1/(1-u))¹⁶ - 1` times the same sum with absolute values. -/
theorem C67_operation [CMath α] {u : ℝ} (M : LibErr α u) (hu : u ≤ 1 / 10) (hv : c.Valid)
    (hfit : c.tsize = -1 ∨ c.tsize = n) (o : Op α m) (ρ : Fin m → DD α) (J : Fin m → Jet α)
    (hρ : ∀ v, Shows c n (ρ v) (J v)) (hs : o.Stable M.val fun v => M.val (J v).f) :
    let P := fun v => (J v).mapv M.val
    ∃ r R, o.expr.evalDD c n ρ = .ok r ∧ Shows c n r R ∧
      Jet.Within c.order n (roundings16 u) (o.sizeJet M.val P) (R.mapv M.val)
        (exactJet (o.den M.val) P) := by
  intro P
  have hc := hv.order
  choose hf a ha using fun v => (hρ v).wf.eq_obj hc
  have hfun : ρ = fun v => obj c n (a v) := funext ha
  subst hfun
  have hu' : ∀ v, (jetOf n (a v)).Eqv c.order n (J v) := fun v =>
    (shows_obj hc hfit (a v)).unique (hρ v)
  have h0 : ∀ v, a v 0 = (J v).f := fun v => (hu' v).1
  have hP : ∀ v, ((jetOf n (a v)).mapv M.val).Eqv c.order n (P v) := fun v => mapv_eqv _ (hu' v)
  have hpf : (fun v => ((jetOf n (a v)).mapv M.val).f) = fun v => (P v).f :=
    funext fun v => (hP v).1
  have key := (o.nears (c := c) (n := n) hu a (by simpa [h0] using hs)).within
  refine ⟨_, _, evalDD_obj hc hfit a o.expr, shows_obj hc hfit _, Within.congr key ?_ ?_⟩
  · unfold Op.sizeJet
    rw [hpf]
    exact chainJet_congr _ _ _ fun v => mapv_eqv _ (hP v)
  · unfold exactJet
    rw [hpf]
    exact chainJet_congr _ _ _ hP

/-- **C67.** The exact result is the one of calculus: if the operands are the jets of functions `W v`
at `x`, then it is the jet of the operation applied to these functions. -/
theorem C67_exact [Arith α] (val : α → ℝ) (o : Op α m) {ord : Nat} (hord : ord = 1 ∨ ord = 2)
    (P : Fin m → Jet ℝ) (W : Fin m → (Fin n → ℝ) → ℝ) (x : Fin n → ℝ)
    (hW : ∀ v, IsJet ord n (W v) x (P v)) (hs : o.Stable val fun v => (P v).f) :
    IsJet ord n (fun y => o.den val fun v => W v y) x (exactJet (o.den val) P) := by
  have down : ∀ {φ : ℝ → ℝ} {t d dd : ℝ}, D2At 2 φ t d dd → D2At ord φ t d dd := by
    intro φ t d dd h
    rcases hord with rfl | rfl
    · exact ⟨h.1, fun h => by omega⟩
    · exact h
  have one : ∀ {o : Op α 1} {P : Fin 1 → Jet ℝ} {W : Fin 1 → (Fin n → ℝ) → ℝ} {φ : ℝ → ℝ}
      {d dd : ℝ}, IsJet ord n (W 0) x (P 0) → (o.den val = fun y => φ (y 0)) →
      D2At 2 φ (P 0).f d dd →
      IsJet ord n (fun y => o.den val fun v => W v y) x (exactJet (o.den val) P) := by
    intro o P W φ d dd hW ho hφ
    obtain ⟨h1, h2⟩ := op_one (p := fun v => (P v).f) hφ
    unfold exactJet
    rw [ho, chainJet_one, h1, h2]
    exact hW.comp1 (down hφ)
  cases o with
  | neg =>
    exact one (o := .neg) (φ := fun y => -y) (hW 0) rfl
      (by simpa using d2At_affine 2 (-1) 0 (P 0).f)
  | abs => exact one (o := .abs) (φ := fun y => |y|) (hW 0) rfl (d2At_abs 2 hs)
  | fn φ =>
    have hφ := (φ.map val).real (o := 2) (Or.inr rfl) hs.1 (fun b hb => by
      cases φ <;> simp only [Fn.map, Fn.pow.injEq, reduceCtorEq] at hb
      exact hs.2.1)
    exact one (o := .fn φ) (φ := (φ.map val).den) (hW 0) rfl hφ.d2
  | sbin o s =>
    exact one (o := .sbin o s) (φ := fun y => o.den y (val s)) (hW 0) rfl (o.d2At 2 hs)
  | bin o =>
    have hj := o.isJet 2 (isJet_var 2 (fun v => (P v).f) (0 : Fin 2))
      (isJet_var 2 (fun v => (P v).f) (1 : Fin 2)) hs.1 hs.2
    simp only [Bin.jet] at hj
    obtain ⟨h1, h2⟩ := op_two (Φ := o.den) hj
    have ho : (Op.bin o).den val = fun w => o.den (w 0) (w 1) := rfl
    unfold exactJet
    rw [ho, h1, h2, chainJet_two _ _ _ (by simp)]
    exact o.isJet ord (hW 0) (hW 1) hs.1 hs.2
  | hypot3 =>
    have hj := hypot3_isJet 2 (isJet_var 2 (fun v => (P v).f) (0 : Fin 3))
      (isJet_var 2 (fun v => (P v).f) (1 : Fin 3)) (isJet_var 2 (fun v => (P v).f) (2 : Fin 3)) hs
    obtain ⟨h1, h2⟩ := hj.partials
    have ho : (Op.hypot3 : Op α 3).den val = fun w => √(w 0 ^ 2 + w 1 ^ 2 + w 2 ^ 2) := rfl
    have key := hypot3_isJet ord (hW 0) (hW 1) (hW 2) hs
    unfold exactJet
    rw [ho, h1, h2, chainJet_three _ _ _ ?_ ?_ ?_]
    · simpa [hypot3Jet, Jet.comp3, varJet] using key
    all_goals simp [hypot3Jet, Jet.comp3, varJet]

/-- **C67.** The value and, for operations with one operand, the whole gradient have a small *relative*
error. -/
theorem C67_relative [CMath α] {u : ℝ} (M : LibErr α u) (hu : u ≤ 1 / 10) (hv : c.Valid)
    (hfit : c.tsize = -1 ∨ c.tsize = n) (o : Op α m) (ρ : Fin m → DD α) (J : Fin m → Jet α)
    (hρ : ∀ v, Shows c n (ρ v) (J v)) (hs : o.Stable M.val fun v => M.val (J v).f) :
    let K := exactJet (o.den M.val) fun v => (J v).mapv M.val
    ∃ r R, o.expr.evalDD c n ρ = .ok r ∧ Shows c n r R ∧ Close (roundings16 u) (M.val R.f) K.f ∧
      (m = 1 → ∀ i < n, Close (roundings16 u) (M.val (R.g i)) (K.g i)) := by
  intro K
  obtain ⟨r, R, h1, h2, h3⟩ := C67_operation M hu hv hfit o ρ J hρ hs
  refine ⟨r, R, h1, h2, h3.1, ?_⟩
  rintro rfl i hi
  have := h3.2.1 i hi
  unfold exactJet Op.sizeJet at this
  rw [chainJet_one, chainJet_one] at this
  unfold Close
  simp only [K, exactJet]
  rw [chainJet_one]
  simp only [Jet.comp1, abs_mul]
  exact this

/-- **C67.** Sixteen roundings amount to less than `17 u`. -/
theorem C67_roundings {u : ℝ} (h0 : 0 ≤ u) (h1 : u ≤ 1 / 272) : roundings16 u ≤ 17 * u := by
  have hb : 1 - 16 * u ≤ (1 - u) ^ 16 := by
    have := one_add_mul_le_pow (show (-2 : ℝ) ≤ -u by linarith) 16
    norm_num at this
    rw [← sub_eq_add_neg] at this
    linarith
  have hp : 0 < 1 - 16 * u := by linarith
  unfold roundings16
  rw [one_div_pow, sub_le_iff_le_add]
  refine (one_div_le_one_div_of_le hp hb).trans ?_
  rw [div_le_iff₀ hp]
  nlinarith

/-- **C67, 53 bits.** In correctly rounded arithmetic with 53 bits every component is off by at most
`17 · 2⁻⁵³` of the sum of the absolute values of its terms. -/
theorem C67_double (hv : c.Valid) (hfit : c.tsize = -1 ∨ c.tsize = n)
    (o : Op (Flt (rndBits 53)) m) (ρ : Fin m → DD (Flt (rndBits 53)))
    (J : Fin m → Jet (Flt (rndBits 53))) (hρ : ∀ v, Shows c n (ρ v) (J v))
    (hs : o.Stable Flt.val fun v => (J v).f.val) :
    let P := fun v => (J v).mapv Flt.val
    ∃ r R, o.expr.evalDD c n ρ = .ok r ∧ Shows c n r R ∧
      Jet.Within c.order n (17 / 2 ^ 53) (o.sizeJet Flt.val P) (R.mapv Flt.val)
        (exactJet (o.den Flt.val) P) := by
  intro P
  have hsmall : (1 / 2 ^ 53 : ℝ) ≤ 1 / 272 := by norm_num
  obtain ⟨r, R, h1, h2, h3⟩ := C67_operation (bitsErr 53 (by norm_num)) (by norm_num) hv hfit o ρ J hρ hs
  have hγ : roundings16 (1 / 2 ^ 53) ≤ 17 / 2 ^ 53 := by
    have := C67_roundings (u := 1 / 2 ^ 53) (by positivity) hsmall
    rwa [mul_one_div] at this
  have hpos : 0 < roundings16 (1 / 2 ^ 53) := by
    unfold roundings16
    norm_num
  have mono : ∀ {t A : ℝ}, |t| ≤ roundings16 (1 / 2 ^ 53) * A → |t| ≤ 17 / 2 ^ 53 * A := by
    intro t A h
    have hA : 0 ≤ A := by
      by_contra hA
      have := mul_neg_of_pos_of_neg hpos (not_le.1 hA)
      have := abs_nonneg t
      linarith
    exact h.trans (mul_le_mul_of_nonneg_right hγ hA)
  exact ⟨r, R, h1, h2, mono h3.1, fun i hi => mono (h3.2.1 i hi),
    fun h2 i j hi hj => mono (h3.2.2 h2 i j hi hj)⟩

/-- **C67, sparse.** One operation on sparse scalars, for every iteration order of the hash maps: the
value has a small relative error, and the derivative for every name differs from the chain rule by
at most `(1/(1-u))¹⁶ - 1` times the sum of the absolute values of its terms. -/
theorem C67_sparse [CMath α] {u : ℝ} (M : LibErr α u) (hu : u ≤ 1 / 10) {ord : Order α}
    (ho : ord.Ok) (o : Op α m) (ρ : Fin m → SS α) (x : Fin m → α) (hw : ∀ v, SWF (ρ v))
    (hx : ∀ v, (ρ v).f = .ok (x v)) (hs : o.Stable M.val fun v => M.val (x v)) :
    let F := o.den M.val
    let p := fun v => M.val (x v)
    ∃ r, o.expr.evalSS ord ρ = .ok r ∧ (∃ y, r.f = .ok y ∧ Close (roundings16 u) (M.val y) (F p)) ∧
      ∀ k, |M.val (r.d k) - ∑ a, partialD F p a * M.val ((ρ a).d k)| ≤
        roundings16 u * ∑ a, |partialD F p a| * |M.val ((ρ a).d k)| := by
  intro F p
  have hp : ∀ v, SIs (ρ v) (x v) (ρ v).mD.find := by
    intro v
    obtain ⟨w, h⟩ := (hw v).ex
    have := hx v
    rw [SS.f_ok h] at this
    rwa [← Res.ok.inj this]
  obtain ⟨r, h1, h2⟩ := evalSS_spec ho ρ (fun v => (x v, (ρ v).mD.find)) hp o.expr
  have e : ∀ {t : α} {s A : ℝ}, Nr M 16 t s A → |M.val t - s| ≤ roundings16 u * A := by
    intro t s A h
    have := Near.err h
    rwa [add_sub_cancel] at this
  refine ⟨r, h1, ⟨_, SS.f_ok h2, e (o.snear hu _ "" hs).f⟩, fun k => ?_⟩
  have := e (o.snear hu (fun v => (x v, (ρ v).mD.find)) k hs).d
  rw [SS.d_eq h2]
  simpa only [SS.d_eq (hp _), entry] using this

/-! ### Where the formulas of the derivatives cancel -/

/-- The derivative computed for a function of one variable. -/
theorem deriv_one [CMath α] (hv : c.Valid) (hfit : c.tsize = -1 ∨ c.tsize = (1 : Nat)) (φ : Fn α)
    (x : α) : ∃ r, evalOn c (.fn φ (.var 0)) ![x] = .ok r ∧
      r.g c 0 = .ok ((φ.coef x).da *ₛ Arith.lit 1) := by
  have hc := hv.order
  have hvars := variables_obj (c := c) (vals := List.ofFn ![x])
    (by rw [List.length_ofFn]; exact hfit)
  refine ⟨obj c 1 (φ.runC c 1 (varC 0 x)), ?_, ?_⟩
  · unfold evalOn
    rw [hvars]
    simp only [Res.ok_bind]
    have := evalDD_obj hc hfit (fun _ : Fin 1 => varC 0 x) (.fn φ (.var 0))
    simp only [Expr.evalC] at this
    rw [← this]
    congr 1
    funext i
    fin_cases i
    simp
  · have := (shows_obj hc hfit (φ.runC c 1 (varC 0 x))).g 0 (by norm_num)
    rw [Nat.cast_zero] at this
    rw [this]
    have h1 : uFin c 1 (varC 0 x) (φ.coef x).f (φ.coef x).da (φ.coef x).daa (1 + 0) = _ :=
      uFin_succ _ _ _ _ (by norm_num)
    simpa [jetOf, Fn.runC, varC] using h1

theorem log2_half {x : ℝ} (h1 : 1 / 2 ≤ x) (h2 : x < 1) : Int.log 2 |x| = -1 := by
  have h0 : 0 < |x| := abs_pos.2 (by linarith)
  have e : |x| = x := abs_of_pos (by linarith)
  apply le_antisymm
  · have : Int.log 2 |x| < 0 := by
      rw [← Int.lt_zpow_iff_log_lt (by norm_num) h0, e]
      simpa using h2
    omega
  · rw [← Int.zpow_le_iff_le_log (by norm_num) h0, e]
    norm_num
    linarith

/-- Rounding to 53 bits between one half and one. -/
theorem rnd_half {x : ℝ} (h1 : 1 / 2 ≤ x) (h2 : x < 1) (z : Int) (h : |x * 2 ^ 53 - z| < 1 / 2) :
    rndBits 53 x = z / 2 ^ 53 := by
  unfold rndBits
  rw [log2_half h1 h2]
  have e : (2 : ℝ) ^ (-1 + 1 - ((53 : ℕ) : ℤ)) = 1 / 2 ^ 53 := by norm_num
  rw [e, div_div_eq_mul_div, div_one, mul_one_div]
  congr 2
  rw [round_eq_iff]
  rw [abs_lt] at h
  constructor <;> linarith [h.1, h.2]

theorem rnd_pow (e : Int) : rndBits 53 ((2 : ℝ) ^ e) = 2 ^ e := by
  refine rndBits_exact 1 e (by simp) ?_
  have h : (0 : ℝ) < 2 ^ e := by positivity
  have : Int.log 2 ((2 : ℝ) ^ e) = e := by
    have := Int.log_zpow (R := ℝ) (b := 2) (by norm_num) e
    simpa using this
  rw [abs_of_pos h, this]
  omega

theorem rnd_one : rndBits 53 1 = 1 := by simpa using rnd_pow 0

theorem tanh20 : rndBits 53 (Real.tanh 20) = 1 := by
  have hE : (2 : ℝ) ^ 55 < Real.exp 20 * Real.exp 20 := by
    rw [← Real.exp_add, show (20 : ℝ) + 20 = (40 : ℕ) * 1 by norm_num, Real.exp_nat_mul]
    calc (2 : ℝ) ^ 55 < 2.7182818283 ^ 40 := by norm_num
      _ ≤ Real.exp 1 ^ 40 := pow_le_pow_left₀ (by norm_num) Real.exp_one_gt_d9.le 40
  have hp := Real.exp_pos 20
  have e : 1 - Real.tanh 20 = 2 / (Real.exp 20 * Real.exp 20 + 1) := by
    rw [Real.tanh_eq, Real.exp_neg]
    field_simp
    ring
  have hlt : (1 - Real.tanh 20) * 2 ^ 53 < 1 / 2 := by
    rw [e, div_mul_eq_mul_div, div_lt_iff₀ (by positivity)]
    norm_num at hE ⊢
    linarith
  have h1 := Real.tanh_lt_one 20
  rw [rnd_half (by linarith) h1 (2 ^ 53) (by
    rw [abs_lt]
    push_cast
    constructor <;> linarith)]
  norm_num

/-- **C67, violated.** The condition on `tanh` is needed.  With 53 bits the derivative at 20 comes out as
0, since `tanh(20)` rounds to 1; the exact one is positive. -/
theorem C67_violated_tanh (hv : c.Valid) (hfit : c.tsize = -1 ∨ c.tsize = (1 : Nat)) :
    ∃ r s, evalOn c (.fn .tanh (.var 0)) ![(⟨20⟩ : Flt (rndBits 53))] = .ok r ∧
      r.g c 0 = .ok s ∧ s.val = 0 ∧ 0 < partialD (fun y : Fin 1 → ℝ => Real.tanh (y 0)) ![20] 0 := by
  obtain ⟨r, h1, h2⟩ := deriv_one hv hfit .tanh (⟨20⟩ : Flt (rndBits 53))
  refine ⟨r, _, h1, h2, ?_, ?_⟩
  · show rndBits 53 (rndBits 53 (rndBits 53 ((1 : ℤ) : ℝ) -
      rndBits 53 (rndBits 53 (Real.tanh 20) * rndBits 53 (Real.tanh 20))) *
      rndBits 53 ((1 : ℤ) : ℝ)) = 0
    rw [tanh20, Int.cast_one, mul_one, rnd_one, sub_self, mul_one]
    simp [rndBits]
  · have hφ := (Fn.tanh : Fn ℝ).real (o := 2) (x := 20) (Or.inr rfl) trivial (fun b hb => by cases hb)
    have h3 := (op_one (p := ![20]) hφ.d2).1
    have e : partialD (fun y : Fin 1 → ℝ => Real.tanh (y 0)) ![20] 0 =
        1 - Real.tanh 20 * Real.tanh 20 := by
      refine h3.trans ?_
      show ((1 : ℤ) : ℝ) - Real.tanh 20 * Real.tanh 20 = _
      simp
    rw [e]
    have := Real.tanh_lt_one 20
    have := Real.neg_one_lt_tanh 20
    nlinarith

/-- **C67, violated.** The condition on `asin` is needed, and the same for `acos` and `atanh`.  With 53
bits the derivative at `1 - 2⁻²⁹` has a relative error above `2⁻³²`, two million times the unit
roundoff. -/
theorem C67_violated_asin (hv : c.Valid) (hfit : c.tsize = -1 ∨ c.tsize = (1 : Nat)) :
    ∃ r s, evalOn c (.fn .asin (.var 0)) ![(⟨1 - 1 / 2 ^ 29⟩ : Flt (rndBits 53))] = .ok r ∧
      r.g c 0 = .ok s ∧
      1 / 2 ^ 32 * |partialD (fun y : Fin 1 → ℝ => Real.arcsin (y 0)) ![1 - 1 / 2 ^ 29] 0| <
        |s.val - partialD (fun y : Fin 1 → ℝ => Real.arcsin (y 0)) ![1 - 1 / 2 ^ 29] 0| := by
  obtain ⟨r, h1, h2⟩ := deriv_one hv hfit .asin (⟨1 - 1 / 2 ^ 29⟩ : Flt (rndBits 53))
  refine ⟨r, _, h1, h2, ?_⟩
  have hφ := (Fn.asin : Fn ℝ).real (o := 2) (x := 1 - 1 / 2 ^ 29) (Or.inr rfl)
    (show _ ∧ _ by norm_num) (fun b hb => by cases hb)
  have e : partialD (fun y : Fin 1 → ℝ => Real.arcsin (y 0)) ![1 - 1 / 2 ^ 29] 0 =
      2 ^ 14 / √(1 - 1 / 2 ^ 30) := by
    refine (op_one (p := ![1 - 1 / 2 ^ 29]) hφ.d2).1.trans ?_
    show ((1 : ℤ) : ℝ) / √(((1 : ℤ) : ℝ) - (1 - 1 / 2 ^ 29) * (1 - 1 / 2 ^ 29)) = _
    have : ((1 : ℤ) : ℝ) - (1 - 1 / 2 ^ 29) * (1 - 1 / 2 ^ 29) = (1 / 2 ^ 14) ^ 2 * (1 - 1 / 2 ^ 30) := by
      norm_num
    rw [this, Real.sqrt_mul (by positivity), Real.sqrt_sq (by positivity), Int.cast_one]
    field_simp
  have hs : ((Fn.asin.coef (⟨1 - 1 / 2 ^ 29⟩ : Flt (rndBits 53))).da *ₛ Arith.lit 1).val = 2 ^ 14 := by
    show rndBits 53 (rndBits 53 (rndBits 53 ((1 : ℤ) : ℝ) /
      rndBits 53 √(rndBits 53 (rndBits 53 ((1 : ℤ) : ℝ) -
        rndBits 53 ((1 - 1 / 2 ^ 29) * (1 - 1 / 2 ^ 29))))) * rndBits 53 ((1 : ℤ) : ℝ)) = 2 ^ 14
    have r1 : rndBits 53 ((1 - 1 / 2 ^ 29) * (1 - 1 / 2 ^ 29)) = 1 - 1 / 2 ^ 28 := by
      rw [rnd_half (by norm_num) (by norm_num) (2 ^ 53 - 2 ^ 25) (by rw [abs_lt]; norm_num)]
      norm_num
    have r2 : rndBits 53 (1 - (1 - 1 / 2 ^ 28)) = 1 / 2 ^ 28 := by
      have := rnd_pow (-28)
      norm_num at this ⊢
      exact this
    have r3 : √(1 / 2 ^ 28 : ℝ) = 1 / 2 ^ 14 := by
      rw [show (1 / 2 ^ 28 : ℝ) = (1 / 2 ^ 14) ^ 2 by norm_num, Real.sqrt_sq (by positivity)]
    have r4 : rndBits 53 (1 / 2 ^ 14) = 1 / 2 ^ 14 := by
      have := rnd_pow (-14)
      norm_num at this ⊢
      exact this
    have r5 : rndBits 53 (2 ^ 14) = 2 ^ 14 := by
      have := rnd_pow 14
      norm_num at this ⊢
      exact this
    rw [Int.cast_one, rnd_one, r1, r2, r3, r4, one_div_one_div, r5, mul_one, r5]
  rw [hs, e]
  have hq : √(1 - 1 / 2 ^ 30 : ℝ) < 1 - 1 / 2 ^ 32 := by
    rw [Real.sqrt_lt' (by norm_num)]
    norm_num
  have hp : 0 < √(1 - 1 / 2 ^ 30 : ℝ) := Real.sqrt_pos.2 (by norm_num)
  have hD : (2 : ℝ) ^ 14 < 2 ^ 14 / √(1 - 1 / 2 ^ 30) * (1 - 1 / 2 ^ 32) := by
    rw [div_mul_eq_mul_div, lt_div_iff₀ hp]
    exact mul_lt_mul_of_pos_left hq (by positivity)
  have hD0 : (0 : ℝ) < 2 ^ 14 / √(1 - 1 / 2 ^ 30) := by positivity
  rw [abs_of_pos hD0, abs_of_neg (by nlinarith)]
  linarith

/-! ### Concrete cases -/

section samples

/-- `atan2` of jets with the values -3 and 4 and any derivatives, with 53 bits. -/
example (a b : Nat → Flt (rndBits 53)) (ha : a 0 = ⟨-3⟩) (hb : b 0 = ⟨4⟩) :
    let J : Fin 2 → Jet (Flt (rndBits 53)) := ![jetOf 2 a, jetOf 2 b]
    let P := fun v => (J v).mapv Flt.val
    let o : Op (Flt (rndBits 53)) 2 := .bin .atan2
    ∃ r R, o.expr.evalDD exDyn2 2 ![obj exDyn2 2 a, obj exDyn2 2 b] = .ok r ∧ Shows exDyn2 2 r R ∧
      Jet.Within 2 2 (17 / 2 ^ 53) (o.sizeJet Flt.val P) (R.mapv Flt.val)
        (exactJet (o.den Flt.val) P) := by
  refine C67_double exDyn2_valid (Or.inl rfl) (.bin .atan2) _ ![jetOf 2 a, jetOf 2 b] ?_ ?_
  · intro v
    fin_cases v
    · exact shows_obj (Or.inr rfl) (Or.inl rfl) a
    · exact shows_obj (Or.inr rfl) (Or.inl rfl) b
  · simp [Op.Stable, jetOf, ha, hb, Bin.dom, Bin.reg]

/-- `asin` of a jet with the value 1/2: value and gradient to a relative error of `17 u`. -/
example [CMath α] {u : ℝ} (M : LibErr α u) (hu : u ≤ 1 / 272) (a : Nat → α)
    (ha : M.val (a 0) = 1 / 2) :
    ∃ r R, (Op.fn .asin : Op α 1).expr.evalDD exDyn2 2 (fun _ => obj exDyn2 2 a) = .ok r ∧
      Shows exDyn2 2 r R ∧ |M.val R.f - Real.arcsin (1 / 2)| ≤ 17 * u * |Real.arcsin (1 / 2)| := by
  obtain ⟨r, R, h1, h2, h3, -⟩ := C67_relative M (by linarith) exDyn2_valid (Or.inl rfl)
    (.fn .asin : Op α 1) (fun _ => obj exDyn2 2 a) (fun _ => jetOf 2 a)
    (fun _ => shows_obj (Or.inr rfl) (Or.inl rfl) a)
    (by simp only [Op.Stable, jetOf, ha, Fn.map, Fn.dom, Fn.Steady]; norm_num)
  refine ⟨r, R, h1, h2, ?_⟩
  have e : (exactJet ((Op.fn .asin : Op α 1).den M.val) fun _ => (jetOf 2 a).mapv M.val).f =
      Real.arcsin (1 / 2) := by
    show Real.arcsin (M.val (a 0)) = _
    rw [ha]
  rw [e] at h3
  exact h3.trans (mul_le_mul_of_nonneg_right (C67_roundings M.nonneg hu) (abs_nonneg _))

/-- The exact result for `x * x` at 3 is the derivative of the square. -/
example : IsJet 2 1 (fun y : Fin 1 → ℝ => y 0 * y 0) ![3]
    (exactJet ((Op.bin .mul : Op ℝ 2).den id) fun _ => varJet 0 3) :=
  C67_exact id (.bin .mul) (Or.inr rfl) (fun _ => varJet 0 3) (fun _ y => y 0) ![3]
    (fun _ => isJet_var 2 ![3] 0) ⟨trivial, trivial⟩

/-- `x / y` of the sparse variables `x = 1`, `y = 3`. -/
example [CMath α] {u : ℝ} (M : LibErr α u) (hu : u ≤ 1 / 10) :
    ∃ r, (Op.bin .div : Op α 2).expr.evalSS exRev
        ![SS.var exFwd "x" (Arith.lit 1), SS.var exRev "y" (Arith.lit 3)] = .ok r ∧
      ∃ y, r.f = .ok y ∧ |M.val y - 1 / 3| ≤ roundings16 u * (1 / 3) := by
  have h1 : M.val (Arith.lit 1) = 1 := by simpa using M.lit10 1 (by norm_num)
  have h3 : M.val (Arith.lit 3) = 3 := by simpa using M.lit10 3 (by norm_num)
  have i1 := SS.is_var exFwd_ok "x" (Arith.lit 1 : α)
  have i3 := SS.is_var exRev_ok "y" (Arith.lit 3 : α)
  obtain ⟨r, hr, ⟨y, hy, hc⟩, -⟩ := C67_sparse M hu exRev_ok (.bin .div)
    ![SS.var exFwd "x" (Arith.lit 1), SS.var exRev "y" (Arith.lit 3)]
    ![Arith.lit 1, Arith.lit 3]
    (fun v => by fin_cases v; exacts [i1.wf, i3.wf])
    (fun v => by fin_cases v; exacts [SS.f_ok i1, SS.f_ok i3])
    (by simp [Op.Stable, Bin.dom, Bin.reg, h3])
  refine ⟨r, hr, y, hy, ?_⟩
  have e : (Op.bin .div : Op α 2).den M.val (fun v => M.val (![Arith.lit 1, Arith.lit 3] v)) = 1 / 3 := by
    show M.val (Arith.lit 1) / M.val (Arith.lit 3) = _
    rw [h1, h3]
  rw [e] at hc
  simpa [Close] using hc

end samples

end HJ
