import Verif.Proofs.Chain
import Mathlib.Analysis.Calculus.Deriv.Comp
import Mathlib.Analysis.Calculus.Deriv.Inv
import Mathlib.Analysis.SpecialFunctions.Sqrt
import Mathlib.Analysis.SpecialFunctions.Complex.LogDeriv
import Mathlib.Analysis.SpecialFunctions.Complex.Arg
import Mathlib.Tactic.FieldSimp
import Mathlib.Tactic.FinCases
import Mathlib.Tactic.IntervalCases
import Mathlib.Tactic.Linarith

/-!
# Jets of one-, two- and three-argument functions (helper lemmas)
-/

namespace HJ

open Topology

/-- First and (for order 2) second derivative of a one-variable function at a point. -/
def D2At (o : Nat) (φ : ℝ → ℝ) (x d dd : ℝ) : Prop :=
  HasDerivAt φ d x ∧
    (o = 2 → ∃ φ' : ℝ → ℝ, (∀ᶠ y in 𝓝 x, HasDerivAt φ (φ' y) y) ∧ HasDerivAt φ' dd x)

/-- Jet from explicit partial derivatives near the point. -/
theorem isJet_mk {o m : Nat} {F : (Fin m → ℝ) → ℝ} {x : Fin m → ℝ} {J : Jet ℝ}
    (P : Nat → (Fin m → ℝ) → ℝ) (hv : F x = J.f)
    (hF : ∀ᶠ y in 𝓝 x, HasFDerivAt F (lin m fun i => P i y) y)
    (hg : ∀ i < m, P i x = J.g i)
    (hP : o = 2 → ∀ i : Fin m, HasFDerivAt (P i) (lin m (J.h i)) x) : IsJet o m F x J where
  value := hv
  grad := by
    have : lin m J.g = lin m fun i => P i x := lin_ext fun i => by rw [lin_single, hg i i.2]
    rw [this]; exact hF.self_of_nhds
  near := fun _ => hF.mono fun y hy => hy.differentiableAt
  hess := by
    intro ho i
    refine (hP ho i).congr_of_eventuallyEq ?_
    filter_upwards [hF] with y hy
    rw [hy.fderiv, lin_single]

theorem isJet_one {o : Nat} {φ : ℝ → ℝ} {v : Fin 1 → ℝ} {d dd : ℝ} (h : D2At o φ (v 0) d dd) :
    IsJet o 1 (fun w => φ (w 0)) v ⟨φ (v 0), fun _ => d, fun _ _ => dd⟩ := by
  have hproj : ∀ w : Fin 1 → ℝ, HasFDerivAt (fun w : Fin 1 → ℝ => w 0)
      (ContinuousLinearMap.proj (R := ℝ) (φ := fun _ : Fin 1 => ℝ) 0) w :=
    fun w => hasFDerivAt_apply 0 w
  have hlift : ∀ (ψ : ℝ → ℝ) (w : Fin 1 → ℝ) (e : ℝ), HasDerivAt ψ e (w 0) →
      HasFDerivAt (fun w : Fin 1 → ℝ => ψ (w 0)) (lin 1 fun _ => e) w := by
    intro ψ w e he
    have := he.comp_hasFDerivAt w (hproj w)
    have e' : e • (ContinuousLinearMap.proj (R := ℝ) (φ := fun _ : Fin 1 => ℝ) 0) =
        lin 1 fun _ => e := lin_ext fun i => by
      have : i = 0 := Subsingleton.elim _ _
      subst this; simp
    rw [e'] at this
    exact this
  refine ⟨rfl, hlift φ v d h.1, ?_, ?_⟩
  · intro ho
    obtain ⟨φ', h1, _⟩ := h.2 ho
    have := (hproj v).continuousAt.eventually h1
    filter_upwards [this] with w hw
    exact (hlift φ w _ hw).differentiableAt
  · intro ho i
    obtain ⟨φ', h1, h2⟩ := h.2 ho
    have hw := (hproj v).continuousAt.eventually h1
    refine (hlift φ' v dd h2).congr_of_eventuallyEq ?_
    filter_upwards [hw] with w hw
    rw [(hlift φ w _ hw).fderiv, lin_single]

/-- Jet of `φ ∘ F`. -/
def Jet.comp1 (f da daa : ℝ) (J : Jet ℝ) : Jet ℝ where
  f := f
  g := fun i => da * J.g i
  h := fun i j => da * J.h i j + daa * J.g i * J.g j

theorem IsJet.comp1 {o n : Nat} {φ : ℝ → ℝ} {F : (Fin n → ℝ) → ℝ} {x : Fin n → ℝ} {J : Jet ℝ}
    {d dd : ℝ} (hF : IsJet o n F x J) (hφ : D2At o φ J.f d dd) :
    IsJet o n (fun y => φ (F y)) x (J.comp1 (φ J.f) d dd) := by
  rw [← hF.value] at hφ ⊢
  have := (isJet_one (v := fun _ => F x) hφ).comp (u := fun _ => F) (Ju := fun _ => J) fun _ => hF
  refine this.congr ⟨rfl, ?_, ?_⟩
  · intro i _; simp [Jet.comp, Jet.comp1]
  · intro _ i j _ _; simp [Jet.comp, Jet.comp1]; ring

/-- Coefficients of a two-argument function. -/
def jet2 (f da db daa dab dbb : ℝ) : Jet ℝ where
  f := f
  g := fun k => if k = 0 then da else db
  h := fun k l => if k = 0 then (if l = 0 then daa else dab) else (if l = 0 then dab else dbb)

/-- Jet of `Φ(F, G)`. -/
def Jet.comp2 (f da db daa dab dbb : ℝ) (J K : Jet ℝ) : Jet ℝ where
  f := f
  g := fun i => da * J.g i + db * K.g i
  h := fun i j => da * J.h i j + db * K.h i j +
    ((daa * J.g i + dab * K.g i) * J.g j + (dab * J.g i + dbb * K.g i) * K.g j)

theorem IsJet.comp2 {o n : Nat} {Φ : ℝ → ℝ → ℝ} {F G : (Fin n → ℝ) → ℝ} {x : Fin n → ℝ}
    {J K : Jet ℝ} {f da db daa dab dbb : ℝ} (hF : IsJet o n F x J) (hG : IsJet o n G x K)
    (hΦ : IsJet o 2 (fun w => Φ (w 0) (w 1)) ![J.f, K.f] (jet2 f da db daa dab dbb)) :
    IsJet o n (fun y => Φ (F y) (G y)) x (Jet.comp2 f da db daa dab dbb J K) := by
  have he : (![J.f, K.f] : Fin 2 → ℝ) = fun k => (![F, G] : Fin 2 → (Fin n → ℝ) → ℝ) k x := by
    funext k
    fin_cases k
    · exact hF.value.symm
    · exact hG.value.symm
  rw [he] at hΦ
  have := hΦ.comp (u := ![F, G]) (Ju := fun k => if k = 0 then J else K) (by
    intro k
    fin_cases k
    · exact hF
    · exact hG)
  refine this.congr ⟨rfl, ?_, ?_⟩
  · intro i _; simp [Jet.comp, Jet.comp2, jet2, Fin.sum_univ_two]
  · intro _ i j _ _; simp [Jet.comp, Jet.comp2, jet2, Fin.sum_univ_two]; ring

/-- Coefficients of a three-argument function. -/
def jet3 (f da db dc daa dab dac dbb dbc dcc : ℝ) : Jet ℝ where
  f := f
  g := fun k => if k = 0 then da else if k = 1 then db else dc
  h := fun k l =>
    if k = 0 then (if l = 0 then daa else if l = 1 then dab else dac)
    else if k = 1 then (if l = 0 then dab else if l = 1 then dbb else dbc)
    else (if l = 0 then dac else if l = 1 then dbc else dcc)

/-- Jet of `Φ(F, G, H)`. -/
def Jet.comp3 (f da db dc daa dab dac dbb dbc dcc : ℝ) (J K L : Jet ℝ) : Jet ℝ where
  f := f
  g := fun i => da * J.g i + db * K.g i + dc * L.g i
  h := fun i j => da * J.h i j + db * K.h i j + dc * L.h i j +
    ((daa * J.g i + dab * K.g i + dac * L.g i) * J.g j +
     (dab * J.g i + dbb * K.g i + dbc * L.g i) * K.g j +
     (dac * J.g i + dbc * K.g i + dcc * L.g i) * L.g j)

theorem IsJet.comp3 {o n : Nat} {Φ : ℝ → ℝ → ℝ → ℝ} {F G H : (Fin n → ℝ) → ℝ} {x : Fin n → ℝ}
    {J K L : Jet ℝ} {f da db dc daa dab dac dbb dbc dcc : ℝ} (hF : IsJet o n F x J)
    (hG : IsJet o n G x K) (hH : IsJet o n H x L)
    (hΦ : IsJet o 3 (fun w => Φ (w 0) (w 1) (w 2)) ![J.f, K.f, L.f]
      (jet3 f da db dc daa dab dac dbb dbc dcc)) :
    IsJet o n (fun y => Φ (F y) (G y) (H y)) x
      (Jet.comp3 f da db dc daa dab dac dbb dbc dcc J K L) := by
  have he : (![J.f, K.f, L.f] : Fin 3 → ℝ) =
      fun k => (![F, G, H] : Fin 3 → (Fin n → ℝ) → ℝ) k x := by
    funext k
    fin_cases k
    · exact hF.value.symm
    · exact hG.value.symm
    · exact hH.value.symm
  rw [he] at hΦ
  have := hΦ.comp (u := ![F, G, H]) (Ju := fun k => if k = 0 then J else if k = 1 then K else L) (by
    intro k
    fin_cases k
    · exact hF
    · exact hG
    · exact hH)
  refine this.congr ⟨rfl, ?_, ?_⟩
  · intro i _; simp [Jet.comp, Jet.comp3, jet3, Fin.sum_univ_three]
  · intro _ i j _ _; simp [Jet.comp, Jet.comp3, jet3, Fin.sum_univ_three]; ring

/-! ### The two- and three-argument functions -/

theorem hasFDerivAt_coord {m : Nat} (k : Fin m) (w : Fin m → ℝ) :
    HasFDerivAt (fun w : Fin m → ℝ => w k) (lin m fun i => if i = k then 1 else 0) w := by
  have e : ContinuousLinearMap.proj (R := ℝ) (φ := fun _ : Fin m => ℝ) k =
      lin m fun i => if i = k then 1 else 0 := lin_ext fun i => by
    simp [Pi.single_apply, Fin.ext_iff, eq_comm]
  rw [← e]
  exact hasFDerivAt_apply k w

/-- Replace a derivative by a linear form with the same coefficients. -/
theorem HasFDerivAt.toLin {m : Nat} {F : (Fin m → ℝ) → ℝ} {L : (Fin m → ℝ) →L[ℝ] ℝ}
    {w : Fin m → ℝ} {g : Nat → ℝ} (h : HasFDerivAt F L w)
    (hg : ∀ i : Fin m, L (Pi.single i 1) = g i) : HasFDerivAt F (lin m g) w := by
  rw [← lin_ext hg]; exact h

theorem isJet_add (o : Nat) (a b : ℝ) :
    IsJet o 2 (fun w => w 0 + w 1) ![a, b] (jet2 (a + b) 1 1 0 0 0) := by
  refine isJet_mk (fun _ _ => 1) (by simp [jet2]) ?_ (by simp [jet2]) ?_
  · refine Filter.Eventually.of_forall fun w => ?_
    refine HasFDerivAt.toLin ((hasFDerivAt_coord 0 w).add (hasFDerivAt_coord 1 w)) ?_
    intro i; fin_cases i <;> simp [lin_single]
  · intro _ i
    refine HasFDerivAt.toLin (hasFDerivAt_const (1 : ℝ) _) ?_
    intro j; fin_cases i <;> fin_cases j <;> simp [jet2]

theorem isJet_sub (o : Nat) (a b : ℝ) :
    IsJet o 2 (fun w => w 0 - w 1) ![a, b] (jet2 (a - b) 1 (-1) 0 0 0) := by
  refine isJet_mk (fun k _ => if k = 0 then 1 else -1) (by simp [jet2]) ?_ (by simp [jet2]) ?_
  · refine Filter.Eventually.of_forall fun w => ?_
    refine HasFDerivAt.toLin ((hasFDerivAt_coord 0 w).sub (hasFDerivAt_coord 1 w)) ?_
    intro i; fin_cases i <;> simp [lin_single]
  · intro _ i
    refine HasFDerivAt.toLin (hasFDerivAt_const _ _) ?_
    intro j; fin_cases i <;> fin_cases j <;> simp [jet2]

theorem isJet_mul (o : Nat) (a b : ℝ) :
    IsJet o 2 (fun w => w 0 * w 1) ![a, b] (jet2 (a * b) b a 0 1 0) := by
  refine isJet_mk (fun k w => if k = 0 then w 1 else w 0) (by simp [jet2]) ?_ ?_ ?_
  · refine Filter.Eventually.of_forall fun w => ?_
    refine HasFDerivAt.toLin ((hasFDerivAt_coord 0 w).mul (hasFDerivAt_coord 1 w)) ?_
    intro i; fin_cases i <;> simp [lin_single]
  · intro i hi; interval_cases i <;> simp [jet2]
  · intro _ i
    fin_cases i
    · refine HasFDerivAt.toLin (hasFDerivAt_coord 1 _) ?_
      intro j; fin_cases j <;> simp [jet2, lin_single]
    · refine HasFDerivAt.toLin (hasFDerivAt_coord 0 _) ?_
      intro j; fin_cases j <;> simp [jet2, lin_single]

theorem d2At_inv (o : Nat) {x : ℝ} (hx : x ≠ 0) : D2At o (fun x => x⁻¹) x (-1 / x ^ 2) (2 / x ^ 3) := by
  have h1 : ∀ y : ℝ, y ≠ 0 → HasDerivAt (fun x => x⁻¹) (-1 / y ^ 2) y := by
    intro y hy
    refine (hasDerivAt_inv hy).congr_deriv ?_
    rw [neg_div, one_div]
  refine ⟨h1 x hx, fun _ => ⟨fun y => -1 / y ^ 2, ?_, ?_⟩⟩
  · filter_upwards [isOpen_ne.mem_nhds hx] with y hy using h1 y hy
  · have := ((hasDerivAt_pow 2 x).inv (by positivity)).const_mul (-1)
    refine (this.congr_deriv ?_).congr_of_eventuallyEq (Filter.Eventually.of_forall fun y => ?_)
    · push_cast
      field_simp
    · simp [div_eq_mul_inv]

theorem isJet_coord (o : Nat) {m : Nat} (k : Fin m) (w : Fin m → ℝ) :
    IsJet o m (fun w => w k) w ⟨w k, fun i => if i = k then 1 else 0, fun _ _ => 0⟩ := by
  refine isJet_mk (fun i _ => if i = k then 1 else 0) rfl ?_ (fun _ _ => rfl) ?_
  · exact Filter.Eventually.of_forall fun w => hasFDerivAt_coord k w
  · intro _ i
    refine HasFDerivAt.toLin (hasFDerivAt_const _ _) ?_
    intro j; simp

theorem isJet_div (o : Nat) (a : ℝ) {b : ℝ} (hb : b ≠ 0) :
    IsJet o 2 (fun w => w 0 / w 1) ![a, b]
      (jet2 (a / b) (1 / b) (-a / b ^ 2) 0 (-1 / b ^ 2) (2 * a / b ^ 3)) := by
  have h0 := isJet_coord o (0 : Fin 2) ![a, b]
  have h1 := (isJet_coord o (1 : Fin 2) ![a, b]).comp1 (φ := fun x => x⁻¹) (d2At_inv o hb)
  have hm := h0.comp2 (Φ := fun p q => p * q) h1 (isJet_mul o _ _)
  have := hm.congr (K := jet2 (a / b) (1 / b) (-a / b ^ 2) 0 (-1 / b ^ 2) (2 * a / b ^ 3)) (by
    refine ⟨?_, ?_, ?_⟩
    · simp [Jet.comp2, jet2, Jet.comp1, div_eq_mul_inv]
    · intro i hi
      interval_cases i
      · simp [Jet.comp2, jet2, Jet.comp1]
      · simp [Jet.comp2, jet2, Jet.comp1]; ring
    · intro _ i j hi hj
      interval_cases i <;> interval_cases j <;> simp [Jet.comp2, jet2, Jet.comp1] <;> ring)
  exact this.congr_fun (Filter.Eventually.of_forall fun w => by simp [div_eq_mul_inv])

theorem d2At_sqrt (o : Nat) {x : ℝ} (hx : 0 < x) :
    D2At o Real.sqrt x (1 / (2 * √x)) (-(1 / (2 * √x)) / (2 * x)) := by
  have h1 : ∀ y : ℝ, 0 < y → HasDerivAt Real.sqrt (1 / (2 * √y)) y :=
    fun y hy => Real.hasDerivAt_sqrt hy.ne'
  refine ⟨h1 x hx, fun _ => ⟨fun y => 1 / (2 * √y), ?_, ?_⟩⟩
  · filter_upwards [lt_mem_nhds hx] with y hy using h1 y hy
  · have hs : √x ≠ 0 := (Real.sqrt_pos.mpr hx).ne'
    have := (((h1 x hx).const_mul 2).inv (by positivity))
    refine (this.congr_deriv ?_).congr_of_eventuallyEq (Filter.Eventually.of_forall fun y => ?_)
    · have e : x = √x ^ 2 := (Real.sq_sqrt hx.le).symm
      conv_rhs => rw [e]
      rw [Real.sqrt_sq (Real.sqrt_nonneg x)]
      field_simp
    · simp

theorem isJet_hypot (o : Nat) {a b : ℝ} (h : ¬ (a = 0 ∧ b = 0)) :
    IsJet o 2 (fun w => √(w 0 ^ 2 + w 1 ^ 2)) ![a, b]
      (jet2 (√(a ^ 2 + b ^ 2)) (a / √(a ^ 2 + b ^ 2)) (b / √(a ^ 2 + b ^ 2))
        (b * b / √(a ^ 2 + b ^ 2) ^ 3) (-a * b / √(a ^ 2 + b ^ 2) ^ 3)
        (a * a / √(a ^ 2 + b ^ 2) ^ 3)) := by
  have hq : 0 < a ^ 2 + b ^ 2 := by
    rcases not_and_or.mp h with ha | hb
    · positivity
    · positivity
  have hp : IsJet o 2 (fun w => w 0 ^ 2 + w 1 ^ 2) ![a, b]
      (jet2 (a ^ 2 + b ^ 2) (2 * a) (2 * b) 2 0 2) := by
    refine isJet_mk (fun k w => if k = 0 then 2 * w 0 else 2 * w 1) (by simp [jet2]) ?_ ?_ ?_
    · refine Filter.Eventually.of_forall fun w => ?_
      refine HasFDerivAt.toLin (((hasFDerivAt_coord 0 w).pow 2).add
        ((hasFDerivAt_coord 1 w).pow 2)) ?_
      intro i; fin_cases i <;> simp [lin_single]
    · intro i hi; interval_cases i <;> simp [jet2]
    · intro _ i
      fin_cases i
      · refine HasFDerivAt.toLin ((hasFDerivAt_coord 0 _).const_mul 2) ?_
        intro j; fin_cases j <;> simp [jet2, lin_single]
      · refine HasFDerivAt.toLin ((hasFDerivAt_coord 1 _).const_mul 2) ?_
        intro j; fin_cases j <;> simp [jet2, lin_single]
  have hs := hp.comp1 (d2At_sqrt o hq)
  have hr : 0 < √(a ^ 2 + b ^ 2) := Real.sqrt_pos.mpr hq
  have hsq : √(a ^ 2 + b ^ 2) ^ 2 = a ^ 2 + b ^ 2 := Real.sq_sqrt hq.le
  refine hs.congr ⟨rfl, ?_, ?_⟩
  · intro i hi
    interval_cases i
    · simp [Jet.comp1, jet2]; field_simp
    · simp [Jet.comp1, jet2]; field_simp
  · intro _ i j hi hj
    generalize hrr : √(a ^ 2 + b ^ 2) = r at *
    have hr' : r ≠ 0 := hr.ne'
    interval_cases i <;> interval_cases j <;>
      simp only [Jet.comp1, jet2, if_true, if_false, one_ne_zero, ← hsq, Real.sqrt_sq hr.le] <;>
      field_simp <;> nlinarith [hsq]

theorem isJet_hypot3 (o : Nat) {a b c : ℝ} (h : ¬ (a = 0 ∧ b = 0 ∧ c = 0)) :
    IsJet o 3 (fun w => √(w 0 ^ 2 + w 1 ^ 2 + w 2 ^ 2)) ![a, b, c]
      (jet3 (√(a ^ 2 + b ^ 2 + c ^ 2)) (a / √(a ^ 2 + b ^ 2 + c ^ 2))
        (b / √(a ^ 2 + b ^ 2 + c ^ 2)) (c / √(a ^ 2 + b ^ 2 + c ^ 2))
        ((b * b + c * c) / √(a ^ 2 + b ^ 2 + c ^ 2) ^ 3)
        (-(a * b) / √(a ^ 2 + b ^ 2 + c ^ 2) ^ 3) (-(a * c) / √(a ^ 2 + b ^ 2 + c ^ 2) ^ 3)
        ((a * a + c * c) / √(a ^ 2 + b ^ 2 + c ^ 2) ^ 3)
        (-(b * c) / √(a ^ 2 + b ^ 2 + c ^ 2) ^ 3)
        ((a * a + b * b) / √(a ^ 2 + b ^ 2 + c ^ 2) ^ 3)) := by
  have hq : 0 < a ^ 2 + b ^ 2 + c ^ 2 := by
    by_cases ha : a = 0
    · by_cases hb : b = 0
      · have hc : c ≠ 0 := fun hc => h ⟨ha, hb, hc⟩
        positivity
      · positivity
    · positivity
  have hp : IsJet o 3 (fun w => w 0 ^ 2 + w 1 ^ 2 + w 2 ^ 2) ![a, b, c]
      (jet3 (a ^ 2 + b ^ 2 + c ^ 2) (2 * a) (2 * b) (2 * c) 2 0 0 2 0 2) := by
    refine isJet_mk (fun k w => if k = 0 then 2 * w 0 else if k = 1 then 2 * w 1 else 2 * w 2)
      (by simp [jet3]) ?_ ?_ ?_
    · refine Filter.Eventually.of_forall fun w => ?_
      refine HasFDerivAt.toLin ((((hasFDerivAt_coord 0 w).pow 2).add
        ((hasFDerivAt_coord 1 w).pow 2)).add ((hasFDerivAt_coord 2 w).pow 2)) ?_
      intro i; fin_cases i <;> simp [lin_single]
    · intro i hi; interval_cases i <;> simp [jet3]
    · intro _ i
      fin_cases i
      · refine HasFDerivAt.toLin ((hasFDerivAt_coord 0 _).const_mul 2) ?_
        intro j; fin_cases j <;> simp [jet3, lin_single]
      · refine HasFDerivAt.toLin ((hasFDerivAt_coord 1 _).const_mul 2) ?_
        intro j; fin_cases j <;> simp [jet3, lin_single]
      · refine HasFDerivAt.toLin ((hasFDerivAt_coord 2 _).const_mul 2) ?_
        intro j; fin_cases j <;> simp [jet3, lin_single]
  have hs := hp.comp1 (d2At_sqrt o hq)
  have hr : 0 < √(a ^ 2 + b ^ 2 + c ^ 2) := Real.sqrt_pos.mpr hq
  have hsq : √(a ^ 2 + b ^ 2 + c ^ 2) ^ 2 = a ^ 2 + b ^ 2 + c ^ 2 := Real.sq_sqrt hq.le
  refine hs.congr ⟨rfl, ?_, ?_⟩
  · intro i hi
    interval_cases i <;> simp [Jet.comp1, jet3] <;> field_simp
  · intro _ i j hi hj
    generalize hrr : √(a ^ 2 + b ^ 2 + c ^ 2) = r at *
    have hr' : r ≠ 0 := hr.ne'
    interval_cases i <;> interval_cases j <;>
      simp only [Jet.comp1, jet3, if_true, if_false, one_ne_zero, OfNat.ofNat_ne_zero,
        OfNat.ofNat_ne_one, ← hsq, Real.sqrt_sq hr.le] <;>
      field_simp <;> nlinarith [hsq]

/-- `atan2 y x` as the argument of `x + iy`. -/
theorem hasFDerivAt_arg {w : Fin 2 → ℝ} (h : w 0 ≠ 0 ∨ 0 < w 1) :
    HasFDerivAt (fun w : Fin 2 → ℝ => Complex.arg ⟨w 1, w 0⟩)
      (lin 2 fun k => if k = 0 then w 1 / (w 0 ^ 2 + w 1 ^ 2) else -w 0 / (w 0 ^ 2 + w 1 ^ 2)) w := by
  let L : (Fin 2 → ℝ) →L[ℝ] ℂ :=
    Complex.ofRealCLM.comp (ContinuousLinearMap.proj (R := ℝ) (φ := fun _ : Fin 2 => ℝ) 1) +
    Complex.I • Complex.ofRealCLM.comp (ContinuousLinearMap.proj (R := ℝ) (φ := fun _ : Fin 2 => ℝ) 0)
  have hL : ∀ v : Fin 2 → ℝ, L v = ⟨v 1, v 0⟩ := by
    intro v
    apply Complex.ext <;> simp [L]
  have hs : L w ∈ Complex.slitPlane := by
    rw [hL, Complex.mem_slitPlane_iff]
    rcases h with h | h
    · right; exact h
    · left; exact h
  have h1 := (Complex.hasStrictFDerivAt_log_real hs).hasFDerivAt.comp w L.hasFDerivAt
  have h2 := Complex.imCLM.hasFDerivAt.comp w h1
  have h3 : HasFDerivAt (fun w : Fin 2 → ℝ => Complex.arg ⟨w 1, w 0⟩) _ w :=
    h2.congr_of_eventuallyEq (Filter.Eventually.of_forall fun v => by
      simp [hL, Complex.log_im])
  refine HasFDerivAt.toLin h3 ?_
  have hn : Complex.normSq (L w) = w 0 ^ 2 + w 1 ^ 2 := by
    rw [hL, Complex.normSq_mk]; ring
  intro i
  have : ∀ v, (Complex.imCLM.comp (((L w)⁻¹ • (1 : ℂ →L[ℝ] ℂ)).comp L)) v =
      ((L w)⁻¹ * L v).im := fun v => by simp
  rw [this, Complex.mul_im, Complex.inv_re, Complex.inv_im, hn, hL, hL]
  fin_cases i <;> simp

theorem isJet_atan2 (o : Nat) {a b : ℝ} (h : a ≠ 0 ∨ 0 < b) :
    IsJet o 2 (fun w => Complex.arg ⟨w 1, w 0⟩) ![a, b]
      (jet2 (Complex.arg ⟨b, a⟩) (b / (a ^ 2 + b ^ 2)) (-a / (a ^ 2 + b ^ 2))
        (-(2 * a * b) / (a ^ 2 + b ^ 2) ^ 2) ((a ^ 2 - b ^ 2) / (a ^ 2 + b ^ 2) ^ 2)
        (2 * a * b / (a ^ 2 + b ^ 2) ^ 2)) := by
  have hq : a ^ 2 + b ^ 2 ≠ 0 := by
    rcases h with h | h <;> positivity
  have hopen : ∀ᶠ w in 𝓝 (![a, b] : Fin 2 → ℝ), w 0 ≠ 0 ∨ 0 < w 1 := by
    rcases h with h | h
    · have : ContinuousAt (fun w : Fin 2 → ℝ => w 0) ![a, b] := (continuous_apply 0).continuousAt
      filter_upwards [this.eventually (isOpen_ne.mem_nhds (show (![a, b] : Fin 2 → ℝ) 0 ≠ 0 from h))]
        with w hw using Or.inl hw
    · have : ContinuousAt (fun w : Fin 2 → ℝ => w 1) ![a, b] := (continuous_apply 1).continuousAt
      filter_upwards [this.eventually (lt_mem_nhds (show (0 : ℝ) < (![a, b] : Fin 2 → ℝ) 1 from h))]
        with w hw using Or.inr hw
  refine isJet_mk (fun k w => if k = 0 then w 1 / (w 0 ^ 2 + w 1 ^ 2)
    else -w 0 / (w 0 ^ 2 + w 1 ^ 2)) (by simp [jet2]) ?_ ?_ ?_
  · filter_upwards [hopen] with w hw using hasFDerivAt_arg hw
  · intro i hi; interval_cases i <;> simp [jet2]
  · intro _ i
    have hq' : (![a, b] : Fin 2 → ℝ) 0 ^ 2 + (![a, b] : Fin 2 → ℝ) 1 ^ 2 ≠ 0 := by simpa using hq
    have hr : HasFDerivAt (fun w : Fin 2 → ℝ => w 0 ^ 2 + w 1 ^ 2)
        (lin 2 fun k => if k = 0 then 2 * a else 2 * b) ![a, b] := by
      refine HasFDerivAt.toLin (((hasFDerivAt_coord 0 _).pow 2).add
        ((hasFDerivAt_coord 1 _).pow 2)) ?_
      intro i; fin_cases i <;> simp [lin_single]
    have hi := (hasDerivAt_inv hq').comp_hasFDerivAt (![a, b] : Fin 2 → ℝ) hr
    fin_cases i
    · have := (hasFDerivAt_coord 1 ![a, b]).mul hi
      refine HasFDerivAt.toLin (this.congr_of_eventuallyEq
        (Filter.Eventually.of_forall fun w => by simp [div_eq_mul_inv])) ?_
      intro j; fin_cases j <;> simp [jet2, lin_single] <;> field_simp <;> ring
    · have := (hasFDerivAt_coord 0 ![a, b]).neg.mul hi
      refine HasFDerivAt.toLin (this.congr_of_eventuallyEq
        (Filter.Eventually.of_forall fun w => by simp [div_eq_mul_inv])) ?_
      intro j; fin_cases j <;> simp [jet2, lin_single] <;> field_simp <;> ring

end HJ
