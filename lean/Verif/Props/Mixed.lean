import Verif.Proofs.Mixed
import Verif.Proofs.Smooth
import Verif.Props.CallerFinite
import Mathlib.Tactic.IntervalCases

/-!
# C87: client code that computes with jets and with numbers
-/

namespace HJ

open Filter Topology Asymptotics

section

variable {V W Q : Type} [DecidableEq V] [DecidableEq W] {c : Cfg} {n : Nat} {x : Fin n → ℝ}

/-- **C87.**  Let client code of any kind compute with jets and with numbers: it reads values and derivatives
of jets, evaluates them with `eval`, computes with the numbers, takes decisions by them, uses the results as
scalar operands and as the values of new variables, and sets components of jets to them.  On functions and
real numbers it ends with all calls inside their domains, without comparing equal numbers and with `pow` of
positive numbers only.  There are a constant `K`, a precision, a
range and a number of calls such that in every arithmetic of at least that precision and range the client
code on jets ends in the same state within that many calls, and all numbers and the values, gradients and
Hessians of all jets are finite and within `K` times the error of one operation of the exact ones. -/
theorem C87_rate [Finite V] [Finite W] (hv : c.Valid) (hfit : c.tsize = -1 ∨ c.tsize = n)
    (cl : Caller (MCall ℝ V W) (Answer ℝ) Q) {q q' : Q} {σ σ' : MixSt n V W} (J : V → Jet ℝ)
    (hJ : ∀ v, IsJet c.order n (fun y => σ.fns y v) x (J v))
      (h : cl.Ends (MixCall c.order x) q σ q' σ') :
    ∃ K w₀ B : ℝ, 0 < w₀ ∧ ∃ m : Nat, ∀ (α : Type) [CMath α] (w : Prec) (M : FinErr α w)
      (enc : ℝ → α) (ρ : Store α V) (ν : W → α), w.rel ≤ w₀ → w.abs ≤ w₀ → Set.Icc (-B) B ⊆ w.range →
      M.ExactCmp → M.fin Arith.half → M.val Arith.half = 1 / 2 → (∀ s, M.Sound (enc s) s) →
      (∀ v, SeedBy c n M.Sound (J v) (ρ v)) → (∀ t, M.Sound (ν t) (σ.nums t)) →
      ∃ ρ' ν', (∀ j ≥ m, (cl.map (MCall.map enc) (Answer.map M.val)).run (mixLibrary α V W c n) j q
          (ρ, ν) = some (.ok q', ρ', ν')) ∧
        (∀ v, Within c (fun s t => M.fin s ∧ |M.val s - t| ≤ K * (w.rel + w.abs))
          (fun y => σ'.fns y v) x (ρ' v)) ∧
        ∀ t, M.fin (ν' t) ∧ |M.val (ν' t) - σ'.nums t| ≤ K * (w.rel + w.abs) := by
  by_contra hcon
  push Not at hcon
  choose α inst w M enc ρ ν hle hle' hrng hcmp hhalf hhalf' hclose hseed hnum hbad using
    fun k : ℕ => hcon k (1 / ((k : ℝ) + 1)) k (by positivity) k
  choose L hL hf hg hh using hseed
  have hw := fine_self (fun k => (M k).rel_nonneg) (fun k => (M k).abs_nonneg) hle hle' hrng
  have lim : ∀ {b : ∀ k, α k} {r : ℝ}, (∀ k, (M k).Sound (b k) r) →
      Lim M atTop (fun k => (w k).rel + (w k).abs) b (fun _ => r) r := fun h =>
    Lim.close hw (Nigh.const _) (Eventually.of_forall h)
  obtain ⟨ρR, hρR⟩ := exists_shows hv.order hfit hJ
  have h0 : MNear M atTop (fun k => (w k).rel + (w k).abs) c x ρ ν σ :=
    ⟨⟨ρR, Nearing.of_shows hv.order hJ hL (KR := fun _ => J) (fun _ => hρR)
      (fun v => lim fun k => hf k v) (fun v i hi => lim fun k => hg k v i hi)
      (fun h2 v i hi j hj => lim fun k => hh k v h2 i hi j hj)⟩, fun t => lim fun k => hnum k t⟩
  obtain ⟨m, ρ', ν', h1, h2⟩ := mixclient_near hw hv hfit (fun _ => rfl)
    (fun k => ⟨hhalf k, hhalf' k⟩) hcmp
    (fun s => lim fun k => hclose k s) h h0
  have hω : ∀ k, ‖(w k).rel + (w k).abs‖ = (w k).rel + (w k).abs := fun k =>
    Real.norm_of_nonneg (add_nonneg (M k).rel_nonneg (M k).abs_nonneg)
  have hN : ∀ᶠ C : ℝ in atTop, ∀ᶠ k in atTop, ∀ t,
      (M k).fin (ν' k t) ∧ |(M k).val (ν' k t) - σ'.nums t| ≤ C * ((w k).rel + (w k).abs) := by
    refine (eventually_all.2 fun t => isBigO_iff_eventually_isBigOWith.1 (h2.nums t).rate).mono
      fun C hC => eventually_all.2 fun t => (((h2.nums t).fin).and (hC t).bound).mono fun k hk => ?_
    refine ⟨hk.1, ?_⟩
    have := hk.2
    rwa [Real.norm_eq_abs, hω] at this
  have hO : ∀ᶠ C : ℝ in atTop, ∀ᶠ k in atTop, ∀ v,
      Within c (fun s t => (M k).fin s ∧ |(M k).val s - t| ≤ C * ((w k).rel + (w k).abs))
        (fun y => σ'.fns y v) x (ρ' k v) := by
    refine (eventually_all.2 fun v => (h2.obj hv.order hfit v).errLe hv.order hfit).mono
      fun C hC => eventually_all.2 fun v => (hC v).mono fun k hk => ?_
    rwa [hω] at hk
  obtain ⟨C, hC, hC'⟩ := (hN.and hO).exists
  obtain ⟨k, ⟨⟨⟨hk, hk'⟩, hr⟩, hCk⟩, hmk⟩ := ((((hC.and hC').and h1).and
    ((tendsto_natCast_atTop_atTop (R := ℝ)).eventually_ge_atTop C)).and
    (eventually_ge_atTop m)).exists
  have le := mul_le_mul_of_nonneg_right hCk (add_nonneg (M k).rel_nonneg (M k).abs_nonneg)
  obtain ⟨t, ht⟩ := hbad k (ρ' k) (ν' k) (fun j hj => hr j (le_trans hmk hj))
    fun v => (hk' v).mono fun s t hst => ⟨hst.1, hst.2.trans le⟩
  exact absurd ((hk t).2.trans le) (not_le.2 (ht (hk t).1))

/-- **C87, formats.**  The same for the formats with `b` bits and exponents up to `emax`, started with
`variables(x)`, constants and numbers. -/
theorem C87_formats [Finite V] [Finite W] (hv : c.Valid) (hfit : c.tsize = -1 ∨ c.tsize = n)
    (cl : Caller (MCall ℝ V W) (Answer ℝ) Q) {q q' : Q} (start : V → Fin n ⊕ ℝ) (num : W → ℝ)
    {σ' : MixSt n V W} (h : cl.Ends (MixCall c.order x) q ⟨startVal start, num⟩ q' σ') :
    ∃ (K : ℝ) (N m : Nat), ∀ b ≥ N, ∀ emax ≥ N,
      (∃ ρ, Starts c (fun i => IEEE.enc b emax (x i)) (IEEE.enc b emax) start ρ) ∧
      ∀ ρ, Starts c (fun i => IEEE.enc b emax (x i)) (IEEE.enc b emax) start ρ →
        ∃ ρ' ν', (∀ j ≥ m, (cl.map (MCall.map (IEEE.enc b emax)) (Answer.map IEEE.real)).run
            (mixLibrary _ V W c n) j q (ρ, fun t => IEEE.enc b emax (num t)) = some (.ok q', ρ', ν')) ∧
          (∀ v, Within c (fun s t => s.val.Fin ∧ |s.real - t| ≤ K / 2 ^ b) (fun y => σ'.fns y v) x
            (ρ' v)) ∧
          ∀ t, (ν' t).val.Fin ∧ |(ν' t).real - σ'.nums t| ≤ K / 2 ^ b := by
  obtain ⟨K, u₀, B, hu, m, hm⟩ := C87_rate hv hfit cl (startJet start x)
    (startJet_isJet c.order start x) h
  obtain ⟨N, hN, hfmt⟩ := fmt_enough hu B
  refine ⟨2 * |K|, N, m, fun b hb emax he => ⟨starts_exists hfit _ _ _, fun ρ hρ => ?_⟩⟩
  obtain ⟨f1, f2, f3⟩ := hfmt b hb emax he
  have le := fmt_rate (p := b) (le_trans (by omega : 1 ≤ N) he) K
  obtain ⟨ρ', ν', h1, h2, h3⟩ := hm _ _ (ieeeErr b emax (hN.trans hb) (hN.trans he)) (IEEE.enc b emax) ρ
    (fun t => IEEE.enc b emax (num t)) f1 f2 f3 (ieee_exactCmp _ _) trivial rfl (ieee_enc _ _) (fun v =>
      starts_seedBy (by simpa using sound_lit _ 0 (by norm_num))
        (by simpa using sound_lit _ 1 (by norm_num))
        hv hfit start x _ (ieee_enc _ _) hρ v) (fun t => ieee_enc _ _ _)
  exact ⟨ρ', ν', h1, fun v => (h2 v).mono fun s t hs => ⟨hs.1, hs.2.trans le⟩,
    fun t => ⟨(h3 t).1, (h3 t).2.trans le⟩⟩

end

/-! ## Newton's method -/

/-- Where the loop is. User code, no line of `hyperjet.h`. -/
inductive NewtonAt
  | seed | eval | value | check | slope | step | stop

/-- `z, f, d` -/
inductive NewtonVar
  | z | f | d
  deriving DecidableEq

instance : Finite NewtonVar :=
  Finite.of_surjective (fun i : Fin 3 => match i with | 0 => .z | 1 => .f | 2 => .d) fun v => by
    cases v
    · exact ⟨0, rfl⟩
    · exact ⟨1, rfl⟩
    · exact ⟨2, rfl⟩

/-- Newton's method for one unknown, user code; the state counts the steps:
`while (true) { auto a = T::variable(0, z, 1); a = F(a); f = a.f(); if (f * f < tol) break; d = a.g(0);
z = z - f / d; }` -/
def newton (F : Expr ℝ Unit) (tol : ℝ) :
    Caller (MCall ℝ Unit NewtonVar) (Answer ℝ) (Nat × NewtonAt) where
  next q := match q.2 with
    | .seed => some (.vari () 0 (.inr .z))
    | .eval => some (.act (.assign () (F.map .inl)))
    | .value => some (.f .f ())
    | .check => some (.test .lt (.bin .mul (.var .f) (.var .f)) (.const tol))
    | .slope => some (.g .d () 0)
    | .step => some (.compute .z (.bin .sub (.var .z) (.bin .div (.var .f) (.var .d))))
    | .stop => none
  after
    | (k, .seed), _ => (k, .eval)
    | (k, .eval), _ => (k, .value)
    | (k, .value), _ => (k, .check)
    | (k, .check), .truth true => (k, .stop)
    | (k, .check), _ => (k, .slope)
    | (k, .slope), _ => (k, .step)
    | (k, .step), _ => (k + 1, .seed)
    | (k, .stop), _ => (k, .stop)

/-- The function of one unknown. -/
noncomputable def Expr.of1 (F : Expr ℝ Unit) (s : ℝ) : ℝ := F.den fun _ => s

theorem of1_deriv {order : Nat} (ho : order = 1 ∨ order = 2) (F : Expr ℝ Unit) {z : ℝ}
    (hD : F.Dom order fun _ => z) (hR : F.Regular fun _ => z) (x : Fin 1 → ℝ) :
    partialD (fun y : Fin 1 → ℝ => F.of1 (z + (y 0 - x 0))) x 0 = deriv F.of1 z := by
  have h1 : DifferentiableAt ℝ F.of1 z := by
    have := (F.contDiffAt hD hR).differentiableAt (by rcases ho with rfl | rfl <;> simp)
    exact DifferentiableAt.comp (g := fun σ : Unit → ℝ => F.den σ)
      (f := fun s : ℝ => fun _ : Unit => s) z this
      (differentiableAt_pi.2 fun _ => differentiableAt_id)
  have h2 : HasFDerivAt (fun y : Fin 1 → ℝ => z + (y 0 - x 0))
      (ContinuousLinearMap.proj (R := ℝ) (φ := fun _ : Fin 1 => ℝ) 0) x :=
    ((ContinuousLinearMap.proj (R := ℝ) (φ := fun _ : Fin 1 => ℝ) 0).hasFDerivAt.sub_const _).const_add _
  have h3 := HasDerivAt.comp_hasFDerivAt x (h₂ := F.of1) (h₂' := deriv F.of1 z)
    (by simpa using h1.hasDerivAt) h2
  have h4 := h3.fderiv
  simp only [Function.comp_def] at h4
  rw [partialD, h4]
  simp

section
variable {F : Expr ℝ Unit} {tol : ℝ} {order : Nat} {x : Fin 1 → ℝ}

/-- One round up to the check. -/
theorem newton_round (ho : order = 1 ∨ order = 2) {z : ℝ} (hD : F.Dom order fun _ => z)
    (hR : F.Regular fun _ => z)
    (hP : F.PowPos fun _ => z) (hne : F.of1 z * F.of1 z ≠ tol) {σ σ' : MixSt 1 Unit NewtonVar}
      (hσ : σ.nums .z = z)
    {i : Nat} {q : Nat × NewtonAt}
    (h : (newton F tol).Ends (MixCall order x) (i, if F.of1 z * F.of1 z < tol then .stop else .slope)
      ⟨fun y _ => F.of1 (z + (y 0 - x 0)), setVal σ.nums NewtonVar.f (F.of1 z)⟩ q σ') :
    (newton F tol).Ends (MixCall order x) (i, .seed) σ q σ' := by
  subst hσ
  have hF : ∀ ν : NewtonVar → ℝ, (F.map Sum.inl).map (scalarOf ν) = F := fun ν => by
    rw [Expr.map_fuse]; exact F.map_id_self
  have c1 : MixCall order x (.vari () 0 (.inr .z)) σ .done
      ⟨fun y _ => σ.nums .z + (y 0 - x 0), σ.nums⟩ := MixCall.vari () (0 : Fin 1) (.inr .z) σ
  have c2 : MixCall order x (.act (.assign () (F.map .inl)))
      ⟨fun y _ => σ.nums .z + (y 0 - x 0), σ.nums⟩ .done
      ⟨fun y _ => F.of1 (σ.nums .z + (y 0 - x 0)), σ.nums⟩ := by
    have := MixCall.act (order := order) (x := x) (.assign () (F.map .inl))
      ⟨fun y _ => σ.nums .z + (y 0 - x 0), σ.nums⟩
      (by simp only [Stmt.map, hF, Stmt.Ok, sub_self, add_zero]; exact ⟨hD, hR⟩)
      (by simp only [Stmt.map, hF, Stmt.PowPos, sub_self, add_zero]; exact hP)
    simp only [Stmt.map, hF, Stmt.den] at this
    exact this
  have c3 : MixCall order x (.f NewtonVar.f ()) ⟨fun y _ => F.of1 (σ.nums .z + (y 0 - x 0)), σ.nums⟩
      .done ⟨fun y _ => F.of1 (σ.nums .z + (y 0 - x 0)),
        setVal σ.nums NewtonVar.f (F.of1 (σ.nums .z))⟩ := by
    have := MixCall.f (order := order) (x := x) NewtonVar.f ()
      ⟨fun y _ => F.of1 (σ.nums .z + (y 0 - x 0)), σ.nums⟩
    simpa only [sub_self, add_zero] using this
  refine .call rfl c1 (.call rfl c2 (.call rfl c3 (.call rfl
    (.test (r := decide (F.of1 (σ.nums .z) * F.of1 (σ.nums .z) < tol)) .lt
      (.bin .mul (.var NewtonVar.f) (.var NewtonVar.f)) (.const tol) _ ?_ ?_ ?_ ?_) ?_)))
  · exact ⟨⟨trivial, trivial, trivial⟩, ⟨trivial, trivial, trivial⟩, trivial, trivial⟩
  · exact ⟨trivial, trivial, trivial⟩
  · simpa [Expr.den, Bin.den, setVal] using hne
  · simp [Expr.den, Bin.den, setVal, DD.CmpOp.rel]
  · have e3 : (newton F tol).after (i, .check)
        (.truth (decide (F.of1 (σ.nums .z) * F.of1 (σ.nums .z) < tol))) =
        (i, if F.of1 (σ.nums .z) * F.of1 (σ.nums .z) < tol then .stop else .slope) := by
      by_cases h : F.of1 (σ.nums .z) * F.of1 (σ.nums .z) < tol <;> simp [h, newton]
    rw [← e3] at h
    exact h

/-- The whole loop. -/
theorem newton_ends (ho : order = 1 ∨ order = 2) (k : Nat) {z : ℕ → ℝ}
    (hz : ∀ j < k, z (j + 1) = z j - F.of1 (z j) / deriv F.of1 (z j))
    (hF : ∀ j ≤ k, F.Dom order (fun _ => z j) ∧ F.Regular (fun _ => z j) ∧ F.PowPos fun _ => z j)
    (h0 : ∀ j < k, tol < F.of1 (z j) ^ 2 ∧ deriv F.of1 (z j) ≠ 0) (hk : F.of1 (z k) ^ 2 < tol)
    (σ : MixSt 1 Unit NewtonVar) (hσ : σ.nums .z = z 0) (i : Nat) :
    ∃ σ', (newton F tol).Ends (MixCall order x) (i, .seed) σ (i + k, .stop) σ' ∧ σ'.nums .z = z k ∧
      σ'.nums .f = F.of1 (z k) := by
  induction k generalizing z σ i with
  | zero =>
    obtain ⟨hD, hR, hP⟩ := hF 0 le_rfl
    rw [sq] at hk
    refine ⟨⟨fun y _ => F.of1 (z 0 + (y 0 - x 0)), setVal σ.nums .f (F.of1 (z 0))⟩,
      newton_round ho hD hR hP hk.ne hσ ?_, ?_, ?_⟩
    · rw [if_pos hk]
      exact .stop rfl
    · simpa [setVal] using hσ
    · simp [setVal]
  | succ k ih =>
    obtain ⟨hD, hR, hP⟩ := hF 0 (by omega)
    obtain ⟨h1, h2⟩ := h0 0 (by omega)
    rw [sq] at h1
    have hd := of1_deriv ho F hD hR x
    let σ₁ : MixSt 1 Unit NewtonVar :=
      ⟨fun y _ => F.of1 (z 0 + (y 0 - x 0)), setVal σ.nums .f (F.of1 (z 0))⟩
    let σ₂ : MixSt 1 Unit NewtonVar := ⟨σ₁.fns, setVal σ₁.nums .d (deriv F.of1 (z 0))⟩
    have c1 : MixCall order x (.g NewtonVar.d () 0) σ₁ .done σ₂ := by
      have := MixCall.g (order := order) (x := x) NewtonVar.d () (0 : Fin 1) σ₁
      rw [show partialD (fun y => σ₁.fns y ()) x 0 = deriv F.of1 (z 0) from hd] at this
      exact this
    let e : Expr ℝ NewtonVar := .bin .sub (.var .z) (.bin .div (.var .f) (.var .d))
    have c2 : MixCall order x (.compute .z e) σ₂ .done ⟨σ₂.fns, setVal σ₂.nums .z (e.den σ₂.nums)⟩ :=
      .compute .z e σ₂ ⟨⟨trivial, ⟨trivial, trivial, by
        simpa [e, Expr.den, σ₂, setVal, Bin.dom] using h2⟩, trivial⟩,
        ⟨trivial, ⟨trivial, trivial, trivial⟩, trivial⟩, trivial, trivial, trivial⟩
    obtain ⟨σ', k1, k2, k3⟩ := ih (z := fun j => z (j + 1)) (fun j hj => hz (j + 1) (by omega))
      (fun j hj => hF (j + 1) (by omega)) (fun j hj => h0 (j + 1) (by omega)) hk
      ⟨σ₂.fns, setVal σ₂.nums .z (e.den σ₂.nums)⟩ (by
        rw [hz 0 (by omega)]
        simp [e, Expr.den, Bin.den, σ₂, σ₁, setVal, hσ]) (i + 1)
    refine ⟨σ', newton_round ho hD hR hP h1.ne' hσ ?_, k2, k3⟩
    rw [if_neg h1.not_gt, show i + (k + 1) = i + 1 + k by omega]
    exact .call rfl c1 (.call rfl c2 k1)

end

/-- **C87, Newton's method.**  Let the exact Newton iteration for `F(z) = 0` be defined for `k` steps, and let
`F(z)² < tol` hold for the first time, strictly, after `k` steps.  Then in every format with at least `N`
bits and exponents up to at least `N`, Newton's method on jets stops after exactly `k` steps with an
approximation within `K / 2 ^ b` of the exact iterate, and a value within `K / 2 ^ b` of that of `F`
there. -/
theorem C87_newton {c : Cfg} (hv : c.Valid) (hfit : c.tsize = -1 ∨ c.tsize = (1 : Nat)) (F : Expr ℝ Unit)
    (tol : ℝ) (k : Nat) {z : ℕ → ℝ} (hz : ∀ j < k, z (j + 1) = z j - F.of1 (z j) / deriv F.of1 (z j))
    (hF : ∀ j ≤ k, F.Dom c.order (fun _ => z j) ∧ F.Regular (fun _ => z j) ∧ F.PowPos fun _ => z j)
    (h0 : ∀ j < k, tol < F.of1 (z j) ^ 2 ∧ deriv F.of1 (z j) ≠ 0) (hk : F.of1 (z k) ^ 2 < tol) :
    ∃ (K : ℝ) (N m : Nat), ∀ b ≥ N, ∀ emax ≥ N, ∀ ρ : Store (IEEE b emax) Unit,
      DD.constant c (IEEE.enc b emax 0) 1 = .ok (ρ ()) →
      ∃ ρ' ν', (∀ j ≥ m, ((newton F tol).map (MCall.map (IEEE.enc b emax)) (Answer.map IEEE.real)).run
          (mixLibrary _ Unit NewtonVar c 1) j (0, .seed) (ρ, fun _ => IEEE.enc b emax (z 0)) =
            some (.ok (k, .stop), ρ', ν')) ∧
        |(ν' .z).real - z k| ≤ K / 2 ^ b ∧ |(ν' .f).real - F.of1 (z k)| ≤ K / 2 ^ b := by
  obtain ⟨σ', h1, h2, h3⟩ := newton_ends (x := fun _ => 0) hv.order k hz hF h0 hk
    ⟨startVal fun _ => .inr 0, fun _ => z 0⟩ rfl 0
  rw [Nat.zero_add] at h1
  obtain ⟨K, N, m, h⟩ := C87_formats hv hfit (newton F tol) (fun _ => .inr 0) (fun _ => z 0) h1
  refine ⟨K, N, m, fun b hb emax he ρ hρ => ?_⟩
  obtain ⟨ρ', ν', k1, _, k3⟩ := (h b hb emax he).2 ρ
    ⟨_, variables_obj (by rw [List.length_ofFn]; exact hfit), fun _ => hρ⟩
  exact ⟨ρ', ν', k1, h2 ▸ (k3 .z).2, h3 ▸ (k3 .f).2⟩

/-! ## Examples -/

/-- `x * x - 2` -/
noncomputable def exSquare : Expr ℝ Unit := .sbin .subS (.bin .mul (.var ()) (.var ())) 2

theorem exSquare_of1 : exSquare.of1 = fun s => s * s - 2 := by
  funext s
  simp [exSquare, Expr.of1, Expr.den, Bin.den, SBin.den]

theorem exSquare_deriv (s : ℝ) : deriv exSquare.of1 s = 2 * s := by
  rw [exSquare_of1]
  have := ((hasDerivAt_id s).mul (hasDerivAt_id s)).sub_const 2
  have := this.deriv
  simp only [id] at this
  rw [show (fun s : ℝ => s * s - 2) = fun x => (id * id : ℝ → ℝ) x - 2 from rfl, this]
  ring

/-- The square root of 2, started at 2 with `tol = 1/1000`: two steps, ending near 17/12. -/
example : ∃ (K : ℝ) (N m : Nat), ∀ b ≥ N, ∀ emax ≥ N, ∀ ρ : Store (IEEE b emax) Unit,
    DD.constant exDyn1 (IEEE.enc b emax 0) 1 = .ok (ρ ()) →
    ∃ ρ' ν', (∀ j ≥ m, ((newton exSquare (1 / 1000)).map (MCall.map (IEEE.enc b emax))
        (Answer.map IEEE.real)).run (mixLibrary _ Unit NewtonVar exDyn1 1) j (0, .seed)
          (ρ, fun _ => IEEE.enc b emax 2) = some (.ok (2, .stop), ρ', ν')) ∧
      |(ν' .z).real - 17 / 12| ≤ K / 2 ^ b ∧ |(ν' .f).real - 1 / 144| ≤ K / 2 ^ b := by
  have h := C87_newton exDyn1_valid (Or.inl rfl) exSquare (1 / 1000) 2
    (z := fun j => if j = 0 then 2 else if j = 1 then 3 / 2 else 17 / 12)
    (fun j hj => by
      rw [exSquare_deriv, exSquare_of1]
      interval_cases j <;> norm_num)
    (fun j _ => ⟨⟨⟨trivial, trivial, trivial⟩, trivial⟩, ⟨trivial, trivial, trivial⟩, trivial, trivial⟩)
    (fun j hj => by
      rw [exSquare_deriv, exSquare_of1]
      interval_cases j <;> norm_num)
    (by rw [exSquare_of1]; norm_num)
  rw [exSquare_of1] at h
  norm_num at h ⊢
  exact h

end HJ
