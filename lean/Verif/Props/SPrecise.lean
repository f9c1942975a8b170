import Verif.Proofs.SPrecise
import Verif.Props.Finite

/-!
# C80: rounding errors of C++ client code of any kind on `SScalar`
-/

namespace HJ

open Filter Topology Asymptotics SMap

section

variable {V Q : Type} [DecidableEq V] {x : String → ℝ}

section
variable {ι : Type} {l : Filter ι} {α : ι → Type} [∀ k, CMath (α k)] {w : ι → Prec} {ω : ι → ℝ}
  {M : ∀ k, FinErr (α k) (w k)} {ρ : ∀ k, SStore (α k) V} {u : (String → ℝ) → V → ℝ}

omit [DecidableEq V] in
theorem SWithErr.steady {p : ∀ k, SVal (α k)} {F : (String → ℝ) → ℝ} (h : SWithErr M l ω x p F)
    (k : String) :
    ContinuousAt (fun t => F (Function.update x k t)) (x k) := by
  obtain ⟨g, _, h2⟩ := h.d k
  exact h2.continuousAt

omit [DecidableEq V] in
theorem scond_near_steady [l.NeBot] (hw : Fine w l ω) {enc : ∀ k, ℝ → α k}
    (henc : ∀ s, Lim M l ω (fun k => enc k s) (fun _ => s) s) (h : SNearing M l ω x ρ u)
    (b : Cond ℝ V) (hb : b.Sure 1 (u x)) (hP : b.PowPos (u x)) :
    ∀ᶠ y in nearLines x, (b.Holds (u y) ↔ b.Holds (u x)) := by
  obtain ⟨p, h1, h2⟩ := h
  have key : ∀ (op : DD.CmpOp) (F G : (String → ℝ) → ℝ) (k : String),
      ContinuousAt (fun t => F (Function.update x k t)) (x k) →
      ContinuousAt (fun t => G (Function.update x k t)) (x k) → F x ≠ G x →
      ∀ᶠ t in 𝓝 (x k), (op.rel (F (Function.update x k t)) (G (Function.update x k t)) ↔
        op.rel (F x) (G x)) := by
    intro op F G k hF hG hne
    have := rel_steady hF hG (by rw [Function.update_eq_self]; exact hne) op
    rwa [Function.update_eq_self] at this
  refine eventually_nearLines.2 fun k => ?_
  cases b with
  | cmp op e₁ e₂ =>
    exact key op (fun y => e₁.den (u y)) (fun y => e₂.den (u y)) k
      ((SWithErr.eval hw henc h2 e₁ hb.1.1.1 hb.1.1.2 hP.1).steady k)
      ((SWithErr.eval hw henc h2 e₂ hb.1.2.1 hb.1.2.2 hP.2).steady k) hb.2
  | cmpS op e s =>
    exact key op (fun y => e.den (u y)) (fun _ => s) k
      ((SWithErr.eval hw henc h2 e hb.1.1 hb.1.2 hP).steady k) continuousAt_const hb.2
  | sCmp op s e =>
    exact key op (fun _ => s) (fun y => e.den (u y)) k continuousAt_const
      ((SWithErr.eval hw henc h2 e hb.1.1 hb.1.2 hP).steady k) (Ne.symm hb.2)

end

/-- **C80.**  Let client code of any kind that does not read numbers run on real numbers at `x` inside the
domains, without comparing equal values and with `pow` of positive numbers only, and let `U` be the
functions it computes on the coordinate lines through `x`.  There are a constant `K`, a precision, a range
and a number of calls such that in every arithmetic of at least that precision and range, for every
iteration order of the hash tables, the client code on sparse scalars ends in the same state within that
many calls, no object has a name twice, and the values and the derivatives for all names in `N` of all
objects are finite and within `K` times the error of one operation of the exact ones. -/
theorem C80_rate [Finite V] (cl : Caller (SCall ℝ V) (Answer ℝ) Q) {q q' : Q}
    (u U : (String → ℝ) → V → ℝ) {σ' : V → ℝ} (N : Finset String)
    (hu : ∀ v k, DifferentiableAt ℝ (fun t => u (Function.update x k t) v) (x k))
    (h : cl.Ends (SPreciseCall x) q (u x) q' σ')
    (hU : ∀ᶠ y in nearLines x, ∃ q'', cl.Ends (SRealCall x y) q (u y) q'' (U y)) :
    ∃ K w₀ B : ℝ, 0 < w₀ ∧ ∃ m : Nat, ∀ (α : Type) [CMath α] (w : Prec) (M : FinErr α w)
      (enc : ℝ → α) (ord : Order α) (ρ : SStore α V), ord.Ok → w.rel ≤ w₀ → w.abs ≤ w₀ →
      Set.Icc (-B) B ⊆ w.range → M.ExactCmp → (∀ s, M.Sound (enc s) s) →
      (∀ v, SWF (ρ v) ∧ SWithin M.Sound Set.univ (fun y => u y v) x (ρ v)) →
      ∃ p, (∀ j ≥ m, (cl.map (SCall.map enc) (Answer.map M.val)).run (ssLibrary α V) j q (ord, ρ) =
          some (.ok q', p)) ∧
        ∀ v, SWF (p.2 v) ∧ SWithin (fun s t => M.fin s ∧ |M.val s - t| ≤ K * (w.rel + w.abs)) N
          (fun y => U y v) x (p.2 v) := by
  by_contra hcon
  push Not at hcon
  choose α inst w M enc ord ρ ho hle hle' hrng hcmp hclose hseed hbad using
    fun k : ℕ => hcon k (1 / ((k : ℝ) + 1)) k (by positivity) k
  have hw := fine_self (fun k => (M k).rel_nonneg) (fun k => (M k).abs_nonneg) hle hle' hrng
  have lim : ∀ {b : ∀ k, α k} {r : ℝ}, (∀ k, (M k).Sound (b k) r) →
      Lim M atTop (fun k => (w k).rel + (w k).abs) b (fun _ => r) r := fun h =>
    Lim.close hw (Nigh.const _) (Eventually.of_forall h)
  have henc : ∀ s, Lim M atTop (fun k => (w k).rel + (w k).abs) (fun k => enc k s) (fun _ => s) s :=
    fun s => lim fun k => hclose k s
  have hρ : SNearing M atTop (fun k => (w k).rel + (w k).abs) x ρ u := by
    choose a ha hs using fun k v => (hseed k v).2.1
    refine ⟨fun k v => (a k v, fun j => (ρ k v).mD.find j), fun k v => ?_, fun v => ⟨?_, fun nm => ?_⟩⟩
    · obtain ⟨b, hb⟩ := Option.ne_none_iff_exists'.1 (hseed k v).1.init
      have := ha k v
      simp only [SS.f, hb, Res.ok.injEq] at this
      exact ⟨by rw [hb, this], (hseed k v).1.nodup, fun _ => rfl⟩
    · exact lim fun k => hs k v
    · refine ⟨_, lim fun k => ?_, (hu v nm).hasDerivAt⟩
      have := (hseed k v).2.2 nm trivial
      unfold SS.d at this
      cases hf : (ρ k v).mD.find nm with
      | none => simpa [hf] using this
      | some g => simpa [hf] using this
  obtain ⟨u', hu', he⟩ := SPreciseCall.fns h u rfl
  have hnear : ∀ᶠ y in nearLines x, cl.Ends (SRealCall x y) q (u y) q' (u' y) := by
    refine he.near (fun u y => u y)
      (Inv := fun u => ∃ ρ : ∀ k, SStore (α k) V, SNearing M atTop
        (fun k => (w k).rel + (w k).abs) x ρ u)
      ?_ ⟨ρ, hρ⟩
    rintro k u r u' ⟨ρ, hρ⟩ ⟨hk, hP⟩
    cases hk with
    | act s _ hs =>
      obtain ⟨τ, _, h2⟩ := sstep_near hw henc ho hρ s hs hP
      exact ⟨⟨τ, h2⟩, .of_forall fun y => SRealCall.act s (u y)⟩
    | ask b _ hb hr =>
      exact ⟨⟨ρ, hρ⟩,
        (scond_near_steady hw henc hρ b hb hP).mono fun y hy =>
          SRealCall.ask b (u y) (hr.trans hy.symm)⟩
  have heq : ∀ᶠ y in nearLines x, u' y = U y := (hnear.and hU).mono fun y ⟨hy, q'', hy'⟩ =>
    (Caller.Ends.det srealCall_det hy hy').2
  have hx : u' x = U x := self_of_nearLines heq
  obtain ⟨m, st, h1, p, h2, h3⟩ := sclient_near hw hcmp henc he ho hρ
  have hD : ∀ v k, ∃ g, Lim M atTop (fun k => (w k).rel + (w k).abs)
      (fun i => ((p i v).2 k).getD (Arith.lit 0)) (fun _ => g) g ∧
      g = deriv (fun t => U (Function.update x k t) v) (x k) := fun v k => by
    obtain ⟨g, k1, k2⟩ := (h3 v).d k
    exact ⟨g, k1, (k2.congr_of_eventuallyEq ((eventually_nearLines.1 heq k).mono fun t ht => by
      simp only [ht])).deriv.symm⟩
  have near : ∀ {b : ∀ k, α k} {r : ℝ}, Lim M atTop (fun k => (w k).rel + (w k).abs) b (fun _ => r) r →
      ∀ᶠ C : ℝ in atTop, ∀ᶠ k in atTop, (M k).fin (b k) ∧
        |(M k).val (b k) - r| ≤ C * ((w k).rel + (w k).abs) := fun {b r} hb => by
    refine (isBigO_iff_eventually_isBigOWith.1 hb.rate).mono fun C hC => ?_
    refine (hb.fin.and hC.bound).mono fun k hk => ⟨hk.1, ?_⟩
    have := hk.2
    rwa [Real.norm_eq_abs, Real.norm_of_nonneg (add_nonneg (M k).rel_nonneg (M k).abs_nonneg)] at this
  have hC : ∀ᶠ C : ℝ in atTop, ∀ᶠ k in atTop, ∀ v, SWF ((st k).2 v) ∧
      SWithin (fun s t => (M k).fin s ∧ |(M k).val s - t| ≤ C * ((w k).rel + (w k).abs)) N
        (fun y => U y v) x ((st k).2 v) := by
    have a1 := eventually_all.2 fun v => near (h3 v).f
    have a2 := eventually_all.2 fun v => N.eventually_all.2 fun k (_ : k ∈ N) =>
      near (hD v k).choose_spec.1
    refine (a1.and a2).mono fun C ⟨c1, c2⟩ => ?_
    refine ((eventually_all.2 c1).and (eventually_all.2 fun v => N.eventually_all.2 (c2 v))).mono
      fun k ⟨d1, d2⟩ v => ⟨(h2 k v).wf, ⟨(p k v).1, SS.f_ok (h2 k v), ?_⟩, fun nm hnm => ?_⟩
    · have := d1 v
      rwa [hx] at this
    · have := d2 v nm hnm
      rw [(hD v nm).choose_spec.2] at this
      rwa [SS.d_eq (h2 k v)]
  obtain ⟨C, hC⟩ := hC.exists
  obtain ⟨k, ⟨⟨hk, hr⟩, hCk⟩, hmk⟩ := (((hC.and h1).and
    ((tendsto_natCast_atTop_atTop (R := ℝ)).eventually_ge_atTop C)).and
    (eventually_ge_atTop m)).exists
  obtain ⟨v, hv⟩ := hbad k (st k) fun j hj => hr j (le_trans hmk hj)
  have le := mul_le_mul_of_nonneg_right hCk (add_nonneg (M k).rel_nonneg (M k).abs_nonneg)
  obtain ⟨e0, ⟨a, e1, e2⟩, e3⟩ := hk v
  exact hv e0 ⟨⟨a, e1, e2.1, e2.2.trans le⟩, fun nm hnm => ⟨(e3 nm hnm).1, (e3 nm hnm).2.trans le⟩⟩

/-- **C80, formats.**  The same for the formats with `p` bits and exponents up to `emax`, started with
objects that hold numbers; the variables are created by the client code itself. -/
theorem C80_formats [Finite V] (cl : Caller (SCall ℝ V) (Answer ℝ) Q) {q q' : Q} (start : V → ℝ)
    (U : (String → ℝ) → V → ℝ) {σ' : V → ℝ} (N : Finset String)
    (h : cl.Ends (SPreciseCall x) q start q' σ')
    (hU : ∀ᶠ y in nearLines x, ∃ q'', cl.Ends (SRealCall x y) q start q'' (U y)) :
    ∃ (K : ℝ) (n m : Nat), ∀ b ≥ n, ∀ emax ≥ n, ∀ (ord : Order (IEEE b emax))
      (vord : V → Order (IEEE b emax)), ord.Ok → (∀ v, (vord v).Ok) →
      ∃ p,
        (∀ j ≥ m, (cl.map (SCall.map (IEEE.enc b emax)) (Answer.map IEEE.real)).run (ssLibrary _ V) j q
          (ord, fun v => SS.constant (vord v) (IEEE.enc b emax (start v))) = some (.ok q', p)) ∧
        ∀ v, SWF (p.2 v) ∧ SWithin (fun s t => s.val.Fin ∧ |s.real - t| ≤ K / 2 ^ b) N
          (fun y => U y v) x (p.2 v) := by
  obtain ⟨K, u₀, B, hu, m, hm⟩ := C80_rate cl (fun _ v => start v) U N
    (fun v k => differentiableAt_const _) h hU
  obtain ⟨n, hn, hfmt⟩ := fmt_enough hu B
  refine ⟨2 * |K|, n, m, fun b hb emax he ord vord ho hvo => ?_⟩
  obtain ⟨f1, f2, f3⟩ := hfmt b hb emax he
  obtain ⟨p, h1, h2⟩ := hm _ _ (ieeeErr b emax (hn.trans hb) (hn.trans he)) (IEEE.enc b emax) ord
    (fun v => SS.constant (vord v) (IEEE.enc b emax (start v))) ho f1 f2 f3 (ieee_exactCmp _ _)
    (ieee_enc _ _) fun v => by
      have hc := SS.is_constant (hvo v) (IEEE.enc b emax (start v))
      refine ⟨hc.wf, ⟨_, SS.f_ok hc, ieee_enc _ _ _⟩, fun k _ => ?_⟩
      rw [SS.d_eq hc]
      simpa using sound_lit (ieeeErr b emax (hn.trans hb) (hn.trans he)) 0 (by norm_num)
  refine ⟨p, h1, fun v => ?_⟩
  have le := fmt_rate (p := b) (le_trans (by omega : 1 ≤ n) he) K
  obtain ⟨e0, ⟨a, e1, e2⟩, e3⟩ := h2 v
  exact ⟨e0, ⟨a, e1, e2.1, e2.2.trans le⟩, fun nm hnm => ⟨(e3 nm hnm).1, (e3 nm hnm).2.trans le⟩⟩

end

/-! ## Client code -/

/-- `b = SScalar::variable("u", a); r = 1;` and then repeated squaring, `r = b^N`; before the first
statement the state is `none`. -/
def exSVarPowers (a : ℝ) (N : Nat) : Caller (SCall ℝ (Fin 2)) (Answer ℝ) (Option Nat) where
  next
    | none => some (.act (.vari 0 "u" a))
    | some m => (exSPowers ℝ).next m
  after
    | none, _ => some N
    | some m, r => some ((exSPowers ℝ).after m r)

theorem exSVarPowers_rest {A : Type} {call : SCall ℝ (Fin 2) → A → Answer ℝ → A → Prop} {a : ℝ} {N : Nat}
    {m m' : Nat} {s s' : A} (h : (exSPowers ℝ).Ends call m s m' s') :
    (exSVarPowers a N).Ends call (some m) s (some m') s' := by
  induction h with
  | stop hn => exact .stop hn
  | call hn hk _ ih => exact .call hn hk ih

theorem exSPowers_precise {x : String → ℝ} {m m' : Nat} {σ σ' : Fin 2 → ℝ}
    (h : (exSPowers ℝ).Ends (SSureCall x) m σ m' σ') :
    (exSPowers ℝ).Ends (SPreciseCall x) m σ m' σ' := by
  induction h with
  | stop hn => exact .stop hn
  | call hn hk _ ih =>
    refine .call hn ⟨hk, ?_⟩ ih
    simp only [exSPowers] at hn
    split at hn
    · cases hn
    · split at hn <;> cases hn <;> simp [SCall.PowPos, SStmt.PowPos, Expr.PowPos]

/-- Creating a variable and repeated squaring in every format with enough bits, for every `N`, every point
and every iteration order: value `u^N`, derivative `N u^(N-1)` for the name `u` and `0` for any other
name, with errors of `K / 2^b`. -/
example (N : Nat) (x : String → ℝ) (other : String) (hne : other ≠ "u") :
    ∃ (K : ℝ) (n m : Nat), ∀ b ≥ n, ∀ emax ≥ n, ∀ ord vord : Order (IEEE b emax), ord.Ok → vord.Ok →
      ∃ p, (∀ j ≥ m, ((exSVarPowers (x "u") N).map (SCall.map (IEEE.enc b emax))
            (Answer.map IEEE.real)).run (ssLibrary _ (Fin 2)) j none
          (ord, fun _ => SS.constant vord (IEEE.enc b emax 1)) = some (.ok (some 0), p)) ∧
        (∃ a, (p.2 1).f = .ok a ∧ a.val.Fin ∧ |a.real - x "u" ^ N| ≤ K / 2 ^ b) ∧
        (((p.2 1).d "u").val.Fin ∧ |((p.2 1).d "u").real - N * x "u" ^ (N - 1)| ≤ K / 2 ^ b) ∧
        (((p.2 1).d other).val.Fin ∧ |((p.2 1).d other).real| ≤ K / 2 ^ b) := by
  let σ (y : String → ℝ) : Fin 2 → ℝ := (SStmt.vari 0 "u" (x "u")).den x y fun _ => 1
  have hσ : ∀ y, σ y 0 = y "u" ∧ σ y 1 = 1 := fun y => by
    simp [σ, SStmt.den, setVal]
  choose U hU hU' hU1 using fun y : String → ℝ => exSPowers_ends x y N (σ y)
  have hUf : ∀ y, U y 1 = y "u" ^ N := fun y => by rw [hU1 y, (hσ y).1, (hσ y).2, one_mul]
  obtain ⟨K, n, m, h⟩ := C80_formats (x := x) (exSVarPowers (x "u") N) (q := none) (q' := some 0)
    (fun _ => 1) U (σ' := U x) {"u", other}
    (Caller.Ends.call (k := SCall.act (.vari 0 "u" (x "u"))) (r := .done) rfl
      ⟨SSureCall.act _ _ trivial, trivial⟩
      (exSVarPowers_rest (exSPowers_precise (hU' x rfl))))
    (.of_forall fun y =>
      ⟨some 0, Caller.Ends.call (k := SCall.act (.vari 0 "u" (x "u"))) (r := .done) rfl
      (SRealCall.act _ _) (exSVarPowers_rest (hU y))⟩)
  refine ⟨K, n, m, fun b hb emax he ord vord ho hvo => ?_⟩
  obtain ⟨p, h1, h2⟩ := h b hb emax he ord (fun _ => vord) ho fun _ => hvo
  refine ⟨p, h1, ?_⟩
  obtain ⟨-, ⟨a, e1, e2⟩, e3⟩ := h2 1
  have d1 := e3 "u" (by simp)
  have d2 := e3 other (by simp)
  simp only [hUf] at e2 d1 d2
  refine ⟨⟨a, e1, e2⟩, ?_, ?_⟩
  · have : deriv (fun t : ℝ => Function.update x "u" t "u" ^ N) (x "u") = N * x "u" ^ (N - 1) := by
      simp
    rwa [this] at d1
  · have : deriv (fun t : ℝ => Function.update x other t "u" ^ N) (x other) = 0 := by
      simp [Function.update_of_ne (Ne.symm hne)]
    rwa [this, sub_zero] at d2

/-- The hypotheses of `C80_rate` can be met with a seed that is neither a variable nor a constant: in exact
arithmetic the object `SScalar(3, {{"u", 2}})` holds `3 + 2 (u - x u)`. -/
example (x : String → ℝ) (ord : Order ℝ) (ho : ord.Ok) :
    SWF (SS.make ord (3 : ℝ) [("u", 2)]) ∧
      SWithin (fun s t : ℝ => s = t) Set.univ (fun y => 3 + 2 * (y "u" - x "u")) x
        (SS.make ord (3 : ℝ) [("u", 2)]) := by
  have h := SS.is_make ho (m := [("u", (2 : ℝ))]) (by simp [keys]) (fun _ => rfl) 3
  refine ⟨h.wf, ⟨3, SS.f_ok h, by simp⟩, fun k _ => ?_⟩
  rw [SS.d_eq h, find_cons]
  by_cases hk : "u" = k
  · subst hk
    simp
  · simp [hk, Function.update_of_ne hk, SMap.find, Arith.lit]

end HJ
