import Verif.Props.ConvergeRun
import Mathlib.Order.Filter.Ultrafilter.Basic
import Mathlib.Topology.Compactness.Compact

/-!
# C71: floating-point formats with overflow and underflow

C66 and C68 to C70 are about arithmetics in which every number is finite.  Here numbers may overflow to
infinities, infinities give NaN, and results may underflow; the theorems say that with enough precision
and enough range none of this happens inside the domain, and that the errors are as small as without.
The exact statement is for every arithmetic of the kind `FinErr`; `IEEE p emax` is one of them.
-/

namespace HJ

open Filter Topology Asymptotics

variable {c : Cfg} {n : Nat}

theorem fine_self {u : ℕ → Prec} (h0 : ∀ k, 0 ≤ (u k).rel) (h0' : ∀ k, 0 ≤ (u k).abs)
    (h : ∀ k, (u k).rel ≤ 1 / ((k : ℝ) + 1)) (h' : ∀ k, (u k).abs ≤ 1 / ((k : ℝ) + 1))
    (hr : ∀ k : ℕ, Set.Icc (-(k : ℝ)) k ⊆ (u k).range) :
    Fine u atTop (fun k => (u k).rel + (u k).abs) := by
  refine ⟨squeeze_zero h0 h tendsto_one_div_add_atTop_nhds_zero_nat,
    squeeze_zero h0' h' tendsto_one_div_add_atTop_nhds_zero_nat,
    .of_bound' (.of_forall fun k => ?_), .of_bound' (.of_forall fun k => ?_), fun B => ?_⟩
  · have := h0' k
    rw [Real.norm_of_nonneg (h0 k), Real.norm_of_nonneg (add_nonneg (h0 k) (h0' k))]
    linarith
  · have := h0 k
    rw [Real.norm_of_nonneg (h0' k), Real.norm_of_nonneg (add_nonneg (h0 k) (h0' k))]
    linarith
  · exact ((tendsto_natCast_atTop_atTop (R := ℝ)).eventually_ge_atTop B).mono fun k hk =>
      (Set.Icc_subset_Icc (neg_le_neg hk) hk).trans (hr k)

theorem Fine.mono {ι : Type} {l l' : Filter ι} {u : ι → Prec} {ω : ι → ℝ} (h : Fine u l ω)
    (hl : l' ≤ l) :
    Fine u l' ω :=
  ⟨h.rel.mono_left hl, h.abs.mono_left hl, h.relRate.mono hl, h.absRate.mono hl,
    fun B => hl (h.range B)⟩

/-- A sequence in a compact set has a limit along some filter. -/
theorem compact_limit {X : Type} [TopologicalSpace X] {S : Set X} (hS : IsCompact S) {x : ℕ → X}
    (hx : ∀ k, x k ∈ S) :
    ∃ l : Filter ℕ, l.NeBot ∧ l ≤ atTop ∧ ∃ a ∈ S, Tendsto x l (𝓝 a) := by
  have hle : ((hyperfilter ℕ).map x : Filter X) ≤ 𝓟 S :=
    le_principal_iff.2 (Eventually.of_forall (f := (hyperfilter ℕ : Filter ℕ)) hx)
  obtain ⟨a, ha, h⟩ := hS.ultrafilter_le_nhds ((hyperfilter ℕ).map x) hle
  exact ⟨hyperfilter ℕ, inferInstance, Nat.hyperfilter_le_atTop, a, ha, h⟩

/-! ## Exact arithmetic -/

theorem unit_eq {q : Unit → ℝ} {r : ℝ} (h : Tendsto q ⊤ (𝓝 r)) : q () = r :=
  tendsto_nhds_unique (f := fun _ : Unit => q ()) (l := ⊤) tendsto_const_nhds h

/-- Constant families are equal to their limits. -/
theorem Conv.exact {ω : Unit → ℝ} {a : Unit → Nat → Flt id} {aR : Unit → Nat → ℝ} {J : Jet ℝ}
    (h : Conv (fun _ => idErr.toFin) ⊤ ω c n a aR J) {F : (Fin n → ℝ) → ℝ} {x : Fin n → ℝ}
    (hI : IsJet c.order n F x J) : IsJet c.order n F x (jetOf n (aR ())) := by
  refine hI.congr ⟨(unit_eq h.f.goal).symm, fun i hi => (unit_eq (h.g i hi).goal).symm,
    fun h2 i j hi hj => ?_⟩
  simp only [jetOf]
  by_cases hij : i ≤ j
  · rw [if_pos hij]
    exact (unit_eq (h.h h2 i j hij hj).goal).symm
  · rw [if_neg hij, h.sym i j]
    exact (unit_eq (h.h h2 j i (by omega) hi).goal).symm

theorem exact_evalOn (hc : c.order = 1 ∨ c.order = 2) (hfit : Fits c n) (e : Expr ℝ (Fin n))
    (x : Fin n → ℝ) (hD : e.Dom c.order x) (hR : e.Regular x) (hP : e.PowPos x) :
    ∃ a, evalOn c e x = .ok (obj c n a) ∧ IsJet c.order n (fun y => e.den y) x (jetOf n a) := by
  obtain ⟨a, aR, J, -, h1, h2, h3⟩ := evalOn_conv
    (M := fun _ => idErr.toFin) unit_fine hc hfit e x hD hR hP (fun _ s => ⟨s⟩)
    unit_enc (fun _ i => ⟨x i⟩) (fun _ => x) fun i => unit_enc (x i)
  exact ⟨aR (), h1 (), h2.exact h3⟩

theorem exact_run {V : Type} [DecidableEq V] (hv : c.Valid) (hfit : Fits c n)
    (p : Ctl (Stmt ℝ V) (Cond ℝ V)) (u U : (Fin n → ℝ) → V → ℝ) (x : Fin n → ℝ) (σ' : V → ℝ)
    (J : V → Jet ℝ) (hu : ∀ v, IsJet c.order n (fun y => u y v) x (J v))
    (h : PreciseRun c.order n p (u x) σ') (hU : ∀ᶠ y in 𝓝 x, RealRun p (u y) (U y))
    {ρ : Store ℝ V} (hρ : ∀ v, Shows c n (ρ v) (J v)) :
    ∃ (m : Nat) (ρ' : Store ℝ V), (∀ j ≥ m, p.run (ddMachine ℝ V c n) j ρ = some (.ok (), ρ')) ∧
      ∀ v, ∃ J', Shows c n (ρ' v) J' ∧ IsJet c.order n (fun y => U y v) x J' := by
  have hsym : c.order = 2 → ∀ v, ∀ i j, i < n → j < n → (J v).h i j = (J v).h j i := by
    intro h2 v i j hi hj
    have h := hu v
    rw [h2] at h
    exact h.sym ⟨i, hi⟩ ⟨j, hj⟩
  obtain ⟨m, hm⟩ := run_conv hv hfit p u U x σ' J hu h hU
  obtain ⟨ρ', ρR', -, h1, co, coR, J', -, a1, a2, a3⟩ := hm (fun _ : Unit => idErr.toFin) unit_fine
    (fun _ op a b _ _ => flt_exactCmp id op a b) (fun _ s => ⟨s⟩) unit_enc
    (fun _ v => obj c n (packJet n ((J v).mapv fun s => (⟨s⟩ : Flt id)))) (fun _ => ρ)
    (Nearing.of_shows hv.order hu (K := fun _ v => (J v).mapv fun s => (⟨s⟩ : Flt id))
        (fun _ v => shows_of_obj hv.order hfit (packJet_zero ..) (fun i hi => packJet_succ _ hi)
          (fun _ i j hij hj => packJet_pos _ hij hj) (fun h2 i j hi hj => by
            simp only [Jet.mapv, hsym h2 v i j hi hj]))
        (KR := fun _ => J) (fun _ => hρ)
        (fun v => unit_enc _) (fun v i _ => unit_enc _) (fun _ v i _ j _ => unit_enc _))
  refine ⟨m, ρR' (), (eventually_top.1 h1) (), fun v => ⟨jetOf n (coR () v), ?_, (a2 v).exact (a3 v)⟩⟩
  rw [show ρR' () v = obj c n (coR () v) from congrFun (a1 ()) v]
  exact shows_obj hv.order hfit _

/-! ## Expressions -/

/-- **C71.** For every expression inside its domain on a compact set `S` there are a constant `K`, a
precision and a range such that *at every point* of `S` and in *every* arithmetic of at least that
precision and range, inputs and constants being rounded too, the value, the gradient and the Hessian
computed on `variables(x)` are finite and differ from the exact ones by at most `K` times the sum of
relative and absolute error of one operation. -/
theorem C71_rate (hv : c.Valid) (hfit : c.tsize = -1 ∨ c.tsize = n) (e : Expr ℝ (Fin n))
    {S : Set (Fin n → ℝ)} (hS : IsCompact S) (hD : ∀ x ∈ S, e.Dom c.order x)
    (hR : ∀ x ∈ S, e.Regular x) (hP : ∀ x ∈ S, e.PowPos x) :
    ∃ K u₀ B : ℝ, 0 < u₀ ∧ ∀ x ∈ S, ∀ (α : Type) [CMath α] (u : Prec) (M : FinErr α u) (enc : ℝ → α),
      u.rel ≤ u₀ → u.abs ≤ u₀ → Set.Icc (-B) B ⊆ u.range → (∀ s, M.Sound (enc s) s) →
      ∃ r, evalOn c (e.map enc) (fun i => enc (x i)) = .ok r ∧
        Within c (fun s t => M.fin s ∧ |M.val s - t| ≤ K * (u.rel + u.abs)) (fun y => e.den y) x r := by
  by_contra hcon
  push Not at hcon
  choose x hx α inst u M enc hle hle' hrng hclose hbad using
    fun k : ℕ => hcon k (1 / ((k : ℝ) + 1)) k (by positivity)
  obtain ⟨l, hne, hl, a, ha, hlim⟩ := compact_limit hS hx
  have hu := (fine_self (fun k => (M k).rel_nonneg) (fun k => (M k).abs_nonneg) hle hle' hrng).mono hl
  have henc : ∀ s, Lim M l (fun k => (u k).rel + (u k).abs) (fun k => enc k s) (fun _ => s) s := fun s =>
    Lim.close hu (Nigh.const s) (Eventually.of_forall fun k => hclose k s)
  have hX : ∀ i, Lim M l (fun k => (u k).rel + (u k).abs) (fun k => enc k (x k i)) (fun k => x k i)
    (a i) := fun i =>
    Lim.close hu (Nigh.refl (tendsto_pi_nhds.1 hlim i)) (Eventually.of_forall fun k => hclose k _)
  obtain ⟨b, bR, J, h1, h1R, h2, -⟩ := evalOn_conv hu hv.order hfit e a (hD a ha) (hR a ha) (hP a ha)
    enc henc (fun k i => enc k (x k i)) x hX
  have hI : ∀ k, IsJet c.order n (fun y => e.den y) (x k) (jetOf n (bR k)) := fun k => by
    obtain ⟨b', h3, h4⟩ := exact_evalOn hv.order hfit e (x k) (hD _ (hx k)) (hR _ (hx k)) (hP _ (hx k))
    rw [h1R k] at h3
    have hs := shows_obj hv.order hfit b'
    rw [← Res.ok.inj h3] at hs
    exact h4.congr (hs.unique (shows_obj hv.order hfit (bR k)))
  obtain ⟨C, hC⟩ := (h2.errLe hv.order hfit (.of_forall hI)).exists
  obtain ⟨k, hk, hCk⟩ := (hC.and
    (((tendsto_natCast_atTop_atTop (R := ℝ)).mono_left hl).eventually_ge_atTop C)).exists
  refine hbad k _ (h1 k) (hk.mono fun s t hst => ⟨hst.1, hst.2.trans ?_⟩)
  rw [Real.norm_of_nonneg (add_nonneg (M k).rel_nonneg (M k).abs_nonneg)]
  exact mul_le_mul_of_nonneg_right hCk (add_nonneg (M k).rel_nonneg (M k).abs_nonneg)

/-! ## Programs -/

/-- **C71, programs.** Take a program with branches and loops which on real numbers ends at every point of
the compact set `S` with all statements inside their domains and no comparison between equal values; it
may take different paths at different points.  There are a constant `K`, a precision, a range
and a number of rounds such that at every point of `S` and in every arithmetic of at least that precision
and range the program ends within that many rounds with all components of all jets finite and within `K`
times the error of one operation of the exact derivatives.  It starts with jets of functions `u` with
continuous derivatives, up to rounding. -/
theorem C71_programs {V : Type} [DecidableEq V] [Finite V] (hv : c.Valid)
    (hfit : c.tsize = -1 ∨ c.tsize = n)
    (p : Ctl (Stmt ℝ V) (Cond ℝ V)) (u U : (Fin n → ℝ) → V → ℝ)
    {S : Set (Fin n → ℝ)} (hS : IsCompact S) (J : (Fin n → ℝ) → V → Jet ℝ)
    (hu : ∀ x ∈ S, ∀ v, IsJet c.order n (fun y => u y v) x (J x v))
    (hJf : ∀ v, ContinuousOn (fun x => (J x v).f) S)
    (hJg : ∀ v, ∀ i < n, ContinuousOn (fun x => (J x v).g i) S)
    (hJh : c.order = 2 → ∀ v, ∀ i < n, ∀ j < n, ContinuousOn (fun x => (J x v).h i j) S)
    (h : ∀ x ∈ S, ∃ σ', PreciseRun c.order n p (u x) σ')
    (hU : ∀ x ∈ S, ∀ᶠ y in 𝓝 x, RealRun p (u y) (U y)) :
    ∃ K w₀ B : ℝ, 0 < w₀ ∧ ∃ m : Nat, ∀ x ∈ S, ∀ (α : Type) [CMath α] (w : Prec) (M : FinErr α w)
      (enc : ℝ → α) (ρ : Store α V), w.rel ≤ w₀ → w.abs ≤ w₀ → Set.Icc (-B) B ⊆ w.range →
        M.ExactCmp → (∀ s, M.Sound (enc s) s) →
      (∀ v, SeedBy c n M.Sound (J x v) (ρ v)) →
      ∃ ρ', (∀ j ≥ m, (p.map (Stmt.map enc) (Cond.map enc)).run (ddMachine α V c n) j ρ =
          some (.ok (), ρ')) ∧
        ∀ v, Within c (fun s t => M.fin s ∧ |M.val s - t| ≤ K * (w.rel + w.abs)) (fun y => U y v) x
          (ρ' v) := by
  by_contra hcon
  push Not at hcon
  choose x hx α inst w M enc ρ hle hle' hrng hcmp hclose hseed hbad using
    fun k : ℕ => hcon k (1 / ((k : ℝ) + 1)) k (by positivity) k
  choose K hK hf hg hh using hseed
  obtain ⟨l, hne, hl, a, ha, hlim⟩ := compact_limit hS hx
  have hlim' : Tendsto x l (𝓝[S] a) := tendsto_nhdsWithin_iff.2 ⟨hlim, .of_forall hx⟩
  have hw := (fine_self (fun k => (M k).rel_nonneg) (fun k => (M k).abs_nonneg) hle hle' hrng).mono hl
  have henc : ∀ s, Lim M l (fun k => (w k).rel + (w k).abs) (fun k => enc k s) (fun _ => s) s := fun s =>
    Lim.close hw (Nigh.const s) (Eventually.of_forall fun k => hclose k s)
  have lim : ∀ {b : ∀ k, α k} {r : (Fin n → ℝ) → ℝ}, (∀ k, (M k).Sound (b k) (r (x k))) →
      ContinuousOn r S → Lim M l (fun k => (w k).rel + (w k).abs) b (fun k => r (x k)) (r a) :=
        fun h hr =>
    Lim.close hw (Nigh.refl ((hr a ha).tendsto.comp hlim')) (Eventually.of_forall h)
  choose ρR hρR using fun k => exists_shows hv.order hfit (hu (x k) (hx k))
  obtain ⟨σ', hp⟩ := h a ha
  obtain ⟨m, hm⟩ := run_conv hv hfit p u U a σ' (J a) (hu a ha) hp (hU a ha)
  obtain ⟨ρ', ρR', h1, h1R, h2⟩ := hm M hw hcmp enc henc ρ ρR
    (Nearing.of_shows hv.order (hu a ha) hK (KR := fun k => J (x k)) hρR
      (fun v => lim (r := fun x => (J x v).f) (fun k => hf k v) (hJf v))
      (fun v i hi => lim (r := fun x => (J x v).g i) (fun k => hg k v i hi) (hJg v i hi))
      (fun h2 v i hi j hj => lim (r := fun x => (J x v).h i j) (fun k => hh k v h2 i hi j hj)
        (hJh h2 v i hi j hj)))
  have hI : ∀ᶠ k in l, ∀ v, ∃ J', Shows c n (ρR' k v) J' ∧
      IsJet c.order n (fun y => U y v) (x k) J' := h1R.mono fun k hk => by
    obtain ⟨σ', hp⟩ := h _ (hx k)
    obtain ⟨m', ρ'', h3, h4⟩ := exact_run hv hfit p u U (x k) σ' (J (x k)) (hu _ (hx k)) hp
      (hU _ (hx k)) (hρR k)
    have := (hk (max m m') (le_max_left _ _)).symm.trans (h3 _ (le_max_right _ _))
    simp only [Option.some.injEq, Prod.mk.injEq, true_and] at this
    rw [this]
    exact h4
  obtain ⟨C, hC⟩ := (h2.errLe hv.order hfit hI).exists
  obtain ⟨k, ⟨⟨hk, hr⟩, hCk⟩, hmk⟩ := (((hC.and h1).and
    (((tendsto_natCast_atTop_atTop (R := ℝ)).mono_left hl).eventually_ge_atTop C)).and
    (hl (eventually_ge_atTop m))).exists
  obtain ⟨v, hv⟩ := hbad k (ρ' k) fun j hj => hr j (le_trans hmk hj)
  refine hv ((hk v).mono fun s t hst => ⟨hst.1, hst.2.trans ?_⟩)
  rw [Real.norm_of_nonneg (add_nonneg (M k).rel_nonneg (M k).abs_nonneg)]
  exact mul_le_mul_of_nonneg_right hCk (add_nonneg (M k).rel_nonneg (M k).abs_nonneg)

theorem startJet_continuous {V : Type} (start : V → Fin n ⊕ ℝ) (v : V) :
    (Continuous fun x : Fin n → ℝ => (startJet start x v).f) ∧
    (∀ i, Continuous fun x : Fin n → ℝ => (startJet start x v).g i) ∧
    ∀ i j, Continuous fun x : Fin n → ℝ => (startJet start x v).h i j := by
  unfold startJet
  cases start v with
  | inl i =>
    refine ⟨continuous_apply i, fun j => ?_, fun j k => ?_⟩
    · exact continuous_const
    · exact continuous_const
  | inr s => exact ⟨continuous_const, fun _ => continuous_const, fun _ _ => continuous_const⟩

/-! ## Sparse scalars -/

/-- **C71, sparse.** The same for `SScalar`, for every iteration order of the hash maps: at all points of
`S` the value and the derivative for every name are finite, with errors of at most `K` times that of one
operation. -/
theorem C71_sparse (e : Expr ℝ String) {S : Set (String → ℝ)} (hS : IsCompact S)
    (hD : ∀ x ∈ S, e.Dom 1 x) (hR : ∀ x ∈ S, e.Regular x) (hP : ∀ x ∈ S, e.PowPos x) :
    ∃ K u₀ B : ℝ, 0 < u₀ ∧ ∀ x ∈ S, ∀ (α : Type) [CMath α] (u : Prec) (M : FinErr α u) (enc : ℝ → α)
      (ord : Order α) (vord : String → Order α), ord.Ok → (∀ k, (vord k).Ok) → u.rel ≤ u₀ →
        u.abs ≤ u₀ → Set.Icc (-B) B ⊆ u.range →
      (∀ s, M.Sound (enc s) s) →
      ∃ r, (e.map enc).evalSS ord (fun k => SS.var (vord k) k (enc (x k))) = .ok r ∧
        (∃ v, r.f = .ok v ∧ M.fin v ∧ |M.val v - e.den x| ≤ K * (u.rel + u.abs)) ∧
        ∀ k, M.fin (r.d k) ∧
          |M.val (r.d k) - deriv (fun t => e.den (Function.update x k t)) (x k)| ≤ K *
            (u.rel + u.abs) := by
  by_contra hcon
  push Not at hcon
  choose x hx α inst u M enc ord vord ho hvo hle hle' hrng hclose hbad using
    fun k : ℕ => hcon k (1 / ((k : ℝ) + 1)) k (by positivity)
  obtain ⟨l, hne, hl, a, ha, hlim⟩ := compact_limit hS hx
  have hu := (fine_self (fun k => (M k).rel_nonneg) (fun k => (M k).abs_nonneg) hle hle' hrng).mono hl
  have henc : ∀ s, Lim M l (fun k => (u k).rel + (u k).abs) (fun k => enc k s) (fun _ => s) s := fun s =>
    Lim.close hu (Nigh.const s) (Eventually.of_forall fun k => hclose k s)
  have hX : ∀ i, Lim M l (fun k => (u k).rel + (u k).abs) (fun k => enc k (x k i)) (fun k => x k i)
    (a i) := fun i =>
    Lim.close hu (Nigh.refl (tendsto_pi_nhds.1 hlim i)) (Eventually.of_forall fun k => hclose k _)
  let ρ : ∀ k, String → SVal (α k) := fun k => sVars fun v => enc k (x k v)
  have near : ∀ {a : ∀ k, α k} {aR : ℕ → ℝ} {r : ℝ}, Lim M l (fun k => (u k).rel + (u k).abs) a aR r →
      ∀ᶠ C : ℝ in atTop, ∀ᶠ k in l, (M k).fin (a k) ∧
        |(M k).val (a k) - aR k| ≤ C * ‖(u k).rel + (u k).abs‖ := fun h =>
    (isBigO_iff_eventually_isBigOWith.1 h.rate).mono fun C hC => h.fin.and hC.bound
  have main := sparse_conv hu e a (hD a ha) (hR a ha) (hP a ha) enc henc
    (fun k v => enc k (x k v)) x hX
  have exactS : ∀ k nm, (e.evalV (sVars (x k))).1 = e.den (x k) ∧
      ((e.evalV (sVars (x k))).2 nm).getD (Arith.lit 0) =
        deriv (fun t => e.den (Function.update (x k) nm t)) (x k nm) := fun k nm => by
    have := sparse_conv (M := fun _ => idErr.toFin) unit_fine e (x k) (hD _ (hx k)) (hR _ (hx k))
      (hP _ (hx k)) (fun _ s => ⟨s⟩)
      unit_enc (fun _ v => ⟨x k v⟩) (fun _ => x k) (fun v => unit_enc _) nm
    exact ⟨unit_eq this.1.goal, unit_eq this.2.goal⟩
  have hall : ∀ᶠ C : ℝ in atTop, ∀ nm ∈ {v | e.Mentions v}, ∀ᶠ k in l,
      (M k).fin ((((e.map (enc k)).evalV (ρ k)).2 nm).getD (Arith.lit 0)) ∧
      |(M k).val ((((e.map (enc k)).evalV (ρ k)).2 nm).getD (Arith.lit 0)) -
        ((e.evalV (sVars (x k))).2 nm).getD (Arith.lit 0)| ≤ C * ‖(u k).rel + (u k).abs‖ :=
    (mentions_finite e).eventually_all.2 fun nm _ => near (main nm).2
  obtain ⟨C, c1, c2⟩ := ((near (main "").1).and hall).exists
  obtain ⟨k, ⟨k1, k2⟩, hCk⟩ := ((c1.and ((mentions_finite e).eventually_all.2 c2)).and
    (((tendsto_natCast_atTop_atTop (R := ℝ)).mono_left hl).eventually_ge_atTop C)).exists
  have hb : C * ‖(u k).rel + (u k).abs‖ ≤ k * ((u k).rel + (u k).abs) := by
    rw [Real.norm_of_nonneg (add_nonneg (M k).rel_nonneg (M k).abs_nonneg)]
    exact mul_le_mul_of_nonneg_right hCk (add_nonneg (M k).rel_nonneg (M k).abs_nonneg)
  obtain ⟨r, h1, h2⟩ := evalSS_spec (ho k) (fun v => SS.var (vord k v) v (enc k (x k v))) (ρ k)
    (fun v => SS.is_var (hvo k v) v (enc k (x k v))) (e.map (enc k))
  rw [(exactS k "").1] at k1
  obtain ⟨nm, hnm⟩ := hbad k r h1 ⟨_, SS.f_ok h2, k1.1, k1.2.trans hb⟩
  have key : (M k).fin (r.d nm) ∧
      |(M k).val (r.d nm) - deriv (fun t => e.den (Function.update (x k) nm t)) (x k nm)| ≤
        k * ((u k).rel + (u k).abs) := by
    rw [SS.d_eq h2]
    by_cases hm : e.Mentions nm
    · have := k2 nm hm
      rw [(exactS k nm).2] at this
      exact ⟨this.1, this.2.trans hb⟩
    · rw [sparse_unmentioned hm (enc k), deriv_unmentioned hm (x k)]
      refine ⟨fin_lit0 k, ?_⟩
      simpa [val_lit0] using mul_nonneg (Nat.cast_nonneg k)
        (add_nonneg (M k).rel_nonneg (M k).abs_nonneg)
  exact absurd key.2 (not_le.2 (hnm key.1))

/-! ## Floating-point formats -/

theorem fmt_abs_le {p emax : Nat} (he : 1 ≤ emax) : (fmtPrec p emax).abs ≤ 1 / 2 ^ p := by
  simp only [fmtPrec]
  rw [pow_add, div_le_div_iff₀ (by positivity) (by positivity), one_mul]
  exact mul_le_mul_of_nonneg_right (by simpa using pow_le_pow_right₀ (show (1 : ℝ) ≤ 2 by norm_num) he)
    (by positivity)

/-- The errors of a format are of the order of its last bit. -/
theorem fmt_rate {p emax : Nat} (he : 1 ≤ emax) (K : ℝ) :
    K * ((fmtPrec p emax).rel + (fmtPrec p emax).abs) ≤ 2 * |K| / 2 ^ p := by
  have h1 := fmt_abs_le (p := p) he
  have h2 : (fmtPrec p emax).rel = 1 / 2 ^ p := rfl
  have h3 : (0 : ℝ) ≤ (fmtPrec p emax).abs := by simp only [fmtPrec]; positivity
  have h4 : (0 : ℝ) ≤ 1 / 2 ^ p := by positivity
  calc _ ≤ |K| * ((fmtPrec p emax).rel + (fmtPrec p emax).abs) :=
        mul_le_mul_of_nonneg_right (le_abs_self K) (by rw [h2]; positivity)
    _ ≤ |K| * (1 / 2 ^ p + 1 / 2 ^ p) := mul_le_mul_of_nonneg_left (by rw [h2]; linarith) (abs_nonneg K)
    _ = _ := by ring

theorem sound_lit {α : Type} [CMath α] {u : Prec} (M : FinErr α u) (z : Int) (hz : |z| ≤ 10) :
    M.Sound (Arith.lit z) z := fun _ => by
  refine ⟨(M.lit z hz).1, ?_⟩
  rw [(M.lit z hz).2, sub_self, abs_zero]
  exact add_nonneg (mul_nonneg M.rel_nonneg (abs_nonneg _)) M.abs_nonneg

/-- Formats with enough bits in mantissa and exponent have any precision and range. -/
theorem fmt_enough {u₀ : ℝ} (hu : 0 < u₀) (B : ℝ) :
    ∃ N : Nat, 4 ≤ N ∧ ∀ p ≥ N, ∀ emax ≥ N, (fmtPrec p emax).rel ≤ u₀ ∧ (fmtPrec p emax).abs ≤ u₀ ∧
      Set.Icc (-B) B ⊆ (fmtPrec p emax).range := by
  obtain ⟨m, hm⟩ := exists_pow_lt_of_lt_one hu (show (1 / 2 : ℝ) < 1 by norm_num)
  obtain ⟨b, hb⟩ := pow_unbounded_of_one_lt B (show (1 : ℝ) < 2 by norm_num)
  refine ⟨max (max m b) 4, le_max_right _ _, fun p hp emax he => ?_⟩
  have h1 : (1 : ℝ) / 2 ^ p ≤ u₀ := by
    have := pow_le_pow_of_le_one (show (0 : ℝ) ≤ 1 / 2 by norm_num) (by norm_num)
      (show m ≤ p by omega)
    rw [one_div_pow] at this
    exact this.trans hm.le
  have h2 : B ≤ 2 ^ emax :=
    hb.le.trans (pow_le_pow_right₀ (by norm_num) (show b ≤ emax by omega))
  refine ⟨h1, (fmt_abs_le (show 1 ≤ emax by omega)).trans h1,
    Set.Icc_subset_Icc (neg_le_neg h2) h2⟩

/-- **C71, formats.** For every expression inside its domain on a compact set `S` there are a constant
`K` and a number `N` such that in every binary floating-point format with at least `N` significant bits
and exponents up to at least `N`, the value, the gradient and the Hessian computed at any point of `S` are
neither infinite nor NaN and have errors of at most `K / 2 ^ p`. -/
theorem C71_formats (hv : c.Valid) (hfit : c.tsize = -1 ∨ c.tsize = n) (e : Expr ℝ (Fin n))
    {S : Set (Fin n → ℝ)} (hS : IsCompact S) (hD : ∀ x ∈ S, e.Dom c.order x)
    (hR : ∀ x ∈ S, e.Regular x) (hP : ∀ x ∈ S, e.PowPos x) :
    ∃ (K : ℝ) (N : Nat), ∀ x ∈ S, ∀ p ≥ N, ∀ emax ≥ N, ∃ r : DD (IEEE p emax),
      evalOn c (e.map (IEEE.enc p emax)) (fun i => IEEE.enc p emax (x i)) = .ok r ∧
        Within c (fun s t => s.val.Fin ∧ |s.real - t| ≤ K / 2 ^ p) (fun y => e.den y) x r := by
  obtain ⟨K, u₀, B, hu, h⟩ := C71_rate hv hfit e hS hD hR hP
  obtain ⟨N, hN, hfmt⟩ := fmt_enough hu B
  refine ⟨2 * |K|, N, fun x hx p hp emax he => ?_⟩
  obtain ⟨f1, f2, f3⟩ := hfmt p hp emax he
  obtain ⟨r, h1, h2⟩ := h x hx _ _ (ieeeErr p emax (hN.trans hp) (hN.trans he)) (IEEE.enc p emax) f1 f2
    f3 (ieee_enc _ _)
  exact ⟨r, h1, h2.mono fun s t hs => ⟨hs.1, hs.2.trans (fmt_rate (le_trans (by omega) he) K)⟩⟩

/-- **C71, formats, programs.** In every format with at least `N` significant bits and exponents up to at
least `N` a program with branches and loops on `variables(x)` and constants ends at every point `x` of `S`
after at most `m` rounds, and all components of all its jets are finite with errors of at most
`K / 2 ^ b`. -/
theorem C71_program_formats {V : Type} [DecidableEq V] [Finite V] (hv : c.Valid)
    (hfit : c.tsize = -1 ∨ c.tsize = n)
    (p : Ctl (Stmt ℝ V) (Cond ℝ V)) (start : V → Fin n ⊕ ℝ) (U : (Fin n → ℝ) → V → ℝ)
    {S : Set (Fin n → ℝ)} (hS : IsCompact S)
    (h : ∀ x ∈ S, ∃ σ', PreciseRun c.order n p (startVal start x) σ')
    (hU : ∀ x ∈ S, ∀ᶠ y in 𝓝 x, RealRun p (startVal start y) (U y)) :
    ∃ (K : ℝ) (N m : Nat), ∀ x ∈ S, ∀ b ≥ N, ∀ emax ≥ N,
      (∃ ρ, Starts c (fun i => IEEE.enc b emax (x i)) (IEEE.enc b emax) start ρ) ∧
      ∀ ρ, Starts c (fun i => IEEE.enc b emax (x i)) (IEEE.enc b emax) start ρ →
        ∃ ρ', (∀ j ≥ m, (p.map (Stmt.map (IEEE.enc b emax)) (Cond.map (IEEE.enc b emax))).run
            (ddMachine _ V c n) j ρ = some (.ok (), ρ')) ∧
          ∀ v, Within c (fun s t => s.val.Fin ∧ |s.real - t| ≤ K / 2 ^ b) (fun y => U y v) x (ρ' v) := by
  obtain ⟨K, u₀, B, hu, m, hm⟩ := C71_programs hv hfit p (startVal start) U hS (startJet start)
    (fun x _ => startJet_isJet c.order start x) (fun v => (startJet_continuous start v).1.continuousOn)
    (fun v i _ => ((startJet_continuous start v).2.1 i).continuousOn)
    (fun _ v i _ j _ => ((startJet_continuous start v).2.2 i j).continuousOn) h hU
  obtain ⟨N, hN, hfmt⟩ := fmt_enough hu B
  refine ⟨2 * |K|, N, m, fun x hx b hb emax he => ⟨starts_exists hfit _ _ _, fun ρ hρ => ?_⟩⟩
  obtain ⟨f1, f2, f3⟩ := hfmt b hb emax he
  obtain ⟨ρ', h1, h2⟩ := hm x hx _ _ (ieeeErr b emax (hN.trans hb) (hN.trans he)) (IEEE.enc b emax) ρ
    f1 f2 f3 (ieee_exactCmp _ _) (ieee_enc _ _) fun v =>
      starts_seedBy (by simpa using sound_lit _ 0 (by norm_num))
        (by simpa using sound_lit _ 1 (by norm_num))
        hv hfit start x _ (ieee_enc _ _) hρ v
  exact ⟨ρ', h1, fun v => (h2 v).mono fun s t hs =>
    ⟨hs.1, hs.2.trans (fmt_rate (le_trans (by omega) he) K)⟩⟩

/-- **C71, formats, sparse.** -/
theorem C71_sparse_formats (e : Expr ℝ String) {S : Set (String → ℝ)} (hS : IsCompact S)
    (hD : ∀ x ∈ S, e.Dom 1 x) (hR : ∀ x ∈ S, e.Regular x) (hP : ∀ x ∈ S, e.PowPos x) :
    ∃ (K : ℝ) (N : Nat), ∀ x ∈ S, ∀ p ≥ N, ∀ emax ≥ N, ∀ (ord : Order (IEEE p emax))
      (vord : String → Order (IEEE p emax)), ord.Ok → (∀ k, (vord k).Ok) →
      ∃ r, (e.map (IEEE.enc p emax)).evalSS ord
          (fun k => SS.var (vord k) k (IEEE.enc p emax (x k))) = .ok r ∧
        (∃ v, r.f = .ok v ∧ v.val.Fin ∧ |v.real - e.den x| ≤ K / 2 ^ p) ∧
        ∀ k, (r.d k).val.Fin ∧
          |(r.d k).real - deriv (fun t => e.den (Function.update x k t)) (x k)| ≤ K / 2 ^ p := by
  obtain ⟨K, u₀, B, hu, h⟩ := C71_sparse e hS hD hR hP
  obtain ⟨N, hN, hfmt⟩ := fmt_enough hu B
  refine ⟨2 * |K|, N, fun x hx p hp emax he ord vord ho hvo => ?_⟩
  obtain ⟨f1, f2, f3⟩ := hfmt p hp emax he
  obtain ⟨r, h1, ⟨v, h2, h3, h4⟩, h5⟩ := h x hx _ _ (ieeeErr p emax (hN.trans hp) (hN.trans he))
    (IEEE.enc p emax) ord vord ho hvo f1 f2 f3 (ieee_enc _ _)
  have hK := fmt_rate (p := p) (show 1 ≤ emax from le_trans (by omega) he) K
  exact ⟨r, h1, ⟨v, h2, h3, h4.trans hK⟩, fun k => ⟨(h5 k).1, (h5 k).2.trans hK⟩⟩

/-! ## The range is needed -/

/-- `x * x` -/
noncomputable def exSq : Expr ℝ (Fin 1) := .bin .mul (.var 0) (.var 0)

/-- Powers of two are not rounded. -/
theorem rndFmt_two {p emax : Nat} (hp : 1 ≤ p) (he : 1 ≤ emax) (k : Nat) : rndFmt p emax
    (2 ^ k) = 2 ^ k := by
  unfold rndFmt
  have hlog : Int.log 2 |(2 : ℝ) ^ k| = k := by
    rw [abs_of_pos (by positivity)]
    have := Int.log_zpow (R := ℝ) (b := 2) (by norm_num) (k : ℤ)
    simpa using this
  rw [hlog, max_eq_left (by omega)]
  obtain ⟨q, rfl⟩ : ∃ q, p = q + 1 := ⟨p - 1, by omega⟩
  have h : (2 : ℝ) ^ k / 2 ^ ((k : ℤ) + 1 - (q + 1 : ℕ)) = ((2 ^ q : ℤ) : ℝ) := by
    rw
      [← zpow_natCast, ← zpow_sub₀ (by norm_num), show (k : ℤ) -
        (k + 1 - (q + 1 : ℕ)) = q by push_cast; ring]
    simp
  rw [h, roundEven_int, ← h, div_mul_cancel₀ _ (zpow_ne_zero _ (by norm_num))]

/-- **C71, small ranges.** The range must be large enough for all intermediate results: in every format
`x * x` is inside its domain at a point that the format represents exactly, but the value that comes out
is infinite. -/
theorem C71_violated_overflow {p emax : Nat} (hp : 4 ≤ p) (he : 4 ≤ emax) :
    ∃ x : Fin 1 → ℝ, exSq.Dom 2 x ∧ exSq.Regular x ∧ exSq.PowPos x ∧
      (∀ i, IEEE.enc p emax (x i) = ⟨.num (x i)⟩) ∧
      ∃ r, evalOn exDyn2 (exSq.map (IEEE.enc p emax)) (fun i => IEEE.enc p emax (x i)) = .ok r ∧
        r.f = .ok ⟨.inf false⟩ := by
  have num : ∀ x, toFmt p emax (.num x) = open Classical in if |rndFmt p emax x| < 2 ^ (emax + 1) then
      .num (rndFmt p emax x) else .inf (decide (x < 0)) := fun x => rfl
  have enc : IEEE.enc p emax (2 ^ emax) = ⟨.num (2 ^ emax)⟩ := by
    unfold IEEE.enc
    rw [num, rndFmt_two (by omega) (by omega), if_pos]
    rw [abs_of_pos (by positivity)]
    exact pow_lt_pow_right₀ (by norm_num) (by omega)
  refine ⟨fun _ => 2 ^ emax, by simp [exSq, Expr.Dom, Bin.dom], by simp [exSq, Expr.Regular, Bin.reg],
    by simp [exSq, Expr.PowPos], fun _ => enc, _, evalOn_obj exDyn2_valid.order (Or.inl rfl) _ _, ?_⟩
  rw [f_obj]
  congr 1
  simp only [enc]
  show (⟨toFmt p emax (.num (2 ^ emax * 2 ^ emax))⟩ : IEEE p emax) = _
  rw [← pow_add, num, rndFmt_two (by omega) (by omega), if_neg]
  · rw [decide_eq_false (not_lt.2 (by positivity))]
  · rw [abs_of_pos (by positivity), not_lt]
    exact pow_le_pow_right₀ (by norm_num) (by omega)

/-! ### Concrete cases -/

theorem exConv_box {x : Fin 2 → ℝ} (hx : x ∈ Set.Icc ![-3 / 4, 2] ![-1 / 4, 4]) :
    exConv.Dom 2 x ∧ exConv.Regular x ∧ exConv.PowPos x := by
  have a0 := hx.1 0
  have a1 := hx.1 1
  have b0 := hx.2 0
  have b1 := hx.2 1
  simp at a0 a1 b0 b1
  have h0 : x 0 ≠ 0 := by linarith
  have h1 : 0 < x 1 := by linarith
  refine ⟨?_, ?_, ?_⟩
  · simp only [exConv, Expr.Dom, Expr.den, Fn.dom, Bin.dom]
    refine ⟨⟨⟨trivial, by linarith, by linarith⟩, ⟨trivial, Or.inl h1⟩, trivial⟩, ?_⟩
    simp [h0]
  · simp [exConv, Expr.Regular, Expr.den, Bin.reg, h0]
  · simp [exConv, Expr.PowPos, Expr.den, h1]

/-- `if (a < 2) r = a * a; else r = exp(a);` (names: `a` 0, `r` 1). -/
noncomputable def exTwo : Ctl (Stmt ℝ (Fin 2)) (Cond ℝ (Fin 2)) :=
  .ite (.atom (.cmpS .lt (.var 0) 2)) (.act (.assign 1 (.bin .mul (.var 0) (.var 0))))
    (.act (.assign 1 (.fn .exp (.var 0))))

/-- The function it computes. -/
noncomputable def exTwoFun (y : Fin 1 → ℝ) : Fin 2 → ℝ :=
  ![y 0, if y 0 < 2 then y 0 * y 0 else Real.exp (y 0)]

theorem exTwo_run (y : Fin 1 → ℝ) :
    RealRun exTwo (startVal (n := 1) ![.inl 0, .inr 0] y) (exTwoFun y) := by
  by_cases h : y 0 < 2
  · refine .iteT (.atom ?_) (.act ?_)
    · simpa [Cond.Holds, Expr.den, startVal, DD.CmpOp.rel] using h
    · funext v
      fin_cases v <;> simp [exTwoFun, h, Stmt.den, setVal, Expr.den, Bin.den, startVal]
  · refine .iteF (.atom ?_) (.act ?_)
    · simpa [Cond.Holds, Expr.den, startVal, DD.CmpOp.rel] using h
    · funext v
      fin_cases v <;> simp [exTwoFun, h, Stmt.den, setVal, Expr.den, Fn.den, startVal]

theorem exTwo_precise {y : Fin 1 → ℝ} (hy : y 0 ≠ 2) :
    ∃ σ', PreciseRun 2 1 exTwo (startVal (n := 1) ![.inl 0, .inr 0] y) σ' := by
  by_cases h : y 0 < 2
  · refine ⟨_, .iteT (.atom ?_) (.act ⟨?_, rfl⟩)⟩
    · simpa [Cond.Sure, Cond.Inside, Cond.PowPos, Cond.Holds, Expr.Dom, Expr.Regular, Expr.PowPos,
        Expr.den, startVal, DD.CmpOp.rel, hy] using h
    · simp [Stmt.Ok, Stmt.PowPos, Expr.Dom, Expr.Regular, Expr.PowPos, Bin.dom, Bin.reg]
  · refine ⟨_, .iteF (.atom ?_) (.act ⟨?_, rfl⟩)⟩
    · simpa [Cond.Sure, Cond.Inside, Cond.PowPos, Cond.Holds, Expr.Dom, Expr.Regular, Expr.PowPos,
        Expr.den, startVal, DD.CmpOp.rel, hy] using h
    · simp [Stmt.Ok, Stmt.PowPos, Expr.Dom, Expr.Regular, Expr.PowPos, Fn.dom]

/-- `asin(x) * pow(y, 1/3) - |x| * hypot(x, y)` on `[-3/4, -1/4] × [2, 4]`. -/
example : ∃ (K : ℝ) (N : Nat), ∀ x ∈ Set.Icc ![-3 / 4, 2] ![-1 / 4, (4 : ℝ)], ∀ p ≥ N, ∀ emax ≥ N,
    ∃ r : DD (IEEE p emax),
      evalOn exDyn2 (exConv.map (IEEE.enc p emax)) (fun i => IEEE.enc p emax (x i)) = .ok r ∧
        Within exDyn2 (fun s t => s.val.Fin ∧ |s.real - t| ≤ K / 2 ^ p) (fun y => exConv.den y) x r :=
  C71_formats exDyn2_valid (Or.inl rfl) exConv isCompact_Icc (fun _ hx => (exConv_box hx).1)
    (fun _ hx => (exConv_box hx).2.1) fun _ hx => (exConv_box hx).2.2

theorem exTwo_away {x : Fin 1 → ℝ}
    (hx : x ∈ Set.Icc (fun _ : Fin 1 => (0 : ℝ)) (fun _ => 1) ∪ Set.Icc (fun _ => 3) (fun _ => 4)) :
    x 0 ≠ 2 := by
  rcases hx with hx | hx
  · have := hx.2 0
    simp only at this
    linarith
  · have := hx.1 0
    simp only at this
    linarith

/-- Both branches, on `[0, 1] ∪ [3, 4]`. -/
example : ∃ (K : ℝ) (N m : Nat), ∀ x ∈ Set.Icc (fun _ : Fin 1 => (0 : ℝ)) (fun _ => 1) ∪
      Set.Icc (fun _ => 3) (fun _ => 4), ∀ b ≥ N, ∀ emax ≥ N,
    (∃ ρ, Starts exDyn2 (fun i => IEEE.enc b emax (x i)) (IEEE.enc b emax)
      (![.inl 0, .inr 0] : Fin 2 → Fin 1 ⊕ ℝ) ρ) ∧
    ∀ ρ, Starts exDyn2 (fun i => IEEE.enc b emax (x i)) (IEEE.enc b emax)
      (![.inl 0, .inr 0] : Fin 2 → Fin 1 ⊕ ℝ) ρ →
    ∃ ρ', (∀ j ≥ m, (exTwo.map (Stmt.map (IEEE.enc b emax)) (Cond.map (IEEE.enc b emax))).run
        (ddMachine _ (Fin 2) exDyn2 1) j ρ = some (.ok (), ρ')) ∧
      ∀ v, Within exDyn2 (fun s t => s.val.Fin ∧ |s.real - t| ≤ K / 2 ^ b) (fun y => exTwoFun y v) x
        (ρ' v) :=
  C71_program_formats exDyn2_valid (Or.inl rfl) exTwo ![.inl 0, .inr 0] exTwoFun
    (isCompact_Icc.union isCompact_Icc) (fun _ hx => exTwo_precise (exTwo_away hx))
    fun x _ => .of_forall fun y => exTwo_run y

theorem exNamed_box {x : String → ℝ} (hx : x ∈ Set.Icc (fun _ : String => (1 : ℝ)) (fun _ => 2)) :
    exNamed.Dom 1 x := by
  have := hx.1 "b"
  simp only at this
  have : x "b" ≠ 0 := by linarith
  simpa [exNamed, Expr.Dom, Expr.den, Fn.dom, Bin.dom] using this

/-- `exp a / b` for `a` and `b` in `[1, 2]`. -/
example : ∃ (K : ℝ) (N : Nat), ∀ x ∈ Set.Icc (fun _ : String => (1 : ℝ)) (fun _ => 2), ∀ p ≥ N,
      ∀ emax ≥ N, ∀ (ord : Order (IEEE p emax))
      (vord : String → Order (IEEE p emax)), ord.Ok → (∀ k, (vord k).Ok) →
      ∃ r, (exNamed.map (IEEE.enc p emax)).evalSS ord
          (fun k => SS.var (vord k) k (IEEE.enc p emax (x k))) = .ok r ∧
        (∃ v, r.f = .ok v ∧ v.val.Fin ∧ |v.real - exNamed.den x| ≤ K / 2 ^ p) ∧
        ∀ k, (r.d k).val.Fin ∧
          |(r.d k).real - deriv (fun t => exNamed.den (Function.update x k t)) (x k)| ≤ K / 2 ^ p :=
  C71_sparse_formats exNamed isCompact_Icc (fun _ hx => exNamed_box hx)
    (fun _ _ => by simp [exNamed, Expr.Regular, Bin.reg]) fun _ _ => by simp [exNamed, Expr.PowPos]

end HJ
