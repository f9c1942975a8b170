import Verif.Props.Caller
import Verif.Props.Finite

/-!
# C84: C++ client code of any kind on dense jets, in formats, on whole regions
-/

namespace HJ

open Filter Topology Asymptotics

variable {V Q : Type} [DecidableEq V] {c : Cfg} {n : Nat}

/-- The client code at one point: the path it takes, and it takes the same one nearby. -/
theorem client_path (hv : c.Valid) (hfit : Fits c n) {cl : Caller (Call ℝ V) (Answer ℝ) Q} {q q' : Q}
    {u U : (Fin n → ℝ) → V → ℝ} {x : Fin n → ℝ} {σ' : V → ℝ} {J : V → Jet ℝ}
    (hu : ∀ v, IsJet c.order n (fun y => u y v) x (J v))
    (h : cl.Ends (PreciseCall c.order n) q (u x) q' σ')
    (hU : ∀ᶠ y in 𝓝 x, ∃ q'', cl.Ends RealCall q (u y) q'' (U y)) :
    ∃ l, cl.Takes q l q' ∧ PreciseRun c.order n l.ctl (u x) σ' ∧
      ∀ᶠ y in 𝓝 x, RealRun l.ctl (u y) (U y) := by
  obtain ⟨l, hl, hg⟩ := h.precisePath
  obtain ⟨ρ₀, hρ₀⟩ : ∃ ρ₀ : Store XReal V, ∀ v, Shows c n (ρ₀ v) (J v).lift :=
    ⟨fun v => obj c n (packJet n (J v).lift), fun v =>
      shows_packJet hv.order hfit _ fun h2 i j hi hj => by
      have := IsJet.sym (h2 ▸ hu v) ⟨i, hi⟩ ⟨j, hj⟩
      simp only [Jet.lift, this]⟩
  have hsafe : SafeRun c.order n l.ctl (u x) σ' := by
    refine (Path.Goes.runs (l := l) (step := fun s σ σ' => s.Ok c.order n σ ∧ σ' = s.den σ)
      (test := fun b σ r => b.Sure c.order σ ∧ (r = true ↔ b.Holds σ)) ?_)
    have hg' := hg
    generalize u x = σ at hg'
    clear hl hU hg h
    induction hg' with
    | nil a => exact .nil a
    | act h _ ih => exact .act ⟨h.1.1, h.2⟩ ih
    | ask h _ ih => exact .ask ⟨h.1.1, h.2⟩ ih
  have h1 := (C61_no_ties hv hfit l.ctl u x σ' ρ₀ J hρ₀ hu hsafe).1
  have hends : ∀ y τ, RealRun l.ctl (u y) τ → cl.Ends RealCall q (u y) q' τ := fun y τ hy =>
    hl.ends (Path.goes_runs (fun b a r r' h h' => by rw [Bool.eq_iff_iff, h, h']) hy)
  refine ⟨l, hl, hg.runs, ?_⟩
  filter_upwards [h1, hU] with y ⟨τ, hy⟩ ⟨q'', hy'⟩
  have := (Caller.Ends.det realCall_det (hends y τ hy) hy').2
  rwa [this] at hy

theorem Expr.map_id_self {V : Type} (e : Expr ℝ V) : e.map id = e := by
  induction e with
  | fn φ e ih => cases φ <;> simp_all [Expr.map, Fn.map]
  | _ => simp_all [Expr.map]

theorem Ctl.map_id_self {V : Type} (p : Ctl (Stmt ℝ V) (Cond ℝ V)) :
    p.map (Stmt.map id) (Cond.map id) = p := by
  have h1 : (Stmt.map id : Stmt ℝ V → _) = id := funext fun s => by
    cases s with
    | updS o t s => cases s <;> simp [Stmt.map]
    | _ => simp [Stmt.map, Expr.map_id_self]
  have h2 : (Cond.map id : Cond ℝ V → _) = id := funext fun b => by
    cases b <;> simp [Cond.map, Expr.map_id_self]
  have h3 : ∀ t : Test (Cond ℝ V), t.map id = t := fun t => by
    induction t <;> simp_all [Test.map]
  rw [h1, h2]
  induction p <;> simp_all [Ctl.map]

/-- The client code on jets along a path that the jets take. -/
theorem client_run {α : Type} [CMath α] {cl : Caller (Call ℝ V) (Answer ℝ) Q} {q q' : Q}
    {l : Path (Stmt ℝ V) (Cond ℝ V)} (hl : cl.Takes q l q') (enc : ℝ → α) (dec : α → ℝ)
    {ρ ρ' : Store α V} {k : Nat}
    (h : Ctl.run (ddMachine α V c n) k (l.ctl.map (Stmt.map enc) (Cond.map enc)) ρ = some (.ok (), ρ'))
    (j : Nat) (hj : l.length < j) :
    (cl.map (Call.map enc) (Answer.map dec)).run (ddLibrary α V c n) j q ρ = some (.ok q', ρ') := by
  rw [Ctl.run_map] at h
  exact hl.run enc dec (Path.goes_run h) j hj

/-- **C84.**  Take client code of any kind that does not read numbers and that on real numbers ends at
every point of the compact set `S` with all statements inside their domains, no comparison between equal
values and `pow` of positive numbers only; it may take different paths at different points.  There are a
constant `K`, a precision, a range and a number of calls such that at every point of `S` and in every
arithmetic of at least that precision and range the client code on jets ends within that many calls in the
state in which it ends on real numbers, and the value, gradient and Hessian of all jets are finite and
within `K` times the error of one operation of those of the function `U` it computes. -/
theorem C84_rate [Finite V] (hv : c.Valid) (hfit : c.tsize = -1 ∨ c.tsize = n)
    (cl : Caller (Call ℝ V) (Answer ℝ) Q) (q : Q) (fin : (Fin n → ℝ) → Q) (u U : (Fin n → ℝ) → V → ℝ)
    {S : Set (Fin n → ℝ)} (hS : IsCompact S) (J : (Fin n → ℝ) → V → Jet ℝ)
    (hu : ∀ x ∈ S, ∀ v, IsJet c.order n (fun y => u y v) x (J x v))
    (hJf : ∀ v, ContinuousOn (fun x => (J x v).f) S)
    (hJg : ∀ v, ∀ i < n, ContinuousOn (fun x => (J x v).g i) S)
    (hJh : c.order = 2 → ∀ v, ∀ i < n, ∀ j < n, ContinuousOn (fun x => (J x v).h i j) S)
    (h : ∀ x ∈ S, ∃ σ', cl.Ends (PreciseCall c.order n) q (u x) (fin x) σ')
    (hU : ∀ x ∈ S, ∀ᶠ y in 𝓝 x, ∃ q'', cl.Ends RealCall q (u y) q'' (U y)) :
    ∃ K w₀ B : ℝ, 0 < w₀ ∧ ∃ m : Nat, ∀ x ∈ S, ∀ (α : Type) [CMath α] (w : Prec) (M : FinErr α w)
      (enc : ℝ → α) (ρ : Store α V), w.rel ≤ w₀ → w.abs ≤ w₀ → Set.Icc (-B) B ⊆ w.range →
      M.ExactCmp → (∀ s, M.Sound (enc s) s) → (∀ v, SeedBy c n M.Sound (J x v) (ρ v)) →
      ∃ ρ', (∀ j ≥ m, (cl.map (Call.map enc) (Answer.map M.val)).run (ddLibrary α V c n) j q ρ =
          some (.ok (fin x), ρ')) ∧
        ∀ v, Within c (fun s t => M.fin s ∧ |M.val s - t| ≤ K * (w.rel + w.abs)) (fun y => U y v) x
          (ρ' v) := by
  by_contra hcon
  push Not at hcon
  choose x hx α inst w M enc ρ hle hle' hrng hcmp hclose hseed hbad using
    fun k : ℕ => hcon k (1 / ((k : ℝ) + 1)) k (by positivity) k
  choose K hK hf hg hh using hseed
  obtain ⟨l, hne, hl, a, ha, hlim⟩ := compact_limit hS hx
  have hlim' : Tendsto x l (𝓝[S] a) := tendsto_nhdsWithin_iff.2 ⟨hlim, .of_forall hx⟩
  have hw := (fine_self (fun k => (M k).rel_nonneg) (fun k => (M k).abs_nonneg) hle hle' hrng).mono hl
  have henc : ∀ s, Lim M l (fun k => (w k).rel + (w k).abs) (fun k => enc k s) (fun _ => s) s := fun s =>
    Lim.close hw (Nigh.const s) (Eventually.of_forall fun k => hclose k s)
  have lim : ∀ {b : ∀ k, α k} {r : (Fin n → ℝ) → ℝ}, (∀ k, (M k).Sound (b k) (r (x k))) →
      ContinuousOn r S → Lim M l (fun k => (w k).rel + (w k).abs) b (fun k => r (x k)) (r a) :=
        fun h hr =>
    Lim.close hw (Nigh.refl ((hr a ha).tendsto.comp hlim')) (Eventually.of_forall h)
  choose ρR hρR using fun k => exists_shows hv.order hfit (hu (x k) (hx k))
  obtain ⟨σ', hp⟩ := h a ha
  obtain ⟨p, hp, hp1, hp2⟩ := client_path hv hfit (hu a ha) hp (hU a ha)
  obtain ⟨m, hm⟩ := run_conv hv hfit p.ctl u U a σ' (J a) (hu a ha) hp1 hp2
  obtain ⟨ρ', ρR', h1, h1R, h2⟩ := hm M hw hcmp enc henc ρ ρR
    (Nearing.of_shows hv.order (hu a ha) hK (KR := fun k => J (x k)) hρR
      (fun v => lim (r := fun x => (J x v).f) (fun k => hf k v) (hJf v))
      (fun v i hi => lim (r := fun x => (J x v).g i) (fun k => hg k v i hi) (hJg v i hi))
      (fun h2 v i hi j hj => lim (r := fun x => (J x v).h i j) (fun k => hh k v h2 i hi j hj)
        (hJh h2 v i hi j hj)))
  -- on exact jets the client code ends at `x k` in its state there
  have hI : ∀ᶠ k in l, fin a = fin (x k) ∧ ∀ v, ∃ J', Shows c n (ρR' k v) J' ∧
      IsJet c.order n (fun y => U y v) (x k) J' := h1R.mono fun k hk => by
    obtain ⟨τ, hpk⟩ := h _ (hx k)
    obtain ⟨p', hp', hp1', hp2'⟩ := client_path hv hfit (hu _ (hx k)) hpk (hU _ (hx k))
    obtain ⟨m', ρ'', h3, h4⟩ := exact_run hv hfit p'.ctl u U (x k) τ (J (x k)) (hu _ (hx k)) hp1'
      hp2' (hρR k)
    have e1 := client_run hp id id (by rw [Ctl.map_id_self]; exact hk m le_rfl)
      (max p.length p'.length + 1) (by omega)
    have e2 := client_run hp' id id (by rw [Ctl.map_id_self]; exact h3 m' le_rfl)
      (max p.length p'.length + 1) (by omega)
    rw [e1] at e2
    simp only [Option.some.injEq, Prod.mk.injEq, Res.ok.injEq] at e2
    rw [e2.2]
    exact ⟨e2.1, h4⟩
  obtain ⟨C, hC⟩ := (h2.errLe hv.order hfit (hI.mono fun k hk => hk.2)).exists
  obtain ⟨k, ⟨⟨⟨hk, hr⟩, hCk⟩, hmk⟩, hfin⟩ := ((((hC.and h1).and
    (((tendsto_natCast_atTop_atTop (R := ℝ)).mono_left hl).eventually_ge_atTop C)).and
    (hl (eventually_ge_atTop (p.length + 1)))).and hI).exists
  obtain ⟨v, hv⟩ := hbad k (ρ' k) fun j hj => by
    rw [← hfin.1]
    exact client_run hp (enc k) _ (hr m le_rfl) j (by omega)
  refine hv ((hk v).mono fun s t hst => ⟨hst.1, hst.2.trans ?_⟩)
  rw [Real.norm_of_nonneg (add_nonneg (M k).rel_nonneg (M k).abs_nonneg)]
  exact mul_le_mul_of_nonneg_right hCk (add_nonneg (M k).rel_nonneg (M k).abs_nonneg)

/-- **C84, formats.**  In every format with at least `N` significant bits and exponents up to at least `N`
the client code on `variables(x)` and constants ends at every point `x` of `S` after at most `m` calls in
the state in which it ends on real numbers, and all components of all jets are finite with errors of at
most `K / 2 ^ b`. -/
theorem C84_formats [Finite V] (hv : c.Valid) (hfit : c.tsize = -1 ∨ c.tsize = n)
    (cl : Caller (Call ℝ V) (Answer ℝ) Q) (q : Q) (fin : (Fin n → ℝ) → Q) (start : V → Fin n ⊕ ℝ)
    (U : (Fin n → ℝ) → V → ℝ) {S : Set (Fin n → ℝ)} (hS : IsCompact S)
    (h : ∀ x ∈ S, ∃ σ', cl.Ends (PreciseCall c.order n) q (startVal start x) (fin x) σ')
    (hU : ∀ x ∈ S, ∀ᶠ y in 𝓝 x, ∃ q'', cl.Ends RealCall q (startVal start y) q'' (U y)) :
    ∃ (K : ℝ) (N m : Nat), ∀ x ∈ S, ∀ b ≥ N, ∀ emax ≥ N,
      (∃ ρ, Starts c (fun i => IEEE.enc b emax (x i)) (IEEE.enc b emax) start ρ) ∧
      ∀ ρ, Starts c (fun i => IEEE.enc b emax (x i)) (IEEE.enc b emax) start ρ →
        ∃ ρ', (∀ j ≥ m, (cl.map (Call.map (IEEE.enc b emax)) (Answer.map IEEE.real)).run
            (ddLibrary _ V c n) j q ρ = some (.ok (fin x), ρ')) ∧
          ∀ v, Within c (fun s t => s.val.Fin ∧ |s.real - t| ≤ K / 2 ^ b) (fun y => U y v) x (ρ' v) := by
  obtain ⟨K, u₀, B, hu, m, hm⟩ := C84_rate hv hfit cl q fin (startVal start) U hS (startJet start)
    (fun x _ => startJet_isJet c.order start x) (fun v => (startJet_continuous start v).1.continuousOn)
    (fun v i _ => ((startJet_continuous start v).2.1 i).continuousOn)
    (fun _ v i _ j _ => ((startJet_continuous start v).2.2 i j).continuousOn) h hU
  obtain ⟨N, hN, hfmt⟩ := fmt_enough hu B
  refine ⟨2 * |K|, N, m, fun x hx b hb emax he => ⟨starts_exists hfit _ _ _, fun ρ hρ => ?_⟩⟩
  obtain ⟨f1, f2, f3⟩ := hfmt b hb emax he
  obtain ⟨ρ', h1, h2⟩ := hm x hx _ _ (ieeeErr b emax (hN.trans hb) (hN.trans he)) (IEEE.enc b emax) ρ
    f1 f2 f3 (ieee_exactCmp _ _) (ieee_enc _ _) fun v =>
      starts_seedBy (by simpa using sound_lit _ 0 (by norm_num))
        (by simpa using sound_lit _ 1 (by norm_num))
        hv hfit start x _ (ieee_enc _ _) hρ v
  exact ⟨ρ', h1, fun v => (h2 v).mono fun s t hs =>
    ⟨hs.1, hs.2.trans (fmt_rate (le_trans (by omega) he) K)⟩⟩

/-! ## Examples -/

/-- Repeated squaring in every format with enough bits, for every `N`, with one constant for all points of a
bounded interval. -/
example (N : Nat) (lo hi : ℝ) : ∃ (K : ℝ) (k m : Nat),
    ∀ x ∈ Set.Icc (fun _ : Fin 1 => lo) (fun _ => hi), ∀ b ≥ k, ∀ emax ≥ k,
      (∃ ρ, Starts exDyn2 (fun i => IEEE.enc b emax (x i)) (IEEE.enc b emax) ![.inl 0, .inr 1] ρ) ∧
      ∀ ρ, Starts exDyn2 (fun i => IEEE.enc b emax (x i)) (IEEE.enc b emax) ![.inl 0, .inr 1] ρ →
        ∃ ρ', (∀ j ≥ m, ((exPowers ℝ).map (Call.map (IEEE.enc b emax)) (Answer.map IEEE.real)).run
            (ddLibrary _ (Fin 2) exDyn2 1) j N ρ = some (.ok 0, ρ')) ∧
          Within exDyn2 (fun s t => s.val.Fin ∧ |s.real - t| ≤ K / 2 ^ b) (fun y => y 0 ^ N) x
            (ρ' 1) := by
  have e0 : ∀ y : Fin 1 → ℝ, startVal ![.inl 0, .inr 1] y = ![y 0, 1] := fun y =>
    funext fun v => by fin_cases v <;> rfl
  choose U hU hU1 using fun y : Fin 1 → ℝ => exPowers_ends N ![y 0, 1]
  obtain ⟨K, k, m, h⟩ := C84_formats exDyn2_valid (n := 1) (Or.inl rfl) (exPowers ℝ) N (fun _ => 0)
    ![.inl 0, .inr 1] U (isCompact_Icc (a := fun _ : Fin 1 => lo) (b := fun _ => hi))
    (fun x _ => ⟨U x, by rw [e0]; exact hU x⟩)
    (fun x _ => .of_forall fun y => ⟨0, by rw [e0]; exact (hU y).mono fun k a r a' h => h.1.real⟩)
  have e : (fun y => U y 1) = fun y : Fin 1 → ℝ => y 0 ^ N := funext fun y => by
    rw [hU1 y]; simp
  refine ⟨K, k, m, fun x hx b hb emax he => ⟨(h x hx b hb emax he).1, fun ρ hρ => ?_⟩⟩
  obtain ⟨ρ', h1, h2⟩ := (h x hx b hb emax he).2 ρ hρ
  exact ⟨ρ', h1, e ▸ h2 1⟩

/-- `if (a < 1) { r = -a; } else { r = a * a; }` with the state `1` or `2` left behind. -/
def exSplit : Caller (Call ℝ (Fin 2)) (Answer ℝ) (Nat × Bool) where
  next
    | (0, _) => some (.ask (.cmpS .lt (.var 0) 1))
    | (1, true) => some (.act (.assign 1 (.neg (.var 0))))
    | (1, false) => some (.act (.assign 1 (.bin .mul (.var 0) (.var 0))))
    | _ => none
  after
    | (0, _), .truth b => (1, b)
    | (k, b), _ => (k + 1, b)

theorem exSplit_ends (y : Fin 1 → ℝ) (h : y 0 ≠ 1) :
    (exSplit).Ends (PreciseCall 2 1) (0, false) ![y 0, 0] (2, decide (y 0 < 1))
      ![y 0, if y 0 < 1 then -y 0 else y 0 * y 0] := by
  by_cases hy : y 0 < 1
  · refine .call (k := .ask (.cmpS .lt (.var 0) 1)) (r := .truth true) rfl
      ⟨.ask _ _ ⟨⟨trivial, trivial⟩, h⟩ (by simp [Cond.Holds, DD.CmpOp.rel, Expr.den, hy]), trivial⟩ ?_
    refine .call (k := .act (.assign 1 (.neg (.var 0)))) (r := .done) rfl
      ⟨.act _ _ (by simp [Stmt.Ok, Expr.Dom, Expr.Regular]), trivial⟩ ?_
    have e : (Stmt.assign 1 (.neg (.var 0)) : Stmt ℝ (Fin 2)).den ![y 0, 0] =
        ![y 0, if y 0 < 1 then -y 0 else y 0 * y 0] := by
      funext v
      fin_cases v <;> simp [Stmt.den, setVal, Expr.den, hy]
    rw [e, decide_eq_true hy]
    exact .stop rfl
  · refine .call (k := .ask (.cmpS .lt (.var 0) 1)) (r := .truth false) rfl
      ⟨.ask _ _ ⟨⟨trivial, trivial⟩, h⟩ (by simp [Cond.Holds, DD.CmpOp.rel, Expr.den, not_lt.1 hy]),
        trivial⟩ ?_
    refine .call (k := .act (.assign 1 (.bin .mul (.var 0) (.var 0)))) (r := .done) rfl
      ⟨.act _ _ (by simp [Stmt.Ok, Expr.Dom, Expr.Regular, Bin.dom, Bin.reg]), trivial, trivial⟩ ?_
    have e : (Stmt.assign 1 (.bin .mul (.var 0) (.var 0)) : Stmt ℝ (Fin 2)).den ![y 0, 0] =
        ![y 0, if y 0 < 1 then -y 0 else y 0 * y 0] := by
      funext v
      fin_cases v <;> simp [Stmt.den, setVal, Expr.den, Bin.den, hy]
    rw [e, decide_eq_false hy]
    exact .stop rfl

/-- The path may depend on the point: on `[-1, 1/2] ∪ [2, 3]` both branches are taken, and one constant
serves for both. -/
example : ∃ (K : ℝ) (k m : Nat),
    ∀ x ∈ Set.Icc (fun _ : Fin 1 => (-1 : ℝ)) (fun _ => 1 / 2) ∪ Set.Icc (fun _ => 2) (fun _ => 3),
    ∀ b ≥ k, ∀ emax ≥ k, ∀ ρ,
      Starts exDyn2 (fun i => IEEE.enc b emax (x i)) (IEEE.enc b emax) ![.inl 0, .inr 0] ρ →
        ∃ ρ', (∀ j ≥ m, (exSplit.map (Call.map (IEEE.enc b emax)) (Answer.map IEEE.real)).run
            (ddLibrary _ (Fin 2) exDyn2 1) j (0, false) ρ = some (.ok (2, decide (x 0 < 1)), ρ')) ∧
          Within exDyn2 (fun s t => s.val.Fin ∧ |s.real - t| ≤ K / 2 ^ b)
            (fun y => if y 0 < 1 then -y 0 else y 0 * y 0) x (ρ' 1) := by
  have e0 : ∀ y : Fin 1 → ℝ, startVal ![.inl 0, .inr 0] y = ![y 0, 0] := fun y =>
    funext fun v => by fin_cases v <;> rfl
  have hS : ∀ x ∈ Set.Icc (fun _ : Fin 1 => (-1 : ℝ)) (fun _ => 1 / 2) ∪
      Set.Icc (fun _ => 2) (fun _ => 3), x 0 ≠ 1 := by
    rintro x (hx | hx) h
    · have := hx.2 0; norm_num [h] at this
    · have := hx.1 0; norm_num [h] at this
  obtain ⟨K, k, m, h⟩ := C84_formats exDyn2_valid (n := 1) (Or.inl rfl) exSplit (0, false)
    (fun x => (2, decide (x 0 < 1))) ![.inl 0, .inr 0]
    (fun y => ![y 0, if y 0 < 1 then -y 0 else y 0 * y 0])
    (isCompact_Icc.union isCompact_Icc)
    (fun x hx => ⟨_, by rw [e0]; exact exSplit_ends x (hS x hx)⟩)
    (fun x hx => by
      have : ∀ᶠ y : Fin 1 → ℝ in 𝓝 x, y 0 ≠ 1 :=
        (continuous_apply (0 : Fin 1)).continuousAt.eventually_ne (hS x hx)
      exact this.mono fun y hy =>
        ⟨_, by rw [e0]; exact (exSplit_ends y hy).mono fun k a r a' h => h.1.real⟩)
  exact ⟨K, k, m, fun x hx b hb emax he ρ hρ => by
    obtain ⟨ρ', h1, h2⟩ := (h x hx b hb emax he).2 ρ hρ
    exact ⟨ρ', h1, h2 1⟩⟩

end HJ
