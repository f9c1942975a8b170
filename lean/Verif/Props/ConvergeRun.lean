import Verif.Proofs.ConvergeRun
import Verif.Props.Converge

/-!
# C68: programs with branches and loops in every precision
-/

namespace HJ

open Filter Topology

variable {c : Cfg} {n : Nat} {V : Type} [DecidableEq V]

/-- Two families of machines side by side. -/
def sumMachine {ι S B : Type} {T T' : ι → Type} (M : ∀ k, Machine S B (T k))
    (M' : ∀ k, Machine S B (T' k)) :
    ∀ k : ι ⊕ ι, Machine S B (Sum.elim T T' k)
  | .inl k => M k
  | .inr k => M' k

/-- Two families of stores side by side. -/
def sumPair {ι : Type} {T T' : ι → Type} (st : ∀ k, T k) (st' : ∀ k, T' k) :
    ∀ k : ι ⊕ ι, Sum.elim T T' k
  | .inl k => st k
  | .inr k => st' k

/-- A program run by a family of arithmetics, and by exact arithmetic, keeps stores that converge to the
exact jets. -/
theorem run_conv (hv : c.Valid) (hfit : Fits c n) (p : Ctl (Stmt ℝ V) (Cond ℝ V))
    (u U : (Fin n → ℝ) → V → ℝ) (x : Fin n → ℝ) (σ' : V → ℝ)
    (J : V → Jet ℝ) (hu : ∀ v, IsJet c.order n (fun y => u y v) x (J v))
    (h : PreciseRun c.order n p (u x) σ') (hU : ∀ᶠ y in 𝓝 x, RealRun p (u y) (U y)) :
    ∃ m : Nat, ∀ {ι : Type} {l : Filter ι} {α : ι → Type} [∀ k, CMath (α k)] {w : ι → Prec}
      {ω : ι → ℝ} (M : ∀ k, FinErr (α k) (w k)) (_ : Fine w l ω) (_ : ∀ k, (M k).ExactCmp)
      (enc : ∀ k, ℝ → α k) (_ : ∀ s, Lim M l ω (fun k => enc k s) (fun _ => s) s)
      (ρ : ∀ k, Store (α k) V) (ρR : ι → Store ℝ V) (_ : Nearing M l ω c n x ρ ρR u),
      ∃ (ρ' : ∀ k, Store (α k) V) (ρR' : ι → Store ℝ V),
        (∀ᶠ k in l, ∀ j ≥ m, (p.map (Stmt.map (enc k)) (Cond.map (enc k))).run
          (ddMachine (α k) V c n) j (ρ k) = some (.ok (), ρ' k)) ∧
        (∀ᶠ k in l, ∀ j ≥ m, p.run (ddMachine ℝ V c n) j (ρR k) = some (.ok (), ρR' k)) ∧
        Nearing M l ω c n x ρ' ρR' U := by
  obtain ⟨F', hF, hx⟩ := h.lift hv hfit hu
  obtain ⟨m, hm⟩ := Runs.machines hF
  refine ⟨m, fun {ι l α _ w ω} M hw hcmp enc henc ρ ρR hρ => ?_⟩
  obtain ⟨st', h1, h2⟩ := hm (l := map Sum.inl l ⊔ map Sum.inr l)
    (T := Sum.elim (fun k => Store (α k) V) fun _ => Store ℝ V)
    (sumMachine (fun k => ⟨fun s => (ddMachine (α k) V c n).step (s.map (enc k)),
      fun b => (ddMachine (α k) V c n).test (b.map (enc k))⟩) fun _ => ddMachine ℝ V c n)
    (fun st F => Nearing M l ω c n x (fun k => st (.inl k)) (fun k => st (.inr k)) F)
    (fun s F F' st hF hs => by
      obtain ⟨st', stR', h1, h1R, h2⟩ := hF.step hw hv hfit henc s hs.1.1 hs.1.2
      refine ⟨sumPair st' stR', ?_, hs.2 ▸ h2⟩
      rw [eventually_sup, eventually_map, eventually_map]
      exact ⟨.of_forall h1, .of_forall h1R⟩)
    (fun b F r st hF hb => by
      rw [eventually_sup, eventually_map, eventually_map, ← eventually_and]
      exact hF.cond hw hv hfit henc hcmp b hb.1.1.1 hb.1.1.2 hb.1.2) (st := sumPair ρ ρR) hρ
  rw [eventually_sup, eventually_map, eventually_map] at h1
  have heq : ∀ᶠ y in 𝓝 x, F' y = U y := (hF.real.and hU).mono fun y hy => realRun_det hy.1 hy.2
  obtain ⟨co, coR, J', a1, a1R, a2, a3⟩ := h2
  refine ⟨fun k => st' (.inl k), fun k => st' (.inr k), h1.1.mono fun k k1 j hj => ?_, h1.2,
    co, coR, J', a1, a1R, a2, fun v => (a3 v).congr_fun (heq.mono fun y hy => congrFun hy v)⟩
  rw [Ctl.run_map]
  exact k1 j hj

/-- **C68.** Take a program with branches and loops, in-place operators included, which on real numbers
ends at `x` with all statements inside their domains and no comparison between equal values.  There is a
bound `m` on the rounds of its loops such that in arithmetics whose error tends to zero, started with jets
that tend to those of the functions `u`, the program eventually ends within `m` rounds and all its jets
stay as close as wanted to the exact derivatives of the functions `U` it computes. -/
theorem C68_limit [Finite V] (hv : c.Valid) (hfit : c.tsize = -1 ∨ c.tsize = n)
    (p : Ctl (Stmt ℝ V) (Cond ℝ V)) (u U : (Fin n → ℝ) → V → ℝ) (x : Fin n → ℝ) (σ' : V → ℝ)
    (J : V → Jet ℝ) (hu : ∀ v, IsJet c.order n (fun y => u y v) x (J v))
    (h : PreciseRun c.order n p (u x) σ') (hU : ∀ᶠ y in 𝓝 x, RealRun p (u y) (U y)) :
    ∃ m : Nat, ∀ {ι : Type} {l : Filter ι} {α : ι → Type} [∀ k, CMath (α k)] {w : ι → ℝ}
      (M : ∀ k, LibErr (α k) (w k)) (_ : Tendsto w l (𝓝 0)) (_ : ∀ k, ExactCmp (M k).val)
      (enc : ∀ k, ℝ → α k) (_ : ∀ s, Tendsto (fun k => (M k).val (enc k s)) l (𝓝 s))
      (ρ : ∀ k, Store (α k) V) (K : ∀ k, V → Jet (α k)) (_ : ∀ k v, Shows c n (ρ k v) (K k v))
      (_ : ∀ v, Tendsto (fun k => (M k).val (K k v).f) l (𝓝 (J v).f))
      (_ : ∀ v, ∀ i < n, Tendsto (fun k => (M k).val ((K k v).g i)) l (𝓝 ((J v).g i)))
      (_ : c.order = 2 → ∀ v, ∀ i < n, ∀ j < n,
        Tendsto (fun k => (M k).val ((K k v).h i j)) l (𝓝 ((J v).h i j)))
      {ε : ℝ} (_ : 0 < ε),
      ∀ᶠ k in l, ∃ ρ', (∀ j ≥ m, (p.map (Stmt.map (enc k)) (Cond.map (enc k))).run
          (ddMachine (α k) V c n) j (ρ k) = some (.ok (), ρ')) ∧
        ∀ v, Approx c (M k).val ε (fun y => U y v) x (ρ' v) := by
  obtain ⟨m, hm⟩ := run_conv hv hfit p u U x σ' J hu h hU
  refine ⟨m, fun {ι l α _ w} M hw hcmp enc henc ρ K hS hf hg hh ε hε => ?_⟩
  obtain ⟨ρR, hR⟩ := exists_shows hv.order hfit hu
  obtain ⟨ρ', ρR', h1, -, h2⟩ := hm (ω := fun _ => 1) (fun k => (M k).toFin)
    (.plain hw (hw.isBigO_one ℝ)) (fun k op a b _ _ => hcmp k op a b) enc
    (fun s => .plain (henc s)) ρ (fun _ => ρR) (Nearing.of_shows hv.order hu hS
      (KR := fun _ => J) (fun _ => hR) (fun v => .plain (hf v))
        (fun v i hi => .plain (hg v i hi))
      (fun h2 v i hi j hj => .plain (hh h2 v i hi j hj)))
  exact (h1.and (h2.approx hv.order hfit hε)).mono fun k hk =>
    ⟨ρ' k, hk.1, fun v => (hk.2 v).mono fun _ _ h => h.2⟩

/-- **C68.** For every such program and every tolerance there are a precision and a number of rounds such
that in *every* arithmetic of at least that precision the program, its constants and the jets it starts
with being rounded too, ends within that many rounds with jets that are within the tolerance of the exact
derivatives. -/
theorem C68_precision [Finite V] (hv : c.Valid) (hfit : c.tsize = -1 ∨ c.tsize = n)
    (p : Ctl (Stmt ℝ V) (Cond ℝ V)) (u U : (Fin n → ℝ) → V → ℝ) (x : Fin n → ℝ) (σ' : V → ℝ)
    (J : V → Jet ℝ) (hu : ∀ v, IsJet c.order n (fun y => u y v) x (J v))
    (h : PreciseRun c.order n p (u x) σ') (hU : ∀ᶠ y in 𝓝 x, RealRun p (u y) (U y)) {ε : ℝ}
    (hε : 0 < ε) :
    ∃ w₀ > 0, ∃ m : Nat, ∀ (α : Type) [CMath α] (w : ℝ) (M : LibErr α w) (enc : ℝ → α)
      (ρ : Store α V), w ≤ w₀ → ExactCmp M.val → (∀ s, Close w (M.val (enc s)) s) →
      (∀ v, Seed c n M.val w (J v) (ρ v)) →
      ∃ ρ', (∀ j ≥ m, (p.map (Stmt.map enc) (Cond.map enc)).run (ddMachine α V c n) j ρ =
          some (.ok (), ρ')) ∧
        ∀ v, Approx c M.val ε (fun y => U y v) x (ρ' v) := by
  obtain ⟨m, hm⟩ := C68_limit hv hfit p u U x σ' J hu h hU
  by_contra hcon
  push Not at hcon
  choose α inst w M enc ρ hle hcmp hclose hseed hbad using
    fun k : ℕ => hcon (1 / ((k : ℝ) + 1)) (by positivity) m
  choose K hS hf hg hh using hseed
  have hw : Tendsto w atTop (𝓝 0) :=
    squeeze_zero (fun k => (M k).nonneg) hle tendsto_one_div_add_atTop_nhds_zero_nat
  have lim : ∀ {q : ℕ → ℝ} {r : ℝ}, (∀ k, Close (w k) (q k) r) → Tendsto q atTop (𝓝 r) := fun h =>
    tendsto_close hw h
  obtain ⟨k, ρ', h1, h2⟩ := (hm M hw hcmp enc (fun s => lim fun k => hclose k s) ρ K hS
    (fun v => lim fun k => hf k v) (fun v i hi => lim fun k => hg k v i hi)
    (fun h2 v i hi j hj => lim fun k => hh k v h2 i hi j hj) hε).exists
  obtain ⟨v, hv⟩ := hbad k ρ' h1
  exact hv (h2 v)

theorem flt_exactCmp (rnd : ℝ → ℝ) : ExactCmp (Flt.val (rnd := rnd)) := by
  intro op a b
  cases op <;> exact decide_eq_true_iff

/-- The jets at the start. -/
noncomputable def startJet (start : V → Fin n ⊕ ℝ) (x : Fin n → ℝ) (v : V) : Jet ℝ :=
  match start v with
  | .inl i => varJet i (x i)
  | .inr s => ⟨s, fun _ => 0, fun _ _ => 0⟩

omit [DecidableEq V] in
theorem startJet_isJet (o : Nat) (start : V → Fin n ⊕ ℝ) (x : Fin n → ℝ) (v : V) :
    IsJet o n (fun y => startVal start y v) x (startJet start x v) := by
  unfold startVal startJet
  cases start v with
  | inl i => exact isJet_var o x i
  | inr s => exact isJet_const o s x

omit [DecidableEq V] in
theorem starts_seedBy {α : Type} [CMath α] {B : α → ℝ → Prop} (h0 : B (Arith.lit 0) 0)
    (h1' : B (Arith.lit 1) 1) (hv : c.Valid) (hfit : Fits c n)
    (start : V → Fin n ⊕ ℝ) (x : Fin n → ℝ) (enc : ℝ → α) (henc : ∀ s, B (enc s) s)
    {ρ : Store α V} (h : Starts c (fun i => enc (x i)) enc start ρ) (v : V) :
    SeedBy c n B (startJet start x v) (ρ v) := by
  obtain ⟨vars, h1, h2⟩ := h
  have hvars := variables_obj (c := c) (vals := List.ofFn fun i => enc (x i))
    (by rw [List.length_ofFn]; exact hfit)
  rw [h1] at hvars
  cases hvars
  have h2 := h2 v
  unfold startJet
  cases hs : start v with
  | inl i =>
    rw [hs] at h2
    have hρ : ρ v = obj c n (varC i (enc (x i))) := by
      simp at h2
      exact h2.symm
    rw [hρ]
    refine ⟨_, shows_obj hv.order hfit _, ?_, fun j hj => ?_, fun h2 j hj k hk => ?_⟩
    · simp only [jetOf, varC, varJet, if_true]
      exact henc _
    · simp only [jetOf, varC, varJet, show ¬ 1 + j = 0 by omega, if_false]
      by_cases h : j = i
      · rw [if_pos (by omega), if_pos h]; exact h1'
      · rw [if_neg (by omega), if_neg h]; exact h0
    · have e : (jetOf n (varC i (enc (x i)))).h j k = Arith.lit 0 := by
        unfold jetOf
        have a1 := pos_gt n j k
        have a2 := pos_gt n k j
        have := i.2
        by_cases hjk : j ≤ k
        · simp only [if_pos hjk, varC, show ¬ pos n j k = 0 by omega,
            show ¬ pos n j k = 1 + i.val by omega, if_false]
        · simp only [if_neg hjk, varC, show ¬ pos n k j = 0 by omega,
            show ¬ pos n k j = 1 + i.val by omega, if_false]
      rw [e]
      exact h0
  | inr s =>
    rw [hs] at h2
    have hρ : ρ v = obj c n (constC (enc s)) := by
      simp only [constant_obj hfit] at h2
      exact (Res.ok.inj h2).symm
    rw [hρ]
    refine ⟨_, shows_obj hv.order hfit _, ?_, fun j hj => ?_, fun h2 j hj k hk => ?_⟩
    · simp only [jetOf, constC, if_true]
      exact henc _
    · simp only [jetOf, constC, show ¬ 1 + j = 0 by omega, if_false]
      exact h0
    · have e : (jetOf n (constC (enc s))).h j k = Arith.lit 0 := by
        unfold jetOf
        have a1 := pos_gt n j k
        have a2 := pos_gt n k j
        by_cases hjk : j ≤ k
        · simp only [if_pos hjk, constC, show ¬ pos n j k = 0 by omega, if_false]
        · simp only [if_neg hjk, constC, show ¬ pos n k j = 0 by omega, if_false]
      rw [e]
      exact h0

omit [DecidableEq V] in
theorem starts_seed {α : Type} [CMath α] {w : ℝ} (M : LibErr α w) (hv : c.Valid) (hfit : Fits c n)
    (start : V → Fin n ⊕ ℝ) (x : Fin n → ℝ) (enc : ℝ → α) (henc : ∀ s, Close w (M.val (enc s)) s)
    {ρ : Store α V} (h : Starts c (fun i => enc (x i)) enc start ρ) (v : V) :
    Seed c n M.val w (startJet start x v) (ρ v) := by
  have hlit : ∀ z : Int, |z| ≤ 10 → Close w (M.val (Arith.lit z)) z := fun z hz => by
    rw [M.lit10 z hz]
    simp only [Close, sub_self, abs_zero]
    exact mul_nonneg M.nonneg (abs_nonneg _)
  exact starts_seedBy (by simpa using hlit 0 (by norm_num)) (by simpa using hlit 1 (by norm_num)) hv hfit
    start x enc henc h v

omit [DecidableEq V] in
theorem starts_exists {α : Type} [CMath α] (hfit : Fits c n) (X : Fin n → α) (enc : ℝ → α)
    (start : V → Fin n ⊕ ℝ) : ∃ ρ, Starts c X enc start ρ := by
  have hvars := variables_obj (c := c) (vals := List.ofFn X) (by rw [List.length_ofFn]; exact hfit)
  refine ⟨fun v => match start v with
    | .inl i => obj c n (varC i (X i))
    | .inr s => obj c n (constC (enc s)), _, hvars, fun v => ?_⟩
  cases hs : start v with
  | inl i => simp [hs]
  | inr s => simp only [hs]; exact constant_obj hfit _

/-- **C68.** With enough bits a program with branches and loops on `variables(x)` and constants ends
after at most `m` rounds, whatever the number of bits, and all its jets have any wanted accuracy. -/
theorem C68_bits [Finite V] (hv : c.Valid) (hfit : c.tsize = -1 ∨ c.tsize = n)
    (p : Ctl (Stmt ℝ V) (Cond ℝ V)) (start : V → Fin n ⊕ ℝ) (U : (Fin n → ℝ) → V → ℝ)
    (x : Fin n → ℝ) (σ' : V → ℝ) (h : PreciseRun c.order n p (startVal start x) σ')
    (hU : ∀ᶠ y in 𝓝 x, RealRun p (startVal start y) (U y)) {ε : ℝ} (hε : 0 < ε) :
    ∃ p₀ m : Nat, ∀ b ≥ p₀,
      (∃ ρ, Starts c (fun i => (⟨rndBits b (x i)⟩ : Flt (rndBits b))) (fun s => ⟨rndBits b s⟩) start ρ) ∧
      ∀ ρ, Starts c (fun i => (⟨rndBits b (x i)⟩ : Flt (rndBits b))) (fun s => ⟨rndBits b s⟩) start ρ →
        ∃ ρ', (∀ j ≥ m, (p.map (Stmt.map fun s => (⟨rndBits b s⟩ : Flt (rndBits b)))
            (Cond.map fun s => ⟨rndBits b s⟩)).run (ddMachine _ V c n) j ρ = some (.ok (), ρ')) ∧
          ∀ v, Approx c (fun s => s.val) ε (fun y => U y v) x (ρ' v) := by
  obtain ⟨w₀, hw, m, hm⟩ := C68_precision hv hfit p (startVal start) U x σ' (startJet start x)
    (startJet_isJet c.order start x) h hU hε
  obtain ⟨k, hk⟩ := exists_pow_lt_of_lt_one hw (show (1 / 2 : ℝ) < 1 by norm_num)
  refine ⟨max k 4, m, fun b hb => ⟨starts_exists hfit _ _ _, fun ρ hρ => ?_⟩⟩
  have hb4 : 4 ≤ b := le_trans (le_max_right _ _) hb
  refine hm _ _ (bitsErr b hb4) (fun s => ⟨rndBits b s⟩) ρ ?_ (flt_exactCmp _)
    (fun s => rndBits_close b s) fun v => starts_seed (bitsErr b hb4) hv hfit start x
      (fun s => ⟨rndBits b s⟩) (fun s => rndBits_close b s) hρ v
  have := pow_le_pow_of_le_one (show (0 : ℝ) ≤ 1 / 2 by norm_num) (by norm_num)
    (le_trans (le_max_left k 4) hb)
  rw [one_div_pow] at this
  exact this.trans hk.le

/-! ## Ties -/

/-- Rounding upwards by the full error, except for small integers. -/
noncomputable def rndUp (w x : ℝ) : ℝ :=
  open Classical in if ∃ z : Int, |z| ≤ 10 ∧ x = z then x else x * (1 + w)

theorem rndUp_close {w : ℝ} (hw : 0 ≤ w) (x : ℝ) : Close w (rndUp w x) x := by
  unfold rndUp Close
  split
  · simpa using mul_nonneg hw (abs_nonneg x)
  · rw [show x * (1 + w) - x = w * x by ring, abs_mul, abs_of_nonneg hw]

theorem rndUp_int {w : ℝ} {z : Int} (hz : |z| ≤ 10) : rndUp w z = z := by
  unfold rndUp
  rw [if_pos ⟨z, hz, rfl⟩]

/-- An arithmetic with error `w`. -/
noncomputable def upErr {w : ℝ} (h0 : 0 ≤ w) (h1 : w < 1) : LibErr (Flt (rndUp w)) w :=
  fltErr h0 h1 (rndUp_close h0) fun _ hz => rndUp_int hz

theorem flt_comm (rnd : ℝ → ℝ) : CommLaws (Flt rnd) where
  add_comm x y := by show Flt.mk _ = Flt.mk _; rw [add_comm]
  mul_comm x y := by show Flt.mk _ = Flt.mk _; rw [mul_comm]
  add_neg x y := by show Flt.mk _ = Flt.mk _; rw [sub_eq_add_neg]; rfl

theorem flt_cmp (rnd : ℝ → ℝ) : CmpLaws (Flt rnd) where
  eq _ _ := decide_eq_decide.2 eq_comm
  ne _ _ := decide_eq_decide.2 ne_comm
  lt _ _ := rfl
  le _ _ := rfl

/-- `if (a * 0.5 > a - a * 0.5) r = 0; else r = a;` (names: `a` 0, `r` 1). -/
noncomputable def exTie : Ctl (Stmt ℝ (Fin 2)) (Cond ℝ (Fin 2)) :=
  .ite (.atom (.cmp .gt (.sbin .mulS (.var 0) (1 / 2))
      (.bin .sub (.var 0) (.sbin .mulS (.var 0) (1 / 2)))))
    (.act (.assign 1 (.const 0))) (.act (.assign 1 (.var 0)))

/-- **C68, ties.** A comparison between values that are always equal may go wrong in every precision: the
program above computes `r = a`, whose derivative is 1, but in arithmetics of arbitrarily small error it
gives the gradient 0. -/
theorem C68_violated_tie :
    (∀ y : Fin 1 → ℝ, RealRun exTie (fun _ => y 0) (fun _ => y 0)) ∧
    IsJet 2 1 (fun y => y 0) (fun _ => 1) (varJet 0 1) ∧ (varJet 0 1).g 0 = 1 ∧
    ∀ w : ℝ, 0 < w → w < 1 / 4 → ∃ (rnd : ℝ → ℝ) (M : LibErr (Flt rnd) w)
      (ρ ρ' : Store (Flt rnd) (Fin 2)), ExactCmp M.val ∧
      (∀ s, Close w (M.val ⟨rnd s⟩) s) ∧
      (∀ v, Seed exDyn2 1 M.val w (varJet 0 1) (ρ v)) ∧
      (∀ j, (exTie.map (Stmt.map fun s => (⟨rnd s⟩ : Flt rnd)) (Cond.map fun s => ⟨rnd s⟩)).run
        (ddMachine (Flt rnd) (Fin 2) exDyn2 1) j ρ = some (.ok (), ρ')) ∧
      ∃ s, (ρ' 1).g exDyn2 0 = .ok s ∧ M.val s = 0 := by
  have hf : Fits exDyn2 1 := Or.inl rfl
  refine ⟨fun y => ?_, isJet_var 2 (fun _ => 1) 0, by simp [varJet], fun w h0 h1 => ?_⟩
  · refine .iteF (.atom ?_) (.act ?_)
    · simp only [Cond.Holds, Expr.den, DD.CmpOp.rel, SBin.den, Bin.den]
      constructor
      · intro h; cases h
      · intro h; linarith
    · funext v
      simp [Stmt.den, setVal, Expr.den]
  · let rnd := rndUp w
    let M := upErr h0.le (by linarith : w < 1)
    let ρ : Store (Flt rnd) (Fin 2) := fun _ => obj exDyn2 1 (varC 0 ⟨1⟩)
    have hhalf : rndUp w (1 / 2) = 1 / 2 * (1 + w) := by
      unfold rndUp
      rw [if_neg]
      rintro ⟨z, _, hz⟩
      have : (1 : ℝ) = ((2 * z : Int) : ℝ) := by push_cast; linarith
      have : (1 : Int) = 2 * z := by exact_mod_cast this
      omega
    have hone : rndUp w 1 = 1 := by simpa using rndUp_int (w := w) (z := 1) (by norm_num)
    -- numbers strictly between 0 and 1 are scaled
    have hmid : ∀ t : ℝ, 0 < t → t < 1 → rndUp w t = t * (1 + w) := by
      intro t ht0 ht1
      unfold rndUp
      rw [if_neg]
      rintro ⟨z, _, rfl⟩
      have a : 0 < z := by exact_mod_cast ht0
      have b : z < 1 := by exact_mod_cast ht1
      omega
    have hs : ∀ v, Seed exDyn2 1 M.val w (varJet 0 1) (ρ v) := by
      have := starts_seed (V := Unit) (c := exDyn2) (n := 1) M exDyn2_valid hf (fun _ => .inl 0)
        (fun _ => 1) (fun s => (⟨rnd s⟩ : Flt rnd)) (fun s => rndUp_close h0.le s)
        (ρ := fun _ => obj exDyn2 1 (varC 0 ⟨1⟩))
        ⟨_, variables_obj (by rw [List.length_ofFn]; exact hf), fun v => by simp [rnd, hone]⟩ ()
      exact fun v => this
    have hρ : Holding exDyn2 1 ρ fun _ => (⟨1⟩ : Flt rnd) := fun v =>
      ⟨wf_obj exDyn2_valid.order hf _, f_obj ..⟩
    have ht := cond_value (flt_comm rnd) (flt_cmp rnd) exDyn2_valid hf hρ
      (Cond.map (fun s => (⟨rnd s⟩ : Flt rnd)) (.cmp .gt (.sbin .mulS (.var 0) (1 / 2))
      (.bin .sub (.var 0) (.sbin .mulS (.var 0) (1 / 2)))))
    have hp : (Cond.map (fun s => (⟨rnd s⟩ : Flt rnd)) (.cmp .gt (.sbin .mulS (.var 0) (1 / 2))
      (.bin .sub (.var 0) (.sbin .mulS (.var 0) (1 / 2)))) : Cond (Flt rnd) (Fin 2)).plain
        (fun _ => ⟨1⟩) = true := by
      simp only [Cond.map, Expr.map, Cond.plain, Expr.plain]
      refine decide_eq_true ?_
      show rndUp w (1 - rndUp w (1 * rndUp w (1 / 2))) < rndUp w (1 * rndUp w (1 / 2))
      have e1 : rndUp w (1 * rndUp w (1 / 2)) = 1 / 2 * (1 + w) * (1 + w) := by
        rw [one_mul, hhalf]; exact hmid _ (by positivity) (by linarith)
      rw [e1, hmid _ (by nlinarith) (by nlinarith)]
      have : 0 < (1 + w) * (w * (3 + w)) := by positivity
      nlinarith
    rw [hp] at ht
    refine ⟨rnd, M, ρ, ρ.set 1 (obj exDyn2 1 (constC ⟨rnd 0⟩)), flt_exactCmp _,
      fun s => rndUp_close h0.le s, hs, fun j => ?_, ?_⟩
    · have he : (Expr.map (fun s => (⟨rnd s⟩ : Flt rnd)) (.const 0) : Expr (Flt rnd) (Fin 2)).evalDD
          exDyn2 1 ρ = .ok (obj exDyn2 1 (constC ⟨rnd 0⟩)) := constant_obj hf _
      simp only [exTie, Ctl.map, Test.map, Ctl.run, Test.run, ddMachine, ht, Stmt.map, Stmt.run, he]
      rfl
    · rw [Store.set_eq]
      refine ⟨_, g_obj hf _ (i := 0) (by omega), ?_⟩
      simp only [constC]
      simpa using M.lit10 0 (by norm_num)

/-! ## Examples -/

/-- Newton's iteration for `√2` from 1: two rounds. -/
theorem exNewton_precise : PreciseRun 2 2 exNewton ![2, 1] ![2, 17 / 12] := by
  have hd : ∀ t : ℝ, (Stmt.assign 1 (.sbin .divS (.bin .add (.var 1)
      (.bin .div (.var 0) (.var 1))) 2) : Stmt ℝ (Fin 2)).den ![2, t] = ![2, (t + 2 / t) / 2] := by
    intro t
    funext v
    fin_cases v <;> simp [Stmt.den, setVal, Expr.den, Bin.den, SBin.den]
  have hok : ∀ t : ℝ, t ≠ 0 → (Stmt.assign 1 (.sbin .divS (.bin .add (.var 1)
      (.bin .div (.var 0) (.var 1))) 2) : Stmt ℝ (Fin 2)).Ok 2 2 ![2, t] ∧
      (Stmt.assign 1 (.sbin .divS (.bin .add (.var 1)
      (.bin .div (.var 0) (.var 1))) 2) : Stmt ℝ (Fin 2)).PowPos ![2, t] := by
    intro t ht
    simp [Stmt.Ok, Stmt.PowPos, Expr.PowPos, Expr.Dom, Expr.Regular, Expr.den, Bin.dom, Bin.reg,
      SBin.dom, ht]
  refine .loopT (a' := ![2, 3 / 2]) (.atom ?_) (.act ⟨hok 1 (by norm_num), ?_⟩)
    (.loopT (a' := ![2, 17 / 12]) (.atom ?_) (.act ⟨hok _ (by norm_num), ?_⟩) (.loopF (.atom ?_)))
  · simp [Cond.Sure, Cond.Inside, Cond.Holds, Cond.PowPos, Expr.PowPos, DD.CmpOp.rel, Expr.Dom,
      Expr.Regular, Expr.den, Bin.dom, Bin.reg, Bin.den]
    norm_num
  · rw [hd 1]; norm_num
  · simp [Cond.Sure, Cond.Inside, Cond.Holds, Cond.PowPos, Expr.PowPos, DD.CmpOp.rel, Expr.Dom,
      Expr.Regular, Expr.den, Bin.dom, Bin.reg, Bin.den]
    norm_num [abs_of_pos]
  · rw [hd _]; norm_num
  · simp [Cond.Sure, Cond.Inside, Cond.Holds, Cond.PowPos, Expr.PowPos, DD.CmpOp.rel, Expr.Dom,
      Expr.Regular, Expr.den, Bin.dom, Bin.reg, Bin.den]
    norm_num [abs_of_pos]

/-- `a` and the start value are the two variables. -/
example : ∃ U : (Fin 2 → ℝ) → Fin 2 → ℝ, U ![2, 1] = ![2, 17 / 12] ∧ ∃ p₀ m : Nat, ∀ b ≥ p₀,
    (∃ ρ, Starts exDyn2 (fun i => (⟨rndBits b (![2, 1] i)⟩ : Flt (rndBits b))) (fun s => ⟨rndBits b s⟩)
      (fun v : Fin 2 => .inl v) ρ) ∧
    ∀ ρ, Starts exDyn2 (fun i => (⟨rndBits b (![2, 1] i)⟩ : Flt (rndBits b))) (fun s => ⟨rndBits b s⟩)
      (fun v : Fin 2 => .inl v) ρ →
    ∃ ρ', (∀ j ≥ m, (exNewton.map (Stmt.map fun s => (⟨rndBits b s⟩ : Flt (rndBits b)))
        (Cond.map fun s => ⟨rndBits b s⟩)).run (ddMachine _ (Fin 2) exDyn2 2) j ρ = some (.ok (), ρ')) ∧
      ∀ v, Approx exDyn2 (fun s => s.val) (1 / 10 ^ 6) (fun y => U y v) ![2, 1] (ρ' v) := by
  have hp : PreciseRun exDyn2.order 2 exNewton (startVal (fun v : Fin 2 => .inl v) ![2, 1])
    ![2, 17 / 12] := exNewton_precise
  obtain ⟨U, h1, h2⟩ := hp.lift (c := exDyn2) exDyn2_valid (Or.inl rfl)
    (F := startVal fun v : Fin 2 => .inl v) (fun v => startJet_isJet _ _ _ v)
  exact ⟨U, h2, C68_bits exDyn2_valid (Or.inl rfl) exNewton (fun v => .inl v) U _ _ hp h1.real
    (by norm_num)⟩

/-- In-place operators, a constant and a branch:
`if (a < r) { r *= a; r /= r; } else { r -= 3.0; }` at `a = 1/3`, `r = 2`. -/
example : ∃ U : (Fin 1 → ℝ) → Fin 2 → ℝ, U (fun _ => 1 / 3) 1 = 1 ∧
    ∃ w₀ > 0, ∃ m : Nat, ∀ (α : Type) [CMath α] (w : ℝ) (M : LibErr α w) (enc : ℝ → α)
      (ρ : Store α (Fin 2)), w ≤ w₀ → ExactCmp M.val → (∀ s, Close w (M.val (enc s)) s) →
      (∀ v, Seed exDyn2 1 M.val w (startJet (n := 1) ![.inl 0, .inr 2] (fun _ => 1 / 3) v) (ρ v)) →
      ∃ ρ', (∀ j ≥ m, ((.ite (.atom (.cmp .lt (.var 0) (.var 1)))
          (.seq (.act (.upd .mul 1 (.var 0))) (.act (.upd .div 1 (.var 1))))
          (.act (.updS .sub 1 (.val 3))) : Ctl (Stmt ℝ (Fin 2)) (Cond ℝ (Fin 2))).map (Stmt.map enc)
            (Cond.map enc)).run (ddMachine α (Fin 2) exDyn2 1) j ρ = some (.ok (), ρ')) ∧
        ∀ v, Approx exDyn2 M.val (1 / 1000) (fun y => U y v) (fun _ => 1 / 3) (ρ' v) := by
  have h : PreciseRun exDyn2.order 1 (.ite (.atom (.cmp .lt (.var 0) (.var 1)))
      (.seq (.act (.upd .mul 1 (.var 0))) (.act (.upd .div 1 (.var 1))))
      (.act (.updS .sub 1 (.val 3))) : Ctl (Stmt ℝ (Fin 2)) (Cond ℝ (Fin 2)))
      (startVal (n := 1) ![.inl 0, .inr 2] fun _ => 1 / 3) ![1 / 3, 1] := by
    refine .iteT (.atom ?_) (.seq (a' := ![1 / 3, 2 / 3]) (.act ⟨⟨?_, trivial⟩, ?_⟩)
      (.act ⟨⟨?_, trivial⟩, ?_⟩))
    · simp [Cond.Sure, Cond.Inside, Cond.Holds, Cond.PowPos, Expr.PowPos, DD.CmpOp.rel, Expr.Dom,
        Expr.Regular, Expr.den, startVal]
      norm_num
    · simp [Stmt.Ok, Expr.Dom, Expr.Regular]
    · funext v
      fin_cases v <;> simp [Stmt.den, setVal, Expr.den, AOp.den, startVal]
      norm_num
    · simp [Stmt.Ok, Expr.Dom, Expr.Regular, Expr.den]
    · funext v
      fin_cases v <;> simp [Stmt.den, setVal, Expr.den, AOp.den]
  obtain ⟨U, h1, h2⟩ := h.lift (c := exDyn2) exDyn2_valid (Or.inl rfl)
    (F := startVal (n := 1) ![.inl 0, .inr 2]) (fun v => startJet_isJet _ _ _ v)
  exact ⟨U, by rw [h2]; rfl, C68_precision exDyn2_valid (Or.inl rfl) _ _ U _ _ _
    (startJet_isJet _ _ _) h h1.real (by norm_num)⟩

end HJ
