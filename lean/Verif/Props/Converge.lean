import Verif.Proofs.Converge
import Verif.Proofs.ConvergeSparse
import Verif.Proofs.Error
import Verif.Props.Sparse
import Mathlib.Tactic.NormNum
import Mathlib.Analysis.SpecificLimits.Basic

/-!
# C66: every precision

Scalars are any type whose operators and library functions have a relative error of at most `u`
(`LibErr`).  As `u` tends to zero, everything computed tends to the exact values and derivatives.
-/

namespace HJ

open Filter Topology

variable {c : Cfg} {n : Nat}

theorem evalOn_obj {α : Type} [CMath α] (hc : c.order = 1 ∨ c.order = 2) (hfit : Fits c n)
    (e : Expr α (Fin n)) (X : Fin n → α) :
    evalOn c e X = .ok (obj c n (e.evalC c n fun i : Fin n => varC i (X i))) := by
  have hvars := variables_obj (c := c) (vals := List.ofFn X) (by rw [List.length_ofFn]; exact hfit)
  unfold evalOn
  rw [hvars]
  simp only [Res.ok_bind]
  rw [← evalDD_obj hc hfit (fun i : Fin n => varC i (X i))]
  congr 1
  funext i
  simp [List.getD_eq_getElem?_getD]

theorem Lim.plain {ι : Type} {l : Filter ι} {α : ι → Type} [∀ k, CMath (α k)] {u : ι → ℝ}
    {M : ∀ k, LibErr (α k) (u k)} {a : ∀ k, α k} {r : ℝ}
    (h : Tendsto (fun k => (M k).val (a k)) l (𝓝 r)) :
    Lim (fun k => (M k).toFin) l (fun _ => 1) a (fun _ => r) r :=
  ⟨Nigh.of_tendsto h, .of_forall fun _ => trivial⟩

theorem tendsto_close {u q : ℕ → ℝ} {r : ℝ} (hu : Tendsto u atTop (𝓝 0))
    (h : ∀ k, Close (u k) (q k) r) : Tendsto q atTop (𝓝 r) :=
  (Nigh.close (Fine.plain hu (hu.isBigO_one ℝ)) (Nigh.const r)
    (Eventually.of_forall fun k => by simpa [Prec.plain, Close] using h k)).lim

/-- Evaluation of an expression on `variables(X)`, and in exact arithmetic on `variables(XR)`. -/
theorem evalOn_conv {ι : Type} {l : Filter ι} {α : ι → Type} [∀ k, CMath (α k)] {u : ι → Prec} {ω : ι → ℝ}
    {M : ∀ k, FinErr (α k) (u k)} (hu : Fine u l ω) (hc : c.order = 1 ∨ c.order = 2) (hfit : Fits c n)
    (e : Expr ℝ (Fin n)) (x : Fin n → ℝ) (hD : e.Dom c.order x) (hR : e.Regular x) (hP : e.PowPos x)
    (enc : ∀ k, ℝ → α k) (henc : ∀ s, Lim M l ω (fun k => enc k s) (fun _ => s) s)
    (X : ∀ k, Fin n → α k) (XR : ι → Fin n → ℝ)
    (hX : ∀ i, Lim M l ω (fun k => X k i) (fun k => XR k i) (x i)) :
    ∃ (a : ∀ k, Nat → α k) (aR : ι → Nat → ℝ) (J : Jet ℝ),
      (∀ k, evalOn c (e.map (enc k)) (X k) = .ok (obj c n (a k))) ∧
      (∀ k, evalOn c e (XR k) = .ok (obj c n (aR k))) ∧
      Conv M l ω c n a aR J ∧ IsJet c.order n (fun y => e.den y) x J := by
  have hρ : ∀ i : Fin n, Conv M l ω c n (fun k => varC i (X k i)) (fun k => varC i (XR k i))
      (varJet i (x i)) := by
    intro i
    have l0 : Lim M l ω (fun _ => Arith.lit 0) (fun _ => Arith.lit 0) (0 : ℤ) := Lim.lit (by norm_num)
    have l1 : Lim M l ω (fun _ => Arith.lit 1) (fun _ => Arith.lit 1) (1 : ℤ) := Lim.lit (by norm_num)
    refine ⟨?_, fun j hj => ?_, fun h2 j k hjk hk => ?_, fun j k => rfl⟩
    · simp only [varC, varJet, if_pos]; exact hX i
    · simp only [varC, varJet, show ¬ 1 + j = 0 by omega, if_false]
      by_cases h : j = i
      · subst h
        simpa using l1
      · have h'' : ¬ 1 + j = 1 + i.val := by omega
        simp only [h, h'', if_false]
        simpa using l0
    · have := pos_gt n j k
      have h1 : ¬ pos n j k = 0 := by omega
      have h3 : ¬ pos n j k = 1 + i.val := by omega
      simp only [varC, varJet, h1, h3, if_false]
      simpa using l0
  obtain ⟨J, hJ, -, hj⟩ := eval_conv hu hc enc henc (fun k (i : Fin n) => varC i (X k i))
    (fun k (i : Fin n) => varC i (XR k i)) (fun i => varJet i (x i)) hρ e hD hR hP
  exact ⟨_, _, J, fun k => evalOn_obj hc hfit _ _, fun k => evalOn_obj hc hfit _ _, hJ,
    hj (fun (i : Fin n) y => y i) x fun i : Fin n => isJet_var c.order x i⟩

/-- **C66.** Take arithmetics whose error tends to zero, with inputs and constants that tend to
real ones.  If the expression is inside its domain at the limit, then every component of its jet
eventually stays as close as wanted to the exact derivatives there. -/
theorem C66_limit {ι : Type} {l : Filter ι} {α : ι → Type} [∀ k, CMath (α k)] {u : ι → ℝ}
    (M : ∀ k, LibErr (α k) (u k)) (hu : Tendsto u l (𝓝 0)) (hv : c.Valid)
    (hfit : c.tsize = -1 ∨ c.tsize = n) (e : Expr ℝ (Fin n)) (x : Fin n → ℝ)
    (hD : e.Dom c.order x) (hR : e.Regular x) (hP : e.PowPos x) (enc : ∀ k, ℝ → α k)
    (henc : ∀ s, Tendsto (fun k => (M k).val (enc k s)) l (𝓝 s)) (X : ∀ k, Fin n → α k)
    (hX : ∀ i, Tendsto (fun k => (M k).val (X k i)) l (𝓝 (x i))) {ε : ℝ} (hε : 0 < ε) :
    ∀ᶠ k in l, ∃ r, evalOn c (e.map (enc k)) (X k) = .ok r ∧
      Approx c (M k).val ε (fun y => e.den y) x r := by
  obtain ⟨a, aR, J, h1, -, h2, h3⟩ := evalOn_conv (M := fun k => (M k).toFin) (ω := fun _ => 1)
    (.plain hu (hu.isBigO_one ℝ)) hv.order hfit e x hD hR hP enc (fun s => .plain (henc s)) X (fun _ => x)
    fun i => .plain (hX i)
  exact (h2.approx hv.order hfit h3 hε).mono fun k hk => ⟨_, h1 k, hk.mono fun _ _ h => h.2⟩

/-- **C66.** For every expression inside its domain and every tolerance there is a precision such
that in *every* arithmetic of at least that precision the jet computed on `variables(x)`, inputs and
constants being rounded too, is within the tolerance of the exact derivatives. -/
theorem C66_precision (hv : c.Valid) (hfit : c.tsize = -1 ∨ c.tsize = n) (e : Expr ℝ (Fin n))
    (x : Fin n → ℝ) (hD : e.Dom c.order x) (hR : e.Regular x) (hP : e.PowPos x) {ε : ℝ}
    (hε : 0 < ε) :
    ∃ u₀ > 0, ∀ (α : Type) [CMath α] (u : ℝ) (M : LibErr α u) (enc : ℝ → α), u ≤ u₀ →
      (∀ s, Close u (M.val (enc s)) s) →
      ∃ r, evalOn c (e.map enc) (fun i => enc (x i)) = .ok r ∧
        Approx c M.val ε (fun y => e.den y) x r := by
  by_contra hcon
  push Not at hcon
  choose α inst u M enc hle hclose hbad using fun k : ℕ => hcon (1 / ((k : ℝ) + 1)) (by positivity)
  have hu : Tendsto u atTop (𝓝 0) :=
    squeeze_zero (fun k => (M k).nonneg) hle tendsto_one_div_add_atTop_nhds_zero_nat
  have henc : ∀ s, Tendsto (fun k => (M k).val (enc k s)) atTop (𝓝 s) := fun s =>
    tendsto_close hu fun k => hclose k s
  obtain ⟨k, r, hr, ha⟩ := (C66_limit M hu hv hfit e x hD hR hP enc henc
    (fun k i => enc k (x i)) (fun i => henc (x i)) hε).exists
  exact hbad k r hr ha

/-- **C66.** With enough bits every expression inside its domain is computed, with all its
derivatives, to any accuracy; inputs and constants are rounded to the same number of bits. -/
theorem C66_bits (hv : c.Valid) (hfit : c.tsize = -1 ∨ c.tsize = n) (e : Expr ℝ (Fin n))
    (x : Fin n → ℝ) (hD : e.Dom c.order x) (hR : e.Regular x) (hP : e.PowPos x) {ε : ℝ}
    (hε : 0 < ε) :
    ∃ p₀, ∀ p ≥ p₀, ∃ r : DD (Flt (rndBits p)),
      evalOn c (e.map fun s => ⟨rndBits p s⟩) (fun i => ⟨rndBits p (x i)⟩) = .ok r ∧
        Approx c (fun s => s.val) ε (fun y => e.den y) x r := by
  obtain ⟨u₀, hu, h⟩ := C66_precision hv hfit e x hD hR hP hε
  obtain ⟨m, hm⟩ := exists_pow_lt_of_lt_one hu (show (1 / 2 : ℝ) < 1 by norm_num)
  refine ⟨max m 4, fun p hp => ?_⟩
  have hp4 : 4 ≤ p := le_trans (le_max_right _ _) hp
  refine h _ _ (bitsErr p hp4) (fun s => ⟨rndBits p s⟩) ?_ fun s => rndBits_close p s
  have := pow_le_pow_of_le_one (show (0 : ℝ) ≤ 1 / 2 by norm_num) (by norm_num)
    (le_trans (le_max_left m 4) hp)
  rw [one_div_pow] at this
  exact this.trans hm.le

theorem mentions_finite {α V : Type} (e : Expr α V) : {v | e.Mentions v}.Finite := by
  induction e with
  | var v => exact (Set.finite_singleton v).subset fun w hw => (by simpa [Expr.Mentions, eq_comm] using hw)
  | const s => exact Set.finite_empty.subset fun w hw => hw
  | neg e ih => exact ih
  | abs e ih => exact ih
  | fn φ e ih => exact ih
  | sbin o e s ih => exact ih
  | bin o e₁ e₂ ih₁ ih₂ => exact (ih₁.union ih₂).subset fun w hw => hw
  | hypot3 e₁ e₂ e₃ ih₁ ih₂ ih₃ =>
    exact (ih₁.union (ih₂.union ih₃)).subset fun w hw => hw

theorem mentions_map {α β V : Type} (f : α → β) (e : Expr α V) (v : V) :
    (e.map f).Mentions v ↔ e.Mentions v := by
  induction e <;> simp_all [Expr.map, Expr.Mentions]

theorem den_congr {V : Type} {e : Expr ℝ V} {x y : V → ℝ} (h : ∀ v, e.Mentions v → x v = y v) :
    e.den x = e.den y := by
  induction e with
  | var v => exact h v rfl
  | const s => rfl
  | neg e ih => simp only [Expr.den]; rw [ih h]
  | abs e ih => simp only [Expr.den]; rw [ih h]
  | fn φ e ih => simp only [Expr.den]; rw [ih h]
  | sbin o e s ih => simp only [Expr.den]; rw [ih h]
  | bin o e₁ e₂ ih₁ ih₂ =>
    simp only [Expr.den]
    rw [ih₁ fun v hv => h v (Or.inl hv), ih₂ fun v hv => h v (Or.inr hv)]
  | hypot3 e₁ e₂ e₃ ih₁ ih₂ ih₃ =>
    simp only [Expr.den]
    rw [ih₁ fun v hv => h v (Or.inl hv), ih₂ fun v hv => h v (Or.inr (Or.inl hv)),
      ih₃ fun v hv => h v (Or.inr (Or.inr hv))]

/-- What `variable(v, X v)` stands for. -/
def sVars {α : Type} [Arith α] (X : String → α) (v : String) : SVal α :=
  (X v, fun j => if j = v then some (Arith.lit 1) else none)

/-- Evaluation with sparse scalars: value and entry of every name. -/
theorem sparse_conv {ι : Type} {l : Filter ι} {α : ι → Type} [∀ k, CMath (α k)] {u : ι → Prec} {ω : ι → ℝ}
    {M : ∀ k, FinErr (α k) (u k)} (hu : Fine u l ω) (e : Expr ℝ String) (x : String → ℝ)
    (hD : e.Dom 1 x) (hR : e.Regular x) (hP : e.PowPos x) (enc : ∀ k, ℝ → α k)
    (henc : ∀ s, Lim M l ω (fun k => enc k s) (fun _ => s) s) (X : ∀ k, String → α k)
    (XR : ι → String → ℝ) (hX : ∀ v, Lim M l ω (fun k => X k v) (fun k => XR k v) (x v)) (nm : String) :
    Lim M l ω (fun k => ((e.map (enc k)).evalV (sVars (X k))).1) (fun k => (e.evalV (sVars (XR k))).1)
        (e.den x) ∧
      Lim M l ω (fun k => (((e.map (enc k)).evalV (sVars (X k))).2 nm).getD (Arith.lit 0))
        (fun k => ((e.evalV (sVars (XR k))).2 nm).getD (Arith.lit 0))
        (deriv (fun t => e.den (Function.update x nm t)) (x nm)) := by
  have hup : ∀ v, Function.update x nm (x nm) v = x v := fun v => by rw [Function.update_eq_self]
  obtain ⟨J, h1, h2, h3⟩ := evalV_conv (nm := nm) hu enc henc (fun k => sVars (X k))
    (fun k => sVars (XR k))
    (fun v => ⟨x v, fun _ => if nm = v then 1 else 0, fun _ _ => 0⟩)
    (fun v => ⟨hX v, by
      by_cases h : nm = v
      · simp only [sVars, h, if_true, Option.getD_some]
        exact (Lim.lit (z := 1) (by norm_num)).of_eq (by simp)
      · simp only [sVars, h, if_false, Option.getD_none]
        exact (Lim.lit (z := 0) (by norm_num)).of_eq (by simp)⟩) e hD hR hP
  refine ⟨h1.f.of_eq h2, h1.g.of_eq ?_⟩
  have hj := h3 (fun v y => Function.update x nm (y 0) v) (fun _ => x nm) fun v => by
    by_cases h : nm = v
    · subst h
      have := isJet_line (hasDerivAt_id (x nm))
      simpa using this
    · have := isJet_line (hasDerivAt_const (x nm) (x v))
      simpa [h, Function.update_of_ne (Ne.symm h)] using this
  exact (hasDeriv_line (F := fun t => e.den (Function.update x nm t)) hj).deriv.symm

theorem sparse_unmentioned {α : Type} [CMath α] {e : Expr ℝ String} {nm : String} (hm : ¬ e.Mentions nm)
    (enc : ℝ → α) (X : String → α) : ((e.map enc).evalV (sVars X)).2 nm = none := by
  rw [evalV_none]
  intro v hv
  have : nm ≠ v := fun h => hm (h ▸ (mentions_map _ e v).1 hv)
  simp [sVars, this]

theorem deriv_unmentioned {e : Expr ℝ String} {nm : String} (hm : ¬ e.Mentions nm) (x : String → ℝ) :
    (fun t => e.den (Function.update x nm t)) = fun _ => e.den x := by
  funext t
  exact den_congr fun v hv => Function.update_of_ne (fun h : v = nm => hm (h ▸ hv)) _ _

/-- **C66, sparse.** The same for `SScalar`: for every expression over named variables inside its
domain and every tolerance there is a precision such that in every arithmetic of at least that
precision, and for every iteration order of the hash maps, the value and the derivative for every
name are within the tolerance of the exact ones. -/
theorem C66_sparse (e : Expr ℝ String) (x : String → ℝ) (hD : e.Dom 1 x) (hR : e.Regular x)
    (hP : e.PowPos x) {ε : ℝ} (hε : 0 < ε) :
    ∃ u₀ > 0, ∀ (α : Type) [CMath α] (u : ℝ) (M : LibErr α u) (enc : ℝ → α) (ord : Order α)
      (vord : String → Order α), ord.Ok → (∀ k, (vord k).Ok) → u ≤ u₀ →
      (∀ s, Close u (M.val (enc s)) s) →
      ∃ r, (e.map enc).evalSS ord (fun k => SS.var (vord k) k (enc (x k))) = .ok r ∧
        (∃ v, r.f = .ok v ∧ |M.val v - e.den x| < ε) ∧
        ∀ k, |M.val (r.d k) - deriv (fun t => e.den (Function.update x k t)) (x k)| < ε := by
  by_contra hcon
  push Not at hcon
  choose α inst u M enc ord vord ho hvo hle hclose hbad using
    fun k : ℕ => hcon (1 / ((k : ℝ) + 1)) (by positivity)
  have hu : Tendsto u atTop (𝓝 0) :=
    squeeze_zero (fun k => (M k).nonneg) hle tendsto_one_div_add_atTop_nhds_zero_nat
  have hu' : Fine (fun k => .plain (u k)) atTop fun _ => 1 := .plain hu (hu.isBigO_one ℝ)
  have henc : ∀ s, Lim (fun k => (M k).toFin) atTop (fun _ => 1) (fun k => enc k s) (fun _ => s) s :=
    fun s => .plain (tendsto_close hu fun k => hclose k s)
  let ρ : ∀ k, String → SVal (α k) := fun k => sVars fun v => enc k (x v)
  have near : ∀ {a : ∀ k, α k} {aR : ℕ → ℝ} {r : ℝ},
      Lim (fun k => (M k).toFin) atTop (fun _ => 1) a aR r →
      ∀ᶠ k in atTop, |(M k).val (a k) - r| < ε := by
    intro a aR r h
    have := (Metric.tendsto_nhds.mp h.lim) ε hε
    simpa [Real.dist_eq, LibErr.toFin] using this
  have main := sparse_conv hu' e x hD hR hP enc henc (fun k v => enc k (x v)) (fun _ => x)
    fun v => henc (x v)
  have hall : ∀ᶠ k in atTop, ∀ nm ∈ {v | e.Mentions v},
      |(M k).val ((((e.map (enc k)).evalV (ρ k)).2 nm).getD (Arith.lit 0)) -
        deriv (fun t => e.den (Function.update x nm t)) (x nm)| < ε :=
    (mentions_finite e).eventually_all.2 fun nm _ => near (main nm).2
  obtain ⟨k, k1, k2⟩ := ((near (main "").1).and hall).exists
  obtain ⟨r, h1, h2⟩ := evalSS_spec (ho k) (fun v => SS.var (vord k v) v (enc k (x v))) (ρ k)
    (fun v => SS.is_var (hvo k v) v (enc k (x v))) (e.map (enc k))
  obtain ⟨nm, hnm⟩ := hbad k r h1 ⟨_, SS.f_ok h2, k1⟩
  refine absurd ?_ (not_lt.2 hnm)
  rw [SS.d_eq h2]
  by_cases hm : e.Mentions nm
  · exact k2 nm hm
  · rw [sparse_unmentioned hm (enc k), deriv_unmentioned hm x]
    simpa [(M k).lit10 0 (by norm_num)] using hε

/-! ### Concrete cases -/

section samples

/-- `asin(x) * pow(y, 1/3) - |x| * hypot(x, y)` -/
noncomputable def exConv : Expr ℝ (Fin 2) :=
  .bin .sub (.bin .mul (.fn .asin (.var 0)) (.fn (.pow (1 / 3)) (.var 1)))
    (.bin .mul (.abs (.var 0)) (.bin .hypot (.var 0) (.var 1)))

theorem exConv_dom (o : Nat) : exConv.Dom o ![-1 / 2, 3] := by
  simp only [exConv, Expr.Dom, Expr.den, Fn.dom, Bin.dom, powDom]
  norm_num

theorem exConv_reg : exConv.Regular ![-1 / 2, 3] := by
  simp only [exConv, Expr.Regular, Expr.den, Bin.reg]
  norm_num

theorem exConv_pow : exConv.PowPos ![-1 / 2, 3] := by
  simp [exConv, Expr.PowPos, Expr.den]

/-- Value, gradient and Hessian at `(-1/2, 3)` to one millionth, in every arithmetic of enough
precision. -/
example : ∃ u₀ > 0, ∀ (α : Type) [CMath α] (u : ℝ) (M : LibErr α u) (enc : ℝ → α), u ≤ u₀ →
    (∀ s, Close u (M.val (enc s)) s) →
    ∃ r, evalOn exDyn2 (exConv.map enc) (fun i => enc (![-1 / 2, 3] i)) = .ok r ∧
      Approx exDyn2 M.val (1 / 10 ^ 6) (fun y => exConv.den y) ![-1 / 2, 3] r :=
  C66_precision exDyn2_valid (Or.inl rfl) exConv _ (exConv_dom _) exConv_reg exConv_pow (by norm_num)

example : ∃ p₀, ∀ p ≥ p₀, ∃ r : DD (Flt (rndBits p)),
    evalOn exSta2 (exConv.map fun s => ⟨rndBits p s⟩) (fun i => ⟨rndBits p (![-1 / 2, 3] i)⟩) = .ok r ∧
      Approx exSta2 (fun s => s.val) (1 / 10 ^ 6) (fun y => exConv.den y) ![-1 / 2, 3] r :=
  C66_bits exSta2_valid (Or.inr rfl) exConv _ (exConv_dom _) exConv_reg exConv_pow (by norm_num)

/-- Without rounding (`u = 0`) the limit is that of the inputs: derivatives at `1 + 1/k` tend to the
derivatives at 1. -/
example {ε : ℝ} (hε : 0 < ε) : ∀ᶠ k : ℕ in atTop, ∃ r : DD (Flt id),
    evalOn exDyn2 ((Expr.fn .tanh (.var 0) : Expr ℝ (Fin 1)).map fun s => (⟨s⟩ : Flt id))
      (fun _ => ⟨1 + 1 / ((k : ℝ) + 1)⟩) = .ok r ∧
    Approx exDyn2 (fun s => s.val) ε
      (fun y => (Expr.fn .tanh (.var 0) : Expr ℝ (Fin 1)).den y) (fun _ => 1) r := by
  have h := C66_limit (l := atTop) (α := fun _ : ℕ => Flt id) (u := fun _ => 0)
    (fun _ => fltErr le_rfl one_pos (fun x => by simp [Close]) (fun z _ => rfl)) tendsto_const_nhds
    exDyn2_valid (Or.inl rfl) (Expr.fn .tanh (.var 0) : Expr ℝ (Fin 1)) (fun _ => 1)
    ⟨trivial, trivial⟩ trivial ⟨trivial, fun b hb => by cases hb⟩ (fun _ s => ⟨s⟩)
    (fun s => tendsto_const_nhds) (fun k _ => ⟨1 + 1 / ((k : ℝ) + 1)⟩)
    (fun _ => by
      have := tendsto_one_div_add_atTop_nhds_zero_nat (𝕜 := ℝ).const_add 1
      simpa [fltErr] using this) hε
  exact h

/-- `exp a / b` at `a = b = 2`. -/
example : ∃ u₀ > 0, ∀ (α : Type) [CMath α] (u : ℝ) (M : LibErr α u) (enc : ℝ → α) (ord : Order α)
      (vord : String → Order α), ord.Ok → (∀ k, (vord k).Ok) → u ≤ u₀ →
      (∀ s, Close u (M.val (enc s)) s) →
      ∃ r, (exNamed.map enc).evalSS ord (fun k => SS.var (vord k) k (enc 2)) = .ok r ∧
        (∃ v, r.f = .ok v ∧ |M.val v - exNamed.den fun _ => 2| < 1 / 1000) ∧
        ∀ k, |M.val (r.d k) - deriv (fun t => exNamed.den (Function.update (fun _ => 2) k t)) 2| <
          1 / 1000 :=
  C66_sparse exNamed (fun _ => 2) exNamed_dom exNamed_reg (by simp [exNamed, Expr.PowPos])
    (by norm_num)

end samples

end HJ
