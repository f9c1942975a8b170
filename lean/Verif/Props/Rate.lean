import Verif.Props.Uniform

/-!
# C69: the error is proportional to the precision

C66 and C68 say that the errors vanish; here they vanish as fast as the precision: `K` times the
relative error `u` of one operation, with a `K` that does not depend on the arithmetic.
-/

namespace HJ

open Filter Topology Asymptotics

variable {c : Cfg} {n : Nat}

/-- **C69.** For every expression inside its domain there are a constant `K` and a precision such that in
*every* arithmetic of at least that precision, inputs and constants being rounded too, the value, the
gradient and the Hessian computed on `variables(x)` differ by at most `K * u` from the exact ones, `u`
being the relative error of one operation. -/
theorem C69_rate (hv : c.Valid) (hfit : c.tsize = -1 ∨ c.tsize = n) (e : Expr ℝ (Fin n))
    (x : Fin n → ℝ) (hD : e.Dom c.order x) (hR : e.Regular x) (hP : e.PowPos x) :
    ∃ K u₀ : ℝ, 0 < u₀ ∧ ∀ (α : Type) [CMath α] (u : ℝ) (M : LibErr α u) (enc : ℝ → α), u ≤ u₀ →
      (∀ s, Close u (M.val (enc s)) s) →
      ∃ r, evalOn c (e.map enc) (fun i => enc (x i)) = .ok r ∧
        ErrLe c M.val (K * u) (fun y => e.den y) x r := by
  obtain ⟨K, u₀, hu, h⟩ := C70_rate hv hfit e (isCompact_singleton (x := x))
    (fun y hy => by rwa [Set.mem_singleton_iff.1 hy]) (fun y hy => by rwa [Set.mem_singleton_iff.1 hy])
    fun y hy => by rwa [Set.mem_singleton_iff.1 hy]
  exact ⟨K, u₀, hu, h x rfl⟩

/-- **C69.** Every further bit halves the error: with `p` bits, `p` large enough, all errors are at most
`K / 2 ^ p`. -/
theorem C69_bits (hv : c.Valid) (hfit : c.tsize = -1 ∨ c.tsize = n) (e : Expr ℝ (Fin n))
    (x : Fin n → ℝ) (hD : e.Dom c.order x) (hR : e.Regular x) (hP : e.PowPos x) :
    ∃ (K : ℝ) (p₀ : Nat), ∀ p ≥ p₀, ∃ r : DD (Flt (rndBits p)),
      evalOn c (e.map fun s => ⟨rndBits p s⟩) (fun i => ⟨rndBits p (x i)⟩) = .ok r ∧
        ErrLe c (fun s => s.val) (K / 2 ^ p) (fun y => e.den y) x r := by
  obtain ⟨K, u₀, hu, h⟩ := C69_rate hv hfit e x hD hR hP
  obtain ⟨m, hm⟩ := exists_pow_lt_of_lt_one hu (show (1 / 2 : ℝ) < 1 by norm_num)
  refine ⟨K, max m 4, fun p hp => ?_⟩
  have hp4 : 4 ≤ p := le_trans (le_max_right _ _) hp
  have := pow_le_pow_of_le_one (show (0 : ℝ) ≤ 1 / 2 by norm_num) (by norm_num)
    (le_trans (le_max_left m 4) hp)
  rw [one_div_pow] at this
  obtain ⟨r, h1, h2⟩ := h _ _ (bitsErr p hp4) (fun s => ⟨rndBits p s⟩) (this.trans hm.le)
    fun s => rndBits_close p s
  exact ⟨r, h1, h2.mono (le_of_eq (by ring))⟩

/-- **C69.** Where a derivative is not zero, its relative error is of the same order: the computed
partial derivative has `u` up to a constant factor as relative error. -/
theorem C69_relative (hv : c.Valid) (hfit : c.tsize = -1 ∨ c.tsize = n) (e : Expr ℝ (Fin n))
    (x : Fin n → ℝ) (hD : e.Dom c.order x) (hR : e.Regular x) (hP : e.PowPos x) (i : Fin n)
    (h0 : partialD (fun y => e.den y) x i ≠ 0) :
    ∃ K u₀ : ℝ, 0 < u₀ ∧ ∀ (α : Type) [CMath α] (u : ℝ) (M : LibErr α u) (enc : ℝ → α), u ≤ u₀ →
      (∀ s, Close u (M.val (enc s)) s) →
      ∃ r s, evalOn c (e.map enc) (fun i => enc (x i)) = .ok r ∧ r.g c i = .ok s ∧
        Close (K * u) (M.val s) (partialD (fun y => e.den y) x i) := by
  obtain ⟨K, u₀, hu, h⟩ := C69_rate hv hfit e x hD hR hP
  refine ⟨K / |partialD (fun y => e.den y) x i|, u₀, hu, fun α _ u M enc hle henc => ?_⟩
  obtain ⟨r, h1, h2⟩ := h α u M enc hle henc
  obtain ⟨s, h3, h4⟩ := h2.g i
  refine ⟨r, s, h1, h3, h4.trans (le_of_eq ?_)⟩
  have := abs_ne_zero.2 h0
  field_simp

/-- **C69, programs.** For every program with branches and loops which on real numbers ends at `x` with
all statements inside their domains and no comparison between equal values there are a constant `K`, a
precision and a number of rounds such that in every arithmetic of at least that precision the program,
its constants and the jets it starts with being rounded too, ends within that many rounds with all jets
within `K * w` of the exact derivatives. -/
theorem C69_programs {V : Type} [DecidableEq V] [Finite V] (hv : c.Valid)
    (hfit : c.tsize = -1 ∨ c.tsize = n)
    (p : Ctl (Stmt ℝ V) (Cond ℝ V)) (u U : (Fin n → ℝ) → V → ℝ) (x : Fin n → ℝ) (σ' : V → ℝ)
    (J : V → Jet ℝ) (hu : ∀ v, IsJet c.order n (fun y => u y v) x (J v))
    (h : PreciseRun c.order n p (u x) σ') (hU : ∀ᶠ y in 𝓝 x, RealRun p (u y) (U y)) :
    ∃ K w₀ : ℝ, 0 < w₀ ∧ ∃ m : Nat, ∀ (α : Type) [CMath α] (w : ℝ) (M : LibErr α w) (enc : ℝ → α)
      (ρ : Store α V), w ≤ w₀ → ExactCmp M.val → (∀ s, Close w (M.val (enc s)) s) →
      (∀ v, Seed c n M.val w (J v) (ρ v)) →
      ∃ ρ', (∀ j ≥ m, (p.map (Stmt.map enc) (Cond.map enc)).run (ddMachine α V c n) j ρ =
          some (.ok (), ρ')) ∧
        ∀ v, ErrLe c M.val (K * w) (fun y => U y v) x (ρ' v) := by
  obtain ⟨K, w₀, hw, m, hm⟩ := C70_programs hv hfit p u U (isCompact_singleton (x := x)) (fun _ => J)
    (fun y hy => by rwa [Set.mem_singleton_iff.1 hy]) (fun _ => continuousOn_const)
    (fun _ _ _ => continuousOn_const) (fun _ _ _ _ _ _ => continuousOn_const)
    (fun y hy => ⟨σ', by rwa [Set.mem_singleton_iff.1 hy]⟩)
    fun y hy => by rwa [Set.mem_singleton_iff.1 hy]
  exact ⟨K, w₀, hw, m, hm x rfl⟩

/-- **C69, programs.** With `b` bits, `b` large enough, a program with branches and loops on
`variables(x)` and constants ends after at most `m` rounds with errors of at most `K / 2 ^ b`. -/
theorem C69_program_bits {V : Type} [DecidableEq V] [Finite V] (hv : c.Valid)
    (hfit : c.tsize = -1 ∨ c.tsize = n)
    (p : Ctl (Stmt ℝ V) (Cond ℝ V)) (start : V → Fin n ⊕ ℝ) (U : (Fin n → ℝ) → V → ℝ)
    (x : Fin n → ℝ) (σ' : V → ℝ) (h : PreciseRun c.order n p (startVal start x) σ')
    (hU : ∀ᶠ y in 𝓝 x, RealRun p (startVal start y) (U y)) :
    ∃ (K : ℝ) (p₀ m : Nat), ∀ b ≥ p₀,
      (∃ ρ, Starts c (fun i => (⟨rndBits b (x i)⟩ : Flt (rndBits b))) (fun s => ⟨rndBits b s⟩) start ρ) ∧
      ∀ ρ, Starts c (fun i => (⟨rndBits b (x i)⟩ : Flt (rndBits b))) (fun s => ⟨rndBits b s⟩) start ρ →
        ∃ ρ', (∀ j ≥ m, (p.map (Stmt.map fun s => (⟨rndBits b s⟩ : Flt (rndBits b)))
            (Cond.map fun s => ⟨rndBits b s⟩)).run (ddMachine _ V c n) j ρ = some (.ok (), ρ')) ∧
          ∀ v, ErrLe c (fun s => s.val) (K / 2 ^ b) (fun y => U y v) x (ρ' v) := by
  obtain ⟨K, w₀, hw, m, hm⟩ := C69_programs hv hfit p (startVal start) U x σ' (startJet start x)
    (startJet_isJet c.order start x) h hU
  obtain ⟨k, hk⟩ := exists_pow_lt_of_lt_one hw (show (1 / 2 : ℝ) < 1 by norm_num)
  refine ⟨K, max k 4, m, fun b hb => ⟨starts_exists hfit _ _ _, fun ρ hρ => ?_⟩⟩
  have hb4 : 4 ≤ b := le_trans (le_max_right _ _) hb
  have := pow_le_pow_of_le_one (show (0 : ℝ) ≤ 1 / 2 by norm_num) (by norm_num)
    (le_trans (le_max_left k 4) hb)
  rw [one_div_pow] at this
  obtain ⟨ρ', h1, h2⟩ := hm _ _ (bitsErr b hb4) (fun s => ⟨rndBits b s⟩) ρ (this.trans hk.le)
    (flt_exactCmp _) (fun s => rndBits_close b s) fun v => starts_seed (bitsErr b hb4) hv hfit start x
      (fun s => ⟨rndBits b s⟩) (fun s => rndBits_close b s) hρ v
  exact ⟨ρ', h1, fun v => (h2 v).mono (le_of_eq (by ring))⟩

/-- **C69, sparse.** The same for `SScalar`, for every iteration order of the hash maps: value and the
derivative for every name have errors of at most `K * u`. -/
theorem C69_sparse (e : Expr ℝ String) (x : String → ℝ) (hD : e.Dom 1 x) (hR : e.Regular x)
    (hP : e.PowPos x) :
    ∃ K u₀ : ℝ, 0 < u₀ ∧ ∀ (α : Type) [CMath α] (u : ℝ) (M : LibErr α u) (enc : ℝ → α) (ord : Order α)
      (vord : String → Order α), ord.Ok → (∀ k, (vord k).Ok) → u ≤ u₀ →
      (∀ s, Close u (M.val (enc s)) s) →
      ∃ r, (e.map enc).evalSS ord (fun k => SS.var (vord k) k (enc (x k))) = .ok r ∧
        (∃ v, r.f = .ok v ∧ |M.val v - e.den x| ≤ K * u) ∧
        ∀ k, |M.val (r.d k) - deriv (fun t => e.den (Function.update x k t)) (x k)| ≤ K * u := by
  obtain ⟨K, u₀, hu, h⟩ := C70_sparse e (isCompact_singleton (x := x))
    (fun y hy => by rwa [Set.mem_singleton_iff.1 hy]) (fun y hy => by rwa [Set.mem_singleton_iff.1 hy])
    fun y hy => by rwa [Set.mem_singleton_iff.1 hy]
  exact ⟨K, u₀, hu, h x rfl⟩

/-! ## The order of the error and the compact set cannot be dispensed with -/

theorem rndUp_big {w t : ℝ} (ht : 10 < t) : rndUp w t = t * (1 + w) := by
  unfold rndUp
  rw [if_neg]
  rintro ⟨z, hz, rfl⟩
  have h1 : z ≤ 10 := (le_abs_self z).trans hz
  have h2 : (z : ℝ) ≤ 10 := by exact_mod_cast h1
  linarith

/-- The value of `x * x` when everything is rounded upwards. -/
theorem exSq_up {w t : ℝ} (h0 : 0 < w) (h1 : w < 1) (ht : 10 < t) {r : DD (Flt (rndUp w))}
    (h : evalOn exDyn2 (exSq.map fun s => (⟨rndUp w s⟩ : Flt (rndUp w))) (fun _ : Fin 1 => ⟨rndUp w t⟩) = .ok r)
    {K : ℝ} (hr : ErrLe exDyn2 (upErr h0.le h1).val (K * w) (fun y => exSq.den y) (fun _ => t) r) :
    t ^ 2 ≤ K := by
  rw [evalOn_obj exDyn2_valid.order (Or.inl rfl)] at h
  cases h
  obtain ⟨s, h2, h3⟩ := hr.f
  rw [f_obj] at h2
  cases h2
  have hval : (upErr h0.le h1).val ((exSq.map fun s => (⟨rndUp w s⟩ : Flt (rndUp w))).evalC exDyn2 1
      (fun i : Fin 1 => varC i ⟨rndUp w t⟩) 0) = t ^ 2 * (1 + w) ^ 3 := by
    show rndUp w (rndUp w t * rndUp w t) = _
    rw [rndUp_big ht, rndUp_big (by nlinarith [mul_pos (sub_pos.2 ht) h0])]
    ring
  rw [hval] at h3
  have h4 := (le_abs_self _).trans h3
  have h5 : exSq.den (fun _ : Fin 1 => t) = t ^ 2 := by simp [exSq, Expr.den, Bin.den]; ring
  rw [h5] at h4
  have h6 : t ^ 2 * w ≤ K * w := by
    have : 0 ≤ t ^ 2 * (2 * w + 3 * w ^ 2 + w ^ 3) := by positivity
    nlinarith
  exact le_of_mul_le_mul_right h6 h0

/-- **C69, sharp.** The error need not be smaller than proportional to the precision: `x * x` at 11 has in
arithmetics of arbitrarily small error `w` an error of more than `w`. -/
theorem C69_sharp (w : ℝ) (h0 : 0 < w) (h1 : w < 1) :
    ∃ (rnd : ℝ → ℝ) (M : LibErr (Flt rnd) w), (∀ s, Close w (M.val ⟨rnd s⟩) s) ∧
      ∀ r, evalOn exDyn2 (exSq.map fun s => (⟨rnd s⟩ : Flt rnd)) (fun _ : Fin 1 => ⟨rnd 11⟩) = .ok r →
        ¬ ErrLe exDyn2 M.val w (fun y => exSq.den y) (fun _ => 11) r := by
  refine ⟨rndUp w, upErr h0.le h1, fun s => rndUp_close h0.le s, fun r hr he => ?_⟩
  have := exSq_up (K := 1) h0 h1 (by norm_num) hr (he.mono (by linarith))
  norm_num at this

/-- **C70, unbounded sets.** On a set that is not compact there need not be a common constant: `x * x` is
inside its domain on the whole line, but no constant serves all points. -/
theorem C70_violated_unbounded (K u₀ : ℝ) (hu : 0 < u₀) :
    (∀ x, exSq.Dom 2 x ∧ exSq.Regular x ∧ exSq.PowPos x) ∧
    ∃ (x : Fin 1 → ℝ) (w : ℝ) (rnd : ℝ → ℝ) (M : LibErr (Flt rnd) w), w ≤ u₀ ∧
      (∀ s, Close w (M.val ⟨rnd s⟩) s) ∧
      ∀ r, evalOn exDyn2 (exSq.map fun s => (⟨rnd s⟩ : Flt rnd)) (fun i => ⟨rnd (x i)⟩) = .ok r →
        ¬ ErrLe exDyn2 M.val (K * w) (fun y => exSq.den y) x r := by
  refine ⟨fun x => by simp [exSq, Expr.Dom, Expr.Regular, Expr.PowPos, Bin.dom, Bin.reg],
    fun _ => 11 + |K|, min u₀ (1 / 2), _, upErr (le_min hu.le (by norm_num))
      (lt_of_le_of_lt (min_le_right _ _) (by norm_num)), min_le_left _ _,
    fun s => rndUp_close (le_min hu.le (by norm_num)) s, fun r hr he => ?_⟩
  have h0 : 0 < min u₀ (1 / 2) := lt_min hu (by norm_num)
  have hK := abs_nonneg K
  have := exSq_up h0 (lt_of_le_of_lt (min_le_right _ _) (by norm_num)) (by linarith) hr he
  nlinarith [le_abs_self K]

/-! ### Concrete cases -/

/-- `asin(x) * pow(y, 1/3) - |x| * hypot(x, y)` at `(-1/2, 3)`. -/
example : ∃ K u₀ : ℝ, 0 < u₀ ∧ ∀ (α : Type) [CMath α] (u : ℝ) (M : LibErr α u) (enc : ℝ → α), u ≤ u₀ →
    (∀ s, Close u (M.val (enc s)) s) →
    ∃ r, evalOn exDyn2 (exConv.map enc) (fun i => enc (![-1 / 2, 3] i)) = .ok r ∧
      ErrLe exDyn2 M.val (K * u) (fun y => exConv.den y) ![-1 / 2, 3] r :=
  C69_rate exDyn2_valid (Or.inl rfl) exConv _ (exConv_dom _) exConv_reg exConv_pow

example : ∃ (K : ℝ) (p₀ : Nat), ∀ p ≥ p₀, ∃ r : DD (Flt (rndBits p)),
    evalOn exSta2 (exConv.map fun s => ⟨rndBits p s⟩) (fun i => ⟨rndBits p (![-1 / 2, 3] i)⟩) = .ok r ∧
      ErrLe exSta2 (fun s => s.val) (K / 2 ^ p) (fun y => exConv.den y) ![-1 / 2, 3] r :=
  C69_bits exSta2_valid (Or.inr rfl) exConv _ (exConv_dom _) exConv_reg exConv_pow

/-- The derivative of `tanh` at 1 is not zero. -/
example : ∃ K u₀ : ℝ, 0 < u₀ ∧ ∀ (α : Type) [CMath α] (u : ℝ) (M : LibErr α u) (enc : ℝ → α), u ≤ u₀ →
    (∀ s, Close u (M.val (enc s)) s) →
    ∃ r s, evalOn exDyn2 ((Expr.fn .tanh (.var 0) : Expr ℝ (Fin 1)).map enc) (fun _ => enc 1) = .ok r ∧
      r.g exDyn2 (0 : Fin 1) = .ok s ∧
      Close (K * u) (M.val s)
        (partialD (fun y => (Expr.fn .tanh (.var 0) : Expr ℝ (Fin 1)).den y) (fun _ => 1) 0) := by
  refine C69_relative exDyn2_valid (Or.inl rfl) (Expr.fn .tanh (.var 0) : Expr ℝ (Fin 1)) (fun _ => 1)
    ⟨trivial, trivial⟩ trivial ⟨trivial, fun b hb => by cases hb⟩ 0 ?_
  have h0 : HasFDerivAt (fun y : Fin 1 → ℝ => y 0)
      (ContinuousLinearMap.proj 0 : (Fin 1 → ℝ) →L[ℝ] ℝ) (fun _ => 1) := hasFDerivAt_apply 0 _
  have h : HasFDerivAt (fun y : Fin 1 → ℝ => Real.tanh (y 0)) _ (fun _ => 1) :=
    HasDerivAt.comp_hasFDerivAt (h₂ := Real.tanh) (f := fun y : Fin 1 → ℝ => y 0) _ (hasDerivAt_tanh' 1)
      h0
  show fderiv ℝ (fun y : Fin 1 → ℝ => Real.tanh (y 0)) (fun _ => 1) (Pi.single 0 1) ≠ 0
  rw [h.fderiv]
  have : Real.tanh 1 ^ 2 < 1 := by
    rw [Real.tanh_eq_sinh_div_cosh, div_pow, div_lt_one (by have := Real.cosh_pos 1; positivity),
      Real.cosh_sq]
    linarith
  simp
  linarith

/-- Newton's iteration for `√2` from 1: two rounds. -/
example : ∃ U : (Fin 2 → ℝ) → Fin 2 → ℝ, U ![2, 1] = ![2, 17 / 12] ∧
    ∃ (K : ℝ) (p₀ m : Nat), ∀ b ≥ p₀,
    (∃ ρ, Starts exDyn2 (fun i => (⟨rndBits b (![2, 1] i)⟩ : Flt (rndBits b))) (fun s => ⟨rndBits b s⟩)
      (fun v : Fin 2 => .inl v) ρ) ∧
    ∀ ρ, Starts exDyn2 (fun i => (⟨rndBits b (![2, 1] i)⟩ : Flt (rndBits b))) (fun s => ⟨rndBits b s⟩)
      (fun v : Fin 2 => .inl v) ρ →
    ∃ ρ', (∀ j ≥ m, (exNewton.map (Stmt.map fun s => (⟨rndBits b s⟩ : Flt (rndBits b)))
        (Cond.map fun s => ⟨rndBits b s⟩)).run (ddMachine _ (Fin 2) exDyn2 2) j ρ = some (.ok (), ρ')) ∧
      ∀ v, ErrLe exDyn2 (fun s => s.val) (K / 2 ^ b) (fun y => U y v) ![2, 1] (ρ' v) := by
  have hp : PreciseRun exDyn2.order 2 exNewton (startVal (fun v : Fin 2 => .inl v) ![2, 1])
    ![2, 17 / 12] := exNewton_precise
  obtain ⟨U, h1, h2⟩ := hp.lift (c := exDyn2) exDyn2_valid (Or.inl rfl)
    (F := startVal fun v : Fin 2 => .inl v) (fun v => startJet_isJet _ _ _ v)
  exact ⟨U, h2, C69_program_bits exDyn2_valid (Or.inl rfl) exNewton (fun v => .inl v) U _ _ hp h1.real⟩

/-- `exp a / b` at `a = b = 2`. -/
example : ∃ K u₀ : ℝ, 0 < u₀ ∧ ∀ (α : Type) [CMath α] (u : ℝ) (M : LibErr α u) (enc : ℝ → α)
      (ord : Order α) (vord : String → Order α), ord.Ok → (∀ k, (vord k).Ok) → u ≤ u₀ →
      (∀ s, Close u (M.val (enc s)) s) →
      ∃ r, (exNamed.map enc).evalSS ord (fun k => SS.var (vord k) k (enc 2)) = .ok r ∧
        (∃ v, r.f = .ok v ∧ |M.val v - exNamed.den fun _ => 2| ≤ K * u) ∧
        ∀ k, |M.val (r.d k) - deriv (fun t => exNamed.den (Function.update (fun _ => 2) k t)) 2| ≤
          K * u :=
  C69_sparse exNamed (fun _ => 2) exNamed_dom exNamed_reg (by simp [exNamed, Expr.PowPos])

end HJ
