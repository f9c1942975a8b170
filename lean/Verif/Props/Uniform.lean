import Verif.Props.Finite

/-!
# C70: error bounds that hold on whole regions

C69 bounds the error at one point; here the constant and the precision are the same for all points of a
compact set, and so is the number of rounds of loops.
-/

namespace HJ

open Filter Topology Asymptotics

variable {c : Cfg} {n : Nat}

theorem ErrLe.mono {α : Type} {val : α → ℝ} {δ δ' : ℝ} {F : (Fin n → ℝ) → ℝ} {x : Fin n → ℝ}
    {r : DD α} (h : ErrLe c val δ F x r) (hd : δ ≤ δ') : ErrLe c val δ' F x r :=
  ⟨h.size, h.f.imp fun _ hs => ⟨hs.1, hs.2.trans hd⟩,
    fun i => (h.g i).imp fun _ hs => ⟨hs.1, hs.2.trans hd⟩,
    fun h2 i j => (h.h h2 i j).imp fun _ hs => ⟨hs.1, hs.2.trans hd⟩⟩

/-! ## Expressions -/

/-- **C70.** For every expression inside its domain on a compact set `S` there are a constant `K` and a
precision such that *at every point* of `S` and in *every* arithmetic of at least that precision, inputs
and constants being rounded too, the value, the gradient and the Hessian computed on `variables(x)` differ
by at most `K * u` from the exact ones. -/
theorem C70_rate (hv : c.Valid) (hfit : c.tsize = -1 ∨ c.tsize = n) (e : Expr ℝ (Fin n))
    {S : Set (Fin n → ℝ)} (hS : IsCompact S) (hD : ∀ x ∈ S, e.Dom c.order x)
    (hR : ∀ x ∈ S, e.Regular x) (hP : ∀ x ∈ S, e.PowPos x) :
    ∃ K u₀ : ℝ, 0 < u₀ ∧ ∀ x ∈ S, ∀ (α : Type) [CMath α] (u : ℝ) (M : LibErr α u) (enc : ℝ → α),
      u ≤ u₀ → (∀ s, Close u (M.val (enc s)) s) →
      ∃ r, evalOn c (e.map enc) (fun i => enc (x i)) = .ok r ∧
        ErrLe c M.val (K * u) (fun y => e.den y) x r := by
  obtain ⟨K, u₀, B, hu, h⟩ := C71_rate hv hfit e hS hD hR hP
  refine ⟨K, u₀, hu, fun x hx α _ u M enc hle hclose => ?_⟩
  obtain ⟨r, h1, h2⟩ := h x hx α _ M.toFin enc hle hu.le (Set.subset_univ _)
    fun s => sound_plain.2 (hclose s)
  exact ⟨r, h1, h2.mono fun s t hs => by simpa [Prec.plain, LibErr.toFin] using hs.2⟩

/-- **C70.** With `p` bits, `p` large enough, all errors at all points of `S` are at most `K / 2 ^ p`. -/
theorem C70_bits (hv : c.Valid) (hfit : c.tsize = -1 ∨ c.tsize = n) (e : Expr ℝ (Fin n))
    {S : Set (Fin n → ℝ)} (hS : IsCompact S) (hD : ∀ x ∈ S, e.Dom c.order x)
    (hR : ∀ x ∈ S, e.Regular x) (hP : ∀ x ∈ S, e.PowPos x) :
    ∃ (K : ℝ) (p₀ : Nat), ∀ x ∈ S, ∀ p ≥ p₀, ∃ r : DD (Flt (rndBits p)),
      evalOn c (e.map fun s => ⟨rndBits p s⟩) (fun i => ⟨rndBits p (x i)⟩) = .ok r ∧
        ErrLe c (fun s => s.val) (K / 2 ^ p) (fun y => e.den y) x r := by
  obtain ⟨K, u₀, hu, h⟩ := C70_rate hv hfit e hS hD hR hP
  obtain ⟨m, hm⟩ := exists_pow_lt_of_lt_one hu (show (1 / 2 : ℝ) < 1 by norm_num)
  refine ⟨K, max m 4, fun x hx p hp => ?_⟩
  have hp4 : 4 ≤ p := le_trans (le_max_right _ _) hp
  have := pow_le_pow_of_le_one (show (0 : ℝ) ≤ 1 / 2 by norm_num) (by norm_num)
    (le_trans (le_max_left m 4) hp)
  rw [one_div_pow] at this
  obtain ⟨r, h1, h2⟩ := h x hx _ _ (bitsErr p hp4) (fun s => ⟨rndBits p s⟩) (this.trans hm.le)
    fun s => rndBits_close p s
  exact ⟨r, h1, h2.mono (le_of_eq (by ring))⟩

/-! ## Programs -/

/-- **C70, programs.** Take a program with branches and loops which on real numbers ends at every point of
the compact set `S` with all statements inside their domains and no comparison between equal values; it
may take different paths at different points.  There are a constant `K`, a precision and a number of
rounds such that at every point of `S` and in every arithmetic of at least that precision the program
ends within that many rounds with all jets within `K * w` of the exact derivatives.  It starts with jets
of functions `u` with continuous derivatives, up to rounding. -/
theorem C70_programs {V : Type} [DecidableEq V] [Finite V] (hv : c.Valid)
    (hfit : c.tsize = -1 ∨ c.tsize = n)
    (p : Ctl (Stmt ℝ V) (Cond ℝ V)) (u U : (Fin n → ℝ) → V → ℝ)
    {S : Set (Fin n → ℝ)} (hS : IsCompact S) (J : (Fin n → ℝ) → V → Jet ℝ)
    (hu : ∀ x ∈ S, ∀ v, IsJet c.order n (fun y => u y v) x (J x v))
    (hJf : ∀ v, ContinuousOn (fun x => (J x v).f) S)
    (hJg : ∀ v, ∀ i < n, ContinuousOn (fun x => (J x v).g i) S)
    (hJh : c.order = 2 → ∀ v, ∀ i < n, ∀ j < n, ContinuousOn (fun x => (J x v).h i j) S)
    (h : ∀ x ∈ S, ∃ σ', PreciseRun c.order n p (u x) σ')
    (hU : ∀ x ∈ S, ∀ᶠ y in 𝓝 x, RealRun p (u y) (U y)) :
    ∃ K w₀ : ℝ, 0 < w₀ ∧ ∃ m : Nat, ∀ x ∈ S, ∀ (α : Type) [CMath α] (w : ℝ) (M : LibErr α w)
      (enc : ℝ → α) (ρ : Store α V), w ≤ w₀ → ExactCmp M.val → (∀ s, Close w (M.val (enc s)) s) →
      (∀ v, Seed c n M.val w (J x v) (ρ v)) →
      ∃ ρ', (∀ j ≥ m, (p.map (Stmt.map enc) (Cond.map enc)).run (ddMachine α V c n) j ρ =
          some (.ok (), ρ')) ∧
        ∀ v, ErrLe c M.val (K * w) (fun y => U y v) x (ρ' v) := by
  obtain ⟨K, w₀, B, hw, m, hm⟩ := C71_programs hv hfit p u U hS J hu hJf hJg hJh h hU
  refine ⟨K, w₀, hw, m, fun x hx α _ w M enc ρ hle hcmp hclose hseed => ?_⟩
  obtain ⟨ρ', h1, h2⟩ := hm x hx α _ M.toFin enc ρ hle hw.le (Set.subset_univ _)
    (fun op a b _ _ => hcmp op a b) (fun s => sound_plain.2 (hclose s)) fun v => by
      obtain ⟨K, k1, k2, k3, k4⟩ := hseed v
      exact ⟨K, k1, sound_plain.2 k2, fun i hi => sound_plain.2 (k3 i hi),
        fun h2 i hi j hj => sound_plain.2 (k4 h2 i hi j hj)⟩
  exact ⟨ρ', h1, fun v => (h2 v).mono fun s t hs => by simpa [Prec.plain, LibErr.toFin] using hs.2⟩

/-- **C70, programs.** With `b` bits, `b` large enough, a program with branches and loops on
`variables(x)` and constants ends at every point `x` of `S` after at most `m` rounds with errors of at
most `K / 2 ^ b`. -/
theorem C70_program_bits {V : Type} [DecidableEq V] [Finite V] (hv : c.Valid)
    (hfit : c.tsize = -1 ∨ c.tsize = n)
    (p : Ctl (Stmt ℝ V) (Cond ℝ V)) (start : V → Fin n ⊕ ℝ) (U : (Fin n → ℝ) → V → ℝ)
    {S : Set (Fin n → ℝ)} (hS : IsCompact S)
    (h : ∀ x ∈ S, ∃ σ', PreciseRun c.order n p (startVal start x) σ')
    (hU : ∀ x ∈ S, ∀ᶠ y in 𝓝 x, RealRun p (startVal start y) (U y)) :
    ∃ (K : ℝ) (p₀ m : Nat), ∀ x ∈ S, ∀ b ≥ p₀,
      (∃ ρ, Starts c (fun i => (⟨rndBits b (x i)⟩ : Flt (rndBits b))) (fun s => ⟨rndBits b s⟩) start ρ) ∧
      ∀ ρ, Starts c (fun i => (⟨rndBits b (x i)⟩ : Flt (rndBits b))) (fun s => ⟨rndBits b s⟩) start ρ →
        ∃ ρ', (∀ j ≥ m, (p.map (Stmt.map fun s => (⟨rndBits b s⟩ : Flt (rndBits b)))
            (Cond.map fun s => ⟨rndBits b s⟩)).run (ddMachine _ V c n) j ρ = some (.ok (), ρ')) ∧
          ∀ v, ErrLe c (fun s => s.val) (K / 2 ^ b) (fun y => U y v) x (ρ' v) := by
  obtain ⟨K, w₀, hw, m, hm⟩ := C70_programs hv hfit p (startVal start) U hS (startJet start)
    (fun x _ => startJet_isJet c.order start x) (fun v => (startJet_continuous start v).1.continuousOn)
    (fun v i _ => ((startJet_continuous start v).2.1 i).continuousOn)
    (fun _ v i _ j _ => ((startJet_continuous start v).2.2 i j).continuousOn) h hU
  obtain ⟨k, hk⟩ := exists_pow_lt_of_lt_one hw (show (1 / 2 : ℝ) < 1 by norm_num)
  refine ⟨K, max k 4, m, fun x hx b hb => ⟨starts_exists hfit _ _ _, fun ρ hρ => ?_⟩⟩
  have hb4 : 4 ≤ b := le_trans (le_max_right _ _) hb
  have := pow_le_pow_of_le_one (show (0 : ℝ) ≤ 1 / 2 by norm_num) (by norm_num)
    (le_trans (le_max_left k 4) hb)
  rw [one_div_pow] at this
  obtain ⟨ρ', h1, h2⟩ := hm x hx _ _ (bitsErr b hb4) (fun s => ⟨rndBits b s⟩) ρ (this.trans hk.le)
    (flt_exactCmp _) (fun s => rndBits_close b s) fun v => starts_seed (bitsErr b hb4) hv hfit start x
      (fun s => ⟨rndBits b s⟩) (fun s => rndBits_close b s) hρ v
  exact ⟨ρ', h1, fun v => (h2 v).mono (le_of_eq (by ring))⟩

/-! ## Sparse scalars -/

/-- **C70, sparse.** The same for `SScalar`, for every iteration order of the hash maps: at all points of
`S` the value and the derivative for every name have errors of at most `K * u`. -/
theorem C70_sparse (e : Expr ℝ String) {S : Set (String → ℝ)} (hS : IsCompact S)
    (hD : ∀ x ∈ S, e.Dom 1 x) (hR : ∀ x ∈ S, e.Regular x) (hP : ∀ x ∈ S, e.PowPos x) :
    ∃ K u₀ : ℝ, 0 < u₀ ∧ ∀ x ∈ S, ∀ (α : Type) [CMath α] (u : ℝ) (M : LibErr α u) (enc : ℝ → α)
      (ord : Order α) (vord : String → Order α), ord.Ok → (∀ k, (vord k).Ok) → u ≤ u₀ →
      (∀ s, Close u (M.val (enc s)) s) →
      ∃ r, (e.map enc).evalSS ord (fun k => SS.var (vord k) k (enc (x k))) = .ok r ∧
        (∃ v, r.f = .ok v ∧ |M.val v - e.den x| ≤ K * u) ∧
        ∀ k, |M.val (r.d k) - deriv (fun t => e.den (Function.update x k t)) (x k)| ≤ K * u := by
  obtain ⟨K, u₀, B, hu, h⟩ := C71_sparse e hS hD hR hP
  refine ⟨K, u₀, hu, fun x hx α _ u M enc ord vord ho hvo hle hclose => ?_⟩
  obtain ⟨r, h1, ⟨v, h2, -, h3⟩, h4⟩ := h x hx α _ M.toFin enc ord vord ho hvo hle hu.le
    (Set.subset_univ _) fun s => sound_plain.2 (hclose s)
  exact
    ⟨r, h1, ⟨v, h2, by simpa [Prec.plain, LibErr.toFin] using h3⟩, fun k => by simpa
      [Prec.plain, LibErr.toFin] using (h4 k).2⟩

/-! ### Concrete cases -/

/-- `asin(x) * pow(y, 1/3) - |x| * hypot(x, y)` on `[-3/4, -1/4] × [2, 4]`. -/
example : ∃ (K : ℝ) (p₀ : Nat), ∀ x ∈ Set.Icc ![-3 / 4, 2] ![-1 / 4, (4 : ℝ)], ∀ p ≥ p₀,
    ∃ r : DD (Flt (rndBits p)),
      evalOn exDyn2 (exConv.map fun s => ⟨rndBits p s⟩) (fun i => ⟨rndBits p (x i)⟩) = .ok r ∧
        ErrLe exDyn2 (fun s => s.val) (K / 2 ^ p) (fun y => exConv.den y) x r :=
  C70_bits exDyn2_valid (Or.inl rfl) exConv isCompact_Icc (fun _ hx => (exConv_box hx).1)
    (fun _ hx => (exConv_box hx).2.1) fun _ hx => (exConv_box hx).2.2

/-- One constant for both branches, on `[0, 1] ∪ [3, 4]`. -/
example : ∃ (K : ℝ) (p₀ m : Nat), ∀ x ∈ Set.Icc (fun _ : Fin 1 => (0 : ℝ)) (fun _ => 1) ∪
      Set.Icc (fun _ => 3) (fun _ => 4), ∀ b ≥ p₀,
    (∃ ρ, Starts exDyn2 (fun i => (⟨rndBits b (x i)⟩ : Flt (rndBits b))) (fun s => ⟨rndBits b s⟩)
      (![.inl 0, .inr 0] : Fin 2 → Fin 1 ⊕ ℝ) ρ) ∧
    ∀ ρ, Starts exDyn2 (fun i => (⟨rndBits b (x i)⟩ : Flt (rndBits b))) (fun s => ⟨rndBits b s⟩)
      (![.inl 0, .inr 0] : Fin 2 → Fin 1 ⊕ ℝ) ρ →
    ∃ ρ', (∀ j ≥ m, (exTwo.map (Stmt.map fun s => (⟨rndBits b s⟩ : Flt (rndBits b)))
        (Cond.map fun s => ⟨rndBits b s⟩)).run (ddMachine _ (Fin 2) exDyn2 1) j ρ = some (.ok (), ρ')) ∧
      ∀ v, ErrLe exDyn2 (fun s => s.val) (K / 2 ^ b) (fun y => exTwoFun y v) x (ρ' v) := by
  exact C70_program_bits exDyn2_valid (Or.inl rfl) exTwo ![.inl 0, .inr 0] exTwoFun
    (isCompact_Icc.union isCompact_Icc) (fun _ hx => exTwo_precise (exTwo_away hx))
    fun x _ => .of_forall fun y => exTwo_run y

/-- `exp a / b` for `a` and `b` in `[1, 2]`, for all names at once. -/
example : ∃ K u₀ : ℝ, 0 < u₀ ∧ ∀ x ∈ Set.Icc (fun _ : String => (1 : ℝ)) (fun _ => 2), ∀ (α : Type)
      [CMath α] (u : ℝ) (M : LibErr α u) (enc : ℝ → α)
      (ord : Order α) (vord : String → Order α), ord.Ok → (∀ k, (vord k).Ok) → u ≤ u₀ →
      (∀ s, Close u (M.val (enc s)) s) →
      ∃ r, (exNamed.map enc).evalSS ord (fun k => SS.var (vord k) k (enc (x k))) = .ok r ∧
        (∃ v, r.f = .ok v ∧ |M.val v - exNamed.den x| ≤ K * u) ∧
        ∀ k, |M.val (r.d k) - deriv (fun t => exNamed.den (Function.update x k t)) (x k)| ≤ K * u := by
  exact C70_sparse exNamed isCompact_Icc (fun _ hx => exNamed_box hx)
    (fun _ _ => by simp [exNamed, Expr.Regular, Bin.reg]) fun _ _ => by simp [exNamed, Expr.PowPos]

end HJ
