import Verif.Proofs.Watch
import Verif.Props.Error
import Verif.Props.Local
import Verif.Props.Uniform
import Verif.Props.Sparse

/-!
# C72: results without overflow and underflow

C71 needs formats with enough range.  Here the format is given, for example `double`, and the theorems
are about those components of the result that are computed without overflow, underflow, division by zero
and invalid operations: they are, bit for bit, what the same number of significant bits with unlimited
exponents gives, so that the error bounds of C58, C67 and C70 hold for them.
-/

namespace HJ

variable {c : Cfg} {n p emax m : Nat} {V : Type}

theorem AgreesC.jet {a : Nat → IEEE p emax} {b : Nat → Watched p emax} (h : AgreesC a b) (k : Nat) :
    (jetOf n a).Agree k n (jetOf n b) := by
  refine ⟨h 0, fun i _ => h _, fun _ i j _ _ => ?_⟩
  simp only [jetOf]
  split <;> exact h _

/-- The contents of an object that shows a jet; positions that do not exist hold the value. -/
theorem shows_pack {α : Type} (hc : c.order = 1 ∨ c.order = 2) {x : DD α} {J : Jet α}
    (h : Shows c n x J) :
    x = obj c n (packJet n ⟨J.f, J.g, fun i j => if c.order = 2 then J.h i j else J.f⟩) := by
  obtain ⟨hf, -⟩ := h.cells hc
  refine h.ext hc (shows_of_obj hc hf (J := J) (packJet_zero ..) (fun i hi => packJet_succ _ hi)
    (fun h2 i j hij hj => ?_) fun h2 i j hi hj => h.sym h2 hi hj)
      ⟨rfl, fun _ _ => rfl, fun _ _ _ _ _ => rfl⟩
  rw [packJet_pos _ hij hj]
  exact if_pos h2

theorem Jet.Agree.pack {J : Jet (IEEE p emax)} {L : Jet (Watched p emax)} (h : J.Agree c.order n L) :
    AgreesC (packJet n ⟨J.f, J.g, fun i j => if c.order = 2 then J.h i j else J.f⟩)
      (packJet n ⟨L.f, L.g, fun i j => if c.order = 2 then L.h i j else L.f⟩) := by
  intro k
  unfold packJet
  split
  · exact h.1
  · split
    · exact h.2.1 _ (by omega)
    · split
      · rename_i hex
        have := hex.choose_spec
        by_cases h2 : c.order = 2
        · simp only [h2, if_true]
          exact h.2.2 h2 _ _ (by omega) (by omega)
        · simp only [h2, if_false]
          exact h.1
      · exact h.1

/-- **C72, any operands.** An expression is evaluated in a floating-point format, and with as many bits and
unlimited exponents.  If the operands agree then so do the results: every component whose computation
raises no overflow, underflow, division by zero or invalid operation is the same number in both.  Only
`abs` compares scalars; where it occurs, the value has to be quiet. -/
theorem C72_operands (hv : c.Valid) (hfit : c.tsize = -1 ∨ c.tsize = n) (e : Expr ℝ V)
    {ρ : V → DD (IEEE p emax)} {σ : V → DD (Watched p emax)} {J : V → Jet (IEEE p emax)}
    {L : V → Jet (Watched p emax)} (hρ : ∀ v, Shows c n (ρ v) (J v)) (hσ : ∀ v, Shows c n (σ v) (L v))
    (h : ∀ v, (J v).Agree c.order n (L v)) :
    ∃ r R w W, (e.map (IEEE.enc p emax)).evalDD c n ρ = .ok r ∧ Shows c n r R ∧
      (e.map (Watched.enc p emax)).evalDD c n σ = .ok w ∧ Shows c n w W ∧
      (e.NoAbs ∨ W.f.quiet → R.Agree c.order n W) := by
  have e1 : ρ = fun v => obj c n (packJet n ⟨(J v).f, (J v).g, fun i j => if c.order = 2 then
      (J v).h i j else (J v).f⟩) := funext fun v => shows_pack hv.order (hρ v)
  have e2 : σ = fun v => obj c n (packJet n ⟨(L v).f, (L v).g, fun i j => if c.order = 2 then
      (L v).h i j else (L v).f⟩) := funext fun v => shows_pack hv.order (hσ v)
  rw [e1, e2]
  refine ⟨_, _, _, _, evalDD_obj hv.order hfit _ _, shows_obj hv.order hfit _,
    evalDD_obj hv.order hfit _ _, shows_obj hv.order hfit _, fun hq => ?_⟩
  exact (evalC_agrees (fun v => (h v).pack) e hq).jet _

/-- **C72.** The same on variables with given values. -/
theorem C72_quiet (hv : c.Valid) (hfit : c.tsize = -1 ∨ c.tsize = n) (e : Expr ℝ (Fin n))
    (x : Fin n → ℝ) :
    ∃ r R w W, evalOn c (e.map (IEEE.enc p emax)) (fun i => IEEE.enc p emax (x i)) = .ok r ∧
      Shows c n r R ∧
      evalOn c (e.map (Watched.enc p emax)) (fun i => Watched.enc p emax (x i)) = .ok w ∧
      Shows c n w W ∧ (e.NoAbs ∨ W.f.quiet → R.Agree c.order n W) := by
  refine ⟨_, _, _, _, evalOn_obj hv.order hfit _ _, shows_obj hv.order hfit _,
    evalOn_obj hv.order hfit _ _, shows_obj hv.order hfit _, fun hq => ?_⟩
  refine (evalC_agrees (fun v k => ?_) e hq).jet _
  simp only [varC]
  split
  · exact agrees_enc _
  · split <;> exact agrees_lit _

/-- **C72, sparse.** The same for `SScalar`, for all iteration orders of the hash maps: the names with an
entry are the same, and the value and all derivatives agree. -/
theorem C72_sparse (e : Expr ℝ String) (x : String → ℝ) {ord : Order (IEEE p emax)}
    {vord : String → Order (IEEE p emax)} (ho : ord.Ok) (hvo : ∀ k, (vord k).Ok)
    {ord' : Order (Watched p emax)} {vord' : String → Order (Watched p emax)} (ho' : ord'.Ok)
    (hvo' : ∀ k, (vord' k).Ok) :
    ∃ r w y t, (e.map (IEEE.enc p emax)).evalSS ord
      (fun k => SS.var (vord k) k (IEEE.enc p emax (x k))) =
        .ok r ∧ r.f = .ok y ∧
      (e.map (Watched.enc p emax)).evalSS ord' (fun k => SS.var (vord' k) k (Watched.enc p emax (x k))) =
        .ok w ∧ w.f = .ok t ∧
      (e.NoAbs ∨ t.quiet → Agrees y t ∧ ∀ k, Agrees (r.d k) (w.d k)) := by
  obtain ⟨r, h1, h2⟩ := evalSS_spec ho (fun k => SS.var (vord k) k (IEEE.enc p emax (x k)))
    (sVars fun v => IEEE.enc p emax (x v)) (fun v => SS.is_var (hvo v) v _)
    (e.map (IEEE.enc p emax))
  obtain ⟨w, h3, h4⟩ := evalSS_spec ho' (fun k => SS.var (vord' k) k (Watched.enc p emax (x k)))
    (sVars fun v => Watched.enc p emax (x v)) (fun v => SS.is_var (hvo' v) v _)
    (e.map (Watched.enc p emax))
  refine ⟨r, w, _, _, h1, SS.f_ok h2, h3, SS.f_ok h4, fun hq => ?_⟩
  have key := evalV_agrees (ρ := sVars fun v => IEEE.enc p emax (x v))
    (σ := sVars fun v => Watched.enc p emax (x v)) (fun v => ⟨agrees_enc _, fun k => by
      simp only [sVars]
      split
      · exact .some (agrees_lit 1)
      · exact .none⟩) e hq
  refine ⟨key.1, fun k => ?_⟩
  rw [SS.d_eq h2, SS.d_eq h4]
  have := key.2 k
  revert this
  generalize ((e.map (IEEE.enc p emax)).evalV _).2 k = a
  generalize ((e.map (Watched.enc p emax)).evalV _).2 k = b
  intro hab
  cases hab with
  | none => exact agrees_lit 0
  | some h => exact h

/-! ## Error bounds -/

theorem Jet.Agree.within {order : Nat} {R : Jet (IEEE p emax)} {W : Jet (Watched p emax)} {γ : ℝ}
    {P K : Jet ℝ} (h : R.Agree order n W) (hW : Jet.Within order n γ P (W.mapv Watched.val) K) :
    Jet.QuietWithin order n γ P R W K :=
  ⟨fun q => ⟨_, IEEE.ext (h.1 q), hW.1⟩,
    fun i hi q => ⟨_, IEEE.ext (h.2.1 i hi q), hW.2.1 i hi⟩,
    fun h2 i j hi hj q => ⟨_, IEEE.ext (h.2.2 h2 i j hi hj q), hW.2.2 h2 i j hi hj⟩⟩

theorem map_enc_val (e : Expr ℝ V) :
    (e.map (Watched.enc p emax)).map Watched.val = e.map (rndEven p) := by
  induction e with
  | var v => rfl
  | const s => rfl
  | neg e ih => simp only [Expr.map, ih]
  | abs e ih => simp only [Expr.map, ih]
  | fn φ e ih =>
    simp only [Expr.map, ih]
    congr 1
    cases φ <;> rfl
  | bin o e₁ e₂ ih₁ ih₂ => simp only [Expr.map, ih₁, ih₂]
  | sbin o e s ih => simp only [Expr.map, ih]; rfl
  | hypot3 e₁ e₂ e₃ ih₁ ih₂ ih₃ => simp only [Expr.map, ih₁, ih₂, ih₃]

theorem poly_map (e : Expr ℝ V) :
    (e.map (Watched.enc p emax)).Poly Watched.val ↔ (e.map (rndEven p)).Poly id := by
  induction e with
  | var v => rfl
  | const s => rfl
  | neg e ih => exact ih
  | abs e ih => rfl
  | fn φ e ih => rfl
  | bin o e₁ e₂ ih₁ ih₂ => cases o <;> simp only [Expr.map, Expr.Poly, ih₁, ih₂]
  | sbin o e s ih => cases o <;> simp only [Expr.map, Expr.Poly, ih] <;> rfl
  | hypot3 e₁ e₂ e₃ ih₁ ih₂ ih₃ => rfl

theorem noAbs_poly {e : Expr ℝ V} {f : ℝ → ℝ} (h : (e.map f).Poly id) : e.NoAbs := by
  induction e with
  | var v => trivial
  | const s => trivial
  | neg e ih => exact ih h
  | abs e ih => exact h
  | fn φ e ih => exact h.elim
  | bin o e₁ e₂ ih₁ ih₂ =>
    cases o <;> first | exact h.elim | exact ⟨ih₁ h.1, ih₂ h.2⟩
  | sbin o e s ih => cases o <;> first | exact h.elim | exact ih h.1 | exact ih h
  | hypot3 e₁ e₂ e₃ ih₁ ih₂ ih₃ => exact h.elim

theorem roundings_map {α β : Type} (f : α → β) (e : Expr α V) : (e.map f).roundings = e.roundings := by
  induction e with
  | neg e ih => exact ih
  | bin o e₁ e₂ ih₁ ih₂ => cases o <;> simp only [Expr.map, Expr.roundings, ih₁, ih₂]
  | sbin o e s ih => cases o <;> simp only [Expr.map, Expr.roundings, ih]
  | _ => rfl

/-- **C72, polynomials.** In a format like `double` every component of a polynomial that is computed
quietly is finite, with the error bound of C58: `(1 + 2⁻ᵖ) ^ N - 1`, `N` the number of roundings, times the
same component of the polynomial of absolute values.  Coefficients and variables are rounded first. -/
theorem C72_polynomial (hp : 4 ≤ p) (hv : c.Valid) (hfit : c.tsize = -1 ∨ c.tsize = n)
    (e : Expr ℝ (Fin n)) (he : (e.map (rndEven p)).Poly id) (x : Fin n → ℝ) :
    let F := fun y : Fin n → ℝ => (e.map (rndEven p)).den y
    let G := fun y : Fin n → ℝ => (e.map (rndEven p)).majorant.den y
    let a := fun i => rndEven p (x i)
    let b := fun i => |rndEven p (x i)|
    let γ := (1 + 1 / 2 ^ p : ℝ) ^ e.roundings - 1
    ∃ r w, evalOn c (e.map (IEEE.enc p emax)) (fun i => IEEE.enc p emax (x i)) = .ok r ∧
      evalOn c (e.map (Watched.enc p emax)) (fun i => Watched.enc p emax (x i)) = .ok w ∧
      (∃ t, w.f = .ok t ∧ (t.quiet → ∃ s, r.f = .ok ⟨.num s⟩ ∧ |s - F a| ≤ γ * G b)) ∧
      (∀ i : Fin n, ∃ t, w.g c i = .ok t ∧ (t.quiet → ∃ s, r.g c i = .ok ⟨.num s⟩ ∧
        |s - partialD F a i| ≤ γ * partialD G b i)) ∧
      (c.order = 2 → ∀ i j : Fin n, ∃ t, w.h c i j = .ok t ∧ (t.quiet → ∃ s, r.h c i j = .ok ⟨.num s⟩ ∧
        |s - partialD (fun y => partialD F y i) a j| ≤
          γ * partialD (fun y => partialD G y i) b j)) := by
  obtain ⟨w', h1, -, hf, hg, hh⟩ := C58_variables (watchErr p emax hp).toRelErr hv hfit
    (e.map (Watched.enc p emax)) ((poly_map e).2 he) fun i => Watched.enc p emax (x i)
  obtain ⟨r, R, w, W, hr, sr, hw, sw, hq⟩ := C72_quiet (p := p) (emax := emax) hv hfit e x
  have : w' = w := by simpa using h1.symm.trans hw
  subst this
  have hq := hq (Or.inl (noAbs_poly he))
  change ∃ s, _ at hf
  have ev : (watchErr p emax hp).toRelErr.val = Watched.val := rfl
  rw [ev, map_enc_val, roundings_map] at hf hg hh
  refine ⟨r, w', hr, hw, ?_, fun i => ?_, fun h2 i j => ?_⟩
  · obtain ⟨s, a, b⟩ := hf
    refine ⟨s, a, fun q => ⟨s.val, ?_, b⟩⟩
    have : s = W.f := by simpa using a.symm.trans sw.f
    subst this
    rw [sr.f, ← IEEE.ext_iff.2 (hq.1 q)]
  · obtain ⟨s, a, b⟩ := hg i
    refine ⟨s, a, fun q => ⟨s.val, ?_, b⟩⟩
    have : s = W.g i := by simpa using a.symm.trans (sw.g i i.2)
    subst this
    rw [sr.g i i.2, ← IEEE.ext_iff.2 (hq.2.1 i i.2 q)]
  · obtain ⟨s, a, b⟩ := hh h2 i j
    refine ⟨s, a, fun q => ⟨s.val, ?_, b⟩⟩
    have : s = W.h i j := by simpa using a.symm.trans (sw.h h2 i j i.2 j.2)
    subst this
    rw [sr.h h2 i j i.2 j.2, ← IEEE.ext_iff.2 (hq.2.2 h2 i j i.2 j.2 q)]

/-- Constants of the operation replaced. -/
def Op.map {α β : Type} (f : α → β) : {m : Nat} → Op α m → Op β m
  | _, .neg => .neg
  | _, .abs => .abs
  | _, .fn φ => .fn (φ.map f)
  | _, .sbin o s => .sbin o (f s)
  | _, .bin o => .bin o
  | _, .hypot3 => .hypot3

theorem Op.expr_map {α β : Type} (f : α → β) (o : Op α m) : (o.map f).expr = o.expr.map f := by
  cases o <;> rfl

/-- **C72, one operation.** Operands with finite numbers in a format like `double`, not at a point where
C67 says that the formulas cancel: every component of the result that is computed quietly is finite and
has at most 16 rounding errors. -/
theorem C72_operation (hp : 4 ≤ p) (hv : c.Valid) (hfit : c.tsize = -1 ∨ c.tsize = n) (o : Op ℝ m)
    {ρ : Fin m → DD (IEEE p emax)} {σ : Fin m → DD (Watched p emax)} (J : Fin m → Jet ℝ)
    (hρ : ∀ v, Shows c n (ρ v) ((J v).mapv fun s => ⟨.num s⟩))
    (hσ : ∀ v, Shows c n (σ v) ((J v).mapv fun s => ⟨s, True⟩))
    (hs : (o.map (Watched.enc p emax)).Stable Watched.val fun v => (J v).f) :
    let O := o.map (Watched.enc p emax)
    ∃ r R w W, (o.map (IEEE.enc p emax)).expr.evalDD c n ρ = .ok r ∧ Shows c n r R ∧
      O.expr.evalDD c n σ = .ok w ∧ Shows c n w W ∧
      Jet.QuietWithin c.order n (roundings16 (1 / 2 ^ p)) (O.sizeJet Watched.val J) R W
        (exactJet (O.den Watched.val) J) := by
  intro O
  obtain ⟨r, R, w, W, hr, sr, hw, sw, hq⟩ := C72_operands hv hfit o.expr hρ hσ
    fun v => ⟨fun _ => rfl, fun _ _ _ => rfl, fun _ _ _ _ _ _ => rfl⟩
  obtain ⟨w', W', h1, h2, h3⟩ := C67_operation (watchErr p emax hp) (by
    have : (2 : ℝ) ^ 4 ≤ 2 ^ p := pow_le_pow_right₀ (by norm_num) hp
    exact one_div_le_one_div_of_le (by norm_num) (by norm_num at this ⊢; linarith)) hv hfit O σ _ hσ hs
  have e : w' = w := by
    rw [← Op.expr_map] at hw
    simpa using h1.symm.trans hw
  subst e
  refine ⟨r, R, w', W', by rw [Op.expr_map]; exact hr, sr, h1, h2, ?_⟩
  have hu := sw.unique h2
  have ag : R.Agree c.order n W' := by
    have := hq (by
      cases o with
      | abs =>
        right
        have e2 : σ = fun v => obj c n (packJet n ⟨⟨(J v).f, True⟩, fun i => ⟨(J v).g i, True⟩,
            fun i j => if c.order = 2 then ⟨(J v).h i j, True⟩ else ⟨(J v).f, True⟩⟩) :=
          funext fun v => shows_pack hv.order (hσ v)
        have hw' := hw
        rw [e2, evalDD_obj hv.order hfit] at hw'
        have hf := sw.f
        rw [← Res.ok.inj hw', f_obj] at hf
        rw [← Res.ok.inj hf]
        simp only [Op.expr, Expr.map, Expr.evalC, absC, packJet_zero]
        split <;> exact trivial
      | _ => left; simp [Op.expr, Expr.NoAbs])
    refine ⟨hu.1 ▸ this.1, fun i hi => hu.2.1 i hi ▸ this.2.1 i hi,
      fun h2 i j hi hj => hu.2.2 h2 i j hi hj ▸ this.2.2 h2 i j hi hj⟩
  refine ag.within ?_
  have e : (fun v => ((J v).mapv fun s => (⟨s, True⟩ : Watched p emax)).mapv Watched.val) = J := rfl
  exact h3

/-- **C72, rate.** Uniformly on a compact set on which the expression is inside its domains, with enough
bits and *whatever the range of the format*: the components that are computed quietly have an error of at
most `K 2⁻ᵖ`. -/
theorem C72_rate (hv : c.Valid) (hfit : c.tsize = -1 ∨ c.tsize = n) (e : Expr ℝ (Fin n))
    {S : Set (Fin n → ℝ)} (hS : IsCompact S) (hD : ∀ x ∈ S, e.Dom c.order x)
    (hR : ∀ x ∈ S, e.Regular x) (hP : ∀ x ∈ S, e.PowPos x) :
    ∃ (K : ℝ) (N : Nat), ∀ x ∈ S, ∀ p ≥ N, ∀ emax, ∃ r R w W,
      evalOn c (e.map (IEEE.enc p emax)) (fun i => IEEE.enc p emax (x i)) = .ok r ∧ Shows c n r R ∧
      evalOn c (e.map (Watched.enc p emax)) (fun i => Watched.enc p emax (x i)) = .ok w ∧
      Shows c n w W ∧ (e.NoAbs ∨ W.f.quiet →
        (W.f.quiet → ∃ s, R.f = ⟨.num s⟩ ∧ |s - e.den x| ≤ K / 2 ^ p) ∧
        (∀ i : Fin n, (W.g i).quiet → ∃ s, R.g i = ⟨.num s⟩ ∧
          |s - partialD (fun y => e.den y) x i| ≤ K / 2 ^ p) ∧
        (c.order = 2 → ∀ i j : Fin n, (W.h i j).quiet → ∃ s, R.h i j = ⟨.num s⟩ ∧
          |s - partialD (fun y => partialD (fun z => e.den z) y i) x j| ≤ K / 2 ^ p)) := by
  obtain ⟨K, u₀, hu, h⟩ := C70_rate hv hfit e hS hD hR hP
  obtain ⟨N, hN⟩ := exists_pow_lt_of_lt_one hu (show (1 / 2 : ℝ) < 1 by norm_num)
  refine ⟨K, max N 4, fun x hx p hp emax => ?_⟩
  have hp4 : 4 ≤ p := (le_max_right _ _).trans hp
  have hle : (1 : ℝ) / 2 ^ p ≤ u₀ := by
    rw [← one_div_pow]
    exact (pow_le_pow_of_le_one (by norm_num) (by norm_num) ((le_max_left _ _).trans hp)).trans hN.le
  obtain ⟨w', h1, h2⟩ := h x hx _ _ (watchErr p emax hp4) (Watched.enc p emax) hle
    fun s => rndEven_close p s
  obtain ⟨r, R, w, W, hr, sr, hw, sw, hq⟩ := C72_quiet (p := p) (emax := emax) hv hfit e x
  have e' : w' = w := by simpa using h1.symm.trans hw
  subst e'
  refine ⟨r, R, w', W, hr, sr, hw, sw, fun q => ?_⟩
  have hq := hq q
  refine ⟨fun q => ?_, fun i q => ?_, fun ho i j q => ?_⟩
  · obtain ⟨s, a, b⟩ := h2.f
    obtain rfl : s = W.f := by simpa using a.symm.trans sw.f
    exact ⟨_, IEEE.ext (hq.1 q), by rw [div_eq_mul_one_div]; exact b⟩
  · obtain ⟨s, a, b⟩ := h2.g i
    obtain rfl : s = W.g i := by simpa using a.symm.trans (sw.g i i.2)
    exact ⟨_, IEEE.ext (hq.2.1 i i.2 q), by rw [div_eq_mul_one_div]; exact b⟩
  · obtain ⟨s, a, b⟩ := h2.h ho i j
    obtain rfl : s = W.h i j := by simpa using a.symm.trans (sw.h ho i j i.2 j.2)
    exact ⟨_, IEEE.ext (hq.2.2 ho i j i.2 j.2 q), by rw [div_eq_mul_one_div]; exact b⟩

/-! ## What happens otherwise -/

theorem toFmt_num (x : ℝ) : toFmt p emax (.num x) = open Classical in
    if |rndFmt p emax x| < 2 ^ (emax + 1) then .num (rndFmt p emax x) else .inf (decide (x < 0)) := rfl

theorem log_two_zpow (k : ℤ) : Int.log 2 |(2 : ℝ) ^ k| = k := by
  rw [abs_of_pos (by positivity)]
  simpa using Int.log_zpow (R := ℝ) (b := 2) (by norm_num) k

/-- Powers of two that are not too small are not rounded. -/
theorem rndFmt_zpow (hp : 1 ≤ p) {k : ℤ} (hk : 2 - emax - p ≤ k) : rndFmt p emax (2 ^ k) = 2 ^ k := by
  unfold rndFmt
  rw [log_two_zpow]
  set E := max k (1 - emax) + 1 - p with hE
  obtain ⟨q, hq⟩ : ∃ q : Nat, k = E + q := ⟨(k - E).toNat, by omega⟩
  have h : (2 : ℝ) ^ k / 2 ^ E = ((2 ^ q : ℤ) : ℝ) := by
    rw [hq, zpow_add₀ (by norm_num), mul_comm, mul_div_assoc, div_self (by positivity)]
    simp
  rw [h, roundEven_int, ← h, div_mul_cancel₀ _ (by positivity)]

theorem toFmt_zpow (hp : 1 ≤ p) {k : ℤ} (hk : 2 - emax - p ≤ k) (hk' : k ≤ emax) :
    toFmt p emax (.num (2 ^ k)) = .num (2 ^ k) := by
  rw [toFmt_num, rndFmt_zpow hp hk, if_pos]
  rw [abs_of_pos (by positivity), ← zpow_natCast]
  exact zpow_lt_zpow_right₀ (by norm_num) (by push_cast; omega)

theorem toFmt_over (hp : 1 ≤ p) {k : ℤ} (hk : (emax : ℤ) < k) :
    toFmt p emax (.num (2 ^ k)) = .inf false := by
  rw [toFmt_num, rndFmt_zpow hp (by omega), if_neg]
  · rw [decide_eq_false (not_lt.2 (by positivity))]
  · rw [abs_of_pos (by positivity), not_lt, ← zpow_natCast]
    exact zpow_le_zpow_right₀ (by norm_num) (by push_cast; omega)

theorem roundEven_small {y : ℝ} (h0 : 0 ≤ y) (h1 : y < 1 / 2) : roundEven y = 0 := by
  unfold roundEven
  rw [if_neg]
  · rw [round_eq_zero_iff]
    exact ⟨by linarith, h1⟩
  · rw [Int.fract_eq_self.2 ⟨h0, by linarith⟩]
    rintro ⟨h, -⟩
    linarith

theorem toFmt_under {k : ℤ} (hk : k ≤ -emax - p) : toFmt p emax (.num (2 ^ k)) = .num 0 := by
  have : rndFmt p emax (2 ^ k) = 0 := by
    unfold rndFmt
    rw [log_two_zpow]
    have hlt : (2 : ℝ) ^ k / 2 ^ (max k (1 - emax) + 1 - p : ℤ) < 1 / 2 := by
      rw [← zpow_sub₀ (by norm_num), show (1 : ℝ) / 2 = 2 ^ (-1 : ℤ) by norm_num]
      exact zpow_lt_zpow_right₀ (by norm_num) (by omega)
    rw [roundEven_small (by positivity) hlt]
    simp
  rw [toFmt_num, this]
  simp

theorem fmt_mul {a b : ℝ} : (⟨.num a⟩ *ₛ ⟨.num b⟩ : IEEE p emax) = ⟨toFmt p emax (.num (a * b))⟩ := rfl

open Classical in
theorem div_num (x y : ℝ) : XReal.div (.num x) (.num y) = if y = 0 then
    (if x = 0 then .nan else if x < 0 then .inf true else .inf false) else .num (x / y) := by
  show (if _ then _ else _) = _
  congr

theorem fmt_div {a b : ℝ} (hb : b ≠ 0) :
    (⟨.num a⟩ ÷ₛ ⟨.num b⟩ : IEEE p emax) = ⟨toFmt p emax (.num (a / b))⟩ := by
  show (⟨toFmt p emax (XReal.div (.num a) (.num b))⟩ : IEEE p emax) = _
  rw [div_num, if_neg hb]

theorem fmt_zero : (Arith.lit 0 : IEEE p emax) = ⟨.num 0⟩ := by
  show (⟨toFmt p emax (.num ((0 : Int) : ℝ))⟩ : IEEE p emax) = _
  rw [Int.cast_zero, toFmt_zero]

theorem toFmt_one (hp : 1 ≤ p) (he : 1 ≤ emax) : toFmt p emax (.num 1) = .num 1 := by
  simpa using toFmt_zpow (emax := emax) hp (k := 0) (by omega) (by omega)

theorem fmt_one (hp : 1 ≤ p) (he : 1 ≤ emax) : (Arith.lit 1 : IEEE p emax) = ⟨.num 1⟩ := by
  show (⟨toFmt p emax (.num ((1 : Int) : ℝ))⟩ : IEEE p emax) = _
  rw [Int.cast_one, toFmt_one hp he]

theorem fmt_zero_mul {a : ℝ} : (⟨.num a⟩ *ₛ ⟨.num 0⟩ : IEEE p emax) = ⟨.num 0⟩ := by
  rw [fmt_mul, mul_zero, toFmt_zero]

theorem fmt_zero_add : (⟨.num 0⟩ +ₛ ⟨.num 0⟩ : IEEE p emax) = ⟨.num 0⟩ := by
  show (⟨toFmt p emax (.num (0 + 0))⟩ : IEEE p emax) = _
  rw [add_zero, toFmt_zero]

/-- Derivatives are those of the evaluation with real numbers. -/
theorem partial_evalC (e : Expr ℝ (Fin n)) {x : Fin n → ℝ} (hD : e.Dom 2 x) (hR : e.Regular x)
    (hP : e.PowPos x) :
    (∀ i : Fin n, partialD (fun y => e.den y) x i =
      e.evalC exDyn2 n (fun i : Fin n => varC i (x i)) (1 + i)) ∧
    ∀ i : Fin n, partialDD (fun y => e.den y) x i i =
      e.evalC exDyn2 n (fun i : Fin n => varC i (x i)) (pos n i i) := by
  obtain ⟨a, h1, h2⟩ := exact_evalOn exDyn2_valid.order (Or.inl rfl) e _ hD hR hP
  have h3 := Res.ok.inj (h1.symm.trans (evalOn_obj exDyn2_valid.order (Or.inl rfl) _ _))
  constructor
  · intro i
    rw [congrFun (IsJet.partials h2).1 i]
    have h4 := congrArg (fun r => DD.g exDyn2 r i) h3
    simp only [g_obj (c := exDyn2) (Or.inl rfl) _ i.2] at h4
    exact Res.ok.inj h4
  · intro i
    rw [congrFun (congrFun (IsJet.partials h2).2 i) i]
    have h4 := congrArg (fun r => DD.h exDyn2 r i i) h3
    simp only [h_obj (c := exDyn2) rfl (Or.inl rfl) _ (Nat.le_refl i) i.2] at h4
    simpa [jetOf] using Res.ok.inj h4

theorem fmt_mul_inf {a : ℝ} (ha : 0 < a) : (⟨.num a⟩ *ₛ ⟨.inf false⟩ : IEEE p emax) = ⟨.inf false⟩ := by
  classical
  show (⟨toFmt p emax (XReal.mulInf a false)⟩ : IEEE p emax) = _
  unfold XReal.mulInf
  rw [if_neg ha.ne', if_neg (not_lt.2 ha.le)]
  rfl

theorem fmt_inf_mul {a : ℝ} (ha : 0 < a) (s : Bool) :
    (⟨.inf s⟩ *ₛ ⟨.num a⟩ : IEEE p emax) = ⟨.inf s⟩ := by
  classical
  show (⟨toFmt p emax (XReal.mulInf a s)⟩ : IEEE p emax) = _
  unfold XReal.mulInf
  rw [if_neg ha.ne', if_neg (not_lt.2 ha.le)]
  rfl

/-- `a / b`. -/
noncomputable def exRatio : Expr ℝ (Fin 2) := .bin .div (.var 0) (.var 1)

/-- **C72, division.** `a / b` with `a = b` the smallest normal number of a format like `double`: value and
derivatives are representable numbers, but the derivative for `b` comes out as minus infinity, because it is
computed as `-a / b²` and `b²` is zero. -/
theorem C72_violated_divide (hp : 1 ≤ p) (he : p + 2 ≤ emax) :
    ∃ x : Fin 2 → ℝ, exRatio.Dom 2 x ∧ exRatio.Regular x ∧
      (∀ i, IEEE.enc p emax (x i) = ⟨.num (x i)⟩) ∧
      partialD (fun y => exRatio.den y) x 1 = -2 ^ (emax - 1 : ℤ) ∧
      ∃ r, evalOn exDyn2 (exRatio.map (IEEE.enc p emax)) (fun i => IEEE.enc p emax (x i)) = .ok r ∧
        r.f = .ok ⟨.num 1⟩ ∧ r.g exDyn2 1 = .ok ⟨.inf true⟩ := by
  have enc : IEEE.enc p emax (2 ^ (1 - emax : ℤ)) = ⟨.num (2 ^ (1 - emax : ℤ))⟩ := by
    unfold IEEE.enc
    rw [toFmt_zpow hp (by omega) (by omega)]
  have hpos : (0 : ℝ) < 2 ^ (1 - emax : ℤ) := by positivity
  have D : exRatio.Dom 2 fun _ => (2 : ℝ) ^ (1 - emax : ℤ) := by
    simp [exRatio, Expr.Dom, Bin.dom, Expr.den, hpos.ne']
  have R : exRatio.Regular fun _ => (2 : ℝ) ^ (1 - emax : ℤ) := by
    simp [exRatio, Expr.Regular, Bin.reg]
  refine ⟨fun _ => 2 ^ (1 - emax : ℤ), D, R, fun _ => enc, ?_, _,
    evalOn_obj exDyn2_valid.order (Or.inl rfl) _ _, ?_, ?_⟩
  · rw [(partial_evalC exRatio D R (by simp [exRatio, Expr.PowPos])).1 1]
    simp only [exRatio, Expr.evalC, Bin.runC, divC]
    rw [bFin_succ _ _ _ _ (show ((1 : Fin 2) : Nat) < 2 by decide)]
    simp only [varC, if_true]
    show ((1 : ℤ) : ℝ) / 2 ^ (1 - emax : ℤ) * ((0 : ℤ) : ℝ) + -(2 ^ (1 - emax : ℤ)) /
      (2 ^ (1 - emax : ℤ)) ^ 2 * ((1 : ℤ) : ℝ) = _
    rw [show (emax - 1 : ℤ) = -(1 - emax) by ring, zpow_neg]
    push_cast
    field_simp
    ring
  · have inv : (Arith.lit 1 ÷ₛ ⟨.num (2 ^ (1 - emax : ℤ))⟩ : IEEE p emax) =
    ⟨.num (2 ^ (emax - 1 : ℤ))⟩ := by
      rw
        [fmt_one hp
          (by omega), fmt_div hpos.ne', one_div, ← zpow_neg, show -(1 - emax : ℤ) = emax - 1 by ring,
        toFmt_zpow hp (by omega) (by omega)]
    rw [f_obj]
    simp only [exRatio, Expr.map, Expr.evalC, Bin.runC, divC, bFin_zero, varC, if_true, enc]
    rw [inv, fmt_mul, ← zpow_add₀ (by norm_num)]
    simp [toFmt_one hp (show 1 ≤ emax by omega)]
  · have inv : (Arith.lit 1 ÷ₛ ⟨.num (2 ^ (1 - emax : ℤ))⟩ : IEEE p emax) =
    ⟨.num (2 ^ (emax - 1 : ℤ))⟩ := by
      rw
        [fmt_one hp
          (by omega), fmt_div hpos.ne', one_div, ← zpow_neg, show -(1 - emax : ℤ) = emax - 1 by ring,
        toFmt_zpow hp (by omega) (by omega)]
    have sq : Arith.powN (⟨.num (2 ^ (1 - emax : ℤ))⟩ : IEEE p emax) 2 = ⟨.num 0⟩ := by
      show (⟨toFmt p emax (.num ((2 ^ (1 - emax : ℤ)) ^ 2))⟩ : IEEE p emax) = _
      rw [← zpow_natCast, ← zpow_mul, toFmt_under (by push_cast; omega)]
    have quo : (-ₛ (⟨.num (2 ^ (1 - emax : ℤ))⟩ : IEEE p emax)) ÷ₛ ⟨.num 0⟩ = ⟨.inf true⟩ := by
      show (⟨toFmt p emax (XReal.div (.num (-2 ^ (1 - emax : ℤ))) (.num 0))⟩ : IEEE p emax) = _
      rw [div_num, if_pos rfl, if_neg (by linarith), if_pos (by linarith)]
      rfl
    change DD.g exDyn2 _ ((1 : Nat) : Int) = _
    rw [g_obj (Or.inl rfl) _ (by decide)]
    simp only [exRatio, Expr.map, Expr.evalC, Bin.runC, divC]
    rw [bFin_succ _ _ _ _ (by decide)]
    simp only [varC, if_true, enc]
    rw [inv, sq, quo]
    simp only
      [fmt_zero, show (1 + 1 = 0) = False by simp, show
        ((1 + 1 : Nat) = 1 + ((0 : Fin 2) : Nat)) = False by simp,
      show ((1 + 1 : Nat) = 1 + ((1 : Fin 2) : Nat)) = True by simp, if_true, if_false]
    rw [fmt_zero_mul, fmt_one hp (by omega)]
    rw [fmt_inf_mul one_pos]
    rfl

/-- **C72, value of a quotient.** For jets `a / b` is computed as `a *
  (1 / b)`.  With `a = b` a subnormal
number the value comes out infinite, although the quotient of the two scalars is exactly 1. -/
theorem C72_violated_value (hp : 3 ≤ p) (he : 1 ≤ emax) :
    ∃ x : Fin 2 → ℝ, exRatio.Dom 2 x ∧ exRatio.Regular x ∧
      (∀ i, IEEE.enc p emax (x i) = ⟨.num (x i)⟩) ∧
      IEEE.enc p emax (x 0) ÷ₛ IEEE.enc p emax (x 1) = ⟨.num 1⟩ ∧
      ∃ r, evalOn exDyn2 (exRatio.map (IEEE.enc p emax)) (fun i => IEEE.enc p emax (x i)) = .ok r ∧
        r.f = .ok ⟨.inf false⟩ := by
  have enc : IEEE.enc p emax (2 ^ (-1 - emax : ℤ)) = ⟨.num (2 ^ (-1 - emax : ℤ))⟩ := by
    unfold IEEE.enc
    rw [toFmt_zpow (by omega) (by omega) (by omega)]
  have hpos : (0 : ℝ) < 2 ^ (-1 - emax : ℤ) := by positivity
  refine ⟨fun _ => 2 ^ (-1 - emax : ℤ), by simp [exRatio, Expr.Dom, Bin.dom, Expr.den, hpos.ne'],
    by simp [exRatio, Expr.Regular, Bin.reg], fun _ => enc, ?_, _,
    evalOn_obj exDyn2_valid.order (Or.inl rfl) _ _, ?_⟩
  · simp only [enc]
    rw [fmt_div hpos.ne', div_self hpos.ne', toFmt_one (by omega) he]
  · rw [f_obj]
    simp only [exRatio, Expr.map, Expr.evalC, Bin.runC, divC, bFin_zero, varC, if_true, enc]
    rw [fmt_one (by omega) he, fmt_div hpos.ne', one_div, ← zpow_neg,
      show -(-1 - emax : ℤ) = emax + 1 by ring, toFmt_over (by omega) (by omega), fmt_mul_inf hpos]

theorem fmt_nan_mul (x : IEEE p emax) : (⟨.nan⟩ *ₛ x : IEEE p emax) = ⟨.nan⟩ := by
  obtain ⟨x⟩ := x
  cases x <;> rfl

theorem fmt_nan_add (x : IEEE p emax) : (⟨.nan⟩ +ₛ x : IEEE p emax) = ⟨.nan⟩ := by
  obtain ⟨x⟩ := x
  cases x <;> rfl

theorem fmt_add_nan (x : IEEE p emax) : (x +ₛ ⟨.nan⟩ : IEEE p emax) = ⟨.nan⟩ := by
  obtain ⟨x⟩ := x
  cases x <;> rfl

/-- `hypot(a, b)`. -/
noncomputable def exLength : Expr ℝ (Fin 2) := .bin .hypot (.var 0) (.var 1)

/-- **C72, Hessian of `hypot`.** `std::hypot` avoids overflow, but the second derivatives are computed with
`b * b` and `f * f * f`: at a point with representable value and derivatives one of them comes out as NaN. -/
theorem C72_violated_hypot (hp : 1 ≤ p) (he : 3 ≤ emax) :
    ∃ x : Fin 2 → ℝ, exLength.Dom 2 x ∧ exLength.Regular x ∧
      (∀ i, IEEE.enc p emax (x i) = ⟨.num (x i)⟩) ∧
      partialDD (fun y => exLength.den y) x 0 0 = 2 ^ (1 - emax : ℤ) ∧
      ∃ r, evalOn exDyn2 (exLength.map (IEEE.enc p emax)) (fun i => IEEE.enc p emax (x i)) = .ok r ∧
        r.f = .ok ⟨.num (2 ^ (emax - 1 : ℤ))⟩ ∧ r.h exDyn2 0 0 = .ok ⟨.nan⟩ := by
  have hpos : (0 : ℝ) < 2 ^ (emax - 1 : ℤ) := by positivity
  have e0 : IEEE.enc p emax 0 = ⟨.num 0⟩ := by
    unfold IEEE.enc
    rw [toFmt_zero]
  have e1 : IEEE.enc p emax (2 ^ (emax - 1 : ℤ)) = ⟨.num (2 ^ (emax - 1 : ℤ))⟩ := by
    unfold IEEE.enc
    rw [toFmt_zpow (by omega) (by omega) (by omega)]
  have hs : √((0 : ℝ) ^ 2 + (2 ^ (emax - 1 : ℤ)) ^ 2) = 2 ^ (emax - 1 : ℤ) := by
    rw [zero_pow two_ne_zero, zero_add, Real.sqrt_sq hpos.le]
  have D : exLength.Dom 2 ![0, 2 ^ (emax - 1 : ℤ)] := by
    simp [exLength, Expr.Dom, Bin.dom, Expr.den, hpos.ne']
  have R : exLength.Regular ![0, 2 ^ (emax - 1 : ℤ)] := by
    simp [exLength, Expr.Regular, Bin.reg]
  have hyp : (CMath.hypot ⟨.num 0⟩ ⟨.num (2 ^ (emax - 1 : ℤ))⟩ : IEEE p emax) =
      ⟨.num (2 ^ (emax - 1 : ℤ))⟩ := by
    show (⟨toFmt p emax (.num √((0 : ℝ) ^ 2 + (2 ^ (emax - 1 : ℤ)) ^ 2))⟩ : IEEE p emax) = _
    rw [hs, toFmt_zpow (by omega) (by omega) (by omega)]
  refine ⟨![0, 2 ^ (emax - 1 : ℤ)], D, R, fun i => ?_, ?_, _,
    evalOn_obj exDyn2_valid.order (Or.inl rfl) _ _, ?_, ?_⟩
  · fin_cases i
    · exact e0
    · exact e1
  · rw [(partial_evalC exLength D R (by simp [exLength, Expr.PowPos])).2 0]
    simp only [exLength, Expr.evalC, Bin.runC, hypotC, bin5]
    rw [bFin_pos rfl _ _ _ (Nat.le_refl _) (by decide)]
    simp only [varC, if_true, show (pos 2 ((0 : Fin 2) : Nat) ((0 : Fin 2) : Nat)) = 3 from rfl,
      show ((3 : Nat) = 0) = False by simp, show ((3 : Nat) = 1 + ((0 : Fin 2) : Nat)) = False by simp,
      show ((3 : Nat) = 1 + ((1 : Fin 2) : Nat)) = False by simp,
      show ((1 + ((0 : Fin 2) : Nat)) = 0) = False by simp,
      show ((1 + ((0 : Fin 2) : Nat)) = 1 + ((1 : Fin 2) : Nat)) = False by simp, if_false]
    have hypR : CMath.hypot (0 : ℝ) (2 ^ (emax - 1 : ℤ)) = 2 ^ (emax - 1 : ℤ) := hs
    simp only
      [Matrix.cons_val_zero, Matrix.cons_val_one, hypR, Exact.add, Exact.mul, Exact.div, Exact.neg,
      Exact.lit]
    rw [show (1 - emax : ℤ) = -(emax - 1) by ring, zpow_neg]
    push_cast
    field_simp
    ring
  · rw [f_obj]
    simp only [exLength, Expr.map, Expr.evalC, Bin.runC, hypotC, bin5, bFin_zero, varC, if_true]
    congr 1
    show CMath.hypot (IEEE.enc p emax 0) (IEEE.enc p emax (2 ^ (emax - 1 : ℤ))) = _
    rw [e0, e1, hyp]
  · change DD.h exDyn2 _ ((0 : Nat) : Int) ((0 : Nat) : Int) = _
    rw [h_obj rfl (Or.inl rfl) _ (Nat.le_refl _) (by decide)]
    simp only [exLength, Expr.map, Expr.evalC, Bin.runC, hypotC, bin5]
    rw [bFin_pos rfl _ _ _ (Nat.le_refl _) (by decide)]
    have sq : (⟨.num (2 ^ (emax - 1 : ℤ))⟩ *ₛ ⟨.num (2 ^ (emax - 1 : ℤ))⟩ : IEEE p emax) =
        ⟨.inf false⟩ := by
      rw [fmt_mul, ← zpow_add₀ (by norm_num), toFmt_over hp (by omega)]
    have quo : (⟨.inf false⟩ ÷ₛ ⟨.inf false⟩ : IEEE p emax) = ⟨.nan⟩ := rfl
    simp only [varC, if_true, show (1 + 0 = 0) = False by simp,
      show (1 + 0 = 1 + ((0 : Fin 2) : Nat)) = True by simp, if_false]
    simp only [Matrix.cons_val_zero, Matrix.cons_val_one, e0, e1, hyp, sq, fmt_inf_mul hpos, quo,
      fmt_nan_mul, fmt_nan_add, fmt_add_nan]

/-- `atan2(a, b)`. -/
noncomputable def exAngle : Expr ℝ (Fin 2) := .bin .atan2 (.var 0) (.var 1)

/-- **C72, gradient of `atan2`.** It is computed with `a * a + b * b`; close to the origin this is zero, and
the derivative for `a`, a representable number, comes out as NaN. -/
theorem C72_violated_atan2 (hp : 1 ≤ p) (he : p + 2 ≤ emax) :
    ∃ x : Fin 2 → ℝ, exAngle.Dom 2 x ∧ exAngle.Regular x ∧
      (∀ i, IEEE.enc p emax (x i) = ⟨.num (x i)⟩) ∧
      partialD (fun y => exAngle.den y) x 0 = 2 ^ (emax - 1 : ℤ) ∧
      ∃ r, evalOn exDyn2 (exAngle.map (IEEE.enc p emax)) (fun i => IEEE.enc p emax (x i)) = .ok r ∧
        r.f = .ok ⟨.num 0⟩ ∧ r.g exDyn2 0 = .ok ⟨.nan⟩ := by
  have hpos : (0 : ℝ) < 2 ^ (1 - emax : ℤ) := by positivity
  have e0 : IEEE.enc p emax 0 = ⟨.num 0⟩ := by
    unfold IEEE.enc
    rw [toFmt_zero]
  have e1 : IEEE.enc p emax (2 ^ (1 - emax : ℤ)) = ⟨.num (2 ^ (1 - emax : ℤ))⟩ := by
    unfold IEEE.enc
    rw [toFmt_zpow (by omega) (by omega) (by omega)]
  have D : exAngle.Dom 2 ![0, 2 ^ (1 - emax : ℤ)] := by
    simp [exAngle, Expr.Dom, Bin.dom, Expr.den, hpos.ne']
  have R : exAngle.Regular ![0, 2 ^ (1 - emax : ℤ)] := by
    simp [exAngle, Expr.Regular, Bin.reg, Expr.den, hpos]
  refine ⟨![0, 2 ^ (1 - emax : ℤ)], D, R, fun i => ?_, ?_, _,
    evalOn_obj exDyn2_valid.order (Or.inl rfl) _ _, ?_, ?_⟩
  · fin_cases i
    · exact e0
    · exact e1
  · rw [(partial_evalC exAngle D R (by simp [exAngle, Expr.PowPos])).1 0]
    simp only [exAngle, Expr.evalC, Bin.runC, atan2C, bin5]
    rw [bFin_succ _ _ _ _ (show ((0 : Fin 2) : Nat) < 2 by decide)]
    simp only [varC, if_true, show ((1 + ((0 : Fin 2) : Nat)) = 0) = False by simp,
      show ((1 + ((0 : Fin 2) : Nat)) = 1 + ((1 : Fin 2) : Nat)) = False by simp, if_false]
    simp only [Matrix.cons_val_zero, Matrix.cons_val_one, Exact.add, Exact.mul, Exact.div, Exact.neg,
      Exact.lit]
    rw [show (emax - 1 : ℤ) = -(1 - emax) by ring, zpow_neg]
    push_cast
    field_simp
    ring
  · rw [f_obj]
    simp only [exAngle, Expr.map, Expr.evalC, Bin.runC, atan2C, bin5, bFin_zero, varC, if_true]
    congr 1
    show CMath.atan2 (IEEE.enc p emax 0) (IEEE.enc p emax (2 ^ (1 - emax : ℤ))) = _
    rw [e0, e1]
    show (⟨toFmt p emax (.num (Complex.arg ⟨2 ^ (1 - emax : ℤ), 0⟩))⟩ : IEEE p emax) = _
    have : (⟨2 ^ (1 - emax : ℤ), 0⟩ : ℂ) = ((2 ^ (1 - emax : ℤ) : ℝ) : ℂ) := rfl
    rw [this, Complex.arg_ofReal_of_nonneg hpos.le, toFmt_zero]
  · have sq : (⟨.num (2 ^ (1 - emax : ℤ))⟩ *ₛ ⟨.num (2 ^ (1 - emax : ℤ))⟩ : IEEE p emax) =
        ⟨.num 0⟩ := by
      rw [fmt_mul, ← zpow_add₀ (by norm_num), toFmt_under (by omega)]
    have quo : (-ₛ (⟨.num 0⟩ : IEEE p emax)) ÷ₛ ⟨.num 0⟩ = ⟨.nan⟩ := by
      show (⟨toFmt p emax (XReal.div (.num (-0)) (.num 0))⟩ : IEEE p emax) = _
      rw [div_num, if_pos rfl, if_pos neg_zero]
      rfl
    change DD.g exDyn2 _ ((0 : Nat) : Int) = _
    rw [g_obj (Or.inl rfl) _ (by decide)]
    simp only [exAngle, Expr.map, Expr.evalC, Bin.runC, atan2C, bin5]
    rw [bFin_succ _ _ _ _ (by decide)]
    simp only [varC, if_true]
    simp only [Matrix.cons_val_zero, Matrix.cons_val_one, e0, e1, fmt_zero_mul, sq, fmt_zero_add, quo,
      fmt_nan_mul, fmt_add_nan]

/-! ## Concrete cases -/

/-- Numbers with four bits and moderate exponents. -/
theorem normal_small (hp : 4 ≤ p) {x : ℝ} (m e : ℤ) (hx : x = m * 2 ^ e) (hm : |m| ≤ 10)
    (he : 1 - emax ≤ e) (he' : e + 4 ≤ emax + 1) : rndEven p x = x ∧ Normal p emax x := by
  by_cases h0 : m = 0
  · subst h0
    simp at hx
    subst hx
    exact ⟨by simp [rndEven, roundEven_zero], Or.inl rfl⟩
  have hm1 : (1 : ℝ) ≤ |(m : ℝ)| := by exact_mod_cast Int.one_le_abs h0
  have hm2 : |(m : ℝ)| ≤ 10 := by exact_mod_cast hm
  have hP : (0 : ℝ) < 2 ^ e := by positivity
  have habs : |x| = |(m : ℝ)| * 2 ^ e := by rw [hx, abs_mul, abs_of_pos hP]
  have hx0 : 0 < |x| := by rw [habs]; positivity
  have hlt : |x| < 2 ^ (e + 4) := by
    rw [habs, zpow_add₀ (by norm_num)]
    norm_num
    nlinarith
  have hlog : Int.log 2 |x| < e + 4 := by
    rw [← Int.lt_zpow_iff_log_lt (by norm_num) hx0]
    exact_mod_cast hlt
  have hr : rndEven p x = x := rndEven_exact m e hx (by omega)
  refine ⟨hr, Or.inr ⟨?_, ?_⟩⟩
  · rw [habs]
    have : (2 : ℝ) ^ (1 - emax : ℤ) ≤ 2 ^ e := zpow_le_zpow_right₀ (by norm_num) he
    nlinarith
  · rw [hr]
    refine hlt.trans_le ?_
    rw [← zpow_natCast]
    exact zpow_le_zpow_right₀ (by norm_num) (by push_cast; omega)

theorem normal_int (hp : 4 ≤ p) (he : 3 ≤ emax) {x : ℝ} (m : ℤ) (hx : x = m) (hm : |m| ≤ 10) :
    rndEven p x = x ∧ Normal p emax x :=
  normal_small hp m 0 (by simpa using hx) hm (by omega) (by omega)

/-- `x * x` at 3 is computed quietly in every format with at least four bits: value and gradient. -/
theorem exSq_quiet (hp : 4 ≤ p) (he : 3 ≤ emax) {w : DD (Watched p emax)}
    (hw : evalOn exDyn2 (exSq.map (Watched.enc p emax)) (fun _ => Watched.enc p emax 3) = .ok w) :
    (∃ t, w.f = .ok t ∧ t.quiet ∧ t.val = 9) ∧ ∃ t, w.g exDyn2 0 = .ok t ∧ t.quiet ∧ t.val = 6 := by
  have h3 := normal_int hp he (x := 3) 3 (by norm_num) (by norm_num)
  have h9 := normal_int hp he (x := 9) 9 (by norm_num) (by norm_num)
  have h6 := normal_int hp he (x := 6) 6 (by norm_num) (by norm_num)
  have h1 := normal_int hp he (x := 1) 1 (by norm_num) (by norm_num)
  have num : ∀ {a b : ℝ} {q : Prop}, a = b → rndEven p b = b ∧ Normal p emax b → q →
      (watch (.num a) q : Watched p emax) = ⟨b, True⟩ := by
    rintro a b q rfl ⟨h, h'⟩ hq
    unfold watch
    rw [Watched.mk.injEq]
    exact ⟨h, eq_true ⟨hq, trivial, h'⟩⟩
  have e3 : Watched.enc p emax 3 = ⟨3, True⟩ := num rfl h3 trivial
  have e1 : (Arith.lit 1 : Watched p emax) = ⟨1, True⟩ := num (by norm_num) h1 trivial
  have m33 : (⟨3, True⟩ *ₛ ⟨3, True⟩ : Watched p emax) = ⟨9, True⟩ := num (by norm_num) h9
    ⟨trivial, trivial⟩
  have m31 : (⟨3, True⟩ *ₛ ⟨1, True⟩ : Watched p emax) = ⟨3, True⟩ := num (by norm_num) h3
    ⟨trivial, trivial⟩
  have a33 : (⟨3, True⟩ +ₛ ⟨3, True⟩ : Watched p emax) = ⟨6, True⟩ := num (by norm_num) h6
    ⟨trivial, trivial⟩
  rw [evalOn_obj exDyn2_valid.order (Or.inl rfl)] at hw
  rw [← Res.ok.inj hw]
  constructor
  · rw [f_obj]
    simp only [exSq, Expr.map, Expr.evalC, Bin.runC, mulC, bFin_zero, varC, if_true, e3, m33]
    exact ⟨_, rfl, trivial, rfl⟩
  · change ∃ t, DD.g exDyn2 _ ((0 : Nat) : Int) = _ ∧ _
    rw [g_obj (Or.inl rfl) _ (by decide)]
    simp only [exSq, Expr.map, Expr.evalC, Bin.runC, mulC]
    rw [bFin_succ _ _ _ _ (by decide)]
    simp only [varC, if_true, e3, show (1 + 0 = 0) = False by simp,
      show (1 + 0 = 1 + ((0 : Fin 1) : Nat)) = True by simp, if_false, e1, m31, a33]
    exact ⟨_, rfl, trivial, rfl⟩

/-- `C72_quiet` in `double`: the value is exactly 9 and the derivative exactly 6. -/
example : ∃ r, evalOn exDyn2 (exSq.map (IEEE.enc 53 1023)) (fun _ => IEEE.enc 53 1023 3) = .ok r ∧
    r.f = .ok ⟨.num 9⟩ ∧ r.g exDyn2 0 = .ok ⟨.num 6⟩ := by
  obtain ⟨r, R, w, W, h1, h2, h3, h4, h5⟩ := C72_quiet (p := 53) (emax := 1023) exDyn2_valid (Or.inl rfl)
    exSq fun _ => 3
  obtain ⟨⟨t, a, b, d⟩, t', a', b', d'⟩ := exSq_quiet (by norm_num) (by norm_num) h3
  have h5 := h5 (Or.inl ⟨trivial, trivial⟩)
  obtain rfl : t = W.f := by simpa using a.symm.trans h4.f
  obtain rfl : t' = W.g 0 := by simpa using a'.symm.trans (h4.g 0 (by norm_num))
  refine ⟨r, h1, ?_, ?_⟩
  · rw [h2.f, ← d, ← IEEE.ext_iff.2 (h5.1 b)]
  · rw [← d', ← IEEE.ext_iff.2 (h5.2.1 0 (by norm_num) b')]
    exact h2.g 0 (by norm_num)

/-- `C72_polynomial` in `double`. -/
example : ∃ r s, evalOn exDyn2 (exSq.map (IEEE.enc 53 1023)) (fun _ => IEEE.enc 53 1023 3) = .ok r ∧
    r.f = .ok ⟨.num s⟩ ∧ |s - 9| ≤ ((1 + 1 / 2 ^ 53) ^ 3 - 1) * 9 := by
  obtain ⟨r, w, h1, h2, ⟨t, h3, h4⟩, -⟩ := C72_polynomial (p := 53) (emax := 1023)
    (by norm_num) exDyn2_valid
    (Or.inl rfl) exSq ⟨trivial, trivial⟩ fun _ => 3
  obtain ⟨⟨t', a, b, d⟩, -⟩ := exSq_quiet (by norm_num) (by norm_num) h2
  obtain rfl : t' = t := by simpa using a.symm.trans h3
  obtain ⟨s, h5, h6⟩ := h4 b
  have r3 : rndEven 53 3 = 3 := (normal_int (p := 53) (emax := 1023) (by norm_num) (by norm_num) 3
    (by norm_num) (by norm_num)).1
  refine ⟨r, s, h1, h5, ?_⟩
  have e1 : (exSq.map (rndEven 53)).den (fun _ => 3) = 9 := by
    simp [exSq, Expr.map, Expr.den, Bin.den]; norm_num
  have e2 : (exSq.map (rndEven 53)).majorant.den (fun _ => 3) = 9 := by
    simp [exSq, Expr.map, Expr.majorant, Expr.den, Bin.den]; norm_num
  simp only [r3, show |(3 : ℝ)| = 3 by norm_num, e1, e2] at h6
  exact h6

/-- `C72_operation`: the hypotheses hold for `6 / 2` with any derivatives. -/
example (g h : Nat → ℝ) :
    ((Op.bin Bin.div : Op ℝ 2).map (Watched.enc 53 1023)).Stable Watched.val
      fun v => (![(⟨6, g, fun _ _ => 0⟩ : Jet ℝ), ⟨2, h, fun _ _ => 0⟩] v).f := by
  simp [Op.map, Op.Stable, Bin.dom, Bin.reg]

/-- `C72_rate` for an expression with `asin`, `pow` and `hypot` on a box. -/
example := C72_rate exDyn2_valid (Or.inl rfl) exConv
  (S := Set.Icc ![-3 / 4, 2] ![-1 / 4, 4]) isCompact_Icc
  (fun _ hx => (exConv_box hx).1) (fun _ hx => (exConv_box hx).2.1) fun _ hx => (exConv_box hx).2.2

/-- `C72_sparse` for `a / b`, with hash maps traversed in opposite orders. -/
example (x : String → ℝ) := C72_sparse (p := 53) (emax := 1023) (.bin .div (.var "a") (.var "b")) x
  exFwd_ok (fun _ => exFwd_ok) exRev_ok fun _ => exRev_ok

end HJ
