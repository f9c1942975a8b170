import Verif.Proofs.Core
import Verif.Spec.Samples

/-!
# C16, C17, C18, C20, C30, C36, C46: derivatives in exact arithmetic

Scalars are `XReal`: exact real numbers with the IEEE rules for infinities and NaN.
-/

namespace HJ

open Topology

variable {c : Cfg} {n : Nat}

/-! ## C18 -/

/-- **C18.** If the operands are jets of functions `u v` at `x`, the evaluation succeeds and, when the
result can be trusted, it is the jet of the composed function at `x`. -/
theorem C18_chain_rule (hv : c.Valid) (hfit : c.tsize = -1 ∨ c.tsize = n) {V : Type}
    (e : Expr ℝ V) (u : V → (Fin n → ℝ) → ℝ) (x : Fin n → ℝ) (ρ : V → DD XReal) (J : V → Jet ℝ)
    (hρ : ∀ v, Shows c n (ρ v) (J v).lift) (hu : ∀ v, IsJet c.order n (u v) x (J v))
    (hreg : e.Regular fun v => u v x) :
    ∃ r, (e.map XReal.num).evalDD c n ρ = .ok r ∧
      (Accepted c n e (fun v => u v x) r →
        ∃ K : Jet ℝ, Shows c n r K.lift ∧
          IsJet c.order n (fun y => e.den fun v => u v y) x K) := by
  obtain ⟨r, h1, h2, h3, h4⟩ := core hv.order hfit ρ J hρ e
  have hval : (fun v => u v x) = fun v => (J v).f := funext fun v => (hu v).value
  rw [hval] at hreg ⊢
  refine ⟨r, h1, fun ha => ?_⟩
  have hD : e.Dom c.order fun v => (J v).f := by
    rcases ha with hD | ⟨hn, hB, hfin⟩
    · exact hD
    · by_contra hD
      exact h4 hn hB hD hfin
  obtain ⟨_, K, hs, _, hj, _⟩ := h3 hD
  exact ⟨K, hs, hj u x hu hreg⟩

/-! ## C33 (the derivative part) -/

/-- **C33.** For a non-zero value `abs` gives the jet of the absolute value of the function. -/
theorem C33_abs_jet (hv : c.Valid) {F : (Fin n → ℝ) → ℝ} {p : Fin n → ℝ} {x : DD XReal} {J : Jet ℝ}
    (hx : Shows c n x J.lift) (hJ : IsJet c.order n F p J) (h0 : F p ≠ 0) :
    ∃ r, ∃ K : Jet ℝ, x.abs c = .ok r ∧ Shows c n r K.lift ∧
      IsJet c.order n (fun y => |F y|) p K := by
  obtain ⟨r, h1, h2⟩ := C18_chain_rule hv hx.wf.fits (V := Unit) (.abs (.var ())) (fun _ => F) p
    (fun _ => x) (fun _ => J) (fun _ => hx) (fun _ => hJ) ⟨trivial, h0⟩
  obtain ⟨K, hs, hj⟩ := h2 (Or.inl trivial)
  exact ⟨r, K, h1, hs, hj⟩

/-- The coordinate `y ↦ y₀` at `(-3, 2)`. -/
example : ∃ r, ∃ K : Jet ℝ, (obj exDyn2 2 (varC 0 (.num (-3)))).abs exDyn2 = .ok r ∧
    Shows exDyn2 2 r K.lift ∧ IsJet 2 2 (fun y => |y 0|) ![-3, 2] K :=
  C33_abs_jet exDyn2_valid ((good_var (by norm_num : 0 < 2) (-3)).shows exDyn2_valid.order (Or.inl rfl))
    (isJet_var (o := 2) ![-3, 2] (0 : Fin 2)) (by norm_num)

/-! ## C16 and C17 -/

/-- The jet of the function an expression stands for. -/
theorem evalAt_jet (hv : c.Valid) (hfit : c.tsize = -1 ∨ c.tsize = n) (e : Expr ℝ (Fin n))
    (x : Fin n → ℝ) (hreg : e.Regular x) :
    ∃ r, evalAt c e x = .ok r ∧
      (Accepted c n e x r → ∃ K : Jet ℝ, Shows c n r K.lift ∧ IsJet c.order n (fun y => e.den y) x K) := by
  obtain ⟨r, h1, h2, h3, h4⟩ := core_at hv.order hfit e x
  refine ⟨r, h1, fun ha => ?_⟩
  have hD : e.Dom c.order x := by
    rcases ha with hD | ⟨hn, hB, hfin⟩
    · exact hD
    · by_contra hD
      exact h4 hn hB hD hfin
  obtain ⟨_, K, hs, _, hj, _⟩ := h3 hD
  exact ⟨K, hs, hj hreg⟩

/-- **C16.** Evaluating on independent variables gives the exact value and gradient. -/
theorem C16_gradient_exact (hv : c.Valid) (hfit : c.tsize = -1 ∨ c.tsize = n) (e : Expr ℝ (Fin n))
    (x : Fin n → ℝ) (hreg : e.Regular x) :
    ∃ r, evalAt c e x = .ok r ∧
      (Accepted c n e x r →
        DifferentiableAt ℝ (fun y => e.den y) x ∧ r.size c = n ∧
        r.f = .ok (.num (e.den x)) ∧
        ∀ i : Fin n, r.g c i = .ok (.num (partialD (fun y => e.den y) x i))) := by
  obtain ⟨r, h1, h2⟩ := evalAt_jet hv hfit e x hreg
  refine ⟨r, h1, fun ha => ?_⟩
  obtain ⟨K, hs, hj⟩ := h2 ha
  refine ⟨hj.grad.differentiableAt, hs.size, ?_, fun i => ?_⟩
  · rw [hs.f, hj.value]; rfl
  · rw [hs.g i i.2]
    unfold partialD
    rw [hj.grad.fderiv, lin_single]
    rfl

/-- **C17.** The second-order type also gives the exact Hessian. -/
theorem C17_hessian_exact (hv : c.Valid) (h2 : c.order = 2) (hfit : c.tsize = -1 ∨ c.tsize = n)
    (e : Expr ℝ (Fin n)) (x : Fin n → ℝ) (hreg : e.Regular x) :
    ∃ r, evalAt c e x = .ok r ∧
      (Accepted c n e x r →
        (∀ᶠ y in 𝓝 x, DifferentiableAt ℝ (fun y => e.den y) y) ∧
        (∀ i : Fin n, DifferentiableAt ℝ (fun y => partialD (fun y => e.den y) y i) x) ∧
        ∀ i j : Fin n, r.h c i j =
          .ok (.num (partialD (fun y => partialD (fun y => e.den y) y i) x j))) := by
  obtain ⟨r, h1, h3⟩ := evalAt_jet hv hfit e x hreg
  refine ⟨r, h1, fun ha => ?_⟩
  obtain ⟨K, hs, hj⟩ := h3 ha
  refine ⟨hj.near h2, fun i => (hj.hess h2 i).differentiableAt, fun i j => ?_⟩
  rw [hs.h h2 i j i.2 j.2]
  have := (hj.hess h2 i).fderiv
  unfold partialD
  rw [this, lin_single]
  rfl

/-! ### A concrete case: `exp(x₀) / x₁` at `(0, 2)` -/

/-- `exp(x₀) / x₁`. -/
def exExpr : Expr ℝ (Fin 2) := .bin .div (.fn .exp (.var 0)) (.var 1)

theorem exExpr_dom (o : Nat) : exExpr.Dom o ![0, 2] := by
  simp [exExpr, Expr.Dom, Fn.dom, Bin.dom, Expr.den]

theorem exExpr_regular : exExpr.Regular ![0, 2] := by
  simp [exExpr, Expr.Regular, Bin.reg]

example : ∃ r, evalAt exDyn2 exExpr ![0, 2] = .ok r ∧ r.f = .ok (.num (1 / 2)) ∧
    r.g exDyn2 0 = .ok (.num (partialD (fun y => Real.exp (y 0) / y 1) ![0, 2] 0)) := by
  obtain ⟨r, h1, h2⟩ := C16_gradient_exact exDyn2_valid (Or.inl rfl) exExpr ![0, 2] exExpr_regular
  obtain ⟨_, _, hf, hg⟩ := h2 (Or.inl (exExpr_dom _))
  refine ⟨r, h1, ?_, hg 0⟩
  rw [hf]
  simp [exExpr, Expr.den, Fn.den, Bin.den]

example : ∃ r, evalAt exSta2 exExpr ![0, 2] = .ok r ∧ r.h exSta2 0 1 =
    .ok (.num (partialD (fun y => partialD (fun y => Real.exp (y 0) / y 1) y 0) ![0, 2] 1)) := by
  obtain ⟨r, h1, h2⟩ := C17_hessian_exact exSta2_valid rfl (Or.inr rfl) exExpr ![0, 2] exExpr_regular
  exact ⟨r, h1, (h2 (Or.inl (exExpr_dom _))).2.2 0 1⟩

/-- C18 with the inner functions `y ↦ y₀` and `y ↦ y₁` in the static type. -/
example : ∃ r K, (exExpr.map XReal.num).evalDD exSta2 2
      (fun i : Fin 2 => obj exSta2 2 (varC i (.num ((![0, 2] : Fin 2 → ℝ) i)))) = .ok r ∧
    Shows exSta2 2 r (Jet.lift K) ∧
    IsJet 2 2 (fun y => exExpr.den fun v => y v) ![0, 2] K := by
  obtain ⟨r, h1, h2⟩ := C18_chain_rule exSta2_valid (Or.inr rfl) exExpr (fun v y => y v) ![0, 2]
    (fun i : Fin 2 => obj exSta2 2 (varC i (.num ((![0, 2] : Fin 2 → ℝ) i))))
    (fun i => varJet i ((![0, 2] : Fin 2 → ℝ) i))
    (fun i => (good_var i.2 _).shows exSta2_valid.order (Or.inr rfl))
    (fun i => isJet_var _ _ i) exExpr_regular
  obtain ⟨K, hK⟩ := h2 (Or.inl (exExpr_dom _))
  exact ⟨r, K, h1, hK⟩

/-! ## C20 -/

/-- **C20.** With at least one variable (and no logarithm to base zero) all components are finite
exactly when every operation is applied inside its domain. -/
theorem C20_finite_iff_domain (hv : c.Valid) (hfit : c.tsize = -1 ∨ c.tsize = n) (hn : 0 < n)
    (e : Expr ℝ (Fin n)) (hB : e.NoBaseZero) (x : Fin n → ℝ) :
    ∃ r, evalAt c e x = .ok r ∧ (FiniteDD r ↔ e.Dom c.order x) := by
  obtain ⟨r, h1, _, h3, h4⟩ := core_at hv.order hfit e x
  refine ⟨r, h1, fun hfin => ?_, fun hD => (h3 hD).1⟩
  by_contra hD
  exact h4 hn hB hD hfin

/-- The square root of `x₀²` at the origin is reported, although its value is finite. -/
example : ∃ r, evalAt exDyn2 (.fn .sqrt (.bin .mul (.var 0) (.var 0)) : Expr ℝ (Fin 1)) (fun _ => 0)
    = .ok r ∧ ¬ FiniteDD r := by
  obtain ⟨r, h1, h2⟩ := C20_finite_iff_domain exDyn2_valid (Or.inl rfl) (by norm_num)
    (.fn .sqrt (.bin .mul (.var 0) (.var 0)) : Expr ℝ (Fin 1)) (by simp [Expr.NoBaseZero]) (fun _ => 0)
  refine ⟨r, h1, fun h => ?_⟩
  have := h2.mp h
  simp [Expr.Dom, Fn.dom, Expr.den, Bin.den] at this

/-- Why C20 excludes logarithms to base zero: `log(0)` of a positive jet comes out as the constant 0,
with all components finite. -/
theorem C20_log_base_zero (hv : c.Valid) {x : DD XReal} {J : Jet ℝ} (hx : Shows c n x J.lift)
    (hpos : 0 < J.f) :
    ∃ r, DD.un c x (DD.kLogB (.num 0)) = .ok r ∧ FiniteDD r ∧
      Shows c n r (Jet.lift ⟨0, fun _ => 0, fun _ _ => 0⟩) := by
  obtain ⟨a, K, rfl, hg, hJK⟩ := good_of_shows hv.order hx
  have hf := hx.wf.fits
  rw [hJK.1.1] at hpos
  have h0 : CMath.log (XReal.num 0) = XReal.inf true := by
    simp [CMath.log, XReal.lg]
  have h1 : CMath.log (XReal.num K.f) = XReal.num (Real.log K.f) := by
    simp [CMath.log, XReal.lg, hpos]
  have hm : XReal.num K.f *ₛ XReal.inf true = XReal.inf true := by
    change XReal.mulInf K.f true = _
    simp [XReal.mulInf, hpos.ne', not_lt.mpr hpos.le]
  have hd : ∀ y : ℝ, XReal.num y ÷ₛ XReal.inf true = XReal.num 0 := fun _ => rfl
  have hG := good_uFin hg (f := (DD.kLogB (.num 0) (a 0)).f) (da := (DD.kLogB (.num 0) (a 0)).da)
    (daa := (DD.kLogB (.num 0) (a 0)).daa) (f' := 0) (d := 0) (dd := 0)
    (by rw [hg.f]; simp only [DD.kLogB, h0, h1, hd])
    (by rw [hg.f]; simp only [DD.kLogB, h0, hm, XReal.lit_num, hd])
    (fun _ => by
      rw [hg.f]; simp only [DD.kLogB, h0, hm, XReal.lit_num, hd, XReal.neg_num]
      rw [XReal.div_num hpos.ne']; simp)
  refine ⟨_, un_obj hv.order hf _ a, hG.finite hv.order, ?_⟩
  have := hG.shows hv.order hf
  simpa [Jet.comp1, Jet.lift] using this

/-- Why C20 needs a variable: without derivatives to carry it, a division by zero can be lost in a
later finite value, here `atan(1 / 0)`. -/
theorem C20_no_variable (hv : c.Valid) (hdyn : c.tsize = -1) :
    ∃ r, evalAt c (.fn .atan (.sbin .sDiv (.const 0) 1) : Expr ℝ (Fin 0)) (fun _ => 0) = .ok r ∧
      FiniteDD r ∧ ¬ (.fn .atan (.sbin .sDiv (.const 0) 1) : Expr ℝ (Fin 0)).Dom c.order (fun _ => 0) := by
  have hf : Fits c 0 := Or.inl hdyn
  have hvars := variables_obj (c := c) (vals := List.ofFn fun i : Fin 0 => XReal.num 0)
    (by simpa using hf)
  have he := evalDD_obj hv.order hf (fun i : Fin 0 => varC i (XReal.num 0))
    ((.fn .atan (.sbin .sDiv (.const 0) 1) : Expr ℝ (Fin 0)).map XReal.num)
  refine ⟨obj c 0 (((.fn .atan (.sbin .sDiv (.const 0) 1) : Expr ℝ (Fin 0)).map XReal.num).evalC c 0
    fun i : Fin 0 => varC i (XReal.num 0)), ?_, ?_, ?_⟩
  · unfold evalAt
    rw [hvars]
    simp only [Res.ok_bind]
    rw [← he]
    congr 1
    funext i
    exact i.elim0
  · refine finiteDD_obj.mpr <| forall_cells hv.order ?_ (by omega) (by omega)
    simp only [Expr.map, Fn.map, Expr.evalC, Fn.runC, uFin_zero, SBin.runC, constC, if_pos]
    have : XReal.num 1 ÷ₛ XReal.num 0 = XReal.inf false := by
      change XReal.div _ _ = _
      simp [XReal.div]
    rw [this]
    trivial
  · simp [Expr.Dom, SBin.dom, Expr.den]

example : ∃ r, DD.un exDyn2 (obj exDyn2 1 (varC 0 (.num 5))) (DD.kLogB (.num 0)) = .ok r ∧
    FiniteDD r := by
  obtain ⟨r, h1, h2, _⟩ := C20_log_base_zero exDyn2_valid (n := 1) (J := varJet 0 5)
    ((good_var (by norm_num) 5).shows exDyn2_valid.order (Or.inl rfl)) (by norm_num [varJet])
  exact ⟨r, h1, h2⟩

/-! ## C36 -/

/-- **C36.** A variable the expression does not mention has zero derivatives in the result. -/
theorem C36_unused_variable (hv : c.Valid) (hfit : c.tsize = -1 ∨ c.tsize = n)
    (e : Expr ℝ (Fin n)) (x : Fin n → ℝ) (i : Fin n) (hi : ¬ e.Mentions i) :
    ∃ r, evalAt c e x = .ok r ∧
      (Accepted c n e x r →
        r.g c i = .ok (.num 0) ∧
        (c.order = 2 → ∀ j : Fin n, r.h c i j = .ok (.num 0) ∧ r.h c j i = .ok (.num 0))) := by
  obtain ⟨r, h1, h2, h3, h4⟩ := core_at hv.order hfit e x
  refine ⟨r, h1, fun ha => ?_⟩
  have hD : e.Dom c.order x := by
    rcases ha with hD | ⟨hn, hB, hfin⟩
    · exact hD
    · by_contra hD
      exact h4 hn hB hD hfin
  obtain ⟨_, K, hs, _, _, hz⟩ := h3 hD
  have hz := hz i hi
  refine ⟨by rw [hs.g i i.2]; simp [Jet.lift, hz.1], fun h2 j => ?_⟩
  have : r.h c i j = .ok (.num 0) := by rw [hs.h h2 i j i.2 j.2]; simp [Jet.lift, hz.2]
  refine ⟨this, ?_⟩
  rw [hs.h h2 j i j.2 i.2, ← hs.sym h2 i.2 j.2, ← hs.h h2 i j i.2 j.2]
  exact this

/-- `|x₀|` at the origin, where it is not differentiable, has no derivative in direction 1. -/
example : ∃ r, evalAt exDyn2 (.abs (.var 0) : Expr ℝ (Fin 2)) (fun _ => 0) = .ok r ∧
    r.g exDyn2 1 = .ok (.num 0) := by
  obtain ⟨r, h1, h2⟩ := C36_unused_variable exDyn2_valid (Or.inl rfl)
    (.abs (.var 0) : Expr ℝ (Fin 2)) (fun _ => 0) 1 (by simp [Expr.Mentions])
  exact ⟨r, h1, (h2 (Or.inl trivial)).1⟩

/-! ## C30 -/

/-- **C30.** Expressions that denote the same function near `x` give identical objects. -/
theorem C30_equal_functions (hv : c.Valid) (hfit : c.tsize = -1 ∨ c.tsize = n)
    (e₁ e₂ : Expr ℝ (Fin n)) (x : Fin n → ℝ) (hreg₁ : e₁.Regular x) (hreg₂ : e₂.Regular x)
    (heq : ∀ᶠ y in 𝓝 x, e₁.den y = e₂.den y) :
    ∃ r₁ r₂, evalAt c e₁ x = .ok r₁ ∧ evalAt c e₂ x = .ok r₂ ∧
      (Accepted c n e₁ x r₁ → Accepted c n e₂ x r₂ → r₁ = r₂) := by
  obtain ⟨r₁, h1, h2⟩ := evalAt_jet hv hfit e₁ x hreg₁
  obtain ⟨r₂, k1, k2⟩ := evalAt_jet hv hfit e₂ x hreg₂
  refine ⟨r₁, r₂, h1, k1, fun ha hb => ?_⟩
  obtain ⟨J, hs, hj⟩ := h2 ha
  obtain ⟨K, ks, kj⟩ := k2 hb
  have := (hj.congr_fun heq).unique kj
  refine hs.ext hv.order ks ⟨?_, fun i hi => ?_, fun ho i j hi hj => ?_⟩
  · simp [Jet.lift, this.1]
  · simp [Jet.lift, this.2.1 i hi]
  · simp [Jet.lift, this.2.2 ho i j hi hj]

theorem C30_dom (hv : c.Valid) (hfit : c.tsize = -1 ∨ c.tsize = n)
    (e₁ e₂ : Expr ℝ (Fin n)) (x : Fin n → ℝ) (hreg₁ : e₁.Regular x) (hreg₂ : e₂.Regular x)
    (hD₁ : e₁.Dom c.order x) (hD₂ : e₂.Dom c.order x)
    (heq : ∀ᶠ y in 𝓝 x, e₁.den y = e₂.den y) :
    ∃ r, evalAt c e₁ x = .ok r ∧ evalAt c e₂ x = .ok r := by
  obtain ⟨r₁, r₂, h1, h2, h3⟩ := C30_equal_functions hv hfit e₁ e₂ x hreg₁ hreg₂ heq
  have := h3 (Or.inl hD₁) (Or.inl hD₂)
  exact ⟨r₁, h1, this ▸ h2⟩

/-- `sin² + cos² = 1` on all components. -/
theorem C30_sin_cos (hv : c.Valid) (hfit : c.tsize = -1 ∨ c.tsize = n) (e : Expr ℝ (Fin n))
    (x : Fin n → ℝ) (hreg : e.Regular x) (hD : e.Dom c.order x) :
    ∃ r, evalAt c (.bin .add (.bin .mul (.fn .sin e) (.fn .sin e))
        (.bin .mul (.fn .cos e) (.fn .cos e))) x = .ok r ∧
      evalAt c (.const 1 : Expr ℝ (Fin n)) x = .ok r := by
  refine C30_dom hv hfit _ _ x ?_ trivial ?_ trivial (Filter.Eventually.of_forall fun y => ?_)
  · simp [Expr.Regular, hreg, Bin.reg]
  · simp [Expr.Dom, hD, Fn.dom, Bin.dom]
  · simp only [Expr.den, Bin.den, Fn.den]
    nlinarith [Real.sin_sq_add_cos_sq (e.den y)]

/-- `exp(log a) = a` for a positive value. -/
theorem C30_exp_log (hv : c.Valid) (hfit : c.tsize = -1 ∨ c.tsize = n) (e : Expr ℝ (Fin n))
    (x : Fin n → ℝ) (hreg : e.Regular x) (hD : e.Dom c.order x) (hpos : 0 < e.den x) :
    ∃ r, evalAt c (.fn .exp (.fn .log e)) x = .ok r ∧ evalAt c e x = .ok r := by
  have hcont : ContinuousAt (fun y => e.den y) x := by
    obtain ⟨r, _, h⟩ := C16_gradient_exact hv hfit e x hreg
    exact (h (Or.inl hD)).1.continuousAt
  refine C30_dom hv hfit _ _ x (by simpa [Expr.Regular] using hreg) hreg
    (by simp [Expr.Dom, Fn.dom, hD, hpos]) hD ?_
  filter_upwards [hcont.eventually (lt_mem_nhds hpos)] with y hy
  simp only [Expr.den, Fn.den]
  exact Real.exp_log hy

/-- `hypot(a, b, c) = hypot(hypot(a, b), c)`. -/
theorem C30_hypot (hv : c.Valid) (hfit : c.tsize = -1 ∨ c.tsize = n) (a b d : Expr ℝ (Fin n))
    (x : Fin n → ℝ) (ha : a.Regular x) (hb : b.Regular x) (hd : d.Regular x)
    (hDa : a.Dom c.order x) (hDb : b.Dom c.order x) (hDd : d.Dom c.order x)
    (hne : ¬ (a.den x = 0 ∧ b.den x = 0)) :
    ∃ r, evalAt c (.hypot3 a b d) x = .ok r ∧
      evalAt c (.bin .hypot (.bin .hypot a b) d) x = .ok r := by
  have hpos := Real.sqrt_pos.mpr (sq_add_sq_pos hne)
  refine C30_dom hv hfit _ _ x ⟨ha, hb, hd⟩ ⟨⟨ha, hb, trivial⟩, hd, trivial⟩
    ⟨hDa, hDb, hDd, fun h => hne ⟨h.1, h.2.1⟩⟩ ⟨⟨hDa, hDb, hne⟩, hDd, ?_⟩
    (Filter.Eventually.of_forall fun y => ?_)
  · rintro ⟨h, _⟩
    exact hpos.ne' h
  · simp only [Expr.den, Bin.den]
    rw [Real.sq_sqrt (by positivity)]

/-- `pow(a, 2) = a * a`, at every value including zero and negative ones. -/
theorem C30_pow_two (hv : c.Valid) (hfit : c.tsize = -1 ∨ c.tsize = n) (e : Expr ℝ (Fin n))
    (x : Fin n → ℝ) (hreg : e.Regular x) (hD : e.Dom c.order x) :
    ∃ r, evalAt c (.fn (.pow 2) e) x = .ok r ∧ evalAt c (.bin .mul e e) x = .ok r := by
  have ho : (c.order : ℝ) ≤ 2 := by rcases hv.order with h | h <;> rw [h] <;> norm_num
  refine C30_dom hv hfit _ _ x hreg ⟨hreg, hreg, trivial⟩ ⟨hD, ?_⟩ ⟨hD, hD, trivial⟩
    (Filter.Eventually.of_forall fun y => ?_)
  · rcases lt_trichotomy (e.den x) 0 with h | h | h
    · exact Or.inr (Or.inl ⟨h, 2, by norm_num⟩)
    · exact Or.inr (Or.inr ⟨h, ho⟩)
    · exact Or.inl h
  · simp only [Expr.den, Bin.den, Fn.den]
    rw [show (2 : ℝ) = ((2 : ℕ) : ℝ) by norm_num, Real.rpow_natCast, pow_two]

example : ∃ r, evalAt exDyn2 (.fn .exp (.fn .log (.var 0)) : Expr ℝ (Fin 1)) (fun _ => 3) = .ok r ∧
    evalAt exDyn2 (.var 0 : Expr ℝ (Fin 1)) (fun _ => 3) = .ok r :=
  C30_exp_log exDyn2_valid (Or.inl rfl) _ _ trivial trivial (by norm_num [Expr.den])

/-! ## C46 -/

/-- **C46.** `pow(b)` of a jet: finite exactly for positive values, for negative values with integer
exponent and at zero with exponent at least the order; then it is the jet of `u(·)^b`. -/
theorem C46_pow (hv : c.Valid) (hn : 0 < n) {x : DD XReal} {J : Jet ℝ} (hx : Shows c n x J.lift)
    (b : ℝ) :
    ∃ r, DD.un c x (DD.kPow (.num b)) = .ok r ∧
      (FiniteDD r ↔ 0 < J.f ∨ (J.f < 0 ∧ ∃ k : ℤ, b = k) ∨ (J.f = 0 ∧ (c.order : ℝ) ≤ b)) ∧
      (FiniteDD r → ∀ (u : (Fin n → ℝ) → ℝ) (p : Fin n → ℝ), IsJet c.order n u p J →
        ∃ K : Jet ℝ, Shows c n r K.lift ∧ IsJet c.order n (fun y => u y ^ b) p K) := by
  obtain ⟨r, h1, _, h3, h4⟩ := core hv.order hx.wf.fits (fun _ : Unit => x) (fun _ => J)
    (fun _ => hx) (.fn (.pow b) (.var ()))
  have hiff : FiniteDD r ↔ 0 < J.f ∨ (J.f < 0 ∧ ∃ k : ℤ, b = k) ∨ (J.f = 0 ∧ (c.order : ℝ) ≤ b) := by
    constructor
    · intro hfin
      by_contra hD
      refine h4 hn (by simp [Expr.NoBaseZero]) (fun h => hD h.2) hfin
    · intro h
      exact (h3 ⟨trivial, h⟩).1
  refine ⟨r, h1, hiff, fun hfin u p hu => ?_⟩
  obtain ⟨_, K, hs, _, hj, _⟩ := h3 ⟨trivial, hiff.mp hfin⟩
  exact ⟨K, hs, hj (fun _ => u) p (fun _ => hu) trivial⟩

/-- At value zero the exponents 0 and (second order) 1 are reported as non-finite although the true
jets exist: they are those of the constant 1 and of the operand itself. -/
theorem C46_pow_at_zero (hv : c.Valid) (hn : 0 < n) {x : DD XReal} {J : Jet ℝ}
    (hx : Shows c n x J.lift) (h0 : J.f = 0) :
    (∃ r, DD.un c x (DD.kPow (.num 0)) = .ok r ∧ ¬ FiniteDD r) ∧
    (c.order = 2 → ∃ r, DD.un c x (DD.kPow (.num 1)) = .ok r ∧ ¬ FiniteDD r) ∧
    (∀ (u : (Fin n → ℝ) → ℝ) (p : Fin n → ℝ), IsJet c.order n u p J →
      IsJet c.order n (fun y => u y ^ (0 : ℝ)) p ⟨1, fun _ => 0, fun _ _ => 0⟩ ∧
      IsJet c.order n (fun y => u y ^ (1 : ℝ)) p J) := by
  refine ⟨?_, fun h2 => ?_, fun u p hu => ⟨?_, ?_⟩⟩
  · obtain ⟨r, h1, h2, _⟩ := C46_pow hv hn hx 0
    refine ⟨r, h1, fun h => ?_⟩
    rcases h2.mp h with h | h | h
    · linarith
    · linarith [h.1]
    · rcases hv.order with ho | ho <;> rw [ho] at h <;> norm_num at h
  · obtain ⟨r, h1, h3, _⟩ := C46_pow hv hn hx 1
    refine ⟨r, h1, fun h => ?_⟩
    rcases h3.mp h with h | h | h
    · linarith
    · linarith [h.1]
    · rw [h2] at h; norm_num at h
  · have h1 : (fun y => u y ^ (0 : ℝ)) = fun _ => (1 : ℝ) := by funext y; simp
    rw [h1]
    refine isJet_mk (fun _ _ => 0) rfl (Filter.Eventually.of_forall fun y => ?_) (fun _ _ => rfl) ?_
    · exact HasFDerivAt.toLin (hasFDerivAt_const (1 : ℝ) y) (fun i => by simp)
    · exact fun _ i => HasFDerivAt.toLin (hasFDerivAt_const (0 : ℝ) p) (fun i => by simp)
  · simpa using hu

/-- `pow(-2, 3)` is finite, `pow(0, 1)` of second order is not. -/
example : (∃ r, DD.un exDyn2 (obj exDyn2 1 (varC 0 (.num (-2)))) (DD.kPow (.num 3)) = .ok r ∧
      FiniteDD r) ∧
    ∃ r, DD.un exDyn2 (obj exDyn2 1 (varC 0 (.num 0))) (DD.kPow (.num 1)) = .ok r ∧
      ¬ FiniteDD r := by
  constructor
  · obtain ⟨r, h1, h2, _⟩ := C46_pow exDyn2_valid (n := 1) one_pos (J := varJet 0 (-2))
      ((good_var (by norm_num) _).shows exDyn2_valid.order (Or.inl rfl)) 3
    exact ⟨r, h1, h2.mpr (Or.inr (Or.inl ⟨by norm_num [varJet], 3, by norm_num⟩))⟩
  · exact (C46_pow_at_zero exDyn2_valid (n := 1) one_pos (J := varJet 0 0)
      ((good_var (by norm_num) _).shows exDyn2_valid.order (Or.inl rfl)) rfl).2.1 rfl

end HJ
