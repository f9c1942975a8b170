import Verif.Proofs.PyPrecise
import Verif.Props.ConvergeRun
import Verif.Props.EvalErr
import Verif.Proofs.Setter
import Verif.Proofs.Caller
import Verif.Spec.Mixed

/-!
# Client code with jets and numbers in arithmetics with vanishing error (helper lemmas)
-/

namespace HJ

open Filter Topology

section
variable {ι : Type} {l : Filter ι} {α : ι → Type} [∀ k, CMath (α k)] {u : ι → Prec} {ω : ι → ℝ}
  {M : ∀ k, FinErr (α k) (u k)} {c : Cfg} {n : Nat} {L : Type} {val : L → ℝ} {enc : ∀ k, L → α k}

/-! ## Scalar operands of any kind -/

theorem Fn.limL (hu : Fine u l ω) {enc₀ : ∀ k, ℝ → α k}
    (henc₀ : ∀ s, Lim M l ω (fun k => enc₀ k s) (fun _ => s) s)
    (henc : ∀ s, Lim M l ω (fun k => enc k s) (fun _ => val s) (val s)) {o : Nat} (φ : Fn L)
    {x : ∀ k, α k} {xR : ι → ℝ} {r : ℝ} (h : Lim M l ω x xR r) (hd : (φ.map val).dom o r)
    (h0 : ∀ b, φ.map val = .pow b → 0 < r) :
    LimU M l ω (fun k => (φ.map (enc k)).coef (x k)) (fun k => (φ.map val).coef (xR k))
      ((φ.map val).coef r) := by
  classical
  have key : ∀ b : L, ∀ s : ℝ, Lim M l ω (fun k => if s = val b then enc k b else enc₀ k s)
      (fun _ => s) s := fun b s => by
    by_cases hs : s = val b
    · subst hs; simpa using henc b
    · simpa [hs] using henc₀ s
  cases φ with
  | pow b =>
    have := Fn.lim hu _ (key b) (.pow (val b)) h hd h0
    simpa [Fn.map] using this
  | logB b =>
    have := Fn.lim hu _ (key b) (.logB (val b)) h hd h0
    simpa [Fn.map] using this
  | sqrt => exact Fn.lim hu _ henc₀ .sqrt h hd h0
  | cbrt => exact Fn.lim hu _ henc₀ .cbrt h hd h0
  | reciprocal => exact Fn.lim hu _ henc₀ .reciprocal h hd h0
  | cos => exact Fn.lim hu _ henc₀ .cos h hd h0
  | sin => exact Fn.lim hu _ henc₀ .sin h hd h0
  | tan => exact Fn.lim hu _ henc₀ .tan h hd h0
  | acos => exact Fn.lim hu _ henc₀ .acos h hd h0
  | asin => exact Fn.lim hu _ henc₀ .asin h hd h0
  | atan => exact Fn.lim hu _ henc₀ .atan h hd h0
  | cosh => exact Fn.lim hu _ henc₀ .cosh h hd h0
  | sinh => exact Fn.lim hu _ henc₀ .sinh h hd h0
  | tanh => exact Fn.lim hu _ henc₀ .tanh h hd h0
  | acosh => exact Fn.lim hu _ henc₀ .acosh h hd h0
  | asinh => exact Fn.lim hu _ henc₀ .asinh h hd h0
  | atanh => exact Fn.lim hu _ henc₀ .atanh h hd h0
  | exp => exact Fn.lim hu _ henc₀ .exp h hd h0
  | log => exact Fn.lim hu _ henc₀ .log h hd h0
  | log2 => exact Fn.lim hu _ henc₀ .log2 h hd h0
  | log10 => exact Fn.lim hu _ henc₀ .log10 h hd h0

/-- Evaluation of an expression converges to the exact jet. -/
theorem eval_convL (hu : Fine u l ω) (hc : c.order = 1 ∨ c.order = 2) {V : Type}
    {enc₀ : ∀ k, ℝ → α k} (henc₀ : ∀ s, Lim M l ω (fun k => enc₀ k s) (fun _ => s) s)
    (henc : ∀ s, Lim M l ω (fun k => enc k s) (fun _ => val s) (val s))
      (ρ : ∀ k, V → Nat → α k)
    (ρR : ι → V → Nat → ℝ)
    (Jv : V → Jet ℝ) (hρ : ∀ v, Conv M l ω c n (fun k => ρ k v) (fun k => ρR k v) (Jv v)) (e : Expr L V)
    (hD : (e.map val).Dom c.order fun v => (Jv v).f) (hR : (e.map val).Regular fun v => (Jv v).f)
    (hP : (e.map val).PowPos fun v => (Jv v).f) :
    ∃ J, Conv M l ω c n (fun k => (e.map (enc k)).evalC c n (ρ k))
      (fun k => (e.map val).evalC c n (ρR k)) J ∧
      J.f = (e.map val).den (fun v => (Jv v).f) ∧
      ∀ (w : V → (Fin n → ℝ) → ℝ) (x : Fin n → ℝ), (∀ v, IsJet c.order n (w v) x (Jv v)) →
        IsJet c.order n (fun y => (e.map val).den fun v => w v y) x J := by
  induction e with
  | var v => exact ⟨Jv v, hρ v, rfl, fun w x hw => hw v⟩
  | const s =>
    refine ⟨_, conv_const (henc s), rfl, fun w x hw => ?_⟩
    refine isJet_mk (fun _ _ => 0) rfl (Filter.Eventually.of_forall fun y => ?_) (fun _ _ => rfl) ?_
    · exact HasFDerivAt.toLin (hasFDerivAt_const (val s) y) (fun i => by simp)
    · exact fun _ i => HasFDerivAt.toLin (hasFDerivAt_const (0 : ℝ) x) (fun i => by simp)
  | neg e ih =>
    obtain ⟨J, hg, hf, hj⟩ := ih hD hR hP
    refine ⟨J.comp1 (-J.f) (-1) 0, conv_lin hg hg.f.neg fun i _ r hr => hr.neg.of_eq (by ring), ?_,
      fun w x hw => ?_⟩
    · simp [Jet.comp1, hf, Expr.den, Expr.map]
    · have := (hj w x hw).comp1 (d2At_affine c.order (-1) 0 J.f)
      simpa [Expr.den, Expr.map] using this
  | abs e ih =>
    obtain ⟨J, hg, hf, hj⟩ := ih hD hR.1 hP
    have hne : J.f ≠ 0 := by rw [hf]; exact hR.2
    refine ⟨_, conv_abs hg hne, ?_, fun w x hw => (hj w x hw).comp1 (d2At_abs c.order hne)⟩
    simp [Jet.comp1, hf, Expr.den, Expr.map]
  | fn φ e ih =>
    obtain ⟨J, hg, hf, hj⟩ := ih hD.1 hR hP.1
    have hdom := hD.2
    have hpow := hP.2
    rw [← hf] at hdom hpow
    have hφ := (φ.map val).real hc hdom fun b hb => (hpow b hb).ne'
    have hl := φ.limL hu henc₀ henc hg.f hdom hpow
    refine ⟨_, conv_uFin hu hg hl.f hl.da hl.daa, ?_, fun w x hw => ?_⟩
    · simp only [Jet.comp1, Expr.den, Expr.map]; rw [hφ.f, hf]
    · rw [hφ.f]
      exact (hj w x hw).comp1 hφ.d2
  | bin o e₁ e₂ ih₁ ih₂ =>
    obtain ⟨J, hg, hf, hj⟩ := ih₁ hD.1 hR.1 hP.1
    obtain ⟨K, kg, kf, kj⟩ := ih₂ hD.2.1 hR.2.1 hP.2
    have hdom := hD.2.2
    have hreg := hR.2.2
    rw [← hf, ← kf] at hdom hreg
    refine ⟨_, o.conv hu hg kg hdom hreg, ?_, fun w x hw => ?_⟩
    · simp [Bin.jet, Jet.comp2, hf, kf, Expr.den, Expr.map]
    · exact o.isJet _ (hj w x hw) (kj w x hw) hdom hreg
  | sbin o e s ih =>
    obtain ⟨J, hg, hf, hj⟩ := ih hD.1 hR hP
    have hdom := hD.2
    rw [← hf] at hdom
    refine ⟨_, o.conv hu (henc s) hg hdom, ?_, fun w x hw => ?_⟩
    · simp [Jet.comp1, hf, Expr.den, Expr.map]
    · exact (hj w x hw).comp1 (o.d2At c.order hdom)
  | hypot3 e₁ e₂ e₃ ih₁ ih₂ ih₃ =>
    obtain ⟨J, hg, hf, hj⟩ := ih₁ hD.1 hR.1 hP.1
    obtain ⟨K, kg, kf, kj⟩ := ih₂ hD.2.1 hR.2.1 hP.2.1
    obtain ⟨L, lg, lf, lj⟩ := ih₃ hD.2.2.1 hR.2.2 hP.2.2
    have hdom := hD.2.2.2
    rw [← hf, ← kf, ← lf] at hdom
    refine ⟨_, conv_hypot3 hu hg kg lg hdom, ?_, fun w x hw => ?_⟩
    · simp [hypot3Jet, Jet.comp3, hf, kf, lf, Expr.den, Expr.map]
    · exact hypot3_isJet _ (hj w x hw) (kj w x hw) (lj w x hw) hdom

variable {V : Type} {x : Fin n → ℝ} {st : ∀ k, Store (α k) V} {stR : ι → Store ℝ V}
  {F : (Fin n → ℝ) → V → ℝ} {enc₀ : ∀ k, ℝ → α k}

theorem Nearing.evalL (h : Nearing M l ω c n x st stR F) (hu : Fine u l ω) (hv : c.Valid)
    (hf : Fits c n) (henc₀ : ∀ s, Lim M l ω (fun k => enc₀ k s) (fun _ => s) s)
    (henc : ∀ s, Lim M l ω (fun k => enc k s) (fun _ => val s) (val s)) (e : Expr L V)
    (hD : (e.map val).Dom c.order (F x)) (hR : (e.map val).Regular (F x))
      (hP : (e.map val).PowPos (F x)) :
    ∃ (r : ∀ k, Nat → α k) (rR : ι → Nat → ℝ) (K : Jet ℝ),
      (∀ k, (e.map (enc k)).evalDD c n (st k) = .ok (obj c n (r k))) ∧
      (∀ k, (e.map val).evalDD c n (stR k) = .ok (obj c n (rR k))) ∧ Conv M l ω c n r rR K ∧
      IsJet c.order n (fun y => (e.map val).den (F y)) x K := by
  obtain ⟨co, coR, J, h1, h1R, h2, h3⟩ := h
  have hx : (fun v => (J v).f) = F x := by
    funext v; exact (h3 v).value.symm
  obtain ⟨K, k1, _, k3⟩ := eval_convL hu hv.order henc₀ henc co coR J h2 e (by rwa [hx]) (by rwa [hx])
    (by rwa [hx])
  exact ⟨_, _, K, fun k => by rw [h1 k]; exact evalDD_obj hv.order hf (co k) _,
    fun k => by rw [h1R k]; exact evalDD_obj hv.order hf (coR k) _, k1,
    k3 (fun v y => F y v) x h3⟩

variable [DecidableEq V]

/-- One statement. -/
theorem Nearing.stepL (h : Nearing M l ω c n x st stR F) (hu : Fine u l ω) (hv : c.Valid)
    (hf : Fits c n) (henc₀ : ∀ s, Lim M l ω (fun k => enc₀ k s) (fun _ => s) s)
    (henc : ∀ s, Lim M l ω (fun k => enc k s) (fun _ => val s) (val s)) (s : Stmt L V)
    (hok : (s.map val).Ok c.order n (F x)) (hP : (s.map val).PowPos (F x)) :
    ∃ (st' : ∀ k, Store (α k) V) (stR' : ι → Store ℝ V),
      (∀ k, (s.map (enc k)).run c n (st k) = (.ok (), st' k)) ∧
      (∀ k, (s.map val).run c n (stR k) = (.ok (), stR' k)) ∧ Nearing M l ω c n x st' stR' fun y =>
        (s.map val).den
        (F y) := by
  cases s with
  | assign t e =>
    obtain ⟨r, rR, K, h1, h1R, h2, h3⟩ := h.evalL hu hv hf henc₀ henc e hok.1 hok.2 hP
    refine ⟨_, _, fun k => ?_, fun k => ?_, h.set h2 h3⟩
    · simp only [Stmt.map, Stmt.run, h1, Store.put]
    · simp only [Stmt.map, Stmt.run, h1R, Store.put]
  | upd o t e =>
    obtain ⟨hD, hR, hdiv, hmul⟩ := hok
    have h' := h
    obtain ⟨co, coR, J, c1, c1R, c2, c3⟩ := h'
    have hst : ∀ k, st k t = obj c n (co k t) := fun k => congrFun (c1 k) t
    have hstR : ∀ k, stR k t = obj c n (coR k t) := fun k => congrFun (c1R k) t
    have hjet : ∀ {K : Jet ℝ}, IsJet c.order n (fun y => (e.map val).den (F y)) x K →
        (o = .div → K.f ≠ 0) ∧
        IsJet c.order n (fun y => o.den (F y t) ((e.map val).den (F y))) x (o.bin.jet (J t) K) := by
      intro K h3
      have hd : o = .div → K.f ≠ 0 := fun ho => by
        rw [← h3.value]; exact hdiv ho
      have := Bin.isJet c.order o.bin (c3 t) h3
        (by cases o <;> first | trivial | exact hd rfl) (by cases o <;> trivial)
      exact ⟨hd, by cases o <;> exact this⟩
    by_cases he : e = .var t
    · subst he
      have hne : o ≠ .mul := fun ho => (hmul ho).1 rfl
      obtain ⟨hd, hj⟩ := hjet (c3 t)
      refine ⟨_, _, fun k => ?_, fun k => ?_,
        h.set (o.updC_conv hu true (c2 t) (c2 t) (fun _ => rfl) hd) hj⟩
      · simp only [Stmt.map, Stmt.run, Expr.map, Store.operand, if_true, Store.change, hst,
          o.run_updC_self hv.order hf hne]
      · simp only [Stmt.map, Stmt.run, Expr.map, Store.operand, if_true, Store.change, hstR,
          o.run_updC_self hv.order hf hne]
    · obtain ⟨r, rR, K, h1, h1R, h2, h3⟩ := h.evalL hu hv hf henc₀ henc e hD hR hP
      obtain ⟨hd, hj⟩ := hjet h3
      refine ⟨_, _, fun k => ?_, fun k => ?_,
        h.set (o.updC_conv hu false (c2 t) h2 (fun h => by cases h) hd) hj⟩
      · have hop : (st k).operand c n t (e.map (enc k)) = .ok (.obj (obj c n (r k))) := by
          have := h1 k
          cases e with
          | var w =>
            have hw : w ≠ t := fun hw => he (by rw [hw])
            simp only [Expr.map, Expr.evalDD, Res.ok.injEq] at this
            simp [Store.operand, Expr.map, hw, this]
          | _ =>
            simp only [Expr.map] at this
            simp only [Store.operand, Expr.map, this, Res.ok_bind]
        simp only [Stmt.map, Stmt.run, hop, Store.change, hst,
          o.run_updC hv.order hf (fun ho => (hmul ho).2)]
      · have hop : (stR k).operand c n t (e.map val) = .ok (.obj (obj c n (rR k))) := by
          have := h1R k
          cases e with
          | var w =>
            have hw : w ≠ t := fun hw => he (by rw [hw])
            simp only [Expr.map, Expr.evalDD, Res.ok.injEq] at this
            simp [Store.operand, Expr.map, hw, this]
          | _ =>
            simp only [Expr.map] at this
            simp only [Store.operand, Expr.map, this, Res.ok_bind]
        simp only [Stmt.map, Stmt.run, hop, Store.change, hstR,
          o.run_updC hv.order hf (fun ho => (hmul ho).2)]
  | updS o t s =>
    cases s with
    | cell k => exact hok.elim
    | val s =>
      have h' := h
      obtain ⟨co, coR, J, c1, c1R, c2, c3⟩ := h'
      have hst : ∀ k, st k t = obj c n (co k t) := fun k => congrFun (c1 k) t
      have hstR : ∀ k, stR k t = obj c n (coR k t) := fun k => congrFun (c1R k) t
      have hd := o.updSC_conv hu (c2 t) (henc s) (fun ho => hok ho)
      refine ⟨_, _, fun k => ?_, fun k => ?_, h.set hd ?_⟩
      · simp only [Stmt.map, Stmt.run, Store.change, hst, AOp.runS_updSC]
      · simp only [Stmt.map, Stmt.run, Store.change, hstR, AOp.runS_updSC]
      · have := (c3 t).comp1 (o.sbin.d2At c.order (x := (J t).f) (s := val s)
          (by cases o <;> first | trivial | exact hok rfl))
        cases o <;> exact this
  | setF t v => exact hok.elim
  | setG t i v => exact hok.elim
  | setH t i j v => exact hok.elim
  | setZero t => exact hok.elim

omit [DecidableEq V] in
/-- One comparison. -/
theorem Nearing.condL (h : Nearing M l ω c n x st stR F) (hu : Fine u l ω) (hv : c.Valid)
    (hf : Fits c n) (henc₀ : ∀ s, Lim M l ω (fun k => enc₀ k s) (fun _ => s) s)
    (henc : ∀ s, Lim M l ω (fun k => enc k s) (fun _ => val s) (val s))
      (hcmp : ∀ k, (M k).ExactCmp)
    (b : Cond L V) (hs : (b.map val).Sure c.order (F x)) (hP : (b.map val).PowPos (F x)) {q : Bool}
    (hq : q = true ↔ (b.map val).Holds (F x)) :
    ∀ᶠ k in l, (b.map (enc k)).run c n (st k) = .ok q ∧ (b.map val).run c n (stR k) = .ok q := by
  obtain ⟨hi, hne⟩ := hs
  cases b with
  | cmp op e₁ e₂ =>
    obtain ⟨r, rR, K, h1, h1R, h2, h3⟩ := h.evalL hu hv hf henc₀ henc e₁ hi.1.1 hi.1.2 hP.1
    obtain ⟨r', rR', K', h1', h1R', h2', h3'⟩ := h.evalL hu hv hf henc₀ henc e₂ hi.2.1 hi.2.2 hP.2
    refine (cmp_lim (h2.f.of_eq h3.value.symm) (h2'.f.of_eq h3'.value.symm) hne hcmp op hq).mono
      fun k hk => ?_
    simp only [Cond.map, Cond.run, h1, h1', h1R, h1R', Res.ok_bind, DD.cmp, f_obj, hk.1, hk.2, and_self]
  | cmpS op e s =>
    obtain ⟨r, rR, K, h1, h1R, h2, h3⟩ := h.evalL hu hv hf henc₀ henc e hi.1 hi.2 hP
    refine (cmp_lim (h2.f.of_eq h3.value.symm) (henc s) hne hcmp op hq).mono fun k hk => ?_
    simp only [Cond.map, Cond.run, h1, h1R, Res.ok_bind, DD.cmpS, f_obj, hk.1, hk.2, and_self]
  | sCmp op s e =>
    obtain ⟨r, rR, K, h1, h1R, h2, h3⟩ := h.evalL hu hv hf henc₀ henc e hi.1 hi.2 hP
    refine (cmp_lim (h2.f.of_eq h3.value.symm) (henc s) hne hcmp op.mirror (q := q) ?_).mono
      fun k hk => ?_
    · rw [hq]
      cases op <;> simp [Cond.map, Cond.Holds, DD.CmpOp.mirror, DD.CmpOp.rel, eq_comm]
    · simp only [Cond.map, Cond.run, h1, h1R, Res.ok_bind, DD.sCmp, DD.cmpS, f_obj, hk.1, hk.2, and_self]

/-! ## Numbers -/

theorem Fn.plain_coef {β : Type} [CMath β] (φ : Fn β) (s : β) : φ.plain s = (φ.coef s).f := by
  cases φ <;> rfl

omit [DecidableEq V] in
theorem plain_lim (hu : Fine u l ω) (henc₀ : ∀ s, Lim M l ω (fun k => enc₀ k s) (fun _ => s) s)
    {ν : ∀ k, V → α k} {σ : V → ℝ} (hν : ∀ v, Lim M l ω (fun k => ν k v) (fun _ => σ v) (σ v))
    (e : Expr ℝ V) (he : e.NumOk σ) :
    Lim M l ω (fun k => (e.map (enc₀ k)).plain (· ÷ₛ ·) (ν k)) (fun _ => e.den σ) (e.den σ) := by
  obtain ⟨hD, hR, hP⟩ := he
  induction e with
  | var v => exact hν v
  | const s => exact henc₀ s
  | neg e ih => exact (ih hD hR hP).neg
  | abs e ih => exact (ih hD hR.1 hP).absNum hu
  | fn φ e ih =>
    have h := ih hD.1 hR hP.1
    have hl := (φ.lim hu enc₀ henc₀ h hD.2 hP.2).f
    rw [(φ.real (.inl rfl) hD.2 fun b hb => (hP.2 b hb).ne').f] at hl
    simp only [Expr.map, Expr.plain, Fn.plain_coef]
    exact hl
  | bin o e₁ e₂ ih₁ ih₂ =>
    have h := ih₁ hD.1 hR.1 hP.1
    have g := ih₂ hD.2.1 hR.2.1 hP.2
    have hdom := hD.2.2
    have hreg := hR.2.2
    cases o with
    | add => exact h.add hu g
    | sub => exact h.sub hu g
    | mul => exact h.mul hu g
    | div => exact h.div hu g hdom
    | atan2 => exact h.atan2 hu g hreg
    | hypot =>
      refine h.hypot hu g ?_
      rcases not_and_or.1 hdom with h0 | h0
      · have := pow_pos (abs_pos.2 h0) 2
        rw [sq_abs] at this
        positivity
      · have := pow_pos (abs_pos.2 h0) 2
        rw [sq_abs] at this
        positivity
  | sbin o e s ih =>
    have h := ih hD.1 hR hP
    have g := henc₀ s
    have hdom := hD.2
    cases o with
    | addS => exact h.add hu g
    | sAdd => exact g.add hu h
    | subS => exact h.sub hu g
    | sSub => exact g.sub hu h
    | mulS => exact h.mul hu g
    | sMul => exact g.mul hu h
    | divS => exact h.div hu g hdom
    | sDiv => exact g.div hu h hdom
  | hypot3 e₁ e₂ e₃ ih₁ ih₂ ih₃ =>
    have h1 := ih₁ hD.1 hR.1 hP.1
    have h2 := ih₂ hD.2.1 hR.2.1 hP.2.1
    have h3 := ih₃ hD.2.2.1 hR.2.2 hP.2.2
    have hdom := hD.2.2.2
    refine h1.hypot3 hu h2 h3 ?_
    by_contra hcon
    refine hdom ⟨?_, ?_, ?_⟩ <;> nlinarith
      [sq_nonneg (e₁.den σ), sq_nonneg (e₂.den σ), sq_nonneg (e₃.den σ)]

/-! ## Client code -/

variable {W Q : Type} [DecidableEq W] {ν : ∀ k, W → α k}

/-- Jets and numbers converge to the mathematical state. -/
structure MNear (M : ∀ k, FinErr (α k) (u k)) (l : Filter ι) (ω : ι → ℝ) (c : Cfg) (x : Fin n → ℝ)
    (st : ∀ k, Store (α k) V) (ν : ∀ k, W → α k) (σ : MixSt n V W) : Prop where
  jets : ∃ ρR : Store ℝ V, Nearing M l ω c n x st (fun _ => ρR) σ.fns
  nums : ∀ w, Lim M l ω (fun k => ν k w) (fun _ => σ.nums w) (σ.nums w)

theorem MNear.setNum {σ : MixSt n V W} (h : MNear M l ω c x st ν σ) {s : ∀ k, α k} {r : ℝ} (t : W)
    (hs : Lim M l ω s (fun _ => r) r) :
    MNear M l ω c x st (fun k => HJ.setNum (ν k) t (s k)) ⟨σ.fns, setVal σ.nums t r⟩ where
  jets := h.jets
  nums w := by
    by_cases hw : w = t
    · simpa [HJ.setNum, setVal, hw] using hs
    · simpa [HJ.setNum, setVal, hw] using h.nums w

theorem MNear.scalars {σ : MixSt n V W} (h : MNear M l ω c x st ν σ)
    (henc₀ : ∀ s, Lim M l ω (fun k => enc₀ k s) (fun _ => s) s) (s : ℝ ⊕ W) :
    Lim M l ω (fun k => scalarOf (ν k) (Sum.map (enc₀ k) id s)) (fun _ => scalarOf σ.nums s)
      (scalarOf σ.nums s) := by
  cases s with
  | inl s => exact henc₀ s
  | inr w => exact h.nums w

omit [DecidableEq V] in
theorem Expr.map_fuse {A B C : Type} (f : A → B) (g : B → C) (e : Expr A V) :
    (e.map f).map g = e.map (g ∘ f) := by
  induction e with
  | fn φ e ih => cases φ <;> simp [Expr.map, Fn.map, ih]
  | _ => simp_all [Expr.map]

omit [DecidableEq V] in
theorem Stmt.map_fuse {A B C : Type} (f : A → B) (g : B → C) (s : Stmt A V) :
    (s.map f).map g = s.map (g ∘ f) := by
  cases s with
  | updS o t s => cases s <;> rfl
  | _ => simp [Stmt.map, Expr.map_fuse]

omit [DecidableEq V] in
theorem Cond.map_fuse {A B C : Type} (f : A → B) (g : B → C) (b : Cond A V) :
    (b.map f).map g = b.map (g ∘ f) := by
  cases b <;> simp [Cond.map, Expr.map_fuse]

omit [DecidableEq V] [DecidableEq W] in
theorem MNear.obj [l.NeBot] (hc : c.order = 1 ∨ c.order = 2) (hf : Fits c n) {σ : MixSt n V W}
    (h : MNear M l ω c x st ν σ) (v : V) :
    ObjNear M l ω c x (fun k => st k v) fun y => σ.fns y v := by
  obtain ⟨ρR, co, coR, J, h1, h2, h3, h4⟩ := h.jets
  obtain ⟨k₀, -⟩ := Filter.nonempty_of_mem (Filter.univ_mem : Set.univ ∈ l)
  have hR : ∀ k, (jetOf n (coR k v)).Eqv c.order n (jetOf n (coR k₀ v)) := fun k => by
    have e := congrFun ((h2 k).symm.trans (h2 k₀)) v
    have := shows_obj hc hf (coR k v)
    rw [e] at this
    exact this.unique (shows_obj hc hf (coR k₀ v))
  refine ⟨fun k => co k v, coR k₀ v, J v, .of_forall fun k => congrFun (h1 k) v, ⟨?_, fun i hi => ?_,
    fun ho i j hij hj => ?_, (h3 v).sym⟩, h4 v⟩
  · exact Lim.congr' (.of_forall fun _ => rfl) (.of_forall fun k => (hR k).1) (h3 v).f
  · exact Lim.congr' (.of_forall fun _ => rfl) (.of_forall fun k => (hR k).2.1 i hi) ((h3 v).g i hi)
  · refine Lim.congr' (.of_forall fun _ => rfl) (.of_forall fun k => ?_) ((h3 v).h ho i j hij hj)
    have := (hR k).2.2 ho i j (by omega) hj
    simpa only [jetOf, if_pos hij] using this

omit [DecidableEq W] in
theorem MNear.put {σ : MixSt n V W} (h : MNear M l ω c x st ν σ) {t : V} {r : ∀ k, Nat → α k}
    {rR : Nat → ℝ} {K : Jet ℝ} (hr : Conv M l ω c n r (fun _ => rR) K) {φ : (Fin n → ℝ) → ℝ}
    (hK : IsJet c.order n φ x K) :
    MNear M l ω c x (fun k => (st k).set t (HJ.obj c n (r k))) ν
      ⟨fun y => setVal (σ.fns y) t (φ y), σ.nums⟩ :=
  let ⟨_, hj⟩ := h.jets
  ⟨⟨_, hj.set hr hK⟩, h.nums⟩

/-- `eval` on a jet and numbers that converge. -/
theorem MNear.eval_lim [l.NeBot] (hu : Fine u l ω) (hv : c.Valid) (hf : Fits c n)
    (hω : ∀ k, ω k = (u k).rel + (u k).abs)
    (hhalf : ∀ k, (M k).fin Arith.half ∧ (M k).val Arith.half = 1 / 2) {σ : MixSt n V W}
    (h : MNear M l ω c x st ν σ) (v : V) (d : List W) (hl : n ≤ d.length) :
    ∃ s : ∀ k, α k, (∀ᶠ k in l, (st k v).eval c (d.map (ν k)) = .ok (s k)) ∧
      Lim M l ω s (fun _ => taylorAt c.order (fun y => σ.fns y v) x fun i => σ.nums d[i])
        (taylorAt c.order (fun y => σ.fns y v) x fun i => σ.nums d[i]) := by
  set F := fun y => σ.fns y v with hF
  set T := taylorAt c.order F x fun i => σ.nums d[i]
  have hn : ∀ k, ‖ω k‖ = (u k).rel + (u k).abs := fun k => by
    rw [hω]; exact Real.norm_of_nonneg (add_nonneg (M k).rel_nonneg (M k).abs_nonneg)
  have hnum : ∀ᶠ C : ℝ in atTop, ∀ i : Fin n, ∀ᶠ k in l, (M k).fin (ν k d[i]) ∧
      |(M k).val (ν k d[i]) - σ.nums d[i]| ≤ C * ‖ω k‖ :=
    eventually_all.2 fun i => (Asymptotics.isBigO_iff_eventually_isBigOWith.1 (h.nums d[i]).rate).mono
      fun C hC => ((h.nums d[i]).fin.and hC.bound).mono fun k hk =>
        ⟨hk.1, by simpa only [Real.norm_eq_abs] using hk.2⟩
  have hg : ∀ᶠ C : ℝ in atTop, ∀ i, |partialD F x i| ≤ C := eventually_all.2 fun i =>
    eventually_ge_atTop _
  have hh : ∀ᶠ C : ℝ in atTop, ∀ i j, |partialD (fun y => partialD F y i) x j| ≤ C :=
    eventually_all.2 fun i => eventually_all.2 fun j => eventually_ge_atTop _
  have hd : ∀ᶠ C : ℝ in atTop, ∀ i : Fin n, |σ.nums d[i]| ≤ C :=
    eventually_all.2 fun i => eventually_ge_atTop _
  obtain ⟨C, ⟨⟨⟨⟨⟨⟨h1, h2⟩, h3⟩, h4⟩, h5⟩, h6⟩, h7⟩⟩ :=
    (((((((h.obj hv.order hf v).errLe hv.order hf).and
    hnum).and hg).and hh).and hd).and (eventually_ge_atTop 1)).and (eventually_ge_atTop |F x|) |>.exists
  have hs : Tendsto (fun k => (u k).rel + (u k).abs) l (𝓝 0) := by simpa using hu.rel.add hu.abs
  have key : ∀ᶠ k in l, ∃ a, (st k v).eval c (d.map (ν k)) = .ok a ∧
      CloseTo (M k) (grow^[2 * n + 4] C) a T := by
    filter_upwards
      [h1, eventually_all.2 h2, hs.eventually_le_const one_pos, hu.range (grow^[2 * n + 4] C)]
      with k k1 k2 k3 k4
    rw [hn] at k1
    simp only [hn] at k2
    exact eval_close (M := M k) hv.order h6 k3 k4 (hhalf k)
      { size := k1.size
        f := k1.f.imp fun s hs => ⟨hs.1, hs.2.1, hs.2.2, h7⟩
        g := fun i => (k1.g i).imp fun s hs => ⟨hs.1, hs.2.1, hs.2.2, h3 i⟩
        h := fun h i j => (k1.h h i j).imp fun s hs => ⟨hs.1, hs.2.1, hs.2.2, h4 i j⟩ }
          (by simpa using hl)
      fun i => by
        simpa using ⟨(k2 i).1, (k2 i).2, h5 i⟩
  classical
  have hch : ∀ k, ∃ a : α k, (∃ a, (st k v).eval c (d.map (ν k)) = .ok a ∧
      CloseTo (M k) (grow^[2 * n + 4] C) a T) → (st k v).eval c (d.map (ν k)) = .ok a ∧
      CloseTo (M k) (grow^[2 * n + 4] C) a T := fun k => by
    by_cases hk : ∃ a, (st k v).eval c (d.map (ν k)) = .ok a ∧ CloseTo (M k) (grow^[2 * n + 4] C) a T
    · exact ⟨hk.choose, fun _ => hk.choose_spec⟩
    · exact ⟨Arith.lit 0, fun h => absurd h hk⟩
  choose s hs' using hch
  have hr : (fun k => (M k).val (s k) - T) =O[l] ω := by
    refine Asymptotics.IsBigO.of_bound (grow^[2 * n + 4] C) (key.mono fun k hk => ?_)
    rw [hn, Real.norm_eq_abs]
    exact (hs' k hk).2.err
  refine ⟨s, key.mono fun k hk => (hs' k hk).1, ⟨?_, tendsto_const_nhds, hr⟩,
    key.mono fun k hk => (hs' k hk).2.fin⟩
  have hz : Tendsto ω l (𝓝 0) := by
    rw [show ω = fun k => (u k).rel + (u k).abs from funext hω]; exact hs
  simpa using (hr.trans_tendsto hz).add_const T


/-- One call. -/
theorem MNear.call [l.NeBot] (hu : Fine u l ω) (hv : c.Valid) (hf : Fits c n)
    (hω : ∀ k, ω k = (u k).rel + (u k).abs)
    (hhalf : ∀ k, (M k).fin Arith.half ∧ (M k).val Arith.half = 1 / 2)
    (hcmp : ∀ k, (M k).ExactCmp) (henc₀ : ∀ s, Lim M l ω (fun k => enc₀ k s) (fun _ => s) s)
    {σ σ' : MixSt n V W} (h : MNear M l ω c x st ν σ) {m : MCall ℝ V W} {a : Answer ℝ}
    (hm : MixCall c.order x m σ a σ') :
    ∃ (st' : ∀ k, Store (α k) V) (ν' : ∀ k, W → α k),
      (∀ᶠ k in l, ∃ a', a'.map (M k).val = a ∧
        mixLibrary (α k) V W c n (m.map (enc₀ k)) (st k, ν k) = (.ok a', st' k, ν' k)) ∧
      MNear M l ω c x st' ν' σ' := by
  have hs := h.scalars henc₀
  obtain ⟨ρR, hj⟩ := h.jets
  obtain ⟨k₀, -⟩ := Filter.nonempty_of_mem (Filter.univ_mem : Set.univ ∈ l)
  cases hm with
  | act s σ hok hP =>
    obtain ⟨st', stR', h1, h1R, h2⟩ := hj.stepL hu hv hf henc₀ hs s hok hP
    have hc : stR' = fun _ => stR' k₀ := funext fun k => by
      have := (h1R k).symm.trans (h1R k₀)
      simpa using this
    refine ⟨st', ν, .of_forall fun k => ⟨.done, rfl, ?_⟩, ⟨_, hc ▸ h2⟩, h.nums⟩
    simp only [MCall.map, mixLibrary, Stmt.map_fuse]
    have := h1 k
    simp only [Function.comp_def, this, Answer.of]
  | ask b σ hb hP hr =>
    refine ⟨st, ν, (hj.condL hu hv hf henc₀ hs hcmp b hb hP hr).mono fun k hk => ⟨.truth _, rfl, ?_⟩, h⟩
    simp only [MCall.map, mixLibrary, Cond.map_fuse]
    simp only [Function.comp_def, hk.1, Answer.of]
  | vari t i s σ =>
    have hl1 : Lim M l ω (fun _ => Arith.lit 1) (fun _ => (1 : ℝ)) 1 :=
      (Lim.lit (z := 1) (by norm_num)).goal_eq (fun _ => Int.cast_one) (by simp)
    have hl0 : Lim M l ω (fun _ => Arith.lit 0) (fun _ => (0 : ℝ)) 0 :=
      (Lim.lit (z := 0) (by norm_num)).goal_eq (fun _ => Int.cast_zero) (by simp)
    refine ⟨_, ν, .of_forall fun k => ⟨.done, rfl, ?_⟩, ⟨_, hj.set (t := t)
      (r := fun k => varC i.val (scalarOf (ν k) (Sum.map (enc₀ k) id s)))
      (rR := fun _ => varC i.val (scalarOf σ.nums s)) (K := varJet i (scalarOf σ.nums s))
        ⟨?_, ?_, ?_, ?_⟩ ?_⟩,
      h.nums⟩
    · simp only [MCall.map, mixLibrary, var_obj hf i.2, Store.put, Answer.of]
    · simpa [varC, varJet] using hs s
    · intro j _
      by_cases hj : j = i.val
      · simpa [varC, varJet, hj, Arith.lit] using hl1
      · simpa [varC, varJet, hj, Arith.lit] using hl0
    · intro _ j j' hj hj'
      have := pos_gt n j j'
      have h1 : pos n j j' ≠ 0 := by omega
      have h2 : pos n j j' ≠ 1 + i.val := by have := i.2; omega
      simpa [varC, varJet, h1, h2, Arith.lit] using hl0
    · intro _ _; rfl
    · have h2 := (isJet_var c.order x i).shift (scalarOf σ.nums s - x i)
      have e1 : (fun y : Fin n → ℝ => y i + (scalarOf σ.nums s - x i)) =
          fun y => scalarOf σ.nums s + (y i - x i) := by
        funext y; ring
      rw [e1] at h2
      have e2 : { varJet i (x i) with f := (varJet i (x i)).f + (scalarOf σ.nums s - x i) } =
          varJet i (scalarOf σ.nums s) := by
        simp [varJet]
      rwa [e2] at h2
  | compute t e σ he =>
    exact ⟨st, _, .of_forall fun k => ⟨.done, rfl, rfl⟩, h.setNum t (plain_lim hu henc₀ h.nums e he)⟩
  | test op e₁ e₂ σ h₁ h₂ hne hr =>
    refine
      ⟨st, ν, (cmp_lim (plain_lim hu henc₀ h.nums e₁ h₁) (plain_lim hu henc₀ h.nums e₂ h₂) hne hcmp op
      hr).mono fun k hk => ⟨.truth _, rfl, ?_⟩, h⟩
    simp only [MCall.map, mixLibrary, hk.1]
  | f t v σ =>
    obtain ⟨co, coR, J, h1, h3, h4⟩ := h.obj hv.order hf v
    refine ⟨st, _, h1.mono fun k hk => ⟨.done, rfl, ?_⟩,
      h.setNum t (h4.value.symm ▸ h3.f.goal_const)⟩
    simp only [MCall.map, mixLibrary, hk, f_obj, readNum]
  | g t v i σ =>
    obtain ⟨co, coR, J, h1, h3, h4⟩ := h.obj hv.order hf v
    have e : partialD (fun y => σ.fns y v) x i = J.g i := by
      simp only [partialD, h4.grad.fderiv, lin_single]
    refine ⟨st, _, h1.mono fun k hk => ⟨.done, rfl, ?_⟩,
      h.setNum t (e.symm ▸ (h3.g i i.2).goal_const)⟩
    simp only [MCall.map, mixLibrary, hk, g_obj hf _ i.2, readNum]
  | h t v i j σ ho =>
    obtain ⟨co, coR, J, h1, h3, h4⟩ := h.obj hv.order hf v
    have e : partialDD (fun y => σ.fns y v) x i j = J.h i j := by
      simp only [partialDD, partialD, (h4.hess ho i).fderiv, lin_single]
    have hl : Lim M l ω (fun k => (jetOf n (co k)).h i j) (fun _ => J.h i j) (J.h i j) := by
      simp only [jetOf]
      by_cases hij : i.val ≤ j.val
      · simp only [if_pos hij]
        exact (h3.h ho i j hij j.2).goal_const
      · simp only [if_neg hij]
        rw [h3.sym i j]
        exact (h3.h ho j i (by omega) i.2).goal_const
    refine ⟨st, _, h1.mono fun k hk => ⟨.done, rfl, ?_⟩, h.setNum t (e.symm ▸ hl)⟩
    simp only [MCall.map, mixLibrary, hk, (shows_obj hv.order hf (co k)).h ho i j i.2 j.2, readNum]
  | eval t v d hl σ =>
    obtain ⟨s, h1, h2⟩ := h.eval_lim hu hv hf hω hhalf v d hl
    refine ⟨st, _, h1.mono fun k hk => ⟨.done, rfl, ?_⟩, h.setNum t h2⟩
    simp only [MCall.map, mixLibrary, hk, readNum]
  | setF t s σ =>
    obtain ⟨co, coR, J, h1, h3, h4⟩ := h.obj hv.order hf t
    refine ⟨_, ν, h1.mono fun k hk => ⟨.done, rfl, ?_⟩, h.put (t := t)
      (r := fun k m => if m = 0 then scalarOf (ν k) (Sum.map (enc₀ k) id s) else co k m)
      (rR := fun m => if m = 0 then scalarOf σ.nums s else coR m) (K := J.putF (scalarOf σ.nums s))
      ⟨?_, ?_, ?_, h3.sym⟩ (h4.withF _)⟩
    · simp only [MCall.map, mixLibrary, Stmt.map, Stmt.run, hk, setF_obj, Store.put, Answer.of]
    · simpa [Jet.putF] using hs s
    · intro i hi
      simpa [Jet.putF] using h3.g i hi
    · intro ho i j hij hj
      have := pos_gt n i j
      have h0 : pos n i j ≠ 0 := by omega
      simpa [Jet.putF, h0] using h3.h ho i j hij hj
  | setG t i s σ =>
    obtain ⟨co, coR, J, h1, h3, h4⟩ := h.obj hv.order hf t
    refine ⟨_, ν, h1.mono fun k hk => ⟨.done, rfl, ?_⟩, h.put (t := t)
      (r := fun k m => if m = 1 + i.val then scalarOf (ν k) (Sum.map (enc₀ k) id s) else co k m)
      (rR := fun m => if m = 1 + i.val then scalarOf σ.nums s else coR m)
      (K := J.putG i (scalarOf σ.nums s)) ⟨?_, ?_, ?_, h3.sym⟩ (h4.withG i _)⟩
    · simp only [MCall.map, mixLibrary, Stmt.map, Stmt.run, hk, setG_obj hf _ i.2, Store.put, Answer.of]
    · have h0 : ¬ 0 = 1 + i.val := by omega
      simpa [Jet.putG, h0] using h3.f
    · intro j hj
      by_cases hji : j = i.val
      · simpa [Jet.putG, hji] using hs s
      · simpa [Jet.putG, hji] using h3.g j hj
    · intro ho j j' hij hj
      have := pos_gt n j j'
      have h0 : pos n j j' ≠ 1 + i.val := by have := i.2; omega
      simpa [Jet.putG, h0] using h3.h ho j j' hij hj
  | setH t i j s σ ho =>
    obtain ⟨co, coR, J, h1, h3, h4⟩ := h.obj hv.order hf t
    have hp := pos_gt n (min i.val j.val) (max i.val j.val)
    have e1 : (min (i.val : Int) j.val).toNat = min i.val j.val := by omega
    have e2 : (max (i.val : Int) j.val).toNat = max i.val j.val := by omega
    refine ⟨_, ν, h1.mono fun k hk => ⟨.done, rfl, ?_⟩, h.put (t := t)
      (r := fun k m => if m = pos n (min i.val j.val) (max i.val j.val) then
        scalarOf (ν k) (Sum.map (enc₀ k) id s) else co k m)
      (rR := fun m => if m = pos n (min i.val j.val) (max i.val j.val) then scalarOf σ.nums s else coR m)
      (K := J.putH i j (scalarOf σ.nums s)) ⟨?_, ?_, ?_, ?_⟩ ?_⟩
    · simp only [MCall.map, mixLibrary, Stmt.map, Stmt.run, hk,
        setH_obj ho hf _ (Int.natCast_nonneg _) (Int.ofNat_lt.2 i.2) (Int.natCast_nonneg _)
          (Int.ofNat_lt.2 j.2), Store.put, Answer.of, e1, e2]
    · have h0 : ¬ 0 = pos n (min i.val j.val) (max i.val j.val) := by omega
      simpa [Jet.putH, h0] using h3.f
    · intro m hm
      have h0 : ¬ 1 + m = pos n (min i.val j.val) (max i.val j.val) := by omega
      simpa [Jet.putH, h0] using h3.g m hm
    · intro _ a b hab hb
      have hi := i.2
      have hj := j.2
      by_cases hp : pos n a b = pos n (min i.val j.val) (max i.val j.val)
      · have h1 := off_inj hab hb (p := min i.val j.val) (q := max i.val j.val) (by omega) (by omega)
          (by unfold pos at hp; omega)
        have h2 : a = i.val ∧ b = j.val ∨ a = j.val ∧ b = i.val := by omega
        simpa only [Jet.putH, if_pos hp, if_pos h2] using hs s
      · have h2 : ¬ (a = i.val ∧ b = j.val ∨ a = j.val ∧ b = i.val) := by
          rintro (⟨rfl, rfl⟩ | ⟨rfl, rfl⟩)
          · exact hp (by rw [min_eq_left hab, max_eq_right hab])
          · exact hp (by rw [min_eq_right hab, max_eq_left hab])
        simpa only [Jet.putH, if_neg hp, if_neg h2] using h3.h ho a b hab hb
    · intro a b
      simp only [Jet.putH, h3.sym b a]
      congr 1
      rw [eq_iff_iff]
      tauto
    · rw [ho] at h4 ⊢
      exact h4.withH i j _
  | setZero t σ =>
    obtain ⟨co, coR, J, h1, h3, h4⟩ := h.obj hv.order hf t
    have hl0 : Lim M l ω (fun _ => Arith.lit 0) (fun _ => (0 : ℝ)) 0 :=
      (Lim.lit (z := 0) (by norm_num)).goal_eq (fun _ => Int.cast_zero) (by simp)
    refine ⟨_, ν, h1.mono fun k hk => ⟨.done, rfl, ?_⟩, h.put (t := t)
      (r := fun k _ => Arith.lit 0) (rR := fun _ => 0) (K := ⟨0, fun _ => 0, fun _ _ => 0⟩)
      ⟨hl0, fun _ _ => hl0, fun _ _ _ _ _ => hl0, fun _ _ => rfl⟩ (isJet_const _ _ _)⟩
    have e : DD.setZero (HJ.obj c n (co k)) = HJ.obj c n fun _ => Arith.lit 0 := by
      simp only [DD.setZero, HJ.obj, HJ.mk, List.map_map, Function.comp_def]
      rfl
    simp only [MCall.map, mixLibrary, Stmt.map, Stmt.run, hk, e, Store.put, Answer.of]

/-- The client code. -/
theorem mixclient_near [l.NeBot] (hu : Fine u l ω) (hv : c.Valid) (hf : Fits c n)
    (hω : ∀ k, ω k = (u k).rel + (u k).abs)
    (hhalf : ∀ k, (M k).fin Arith.half ∧ (M k).val Arith.half = 1 / 2)
    (hcmp : ∀ k, (M k).ExactCmp) (henc₀ : ∀ s, Lim M l ω (fun k => enc₀ k s) (fun _ => s) s)
    {cl : Caller (MCall ℝ V W) (Answer ℝ) Q} {q q' : Q} {σ σ' : MixSt n V W}
    (he : cl.Ends (MixCall c.order x) q σ q' σ') (h : MNear M l ω c x st ν σ) :
    ∃ (m : Nat) (st' : ∀ k, Store (α k) V) (ν' : ∀ k, W → α k),
      (∀ᶠ k in l, ∀ j ≥ m, (cl.map (MCall.map (enc₀ k)) (Answer.map (M k).val)).run
          (mixLibrary (α k) V W c n) j q (st k, ν k) = some (.ok q', st' k, ν' k)) ∧
      MNear M l ω c x st' ν' σ' := by
  induction he generalizing st ν with
  | stop hn =>
    refine ⟨1, st, ν, .of_forall fun k j hj => ?_, h⟩
    obtain ⟨j, rfl⟩ : ∃ i, j = i + 1 := ⟨j - 1, by omega⟩
    simp [Caller.run, Caller.map, hn]
  | call hn hk _ ih =>
    obtain ⟨st₁, ν₁, h1, h2⟩ := h.call hu hv hf hω hhalf hcmp henc₀ hk
    obtain ⟨m, st', ν', h3, h4⟩ := ih h2
    refine ⟨m + 1, st', ν', (h1.and h3).mono fun k ⟨⟨a', ha, h1⟩, hk⟩ j hj => ?_, h4⟩
    obtain ⟨j, rfl⟩ : ∃ i, j = i + 1 := ⟨j - 1, by omega⟩
    simp only [Caller.run, Caller.map, hn, Option.map_some, h1, ha]
    exact hk j (by omega)

end

end HJ
