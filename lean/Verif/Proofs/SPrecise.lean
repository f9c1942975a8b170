import Verif.Proofs.ConvergeRun
import Verif.Proofs.ConvergeSparse
import Verif.Props.SProgram
import Verif.Spec.SPrecise

/-!
# C++ client code on `SScalar` in arithmetics with vanishing error (helper lemmas)
-/

namespace HJ

open Filter Topology SMap

section
variable {ι : Type} {l : Filter ι} {α : ι → Type} [∀ k, CMath (α k)] {w : ι → Prec} {ω : ι → ℝ}
  {M : ∀ k, FinErr (α k) (w k)} {x : String → ℝ}

theorem Lim.goal_eq {a : ∀ k, α k} {aR : ι → ℝ} {r s : ℝ} (h : Lim M l ω a aR r) (e : ∀ k, aR k = s)
    (e' : r = s) : Lim M l ω a (fun _ => s) s :=
  (h.congr' (.of_forall fun _ => rfl) (.of_forall e)).of_eq e'

theorem Lim.goal_const [l.NeBot] {a : ∀ k, α k} {c r : ℝ} (h : Lim M l ω a (fun _ => c) r) :
    Lim M l ω a (fun _ => r) r := by
  have : c = r := tendsto_nhds_unique tendsto_const_nhds h.goal
  exact this ▸ h

/-- `w + v` for the names of the right operand, the others are unchanged. -/
theorem Lim.stepAdd (hu : Fine w l ω) {a b : ∀ k, Option (α k)} {g h : ℝ}
    (ha : Lim M l ω (fun k => (a k).getD (Arith.lit 0)) (fun _ => g) g)
    (hb : Lim M l ω (fun k => (b k).getD (Arith.lit 0)) (fun _ => h) h) :
    Lim M l ω (fun k => (SMap.step (fun v w => w +ₛ v) (a k) (b k)).getD (Arith.lit 0))
      (fun _ => g + h) (g + h) := by
  refine Lim.close hu (Nigh.add ha.toNigh hb.toNigh) ((ha.fin.and hb.fin).mono fun k hk => ?_)
  cases hb : b k with
  | none =>
    have := sound_self (M := M) hk.1
    simpa [SMap.step, val_lit0] using this
  | some v =>
    rw [hb] at hk
    simp only [SMap.step, Option.getD_some]
    exact (M k).add _ _ hk.1 hk.2

/-- `w - v` for the names of the right operand, the others are unchanged. -/
theorem Lim.stepSub (hu : Fine w l ω) {a b : ∀ k, Option (α k)} {g h : ℝ}
    (ha : Lim M l ω (fun k => (a k).getD (Arith.lit 0)) (fun _ => g) g)
    (hb : Lim M l ω (fun k => (b k).getD (Arith.lit 0)) (fun _ => h) h) :
    Lim M l ω (fun k => (SMap.step (fun v w => w -ₛ v) (a k) (b k)).getD (Arith.lit 0))
      (fun _ => g - h) (g - h) := by
  refine Lim.close hu (Nigh.sub ha.toNigh hb.toNigh) ((ha.fin.and hb.fin).mono fun k hk => ?_)
  cases hb : b k with
  | none =>
    have := sound_self (M := M) hk.1
    simpa [SMap.step, val_lit0] using this
  | some v =>
    rw [hb] at hk
    simp only [SMap.step, Option.getD_some]
    exact (M k).sub _ _ hk.1 hk.2

/-- Value and entries converge to value and partial derivatives of `F` at `x`. -/
structure SWithErr (M : ∀ k, FinErr (α k) (w k)) (l : Filter ι) (ω : ι → ℝ) (x : String → ℝ)
    (p : ∀ k, SVal (α k)) (F : (String → ℝ) → ℝ) : Prop where
  f : Lim M l ω (fun k => (p k).1) (fun _ => F x) (F x)
  d : ∀ nm, ∃ g, Lim M l ω (fun k => ((p k).2 nm).getD (Arith.lit 0)) (fun _ => g) g ∧
    HasDerivAt (fun t => F (Function.update x nm t)) g (x nm)

/-- The objects under all names converge to the functions `u`. -/
def SNearing {V : Type} (M : ∀ k, FinErr (α k) (w k)) (l : Filter ι) (ω : ι → ℝ) (x : String → ℝ)
    (ρ : ∀ k, SStore (α k) V) (u : (String → ℝ) → V → ℝ) : Prop :=
  ∃ p : ∀ k, V → SVal (α k), (∀ k v, SIsV (ρ k v) (p k v)) ∧
    ∀ v, SWithErr M l ω x (fun k => p k v) fun y => u y v

section ops

variable {V : Type} {p q : ∀ k, SVal (α k)} {F G : (String → ℝ) → ℝ}

theorem SWithErr.eval [l.NeBot] (hw : Fine w l ω) {enc : ∀ k, ℝ → α k}
    (henc : ∀ s, Lim M l ω (fun k => enc k s) (fun _ => s) s) {p : ∀ k, V → SVal (α k)}
    {u : (String → ℝ) → V → ℝ} (h : ∀ v, SWithErr M l ω x (fun k => p k v) fun y => u y v)
    (e : Expr ℝ V) (hD : e.Dom 1 (u x)) (hR : e.Regular (u x)) (hP : e.PowPos (u x)) :
    SWithErr M l ω x (fun k => (e.map (enc k)).evalV (p k)) fun y => e.den (u y) := by
  have key : ∀ nm, Lim M l ω (fun k => ((e.map (enc k)).evalV (p k)).1) (fun _ => e.den (u x))
      (e.den (u x)) ∧ ∃ g, Lim M l ω (fun k => (((e.map (enc k)).evalV (p k)).2 nm).getD (Arith.lit 0))
      (fun _ => g) g ∧ HasDerivAt (fun t => e.den (u (Function.update x nm t))) g (x nm) := by
    intro nm
    choose g hg hd using fun v => (h v).d nm
    obtain ⟨J, h1, h2, h3⟩ := evalV_conv (nm := nm) hw enc henc p
      (fun _ v => (u x v, fun _ => some (g v))) (fun v => ⟨u x v, fun _ => g v, fun _ _ => 0⟩)
      (fun v => ⟨(h v).f, hg v⟩) e hD hR hP
    refine ⟨(h1.f.goal_const).of_eq h2 |>.goal_eq (fun _ => h2) rfl, J.g 0, h1.g.goal_const, ?_⟩
    have hj := h3 (fun v y => u (Function.update x nm (y 0)) v) (fun _ => x nm) fun v => by
      have := isJet_line (hd v)
      simpa using this
    exact hasDeriv_line (F := fun t => e.den (u (Function.update x nm t))) hj
  exact ⟨(key "").1, fun nm => (key nm).2⟩

theorem asg_near (hw : Fine w l ω) {ord : ∀ k, Order (α k)} (ho : ∀ k, (ord k).Ok) (o : AOp)
    {y z : ∀ k, SS (α k)} (hy : ∀ k, SIsV (y k) (p k)) (hz : ∀ k, SIsV (z k) (q k))
    (hp : SWithErr M l ω x p F) (hq : SWithErr M l ω x q G) (hd : o = .div → G x ≠ 0) :
    ∃ r : ∀ k, SS (α k), (∀ k, o.runSS (ord k) (y k) (.obj (z k)) = .ok (r k)) ∧
      ∃ s : ∀ k, SVal (α k), (∀ k, SIsV (r k) (s k)) ∧
        SWithErr M l ω x s fun v => o.den (F v) (G v) := by
  have l1 : Lim M l ω (fun _ => Arith.lit 1) (fun _ => (1 : ℝ)) 1 :=
    (Lim.lit (z := 1) (by norm_num)).goal_eq (fun _ => Int.cast_one) (by simp)
  have e0 : ∀ (H : (String → ℝ) → ℝ) nm, H (Function.update x nm (x nm)) = H x := fun H nm => by
    rw [Function.update_eq_self]
  cases o with
  | add =>
    refine
      ⟨fun k =>
        ⟨some ((p k).1 +ₛ (q k).1), SS.accumInto (ord k) (fun v w => w +ₛ v) (y k).mD (.obj (z k))⟩,
      fun k => ?_, fun k =>
        ((p k).1 +ₛ (q k).1, fun j => step (fun v w => w +ₛ v) ((p k).2 j) ((q k).2 j)),
      fun k => ?_, ?_⟩
    · simp only [AOp.runSS, SS.addAssign, SS.Operand.get, SS.f_ok (hy k), SS.f_ok (hz k), Res.ok_bind]
    · have ha := accumInto_spec (ho k) (fun v w => w +ₛ v) (hy k).nodup (hz k).wf
      exact ⟨rfl, ha.1, fun j => by rw [ha.2, (hy k).look, (hz k).look]⟩
    · refine ⟨hp.f.add hw hq.f, fun nm => ?_⟩
      obtain ⟨g, h1, h2⟩ := hp.d nm
      obtain ⟨g', h1', h2'⟩ := hq.d nm
      exact ⟨g + g', h1.stepAdd hw h1', h2.add h2'⟩
  | sub =>
    refine
      ⟨fun k =>
        ⟨some ((p k).1 -ₛ (q k).1), SS.accumInto (ord k) (fun v w => w -ₛ v) (y k).mD (.obj (z k))⟩,
      fun k => ?_, fun k =>
        ((p k).1 -ₛ (q k).1, fun j => step (fun v w => w -ₛ v) ((p k).2 j) ((q k).2 j)),
      fun k => ?_, ?_⟩
    · simp only [AOp.runSS, SS.subAssign, SS.Operand.get, SS.f_ok (hy k), SS.f_ok (hz k), Res.ok_bind]
    · have ha := accumInto_spec (ho k) (fun v w => w -ₛ v) (hy k).nodup (hz k).wf
      exact ⟨rfl, ha.1, fun j => by rw [ha.2, (hy k).look, (hz k).look]⟩
    · refine ⟨hp.f.sub hw hq.f, fun nm => ?_⟩
      obtain ⟨g, h1, h2⟩ := hp.d nm
      obtain ⟨g', h1', h2'⟩ := hq.d nm
      exact ⟨g - g', h1.stepSub hw h1', h2.sub h2'⟩
  | mul =>
    refine ⟨fun k => ⟨some ((p k).1 *ₛ (q k).1),
        SS.accumInto (ord k) (fun v w => w +ₛ (p k).1 *ₛ v) (scale (y k).mD (q k).1) (.obj (z k))⟩,
      fun k => ?_, fun k => ((p k).1 *ₛ (q k).1,
        fun j => step (fun v w => w +ₛ (p k).1 *ₛ v) (((p k).2 j).map (· *ₛ (q k).1)) ((q k).2 j)),
      fun k => ?_, ?_⟩
    · simp only [AOp.runSS, SS.mulAssign, SS.Operand.get, SS.f_ok (hy k), SS.f_ok (hz k), Res.ok_bind]
    · have hs := scale_spec (m := (y k).mD) (q k).1
      have ha := accumInto_spec (ho k) (fun v w => w +ₛ (p k).1 *ₛ v) (m := scale (y k).mD (q k).1)
        (by rw [hs.1]; exact (hy k).nodup) (hz k).wf
      exact ⟨rfl, ha.1, fun j => by rw [ha.2, hs.2, (hy k).look, (hz k).look]⟩
    · refine ⟨hp.f.mul hw hq.f, fun nm => ?_⟩
      obtain ⟨g, h1, h2⟩ := hp.d nm
      obtain ⟨g', h1', h2'⟩ := hq.d nm
      have := (Lim.map_mul (oR := fun _ => some g) hw h1 hq.f).step (bR := fun _ => some g') hw h1' hp.f
      refine ⟨G x * g + F x * g', this.goal_eq (fun _ => ?_) rfl, ?_⟩
      · show g * G x + F x * g' = _
        ring
      · have := h2.mul h2'
        rw [e0 F, e0 G] at this
        exact this.congr_deriv (by ring)
  | div =>
    have h0 := hd rfl
    have p2 := hq.f.powN hw (n := 2) (by norm_num)
    have cda := l1.div hw hq.f h0
    have cdb := hp.f.neg.div hw p2 (pow_ne_zero 2 h0)
    refine ⟨fun k => ⟨some ((p k).1 ÷ₛ (q k).1),
        SS.accumInto (ord k) (fun v w => w +ₛ (-ₛ (p k).1 ÷ₛ Arith.powN (q k).1 2) *ₛ v)
          (scale (y k).mD (Arith.lit 1 ÷ₛ (q k).1)) (.obj (z k))⟩,
      fun k => ?_, fun k => ((p k).1 ÷ₛ (q k).1,
        fun j => step (fun v w => w +ₛ (-ₛ (p k).1 ÷ₛ Arith.powN (q k).1 2) *ₛ v)
          (((p k).2 j).map (· *ₛ (Arith.lit 1 ÷ₛ (q k).1))) ((q k).2 j)),
      fun k => ?_, ?_⟩
    · simp only [AOp.runSS, SS.divAssign, SS.Operand.get, SS.f_ok (hy k), SS.f_ok (hz k), Res.ok_bind]
    · have hs := scale_spec (m := (y k).mD) (Arith.lit 1 ÷ₛ (q k).1)
      have ha := accumInto_spec (ho k) (fun v w => w +ₛ (-ₛ (p k).1 ÷ₛ Arith.powN (q k).1 2) *ₛ v)
        (m := scale (y k).mD (Arith.lit 1 ÷ₛ (q k).1))
        (by rw [hs.1]; exact (hy k).nodup) (hz k).wf
      exact ⟨rfl, ha.1, fun j => by rw [ha.2, hs.2, (hy k).look, (hz k).look]⟩
    · refine ⟨hp.f.div hw hq.f h0, fun nm => ?_⟩
      obtain ⟨g, h1, h2⟩ := hp.d nm
      obtain ⟨g', h1', h2'⟩ := hq.d nm
      have := (Lim.map_mul (oR := fun _ => some g) hw h1 cda).step (bR := fun _ => some g') hw h1' cdb
      refine ⟨1 / G x * g + -F x / G x ^ 2 * g', this.goal_eq (fun _ => ?_) rfl, ?_⟩
      · show g * (1 / G x) + -F x / G x ^ 2 * g' = _
        ring
      · have := h2.div h2' (by rw [e0 G]; exact h0)
        rw [e0 F, e0 G] at this
        exact this.congr_deriv (by field_simp; ring)

theorem asg_self_near (hw : Fine w l ω) {ord : ∀ k, Order (α k)} (o : AOp)
    {y : ∀ k, SS (α k)} (hy : ∀ k, SIsV (y k) (p k))
    (hp : SWithErr M l ω x p F) (hd : o = .add ∨ o = .sub) :
    ∃ r : ∀ k, SS (α k), (∀ k, o.runSS (ord k) (y k) .self = .ok (r k)) ∧
      ∃ s : ∀ k, SVal (α k), (∀ k, SIsV (r k) (s k)) ∧
        SWithErr M l ω x s fun v => o.den (F v) (F v) := by
  rcases hd with rfl | rfl
  · refine
    ⟨fun k => ⟨some ((p k).1 +ₛ (p k).1), SS.accumInto (ord k) (fun v w => w +ₛ v) (y k).mD .self⟩,
      fun k => ?_, fun k =>
        ((p k).1 +ₛ (p k).1, fun j => step (fun v w => w +ₛ v) ((p k).2 j) ((p k).2 j)),
      fun k => ?_, ?_⟩
    · simp only [AOp.runSS, SS.addAssign, SS.Operand.get, SS.f_ok (hy k), Res.ok_bind]
    · have ha := accumSelf_spec (fun v w => w +ₛ v) (hy k).nodup
      refine ⟨rfl, ha.1, fun j => (ha.2 j).trans ?_⟩
      rw [(hy k).look]
      cases h : (p k).2 j <;> simp [h, step]
    · refine ⟨hp.f.add hw hp.f, fun nm => ?_⟩
      obtain ⟨g, h1, h2⟩ := hp.d nm
      exact ⟨g + g, h1.stepAdd hw h1, h2.add h2⟩
  · refine
    ⟨fun k => ⟨some ((p k).1 -ₛ (p k).1), SS.accumInto (ord k) (fun v w => w -ₛ v) (y k).mD .self⟩,
      fun k => ?_, fun k =>
        ((p k).1 -ₛ (p k).1, fun j => step (fun v w => w -ₛ v) ((p k).2 j) ((p k).2 j)),
      fun k => ?_, ?_⟩
    · simp only [AOp.runSS, SS.subAssign, SS.Operand.get, SS.f_ok (hy k), Res.ok_bind]
    · have ha := accumSelf_spec (fun v w => w -ₛ v) (hy k).nodup
      refine ⟨rfl, ha.1, fun j => (ha.2 j).trans ?_⟩
      rw [(hy k).look]
      cases h : (p k).2 j <;> simp [h, step]
    · refine ⟨hp.f.sub hw hp.f, fun nm => ?_⟩
      obtain ⟨g, h1, h2⟩ := hp.d nm
      exact ⟨g - g, h1.stepSub hw h1, h2.sub h2⟩

theorem asgS_near (hw : Fine w l ω) (o : AOp) {y : ∀ k, SS (α k)} (hy : ∀ k, SIsV (y k) (p k))
    (hp : SWithErr M l ω x p F) {c : ∀ k, α k} {t : ℝ} (hc : Lim M l ω c (fun _ => t) t)
    (hd : o = .div → t ≠ 0) :
    ∃ r : ∀ k, SS (α k), (∀ k, o.runSSs (y k) (c k) = .ok (r k)) ∧
      ∃ s : ∀ k, SVal (α k), (∀ k, SIsV (r k) (s k)) ∧ SWithErr M l ω x s fun v => o.den (F v) t := by
  have l1 : Lim M l ω (fun _ => Arith.lit 1) (fun _ => (1 : ℝ)) 1 :=
    (Lim.lit (z := 1) (by norm_num)).goal_eq (fun _ => by norm_num [Arith.lit]) (by norm_num)
  have hmul : ∀ {c : ∀ k, α k} {t : ℝ} (_ : Lim M l ω c (fun _ => t) t), ∃ r : ∀ k, SS (α k),
      (∀ k, (y k).mulAssignS (c k) = .ok (r k)) ∧
      ∃ s : ∀ k, SVal (α k), (∀ k, SIsV (r k) (s k)) ∧ SWithErr M l ω x s fun v => F v * t := by
    intro c t hc
    refine ⟨fun k => ⟨some ((p k).1 *ₛ c k), accumSelf (fun _ w => w *ₛ c k) (y k).mD⟩, fun k => ?_,
      fun k => ((p k).1 *ₛ c k, fun j => ((p k).2 j).map (· *ₛ c k)), fun k => ?_, ?_⟩
    · simp only [SS.mulAssignS, SS.f_ok (hy k), Res.ok_bind]
    · have ha := accumSelf_spec (fun _ w => w *ₛ c k) (hy k).nodup
      exact ⟨rfl, ha.1, fun j => by rw [ha.2, (hy k).look]⟩
    · refine ⟨hp.f.mul hw hc, fun nm => ?_⟩
      obtain ⟨g, h1, h2⟩ := hp.d nm
      refine
        ⟨g * t, (Lim.map_mul (oR := fun _ => some g) hw h1 hc).goal_eq (fun _ => rfl) (mul_comm _ _),
        h2.mul_const t⟩
  cases o with
  | add =>
    refine ⟨fun k => { y k with mF := some ((p k).1 +ₛ c k) }, fun k => ?_,
      fun k => ((p k).1 +ₛ c k, (p k).2), fun k => ⟨rfl, (hy k).nodup, (hy k).look⟩,
      hp.f.add hw hc, fun nm => ?_⟩
    · simp only [AOp.runSSs, SS.addAssignS, SS.f_ok (hy k), Res.ok_bind]
    · obtain ⟨g, h1, h2⟩ := hp.d nm
      exact ⟨g, h1, h2.add_const t⟩
  | sub =>
    refine ⟨fun k => { y k with mF := some ((p k).1 -ₛ c k) }, fun k => ?_,
      fun k => ((p k).1 -ₛ c k, (p k).2), fun k => ⟨rfl, (hy k).nodup, (hy k).look⟩,
      hp.f.sub hw hc, fun nm => ?_⟩
    · simp only [AOp.runSSs, SS.subAssignS, SS.f_ok (hy k), Res.ok_bind]
    · obtain ⟨g, h1, h2⟩ := hp.d nm
      exact ⟨g, h1, h2.sub_const t⟩
  | mul => exact hmul hc
  | div =>
    obtain ⟨r, h1, s, h2, h3⟩ := hmul (l1.div hw hc (hd rfl))
    refine ⟨r, h1, s, h2, ?_⟩
    have e : (fun v : String → ℝ => AOp.div.den (F v) t) = fun v => F v * (1 / t) := by
      funext v
      simp [AOp.den, div_eq_mul_inv]
    rw [e]
    exact h3

end ops

section client

variable {V Q : Type} [DecidableEq V] {ρ : ∀ k, SStore (α k) V} {u : (String → ℝ) → V → ℝ}

theorem SNearing.put (h : SNearing M l ω x ρ u) (t : V) {r : ∀ k, Res (SS (α k))} {a : ∀ k, SS (α k)}
    (hr : ∀ k, r k = .ok (a k)) {s : ∀ k, SVal (α k)} (hs : ∀ k, SIsV (a k) (s k))
    {F : (String → ℝ) → ℝ} (hF : SWithErr M l ω x s F) :
    ∃ τ : ∀ k, SStore (α k) V, (∀ k, (ρ k).put t (r k) = (.ok (), τ k)) ∧
      SNearing M l ω x τ fun y => setVal (u y) t (F y) := by
  obtain ⟨p, h1, h2⟩ := h
  refine ⟨fun k v => if v = t then a k else ρ k v, fun k => by rw [hr k]; rfl,
    fun k v => if v = t then s k else p k v, fun k v => ?_, fun v => ?_⟩
  · by_cases hv : v = t
    · simp only [hv, if_true]; exact hs k
    · simp only [hv, if_false]; exact h1 k v
  · by_cases hv : v = t
    · simp only [hv, if_true, setVal]; exact hF
    · simp only [hv, if_false, setVal]; exact h2 v

theorem sstep_near [l.NeBot] (hw : Fine w l ω) {enc : ∀ k, ℝ → α k}
    (henc : ∀ s, Lim M l ω (fun k => enc k s) (fun _ => s) s) {ord : ∀ k, Order (α k)}
    (ho : ∀ k, (ord k).Ok) (h : SNearing M l ω x ρ u) (s : SStmt ℝ V) (hs : s.Ok (u x))
    (hP : s.PowPos (u x)) :
    ∃ τ : ∀ k, SStore (α k) V, (∀ k, (s.map (enc k)).run (ord k) (ρ k) = (.ok (), τ k)) ∧
      SNearing M l ω x τ fun y => s.den x y (u y) := by
  obtain ⟨p, h1, h2⟩ := id h
  cases s with
  | assign t e =>
    have hF := SWithErr.eval hw henc h2 e hs.1 hs.2 hP
    choose r k1 k2 using fun k => evalSS_spec (ho k) (ρ k) (p k) (h1 k) (e.map (enc k))
    cases e with
    | var s =>
      choose r k1 k2 using fun k => is_copied (ho k) (h1 k s)
      exact h.put t k1 k2 hF
    | _ => exact h.put t k1 k2 hF
  | vari t nm s =>
    refine h.put t (fun _ => rfl)
      (s := fun k => (enc k s, fun j => if j = nm then some (Arith.lit 1) else none))
      (fun k => SS.is_var (ho k) nm (enc k s)) ⟨?_, fun j => ?_⟩
    · simpa using henc s
    · by_cases hj : j = nm
      · refine ⟨1, ?_, ?_⟩
        · simp only [hj, if_true, Option.getD_some]
          exact (Lim.lit (z := 1) (by norm_num)).goal_eq (fun _ => by norm_num [Arith.lit]) (by norm_num)
        · subst hj
          simpa using ((hasDerivAt_id (x j)).sub_const (x j)).const_add s
      · refine ⟨0, ?_, ?_⟩
        · simp only [hj, if_false, Option.getD_none]
          exact (Lim.lit (z := 0) (by norm_num)).goal_eq (fun _ => by norm_num [Arith.lit]) (by norm_num)
        · simp only [Function.update_of_ne (Ne.symm hj)]
          exact hasDerivAt_const _ _
  | make t s d =>
    have hf : ∀ k j, SMap.find (d.map fun e => (e.1, enc k e.2)) j = (d.find j).map (enc k) := by
      intro k j
      clear hs hP
      induction d with
      | nil => rfl
      | cons e d ih =>
        rw [List.map_cons, find_cons, find_cons, ih]
        by_cases h : e.1 = j <;> simp [h]
    refine h.put t (fun _ => rfl) (s := fun k => (enc k s, fun j => (d.find j).map (enc k)))
      (fun k => SS.is_make (ho k) (by
        have : (d.map fun e => (e.1, enc k e.2)).map Prod.fst = d.map Prod.fst := by
          simp [Function.comp_def]
        rw [keys, this]; exact hs) (hf k) (enc k s)) ⟨?_, fun j => ?_⟩
    · simpa using henc s
    · refine ⟨(d.find j).getD 0, ?_, hasDeriv_affine s d hs j⟩
      cases hj : d.find j with
      | none =>
        simp only [hj, Option.map_none, Option.getD_none]
        exact (Lim.lit (z := 0) (by norm_num)).goal_eq (fun _ => by norm_num [Arith.lit]) (by norm_num)
      | some g =>
        simp only [hj, Option.map_some, Option.getD_some]
        exact henc g
  | upd o t e =>
    obtain ⟨hd, hr, h0, hself⟩ := hs
    have hF := SWithErr.eval hw henc h2 e hd hr hP
    have main : ∃ (b : ∀ k, SS.Operand (α k)) (r : ∀ k, SS (α k)),
        (∀ k, (ρ k).operand ((ord k).sub 1) t (e.map (enc k)) = .ok (b k)) ∧
        (∀ k, o.runSS ((ord k).sub 0) (ρ k t) (b k) = .ok (r k)) ∧
        ∃ s : ∀ k, SVal (α k), (∀ k, SIsV (r k) (s k)) ∧
          SWithErr M l ω x s fun y => o.den (u y t) (e.den (u y)) := by
      choose z k1 k2 using fun k => evalSS_spec ((ho k).sub 1) (ρ k) (p k) (h1 k) (e.map (enc k))
      have hobj : ∀ (z : ∀ k, SS (α k)), (∀ k, SIsV (z k) ((e.map (enc k)).evalV (p k))) →
          ∃ r : ∀ k, SS (α k), (∀ k, o.runSS ((ord k).sub 0) (ρ k t) (.obj (z k)) = .ok (r k)) ∧
          ∃ s : ∀ k, SVal (α k), (∀ k, SIsV (r k) (s k)) ∧
          SWithErr M l ω x s fun y => o.den (u y t) (e.den (u y)) := fun z hz =>
        asg_near hw (fun k => (ho k).sub 0) o (fun k => h1 k t) hz (h2 t) hF h0
      cases e with
      | var s =>
        by_cases hst : s = t
        · subst hst
          obtain ⟨r, j1, j2⟩ := asg_self_near (ord := fun k => (ord k).sub 0) hw o
            (fun k => h1 k s) (h2 s)
            (hself rfl)
          exact ⟨fun _ => .self, r, fun k => by simp [SStore.operand, Expr.map], j1, j2⟩
        · obtain ⟨r, j1, j2⟩ := hobj (fun k => ρ k s) (fun k => h1 k s)
          exact ⟨fun k => .obj (ρ k s), r, fun k => by simp [SStore.operand, Expr.map, hst], j1, j2⟩
      | _ =>
        obtain ⟨r, j1, j2⟩ := hobj z k2
        refine ⟨fun k => .obj (z k), r, fun k => ?_, j1, j2⟩
        have := k1 k
        simp only [Expr.map] at this
        simp only [SStore.operand, Expr.map, this, Res.ok_bind]
    obtain ⟨b, r, k1, k2, s, k3, k4⟩ := main
    exact h.put t (fun k => by simp only [k1, Res.ok_bind, k2]) k3 k4
  | updS o t s =>
    obtain ⟨r, k1, s', k2, k3⟩ := asgS_near hw o (fun k => h1 k t) (h2 t) (henc s) hs
    exact h.put t k1 k2 k3

omit [DecidableEq V] in
theorem scond_near [l.NeBot] (hw : Fine w l ω) (hcmp : ∀ k, (M k).ExactCmp) {enc : ∀ k, ℝ → α k}
    (henc : ∀ s, Lim M l ω (fun k => enc k s) (fun _ => s) s) {ord : ∀ k, Order (α k)}
    (ho : ∀ k, (ord k).Ok) (h : SNearing M l ω x ρ u) (b : Cond ℝ V) (hb : b.Sure 1 (u x))
    (hP : b.PowPos (u x)) {r : Bool} (hr : r = true ↔ b.Holds (u x)) :
    ∀ᶠ k in l, (b.map (enc k)).runSS (ord k) (ρ k) = .ok r := by
  obtain ⟨p, h1, h2⟩ := h
  cases b with
  | cmp op e₁ e₂ =>
    have hF := SWithErr.eval hw henc h2 e₁ hb.1.1.1 hb.1.1.2 hP.1
    have hG := SWithErr.eval hw henc h2 e₂ hb.1.2.1 hb.1.2.2 hP.2
    choose y j1 j2 using fun k => evalSS_spec ((ho k).sub 0) (ρ k) (p k) (h1 k) (e₁.map (enc k))
    choose z k1 k2 using fun k => evalSS_spec ((ho k).sub 1) (ρ k) (p k) (h1 k) (e₂.map (enc k))
    refine (cmp_lim hF.f hG.f hb.2 hcmp op hr).mono fun k hk => ?_
    simp only [Cond.map, Cond.runSS, j1, k1, Res.ok_bind, SS.cmp, SS.f_ok (j2 k), SS.f_ok (k2 k), hk.1]
  | cmpS op e s =>
    have hF := SWithErr.eval hw henc h2 e hb.1.1 hb.1.2 hP
    choose y j1 j2 using fun k => evalSS_spec (ho k) (ρ k) (p k) (h1 k) (e.map (enc k))
    refine (cmp_lim hF.f (henc s) hb.2 hcmp op hr).mono fun k hk => ?_
    simp only [Cond.map, Cond.runSS, j1, Res.ok_bind, SS.cmpS, SS.f_ok (j2 k), hk.1]
  | sCmp op s e =>
    have hF := SWithErr.eval hw henc h2 e hb.1.1 hb.1.2 hP
    choose y j1 j2 using fun k => evalSS_spec (ho k) (ρ k) (p k) (h1 k) (e.map (enc k))
    refine (cmp_lim hF.f (henc s) hb.2 hcmp (SS.mirror op) (q := r) ?_).mono fun k hk => ?_
    · rw [hr]
      cases op <;> simp [SS.mirror, DD.CmpOp.rel, Cond.Holds, eq_comm]
    · simp only [Cond.map, Cond.runSS, j1, Res.ok_bind, SS.sCmp, SS.cmpS, SS.f_ok (j2 k), hk.1]

/-- Calls on functions: inside the domains, without ties at `x`, `pow` of positive numbers only. -/
def SNiceCall (x : String → ℝ) (k : SCall ℝ V) (u : (String → ℝ) → V → ℝ) (r : Answer ℝ)
    (u' : (String → ℝ) → V → ℝ) : Prop :=
  SFunCall x k u r u' ∧ k.PowPos (u x)

theorem SPreciseCall.fns {cl : Caller (SCall ℝ V) (Answer ℝ) Q} {q q' : Q} {σ σ' : V → ℝ}
    (h : cl.Ends (SPreciseCall x) q σ q' σ') (u : (String → ℝ) → V → ℝ) (hu : u x = σ) :
    ∃ u', u' x = σ' ∧ cl.Ends (SNiceCall x) q u q' u' := by
  induction h generalizing u with
  | stop hn => exact ⟨u, hu, .stop hn⟩
  | call hn hk _ ih =>
    subst hu
    obtain ⟨hk, hP⟩ := hk
    cases hk with
    | act s _ hs =>
      obtain ⟨u', h1, h2⟩ := ih (fun y => s.den x y (u y)) rfl
      exact ⟨u', h1, .call hn ⟨.act s u hs, hP⟩ h2⟩
    | ask b _ hb hr =>
      obtain ⟨u', h1, h2⟩ := ih u rfl
      exact ⟨u', h1, .call hn ⟨.ask b u hb hr, hP⟩ h2⟩

theorem sclient_near [l.NeBot] (hw : Fine w l ω) (hcmp : ∀ k, (M k).ExactCmp) {enc : ∀ k, ℝ → α k}
    (henc : ∀ s, Lim M l ω (fun k => enc k s) (fun _ => s) s)
    {cl : Caller (SCall ℝ V) (Answer ℝ) Q} {q q' : Q} {u u' : (String → ℝ) → V → ℝ}
    (h : cl.Ends (SNiceCall x) q u q' u') {ord : ∀ k, Order (α k)} (ho : ∀ k, (ord k).Ok)
    (hρ : SNearing M l ω x ρ u) :
    ∃ (m : Nat) (st : ∀ k, Order (α k) × SStore (α k) V),
      (∀ᶠ k in l, ∀ j ≥ m, (cl.map (SCall.map (enc k)) (Answer.map (M k).val)).run
        (ssLibrary (α k) V) j q (ord k, ρ k) = some (.ok q', st k)) ∧
      SNearing M l ω x (fun k => (st k).2) u' := by
  induction h generalizing ρ ord with
  | stop hn =>
    refine ⟨1, fun k => (ord k, ρ k), .of_forall fun k j hj => ?_, hρ⟩
    obtain ⟨j, rfl⟩ : ∃ i, j = i + 1 := ⟨j - 1, by omega⟩
    simp [Caller.run, Caller.map, hn]
  | call hn hk _ ih =>
    obtain ⟨hk, hP⟩ := hk
    cases hk with
    | act s u hs =>
      obtain ⟨τ, h1, h2⟩ := sstep_near hw henc (fun k => (ho k).sub 0) hρ s hs hP
      obtain ⟨m, st, h3, h4⟩ := ih (fun k => (ho k).sub 1) h2
      refine ⟨m + 1, st, h3.mono fun k hk j hj => ?_, h4⟩
      obtain ⟨j, rfl⟩ : ∃ i, j = i + 1 := ⟨j - 1, by omega⟩
      have e : (ssLibrary (α k) V) ((SCall.act s).map (enc k)) (ord k, ρ k) =
          (.ok .done, ((ord k).sub 1, τ k)) := by
        simp only [ssLibrary, SCall.map, h1, Answer.of]
      simp only [Caller.run, Caller.map, hn, Option.map_some, e]
      exact hk j (by omega)
    | @ask b u r hb hr =>
      have h1 := scond_near hw hcmp henc (fun k => (ho k).sub 2) hρ b hb hP hr
      obtain ⟨m, st, h3, h4⟩ := ih ho hρ
      refine ⟨m + 1, st, (h3.and h1).mono fun k ⟨hk, h1⟩ j hj => ?_, h4⟩
      obtain ⟨j, rfl⟩ : ∃ i, j = i + 1 := ⟨j - 1, by omega⟩
      have e : (ssLibrary (α k) V) ((SCall.ask b).map (enc k)) (ord k, ρ k) =
          (.ok (.truth r), (ord k, ρ k)) := by
        simp only [ssLibrary, SCall.map, h1, Answer.of]
      simp only [Caller.run, Caller.map, hn, Option.map_some, e]
      exact hk j (by omega)

end client

end

end HJ
