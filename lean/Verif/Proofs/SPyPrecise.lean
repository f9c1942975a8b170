import Verif.Proofs.PyPrecise
import Verif.Props.PySparse
import Verif.Spec.SPyPrecise

/-!
# Python client code on `SScalar` in arithmetics with vanishing error (helper lemmas)
-/

namespace HJ

open Filter Topology SMap

section
variable {ι : Type} {l : Filter ι} {α : ι → Type} [∀ k, CMath (α k)] {w : ι → Prec} {ω : ι → ℝ}
  {M : ∀ k, FinErr (α k) (w k)} {x : String → ℝ} {V Q : Type}

/-- Objects that converge to value and partial derivatives of a function at `x`. -/
def SObjNear (M : ∀ k, FinErr (α k) (w k)) (l : Filter ι) (ω : ι → ℝ) (x : String → ℝ)
    (r : ∀ k, SS (α k)) (F : (String → ℝ) → ℝ) : Prop :=
  ∃ (y : ∀ k, SS (α k)) (p : ∀ k, SVal (α k)), (∀ k, SIsV (y k) (p k)) ∧ (∀ᶠ k in l, r k = y k) ∧
    SWithErr M l ω x p F

/-- Values of Python expressions that converge to a number, or to value and derivatives of a function. -/
def SPValNear (M : ∀ k, FinErr (α k) (w k)) (l : Filter ι) (ω : ι → ℝ) (x : String → ℝ)
    (p : ∀ k, SPVal (α k)) : SMath → Prop
  | .num t => ∃ s : ∀ k, α k, (∀ᶠ k in l, p k = .num (s k)) ∧ Lim M l ω s (fun _ => t) t
  | .fn F => ∃ (y : ∀ k, SS (α k)) (q : ∀ k, SVal (α k)), (∀ k, SIsV (y k) (q k)) ∧
      (∀ᶠ k in l, p k = .jet (y k)) ∧ SWithErr M l ω x q F

/-- States that converge to the mathematical one. -/
structure SPyNear (M : ∀ k, FinErr (α k) (w k)) (l : Filter ι) (ω : ι → ℝ) (x : String → ℝ)
    (st : ∀ k, SPySt (α k) V) (σ : SMathSt V) : Prop where
  next : ∀ᶠ k in l, (st k).next = σ.next
  num : ∀ v r, σ.env v = .num r →
    ∃ s : ∀ k, α k, (∀ᶠ k in l, (st k).env v = .num (s k)) ∧ Lim M l ω s (fun _ => r) r
  ref : ∀ v a, σ.env v = .ref a → a < σ.next ∧ ∀ᶠ k in l, (st k).env v = .ref a
  objs : ∀ a < σ.next, SObjNear M l ω x (fun k => (st k).heap a) (σ.mean a)

variable {st : ∀ k, SPySt (α k) V} {σ σ' : SMathSt V}

theorem SObjNear.congr {r r' : ∀ k, SS (α k)} {F : (String → ℝ) → ℝ} (h : SObjNear M l ω x r F)
    (e : ∀ᶠ k in l, r' k = r k) : SObjNear M l ω x r' F := by
  obtain ⟨y, p, h0, h1, h2⟩ := h
  exact ⟨y, p, h0, (h1.and e).mono fun k hk => hk.2.trans hk.1, h2⟩

theorem SPyNear.congr (h : SPyNear M l ω x st σ) {st' : ∀ k, SPySt (α k) V}
    (e : ∀ᶠ k in l, st' k = st k) : SPyNear M l ω x st' σ where
  next := (h.next.and e).mono fun k hk => by rw [hk.2, hk.1]
  num v r hr := by
    obtain ⟨s, h1, h2⟩ := h.num v r hr
    exact ⟨s, (h1.and e).mono fun k hk => by rw [hk.2, hk.1], h2⟩
  ref v a ha := ⟨(h.ref v a ha).1, ((h.ref v a ha).2.and e).mono fun k hk => by rw [hk.2, hk.1]⟩
  objs a ha := (h.objs a ha).congr (e.mono fun k hk => by rw [hk])

theorem SPyNear.val (h : SPyNear M l ω x st σ) (v : V) :
    SPValNear M l ω x (fun k => (st k).val v) (σ.val v) := by
  unfold SMathSt.val
  cases he : σ.env v with
  | num r =>
    obtain ⟨s, h1, h2⟩ := h.num v r he
    exact ⟨s, h1.mono fun k hk => by simp only [SPySt.val, hk], h2⟩
  | ref a =>
    obtain ⟨ha, h1⟩ := h.ref v a he
    obtain ⟨y, p, h0, h2, h3⟩ := h.objs a ha
    exact ⟨y, p, h0, (h1.and h2).mono fun k hk => by simp only [SPySt.val, hk.1, hk.2], h3⟩

/-- One operation. -/
theorem snode_near [l.NeBot] (hw : Fine w l ω) {enc : ∀ k, ℝ → α k}
    (henc : ∀ s, Lim M l ω (fun k => enc k s) (fun _ => s) s) {ord : ∀ k, Order (α k)}
    (ho : ∀ k, (ord k).Ok) {U : Type} (e : Expr ℝ U) (u : U → (String → ℝ) → ℝ)
    {y : ∀ k, U → SS (α k)} {p : ∀ k, U → SVal (α k)} (hy : ∀ k v, SIsV (y k v) (p k v))
    (h : ∀ v, SWithErr M l ω x (fun k => p k v) (u v)) (hD : e.Dom 1 fun v => u v x)
    (hR : e.Regular fun v => u v x) (hP : e.PowPos fun v => u v x) :
    ∃ (r : ∀ k, SS (α k)) (q : ∀ k, SVal (α k)),
      (∀ k, (e.map (enc k)).evalSS (ord k) (y k) = .ok (r k)) ∧ (∀ k, SIsV (r k) (q k)) ∧
      SWithErr M l ω x q fun z => e.den fun v => u v z := by
  choose r h1 h2 using fun k => evalSS_spec (ho k) (y k) (p k) (hy k) (e.map (enc k))
  exact ⟨r, _, h1, h2, SWithErr.eval (u := fun z v => u v z) hw henc h e hD hR hP⟩

omit [∀ k, CMath (α k)] in
theorem lift_orders {ord : ∀ k, Order (α k)} (ho : ∀ k, (ord k).Ok) :
    ∃ o' : ∀ k, Order (α k), (∀ k, (o' k).Ok) ∧ ∀ k, (o' k).sub 0 = ord k := by
  choose o' h1 h2 using fun k => lift_order (ho k)
  exact ⟨o', h1, h2⟩

section ops

variable {y z : ∀ k, SS (α k)} {p q : ∀ k, SVal (α k)} {F G : (String → ℝ) → ℝ}

theorem bin_near [l.NeBot] (hw : Fine w l ω) {enc : ∀ k, ℝ → α k}
    (henc : ∀ s, Lim M l ω (fun k => enc k s) (fun _ => s) s) {ord : ∀ k, Order (α k)}
    (ho : ∀ k, (ord k).Ok) (o : Bin) (hy : ∀ k, SIsV (y k) (p k)) (hz : ∀ k, SIsV (z k) (q k))
    (hp : SWithErr M l ω x p F) (hq : SWithErr M l ω x q G) (hD : o.dom (F x) (G x))
    (hR : o.reg (F x) (G x)) :
    ∃ (r : ∀ k, SS (α k)) (s : ∀ k, SVal (α k)), (∀ k, o.runS (ord k) (y k) (z k) = .ok (r k)) ∧
      (∀ k, SIsV (r k) (s k)) ∧ SWithErr M l ω x s fun v => o.den (F v) (G v) := by
  obtain ⟨ord', ho', e'⟩ := lift_orders ho
  obtain ⟨r, s, h1, h2, h3⟩ := snode_near hw henc ho' (U := Bool) (.bin o (.var true) (.var false))
    (fun b => if b then F else G) (y := fun k b => if b then y k else z k)
    (p := fun k b => if b then p k else q k)
    (fun k b => by cases b; exacts [hz k, hy k]) (fun b => by cases b; exacts [hq, hp])
    ⟨trivial, trivial, hD⟩ ⟨trivial, trivial, hR⟩ ⟨trivial, trivial⟩
  refine ⟨r, s, fun k => ?_, h2, h3⟩
  have := h1 k
  simpa only [Expr.map, Expr.evalSS, Res.ok_bind, if_true, Bool.false_eq_true, if_false, e'] using this

theorem sbin_near [l.NeBot] (hw : Fine w l ω) {enc : ∀ k, ℝ → α k}
    (henc : ∀ s, Lim M l ω (fun k => enc k s) (fun _ => s) s) {ord : ∀ k, Order (α k)}
    (ho : ∀ k, (ord k).Ok) (o : SBin) (hy : ∀ k, SIsV (y k) (p k)) {c : ∀ k, α k} {t : ℝ}
    (hp : SWithErr M l ω x p F) (hc : Lim M l ω c (fun _ => t) t) (hD : o.dom (F x) t) :
    ∃ (r : ∀ k, SS (α k)) (s : ∀ k, SVal (α k)), (∀ k, o.runS (ord k) (y k) (c k) = .ok (r k)) ∧
      (∀ k, SIsV (r k) (s k)) ∧ SWithErr M l ω x s fun v => o.den (F v) t := by
  classical
  obtain ⟨ord', ho', e'⟩ := lift_orders ho
  obtain ⟨r, s, h1, h2, h3⟩ := snode_near hw (enc := fun k r => if r = t then c k else enc k r)
    (fun r => by
      by_cases hr : r = t
      · subst hr; simpa using hc
      · simpa [hr] using henc r) ho' (U := Unit) (.sbin o (.var ()) t)
    (fun _ => F) (y := fun k _ => y k) (p := fun k _ => p k) (fun k _ => hy k) (fun _ => hp)
    ⟨trivial, hD⟩ trivial trivial
  refine ⟨r, s, fun k => ?_, h2, h3⟩
  have := h1 k
  simpa only [Expr.map, Expr.evalSS, Res.ok_bind, if_true, e'] using this

end ops

/-- An expression. -/
theorem SPyNear.eval [l.NeBot] (hw : Fine w l ω) (hcmp : ∀ k, (M k).ExactCmp)
    {enc : ∀ k, ℝ → α k} (henc : ∀ s, Lim M l ω (fun k => enc k s) (fun _ => s) s)
    {ord : ∀ k, Order (α k)} (ho : ∀ k, (ord k).Ok)
    (h : SPyNear M l ω x st σ) {e : SPyE ℝ V} {m : SMath} (hm : e.Den x σ.val m)
    (hP : e.PowPos x σ.val) :
    ∃ p : ∀ k, SPVal (α k), (∀ᶠ k in l, (e.map (enc k)).eval (ord k) (st k).val = .ok (p k)) ∧
      SPValNear M l ω x p m := by
  have jet : ∀ {y : ∀ k, SS (α k)} {q : ∀ k, SVal (α k)} {F : (String → ℝ) → ℝ}
      {R : ∀ k, Res (SPVal (α k))} (_ : ∀ᶠ k in l, R k = .ok (.jet (y k)))
      (_ : ∀ k, SIsV (y k) (q k)) (_ : SWithErr M l ω x q F),
      ∃ p : ∀ k, SPVal (α k), (∀ᶠ k in l, R k = .ok (p k)) ∧ SPValNear M l ω x p (.fn F) :=
    fun {y q F R} h1 h2 h3 => ⟨fun k => .jet (y k), h1, y, q, h2, .of_forall fun _ => rfl, h3⟩
  have numb : ∀ {s : ∀ k, α k} {t : ℝ} {R : ∀ k, Res (SPVal (α k))}
      (_ : ∀ᶠ k in l, R k = .ok (.num (s k))) (_ : Lim M l ω s (fun _ => t) t),
      ∃ p : ∀ k, SPVal (α k), (∀ᶠ k in l, R k = .ok (p k)) ∧ SPValNear M l ω x p (.num t) :=
    fun {s t R} h1 h2 => ⟨fun k => .num (s k), h1, s, .of_forall fun _ => rfl, h2⟩
  have hl0 : Lim M l ω (fun _ => Arith.lit 0) (fun _ => (0 : ℝ)) 0 :=
    (Lim.lit (z := 0) (by norm_num)).goal_eq (fun _ => Int.cast_zero) (by simp)
  have hl1 : Lim M l ω (fun _ => Arith.lit 1) (fun _ => (1 : ℝ)) 1 :=
    (Lim.lit (z := 1) (by norm_num)).goal_eq (fun _ => Int.cast_one) (by simp)
  induction hm generalizing ord with
  | name v => exact ⟨_, .of_forall fun k => rfl, h.val v⟩
  | lit s => exact numb (.of_forall fun k => rfl) (henc s)
  | const s =>
    refine jet (q := fun k => (enc k s, fun _ => none)) (.of_forall fun k => rfl)
      (fun k => SS.is_constant (ho k) (enc k s)) ⟨henc s, fun nm => ⟨0, ?_, hasDerivAt_const _ _⟩⟩
    simpa only [Option.getD_none] using hl0
  | vari nm s =>
    refine jet (q := fun k => (enc k s, fun j => if j = nm then some (Arith.lit 1) else none))
      (.of_forall fun k => rfl) (fun k => SS.is_var (ho k) nm (enc k s)) ⟨?_, fun j => ?_⟩
    · simpa using henc s
    · by_cases hj : j = nm
      · refine ⟨1, ?_, ?_⟩
        · simpa only [hj, if_true, Option.getD_some] using hl1
        · subst hj
          simpa using ((hasDerivAt_id (x j)).sub_const (x j)).const_add s
      · refine ⟨0, ?_, ?_⟩
        · simpa only [hj, if_false, Option.getD_none] using hl0
        · simp only [Function.update_of_ne (Ne.symm hj)]
          exact hasDerivAt_const _ _
  | make s d hd =>
    have hf : ∀ k j, SMap.find (d.map fun e => (e.1, enc k e.2)) j = (d.find j).map (enc k) := by
      intro k j
      clear hd hP
      induction d with
      | nil => rfl
      | cons e d ih =>
        rw [List.map_cons, find_cons, find_cons, ih]
        by_cases h : e.1 = j <;> simp [h]
    refine jet (q := fun k => (enc k s, fun j => (d.find j).map (enc k))) (.of_forall fun k => rfl)
      (fun k => SS.is_make (ho k) (by
        have : (d.map fun e => (e.1, enc k e.2)).map Prod.fst = d.map Prod.fst := by
          simp [Function.comp_def]
        rw [keys, this]; exact hd) (hf k) (enc k s)) ⟨?_, fun j => ?_⟩
    · simpa using henc s
    · refine ⟨(d.find j).getD 0, ?_, hasDeriv_affine s d hd j⟩
      cases hj : d.find j with
      | none => simpa only [hj, Option.map_none, Option.getD_none] using hl0
      | some g => simpa only [hj, Option.map_some, Option.getD_some] using henc g
  | negNum _ ih =>
    obtain ⟨p, h1, s, h2, h3⟩ := ih (fun k => (ho k).sub 1) hP
    exact numb ((h1.and h2).mono fun k hk => by
      simp only [SPyE.map, SPyE.eval, hk.1, hk.2, Res.ok_bind]) h3.neg
  | neg _ ih =>
    rename_i e F _
    obtain ⟨p, h1, y, q, h0, h2, h3⟩ := ih (fun k => (ho k).sub 1) hP
    obtain ⟨r, s, k1, k2, k3⟩ := snode_near hw henc ho (U := Unit) (.neg (.var ())) (fun _ => F)
      (y := fun k _ => y k) (p := fun k _ => q k) (fun k _ => h0 k) (fun _ => h3) trivial trivial trivial
    refine jet ((h1.and h2).mono fun k hk => ?_) k2 k3
    have := k1 k
    simp only [Expr.map, Expr.evalSS, Res.ok_bind] at this
    simp only [SPyE.map, SPyE.eval, hk.1, hk.2, Res.ok_bind, this]
  | absNum _ ih =>
    obtain ⟨p, h1, s, h2, h3⟩ := ih (fun k => (ho k).sub 1) hP
    exact numb ((h1.and h2).mono fun k hk => by
      simp only [SPyE.map, SPyE.eval, hk.1, hk.2, Res.ok_bind]) (h3.absNum hw)
  | abs _ hd ih =>
    rename_i e F _
    obtain ⟨p, h1, y, q, h0, h2, h3⟩ := ih (fun k => (ho k).sub 1) hP
    obtain ⟨r, s, k1, k2, k3⟩ := snode_near hw henc ho (U := Unit) (.abs (.var ())) (fun _ => F)
      (y := fun k _ => y k) (p := fun k _ => q k) (fun k _ => h0 k) (fun _ => h3) trivial ⟨trivial, hd⟩
      trivial
    refine jet ((h1.and h2).mono fun k hk => ?_) k2 k3
    have := k1 k
    simp only [Expr.map, Expr.evalSS, Res.ok_bind] at this
    simp only [SPyE.map, SPyE.eval, hk.1, hk.2, Res.ok_bind, this]
  | fn hm hd ih =>
    rename_i φ e F
    obtain ⟨p, h1, y, q, h0, h2, h3⟩ := ih (fun k => (ho k).sub 1) hP.1
    obtain ⟨r, s, k1, k2, k3⟩ := snode_near hw henc ho (U := Unit) (.fn φ (.var ())) (fun _ => F)
      (y := fun k _ => y k) (p := fun k _ => q k) (fun k _ => h0 k) (fun _ => h3) ⟨trivial, hd⟩ trivial
      ⟨trivial, fun b hb => hP.2 b F hb hm⟩
    refine jet ((h1.and h2).mono fun k hk => ?_) k2 k3
    have := k1 k
    simp only [Expr.map, Expr.evalSS, Res.ok_bind] at this
    simp only [SPyE.map, SPyE.eval, hk.1, hk.2, Res.ok_bind, this]
  | opNums _ _ hd ih₁ ih₂ =>
    rename_i o e₁ e₂ r t _ _
    obtain ⟨p, h1, s, h2, h3⟩ := ih₁ (fun k => (ho k).sub 1) hP.1
    obtain ⟨p', h1', s', h2', h3'⟩ := ih₂ (fun k => (ho k).sub 2) hP.2
    have e := (h1.and h2).and (h1'.and h2')
    cases o with
    | add => exact numb (e.mono fun k ⟨⟨a1, a2⟩, b1, b2⟩ => by
        simp only [SPyE.map, SPyE.eval, a1, a2, b1, b2, Res.ok_bind, POp.runSS, POp.nums]) (h3.add hw h3')
    | sub => exact numb (e.mono fun k ⟨⟨a1, a2⟩, b1, b2⟩ => by
        simp only [SPyE.map, SPyE.eval, a1, a2, b1, b2, Res.ok_bind, POp.runSS, POp.nums]) (h3.sub hw h3')
    | mul => exact numb (e.mono fun k ⟨⟨a1, a2⟩, b1, b2⟩ => by
        simp only [SPyE.map, SPyE.eval, a1, a2, b1, b2, Res.ok_bind, POp.runSS, POp.nums]) (h3.mul hw h3')
    | div =>
      have hne := hd rfl
      have hz := cmp_lim h3' hl0 hne hcmp .eq (q := false) (by simpa [DD.CmpOp.rel] using hne)
      refine numb ((e.and hz).mono fun k ⟨⟨⟨a1, a2⟩, b1, b2⟩, hz, _⟩ => ?_) (h3.div hw h3' hne)
      simp only [DD.CmpOp.scalar] at hz
      simp only [SPyE.map, SPyE.eval, a1, a2, b1, b2, Res.ok_bind, POp.runSS, POp.nums, hz,
        Bool.false_eq_true, if_false]
  | opFns _ _ hd ih₁ ih₂ =>
    rename_i o e₁ e₂ F G _ _
    obtain ⟨p, h1, y, q, h0, h2, h3⟩ := ih₁ (fun k => (ho k).sub 1) hP.1
    obtain ⟨p', h1', y', q', h0', h2', h3'⟩ := ih₂ (fun k => (ho k).sub 2) hP.2
    obtain ⟨r, s, k1, k2, k3⟩ := bin_near hw henc (fun k => (ho k).sub 0) o.bin h0 h0' h3 h3'
      (by cases o <;> first | trivial | exact hd rfl) (by cases o <;> trivial)
    refine jet (((h1.and h2).and (h1'.and h2')).mono fun k ⟨⟨a1, a2⟩, b1, b2⟩ => ?_) k2
      (F := fun v => o.den (F v) (G v)) (by cases o <;> exact k3)
    simp only [SPyE.map, SPyE.eval, a1, a2, b1, b2, Res.ok_bind, POp.runSS, k1]
  | opRight _ _ hd ih₁ ih₂ =>
    rename_i o e₁ e₂ F t _ _
    obtain ⟨p, h1, y, q, h0, h2, h3⟩ := ih₁ (fun k => (ho k).sub 1) hP.1
    obtain ⟨p', h1', s', h2', h3'⟩ := ih₂ (fun k => (ho k).sub 2) hP.2
    obtain ⟨r, s, k1, k2, k3⟩ := sbin_near hw henc (fun k => (ho k).sub 0) o.right h0 h3 h3'
      (by cases o <;> first | trivial | exact hd rfl)
    refine jet (((h1.and h2).and (h1'.and h2')).mono fun k ⟨⟨a1, a2⟩, b1, b2⟩ => ?_) k2
      (F := fun v => o.den (F v) t) (by cases o <;> exact k3)
    simp only [SPyE.map, SPyE.eval, a1, a2, b1, b2, Res.ok_bind, POp.runSS, k1]
  | opLeft _ _ hd ih₁ ih₂ =>
    rename_i o e₁ e₂ t G _ _
    obtain ⟨p', h1', s', h2', h3'⟩ := ih₁ (fun k => (ho k).sub 1) hP.1
    obtain ⟨p, h1, y, q, h0, h2, h3⟩ := ih₂ (fun k => (ho k).sub 2) hP.2
    obtain ⟨r, s, k1, k2, k3⟩ := sbin_near hw henc (fun k => (ho k).sub 0) o.left h0 h3 h3'
      (by cases o <;> first | trivial | exact hd rfl)
    refine jet (((h1.and h2).and (h1'.and h2')).mono fun k ⟨⟨a1, a2⟩, b1, b2⟩ => ?_) k2
      (F := fun v => o.den t (G v)) (by cases o <;> exact k3)
    simp only [SPyE.map, SPyE.eval, a1, a2, b1, b2, Res.ok_bind, POp.runSS, k1]
  | atan2 _ _ hd ih₁ ih₂ =>
    rename_i e₁ e₂ F G _ _
    obtain ⟨p, h1, y, q, h0, h2, h3⟩ := ih₁ (fun k => (ho k).sub 1) hP.1
    obtain ⟨p', h1', y', q', h0', h2', h3'⟩ := ih₂ (fun k => (ho k).sub 2) hP.2
    have hD : Bin.atan2.dom (F x) (G x) := by
      rintro ⟨h5, h6⟩
      rcases hd with h | h
      · exact h h5
      · rw [h6] at h; exact lt_irrefl _ h
    obtain ⟨r, s, k1, k2, k3⟩ := bin_near hw henc (fun k => (ho k).sub 0) .atan2 h0 h0' h3 h3' hD hd
    refine jet (((h1.and h2).and (h1'.and h2')).mono fun k ⟨⟨a1, a2⟩, b1, b2⟩ => ?_) k2 k3
    have := k1 k
    simp only [Bin.runS] at this
    simp only [SPyE.map, SPyE.eval, a1, a2, b1, b2, Res.ok_bind, this]
  | hypot _ _ hd ih₁ ih₂ =>
    rename_i e₁ e₂ F G _ _
    obtain ⟨p, h1, y, q, h0, h2, h3⟩ := ih₁ (fun k => (ho k).sub 1) hP.1
    obtain ⟨p', h1', y', q', h0', h2', h3'⟩ := ih₂ (fun k => (ho k).sub 2) hP.2
    have hD : Bin.hypot.dom (F x) (G x) := by
      rintro ⟨h5, h6⟩
      exact hd.elim (fun h => h h5) (fun h => h h6)
    obtain ⟨r, s, k1, k2, k3⟩ := bin_near hw henc (fun k => (ho k).sub 0) .hypot h0 h0' h3 h3' hD trivial
    refine jet (((h1.and h2).and (h1'.and h2')).mono fun k ⟨⟨a1, a2⟩, b1, b2⟩ => ?_) k2 k3
    have := k1 k
    simp only [Bin.runS] at this
    simp only [SPyE.map, SPyE.eval, a1, a2, b1, b2, Res.ok_bind, this]
  | hypot3 _ _ _ hd ih₁ ih₂ ih₃ =>
    rename_i e₁ e₂ e₃ F G H _ _ _
    obtain ⟨p, h1, y, q, h0, h2, h3⟩ := ih₁ (fun k => (ho k).sub 1) hP.1
    obtain ⟨p', h1', y', q', h0', h2', h3'⟩ := ih₂ (fun k => (ho k).sub 2) hP.2.1
    obtain ⟨p'', h1'', y'', q'', h0'', h2'', h3''⟩ := ih₃ (fun k => (ho k).sub 3) hP.2.2
    have hD : ¬ (F x = 0 ∧ G x = 0 ∧ H x = 0) := by
      rintro ⟨h5, h6, h7⟩
      exact hd.elim (fun h => h h5) fun h => h.elim (fun h => h h6) (fun h => h h7)
    obtain ⟨r, s, k1, k2, k3⟩ := snode_near hw henc ho (U := Fin 3) (.hypot3 (.var 0) (.var 1) (.var 2))
      ![F, G, H] (y := fun k => ![y k, y' k, y'' k]) (p := fun k => ![q k, q' k, q'' k])
      (fun k b => by fin_cases b; exacts [h0 k, h0' k, h0'' k])
      (fun b => by fin_cases b; exacts [h3, h3', h3''])
      ⟨trivial, trivial, trivial, hD⟩ ⟨trivial, trivial, trivial⟩ ⟨trivial, trivial, trivial⟩
    refine jet (((h1.and h2).and ((h1'.and h2').and (h1''.and h2''))).mono
      fun k ⟨⟨a1, a2⟩, ⟨b1, b2⟩, c1, c2⟩ => ?_) k2 k3
    have := k1 k
    simp only [Expr.map, Expr.evalSS, Res.ok_bind] at this
    simp only [SPyE.map, SPyE.eval, a1, a2, b1, b2, c1, c2, Res.ok_bind]
    erw [this]; rfl
  | getF _ ih =>
    obtain ⟨p, h1, y, q, h0, h2, h3⟩ := ih (fun k => (ho k).sub 1) hP
    exact numb ((h1.and h2).mono fun k hk => by
      simp only [SPyE.map, SPyE.eval, hk.1, hk.2, Res.ok_bind, SS.f_ok (h0 k)]) h3.f
  | getD nm _ ih =>
    obtain ⟨p, h1, y, q, h0, h2, h3⟩ := ih (fun k => (ho k).sub 1) hP
    obtain ⟨g, k1, k2⟩ := h3.d nm
    rw [k2.deriv]
    exact numb ((h1.and h2).mono fun k hk => by
      simp only [SPyE.map, SPyE.eval, hk.1, hk.2, Res.ok_bind, SS.d_eq (h0 k)]) k1

/-! ## Statements -/

theorem SPyNear.write (h : SPyNear M l ω x st σ) (a : Nat) {r : ∀ k, SS (α k)} {F : (String → ℝ) → ℝ}
    (hr : SObjNear M l ω x r F) : SPyNear M l ω x (fun k => (st k).write a (r k)) (σ.write a F) where
  next := h.next
  num := h.num
  ref := h.ref
  objs b hb := by
    simp only [SPySt.write, SMathSt.write]
    by_cases hab : b = a
    · simp only [hab, if_true]; exact hr
    · simp only [hab, if_false]; exact h.objs b hb

variable [DecidableEq V]

theorem SPyNear.bindNum (h : SPyNear M l ω x st σ) (t : V) {s : ∀ k, α k} {r : ℝ}
    (hs : Lim M l ω s (fun _ => r) r) :
    SPyNear M l ω x (fun k => (st k).bind t (.num (s k))) (σ.bind t (.num r)) where
  next := h.next
  num v r' hr := by
    by_cases hv : v = t
    · simp only [SMathSt.bind, hv, if_true, PyV.num.injEq] at hr
      exact ⟨s, .of_forall fun k => by simp [SPySt.bind, hv], hr ▸ hs⟩
    · simp only [SMathSt.bind, hv, if_false] at hr
      obtain ⟨s', h1, h2⟩ := h.num v r' hr
      exact ⟨s', h1.mono fun k hk => by simp [SPySt.bind, hv, hk], h2⟩
  ref v a ha := by
    by_cases hv : v = t
    · simp only [SMathSt.bind, hv, if_true] at ha
      cases ha
    · simp only [SMathSt.bind, hv, if_false] at ha
      exact ⟨(h.ref v a ha).1, (h.ref v a ha).2.mono fun k hk => by simp [SPySt.bind, hv, hk]⟩
  objs := h.objs

theorem SPyNear.bindRef (h : SPyNear M l ω x st σ) (t : V) {a : Nat} (ha : a < σ.next) :
    SPyNear M l ω x (fun k => (st k).bind t (.ref a)) (σ.bind t (.ref a)) where
  next := h.next
  num v r' hr := by
    by_cases hv : v = t
    · simp only [SMathSt.bind, hv, if_true] at hr
      cases hr
    · simp only [SMathSt.bind, hv, if_false] at hr
      obtain ⟨s', h1, h2⟩ := h.num v r' hr
      exact ⟨s', h1.mono fun k hk => by simp [SPySt.bind, hv, hk], h2⟩
  ref v b hb := by
    by_cases hv : v = t
    · simp only [SMathSt.bind, hv, if_true, PyV.ref.injEq] at hb
      exact ⟨hb ▸ ha, .of_forall fun k => by simp [SPySt.bind, hv, hb]⟩
    · simp only [SMathSt.bind, hv, if_false] at hb
      exact ⟨(h.ref v b hb).1, (h.ref v b hb).2.mono fun k hk => by simp [SPySt.bind, hv, hk]⟩
  objs := h.objs

theorem SPyNear.fresh (h : SPyNear M l ω x st σ) (t : V) {p : ∀ k, SPVal (α k)} {m : SMath}
    (hp : SPValNear M l ω x p m) : SPyNear M l ω x (fun k => (st k).fresh t (p k)) (σ.fresh t m) := by
  cases m with
  | num r =>
    obtain ⟨s, h1, h2⟩ := hp
    exact (h.bindNum t h2).congr (h1.mono fun k hk => by simp only [hk, SPySt.fresh])
  | fn F =>
    obtain ⟨y, q, h0, h1, h2⟩ := hp
    have h2 : SObjNear M l ω x y F := ⟨y, q, h0, .of_forall fun _ => rfl, h2⟩
    have hw := h.write σ.next h2
    have hg : SPyNear M l ω x (fun k => { (st k).write σ.next (y k) with next := σ.next + 1 })
        { σ.write σ.next F with next := σ.next + 1 } :=
      ⟨.of_forall fun _ => rfl, hw.num, fun v a ha => ⟨Nat.lt_succ_of_lt (hw.ref v a ha).1,
        (hw.ref v a ha).2⟩, fun a ha => by
        by_cases hb : a = σ.next
        · simpa [SPySt.write, SMathSt.write, hb] using h2
        · exact hw.objs a (by simp only [SMathSt.write] at ha ⊢; omega)⟩
    refine (hg.bindRef t (Nat.lt_succ_self _)).congr ((h1.and h.next).mono fun k hk => ?_)
    simp only [hk.1, hk.2, SPySt.fresh, SPySt.bind, SPySt.write]

theorem asgSS_eq {β : Type} [CMath β] (ord : Order β) (o : POp) (y : SS β) (b : SS.Operand β) :
    o.asgSS ord y b = o.asg.runSS ord y b := by cases o <;> rfl

/-- One statement. -/
theorem SPyNear.step [l.NeBot] (hw : Fine w l ω) (hcmp : ∀ k, (M k).ExactCmp) {enc : ∀ k, ℝ → α k}
    (henc : ∀ s, Lim M l ω (fun k => enc k s) (fun _ => s) s) {ord : ∀ k, Order (α k)}
    (ho : ∀ k, (ord k).Ok) (h : SPyNear M l ω x st σ)
    {s : SPyStmt ℝ V} (hs : s.Den x σ σ') (hP : s.PowPos x σ.val) :
    ∃ st' : ∀ k, SPySt (α k) V, (∀ᶠ k in l, (s.map (enc k)).run (ord k) (st k) = (.ok (), st' k)) ∧
      SPyNear M l ω x st' σ' := by
  cases hs with
  | share t s =>
    refine ⟨fun k => (st k).bind t ((st k).env s), .of_forall fun k => rfl, ?_⟩
    cases hb : σ.env s with
    | num r =>
      obtain ⟨p, h1, h2⟩ := h.num s r hb
      exact (h.bindNum t h2).congr (h1.mono fun k hk => by rw [hk])
    | ref a =>
      obtain ⟨ha, h1⟩ := h.ref s a hb
      exact (h.bindRef t ha).congr (h1.mono fun k hk => by rw [hk])
  | assign he hn =>
    rename_i t e m
    obtain ⟨p, h1, h2⟩ := h.eval hw hcmp henc (fun k => (ho k).sub 1) he hP
    refine ⟨fun k => (st k).fresh t (p k), h1.mono fun k hk => ?_, h.fresh t h2⟩
    cases e with
    | name s => exact absurd rfl (hn s)
    | _ =>
      simp only [SPyE.map] at hk
      simp only [SPyStmt.map, SPyE.map, SPyStmt.run, hk, SPySt.store]
  | updFn ht he hd hs =>
    rename_i o t e a G
    obtain ⟨p, h1, z, q, hz, h2, h3⟩ := h.eval hw hcmp henc (fun k => (ho k).sub 1) he hP
    obtain ⟨ha, ht'⟩ := h.ref t a ht
    obtain ⟨y, p', hy, k2, k3⟩ := h.objs a ha
    have hod : o.asg = .div → o = .div := by cases o <;> simp [POp.asg]
    have fin : ∀ {B : ∀ k, SS.Operand (α k)} {r : ∀ k, SS (α k)} {s : ∀ k, SVal (α k)},
        (∀ᶠ k in l, (st k).operand a (e.map (enc k)) (z k) = B k) →
        (∀ k, o.asg.runSS ((ord k).sub 0) (y k) (B k) = .ok (r k)) → (∀ k, SIsV (r k) (s k)) →
        SWithErr M l ω x s (fun v => o.asg.den (σ.mean a v) (G v)) →
        ∃ st' : ∀ k, SPySt (α k) V,
          (∀ᶠ k in l, ((SPyStmt.upd o t e).map (enc k)).run (ord k) (st k) = (.ok (), st' k)) ∧
          SPyNear M l ω x st' (σ.write a fun y => o.den (σ.mean a y) (G y)) := by
      intro B r s hB hr hs he
      simp only [asg_den] at he
      refine ⟨fun k => (st k).write a (r k),
        (((h1.and h2).and (ht'.and k2)).and hB).mono fun k ⟨⟨⟨e1, e2⟩, e3, e4⟩, e5⟩ => ?_,
        h.write a ⟨r, s, hs, .of_forall fun _ => rfl, he⟩⟩
      simp only [SPyStmt.map, SPyStmt.run, e1, e2, e3, e4, e5, asgSS_eq, hr, SPySt.change]
    have hobj : (∀ᶠ k in l, (st k).operand a (e.map (enc k)) (z k) = .obj (z k)) →
        ∃ st' : ∀ k, SPySt (α k) V,
          (∀ᶠ k in l, ((SPyStmt.upd o t e).map (enc k)).run (ord k) (st k) = (.ok (), st' k)) ∧
          SPyNear M l ω x st' (σ.write a fun y => o.den (σ.mean a y) (G y)) := fun hB => by
      obtain ⟨r, j1, s, j2, j3⟩ := asg_near hw (fun k => (ho k).sub 0) o.asg hy hz k3 h3
        fun ho => hd (hod ho)
      exact fin hB j1 j2 j3
    cases e with
    | name s =>
      cases hb : σ.env s with
      | num r =>
        have := he.name_inv
        simp only [SMathSt.val, hb] at this
        cases this
      | ref a' =>
        obtain ⟨_, hs'⟩ := h.ref s a' hb
        by_cases haa : a' = a
        · subst haa
          have hGm : G = σ.mean a' := by
            have := he.name_inv
            simp only [SMathSt.val, hb, SMath.fn.injEq] at this
            exact this
          have hB : ∀ᶠ k in l, (st k).operand a' ((SPyE.name s : SPyE ℝ V).map (enc k)) (z k) =
              .self := hs'.mono fun k hk => by simp only [SPyE.map, SPySt.operand, hk, if_true]
          have hop : o.asg = .add ∨ o.asg = .sub := by
            cases o with
            | add => exact Or.inl rfl
            | sub => exact Or.inr rfl
            | mul => exact absurd ⟨s, rfl, hb⟩ (hs (Or.inl rfl))
            | div => exact absurd ⟨s, rfl, hb⟩ (hs (Or.inr rfl))
          obtain ⟨r, j1, s, j2, j3⟩ := asg_self_near (ord := fun k => (ord k).sub 0) hw o.asg hy k3 hop
          exact fin hB j1 j2 (hGm ▸ j3)
        · exact hobj (hs'.mono fun k hk => by simp only [SPyE.map, SPySt.operand, hk, haa, if_false])
    | _ => exact hobj (.of_forall fun k => rfl)
  | updScale ht he hop hd =>
    rename_i o t e a s
    obtain ⟨p, h1, q, h2, h3⟩ := h.eval hw hcmp henc (fun k => (ho k).sub 1) he hP
    obtain ⟨ha, ht'⟩ := h.ref t a ht
    obtain ⟨y, p', hy, k2, k3⟩ := h.objs a ha
    have hod : o.asg = .div → o = .div := by cases o <;> simp [POp.asg]
    obtain ⟨r, j1, s, j2, j3⟩ := asgS_near hw o.asg hy k3 h3 fun ho => hd (hod ho)
    simp only [asg_den] at j3
    refine ⟨fun k => (st k).write a (r k),
      ((h1.and h2).and (ht'.and k2)).mono fun k ⟨⟨e1, e2⟩, e3, e4⟩ => ?_,
      h.write a ⟨r, s, j2, .of_forall fun _ => rfl, j3⟩⟩
    have := j1 k
    rcases hop with rfl | rfl <;> simp only [POp.asg, AOp.runSSs] at this ⊢ <;>
      simp only [SPyStmt.map, SPyStmt.run, e1, e2, e3, e4, this, SPySt.change]
  | updShift ht he hop =>
    rename_i o t e a s
    obtain ⟨p, h1, q, h2, h3⟩ := h.eval hw hcmp henc (fun k => (ho k).sub 1) he hP
    obtain ⟨ha, ht'⟩ := h.ref t a ht
    obtain ⟨y, p', hy, k2, k3⟩ := h.objs a ha
    obtain ⟨r, s, j1, j2, j3⟩ := sbin_near hw henc (fun k => (ho k).sub 0) o.right hy k3 h3
      (by rcases hop with rfl | rfl <;> trivial)
    refine ⟨fun k => (st k).fresh t (.jet (r k)),
      ((h1.and h2).and (ht'.and k2)).mono fun k ⟨⟨e1, e2⟩, e3, e4⟩ => ?_,
      h.fresh t ⟨r, s, j2, .of_forall fun _ => rfl, by cases o <;> exact j3⟩⟩
    have := j1 k
    rcases hop with rfl | rfl <;>
      simp only [SPyStmt.map, SPyStmt.run, e1, e2, e3, e4, POp.runSS, this, Res.ok_bind, SPySt.store]
  | updNum ht he =>
    rename_i o t e r m
    obtain ⟨q, t1, t2⟩ := h.num t r ht
    obtain ⟨ord', ho', e'⟩ : ∃ o' : ∀ k, Order (α k), (∀ k, (o' k).Ok) ∧
        ∀ k, (o' k).sub 0 = (ord k).sub 0 ∧ (o' k).sub 2 = (ord k).sub 1 := by
      refine ⟨fun k p => match p with
        | [] => (ord k) []
        | 0 :: p => (ord k) (0 :: p)
        | 2 :: p => (ord k) (1 :: p)
        | p => (ord k) p, fun k p m => ?_, fun k => ⟨rfl, rfl⟩⟩
      dsimp only
      split <;> exact ho k _ _
    have hval : σ.val t = .num r := by simp only [SMathSt.val, ht]
    have hn : (SPyE.name t : SPyE ℝ V).Den x σ.val (.num r) := hval ▸ .name t
    have he' : (SPyE.op o (.name t) e).Den x σ.val m := by
      cases he with
      | opNums h₁ h₂ hd => cases h₁; exact .opNums hn h₂ hd
      | opFns h₁ => cases h₁
      | opRight h₁ => cases h₁
      | opLeft h₁ h₂ hd => cases h₁; exact .opLeft hn h₂ hd
    obtain ⟨p, h1, h2⟩ := h.eval hw hcmp henc ho' he' ⟨trivial, hP⟩
    refine ⟨fun k => (st k).fresh t (p k), (h1.and t1).mono fun k ⟨e1, e2⟩ => ?_, h.fresh t h2⟩
    simp only [SPyE.map, SPyE.eval, Res.ok_bind, SPySt.val, e2, (e' k).1, (e' k).2] at e1
    cases hy : (e.map (enc k)).eval ((ord k).sub 1) (st k).val with
    | ok y =>
      rw [hy, Res.ok_bind] at e1
      simp only [SPyStmt.map, SPyStmt.run, hy, e2, e1, SPySt.store]
    | throw => rw [hy] at e1; cases e1
    | abort => rw [hy] at e1; cases e1
    | ub => rw [hy] at e1; cases e1

omit [DecidableEq V] in
theorem SPValNear.at {p : ∀ k, SPVal (α k)} {m : SMath} (h : SPValNear M l ω x p m) :
    ∃ s : ∀ k, α k, Lim M l ω s (fun _ => m.at x) (m.at x) ∧ ∀ᶠ k in l,
      p k = .num (s k) ∨ ∃ d, p k = .jet d ∧ d.f = .ok (s k) := by
  cases m with
  | num r =>
    obtain ⟨s, h1, h2⟩ := h
    exact ⟨s, h2, h1.mono fun k hk => Or.inl hk⟩
  | fn F =>
    obtain ⟨y, q, h0, h1, h2⟩ := h
    exact ⟨fun k => (q k).1, h2.f, h1.mono fun k hk => Or.inr ⟨_, hk, SS.f_ok (h0 k)⟩⟩

omit [DecidableEq V] in
/-- One comparison. -/
theorem SPyNear.test [l.NeBot] (hw : Fine w l ω) (hcmp : ∀ k, (M k).ExactCmp) {enc : ∀ k, ℝ → α k}
    (henc : ∀ s, Lim M l ω (fun k => enc k s) (fun _ => s) s) {ord : ∀ k, Order (α k)}
    (ho : ∀ k, (ord k).Ok) (h : SPyNear M l ω x st σ)
    (b : SPyCond ℝ V) {m m' : SMath} (hm : b.left.Den x σ.val m) (hm' : b.right.Den x σ.val m')
    (hne : m.at x ≠ m'.at x)
    (hP : b.left.PowPos x σ.val ∧ b.right.PowPos x σ.val) {r : Bool}
    (hr : r = true ↔ b.op.rel (m.at x) (m'.at x)) :
    ∀ᶠ k in l, (b.map (enc k)).run (ord k) (st k).val = .ok r := by
  obtain ⟨p, h1, h2⟩ := h.eval hw hcmp henc (fun k => (ho k).sub 0) hm hP.1
  obtain ⟨p', h1', h2'⟩ := h.eval hw hcmp henc (fun k => (ho k).sub 1) hm' hP.2
  obtain ⟨s, k1, k2⟩ := h2.at
  obtain ⟨s', k1', k2'⟩ := h2'.at
  have c1 := cmp_lim k1 k1' hne hcmp b.op hr
  have c2 := cmp_lim k1' k1 hne.symm hcmp b.op.mirror (q := r) (by
    rw [hr]
    cases b.op <;> simp [DD.CmpOp.mirror, DD.CmpOp.rel, eq_comm])
  refine ((h1.and h1').and ((k2.and k2').and (c1.and c2))).mono
    fun k ⟨⟨e1, e2⟩, ⟨e3, e4⟩, ⟨e5, _⟩, e6, _⟩ => ?_
  simp only [SPyCond.run, SPyCond.map, e1, e2, Res.ok_bind]
  rcases e3 with e3 | ⟨d, e3, f3⟩ <;> rcases e4 with e4 | ⟨d', e4, f4⟩ <;>
    simp only [e3, e4, SPVal.cmp, SS.cmp, SS.cmpS, *, Res.ok_bind]

/-- The client code. -/
theorem spyclient_near [l.NeBot] (hw : Fine w l ω) (hcmp : ∀ k, (M k).ExactCmp) {enc : ∀ k, ℝ → α k}
    (henc : ∀ s, Lim M l ω (fun k => enc k s) (fun _ => s) s)
    {cl : Caller (PyCall (SPyStmt ℝ V) (SPyCond ℝ V) V) (Answer ℝ) Q} {q q' : Q}
    (he : cl.Ends (SPyPreciseCall x) q σ q' σ') {ord : ∀ k, Order (α k)} (ho : ∀ k, (ord k).Ok)
    (h : SPyNear M l ω x st σ) :
    ∃ (m : Nat) (p : ∀ k, Order (α k) × SPySt (α k) V),
      (∀ᶠ k in l, ∀ j ≥ m,
        (cl.map (PyCall.map (SPyStmt.map (enc k)) (SPyCond.map (enc k))) (Answer.map (M k).val)).run
          (spyLibrary (α k) V) j q (ord k, st k) = some (.ok q', p k)) ∧
      SPyNear M l ω x (fun k => (p k).2) σ' := by
  induction he generalizing st ord with
  | stop hn =>
    refine ⟨1, fun k => (ord k, st k), .of_forall fun k j hj => ?_, h⟩
    obtain ⟨j, rfl⟩ : ∃ i, j = i + 1 := ⟨j - 1, by omega⟩
    simp [Caller.run, Caller.map, hn]
  | call hn hk _ ih =>
    cases hk with
    | @act s σ σ₁ hs =>
      obtain ⟨st₁, h1, h2⟩ := h.step hw hcmp henc (fun k => (ho k).sub 0) hs.1 hs.2
      obtain ⟨m, p, h3, h4⟩ := ih (fun k => (ho k).sub 1) h2
      refine ⟨m + 1, p, (h1.and h3).mono fun k ⟨h1, hk⟩ j hj => ?_, h4⟩
      obtain ⟨j, rfl⟩ : ∃ i, j = i + 1 := ⟨j - 1, by omega⟩
      have e : (spyLibrary (α k) V)
          ((PyCall.act s : PyCall (SPyStmt ℝ V) (SPyCond ℝ V) V).map (SPyStmt.map (enc k))
            (SPyCond.map (enc k))) (ord k, st k) = (.ok .done, ((ord k).sub 1, st₁ k)) := by
        simp only [spyLibrary, Machine.library, spyMachine, PyCall.map, h1, Answer.of]
      simp only [Caller.run, Caller.map, hn, Option.map_some, e]
      exact hk j (by omega)
    | @ask b σ r hb =>
      obtain ⟨m, m', b1, b2, b3, b4, b5⟩ := hb
      have h1 := h.test hw hcmp henc (fun k => (ho k).sub 2) b b1 b2 b3 b5 b4
      obtain ⟨m, p, h3, h4⟩ := ih ho h
      refine ⟨m + 1, p, (h1.and h3).mono fun k ⟨h1, hk⟩ j hj => ?_, h4⟩
      obtain ⟨j, rfl⟩ : ∃ i, j = i + 1 := ⟨j - 1, by omega⟩
      have e : (spyLibrary (α k) V)
          ((PyCall.ask b : PyCall (SPyStmt ℝ V) (SPyCond ℝ V) V).map (SPyStmt.map (enc k))
            (SPyCond.map (enc k))) (ord k, st k) = (.ok (.truth r), (ord k, st k)) := by
        simp only [spyLibrary, Machine.library, spyMachine, PyCall.map, h1, Answer.of]
      simp only [Caller.run, Caller.map, hn, Option.map_some, e]
      exact hk j (by omega)

omit [DecidableEq V] in
/-- Objects that hold converging values and derivatives. -/
theorem SObjNear.of_within {F : (String → ℝ) → ℝ}
    (hF : ∀ k, DifferentiableAt ℝ (fun t => F (Function.update x k t)) (x k)) {r : ∀ k, SS (α k)}
    (lim : ∀ {b : ∀ k, α k} {t : ℝ}, (∀ k, (M k).Sound (b k) t) → Lim M l ω b (fun _ => t) t)
    (h : ∀ k, SWF (r k) ∧ SWithin (M k).Sound Set.univ F x (r k)) : SObjNear M l ω x r F := by
  choose a ha hs using fun k => (h k).2.1
  refine ⟨r, fun k => (a k, fun j => (r k).mD.find j), fun k => ?_, .of_forall fun _ => rfl, ?_,
    fun nm => ?_⟩
  · obtain ⟨b, hb⟩ := Option.ne_none_iff_exists'.1 (h k).1.init
    have := ha k
    simp only [SS.f, hb, Res.ok.injEq] at this
    exact ⟨by rw [hb, this], (h k).1.nodup, fun _ => rfl⟩
  · exact lim hs
  · refine ⟨_, lim fun k => ?_, (hF nm).hasDerivAt⟩
    have := (h k).2.2 nm trivial
    unfold SS.d at this
    cases hf : (r k).mD.find nm with
    | none => simpa [hf] using this
    | some g => simpa [hf] using this

omit [DecidableEq V] in
/-- The rate in terms of bounds. -/
theorem SObjNear.errLe {r : ∀ k, SS (α k)} {F : (String → ℝ) → ℝ} (h : SObjNear M l ω x r F)
    (N : Finset String) :
    ∀ᶠ C in atTop, ∀ᶠ k in l,
      SWithin (fun s t => (M k).fin s ∧ |(M k).val s - t| ≤ C * ‖ω k‖) N F x (r k) := by
  obtain ⟨y, q, h0, h1, h2⟩ := h
  have near : ∀ {b : ∀ k, α k} {t : ℝ}, Lim M l ω b (fun _ => t) t →
      ∀ᶠ C : ℝ in atTop, ∀ᶠ k in l, (M k).fin (b k) ∧ |(M k).val (b k) - t| ≤ C * ‖ω k‖ :=
    fun {b t} hb => (Asymptotics.isBigO_iff_eventually_isBigOWith.1 hb.rate).mono fun C hC =>
      (hb.fin.and hC.bound).mono fun k hk => ⟨hk.1, by simpa only [Real.norm_eq_abs] using hk.2⟩
  have hD : ∀ nm, Lim M l ω (fun k => ((q k).2 nm).getD (Arith.lit 0))
      (fun _ => deriv (fun t => F (Function.update x nm t)) (x nm))
      (deriv (fun t => F (Function.update x nm t)) (x nm)) := fun nm => by
    obtain ⟨g, k1, k2⟩ := h2.d nm
    rw [k2.deriv]
    exact k1
  refine ((near h2.f).and (N.eventually_all.2 fun nm (_ : nm ∈ N) => near (hD nm))).mono
    fun C ⟨c1, c2⟩ => ?_
  refine ((c1.and (N.eventually_all.2 c2)).and h1).mono fun k ⟨⟨d1, d2⟩, e⟩ => ?_
  rw [e]
  refine ⟨⟨(q k).1, SS.f_ok (h0 k), d1⟩, fun nm hnm => ?_⟩
  rw [SS.d_eq (h0 k)]
  exact d2 nm hnm

end

end HJ
