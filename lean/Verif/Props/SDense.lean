import Verif.Spec.SDense
import Verif.Props.SBlock
import Verif.Props.Watch
import Verif.Props.Finite

/-!
# C91: sparse and dense derivatives agree in floating-point arithmetic
-/

namespace HJ

open SMap

section any

variable {α V Q : Type} [CMath α] {nan num : α → Prop} {c : Cfg} {n : Nat} {name : Nat → String}

/-- One derivative: an entry of a sparse scalar and a component of a dense jet. -/
def CellOn (nan num : α → Prop) (o : Option α) (u : α) : Prop :=
  (∀ v, o = some v → num v) ∧ (nan u ∨ o.getD (Arith.lit 0) = u)

theorem CellOn.getD (hl : NanLaws α nan num) {o : Option α} {u : α} (h : CellOn nan num o u) :
    num (o.getD (Arith.lit 0)) := by
  cases o with
  | none => exact hl.num_zero
  | some v => exact h.1 v rfl

theorem CellOn.none (hl : NanLaws α nan num) : CellOn nan num none (Arith.lit 0) :=
  ⟨fun _ h => absurd h (by simp), Or.inr rfl⟩

theorem CellOn.un (hl : NanLaws α nan num) {o : Option α} {u : α} (h : CellOn nan num o u) (da : α) :
    CellOn nan num (o.map (· *ₛ da)) (da *ₛ u) := by
  refine ⟨fun v hv => ?_, ?_⟩
  · obtain ⟨w, -, rfl⟩ := Option.map_eq_some_iff.1 hv
    exact hl.num_mul _ _
  · obtain hu | hu := h.2
    · exact Or.inl (hl.nan_mul _ _ (Or.inr hu))
    · subst hu
      cases o with
      | none => exact (hl.mul_zero da).imp id fun e => e.symm
      | some v => exact Or.inr (hl.comm.mul_comm v da)

theorem CellOn.un' (hl : NanLaws α nan num) {o : Option α} {u : α} (h : CellOn nan num o u) (da : α) :
    CellOn nan num (o.map (· *ₛ da)) (u *ₛ da) := by
  rw [hl.comm.mul_comm u da]
  exact h.un hl da

theorem CellOn.neg (hl : NanLaws α nan num) {o : Option α} {u : α} (h : CellOn nan num o u) :
    CellOn nan num (o.map fun w => -ₛ w) (-ₛ u) := by
  refine ⟨fun v hv => ?_, ?_⟩
  · obtain ⟨w, hw, rfl⟩ := Option.map_eq_some_iff.1 hv
    exact hl.num_neg _ (h.1 w hw)
  · obtain hu | hu := h.2
    · exact Or.inl (hl.nan_neg _ hu)
    · subst hu
      cases o with
      | none => exact Or.inr hl.neg_zero.symm
      | some v => exact Or.inr rfl

theorem zero_add_num (hl : NanLaws α nan num) {x : α} (h : num x) : Arith.lit 0 +ₛ x = x := by
  rw [hl.comm.add_comm, hl.add_zero x h]

/-- The entries `w +ₛ v` of `+=`. -/
theorem CellOn.add (hl : NanLaws α nan num) {o o' : Option α} {u u' : α} (h : CellOn nan num o u)
    (h' : CellOn nan num o' u') : CellOn nan num (step (fun v w => w +ₛ v) o o') (u +ₛ u') := by
  refine ⟨fun v hv => ?_, ?_⟩
  · cases o' with
    | none => exact h.1 v hv
    | some w => cases hv; exact hl.num_add _ _
  · obtain hu | hu := h.2
    · exact Or.inl (hl.nan_add _ _ (Or.inl hu))
    obtain hu' | hu' := h'.2
    · exact Or.inl (hl.nan_add _ _ (Or.inr hu'))
    subst hu hu'
    cases o' with
    | none => exact Or.inr (hl.add_zero _ (h.getD hl)).symm
    | some w => exact Or.inr rfl

/-- The entries `w -ₛ v` of `-=`. -/
theorem CellOn.sub (hl : NanLaws α nan num) {o o' : Option α} {u u' : α} (h : CellOn nan num o u)
    (h' : CellOn nan num o' u') : CellOn nan num (step (fun v w => w -ₛ v) o o') (u -ₛ u') := by
  refine ⟨fun v hv => ?_, ?_⟩
  · cases o' with
    | none => exact h.1 v hv
    | some w => cases hv; exact hl.num_sub _ _
  · obtain hu | hu := h.2
    · exact Or.inl (hl.nan_sub _ _ (Or.inl hu))
    obtain hu' | hu' := h'.2
    · exact Or.inl (hl.nan_sub _ _ (Or.inr hu'))
    subst hu hu'
    cases o' with
    | none => exact Or.inr (hl.sub_zero _ (h.getD hl)).symm
    | some w => exact Or.inr rfl

/-- Adding `db` times another derivative. -/
theorem CellOn.acc (hl : NanLaws α nan num) {o o' : Option α} {u u' : α} (h : CellOn nan num o u)
    (h' : CellOn nan num o' u') (db : α) :
    CellOn nan num (step (fun v w => w +ₛ db *ₛ v) o o') (u +ₛ db *ₛ u') := by
  have hm := h'.un hl db
  have := h.add hl hm
  cases o' with
  | none => exact this
  | some w =>
    have e : w *ₛ db = db *ₛ w := hl.comm.mul_comm w db
    simpa only [step, Option.map_some, e] using this

theorem CellOn.bin (hl : NanLaws α nan num) {o o' : Option α} {u u' : α} (h : CellOn nan num o u)
    (h' : CellOn nan num o' u') (da db : α) :
    CellOn nan num (step (fun v w => w +ₛ db *ₛ v) (o.map (· *ₛ da)) o') (da *ₛ u +ₛ db *ₛ u') :=
  (h.un hl da).acc hl h' db

theorem map_one (hl : NanLaws α nan num) {o : Option α} (h : ∀ v, o = some v → num v) :
    o.map (· *ₛ Arith.lit 1) = o := by
  cases o with
  | none => rfl
  | some v => exact congrArg some (hl.mul_one v (h v rfl))

theorem CellOn.bin_add (hl : NanLaws α nan num) {o o' : Option α} {u u' : α} (h : CellOn nan num o u)
    (h' : CellOn nan num o' u') :
    CellOn nan num (step (fun v w => w +ₛ Arith.lit 1 *ₛ v) (o.map (· *ₛ Arith.lit 1)) o') (u +ₛ u') := by
  rw [map_one hl h.1]
  have := h.add hl h'
  cases o' with
  | none => exact this
  | some w =>
    have e : (Arith.lit 1 : α) *ₛ w = w := by rw [hl.comm.mul_comm, hl.mul_one w (h'.1 w rfl)]
    simpa only [step, e] using this

theorem CellOn.bin_sub (hl : NanLaws α nan num) {o o' : Option α} {u u' : α} (h : CellOn nan num o u)
    (h' : CellOn nan num o' u') :
    CellOn nan num (step (fun v w => w +ₛ Arith.lit (-1) *ₛ v) (o.map (· *ₛ Arith.lit 1)) o')
      (u +ₛ -ₛ u') := by
  rw [map_one hl h.1]
  have := h.add hl (h'.neg hl)
  cases o' with
  | none => exact this
  | some w =>
    have e : (Arith.lit (-1) : α) *ₛ w = -ₛ w := hl.minus_one w (h'.1 w rfl)
    simpa only [step, Option.map_some, e] using this

/-- Value and derivatives. -/
structure DOn (nan num : α → Prop) (n : Nat) (name : Nat → String) (s : SVal α) (a : Nat → α) : Prop where
  f : a 0 = s.1
  g : ∀ i, i < n → CellOn nan num (s.2 (name i)) (a (1 + i))

theorem DOn.un (hl : NanLaws α nan num) {s : SVal α} {a : Nat → α} (h : DOn nan num n name s a)
    (f da daa : α) : DOn nan num n name (s.un f da) (uFin c n a f da daa) :=
  ⟨uFin_zero .., fun i hi => by rw [uFin_succ _ _ _ _ hi]; exact (h.g i hi).un hl da⟩

theorem DOn.bin (hl : NanLaws α nan num) {s t : SVal α} {a b : Nat → α} (h : DOn nan num n name s a)
    (k : DOn nan num n name t b) (f da db : α) {q : Bool} {t1 : Nat → α} {t2 : Nat → Nat → α}
    (ht : ∀ i, t1 (1 + i) = da *ₛ a (1 + i) +ₛ db *ₛ b (1 + i)) :
    DOn nan num n name (s.bin t f da db) (bFin c n q f t1 t2) :=
  ⟨bFin_zero .., fun i hi => by
    rw [bFin_succ _ _ _ _ hi, ht]; exact (h.g i hi).bin hl (k.g i hi) da db⟩

theorem coef_same (hl : NanLaws α nan num) (φ : Fn α) (x : α) :
    (φ.coefS x).1 = (φ.coef x).f ∧ (φ.coefS x).2 = (φ.coef x).da := by
  cases φ with
  | acos => exact ⟨rfl, by simp only [Fn.coefS, Fn.coef, SS.kAcos, DD.kAcos, hl.lit_minus_one]⟩
  | _ => exact ⟨rfl, rfl⟩

theorem Bin.on (hl : NanLaws α nan num) {s t : SVal α} {a b : Nat → α} (h : DOn nan num n name s a)
    (k : DOn nan num n name t b) (o : Bin) : DOn nan num n name (o.val s t) (o.runC c n a b) := by
  cases o with
  | add => exact ⟨by simp only [Bin.val, SVal.bin, Bin.runC, addC, h.f, k.f],
      fun i hi => (h.g i hi).bin_add hl (k.g i hi)⟩
  | sub => exact ⟨by simp only [Bin.val, SVal.bin, Bin.runC, subC, h.f, k.f, if_true],
      fun i hi => by
        simp only [Bin.runC, subC, Nat.add_eq_zero_iff, Nat.one_ne_zero, false_and, if_false]
        exact (h.g i hi).bin_sub hl (k.g i hi)⟩
  | mul => simp only [Bin.val, Bin.runC, mulC, h.f, k.f]; exact h.bin hl k _ _ _ fun i => rfl
  | div => simp only [Bin.val, Bin.runC, divC, h.f, k.f]; exact h.bin hl k _ _ _ fun i => rfl
  | atan2 => simp only [Bin.val, Bin.runC, atan2C, bin5, h.f, k.f]; exact h.bin hl k _ _ _ fun i => rfl
  | hypot => simp only [Bin.val, Bin.runC, hypotC, bin5, h.f, k.f]; exact h.bin hl k _ _ _ fun i => rfl

theorem DOn.keep {s : SVal α} {a a' : Nat → α} (h : DOn nan num n name s a) (v : α) (h0 : a' 0 = v)
    (hg : ∀ i, a' (1 + i) = a (1 + i)) : DOn nan num n name (v, s.2) a' :=
  ⟨h0, fun i hi => by rw [hg]; exact h.g i hi⟩

theorem DOn.scale (hl : NanLaws α nan num) {s : SVal α} {a : Nat → α} (h : DOn nan num n name s a) (t : α) :
    DOn nan num n name (s.un (s.1 *ₛ t) t) (fun k => a k *ₛ t) :=
  ⟨by simp only [SVal.un, h.f], fun i hi => (h.g i hi).un' hl t⟩

theorem SBin.on (hl : NanLaws α nan num) {s : SVal α} {a : Nat → α} (h : DOn nan num n name s a) (o : SBin)
    (x : α) : DOn nan num n name (o.val s x) (o.runC c n a x) := by
  have h1 : ∀ i, ¬ 1 + i = 0 := fun i => by omega
  cases o with
  | addS => exact h.keep _ (by simp [SBin.runC, addSC, h.f]) fun i => by simp [SBin.runC, addSC]
  | sAdd => exact h.keep _ (by simp [SBin.runC, addSC, h.f]) fun i => by simp [SBin.runC, addSC]
  | subS => exact h.keep _ (by simp [SBin.runC, addSC, h.f]) fun i => by simp [SBin.runC, addSC]
  | sSub => exact ⟨by simp [SBin.runC, SBin.val, sSubC, h.f], fun i hi => by
      simp only [SBin.runC, SBin.val, sSubC, h1, if_false]; exact (h.g i hi).neg hl⟩
  | mulS => exact h.scale hl x
  | sMul => exact h.scale hl x
  | divS => exact h.scale hl _
  | sDiv => simp only [SBin.val, SBin.runC, h.f]; exact h.un hl _ _ _

theorem Expr.on (hl : NanLaws α nan num) {s : V → SVal α} {a : V → Nat → α}
    (h : ∀ v, DOn nan num n name (s v) (a v)) (e : Expr α V) :
    DOn nan num n name (e.evalV s) (e.evalC c n a) := by
  induction e with
  | var v => exact h v
  | const x => exact ⟨rfl, fun i hi => by
      simp only [Expr.evalV, Expr.evalC, constC, Nat.add_eq_zero_iff, Nat.one_ne_zero, false_and, if_false]
      exact CellOn.none hl⟩
  | neg e ih => exact ⟨by simp only [Expr.evalC, Expr.evalV, SVal.neg, ih.f],
      fun i hi => (ih.g i hi).neg hl⟩
  | abs e ih =>
    simp only [Expr.evalV]
    split
    · rename_i hlt
      exact ⟨by simp only [Expr.evalC, absC, SVal.neg, ih.f, hlt, if_true], fun i hi => by
        simp only [Expr.evalC, absC, ih.f, hlt, if_true]; exact (ih.g i hi).neg hl⟩
    · rename_i hlt
      exact ⟨by simp only [Expr.evalC, absC, ih.f, hlt]; rfl, fun i hi => by
        simp only [Expr.evalC, absC, ih.f, hlt]; exact ih.g i hi⟩
  | fn φ e ih =>
    simp only [Expr.evalV, Expr.evalC, Fn.runC, ih.f, (coef_same hl φ _).1, (coef_same hl φ _).2]
    exact ih.un hl _ _ _
  | bin o e₁ e₂ ih₁ ih₂ => exact Bin.on hl ih₁ ih₂ o
  | sbin o e x ih => exact SBin.on hl ih o x
  | hypot3 e₁ e₂ e₃ ih₁ ih₂ ih₃ =>
    simp only [Expr.evalV, Expr.evalC, hypot3C, ih₁.f, ih₂.f, ih₃.f]
    exact ⟨bFin_zero .., fun i hi => by
      rw [bFin_succ _ _ _ _ hi]
      exact ((ih₁.g i hi).bin hl (ih₂.g i hi) _ _).acc hl (ih₃.g i hi) _⟩

/-- `x op= y` name by name. -/
def AOp.valV (o : AOp) (p q : SVal α) : SVal α :=
  match o with
  | .add => (p.1 +ₛ q.1, fun k => step (fun v w => w +ₛ v) (p.2 k) (q.2 k))
  | .sub => (p.1 -ₛ q.1, fun k => step (fun v w => w -ₛ v) (p.2 k) (q.2 k))
  | .mul => p.bin q (p.1 *ₛ q.1) q.1 p.1
  | .div => p.bin q (p.1 ÷ₛ q.1) (Arith.lit 1 ÷ₛ q.1) (-ₛ p.1 ÷ₛ Arith.powN q.1 2)

theorem AOp.on (hl : NanLaws α nan num) {s t : SVal α} {a b : Nat → α} (h : DOn nan num n name s a)
    (k : DOn nan num n name t b) (o : AOp) : DOn nan num n name (o.valV s t) (o.updC c n false a b) := by
  cases o with
  | add => exact ⟨by simp only [AOp.valV, AOp.updC, addC, h.f, k.f], fun i hi => (h.g i hi).add hl (k.g i hi)⟩
  | sub => exact ⟨by simp only [AOp.valV, AOp.updC, h.f, k.f], fun i hi => (h.g i hi).sub hl (k.g i hi)⟩
  | mul => simp only [AOp.valV, AOp.updC, mulAC, h.f, k.f]; exact h.bin hl k _ _ _ fun i => rfl
  | div =>
    simp only [AOp.valV, AOp.updC, divC, h.f, k.f, Bool.false_eq_true, if_false]
    exact h.bin hl k _ _ _ fun i => rfl

omit [CMath α] in
theorem SIsV.mk [Arith α] {m : SMap α} {v : α} {L : String → Option α} (hm : m.keys.Nodup)
    (h : ∀ k, m.find k = L k) : SIsV (⟨some v, m⟩ : SS α) (v, L) := ⟨rfl, hm, h⟩

theorem asg_obj_val {ord : Order α} (ho : ord.Ok) (o : AOp) {x y : SS α} {p q : SVal α} (hx : SIsV x p)
    (hy : SIsV y q) : ∃ r, o.runSS ord x (.obj y) = .ok r ∧ SIsV r (o.valV p q) := by
  have acc : ∀ (v : α) (g : α → α → α) {m : SMap α} {L : String → Option α}, m.keys.Nodup →
      (∀ k, m.find k = L k) → SIsV (⟨some v, SS.accumInto ord g m (.obj y)⟩ : SS α)
        (v, fun k => step g (L k) (q.2 k)) := fun v g m L hm hL => by
    have := SS.accumInto_look ho g hm hy
    exact SIsV.mk this.1 fun k => by rw [this.2, hL]
  have sc : ∀ t, (scale x.mD t).keys.Nodup ∧
      ∀ k, (scale x.mD t).find k = (p.2 k).map (· *ₛ t) := fun t => by
    have e1 : (SMap.scale x.mD t).keys = x.mD.keys := keys_map x.mD fun e => e.2 *ₛ t
    refine ⟨by rw [e1]; exact hx.nodup, fun k => ?_⟩
    rw [SMap.scale, find_map x.mD fun e => e *ₛ t, hx.look]
  cases o with
  | add =>
    refine ⟨_, ?_, acc (p.1 +ₛ q.1) (fun v w => w +ₛ v) hx.nodup hx.look⟩
    simp only [AOp.runSS, SS.addAssign, SS.Operand.get, SS.f_ok hx, SS.f_ok hy, Res.ok_bind]
  | sub =>
    refine ⟨_, ?_, acc (p.1 -ₛ q.1) (fun v w => w -ₛ v) hx.nodup hx.look⟩
    simp only [AOp.runSS, SS.subAssign, SS.Operand.get, SS.f_ok hx, SS.f_ok hy, Res.ok_bind]
  | mul =>
    refine ⟨_, ?_, acc (p.1 *ₛ q.1) (fun v w => w +ₛ p.1 *ₛ v) (sc q.1).1 (sc q.1).2⟩
    simp only [AOp.runSS, SS.mulAssign, SS.Operand.get, SS.f_ok hx, SS.f_ok hy, Res.ok_bind]
  | div =>
    refine ⟨_, ?_, acc (p.1 ÷ₛ q.1) (fun v w => w +ₛ -ₛ p.1 ÷ₛ Arith.powN q.1 2 *ₛ v)
      (sc (Arith.lit 1 ÷ₛ q.1)).1 (sc (Arith.lit 1 ÷ₛ q.1)).2⟩
    simp only [AOp.runSS, SS.divAssign, SS.Operand.get, SS.f_ok hx, SS.f_ok hy, Res.ok_bind]

theorem asg_self_val {ord : Order α} {o : AOp} (hs : o = .add ∨ o = .sub) {x : SS α} {p : SVal α}
    (hx : SIsV x p) : ∃ r, o.runSS ord x .self = .ok r ∧ SIsV r (o.valV p p) := by
  have acc : ∀ (v : α) (g : α → α → α), SIsV (⟨some v, SS.accumInto ord g x.mD .self⟩ : SS α)
        (v, fun k => step g (p.2 k) (p.2 k)) := fun v g => by
    have := accumSelf_spec g hx.nodup
    exact SIsV.mk this.1 fun k => by
      refine (this.2 k).trans ?_
      rw [hx.look]
      cases p.2 k <;> rfl
  obtain rfl | rfl := hs
  · refine ⟨_, ?_, acc (p.1 +ₛ p.1) fun v w => w +ₛ v⟩
    simp only [AOp.runSS, SS.addAssign, SS.Operand.get, SS.f_ok hx, Res.ok_bind]
  · refine ⟨_, ?_, acc (p.1 -ₛ p.1) fun v w => w -ₛ v⟩
    simp only [AOp.runSS, SS.subAssign, SS.Operand.get, SS.f_ok hx, Res.ok_bind]

theorem asgS_on_dense (hl : NanLaws α nan num) (o : AOp) {x : SS α} {p : SVal α} (hx : SIsV x p)
    {a : Nat → α} (h : DOn nan num n name p a) (s : α) :
    ∃ r q, o.runSSs x s = .ok r ∧ SIsV r q ∧ DOn nan num n name q (o.cellsS a s) := by
  have mul : ∀ t, ∃ r q, x.mulAssignS t = .ok r ∧ SIsV r q ∧ DOn nan num n name q (fun k => a k *ₛ t) := by
    intro t
    have := accumSelf_spec (fun _ w => w *ₛ t) hx.nodup
    exact ⟨⟨some (p.1 *ₛ t), accumSelf (fun _ w => w *ₛ t) x.mD⟩, p.un (p.1 *ₛ t) t,
      by simp only [SS.mulAssignS, SS.f_ok hx, Res.ok_bind],
      ⟨rfl, this.1, fun k => (this.2 k).trans (by rw [hx.look]; rfl)⟩, h.scale hl t⟩
  cases o with
  | add => exact ⟨⟨some (p.1 +ₛ s), x.mD⟩, (p.1 +ₛ s, p.2),
      by simp only [AOp.runSSs, SS.addAssignS, SS.f_ok hx, Res.ok_bind],
      ⟨rfl, hx.nodup, hx.look⟩, h.keep _ (by simp [AOp.cellsS, addSC, h.f])
        fun i => by simp [AOp.cellsS, addSC]⟩
  | sub => exact ⟨⟨some (p.1 -ₛ s), x.mD⟩, (p.1 -ₛ s, p.2),
      by simp only [AOp.runSSs, SS.subAssignS, SS.f_ok hx, Res.ok_bind],
      ⟨rfl, hx.nodup, hx.look⟩, h.keep _ (by simp [AOp.cellsS, subSC, h.f])
        fun i => by simp [AOp.cellsS, subSC]⟩
  | mul => exact mul s
  | div => exact mul _

variable [DecidableEq V]

/-- The objects under every name. -/
def StoreOn (nan num : α → Prop) (n : Nat) (name : Nat → String) (ρ : SStore α V) (a : V → Nat → α) :
    Prop :=
  ∀ v, ∃ p, SIsV (ρ v) p ∧ DOn nan num n name p (a v)

theorem put_dense {ρ : SStore α V} {a : V → Nat → α} (h : StoreOn nan num n name ρ a) (t : V)
    {r : Res (SS α)} {x : SS α} {p : SVal α} {b : Nat → α} (hr : r = .ok x) (hx : SIsV x p)
    (hp : DOn nan num n name p b) :
    ∃ τ, ρ.put t r = (.ok (), τ) ∧ StoreOn nan num n name τ (setC a t b) := by
  subst hr
  refine ⟨_, rfl, fun v => ?_⟩
  by_cases hv : v = t
  · simp only [hv, setC, if_true]; exact ⟨p, hx, hp⟩
  · simp only [hv, setC, if_false]; exact h v

theorem sstep_dense (hl : NanLaws α nan num) {ord : Order α} (ho : ord.Ok) {ρ : SStore α V}
    {a : V → Nat → α} (h : StoreOn nan num n name ρ a) (s : SStmt α V) (hs : s.Common) :
    ∃ τ, s.run ord ρ = (.ok (), τ) ∧ StoreOn nan num n name τ (s.dense.cells c n a) := by
  cases s with
  | assign t e =>
    choose p h1 h2 using h
    obtain ⟨r, k1, k2⟩ := evalSS_spec ho ρ p h1 e
    have hon := Expr.on (c := c) hl h2 e
    have h : StoreOn nan num n name ρ a := fun v => ⟨p v, h1 v, h2 v⟩
    cases e with
    | var w =>
      obtain ⟨r, k4, k5⟩ := is_copied ho (h1 w)
      exact put_dense h t k4 k5 hon
    | _ => exact put_dense h t k1 k2 hon
  | vari t k s => exact hs.elim
  | make t s d => exact hs.elim
  | upd o t e =>
    choose p h1 h2 using h
    obtain ⟨y, k1, k2⟩ := evalSS_spec (ho.sub 1) ρ p h1 e
    have hon := Expr.on (c := c) hl h2 e
    have h : StoreOn nan num n name ρ a := fun v => ⟨p v, h1 v, h2 v⟩
    have hobj : ∀ {y : SS α} {q : SVal α} {b : Nat → α}, SIsV y q → DOn nan num n name q b →
        ρ.operand (ord.sub 1) t e = .ok (.obj y) →
        ∃ τ, (SStmt.upd o t e).run ord ρ = (.ok (), τ) ∧
          StoreOn nan num n name τ (setC a t (o.updC c n false (a t) b)) := by
      intro y q b hy hq he
      obtain ⟨r, k3, k4⟩ := asg_obj_val (ho.sub 0) o (h1 t) hy
      exact put_dense h t (by simp only [he, Res.ok_bind, k3]) k4 (AOp.on hl (h2 t) hq o)
    have hcell : ∀ b : Nat → α, o.cells c n false (a t) b = o.updC c n false (a t) b := fun b => by
      simp [AOp.cells]
    cases e with
    | var w =>
      simp only [SStmt.dense, Stmt.cells]
      by_cases hw : w = t
      · subst hw
        have ho' := hs rfl
        obtain ⟨r, k3, k4⟩ := asg_self_val (ord := ord.sub 0) ho' (h1 w)
        have e : o.cells c n (decide (w = w)) (a w) (a w) = o.updC c n false (a w) (a w) := by
          obtain rfl | rfl := ho' <;> simp [AOp.cells, AOp.updC]
        rw [e]
        exact put_dense h w (by simp only [SStore.operand, if_true, Res.ok_bind, k3]) k4
          (AOp.on hl (h2 w) (h2 w) o)
      · simp only [hw, decide_false, hcell]
        exact hobj (h1 w) (h2 w) (by simp [SStore.operand, hw])
    | _ =>
      simp only [SStmt.dense, Stmt.cells, hcell]
      exact hobj k2 hon (by simp only [SStore.operand, k1, Res.ok_bind])
  | updS o t s =>
    obtain ⟨p, h1, h2⟩ := h t
    obtain ⟨r, q, k1, k2, k3⟩ := asgS_on_dense hl o h1 h2 s
    exact put_dense h t k1 k2 k3

omit [DecidableEq V] in
theorem SameUnlessNan.contents (hl : NanLaws α nan num) (hc : c.order = 1 ∨ c.order = 2) {x : SS α}
    {y : DD α} (h : SameUnlessNan nan num c n name x y) :
    ∃ p a, SIsV x p ∧ y = obj c n a ∧ DOn nan num n name p a := by
  obtain ⟨v, hv⟩ := h.wf.ex
  obtain ⟨hf, a, rfl⟩ := h.wf'.eq_obj hc
  refine ⟨(v, x.mD.find), a, hv, rfl, ?_, fun i hi => ?_⟩
  · have := h.f
    rw [SS.f_ok hv, f_obj] at this
    exact (Res.ok.inj this).symm
  · obtain ⟨u, h1, h2⟩ := h.g i hi
    have h3 := h.num i hi
    rw [g_obj hf a hi] at h1
    cases h1
    rw [SS.d_eq hv] at h2 h3
    refine ⟨fun w (hw : x.mD.find (name i) = some w) => ?_, h2⟩
    simpa [hw] using h3

omit [DecidableEq V] in
theorem DOn.same (hl : NanLaws α nan num) (hc : c.order = 1 ∨ c.order = 2)
    (hf : c.tsize = -1 ∨ c.tsize = n) {x : SS α} {p : SVal α} {a : Nat → α} (hx : SIsV x p)
    (h : DOn nan num n name p a) : SameUnlessNan nan num c n name x (obj c n a) where
  wf := hx.wf
  wf' := wf_obj hc hf a
  f := by rw [SS.f_ok hx, f_obj, h.f]
  g := fun i hi => ⟨_, g_obj hf a hi, by rw [SS.d_eq hx]; exact (h.g i hi).2⟩
  num := fun i hi => by rw [SS.d_eq hx]; exact (h.g i hi).getD hl

/-- **C91.**  Run client code that does not look at derivatives - expressions, assignments, in-place
operators (`*=` and `/=` with two different objects), comparisons, reading of values - on sparse scalars and
on dense jets, of either order, static or dynamic, that start with the same values and derivatives.  Nothing
fails in either run, both go through the same states, and in the end the values are the same and every
derivative is the same unless the dense one is NaN, bit for bit, in every arithmetic with `NanLaws` and
however the hash tables are iterated.  (A missing entry reads as 0.)  In particular a sparse derivative is
NaN only where the dense one is. -/
theorem C91_same (hl : NanLaws α nan num) (hv : c.Valid) (hf : c.tsize = -1 ∨ c.tsize = n)
    (hn : c.order = 2 → 0 < n) (cl : Caller (SCall α V) (Answer α) Q)
    (hcl : ∀ q k, cl.next q = some k → k.Common) (q : Q) {ord : Order α} (ho : ord.Ok) (ρ : SStore α V)
    (ρ' : Store α V) (h : ∀ v, SameUnlessNan nan num c n name (ρ v) (ρ' v)) (j : Nat) :
    (cl.run (ssLibrary α V) j q (ord, ρ) = none ∧
      (cl.map SCall.dense id).run (ddLibrary α V c n) j q ρ' = none) ∨
    ∃ q' p τ, cl.run (ssLibrary α V) j q (ord, ρ) = some (.ok q', p) ∧
      (cl.map SCall.dense id).run (ddLibrary α V c n) j q ρ' = some (.ok q', τ) ∧
      ∀ v, SameUnlessNan nan num c n name (p.2 v) (τ v) := by
  have hrun : ∀ j q ρ', (cl.map SCall.dense id).run (ddLibrary α V c n) j q ρ' =
      cl.run (fun k => ddLibrary α V c n k.dense) j q ρ' := by
    intro j
    induction j with
    | zero => intro q ρ'; rfl
    | succ j ih =>
      intro q ρ'
      simp only [Caller.run, Caller.map]
      cases hk : cl.next q with
      | none => rfl
      | some k =>
        simp only [Option.map_some]
        rcases hL : ddLibrary α V c n k.dense ρ' with ⟨r, s⟩
        cases r with
        | ok r => exact ih _ _
        | _ => rfl
  rw [hrun]
  choose p₀ a₀ h1 h2 h3 using fun v => (h v).contents hl hv.order
  obtain h | ⟨q', p, τ, h1, h2, _, a, rfl, h3⟩ := Caller.lockstep (cl := cl) (L := ssLibrary α V)
    (L' := fun k => ddLibrary α V c n k.dense) (P := SCall.Common)
    (Rel := fun p τ => p.1.Ok ∧ ∃ a : V → Nat → α, τ = (fun v => obj c n (a v)) ∧
      StoreOn nan num n name p.2 a)
    (by
      rintro k ⟨ord, ρ⟩ _ hk ⟨ho, a, rfl, h⟩
      have hs : ∀ v, SHas (ρ v) (a v 0) := fun v => by
        obtain ⟨p, h1, h2⟩ := h v
        exact ⟨h1.wf, by rw [SS.f_ok h1, h2.f]⟩
      cases k with
      | act s =>
        obtain ⟨τ, k1, k2⟩ := sstep_dense (c := c) hl (ho.sub 0) h s hk
        have hpl : s.dense.Plain c n := by
          cases s <;> first | trivial | exact fun _ => hn
        exact ⟨.done, (ord.sub 1, τ), _, by simp only [ssLibrary, k1, Answer.of],
          by simp only [SCall.dense, ddLibrary, Stmt.run_cells hv hf a s.dense hpl, Answer.of], ho.sub 1,
          _, rfl, k2⟩
      | ask b =>
        exact ⟨.truth (Cond.plain (fun v => a v 0) b), (ord, ρ), _, by
            simp only [ssLibrary, scond_value hl.comm hl.cmp (ho.sub 2) hs b,
            Answer.of],
          by simp only [SCall.dense, ddLibrary, cond_value hl.comm hl.cmp hv hf
            (fun v => ⟨wf_obj hv.order hf (a v), f_obj c n (a v)⟩) b, Answer.of], ho, a, rfl, h⟩
      | f v =>
        exact ⟨.number (a v 0), (ord, ρ), _, by simp only [ssLibrary, (hs v).2, Answer.of],
          by simp only [SCall.dense, ddLibrary, f_obj, Answer.of], ho, a, rfl, h⟩
      | d v k => exact hk.elim
      | size v m => exact hk.elim) hcl j q (st := (ord, ρ)) (st' := ρ')
    ⟨ho, a₀, funext h2, fun v => ⟨p₀ v, h1 v, h3 v⟩⟩
  · exact Or.inl h
  · refine Or.inr ⟨q', p, _, h1, h2, fun v => ?_⟩
    obtain ⟨p, k1, k2⟩ := h3 v
    exact k2.same hl hv.order hf k1

omit [DecidableEq V] in
/-- **C91, where to start.**  Variables and constants of both kinds are the same, if different variables have
different names. -/
theorem C91_start (hl : NanLaws α nan num) (hv : c.Valid) (hf : c.tsize = -1 ∨ c.tsize = n) {ord : Order α}
    (ho : ord.Ok) (hname : ∀ i j : Nat, i < n → j < n → name i = name j → i = j) (x : α) :
    (∀ i : Nat, i < n → ∃ y, DD.var c i x n = .ok y ∧
      SameUnlessNan nan num c n name (SS.var ord (name i) x) y) ∧
    ∃ y, DD.constant c x n = .ok y ∧ SameUnlessNan nan num c n name (SS.constant ord x) y := by
  constructor
  · intro i hi
    refine ⟨_, var_obj hf hi x, DOn.same hl hv.order hf
      (p := (x, fun k => if k = name i then some (Arith.lit 1) else none))
      (SS.is_var ho (name i) x) ⟨rfl, ?_⟩⟩
    intro k hk
    by_cases h : k = i
    · subst h
      simp only [if_true, varC]
      exact ⟨fun w hw => by cases hw; exact hl.num_one, Or.inr (by simp)⟩
    · have h' : ¬ name k = name i := fun e => h (hname k i hk hi e)
      have h'' : ¬ 1 + k = 1 + i := by omega
      simp only [h', if_false, varC, Nat.add_eq_zero_iff, Nat.one_ne_zero, false_and, h'']
      exact CellOn.none hl
  · refine ⟨_, constant_obj hf x, DOn.same hl hv.order hf (p := (x, _)) (SS.is_constant ho x) ⟨rfl, ?_⟩⟩
    intro k hk
    simp only [constC, Nat.add_eq_zero_iff, Nat.one_ne_zero, false_and, if_false]
    exact CellOn.none hl

end any

/-! ## Formats -/


section formats

variable {p emax : Nat}

theorem rndFmt_int_mul {y : ℝ} {z : ℤ} (h : y / 2 ^ (max (Int.log 2 |y|) (1 - emax) + 1 - p) = z) :
    rndFmt p emax y = y := by
  unfold rndFmt
  rw [h, roundEven_int, ← h, div_mul_cancel₀ _ (by positivity)]

theorem rndFmt_neg_fixed {y : ℝ} (h : rndFmt p emax y = y) : rndFmt p emax (-y) = -y := by
  refine rndFmt_int_mul (z := -roundEven (y / 2 ^ (max (Int.log 2 |y|) (1 - emax) + 1 - p))) ?_
  have hy : y = roundEven (y / 2 ^ (max (Int.log 2 |y|) (1 - emax) + 1 - p)) *
      2 ^ (max (Int.log 2 |y|) (1 - emax) + 1 - p) := h.symm
  rw [abs_neg, neg_div, Int.cast_neg, neg_inj, div_eq_iff (by positivity)]
  exact hy

/-- Rounding twice is rounding once. -/
theorem rndFmt_idem (hp : 1 ≤ p) (x : ℝ) : rndFmt p emax (rndFmt p emax x) = rndFmt p emax x := by
  set L : ℤ := max (Int.log 2 |x|) (1 - emax) with hL
  set m := roundEven (x / 2 ^ (L + 1 - p)) with hm
  have hy : rndFmt p emax x = m * 2 ^ (L + 1 - p) := rfl
  have hx : |x| < 2 ^ (L + 1) := by
    have := Int.lt_zpow_succ_log_self (b := 2) (by norm_num) |x|
    refine lt_of_lt_of_le (by exact_mod_cast this) ?_
    exact zpow_le_zpow_right₀ (by norm_num) (by omega)
  have hmle : |m| ≤ 2 ^ p := by
    have h1 := abs_sub_roundEven (x / 2 ^ (L + 1 - p))
    have h2 : |x / 2 ^ (L + 1 - p : ℤ)| < 2 ^ p := by
      rw [abs_div, abs_of_pos (a := (2 : ℝ) ^ (L + 1 - p : ℤ)) (by positivity), div_lt_iff₀ (by positivity),
        ← zpow_natCast, ← zpow_add₀ (by norm_num)]
      rwa [show (p : ℤ) + (L + 1 - p) = L + 1 by omega]
    have h3 : |(m : ℝ)| < 2 ^ p + 1 := by
      have := abs_sub_abs_le_abs_sub (m : ℝ) (x / 2 ^ (L + 1 - p : ℤ))
      rw [abs_sub_comm] at this
      rw [← hm] at h1
      linarith
    have h4 : |m| < 2 ^ p + 1 := by exact_mod_cast h3
    omega
  rw [hy]
  by_cases h0 : m = 0
  · simp only [h0, Int.cast_zero, zero_mul]
    exact rndFmt_int_mul (z := 0) (by simp)
  by_cases hle : |m| < 2 ^ p
  · -- the exponent does not grow
    have hlog : Int.log 2 |(m : ℝ) * 2 ^ (L + 1 - p : ℤ)| ≤ L := by
      refine Int.lt_add_one_iff.1 ((Int.lt_zpow_iff_log_lt (by norm_num) ?_).1 ?_)
      · exact abs_pos.2 (mul_ne_zero (by exact_mod_cast h0) (by positivity))
      · rw [abs_mul, abs_of_pos (a := (2 : ℝ) ^ (L + 1 - p : ℤ)) (by positivity)]
        have h5 : |(m : ℝ)| < 2 ^ p := by exact_mod_cast hle
        calc |(m : ℝ)| * 2 ^ (L + 1 - p : ℤ) < 2 ^ p * 2 ^ (L + 1 - p : ℤ) :=
              mul_lt_mul_of_pos_right h5 (by positivity)
          _ = _ := by
            rw [← zpow_natCast, ← zpow_add₀ (by norm_num)]
            push_cast
            congr 1
            omega
    set E : ℤ := max (Int.log 2 |(m : ℝ) * 2 ^ (L + 1 - p : ℤ)|) (1 - emax) + 1 - p with hE
    obtain ⟨q, hq⟩ : ∃ q : Nat, L + 1 - p = E + q := ⟨(L + 1 - p - E).toNat, by omega⟩
    refine rndFmt_int_mul (z := m * 2 ^ q) ?_
    rw [← hE, hq, zpow_add₀ (by norm_num), div_eq_iff (by positivity)]
    push_cast
    rw [zpow_natCast]
    ring
  · have h6 : |m| = 2 ^ p := le_antisymm hmle (not_lt.1 hle)
    have h7 : rndFmt p emax ((2 : ℝ) ^ (L + 1)) = 2 ^ (L + 1) := rndFmt_zpow hp (by omega)
    have h8 : (2 : ℝ) ^ p * 2 ^ (L + 1 - p : ℤ) = 2 ^ (L + 1) := by
      rw [← zpow_natCast, ← zpow_add₀ (by norm_num)]
      congr 1
      omega
    obtain h9 | h9 := abs_eq (by positivity) |>.1 h6
    · rw [h9]
      push_cast
      rw [h8, h7]
    · rw [h9]
      push_cast
      rw [neg_mul, h8]
      exact rndFmt_neg_fixed h7

theorem toFmt_idem (hp : 1 ≤ p) (x : XReal) : toFmt p emax (toFmt p emax x) = toFmt p emax x := by
  cases x with
  | num x =>
    rw [toFmt_num]
    split
    · rename_i h
      rw [toFmt_num, rndFmt_idem hp, if_pos h]
    · rfl
  | inf s => rfl
  | nan => rfl

theorem toFmt_neg_fixed {x : XReal} (h : toFmt p emax x = x) : toFmt p emax (-ₛ x) = -ₛ x := by
  cases x with
  | num x =>
    show toFmt p emax (.num (-x)) = .num (-x)
    rw [toFmt_num] at h ⊢
    split at h
    · rename_i hlt
      have hx : rndFmt p emax x = x := by injection h
      rw [rndFmt_neg_fixed hx, abs_neg]
      rw [hx] at hlt
      rw [if_pos hlt]
    · cases h
  | inf s => rfl
  | nan => rfl

/-- The rules hold in the extended reals. -/
theorem nanLaws_xreal : NanLaws XReal (· = .nan) (fun _ => True) where
  comm := xreal_comm
  cmp := xreal_cmp
  nan_add x y h := by obtain rfl | rfl := h <;> [rfl; (cases x <;> rfl)]
  nan_sub x y h := by obtain rfl | rfl := h <;> [rfl; (cases x <;> rfl)]
  nan_mul x y h := by obtain rfl | rfl := h <;> [rfl; (cases x <;> rfl)]
  nan_neg x h := by subst h; rfl
  mul_zero x := by
    have hz : (Arith.lit 0 : XReal) = .num 0 := congrArg XReal.num Int.cast_zero
    rw [hz]
    cases x with
    | num x => exact Or.inr (congrArg XReal.num (mul_zero x))
    | inf s => exact Or.inl (by show XReal.mulInf 0 s = _; simp [XReal.mulInf])
    | nan => exact Or.inl rfl
  neg_zero := congrArg XReal.num (by simp)
  num_zero := trivial
  num_one := trivial
  num_add _ _ := trivial
  num_sub _ _ := trivial
  num_mul _ _ := trivial
  num_neg _ _ := trivial
  add_zero x _ := by
    have hz : (Arith.lit 0 : XReal) = .num 0 := congrArg XReal.num Int.cast_zero
    rw [hz]
    cases x with
    | num x => exact congrArg XReal.num (add_zero x)
    | _ => rfl
  sub_zero x _ := by
    have hz : (Arith.lit 0 : XReal) = .num 0 := congrArg XReal.num Int.cast_zero
    rw [hz]
    cases x with
    | num x => exact congrArg XReal.num (by simp)
    | _ => rfl
  mul_one x _ := by
    have hz : (Arith.lit 1 : XReal) = .num 1 := congrArg XReal.num Int.cast_one
    rw [hz]
    cases x with
    | num x => exact congrArg XReal.num (mul_one x)
    | inf s => show XReal.mulInf 1 s = _; simp [XReal.mulInf]
    | nan => rfl
  minus_one x _ := by
    have hz : (Arith.lit (-1) : XReal) = .num (-1) := congrArg XReal.num (by simp)
    rw [hz]
    cases x with
    | num x => exact congrArg XReal.num (neg_one_mul x)
    | inf s => show XReal.mulInf (-1) s = _; simp [XReal.mulInf]; rfl
    | nan => rfl
  lit_minus_one := congrArg XReal.num (by simp)

theorem fmt_lit_zero : (Arith.lit 0 : IEEE p emax) = ⟨.num 0⟩ :=
  IEEE.ext ((congrArg (toFmt p emax) (congrArg XReal.num Int.cast_zero)).trans toFmt_zero)

theorem fmt_lit_one (hp : 1 ≤ p) (he : 1 ≤ emax) : (Arith.lit 1 : IEEE p emax) = ⟨.num 1⟩ := by
  have h := toFmt_zpow (p := p) (emax := emax) hp (k := 0) (by omega) (by omega)
  rw [zpow_zero] at h
  exact IEEE.ext ((congrArg (toFmt p emax) (congrArg XReal.num Int.cast_one)).trans h)

theorem fmt_lit_minus_one (hp : 1 ≤ p) (he : 1 ≤ emax) : (Arith.lit (-1) : IEEE p emax) = ⟨.num (-1)⟩ := by
  have h := toFmt_zpow (p := p) (emax := emax) hp (k := 0) (by omega) (by omega)
  rw [zpow_zero] at h
  exact IEEE.ext ((congrArg (toFmt p emax) (congrArg XReal.num (by simp))).trans (toFmt_neg_fixed h))

/-- The rules hold in every binary format, for instance `double` and `float`. -/
theorem nanLaws_ieee (hp : 1 ≤ p) (he : 1 ≤ emax) :
    NanLaws (IEEE p emax) IEEE.IsNan IEEE.InFormat where
  comm := {
    add_comm := fun x y => IEEE.ext (congrArg (toFmt p emax) (xreal_comm.add_comm x.val y.val))
    mul_comm := fun x y => IEEE.ext (congrArg (toFmt p emax) (xreal_comm.mul_comm x.val y.val))
    add_neg := fun x y => IEEE.ext (congrArg (toFmt p emax) (xreal_comm.add_neg x.val y.val)) }
  cmp := {
    eq := fun x y => xreal_cmp.eq x.val y.val
    ne := fun x y => xreal_cmp.ne x.val y.val
    lt := fun x y => xreal_cmp.lt x.val y.val
    le := fun x y => xreal_cmp.le x.val y.val }
  nan_add x y h := congrArg (toFmt p emax) (nanLaws_xreal.nan_add x.val y.val h)
  nan_sub x y h := congrArg (toFmt p emax) (nanLaws_xreal.nan_sub x.val y.val h)
  nan_mul x y h := congrArg (toFmt p emax) (nanLaws_xreal.nan_mul x.val y.val h)
  nan_neg x h := nanLaws_xreal.nan_neg x.val h
  mul_zero x := by
    have hz : (Arith.lit 0 : XReal) = .num 0 := congrArg XReal.num Int.cast_zero
    have h := nanLaws_xreal.mul_zero x.val
    rw [hz] at h
    rw [fmt_lit_zero]
    exact h.imp (fun h => (congrArg (toFmt p emax) h : toFmt p emax (x.val *ₛ .num 0) = .nan))
      (fun h => IEEE.ext ((congrArg (toFmt p emax) h).trans toFmt_zero))
  neg_zero := by
    rw [fmt_lit_zero]
    exact IEEE.ext (congrArg XReal.num (by simp))
  num_zero := toFmt_idem (emax := emax) hp (Arith.lit 0)
  num_one := toFmt_idem (emax := emax) hp (Arith.lit 1)
  num_add _ _ := toFmt_idem hp _
  num_sub _ _ := toFmt_idem hp _
  num_mul _ _ := toFmt_idem hp _
  num_neg _ h := toFmt_neg_fixed h
  add_zero x h := by
    have hz : (Arith.lit 0 : XReal) = .num 0 := congrArg XReal.num Int.cast_zero
    have h' := nanLaws_xreal.add_zero x.val trivial
    rw [hz] at h'
    rw [fmt_lit_zero]
    exact IEEE.ext ((congrArg (toFmt p emax) h').trans h)
  sub_zero x h := by
    have hz : (Arith.lit 0 : XReal) = .num 0 := congrArg XReal.num Int.cast_zero
    have h' := nanLaws_xreal.sub_zero x.val trivial
    rw [hz] at h'
    rw [fmt_lit_zero]
    exact IEEE.ext ((congrArg (toFmt p emax) h').trans h)
  mul_one x h := by
    have hz : (Arith.lit 1 : XReal) = .num 1 := congrArg XReal.num Int.cast_one
    have h' := nanLaws_xreal.mul_one x.val trivial
    rw [hz] at h'
    rw [fmt_lit_one hp he]
    exact IEEE.ext ((congrArg (toFmt p emax) h').trans h)
  minus_one x h := by
    have hz : (Arith.lit (-1) : XReal) = .num (-1) := congrArg XReal.num (by simp)
    have h' := nanLaws_xreal.minus_one x.val trivial
    rw [hz] at h'
    rw [fmt_lit_minus_one hp he]
    exact IEEE.ext ((congrArg (toFmt p emax) h').trans (toFmt_neg_fixed h))
  lit_minus_one := by
    rw [fmt_lit_minus_one hp he, fmt_lit_one hp he]
    rfl

variable {V Q : Type} [DecidableEq V] {c : Cfg} {n : Nat} {name : Nat → String}

/-- **C91, formats.**  In every binary floating-point format (`double`, `float`): let the objects be
variables (`kind v = some i`) and constants (`none`) of the same values, sparse and dense.  After any client
code as in `C91_same` each first derivative is the same number, unless the dense one is NaN. -/
theorem C91_formats (hp : 1 ≤ p) (he : 1 ≤ emax) (hv : c.Valid) (hf : c.tsize = -1 ∨ c.tsize = n)
    (hn : c.order = 2 → 0 < n) (hname : ∀ i j : Nat, i < n → j < n → name i = name j → i = j)
    (cl : Caller (SCall (IEEE p emax) V) (Answer (IEEE p emax)) Q)
    (hcl : ∀ q k, cl.next q = some k → k.Common) (q : Q) {ord : Order (IEEE p emax)} (ho : ord.Ok)
    (kind : V → Option (Fin n)) (x : V → IEEE p emax) (ρ : SStore (IEEE p emax) V)
    (ρ' : Store (IEEE p emax) V)
    (hvar : ∀ v i, kind v = some i → ρ v = SS.var ord (name i) (x v) ∧
      DD.var c (i : Nat) (x v) n = .ok (ρ' v))
    (hcon : ∀ v, kind v = none → ρ v = SS.constant ord (x v) ∧ DD.constant c (x v) n = .ok (ρ' v))
    (j : Nat) :
    (cl.run (ssLibrary (IEEE p emax) V) j q (ord, ρ) = none ∧
      (cl.map SCall.dense id).run (ddLibrary (IEEE p emax) V c n) j q ρ' = none) ∨
    ∃ q' s τ, cl.run (ssLibrary (IEEE p emax) V) j q (ord, ρ) = some (.ok q', s) ∧
      (cl.map SCall.dense id).run (ddLibrary (IEEE p emax) V c n) j q ρ' = some (.ok q', τ) ∧
      ∀ v, (s.2 v).f = (τ v).f ∧ ∀ i : Nat, i < n → ∃ u, (τ v).g c i = .ok u ∧
        (u.val = .nan ∨ (s.2 v).d (name i) = u) := by
  have hl := nanLaws_ieee (p := p) (emax := emax) hp he
  obtain h | ⟨q', s, τ, h1, h2, h3⟩ := C91_same (name := name) hl hv hf hn cl hcl q ho ρ ρ' (fun v => by
    have hs := C91_start hl hv hf ho hname (x v)
    cases hk : kind v with
    | none =>
      obtain ⟨h1, h2⟩ := hcon v hk
      obtain ⟨y, h3, h4⟩ := hs.2
      rw [h2] at h3
      cases h3
      rw [h1]
      exact h4
    | some i =>
      obtain ⟨h1, h2⟩ := hvar v i hk
      obtain ⟨y, h3, h4⟩ := hs.1 i i.2
      rw [h2] at h3
      cases h3
      rw [h1]
      exact h4) j
  · exact Or.inl h
  · exact Or.inr ⟨q', s, τ, h1, h2, fun v => ⟨(h3 v).f, (h3 v).g⟩⟩

end formats

/-! ## Examples -/

/-- `double` and `float`; infinities and NaN are in the format, and so is 0.5 in `float`. -/
example : NanLaws (IEEE 53 1023) IEEE.IsNan IEEE.InFormat ∧ NanLaws (IEEE 24 127) IEEE.IsNan IEEE.InFormat ∧
    (⟨.num (2 ^ (-1 : ℤ))⟩ : IEEE 24 127).InFormat :=
  ⟨nanLaws_ieee (by norm_num) (by norm_num), nanLaws_ieee (by norm_num) (by norm_num),
    toFmt_zpow (by norm_num) (by norm_num) (by norm_num)⟩

/-- Binary powering of a variable in `double`, with two variables: sparse, and dense of either order. -/
example {c : Cfg} (hv : c.Valid) (hf : c.tsize = -1 ∨ c.tsize = (2 : Nat)) {ord : Order (IEEE 53 1023)}
    (ho : ord.Ok) (N j : Nat) (x : IEEE 53 1023) {a b : DD (IEEE 53 1023)}
    (ha : DD.var c (1 : Nat) x (2 : Nat) = .ok a) (hb : DD.constant c (Arith.lit 1) (2 : Nat) = .ok b) :
    ((exSPowers _).run (ssLibrary (IEEE 53 1023) (Fin 2)) j N
        (ord, ![SS.var ord "y" x, SS.constant ord (Arith.lit 1)]) = none ∧
      ((exSPowers _).map SCall.dense id).run (ddLibrary (IEEE 53 1023) (Fin 2) c 2) j N ![a, b] = none) ∨
    ∃ q' s τ, (exSPowers _).run (ssLibrary (IEEE 53 1023) (Fin 2)) j N
        (ord, ![SS.var ord "y" x, SS.constant ord (Arith.lit 1)]) = some (.ok q', s) ∧
      ((exSPowers _).map SCall.dense id).run (ddLibrary (IEEE 53 1023) (Fin 2) c 2) j N ![a, b] =
        some (.ok q', τ) ∧
      ∀ v, (s.2 v).f = (τ v).f ∧ ∀ i : Nat, i < 2 → ∃ u, (τ v).g c i = .ok u ∧
        (u.val = .nan ∨ (s.2 v).d (if i = 0 then "x" else "y") = u) := by
  refine C91_formats (name := fun i => if i = 0 then "x" else "y") (by norm_num) (by norm_num) hv hf
    (fun _ => by norm_num) (fun i j hi hj h => ?_) (exSPowers _) (fun q k h => ?_) N ho ![some 1, none]
    ![x, Arith.lit 1] _ _ (fun v i h => ?_) (fun v h => ?_) j
  · have h1 : i = 0 ∨ i = 1 := by omega
    have h2 : j = 0 ∨ j = 1 := by omega
    rcases h1 with rfl | rfl <;> rcases h2 with rfl | rfl <;> simp at h ⊢
  · simp only [exSPowers] at h
    split at h
    · cases h
    · split at h <;> cases h <;> simp [SCall.Common, SStmt.Common]
  · match v with
    | 0 => cases h; exact ⟨rfl, ha⟩
    | 1 => cases h
  · match v with
    | 0 => cases h
    | 1 => exact ⟨rfl, hb⟩

/-- Both objects of the example exist. -/
example {α : Type} [Arith α] (x : α) :
    (∃ a, DD.var exDyn2 (1 : Nat) x (2 : Nat) = .ok a) ∧
      ∃ b, DD.constant exDyn2 (Arith.lit 1 : α) (2 : Nat) = .ok b :=
  ⟨⟨_, var_obj (Or.inl rfl) (by norm_num) x⟩, _, constant_obj (Or.inl rfl) _⟩

/-- The exception is needed: for `x + √y` at `y = 0` the dense derivative for `x` is NaN, the sparse one 1. -/
example {ord : Order XReal} (ho : ord.Ok) :
    ∃ r s, evalAt exDyn2 (.bin .add (.var 0) (.fn .sqrt (.var 1)) : Expr ℝ (Fin 2)) ![0, 0] = .ok r ∧
      evalNamed ord (fun _ => ord) ![ "x", "y" ] (.bin .add (.var 0) (.fn .sqrt (.var 1))) ![0, 0] = .ok s ∧
      r.g exDyn2 0 = .ok .nan ∧ s.d "x" = .num 1 :=
  C45_violated_outside ho exDyn2_valid (Or.inl rfl) (fun _ => ho)

/-- `C91_same` in the extended reals, and `C91_start` for its objects: `x *= y` in the sparse type. -/
example {c : Cfg} (hv : c.Valid) (hf : c.tsize = -1 ∨ c.tsize = (2 : Nat)) {ord : Order XReal} (ho : ord.Ok)
    (x y : XReal) :
    ∃ ρ' : Store XReal (Fin 2), ∀ v, SameUnlessNan (· = .nan) (fun _ => True) c 2
      (fun i => if i = 0 then "x" else "y") ((![SS.var ord "x" x, SS.var ord "y" y] : SStore XReal (Fin 2)) v)
      (ρ' v) := by
  have h : ∀ i j : Nat, i < 2 → j < 2 → (if i = 0 then "x" else "y") = (if j = 0 then "x" else "y") →
      i = j := fun i j hi hj h => by
    have h1 : i = 0 ∨ i = 1 := by omega
    have h2 : j = 0 ∨ j = 1 := by omega
    rcases h1 with rfl | rfl <;> rcases h2 with rfl | rfl <;> simp at h ⊢
  obtain ⟨a, -, ha⟩ := (C91_start nanLaws_xreal hv hf ho h x).1 0 (by norm_num)
  obtain ⟨b, -, hb⟩ := (C91_start nanLaws_xreal hv hf ho h y).1 1 (by norm_num)
  refine ⟨![a, b], fun v => ?_⟩
  match v with
  | 0 => exact ha
  | 1 => exact hb

/-- Powers again, in the extended reals, from any objects that are the same. -/
example {c : Cfg} (hv : c.Valid) (hf : c.tsize = -1 ∨ c.tsize = (2 : Nat)) {ord : Order XReal} (ho : ord.Ok)
    (N j : Nat) (name : Nat → String) (ρ : SStore XReal (Fin 2)) (ρ' : Store XReal (Fin 2))
    (h : ∀ v, SameUnlessNan (· = .nan) (fun _ => True) c 2 name (ρ v) (ρ' v)) :
    ((exSPowers _).run (ssLibrary XReal (Fin 2)) j N (ord, ρ) = none ∧
      ((exSPowers _).map SCall.dense id).run (ddLibrary XReal (Fin 2) c 2) j N ρ' = none) ∨
    ∃ q' p τ, (exSPowers _).run (ssLibrary XReal (Fin 2)) j N (ord, ρ) = some (.ok q', p) ∧
      ((exSPowers _).map SCall.dense id).run (ddLibrary XReal (Fin 2) c 2) j N ρ' = some (.ok q', τ) ∧
      ∀ v, SameUnlessNan (· = .nan) (fun _ => True) c 2 name (p.2 v) (τ v) := by
  refine C91_same nanLaws_xreal hv hf (fun _ => by norm_num) (exSPowers _) (fun q k h => ?_) N ho ρ ρ' h j
  simp only [exSPowers] at h
  split at h
  · cases h
  · split at h <;> cases h <;> simp [SCall.Common, SStmt.Common]

end HJ
