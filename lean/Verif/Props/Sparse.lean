import Verif.Proofs.SparseBad
import Verif.Spec.Exact
import Verif.Props.Calculus
import Mathlib.Data.Set.Card
import Mathlib.Analysis.Calculus.Deriv.Comp
import Mathlib.Analysis.Calculus.Deriv.Add
import Mathlib.Analysis.Calculus.Deriv.Inv
import Mathlib.Analysis.Calculus.Deriv.Pow

/-!
# Properties C40-C45: sparse scalars
-/

namespace HJ

open SMap

/-! ### Helpers -/

section aux

variable {α V : Type}

theorem SWF.ex {x : SS α} (h : SWF x) : ∃ v, SIs x v x.mD.find := by
  cases hx : x.mF with
  | none => exact absurd hx h.init
  | some v => exact ⟨v, hx, h.nodup, fun _ => rfl⟩

theorem SIs.wf {x : SS α} {v : α} {L : String → Option α} (h : SIs x v L) : SWF x :=
  ⟨by rw [h.f]; simp, h.nodup⟩

theorem SIs.mem {x : SS α} {v : α} {L : String → Option α} (h : SIs x v L) (k : String) :
    k ∈ x.names ↔ L k ≠ none := by
  rw [← h.look, Ne, find_none, not_not]; rfl

theorem SIs.same [Arith α] {x y : SS α} {v w : α} {L M : String → Option α} (h : SIs x v L)
    (k : SIs y w M) (hv : v = w) (hl : ∀ j, L j = M j) : SameSS x y where
  f := by rw [SS.f_ok h, SS.f_ok k, hv]
  size := by
    unfold SS.size
    rw [size_eq_of_look h.nodup k.nodup fun j => by rw [h.look, k.look, hl]]
  d := fun j => by rw [SS.d_eq h, SS.d_eq k, hl]
  names := fun j => by rw [h.mem, k.mem, hl]

/-- Same value and entries for objects that cannot be told apart, one of them described. -/
theorem SameSS.is [Arith α] {x y : SS α} (hy : SWF y) {v : α} {L : String → Option α}
    (hx : SIs x v L) (h : SameSS x y) : SIs y v L := by
  obtain ⟨w, hw⟩ := hy.ex
  have hvw : v = w := by
    have := h.f
    rw [SS.f_ok hx, SS.f_ok hw] at this
    exact Res.ok.inj this
  refine ⟨by rw [hvw]; exact hw.f, hw.nodup, fun k => ?_⟩
  have hn := h.names k
  have hd := h.d k
  rw [hx.mem, hw.mem] at hn
  rw [SS.d_eq hx, SS.d_eq hw] at hd
  cases h1 : L k with
  | none =>
    cases h2 : y.mD.find k with
    | none => rfl
    | some b => exact absurd (hn.mpr (by rw [h2]; simp)) (by rw [h1]; simp)
  | some a =>
    cases h2 : y.mD.find k with
    | none => exact absurd (hn.mp (by rw [h1]; simp)) (by rw [h2]; simp)
    | some b => rw [h1, h2] at hd; simpa using hd.symm

end aux

/-- The iteration order of a hash table that enumerates backwards. -/
def exRev {α : Type} : Order α := fun _ m => m.reverse
/-- The iteration order of a hash table that enumerates in insertion order. -/
def exFwd {α : Type} : Order α := fun _ m => m

theorem exRev_ok {α : Type} : (exRev : Order α).Ok := fun _ m => m.reverse_perm
theorem exFwd_ok {α : Type} : (exFwd : Order α).Ok := fun _ _ => List.Perm.refl _

/-! ### C41: which names are stored -/

section c41

variable {α V : Type} [CMath α]

theorem evalV_none (σ : V → SVal α) (e : Expr α V) (k : String) :
    (e.evalV σ).2 k = none ↔ ∀ v, e.Mentions v → (σ v).2 k = none := by
  have hstep : ∀ (g : α → α → α) (a b : Option α), step g a b = none ↔ a = none ∧ b = none := by
    intro g a b
    cases b <;> simp [step]
  have hbin : ∀ (p q : SVal α) (f a b : α), (p.bin q f a b).2 k = none ↔
      p.2 k = none ∧ q.2 k = none := by
    intro p q f a b
    simp [SVal.bin, hstep]
  induction e with
  | var v => simp [Expr.evalV, Expr.Mentions]
  | const s => simp [Expr.evalV, Expr.Mentions]
  | neg e ih => simpa [Expr.evalV, SVal.neg, Expr.Mentions] using ih
  | abs e ih =>
    simp only [Expr.evalV, Expr.Mentions]
    split
    · simpa [SVal.neg] using ih
    · exact ih
  | fn φ e ih => simpa [Expr.evalV, SVal.un, Expr.Mentions] using ih
  | bin o e₁ e₂ ih₁ ih₂ =>
    have : (o.val (e₁.evalV σ) (e₂.evalV σ)).2 k = none ↔
        (e₁.evalV σ).2 k = none ∧ (e₂.evalV σ).2 k = none := by cases o <;> exact hbin ..
    exact this.trans ((and_congr ih₁ ih₂).trans ⟨fun h v hv => hv.elim (h.1 v) (h.2 v),
      fun h => ⟨fun v hv => h v (Or.inl hv), fun v hv => h v (Or.inr hv)⟩⟩)
  | sbin o e s ih =>
    have : (o.val (e.evalV σ) s).2 k = none ↔ (e.evalV σ).2 k = none := by
      cases o <;> simp [SBin.val, SVal.un, SVal.neg]
    exact this.trans ih
  | hypot3 e₁ e₂ e₃ ih₁ ih₂ ih₃ =>
    simp only [Expr.evalV, SVal.tern, hstep, Option.map_eq_none_iff, ih₁, ih₂, ih₃, Expr.Mentions]
    exact ⟨fun h v hv => hv.elim (h.1.1 v) fun hv => hv.elim (h.1.2 v) (h.2 v),
      fun h => ⟨⟨fun v hv => h v (Or.inl hv), fun v hv => h v (Or.inr (Or.inl hv))⟩,
        fun v hv => h v (Or.inr (Or.inr hv))⟩⟩

/-- C41: the names stored by a result are those stored by the operands that occur. -/
theorem C41_names {ord : Order α} (ho : ord.Ok) (e : Expr α V) (ρ : V → SS α)
    (hρ : ∀ v, SWF (ρ v)) :
    ∃ r, e.evalSS ord ρ = .ok r ∧ r.names.Nodup ∧
      ∀ k, k ∈ r.names ↔ ∃ v, e.Mentions v ∧ k ∈ (ρ v).names := by
  choose p hp using fun v => (hρ v).ex
  obtain ⟨r, h1, h2⟩ := evalSS_spec ho ρ (fun v => (p v, (ρ v).mD.find)) hp e
  refine ⟨r, h1, h2.nodup, fun k => ?_⟩
  rw [h2.mem, Ne, evalV_none]
  push Not
  exact exists_congr fun v => and_congr_right fun _ => ((hp v).mem k).symm

example : ∃ r, (Expr.bin .mul (.var ()) (.var ()) : Expr XReal Unit).evalSS exRev
    (fun _ => SS.mk (some (.num 2)) [("a", .num 1), ("b", .num 5)]) = .ok r ∧ "b" ∈ r.names := by
  obtain ⟨r, h1, _, h3⟩ := C41_names exRev_ok (Expr.bin .mul (.var ()) (.var ()) : Expr XReal Unit)
    (fun _ => SS.mk (some (.num 2)) [("a", .num 1), ("b", .num 5)])
    (fun _ => ⟨by simp, by simp [SS.names]⟩)
  exact ⟨r, h1, (h3 "b").mpr ⟨(), Or.inl rfl, by simp [SS.names]⟩⟩

/-- C41 on independent variables: the names of the variables that occur, `size()` of them, and 0
for any other name. -/
theorem C41_support {ord : Order α} {vord : String → Order α} (ho : ord.Ok)
    (hv : ∀ k, (vord k).Ok) (e : Expr α String) (x : String → α) :
    ∃ r, e.evalSS ord (fun k => SS.var (vord k) k (x k)) = .ok r ∧ r.names.Nodup ∧
      (∀ k, k ∈ r.names ↔ e.Mentions k) ∧
      r.size = ({k | e.Mentions k} : Set String).ncard ∧
      ∀ k, ¬ e.Mentions k → r.d k = Arith.lit 0 := by
  obtain ⟨r, h1, h2, h3⟩ := C41_names ho e (fun k => SS.var (vord k) k (x k))
    fun k => (SS.is_var (hv k) k (x k)).wf
  have hk : ∀ k, k ∈ r.names ↔ e.Mentions k := by
    intro k
    rw [h3]
    constructor
    · rintro ⟨v, hv', h⟩
      rw [(SS.is_var (hv v) v (x v)).mem] at h
      have : k = v := by
        by_contra hc
        simp [hc] at h
      rwa [this]
    · intro h
      refine ⟨k, h, ?_⟩
      rw [(SS.is_var (hv k) k (x k)).mem]
      simp
  refine ⟨r, h1, h2, hk, ?_, fun k h => ?_⟩
  · have e1 : ({k | e.Mentions k} : Set String) = (r.names.toFinset : Set String) := by
      ext k; simp [hk]
    rw [e1, Set.ncard_coe_finset, List.toFinset_card_of_nodup h2]
    simp [SS.size, SS.names]
  · have h0 : r.mD.find k = none := find_none.mpr fun hm => h ((hk k).mp hm)
    simp [SS.d, h0]

/-- `a·b + a` -/
def exSparse : Expr XReal String := .bin .add (.bin .mul (.var "a") (.var "b")) (.var "a")

example : ∃ r, exSparse.evalSS exRev (fun k => SS.var exRev k (.num 3)) = .ok r ∧ r.size = 2 ∧
    "b" ∈ r.names ∧ r.d "c" = .num 0 := by
  obtain ⟨r, h1, _, h3, h4, h5⟩ := C41_support exRev_ok (fun _ => exRev_ok) exSparse
    (fun _ => XReal.num 3)
  refine ⟨r, h1, ?_, (h3 "b").mpr (by simp [exSparse, Expr.Mentions]), ?_⟩
  · have : {k | exSparse.Mentions k} = ({"a", "b"} : Set String) := by
      ext k
      simp only [exSparse, Expr.Mentions, Set.mem_ofPred_eq, Set.mem_insert_iff,
        Set.mem_singleton_iff, or_right_comm, or_self, eq_comm]
    rw [h4, this, Set.ncard_pair (by decide)]
    rfl
  · rw [h5 "c" (by simp [exSparse, Expr.Mentions])]; simp

end c41

/-! ### C42: the iteration order does not matter -/

section c42

variable {α V : Type}

/-- C42: results are the same whatever the hash tables do. -/
theorem C42_order_independent [CMath α] {ord ord' : Order α} (ho : ord.Ok) (ho' : ord'.Ok)
    (e : Expr α V) (ρ ρ' : V → SS α) (hρ : ∀ v, SWF (ρ v)) (hρ' : ∀ v, SWF (ρ' v))
    (h : ∀ v, SameSS (ρ v) (ρ' v)) :
    ∃ r r', e.evalSS ord ρ = .ok r ∧ e.evalSS ord' ρ' = .ok r' ∧ SameSS r r' := by
  choose p hp using fun v => (hρ v).ex
  obtain ⟨r, h1, h2⟩ := evalSS_spec ho ρ (fun v => (p v, (ρ v).mD.find)) hp e
  obtain ⟨r', k1, k2⟩ := evalSS_spec ho' ρ' (fun v => (p v, (ρ v).mD.find))
    (fun v => (h v).is (hρ' v) (hp v)) e
  exact ⟨r, r', h1, k1, h2.same k2 rfl fun _ => rfl⟩

example : ∃ r r', exSparse.evalSS exRev (fun k => SS.var exRev k (.num 3)) = .ok r ∧
    exSparse.evalSS exFwd (fun k => SS.var exFwd k (.num 3)) = .ok r' ∧ SameSS r r' :=
  C42_order_independent exRev_ok exFwd_ok exSparse _ _ (fun _ => (SS.is_var exRev_ok _ _).wf)
    (fun _ => (SS.is_var exFwd_ok _ _).wf)
    fun _ => (SS.is_var exRev_ok _ _).same (SS.is_var exFwd_ok _ _) rfl fun _ => rfl

/-- Compound assignment by contents. -/
theorem accumInto_spec [Arith α] {ord : Order α} (ho : ord.Ok) (g : α → α → α) {m : SMap α}
    (hm : m.keys.Nodup) {y : SS α} (hy : SWF y) :
    (SS.accumInto ord g m (.obj y)).keys.Nodup ∧ ∀ k,
      (SS.accumInto ord g m (.obj y)).find k = step g (m.find k) (y.mD.find k) :=
  accum_spec ho g hm hy.nodup

/-- The right operand of a compound assignment is a proper object. -/
def OperandWF : SS.Operand α → Prop
  | .self => True
  | .obj y => SWF y

/-- The same operand in another memory layout. -/
def SameOperand [Arith α] : SS.Operand α → SS.Operand α → Prop
  | .self, .self => True
  | .obj y, .obj y' => SameSS y y'
  | _, _ => False

theorem accumInto_same [Arith α] {ord ord' : Order α} (ho : ord.Ok) (ho' : ord'.Ok)
    (g : α → α → α) {m m' : SMap α} (hm : m.keys.Nodup) (hm' : m'.keys.Nodup)
    (h : ∀ k, m.find k = m'.find k) {b b' : SS.Operand α} (hb : OperandWF b) (hb' : OperandWF b')
    (hs : SameOperand b b') :
    (SS.accumInto ord g m b).keys.Nodup ∧ (SS.accumInto ord' g m' b').keys.Nodup ∧
      ∀ k, (SS.accumInto ord g m b).find k = (SS.accumInto ord' g m' b').find k := by
  cases b with
  | self =>
    cases b' with
    | self =>
      have h1 := accumSelf_spec g hm
      have h2 := accumSelf_spec g hm'
      exact ⟨h1.1, h2.1, fun k => (h1.2 k).trans ((congrArg _ (h k)).trans (h2.2 k).symm)⟩
    | obj y' => exact hs.elim
  | obj y =>
    cases b' with
    | self => exact hs.elim
    | obj y' =>
      have h1 := accumInto_spec ho g hm (y := y) hb
      have h2 := accumInto_spec ho' g hm' (y := y') hb'
      obtain ⟨v, hv⟩ := SWF.ex (x := y) hb
      have hl := ((SameSS.is (y := y') hb' hv hs).look)
      exact ⟨h1.1, h2.1, fun k => by rw [h1.2, h2.2, h, hl]⟩

/-- C42 for compound assignment, also of an object to itself. -/
theorem C42_assign [Arith α] {ord ord' : Order α} (ho : ord.Ok) (ho' : ord'.Ok) (x x' : SS α)
    (b b' : SS.Operand α) (hx : SWF x) (hx' : SWF x') (hb : OperandWF b) (hb' : OperandWF b')
    (h : SameSS x x') (hs : SameOperand b b') :
    (∃ r r', x.addAssign ord b = .ok r ∧ x'.addAssign ord' b' = .ok r' ∧ SameSS r r') ∧
    (∃ r r', x.subAssign ord b = .ok r ∧ x'.subAssign ord' b' = .ok r' ∧ SameSS r r') ∧
    (∃ r r', x.mulAssign ord b = .ok r ∧ x'.mulAssign ord' b' = .ok r' ∧ SameSS r r') ∧
    (∃ r r', x.divAssign ord b = .ok r ∧ x'.divAssign ord' b' = .ok r' ∧ SameSS r r') := by
  obtain ⟨v, hv⟩ := hx.ex
  have hv' := h.is hx' hv
  have hl : ∀ k, x.mD.find k = x'.mD.find k := fun k => (hv'.look k).symm
  have hw : ∃ w, (b.get x).f = .ok w ∧ (b'.get x').f = .ok w := by
    cases b with
    | self =>
      cases b' with
      | self => exact ⟨v, SS.f_ok hv, SS.f_ok hv'⟩
      | obj y' => exact hs.elim
    | obj y =>
      cases b' with
      | self => exact hs.elim
      | obj y' =>
        obtain ⟨w, hw⟩ := SWF.ex (x := y) hb
        exact ⟨w, SS.f_ok hw, (SameSS.f hs).symm.trans (SS.f_ok hw)⟩
  obtain ⟨w, hw, hw'⟩ := hw
  have fin : ∀ (g : α → α → α) (f : α) (m m' : SMap α), m.keys.Nodup → m'.keys.Nodup →
      (∀ k, m.find k = m'.find k) →
      SameSS (⟨some f, SS.accumInto ord g m b⟩ : SS α) ⟨some f, SS.accumInto ord' g m' b'⟩ := by
    intro g f m m' hm hm' hl
    obtain ⟨h1, h2, h3⟩ := accumInto_same ho ho' g hm hm' hl hb hb' hs
    exact SIs.same (v := f) (w := f) ⟨rfl, h1, fun _ => rfl⟩ ⟨rfl, h2, fun _ => rfl⟩ rfl h3
  have hsc : ∀ t, (scale x.mD t).keys.Nodup ∧ (scale x'.mD t).keys.Nodup ∧
      ∀ k, (scale x.mD t).find k = (scale x'.mD t).find k := by
    intro t
    have e1 : (scale x.mD t).keys = x.mD.keys := keys_map x.mD fun e => e.2 *ₛ t
    have e2 : (scale x'.mD t).keys = x'.mD.keys := keys_map x'.mD fun e => e.2 *ₛ t
    refine ⟨by rw [e1]; exact hx.nodup, by rw [e2]; exact hx'.nodup, fun k => ?_⟩
    rw [scale, scale, find_map x.mD fun e => e *ₛ t, find_map x'.mD fun e => e *ₛ t, hl]
  refine ⟨⟨_, _, by simp only [SS.addAssign, SS.f_ok hv, hw, Res.ok_bind]; rfl,
      by simp only [SS.addAssign, SS.f_ok hv', hw', Res.ok_bind],
      fin _ _ _ _ hx.nodup hx'.nodup hl⟩,
    ⟨_, _, by simp only [SS.subAssign, SS.f_ok hv, hw, Res.ok_bind]; rfl,
      by simp only [SS.subAssign, SS.f_ok hv', hw', Res.ok_bind],
      fin _ _ _ _ hx.nodup hx'.nodup hl⟩,
    ⟨_, _, by simp only [SS.mulAssign, SS.f_ok hv, hw, Res.ok_bind]; rfl,
      by simp only [SS.mulAssign, SS.f_ok hv', hw', Res.ok_bind],
      fin _ _ _ _ (hsc w).1 (hsc w).2.1 (hsc w).2.2⟩,
    ⟨_, _, by simp only [SS.divAssign, SS.f_ok hv, hw, Res.ok_bind]; rfl,
      by simp only [SS.divAssign, SS.f_ok hv', hw', Res.ok_bind],
      fin _ _ _ _ (hsc _).1 (hsc _).2.1 (hsc _).2.2⟩⟩

/-- `2 + 3·da - 4·db`, in two memory layouts. -/
def exSS : SS ℚ := ⟨some 2, [("a", 3), ("b", -4)]⟩
/-- The other layout. -/
def exSS' : SS ℚ := ⟨some 2, [("b", -4), ("a", 3)]⟩

theorem exSS_wf : SWF exSS := ⟨by simp [exSS], by decide⟩
theorem exSS'_wf : SWF exSS' := ⟨by simp [exSS'], by decide⟩
theorem exSS_same : SameSS exSS exSS' where
  f := rfl
  size := rfl
  d := fun k => by
    simp only [SS.d, exSS, exSS', find_cons, find_nil]
    by_cases h : "a" = k
    · have : ¬ "b" = k := fun h' => absurd (h.trans h'.symm) (by decide)
      simp [h, this]
    · simp [h]
  names := fun k => by
    simp only [SS.names, exSS, exSS', List.map_cons, List.map_nil, List.mem_cons, List.not_mem_nil,
      or_false]
    exact or_comm

example : ∃ r r', exSS.mulAssign exRev .self = .ok r ∧ exSS'.mulAssign exFwd .self = .ok r' ∧
    SameSS r r' :=
  (C42_assign exRev_ok exFwd_ok exSS exSS' .self .self exSS_wf exSS'_wf trivial trivial exSS_same
    trivial).2.2.1

/-- The text of an object, on the other hand, does depend on the order (also in the absence of any
difference `f()`, `size()`, `d(name)` could show). -/
theorem C42_violated_text : SameSS exSS exSS' ∧
    ∃ t t', exSS.toText (fun q => if q = 2 then "2" else if q = 3 then "3" else "-4") = .ok t ∧
      exSS'.toText (fun q => if q = 2 then "2" else if q = 3 then "3" else "-4") = .ok t' ∧
      t = "2 +3*da -4*db" ∧ t' = "2 -4*db +3*da" := by
  refine ⟨exSS_same, _, _, rfl, rfl, ?_, ?_⟩ <;>
  · simp [exSS, exSS', Cmp.ltB, Arith.lit]
    norm_num
    try decide

end c42

/-! ### C43: compound assignment -/

section c43

variable {α : Type} [Arith α]

/-- `x op= y` (distinct objects) and `x op y` give objects that cannot be told apart. -/
def AssignOk (assign : SS α → SS.Operand α → Res (SS α)) (op : SS α → SS α → Res (SS α)) : Prop :=
  ∀ x y, SWF x → SWF y → ∃ r r', assign x (.obj y) = .ok r ∧ op x y = .ok r' ∧ SameSS r r' ∧ SWF r

theorem scale_spec {m : SMap α} (s : α) :
    (scale m s).keys = m.keys ∧ ∀ k, (scale m s).find k = (m.find k).map (· *ₛ s) :=
  ⟨keys_map m fun e => e.2 *ₛ s, find_map m fun e => e *ₛ s⟩

/-- C43 for `*=`, in any arithmetic. -/
theorem C43_mul_assign {ord ord' : Order α} (ho : ord.Ok) (ho' : ord'.Ok) :
    AssignOk (SS.mulAssign ord) (SS.mul ord') := by
  intro x y hx hy
  obtain ⟨v, hv⟩ := hx.ex
  obtain ⟨w, hw⟩ := hy.ex
  have hb := SS.is_binary (ho'.sub 1) hv hw w v
  have hr := SS.is_make (ho'.sub 0) hb.1 hb.2 (v *ₛ w)
  have ha := accumInto_spec ho (fun a b => b +ₛ v *ₛ a) (m := scale x.mD w)
    (by rw [(scale_spec w).1]; exact hx.nodup) hy
  have hs : SIs (⟨some (v *ₛ w), SS.accumInto ord (fun a b => b +ₛ v *ₛ a) (scale x.mD w)
      (.obj y)⟩ : SS α) (v *ₛ w) _ := ⟨rfl, ha.1, ha.2⟩
  exact ⟨_, _, by simp only [SS.mulAssign, SS.Operand.get, SS.f_ok hv, SS.f_ok hw, Res.ok_bind],
    by simp only [SS.mul, SS.f_ok hv, SS.f_ok hw, Res.ok_bind],
    hs.same hr rfl (fun k => by rw [(scale_spec w).2]), hs.wf⟩

/-- C43 for scalar operands `+=`, `*=`, `/=`, in any arithmetic. -/
theorem C43_scalar_assign {ord : Order α} (ho : ord.Ok) (x : SS α) (hx : SWF x) (s : α) :
    (∃ r r', x.addAssignS s = .ok r ∧ x.addS ord s = .ok r' ∧ SameSS r r') ∧
    (∃ r r', x.mulAssignS s = .ok r ∧ x.mulS ord s = .ok r' ∧ SameSS r r') ∧
    (∃ r r', x.divAssignS s = .ok r ∧ x.divS ord s = .ok r' ∧ SameSS r r') := by
  obtain ⟨v, hv⟩ := hx.ex
  have hm : ∀ t, ∃ r r', x.mulAssignS t = .ok r ∧ x.mulS ord t = .ok r' ∧ SameSS r r' := by
    intro t
    have h1 := accumSelf_spec (fun _ w => w *ₛ t) hx.nodup
    have h2 := SS.is_unary ho hv t
    have e1 : SIs (⟨some (v *ₛ t), accumSelf (fun _ w => w *ₛ t) x.mD⟩ : SS α) (v *ₛ t) _ :=
      ⟨rfl, h1.1, h1.2⟩
    have e2 : SIs (⟨some (v *ₛ t), SS.unary ord x.mD t⟩ : SS α) (v *ₛ t) _ := ⟨rfl, h2.1, h2.2⟩
    exact ⟨_, _, by simp only [SS.mulAssignS, SS.f_ok hv, Res.ok_bind],
      by simp only [SS.mulS, SS.f_ok hv, Res.ok_bind]; rfl, e1.same e2 rfl fun _ => rfl⟩
  refine ⟨?_, hm s, hm _⟩
  have e1 : SIs (⟨some (v +ₛ s), x.mD⟩ : SS α) (v +ₛ s) _ := ⟨rfl, hv.nodup, hv.look⟩
  exact ⟨_, _, by simp only [SS.addAssignS, SS.f_ok hv, Res.ok_bind],
    by simp only [SS.addS, SS.f_ok hv, Res.ok_bind], e1.same (SS.is_copy ho hv [0] _) rfl
      fun _ => rfl⟩

example : ∃ r r', exSS.mulAssign exRev (.obj exSS') = .ok r ∧ exSS.mul exFwd exSS' = .ok r' ∧
    SameSS r r' ∧ SWF r := C43_mul_assign exRev_ok exFwd_ok exSS exSS' exSS_wf exSS'_wf

example : ∃ r r', exSS.divAssignS 7 = .ok r ∧ exSS.divS exRev 7 = .ok r' ∧ SameSS r r' :=
  (C43_scalar_assign exRev_ok exSS exSS_wf 7).2.2

end c43

section c43exact

variable {K : Type} [Field K] [Arith K] [Exact K]

/-- C43 in exact arithmetic: all four operators, and `-=` with a scalar. -/
theorem C43_assign_exact {ord ord' : Order K} (ho : ord.Ok) (ho' : ord'.Ok) :
    AssignOk (SS.addAssign ord) (SS.add ord') ∧ AssignOk (SS.subAssign ord) (SS.sub ord') ∧
    AssignOk (SS.mulAssign ord) (SS.mul ord') ∧ AssignOk (SS.divAssign ord) (SS.div ord') ∧
    ∀ x, SWF x → ∀ s, ∃ r r', x.subAssignS s = .ok r ∧ SS.subS ord' x s = .ok r' ∧
      SameSS r r' := by
  refine ⟨?_, ?_, C43_mul_assign ho ho', ?_, ?_⟩
  · intro x y hx hy
    obtain ⟨v, hv⟩ := hx.ex
    obtain ⟨w, hw⟩ := hy.ex
    have hb := SS.is_binary (ho'.sub 1) hv hw (Arith.lit 1) (Arith.lit 1)
    have hr := SS.is_make (ho'.sub 0) hb.1 hb.2 (v +ₛ w)
    have ha := accumInto_spec ho (fun a b => b +ₛ a) hx.nodup hy
    have hs : SIs (⟨some (v +ₛ w), SS.accumInto ord (fun a b => b +ₛ a) x.mD (.obj y)⟩ : SS K)
      (v +ₛ w) _ := ⟨rfl, ha.1, ha.2⟩
    refine ⟨_, _, by simp only [SS.addAssign, SS.Operand.get, SS.f_ok hv, SS.f_ok hw, Res.ok_bind],
      by simp only [SS.add, SS.f_ok hv, SS.f_ok hw, Res.ok_bind], hs.same hr rfl ?_, hs.wf⟩
    intro k
    cases x.mD.find k <;> cases y.mD.find k <;>
      simp [step, Exact.add, Exact.mul, Exact.lit]
  · intro x y hx hy
    obtain ⟨v, hv⟩ := hx.ex
    obtain ⟨w, hw⟩ := hy.ex
    have hb := SS.is_binary (ho'.sub 1) hv hw (Arith.lit 1) (Arith.lit (-1))
    have hr := SS.is_make (ho'.sub 0) hb.1 hb.2 (v -ₛ w)
    have ha := accumInto_spec ho (fun a b => b -ₛ a) hx.nodup hy
    have hs : SIs (⟨some (v -ₛ w), SS.accumInto ord (fun a b => b -ₛ a) x.mD (.obj y)⟩ : SS K)
      (v -ₛ w) _ := ⟨rfl, ha.1, ha.2⟩
    refine ⟨_, _, by simp only [SS.subAssign, SS.Operand.get, SS.f_ok hv, SS.f_ok hw, Res.ok_bind],
      by simp only [SS.sub, SS.f_ok hv, SS.f_ok hw, Res.ok_bind], hs.same hr rfl ?_, hs.wf⟩
    intro k
    cases x.mD.find k <;> cases y.mD.find k <;>
      simp [step, Exact.add, Exact.mul, Exact.sub, Exact.lit, sub_eq_add_neg]
  · intro x y hx hy
    obtain ⟨v, hv⟩ := hx.ex
    obtain ⟨w, hw⟩ := hy.ex
    have hb := SS.is_binary (ho'.sub 1) hv hw (Arith.lit 1 ÷ₛ w) (-ₛ v ÷ₛ Arith.powN w 2)
    have hr := SS.is_make (ho'.sub 0) hb.1 hb.2 (v *ₛ (Arith.lit 1 ÷ₛ w))
    have ha := accumInto_spec ho (fun a b => b +ₛ (-ₛ v ÷ₛ Arith.powN w 2) *ₛ a)
      (m := scale x.mD (Arith.lit 1 ÷ₛ w)) (by rw [(scale_spec _).1]; exact hx.nodup) hy
    have hs : SIs (⟨some (v ÷ₛ w), SS.accumInto ord (fun a b => b +ₛ (-ₛ v ÷ₛ Arith.powN w 2) *ₛ a)
      (scale x.mD (Arith.lit 1 ÷ₛ w)) (.obj y)⟩ : SS K) (v ÷ₛ w) _ := ⟨rfl, ha.1, ha.2⟩
    refine ⟨_, _, by simp only [SS.divAssign, SS.Operand.get, SS.f_ok hv, SS.f_ok hw, Res.ok_bind],
      by simp only [SS.div, SS.f_ok hv, SS.f_ok hw, Res.ok_bind], hs.same hr ?_ ?_, hs.wf⟩
    · simp [Exact.div, Exact.mul, Exact.lit, div_eq_mul_inv]
    · intro k; rw [(scale_spec _).2]
  · intro x hx s
    obtain ⟨v, hv⟩ := hx.ex
    have e1 : SIs (⟨some (v -ₛ s), x.mD⟩ : SS K) (v -ₛ s) _ := ⟨rfl, hv.nodup, hv.look⟩
    refine ⟨_, _, by simp only [SS.subAssignS, SS.f_ok hv, Res.ok_bind],
      by simp only [SS.subS, SS.sAdd, SS.addS, SS.f_ok hv, Res.ok_bind]; rfl,
      e1.same (SS.is_copy ho' hv [0] _) ?_ fun _ => rfl⟩
    simp [Exact.add, Exact.sub, Exact.neg, sub_eq_add_neg]

/-- C43 for an object and itself: `a += a` and `a -= a` are right. -/
theorem C43_self_add_sub {ord ord' : Order K} (ho' : ord'.Ok) (x : SS K) (hx : SWF x) :
    (∃ r r', x.addAssign ord .self = .ok r ∧ x.add ord' x = .ok r' ∧ SameSS r r') ∧
    (∃ r r', x.subAssign ord .self = .ok r ∧ x.sub ord' x = .ok r' ∧ SameSS r r') := by
  obtain ⟨v, hv⟩ := hx.ex
  constructor
  · have hb := SS.is_binary (ho'.sub 1) hv hv (Arith.lit 1) (Arith.lit 1)
    have hr := SS.is_make (ho'.sub 0) hb.1 hb.2 (v +ₛ v)
    have ha := accumSelf_spec (fun a b => b +ₛ a) hx.nodup
    have hs : SIs (⟨some (v +ₛ v), SS.accumInto ord (fun a b => b +ₛ a) x.mD .self⟩ : SS K)
      (v +ₛ v) _ := ⟨rfl, ha.1, ha.2⟩
    refine ⟨_, _, by simp only [SS.addAssign, SS.Operand.get, SS.f_ok hv, Res.ok_bind],
      by simp only [SS.add, SS.f_ok hv, Res.ok_bind], hs.same hr rfl ?_⟩
    intro k
    cases x.mD.find k <;> simp [step, Exact.add, Exact.mul, Exact.lit]
  · have hb := SS.is_binary (ho'.sub 1) hv hv (Arith.lit 1) (Arith.lit (-1))
    have hr := SS.is_make (ho'.sub 0) hb.1 hb.2 (v -ₛ v)
    have ha := accumSelf_spec (fun a b => b -ₛ a) hx.nodup
    have hs : SIs (⟨some (v -ₛ v), SS.accumInto ord (fun a b => b -ₛ a) x.mD .self⟩ : SS K)
      (v -ₛ v) _ := ⟨rfl, ha.1, ha.2⟩
    refine ⟨_, _, by simp only [SS.subAssign, SS.Operand.get, SS.f_ok hv, Res.ok_bind],
      by simp only [SS.sub, SS.f_ok hv, Res.ok_bind], hs.same hr rfl ?_⟩
    intro k
    cases x.mD.find k <;> simp [step, Exact.add, Exact.mul, Exact.sub, Exact.lit]

/-- What `a *= a` leaves in `a`: `f·d + f·(f·d)` instead of `2·f·d`; right exactly where the
derivative is 0 or the value is 0 or 1. -/
theorem C43_violated_self_mul {ord ord' : Order K} (ho' : ord'.Ok) (x : SS K) (hx : SWF x) (v : K)
    (hv : x.f = .ok v) :
    ∃ r r', x.mulAssign ord .self = .ok r ∧ x.mul ord' x = .ok r' ∧ r.f = r'.f ∧
      (∀ k, r.d k = v * x.d k + v * (v * x.d k)) ∧ (∀ k, r'.d k = v * x.d k + v * x.d k) ∧
      ∀ k, (r.d k = r'.d k ↔ x.d k = 0 ∨ v = 0 ∨ v = 1) := by
  obtain ⟨v', hx'⟩ := hx.ex
  have : v' = v := by rw [SS.f_ok hx'] at hv; exact Res.ok.inj hv
  subst this
  have hb := SS.is_binary (ho'.sub 1) hx' hx' v' v'
  have hr := SS.is_make (ho'.sub 0) hb.1 hb.2 (v' *ₛ v')
  have ha := accumSelf_spec (fun a b => b +ₛ v' *ₛ a) (m := scale x.mD v')
    (by rw [(scale_spec v').1]; exact hx.nodup)
  have hs : SIs (⟨some (v' *ₛ v'), SS.accumInto ord (fun a b => b +ₛ v' *ₛ a) (scale x.mD v')
    .self⟩ : SS K) (v' *ₛ v') _ := ⟨rfl, ha.1, ha.2⟩
  have e1 : ∀ k, (SS.mk (some (v' *ₛ v')) (SS.accumInto ord (fun a b => b +ₛ v' *ₛ a)
      (scale x.mD v') .self)).d k = v' * x.d k + v' * (v' * x.d k) := by
    intro k
    rw [SS.d_eq hs, SS.d_eq hx', (scale_spec v').2]
    cases x.mD.find k with
    | none => simp [Exact.lit]
    | some b => simp [Exact.add, Exact.mul, mul_comm]
  have e2 : ∀ k, (SS.make (ord'.sub 0) (v' *ₛ v') (SS.binary (ord'.sub 1) x.mD x.mD v' v')).d k =
      v' * x.d k + v' * x.d k := by
    intro k
    rw [SS.d_eq hr, SS.d_eq hx']
    cases x.mD.find k with
    | none => simp [Exact.lit, step]
    | some b => simp [Exact.add, Exact.mul, step, mul_comm]
  refine ⟨_, _, by simp only [SS.mulAssign, SS.Operand.get, SS.f_ok hx', Res.ok_bind],
    by simp only [SS.mul, SS.f_ok hx', Res.ok_bind], ?_, e1, e2, fun k => ?_⟩
  · rw [SS.f_ok hs, SS.f_ok hr]
  · rw [e1, e2, add_right_inj]
    constructor
    · intro h
      have h0 : v' * x.d k * (v' - 1) = 0 := by linear_combination h
      rcases mul_eq_zero.mp h0 with h1 | h1
      · rcases mul_eq_zero.mp h1 with h2 | h2
        · exact Or.inr (Or.inl h2)
        · exact Or.inl h2
      · exact Or.inr (Or.inr (sub_eq_zero.mp h1))
    · rintro (h | h | h) <;> simp [h]

/-- What `a /= a` leaves in `a`: `d/f - d/f²` instead of 0. -/
theorem C43_violated_self_div {ord ord' : Order K} (ho' : ord'.Ok) (x : SS K) (hx : SWF x) (v : K)
    (hv : x.f = .ok v) (h0 : v ≠ 0) :
    ∃ r r', x.divAssign ord .self = .ok r ∧ x.div ord' x = .ok r' ∧ r.f = .ok 1 ∧ r'.f = .ok 1 ∧
      (∀ k, r.d k = x.d k / v - x.d k / v ^ 2) ∧ (∀ k, r'.d k = 0) ∧
      ∀ k, (r.d k = r'.d k ↔ x.d k = 0 ∨ v = 1) := by
  obtain ⟨v', hx'⟩ := hx.ex
  have : v' = v := by rw [SS.f_ok hx'] at hv; exact Res.ok.inj hv
  subst this
  have hb := SS.is_binary (ho'.sub 1) hx' hx' (Arith.lit 1 ÷ₛ v') (-ₛ v' ÷ₛ Arith.powN v' 2)
  have hr := SS.is_make (ho'.sub 0) hb.1 hb.2 (v' *ₛ (Arith.lit 1 ÷ₛ v'))
  have ha := accumSelf_spec (fun a b => b +ₛ (-ₛ v' ÷ₛ Arith.powN v' 2) *ₛ a)
    (m := scale x.mD (Arith.lit 1 ÷ₛ v')) (by rw [(scale_spec _).1]; exact hx.nodup)
  have hs : SIs (⟨some (v' ÷ₛ v'), SS.accumInto ord (fun a b => b +ₛ (-ₛ v' ÷ₛ Arith.powN v' 2) *ₛ a)
    (scale x.mD (Arith.lit 1 ÷ₛ v')) .self⟩ : SS K) (v' ÷ₛ v') _ := ⟨rfl, ha.1, ha.2⟩
  have e1 : ∀ k, (SS.mk (some (v' ÷ₛ v')) (SS.accumInto ord
      (fun a b => b +ₛ (-ₛ v' ÷ₛ Arith.powN v' 2) *ₛ a) (scale x.mD (Arith.lit 1 ÷ₛ v'))
      .self)).d k = x.d k / v' - x.d k / v' ^ 2 := by
    intro k
    rw [SS.d_eq hs, SS.d_eq hx', (scale_spec _).2]
    cases x.mD.find k with
    | none => simp [Exact.lit]
    | some b =>
      simp only [Option.map_some, Option.getD_some, Exact.add, Exact.mul, Exact.div, Exact.lit,
        Exact.neg, Exact.powN]
      push_cast
      field_simp
      ring
  have e2 : ∀ k, (SS.make (ord'.sub 0) (v' *ₛ (Arith.lit 1 ÷ₛ v')) (SS.binary (ord'.sub 1) x.mD x.mD
      (Arith.lit 1 ÷ₛ v') (-ₛ v' ÷ₛ Arith.powN v' 2))).d k = 0 := by
    intro k
    rw [SS.d_eq hr]
    cases x.mD.find k with
    | none => simp [Exact.lit, step]
    | some b =>
      simp only [Option.map_some, Option.getD_some, Exact.add, Exact.mul, Exact.div, Exact.lit,
        Exact.neg, Exact.powN, step]
      push_cast
      field_simp
      ring
  refine ⟨_, _, by simp only [SS.divAssign, SS.Operand.get, SS.f_ok hx', Res.ok_bind],
    by simp only [SS.div, SS.f_ok hx', Res.ok_bind], ?_, ?_, e1, e2, fun k => ?_⟩
  · rw [SS.f_ok hs, Exact.div, div_self h0]
  · rw [SS.f_ok hr, Exact.mul, Exact.div, Exact.lit]; simp [h0]
  · rw [e1, e2]
    constructor
    · intro h
      have h1 : x.d k * (v' - 1) = 0 := by
        field_simp at h
        linear_combination h
      rcases mul_eq_zero.mp h1 with h2 | h2
      · exact Or.inl h2
      · exact Or.inr (sub_eq_zero.mp h2)
    · rintro (h | h) <;> simp [h]

example : ∃ r r', exSS.divAssign exRev (.obj exSS') = .ok r ∧ exSS.div exFwd exSS' = .ok r' ∧
    SameSS r r' ∧ SWF r :=
  (C43_assign_exact exRev_ok exFwd_ok).2.2.2.1 exSS exSS' exSS_wf exSS'_wf

example : ∃ r r', exSS.subAssign exRev .self = .ok r ∧ exSS.sub exFwd exSS = .ok r' ∧ SameSS r r' :=
  (C43_self_add_sub exFwd_ok exSS exSS_wf).2

/-- `(2 + 3 da - 4 db)²` has derivative 12 for `a`; `a *= a` gives 18. -/
example : ∃ r r', exSS.mulAssign exRev .self = .ok r ∧ exSS.mul exFwd exSS = .ok r' ∧
    r.d "a" = 18 ∧ r'.d "a" = 12 := by
  obtain ⟨r, r', h1, h2, _, h4, h5, _⟩ := C43_violated_self_mul (ord := exRev) exFwd_ok exSS exSS_wf
    2 rfl
  have hd : exSS.d "a" = 3 := by rfl
  refine ⟨r, r', h1, h2, ?_, ?_⟩
  · rw [h4, hd]; norm_num
  · rw [h5, hd]; norm_num

/-- `a / a` has derivative 0; `a /= a` gives 3/4. -/
example : ∃ r r', exSS.divAssign exRev .self = .ok r ∧ exSS.div exFwd exSS = .ok r' ∧
    r.d "a" = 3 / 4 ∧ r'.d "a" = 0 := by
  obtain ⟨r, r', h1, h2, _, _, h4, h5, _⟩ := C43_violated_self_div (ord := exRev) exFwd_ok exSS
    exSS_wf 2 rfl (by norm_num)
  have hd : exSS.d "a" = 3 := by rfl
  refine ⟨r, r', h1, h2, ?_, ?_⟩
  · rw [h4, hd]; norm_num
  · rw [h5]

end c43exact

/-! ### C44: `eval` -/

section c44

/-- By the C++ standard `eval` is undefined as soon as one name is stored. -/
theorem C44_violated_undefined {α : Type} [Arith α] (x : SS α) (h : 0 < x.size) (disp : SMap α) :
    ∃ u, x.eval true disp = .ub u := by
  obtain ⟨f, _ | ⟨e, m⟩⟩ := x
  · simp [SS.size] at h
  · exact ⟨_, rfl⟩

variable {K : Type} [Field K] [Arith K] [Exact K]

theorem evalFold (disp : SMap K) (m : SMap K) (r : K) :
    m.foldlM (fun r coef =>
      if false = true then (.ub .foreignIterator : Res K) else
      match disp.find coef.1 with
      | none => .ok r
      | some v => .ok (r +ₛ coef.2 *ₛ v)) r =
    .ok (r + (m.map fun e => e.2 * (disp.find e.1).getD 0).sum) := by
  induction m generalizing r with
  | nil => simp [List.foldlM, pure]
  | cons e m ih =>
    rw [List.foldlM_cons]
    cases h : disp.find e.1 with
    | none =>
      simp only [Bool.false_eq_true, if_false, Res.ok_bind]
      have := ih r
      simp only [Bool.false_eq_true, if_false] at this
      rw [this]
      simp [h]
    | some v =>
      simp only [Bool.false_eq_true, if_false, Res.ok_bind]
      have := ih (r +ₛ e.2 *ₛ v)
      simp only [Bool.false_eq_true, if_false] at this
      rw [this]
      simp [h, Exact.add, Exact.mul, add_assoc]

/-- C44 on implementations with equal end iterators: the sum over the stored names, without the
value; names missing in the displacement count as displacement 0. -/
theorem C44_eval (x : SS K) (hx : SWF x) (disp : SMap K) :
    x.eval false disp = .ok (∑ k ∈ x.names.toFinset, x.d k * (disp.find k).getD 0) := by
  unfold SS.eval
  refine (evalFold disp x.mD _).trans ?_
  rw [Exact.lit, Int.cast_zero, zero_add]
  have hn : x.mD.keys.Nodup := hx.nodup
  have : ∀ m : SMap K, m.keys.Nodup → (∀ e ∈ m, x.d e.1 = e.2) →
      (m.map fun e => e.2 * (disp.find e.1).getD 0).sum =
        ∑ k ∈ m.keys.toFinset, x.d k * (disp.find k).getD 0 := by
    intro m hm he
    induction m with
    | nil => simp [keys]
    | cons e m ih =>
      rw [keys_cons, List.nodup_cons] at hm
      rw [keys_cons, List.toFinset_cons, Finset.sum_insert (by simpa using hm.1), List.map_cons,
        List.sum_cons, ih hm.2 (fun e' h' => he e' (List.mem_cons_of_mem _ h')),
        he e List.mem_cons_self]
  congr 1
  refine this x.mD hn fun e he => ?_
  have : x.mD.find e.1 = some e.2 := (find_mem hn).mpr he
  simp [SS.d, this]

/-- C44 violated: the result is the first-order Taylor value exactly when `f() = 0`. -/
theorem C44_violated_value (x : SS K) (hx : SWF x) (v : K) (hv : x.f = .ok v) (disp : SMap K) :
    x.eval false disp = .ok (v + ∑ k ∈ x.names.toFinset, x.d k * (disp.find k).getD 0) ↔
      v = 0 := by
  rw [C44_eval x hx, Res.ok.injEq]
  constructor
  · intro h
    linear_combination -h
  · rintro rfl
    simp

example : ∃ u, exSS.eval true [("a", 1)] = .ub u := C44_violated_undefined exSS (by decide) _

/-- With displacement `a = 5` the Taylor value is 17; `eval` gives 15. -/
example : exSS.eval false [("a", 5), ("z", 7)] = .ok 15 ∧
    ¬ exSS.eval false [("a", 5), ("z", 7)] = .ok (2 + ∑ k ∈ exSS.names.toFinset,
      exSS.d k * (SMap.find [("a", 5), ("z", 7)] k).getD 0) := by
  refine ⟨?_, fun h => ?_⟩
  · rw [C44_eval exSS exSS_wf]
    have : exSS.names.toFinset = {"a", "b"} := by rfl
    rw [this, Finset.sum_pair (by decide)]
    have h1 : exSS.d "a" = 3 := by rfl
    have h2 : SMap.find [("a", (5 : ℚ)), ("z", 7)] "a" = some 5 := by rfl
    have h3 : SMap.find [("a", (5 : ℚ)), ("z", 7)] "b" = none := by rfl
    rw [h1, h2, h3]; norm_num
  · exact absurd ((C44_violated_value exSS exSS_wf 2 rfl _).mp h) (by norm_num)

end c44

/-! ### C40: exactness -/

section c40

open XReal

variable {V : Type}

/-- The trivial first-order description used to reuse the dense theorems. -/
def cfgOne : Cfg := ⟨1, -1, true, true, fun _ => 0⟩

theorem sgood_of_obj {x : SS XReal} (hfin : FiniteSS x) {f : ℝ} {n : Nat} {name : Nat → String} {J : Jet ℝ} (hJ : J.f = f)
    (hg : ∀ i < n, x.d (name i) = num (J.g i)) : SGood n name (num f, x.mD.find) J := by
  refine ⟨by rw [hJ], fun j v hv => ?_, fun i hi => ?_⟩
  · obtain ⟨w, hw⟩ := hfin.d j
    simp only [SS.d] at hw
    rw [show x.mD.find j = some v from hv] at hw
    simp only at hw
    rw [hw]; trivial
  · rw [← hg i hi]
    simp only [SS.d]
    cases x.mD.find (name i) <;> simp

theorem sisV_of_obj {x : SS XReal} (hx : SWF x) {f : XReal} (hf : x.f = .ok f) :
    SIsV x (f, x.mD.find) := by
  obtain ⟨v, h⟩ := hx.ex
  have : v = f := by rw [SS.f_ok h] at hf; exact Res.ok.inj hf
  subst this
  exact h

theorem isJet_line {F : ℝ → ℝ} {d t : ℝ} (h : HasDerivAt F d t) :
    IsJet 1 1 (fun y => F (y 0)) (fun _ => t) ⟨F t, fun _ => d, fun _ _ => 0⟩ where
  value := rfl
  grad := by
    have h1 : HasFDerivAt (fun y : _root_.Fin 1 → ℝ => y 0)
        (ContinuousLinearMap.proj (R := ℝ) (φ := fun _ : _root_.Fin 1 => ℝ) 0) (fun _ => t) :=
      (ContinuousLinearMap.proj (R := ℝ) (φ := fun _ : _root_.Fin 1 => ℝ) 0).hasFDerivAt
    have h2 := HasDerivAt.comp_hasFDerivAt (fun _ : _root_.Fin 1 => t) (h₂ := F) (h₂' := d) h h1
    have h3 : lin 1 (fun _ => d) =
        d • ContinuousLinearMap.proj (R := ℝ) (φ := fun _ : _root_.Fin 1 => ℝ) 0 := by simp [lin]
    change HasFDerivAt _ (lin 1 fun _ => d) _
    rw [h3]
    exact h2
  near := fun h => absurd h (by decide)
  hess := fun h => absurd h (by decide)

theorem hasDeriv_line {F : ℝ → ℝ} {t : ℝ} {J : Jet ℝ}
    (h : IsJet 1 1 (fun y => F (y 0)) (fun _ => t) J) : HasDerivAt F (J.g 0) t := by
  have h1 : HasDerivAt (fun s : ℝ => (fun _ => s : _root_.Fin 1 → ℝ)) (fun _ => 1) t := by
    rw [hasDerivAt_pi]
    exact fun _ => hasDerivAt_id t
  have h2 := HasFDerivAt.comp_hasDerivAt t (l := fun y : _root_.Fin 1 → ℝ => F (y 0)) h.grad h1
  have h3 : lin 1 J.g (fun _ => 1) = J.g 0 := by simp [lin]
  rw [h3] at h2
  exact h2

/-- Finite results come from inside the domain. -/
theorem dom_of_accepted {ord : Order XReal} (ho : ord.Ok) {e : Expr ℝ V} {x : V → ℝ}
    {ρ : V → SS XReal} (hρ : ∀ v, SWF (ρ v)) (hfin : ∀ v, FiniteSS (ρ v))
    (hf : ∀ v, (ρ v).f = .ok (num (x v))) {r : SS XReal}
    (hr : (e.map num).evalSS ord ρ = .ok r) (h : AcceptedSS e x ρ r) : e.Dom 1 x := by
  rcases h with h | ⟨hB, hC, hs, hR⟩
  · exact h
  · by_contra hD
    obtain ⟨r', h1, h2⟩ := evalSS_spec ho ρ (fun v => (num (x v), (ρ v).mD.find))
      (fun v => sisV_of_obj (hρ v) (hf v)) (e.map num)
    rw [hr] at h1
    cases h1
    have hg : ∀ v, SGood 0 (fun _ => "") (num (x v), (ρ v).mD.find) ⟨x v, fun _ => 0, fun _ _ => 0⟩ :=
      fun v => sgood_of_obj (hfin v) rfl fun i hi => absurd hi (by omega)
    obtain ⟨_, hb⟩ := evalV_bad (fun v => (num (x v), (ρ v).mD.find)) x (fun _ => rfl)
      (fun v => (hg v).fin) e (fun v hv => by
        have := hs v hv
        cases hm : (ρ v).mD with
        | nil => simp [SS.size, hm] at this
        | cons a m => exact ⟨a.1, a.2, by simp [find_cons]⟩) hB hC hD
    rcases hb with hb | ⟨j, v, hj, hv⟩
    · obtain ⟨w, hw⟩ := hR.f
      rw [SS.f_ok h2, hb] at hw
      cases hw
    · obtain ⟨w, hw⟩ := hR.d j
      rw [SS.d_eq h2, hj] at hw
      simp only [Option.getD_some] at hw
      rw [hw] at hv
      exact hv trivial

/-- C40, chain rule: if the operands carry values and derivatives (for the name `k`) of functions of
one real variable, so does the result. -/
theorem C40_chain_rule {ord : Order XReal} (ho : ord.Ok) (e : Expr ℝ V) (k : String)
    (u : V → ℝ → ℝ) (u' : V → ℝ) (t : ℝ) (ρ : V → SS XReal) (hρ : ∀ v, SWF (ρ v))
    (hfin : ∀ v, FiniteSS (ρ v)) (hf : ∀ v, (ρ v).f = .ok (num (u v t)))
    (hd : ∀ v, (ρ v).d k = num (u' v)) (hu : ∀ v, HasDerivAt (u v) (u' v) t)
    (hreg : e.Regular fun v => u v t) :
    ∃ r, (e.map num).evalSS ord ρ = .ok r ∧
      (AcceptedSS e (fun v => u v t) ρ r → FiniteSS r ∧
        r.f = .ok (num (e.den fun v => u v t)) ∧
        ∃ d : ℝ, r.d k = num d ∧ HasDerivAt (fun s => e.den fun v => u v s) d t) := by
  obtain ⟨r, h1, h2⟩ := evalSS_spec ho ρ (fun v => (num (u v t), (ρ v).mD.find))
    (fun v => sisV_of_obj (hρ v) (hf v)) (e.map num)
  refine ⟨r, h1, fun ha => ?_⟩
  have hD := dom_of_accepted ho hρ hfin hf h1 ha
  let Jv : V → Jet ℝ := fun v => ⟨u v t, fun _ => u' v, fun _ _ => 0⟩
  let a : V → Nat → XReal := fun v i => if i = 0 then num (u v t) else num (u' v)
  have hG : ∀ v, Good cfgOne 1 (a v) (Jv v) := fun v =>
    ⟨rfl, fun i hi => by simp [a, Jv], fun h => absurd h (by decide), fun _ _ => rfl⟩
  obtain ⟨J, g1, g2, g3⟩ := eval_both (n := 1) (name := fun _ => k) (c := cfgOne) rfl a
    (fun v => (num (u v t), (ρ v).mD.find)) Jv hG
    (fun v => sgood_of_obj (hfin v) rfl fun i _ => hd v) e hD
  obtain ⟨J', k1, _, k3, _⟩ := eval_good (c := cfgOne) (Or.inl rfl) a Jv hG e hD
  have hjj : J.g 0 = J'.g 0 := by
    have := (g1.g 0 (by omega)).symm.trans (k1.g 0 (by omega))
    simpa using this
  refine ⟨⟨⟨J.f, by rw [SS.f_ok h2, g2.f]⟩, fun j => ?_⟩, by rw [SS.f_ok h2, g2.f, g3], J.g 0, ?_, ?_⟩
  · rw [SS.d_eq h2]
    cases hj : ((e.map num).evalV fun v => (num (u v t), (ρ v).mD.find)).2 j with
    | none => exact ⟨0, by simp⟩
    | some w =>
      obtain ⟨y, rfl⟩ := g2.num j w hj
      exact ⟨y, rfl⟩
  · rw [SS.d_eq h2]
    simpa using g2.g 0 (by omega)
  · have hj := k3 (fun v y => u v (y 0)) (fun _ => t) (fun v => isJet_line (hu v)) hreg
    rw [hjj]
    exact hasDeriv_line (F := fun s => e.den fun v => u v s) hj

/-- Chain rule on operands that are themselves composite: from `u(t) = t²` with value 4 and
derivative 4 (at `t = 2`) stored under `"t"`, `sin` gives `4·cos 4`. -/
example : ∃ r, ((Expr.fn .sin (.var ()) : Expr ℝ Unit).map num).evalSS exRev
      (fun _ => ⟨some (num 4), [("t", num 4)]⟩) = .ok r ∧
    ∃ d : ℝ, r.d "t" = num d ∧ HasDerivAt (fun s => Real.sin (s ^ 2)) d 2 := by
  obtain ⟨r, h1, h2⟩ := C40_chain_rule exRev_ok (Expr.fn .sin (.var ()) : Expr ℝ Unit) "t"
    (fun _ s => s ^ 2) (fun _ => 4) 2 (fun _ => ⟨some (num 4), [("t", num 4)]⟩)
    (fun _ => ⟨by simp, by simp [SS.names]⟩)
    (fun _ => ⟨⟨4, rfl⟩, fun k => by
      simp only [SS.d, find_cons, find_nil]
      by_cases h : "t" = k
      · exact ⟨4, by simp [h]⟩
      · exact ⟨0, by simp [h]⟩⟩)
    (fun _ => by norm_num [SS.f]) (fun _ => by simp [SS.d, find_cons])
    (fun _ => by
      have := hasDerivAt_pow 2 (2 : ℝ)
      norm_num at this
      exact this) trivial
  obtain ⟨_, _, d, hd, hh⟩ := h2 (Or.inl ⟨trivial, trivial⟩)
  exact ⟨r, h1, d, hd, hh⟩

/-- Independent variables carry finite numbers. -/
theorem finite_var {ord : Order XReal} (ho : ord.Ok) (k : String) (v : ℝ) :
    FiniteSS (SS.var ord k (num v)) where
  f := ⟨v, SS.f_ok (SS.is_var ho k (num v))⟩
  d := fun j => by
    rw [SS.d_eq (SS.is_var ho k (num v))]
    by_cases h : j = k
    · exact ⟨1, by simp [h]⟩
    · exact ⟨0, by simp [h]⟩

/-- C40: the value, and for every name the partial derivative with respect to the variable of that
name. -/
theorem C40_gradient_exact {ord : Order XReal} (ho : ord.Ok) {vord : String → Order XReal}
    (hv : ∀ k, (vord k).Ok) (e : Expr ℝ String) (x : String → ℝ) (hreg : e.Regular x) :
    ∃ r, evalNamed ord vord id e x = .ok r ∧
      (AcceptedSS e x (fun k => SS.var (vord k) k (num (x k))) r →
        FiniteSS r ∧ r.f = .ok (num (e.den x)) ∧
        ∀ k, DifferentiableAt ℝ (fun t => e.den (Function.update x k t)) (x k) ∧
          r.d k = num (deriv (fun t => e.den (Function.update x k t)) (x k))) := by
  have main : ∀ k, ∃ r, evalNamed ord vord id e x = .ok r ∧
      (AcceptedSS e x (fun k => SS.var (vord k) k (num (x k))) r →
        FiniteSS r ∧ r.f = .ok (num (e.den x)) ∧
        ∃ d : ℝ, r.d k = num d ∧ HasDerivAt (fun t => e.den (Function.update x k t)) d (x k)) := by
    intro k
    have hup : ∀ v, Function.update x k (x k) v = x v := fun v => by
      rw [Function.update_eq_self]
    obtain ⟨r, h1, h2⟩ := C40_chain_rule ho e k (fun v t => Function.update x k t v)
      (fun v => if k = v then 1 else 0) (x k) (fun v => SS.var (vord v) v (num (x v)))
      (fun v => (SS.is_var (hv v) v _).wf) (fun v => finite_var (hv v) v _)
      (fun v => by rw [SS.f_ok (SS.is_var (hv v) v _), hup])
      (fun v => by
        rw [SS.d_eq (SS.is_var (hv v) v _)]
        by_cases h : k = v <;> simp [h])
      (fun v => by
        by_cases h : k = v
        · subst h
          simp only [Function.update_self, if_true]
          exact hasDerivAt_id (x k)
        · simp only [Function.update_of_ne (Ne.symm h), if_neg h]
          exact hasDerivAt_const _ _)
      (by simpa only [hup] using hreg)
    refine ⟨r, h1, fun ha => ?_⟩
    simpa only [hup] using h2 (by simpa only [hup] using ha)
  obtain ⟨r, h1, h2⟩ := main ""
  refine ⟨r, h1, fun ha => ⟨(h2 ha).1, (h2 ha).2.1, fun k => ?_⟩⟩
  obtain ⟨r', k1, k2⟩ := main k
  rw [h1] at k1
  cases k1
  obtain ⟨_, _, d, hd, hh⟩ := k2 ha
  exact ⟨hh.differentiableAt, by rw [hh.deriv]; exact hd⟩

/-- Finite results characterise the domain. -/
theorem C40_finite_iff_domain {ord : Order XReal} (ho : ord.Ok) {vord : String → Order XReal}
    (hv : ∀ k, (vord k).Ok) (e : Expr ℝ String) (x : String → ℝ) (hB : e.NoBaseZero)
    (hC : e.ConstDom 1 x) :
    ∃ r, evalNamed ord vord id e x = .ok r ∧ (FiniteSS r ↔ e.Dom 1 x) := by
  have hsz : ∀ k, 0 < (SS.var (vord k) k (num (x k))).size := fun k => by
    have := (hv k [0] [(k, Arith.lit 1)]).length_eq
    simp only [SS.size, SS.var, SS.make, this]
    simp
  have hin : ∀ r, evalNamed ord vord id e x = .ok r → FiniteSS r → e.Dom 1 x := fun r hr hR =>
    dom_of_accepted ho (fun k => (SS.is_var (hv k) k _).wf) (fun k => finite_var (hv k) k _)
      (fun k => SS.f_ok (SS.is_var (hv k) k _)) hr (Or.inr ⟨hB, hC, fun k _ => hsz k, hR⟩)
  obtain ⟨r, h1, h2⟩ := evalSS_spec ho (fun k => SS.var (vord k) k (num (x k)))
    (fun v => (num (x v), fun k => if k = v then some (Arith.lit 1) else none)) (fun v => SS.is_var (hv v) v (num (x v))) (e.map num)
  refine ⟨r, h1, hin r h1, fun hD => ?_⟩
  obtain ⟨J, _, g2, _⟩ := eval_both (n := 0) (name := fun _ => "") (c := cfgOne) rfl
    (fun v _ => num (x v)) (fun v => (num (x v), fun k => if k = v then some (Arith.lit 1) else none))
    (fun v => ⟨x v, fun _ => 0, fun _ _ => 0⟩)
    (fun v => ⟨rfl, fun i hi => absurd hi (by omega), fun h => absurd h (by decide), fun _ _ => rfl⟩)
    (fun v => ⟨rfl, fun j w hw => by
      simp only at hw
      split at hw
      · cases hw; simp
      · exact absurd hw (by simp), fun i hi => absurd hi (by omega)⟩) e hD
  refine ⟨⟨J.f, by rw [SS.f_ok h2, g2.f]⟩, fun j => ?_⟩
  rw [SS.d_eq h2]
  cases hj : ((e.map num).evalV fun v =>
      ((num (x v), fun k => if k = v then some (Arith.lit 1) else none) : SVal XReal)).2 j with
  | none => exact ⟨0, by simp⟩
  | some w =>
    obtain ⟨y, rfl⟩ := g2.num j w hj
    exact ⟨y, rfl⟩

/-- `exp a / b` -/
noncomputable def exNamed : Expr ℝ String := .bin .div (.fn .exp (.var "a")) (.var "b")

theorem exNamed_dom : exNamed.Dom 1 (fun _ => 2) := by
  simp [exNamed, Expr.Dom, Fn.dom, Bin.dom, Expr.den]
theorem exNamed_reg : exNamed.Regular (fun _ => 2) := by
  simp [exNamed, Expr.Regular, Bin.reg]

example : ∃ r, evalNamed exRev (fun _ => exRev) id exNamed (fun _ => 2) = .ok r ∧
    r.f = .ok (num (Real.exp 2 / 2)) ∧ r.d "b" = num (- (Real.exp 2 / 4)) ∧ r.d "z" = num 0 := by
  obtain ⟨r, h1, h2⟩ := C40_gradient_exact exRev_ok (fun _ => exRev_ok) exNamed (fun _ => 2)
    exNamed_reg
  obtain ⟨_, hf, hd⟩ := h2 (Or.inl exNamed_dom)
  refine ⟨r, h1, hf, ?_, ?_⟩
  · rw [(hd "b").2]
    have : (fun t => exNamed.den (Function.update (fun _ => 2) "b" t)) =
        fun t => Real.exp 2 / t := by
      funext t
      simp [exNamed, Expr.den, Bin.den, Fn.den]
    rw [this]
    congr 1
    have h := (hasDerivAt_inv (two_ne_zero (α := ℝ))).const_mul (Real.exp 2)
    have h' : HasDerivAt (fun t : ℝ => Real.exp 2 / t) (Real.exp 2 * -(2 ^ 2)⁻¹) 2 := by
      simpa [div_eq_mul_inv] using h
    rw [h'.deriv]
    ring
  · rw [(hd "z").2]
    have : (fun t => exNamed.den (Function.update (fun _ => 2) "z" t)) =
        fun t => Real.exp 2 / 2 := by
      funext t
      simp [exNamed, Expr.den, Bin.den, Fn.den]
    rw [this]; simp

example : ∃ r, evalNamed exRev (fun _ => exRev) id exNamed (fun _ => 2) = .ok r ∧ FiniteSS r := by
  obtain ⟨r, h1, h2⟩ := C40_finite_iff_domain exRev_ok (fun _ => exRev_ok) exNamed (fun _ => 2)
    (by simp [exNamed, Expr.NoBaseZero])
    (by simp [exNamed, Expr.ConstDom, Bin.dom, Fn.dom, Expr.den])
  exact ⟨r, h1, h2.mpr exNamed_dom⟩

/-- Without the condition on operations among constants finite results can be wrong: with
`c = SScalar::constant(0)`, the expression `x · atan(1 / c)` is finite although `1 / c` is not. -/
theorem C40_violated_constants {ord : Order XReal} (ho : ord.Ok) {vord : String → Order XReal}
    (hv : ∀ k, (vord k).Ok) (x : String → ℝ) (k : String) :
    let e : Expr ℝ String := .bin .mul (.var k) (.fn .atan (.sbin .sDiv (.const 0) 1))
    ∃ r, evalNamed ord vord id e x = .ok r ∧ FiniteSS r ∧ e.NoBaseZero ∧ ¬ e.Dom 1 x ∧
      r.d k = num (Real.pi / 2) := by
  intro e
  obtain ⟨r, h1, h2⟩ := evalSS_spec ho (fun k => SS.var (vord k) k (num (x k)))
    (fun v => (num (x v), fun k => if k = v then some (Arith.lit 1) else none)) (fun v =>
    SS.is_var (hv v) v (num (x v))) (e.map num)
  have ha : CMath.atan (num 1 ÷ₛ num 0) = num (Real.pi / 2) := by
    have h0 : (num 1 ÷ₛ num 0) = inf false := by
      simp [Arith.div, XReal.div]
    rw [h0]; rfl
  have hval : (e.map num).evalV (fun v => ((num (x v), fun k =>
      if k = v then some (Arith.lit 1) else none) : SVal XReal)) =
      (num (x k * (Real.pi / 2)), fun j => if j = k then some (num (Real.pi / 2)) else none) := by
    simp only [e, Expr.map, Fn.map, Expr.evalV, Bin.val, SBin.val, SVal.un, SVal.bin, Fn.coefS,
      SS.kAtan, ha, mul_num, lit_num, Option.map_none, step]
    congr 1
    funext j
    by_cases h : j = k <;> simp [h]
  rw [hval] at h2
  refine ⟨r, h1, ⟨⟨_, SS.f_ok h2⟩, fun j => ?_⟩, ?_, ?_, ?_⟩
  · rw [SS.d_eq h2]
    by_cases h : j = k
    · exact ⟨Real.pi / 2, by simp [h]⟩
    · exact ⟨0, by simp [h]⟩
  · simp [e, Expr.NoBaseZero]
  · simp [e, Expr.Dom, SBin.dom, Expr.den]
  · rw [SS.d_eq h2]; simp

end c40

/-! ### C45: sparse and dense scalars agree -/

section c45

open XReal

/-- C45 for arbitrary operands: if the operands agree, so do the results, when the operations stay
inside their domains. -/
theorem C45_agree {ord : Order XReal} (ho : ord.Ok) {c : Cfg} (hc : c.Valid) (h1 : c.order = 1)
    {n : Nat} (hfit : c.tsize = -1 ∨ c.tsize = n) {V : Type} (e : Expr ℝ V) (name : Nat → String)
    (ρ : V → DD XReal) (σ : V → SS XReal) (J : V → Jet ℝ) (hρ : ∀ v, Shows c n (ρ v) (J v).lift)
    (hw : ∀ v, SWF (σ v)) (hfin : ∀ v, FiniteSS (σ v)) (hf : ∀ v, (σ v).f = .ok (num (J v).f))
    (hd : ∀ v, ∀ i < n, (σ v).d (name i) = num ((J v).g i)) :
    ∃ r s, (e.map num).evalDD c n ρ = .ok r ∧ (e.map num).evalSS ord σ = .ok s ∧
      (Accepted c n e (fun v => (J v).f) r ∨ AcceptedSS e (fun v => (J v).f) σ s →
        s.f = r.f ∧ ∀ i < n, r.g c i = .ok (s.d (name i))) := by
  obtain ⟨r, r1, r2, r3, r4⟩ := core hc.order hfit ρ J hρ e
  obtain ⟨s, s1, s2⟩ := evalSS_spec ho σ (fun v => (num (J v).f, (σ v).mD.find))
    (fun v => sisV_of_obj (hw v) (hf v)) (e.map num)
  refine ⟨r, s, r1, s1, fun hacc => ?_⟩
  have hD : e.Dom 1 fun v => (J v).f := by
    rcases hacc with ha | ha
    · rcases ha with h | ⟨hn, hB, hF⟩
      · rwa [h1] at h
      · by_contra hD
        exact r4 hn hB (by rwa [h1]) hF
    · exact dom_of_accepted ho hw hfin hf s1 ha
  choose a K ha hK hJK hK0 using fun v => good_of_shows hc.order (hρ v)
  have hfun : ρ = fun v => obj c n (a v) := funext ha
  have hval : (fun v => (J v).f) = fun v => (K v).f := funext fun v => (hJK v).1
  obtain ⟨L, l1, l2, l3⟩ := eval_both (n := n) (name := name) h1 a
    (fun v => (num (J v).f, (σ v).mD.find)) K hK
    (fun v => sgood_of_obj (hfin v) (hJK v).1.symm
      fun i hi => by rw [hd v i hi, (hJK v).2.1 i hi]) e (by rwa [← hval])
  have hr : r = obj c n ((e.map num).evalC c n a) := by
    have := evalDD_obj hc.order hfit a (e.map num)
    rw [hfun, this] at r1
    exact (Res.ok.inj r1).symm
  have hs := l1.shows hc.order hfit
  rw [← hr] at hs
  refine ⟨by rw [SS.f_ok s2, hs.f, l2.f]; rfl, fun i hi => ?_⟩
  rw [hs.g i hi, SS.d_eq s2]
  congr 1
  simpa [Jet.lift] using (l2.g i hi).symm

/-- C45 on independent variables with different names. -/
theorem C45_variables_agree {ord : Order XReal} (ho : ord.Ok) {c : Cfg} (hc : c.Valid)
    (h1 : c.order = 1) {n : Nat} (hfit : c.tsize = -1 ∨ c.tsize = n) {vord : Fin n → Order XReal}
    (hv : ∀ i, (vord i).Ok) (name : Fin n → String) (hname : Function.Injective name)
    (e : Expr ℝ (Fin n)) (x : Fin n → ℝ) :
    ∃ r s, evalAt c e x = .ok r ∧ evalNamed ord vord name e x = .ok s ∧
      (Accepted c n e x r ∨ AcceptedSS e x (fun i => SS.var (vord i) (name i) (num (x i))) s →
        s.f = r.f ∧ (∀ i : Fin n, r.g c i = .ok (s.d (name i))) ∧
        ∀ k, (∀ i, name i ≠ k) → s.d k = num 0) := by
  have hl : (List.ofFn fun i => num (x i)).length = n := by simp
  have hvars := variables_obj (c := c) (vals := List.ofFn fun i => num (x i)) (by rw [hl]; exact hfit)
  obtain ⟨r, s, e1, e2, e3⟩ := C45_agree ho hc h1 hfit e
    (fun i => if h : i < n then name ⟨i, h⟩ else "")
    (fun i => obj c n (varC i (num (x i))))
    (fun i => SS.var (vord i) (name i) (num (x i))) (fun i => varJet i (x i))
    (fun i => (good_var i.2 (x i)).shows hc.order hfit)
    (fun i => (SS.is_var (hv i) _ _).wf) (fun i => finite_var (hv i) _ _)
    (fun i => SS.f_ok (SS.is_var (hv i) _ _))
    (fun i j hj => by
      rw [SS.d_eq (SS.is_var (hv i) _ _), dif_pos hj]
      by_cases h : (⟨j, hj⟩ : Fin n) = i
      · subst h
        simp [varJet]
      · have h' : ¬ name ⟨j, hj⟩ = name i := fun e => h (hname e)
        have h'' : ¬ j = i := fun e => h (Fin.ext e)
        simp [varJet, h', h''])
  refine ⟨r, s, ?_, e2, fun ha => ?_⟩
  · unfold evalAt
    rw [hvars]
    simp only [Res.ok_bind]
    rw [← e1]
    congr 1
    funext i
    simp [List.getD_eq_getElem?_getD]
  · obtain ⟨hf, hg⟩ := e3 ha
    refine ⟨hf, fun i => by simpa using hg i i.2, fun k hk => ?_⟩
    obtain ⟨s', t1, _, t3⟩ := C41_names ho (e.map num) (fun i => SS.var (vord i) (name i) (num (x i)))
      fun i => (SS.is_var (hv i) _ _).wf
    rw [e2] at t1
    cases t1
    have h0 : s.mD.find k = none := find_none.mpr fun hm => by
      obtain ⟨i, _, hi⟩ := (t3 k).mp hm
      rw [(SS.is_var (hv i) _ _).mem] at hi
      by_cases h : k = name i
      · exact hk i h.symm
      · simp [h] at hi
    simp [SS.d, h0]

example : ∃ r s, evalAt exDyn1 exExpr ![0, 2] = .ok r ∧
    evalNamed exRev (fun _ => exRev) ![ "x", "y" ] exExpr ![0, 2] = .ok s ∧ s.f = r.f ∧
    r.g exDyn1 1 = .ok (s.d "y") := by
  obtain ⟨r, s, h1, h2, h3⟩ := C45_variables_agree exRev_ok exDyn1_valid rfl (Or.inl rfl)
    (vord := fun _ => exRev) (fun _ => exRev_ok) ![ "x", "y" ] (by
      intro i j h
      fin_cases i <;> fin_cases j <;> simp_all) exExpr ![0, 2]
  obtain ⟨hf, hg, _⟩ := h3 (Or.inl (Or.inl (exExpr_dom _)))
  exact ⟨r, s, h1, h2, hf, hg 1⟩

/-- Evaluation on independent variables, by contents. -/
theorem evalAt_obj {c : Cfg} (hc : c.Valid) {n : Nat} (hfit : c.tsize = -1 ∨ c.tsize = n)
    (e : Expr ℝ (Fin n)) (x : Fin n → ℝ) :
    evalAt c e x = .ok (obj c n ((e.map num).evalC c n fun i : Fin n => varC i (num (x i)))) := by
  have hl : (List.ofFn fun i => num (x i)).length = n := by simp
  have hvars := variables_obj (c := c) (vals := List.ofFn fun i => num (x i)) (by rw [hl]; exact hfit)
  unfold evalAt
  rw [hvars]
  simp only [Res.ok_bind]
  rw [← evalDD_obj hc.order hfit]
  congr 1
  funext i
  simp [List.getD_eq_getElem?_getD]

/-- Outside the domain the types differ: for `x + √y` at `y = 0` the dense derivative with respect
to `x` is NaN, the sparse one is 1. -/
theorem C45_violated_outside {ord : Order XReal} (ho : ord.Ok) {c : Cfg} (hc : c.Valid)
    (hfit : c.tsize = -1 ∨ c.tsize = 2) {vord : Fin 2 → Order XReal} (hv : ∀ i, (vord i).Ok) :
    let e : Expr ℝ (Fin 2) := .bin .add (.var 0) (.fn .sqrt (.var 1))
    ∃ r s, evalAt c e ![0, 0] = .ok r ∧ evalNamed ord vord ![ "x", "y" ] e ![0, 0] = .ok s ∧
      r.g c 0 = .ok nan ∧ s.d "x" = num 1 := by
  intro e
  obtain ⟨s, s1, s2⟩ := evalSS_spec ho
    (fun i : Fin 2 => SS.var (vord i) ((![ "x", "y" ] : Fin 2 → String) i)
      (num ((![0, 0] : Fin 2 → ℝ) i)))
    (fun i => (num ((![0, 0] : Fin 2 → ℝ) i), fun k => if k = (![ "x", "y" ] : Fin 2 → String) i then
      some (Arith.lit 1) else none))
    (fun i => SS.is_var (hv i) _ _) (e.map num)
  refine ⟨_, s, evalAt_obj hc hfit e _, s1, ?_, ?_⟩
  · refine ((shows_obj hc.order hfit _).g 0 (by norm_num)).trans ?_
    congr 1
    have hsq : CMath.sqrt (num 0) = num 0 := by
      show XReal.lift _ _ _ _ _ = _
      simp [XReal.lift]
    have hdiv : num 1 ÷ₛ num 0 = inf false := by simp [Arith.div, XReal.div]
    have h2 : ((((.fn .sqrt (.var 1) : Expr ℝ (Fin 2)).map num).evalC c 2
        fun i : Fin 2 => varC i (num ((![0, 0] : Fin 2 → ℝ) i))) (1 + 0)) = nan := by
      change uFin c 2 _ _ _ _ (1 + 0) = nan
      rw [uFin_succ _ _ _ _ (by norm_num)]
      simp [Fn.map, Fn.coef, DD.kSqrt, Expr.evalC, Expr.map, varC, hsq, hdiv, Arith.mul, XReal.mul,
        mulInf]
    change (varC 0 _ (1 + 0) : XReal) +ₛ _ = nan
    rw [h2]; simp
  · rw [SS.d_eq s2]
    simp [e, Expr.map, Expr.evalV, Bin.val, SVal.bin, SVal.un, step, Fn.map]

end c45

/-- **C32, sparse scalars.**  The six comparisons, in the three overloads, compare the values;
derivatives play no role. -/
theorem C32_sparse {a b : SS XReal} {v w : XReal} (ha : a.f = .ok v) (hb : b.f = .ok w)
    (op : DD.CmpOp) (s : XReal) :
    SS.cmp op a b = .ok (op.scalar v w) ∧ SS.cmpS op a s = .ok (op.scalar v s) ∧
      SS.sCmp op s a = .ok (op.scalar s v) := by
  have hcm : ∀ x y : XReal, x.eq y ↔ y.eq x := by
    intro x y
    cases x <;> cases y <;> simp [XReal.eq, eq_comm]
  refine ⟨by simp [SS.cmp, ha, hb], by simp [SS.cmpS, ha], ?_⟩
  unfold SS.sCmp SS.cmpS
  rw [ha]
  simp only [Res.ok_bind, Res.ok.injEq]
  cases op
  · exact decide_eq_decide.2 (hcm v s)
  · exact decide_eq_decide.2 (not_congr (hcm v s))
  · rfl
  · rfl
  · exact decide_eq_decide.2 (or_congr Iff.rfl (hcm v s))
  · exact decide_eq_decide.2 (or_congr Iff.rfl (hcm v s))

/-- `3 < 4` although the derivatives differ. -/
example : SS.cmp .lt (⟨some (.num 3), [("a", .num 9)]⟩ : SS XReal) ⟨some (.num 4), []⟩ = .ok true ∧
    SS.sCmp .ge (.num 2) (⟨some (.num 3), [("a", .num 9)]⟩ : SS XReal) = .ok false := by
  refine ⟨(C32_sparse (b := ⟨some (.num 4), []⟩) rfl rfl .lt (.num 0)).1.trans ?_,
    (C32_sparse (b := ⟨some (.num 4), []⟩) rfl rfl .ge (.num 2)).2.2.trans ?_⟩
  · simp [DD.CmpOp.scalar, Cmp.ltB, XReal.lt]; norm_num
  · simp [DD.CmpOp.scalar, Cmp.geB, XReal.lt, XReal.eq]; norm_num

end HJ
