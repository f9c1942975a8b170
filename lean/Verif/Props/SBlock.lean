import Verif.Spec.SBlock
import Verif.Props.SProgram

/-!
# C90: derivatives of sparse scalars are local, and names do not matter
-/

namespace HJ

open SMap
open XReal (num)

section any

variable {α V Q : Type} [CMath α] {σ : String → String} {P : String → Prop}

/-- Same value, same entries under the names in `P`, which are called `σ k` on the right. -/
def SVal.On (σ : String → String) (P : String → Prop) (p p' : SVal α) : Prop :=
  p'.1 = p.1 ∧ ∀ k, P k → p'.2 (σ k) = p.2 k

theorem SVal.On.un {p p' : SVal α} (h : SVal.On σ P p p') (k : α → α) (k' : α → α) :
    SVal.On σ P (p.un (k p.1) (k' p.1)) (p'.un (k p'.1) (k' p'.1)) :=
  ⟨by simp only [SVal.un, h.1], fun j hj => by simp only [SVal.un, h.1, h.2 j hj]⟩

theorem SVal.On.neg {p p' : SVal α} (h : SVal.On σ P p p') : SVal.On σ P p.neg p'.neg :=
  ⟨by simp only [SVal.neg, h.1], fun j hj => by simp only [SVal.neg, h.2 j hj]⟩

theorem SVal.On.bin {p p' q q' : SVal α} (h : SVal.On σ P p p') (k : SVal.On σ P q q') (o : Bin) :
    SVal.On σ P (o.val p q) (o.val p' q') := by
  cases o <;> exact ⟨by simp only [Bin.val, SVal.bin, h.1, k.1],
    fun j hj => by simp only [Bin.val, SVal.bin, h.1, k.1, h.2 j hj, k.2 j hj]⟩

theorem SVal.On.sbin {p p' : SVal α} (h : SVal.On σ P p p') (o : SBin) (s : α) :
    SVal.On σ P (o.val p s) (o.val p' s) := by
  cases o <;> exact ⟨by simp only [SBin.val, SVal.un, h.1],
    fun j hj => by simp only [SBin.val, SVal.un, SVal.neg, h.1, h.2 j hj]⟩

theorem Expr.evalV_on {p p' : V → SVal α} (h : ∀ v, SVal.On σ P (p v) (p' v)) (e : Expr α V) :
    SVal.On σ P (e.evalV p) (e.evalV p') := by
  induction e with
  | var v => exact h v
  | const s => exact ⟨rfl, fun _ _ => rfl⟩
  | neg e ih => exact ih.neg
  | abs e ih =>
    simp only [Expr.evalV, ih.1]
    split
    · exact ih.neg
    · exact ih
  | fn φ e ih => exact ih.un (fun x => (φ.coefS x).1) fun x => (φ.coefS x).2
  | bin o e₁ e₂ ih₁ ih₂ => exact ih₁.bin ih₂ o
  | sbin o e s ih => exact ih.sbin o s
  | hypot3 e₁ e₂ e₃ ih₁ ih₂ ih₃ =>
    exact ⟨by simp only [Expr.evalV, SVal.tern, ih₁.1, ih₂.1, ih₃.1], fun j hj => by
      simp only [Expr.evalV, SVal.tern, ih₁.1, ih₂.1, ih₃.1, ih₁.2 j hj, ih₂.2 j hj, ih₃.2 j hj]⟩

/-- The same for objects. -/
def SOn (σ : String → String) (P : String → Prop) (x x' : SS α) : Prop :=
  ∃ p p', SIsV x p ∧ SIsV x' p' ∧ SVal.On σ P p p'

theorem SOn.f {x x' : SS α} (h : SOn σ P x x') : ∃ v, x.f = .ok v ∧ x'.f = .ok v := by
  obtain ⟨p, p', h1, h2, h3⟩ := h
  exact ⟨p.1, SS.f_ok h1, by rw [SS.f_ok h2, h3.1]⟩

theorem SOn.d {x x' : SS α} (h : SOn σ P x x') {k : String} (hk : P k) : x'.d (σ k) = x.d k := by
  obtain ⟨p, p', h1, h2, h3⟩ := h
  rw [SS.d_eq h1, SS.d_eq h2, h3.2 k hk]

theorem SOn.names {x x' : SS α} (h : SOn σ P x x') {k : String} (hk : P k) :
    σ k ∈ x'.names ↔ k ∈ x.names := by
  obtain ⟨p, p', h1, h2, h3⟩ := h
  rw [h1.mem, h2.mem, h3.2 k hk]

theorem SOn.wf {x x' : SS α} (h : SOn σ P x x') : SWF x ∧ SWF x' := by
  obtain ⟨p, p', h1, h2, h3⟩ := h
  exact ⟨h1.wf, h2.wf⟩

omit [CMath α] in
theorem find_rename (hσ : Function.Injective σ) (m : SMap α) (k : String) :
    find (m.map fun e => (σ e.1, e.2)) (σ k) = find m k := by
  induction m with
  | nil => rfl
  | cons e m ih =>
    rw [List.map_cons, find_cons, find_cons, ih]
    by_cases h : e.1 = k
    · simp [h]
    · simp [h, hσ.ne h]

omit [CMath α] in
theorem keys_rename (hσ : Function.Injective σ) {m : SMap α} (h : m.keys.Nodup) :
    (keys (m.map fun e => (σ e.1, e.2))).Nodup := by
  have : keys (m.map fun e => (σ e.1, e.2)) = (keys m).map σ := by simp [keys, Function.comp_def]
  rw [this]
  exact h.map hσ

theorem SOn.size (hσ : Function.Bijective σ) (hP : ∀ k, P k) {x x' : SS α} (h : SOn σ P x x') :
    x'.size = x.size := by
  obtain ⟨p, p', h1, h2, h3⟩ := h
  have := size_eq_of_look h2.nodup (keys_rename hσ.1 h1.nodup) fun k => by
    obtain ⟨k, rfl⟩ := hσ.2 k
    rw [find_rename hσ.1, h2.look, h1.look, h3.2 k (hP k)]
  unfold SS.size
  rw [this, List.length_map]

section ops

variable [DecidableEq V]

omit [CMath α] [DecidableEq V] in
theorem SS.accumInto_look [Arith α] {ord : Order α} (ho : ord.Ok) (g : α → α → α) {m : SMap α}
    (hm : m.keys.Nodup) {y : SS α} {q : SVal α} (hy : SIsV y q) :
    (SS.accumInto ord g m (.obj y)).keys.Nodup ∧
      ∀ k, (SS.accumInto ord g m (.obj y)).find k = step g (m.find k) (q.2 k) := by
  have := accumInto_spec ho g hm hy.wf
  exact ⟨this.1, fun k => by rw [this.2, hy.look]⟩

theorem put_on {ρ ρ' : SStore α V} (h : ∀ v, SOn σ P (ρ v) (ρ' v)) (t : V) {r r' : Res (SS α)}
    {a a' : SS α} (hr : r = .ok a) (hr' : r' = .ok a') (ha : SOn σ P a a') :
    ∃ τ τ', ρ.put t r = (.ok (), τ) ∧ ρ'.put t r' = (.ok (), τ') ∧ ∀ v, SOn σ P (τ v) (τ' v) := by
  subst hr hr'
  refine ⟨_, _, rfl, rfl, fun v => ?_⟩
  by_cases hv : v = t
  · simp only [hv, if_true]; exact ha
  · simp only [hv, if_false]; exact h v

/-- Related tables. -/
def MOn (σ : String → String) (P : String → Prop) (m m' : SMap α) : Prop :=
  m.keys.Nodup ∧ m'.keys.Nodup ∧ ∀ k, P k → m'.find (σ k) = m.find k

omit [DecidableEq V] in
theorem MOn.obj {m m' : SMap α} (h : MOn σ P m m') (v : α) :
    SOn σ P (⟨some v, m⟩ : SS α) ⟨some v, m'⟩ :=
  ⟨(v, m.find), (v, m'.find), ⟨rfl, h.1, fun _ => rfl⟩, ⟨rfl, h.2.1, fun _ => rfl⟩, rfl, h.2.2⟩

omit [DecidableEq V] in
theorem MOn.self {m m' : SMap α} (h : MOn σ P m m') (g : α → α → α) :
    MOn σ P (accumSelf g m) (accumSelf g m') := by
  have h1 := accumSelf_spec g h.1
  have h2 := accumSelf_spec g h.2.1
  exact ⟨h1.1, h2.1, fun k hk => by rw [h1.2, h2.2, h.2.2 k hk]⟩

omit [DecidableEq V] in
theorem MOn.scale {m m' : SMap α} (h : MOn σ P m m') (t : α) : MOn σ P (scale m t) (scale m' t) := by
  have e1 : (SMap.scale m t).keys = m.keys := keys_map m fun e => e.2 *ₛ t
  have e2 : (SMap.scale m' t).keys = m'.keys := keys_map m' fun e => e.2 *ₛ t
  refine ⟨by rw [e1]; exact h.1, by rw [e2]; exact h.2.1, fun k hk => ?_⟩
  rw [SMap.scale, SMap.scale, find_map m fun e => e *ₛ t, find_map m' fun e => e *ₛ t, h.2.2 k hk]

/-- Related right operands of compound assignments. -/
def OperandOn (σ : String → String) (P : String → Prop) : SS.Operand α → SS.Operand α → Prop
  | .self, .self => True
  | .obj y, .obj y' => SOn σ P y y'
  | _, _ => False

omit [DecidableEq V] in
theorem MOn.into {ord ord' : Order α} (ho : ord.Ok) (ho' : ord'.Ok) {m m' : SMap α} (h : MOn σ P m m')
    (g : α → α → α) {b b' : SS.Operand α} (hb : OperandOn σ P b b') :
    MOn σ P (SS.accumInto ord g m b) (SS.accumInto ord' g m' b') := by
  cases b with
  | self =>
    cases b' with
    | self => exact h.self g
    | obj y' => exact hb.elim
  | obj y =>
    cases b' with
    | self => exact hb.elim
    | obj y' =>
      obtain ⟨p, p', h1, h2, h3⟩ := hb
      have k1 := SS.accumInto_look ho g h.1 h1
      have k2 := SS.accumInto_look ho' g h.2.1 h2
      exact ⟨k1.1, k2.1, fun k hk => by rw [k1.2, k2.2, h.2.2 k hk, h3.2 k hk]⟩

omit [DecidableEq V] in
theorem SOn.map {x x' : SS α} (h : SOn σ P x x') : MOn σ P x.mD x'.mD := by
  obtain ⟨p, p', h1, h2, h3⟩ := h
  exact ⟨h1.nodup, h2.nodup, fun k hk => by rw [h1.look, h2.look, h3.2 k hk]⟩

theorem asg_on {ord ord' : Order α} (ho : ord.Ok) (ho' : ord'.Ok) (o : AOp) {x x' : SS α}
    (h : SOn σ P x x') {b b' : SS.Operand α} (hb : OperandOn σ P b b') :
    ∃ r r', o.runSS ord x b = .ok r ∧ o.runSS ord' x' b' = .ok r' ∧ SOn σ P r r' := by
  obtain ⟨v, h1, h2⟩ := h.f
  have hw : ∃ w, (b.get x).f = .ok w ∧ (b'.get x').f = .ok w := by
    cases b with
    | self =>
      cases b' with
      | self => exact h.f
      | obj y' => exact hb.elim
    | obj y =>
      cases b' with
      | self => exact hb.elim
      | obj y' => exact SOn.f hb
  obtain ⟨w, k1, k2⟩ := hw
  cases o with
  | add => exact ⟨_, _, by simp only [AOp.runSS, SS.addAssign, h1, k1, Res.ok_bind]; rfl,
      by simp only [AOp.runSS, SS.addAssign, h2, k2, Res.ok_bind], (h.map.into ho ho' _ hb).obj _⟩
  | sub => exact ⟨_, _, by simp only [AOp.runSS, SS.subAssign, h1, k1, Res.ok_bind]; rfl,
      by simp only [AOp.runSS, SS.subAssign, h2, k2, Res.ok_bind], (h.map.into ho ho' _ hb).obj _⟩
  | mul => exact ⟨_, _, by simp only [AOp.runSS, SS.mulAssign, h1, k1, Res.ok_bind]; rfl,
      by simp only [AOp.runSS, SS.mulAssign, h2, k2, Res.ok_bind],
      ((h.map.scale w).into ho ho' _ hb).obj _⟩
  | div => exact ⟨_, _, by simp only [AOp.runSS, SS.divAssign, h1, k1, Res.ok_bind]; rfl,
      by simp only [AOp.runSS, SS.divAssign, h2, k2, Res.ok_bind],
      ((h.map.scale _).into ho ho' _ hb).obj _⟩

theorem asgS_on (o : AOp) {x x' : SS α} (h : SOn σ P x x') (s : α) :
    ∃ r r', o.runSSs x s = .ok r ∧ o.runSSs x' s = .ok r' ∧ SOn σ P r r' := by
  obtain ⟨v, h1, h2⟩ := h.f
  have e : ∀ w : α, ({ x with mF := some w } : SS α) = ⟨some w, x.mD⟩ := fun _ => rfl
  cases o with
  | add => exact ⟨_, _, by simp only [AOp.runSSs, SS.addAssignS, h1, Res.ok_bind]; rfl,
      by simp only [AOp.runSSs, SS.addAssignS, h2, Res.ok_bind], h.map.obj _⟩
  | sub => exact ⟨_, _, by simp only [AOp.runSSs, SS.subAssignS, h1, Res.ok_bind]; rfl,
      by simp only [AOp.runSSs, SS.subAssignS, h2, Res.ok_bind], h.map.obj _⟩
  | mul => exact ⟨_, _, by simp only [AOp.runSSs, SS.mulAssignS, h1, Res.ok_bind]; rfl,
      by simp only [AOp.runSSs, SS.mulAssignS, h2, Res.ok_bind], (h.map.self _).obj _⟩
  | div => exact ⟨_, _, by simp only [AOp.runSSs, SS.divAssignS, SS.mulAssignS, h1, Res.ok_bind]; rfl,
      by simp only [AOp.runSSs, SS.divAssignS, SS.mulAssignS, h2, Res.ok_bind], (h.map.self _).obj _⟩

omit [DecidableEq V] in
theorem evalSS_on {ord ord' : Order α} (ho : ord.Ok) (ho' : ord'.Ok) {ρ ρ' : V → SS α}
    (h : ∀ v, SOn σ P (ρ v) (ρ' v)) (e : Expr α V) :
    ∃ r r', e.evalSS ord ρ = .ok r ∧ e.evalSS ord' ρ' = .ok r' ∧ SOn σ P r r' := by
  choose p p' h1 h2 h3 using h
  obtain ⟨r, k1, k2⟩ := evalSS_spec ho ρ p h1 e
  obtain ⟨r', k3, k4⟩ := evalSS_spec ho' ρ' p' h2 e
  exact ⟨r, r', k1, k3, _, _, k2, k4, Expr.evalV_on h3 e⟩

theorem operand_on {ord ord' : Order α} (ho : ord.Ok) (ho' : ord'.Ok) {ρ ρ' : SStore α V}
    (h : ∀ v, SOn σ P (ρ v) (ρ' v)) (t : V) (e : Expr α V) :
    ∃ b b', ρ.operand ord t e = .ok b ∧ ρ'.operand ord' t e = .ok b' ∧ OperandOn σ P b b' := by
  obtain ⟨r, r', h1, h2, h3⟩ := evalSS_on ho ho' h e
  cases e with
  | var s =>
    by_cases hs : s = t
    · exact ⟨.self, .self, by simp [SStore.operand, hs], by simp [SStore.operand, hs], trivial⟩
    · exact ⟨.obj (ρ s), .obj (ρ' s), by simp [SStore.operand, hs], by simp [SStore.operand, hs], h s⟩
  | _ => exact ⟨.obj r, .obj r', by simp only [SStore.operand, h1, Res.ok_bind],
      by simp only [SStore.operand, h2, Res.ok_bind], h3⟩

theorem sstep_on (hσ : Function.Injective σ) {ord ord' : Order α} (ho : ord.Ok) (ho' : ord'.Ok)
    {ρ ρ' : SStore α V} (h : ∀ v, SOn σ P (ρ v) (ρ' v)) (s : SStmt α V) (hs : s.DictOk) :
    ∃ τ τ', s.run ord ρ = (.ok (), τ) ∧ (s.rename σ).run ord' ρ' = (.ok (), τ') ∧
      ∀ v, SOn σ P (τ v) (τ' v) := by
  have hmake : ∀ (s : α) (d : SMap α), d.keys.Nodup →
      SOn σ P (SS.make ord s d) (SS.make ord' s (d.map fun e => (σ e.1, e.2))) :=
    fun s d hd => ⟨(s, d.find), (s, SMap.find (d.map fun e => (σ e.1, e.2))),
      SS.is_make ho hd (fun _ => rfl) s, SS.is_make ho' (keys_rename hσ hd) (fun _ => rfl) s, rfl,
      fun k _ => find_rename hσ d k⟩
  cases s with
  | assign t e =>
    obtain ⟨r, r', h1, h2, h3⟩ := evalSS_on ho ho' h e
    cases e with
    | var s =>
      obtain ⟨p, p', k1, k2, k3⟩ := h s
      obtain ⟨r, k4, k5⟩ := is_copied ho k1
      obtain ⟨r', k6, k7⟩ := is_copied ho' k2
      exact put_on h t k4 k6 ⟨p, p', k5, k7, k3⟩
    | _ => exact put_on h t h1 h2 h3
  | vari t k s => exact put_on h t rfl rfl (hmake s [(k, Arith.lit 1)] (by simp [keys]))
  | make t s d => exact put_on h t rfl rfl (hmake s d hs)
  | upd o t e =>
    obtain ⟨b, b', h1, h2, h3⟩ := operand_on (ho.sub 1) (ho'.sub 1) h t e
    obtain ⟨r, r', h6, h7, h8⟩ := asg_on (ho.sub 0) (ho'.sub 0) o (h t) h3
    exact put_on h t (by simp only [h1, Res.ok_bind, h6]) (by simp only [h2, Res.ok_bind, h7]) h8
  | updS o t s =>
    obtain ⟨r, r', h1, h2, h3⟩ := asgS_on o (h t) s
    exact put_on h t h1 h2 h3

omit [DecidableEq V] in
theorem cond_on {ord ord' : Order α} (ho : ord.Ok) (ho' : ord'.Ok) {ρ ρ' : SStore α V}
    (h : ∀ v, SOn σ P (ρ v) (ρ' v)) (b : Cond α V) :
    ∃ r, b.runSS ord ρ = .ok r ∧ b.runSS ord' ρ' = .ok r := by
  have ev : ∀ {o o' : Order α}, o.Ok → o'.Ok → ∀ e : Expr α V, ∃ r r' v, e.evalSS o ρ = .ok r ∧
      e.evalSS o' ρ' = .ok r' ∧ r.f = .ok v ∧ r'.f = .ok v := by
    intro o o' ho ho' e
    obtain ⟨r, r', h1, h2, h3⟩ := evalSS_on ho ho' h e
    obtain ⟨v, h4, h5⟩ := h3.f
    exact ⟨r, r', v, h1, h2, h4, h5⟩
  cases b with
  | cmp op e₁ e₂ =>
    obtain ⟨r, r', v, h1, h2, h3, h4⟩ := ev (ho.sub 0) (ho'.sub 0) e₁
    obtain ⟨q, q', w, k1, k2, k3, k4⟩ := ev (ho.sub 1) (ho'.sub 1) e₂
    exact ⟨op.scalar v w, by simp only [Cond.runSS, h1, k1, Res.ok_bind, SS.cmp, h3, k3],
      by simp only [Cond.runSS, h2, k2, Res.ok_bind, SS.cmp, h4, k4]⟩
  | cmpS op e s =>
    obtain ⟨r, r', v, h1, h2, h3, h4⟩ := ev ho ho' e
    exact ⟨op.scalar v s, by simp only [Cond.runSS, h1, Res.ok_bind, SS.cmpS, h3],
      by simp only [Cond.runSS, h2, Res.ok_bind, SS.cmpS, h4]⟩
  | sCmp op s e =>
    obtain ⟨r, r', v, h1, h2, h3, h4⟩ := ev ho ho' e
    exact ⟨(SS.mirror op).scalar v s, by simp only [Cond.runSS, h1, Res.ok_bind, SS.sCmp, SS.cmpS, h3],
      by simp only [Cond.runSS, h2, Res.ok_bind, SS.sCmp, SS.cmpS, h4]⟩

/-- Client code and renamed client code go through the same states. -/
theorem scaller_on (hσ : Function.Injective σ) {S : Prop} (hS : S → Function.Bijective σ ∧ ∀ k, P k)
    (cl : Caller (SCall α V) (Answer α) Q)
    (hcl : ∀ q k, cl.next q = some k → k.ReadsOnly P ∨ S ∧ k.DictOk) (q : Q) {ord ord' : Order α}
    (ho : ord.Ok) (ho' : ord'.Ok) (ρ ρ' : SStore α V) (h : ∀ v, SOn σ P (ρ v) (ρ' v)) (j : Nat) :
    (cl.run (ssLibrary α V) j q (ord, ρ) = none ∧
      cl.run (fun k => ssLibrary α V (k.rename σ)) j q (ord', ρ') = none) ∨
    ∃ q' p p', cl.run (ssLibrary α V) j q (ord, ρ) = some (.ok q', p) ∧
      cl.run (fun k => ssLibrary α V (k.rename σ)) j q (ord', ρ') = some (.ok q', p') ∧
      ∀ v, SOn σ P (p.2 v) (p'.2 v) := by
  obtain h | ⟨q', p, p', h1, h2, h3⟩ := Caller.lockstep (cl := cl) (L := ssLibrary α V)
    (L' := fun k => ssLibrary α V (k.rename σ)) (P := fun k => k.ReadsOnly P ∨ S ∧ k.DictOk)
    (Rel := fun p p' => (p.1.Ok ∧ p'.1.Ok) ∧ ∀ v, SOn σ P (p.2 v) (p'.2 v)) (by
      rintro k ⟨ord, ρ⟩ ⟨ord', ρ'⟩ hk ⟨⟨ho, ho'⟩, h⟩
      cases k with
      | act s =>
        obtain ⟨τ, τ', h1, h2, h3⟩ := sstep_on hσ (ho.sub 0) (ho'.sub 0) h s (hk.elim id And.right)
        exact ⟨.done, (ord.sub 1, τ), (ord'.sub 1, τ'), by simp only [ssLibrary, h1, Answer.of],
          by simp only [SCall.rename, ssLibrary, h2, Answer.of], ⟨ho.sub 1, ho'.sub 1⟩, h3⟩
      | ask b =>
        obtain ⟨r, h1, h2⟩ := cond_on (ho.sub 2) (ho'.sub 2) h b
        exact ⟨.truth r, (ord, ρ), (ord', ρ'), by simp only [ssLibrary, h1, Answer.of],
          by simp only [SCall.rename, ssLibrary, h2, Answer.of], ⟨ho, ho'⟩, h⟩
      | f v =>
        obtain ⟨w, h1, h2⟩ := (h v).f
        exact ⟨.number w, (ord, ρ), (ord', ρ'), by simp only [ssLibrary, h1, Answer.of],
          by simp only [SCall.rename, ssLibrary, h2, Answer.of], ⟨ho, ho'⟩, h⟩
      | d v k =>
        have hPk : P k := hk.elim id fun a => (hS a.1).2 k
        exact ⟨.number ((ρ v).d k), (ord, ρ), (ord', ρ'), rfl,
          by simp only [SCall.rename, ssLibrary, (h v).d hPk], ⟨ho, ho'⟩, h⟩
      | size v m =>
        have hs := hk.elim False.elim fun a => hS a.1
        exact ⟨.truth (decide ((ρ v).size = m)), (ord, ρ), (ord', ρ'), rfl,
          by simp only [SCall.rename, ssLibrary, (h v).size hs.1 hs.2], ⟨ho, ho'⟩, h⟩) hcl j q
    (st := (ord, ρ)) (st' := (ord', ρ')) ⟨⟨ho, ho'⟩, h⟩
  · exact Or.inl h
  · exact Or.inr ⟨q', p, p', h1, h2, h3.2⟩

theorem Caller.run_rename (cl : Caller (SCall α V) (Answer α) Q) (σ : String → String) (j : Nat) (q : Q)
    (st : Order α × SStore α V) :
    (cl.rename σ).run (ssLibrary α V) j q st =
      cl.run (fun k => ssLibrary α V (k.rename σ)) j q st := by
  induction j generalizing q st with
  | zero => rfl
  | succ j ih =>
    unfold Caller.run
    cases hq : cl.next q with
    | none => simp only [Caller.rename, hq, Option.map_none]
    | some k =>
      simp only [Caller.rename, hq, Option.map_some]
      split <;> first | rfl | exact ih _ _

omit [DecidableEq V] in
theorem SIs.on {x x' : SS α} (hx : SWF x) (hx' : SWF x') (hf : x'.f = x.f)
    (hn : ∀ k, P k → (σ k ∈ x'.names ↔ k ∈ x.names)) (hd : ∀ k, P k → x'.d (σ k) = x.d k) :
    SOn σ P x x' := by
  obtain ⟨v, hv⟩ := hx.ex
  obtain ⟨w, hw⟩ := hx'.ex
  have e : w = v := by
    rw [SS.f_ok hv, SS.f_ok hw] at hf
    exact Res.ok.inj hf
  refine ⟨(v, x.mD.find), (w, x'.mD.find), hv, hw, e, fun k hk => ?_⟩
  have h1 := hn k hk
  have h2 := hd k hk
  rw [hv.mem, hw.mem] at h1
  rw [SS.d_eq hv, SS.d_eq hw] at h2
  show x'.mD.find (σ k) = x.mD.find k
  cases h3 : x.mD.find k with
  | none =>
    by_contra h4
    exact h1.mp h4 h3
  | some a =>
    cases h4 : x'.mD.find (σ k) with
    | none => exact absurd h4 (h1.mpr (by rw [h3]; simp))
    | some b => rw [h3, h4] at h2; simpa using h2

end ops

section main

variable [DecidableEq V]

omit [CMath α] [DecidableEq V] in
theorem SCall.rename_id (k : SCall α V) : k.rename id = k := by
  cases k with
  | act s => cases s <;> simp [SCall.rename, SStmt.rename]
  | _ => rfl

/-- **C90, derivatives are local.**  Run client code on two families of sparse scalars with the same values
and the same entries under the names in `P`; under other names there may be other derivatives, more of
them or fewer.  If the code reads derivatives with respect to the names in `P` only (and not the number of
derivatives), nothing fails, it goes through the same states, and the results have the same values and the
same entries under the names in `P`, in every arithmetic and however the hash tables are iterated. -/
theorem C90_local (cl : Caller (SCall α V) (Answer α) Q)
    (hcl : ∀ q k, cl.next q = some k → k.ReadsOnly P) (q : Q) {ord ord' : Order α} (ho : ord.Ok)
    (ho' : ord'.Ok) (ρ ρ' : SStore α V) (h : ∀ v, SAgreeOn P (ρ v) (ρ' v)) (j : Nat) :
    (cl.run (ssLibrary α V) j q (ord, ρ) = none ∧ cl.run (ssLibrary α V) j q (ord', ρ') = none) ∨
    ∃ q' p p', cl.run (ssLibrary α V) j q (ord, ρ) = some (.ok q', p) ∧
      cl.run (ssLibrary α V) j q (ord', ρ') = some (.ok q', p') ∧
      ∀ v, SAgreeOn P (p.2 v) (p'.2 v) := by
  have e : (fun k => ssLibrary α V (SCall.rename id k)) = ssLibrary α V :=
    funext fun k => by rw [SCall.rename_id]
  have := scaller_on (σ := id) (P := P) (S := False) Function.injective_id (fun h => h.elim) cl
    (fun q k hk => Or.inl (hcl q k hk)) q ho ho' ρ ρ'
    (fun v => SIs.on (h v).wf (h v).wf' (h v).f (h v).names (h v).d) j
  rw [e] at this
  obtain h | ⟨q', p, p', h1, h2, h3⟩ := this
  · exact Or.inl h
  · exact Or.inr ⟨q', p, p', h1, h2, fun v => ⟨(h3 v).wf.1, (h3 v).wf.2, by
      obtain ⟨w, k1, k2⟩ := (h3 v).f
      rw [k1, k2], fun k hk => (h3 v).names hk, fun k hk => (h3 v).d hk⟩⟩

/-- **C90, names do not matter.**  Rename the variables in client code and in the objects it starts from,
different names remaining different: nothing fails, the code goes through the same states with the same
answers, also to questions about the number of derivatives, and the results are those of the original code
with renamed variables, in every arithmetic and however the hash tables are iterated. -/
theorem C90_names (τ : String ≃ String) (cl : Caller (SCall α V) (Answer α) Q)
    (hcl : ∀ q k, cl.next q = some k → k.DictOk) (q : Q) {ord ord' : Order α} (ho : ord.Ok)
    (ho' : ord'.Ok) (ρ ρ' : SStore α V) (h : ∀ v, SRenamed τ (ρ v) (ρ' v)) (j : Nat) :
    (cl.run (ssLibrary α V) j q (ord, ρ) = none ∧
      (cl.rename τ).run (ssLibrary α V) j q (ord', ρ') = none) ∨
    ∃ q' p p', cl.run (ssLibrary α V) j q (ord, ρ) = some (.ok q', p) ∧
      (cl.rename τ).run (ssLibrary α V) j q (ord', ρ') = some (.ok q', p') ∧
      ∀ v, SRenamed τ (p.2 v) (p'.2 v) := by
  rw [Caller.run_rename]
  obtain h | ⟨q', p, p', h1, h2, h3⟩ := scaller_on (σ := τ) (P := fun _ => True) (S := True) τ.injective
    (fun _ => ⟨τ.bijective, fun _ => trivial⟩) cl (fun q k hk => Or.inr ⟨trivial, hcl q k hk⟩) q ho ho'
    ρ ρ' (fun v => SIs.on (h v).wf (h v).wf' (h v).f (fun k _ => (h v).names k) fun k _ => (h v).d k) j
  · exact Or.inl h
  · exact Or.inr ⟨q', p, p', h1, h2, fun v => ⟨(h3 v).wf.1, (h3 v).wf.2, by
      obtain ⟨w, k1, k2⟩ := (h3 v).f
      rw [k1, k2], (h3 v).size τ.bijective fun _ => trivial, fun k => (h3 v).names trivial,
      fun k => (h3 v).d trivial⟩⟩

end main

end any

/-- Names in `P` that are missing in one object and stored with a zero in the other are told apart by
`SAgreeOn`, and have to be: `2` with a stored derivative 0 and `2` without one have the same value and read
the same derivative, but multiplied with an infinite number the first has the derivative NaN, the second 0. -/
theorem C90_violated_missing {ord : Order XReal} (ho : ord.Ok) :
    ∃ x x' r r' : SS XReal, SWF x ∧ SWF x' ∧ x'.f = x.f ∧ (∀ k, x'.d k = x.d k) ∧
      x.mulS ord (.inf false) = .ok r ∧ x'.mulS ord (.inf false) = .ok r' ∧ r.d "a" = .nan ∧
      r'.d "a" = num 0 := by
  have hx : SIsV (⟨some (num 2), [("a", num 0)]⟩ : SS XReal)
      (num 2, fun k => if k = "a" then some (num 0) else none) :=
    ⟨rfl, by simp [keys], fun k => by
      rw [find_cons, find_nil]
      by_cases h : k = "a"
      · simp [h]
      · rw [if_neg (Ne.symm h)]
        simp [h]⟩
  have hx' : SIsV (⟨some (num 2), []⟩ : SS XReal) (num 2, fun _ => none) :=
    ⟨rfl, by simp [keys], fun _ => rfl⟩
  obtain ⟨r, h1, h2⟩ := SBin.spec ho .mulS hx (.inf false)
  obtain ⟨r', h3, h4⟩ := SBin.spec ho .mulS hx' (.inf false)
  have hz : (Arith.lit 0 : XReal) = num 0 := by
    show num _ = num 0
    simp
  refine ⟨_, _, r, r', hx.wf, hx'.wf, rfl, fun k => ?_, h1, h3, ?_, ?_⟩
  · rw [SS.d_eq hx, SS.d_eq hx', hz]
    by_cases h : k = "a" <;> simp [h]
  · rw [SS.d_eq h2]
    show XReal.mul (num 0) (.inf false) = .nan
    simp [XReal.mul, XReal.mulInf]
  · rw [SS.d_eq h4, hz]
    rfl

/-! ## Examples -/

/-- Binary powering of `x + da`, with and without a derivative `z` (a NaN, say) with respect to "b". -/
example {α : Type} [CMath α] {ord ord' : Order α} (ho : ord.Ok) (ho' : ord'.Ok) (N j : Nat) (x z : α) :
    ((exSPowers α).run (ssLibrary α (Fin 2)) j N
        (ord, ![SS.make ord x [("b", z), ("a", Arith.lit 1)], SS.constant ord (Arith.lit 1)]) = none ∧
      (exSPowers α).run (ssLibrary α (Fin 2)) j N
        (ord', ![SS.var ord' "a" x, SS.constant ord' (Arith.lit 1)]) = none) ∨
    ∃ q' p p', (exSPowers α).run (ssLibrary α (Fin 2)) j N
        (ord, ![SS.make ord x [("b", z), ("a", Arith.lit 1)], SS.constant ord (Arith.lit 1)]) =
          some (.ok q', p) ∧
      (exSPowers α).run (ssLibrary α (Fin 2)) j N
        (ord', ![SS.var ord' "a" x, SS.constant ord' (Arith.lit 1)]) = some (.ok q', p') ∧
      ∀ v, SAgreeOn (fun k => k = "a") (p.2 v) (p'.2 v) := by
  refine C90_local (exSPowers α) (fun q k h => ?_) N ho ho' _ _ (fun v => ?_) j
  · simp only [exSPowers] at h
    split at h
    · cases h
    · split at h <;> cases h <;> trivial
  · have e1 := SS.is_make (L := SMap.find [("b", z), ("a", Arith.lit 1)]) ho
      (m := [("b", z), ("a", Arith.lit 1)]) (by simp [keys]) (fun _ => rfl) x
    have e2 := SS.is_var ho' "a" x
    have e3 := SS.is_constant ho (Arith.lit 1 : α)
    have e4 := SS.is_constant ho' (Arith.lit 1 : α)
    match v with
    | 0 =>
      refine ⟨e1.wf, e2.wf, (SS.f_ok e2).trans (SS.f_ok e1).symm, fun k hk => ?_, fun k hk => ?_⟩
      · subst hk
        exact (e2.mem _).trans (Iff.trans (by simp [find_cons]) (e1.mem _).symm)
      · subst hk
        exact (SS.d_eq e2 _).trans (Eq.trans (by simp [find_cons]) (SS.d_eq e1 _).symm)
    | 1 =>
      exact ⟨e3.wf, e4.wf, (SS.f_ok e4).trans (SS.f_ok e3).symm,
        fun k _ => (e4.mem k).trans (e3.mem k).symm, fun k _ => (SS.d_eq e4 k).trans (SS.d_eq e3 k).symm⟩

/-- `v = variable("a", x); w = variable("b", y); v *= w; g = v.d("a"); if (v.size() == 2) w /= g;`
(names: `v` 0, `w` 1; the state is the line and the number that was read). -/
def exSNames {α : Type} [Arith α] (x y : α) : Caller (SCall α (Fin 2)) (Answer α) (Nat × α) where
  next
    | (0, _) => some (.act (.vari 0 "a" x))
    | (1, _) => some (.act (.vari 1 "b" y))
    | (2, _) => some (.act (.upd .mul 0 (.var 1)))
    | (3, _) => some (.d 0 "a")
    | (4, _) => some (.size 0 2)
    | (5, g) => some (.act (.updS .div 1 g))
    | _ => none
  after
    | (3, _), .number g => (4, g)
    | (4, g), .truth b => if b then (5, g) else (6, g)
    | (l, g), _ => (l + 1, g)

/-- The same with "b" for "a" and "a" for "b". -/
example {α : Type} [CMath α] {ord ord' : Order α} (ho : ord.Ok) (ho' : ord'.Ok) (x y : α) (j : Nat)
    (q : Nat × α) :
    ((exSNames x y).run (ssLibrary α (Fin 2)) j q (ord, fun _ => SS.constant ord x) = none ∧
      ((exSNames x y).rename (Equiv.swap "a" "b")).run (ssLibrary α (Fin 2)) j q
        (ord', fun _ => SS.constant ord' x) = none) ∨
    ∃ q' p p', (exSNames x y).run (ssLibrary α (Fin 2)) j q (ord, fun _ => SS.constant ord x) =
        some (.ok q', p) ∧
      ((exSNames x y).rename (Equiv.swap "a" "b")).run (ssLibrary α (Fin 2)) j q
        (ord', fun _ => SS.constant ord' x) = some (.ok q', p') ∧
      ∀ v, SRenamed (Equiv.swap "a" "b") (p.2 v) (p'.2 v) := by
  have e1 := SS.is_constant ho x
  have e2 := SS.is_constant ho' x
  refine C90_names (Equiv.swap "a" "b") (exSNames x y) (fun q k h => ?_) q ho ho' _ _ (fun v =>
    ⟨e1.wf, e2.wf, (SS.f_ok e2).trans (SS.f_ok e1).symm, ((e2.same e1 rfl) fun _ => rfl).size,
      fun k => (e2.mem _).trans (e1.mem _).symm, fun k => (SS.d_eq e2 _).trans (SS.d_eq e1 _).symm⟩) j
  unfold exSNames at h
  dsimp only at h
  split at h <;> cases h <;> trivial

/-- The renamed code indeed declares the other variables. -/
example (x y : ℝ) (g : ℝ) : ((exSNames x y).rename (Equiv.swap "a" "b")).next (0, g) =
    some (.act (.vari 0 "b" x)) := by
  simp [exSNames, Caller.rename, SCall.rename, SStmt.rename]

/-- The number of derivatives is not local: the objects of the first example have two and one. -/
example {α : Type} [CMath α] {ord : Order α} (ho : ord.Ok) (x z : α) :
    (SS.make ord x [("b", z), ("a", Arith.lit 1)]).size = 2 ∧ (SS.var ord "a" x).size = 1 := by
  constructor
  · exact congrArg Int.ofNat (ho [0] [("b", z), ("a", Arith.lit 1)]).length_eq
  · exact congrArg Int.ofNat (ho [0] [("a", Arith.lit 1)]).length_eq

end HJ
