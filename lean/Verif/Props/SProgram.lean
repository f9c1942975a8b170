import Verif.Spec.SProgram
import Verif.Props.PyCaller

/-!
# C79: C++ client code of any kind on `SScalar`
-/

open Filter
open scoped Topology

namespace HJ

open SMap
open XReal (num)

/-- The operator in Python. -/
def AOp.py : AOp → POp
  | .add => .add
  | .sub => .sub
  | .mul => .mul
  | .div => .div

theorem AOp.runSS_py {α : Type} [CMath α] (ord : Order α) (o : AOp) : o.runSS ord = o.py.asgSS ord := by
  cases o <;> rfl

section any

variable {α V Q : Type} [CMath α] [DecidableEq V]

/-- Proper objects that cannot be told apart. -/
def SAlike (x x' : SS α) : Prop := SWF x ∧ SWF x' ∧ SameSS x x'

omit [DecidableEq V] in
theorem SAlike.f {x x' : SS α} (h : SAlike x x') : ∃ v, x.f = .ok v ∧ x'.f = .ok v := by
  obtain ⟨v, hv⟩ := h.1.ex
  exact ⟨v, SS.f_ok hv, by rw [← h.2.2.f, SS.f_ok hv]⟩

theorem put_alike {ρ ρ' : SStore α V} (h : ∀ v, SAlike (ρ v) (ρ' v)) (t : V) {r r' : Res (SS α)}
    {a a' : SS α} (hr : r = .ok a) (hr' : r' = .ok a') (ha : SAlike a a') :
    ∃ τ τ', ρ.put t r = (.ok (), τ) ∧ ρ'.put t r' = (.ok (), τ') ∧ ∀ v, SAlike (τ v) (τ' v) := by
  subst hr hr'
  refine ⟨_, _, rfl, rfl, fun v => ?_⟩
  by_cases hv : v = t
  · simp only [hv, if_true]; exact ha
  · simp only [hv, if_false]; exact h v

theorem asgS_alike (o : AOp) {x x' : SS α} (h : SAlike x x') (s : α) :
    ∃ r r', o.runSSs x s = .ok r ∧ o.runSSs x' s = .ok r' ∧ SAlike r r' := by
  obtain ⟨v, hv⟩ := h.1.ex
  have hv' := h.2.2.is h.2.1 hv
  have hm : ∀ t, ∃ r r', x.mulAssignS t = .ok r ∧ x'.mulAssignS t = .ok r' ∧ SAlike r r' := by
    intro t
    have h1 := accumSelf_spec (fun _ w => w *ₛ t) hv.nodup
    have h2 := accumSelf_spec (fun _ w => w *ₛ t) hv'.nodup
    have e1 : SIs (⟨some (v *ₛ t), accumSelf (fun _ w => w *ₛ t) x.mD⟩ : SS α) (v *ₛ t) _ :=
      ⟨rfl, h1.1, h1.2⟩
    have e2 : SIs (⟨some (v *ₛ t), accumSelf (fun _ w => w *ₛ t) x'.mD⟩ : SS α) (v *ₛ t) _ :=
      ⟨rfl, h2.1, h2.2⟩
    exact ⟨_, _, by simp only [SS.mulAssignS, SS.f_ok hv, Res.ok_bind],
      by simp only [SS.mulAssignS, SS.f_ok hv', Res.ok_bind], e1.wf, e2.wf,
      e1.same e2 rfl fun k => by rw [hv'.look]⟩
  have ha : ∀ w : α, SAlike (⟨some w, x.mD⟩ : SS α) ⟨some w, x'.mD⟩ := fun w => by
    have e1 : SIs (⟨some w, x.mD⟩ : SS α) w _ := ⟨rfl, hv.nodup, hv.look⟩
    have e2 : SIs (⟨some w, x'.mD⟩ : SS α) w _ := ⟨rfl, hv'.nodup, hv'.look⟩
    exact ⟨e1.wf, e2.wf, e1.same e2 rfl fun k => rfl⟩
  cases o with
  | add => exact ⟨_, _, by simp only [AOp.runSSs, SS.addAssignS, SS.f_ok hv, Res.ok_bind],
      by simp only [AOp.runSSs, SS.addAssignS, SS.f_ok hv', Res.ok_bind], ha (v +ₛ s)⟩
  | sub => exact ⟨_, _, by simp only [AOp.runSSs, SS.subAssignS, SS.f_ok hv, Res.ok_bind],
      by simp only [AOp.runSSs, SS.subAssignS, SS.f_ok hv', Res.ok_bind], ha (v -ₛ s)⟩
  | mul => exact hm s
  | div => exact hm _

theorem asg_alike {ord ord' : Order α} (ho : ord.Ok) (ho' : ord'.Ok) (o : AOp) {x x' : SS α}
    (h : SAlike x x') {b b' : SS.Operand α} (hb : OperandWF b) (hb' : OperandWF b')
    (hs : SameOperand b b') :
    ∃ r r', o.runSS ord x b = .ok r ∧ o.runSS ord' x' b' = .ok r' ∧ SAlike r r' := by
  obtain ⟨h1, h2, h3, h4⟩ := C42_assign ho ho' x x' b b' h.1 h.2.1 hb hb' h.2.2 hs
  have : ∃ r r', o.runSS ord x b = .ok r ∧ o.runSS ord' x' b' = .ok r' ∧ SameSS r r' := by
    cases o <;> assumption
  obtain ⟨r, r', e1, e2, e3⟩ := this
  refine ⟨r, r', e1, e2, ?_, ?_, e3⟩
  · rw [AOp.runSS_py] at e1
    exact asg_wf ho o.py h.1 hb e1
  · rw [AOp.runSS_py] at e2
    exact asg_wf ho' o.py h.2.1 hb' e2

theorem operand_alike {ord ord' : Order α} (ho : ord.Ok) (ho' : ord'.Ok) {ρ ρ' : SStore α V}
    (h : ∀ v, SAlike (ρ v) (ρ' v)) (t : V) (e : Expr α V) :
    ∃ b b', ρ.operand ord t e = .ok b ∧ ρ'.operand ord' t e = .ok b' ∧ OperandWF b ∧ OperandWF b' ∧
      SameOperand b b' := by
  obtain ⟨r, r', h1, h2, h3, h4, h5⟩ := snode_same ho ho' e ρ ρ' h
  cases e with
  | var s =>
    by_cases hs : s = t
    · exact ⟨.self, .self, by simp [SStore.operand, hs], by simp [SStore.operand, hs], trivial, trivial,
        trivial⟩
    · exact ⟨.obj (ρ s), .obj (ρ' s), by simp [SStore.operand, hs], by simp [SStore.operand, hs],
        (h s).1, (h s).2.1, (h s).2.2⟩
  | _ => exact ⟨.obj r, .obj r', by simp only [SStore.operand, h1, Res.ok_bind],
      by simp only [SStore.operand, h2, Res.ok_bind], h3, h4, h5⟩

omit [CMath α] in
theorem is_copied {ord : Order α} (ho : ord.Ok) {x : SS α} {v : α} {L : String → Option α}
    (h : SIs x v L) : ∃ r, x.copied ord = .ok r ∧ SIs r v L :=
  ⟨_, by simp only [SS.copied, SS.f_ok h, Res.ok_bind], SS.is_copy ho h [0] v⟩

theorem sstep_alike {ord ord' : Order α} (ho : ord.Ok) (ho' : ord'.Ok) {ρ ρ' : SStore α V}
    (h : ∀ v, SAlike (ρ v) (ρ' v)) (s : SStmt α V) (hs : s.DictOk) :
    ∃ τ τ', s.run ord ρ = (.ok (), τ) ∧ s.run ord' ρ' = (.ok (), τ') ∧ ∀ v, SAlike (τ v) (τ' v) := by
  have hmake : ∀ (s : α) (d : SMap α), d.keys.Nodup → SAlike (SS.make ord s d) (SS.make ord' s d) :=
    fun s d hd => by
      have e1 := SS.is_make ho hd (fun _ => rfl) s
      have e2 := SS.is_make ho' hd (fun _ => rfl) s
      exact ⟨e1.wf, e2.wf, e1.same e2 rfl fun _ => rfl⟩
  cases s with
  | assign t e =>
    obtain ⟨r, r', h1, h2, h3, h4, h5⟩ := snode_same ho ho' e ρ ρ' h
    cases e with
    | var s =>
      obtain ⟨v, hv⟩ := (h s).1.ex
      obtain ⟨r, k1, k2⟩ := is_copied ho hv
      obtain ⟨r', k3, k4⟩ := is_copied ho' ((h s).2.2.is (h s).2.1 hv)
      exact put_alike h t k1 k3 ⟨k2.wf, k4.wf, k2.same k4 rfl fun _ => rfl⟩
    | _ => exact put_alike h t h1 h2 ⟨h3, h4, h5⟩
  | vari t k s => exact put_alike h t rfl rfl (hmake s [(k, Arith.lit 1)] (by simp [keys]))
  | make t s d => exact put_alike h t rfl rfl (hmake s d hs)
  | upd o t e =>
    obtain ⟨b, b', h1, h2, h3, h4, h5⟩ := operand_alike (ho.sub 1) (ho'.sub 1) h t e
    obtain ⟨r, r', h6, h7, h8⟩ := asg_alike (ho.sub 0) (ho'.sub 0) o (h t) h3 h4 h5
    exact put_alike h t (by simp only [h1, Res.ok_bind, h6]) (by simp only [h2, Res.ok_bind, h7]) h8
  | updS o t s =>
    obtain ⟨r, r', h1, h2, h3⟩ := asgS_alike o (h t) s
    exact put_alike h t h1 h2 h3

omit [DecidableEq V] in
theorem cond_alike {ord ord' : Order α} (ho : ord.Ok) (ho' : ord'.Ok) {ρ ρ' : SStore α V}
    (h : ∀ v, SAlike (ρ v) (ρ' v)) (b : Cond α V) :
    ∃ r, b.runSS ord ρ = .ok r ∧ b.runSS ord' ρ' = .ok r := by
  have ev : ∀ {o o' : Order α}, o.Ok → o'.Ok → ∀ e : Expr α V, ∃ r r' v, e.evalSS o ρ = .ok r ∧
      e.evalSS o' ρ' = .ok r' ∧ r.f = .ok v ∧ r'.f = .ok v := by
    intro o o' ho ho' e
    obtain ⟨r, r', h1, h2, h3⟩ := snode_same ho ho' e ρ ρ' h
    obtain ⟨v, h4, h5⟩ := SAlike.f h3
    exact ⟨r, r', v, h1, h2, h4, h5⟩
  cases b with
  | cmp op e₁ e₂ =>
    obtain ⟨r, r', v, h1, h2, h3, h4⟩ := ev (ho.sub 0) (ho'.sub 0) e₁
    obtain ⟨q, q', w, k1, k2, k3, k4⟩ := ev (ho.sub 1) (ho'.sub 1) e₂
    exact ⟨op.scalar v w, by simp only [Cond.runSS, h1, k1, Res.ok_bind, SS.cmp, h3, k3],
      by simp only [Cond.runSS, h2, k2, Res.ok_bind, SS.cmp, h4, k4]⟩
  | cmpS op e s =>
    obtain ⟨r, r', v, h1, h2, h3, h4⟩ := ev ho ho' e
    exact ⟨op.scalar v s, by simp only [Cond.runSS, h1, Res.ok_bind, SS.cmpS, h3],
      by simp only [Cond.runSS, h2, Res.ok_bind, SS.cmpS, h4]⟩
  | sCmp op s e =>
    obtain ⟨r, r', v, h1, h2, h3, h4⟩ := ev ho ho' e
    exact ⟨(SS.mirror op).scalar v s, by simp only [Cond.runSS, h1, Res.ok_bind, SS.sCmp, SS.cmpS, h3],
      by simp only [Cond.runSS, h2, Res.ok_bind, SS.sCmp, SS.cmpS, h4]⟩

/-- **C79, safety and iteration orders.**  C++ client code of any kind on `SScalar` - arrays, recursion,
integer variables, values and derivatives read and used again - has no undefined behaviour, fails no
assertion and gets no exception, in any arithmetic, with `*=` and `/=` of an object with itself included.
However the hash tables are iterated, it goes through the same states with the same answers and leaves
objects that cannot be told apart. -/
theorem C79_safe (cl : Caller (SCall α V) (Answer α) Q)
    (hcl : ∀ q k, cl.next q = some k → k.DictOk) (q : Q) {ord ord' : Order α} (ho : ord.Ok)
    (ho' : ord'.Ok) (ρ ρ' : SStore α V) (hρ : ∀ v, SWF (ρ v)) (hρ' : ∀ v, SWF (ρ' v))
    (h : ∀ v, SameSS (ρ v) (ρ' v)) (j : Nat) :
    (cl.run (ssLibrary α V) j q (ord, ρ) = none ∧ cl.run (ssLibrary α V) j q (ord', ρ') = none) ∨
    ∃ q' p p', cl.run (ssLibrary α V) j q (ord, ρ) = some (.ok q', p) ∧
      cl.run (ssLibrary α V) j q (ord', ρ') = some (.ok q', p') ∧
      ∀ v, SWF (p.2 v) ∧ SWF (p'.2 v) ∧ SameSS (p.2 v) (p'.2 v) := by
  obtain h | ⟨q', p, p', h1, h2, h3⟩ := Caller.lockstep (cl := cl) (L := ssLibrary α V)
    (L' := ssLibrary α V) (P := SCall.DictOk)
    (Rel := fun p p' => (p.1.Ok ∧ p'.1.Ok) ∧ ∀ v, SAlike (p.2 v) (p'.2 v)) (by
      rintro k ⟨ord, ρ⟩ ⟨ord', ρ'⟩ hk ⟨⟨ho, ho'⟩, h⟩
      cases k with
      | act s =>
        obtain ⟨τ, τ', h1, h2, h3⟩ := sstep_alike (ho.sub 0) (ho'.sub 0) h s hk
        exact ⟨.done, (ord.sub 1, τ), (ord'.sub 1, τ'), by simp only [ssLibrary, h1, Answer.of],
          by simp only [ssLibrary, h2, Answer.of], ⟨ho.sub 1, ho'.sub 1⟩, h3⟩
      | ask b =>
        obtain ⟨r, h1, h2⟩ := cond_alike (ho.sub 2) (ho'.sub 2) h b
        exact ⟨.truth r, (ord, ρ), (ord', ρ'), by simp only [ssLibrary, h1, Answer.of],
          by simp only [ssLibrary, h2, Answer.of], ⟨ho, ho'⟩, h⟩
      | f v =>
        obtain ⟨w, h1, h2⟩ := (h v).f
        exact ⟨.number w, (ord, ρ), (ord', ρ'), by simp only [ssLibrary, h1, Answer.of],
          by simp only [ssLibrary, h2, Answer.of], ⟨ho, ho'⟩, h⟩
      | d v k =>
        exact ⟨.number ((ρ v).d k), (ord, ρ), (ord', ρ'), rfl,
          by simp only [ssLibrary, ← (h v).2.2.d k], ⟨ho, ho'⟩, h⟩
      | size v m =>
        exact ⟨.truth (decide ((ρ v).size = m)), (ord, ρ), (ord', ρ'), rfl,
          by simp only [ssLibrary, ← (h v).2.2.size], ⟨ho, ho'⟩, h⟩) hcl j q
    (st := (ord, ρ)) (st' := (ord', ρ')) ⟨⟨ho, ho'⟩, fun v => ⟨hρ v, hρ' v, h v⟩⟩
  · exact Or.inl h
  · exact Or.inr ⟨q', p, p', h1, h2, h3.2⟩

/-! ## Values -/

/-- The object has the value. -/
def SHas (x : SS α) (v : α) : Prop := SWF x ∧ x.f = .ok v

omit [CMath α] in
theorem put_has {ρ : SStore α V} {σ : V → α} (h : ∀ v, SHas (ρ v) (σ v)) (t : V) {r : Res (SS α)}
    {a : SS α} {w : α} (hr : r = .ok a) (ha : SHas a w) :
    ∃ τ, ρ.put t r = (.ok (), τ) ∧ ∀ v, SHas (τ v) (if v = t then w else σ v) := by
  subst hr
  refine ⟨_, rfl, fun v => ?_⟩
  by_cases hv : v = t
  · simp only [hv, if_true]; exact ha
  · simp only [hv, if_false]; exact h v

theorem asg_has {ord : Order α} (ho : ord.Ok) (o : AOp) {x : SS α} {v w : α} (hx : SHas x v)
    {b : SS.Operand α} (hb : OperandWF b) (hw : (b.get x).f = .ok w) :
    ∃ r, o.runSS ord x b = .ok r ∧ SHas r (o.plain v w) := by
  have : ∃ r, o.runSS ord x b = .ok r ∧ r.f = .ok (o.plain v w) := by
    cases o <;> simp only [AOp.runSS, SS.addAssign, SS.subAssign, SS.mulAssign, SS.divAssign, hx.2, hw,
      Res.ok_bind] <;> exact ⟨_, rfl, rfl⟩
  obtain ⟨r, h1, h2⟩ := this
  refine ⟨r, h1, ?_, h2⟩
  rw [AOp.runSS_py] at h1
  exact asg_wf ho o.py hx.1 hb h1

theorem sstep_value (hl : CommLaws α) {ord : Order α} (ho : ord.Ok) {ρ : SStore α V} {σ : V → α}
    (h : ∀ v, SHas (ρ v) (σ v)) (s : SStmt α V) (hs : s.DictOk) :
    ∃ τ, s.run ord ρ = (.ok (), τ) ∧ ∀ v, SHas (τ v) (s.plain σ v) := by
  have hmake : ∀ (s : α) (d : SMap α), d.keys.Nodup → SHas (SS.make ord s d) s := fun s d hd => by
    have e1 := SS.is_make ho hd (fun _ => rfl) s
    exact ⟨e1.wf, SS.f_ok e1⟩
  cases s with
  | assign t e =>
    obtain ⟨r, h1, h2⟩ := scell_node hl ho e ρ σ h
    cases e with
    | var s =>
      obtain ⟨v, hv⟩ := (h s).1.ex
      obtain ⟨r, k1, k2⟩ := is_copied ho hv
      have := (h s).2
      rw [SS.f_ok hv] at this
      cases this
      exact put_has h t k1 ⟨k2.wf, SS.f_ok k2⟩
    | _ => exact put_has h t h1 h2
  | vari t k s => exact put_has h t rfl (hmake s [(k, Arith.lit 1)] (by simp [keys]))
  | make t s d => exact put_has h t rfl (hmake s d hs)
  | upd o t e =>
    obtain ⟨r, h1, h2⟩ := scell_node hl (ho.sub 1) e ρ σ h
    have : ∃ b, ρ.operand (ord.sub 1) t e = .ok b ∧ OperandWF b ∧
        (b.get (ρ t)).f = .ok (e.plain recipDiv σ) := by
      cases e with
      | var s =>
        by_cases hs : s = t
        · subst hs
          exact ⟨.self, by simp [SStore.operand], trivial, (h s).2⟩
        · exact ⟨.obj (ρ s), by simp [SStore.operand, hs], (h s).1, (h s).2⟩
      | _ => exact ⟨.obj r, by simp only [SStore.operand, h1, Res.ok_bind], h2.1, h2.2⟩
    obtain ⟨b, k1, k2, k3⟩ := this
    obtain ⟨r, k4, k5⟩ := asg_has (ho.sub 0) o (h t) k2 k3
    exact put_has h t (by simp only [k1, Res.ok_bind, k4]) k5
  | updS o t s =>
    obtain ⟨r, _, h1, _, h3⟩ := asgS_alike o (x := ρ t) (x' := ρ t)
      ⟨(h t).1, (h t).1, ⟨rfl, rfl, fun _ => rfl, fun _ => Iff.rfl⟩⟩ s
    have hf : r.f = .ok (match o with | .div => recipDiv (σ t) s | o => o.plain (σ t) s) := by
      cases o <;> simp only [AOp.runSSs, SS.addAssignS, SS.subAssignS, SS.mulAssignS, SS.divAssignS,
        (h t).2, Res.ok_bind] at h1 <;> cases h1 <;> rfl
    have := put_has h t h1 ⟨h3.1, hf⟩
    cases o <;> exact this

omit [DecidableEq V] in
theorem scond_value (hl : CommLaws α) (hq : CmpLaws α) {ord : Order α} (ho : ord.Ok) {ρ : SStore α V}
    {σ : V → α} (h : ∀ v, SHas (ρ v) (σ v)) (b : Cond α V) : b.runSS ord ρ = .ok (b.plain σ) := by
  cases b with
  | cmp op e₁ e₂ =>
    obtain ⟨r, h1, h2⟩ := scell_node hl (ho.sub 0) e₁ ρ σ h
    obtain ⟨q, k1, k2⟩ := scell_node hl (ho.sub 1) e₂ ρ σ h
    simp only [Cond.runSS, h1, k1, Res.ok_bind, SS.cmp, h2.2, k2.2, Cond.plain]
  | cmpS op e s =>
    obtain ⟨r, h1, h2⟩ := scell_node hl ho e ρ σ h
    simp only [Cond.runSS, h1, Res.ok_bind, SS.cmpS, h2.2, Cond.plain]
  | sCmp op s e =>
    obtain ⟨r, h1, h2⟩ := scell_node hl ho e ρ σ h
    simp only [Cond.runSS, h1, Res.ok_bind, SS.sCmp, SS.cmpS, h2.2, Cond.plain]
    cases op
    · exact congrArg _ (hq.eq _ _)
    · exact congrArg _ (hq.ne _ _)
    · exact congrArg _ (hq.lt _ _).symm
    · exact congrArg _ (hq.lt _ _)
    · exact congrArg _ (hq.le _ _).symm
    · exact congrArg _ (hq.le _ _)

theorem scall_value (hl : CommLaws α) (hq : CmpLaws α) (k : SCall α V) (hk : k.NoDerivs)
    {p : Order α × SStore α V} {σ : V → α} (hp : p.1.Ok ∧ ∀ v, SHas (p.2 v) (σ v)) :
    ∃ r s s', ssLibrary α V k p = (.ok r, s) ∧ splainLibrary α V k σ = (.ok r, s') ∧
      s.1.Ok ∧ ∀ v, SHas (s.2 v) (s' v) := by
  obtain ⟨ord, ρ⟩ := p
  obtain ⟨ho, h⟩ := hp
  cases k with
  | act s =>
    obtain ⟨τ, h1, h2⟩ := sstep_value hl (ho.sub 0) h s hk
    exact ⟨.done, (ord.sub 1, τ), s.plain σ, by simp only [ssLibrary, h1, Answer.of], rfl, ho.sub 1, h2⟩
  | ask b =>
    exact
      ⟨_, (ord, ρ), σ, by simp only [ssLibrary, scond_value hl hq (ho.sub 2) h b, Answer.of], rfl, ho,
      h⟩
  | f v =>
    have h1 : (ρ v).f = .ok (σ v) := (h v).2
    exact ⟨_, (ord, ρ), σ, by simp only [ssLibrary, h1, Answer.of], rfl, ho, h⟩
  | d v k => exact hk.elim
  | size v m => exact hk.elim

/-- **C79, sparse scalars take the path of their values.**  Client code that does not look at derivatives
goes through the same states on sparse scalars as on plain numbers, gets the same answers, and the values
are equal, bit for bit. -/
theorem C79_path (hl : CommLaws α) (hq : CmpLaws α) (cl : Caller (SCall α V) (Answer α) Q)
    (hcl : ∀ q k, cl.next q = some k → k.NoDerivs) (q : Q) {ord : Order α} (ho : ord.Ok)
    (ρ : SStore α V) (σ : V → α) (hρ : ∀ v, SWF (ρ v)) (hσ : ∀ v, (ρ v).f = .ok (σ v)) (j : Nat) :
    (cl.run (ssLibrary α V) j q (ord, ρ) = none ∧ cl.run (splainLibrary α V) j q σ = none) ∨
    ∃ q' p σ', cl.run (ssLibrary α V) j q (ord, ρ) = some (.ok q', p) ∧
      cl.run (splainLibrary α V) j q σ = some (.ok q', σ') ∧ ∀ v, SWF (p.2 v) ∧ (p.2 v).f = .ok
        (σ' v) := by
  obtain h | ⟨q', p, σ', h1, h2, h3⟩ := Caller.lockstep (cl := cl) (L := ssLibrary α V)
    (L' := splainLibrary α V) (P := SCall.NoDerivs)
    (Rel := fun p σ => p.1.Ok ∧ ∀ v, SHas (p.2 v) (σ v))
    (fun k p σ hk h => scall_value hl hq k hk h) hcl j q (st := (ord, ρ)) (st' := σ)
    ⟨ho, fun v => ⟨hρ v, hσ v⟩⟩
  · exact Or.inl h
  · exact Or.inr ⟨q', p, σ', h1, h2, h3.2⟩

/-- **C79, sparse and dense agree.**  The same client code on a dense class of any order and size goes
through the same states with the same answers, and the values are equal, bit for bit. -/
theorem C79_dense {c : Cfg} {n : Nat} (hl : CommLaws α) (hq : CmpLaws α) (hv : c.Valid)
    (hf : c.tsize = -1 ∨ c.tsize = n) (hn : c.order = 2 → 0 < n) (cl : Caller (SCall α V) (Answer α) Q)
    (hcl : ∀ q k, cl.next q = some k → k.NoDerivs) (q : Q) {ord : Order α} (ho : ord.Ok)
    (ρ : SStore α V) (ρ' : Store α V) (hρ : ∀ v, SWF (ρ v)) (hρ' : ∀ v, WF c n (ρ' v))
    (h : ∀ v, (ρ v).f = (ρ' v).f) (j : Nat) :
    (cl.run (ssLibrary α V) j q (ord, ρ) = none ∧
      (cl.map SCall.dense id).run (ddLibrary α V c n) j q ρ' = none) ∨
    ∃ q' p τ, cl.run (ssLibrary α V) j q (ord, ρ) = some (.ok q', p) ∧
      (cl.map SCall.dense id).run (ddLibrary α V c n) j q ρ' = some (.ok q', τ) ∧
      ∀ v, SWF (p.2 v) ∧ WF c n (τ v) ∧ (p.2 v).f = (τ v).f := by
  have hrun : ∀ j q ρ', (cl.map SCall.dense id).run (ddLibrary α V c n) j q ρ' =
      cl.run (fun k => ddLibrary α V c n k.dense) j q ρ' := by
    intro j
    induction j with
    | zero => intro q ρ'; rfl
    | succ j ih =>
      intro q ρ'
      simp only [Caller.run, Caller.map]
      cases hk : cl.next q with
      | none => rfl
      | some k =>
        simp only [Option.map_some]
        rcases hL : ddLibrary α V c n k.dense ρ' with ⟨r, s⟩
        cases r with
        | ok r => exact ih _ _
        | _ => rfl
  rw [hrun]
  obtain h | ⟨q', p, τ, h1, h2, _, σ, h3, h4⟩ := Caller.lockstep (cl := cl) (L := ssLibrary α V)
    (L' := fun k => ddLibrary α V c n k.dense) (P := SCall.NoDerivs)
    (Rel := fun p τ => p.1.Ok ∧ ∃ σ, (∀ v, SHas (p.2 v) (σ v)) ∧ Holding c n τ σ)
    (by
      rintro k p τ hk ⟨ho, σ, h1, h2⟩
      obtain ⟨r, s, σ', k1, k2, k3, k4⟩ := scall_value hl hq k hk ⟨ho, h1⟩
      cases k with
      | act s' =>
        cases k2
        obtain ⟨τ', h5, h6⟩ := step_value hl hv hf h2 s'.dense (by
          cases s' <;> first | trivial | exact fun _ => hn)
        refine ⟨.done, s, τ', k1, by simp only [SCall.dense, ddLibrary, h5, Answer.of], k3, _, k4, ?_⟩
        have e : s'.dense.plain σ = s'.plain σ := by
          cases s' with
          | updS o t s => cases o <;> rfl
          | _ => rfl
        exact e ▸ h6
      | ask b =>
        cases k2
        exact
          ⟨_, s, τ, k1, by simp only [SCall.dense, ddLibrary, cond_value hl hq hv hf h2 b, Answer.of],
          k3, _, k4, h2⟩
      | f v =>
        cases k2
        exact ⟨_, s, τ, k1, by simp only [SCall.dense, ddLibrary, (h2 v).2, Answer.of], k3, _, k4, h2⟩
      | d v k => exact hk.elim
      | size v m => exact hk.elim) hcl j q (st := (ord, ρ)) (st' := ρ') (by
      have hσ : ∀ v, ∃ w, (ρ v).f = .ok w := fun v => by
        obtain ⟨w, hw⟩ := (hρ v).ex
        exact ⟨w, SS.f_ok hw⟩
      choose σ hσ using hσ
      exact ⟨ho, σ, fun v => ⟨hρ v, hσ v⟩, fun v => ⟨hρ' v, (h v).symm.trans (hσ v)⟩⟩)
  · exact Or.inl h
  · exact Or.inr ⟨q', p, τ, h1, h2, fun v => ⟨(h3 v).1, (h4 v).1, (h3 v).2.trans (h4 v).2.symm⟩⟩

end any

/-! ## Exact derivatives -/

section exact

variable {V Q : Type} [DecidableEq V] {x : String → ℝ}

theorem put_isAt {ρ : SStore XReal V} {u : (String → ℝ) → V → ℝ} (h : ∀ v, SIsAt x (ρ v) fun y => u y v)
    (t : V) {r : Res (SS XReal)} {a : SS XReal} {F : (String → ℝ) → ℝ} (hr : r = .ok a)
    (ha : SIsAt x a F) :
    ∃ τ, ρ.put t r = (.ok (), τ) ∧ ∀ v, SIsAt x (τ v) fun y => setVal (u y) t (F y) v := by
  subst hr
  refine ⟨_, rfl, fun v => ?_⟩
  by_cases hv : v = t
  · simp only [hv, if_true, setVal]; exact ha
  · simp only [hv, if_false, setVal]; exact h v

theorem AOp.py_den (o : AOp) : o.py.den = o.den := by cases o <;> rfl

theorem sstep_exact {ord : Order XReal} (ho : ord.Ok) {ρ : SStore XReal V} {u : (String → ℝ) → V → ℝ}
    (h : ∀ v, SIsAt x (ρ v) fun y => u y v) (s : SStmt ℝ V) (hs : s.Ok (u x)) :
    ∃ τ, (s.map num).run ord ρ = (.ok (), τ) ∧ ∀ v, SIsAt x (τ v) fun y => s.den x y (u y) v := by
  cases s with
  | assign t e =>
    obtain ⟨r, h1, h2⟩ := snode ho e (fun v y => u y v) ρ h hs.1 hs.2
    cases e with
    | var s =>
      obtain ⟨r, k1, k2⟩ := is_copied ho (h s).is
      exact put_isAt h t k1 ((h s).same (k2.same (h s).is rfl fun _ => rfl) k2.wf)
    | _ => exact put_isAt h t h1 h2
  | vari t k s => exact put_isAt h t rfl (isAt_var ho k s)
  | make t s d => exact put_isAt h t rfl (isAt_make ho s d hs)
  | upd o t e =>
    obtain ⟨hd, hr, h0, hself⟩ := hs
    have hself' : ∀ s, (SS.Operand.self : SS.Operand XReal) = s → True := fun _ _ => trivial
    have main : ∃ b r, ρ.operand (ord.sub 1) t (e.map num) = .ok b ∧
        o.runSS (ord.sub 0) (ρ t) b = .ok r ∧ SIsAt x r fun y => o.den (u y t) (e.den (u y)) := by
      obtain ⟨r, h1, h2⟩ := snode (ho.sub 1) e (fun v y => u y v) ρ h hd hr
      have hobj : ∀ z, SIsAt x z (fun y => e.den (u y)) → ∃ r, o.runSS (ord.sub 0) (ρ t) (.obj z) =
          .ok r ∧ SIsAt x r fun y => o.den (u y t) (e.den (u y)) := by
        intro z hz
        obtain ⟨r, k1, k2⟩ := asg_obj (ho.sub 0) o.py (h t) hz
          (fun ho => h0 (by cases o <;> simp_all [AOp.py]))
        rw [AOp.py_den] at k2
        exact ⟨r, by rw [AOp.runSS_py]; exact k1, k2⟩
      cases e with
      | var s =>
        by_cases hst : s = t
        · subst hst
          obtain ⟨r, k1, k2⟩ := asg_self (ord := ord.sub 0) o.py (h s) (by
            rcases hself rfl with rfl | rfl <;> simp [AOp.py])
          rw [AOp.py_den] at k2
          exact ⟨.self, r, by simp [SStore.operand, Expr.map], by rw [AOp.runSS_py]; exact k1, k2⟩
        · obtain ⟨r, k1, k2⟩ := hobj (ρ s) (h s)
          exact ⟨.obj (ρ s), r, by simp [SStore.operand, Expr.map, hst], k1, k2⟩
      | _ =>
        obtain ⟨r', k1, k2⟩ := hobj r h2
        exact ⟨.obj r, r', by
          simp only [Expr.map] at h1
          simp only [SStore.operand, Expr.map, h1, Res.ok_bind], k1, k2⟩
    obtain ⟨b, r, k1, k2, k3⟩ := main
    exact put_isAt h t (by simp only [k1, Res.ok_bind, k2]) k3
  | updS o t s =>
    have hc : ∀ w : ℝ, SIsAt x (⟨some (num w), (ρ t).mD⟩ : SS XReal) fun y => w + (u y t - u x t) := by
      intro w
      refine ⟨⟨by simp, (h t).wf.nodup⟩, by simp [SS.f], fun k => ?_⟩
      obtain ⟨g, k1, k2⟩ := (h t).d k
      exact ⟨g, k1, (k2.sub_const _).const_add _⟩
    cases o with
    | add =>
      refine put_isAt h t (F := fun y => u y t + s) (a := ⟨some (num (u x t + s)), (ρ t).mD⟩) ?_ ?_
      · simp only [AOp.runSSs, SS.addAssignS, (h t).f, Res.ok_bind, XReal.add_num]
      · have := hc (u x t + s)
        have e : (fun y : String → ℝ => u x t + s + (u y t - u x t)) = fun y => u y t + s := by
          funext y; ring
        rwa [e] at this
    | sub =>
      refine put_isAt h t (F := fun y => u y t - s) (a := ⟨some (num (u x t - s)), (ρ t).mD⟩) ?_ ?_
      · simp only [AOp.runSSs, SS.subAssignS, (h t).f, Res.ok_bind, XReal.sub_num]
      · have := hc (u x t - s)
        have e : (fun y : String → ℝ => u x t - s + (u y t - u x t)) = fun y => u y t - s := by
          funext y; ring
        rwa [e] at this
    | mul =>
      obtain ⟨r, k1, k2⟩ := (asg_num (h t) s).1
      exact put_isAt h t k1 k2
    | div =>
      obtain ⟨r, k1, k2⟩ := (asg_num (h t) s).2 (hs rfl)
      exact put_isAt h t k1 k2

omit [DecidableEq V] in
theorem scond_exact {ord : Order XReal} (ho : ord.Ok) {ρ : SStore XReal V} {u : (String → ℝ) → V → ℝ}
    (h : ∀ v, SIsAt x (ρ v) fun y => u y v) (b : Cond ℝ V) (hb : b.Inside 1 (u x)) {r : Bool}
    (hr : r = true ↔ b.Holds (u x)) : (b.map num).runSS ord ρ = .ok r := by
  have key : ∀ (op : DD.CmpOp) (s t : ℝ), (r = true ↔ op.rel s t) →
      op.scalar (num s) (num t) = r := fun op s t hq => by
    rw [Bool.eq_iff_iff, cmp_rel, hq]
  cases b with
  | cmp op e₁ e₂ =>
    obtain ⟨y, h1, h2⟩ := snode (ho.sub 0) e₁ (fun v y => u y v) ρ h hb.1.1 hb.1.2
    obtain ⟨z, k1, k2⟩ := snode (ho.sub 1) e₂ (fun v y => u y v) ρ h hb.2.1 hb.2.2
    simp only [Cond.map, Cond.runSS, h1, k1, Res.ok_bind, SS.cmp, h2.f, k2.f, key op _ _ hr]
  | cmpS op e s =>
    obtain ⟨y, h1, h2⟩ := snode ho e (fun v y => u y v) ρ h hb.1 hb.2
    simp only [Cond.map, Cond.runSS, h1, Res.ok_bind, SS.cmpS, h2.f, key op _ _ hr]
  | sCmp op s e =>
    obtain ⟨y, h1, h2⟩ := snode ho e (fun v y => u y v) ρ h hb.1 hb.2
    simp only [Cond.map, Cond.runSS, h1, Res.ok_bind, SS.sCmp, SS.cmpS, h2.f]
    refine congrArg _ (key (SS.mirror op) _ _ ?_)
    rw [hr]
    cases op <;> simp [SS.mirror, DD.CmpOp.rel, Cond.Holds, eq_comm]

/-- **C79, exact derivatives.**  Let client code of any kind run on sparse scalars that hold functions at
`x`, reading values and derivatives whenever it likes.  If the run on functions - statements change the
functions, comparisons look at the values at `x`, `f()` gives the value and `d(k)` the partial derivative
with respect to `k` at `x` - ends with the functions `u'` and every statement is inside its domain, then
the run on sparse scalars ends in the same state, for every iteration order, and the objects hold values
and partial derivatives of these functions. -/
theorem C79_exact (cl : Caller (SCall XReal V) (Answer XReal) Q) {q q' : Q}
    {u u' : (String → ℝ) → V → ℝ} {ord : Order XReal} (ho : ord.Ok) (ρ : SStore XReal V)
    (hρ : ∀ v, SIsAt x (ρ v) fun y => u y v) (h : cl.Ends (SPointCall x) q u q' u') :
    ∃ m p, (∀ j ≥ m, cl.run (ssLibrary XReal V) j q (ord, ρ) = some (.ok q', p)) ∧
      ∀ v, SIsAt x (p.2 v) fun y => u' y v := by
  obtain ⟨m, p, h1, _, h2⟩ := h.run (L := ssLibrary XReal V)
    (Rel := fun p u => p.1.Ok ∧ ∀ v, SIsAt x (p.2 v) fun y => u y v) (st := (ord, ρ)) (by
      rintro k u r u' ⟨ord, ρ⟩ ⟨ho, h⟩ hk
      cases hk with
      | act s _ hs =>
        obtain ⟨τ, h1, h2⟩ := sstep_exact (ho.sub 0) h s hs
        exact ⟨(ord.sub 1, τ), by simp only [ssLibrary, h1, Answer.of], ho.sub 1, h2⟩
      | ask b _ hb hr =>
        exact ⟨(ord, ρ), by simp only [ssLibrary, scond_exact (ho.sub 2) h b hb hr, Answer.of], ho, h⟩
      | f v =>
        have h1 := (h v).f
        simp only at h1
        exact ⟨(ord, ρ), by simp only [ssLibrary, h1, Answer.of], ho, h⟩
      | d v k =>
        obtain ⟨g, h1, h2⟩ := (h v).d k
        simp only at h1
        exact ⟨(ord, ρ), by simp only [ssLibrary, h1, h2.deriv], ho, h⟩) ⟨ho, hρ⟩
  exact ⟨m, p, h1, h2⟩

theorem srealCall_det {y : String → ℝ} (k : SCall ℝ V) (σ : V → ℝ) (r : Answer ℝ) (σ' : V → ℝ)
    (s : Answer ℝ) (σ'' : V → ℝ) (h : SRealCall x y k σ r σ') (h' : SRealCall x y k σ s σ'') :
    r = s ∧ σ' = σ'' := by
  cases h with
  | act => cases h'; exact ⟨rfl, rfl⟩
  | ask b _ hr =>
    cases h' with
    | ask _ _ hr' => exact ⟨by rw [Bool.eq_iff_iff.2 (hr.trans hr'.symm)], rfl⟩

/-- Calls on functions, inside the domains and without ties at `x`. -/
inductive SFunCall (x : String → ℝ) :
    SCall ℝ V → ((String → ℝ) → V → ℝ) → Answer ℝ → ((String → ℝ) → V → ℝ) → Prop
  | act (s : SStmt ℝ V) (u : (String → ℝ) → V → ℝ) (hs : s.Ok (u x)) :
      SFunCall x (.act s) u .done (fun y => s.den x y (u y))
  | ask (b : Cond ℝ V) (u : (String → ℝ) → V → ℝ) {r : Bool} (hb : b.Sure 1 (u x))
      (h : r = true ↔ b.Holds (u x)) : SFunCall x (.ask b) u (.truth r) u

theorem SSureCall.fns {cl : Caller (SCall ℝ V) (Answer ℝ) Q} {q q' : Q} {σ σ' : V → ℝ}
    (h : cl.Ends (SSureCall x) q σ q' σ') (u : (String → ℝ) → V → ℝ) (hu : u x = σ) :
    ∃ u', u' x = σ' ∧ cl.Ends (SFunCall x) q u q' u' := by
  induction h generalizing u with
  | stop hn => exact ⟨u, hu, .stop hn⟩
  | call hn hk _ ih =>
    cases hk with
    | act s _ hs =>
      subst hu
      obtain ⟨u', h1, h2⟩ := ih (fun y => s.den x y (u y)) rfl
      exact ⟨u', h1, .call hn (.act s u hs) h2⟩
    | ask b _ hb hr =>
      subst hu
      obtain ⟨u', h1, h2⟩ := ih u rfl
      exact ⟨u', h1, .call hn (.ask b u hb hr) h2⟩

omit [DecidableEq V] in
theorem SIsAt.steady {y : SS XReal} {F : (String → ℝ) → ℝ} (h : SIsAt x y F) (k : String) :
    ContinuousAt (fun t => F (Function.update x k t)) (x k) := by
  obtain ⟨g, _, h2⟩ := h.d k
  exact h2.continuousAt

omit [DecidableEq V] in
theorem scond_steady {ord : Order XReal} (ho : ord.Ok) {ρ : SStore XReal V} {u : (String → ℝ) → V → ℝ}
    (h : ∀ v, SIsAt x (ρ v) fun y => u y v) (b : Cond ℝ V) (hb : b.Sure 1 (u x)) :
    ∀ᶠ y in nearLines x, (b.Holds (u y) ↔ b.Holds (u x)) := by
  have key : ∀ (op : DD.CmpOp) (F G : (String → ℝ) → ℝ) (k : String),
      ContinuousAt (fun t => F (Function.update x k t)) (x k) →
      ContinuousAt (fun t => G (Function.update x k t)) (x k) → F x ≠ G x →
      ∀ᶠ t in 𝓝 (x k), (op.rel (F (Function.update x k t)) (G (Function.update x k t)) ↔
        op.rel (F x) (G x)) := by
    intro op F G k hF hG hne
    have := rel_steady hF hG (by rw [Function.update_eq_self]; exact hne) op
    rwa [Function.update_eq_self] at this
  refine eventually_nearLines.2 fun k => ?_
  cases b with
  | cmp op e₁ e₂ =>
    obtain ⟨y, _, h2⟩ := snode ho e₁ (fun v y => u y v) ρ h hb.1.1.1 hb.1.1.2
    obtain ⟨z, _, k2⟩ := snode ho e₂ (fun v y => u y v) ρ h hb.1.2.1 hb.1.2.2
    exact key op (fun y => e₁.den (u y)) (fun y => e₂.den (u y)) k (h2.steady k) (k2.steady k) hb.2
  | cmpS op e s =>
    obtain ⟨y, _, h2⟩ := snode ho e (fun v y => u y v) ρ h hb.1.1 hb.1.2
    exact key op (fun y => e.den (u y)) (fun _ => s) k (h2.steady k) continuousAt_const hb.2
  | sCmp op s e =>
    obtain ⟨y, _, h2⟩ := snode ho e (fun v y => u y v) ρ h hb.1.1 hb.1.2
    exact key op (fun _ => s) (fun y => e.den (u y)) k continuousAt_const (h2.steady k) (Ne.symm hb.2)

/-- **C79, the derivatives of what the client code computes.**  If client code that does not read numbers
runs on real numbers at `x` inside the domains and without comparing equal values, then every function `U`
it computes near `x` (on the coordinate lines through `x`; it does compute one, in the same final state)
has the values and derivatives stored in the resulting sparse scalars as value and partial derivatives at
`x`. -/
theorem C79_no_ties (cl : Caller (SCall ℝ V) (Answer ℝ) Q) {q q' : Q} (u : (String → ℝ) → V → ℝ)
    {σ' : V → ℝ} {ord : Order XReal} (ho : ord.Ok) (ρ : SStore XReal V)
    (hρ : ∀ v, SIsAt x (ρ v) fun y => u y v) (h : cl.Ends (SSureCall x) q (u x) q' σ') :
    (∀ᶠ y in nearLines x, ∃ τ, cl.Ends (SRealCall x y) q (u y) q' τ) ∧
    ∃ m p, (∀ j ≥ m, (cl.map (SCall.map num) (Answer.map XReal.real)).run (ssLibrary XReal V) j q
        (ord, ρ) = some (.ok q', p)) ∧
      ∀ U : (String → ℝ) → V → ℝ,
        (∀ᶠ y in nearLines x, ∃ q'', cl.Ends (SRealCall x y) q (u y) q'' (U y)) →
        U x = σ' ∧ ∀ v, SIsAt x (p.2 v) fun y => U y v := by
  obtain ⟨u', hu', he⟩ := SSureCall.fns h u rfl
  have hnear : ∀ᶠ y in nearLines x, cl.Ends (SRealCall x y) q (u y) q' (u' y) := by
    refine he.near (fun u y => u y)
      (Inv := fun u => ∃ ρ : SStore XReal V, ∀ v, SIsAt x (ρ v) fun y => u y v) ?_ ⟨ρ, hρ⟩
    rintro k u r u' ⟨ρ, hρ⟩ hk
    cases hk with
    | act s _ hs =>
      obtain ⟨τ, _, h2⟩ := sstep_exact ho hρ s hs
      exact ⟨⟨τ, h2⟩, .of_forall fun y => SRealCall.act s (u y)⟩
    | ask b _ hb hr =>
      exact
        ⟨⟨ρ, hρ⟩, (scond_steady ho hρ b hb).mono fun y hy => SRealCall.ask b (u y) (hr.trans hy.symm)⟩
  have hp : (cl.map (SCall.map num) (Answer.map XReal.real)).Ends (SPointCall x) q u q' u' := by
    clear hnear hρ h hu'
    induction he with
    | stop hn => exact .stop (by simp [Caller.map, hn])
    | call hn hk _ ih =>
      cases hk with
      | act s u hs =>
        exact Caller.Ends.call (k := SCall.act (s.map num)) (by simp [Caller.map, hn, SCall.map])
          (SPointCall.act s _ hs) ih
      | ask b u hb hr =>
        exact Caller.Ends.call (k := SCall.ask (b.map num)) (by simp [Caller.map, hn, SCall.map])
          (SPointCall.ask b _ hb.1 hr) ih
  obtain ⟨m, p, h1, h2⟩ := C79_exact _ ho ρ hρ hp
  refine ⟨hnear.mono fun y hy => ⟨_, hy⟩, m, p, h1, fun U hU => ?_⟩
  have heq : ∀ᶠ y in nearLines x, u' y = U y := (hnear.and hU).mono fun y ⟨hy, q'', hy'⟩ =>
    (Caller.Ends.det srealCall_det hy hy').2
  have hx : u' x = U x := self_of_nearLines heq
  refine ⟨hx.symm.trans hu', fun v => ⟨(h2 v).wf, ?_, fun k => ?_⟩⟩
  · rw [← hx]; exact (h2 v).f
  · obtain ⟨g, k1, k2⟩ := (h2 v).d k
    exact ⟨g, k1, k2.congr_of_eventuallyEq ((eventually_nearLines.1 heq k).mono fun t ht => by
      simp only [ht])⟩

end exact

/-! ## Client code -/

/-- `while (m > 0) { if (m % 2) { r *= b; m--; } else { b = b * b; m /= 2; } }` with an integer `m`
(names: `b` 0, `r` 1). -/
def exSPowers (α : Type) : Caller (SCall α (Fin 2)) (Answer α) Nat where
  next m := if m = 0 then none
    else if m % 2 = 1 then some (.act (.upd .mul 1 (.var 0)))
    else some (.act (.assign 0 (.bin .mul (.var 0) (.var 0))))
  after m _ := if m % 2 = 1 then m - 1 else m / 2

theorem exSPowers_calls {α : Type} (q : Nat) (k : SCall α (Fin 2)) (h : (exSPowers α).next q = some k) :
    k.NoDerivs ∧ k.DictOk := by
  simp only [exSPowers] at h
  split at h
  · cases h
  · split at h <;> cases h <;> exact ⟨trivial, trivial⟩

theorem exSPowers_ends (x y : String → ℝ) (m : Nat) (σ : Fin 2 → ℝ) :
    ∃ σ', (exSPowers ℝ).Ends (SRealCall x y) m σ 0 σ' ∧
      (y = x → (exSPowers ℝ).Ends (SSureCall x) m σ 0 σ') ∧
      σ' 1 = σ 1 * σ 0 ^ m := by
  induction m using Nat.strong_induction_on generalizing σ with
  | _ m ih =>
    by_cases h0 : m = 0
    · subst h0
      exact ⟨σ, .stop (by simp [exSPowers]), fun _ => .stop (by simp [exSPowers]), by simp⟩
    · by_cases h1 : m % 2 = 1
      · obtain ⟨σ', h, h', e⟩ := ih (m - 1) (by omega) ((SStmt.upd .mul 1 (.var 0)).den x y σ)
        refine ⟨σ', .call (k := .act (.upd .mul 1 (.var 0))) (r := .done) (by simp [exSPowers, h0, h1])
          (.act _ _) (by simpa only [exSPowers, h1, if_true] using h), fun hy => ?_, ?_⟩
        · subst hy
          exact Caller.Ends.call (k := SCall.act (.upd .mul 1 (.var 0))) (r := .done)
            (by simp [exSPowers, h0, h1])
            (SSureCall.act _ _ (by simp [SStmt.Ok, Expr.Dom, Expr.Regular]))
            (by simpa only [exSPowers, h1, if_true] using h' rfl)
        · rw [e]
          obtain ⟨k, rfl⟩ : ∃ k, m = k + 1 := ⟨m - 1, by omega⟩
          simp [SStmt.den, setVal, AOp.den, Expr.den, pow_succ]
          ring
      · obtain ⟨σ', h, h', e⟩ := ih (m / 2) (by omega)
          ((SStmt.assign 0 (.bin .mul (.var 0) (.var 0))).den x y σ)
        refine ⟨σ', .call (k := .act (.assign 0 (.bin .mul (.var 0) (.var 0)))) (r := .done)
          (by simp [exSPowers, h0, h1]) (.act _ _)
          (by simpa only [exSPowers, h1, if_false] using h), fun hy => ?_, ?_⟩
        · subst hy
          exact Caller.Ends.call (k := SCall.act (.assign 0 (.bin .mul (.var 0) (.var 0)))) (r := .done)
            (by simp [exSPowers, h0, h1])
            (SSureCall.act _ _ (by simp [SStmt.Ok, Expr.Dom, Expr.Regular, Bin.dom, Bin.reg]))
            (by simpa only [exSPowers, h1, if_false] using h' rfl)
        · rw [e]
          obtain ⟨k, rfl⟩ : ∃ k, m = 2 * k := ⟨m / 2, by omega⟩
          simp [SStmt.den, setVal, Expr.den, Bin.den, ← pow_two, ← pow_mul]

/-- Repeated squaring of `SScalar::variable("u", u)` gives value and derivatives of `u^N`, for every `N`
and iteration order. -/
example (N : Nat) (x : String → ℝ) (ord : Order XReal) (ho : ord.Ok) :
    ∃ m p, (∀ j ≥ m, ((exSPowers ℝ).map (SCall.map num) (Answer.map XReal.real)).run
        (ssLibrary XReal (Fin 2)) j N
        (ord, ![SS.var ord "u" (num (x "u")), SS.constant ord (num 1)]) = some (.ok 0, p)) ∧
      SIsAt x (p.2 1) (fun y => y "u" ^ N) := by
  choose U hU hU' hU1 using fun y : String → ℝ => exSPowers_ends x y N ![x "u" + (y "u" - x "u"), 1]
  obtain ⟨_, m, p, h1, h2⟩ := C79_no_ties (exSPowers ℝ) (q := N) (q' := 0)
    (fun y => ![x "u" + (y "u" - x "u"), 1]) (σ' := U x) ho
    ![SS.var ord "u" (num (x "u")), SS.constant ord (num 1)]
    (by
      intro v
      fin_cases v
      · exact isAt_var ho "u" (x "u")
      · exact isAt_constant ho 1) (hU' x rfl)
  obtain ⟨-, h3⟩ := h2 U (Filter.Eventually.of_forall fun y => ⟨0, hU y⟩)
  refine ⟨m, p, h1, ?_⟩
  have e : (fun y => U y 1) = fun y : String → ℝ => y "u" ^ N := funext fun y => by
    rw [hU1 y]; simp
  exact e ▸ h3 1

/-- In any arithmetic it cannot fail, and the iteration order does not matter. -/
example {α : Type} [CMath α] (N j : Nat) (u : α) :
    let ρ := ![SS.var exFwd "u" u, SS.constant exFwd (Arith.lit 1)]
    ((exSPowers α).run (ssLibrary α (Fin 2)) j N (exFwd, ρ) = none ∧
      (exSPowers α).run (ssLibrary α (Fin 2)) j N (exRev, ρ) = none) ∨
    ∃ q' p p', (exSPowers α).run (ssLibrary α (Fin 2)) j N (exFwd, ρ) = some (.ok q', p) ∧
      (exSPowers α).run (ssLibrary α (Fin 2)) j N (exRev, ρ) = some (.ok q', p') ∧
      ∀ v, SWF (p.2 v) ∧ SWF (p'.2 v) ∧ SameSS (p.2 v) (p'.2 v) := by
  intro ρ
  have hρ : ∀ v, SWF (ρ v) := fun v => by
    fin_cases v
    · exact (SS.is_var exFwd_ok "u" u).wf
    · exact (SS.is_constant exFwd_ok _).wf
  exact C79_safe _ (fun q k h => (exSPowers_calls q k h).2) N exFwd_ok exRev_ok ρ ρ hρ hρ
    (fun v => ⟨rfl, rfl, fun _ => rfl, fun _ => Iff.rfl⟩) j

/-- The value is what the loop gives on plain numbers, bit for bit. -/
example {α : Type} [CMath α] (hl : CommLaws α) (hq : CmpLaws α) (N j : Nat) (u : α) :
    let ρ := ![SS.var exFwd "u" u, SS.constant exFwd (Arith.lit 1)]
    ((exSPowers α).run (ssLibrary α (Fin 2)) j N (exFwd, ρ) = none ∧
      (exSPowers α).run (splainLibrary α (Fin 2)) j N ![u, Arith.lit 1] = none) ∨
    ∃ q' p σ', (exSPowers α).run (ssLibrary α (Fin 2)) j N (exFwd, ρ) = some (.ok q', p) ∧
      (exSPowers α).run (splainLibrary α (Fin 2)) j N ![u, Arith.lit 1] = some (.ok q', σ') ∧
      ∀ v, SWF (p.2 v) ∧ (p.2 v).f = .ok (σ' v) := by
  intro ρ
  exact C79_path hl hq _ (fun q k h => (exSPowers_calls q k h).1) N exFwd_ok ρ ![u, Arith.lit 1]
    (fun v => by
      fin_cases v
      · exact (SS.is_var exFwd_ok "u" u).wf
      · exact (SS.is_constant exFwd_ok _).wf)
    (fun v => by
      fin_cases v
      · exact SS.f_ok (SS.is_var exFwd_ok "u" u)
      · exact SS.f_ok (SS.is_constant exFwd_ok _)) j

/-- It is also the value on dense jets of two variables, bit for bit. -/
example {α : Type} [CMath α] (hl : CommLaws α) (hq : CmpLaws α) (N j : Nat) (u : α) :
    let ρ := ![SS.var exFwd "u" u, SS.constant exFwd (Arith.lit 1)]
    let ρ' := ![obj exDyn2 2 (varC 0 u), obj exDyn2 2 (constC (Arith.lit 1))]
    ((exSPowers α).run (ssLibrary α (Fin 2)) j N (exFwd, ρ) = none ∧
      ((exSPowers α).map SCall.dense id).run (ddLibrary α (Fin 2) exDyn2 2) j N ρ' = none) ∨
    ∃ q' p τ, (exSPowers α).run (ssLibrary α (Fin 2)) j N (exFwd, ρ) = some (.ok q', p) ∧
      ((exSPowers α).map SCall.dense id).run (ddLibrary α (Fin 2) exDyn2 2) j N ρ' = some (.ok q', τ) ∧
      ∀ v, SWF (p.2 v) ∧ WF exDyn2 2 (τ v) ∧ (p.2 v).f = (τ v).f := by
  intro ρ ρ'
  refine C79_dense hl hq exDyn2_valid (Or.inl rfl) (fun _ => by omega) _
    (fun q k h => (exSPowers_calls q k h).1) N exFwd_ok ρ ρ' (fun v => ?_) (fun v => ?_) (fun v => ?_) j
  · fin_cases v
    · exact (SS.is_var exFwd_ok "u" u).wf
    · exact (SS.is_constant exFwd_ok _).wf
  · fin_cases v <;> exact wf_obj exDyn2_valid.order (Or.inl rfl) _
  · fin_cases v
    · exact SS.f_ok (SS.is_var exFwd_ok "u" u)
    · exact SS.f_ok (SS.is_constant exFwd_ok _)

/-- A step of Newton's method for `v² = 2` that reads value and derivative: `v = SScalar::variable("u", a);
r = v * v - 2; v -= r.f() / r.d("u");` (names: `v` 0, `r` 1). -/
noncomputable def exSStep (a : ℝ) : Caller (SCall XReal (Fin 2)) (Answer XReal) (Nat × XReal) where
  next
    | (0, _) => some (.act (.vari 0 "u" (num a)))
    | (1, _) => some (.act (.assign 1 (.bin .sub (.bin .mul (.var 0) (.var 0)) (.const (num 2)))))
    | (2, _) => some (.f 1)
    | (3, _) => some (.d 1 "u")
    | (4, s) => some (.act (.updS .sub 0 s))
    | _ => none
  after
    | (2, _), .number t => (3, t)
    | (3, s), .number t => (4, s ÷ₛ t)
    | (k, s), _ => (k + 1, s)

theorem exSStep_ends (a : ℝ) (ha : a ≠ 0) (x : String → ℝ) :
    ∃ q' u', (exSStep a).Ends (SPointCall x) (0, num 0) (fun _ _ => 0) q' u' ∧
      ∀ y, u' y 0 = a + (y "u" - x "u") - (a * a - 2) / (2 * a) := by
  let u₁ : (String → ℝ) → Fin 2 → ℝ := fun y => (SStmt.vari 0 "u" a).den x y fun _ => 0
  let u₂ : (String → ℝ) → Fin 2 → ℝ := fun y =>
    (SStmt.assign 1 (.bin .sub (.bin .mul (.var 0) (.var 0)) (.const (2 : ℝ)))).den x y (u₁ y)
  let s := (a * a - 2) / (2 * a)
  let u₃ : (String → ℝ) → Fin 2 → ℝ := fun y => (SStmt.updS .sub 0 s).den x y (u₂ y)
  have e1 : ∀ y, u₂ y 1 = (a + (y "u" - x "u")) * (a + (y "u" - x "u")) - 2 := fun y => by
    simp [u₁, u₂, SStmt.den, setVal, Expr.den, Bin.den]
  have e2 : deriv (fun t => u₂ (Function.update x "u" t) 1) (x "u") = 2 * a := by
    simp only [e1, Function.update_self]
    have h0 : HasDerivAt (fun t : ℝ => a + (t - x "u")) 1 (x "u") :=
      ((hasDerivAt_id _).sub_const _).const_add _
    have := ((h0.mul h0).sub_const 2).deriv
    simp only [sub_self, add_zero, one_mul, mul_one] at this
    rw [two_mul]
    exact this
  refine ⟨(5, num s), u₃, ?_, fun y => ?_⟩
  · refine Caller.Ends.call (k := SCall.act (SStmt.map num (.vari 0 "u" a))) rfl
      (SPointCall.act _ _ trivial) ?_
    refine Caller.Ends.call (k := SCall.act (SStmt.map num (.assign 1 (.bin .sub
      (.bin .mul (.var 0) (.var 0)) (.const (2 : ℝ)))))) rfl (SPointCall.act _ _ ?_) ?_
    · simp [SStmt.Ok, Expr.Dom, Expr.Regular, Bin.dom, Bin.reg]
    refine Caller.Ends.call (k := SCall.f 1) rfl (SPointCall.f 1 u₂) ?_
    refine Caller.Ends.call (k := SCall.d 1 "u") rfl (SPointCall.d 1 "u" u₂) ?_
    rw [e1, e2]
    have h3 : (exSStep a).after
      ((exSStep a).after ((exSStep a).after ((exSStep a).after (0, num 0) .done)
        .done) (.number (num ((a + (x "u" - x "u")) * (a + (x "u" - x "u")) - 2))))
        (.number (num (2 * a))) = (4, num s) := by
      show ((4 : Nat), num ((a + (x "u" - x "u")) * (a + (x "u" - x "u")) - 2) ÷ₛ num (2 * a)) = _
      rw [XReal.div_num (by positivity)]
      simp [s]
    erw [h3]
    refine Caller.Ends.call (k := SCall.act (SStmt.map num (.updS .sub 0 s))) rfl
      (SPointCall.act _ u₂ (by simp [SStmt.Ok])) ?_
    exact .stop rfl
  · simp [u₃, u₂, u₁, s, SStmt.den, setVal, AOp.den]

/-- The new `v` has the value of Newton's step and the derivative 1: numbers that are read have no
derivatives. -/
example (a : ℝ) (ha : a ≠ 0) (ord : Order XReal) (ho : ord.Ok) :
    ∃ q' m p, (∀ j ≥ m, (exSStep a).run (ssLibrary XReal (Fin 2)) j (0, num 0)
        (ord, fun _ => SS.constant ord (num 0)) = some (.ok q', p)) ∧
      (p.2 0).f = .ok (num (a - (a * a - 2) / (2 * a))) ∧ (p.2 0).d "u" = num 1 := by
  obtain ⟨q', u', h, hu⟩ := exSStep_ends a ha fun _ => 0
  obtain ⟨m, p, h1, h2⟩ := C79_exact (exSStep a) ho (fun _ => SS.constant ord (num 0))
    (fun _ => isAt_constant ho 0) h
  refine ⟨q', m, p, h1, ?_, ?_⟩
  · rw [(h2 0).f, hu]
    simp
  · obtain ⟨g, k1, k2⟩ := (h2 0).d "u"
    simp only [hu, Function.update_self] at k2
    have h0 : HasDerivAt (fun t : ℝ => a + (t - 0) - (a * a - 2) / (2 * a)) 1 0 :=
      (((hasDerivAt_id _).sub_const _).const_add _).sub_const _
    rw [k1, k2.unique h0]

/-- Why `*=` of an object with itself is excluded from the theorems on derivatives: with `v` the variable
"u" of value 3, the client `v *= v` stores the derivative 12 instead of 6
  (C43), although nothing fails. -/
example (ord : Order ℝ) (ho : ord.Ok) : ∃ p, (⟨fun q => if q then some (.act (.upd .mul () (.var ())))
      else none, fun _ _ => false⟩ : Caller (SCall ℝ Unit) (Answer ℝ) Bool).run
        (ssLibrary ℝ Unit) 2 true (ord, fun _ => SS.var ord "u" 3) = some (.ok false, p) ∧
      (p.2 ()).f = .ok 9 ∧ (p.2 ()).d "u" = 12 := by
  have hx := SS.is_var ho "u" (3 : ℝ)
  obtain ⟨r, r', h1, _, _, h4, _, _⟩ := C43_violated_self_mul (ord := (ord.sub 0).sub 0) ho _ hx.wf 3
    (SS.f_ok hx)
  have hd : (SS.var ord "u" (3 : ℝ)).d "u" = 1 := by
    have := hx.look "u"
    simp only [SS.d, this]
    exact Nat.cast_one
  have hf : r.f = .ok 9 := by
    simp only [SS.mulAssign, SS.Operand.get, SS.f_ok hx, Res.ok_bind] at h1
    cases h1
    show Res.ok ((3 : ℝ) * 3) = _
    norm_num
  refine ⟨(ord.sub 1, fun _ => r), ?_, hf, ?_⟩
  · simp [Caller.run, ssLibrary, SStmt.run, SStore.operand, AOp.runSS, Res.ok_bind, h1, SStore.put,
      Answer.of]
  · show r.d "u" = 12
    rw [h4, hd]
    norm_num

end HJ
