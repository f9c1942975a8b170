import Verif.Spec.SThreads
import Verif.Props.SProgram
import Verif.Props.Threads

/-!
# C81: threads on sparse scalars

As in C74, `own v = some t`: the object `v` belongs to thread `t`; `own v = none`: it is shared and only
read.  The iteration orders of the hash tables may be any others than those when a thread runs alone.
-/

namespace HJ

open SMap
open XReal (num)

variable {α V I : Type} [CMath α]

theorem evalSS_congr (ord : Order α) {ρ ρ' : V → SS α} (e : Expr α V)
    (h : ∀ v, e.Mentions v → ρ v = ρ' v) : e.evalSS ord ρ = e.evalSS ord ρ' := by
  induction e generalizing ord with
  | var v => simp only [Expr.evalSS, h v rfl]
  | const s => rfl
  | neg e ih => simp only [Expr.evalSS, ih _ h]
  | abs e ih => simp only [Expr.evalSS, ih _ h]
  | fn φ e ih => simp only [Expr.evalSS, ih _ h]
  | bin o e₁ e₂ ih₁ ih₂ =>
    simp only [Expr.evalSS, ih₁ _ fun v hv => h v (.inl hv), ih₂ _ fun v hv => h v (.inr hv)]
  | sbin o e s ih => simp only [Expr.evalSS, ih _ h]
  | hypot3 e₁ e₂ e₃ ih₁ ih₂ ih₃ =>
    simp only [Expr.evalSS, ih₁ _ fun v hv => h v (.inl hv), ih₂ _ fun v hv => h v (.inr (.inl hv)),
      ih₃ _ fun v hv => h v (.inr (.inr hv))]

theorem scond_congr (ord : Order α) {ρ ρ' : SStore α V} (b : Cond α V)
    (h : ∀ v, b.Reads v → ρ v = ρ' v) : b.runSS ord ρ = b.runSS ord ρ' := by
  cases b with
  | cmp op e₁ e₂ =>
    simp only [Cond.runSS, evalSS_congr _ e₁ fun v hv => h v (.inl hv),
      evalSS_congr _ e₂ fun v hv => h v (.inr hv)]
  | cmpS op e s => simp only [Cond.runSS, evalSS_congr _ e h]
  | sCmp op s e => simp only [Cond.runSS, evalSS_congr _ e h]

variable [DecidableEq V]

omit [CMath α] in
theorem sput_congr {ρ ρ' : SStore α V} (t : V) (r : Res (SS α)) (h : ρ t = ρ' t) :
    (ρ.put t r).1 = (ρ'.put t r).1 ∧ (ρ.put t r).2 t = (ρ'.put t r).2 t := by
  cases r <;> simp [SStore.put, h]

omit [CMath α] in
theorem sput_other (ρ : SStore α V) (t : V) (r : Res (SS α)) (v : V) (h : v ≠ t) :
    (ρ.put t r).2 v = ρ v := by
  cases r <;> simp [SStore.put, h]

theorem soperand_congr (ord : Order α) {ρ ρ' : SStore α V} (t : V) (e : Expr α V)
    (h : ∀ v, e.Mentions v → ρ v = ρ' v) : ρ.operand ord t e = ρ'.operand ord t e := by
  cases e with
  | var s => simp only [SStore.operand, h s rfl]
  | _ => simp only [SStore.operand, evalSS_congr ord _ h]

theorem SStmt.run_congr (ord : Order α) {ρ ρ' : SStore α V} (s : SStmt α V)
    (h0 : ρ s.target = ρ' s.target) (h : ∀ v, s.Reads v → ρ v = ρ' v) :
    (s.run ord ρ).1 = (s.run ord ρ').1 ∧
      (s.run ord ρ).2 s.target = (s.run ord ρ').2 s.target := by
  cases s with
  | assign t e =>
    simp only [SStmt.target] at h0
    cases e with
    | var v =>
      have := h v rfl
      simp only [SStmt.run, SStmt.target, this]
      exact sput_congr t _ h0
    | _ =>
      simp only [SStmt.run, SStmt.target, evalSS_congr ord _ h]
      exact sput_congr t _ h0
  | vari t k s => exact sput_congr t _ h0
  | make t s d => exact sput_congr t _ h0
  | upd o t e =>
    simp only [SStmt.target] at h0
    simp only [SStmt.run, SStmt.target, soperand_congr _ t e h, h0]
    exact sput_congr t _ h0
  | updS o t s =>
    simp only [SStmt.target] at h0
    simp only [SStmt.run, SStmt.target, h0]
    exact sput_congr t _ h0

theorem SStmt.run_other (ord : Order α) (ρ : SStore α V) (s : SStmt α V) (v : V) (h : v ≠ s.target) :
    (s.run ord ρ).2 v = ρ v := by
  cases s with
  | assign t e => cases e <;> (simp only [SStmt.run]; exact sput_other _ _ _ _ h)
  | _ => simp only [SStmt.run]; exact sput_other _ _ _ _ h

/-- One call of thread `t`, in memories in which the objects it sees cannot be told apart. -/
theorem scall_apart {own : V → Option I} {t : I} {k : SCall α V} (hk : k.Stays own t) (hd : k.DictOk)
    {ord ord' : Order α} (ho : ord.Ok) (ho' : ord'.Ok) {ρ ρ' : SStore α V}
    (hρ : ∀ v, SWF (ρ v)) (hρ' : ∀ v, SWF (ρ' v)) (h : ∀ v, Sees own t v → SameSS (ρ v) (ρ' v)) :
    ∃ r p p', ssLibrary α V k (ord, ρ) = (.ok r, p) ∧ ssLibrary α V k (ord', ρ') = (.ok r, p') ∧
      p.1.Ok ∧ p'.1.Ok ∧ (∀ v, SWF (p.2 v)) ∧ (∀ v, SWF (p'.2 v)) ∧
      (∀ v, Sees own t v → SameSS (p.2 v) (p'.2 v)) ∧ ∀ v, own v ≠ some t → p.2 v = ρ v := by
  classical
  have refl : ∀ x : SS α, SameSS x x := fun x => ⟨rfl, rfl, fun _ => rfl, fun _ => Iff.rfl⟩
  let μ : SStore α V := fun v => if Sees own t v then ρ v else ρ' v
  have hμ : ∀ v, Sees own t v → ρ v = μ v := fun v hv => by simp only [μ, hv, if_true]
  have ha : ∀ v, SAlike (μ v) (ρ' v) := fun v => by
    by_cases hv : Sees own t v
    · rw [← hμ v hv]; exact ⟨hρ v, hρ' v, h v hv⟩
    · simp only [μ, hv, if_false]; exact ⟨hρ' v, hρ' v, refl _⟩
  cases k with
  | act s =>
    obtain ⟨τ, τ', h1, h2, h3⟩ := sstep_alike (ho.sub 0) (ho'.sub 0) ha s hd
    obtain ⟨e1, e2⟩ := s.run_congr (ord.sub 0) (hμ _ (.inl hk.1)) fun v hv => hμ v (hk.2 v hv)
    have e3 := s.run_other (ord.sub 0) ρ
    have e4 := s.run_other (ord.sub 0) μ
    rcases hr : s.run (ord.sub 0) ρ with ⟨a, τ₀⟩
    rw [hr, h1] at e1 e2
    rw [hr] at e3
    rw [h1] at e4
    dsimp only at e1 e2 e3 e4
    subst e1
    refine ⟨.done, (ord.sub 1, τ₀), (ord'.sub 1, τ'), by simp only [ssLibrary, hr, Answer.of],
      by simp only [ssLibrary, h2, Answer.of], ho.sub 1, ho'.sub 1, fun v => ?_, fun v => (h3 v).2.1,
      fun v hv => ?_, fun v hv => e3 v fun e => hv (e ▸ hk.1)⟩
    · by_cases hv : v = s.target
      · subst hv
        simp only [e2]
        exact (h3 _).1
      · simp only [e3 v hv]
        exact hρ v
    · by_cases hvt : v = s.target
      · subst hvt
        simp only [e2]
        exact (h3 _).2.2
      · have := (h3 v).2.2
        rw [e4 v hvt, ← hμ v hv] at this
        simp only [e3 v hvt]
        exact this
  | ask b =>
    obtain ⟨r, h1, h2⟩ := cond_alike (ho.sub 2) (ho'.sub 2) ha b
    rw [← scond_congr (ord.sub 2) b fun v hv => hμ v (hk v hv)] at h1
    exact ⟨.truth r, (ord, ρ), (ord', ρ'), by simp only [ssLibrary, h1, Answer.of],
      by simp only [ssLibrary, h2, Answer.of], ho, ho', hρ, hρ', h, fun _ _ => rfl⟩
  | f v =>
    obtain ⟨w, h1, h2⟩ := (ha v).f
    rw [← hμ v hk] at h1
    exact ⟨.number w, (ord, ρ), (ord', ρ'), by simp only [ssLibrary, h1, Answer.of],
      by simp only [ssLibrary, h2, Answer.of], ho, ho', hρ, hρ', h, fun _ _ => rfl⟩
  | d v k =>
    exact ⟨.number ((ρ v).d k), (ord, ρ), (ord', ρ'), rfl,
      by simp only [ssLibrary, ← (h v hk).d k], ho, ho', hρ, hρ', h, fun _ _ => rfl⟩
  | size v m =>
    exact ⟨.truth (decide ((ρ v).size = m)), (ord, ρ), (ord', ρ'), rfl,
      by simp only [ssLibrary, ← (h v hk).size], ho, ho', hρ, hρ', h, fun _ _ => rfl⟩

variable [DecidableEq I] {Q : I → Type}

theorem sthreads_apart (cl : (t : I) → Caller (SCall α V) (Answer α) (Q t)) (own : V → Option I)
    (hs : ∀ t q k, (cl t).next q = some k → k.Stays own t ∧ k.DictOk) (l : List I)
    (q : (t : I) → Q t) {ord : Order α} (ho : ord.Ok) (ρ : SStore α V) (hρ : ∀ v, SWF (ρ v))
    (st : I → Order α × SStore α V) (hst : ∀ t, (st t).1.Ok ∧ (∀ v, SWF ((st t).2 v)) ∧
      ∀ v, Sees own t v → SameSS (ρ v) ((st t).2 v)) :
    ∃ q' p, runThreads cl (ssLibrary α V) l q (ord, ρ) = (.ok q', p) ∧ p.1.Ok ∧ (∀ v, SWF (p.2 v)) ∧
      (∀ v, own v = none → p.2 v = ρ v) ∧
      ∀ t, ∃ p', (cl t).steps (ssLibrary α V) (l.count t) (q t) (st t) = (.ok (q' t), p') ∧
        (∀ v, SWF (p'.2 v)) ∧ ∀ v, Sees own t v → SameSS (p.2 v) (p'.2 v) := by
  induction l generalizing q ord ρ st with
  | nil => exact ⟨q, (ord, ρ), rfl, ho, hρ, fun _ _ => rfl, fun t => ⟨st t, rfl, (hst t).2⟩⟩
  | cons t₀ l ih =>
    have hstep : ∃ a p p', (cl t₀).step (ssLibrary α V) (q t₀) (ord, ρ) = (.ok a, p) ∧
        (cl t₀).step (ssLibrary α V) (q t₀) (st t₀) = (.ok a, p') ∧
        p.1.Ok ∧ p'.1.Ok ∧ (∀ v, SWF (p.2 v)) ∧ (∀ v, SWF (p'.2 v)) ∧
        (∀ v, Sees own t₀ v → SameSS (p.2 v) (p'.2 v)) ∧ ∀ v, own v ≠ some t₀ → p.2 v = ρ v := by
      cases hn : (cl t₀).next (q t₀) with
      | none =>
        exact ⟨q t₀, (ord, ρ), st t₀, by simp only [Caller.step, hn], by simp only [Caller.step, hn], ho,
          (hst t₀).1, hρ, (hst t₀).2.1, (hst t₀).2.2, fun _ _ => rfl⟩
      | some k =>
        obtain ⟨r, p, p', h1, h2, h3⟩ := scall_apart (hs _ _ k hn).1 (hs _ _ k hn).2 ho (hst t₀).1 hρ
          (hst t₀).2.1 (hst t₀).2.2
        exact ⟨(cl t₀).after (q t₀) r, p, p', by simp only [Caller.step, hn, h1],
          by simp only [Caller.step, hn, h2], h3⟩
    obtain ⟨a, ⟨ord₁, ρ₁⟩, p', e1, e2, o1, o2, w1, w2, hsame, hother⟩ := hstep
    obtain ⟨q', p, k1, k2, k3, k4, k5⟩ := ih (Function.update q t₀ a) o1 ρ₁ w1
      (Function.update st t₀ p') (fun t => by
        by_cases ht : t = t₀
        · subst ht
          rw [Function.update_self]
          exact ⟨o2, w2, hsame⟩
        · rw [Function.update_of_ne ht]
          refine ⟨(hst t).1, (hst t).2.1, fun v hv => ?_⟩
          have : ρ₁ v = ρ v := hother v (by
            rcases hv with hv | hv
            · rw [hv]; exact fun e => ht (Option.some.inj e)
            · rw [hv]; exact Option.some_ne_none _ |>.symm)
          rw [this]
          exact (hst t).2.2 v hv)
    refine ⟨q', p, by simp only [runThreads, e1, k1], k2, k3,
      fun v hv => (k4 v hv).trans (hother v (by rw [hv]; exact Option.some_ne_none _ |>.symm)),
      fun t => ?_⟩
    by_cases ht : t = t₀
    · subst ht
      obtain ⟨p'', j1, j2⟩ := k5 t
      rw [Function.update_self, Function.update_self] at j1
      exact ⟨p'', by simp only [List.count_cons_self, Caller.steps, e2, j1], j2⟩
    · obtain ⟨p'', j1, j2⟩ := k5 t
      rw [Function.update_of_ne ht, Function.update_of_ne ht] at j1
      exact ⟨p'', by rw [List.count_cons_of_ne (Ne.symm ht), j1], j2⟩

/-- **C81.**  Threads on sparse scalars that write only their own objects and read only their own and
shared ones: whatever the schedule and the iteration orders, nothing fails, every thread has made as many
calls as it had turns and is in the state as if it were alone - with any other iteration orders - and its
objects cannot be told apart from those it would have alone; shared objects are unchanged. -/
theorem C81_threads (cl : (t : I) → Caller (SCall α V) (Answer α) (Q t)) (own : V → Option I)
    (hs : ∀ t q k, (cl t).next q = some k → k.Stays own t ∧ k.DictOk) (l : List I)
    (q : (t : I) → Q t) {ord : Order α} (ho : ord.Ok) (ord' : I → Order α) (ho' : ∀ t, (ord' t).Ok)
    (ρ : SStore α V) (hρ : ∀ v, SWF (ρ v)) :
    ∃ q' p, runThreads cl (ssLibrary α V) l q (ord, ρ) = (.ok q', p) ∧ (∀ v, SWF (p.2 v)) ∧
      (∀ v, own v = none → p.2 v = ρ v) ∧
      ∀ t, ∃ p', (cl t).steps (ssLibrary α V) (l.count t) (q t) (ord' t, ρ) = (.ok (q' t), p') ∧
        ∀ v, own v = some t → SameSS (p.2 v) (p'.2 v) := by
  obtain ⟨q', p, h1, -, h2, h3, h4⟩ := sthreads_apart cl own hs l q ho ρ hρ (fun t => (ord' t, ρ))
    fun t => ⟨ho' t, hρ, fun v _ => ⟨rfl, rfl, fun _ => rfl, fun _ => Iff.rfl⟩⟩
  refine ⟨q', p, h1, h2, h3, fun t => ?_⟩
  obtain ⟨p', k1, -, k2⟩ := h4 t
  exact ⟨p', k1, fun v hv => k2 v (.inl hv)⟩

/-- **C81, ending.**  If every thread ends alone, then all of them end under every schedule that gives them
enough turns, in the same states and with objects that cannot be told apart, whatever the iteration
orders.  So everything that is known of client code alone (C79, C80) holds for threads. -/
theorem C81_ends (cl : (t : I) → Caller (SCall α V) (Answer α) (Q t)) (own : V → Option I)
    (hs : ∀ t q k, (cl t).next q = some k → k.Stays own t ∧ k.DictOk)
    (q q' : (t : I) → Q t) {ord : Order α} (ho : ord.Ok) (ord' : I → Order α) (ho' : ∀ t, (ord' t).Ok)
    (ρ : SStore α V) (hρ : ∀ v, SWF (ρ v)) (p' : I → Order α × SStore α V) (j : I → Nat)
    (h : ∀ t, (cl t).run (ssLibrary α V) (j t) (q t) (ord' t, ρ) = some (.ok (q' t), p' t))
    (l : List I) (hl : ∀ t, j t ≤ l.count t) :
    ∃ p, runThreads cl (ssLibrary α V) l q (ord, ρ) = (.ok q', p) ∧ (∀ v, own v = none → p.2 v = ρ v) ∧
      ∀ t v, own v = some t → SameSS (p.2 v) ((p' t).2 v) := by
  have hst := fun t => (Caller.run_steps (h t)).2 _ (hl t)
  obtain ⟨r, p, h1, -, h3, h4⟩ := C81_threads cl own hs l q ho ord' ho' ρ hρ
  have hr : r = q' := funext fun t => by
    obtain ⟨p'', k1, -⟩ := h4 t
    rw [hst t] at k1
    simp only [Prod.mk.injEq, Res.ok.injEq] at k1
    exact k1.1.symm
  subst hr
  refine ⟨p, h1, h3, fun t v hv => ?_⟩
  obtain ⟨p'', k1, k2⟩ := h4 t
  rw [hst t] at k1
  simp only [Prod.mk.injEq, true_and] at k1
  rw [k1]
  exact k2 v hv

/-- **C81, schedules.**  Two schedules under which all threads are done, with any iteration orders, give
the same states and objects that cannot be told apart. -/
theorem C81_schedules (cl : (t : I) → Caller (SCall α V) (Answer α) (Q t)) (own : V → Option I)
    (hs : ∀ t q k, (cl t).next q = some k → k.Stays own t ∧ k.DictOk)
    (q q₁ q₂ : (t : I) → Q t) {ord₁ ord₂ : Order α} (ho₁ : ord₁.Ok) (ho₂ : ord₂.Ok)
    (ρ : SStore α V) (hρ : ∀ v, SWF (ρ v)) (p₁ p₂ : Order α × SStore α V) (l₁ l₂ : List I)
    (h₁ : runThreads cl (ssLibrary α V) l₁ q (ord₁, ρ) = (.ok q₁, p₁))
    (h₂ : runThreads cl (ssLibrary α V) l₂ q (ord₂, ρ) = (.ok q₂, p₂))
    (d₁ : ∀ t, (cl t).next (q₁ t) = none) (d₂ : ∀ t, (cl t).next (q₂ t) = none) :
    q₁ = q₂ ∧ ∀ v, SameSS (p₁.2 v) (p₂.2 v) := by
  obtain ⟨r₁, s₁, a1, -, a3, a4⟩ := C81_threads cl own hs l₁ q ho₁ (fun _ => ord₁) (fun _ => ho₁) ρ hρ
  obtain ⟨r₂, s₂, b1, -, b3, b4⟩ := C81_threads cl own hs l₂ q ho₂ (fun _ => ord₁) (fun _ => ho₁) ρ hρ
  rw [h₁] at a1
  cases a1
  rw [h₂] at b1
  cases b1
  have key : ∀ t, q₁ t = q₂ t ∧ ∀ v, own v = some t → SameSS (p₁.2 v) (p₂.2 v) := by
    intro t
    obtain ⟨u₁, c1, c2⟩ := a4 t
    obtain ⟨u₂, e1, e2⟩ := b4 t
    have f1 := Caller.steps_more c1 (d₁ t) (le_max_left (l₁.count t) (l₂.count t))
    have f2 := Caller.steps_more e1 (d₂ t) (le_max_right (l₁.count t) (l₂.count t))
    rw [f1] at f2
    simp only [Prod.mk.injEq, Res.ok.injEq] at f2
    refine ⟨f2.1, fun v hv => ?_⟩
    have g1 := c2 v hv
    rw [f2.2] at g1
    have g2 := e2 v hv
    exact ⟨g1.f.trans g2.f.symm, g1.size.trans g2.size.symm, fun k => (g1.d k).trans (g2.d k).symm,
      fun k => (g1.names k).trans (g2.names k).symm⟩
  refine ⟨funext fun t => (key t).1, fun v => ?_⟩
  cases hv : own v with
  | none =>
    rw [a3 v hv, b3 v hv]
    exact ⟨rfl, rfl, fun _ => rfl, fun _ => Iff.rfl⟩
  | some t => exact (key t).2 v hv

section examples

/-- Thread `t` multiplies its object `m` times by the shared `u`: `for (; m > 0; --m) y_t *= u;`
(names: `none` is `u`, `some t` is `y_t`). -/
def exSWorker (α : Type) (t : Bool) : Caller (SCall α (Option Bool)) (Answer α) Nat where
  next m := if m = 0 then none else some (.act (.upd .mul (some t) (.var none)))
  after m _ := m - 1

theorem exSWorker_stays {α : Type} (t : Bool) (q : Nat) (k : SCall α (Option Bool))
    (h : (exSWorker α t).next q = some k) : k.Stays id t ∧ k.DictOk := by
  simp only [exSWorker] at h
  split at h
  · cases h
  · cases h
    refine ⟨?_, trivial⟩
    simp [SCall.Stays, SStmt.target, SStmt.Reads, Expr.Mentions, Sees]

/-- Two workers under any schedule do what they do alone. -/
example {α : Type} [CMath α] (l : List Bool) (m : Bool → Nat) (u : α) :
    let ρ : SStore α (Option Bool) := fun v => if v = none then SS.var exFwd "u" u else
      SS.constant exFwd (Arith.lit 1)
    ∃ m' p, runThreads (exSWorker α) (ssLibrary α (Option Bool)) l m (exFwd, ρ) = (.ok m', p) ∧
      p.2 none = SS.var exFwd "u" u ∧
      ∀ t, ∃ p', (exSWorker α t).steps (ssLibrary α _) (l.count t) (m t) (exRev, ρ) =
        (.ok (m' t), p') ∧ SameSS (p.2 (some t)) (p'.2 (some t)) := by
  intro ρ
  obtain ⟨m', p, h1, -, h3, h4⟩ := C81_threads (exSWorker α) id
    (fun t q k h => exSWorker_stays t q k h) l m exFwd_ok (fun _ => exRev) (fun _ => exRev_ok) ρ
    (fun v => by
      cases v with
      | none => exact (SS.is_var exFwd_ok "u" u).wf
      | some t => exact (SS.is_constant exFwd_ok _).wf)
  refine ⟨m', p, h1, h3 none rfl, fun t => ?_⟩
  obtain ⟨p', k1, k2⟩ := h4 t
  exact ⟨p', k1, k2 _ rfl⟩

theorem exSWorker_ends (x y : String → ℝ) (t : Bool) (m : Nat) (σ : Option Bool → ℝ) :
    ∃ σ', (exSWorker ℝ t).Ends (SRealCall x y) m σ 0 σ' ∧
      (y = x → (exSWorker ℝ t).Ends (SSureCall x) m σ 0 σ') ∧
      σ' (some t) = σ (some t) * σ none ^ m := by
  induction m generalizing σ with
  | zero => exact ⟨σ, .stop (by simp [exSWorker]), fun _ => .stop (by simp [exSWorker]), by simp⟩
  | succ m ih =>
    obtain ⟨σ', h, h', e⟩ := ih ((SStmt.upd .mul (some t) (.var none)).den x y σ)
    refine ⟨σ', .call (k := .act (.upd .mul (some t) (.var none))) (r := .done) (by simp [exSWorker])
      (.act _ _) (by simpa only [exSWorker, Nat.add_sub_cancel] using h), fun hy => ?_, ?_⟩
    · subst hy
      exact Caller.Ends.call (k := SCall.act (.upd .mul (some t) (.var none))) (r := .done)
        (by simp [exSWorker])
        (SSureCall.act _ _ (by simp [SStmt.Ok, Expr.Dom, Expr.Regular]))
        (by simpa only [exSWorker, Nat.add_sub_cancel] using h' rfl)
    · rw [e]
      simp [SStmt.den, setVal, AOp.den, Expr.den]
      ring

/-- With enough turns, the two workers end with value and derivative of `u^(m false)` and `u^(m true)`,
whatever the schedule and the iteration orders. -/
example (m : Bool → Nat) (x : String → ℝ) (ord : Order XReal) (ho : ord.Ok) :
    ∃ N, ∀ l : List Bool, (∀ t, N ≤ l.count t) →
    ∃ p, runThreads (fun t => (exSWorker ℝ t).map (SCall.map num) (Answer.map XReal.real))
        (ssLibrary XReal (Option Bool)) l m
        (ord, fun v => if v = none then SS.var ord "u" (num (x "u")) else SS.constant ord (num 1)) =
          (.ok fun _ => 0, p) ∧
      ∀ t, (p.2 (some t)).f = .ok (num (x "u" ^ m t)) ∧
        (p.2 (some t)).d "u" = num (m t * x "u" ^ (m t - 1)) := by
  let ρ : SStore XReal (Option Bool) := fun v =>
    if v = none then SS.var ord "u" (num (x "u")) else SS.constant ord (num 1)
  let u : (String → ℝ) → Option Bool → ℝ := fun y v => if v = none then x "u" + (y "u" - x "u") else 1
  have hρ : ∀ v, SIsAt x (ρ v) fun y => u y v := fun v => by
    cases v with
    | none => exact isAt_var ho "u" (x "u")
    | some t => exact isAt_constant ho 1
  have hd : ∀ t, ∃ j p, (∀ i ≥ j, ((exSWorker ℝ t).map (SCall.map num) (Answer.map XReal.real)).run
        (ssLibrary XReal (Option Bool)) i (m t) (exFwd, ρ) = some (.ok 0, p)) ∧
      SIsAt x (p.2 (some t)) (fun y => y "u" ^ m t) := by
    intro t
    choose U hU hU' hU1 using fun y : String → ℝ => exSWorker_ends x y t (m t) (u y)
    obtain ⟨_, j, p, h1, h2⟩ := C79_no_ties (exSWorker ℝ t) (q := m t) (q' := 0) u (σ' := U x)
      exFwd_ok ρ hρ (hU' x rfl)
    obtain ⟨-, h3⟩ := h2 U (Filter.Eventually.of_forall fun y => ⟨0, hU y⟩)
    refine ⟨j, p, h1, ?_⟩
    have e : (fun y => U y (some t)) = fun y : String → ℝ => y "u" ^ m t := funext fun y => by
      rw [hU1 y]; simp [u]
    exact e ▸ h3 (some t)
  choose j p' h1 h2 using hd
  refine ⟨max (j false) (j true), fun l hl => ?_⟩
  obtain ⟨p, e1, -, e3⟩ := C81_ends
    (fun t => (exSWorker ℝ t).map (SCall.map num) (Answer.map XReal.real)) id
    (fun t q k h => by
      simp only [Caller.map, exSWorker] at h
      split at h
      · cases h
      · cases h
        refine ⟨?_, trivial⟩
        simp [SCall.map, SStmt.map, SCall.Stays, SStmt.target, SStmt.Reads, Expr.map, Expr.Mentions,
          Sees])
    m (fun _ => 0) ho (fun _ => exFwd) (fun _ => exFwd_ok) ρ (fun v => (hρ v).wf) p' j
    (fun t => h1 t _ le_rfl) l
    (fun t => le_trans (by cases t <;> simp) (hl t))
  refine ⟨p, e1, fun t => ?_⟩
  have hs := e3 t (some t) rfl
  refine ⟨hs.f.trans (h2 t).f, ?_⟩
  obtain ⟨g, k1, k2⟩ := (h2 t).d "u"
  rw [hs.d "u", k1]
  simp only [Function.update_self] at k2
  rw [k2.unique (hasDerivAt_pow (m t) (x "u"))]

/-- Two orders of the turns. -/
example {α : Type} [CMath α] (ρ : SStore α (Option Bool)) (hρ : ∀ v, SWF (ρ v))
    (p₁ p₂ : Order α × SStore α (Option Bool))
    (h₁ : runThreads (exSWorker α) (ssLibrary α (Option Bool)) [false, false, true, true] (fun _ => 2)
      (exFwd, ρ) = (.ok fun _ => 0, p₁))
    (h₂ : runThreads (exSWorker α) (ssLibrary α (Option Bool)) [true, false, true, false] (fun _ => 2)
      (exRev, ρ) = (.ok fun _ => 0, p₂)) : ∀ v, SameSS (p₁.2 v) (p₂.2 v) :=
  (C81_schedules (exSWorker α) id (fun t q k h => exSWorker_stays t q k h) _ _ _ exFwd_ok exRev_ok ρ hρ
    _ _ _ _ h₁ h₂ (fun _ => by simp [exSWorker]) (fun _ => by simp [exSWorker])).2

end examples

end HJ
