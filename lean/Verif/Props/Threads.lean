import Verif.Proofs.Threads
import Verif.Props.Caller

/-!
# C74: threads that share no objects but read-only ones do not influence each other

`own v = some t`: the object `v` belongs to thread `t`; `own v = none`: it is shared.
-/

namespace HJ

open XReal (num)

variable {α V I : Type} [CMath α] [DecidableEq V] [DecidableEq I] {c : Cfg} {n : Nat} {Q : I → Type}

/-- For every schedule, every thread has made as many calls as it had turns and is in the state, and its
objects are, as if it were alone; shared objects are unchanged.  If something fails, then a thread fails
in the same way alone. -/
theorem C74_threads (c : Cfg) (n : Nat) (cl : (t : I) → Caller (Call α V) (Answer α) (Q t))
    (own : V → Option I) (hs : ∀ t q k, (cl t).next q = some k → k.Stays own t) (l : List I)
    (q : (t : I) → Q t) (ρ : Store α V) :
    (∃ q' ρ', runThreads cl (ddLibrary α V c n) l q ρ = (.ok q', ρ') ∧ (∀ v, own v = none → ρ' v = ρ v) ∧
      ∀ t, ((cl t).steps (ddLibrary α V c n) (l.count t) (q t) ρ).1 = .ok (q' t) ∧
        ∀ v, own v = some t → ρ' v = ((cl t).steps (ddLibrary α V c n) (l.count t) (q t) ρ).2 v) ∨
    ∃ t, (runThreads cl (ddLibrary α V c n) l q ρ).1.outcome ≠ .ok () ∧
      (runThreads cl (ddLibrary α V c n) l q ρ).1.outcome =
        ((cl t).steps (ddLibrary α V c n) (l.count t) (q t) ρ).1.outcome :=
  runThreads_alone (fun t q k hk => (hs t q k hk).confined c n) l q ρ

omit [DecidableEq I] in
theorem steps_safe (hv : c.Valid) (hf : c.tsize = -1 ∨ c.tsize = n) {P : Type}
    (cl : Caller (Call α V) (Answer α) P)
    (hcl : ∀ q k, cl.next q = some k → k.Valid (Stmt.Plain c n) c.order n) (j : Nat) (q : P)
    (ρ : Store α V) (hρ : ∀ v, WF c n (ρ v)) :
    ∃ q' ρ', cl.steps (ddLibrary α V c n) j q ρ = (.ok q', ρ') ∧ ∀ v, WF c n (ρ' v) := by
  induction j generalizing q ρ with
  | zero => exact ⟨q, ρ, rfl, hρ⟩
  | succ j ih =>
    cases hn : cl.next q with
    | none =>
      simp only [Caller.steps, Caller.step, hn]
      exact ih q ρ hρ
    | some k =>
      obtain ⟨r, ρ', h1, h2⟩ := call_safe hv hf k ρ (hcl q k hn) hρ
      simp only [Caller.steps, Caller.step, hn, h1]
      exact ih _ ρ' h2

/-- With valid calls nothing fails, whatever the schedule. -/
theorem C74_safe (hv : c.Valid) (hf : c.tsize = -1 ∨ c.tsize = n)
    (cl : (t : I) → Caller (Call α V) (Answer α) (Q t)) (own : V → Option I)
    (hs : ∀ t q k, (cl t).next q = some k → k.Stays own t ∧ k.Valid (Stmt.Plain c n) c.order n)
    (l : List I) (q : (t : I) → Q t) (ρ : Store α V) (hρ : ∀ v, WF c n (ρ v)) :
    ∃ q' ρ', runThreads cl (ddLibrary α V c n) l q ρ = (.ok q', ρ') ∧ (∀ v, WF c n (ρ' v)) ∧
      (∀ v, own v = none → ρ' v = ρ v) ∧
      ∀ t, ((cl t).steps (ddLibrary α V c n) (l.count t) (q t) ρ).1 = .ok (q' t) ∧
        ∀ v, own v = some t → ρ' v = ((cl t).steps (ddLibrary α V c n) (l.count t) (q t) ρ).2 v := by
  have hst := fun t => steps_safe hv hf (cl t) (fun q k h => (hs t q k h).2) (l.count t) (q t) ρ hρ
  rcases C74_threads c n cl own (fun t q k h => (hs t q k h).1) l q ρ with ⟨q', ρ', e1, e2, e3⟩ |
    ⟨t, e1, e2⟩
  · refine ⟨q', ρ', e1, fun v => ?_, e2, e3⟩
    cases ho : own v with
    | none => rw [e2 v ho]; exact hρ v
    | some t =>
      obtain ⟨_, _, h1, h2⟩ := hst t
      rw [(e3 t).2 v ho, h1]
      exact h2 v
  · obtain ⟨_, _, h1, -⟩ := hst t
    rw [h1] at e2
    exact absurd e2 e1

omit [CMath α] [DecidableEq V] [DecidableEq I] in
theorem Caller.steps_done {C R T P : Type} {cl : Caller C R P} {L : Library C R T} {q : P}
    (h : cl.next q = none) (j : Nat) (st : T) : cl.steps L j q st = (.ok q, st) := by
  induction j with
  | zero => rfl
  | succ j ih => simp only [Caller.steps, Caller.step, h, ih]

theorem Caller.steps_more {C R T P : Type} {cl : Caller C R P} {L : Library C R T} {q q' : P}
    {st st' : T}
    {j : Nat} (h : cl.steps L j q st = (.ok q', st')) (hq : cl.next q' = none) {k : Nat} (hk : j ≤ k) :
    cl.steps L k q st = (.ok q', st') := by
  induction j generalizing q st k with
  | zero =>
    cases h
    exact Caller.steps_done hq k _
  | succ j ih =>
    obtain ⟨k, rfl⟩ : ∃ i, k = i + 1 := ⟨k - 1, by omega⟩
    simp only [Caller.steps] at h ⊢
    rcases hs : cl.step L q st with ⟨r, s⟩
    rw [hs] at h
    cases r with
    | ok p => exact ih h (by omega)
    | _ => cases h

theorem Caller.run_steps {C R T P : Type} {cl : Caller C R P} {L : Library C R T} {q q' : P} {st st' : T}
    {j : Nat} (h : cl.run L j q st = some (.ok q', st')) :
    cl.next q' = none ∧ ∀ k ≥ j, cl.steps L k q st = (.ok q', st') := by
  induction j generalizing q st with
  | zero => cases h
  | succ j ih =>
    simp only [Caller.run] at h
    cases hn : cl.next q with
    | none =>
      rw [hn] at h
      cases h
      exact ⟨hn, fun k _ => Caller.steps_done hn k _⟩
    | some a =>
      rw [hn] at h
      dsimp only at h
      rcases hL : L a st with ⟨r, s⟩
      rw [hL] at h
      cases r with
      | ok r =>
        obtain ⟨h1, h2⟩ := ih h
        refine ⟨h1, fun k hk => ?_⟩
        obtain ⟨k, rfl⟩ : ∃ i, k = i + 1 := ⟨k - 1, by omega⟩
        simp only [Caller.steps, Caller.step, hn, hL]
        exact h2 k (by omega)
      | _ => cases h

/-- If every thread ends alone, then all of them end under every schedule that gives them enough turns,
in the same states and with the same objects.  So everything that is known of client code alone (C73)
holds for threads. -/
theorem C74_ends (c : Cfg) (n : Nat) (cl : (t : I) → Caller (Call α V) (Answer α) (Q t))
    (own : V → Option I) (hs : ∀ t q k, (cl t).next q = some k → k.Stays own t)
    (q q' : (t : I) → Q t) (ρ : Store α V) (ρ' : I → Store α V) (j : I → Nat)
    (h : ∀ t, (cl t).run (ddLibrary α V c n) (j t) (q t) ρ = some (.ok (q' t), ρ' t))
    (l : List I) (hl : ∀ t, j t ≤ l.count t) :
    ∃ r, runThreads cl (ddLibrary α V c n) l q ρ = (.ok q', r) ∧ (∀ v, own v = none → r v = ρ v) ∧
      ∀ t v, own v = some t → r v = ρ' t v := by
  have hst := fun t => (Caller.run_steps (h t)).2 _ (hl t)
  rcases C74_threads c n cl own hs l q ρ with ⟨p, r, e1, e2, e3⟩ | ⟨t, e1, e2⟩
  · have : p = q' := funext fun t => by
      have := (e3 t).1
      rw [hst t] at this
      exact (Res.ok.inj this).symm
    subst this
    refine ⟨r, e1, e2, fun t v hv => ?_⟩
    rw [(e3 t).2 v hv, hst t]
  · rw [hst t] at e2
    exact absurd e2 e1

/-- Two schedules after which all threads are done give the same states and the same objects. -/
theorem C74_schedules (c : Cfg) (n : Nat) (cl : (t : I) → Caller (Call α V) (Answer α) (Q t))
    (own : V → Option I) (hs : ∀ t q k, (cl t).next q = some k → k.Stays own t)
    (q q₁ q₂ : (t : I) → Q t) (ρ ρ₁ ρ₂ : Store α V) (l₁ l₂ : List I)
    (h₁ : runThreads cl (ddLibrary α V c n) l₁ q ρ = (.ok q₁, ρ₁))
    (h₂ : runThreads cl (ddLibrary α V c n) l₂ q ρ = (.ok q₂, ρ₂))
    (d₁ : ∀ t, (cl t).next (q₁ t) = none) (d₂ : ∀ t, (cl t).next (q₂ t) = none) : q₁ = q₂ ∧ ρ₁ = ρ₂ := by
  have key : ∀ (l : List I) q' ρ', runThreads cl (ddLibrary α V c n) l q ρ = (.ok q', ρ') →
      (∀ v, own v = none → ρ' v = ρ v) ∧
      ∀ t, ((cl t).steps (ddLibrary α V c n) (l.count t) (q t) ρ).1 = .ok (q' t) ∧
        ∀ v, own v = some t → ρ' v = ((cl t).steps (ddLibrary α V c n) (l.count t) (q t) ρ).2 v := by
    intro l q' ρ' h
    rcases C74_threads c n cl own hs l q ρ with ⟨p, r, e1, e2, e3⟩ | ⟨t, e1, e2⟩
    · rw [h] at e1
      cases e1
      exact ⟨e2, e3⟩
    · rw [h] at e1
      exact absurd rfl e1
  obtain ⟨a1, b1⟩ := key l₁ q₁ ρ₁ h₁
  obtain ⟨a2, b2⟩ := key l₂ q₂ ρ₂ h₂
  have e : ∀ t, (cl t).steps (ddLibrary α V c n) (l₁.count t) (q t) ρ =
      (cl t).steps (ddLibrary α V c n) (l₂.count t) (q t) ρ := by
    intro t
    have s1 : (cl t).steps (ddLibrary α V c n) (l₁.count t) (q t) ρ = (.ok (q₁ t), _) :=
      Prod.ext (b1 t).1 rfl
    have s2 : (cl t).steps (ddLibrary α V c n) (l₂.count t) (q t) ρ = (.ok (q₂ t), _) :=
      Prod.ext (b2 t).1 rfl
    rcases Nat.le_total (l₁.count t) (l₂.count t) with hle | hle
    · rw [Caller.steps_more s1 (d₁ t) hle, ← s1]
    · rw [Caller.steps_more s2 (d₂ t) hle, ← s2]
  refine ⟨funext fun t => Res.ok.inj ?_, funext fun v => ?_⟩
  · rw [← (b1 t).1, ← (b2 t).1, e t]
  · cases ho : own v with
    | none => rw [a1 v ho, a2 v ho]
    | some t => rw [(b1 t).2 v ho, (b2 t).2 v ho, e t]

section examples

/-- Thread `t` multiplies its object `m` times by the shared `x`: `for (; m > 0; --m) y_t *= x;`
(names: `none` is `x`, `some t` is `y_t`). -/
def exWorker (α : Type) (t : Bool) : Caller (Call α (Option Bool)) (Answer α) Nat where
  next m := if m = 0 then none else some (.act (.upd .mul (some t) (.var none)))
  after m _ := m - 1

theorem exWorker_stays {α : Type} (t : Bool) (q : Nat) (k : Call α (Option Bool))
    (h : (exWorker α t).next q = some k) : k.Stays id t ∧
      k.Valid (Stmt.Plain exDyn2 1) exDyn2.order 1 := by
  simp only [exWorker] at h
  split at h
  · cases h
  · cases h
    simp [Call.Stays, Stmt.target, Stmt.Reads, Expr.Mentions, Sees, Call.Valid, Stmt.Plain]

/-- Two workers under any schedule do what they do alone. -/
example {α : Type} [CMath α] (l : List Bool) (m : Bool → Nat) (ρ : Store α (Option Bool))
    (hρ : ∀ v, WF exDyn2 1 (ρ v)) :
    ∃ m' ρ', runThreads (exWorker α) (ddLibrary α (Option Bool) exDyn2 1) l m ρ = (.ok m', ρ') ∧
      (∀ v, WF exDyn2 1 (ρ' v)) ∧ ρ' none = ρ none ∧
      ∀ t, ((exWorker α t).steps (ddLibrary α _ exDyn2 1) (l.count t) (m t) ρ).1 = .ok (m' t) ∧
        ρ' (some t) = ((exWorker α t).steps (ddLibrary α _ exDyn2 1) (l.count t) (m t) ρ).2
          (some t) := by
  obtain ⟨m', ρ', h1, h2, h3, h4⟩ := C74_safe exDyn2_valid (Or.inl rfl) (exWorker α) id
    (fun t q k h => exWorker_stays t q k h) l m ρ hρ
  exact ⟨m', ρ', h1, h2, h3 _ rfl, fun t => ⟨(h4 t).1, (h4 t).2 _ rfl⟩⟩

theorem exWorker_ends (t : Bool) (m : Nat) (σ : Option Bool → ℝ) :
    ∃ σ', (exWorker ℝ t).Ends (PreciseCall 2 1) m σ 0 σ' ∧ σ' (some t) = σ (some t) * σ none ^ m := by
  induction m generalizing σ with
  | zero => exact ⟨σ, .stop (by simp [exWorker]), by simp⟩
  | succ m ih =>
    obtain ⟨σ', h, e⟩ := ih ((Stmt.upd .mul (some t) (.var none)).den σ)
    refine ⟨σ', .call (k := .act (.upd .mul (some t) (.var none))) (r := .done) (by simp [exWorker])
      ⟨.act _ _ (by simp [Stmt.Ok, Expr.Dom, Expr.Regular]), trivial⟩
      (by simpa only [exWorker, Nat.add_sub_cancel] using h), ?_⟩
    rw [e]
    simp [Stmt.den, setVal, AOp.den, Expr.den]
    ring

/-- With enough turns, the two workers end with the derivatives of `x^(m false)` and `x^(m true)`,
whatever the schedule. -/
example (m : Bool → Nat) (x : Fin 1 → ℝ) : ∃ N, ∀ l : List Bool, (∀ t, N ≤ l.count t) →
    ∃ r, runThreads (fun t => (exWorker ℝ t).map (Call.map num) (Answer.map XReal.real))
        (ddLibrary XReal (Option Bool) exDyn2 1) l m
        (fun v => if v = none then obj exDyn2 1 (varC 0 (num (x 0))) else obj exDyn2 1
          (constC (num 1))) =
          (.ok fun _ => 0, r) ∧
      ∀ t, ∃ K : Jet ℝ, Shows exDyn2 1 (r (some t)) K.lift ∧ IsJet 2 1 (fun y => y 0 ^ m t) x K := by
  have hf : Fits exDyn2 1 := Or.inl rfl
  let u : (Fin 1 → ℝ) → Option Bool → ℝ := fun y v => if v = none then y 0 else 1
  have hd : ∀ t, ∃ j ρ', (∀ i ≥ j, ((exWorker ℝ t).map (Call.map num) (Answer.map XReal.real)).run
        (ddLibrary XReal (Option Bool) exDyn2 1) i (m t) (fun v => if v = none then
          obj exDyn2 1 (varC 0 (num (x 0))) else obj exDyn2 1 (constC (num 1))) = some (.ok 0, ρ')) ∧
      ∃ K : Jet ℝ, Shows exDyn2 1 (ρ' (some t)) K.lift ∧ IsJet 2 1 (fun y => y 0 ^ m t) x K := by
    intro t
    choose U hU hU1 using fun y : Fin 1 → ℝ => exWorker_ends t (m t) (u y)
    obtain ⟨_, j, ρ', h1, h2⟩ := C73_no_ties exDyn2_valid hf (exWorker ℝ t) (q := m t) (q' := 0) u x
      (σ' := U x) (fun v => if v = none then obj exDyn2 1 (varC 0 (num (x 0))) else
        obj exDyn2 1 (constC (num 1)))
      (fun v => if v = none then varJet 0 (x 0) else ⟨1, fun _ => 0, fun _ _ => 0⟩)
      (by
        intro v
        cases v with
        | none => exact (good_var (by omega) _).shows exDyn2_valid.order hf
        | some t => exact (good_const _).shows exDyn2_valid.order hf)
      (by
        intro v
        cases v with
        | none => exact isJet_var _ _ 0
        | some t => exact isJet_const _ _ _)
      ((hU x).mono fun k a r a' h => h.1)
    obtain ⟨-, h3⟩ := h2 U (Filter.Eventually.of_forall fun y =>
      ⟨0, (hU y).mono fun k a r a' h => h.1.real⟩)
    obtain ⟨K, k1, k2⟩ := h3 (some t)
    refine ⟨j, ρ', h1, K, k1, ?_⟩
    have e : (fun y => U y (some t)) = fun y : Fin 1 → ℝ => y 0 ^ m t := funext fun y => by
      rw [hU1 y]; simp [u]
    exact e ▸ k2
  choose j ρ' h1 h2 using hd
  refine ⟨max (j false) (j true), fun l hl => ?_⟩
  obtain ⟨r, e1, -, e3⟩ := C74_ends exDyn2 1
    (fun t => (exWorker ℝ t).map (Call.map num) (Answer.map XReal.real)) id
    (fun t q k h => by
      simp only [Caller.map, exWorker] at h
      split at h
      · cases h
      · cases h
        simp [Call.Stays, Stmt.target, Stmt.Reads, Expr.Mentions, Sees, Call.map, Stmt.map, Expr.map])
    m (fun _ => 0) _ ρ' j (fun t => h1 t _ le_rfl) l (fun t => le_trans (by cases t <;> simp) (hl t))
  refine ⟨r, e1, fun t => ?_⟩
  rw [e3 t (some t) rfl]
  exact h2 t

/-- Two schedules: first all of one worker, or in turns. -/
example {α : Type} [CMath α] (ρ ρ₁ ρ₂ : Store α (Option Bool))
    (h₁ : runThreads (exWorker α) (ddLibrary α (Option Bool) exDyn2 1) [false, false, true, true]
      (fun _ => 2)
      ρ = (.ok fun _ => 0, ρ₁))
    (h₂ : runThreads (exWorker α) (ddLibrary α (Option Bool) exDyn2 1) [true, false, true, false]
      (fun _ => 2)
      ρ = (.ok fun _ => 0, ρ₂)) : ρ₁ = ρ₂ :=
  (C74_schedules exDyn2 1 (exWorker α) id
    (fun t q k h => (exWorker_stays t q k h).1) _ _ _ _ _ _ _ _ h₁ h₂
    (fun _ => by simp [exWorker]) (fun _ => by simp [exWorker])).2

end examples

end HJ
