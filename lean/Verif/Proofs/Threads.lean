import Verif.Spec.Threads
import Verif.Props.Program

/-!
# Threads: proofs
-/

namespace HJ

variable {α V I : Type}

theorem evalDD_congr [CMath α] (c : Cfg) (n : Nat) {ρ ρ' : V → DD α} (e : Expr α V)
    (h : ∀ v, e.Mentions v → ρ v = ρ' v) : e.evalDD c n ρ = e.evalDD c n ρ' := by
  induction e with
  | var v => simp only [Expr.evalDD, h v rfl]
  | const s => rfl
  | neg e ih => simp only [Expr.evalDD, ih h]
  | abs e ih => simp only [Expr.evalDD, ih h]
  | fn φ e ih => simp only [Expr.evalDD, ih h]
  | bin o e₁ e₂ ih₁ ih₂ =>
    simp only [Expr.evalDD, ih₁ fun v hv => h v (.inl hv), ih₂ fun v hv => h v (.inr hv)]
  | sbin o e s ih => simp only [Expr.evalDD, ih h]
  | hypot3 e₁ e₂ e₃ ih₁ ih₂ ih₃ =>
    simp only [Expr.evalDD, ih₁ fun v hv => h v (.inl hv), ih₂ fun v hv => h v (.inr (.inl hv)),
      ih₃ fun v hv => h v (.inr (.inr hv))]

theorem operand_congr [CMath α] [DecidableEq V] (c : Cfg) (n : Nat) {ρ ρ' : Store α V} (t : V)
    (e : Expr α V) (h : ∀ v, e.Mentions v → ρ v = ρ' v) :
    ρ.operand c n t e = ρ'.operand c n t e := by
  cases e with
  | var s => simp only [Store.operand, h s rfl]
  | _ => simp only [Store.operand, evalDD_congr c n _ h]

theorem put_congr [DecidableEq V] {ρ ρ' : Store α V} (t : V) (r : Res (DD α)) (h : ρ t = ρ' t) :
    (ρ.put t r).1 = (ρ'.put t r).1 ∧ (ρ.put t r).2 t = (ρ'.put t r).2 t := by
  cases r <;> simp [Store.put, Store.set, h]

theorem Stmt.run_congr [CMath α] [DecidableEq V] (c : Cfg) (n : Nat) {ρ ρ' : Store α V}
    (s : Stmt α V) (h0 : ρ s.target = ρ' s.target) (h : ∀ v, s.Reads v → ρ v = ρ' v) :
    (s.run c n ρ).1 = (s.run c n ρ').1 ∧ (s.run c n ρ).2 s.target = (s.run c n ρ').2 s.target := by
  cases s with
  | assign t e =>
    simp only [Stmt.run, Stmt.target] at *
    rw [evalDD_congr c n e h]
    exact put_congr t _ h0
  | upd o t e =>
    simp only [Stmt.run, Stmt.target] at *
    rw [operand_congr c n t e h]
    cases ρ'.operand c n t e <;> simp [Store.change, Store.set, h0]
  | updS o t s => simp only [Stmt.target] at h0; simp
    [Stmt.run, Stmt.target, Store.change, Store.set, h0]
  | setF t v => simp only [Stmt.target] at h0; simp only
    [Stmt.run, Stmt.target, h0]; exact put_congr t _ h0
  | setG t i v => simp only [Stmt.target] at h0; simp only
    [Stmt.run, Stmt.target, h0]; exact put_congr t _ h0
  | setH t i j v =>
    simp only [Stmt.target] at h0; simp only [Stmt.run, Stmt.target, h0]; exact put_congr t _ h0
  | setZero t => simp only [Stmt.target] at h0; simp only
    [Stmt.run, Stmt.target, h0]; exact put_congr t _ h0

theorem Cond.run_congr [CMath α] (c : Cfg) (n : Nat) {ρ ρ' : Store α V} (b : Cond α V)
    (h : ∀ v, b.Reads v → ρ v = ρ' v) : b.run c n ρ = b.run c n ρ' := by
  cases b with
  | cmp op e₁ e₂ =>
    simp only [Cond.run, evalDD_congr c n e₁ fun v hv => h v (.inl hv),
      evalDD_congr c n e₂ fun v hv => h v (.inr hv)]
  | cmpS op e s => simp only [Cond.run, evalDD_congr c n e h]
  | sCmp op s e => simp only [Cond.run, evalDD_congr c n e h]

/-- What `L` does with the calls of thread `t` depends on what `t` sees only, and changes its own objects
only. -/
def Confined {C R X : Type} (L : Library C R (V → X)) (own : V → Option I) (t : I) (k : C) : Prop :=
  (∀ ρ ρ' : V → X, (∀ v, Sees own t v → ρ v = ρ' v) →
    (L k ρ).1 = (L k ρ').1 ∧ ∀ v, Sees own t v → (L k ρ).2 v = (L k ρ').2 v) ∧
  ∀ (ρ : V → X) v, own v ≠ some t → (L k ρ).2 v = ρ v

theorem Call.Stays.confined [CMath α] [DecidableEq V] (c : Cfg) (n : Nat) {own : V → Option I} {t : I}
    {k : Call α V} (h : k.Stays own t) : Confined (ddLibrary α V c n) own t k := by
  cases k with
  | act s =>
    obtain ⟨h1, h2⟩ := h
    have h3 : ∀ ρ v, v ≠ s.target → (s.run c n ρ).2 v = ρ v := fun ρ v hv => C37_only_target c n ρ s v hv
    refine ⟨fun ρ ρ' e => ?_, fun ρ v hv => h3 ρ v (fun e => hv (e ▸ h1))⟩
    obtain ⟨e1, e2⟩ := s.run_congr c n (e _ (.inl h1)) fun v hv => e v (h2 v hv)
    refine ⟨by simp only [ddLibrary, e1], fun v hv => ?_⟩
    by_cases hs : v = s.target
    · subst hs; exact e2
    · simp only [ddLibrary, h3 _ v hs, e v hv]
  | ask b =>
    refine ⟨fun ρ ρ' e => ?_, fun ρ v hv => rfl⟩
    simp only [ddLibrary, b.run_congr c n fun v hv => e v (h v hv)]
    exact ⟨trivial, e⟩
  | f v =>
    refine ⟨fun ρ ρ' e => ?_, fun ρ v hv => rfl⟩
    simp only [ddLibrary, e v h]
    exact ⟨trivial, e⟩
  | g v i =>
    refine ⟨fun ρ ρ' e => ?_, fun ρ v hv => rfl⟩
    simp only [ddLibrary, e v h]
    exact ⟨trivial, e⟩
  | h v i j =>
    refine ⟨fun ρ ρ' e => ?_, fun ρ v hv => rfl⟩
    simp only [ddLibrary, e v h]
    exact ⟨trivial, e⟩

section
variable {C R X : Type} {L : Library C R (V → X)} {own : V → Option I} {t : I} {Q : Type}
  {cl : Caller C R Q}

theorem Caller.step_congr {q : Q} (hk : ∀ k, cl.next q = some k → Confined L own t k) {ρ ρ' : V → X}
    (h : ∀ v, Sees own t v → ρ v = ρ' v) : (cl.step L q ρ).1 = (cl.step L q ρ').1 ∧
      ∀ v, Sees own t v → (cl.step L q ρ).2 v = (cl.step L q ρ').2 v := by
  unfold Caller.step
  cases hn : cl.next q with
  | none => exact ⟨rfl, h⟩
  | some k =>
    obtain ⟨e1, e2⟩ := (hk k hn).1 ρ ρ' h
    dsimp only
    revert e1 e2
    rcases L k ρ with ⟨r, s⟩
    rcases L k ρ' with ⟨r', s'⟩
    rintro rfl e2
    cases r <;> exact ⟨rfl, e2⟩

theorem Caller.step_other {q : Q} (hk : ∀ k, cl.next q = some k → Confined L own t k) (ρ : V → X) (v : V)
    (hv : own v ≠ some t) : (cl.step L q ρ).2 v = ρ v := by
  unfold Caller.step
  cases hn : cl.next q with
  | none => rfl
  | some k =>
    have e := (hk k hn).2 ρ v hv
    dsimp only
    revert e
    rcases L k ρ with ⟨r, s⟩
    intro e
    cases r <;> exact e

theorem Caller.steps_congr (hk : ∀ q k, cl.next q = some k → Confined L own t k) (j : Nat) (q : Q)
    {ρ ρ' : V → X} (h : ∀ v, Sees own t v → ρ v = ρ' v) :
    (cl.steps L j q ρ).1 = (cl.steps L j q ρ').1 ∧
      ∀ v, Sees own t v → (cl.steps L j q ρ).2 v = (cl.steps L j q ρ').2 v := by
  induction j generalizing q ρ ρ' with
  | zero => exact ⟨rfl, h⟩
  | succ j ih =>
    obtain ⟨e1, e2⟩ := Caller.step_congr (hk q) h
    simp only [Caller.steps]
    revert e1 e2
    rcases cl.step L q ρ with ⟨r, s⟩
    rcases cl.step L q ρ' with ⟨r', s'⟩
    rintro rfl e2
    cases r with
    | ok p => exact ih p e2
    | _ => exact ⟨rfl, e2⟩

end

section
variable {C R X : Type} {L : Library C R (V → X)} {own : V → Option I} [DecidableEq I] {Q : I → Type}
  {cl : (t : I) → Caller C R (Q t)}

theorem runThreads_alone (hk : ∀ t q k, (cl t).next q = some k → Confined L own t k) (l : List I)
    (q : (t : I) → Q t) (ρ : V → X) :
    (∃ q' ρ', runThreads cl L l q ρ = (.ok q', ρ') ∧ (∀ v, own v = none → ρ' v = ρ v) ∧
      ∀ t, ((cl t).steps L (l.count t) (q t) ρ).1 = .ok (q' t) ∧
        ∀ v, own v = some t → ρ' v = ((cl t).steps L (l.count t) (q t) ρ).2 v) ∨
    ∃ t, (runThreads cl L l q ρ).1.outcome ≠ .ok () ∧
      (runThreads cl L l q ρ).1.outcome = ((cl t).steps L (l.count t) (q t) ρ).1.outcome := by
  induction l generalizing q ρ with
  | nil => exact .inl ⟨q, ρ, rfl, fun _ _ => rfl, fun t => ⟨rfl, fun _ _ => rfl⟩⟩
  | cons t₀ l ih =>
    have ho := fun v => Caller.step_other (hk t₀ (q t₀)) ρ v
    simp only [runThreads]
    rcases hs : (cl t₀).step L (q t₀) ρ with ⟨r, ρ₁⟩
    rw [hs] at ho
    cases r with
    | ok p =>
      dsimp only at ho ⊢
      have h0 : (cl t₀).steps L ((t₀ :: l).count t₀) (q t₀) ρ =
          (cl t₀).steps L (l.count t₀) (Function.update q t₀ p t₀) ρ₁ := by
        simp only [List.count_cons_self, Caller.steps, hs, Function.update_self]
      have h1 : ∀ t, t ≠ t₀ →
          ((cl t).steps L ((t₀ :: l).count t) (q t) ρ).1 =
            ((cl t).steps L (l.count t) (Function.update q t₀ p t) ρ₁).1 ∧
          ∀ v, own v = some t → ((cl t).steps L ((t₀ :: l).count t) (q t) ρ).2 v =
            ((cl t).steps L (l.count t) (Function.update q t₀ p t) ρ₁).2 v := by
        intro t ht
        rw [List.count_cons_of_ne (Ne.symm ht), Function.update_of_ne ht]
        have := Caller.steps_congr (hk t) (l.count t) (q t) (ρ := ρ) (ρ' := ρ₁) (fun v hv => by
          refine (ho v ?_).symm
          rcases hv with hv | hv
          · rw [hv]; exact fun e => ht (Option.some.inj e)
          · rw [hv]; exact Option.some_ne_none _ |>.symm)
        exact ⟨this.1, fun v hv => this.2 v (.inl hv)⟩
      rcases ih (Function.update q t₀ p) ρ₁ with ⟨q', ρ', e1, e2, e3⟩ | ⟨t, e1, e2⟩
      · refine .inl ⟨q', ρ', e1, fun v hv => (e2 v hv).trans (ho v (by simp [hv])), fun t => ?_⟩
        by_cases ht : t = t₀
        · subst ht
          rw [h0]
          exact e3 t
        · obtain ⟨a, b⟩ := h1 t ht
          rw [a]
          exact ⟨(e3 t).1, fun v hv => ((e3 t).2 v hv).trans (b v hv).symm⟩
      · refine .inr ⟨t, e1, e2.trans ?_⟩
        by_cases ht : t = t₀
        · subst ht
          rw [h0]
        · rw [(h1 t ht).1]
    | _ =>
      refine .inr ⟨t₀, by simp [Res.outcome], ?_⟩
      simp only [List.count_cons_self, Caller.steps, hs]
      rfl

end

end HJ
