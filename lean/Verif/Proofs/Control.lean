import Verif.Spec.Control

/-!
# Generic facts about programs with branches and loops
-/

namespace HJ

open Filter

variable {S B T T' A : Type}

/-! ## Fuel -/

theorem whileN_more {test : T → Res Bool} {body body' : T → Option (Res Unit × T)}
    (hb : ∀ st r, body st = some r → body' st = some r) {k m : Nat} (hm : k ≤ m) (st : T)
    {r : Res Unit × T} (h : whileN test body k st = some r) : whileN test body' m st = some r := by
  induction k generalizing m st with
  | zero => cases h
  | succ k ih =>
    obtain ⟨m, rfl⟩ : ∃ j, m = j + 1 := ⟨m - 1, by omega⟩
    unfold whileN at h ⊢
    cases hst : test st with
    | ok b =>
      rw [hst] at h
      cases b with
      | false => exact h
      | true =>
        simp only at h ⊢
        cases hbo : body st with
        | none => rw [hbo] at h; cases h
        | some q =>
          rw [hb st q hbo]
          rw [hbo] at h
          obtain ⟨q1, q2⟩ := q
          cases q1 with
          | ok _ => exact ih (by omega) q2 h
          | _ => exact h
    | _ => rw [hst] at h; exact h

/-- More fuel does not change a result. -/
theorem Ctl.run_more {M : Machine S B T} {k m : Nat} (hm : k ≤ m) (p : Ctl S B) (st : T)
    {r : Res Unit × T} (h : p.run M k st = some r) : p.run M m st = some r := by
  induction p generalizing st r with
  | skip => exact h
  | act s => exact h
  | seq p q ihp ihq =>
    simp only [Ctl.run] at h ⊢
    cases hp : p.run M k st with
    | none => rw [hp] at h; cases h
    | some a =>
      rw [ihp st hp]
      rw [hp] at h
      obtain ⟨a1, a2⟩ := a
      cases a1 with
      | ok _ => exact ihq a2 h
      | _ => exact h
  | ite t p q ihp ihq =>
    simp only [Ctl.run] at h ⊢
    cases ht : t.run M st with
    | ok b =>
      rw [ht] at h
      cases b with
      | false => exact ihq st h
      | true => exact ihp st h
    | _ => rw [ht] at h; exact h
  | loop t p ih => exact whileN_more (fun st r h => ih st h) hm st h

/-! ## Following a big-step run -/

variable {step : S → A → A → Prop} {test : B → A → Bool → Prop}

theorem Test.Gives.run {M : Machine S B T} {st : T} {a : A}
    (htest : ∀ b r, test b a r → M.test b st = .ok r) {t : Test B} {r : Bool}
    (h : t.Gives test a r) : t.run M st = .ok r := by
  induction h with
  | atom h => exact htest _ _ h
  | not _ ih => simp only [Test.run, ih, Res.ok_bind]
  | andF _ ih => simp [Test.run, ih]
  | andT _ _ ih ih' => simp [Test.run, ih, ih']
  | orT _ ih => simp [Test.run, ih]
  | orF _ _ ih ih' => simp [Test.run, ih, ih']

theorem Runs.machine {M : Machine S B T} {R : T → A → Prop}
    (hstep : ∀ s a a' st, R st a → step s a a' → ∃ st', M.step s st = (.ok (), st') ∧ R st' a')
    (htest : ∀ b a r st, R st a → test b a r → M.test b st = .ok r)
    {p : Ctl S B} {a a' : A} (h : Runs step test p a a') {st : T} (hR : R st a) :
    ∃ k st', (∀ m ≥ k, p.run M m st = some (.ok (), st')) ∧ R st' a' := by
  induction h generalizing st with
  | skip => exact ⟨0, st, fun _ _ => rfl, hR⟩
  | act h =>
    obtain ⟨st', h1, h2⟩ := hstep _ _ _ st hR h
    exact ⟨0, st', fun _ _ => by simp only [Ctl.run, h1], h2⟩
  | seq _ _ ih ih' =>
    obtain ⟨k, st', h1, h2⟩ := ih hR
    obtain ⟨k', st'', h1', h2'⟩ := ih' h2
    refine ⟨max k k', st'', fun m hm => ?_, h2'⟩
    simp only [Ctl.run, h1 m (le_trans (le_max_left _ _) hm)]
    exact h1' m (le_trans (le_max_right _ _) hm)
  | iteT ht _ ih =>
    obtain ⟨k, st', h1, h2⟩ := ih hR
    refine ⟨k, st', fun m hm => ?_, h2⟩
    simp only [Ctl.run, ht.run fun b r => htest b _ r st hR]
    exact h1 m hm
  | iteF ht _ ih =>
    obtain ⟨k, st', h1, h2⟩ := ih hR
    refine ⟨k, st', fun m hm => ?_, h2⟩
    simp only [Ctl.run, ht.run fun b r => htest b _ r st hR]
    exact h1 m hm
  | loopF ht =>
    refine ⟨1, st, fun m hm => ?_, hR⟩
    obtain ⟨m, rfl⟩ : ∃ j, m = j + 1 := ⟨m - 1, by omega⟩
    simp only [Ctl.run, whileN, ht.run fun b r => htest b _ r st hR]
  | @loopT t p a a' a'' ht _ _ ih ih' =>
    obtain ⟨k, st', h1, h2⟩ := ih hR
    obtain ⟨k', st'', h1', h2'⟩ := ih' h2
    refine ⟨max k k' + 1, st'', fun m hm => ?_, h2'⟩
    obtain ⟨m, rfl⟩ : ∃ j, m = j + 1 := ⟨m - 1, by omega⟩
    simp only [Ctl.run, whileN, ht.run fun b r => htest b _ r st hR]
    have hm' : max k k' ≤ m := by omega
    rw [h1 (m + 1) (by have := le_max_left k k'; omega)]
    have h3 := h1' m (le_trans (le_max_right _ _) hm')
    simp only [Ctl.run] at h3
    exact whileN_more (fun st r h => p.run_more (by omega) st h) le_rfl st' h3

/-! ## Families of runs -/

theorem Test.Gives.eventually {X A' : Type} {l : Filter X} {pr : A → X → A'} {F : A}
    {test : B → A → Bool → Prop} {test' : X → B → A' → Bool → Prop}
    (htest : ∀ b r, test b F r → ∀ᶠ y in l, test' y b (pr F y) r) {t : Test B} {r : Bool}
    (h : t.Gives test F r) : ∀ᶠ y in l, t.Gives (test' y) (pr F y) r := by
  induction h with
  | atom h => exact (htest _ _ h).mono fun _ => .atom
  | not _ ih => exact ih.mono fun _ => .not
  | andF _ ih => exact ih.mono fun _ => .andF
  | andT _ _ ih ih' => exact (ih.and ih').mono fun _ h => .andT h.1 h.2
  | orT _ ih => exact ih.mono fun _ => .orT
  | orF _ _ ih ih' => exact (ih.and ih').mono fun _ h => .orF h.1 h.2

theorem Runs.eventually {X A' : Type} {l : Filter X} (pr : A → X → A')
    {step' : X → S → A' → A' → Prop} {test' : X → B → A' → Bool → Prop}
    (hstep : ∀ s F F', step s F F' → ∀ᶠ y in l, step' y s (pr F y) (pr F' y))
    (htest : ∀ b F r, test b F r → ∀ᶠ y in l, test' y b (pr F y) r)
    {p : Ctl S B} {F F' : A} (h : Runs step test p F F') :
    ∀ᶠ y in l, Runs (step' y) (test' y) p (pr F y) (pr F' y) := by
  induction h with
  | skip => exact .of_forall fun _ => .skip _
  | act h => exact (hstep _ _ _ h).mono fun _ => .act
  | seq _ _ ih ih' => exact (ih.and ih').mono fun _ h => .seq h.1 h.2
  | iteT ht _ ih =>
    exact ((ht.eventually fun b r => htest b _ r).and ih).mono fun _ h => .iteT h.1 h.2
  | iteF ht _ ih =>
    exact ((ht.eventually fun b r => htest b _ r).and ih).mono fun _ h => .iteF h.1 h.2
  | loopF ht => exact (ht.eventually fun b r => htest b _ r).mono fun _ h => .loopF h
  | loopT ht _ _ ih ih' =>
    exact (((ht.eventually fun b r => htest b _ r).and ih).and ih').mono fun _ h =>
      .loopT h.1.1 h.1.2 h.2

theorem Test.Gives.mono {A' : Type} {test : B → A → Bool → Prop} {test' : B → A' → Bool → Prop}
    {a : A} {a' : A'} (htest : ∀ b r, test b a r → test' b a' r) {t : Test B} {r : Bool}
    (h : t.Gives test a r) : t.Gives test' a' r := by
  induction h with
  | atom h => exact .atom (htest _ _ h)
  | not _ ih => exact .not ih
  | andF _ ih => exact .andF ih
  | andT _ _ ih ih' => exact .andT ih ih'
  | orT _ ih => exact .orT ih
  | orF _ _ ih ih' => exact .orF ih ih'

/-- A run at a point as a run of other values. -/
theorem Runs.lift {A' : Type} {step' : S → A' → A' → Prop} {test' : B → A' → Bool → Prop}
    {R : A → A' → Prop}
    (hstep : ∀ s a a' F, R a F → step s a a' → ∃ F', step' s F F' ∧ R a' F')
    (htest : ∀ b a r F, R a F → test b a r → test' b F r)
    {p : Ctl S B} {a a' : A} (h : Runs step test p a a') {F : A'} (hR : R a F) :
    ∃ F', Runs step' test' p F F' ∧ R a' F' := by
  induction h generalizing F with
  | skip => exact ⟨F, .skip _, hR⟩
  | act h =>
    obtain ⟨F', h1, h2⟩ := hstep _ _ _ F hR h
    exact ⟨F', .act h1, h2⟩
  | seq _ _ ih ih' =>
    obtain ⟨F', h1, h2⟩ := ih hR
    obtain ⟨F'', h1', h2'⟩ := ih' h2
    exact ⟨F'', .seq h1 h1', h2'⟩
  | iteT ht _ ih =>
    obtain ⟨F', h1, h2⟩ := ih hR
    exact ⟨F', .iteT (ht.mono fun b r => htest b _ r F hR) h1, h2⟩
  | iteF ht _ ih =>
    obtain ⟨F', h1, h2⟩ := ih hR
    exact ⟨F', .iteF (ht.mono fun b r => htest b _ r F hR) h1, h2⟩
  | loopF ht => exact ⟨F, .loopF (ht.mono fun b r => htest b _ r F hR), hR⟩
  | loopT ht _ _ ih ih' =>
    obtain ⟨F', h1, h2⟩ := ih hR
    obtain ⟨F'', h1', h2'⟩ := ih' h2
    exact ⟨F'', .loopT (ht.mono fun b r => htest b _ r F hR) h1 h1', h2'⟩

/-! ## Runs are unique -/

theorem Test.Gives.det {a : A} (htest : ∀ b r r', test b a r → test b a r' → r = r') {t : Test B}
    {r r' : Bool} (h : t.Gives test a r) (h' : t.Gives test a r') : r = r' := by
  induction h generalizing r' with
  | atom h => cases h' with | atom h' => exact htest _ _ _ h h'
  | not _ ih => cases h' with | not h' => rw [ih h']
  | andF _ ih => cases h' with
    | andF _ => rfl
    | andT h1 _ => cases ih h1
  | andT _ _ ih ih' => cases h' with
    | andF h1 => cases ih h1
    | andT _ h1 => exact ih' h1
  | orT _ ih => cases h' with
    | orT _ => rfl
    | orF h1 _ => cases ih h1
  | orF _ _ ih ih' => cases h' with
    | orT h1 => cases ih h1
    | orF _ h1 => exact ih' h1

theorem Runs.det (hstep : ∀ s a a' a'', step s a a' → step s a a'' → a' = a'')
    (htest : ∀ b a r r', test b a r → test b a r' → r = r') {p : Ctl S B} {a a' a'' : A}
    (h : Runs step test p a a') (h' : Runs step test p a a'') : a' = a'' := by
  induction h generalizing a'' with
  | skip => cases h'; rfl
  | act h => cases h' with | act h' => exact hstep _ _ _ _ h h'
  | seq _ _ ih ih' => cases h' with
    | seq h1 h2 => cases ih h1; exact ih' h2
  | iteT ht _ ih => cases h' with
    | iteT _ h1 => exact ih h1
    | iteF ht' _ => cases ht.det (fun b => htest b _) ht'
  | iteF ht _ ih => cases h' with
    | iteF _ h1 => exact ih h1
    | iteT ht' _ => cases ht.det (fun b => htest b _) ht'
  | loopF ht => cases h' with
    | loopF _ => rfl
    | loopT ht' _ _ => cases ht.det (fun b => htest b _) ht'
  | loopT ht _ _ ih ih' => cases h' with
    | loopF ht' => cases ht.det (fun b => htest b _) ht'
    | loopT _ h1 h2 => cases ih h1; exact ih' h2

/-! ## Two machines in step -/

theorem Test.lockstep {M : Machine S B T} {M' : Machine S B T'} {st : T} {st' : T'}
    (htest : ∀ b, ∃ r, M.test b st = .ok r ∧ M'.test b st' = .ok r) (t : Test B) :
    ∃ r, t.run M st = .ok r ∧ t.run M' st' = .ok r := by
  induction t with
  | atom b => exact htest b
  | not t ih =>
    obtain ⟨r, h1, h2⟩ := ih
    exact ⟨!r, by simp [Test.run, h1], by simp [Test.run, h2]⟩
  | and s t ih ih' =>
    obtain ⟨r, h1, h2⟩ := ih
    obtain ⟨q, h3, h4⟩ := ih'
    refine ⟨if r then q else false, ?_, ?_⟩ <;> cases r <;> simp [Test.run, *]
  | or s t ih ih' =>
    obtain ⟨r, h1, h2⟩ := ih
    obtain ⟨q, h3, h4⟩ := ih'
    refine ⟨if r then true else q, ?_, ?_⟩ <;> cases r <;> simp [Test.run, *]

/-- Both out of fuel, or both ended normally in related states. -/
def Together (R : T → T' → Prop) (r : Option (Res Unit × T)) (r' : Option (Res Unit × T')) : Prop :=
  (r = none ∧ r' = none) ∨ ∃ st st', r = some (.ok (), st) ∧ r' = some (.ok (), st') ∧ R st st'

theorem whileN_lockstep {R : T → T' → Prop} {test : T → Res Bool} {test' : T' → Res Bool}
    {body : T → Option (Res Unit × T)} {body' : T' → Option (Res Unit × T')}
    (ht : ∀ st st', R st st' → ∃ r, test st = .ok r ∧ test' st' = .ok r)
    (hb : ∀ st st', R st st' → Together R (body st) (body' st')) (k : Nat) (st : T) (st' : T')
    (h : R st st') : Together R (whileN test body k st) (whileN test' body' k st') := by
  induction k generalizing st st' with
  | zero => exact Or.inl ⟨rfl, rfl⟩
  | succ k ih =>
    obtain ⟨r, h1, h2⟩ := ht st st' h
    unfold whileN
    rw [h1, h2]
    cases r with
    | false => exact Or.inr ⟨st, st', rfl, rfl, h⟩
    | true =>
      rcases hb st st' h with ⟨h3, h4⟩ | ⟨s1, s2, h3, h4, h5⟩
      · simp only [h3, h4]; exact Or.inl ⟨rfl, rfl⟩
      · simp only [h3, h4]; exact ih s1 s2 h5

theorem Ctl.lockstep {M : Machine S B T} {M' : Machine S B T'} {R : T → T' → Prop} {P : S → Prop}
    (hstep : ∀ s, P s → ∀ st st', R st st' →
      ∃ st1 st1', M.step s st = (.ok (), st1) ∧ M'.step s st' = (.ok (), st1') ∧ R st1 st1')
    (htest : ∀ b st st', R st st' → ∃ r, M.test b st = .ok r ∧ M'.test b st' = .ok r)
    (k : Nat) (p : Ctl S B) (hp : p.All P) (st : T) (st' : T') (h : R st st') :
    Together R (p.run M k st) (p.run M' k st') := by
  induction p generalizing st st' with
  | skip => exact Or.inr ⟨st, st', rfl, rfl, h⟩
  | act s =>
    obtain ⟨s1, s2, h1, h2, h3⟩ := hstep s hp st st' h
    exact Or.inr ⟨s1, s2, by simp only [Ctl.run, h1], by simp only [Ctl.run, h2], h3⟩
  | seq p q ihp ihq =>
    simp only [Ctl.run]
    rcases ihp hp.1 st st' h with ⟨h3, h4⟩ | ⟨s1, s2, h3, h4, h5⟩
    · rw [h3, h4]; exact Or.inl ⟨rfl, rfl⟩
    · rw [h3, h4]; exact ihq hp.2 s1 s2 h5
  | ite t p q ihp ihq =>
    obtain ⟨r, h1, h2⟩ := t.lockstep fun b => htest b st st' h
    simp only [Ctl.run]
    rw [h1, h2]
    cases r with
    | false => exact ihq hp.2 st st' h
    | true => exact ihp hp.1 st st' h
  | loop t p ih =>
    exact whileN_lockstep (fun s1 s2 h => t.lockstep fun b => htest b s1 s2 h)
      (fun s1 s2 h => ih hp s1 s2 h) k st st' h

/-! ## Two machines with the same outcomes -/

/-- Both out of fuel, or both ended in the same way in related states. -/
def Alike (R : T → T' → Prop) (r : Option (Res Unit × T)) (r' : Option (Res Unit × T')) : Prop :=
  (r = none ∧ r' = none) ∨ ∃ o st st', r = some (o, st) ∧ r' = some (o, st') ∧ R st st'

theorem Test.alike {M : Machine S B T} {M' : Machine S B T'} {st : T} {st' : T'} {Q : B → Prop}
    (htest : ∀ b, Q b → M.test b st = M'.test b st') (t : Test B) (ht : t.All Q) :
    t.run M st = t.run M' st' := by
  induction t with
  | atom b => exact htest b ht
  | not t ih => simp only [Test.run, ih ht]
  | and s t ih ih' => simp only [Test.run, ih ht.1, ih' ht.2]
  | or s t ih ih' => simp only [Test.run, ih ht.1, ih' ht.2]

theorem whileN_alike {R : T → T' → Prop} {test : T → Res Bool} {test' : T' → Res Bool}
    {body : T → Option (Res Unit × T)} {body' : T' → Option (Res Unit × T')}
    (ht : ∀ st st', R st st' → test st = test' st')
    (hb : ∀ st st', R st st' → Alike R (body st) (body' st')) (k : Nat) (st : T) (st' : T')
    (h : R st st') : Alike R (whileN test body k st) (whileN test' body' k st') := by
  induction k generalizing st st' with
  | zero => exact Or.inl ⟨rfl, rfl⟩
  | succ k ih =>
    unfold whileN
    rw [ht st st' h]
    cases test' st' with
    | ok r =>
      cases r with
      | false => exact Or.inr ⟨_, st, st', rfl, rfl, h⟩
      | true =>
        rcases hb st st' h with ⟨h3, h4⟩ | ⟨o, s1, s2, h3, h4, h5⟩
        · simp only [h3, h4]; exact Or.inl ⟨rfl, rfl⟩
        · simp only [h3, h4]
          cases o with
          | ok u => exact ih s1 s2 h5
          | _ => exact Or.inr ⟨_, s1, s2, rfl, rfl, h5⟩
    | _ => exact Or.inr ⟨_, st, st', rfl, rfl, h⟩

theorem Ctl.alike {M : Machine S B T} {M' : Machine S B T'} {R : T → T' → Prop} {P : S → Prop}
    {Q : B → Prop}
    (hstep : ∀ s, P s → ∀ st st', R st st' →
      (M.step s st).1 = (M'.step s st').1 ∧ R (M.step s st).2 (M'.step s st').2)
    (htest : ∀ b, Q b → ∀ st st', R st st' → M.test b st = M'.test b st')
    (k : Nat) (p : Ctl S B) (hp : p.Each P Q) (st : T) (st' : T') (h : R st st') :
    Alike R (p.run M k st) (p.run M' k st') := by
  induction p generalizing st st' with
  | skip => exact Or.inr ⟨_, st, st', rfl, rfl, h⟩
  | act s =>
    obtain ⟨h1, h2⟩ := hstep s hp st st' h
    exact Or.inr ⟨(M.step s st).1, _, _, rfl, by rw [h1]; rfl, h2⟩
  | seq p q ihp ihq =>
    simp only [Ctl.run]
    rcases ihp hp.1 st st' h with ⟨h3, h4⟩ | ⟨o, s1, s2, h3, h4, h5⟩
    · rw [h3, h4]; exact Or.inl ⟨rfl, rfl⟩
    · rw [h3, h4]
      cases o with
      | ok u => exact ihq hp.2 s1 s2 h5
      | _ => exact Or.inr ⟨_, s1, s2, rfl, rfl, h5⟩
  | ite t p q ihp ihq =>
    simp only [Ctl.run]
    rw [t.alike (fun b hb => htest b hb st st' h) hp.1]
    cases t.run M' st' with
    | ok r =>
      cases r with
      | false => exact ihq hp.2.2 st st' h
      | true => exact ihp hp.2.1 st st' h
    | _ => exact Or.inr ⟨_, st, st', rfl, rfl, h⟩
  | loop t p ih =>
    exact whileN_alike (fun s1 s2 h => t.alike (fun b hb => htest b hb s1 s2 h) hp.1)
      (fun s1 s2 h => ih hp.2 s1 s2 h) k st st' h

/-! ## Invariants -/

theorem Test.keeps {M : Machine S B T} {st : T} {Q : B → Prop} {O : Res Bool → Prop}
    (hok : ∀ b, O (.ok b))
    (htest : ∀ b, Q b → O (M.test b st)) (t : Test B) (ht : t.All Q) : O (t.run M st) := by
  have ne : ∀ {r : Res Bool} {k : Bool → Res Bool}, O r → (∀ b, O (k b)) → O (r >>= k) := by
    intro r k hr hk
    cases r with
    | ok b => exact hk b
    | _ => exact hr
  induction t with
  | atom b => exact htest b ht
  | not t ih => exact ne (ih ht) fun b => hok _
  | and s t ih ih' => exact ne (ih ht.1) fun b => by cases b; exacts [hok _, ih' ht.2]
  | or s t ih ih' => exact ne (ih ht.1) fun b => by cases b; exacts [ih' ht.2, hok _]

/-- Every outcome of a program satisfies `O` and every state it reaches satisfies `I`, if that is so for
the statements and conditions. -/
theorem Ctl.keeps {M : Machine S B T} {I : T → Prop} {P : S → Prop} {Q : B → Prop}
    {O : Res Unit → Prop} {OB : Res Bool → Prop} (hok : O (.ok ())) (hokB : ∀ b, OB (.ok b))
    (hthrow : ∀ e, OB (.throw e) → O (.throw e)) (habort : OB .abort → O .abort)
    (hub : ∀ u, OB (.ub u) → O (.ub u))
    (hstep : ∀ s, P s → ∀ st, I st → O (M.step s st).1 ∧ I (M.step s st).2)
    (htest : ∀ b, Q b → ∀ st, I st → OB (M.test b st))
    (k : Nat) (p : Ctl S B) (hp : p.Each P Q) (st : T) (h : I st) :
    p.run M k st = none ∨ ∃ o st', p.run M k st = some (o, st') ∧ O o ∧ I st' := by
  induction p generalizing st with
  | skip => exact Or.inr ⟨_, st, rfl, hok, h⟩
  | act s => exact Or.inr ⟨_, _, rfl, hstep s hp st h⟩
  | seq p q ihp ihq =>
    simp only [Ctl.run]
    rcases ihp hp.1 st h with h3 | ⟨o, s1, h3, h4, h5⟩
    · rw [h3]; exact Or.inl rfl
    · rw [h3]
      cases o with
      | ok u => exact ihq hp.2 s1 h5
      | _ => exact Or.inr ⟨_, s1, rfl, h4, h5⟩
  | ite t p q ihp ihq =>
    have ht := t.keeps hokB (fun b hb => htest b hb st h) hp.1
    simp only [Ctl.run]
    cases hr : t.run M st with
    | ok r =>
      cases r with
      | false => exact ihq hp.2.2 st h
      | true => exact ihp hp.2.1 st h
    | throw e => exact Or.inr ⟨_, st, rfl, hthrow e (hr ▸ ht), h⟩
    | abort => exact Or.inr ⟨_, st, rfl, habort (hr ▸ ht), h⟩
    | ub u => exact Or.inr ⟨_, st, rfl, hub u (hr ▸ ht), h⟩
  | loop t p ih =>
    have key : ∀ (m : Nat) (st : T), I st → whileN (t.run M) (p.run M k) m st = none ∨
        ∃ o st', whileN (t.run M) (p.run M k) m st = some (o, st') ∧ O o ∧ I st' := by
      intro m
      induction m with
      | zero => exact fun st _ => Or.inl rfl
      | succ m ihm =>
        intro st h
        have ht := t.keeps hokB (fun b hb => htest b hb st h) hp.1
        unfold whileN
        cases hr : t.run M st with
        | ok r =>
          cases r with
          | false => exact Or.inr ⟨_, st, rfl, hok, h⟩
          | true =>
            rcases ih hp.2 st h with h3 | ⟨o, s1, h3, h4, h5⟩
            · exact Or.inl (by simp only [h3])
            · simp only [h3]
              cases o with
              | ok u => exact ihm s1 h5
              | _ => exact Or.inr ⟨_, s1, rfl, h4, h5⟩
        | throw e => exact Or.inr ⟨_, st, rfl, hthrow e (hr ▸ ht), h⟩
        | abort => exact Or.inr ⟨_, st, rfl, habort (hr ▸ ht), h⟩
        | ub u => exact Or.inr ⟨_, st, rfl, hub u (hr ▸ ht), h⟩
    exact key k st h

/-! ## Renaming statements -/

theorem Test.run_map {S' B' : Type} (M : Machine S' B' T) (f : S → S') (g : B → B') (t : Test B)
    (st : T) : (t.map g).run M st =
      t.run (⟨fun s => M.step (f s), fun b => M.test (g b)⟩ : Machine S B T) st := by
  induction t with
  | atom b => rfl
  | not t ih => simp only [Test.map, Test.run, ih]
  | and s t ih ih' => simp only [Test.map, Test.run, ih, ih']
  | or s t ih ih' => simp only [Test.map, Test.run, ih, ih']

theorem Ctl.run_map {S' B' : Type} (M : Machine S' B' T) (f : S → S') (g : B → B') (k : Nat)
    (p : Ctl S B) (st : T) : (p.map f g).run M k st =
      p.run (⟨fun s => M.step (f s), fun b => M.test (g b)⟩ : Machine S B T) k st := by
  induction p generalizing st with
  | skip => rfl
  | act s => rfl
  | seq p q ihp ihq =>
    simp only [Ctl.map, Ctl.run, ihp, ihq]
  | ite t p q ihp ihq =>
    simp only [Ctl.map, Ctl.run, ihp, ihq, Test.run_map M f g]
  | loop t p ih =>
    simp only [Ctl.map, Ctl.run]
    rw [funext ih, funext fun st => Test.run_map M f g t st]

end HJ
