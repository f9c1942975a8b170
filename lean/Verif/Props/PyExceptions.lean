import Verif.Props.PyCaller

/-!
# C78: what raises an exception in Python changes nothing
-/

namespace HJ

open DD
open XReal (num)

/-! ## Dense classes -/

section dense

variable {α V W : Type} [CMath α] [DecidableEq V] [DecidableEq W] {c : Cfg} {n : Nat}

omit [CMath α] in
theorem PySt.store_threw (st : PySt α V W) (t : V) {r : Res (PVal α)} {e : Err}
    (h : (st.store t r).1 = .throw e) : (st.store t r).2 = st := by
  cases r with
  | ok r => cases h
  | _ => rfl

omit [CMath α] [DecidableEq V] [DecidableEq W] in
theorem PySt.putAt_threw (st : PySt α V W) (a : Nat) {r : Res (DD α)} {e : Err}
    (h : (st.putAt a r).1 = .throw e) : (st.putAt a r).2 = st := by
  cases r with
  | ok r => cases h
  | _ => rfl

/-- **C78, statements.**  A Python statement on jets that raises an exception leaves all objects, names
and arrays as they were: in-place operators do not fail half way. -/
theorem C78_statement (hv : c.Valid) (hf : c.tsize = -1 ∨ c.tsize = n) (hn : c.order = 2 → 0 < n)
    (s : PyStmt α V W) (hs : s.InRange c n) (st : PySt α V W) (h : st.Good c n) {e : Err}
    (he : (s.run c n st).1 = .throw e) : (s.run c n st).2 = st := by
  cases s with
  | assign t e =>
    cases e with
    | name s => cases he
    | _ => exact st.store_threw t he
  | upd o t d =>
    have h1 := PyE.eval_out hv hf _ h.val d hs
    have h2 := fun {y} hy => PyE.eval_wf hv hf _ h.val d (r := y) hy
    simp only [PyStmt.run] at he ⊢
    generalize d.eval c n st.val = r at h1 h2 he ⊢
    cases h1 with
    | ok y =>
      have hy := h2 rfl
      cases ht : st.env t with
      | num x => simp only [ht] at he; exact st.store_threw t he
      | ref a =>
        have ha := h.objects a (h.names t a ht)
        simp only [ht] at he
        cases y with
        | num s =>
          cases o with
          | add => exact st.store_threw t he
          | sub => exact st.store_threw t he
          | mul =>
            obtain ⟨r, _, k2⟩ := (C22_scalar_assign hv ha s).2.2.1
            have k3 : AOp.mul.runS (st.heap a) (.val s) = (.ok (), r) := k2
            simp only [PySt.change, k3] at he
            cases he
          | div =>
            obtain ⟨r, _, k2⟩ := (C22_scalar_assign hv ha s).2.2.2
            have k3 : AOp.div.runS (st.heap a) (.val s) = (.ok (), r) := k2
            simp only [PySt.change, k3] at he
            cases he
        | jet y =>
          have hb : ∀ z, st.operand a d y = .obj z → WF c n z := by
            intro z hz
            have : z = y := by
              cases d with
              | name s =>
                simp only [PySt.operand] at hz
                split at hz
                · split at hz
                  · cases hz
                  · cases hz; rfl
                · cases hz; rfl
              | _ => cases hz; rfl
            rw [this]; exact hy
          rcases run_wf hv ha o.asg _ hb with ⟨x', k1, k2⟩ | ⟨_, h3, h4, _⟩
          · simp only [PySt.change, k1] at he
            cases he
          · exact absurd (hn h3) (by omega)
    | _ => rfl
  | setF t x =>
    simp only [PyStmt.run] at he ⊢
    cases ht : st.env t with
    | num s => rfl
    | ref a =>
      simp only [ht] at he
      exact st.putAt_threw a he
  | setH t i j x =>
    simp only [PyStmt.run] at he ⊢
    cases ht : st.env t with
    | num s => rfl
    | ref a =>
      simp only [ht] at he
      exact st.putAt_threw a he
  | resize t m => exact hs.elim
  | data w t =>
    simp only [PyStmt.run] at he ⊢
    cases ht : st.env t with
    | num s => rfl
    | ref a => simp only [ht] at he; cases he
  | grad w t =>
    simp only [PyStmt.run] at he ⊢
    cases ht : st.env t with
    | num s => rfl
    | ref a => simp only [ht] at he; cases he
  | poke w i x =>
    simp only [PyStmt.run] at he ⊢
    cases hw : st.views w with
    | none => rfl
    | some r =>
      simp only [hw] at he
      cases hc : r.check st i with
      | ok u => simp only [hc] at he ⊢; exact st.putAt_threw _ he
      | _ => simp only [hc]
  | peek t w i =>
    simp only [PyStmt.run] at he ⊢
    cases hw : st.views w with
    | none => rfl
    | some r => simp only [hw] at he; exact st.store_threw t he

/-- **C78, programs.**  If a program raises an exception, the state is exactly the one after the
statements before the one that raised it. -/
theorem C78_program (hv : c.Valid) (hf : c.tsize = -1 ∨ c.tsize = n) (hn : c.order = 2 → 0 < n)
    (p : List (PyStmt α V W)) (hp : ∀ s ∈ p, s.InRange c n) (st : PySt α V W) (h : st.Good c n) {e : Err}
    {st' : PySt α V W} (he : pyRun c n p st = (.throw e, st')) :
    ∃ p₁ s p₂, p = p₁ ++ s :: p₂ ∧ pyRun c n p₁ st = (.ok (), st') ∧
      pyRun c n [s] st' = (.throw e, st') := by
  induction p generalizing st with
  | nil => cases he
  | cons s p ih =>
    have hs := hp s (by simp)
    rcases hr : s.run c n st with ⟨o, st₁⟩
    have hg := good_step hv hf hn s hs h
    rw [hr] at hg
    simp only [pyRun, hr] at he
    cases o with
    | ok u =>
      obtain ⟨p₁, s', p₂, h1, h2, h3⟩ := ih (fun s h => hp s (by simp [h])) st₁ hg.2 he
      exact ⟨s :: p₁, s', p₂, by rw [h1]; rfl, by simp only [pyRun, hr, h2], h3⟩
    | throw x =>
      cases he
      have := C78_statement hv hf hn s hs st h (e := e) (by rw [hr])
      rw [hr] at this
      obtain rfl : st' = st := this
      exact ⟨[], s, p, rfl, rfl, by simp only [pyRun, hr]⟩
    | abort => cases he
    | ub u => cases he

/-- **C78, client code.**  Client code gets `done` exactly if the statement ends normally and otherwise
the very exception the statement raises, with nothing changed; and the truth value of a comparison or the
exception it raises. -/
theorem C78_client (hv : c.Valid) (hf : c.tsize = -1 ∨ c.tsize = n) (hn : c.order = 2 → 0 < n)
    (st : PySt α V W) (h : st.Good c n) :
    (∀ s : PyStmt α V W, s.InRange c n →
      (∃ st', pyRun c n [s] st = (.ok (), st') ∧
        pyLibrary α V W c n (.act s) st = (.ok .done, st')) ∨
      ∃ e, DenseErr e ∧ pyRun c n [s] st = (.throw e, st) ∧
        pyLibrary α V W c n (.act s) st = (.ok (.threw e), st)) ∧
    ∀ b : PyCond α V, b.InRange n →
      (∃ r, b.run c n st.val = .ok r ∧ pyLibrary α V W c n (.ask b) st = (.ok (.truth r), st)) ∨
      ∃ e, DenseErr e ∧ b.run c n st.val = .throw e ∧
        pyLibrary α V W c n (.ask b) st = (.ok (.threw e), st) := by
  refine ⟨fun s hs => ?_, fun b hb => ?_⟩
  · have h1 := (good_step hv hf hn s hs h).1.calm
    have h2 := fun e => C78_statement hv hf hn s hs st h (e := e)
    rcases hr : s.run c n st with ⟨o, st₁⟩
    rw [hr] at h1 h2
    rcases h1 with ⟨u, rfl⟩ | ⟨e, rfl, he⟩
    · exact Or.inl ⟨st₁, by simp only [pyRun, hr],
        by simp only [pyLibrary, Machine.library, pyMachine, hr, Answer.of]⟩
    · obtain rfl : st₁ = st := h2 e rfl
      exact Or.inr ⟨e, he, by simp only [pyRun, hr],
        by simp only [pyLibrary, Machine.library, pyMachine, hr, Answer.of]⟩
  · rcases (cond_out hv hf b hb h).calm with ⟨r, hr⟩ | ⟨e, hr, he⟩
    · exact Or.inl ⟨r, hr, by simp only [pyLibrary, Machine.library, pyMachine, hr, Answer.of]⟩
    · exact Or.inr ⟨e, he, hr, by simp only [pyLibrary, Machine.library, pyMachine, hr, Answer.of]⟩

end dense

/-! ## `SScalar` -/

section sparse

variable {α V : Type} [CMath α] [DecidableEq V]

/-- **C78, `SScalar`.**  The same for sparse scalars and every iteration order. -/
theorem C78_sparse {ord : Order α} (ho : ord.Ok) (st : SPySt α V) (h : st.WF) :
    (∀ s : SPyStmt α V, s.DictOk →
      (∃ st', spyRun ord [s] st = (.ok (), st') ∧
        spyLibrary α V (.act s) (ord, st) = (.ok .done, (ord.sub 1, st'))) ∨
      ∃ e, SparseErr e ∧ spyRun ord [s] st = (.throw e, st) ∧
        spyLibrary α V (.act s) (ord, st) = (.ok (.threw e), (ord.sub 1, st))) ∧
    ∀ b : SPyCond α V, b.DictOk →
      (∃ r, b.run (ord.sub 2) st.val = .ok r ∧
        spyLibrary α V (.ask b) (ord, st) = (.ok (.truth r), (ord, st))) ∨
      ∃ e, SparseErr e ∧ b.run (ord.sub 2) st.val = .throw e ∧
        spyLibrary α V (.ask b) (ord, st) = (.ok (.threw e), (ord, st)) := by
  have stored : ∀ (t : V) (r : Res (SPVal α)) (e : Err), (st.store t r).1 = .throw e →
      (st.store t r).2 = st := by
    intro t r e h
    cases r with
    | ok r => cases h
    | _ => rfl
  have changed : ∀ (a : Nat) (r : Res (SS α)) (e : Err), (st.change a r).1 = .throw e →
      (st.change a r).2 = st := by
    intro t r e h
    cases r with
    | ok r => cases h
    | _ => rfl
  have frame : ∀ (s : SPyStmt α V) (e : Err), (s.run (ord.sub 0) st).1 = .throw e →
      (s.run (ord.sub 0) st).2 = st := by
    intro s e he
    cases s with
    | assign t d =>
      cases d with
      | name s => cases he
      | _ => exact stored t _ e he
    | upd o t d =>
      simp only [SPyStmt.run] at he ⊢
      cases hd : d.eval ((ord.sub 0).sub 1) st.val with
      | ok y =>
        simp only [hd] at he ⊢
        cases hx : st.env t with
        | num s => simp only [hx] at he ⊢; exact stored _ _ _ he
        | ref a =>
          simp only [hx] at he ⊢
          cases y with
          | jet y => exact changed _ _ _ he
          | num s =>
            cases o with
            | add => exact stored _ _ _ he
            | sub => exact stored _ _ _ he
            | mul => exact changed _ _ _ he
            | div => exact changed _ _ _ he
      | _ => rfl
  refine ⟨fun s hs => ?_, fun b hb => ?_⟩
  · have h1 := sparse_step_calm (ho.sub 0) h s hs
    have h2 := frame s
    rcases hr : s.run (ord.sub 0) st with ⟨o, st₁⟩
    rw [hr] at h1 h2
    rcases h1 with ⟨u, rfl⟩ | ⟨e, rfl, he⟩
    · exact Or.inl ⟨st₁, by simp only [spyRun, hr],
        by simp only [spyLibrary, Machine.library, spyMachine, hr, Answer.of]⟩
    · obtain rfl : st₁ = st := h2 e rfl
      exact Or.inr ⟨e, he, by simp only [spyRun, hr],
        by simp only [spyLibrary, Machine.library, spyMachine, hr, Answer.of]⟩
  · rcases (test_same (ho.sub 2) (ho.sub 2) b hb h h (.refl _)).2.calm with ⟨r, hr⟩ | ⟨e, hr, he⟩
    · exact Or.inl ⟨r, hr, by simp only [spyLibrary, Machine.library, spyMachine, hr, Answer.of]⟩
    · exact Or.inr ⟨e, he, hr, by simp only [spyLibrary, Machine.library, spyMachine, hr, Answer.of]⟩

end sparse

/-! ## Examples -/

section examples

/-- `1.0 / b` with the number `b = 0`. -/
theorem exZero_eval (st : PySt XReal (Fin 2) Unit) (hb : st.env 1 = .num (num 0)) :
    (PyE.op .div (.lit (num 1)) (.name 1) : PyE XReal (Fin 2)).eval exDyn2 1 st.val =
      .throw .zeroDivision := by
  have h : Cmp.eqB (num 0) (Arith.lit 0 : XReal) = true := by simp [Cmp.eqB, Arith.lit, XReal.eq]
  have h1 : st.val 1 = .num (num 0) := by simp only [PySt.val, hb]
  simp only [PyE.eval, h1, Res.ok_bind, POp.run, POp.nums, h, if_true, Res.throw_bind]

/-- `a /= (1.0 / b)` raises `ZeroDivisionError` and leaves `a` and `b` as they are. -/
example : pyRun exDyn2 1 [.upd .div 0 (.op .div (.lit (num 1)) (.name 1))] exHalveSt =
      (.throw .zeroDivision, exHalveSt) ∧ ∃ e, pyLibrary XReal (Fin 2) Unit exDyn2 1
    (.act (.upd .div 0 (.op .div (.lit (num 1)) (.name 1)))) exHalveSt =
      (.ok (.threw e), exHalveSt) := by
  have h0 : pyRun exDyn2 1 [.upd .div 0 (.op .div (.lit (num 1)) (.name 1))] exHalveSt =
      (.throw .zeroDivision, exHalveSt) := by
    simp only [pyRun, PyStmt.run, exZero_eval exHalveSt rfl]
  refine ⟨h0, ?_⟩
  rcases (C78_client exDyn2_valid (Or.inl rfl) (fun _ => Nat.one_pos) exHalveSt exHalveSt_good).1
    (.upd .div 0 (.op .div (.lit (num 1)) (.name 1))) ⟨trivial, trivial⟩ with ⟨st', h1, _⟩ | ⟨e, _, _, h⟩
  · rw [h0] at h1; cases h1
  · exact ⟨e, h⟩

/-- `b = b; a /= (1.0 / b); b = a`: the first statement has been run, the others have not. -/
example : ∃ st', pyRun exDyn2 1 [.assign 1 (.name 1), .upd .div 0 (.op .div (.lit (num 1)) (.name 1)),
      .assign 1 (.name 0)] exHalveSt = (.throw .zeroDivision, st') ∧
    ∃ p₁ s p₂, [.assign 1 (.name 1), .upd .div 0 (.op .div (.lit (num 1)) (.name 1)),
        .assign 1 (.name 0)] = p₁ ++ s :: p₂ ∧
      pyRun exDyn2 1 p₁ exHalveSt = (.ok (), st') ∧
      pyRun exDyn2 1 [s] st' = (.throw .zeroDivision, st') := by
  have he : pyRun exDyn2 1 [.assign 1 (.name 1), .upd .div 0 (.op .div (.lit (num 1)) (.name 1)),
      .assign 1 (.name 0)] exHalveSt = (.throw .zeroDivision, exHalveSt.bind 1 (exHalveSt.env 1)) := by
    simp only [pyRun, PyStmt.run, exZero_eval (exHalveSt.bind 1 (exHalveSt.env 1)) rfl]
  refine ⟨_, he, C78_program exDyn2_valid (Or.inl rfl) (fun _ => Nat.one_pos) _ ?_ _ exHalveSt_good he⟩
  intro s hs
  simp only [List.mem_cons, List.not_mem_nil, or_false] at hs
  rcases hs with rfl | rfl | rfl
  · exact trivial
  · exact ⟨trivial, trivial⟩
  · exact trivial

/-- The same division with a sparse scalar `a`. -/
example : ∃ e, spyLibrary XReal (Fin 2) (.act (.upd .div 0 (.op .div (.lit (num 1)) (.name 1))))
    (exRev, exSHalveSt) = (.ok (.threw e), (exRev.sub 1, exSHalveSt)) := by
  rcases (C78_sparse exRev_ok exSHalveSt exSHalveSt_wf).1
    (.upd .div 0 (.op .div (.lit (num 1)) (.name 1))) ⟨trivial, trivial⟩ with ⟨st', h1, _⟩ | ⟨e, _, _, h⟩
  · exfalso
    have h : Cmp.eqB (num 0) (Arith.lit 0 : XReal) = true := by simp [Cmp.eqB, Arith.lit, XReal.eq]
    have h2 : exSHalveSt.val 1 = .num (num 0) := rfl
    simp only [spyRun, SPyStmt.run, SPyE.eval, h2, Res.ok_bind, POp.runSS, POp.nums, h, if_true,
      Res.throw_bind] at h1
    cases h1
  · exact ⟨e, h⟩

end examples

end HJ
