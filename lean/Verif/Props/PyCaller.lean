import Verif.Spec.PyCaller
import Verif.Proofs.Caller
import Verif.Props.PyControl
import Verif.Props.SPyControl
import Verif.Props.SPyCells

/-!
# C77: Python client code of any kind
-/

open Filter
open scoped Topology

namespace HJ

open DD
open XReal (num)

/-! ## Libraries with statements and comparisons -/

section generic

variable {α V S S' B B' T T' A Q : Type} {E : Err → Prop}

/-- Neither undefined behaviour nor a failed assertion; the exceptions are in `E`. -/
def Res.Calm {R : Type} (E : Err → Prop) (o : Res R) : Prop := (∃ a, o = .ok a) ∨ ∃ e, o = .throw e ∧ E e

theorem Caller.within {cl : Caller (PyCall S B V) (Answer α) Q} {P : PyCall S B V → Prop} {I : Q → Prop}
    (hI : cl.Within E P I) {L : Library (PyCall S B V) (Answer α) T}
    {L' : Library (PyCall S B V) (Answer α) T'} {Rel : T → T' → Prop}
    (hc : ∀ k st st', P k → Rel st st' → ∃ r s s', L k st = (.ok r, s) ∧ L' k st' = (.ok r, s') ∧
      k.Answers E r ∧ Rel s s') (j : Nat) (q : Q) (hq : I q) {st : T} {st' : T'} (hR : Rel st st') :
    (cl.run L j q st = none ∧ cl.run L' j q st' = none) ∨
      ∃ q' s s', cl.run L j q st = some (.ok q', s) ∧ cl.run L' j q st' = some (.ok q', s') ∧ I q' ∧
        Rel s s' := by
  induction j generalizing q st st' with
  | zero => exact Or.inl ⟨rfl, rfl⟩
  | succ j ih =>
    unfold Caller.run
    cases hn : cl.next q with
    | none => exact Or.inr ⟨q, st, st', rfl, rfl, hq, hR⟩
    | some k =>
      obtain ⟨h1, h2⟩ := hI q k hq hn
      obtain ⟨r, s, s', e1, e2, e3, e4⟩ := hc k st st' h1 hR
      simp only [e1, e2]
      exact ih _ (h2 r e3) e4

/-- Two machines that do the same, one of them with translated statements. -/
theorem library_same {M : Machine S B T} {M' : Machine S' B' T'} {env : T → V → PyV α}
    {env' : T' → V → PyV α} {f : S → S'} {g : B → B'} {P : S → Prop} {P' : B → Prop}
      {Rel : T → T' → Prop}
    (ht : E .typeError)
    (hstep : ∀ s, P s → ∀ st st', Rel st st' → ((M.step s st).1.Calm E ∧
      (M.step s st).1 = (M'.step (f s) st').1 ∧ Rel (M.step s st).2 (M'.step (f s) st').2))
    (htest : ∀ b, P' b → ∀ st st', Rel st st' → (M.test b st).Calm E ∧ M.test b st = M'.test (g b) st')
    (henv : ∀ st st', Rel st st' → env st = env' st') (k : PyCall S B V) (st : T) (st' : T')
    (hk : k.Each P P') (h : Rel st st') :
    ∃ r s s', M.library env k st = (.ok r, s) ∧ M'.library env' (k.map f g) st' = (.ok r, s') ∧
      k.Answers E r ∧ Rel s s' := by
  cases k with
  | act s =>
    obtain ⟨h1, h2, h3⟩ := hstep s hk st st' h
    rcases h1 with ⟨a, ha⟩ | ⟨e, ha, he⟩
    · exact ⟨.done, _, _, by simp only [Machine.library, ha, Answer.of],
        by simp only [PyCall.map, Machine.library, ← h2, ha, Answer.of], .done s, h3⟩
    · exact ⟨.threw e, _, _, by simp only [Machine.library, ha, Answer.of],
        by simp only [PyCall.map, Machine.library, ← h2, ha, Answer.of], .threw _ he, h3⟩
  | ask b =>
    obtain ⟨h1, h2⟩ := htest b hk st st' h
    rcases h1 with ⟨a, ha⟩ | ⟨e, ha, he⟩
    · exact ⟨.truth a, _, _, by simp only [Machine.library, ha, Answer.of],
        by simp only [PyCall.map, Machine.library, ← h2, ha, Answer.of], .truth b a, h⟩
    · exact ⟨.threw e, _, _, by simp only [Machine.library, ha, Answer.of],
        by simp only [PyCall.map, Machine.library, ← h2, ha, Answer.of], .threw _ he, h⟩
  | look v =>
    have h1 := henv st st' h
    cases hv : env st v with
    | num x =>
      exact ⟨.number x, st, st', by simp only [Machine.library, hv],
        by simp only [PyCall.map, Machine.library, ← h1, hv], .number v x, h⟩
    | ref a =>
      exact ⟨.threw .typeError, st, st', by simp only [Machine.library, hv],
        by simp only [PyCall.map, Machine.library, ← h1, hv], .threw _ ht, h⟩

theorem PyCall.map_id (k : PyCall S B V) : k.map id id = k := by cases k <;> rfl

/-- A run of the specification is followed by the library. -/
theorem Caller.Ends.encoded {cl : Caller (PyCall S B V) (Answer ℝ) Q}
    {L : Library (PyCall S' B' V) (Answer XReal) T} {call : PyCall S B V → A → Answer ℝ → A → Prop}
    {f : S → S'} {g : B → B'} {Rel : T → A → Prop}
    (hc : ∀ k a r a' st, Rel st a → call k a r a' → ∃ r' st', L (k.map f g) st = (.ok r', st') ∧
      r'.map XReal.real = r ∧ Rel st' a') {q q' : Q} {a a' : A} (h : cl.Ends call q a q' a') {st : T}
    (hR : Rel st a) :
    ∃ m st', (∀ j ≥ m, (cl.encoded f g).run L j q st = some (.ok q', st')) ∧ Rel st' a' := by
  induction h generalizing st with
  | stop h =>
    refine ⟨1, st, fun j hj => ?_, hR⟩
    obtain ⟨j, rfl⟩ : ∃ i, j = i + 1 := ⟨j - 1, by omega⟩
    simp only [Caller.run, Caller.encoded, Caller.map, h, Option.map_none]
  | call h hk _ ih =>
    obtain ⟨r', st₁, h1, h2, h3⟩ := hc _ _ _ _ _ hR hk
    obtain ⟨m, st', h4, h5⟩ := ih h3
    refine ⟨m + 1, st', fun j hj => ?_, h5⟩
    obtain ⟨j, rfl⟩ : ∃ i, j = i + 1 := ⟨j - 1, by omega⟩
    have := h4 j (by omega)
    simp only [Caller.encoded, Caller.map] at this
    simp only [Caller.run, Caller.encoded, Caller.map, h, Option.map_some, h1, h2]
    exact this

/-- A run at a point is a run at the points near it. -/
theorem Caller.Ends.near {X A' : Type} {l : Filter X} (pr : A → X → A') {R C : Type} {cl : Caller C R Q}
    {call : C → A → R → A → Prop} {call' : X → C → A' → R → A' → Prop} {Inv : A → Prop}
    (hc : ∀ k F r F', Inv F → call k F r F' → Inv F' ∧ ∀ᶠ y in l, call' y k (pr F y) r (pr F' y))
    {q q' : Q} {F F' : A} (h : cl.Ends call q F q' F') (hF : Inv F) :
    ∀ᶠ y in l, cl.Ends (call' y) q (pr F y) q' (pr F' y) := by
  induction h with
  | stop h => exact .of_forall fun y => .stop h
  | call h hk _ ih =>
    obtain ⟨h1, h2⟩ := hc _ _ _ _ hF hk
    exact (h2.and (ih h1)).mono fun y hy => .call h hy.1 hy.2

theorem pyMakes_det {step : S → A → A → Prop} {test : B → A → Bool → Prop}
    (hs : ∀ s a a' a'', step s a a' → step s a a'' → a' = a'')
    (ht : ∀ b a r r', test b a r → test b a r' → r = r') (k : PyCall S B V) (a : A) (r : Answer ℝ)
      (a' : A)
    (s : Answer ℝ) (a'' : A) (h : PyMakes step test k a r a') (h' : PyMakes step test k a s a'') :
    r = s ∧ a' = a'' := by
  cases h with
  | act h => cases h' with | act h' => exact ⟨rfl, hs _ _ _ _ h h'⟩
  | ask h => cases h' with | ask h' => exact ⟨congrArg _ (ht _ _ _ _ h h'), rfl⟩

end generic

/-! ## Dense classes -/

section dense

variable {α V W Q : Type} [DecidableEq V] [DecidableEq W] {c : Cfg} {n : Nat}

theorem PyOutcome.calm {A : Type} {o : Res A} (h : PyOutcome o) : o.Calm DenseErr := by
  cases h with
  | ok a => exact Or.inl ⟨a, rfl⟩
  | zeroDivision => exact Or.inr ⟨_, rfl, .zeroDivision⟩
  | attributeError => exact Or.inr ⟨_, rfl, .attributeError⟩
  | typeError => exact Or.inr ⟨_, rfl, .typeError⟩
  | indexError => exact Or.inr ⟨_, rfl, .indexError⟩

/-- **C77, safety.**  Python client code of any kind - functions, lists, recursion, `try`/`except`,
numbers read out of jets and used again - that does not call `resize` and uses valid variable indices has
no undefined behaviour and fails no assertion, in any arithmetic; the objects stay well formed and all
arrays lie inside the storage of their objects.  (The states `I` may depend on the answers, which are the
possible ones only.) -/
theorem C77_dense_safe [CMath α] (hv : c.Valid) (hf : c.tsize = -1 ∨ c.tsize = n)
    (hn : c.order = 2 → 0 < n) (cl : Caller (PyCall (PyStmt α V W) (PyCond α V) V) (Answer α) Q)
    {I : Q → Prop}
      (hI : cl.Within DenseErr (PyCall.Each (PyStmt.InRange c n) (PyCond.InRange n)) I) (q : Q)
    (hq : I q) (st : PySt α V W) (h : st.Good c n) (j : Nat) :
    cl.run (pyLibrary α V W c n) j q st = none ∨
      ∃ q' st', cl.run (pyLibrary α V W c n) j q st = some (.ok q', st') ∧ I q' ∧ st'.Good c n := by
  obtain h | ⟨q', s, s', h1, _, h2, h3, _⟩ := Caller.within hI (L := pyLibrary α V W c n)
    (L' := pyLibrary α V W c n) (Rel := fun st st' => st.Good c n ∧ st = st')
    (fun k st st' hk h => by
      have := library_same (E := DenseErr) (M := pyMachine α V W c n) (M' := pyMachine α V W c n)
        (env := PySt.env) (env' := PySt.env) (f := id) (g := id) (P := PyStmt.InRange c n)
        (P' := PyCond.InRange n) (Rel := fun st st' => st.Good c n ∧ st = st') .typeError
        (fun s hs st st' h => by
          obtain ⟨h, rfl⟩ := h
          obtain ⟨h1, h2⟩ := good_step hv hf hn s hs h
          exact ⟨h1.calm, rfl, h2, rfl⟩)
        (fun b hb st st' h => by
          obtain ⟨h, rfl⟩ := h
          exact ⟨(cond_out hv hf b hb h).calm, rfl⟩)
        (fun st st' h => by rw [h.2]) k st st' hk h
      rwa [PyCall.map_id] at this) j q hq ⟨h, rfl⟩
  · exact Or.inl h.1
  · exact Or.inr ⟨q', s, h1, h2, h3⟩

/-- **C77, jets take the path of their values.**  With one number in place of every jet, the client code
goes through the same states and gets the same answers and exceptions, names are bound to the same
objects, and the values are equal, bit for bit. -/
theorem C77_dense_path [CMath α] (hl : CommLaws α) (hc : CmpLaws α) (hv : c.Valid)
    (hf : c.tsize = -1 ∨ c.tsize = n) (hn : c.order = 2 → 0 < n)
    (cl : Caller (PyCall (PyStmt α V W) (PyCond α V) V) (Answer α) Q) {I : Q → Prop}
    (hI : cl.Within DenseErr (PyCall.Each (fun s => s.InRange c n ∧ s.NoArray) (PyCond.InRange n)) I)
    (q : Q) (hq : I q) (st : PySt α V W) (h : st.Good c n) (σ : CellSt α V) (hσ : st.Carries σ)
      (j : Nat) :
    (cl.run (pyLibrary α V W c n) j q st = none ∧
      cl.run ((cellMachine α V W).library CellSt.env) j q σ = none) ∨
    ∃ q' st' σ', cl.run (pyLibrary α V W c n) j q st = some (.ok q', st') ∧
      cl.run ((cellMachine α V W).library CellSt.env) j q σ = some (.ok q', σ') ∧ I q' ∧ st'.Good c n ∧
      st'.Carries σ' := by
  obtain h | ⟨q', s, s', h1, h2, h3, h4⟩ := Caller.within hI (L := pyLibrary α V W c n)
    (L' := (cellMachine α V W).library CellSt.env) (Rel := Tracks c n)
    (fun k st σ hk h => by
      have := library_same (E := DenseErr) (M := pyMachine α V W c n) (M' := cellMachine α V W)
        (env := PySt.env) (env' := CellSt.env) (f := id) (g := id)
        (P := fun s => s.InRange c n ∧ s.NoArray)
        (P' := PyCond.InRange n) (Rel := Tracks c n) .typeError
        (fun s hs st σ h => ⟨(good_step hv hf hn s hs.1 h.1).1.calm,
          cells_step hl hv hf hn s hs.1 hs.2 h⟩)
        (fun b hb st σ h => ⟨(cond_out hv hf b hb h.1).calm,
          PyCond.run_cells hl hc hv hf _ _ h.val b hb⟩)
        (fun st σ h => h.2.env) k st σ hk h
      rwa [PyCall.map_id] at this) j q hq ⟨h, hσ⟩
  · exact Or.inl h
  · exact Or.inr ⟨q', s, s', h1, h2, h3, h4.1, h4.2⟩

variable {x : Fin n → ℝ}

omit [DecidableEq V] [DecidableEq W] in
theorem PySt.IsAt.look {st : PySt XReal V W} {σ : MathSt n V} (h : st.IsAt c n x σ) (v : V) :
    (∀ r, (σ.env v).number? = some r → st.env v = .num (num r)) ∧
      ((σ.env v).number? = none → ∃ a, st.env v = .ref a) := by
  rcases h.env v with ⟨r, h1, h2⟩ | ⟨a, _, h1, h2⟩
  · rw [h2]
    exact ⟨fun s hs => by cases hs; exact h1, fun hs => by cases hs⟩
  · rw [h2]
    exact ⟨fun s hs => (by cases hs), fun _ => ⟨a, h1⟩⟩

/-- **C77, exact derivatives.**  If the client code runs on functions at `x` - statements change the
functions, comparisons look at the values at `x`, `float(v)` gives the number - then the Python code ends
in the same state and every name holds exactly the number, or the object with exactly the value, gradient
and Hessian at `x` of the function, it stands for. -/
theorem C77_dense_exact (hv : c.Valid) (hfit : c.tsize = -1 ∨ c.tsize = n)
    (cl : Caller (PyCall (PyStmt ℝ V W) (PyCond ℝ V) V) (Answer ℝ) Q) {q q' : Q} {σ σ' : MathSt n V}
    (st : PySt XReal V W) (h : st.IsAt c n x σ) (he : cl.Ends (PyPointCall c.order x) q σ q' σ') :
    ∃ m st',
      (∀ j ≥ m, (cl.encoded (PyStmt.map num) (PyCond.map num)).run (pyLibrary XReal V W c n) j q st =
      some (.ok q', st')) ∧ st'.IsAt c n x σ' := by
  refine he.encoded (T := PySt XReal V W) (Rel := fun st σ => st.IsAt c n x σ) ?_ h
  intro k σ r σ' st h hk
  cases hk with
  | act hs =>
    obtain ⟨st', h1, h2⟩ := means_exact hv hfit h hs
    exact ⟨.done, st', by simp only [PyCall.map, pyLibrary, Machine.library, pyMachine, h1, Answer.of],
      rfl, h2⟩
  | @ask b σ r hb =>
    exact ⟨.truth r, st, by simp only [PyCall.map, pyLibrary, Machine.library, pyMachine,
      h.test hv hfit _ hb.1 hb.2, Answer.of], rfl, h⟩
  | @look v σ r hr =>
    exact ⟨.number (num r), st, by simp only [PyCall.map, pyLibrary, Machine.library,
      (h.look v).1 r hr], rfl, h⟩
  | @noNumber v σ hr =>
    obtain ⟨a, ha⟩ := (h.look v).2 hr
    exact ⟨.threw .typeError, st, by simp only [PyCall.map, pyLibrary, Machine.library, ha], rfl, h⟩

/-- **C77, the derivatives of what the client code computes.**  If the client code runs on functions at
`x` inside the domains, without `float(v)` and without comparing equal values, then on plain numbers it
runs at all points near `x`, to the same state, and whatever `U y` it computes there: a name that holds a
number holds this number at all these points, and a name that holds an object holds value, gradient and
Hessian at `x` of what it stands for at these points. -/
theorem C77_dense_no_ties (hv : c.Valid) (hfit : c.tsize = -1 ∨ c.tsize = n)
    (cl : Caller (PyCall (PyStmt ℝ V W) (PyCond ℝ V) V) (Answer ℝ) Q) {q q' : Q} {σ σ' : MathSt n V}
    (st : PySt XReal V W) (h : st.IsAt c n x σ) (he : cl.Ends (PySureCall c.order x) q σ q' σ') :
    (∀ᶠ y in 𝓝 x, cl.Ends (PyRealCall x y) q (σ.at y) q' (σ'.at y)) ∧
    ∃ m st',
      (∀ j ≥ m, (cl.encoded (PyStmt.map num) (PyCond.map num)).run (pyLibrary XReal V W c n) j q st =
        some (.ok q', st')) ∧
      ∀ U : (Fin n → ℝ) → PtSt V, (∀ᶠ y in 𝓝 x, ∃ q'', cl.Ends (PyRealCall x y) q (σ.at y) q'' (U y)) →
        ∀ v, (∃ r : ℝ, st'.env v = .num (num r) ∧ ∀ᶠ y in 𝓝 x, (U y).read v = r) ∨
        ∃ a, st'.env v = .ref a ∧ JetAt c n (st'.heap a) (fun y => (U y).read v) x := by
  have h1 : ∀ᶠ y in 𝓝 x, cl.Ends (PyRealCall x y) q (σ.at y) q' (σ'.at y) := by
    refine he.near (fun σ y => σ.at y) (Inv := fun σ => ∃ st : PySt XReal V W, st.IsAt c n x σ) ?_
      ⟨st, h⟩
    rintro k σ r σ' ⟨st, h⟩ hk
    cases hk with
    | act hs =>
      obtain ⟨st', _, h2⟩ := means_exact hv hfit h hs.2
      exact ⟨⟨st', h2⟩, .of_forall fun y => .act (hs.2.real hs.1 y)⟩
    | @ask b σ r hb =>
      obtain ⟨⟨⟨m, hm⟩, k, hk⟩, hne, hr⟩ := hb
      exact ⟨⟨st, h⟩, (rel_steady (hm.continuous hv h.continuous) (hk.continuous hv h.continuous) hne
        b.op).mono fun y hy => .ask (hr.trans hy.symm)⟩
  have hp : cl.Ends (PyPointCall c.order x) q σ q' σ' := by
    clear h1
    induction he generalizing st with
    | stop hn => exact .stop hn
    | call hn hk _ ih =>
      cases hk with
      | act hs =>
        obtain ⟨st', _, h2⟩ := means_exact hv hfit h hs.2
        exact .call hn (.act hs.2) (ih st' h2)
      | ask hb => exact .call hn (.ask ⟨hb.1, hb.2.2⟩) (ih st h)
  obtain ⟨m, st', h2, h3⟩ := C77_dense_exact hv hfit cl st h hp
  refine ⟨h1, m, st', h2, fun U hU v => ?_⟩
  have heq : ∀ᶠ y in 𝓝 x, σ'.at y = U y := (h1.and hU).mono fun y ⟨hy, q'', hy'⟩ =>
    (Caller.Ends.det (pyMakes_det (fun s a a' a'' h h' => h.trans h'.symm)
      (fun b a r r' h h' => by rw [Bool.eq_iff_iff, h, h'])) hy hy').2
  rcases h3.env v with ⟨r, h4, h5⟩ | ⟨a, ha, h4, h5⟩
  · refine Or.inl ⟨r, h4, heq.mono fun y hy => ?_⟩
    rw [← hy]
    simp only [PtSt.read, MathSt.at, h5]
  · refine Or.inr ⟨a, h4, ?_⟩
    obtain ⟨K, k1, k2⟩ := h3.obj a ha
    refine ⟨K, k1, k2.congr_fun (heq.mono fun y hy => ?_)⟩
    simp only [← hy]
    simp only [PtSt.read, MathSt.at, h5]

end dense

/-! ## `SScalar` -/

section sparse

variable {α V W Q : Type} [DecidableEq V] [DecidableEq W]

theorem SPyOutcome.calm {A : Type} {o : Res A} (h : SPyOutcome o) : o.Calm SparseErr := by
  cases h with
  | ok a => exact Or.inl ⟨a, rfl⟩
  | zeroDivision => exact Or.inr ⟨_, rfl, .zeroDivision⟩
  | attributeError => exact Or.inr ⟨_, rfl, .attributeError⟩
  | typeError => exact Or.inr ⟨_, rfl, .typeError⟩

omit [DecidableEq W] in
theorem sparse_step_calm [CMath α] {ord : Order α} (ho : ord.Ok) {st : SPySt α V} (h : st.WF)
    (s : SPyStmt α V) (hs : s.DictOk) : (s.run ord st).1.Calm SparseErr := by
  have hs := run_same h h (.refl _) ho ho s hs
  rcases hs.safe with e | e | e | e <;> rw [e]
  · exact Or.inl ⟨_, rfl⟩
  · exact Or.inr ⟨_, rfl, .zeroDivision⟩
  · exact Or.inr ⟨_, rfl, .attributeError⟩
  · exact Or.inr ⟨_, rfl, .typeError⟩

/-- **C77, `SScalar`: safety and iteration orders.**  Python client code of any kind on `SScalar` has no
undefined behaviour and does not abort; however the hash tables are iterated, it goes through the same
states with the same answers and exceptions and leaves objects that cannot be told apart.  Holds in every
arithmetic. -/
theorem C77_sparse_safe [CMath α] (cl : Caller (PyCall (SPyStmt α V) (SPyCond α V) V) (Answer α) Q)
    {I : Q → Prop} (hI : cl.Within SparseErr (PyCall.Each SPyStmt.DictOk SPyCond.DictOk) I) (q : Q)
    (hq : I q) {ord ord' : Order α} (ho : ord.Ok) (ho' : ord'.Ok) (st st' : SPySt α V) (hw : st.WF)
    (hw' : st'.WF) (h : SameSt st st') (j : Nat) :
    (cl.run (spyLibrary α V) j q (ord, st) = none ∧ cl.run (spyLibrary α V) j q (ord', st') = none) ∨
    ∃ q' p p', cl.run (spyLibrary α V) j q (ord, st) = some (.ok q', p) ∧
      cl.run (spyLibrary α V) j q (ord', st') = some (.ok q', p') ∧ I q' ∧ p.2.WF ∧ SameSt p.2 p'.2 := by
  obtain h | ⟨q', s, s', h1, h2, h3, h4⟩ := Caller.within hI (L := spyLibrary α V) (L' := spyLibrary α V)
    (Rel := fun q q' => (q.1.Ok ∧ q'.1.Ok) ∧ (q.2.WF ∧ q'.2.WF) ∧ SameSt q.2 q'.2)
    (fun k st st' hk h => by
      have := library_same (E := SparseErr) (M := spyMachine α V) (M' := spyMachine α V)
        (env := fun st => st.2.env) (env' := fun st => st.2.env) (f := id) (g := id)
        (P := SPyStmt.DictOk) (P' := SPyCond.DictOk)
        (Rel := fun q q' => (q.1.Ok ∧ q'.1.Ok) ∧ (q.2.WF ∧ q'.2.WF) ∧ SameSt q.2 q'.2) .typeError
        (fun s hs q q' h => by
          have h1 := run_same h.2.1.1 h.2.1.2 h.2.2 (h.1.1.sub 0) (h.1.2.sub 0) s hs
          exact ⟨sparse_step_calm (h.1.1.sub 0) h.2.1.1 s hs, h1.out, ⟨h.1.1.sub 1, h.1.2.sub 1⟩,
            ⟨h1.wf, h1.wf'⟩, h1.same⟩)
        (fun b hb q q' h => by
          have h1 := test_same (h.1.1.sub 2) (h.1.2.sub 2) b hb h.2.1.1 h.2.1.2 h.2.2
          exact ⟨h1.2.calm, h1.1⟩)
        (fun st st' h => h.2.2.env) k st st' hk h
      rwa [PyCall.map_id] at this) j q hq (st := (ord, st)) (st' := (ord', st'))
        ⟨⟨ho, ho'⟩, ⟨hw, hw'⟩, h⟩
  · exact Or.inl h
  · exact Or.inr ⟨q', s, s', h1, h2, h3, h4.2.1.1, h4.2.2⟩

/-- **C77, sparse and dense agree.**  The same client code written for a dense class (every variable name
replaced by a valid index) goes through the same states with the same answers and exceptions, binds the
same names to the same objects, and gives the same values, bit for bit. -/
theorem C77_sparse_dense [CMath α] {c : Cfg} {n : Nat} (hl : CommLaws α) (hc : CmpLaws α) (hv : c.Valid)
    (hf : c.tsize = -1 ∨ c.tsize = n) (ix : String → Int) (hix : ∀ k, 0 ≤ ix k ∧ ix k < n)
    (cl : Caller (PyCall (SPyStmt α V) (SPyCond α V) V) (Answer α) Q) {I : Q → Prop}
    (hI : cl.Within SparseErr
      (PyCall.Each (fun s => s.NoD ∧ s.DictOk) (fun b => b.NoD ∧ b.DictOk)) I) (q : Q) (hq : I q)
    {ord : Order α} (ho : ord.Ok) (st : SPySt α V) (h : st.WF) (dst : PySt α V W) (hd : dst.Good c n)
    (henv : dst.env = st.env) (hnext : dst.next = st.next)
    (hval : ∀ a < st.next, (dst.heap a).f = (st.heap a).f) (j : Nat) :
    (cl.run (spyLibrary α V) j q (ord, st) = none ∧
      (cl.map (PyCall.map (SPyStmt.numbered ix) (SPyCond.numbered ix)) id).run (pyLibrary α V W c n) j q
        dst = none) ∨
    ∃ q' p dst', cl.run (spyLibrary α V) j q (ord, st) = some (.ok q', p) ∧
      (cl.map (PyCall.map (SPyStmt.numbered ix) (SPyCond.numbered ix)) id).run (pyLibrary α V W c n) j q
        dst = some (.ok q', dst') ∧ I q' ∧ dst'.env = p.2.env ∧ dst'.next = p.2.next ∧
      ∀ a < p.2.next, (dst'.heap a).f = (p.2.heap a).f := by
  have hn : 0 < n := by have := hix ""; omega
  have hrun : ∀ (L : Library (PyCall (PyStmt α V W) (PyCond α V) V) (Answer α) (PySt α V W)) j q dst,
      (cl.map (PyCall.map (SPyStmt.numbered ix) (SPyCond.numbered ix)) id).run L j q dst =
        cl.run (fun k => L (k.map (SPyStmt.numbered ix) (SPyCond.numbered ix))) j q dst := by
    intro L j
    induction j with
    | zero => intro q dst; rfl
    | succ j ih =>
      intro q dst
      simp only [Caller.run, Caller.map]
      cases hk : cl.next q with
      | none => rfl
      | some k =>
        simp only [Option.map_some]
        rcases hL : L (k.map (SPyStmt.numbered ix) (SPyCond.numbered ix)) dst with ⟨r, s⟩
        cases r with
        | ok r => exact ih _ _
        | _ => rfl
  rw [hrun]
  let Rel : Order α × SPySt α V → PySt α V W → Prop := fun q d =>
    q.1.Ok ∧ ∃ σ, STracks q.2 σ ∧ Tracks c n d σ
  obtain h | ⟨q', s, s', h1, h2, h3, h4, σ, h5, h6⟩ := Caller.within hI (L := spyLibrary α V)
    (L' := fun k => pyLibrary α V W c n (k.map (SPyStmt.numbered ix) (SPyCond.numbered ix)))
    (Rel := Rel)
    (fun k st st' hk h => by
      refine library_same (E := SparseErr) (M := spyMachine α V) (M' := pyMachine α V W c n)
        (env := fun st => st.2.env) (env' := PySt.env) (f := SPyStmt.numbered ix)
          (g := SPyCond.numbered ix)
        (P := fun s => s.NoD ∧ s.DictOk) (P' := fun b => b.NoD ∧ b.DictOk) (Rel := Rel) .typeError
        (fun s hs q d h => ?_) (fun b hb q d h => ?_) (fun q d h => ?_) k st st' hk h
      · obtain ⟨ho, σ, h1, h2⟩ := h
        have h3 := scells_step (W := W) hl ix (ho.sub 0) s hs.1 hs.2 h1
        have h4 := cells_step hl hv hf (fun _ => hn) (s.numbered ix : PyStmt α V W)
          (by cases s <;> exact SPyE.numbered_inRange hix _) (by cases s <;> exact trivial) h2
        exact ⟨sparse_step_calm (ho.sub 0) h1.1 s hs.2, h3.1.trans h4.1.symm, ho.sub 1, _, h3.2, h4.2⟩
      · obtain ⟨ho, σ, h1, h2⟩ := h
        refine ⟨(test_same (ho.sub 2) (ho.sub 2) b hb.2 h1.1 h1.1 (.refl _)).2.calm, ?_⟩
        exact (SPyCond.run_cells hl hc ix _ _ h1.val b hb.1 hb.2 (ho.sub 2)).trans
          (PyCond.run_cells hl hc hv hf _ _ h2.val _
            ⟨SPyE.numbered_inRange hix _, SPyE.numbered_inRange hix _⟩).symm
      · obtain ⟨ho, σ, h1, h2⟩ := h
        exact h1.2.env.trans h2.2.env.symm) j q hq (st := (ord, st)) (st' := dst) (by
      let σ : CellSt α V := ⟨st.env, fun a => ((st.heap a).mF).getD (Arith.lit 0), st.next⟩
      have hσ : st.Carries σ := ⟨rfl, rfl, fun a ha => by
        obtain ⟨v, hv⟩ := (h.obj a ha).ex
        change _ = Res.ok (((st.heap a).mF).getD (Arith.lit 0))
        rw [hv.1, SS.f_ok hv]; rfl⟩
      exact ⟨ho, σ, ⟨h, hσ⟩, hd, henv, hnext, fun a ha => (hval a ha).trans (hσ.obj a ha)⟩)
  · exact Or.inl h
  · exact Or.inr ⟨q', s, s', h1, h2, h3, h6.2.env.trans h5.2.env.symm, h6.2.next.trans h5.2.next.symm,
      fun a ha => (h6.2.obj a (h5.2.next ▸ ha)).trans (h5.2.obj a (h5.2.next ▸ ha)).symm⟩

variable {x : String → ℝ}

omit [DecidableEq V] in
theorem SPySt.IsAt.look {st : SPySt XReal V} {σ : SMathSt V} (h : st.IsAt x σ) (v : V) :
    (∀ r, (σ.env v).number? = some r → st.env v = .num (num r)) ∧
      ((σ.env v).number? = none → ∃ a, st.env v = .ref a) := by
  rcases h.env v with ⟨r, h1, h2⟩ | ⟨a, _, h1, h2⟩
  · rw [h2]
    exact ⟨fun s hs => by cases hs; exact h1, fun hs => by cases hs⟩
  · rw [h2]
    exact ⟨fun s hs => (by cases hs), fun _ => ⟨a, h1⟩⟩

/-- **C77, `SScalar`: exact derivatives.**  As for the dense classes, for every iteration order of the
hash tables; `e.d(name)` may be used as well. -/
theorem C77_sparse_exact (cl : Caller (PyCall (SPyStmt ℝ V) (SPyCond ℝ V) V) (Answer ℝ) Q) {q q' : Q}
    {σ σ' : SMathSt V} (st : SPySt XReal V) (h : st.IsAt x σ) {ord : Order XReal} (ho : ord.Ok)
    (he : cl.Ends (SPyPointCall x) q σ q' σ') :
    ∃ m p,
      (∀ j ≥ m, (cl.encoded (SPyStmt.map num) (SPyCond.map num)).run (spyLibrary XReal V) j q (ord, st) =
      some (.ok q', p)) ∧ p.2.IsAt x σ' := by
  obtain ⟨m, p, h1, _, h2⟩ := he.encoded (f := SPyStmt.map num) (g := SPyCond.map num)
    (L := spyLibrary XReal V) (Rel := fun p σ => p.1.Ok ∧ p.2.IsAt x σ) (st := (ord, st)) (by
      rintro k σ r σ' ⟨ord, st⟩ ⟨ho, h⟩ hk
      cases hk with
      | act hs =>
        obtain ⟨st', h1, h2⟩ := stmt_exact (ho.sub 0) h hs
        exact
          ⟨.done, (ord.sub 1, st'), by simp only
            [PyCall.map, spyLibrary, Machine.library, spyMachine, h1,
          Answer.of], rfl, ho.sub 1, h2⟩
      | @ask b σ r hb =>
        obtain ⟨m, k, hm, hk, hr⟩ := hb
        obtain ⟨v, h1, h2⟩ := C56_expressions ((ho.sub 2).sub 0) _ _ h.val _ m hm
        obtain ⟨w, h3, h4⟩ := C56_expressions ((ho.sub 2).sub 1) _ _ h.val _ k hk
        refine ⟨.truth r, (ord, st), ?_, rfl, ho, h⟩
        simp only [PyCall.map, spyLibrary, Machine.library, spyMachine, SPyCond.run, SPyCond.map, h1, h3,
          Res.ok_bind, h2.cmp h4 b.op hr, Answer.of]
      | @look v σ r hr =>
        have ha : st.env v = .num (num r) := (h.look v).1 r hr
        exact
          ⟨.number (num r), (ord, st), by simp only [PyCall.map, spyLibrary, Machine.library, ha], rfl,
          ho, h⟩
      | @noNumber v σ hr =>
        obtain ⟨a, ha⟩ : ∃ a, st.env v = .ref a := (h.look v).2 hr
        exact
          ⟨.threw .typeError, (ord, st), by simp only [PyCall.map, spyLibrary, Machine.library, ha], rfl,
          ho, h⟩) ⟨ho, h⟩
  exact ⟨m, p, h1, h2⟩

/-- **C77, `SScalar`: the derivatives of what the client code computes**, as for the dense classes, with
partial derivatives. -/
theorem C77_sparse_no_ties (cl : Caller (PyCall (SPyStmt ℝ V) (SPyCond ℝ V) V) (Answer ℝ) Q) {q q' : Q}
    {σ σ' : SMathSt V} (st : SPySt XReal V) (h : st.IsAt x σ) {ord : Order XReal} (ho : ord.Ok)
    (he : cl.Ends (SPySureCall x) q σ q' σ') :
    (∀ᶠ y in nearLines x, cl.Ends (SPyRealCall x y) q (σ.at y) q' (σ'.at y)) ∧
    ∃ m p,
      (∀ j ≥ m, (cl.encoded (SPyStmt.map num) (SPyCond.map num)).run (spyLibrary XReal V) j q (ord, st) =
        some (.ok q', p)) ∧
      ∀ U : (String → ℝ) → PtSt V,
        (∀ᶠ y in nearLines x, ∃ q'', cl.Ends (SPyRealCall x y) q (σ.at y) q'' (U y)) →
        ∀ v, (∃ r : ℝ, p.2.env v = .num (num r) ∧ ∀ᶠ y in nearLines x, (U y).read v = r) ∨
        ∃ a, p.2.env v = .ref a ∧ SIsAt x (p.2.heap a) (fun y => (U y).read v) := by
  have h1 : ∀ᶠ y in nearLines x, cl.Ends (SPyRealCall x y) q (σ.at y) q' (σ'.at y) := by
    refine he.near (fun σ y => σ.at y) (Inv := fun σ => ∃ st : SPySt XReal V, st.IsAt x σ) ?_ ⟨st, h⟩
    rintro k σ r σ' ⟨st, h⟩ hk
    cases hk with
    | act hs =>
      obtain ⟨st', _, h2⟩ := stmt_exact ho h hs.2
      exact ⟨⟨st', h2⟩, .of_forall fun y => .act (hs.2.real hs.1 y)⟩
    | @ask b σ r hb =>
      obtain ⟨⟨⟨⟨m, hm⟩, gm⟩, ⟨k, hk⟩, gk⟩, hne, hr⟩ := hb
      refine ⟨⟨st, h⟩, eventually_nearLines.2 fun j => ?_⟩
      have hs := rel_steady (hm.continuous gm j (h.continuous j))
        (hk.continuous gk j (h.continuous j)) (by rw [Function.update_eq_self]; exact hne) b.op
      rw [Function.update_eq_self] at hs
      exact hs.mono fun t ht => .ask (hr.trans ht.symm)
  have hp : cl.Ends (SPyPointCall x) q σ q' σ' := by
    clear h1
    induction he generalizing st with
    | stop hn => exact .stop hn
    | call hn hk _ ih =>
      cases hk with
      | act hs =>
        obtain ⟨st', _, h2⟩ := stmt_exact ho h hs.2
        exact .call hn (.act hs.2) (ih st' h2)
      | ask hb =>
        obtain ⟨⟨⟨⟨m, hm⟩, gm⟩, ⟨k, hk⟩, gk⟩, hne, hr⟩ := hb
        refine .call hn (.ask ⟨m, k, hm, hk, hr.trans ?_⟩) (ih st h)
        rw [SPyCond.Holds, hm.real x (Or.inr ⟨gm, rfl⟩), hk.real x (Or.inr ⟨gk, rfl⟩)]
  obtain ⟨m, p, h2, h3⟩ := C77_sparse_exact cl st h ho hp
  refine ⟨h1, m, p, h2, fun U hU v => ?_⟩
  have heq : ∀ᶠ y in nearLines x, σ'.at y = U y := (h1.and hU).mono fun y ⟨hy, q'', hy'⟩ =>
    (Caller.Ends.det (pyMakes_det (fun s a a' a'' h h' => h.trans h'.symm)
      (fun b a r r' h h' => by rw [Bool.eq_iff_iff, h, h'])) hy hy').2
  rcases h3.env v with ⟨r, h4, h5⟩ | ⟨a, ha, h4, h5⟩
  · refine Or.inl ⟨r, h4, heq.mono fun y hy => ?_⟩
    rw [← hy]
    simp only [PtSt.read, SMathSt.at, h5]
  · refine Or.inr ⟨a, h4, ?_⟩
    have hj := h3.obj a ha
    have hval : ∀ᶠ y in nearLines x, (U y).read v = σ'.mean a y := by
      refine heq.mono fun y hy => ?_
      rw [← hy]
      simp only [PtSt.read, SMathSt.at, h5]
    refine ⟨hj.wf, ?_, fun k => ?_⟩
    · rw [hj.f, self_of_nearLines hval]
    · obtain ⟨g, g1, g2⟩ := hj.d k
      exact ⟨g, g1, g2.congr_of_eventuallyEq (eventually_nearLines.1 hval k)⟩

end sparse

/-! ## Examples -/

section examples

/-- `try: float(a)` and then `except TypeError: for _ in range(m): s`
  (state: rounds left, in the loop). -/
def exRounds {α S B : Type} (s : S) : Caller (PyCall S B (Fin 2)) (Answer α) (Nat × Bool) where
  next
    | (_, false) => some (.look 0)
    | (0, true) => none
    | (_ + 1, true) => some (.act s)
  after
    | (m, false), .threw _ => (m, true)
    | (_, false), _ => (0, true)
    | (m, true), _ => (m - 1, true)

theorem exRounds_within {α S B : Type} {E : Err → Prop} {P : S → Prop} {P' : B → Prop} {s : S}
    (h : P s) :
    (exRounds s : Caller (PyCall S B (Fin 2)) (Answer α) _).Within E (PyCall.Each P P') fun _ =>
      True := by
  rintro ⟨m, b⟩ k - hk
  refine ⟨?_, fun _ _ => trivial⟩
  cases b with
  | false => cases hk; exact trivial
  | true =>
    cases m with
    | zero => cases hk
    | succ m => cases hk; exact h

/-- `b += a` with a jet `a` and a number `b = 0`: the first round makes an object, the others change it. -/
theorem exRounds_sure (m : Nat) (x : Fin 1 → ℝ) (σ : MathSt 1 (Fin 2)) (r : ℝ) (h0 : σ.env 0 = .ref 0)
    (hm : σ.mean 0 = fun y => y 0) (hn : 0 < σ.next)
    (h1 : (∃ s, σ.env 1 = .num s) ∨ ∃ b, 0 < b ∧ σ.env 1 = .ref b)
    (hr : ∀ y, (σ.at y).read 1 = r * y 0) :
    ∃ σ', (exRounds (.upd .add 1 (.name 0) : PyStmt ℝ (Fin 2) Unit)).Ends (PySureCall 2 x) (m, true) σ
      (0, true) σ' ∧ ∀ y, (σ'.at y).read 1 = (r + m) * y 0 := by
  induction m generalizing σ r with
  | zero => exact ⟨σ, .stop rfl, fun y => by rw [hr]; simp⟩
  | succ m ih =>
    have hv : σ.val 0 = .fn fun y => y 0 := by simp only [MathSt.val, h0, hm]
    have hd : (PyE.name 0 : PyE ℝ (Fin 2)).Den 2 x σ.val (.fn fun y => y 0) := hv ▸ .name 0
    rcases h1 with ⟨s, h1⟩ | ⟨b, hb, h1⟩
    · obtain ⟨σ', k1, k2⟩ := ih (σ.fresh 1 (.fn fun y => s + y 0)) (r + 1)
        (by simp [MathSt.fresh, MathSt.bind, MathSt.write, h0])
        (by simp [MathSt.fresh, MathSt.bind, MathSt.write, hm, hn.ne])
        (Nat.succ_pos _)
        (Or.inr ⟨σ.next, hn, by simp [MathSt.fresh, MathSt.bind, MathSt.write]⟩)
        (fun y => by
          have := hr y
          simp only [PtSt.read, MathSt.at, h1] at this
          simp [PtSt.read, MathSt.at, MathSt.fresh, MathSt.bind, MathSt.write, this]
          ring)
      exact ⟨σ', .call rfl (.act ⟨trivial, .updNum h1 (.opLeft (.lit s) hd (by simp))⟩) k1,
        fun y => by rw [k2]; push_cast; ring⟩
    · obtain ⟨σ', k1, k2⟩ := ih (σ.write b fun y => σ.mean b y + y 0) (r + 1) h0
        (by simp [MathSt.write, hm, hb.ne]) hn (Or.inr ⟨b, hb, h1⟩)
        (fun y => by
          have := hr y
          simp only [PtSt.read, MathSt.at, h1] at this
          simp [PtSt.read, MathSt.at, MathSt.write, h1, this]
          ring)
      exact ⟨σ', .call rfl (.act ⟨trivial, .updFn h1 hd (by simp) (by simp)⟩) k1,
        fun y => by rw [k2]; push_cast; ring⟩

theorem exRounds_halve (m : Nat) :
    ∃ σ', (exRounds (.upd .add 1 (.name 0) : PyStmt ℝ (Fin 2) Unit)).Ends (PySureCall 2 fun _ => 3)
      (m, true)
      exHalveMath (0, true) σ' ∧ ∀ y, (σ'.at y).read 1 = m * y 0 := by
  obtain ⟨σ', h1, h2⟩ := exRounds_sure m (fun _ => 3) exHalveMath 0 rfl rfl Nat.one_pos (Or.inl ⟨0, rfl⟩)
    (fun y => by simp [PtSt.read, MathSt.at, exHalveMath])
  exact ⟨σ', h1, fun y => by rw [h2]; ring⟩

/-- Afterwards `b` is the number 0
  (no rounds) or has exactly the value, gradient and Hessian of `m * a`. -/
example (m : Nat) : ∃ k st', (∀ j ≥ k,
    ((exRounds (.upd .add 1 (.name 0) : PyStmt ℝ (Fin 2) Unit)).encoded (PyStmt.map num)
      (PyCond.map num)).run
      (pyLibrary XReal (Fin 2) Unit exDyn2 1) j (m, true) exHalveSt = some (.ok (0, true), st')) ∧
    ((∃ r : ℝ, st'.env 1 = .num (num r) ∧ r = m * 3) ∨
      ∃ a, st'.env 1 = .ref a ∧ JetAt exDyn2 1 (st'.heap a) (fun y => m * y 0) fun _ => 3) := by
  obtain ⟨σ', h1, h2⟩ := exRounds_halve m
  obtain ⟨hy, k, st', h3, h4⟩ := C77_dense_no_ties exDyn2_valid
    (Or.inl rfl) _ exHalveSt exHalveSt_isAt h1
  refine ⟨k, st', h3, ?_⟩
  rcases h4 (fun y => σ'.at y) (hy.mono fun y h => ⟨_, h⟩) 1 with ⟨r, k1, k2⟩ | ⟨a, k1, k2⟩
  · exact Or.inl ⟨r, k1, by rw [← k2.self_of_nhds, h2]⟩
  · refine Or.inr ⟨a, k1, ?_⟩
    simpa only [h2] using k2

/-- The whole code with `try`: `float(a)` raises a `TypeError`, the loop runs. -/
example (m : Nat) : ∃ σ' : MathSt 1 (Fin 2), (∀ y, (σ'.at y).read 1 = m * y 0) ∧ ∃ k st', (∀ j ≥ k,
    ((exRounds (.upd .add 1 (.name 0) : PyStmt ℝ (Fin 2) Unit)).encoded (PyStmt.map num)
      (PyCond.map num)).run
      (pyLibrary XReal (Fin 2) Unit exDyn2 1) j (m, false) exHalveSt = some (.ok (0, true), st')) ∧
    st'.IsAt exDyn2 1 (fun _ => 3) σ' := by
  obtain ⟨σ', h1, h2⟩ := exRounds_halve m
  have h3 : (exRounds (.upd .add 1 (.name 0) : PyStmt ℝ (Fin 2) Unit)).Ends (PyPointCall 2 fun _ => 3)
      (m, false) exHalveMath (0, true) σ' := by
    refine .call rfl (.noNumber (v := 0) rfl) ?_
    refine h1.mono fun k a r a' h => ?_
    cases h with
    | act h => exact .act h.2
    | ask h => exact .ask ⟨h.1, h.2.2⟩
  exact ⟨σ', h2, C77_dense_exact exDyn2_valid (Or.inl rfl) _ exHalveSt exHalveSt_isAt h3⟩

/-- It cannot crash, whatever `b` is added to, and follows the numbers. -/
example (m j : Nat) (s : PyStmt XReal (Fin 2) Unit) (hs : s.InRange exDyn2 1) :
    (exRounds s).run (pyLibrary XReal (Fin 2) Unit exDyn2 1) j (m, false) exHalveSt = none ∨
    ∃ q' st', (exRounds s).run (pyLibrary XReal (Fin 2) Unit exDyn2 1) j (m, false) exHalveSt =
      some (.ok q', st') ∧ True ∧ st'.Good exDyn2 1 :=
  C77_dense_safe exDyn2_valid (Or.inl rfl) (fun _ => Nat.one_pos) (exRounds s) (exRounds_within hs) _
    trivial exHalveSt exHalveSt_good j

example (m j : Nat) (s : PyStmt XReal (Fin 2) Unit) (hs : s.InRange exDyn2 1 ∧ s.NoArray) :
    ((exRounds s).run (pyLibrary XReal (Fin 2) Unit exDyn2 1) j (m, false) exHalveSt = none ∧
      (exRounds s).run ((cellMachine XReal (Fin 2) Unit).library CellSt.env) j (m, false) exHalveCells =
        none) ∨
    ∃ q' st' σ', (exRounds s).run (pyLibrary XReal (Fin 2) Unit exDyn2 1) j (m, false) exHalveSt =
        some (.ok q', st') ∧
      (exRounds s).run ((cellMachine XReal (Fin 2) Unit).library CellSt.env) j (m, false) exHalveCells =
        some (.ok q', σ') ∧ True ∧ st'.Good exDyn2 1 ∧ st'.Carries σ' :=
  C77_dense_path xreal_comm xreal_cmp exDyn2_valid (Or.inl rfl) (fun _ => Nat.one_pos) (exRounds s)
    (exRounds_within hs) _ trivial exHalveSt exHalveSt_good exHalveCells exHalveSt_carries j

/-! ### Sparse scalars -/

theorem exSRounds_sure (m : Nat) (x : String → ℝ) (σ : SMathSt (Fin 2)) (r : ℝ) (h0 : σ.env 0 = .ref 0)
    (hm : σ.mean 0 = fun y => y "u") (hn : 0 < σ.next)
    (h1 : (∃ s, σ.env 1 = .num s) ∨ ∃ b, 0 < b ∧ σ.env 1 = .ref b)
    (hr : ∀ y, (σ.at y).read 1 = r * y "u") :
    ∃ σ', (exRounds (.upd .add 1 (.name 0) : SPyStmt ℝ (Fin 2))).Ends (SPySureCall x) (m, true) σ
      (0, true) σ' ∧ ∀ y, (σ'.at y).read 1 = (r + m) * y "u" := by
  induction m generalizing σ r with
  | zero => exact ⟨σ, .stop rfl, fun y => by rw [hr]; simp⟩
  | succ m ih =>
    have hv : σ.val 0 = .fn fun y => y "u" := by simp only [SMathSt.val, h0, hm]
    have hd : (SPyE.name 0 : SPyE ℝ (Fin 2)).Den x σ.val (.fn fun y => y "u") := hv ▸ .name 0
    rcases h1 with ⟨s, h1⟩ | ⟨b, hb, h1⟩
    · obtain ⟨σ', k1, k2⟩ := ih (σ.fresh 1 (.fn fun y => s + y "u")) (r + 1)
        (by simp [SMathSt.fresh, SMathSt.bind, SMathSt.write, h0])
        (by simp [SMathSt.fresh, SMathSt.bind, SMathSt.write, hm, hn.ne])
        (Nat.succ_pos _)
        (Or.inr ⟨σ.next, hn, by simp [SMathSt.fresh, SMathSt.bind, SMathSt.write]⟩)
        (fun y => by
          have := hr y
          simp only [PtSt.read, SMathSt.at, h1] at this
          simp [PtSt.read, SMathSt.at, SMathSt.fresh, SMathSt.bind, SMathSt.write, this]
          ring)
      exact ⟨σ', .call rfl (.act ⟨trivial, .updNum h1 (.opLeft (.lit s) hd (by simp))⟩) k1,
        fun y => by rw [k2]; push_cast; ring⟩
    · obtain ⟨σ', k1, k2⟩ := ih (σ.write b fun y => σ.mean b y + y "u") (r + 1) h0
        (by simp [SMathSt.write, hm, hb.ne]) hn (Or.inr ⟨b, hb, h1⟩)
        (fun y => by
          have := hr y
          simp only [PtSt.read, SMathSt.at, h1] at this
          simp [PtSt.read, SMathSt.at, SMathSt.write, h1, this]
          ring)
      exact ⟨σ', .call rfl (.act ⟨trivial, .updFn h1 hd (by simp) (by simp)⟩) k1,
        fun y => by rw [k2]; push_cast; ring⟩

theorem exSRounds_halve (m : Nat) :
    ∃ σ', (exRounds (.upd .add 1 (.name 0) : SPyStmt ℝ (Fin 2))).Ends (SPySureCall fun _ => 3) (m, true)
      exSHalveMath (0, true) σ' ∧ ∀ y, (σ'.at y).read 1 = m * y "u" := by
  obtain ⟨σ', h1, h2⟩ := exSRounds_sure m (fun _ => 3) exSHalveMath 0 rfl rfl Nat.one_pos
    (Or.inl ⟨0, rfl⟩)
    (fun y => by simp [PtSt.read, SMathSt.at, exSHalveMath])
  exact ⟨σ', h1, fun y => by rw [h2]; ring⟩

example (m : Nat) : ∃ k p, (∀ j ≥ k,
    ((exRounds (.upd .add 1 (.name 0) : SPyStmt ℝ (Fin 2))).encoded (SPyStmt.map num)
      (SPyCond.map num)).run
      (spyLibrary XReal (Fin 2)) j (m, true) (exRev, exSHalveSt) = some (.ok (0, true), p)) ∧
    ((∃ r : ℝ, p.2.env 1 = .num (num r) ∧ r = m * 3) ∨
      ∃ a, p.2.env 1 = .ref a ∧ SIsAt (fun _ => 3) (p.2.heap a) (fun y => m * y "u")) := by
  obtain ⟨σ', h1, h2⟩ := exSRounds_halve m
  obtain ⟨hy, k, p, h3, h4⟩ := C77_sparse_no_ties _ exSHalveSt exSHalveSt_isAt exRev_ok h1
  refine ⟨k, p, h3, ?_⟩
  rcases h4 (fun y => σ'.at y) (hy.mono fun y h => ⟨_, h⟩) 1 with ⟨r, k1, k2⟩ | ⟨a, k1, k2⟩
  · exact Or.inl ⟨r, k1, by rw [← self_of_nearLines k2, h2]⟩
  · refine Or.inr ⟨a, k1, ?_⟩
    simpa only [h2] using k2

example (m : Nat) : ∃ σ' : SMathSt (Fin 2), (∀ y, (σ'.at y).read 1 = m * y "u") ∧ ∃ k p, (∀ j ≥ k,
    ((exRounds (.upd .add 1 (.name 0) : SPyStmt ℝ (Fin 2))).encoded (SPyStmt.map num)
      (SPyCond.map num)).run
      (spyLibrary XReal (Fin 2)) j (m, false) (exRev, exSHalveSt) = some (.ok (0, true), p)) ∧
    p.2.IsAt (fun _ => 3) σ' := by
  obtain ⟨σ', h1, h2⟩ := exSRounds_halve m
  have h3 : (exRounds (.upd .add 1 (.name 0) : SPyStmt ℝ (Fin 2))).Ends (SPyPointCall fun _ => 3)
      (m, false) exSHalveMath (0, true) σ' := by
    refine .call rfl (.noNumber (v := 0) rfl) ?_
    have : ∀ q q' σ σ', (exRounds (.upd .add 1 (.name 0) : SPyStmt ℝ (Fin 2)) :
        Caller (PyCall _ (SPyCond ℝ (Fin 2)) _) _ _).Ends (SPySureCall fun _ => 3) q σ q' σ' →
        (exRounds (.upd .add 1 (.name 0) : SPyStmt ℝ (Fin 2))).Ends
          (SPyPointCall fun _ => 3) q σ q' σ' := by
      intro q q' σ σ' h
      induction h with
      | stop h => exact .stop h
      | @call q k _ _ _ _ _ hn hk _ ih =>
        cases hk with
        | act h => exact .call hn (.act h.2) ih
        | ask h =>
          exfalso
          obtain ⟨m, b⟩ := q
          cases b with
          | false => cases hn
          | true => cases m <;> cases hn
    exact this _ _ _ _ h1
  exact ⟨σ', h2, C77_sparse_exact _ exSHalveSt exSHalveSt_isAt exRev_ok h3⟩

example (m j : Nat) (s : SPyStmt XReal (Fin 2)) (hs : s.DictOk) :
    ((exRounds s).run (spyLibrary XReal (Fin 2)) j (m, false) (exRev, exSHalveSt) = none ∧
      (exRounds s).run (spyLibrary XReal (Fin 2)) j (m, false) (exFwd, exSHalveSt) = none) ∨
    ∃ q' p p', (exRounds s).run (spyLibrary XReal (Fin 2)) j (m, false) (exRev, exSHalveSt) =
        some (.ok q', p) ∧
      (exRounds s).run (spyLibrary XReal (Fin 2)) j (m, false) (exFwd, exSHalveSt) = some (.ok q', p') ∧
      True ∧ p.2.WF ∧ SameSt p.2 p'.2 :=
  C77_sparse_safe (exRounds s) (exRounds_within hs) _ trivial exRev_ok exFwd_ok exSHalveSt exSHalveSt
    exSHalveSt_wf exSHalveSt_wf (.refl _) j

example (m j : Nat) (s : SPyStmt XReal (Fin 2)) (hs : s.NoD ∧ s.DictOk) :
    ((exRounds s).run (spyLibrary XReal (Fin 2)) j (m, false) (exRev, exSHalveSt) = none ∧
      ((exRounds s).map (PyCall.map (SPyStmt.numbered fun _ => 0) (SPyCond.numbered fun _ => 0)) id).run
        (pyLibrary XReal (Fin 2) Unit exDyn2 1) j (m, false) exHalveSt = none) ∨
    ∃ q' p dst', (exRounds s).run (spyLibrary XReal (Fin 2)) j (m, false) (exRev, exSHalveSt) =
        some (.ok q', p) ∧
      ((exRounds s).map (PyCall.map (SPyStmt.numbered fun _ => 0) (SPyCond.numbered fun _ => 0)) id).run
        (pyLibrary XReal (Fin 2) Unit exDyn2 1) j (m, false) exHalveSt = some (.ok q', dst') ∧ True ∧
      dst'.env = p.2.env ∧ dst'.next = p.2.next ∧ ∀ a < p.2.next, (dst'.heap a).f = (p.2.heap a).f :=
  C77_sparse_dense xreal_comm xreal_cmp exDyn2_valid (Or.inl rfl) (fun _ => 0)
    (fun _ => ⟨le_refl 0, by norm_num⟩) (exRounds s) (exRounds_within hs) _ trivial exRev_ok exSHalveSt
    exSHalveSt_wf exHalveSt exHalveSt_good rfl rfl (fun a _ => f_obj ..) j

end examples

end HJ
