import Verif.Spec.Caller
import Verif.Props.Control
import Verif.Proofs.ConvergeRun

/-!
# Arbitrary client code (helper lemmas)
-/

namespace HJ

open DD

section generic

variable {C R Q T T' A : Type}

theorem Caller.run_more {cl : Caller C R Q} {L : Library C R T} {k m : Nat} (hm : k ≤ m) (q : Q) (st : T)
    {r : Res Q × T} (h : cl.run L k q st = some r) : cl.run L m q st = some r := by
  induction k generalizing m q st with
  | zero => cases h
  | succ k ih =>
    obtain ⟨m, rfl⟩ : ∃ j, m = j + 1 := ⟨m - 1, by omega⟩
    unfold Caller.run at h ⊢
    cases hq : cl.next q with
    | none => rw [hq] at h; exact h
    | some a =>
      rw [hq] at h
      simp only at h ⊢
      rcases hL : L a st with ⟨x, st'⟩
      rw [hL] at h
      cases x with
      | ok r => exact ih (by omega) _ _ h
      | _ => exact h

/-- A run of the specification is followed by the library. -/
theorem Caller.Ends.run {cl : Caller C R Q} {L : Library C R T} {call : C → A → R → A → Prop}
    {Rel : T → A → Prop}
    (hc : ∀ k a r a' st, Rel st a → call k a r a' → ∃ st', L k st = (.ok r, st') ∧ Rel st' a') {q q' : Q}
    {a a' : A} (h : cl.Ends call q a q' a') {st : T} (hR : Rel st a) :
    ∃ m st', (∀ j ≥ m, cl.run L j q st = some (.ok q', st')) ∧ Rel st' a' := by
  induction h generalizing st with
  | stop h =>
    refine ⟨1, st, fun j hj => ?_, hR⟩
    obtain ⟨j, rfl⟩ : ∃ i, j = i + 1 := ⟨j - 1, by omega⟩
    simp only [Caller.run, h]
  | call h hk _ ih =>
    obtain ⟨st₁, h1, h2⟩ := hc _ _ _ _ _ hR hk
    obtain ⟨m, st', h3, h4⟩ := ih h2
    refine ⟨m + 1, st', fun j hj => ?_, h4⟩
    obtain ⟨j, rfl⟩ : ∃ i, j = i + 1 := ⟨j - 1, by omega⟩
    simp only [Caller.run, h, h1]
    exact h3 j (by omega)

/-- Two libraries that always give the same answers. -/
theorem Caller.lockstep {cl : Caller C R Q} {L : Library C R T} {L' : Library C R T'}
    {Rel : T → T' → Prop} {P : C → Prop}
    (hc : ∀ k st st', P k → Rel st st' → ∃ r s s', L k st = (.ok r, s) ∧ L' k st' = (.ok r, s') ∧
      Rel s s')
    (hP : ∀ q k, cl.next q = some k → P k) (j : Nat) (q : Q) {st : T} {st' : T'} (hR : Rel st st') :
    (cl.run L j q st = none ∧ cl.run L' j q st' = none) ∨
      ∃ q' s s', cl.run L j q st = some (.ok q', s) ∧ cl.run L' j q st' = some (.ok q', s') ∧
        Rel s s' := by
  induction j generalizing q st st' with
  | zero => exact Or.inl ⟨rfl, rfl⟩
  | succ j ih =>
    unfold Caller.run
    cases hq : cl.next q with
    | none => exact Or.inr ⟨q, st, st', rfl, rfl, hR⟩
    | some k =>
      obtain ⟨r, s, s', h1, h2, h3⟩ := hc k st st' (hP q k hq) hR
      simp only [h1, h2]
      exact ih _ h3

theorem Caller.Ends.det {cl : Caller C R Q} {call : C → A → R → A → Prop}
    (hc : ∀ k a r a' s a'', call k a r a' → call k a s a'' → r = s ∧ a' = a'') {q q' q'' : Q}
      {a a' a'' : A}
    (h : cl.Ends call q a q' a') (h' : cl.Ends call q a q'' a'') : q' = q'' ∧ a' = a'' := by
  induction h generalizing q'' a'' with
  | stop h =>
    cases h' with
    | stop => exact ⟨rfl, rfl⟩
    | call h2 => rw [h] at h2; cases h2
  | call h hk _ ih =>
    cases h' with
    | stop h2 => rw [h] at h2; cases h2
    | call h2 hk2 rest =>
      rw [h] at h2
      cases h2
      obtain ⟨rfl, rfl⟩ := hc _ _ _ _ _ _ hk hk2
      exact ih rest

end generic

/-! ## Contents after a statement -/

section cells

variable {α V : Type} [DecidableEq V] [CMath α] {c : Cfg} {n : Nat}

/-- Contents after `a op= b`, also with the same object on both sides. -/
def AOp.cells (c : Cfg) (n : Nat) (o : AOp) (self : Bool) (a b : Nat → α) : Nat → α :=
  if self = true ∧ o = .mul then mulAC c n a a (fun k => a 0 *ₛ a k +ₛ a 0 *ₛ a k)
  else o.updC c n self a b

/-- Contents after `a op= s`. -/
def AOp.cellsS (o : AOp) (a : Nat → α) (s : α) : Nat → α :=
  match o with
  | .add => addSC a s
  | .sub => subSC a s
  | .mul => fun k => a k *ₛ s
  | .div => fun k => a k *ₛ (Arith.lit 1 ÷ₛ s)

/-- Change the contents under one name. -/
def setC (a : V → Nat → α) (t : V) (b : Nat → α) : V → Nat → α := fun v => if v = t then b else a v

/-- Contents after a statement. -/
def Stmt.cells (c : Cfg) (n : Nat) (a : V → Nat → α) : Stmt α V → V → Nat → α
  | .assign t e => setC a t (e.evalC c n a)
  | .upd o t (.var s) => setC a t (o.cells c n (decide (s = t)) (a t) (a s))
  | .upd o t e => setC a t (o.cells c n false (a t) (e.evalC c n a))
  | .updS o t (.val s) => setC a t (o.cellsS (a t) s)
  | .setF t v => setC a t fun k => if k = 0 then v else a t k
  | .setG t i v => setC a t fun k => if k = 1 + i.toNat then v else a t k
  | .setH t i j v => setC a t fun k => if k = pos n (min i j).toNat (max i j).toNat then v else a t k
  | .setZero t => setC a t fun _ => Arith.lit 0
  | _ => a

omit [CMath α] in
theorem set_setC (a : V → Nat → α) (t : V) (b : Nat → α) :
    Store.set (fun v => obj c n (a v)) t (obj c n b) = fun v => obj c n (setC a t b v) := by
  funext v
  by_cases h : v = t <;> simp [Store.set, setC, h]

omit [CMath α] [DecidableEq V] in
theorem setH_obj (h2 : c.order = 2) (hf : Fits c n) (a : Nat → α) {i j : Int} (hi : 0 ≤ i) (hi' : i < n)
    (hj : 0 ≤ j) (hj' : j < n) (v : α) : (obj c n a).setH c i j v =
      .ok (obj c n fun k => if k = pos n (min i j).toNat (max i j).toNat then v else a k) := by
  unfold DD.setH assertB
  rw [size_obj hf]
  simp only [hi, hi', hj, hj', decide_true, Bool.and_self, Bool.not_true, Bool.and_false,
    Bool.false_eq_true, if_false, Res.ok_bind]
  have hmm : (min i j).toNat ≤ (max i j).toNat := by omega
  have hlt : (max i j).toNat < n := by omega
  rw [data_obj, wr_mk (ψ := fl (fun k => if k = pos n (min i j).toNat (max i j).toNat then v else a k))
    (pos n (min i j).toNat (max i j).toNat) ?_ (pos_lt h2 hmm hlt)]
  · rfl
  · intro m _
    by_cases h : m = pos n (min i j).toNat (max i j).toNat <;> simp [fl, h]
  · rcases le_total i j with h | h
    · obtain ⟨p, rfl⟩ : ∃ p : Nat, i = p := ⟨i.toNat, by omega⟩
      obtain ⟨q, rfl⟩ : ∃ q : Nat, j = q := ⟨j.toNat, by omega⟩
      rw [min_eq_left h, max_eq_right h]
      exact hIndex_eq (by omega) (by omega)
    · obtain ⟨p, rfl⟩ : ∃ p : Nat, i = p := ⟨i.toNat, by omega⟩
      obtain ⟨q, rfl⟩ : ∃ q : Nat, j = q := ⟨j.toNat, by omega⟩
      rw [min_eq_right h, max_eq_left h, hIndex_comm]
      exact hIndex_eq (by omega) (by omega)

theorem AOp.run_cells (hc : c.order = 1 ∨ c.order = 2) (hf : Fits c n) (o : AOp)
    (hn : o = .mul → c.order = 2 → 0 < n) (a b : Nat → α) :
    o.run c (obj c n a) (.obj (obj c n b)) = (.ok (), obj c n (o.cells c n false a b)) ∧
      o.run c (obj c n a) .self = (.ok (), obj c n (o.cells c n true a a)) := by
  refine ⟨by rw [AOp.run_updC hc hf o hn]; simp [AOp.cells], ?_⟩
  by_cases h : o = .mul
  · subst h
    simp only [AOp.cells, and_self, if_true]
    exact mulAssign_self hc (hn rfl) hf a
  · rw [AOp.run_updC_self hc hf o h]; simp [AOp.cells, h]

theorem Stmt.run_cells (hv : c.Valid) (hf : Fits c n) (a : V → Nat → α) (s : Stmt α V)
    (hs : s.Plain c n) :
    s.run c n (fun v => obj c n (a v)) = (.ok (), fun v => obj c n (s.cells c n a v)) := by
  cases s with
  | assign t e => simp only [Stmt.run, evalDD_obj hv.order hf, Store.put, set_setC, Stmt.cells]
  | upd o t e =>
    cases e with
    | var w =>
      by_cases hw : w = t
      · simp only [Stmt.run, Store.operand, hw, if_true, (AOp.run_cells hv.order hf o hs _ (a t)).2,
          Store.change, set_setC, Stmt.cells, decide_true]
      · simp only [Stmt.run, Store.operand, hw, if_false, (AOp.run_cells hv.order hf o hs _ _).1,
          Store.change, set_setC, Stmt.cells, decide_false]
    | _ =>
      simp only [Stmt.run, Store.operand, evalDD_obj hv.order hf, Res.ok_bind,
        (AOp.run_cells hv.order hf o hs _ _).1, Store.change, set_setC, Stmt.cells]
  | updS o t s =>
    cases s with
    | cell k => exact hs.elim
    | val s =>
      simp only [Stmt.run, Stmt.cells, Store.change]
      cases o
      · simp only [AOp.runS, addAssignS_obj, set_setC, AOp.cellsS]
      · simp only [AOp.runS, subAssignS_obj, set_setC, AOp.cellsS]
      · simp only [AOp.runS, mulAssignS_obj, set_setC, AOp.cellsS]
      · simp only [AOp.runS, divAssignS_obj, set_setC, AOp.cellsS]
  | setF t x => simp only [Stmt.run, setF_obj, Store.put, set_setC, Stmt.cells]
  | setG t i x =>
    obtain ⟨k, rfl⟩ : ∃ k : Nat, i = k := ⟨i.toNat, by have := hs.1; omega⟩
    have hk : k < n := by have := hs.2; omega
    simp only [Stmt.run, setG_obj hf _ hk, Store.put, set_setC, Stmt.cells, Int.toNat_natCast]
  | setH t i j x =>
    obtain ⟨h2, hi, hi', hj, hj'⟩ := hs
    simp only [Stmt.run, setH_obj h2 hf _ hi hi' hj hj', Store.put, set_setC, Stmt.cells]
  | setZero t =>
    have e : DD.setZero (obj c n (a t)) = obj c n fun _ => Arith.lit 0 := by
      simp only [DD.setZero, obj, mk, List.map_map, Function.comp_def]
      rfl
    simp only [Stmt.run, e, Store.put, set_setC, Stmt.cells]

/-! ### Other orders -/

variable {c' : Cfg}

theorem AOp.cells_low (o : AOp) (self : Bool) {a a' b b' : Nat → α} (ha : ∀ k ≤ n, a k = a' k)
    (hb : ∀ k ≤ n, b k = b' k) : ∀ k ≤ n, o.cells c n self a b k = o.cells c' n self a' b' k := by
  intro k hk
  have h0 := ha 0 (Nat.zero_le _)
  have h0' := hb 0 (Nat.zero_le _)
  have h1 := ha k hk
  have h1' := hb k hk
  unfold AOp.cells
  split
  · simp only [mulAC, h0]
    exact bFin_low c c' hk _ _ _ _ _ (by simp only [h1])
  · cases o
    · simp only [AOp.updC, addC, h1, h1']
    · simp only [AOp.updC, h1, h1']
    · simp only [AOp.updC, mulAC, h0, h0']
      exact bFin_low c c' hk _ _ _ _ _ (by simp only [h1, h1'])
    · cases self
      · simp only [AOp.updC, divC, h0, h0']
        exact bFin_low c c' hk _ _ _ _ _ (by simp only [h1, h1'])
      · simp only [AOp.updC, divSelfC, h0, if_true]
        exact bFin_low c c' hk _ _ _ _ _ (by simp only [h1])

omit [DecidableEq V] in
theorem AOp.cells_order (ho : c.order = c'.order) (o : AOp) (self : Bool) (a b : Nat → α) :
    o.cells c n self a b = o.cells c' n self a b := by
  have hb : ∀ q (f : α) t1 t2, bFin c n q f t1 t2 = bFin c' n q f t1 t2 := by
    intro q f t1 t2; unfold bFin; rw [ho]
  unfold AOp.cells
  split
  · simp only [mulAC, hb]
  · cases o
    · rfl
    · rfl
    · simp only [AOp.updC, mulAC, hb]
    · cases self <;> simp only [AOp.updC, divC, divSelfC, hb]

/-- The contents have the same values and gradients, and are the same if the orders are. -/
def SameC (c c' : Cfg) (n : Nat) (a a' : Nat → α) : Prop :=
  (∀ k ≤ n, a k = a' k) ∧ (c.order = c'.order → a = a')

omit [CMath α] in
theorem SameC.set {a a' : V → Nat → α} (h : ∀ v, SameC c c' n (a v) (a' v)) (t : V) {b b' : Nat → α}
    (hb : SameC c c' n b b') (v : V) : SameC c c' n (setC a t b v) (setC a' t b' v) := by
  by_cases hv : v = t <;> simp [setC, hv, h, hb]

omit [DecidableEq V] in
theorem SameC.eval {a a' : V → Nat → α} (h : ∀ v, SameC c c' n (a v) (a' v)) (e : Expr α V) :
    SameC c c' n (e.evalC c n a) (e.evalC c' n a') := by
  refine ⟨evalC_low c c' (fun v => (h v).1) e, fun ho => ?_⟩
  rw [evalC_order ho, show a = a' from funext fun v => (h v).2 ho]

omit [DecidableEq V] in
theorem SameC.cells {a a' b b' : Nat → α} (h : SameC c c' n a a') (h' : SameC c c' n b b') (o : AOp)
    (self : Bool) : SameC c c' n (o.cells c n self a b) (o.cells c' n self a' b') := by
  refine ⟨AOp.cells_low o self h.1 h'.1, fun ho => ?_⟩
  rw [AOp.cells_order ho, h.2 ho, h'.2 ho]

omit [CMath α] in
/-- A function of the old contents, cell by cell. -/
theorem SameC.point {a a' : Nat → α} (h : SameC c c' n a a') (F : (Nat → α) → Nat → α)
    (hF : ∀ k ≤ n, F a k = F a' k) : SameC c c' n (F a) (F a') := ⟨hF, fun ho => by rw [h.2 ho]⟩

theorem Stmt.cells_same {a a' : V → Nat → α} (h : ∀ v, SameC c c' n (a v) (a' v)) (s : Stmt α V)
    (v : V) :
    SameC c c' n (s.cells c n a v) (s.cells c' n a' v) := by
  have h0 : ∀ t, a t 0 = a' t 0 := fun t => (h t).1 0 (Nat.zero_le _)
  cases s with
  | assign t e => exact SameC.set h t (SameC.eval h e) v
  | upd o t e =>
    cases e with
    | var w => exact SameC.set h t ((h t).cells (h w) o _) v
    | _ => exact SameC.set h t ((h t).cells (SameC.eval h _) o _) v
  | updS o t s =>
    cases s with
    | cell k => exact h v
    | val s =>
      refine SameC.set h t ((h t).point (fun a => o.cellsS a s) fun k hk => ?_) v
      cases o <;> simp [AOp.cellsS, addSC, subSC, h0, (h t).1 k hk]
  | setF t x =>
    exact SameC.set h t ((h t).point (fun a k => if k = 0 then x else a k) fun k hk => by
      simp [(h t).1 k hk]) v
  | setG t i x =>
    exact SameC.set h t ((h t).point (fun a k => if k = 1 + i.toNat then x else a k) fun k hk => by
      simp [(h t).1 k hk]) v
  | setH t i j x =>
    exact SameC.set h t ((h t).point
      (fun a k => if k = pos n (min i j).toNat (max i j).toNat then x else a k) fun k hk => by
      simp [(h t).1 k hk]) v
  | setZero t => exact SameC.set h t ⟨fun _ _ => rfl, fun _ => rfl⟩ v

end cells

/-! ## The calls on one path, as a program with branches -/

section path

variable {S B T A : Type}

/-- Calls that were made: statements, and conditions with their results. -/
abbrev Path (S B : Type) := List (S ⊕ B × Bool)

/-- A program that never ends. -/
def stuck (b : B) : Ctl S B := .loop (.or (.atom b) (.not (.atom b))) .skip

/-- The path as a program that does not end if a condition has a different result. -/
def Path.ctl : Path S B → Ctl S B
  | [] => .skip
  | .inl s :: l => .seq (.act s) (Path.ctl l)
  | .inr (b, true) :: l => .ite (.atom b) (Path.ctl l) (stuck b)
  | .inr (b, false) :: l => .ite (.atom b) (stuck b) (Path.ctl l)

/-- Following a path: `step` and `test` say what statements and conditions do. -/
inductive Path.Goes (step : S → A → A → Prop) (test : B → A → Bool → Prop) : Path S B → A → A → Prop
  | nil (a : A) : Goes step test [] a a
  | act {s : S} {l : Path S B} {a a' a'' : A} (h : step s a a') (rest : Goes step test l a' a'') :
      Goes step test (.inl s :: l) a a''
  | ask {b : B} {r : Bool} {l : Path S B} {a a'' : A} (h : test b a r) (rest : Goes step test l a a'') :
      Goes step test (.inr (b, r) :: l) a a''

theorem Path.Goes.runs {step : S → A → A → Prop} {test : B → A → Bool → Prop} {l : Path S B} {a a' : A}
    (h : l.Goes step test a a') : Runs step test l.ctl a a' := by
  induction h with
  | nil a => exact .skip a
  | act h _ ih => exact .seq (.act h) ih
  | @ask b r l a a'' h _ ih =>
    cases r
    · exact .iteF (.atom h) ih
    · exact .iteT (.atom h) ih

theorem stuck_run (M : Machine S B T) (b : B) (st : T) {r : Bool} (h : M.test b st = .ok r) (k : Nat) :
    (stuck b : Ctl S B).run M k st = none := by
  have ht : (Test.or (.atom b) (.not (.atom b))).run M st = .ok true := by
    cases r <;> simp [Test.run, h]
  have : ∀ (f : T → Option (Res Unit × T)) (j : Nat), (∀ st, f st = some (.ok (), st)) →
      whileN ((Test.or (.atom b) (.not (.atom b))).run M) f j st = none := by
    intro f j hf
    induction j with
    | zero => rfl
    | succ j ih => simp only [whileN, ht, hf, ih]
  exact this _ _ fun st => rfl

theorem stuck_runs {step : S → A → A → Prop} {test : B → A → Bool → Prop} {b : B} {a a' : A}
    (hdet : ∀ r r', test b a r → test b a r' → r = r')
    (h : Runs step test (stuck b) a a') : False := by
  generalize hp : (stuck b : Ctl S B) = p at h
  induction h with
  | loopF ht =>
    unfold stuck at hp
    cases hp
    cases ht with
    | orF h1 h2 =>
      generalize hr : false = r at h2
      cases h2 with
      | not h3 =>
        cases h1 with
        | atom h1 =>
          cases h3 with
          | atom h3 => have := hdet _ _ h1 h3; subst this; cases hr
  | @loopT t p a a' a'' ht h h' ih ih' =>
    have hp' := hp
    unfold stuck at hp
    cases hp
    cases h
    exact ih' hdet rfl
  | _ => cases hp

theorem Path.goes_run {M : Machine S B T} {l : Path S B} {k : Nat} {st st' : T}
    (h : l.ctl.run M k st = some (.ok (), st')) :
    l.Goes (fun s st st' => M.step s st = (.ok (), st')) (fun b st r => M.test b st = .ok r) st st' := by
  induction l generalizing st with
  | nil => cases h; exact .nil _
  | cons x l ih =>
    rcases x with s | ⟨b, r⟩
    · simp only [Path.ctl, Ctl.run] at h
      rcases hs : M.step s st with ⟨x, st₁⟩
      rw [hs] at h
      cases x with
      | ok u => exact .act hs (ih h)
      | _ => cases h
    · cases r with
      | false =>
        simp only [Path.ctl, Ctl.run, Test.run] at h
        cases ht : M.test b st with
        | ok r =>
          rw [ht] at h
          cases r with
          | false => exact .ask ht (ih h)
          | true => simp only [stuck_run M b st ht] at h; cases h
        | _ => rw [ht] at h; cases h
      | true =>
        simp only [Path.ctl, Ctl.run, Test.run] at h
        cases ht : M.test b st with
        | ok r =>
          rw [ht] at h
          cases r with
          | true => exact .ask ht (ih h)
          | false => simp only [stuck_run M b st ht] at h; cases h
        | _ => rw [ht] at h; cases h

theorem Path.goes_runs {step : S → A → A → Prop} {test : B → A → Bool → Prop} {l : Path S B} {a a' : A}
    (hdet : ∀ b a r r', test b a r → test b a r' → r = r')
    (h : Runs step test l.ctl a a') : l.Goes step test a a' := by
  induction l generalizing a with
  | nil => cases h; exact .nil _
  | cons x l ih =>
    rcases x with s | ⟨b, r⟩
    · cases h with
      | seq h h' => cases h with | act h => exact .act h (ih h')
    · cases r with
      | false =>
        cases h with
        | iteT ht h => exact (stuck_runs (hdet b _) h).elim
        | iteF ht h => cases ht with | atom ht => exact .ask ht (ih h)
      | true =>
        cases h with
        | iteF ht h => exact (stuck_runs (hdet b _) h).elim
        | iteT ht h => cases ht with | atom ht => exact .ask ht (ih h)

variable {V Q : Type}

/-- The client code makes the calls of the path if it gets their results. -/
inductive Caller.Takes {α : Type} (cl : Caller (Call α V) (Answer α) Q) :
    Q → Path (Stmt α V) (Cond α V) → Q → Prop
  | stop {q : Q} (h : cl.next q = none) : Takes cl q [] q
  | act {q q' : Q} {s : Stmt α V} {l : Path (Stmt α V) (Cond α V)} (h : cl.next q = some (.act s))
      (rest : Takes cl (cl.after q .done) l q') : Takes cl q (.inl s :: l) q'
  | ask {q q' : Q} {b : Cond α V} {r : Bool} {l : Path (Stmt α V) (Cond α V)}
      (h : cl.next q = some (.ask b)) (rest : Takes cl (cl.after q (.truth r)) l q') :
      Takes cl q (.inr (b, r) :: l) q'

variable [DecidableEq V]

/-- The client code in another arithmetic follows the path if the library does. -/
theorem Caller.Takes.run {α : Type} [CMath α] {c : Cfg} {n : Nat}
    {cl : Caller (Call ℝ V) (Answer ℝ) Q} {q q' : Q} {l : Path (Stmt ℝ V) (Cond ℝ V)}
    (h : cl.Takes q l q') (enc : ℝ → α) (dec : α → ℝ) {ρ ρ' : Store α V}
    (hg : l.Goes (fun s st st' => (s.map enc).run c n st = (.ok (), st'))
      (fun b st r => (b.map enc).run c n st = .ok r) ρ ρ') (j : Nat) (hj : l.length < j) :
    (cl.map (Call.map enc) (Answer.map dec)).run (ddLibrary α V c n) j q ρ = some (.ok q', ρ') := by
  induction h generalizing ρ j with
  | stop h =>
    cases hg
    obtain ⟨j, rfl⟩ : ∃ i, j = i + 1 := ⟨j - 1, by omega⟩
    simp only [Caller.run, Caller.map, h, Option.map_none]
  | act h _ ih =>
    cases hg with
    | act hs rest =>
      obtain ⟨j, rfl⟩ : ∃ i, j = i + 1 := ⟨j - 1, by omega⟩
      simp only [Caller.run, Caller.map, h, Option.map_some, Call.map, ddLibrary, hs, Answer.of]
      exact ih rest j (by simp only [List.length_cons] at hj; omega)
  | ask h _ ih =>
    cases hg with
    | ask hs rest =>
      obtain ⟨j, rfl⟩ : ∃ i, j = i + 1 := ⟨j - 1, by omega⟩
      simp only [Caller.run, Caller.map, h, Option.map_some, Call.map, ddLibrary, hs, Answer.of]
      exact ih rest j (by simp only [List.length_cons] at hj; omega)

/-- A run on real values follows a path. -/
theorem Caller.Ends.path {order n : Nat} {cl : Caller (Call ℝ V) (Answer ℝ) Q} {q q' : Q} {σ σ' : V → ℝ}
    (h : cl.Ends (SureCall order n) q σ q' σ') :
    ∃ l, cl.Takes q l q' ∧ l.Goes (fun s σ σ' => s.Ok order n σ ∧ σ' = s.den σ)
        (fun b σ r => b.Sure order σ ∧ (r = true ↔ b.Holds σ)) σ σ' := by
  induction h with
  | stop h => exact ⟨[], .stop h, .nil _⟩
  | call h hk _ ih =>
    obtain ⟨l, h1, h2⟩ := ih
    cases hk with
    | act s _ hs => exact ⟨_, .act h h1, .act ⟨hs, rfl⟩ h2⟩
    | ask b _ hb hr => exact ⟨_, .ask h h1, .ask ⟨hb, hr⟩ h2⟩

theorem Caller.Ends.precisePath {order n : Nat} {cl : Caller (Call ℝ V) (Answer ℝ) Q} {q q' : Q}
    {σ σ' : V → ℝ} (h : cl.Ends (PreciseCall order n) q σ q' σ') :
    ∃ l, cl.Takes q l q' ∧
      l.Goes (fun s σ σ' => (s.Ok order n σ ∧ s.PowPos σ) ∧ σ' = s.den σ)
        (fun b σ r => (b.Sure order σ ∧ b.PowPos σ) ∧ (r = true ↔ b.Holds σ)) σ σ' := by
  induction h with
  | stop h => exact ⟨[], .stop h, .nil _⟩
  | call h hk _ ih =>
    obtain ⟨l, h1, h2⟩ := ih
    obtain ⟨hk, hp⟩ := hk
    cases hk with
    | act s _ hs => exact ⟨_, .act h h1, .act ⟨⟨hs, hp⟩, rfl⟩ h2⟩
    | ask b _ hb hr => exact ⟨_, .ask h h1, .ask ⟨⟨hb, hp⟩, hr⟩ h2⟩

/-- The client code on real values along a path. -/
theorem Caller.Takes.ends {cl : Caller (Call ℝ V) (Answer ℝ) Q} {q q' : Q}
    {l : Path (Stmt ℝ V) (Cond ℝ V)} (h : cl.Takes q l q') {σ σ' : V → ℝ}
    (hg : l.Goes (fun s σ σ' => σ' = s.den σ) (fun b σ r => r = true ↔ b.Holds σ) σ σ') :
    cl.Ends RealCall q σ q' σ' := by
  induction h generalizing σ with
  | stop h => cases hg; exact .stop h
  | act h _ ih =>
    cases hg with
    | act hs rest => subst hs; exact .call h (.act _ _) (ih rest)
  | ask h _ ih =>
    cases hg with
    | ask hs rest => exact .call h (.ask _ _ hs) (ih rest)

end path

theorem Caller.Ends.mono {C R Q A : Type} {cl : Caller C R Q} {call call' : C → A → R → A → Prop}
    (hc : ∀ k a r a', call k a r a' → call' k a r a') {q q' : Q} {a a' : A}
    (h : cl.Ends call q a q' a') : cl.Ends call' q a q' a' := by
  induction h with
  | stop h => exact .stop h
  | call h hk _ ih => exact .call h (hc _ _ _ _ hk) ih

end HJ
