import Verif.Spec.Program
import Verif.Props.Calculus
import Verif.Props.Algebra
import Verif.Props.Shape
import Verif.Props.Matrix
import Verif.Props.Access

/-!
# C01, C21, C37: programs with in-place updates
-/

namespace HJ

section c37

variable {α V : Type} [DecidableEq V]

theorem Store.set_ne (ρ : Store α V) {t v : V} (x : DD α) (h : v ≠ t) : ρ.set t x v = ρ v := by
  simp [Store.set, h]
theorem Store.set_eq (ρ : Store α V) (t : V) (x : DD α) : ρ.set t x t = x := by
  simp [Store.set]
theorem Store.set_same (ρ : Store α V) (t : V) : ρ.set t (ρ t) = ρ := by
  funext v
  by_cases h : v = t
  · rw [h, Store.set_eq]
  · rw [Store.set_ne _ _ h]

theorem Store.put_ne (ρ : Store α V) {t v : V} (r : Res (DD α)) (h : v ≠ t) :
    (ρ.put t r).2 v = ρ v := by
  cases r <;> simp [Store.put, Store.set_ne _ _ h]

/-- **C37, one statement.** Whatever its outcome, a statement changes no object but its target. -/
theorem C37_only_target [CMath α] (c : Cfg) (n : Nat) (ρ : Store α V) (s : Stmt α V) (v : V)
    (h : v ≠ s.target) : (s.run c n ρ).2 v = ρ v := by
  cases s with
  | assign t e => exact ρ.put_ne _ h
  | upd o t e =>
    simp only [Stmt.run]
    split
    · exact ρ.set_ne _ h
    all_goals rfl
  | updS o t s => exact ρ.set_ne _ h
  | setF t x => exact ρ.put_ne _ h
  | setG t i x => exact ρ.put_ne _ h
  | setH t i j x => exact ρ.put_ne _ h
  | setZero t => exact ρ.put_ne (.ok _) h

/-- **C37, programs.** Whatever the outcome of a program, the objects that are not the target of one
of its statements are unchanged. -/
theorem C37_program [CMath α] (c : Cfg) (n : Nat) (p : List (Stmt α V)) (ρ : Store α V) (v : V)
    (h : ∀ s ∈ p, v ≠ s.target) : (runProg c n p ρ).2 v = ρ v := by
  induction p generalizing ρ with
  | nil => rfl
  | cons s p ih =>
    have h1 := C37_only_target c n ρ s v (h s (by simp))
    unfold runProg
    split
    · next ρ' hs =>
      rw [ih ρ' fun s' hs' => h s' (by simp [hs']), ← h1, hs]
    · exact h1

/-- The computation does not throw. -/
structure NoThrow {A : Type} (r : Res A) : Prop where
  ne : ∀ e, r ≠ .throw e

theorem NoThrow.ok {A : Type} (a : A) : NoThrow (.ok a) := ⟨fun _ h => by cases h⟩
theorem NoThrow.ub {A : Type} (u : UB) : NoThrow (.ub u : Res A) := ⟨fun _ h => by cases h⟩
theorem NoThrow.abort {A : Type} : NoThrow (.abort : Res A) := ⟨fun _ h => by cases h⟩
theorem NoThrow.bind {A B : Type} {r : Res A} {k : A → Res B} (h : NoThrow r)
    (hk : ∀ a, NoThrow (k a)) : NoThrow (r >>= k) := by
  cases r with
  | ok a => exact hk a
  | throw e => exact absurd rfl (h.ne e)
  | abort => exact .abort
  | ub u => exact .ub u
theorem NoThrow.ite {A : Type} {p : Prop} [Decidable p] {r s : Res A} (h1 : NoThrow r)
    (h2 : NoThrow s) : NoThrow (if p then r else s) := by split <;> assumption
theorem NoThrow.rd (d : Data α) (i : Int) : NoThrow (rd d i) := by
  unfold HJ.rd
  refine .ite (.ub _) ?_
  split
  · exact .ub _
  · exact .ub _
  · exact .ok _
theorem NoThrow.wr (d : Data α) (i : Int) (v : α) : NoThrow (wr d i v) := .ite (.ub _) (.ok _)
theorem NoThrow.addrOf (d : Data α) (i : Int) : NoThrow (addrOf d i) := .ite (.ub _) (.ok _)
theorem NoThrow.need (z : Option α) : NoThrow (needScalar z) := by
  cases z
  · exact .ub _
  · exact .ok _
theorem NoThrow.forUp {σ : Type} {body : Int → σ → Res σ} (h : ∀ i s, NoThrow (body i s))
    (lo hi : Int) (s : σ) : NoThrow (forUp lo hi s body) := by
  unfold HJ.forUp
  generalize (hi - lo).toNat = m
  induction m generalizing lo s with
  | zero => exact .ok _
  | succ m ih => exact (h lo s).bind fun s' => ih (lo + 1) s'

theorem finish_throw {x x' : DD α} {r : Res (Data α)} {e : Err}
    (h : DD.finish x r = (.throw e, x')) : x' = x ∧ r = .throw e := by
  cases r <;> simp_all [DD.finish]

theorem checked_throw {c : Cfg} {x x' : DD α} {b : DD.Operand α} {r : Res (Data α)} {e : Err}
    (h : DD.checked c x b r = (.throw e, x')) :
    x' = x ∧ (checkEqualSize c (x.size c) (b.size c x) = .throw e ∨ r = .throw e) := by
  unfold DD.checked at h
  split at h
  · next h1 => exact ⟨(finish_throw h).1, Or.inr (finish_throw h).2⟩
  · next h1 => simp only [Prod.mk.injEq, Res.throw.injEq] at h; exact ⟨h.2.symm, Or.inl (by rw [h1, h.1])⟩
  · simp at h
  · simp at h

theorem binary_noThrow [Arith α] (c : Cfg) (inc : Bool) (self : DD α) (a : Data α) (b : Src α)
    (f : α) (da db daa dab dbb : Coef α) (r : Data α) :
    NoThrow (binary c inc self a b f da db daa dab dbb r) := by
  unfold binary
  refine .bind (.wr ..) fun r => .ite (.ok _) (.bind (.forUp (fun i r => ?_) ..) fun r =>
    .ite (.ok _) (.bind (.forUp (fun i kr => ?_) ..) fun _ => .ok _))
  · refine .bind (.rd ..) fun _ => .bind (.rd ..) fun _ => .bind (.need _) fun _ => ?_
    split
    · exact .bind (.rd ..) fun _ => .wr ..
    · exact .wr ..
  · refine .bind (.rd ..) fun _ => .bind (.rd ..) fun _ => .forUp (fun j kr => ?_) ..
    exact .bind (.rd ..) fun _ => .bind (.rd ..) fun _ => .bind (.need _) fun _ =>
      .bind (.rd ..) fun _ => .bind (.wr ..) fun _ => .ok _

/-- **C37, exceptions come before the first write.** An in-place update with a jet can only throw in
the size check it starts with, one with a scalar not at all. -/
theorem C37_throws_before_writing [Arith α] (c : Cfg) (o : AOp) (x : DD α) :
    (∀ b e, (o.run c x b).1 = .throw e → checkEqualSize c (x.size c) (b.size c x) = .throw e) ∧
    (∀ s e, (o.runS x s).1 ≠ .throw e) := by
  constructor
  · intro b e h
    have key : ∀ r : Res (Data α), NoThrow r → (DD.checked c x b r).1 = .throw e →
        checkEqualSize c (x.size c) (b.size c x) = .throw e := by
      intro r hr h
      have h' : DD.checked c x b r = (.throw e, (DD.checked c x b r).2) := by rw [← h]
      exact (checked_throw h').2.resolve_right (hr.ne e)
    cases o with
    | add => exact key _ (.forUp (fun i d => .bind (.rd ..) fun _ => .bind (.rd ..) fun _ =>
        .wr ..) ..) h
    | sub => exact key _ (.forUp (fun i d => .bind (.rd ..) fun _ => .bind (.rd ..) fun _ =>
        .wr ..) ..) h
    | mul =>
      refine key _ ?_ h
      refine .bind (.rd ..) fun _ => .bind (.rd ..) fun _ => .bind (.rd ..) fun _ =>
        .bind (.rd ..) fun _ => .bind (.wr ..) fun _ => .bind (.forUp (fun i d => ?_) ..) fun _ =>
        .ite (.ok _) (.bind (.addrOf ..) fun _ => .bind (.forUp (fun i d => ?_) ..) fun _ => .ok _)
      · exact .bind (.rd ..) fun _ => .bind (.rd ..) fun _ => .wr ..
      · refine .forUp (fun j d => ?_) ..
        exact .bind (.rd ..) fun _ => .bind (.rd ..) fun _ => .bind (.rd ..) fun _ =>
          .bind (.rd ..) fun _ => .bind (.rd ..) fun _ => .bind (.wr ..) fun _ => .ok _
    | div =>
      refine key _ ?_ h
      exact .bind (.rd ..) fun _ => .bind (.rd ..) fun _ => binary_noThrow ..
  · intro s e
    have hs : ∀ d : Data α, NoThrow (s.get d) := by
      intro d; cases s
      · exact .ok _
      · exact .rd ..
    have key : ∀ r : Res (Data α), NoThrow r → (DD.finish x r).1 ≠ .throw e := by
      intro r hr h
      have h' : DD.finish x r = (.throw e, (DD.finish x r).2) := by rw [← h]
      exact hr.ne e (finish_throw h').2
    have hm : ∀ t : DD.SRef α, (∀ d : Data α, NoThrow (t.get d)) →
        (DD.mulAssignS x t).1 ≠ .throw e := fun t ht =>
      key _ (.forUp (fun i d => .bind (.rd ..) fun _ => .bind (ht _) fun _ => .wr ..) ..)
    cases o with
    | add => exact key _ (.bind (.rd ..) fun _ => .bind (hs _) fun _ => .wr ..)
    | sub => exact key _ (.bind (.rd ..) fun _ => .bind (hs _) fun _ => .wr ..)
    | mul => exact hm s hs
    | div =>
      simp only [AOp.runS, DD.divAssignS]
      cases h : s.get x.mData with
      | ok w => exact hm (.val _) fun _ => .ok _
      | throw e' => exact absurd h ((hs _).ne e')
      | abort => simp
      | ub u => simp

/-- **C37, throwing statements.** A statement that throws changes nothing at all. -/
theorem C37_throw_changes_nothing [CMath α] (c : Cfg) (n : Nat) (ρ ρ' : Store α V) (s : Stmt α V)
    (e : Err) (h : s.run c n ρ = (.throw e, ρ')) : ρ' = ρ := by
  have hput : ∀ (t : V) (r : Res (DD α)), ρ.put t r = (.throw e, ρ') → ρ' = ρ := by
    intro t r hr
    cases r <;> simp_all [Store.put]
  have hch : ∀ (t : V) (r : Res Unit × DD α), (∀ e, r.1 = .throw e → r.2 = ρ t) →
      ρ.change t r = (.throw e, ρ') → ρ' = ρ := by
    intro t r h1 h2
    simp only [Store.change, Prod.mk.injEq] at h2
    rw [← h2.2, h1 e h2.1, Store.set_same]
  cases s with
  | assign t e' => exact hput _ _ h
  | upd o t e' =>
    simp only [Stmt.run] at h
    split at h
    · next b _ =>
      refine hch t _ (fun e hr => ?_) h
      have hr' : o.run c (ρ t) b = (.throw e, (o.run c (ρ t) b).2) := by rw [← hr]
      cases o <;> exact (checked_throw hr').1
    · simp only [Prod.mk.injEq] at h; exact h.2.symm
    · simp at h
    · simp at h
  | updS o t s' =>
    exact hch t _ (fun e hr => absurd hr ((C37_throws_before_writing c o (ρ t)).2 s' e)) h
  | setF t x => exact hput _ _ h
  | setG t i x => exact hput _ _ h
  | setH t i j x => exact hput _ _ h
  | setZero t => exact hput t (.ok _) h

end c37

section c01

variable {α V : Type} [DecidableEq V] {c : Cfg} {n : Nat}

/-- `L` cells, all initialised. -/
def Keep (L : Nat) (d : Data α) : Prop := d.length = L ∧ ∀ cell ∈ d, cell ≠ none

theorem Keep.wr {L : Nat} {d d' : Data α} {i : Int} {v : α} (h : Keep L d) (hw : wr d i v = .ok d') :
    Keep L d' := by
  unfold HJ.wr at hw
  split at hw
  · cases hw
  · cases hw
    refine ⟨by simp [h.1], fun cell hc => ?_⟩
    rcases List.mem_or_eq_of_mem_set hc with hc | hc
    · exact h.2 _ hc
    · simp [hc]

theorem forUp_keep {σ : Type} (P : σ → Prop) {body : Int → σ → Res σ}
    (step : ∀ i s s', P s → body i s = .ok s' → P s') {lo hi : Int} {s s' : σ} (h : P s)
    (hr : forUp lo hi s body = .ok s') : P s' := by
  unfold forUp at hr
  generalize (hi - lo).toNat = m at hr
  induction m generalizing lo s with
  | zero => simp only [iter, Res.ok.injEq] at hr; rwa [← hr]
  | succ m ih =>
    simp only [iter] at hr
    obtain ⟨t, h1, h2⟩ := Res.bind_eq_ok.1 hr
    exact ih (step _ _ _ h h1) h2

theorem WF.keep {x : DD α} (h : WF c n x) : Keep (storedLen c.order n) x.mData := ⟨h.len, h.init⟩

theorem WF.replace {x : DD α} (h : WF c n x) {d : Data α} (hd : Keep (storedLen c.order n) d) :
    WF c n { x with mData := d } := ⟨h.fits, h.msize, hd.1, hd.2⟩

theorem finish_wf {x x' : DD α} (h : WF c n x) {r : Res (Data α)}
    (hr : ∀ d, r = .ok d → Keep (storedLen c.order n) d) (hf : DD.finish x r = (.ok (), x')) :
    WF c n x' := by
  cases r <;> simp only [DD.finish, Prod.mk.injEq, reduceCtorEq, false_and, true_and] at hf
  rw [← hf]
  exact h.replace (hr _ rfl)

theorem runS_wf [Arith α] {x x' : DD α} (h : WF c n x) (o : AOp) (s : DD.SRef α)
    (hr : o.runS x s = (.ok (), x')) : WF c n x' := by
  have hm : ∀ t : DD.SRef α, DD.mulAssignS x t = (.ok (), x') → WF c n x' := by
    intro t ht
    refine finish_wf h (fun d hd => ?_) ht
    refine forUp_keep (Keep _) (fun i d d' hd hb => ?_) h.keep hd
    obtain ⟨_, _, hb⟩ := Res.bind_eq_ok.1 hb
    obtain ⟨_, _, hb⟩ := Res.bind_eq_ok.1 hb
    exact hd.wr hb
  cases o with
  | add =>
    refine finish_wf h (fun d hd => ?_) hr
    obtain ⟨_, _, hb⟩ := Res.bind_eq_ok.1 hd
    obtain ⟨_, _, hb⟩ := Res.bind_eq_ok.1 hb
    exact h.keep.wr hb
  | sub =>
    refine finish_wf h (fun d hd => ?_) hr
    obtain ⟨_, _, hb⟩ := Res.bind_eq_ok.1 hd
    obtain ⟨_, _, hb⟩ := Res.bind_eq_ok.1 hb
    exact h.keep.wr hb
  | mul => exact hm s hr
  | div =>
    simp only [AOp.runS, DD.divAssignS] at hr
    split at hr
    · exact hm _ hr
    all_goals simp at hr

/-- The outcome of an update with a jet of the same size. -/
theorem run_wf [Arith α] (hv : c.Valid) {x : DD α} (hx : WF c n x) (o : AOp) (b : DD.Operand α)
    (hb : ∀ y, b = .obj y → WF c n y) :
    (∃ x', o.run c x b = (.ok (), x') ∧ WF c n x') ∨
      (o = .mul ∧ c.order = 2 ∧ n = 0 ∧ ∃ u, (o.run c x b).1 = .ub u) := by
  obtain ⟨hf, a, rfl⟩ := hx.eq_obj hv.order
  have hok : ∀ a' : Nat → α, o.run c (obj c n a) b = (.ok (), obj c n a') →
      ∃ x', o.run c (obj c n a) b = (.ok (), x') ∧ WF c n x' :=
    fun a' h => ⟨_, h, wf_obj hv.order hf a'⟩
  cases b with
  | self =>
    cases o with
    | add => exact Or.inl (hok _ (addAssign_self a))
    | sub => exact Or.inl (hok _ (subAssign_self a))
    | mul =>
      by_cases hn : c.order = 2 → 0 < n
      · exact Or.inl (hok _ (mulAssign_self hv.order hn hf a))
      · have h2 : c.order = 2 := by omega
        have h0 : n = 0 := by omega
        subst h0
        refine Or.inr ⟨rfl, h2, rfl, ?_⟩
        obtain ⟨u, z, h⟩ := (C22_violated_mul_assign_size0 h2 (wf_obj hv.order hf a)
          (wf_obj hv.order hf a)).2
        have hl : dlen c 0 = 1 := by rw [dlen_two h2]; rfl
        refine ⟨.outOfBounds, ?_⟩
        simp only [AOp.run]
        unfold DD.mulAssign DD.checked
        simp only [DD.Operand.size, checkEqualSize_self]
        simp only [DD.Operand.src, Src.get]
        rw [rd_obj0]
        simp only [Res.ok_bind, data_obj]
        rw [wr_mk0 (ψ := fl fun k => if k = 0 then a 0 *ₛ a 0 else a k)]
        · simp only [Res.ok_bind, mk_length, hl]
          rw [forUp_empty (by simp)]
          simp only [Res.ok_bind, h2, show ¬ (2 : Nat) = 1 by decide, if_false, size_obj hf]
          rfl
        · intro m _; by_cases h : m = 0 <;> simp [fl, h]
    | div => exact Or.inl (hok _ (divAssign_self hv.order hf a))
  | obj y =>
    obtain ⟨_, b, rfl⟩ := (hb y rfl).eq_obj hv.order
    cases o with
    | add => exact Or.inl (hok _ (addAssign_obj hf a b))
    | sub => exact Or.inl (hok _ (subAssign_obj hf a b))
    | mul =>
      by_cases hn : c.order = 2 → 0 < n
      · exact Or.inl (hok _ (mulAssign_obj hv.order hn hf a b))
      · have h2 : c.order = 2 := by omega
        have h0 : n = 0 := by omega
        subst h0
        obtain ⟨u, z, h⟩ := (C22_violated_mul_assign_size0 h2 (wf_obj hv.order hf a)
          (wf_obj hv.order hf b)).2
        exact Or.inr ⟨rfl, h2, rfl, u, by simp only [AOp.run]; rw [h]⟩
    | div => exact Or.inl (hok _ (divAssign_obj hv.order hf a b))

theorem Store.set_wf {ρ : Store α V} (h : ∀ v, WF c n (ρ v)) {t : V} {x : DD α} (hx : WF c n x)
    (v : V) : WF c n (ρ.set t x v) := by
  unfold Store.set
  split
  · exact hx
  · exact h v

theorem operand_wf [CMath α] (hv : c.Valid) (hf : c.tsize = -1 ∨ c.tsize = n) {ρ : Store α V}
    (h : ∀ v, WF c n (ρ v)) (t : V) (e : Expr α V) :
    ∃ b, ρ.operand c n t e = .ok b ∧ ∀ y, b = .obj y → WF c n y := by
  obtain ⟨r, h1, h2⟩ := C19_no_undefined_behaviour hv hf h e
  cases e with
  | var s =>
    by_cases hs : s = t
    · exact ⟨.self, by simp [Store.operand, hs], fun y hy => by cases hy⟩
    · exact ⟨.obj (ρ s), by simp [Store.operand, hs], fun y hy => by cases hy; exact h s⟩
  | _ => exact ⟨.obj r, by simp only [Store.operand, h1, Res.ok_bind], fun y hy => by cases hy; exact h2⟩

/-- **C01, programs.** Whatever statements are executed on jets of `n` variables (also ones with
aliasing, with out-of-range indices, …): as long as they end normally, every object stays well
formed. -/
theorem C01_programs [CMath α] (hv : c.Valid) (hf : c.tsize = -1 ∨ c.tsize = n)
    (p : List (Stmt α V)) (ρ ρ' : Store α V) (h : ∀ v, WF c n (ρ v))
    (hr : runProg c n p ρ = (.ok (), ρ')) (v : V) :
    WF c n (ρ' v) ∧ (ρ' v).size c = n ∧
      (ρ' v).mData.length = (if c.order = 1 then 1 + n else (n + 1) * (n + 2) / 2) ∧
      ∀ k : Nat, k < (ρ' v).mData.length → ∃ w, rd (ρ' v).mData k = .ok w := by
  suffices hw : WF c n (ρ' v) by
    refine ⟨hw, ?_⟩
    obtain ⟨J, hJ⟩ := hw.shows hv.order
    refine ⟨hJ.size, hw.len, ?_⟩
    intro k hk
    obtain ⟨_, a, ha⟩ := hw.eq_obj hv.order
    rw [ha] at hk ⊢
    exact ⟨a k, rd_obj k rfl (by simpa [obj] using hk)⟩
  induction p generalizing ρ with
  | nil => simp only [runProg, Prod.mk.injEq, true_and] at hr; rw [← hr]; exact h v
  | cons s p ih =>
    unfold runProg at hr
    have hput : ∀ (t : V) (r : Res (DD α)) (ρ₁ : Store α V), ρ.put t r = (.ok (), ρ₁) →
        (∀ x, r = .ok x → WF c n x) → ∀ v, WF c n (ρ₁ v) := by
      intro t r ρ₁ h1 h2
      cases r <;> simp only [Store.put, Prod.mk.injEq, reduceCtorEq, false_and, true_and] at h1
      rw [← h1]
      exact Store.set_wf h (h2 _ rfl)
    split at hr
    · next ρ₁ hs =>
      refine ih ρ₁ ?_ hr
      cases s with
      | assign t e =>
        obtain ⟨r, h1, h2⟩ := C19_no_undefined_behaviour hv hf h e
        exact hput t _ ρ₁ hs fun x hx => by rw [h1] at hx; cases hx; exact h2
      | upd o t e =>
        obtain ⟨b, hb, hb'⟩ := operand_wf hv hf h t e
        simp only [Stmt.run, hb, Store.change, Prod.mk.injEq] at hs
        rcases run_wf hv (h t) o b hb' with ⟨x', h1, h2⟩ | ⟨_, _, _, u, h1⟩
        · rw [← hs.2, h1]; exact Store.set_wf h h2
        · rw [h1] at hs; cases hs.1
      | updS o t s =>
        simp only [Stmt.run, Store.change, Prod.mk.injEq] at hs
        rw [← hs.2]
        exact Store.set_wf h (runS_wf (h t) o s (by rw [← hs.1]))
      | setF t x =>
        refine hput t _ ρ₁ hs fun y hy => ?_
        unfold DD.setF at hy
        obtain ⟨d, h1, h2⟩ := Res.bind_eq_ok.1 hy
        cases h2
        exact (h t).replace ((h t).keep.wr h1)
      | setG t i x =>
        refine hput t _ ρ₁ hs fun y hy => ?_
        unfold DD.setG at hy
        obtain ⟨_, _, hy⟩ := Res.bind_eq_ok.1 hy
        obtain ⟨d, h1, h2⟩ := Res.bind_eq_ok.1 hy
        cases h2
        exact (h t).replace ((h t).keep.wr h1)
      | setH t i j x =>
        refine hput t _ ρ₁ hs fun y hy => ?_
        unfold DD.setH at hy
        obtain ⟨_, _, hy⟩ := Res.bind_eq_ok.1 hy
        obtain ⟨_, _, hy⟩ := Res.bind_eq_ok.1 hy
        obtain ⟨d, h1, h2⟩ := Res.bind_eq_ok.1 hy
        cases h2
        exact (h t).replace ((h t).keep.wr h1)
      | setZero t =>
        refine hput t (.ok _) ρ₁ hs fun y hy => ?_
        cases hy
        refine (h t).replace ⟨by simp [(h t).len], ?_⟩
        intro cell hc
        rw [List.mem_map] at hc
        obtain ⟨_, _, rfl⟩ := hc
        simp
    · next hne => exact absurd hr (by
        rintro hr
        exact hne ρ' hr)

/-- An assignment, in-place update or setter with valid indices; no `*=` on second-order jets
without variables. -/
def Stmt.Plain (c : Cfg) (n : Nat) : Stmt α V → Prop
  | .assign _ _ => True
  | .upd o _ _ => o = .mul → c.order = 2 → 0 < n
  | .updS _ _ (.val _) => True
  | .setF _ _ => True
  | .setZero _ => True
  | .setG _ i _ => 0 ≤ i ∧ i < n
  | .setH _ i j _ => c.order = 2 ∧ 0 ≤ i ∧ i < n ∧ 0 ≤ j ∧ j < n
  | _ => False

/-- **C19, programs.** Assignments, in-place updates (also with the same object on both sides) and
setters on jets of `n` variables end normally: no undefined behaviour, no exception, no failed assertion. -/
theorem C19_programs [CMath α] (hv : c.Valid) (hf : c.tsize = -1 ∨ c.tsize = n)
    (p : List (Stmt α V)) (hp : ∀ s ∈ p, s.Plain c n) (ρ : Store α V) (h : ∀ v, WF c n (ρ v)) :
    ∃ ρ', runProg c n p ρ = (.ok (), ρ') ∧ ∀ v, WF c n (ρ' v) := by
  suffices hs : ∃ ρ', runProg c n p ρ = (.ok (), ρ') by
    obtain ⟨ρ', hr⟩ := hs
    exact ⟨ρ', hr, fun v => (C01_programs hv hf p ρ ρ' h hr v).1⟩
  induction p generalizing ρ with
  | nil => exact ⟨ρ, rfl⟩
  | cons s p ih =>
    have h1 : ∃ ρ₁, s.run c n ρ = (.ok (), ρ₁) := by
      have hs := hp s (by simp)
      cases s with
      | assign t e =>
        obtain ⟨r, h1, _⟩ := C19_no_undefined_behaviour hv hf h e
        exact ⟨_, by simp only [Stmt.run, h1]; rfl⟩
      | upd o t e =>
        obtain ⟨b, hb, hb'⟩ := operand_wf hv hf h t e
        rcases run_wf hv (h t) o b hb' with ⟨x', h1, h2⟩ | ⟨h2, h3, h4, _⟩
        · exact ⟨_, by simp only [Stmt.run, hb, Store.change, h1]; rfl⟩
        · exact absurd (hs h2 h3) (by omega)
      | updS o t s =>
        cases s with
        | cell k => exact hs.elim
        | val s =>
          obtain ⟨_, a, ha⟩ := (h t).eq_obj hv.order
          simp only [Stmt.run, Store.change, ha]
          cases o with
          | add => exact ⟨_, by simp only [AOp.runS, addAssignS_obj]; rfl⟩
          | sub => exact ⟨_, by simp only [AOp.runS, subAssignS_obj]; rfl⟩
          | mul => exact ⟨_, by simp only [AOp.runS, mulAssignS_obj]; rfl⟩
          | div => exact ⟨_, by simp only [AOp.runS, divAssignS_obj]; rfl⟩
      | setF t x =>
        obtain ⟨_, a, ha⟩ := (h t).eq_obj hv.order
        exact ⟨_, by simp only [Stmt.run, ha, setF_obj]; rfl⟩
      | setG t i x =>
        obtain ⟨J, hJ⟩ := (h t).shows hv.order
        obtain ⟨k, rfl⟩ : ∃ k : Nat, i = k := ⟨i.toNat, by have := hs.1; omega⟩
        obtain ⟨y, hy, _⟩ := (C03_framed_writes hv hJ x).2.1 k (by have := hs.2; omega)
        exact ⟨_, by simp only [Stmt.run, hy]; rfl⟩
      | setH t i j x =>
        obtain ⟨J, hJ⟩ := (h t).shows hv.order
        obtain ⟨h2, hi, hi', hj, hj'⟩ := hs
        obtain ⟨k, rfl⟩ : ∃ k : Nat, i = k := ⟨i.toNat, by omega⟩
        obtain ⟨l, rfl⟩ : ∃ l : Nat, j = l := ⟨j.toNat, by omega⟩
        obtain ⟨y, hy, _⟩ := (C03_framed_writes hv hJ x).2.2.1 h2 k l (by omega) (by omega)
        exact ⟨_, by simp only [Stmt.run, hy]; rfl⟩
      | setZero t => exact ⟨_, rfl⟩
    obtain ⟨ρ₁, h1⟩ := h1
    have hwf : ∀ v, WF c n (ρ₁ v) := fun v =>
      (C01_programs hv hf [s] ρ ρ₁ h (by simp [runProg, h1]) v).1
    obtain ⟨ρ', h2⟩ := ih (fun s' hs' => hp s' (by simp [hs'])) ρ₁ hwf
    exact ⟨ρ', by simp only [runProg, h1, h2]⟩

/-- **C01, imports.** `from_gradient` and `from_arrays` give well formed jets. -/
theorem C01_imports [Arith α] (hf : c.tsize = -1 ∨ c.tsize = (n : Int)) (v : α) {g : List α}
    (hg : g.length = n) :
    (c.order = 1 → ∃ x, DD.fromGradient c v g = .ok x ∧ WF c n x ∧ x.size c = n ∧
      x.mData.length = 1 + n) ∧
    (c.order = 2 → ∀ {M : DD.Mat α} {H : Nat → Nat → α}, IsMat n M H →
      ∃ x, DD.fromArrays c v g M = .ok x ∧ WF c n x ∧ x.size c = n ∧
        x.mData.length = (n + 1) * (n + 2) / 2) := by
  subst hg
  constructor
  · intro h1
    obtain ⟨x, e, hw, _⟩ := C11_from_gradient h1 hf v
    obtain ⟨J, hJ⟩ := hw.shows (Or.inl h1)
    exact ⟨x, e, hw, hJ.size, by rw [hw.len]; simp [storedLen, h1]⟩
  · intro h2 M H hM
    obtain ⟨x, e, _, hs⟩ := C11_from_arrays h2 hf v hM
    exact ⟨x, e, hs.wf, hs.size, by rw [hs.wf.len]; simp [storedLen, h2]⟩

example : ∃ x, DD.fromGradient exDyn1 (10 : ℚ) [20, 30, 40] = .ok x ∧ x.mData.length = 4 := by
  obtain ⟨x, h1, _, _, h2⟩ := (C01_imports (c := exDyn1) (Or.inl rfl) (10 : ℚ) (g := [20, 30, 40]) rfl).1 rfl
  exact ⟨x, h1, h2⟩

end c01

/-! ### C21 -/

section c21

open XReal

variable {V : Type} [DecidableEq V] {c : Cfg} {n : Nat}

theorem XReal.add_comm' (p q : XReal) : p +ₛ q = q +ₛ p := by
  cases p <;> cases q <;> simp [Arith.add, XReal.add, add_comm]
  rename_i s t
  by_cases h : s = t
  · simp [h]
  · simp [h, Ne.symm h]

theorem XReal.mul_comm' (p q : XReal) : p *ₛ q = q *ₛ p := by
  cases p <;> cases q <;> simp [Arith.mul, XReal.mul, mul_comm]
  rename_i s t
  cases s <;> cases t <;> rfl

theorem XReal.sub_eq' (p q : XReal) : p -ₛ q = p +ₛ -ₛ q := rfl

/-- The operator of an update. -/
def AOp.bin : AOp → Bin
  | .add => .add | .sub => .sub | .mul => .mul | .div => .div

/-- The operator of an update with a scalar. -/
def AOp.sbin : AOp → SBin
  | .add => .addS | .sub => .subS | .mul => .mulS | .div => .divS

theorem divSelf_good {a : Nat → XReal} {J : Jet ℝ} (hc : c.order = 1 ∨ c.order = 2)
    (ha : Good c n a J) (h0 : J.f ≠ 0) :
    obj c n (divSelfC c n a (a 0 ÷ₛ a 0)
      (Arith.lit 1 ÷ₛ a 0) (-ₛ a 0 ÷ₛ Arith.powN (a 0) 2) (Arith.lit (-1) ÷ₛ Arith.powN (a 0) 2)
      (Arith.lit 2 *ₛ a 0 ÷ₛ Arith.powN (a 0) 3)) =
    obj c n (divC c n a a (a 0 *ₛ (Arith.lit 1 ÷ₛ a 0))
      (Arith.lit 1 ÷ₛ a 0) (-ₛ a 0 ÷ₛ Arith.powN (a 0) 2) (Arith.lit (-1) ÷ₛ Arith.powN (a 0) 2)
      (Arith.lit 2 *ₛ a 0 ÷ₛ Arith.powN (a 0) 3)) := by
  have h2 : J.f ^ 2 ≠ 0 := pow_ne_zero _ h0
  have h3 : J.f ^ 3 ≠ 0 := pow_ne_zero _ h0
  apply obj_ext' hc
  · simp [divSelfC, divC, bFin_zero, ha.f, div_num h0, h0]
  · intro i hi
    simp only [divSelfC, divC]
    rw [bFin_succ _ _ _ _ hi, bFin_succ _ _ _ _ hi]
  · intro h2' i j hij hj
    have hi : i < n := by omega
    simp only [divSelfC, divC]
    rw [bFin_pos h2' _ _ _ hij hj, bFin_pos h2' _ _ _ hij hj]
    simp only [ha.f, ha.g i hi, ha.g j hj, ha.h h2' i j hij hj, lit_num, neg_num, powN_num, mul_num,
      div_num h0, div_num h2, div_num h3, add_num, num_inj]
    push_cast
    field_simp
    ring

/-- On jets of numbers an in-place update gives the same object as the operator. -/
theorem run_eq (hv : c.Valid) (o : AOp) {x : DD XReal} {J : Jet ℝ} (hx : Shows c n x J.lift)
    (b : DD.Operand XReal) {y : DD XReal} {K : Jet ℝ} (hy : Shows c n y K.lift)
    (hb : b = .obj y ∨ (b = .self ∧ y = x)) (hdiv : o = .div → K.f ≠ 0)
    (hmul : o = .mul → b ≠ .self ∧ (c.order = 2 → 0 < n)) :
    ∃ r, o.bin.run c x y = .ok r ∧ o.run c x b = (.ok (), r) := by
  rcases hb with rfl | ⟨rfl, rfl⟩
  · cases o with
    | add => exact C22_add_assign hv hx.wf hy.wf
    | sub => exact C22_sub_assign hv XReal.sub_eq' hx.wf hy.wf
    | mul => exact C22_mul_assign hv XReal.add_comm' XReal.mul_comm' (hmul rfl).2 hx.wf hy.wf
    | div =>
      obtain ⟨a, J', rfl, ha, hJ, _⟩ := good_of_shows hv.order hx
      obtain ⟨b, K', rfl, hb, hK, _⟩ := good_of_shows hv.order hy
      have h0 : K'.f ≠ 0 := by rw [← hK.1]; exact hdiv rfl
      refine ⟨_, div_obj hv.order hx.wf.fits a b, ?_⟩
      simp only [AOp.run]
      rw [divAssign_obj hv.order hx.wf.fits a b]
      congr 3
      simp [ha.f, hb.f, div_num h0, div_eq_mul_inv]
  · cases o with
    | add => exact (C23_add_sub_self hv hx.wf).1
    | sub => exact (C23_add_sub_self hv hx.wf).2 XReal.sub_eq'
    | mul => exact absurd rfl (hmul rfl).1
    | div =>
      obtain ⟨a, K', rfl, ha, hK, _⟩ := good_of_shows hv.order hy
      have h0 : K'.f ≠ 0 := by rw [← hK.1]; exact hdiv rfl
      refine ⟨_, div_obj hv.order hx.wf.fits a a, ?_⟩
      simp only [AOp.run]
      rw [divAssign_self hv.order hx.wf.fits a, divSelf_good hv.order ha h0]

/-- One statement. -/
theorem step_jet (hv : c.Valid) (hfit : c.tsize = -1 ∨ c.tsize = n) (s : Stmt ℝ V)
    (u : V → (Fin n → ℝ) → ℝ) (x : Fin n → ℝ) (ρ : Store XReal V) (J : V → Jet ℝ)
    (hρ : ∀ v, Shows c n (ρ v) (J v).lift) (hu : ∀ v, IsJet c.order n (u v) x (J v))
    (hok : s.Ok c.order n fun v => u v x) :
    ∃ ρ', (s.map num).run c n ρ = (.ok (), ρ') ∧ ∃ J' : V → Jet ℝ,
      (∀ v, Shows c n (ρ' v) (J' v).lift) ∧
      ∀ v, IsJet c.order n (fun y => s.den (fun w => u w y) v) x (J' v) := by
  -- storing the value of an expression under `t`
  have key : ∀ (t : V) (e : Expr ℝ V), e.Dom c.order (fun v => u v x) → e.Regular (fun v => u v x) →
      ∃ r, (e.map num).evalDD c n ρ = .ok r ∧ ∃ J' : V → Jet ℝ,
        (∀ v, Shows c n (ρ.set t r v) (J' v).lift) ∧
        ∀ v, IsJet c.order n (fun y => setVal (fun w => u w y) t (e.den fun w => u w y) v) x (J' v) := by
    intro t e hD hR
    obtain ⟨r, h1, h2⟩ := C18_chain_rule hv hfit e u x ρ J hρ hu hR
    obtain ⟨K, h3, h4⟩ := h2 (Or.inl hD)
    refine ⟨r, h1, fun v => if v = t then K else J v, fun v => ?_, fun v => ?_⟩
    · by_cases hvt : v = t
      · simp [Store.set, hvt, h3]
      · simp [Store.set, hvt, hρ v]
    · by_cases hvt : v = t
      · simp [setVal, hvt, h4]
      · simp [setVal, hvt, hu v]
  cases s with
  | assign t e =>
    obtain ⟨r, h1, h2⟩ := key t e hok.1 hok.2
    refine ⟨ρ.set t r, ?_, h2⟩
    simp only [Stmt.map, Stmt.run, h1, Store.put]
  | upd o t e =>
    obtain ⟨hD, hR, hdiv, hmul⟩ := hok
    obtain ⟨y, e1, e2⟩ := C18_chain_rule hv hfit e u x ρ J hρ hu hR
    obtain ⟨K, hy, hK⟩ := e2 (Or.inl hD)
    have hKf : K.f = e.den fun v => u v x := hK.value.symm
    -- the operand is the evaluated object
    have hop : ∃ b, ρ.operand c n t (e.map num) = .ok b ∧ (b = .obj y ∨ (b = .self ∧ y = ρ t)) ∧
        (b = .self → e = .var t) := by
      cases e with
      | var w =>
        simp only [Expr.map, Expr.evalDD, Res.ok.injEq] at e1
        by_cases hw : w = t
        · exact ⟨.self, by simp [Store.operand, Expr.map, hw], Or.inr ⟨rfl, by rw [← e1, hw]⟩,
            fun _ => by rw [hw]⟩
        · exact ⟨.obj (ρ w), by simp [Store.operand, Expr.map, hw], Or.inl (by rw [e1]),
            fun h => by cases h⟩
      | _ =>
        refine ⟨.obj y, ?_, Or.inl rfl, fun h => by cases h⟩
        simp only [Expr.map] at e1
        simp only [Store.operand, Expr.map, e1, Res.ok_bind]
    obtain ⟨b, hb, hb', hself⟩ := hop
    obtain ⟨r, r1, r2⟩ := run_eq hv o (hρ t) b hy hb' (fun h => by rw [hKf]; exact hdiv h)
      (fun h => ⟨fun hs => (hmul h).1 (hself hs), (hmul h).2⟩)
    have hD' : (Expr.bin o.bin (.var t) e).Dom c.order fun v => u v x := by
      refine ⟨trivial, hD, ?_⟩
      cases o <;> first | trivial | exact hdiv rfl
    have hR' : (Expr.bin o.bin (.var t) e).Regular fun v => u v x := by
      refine ⟨trivial, hR, ?_⟩
      cases o <;> trivial
    obtain ⟨r', h1, h2⟩ := key t (.bin o.bin (.var t) e) hD' hR'
    have hr : r' = r := by
      simp only [Expr.map, Expr.evalDD, Res.ok_bind, e1] at h1
      rw [r1] at h1
      exact (Res.ok.inj h1).symm
    rw [hr] at h2
    refine ⟨ρ.set t r, ?_, ?_⟩
    · simp only [Stmt.map, Stmt.run, hb, Store.change, r2]
    · have hd : ∀ y, (Expr.bin o.bin (.var t) e).den (fun w => u w y) =
          o.den (u t y) (e.den fun w => u w y) := by
        intro y; cases o <;> rfl
      simpa only [hd, Stmt.den] using h2
  | updS o t s =>
    cases s with
    | cell k => exact hok.elim
    | val s =>
      have hD' : (Expr.sbin o.sbin (.var t) s).Dom c.order fun v => u v x := by
        refine ⟨trivial, ?_⟩
        cases o <;> first | trivial | exact hok rfl
      obtain ⟨r', h1, h2⟩ := key t (.sbin o.sbin (.var t) s) hD' trivial
      refine ⟨ρ.set t r', ?_, ?_⟩
      · have := C22_scalar_assign hv (hρ t).wf (num s)
        simp only [Expr.map, Expr.evalDD, Res.ok_bind] at h1
        simp only [Stmt.map, Stmt.run, Store.change]
        cases o with
        | add =>
          obtain ⟨r, r1, r2⟩ := this.1
          simp only [AOp.sbin, SBin.run] at h1
          rw [r1] at h1; cases h1
          simp only [AOp.runS, r2]
        | sub =>
          obtain ⟨r, r1, r2⟩ := this.2.1 XReal.sub_eq'
          simp only [AOp.sbin, SBin.run] at h1
          rw [r1] at h1; cases h1
          simp only [AOp.runS, r2]
        | mul =>
          obtain ⟨r, r1, r2⟩ := this.2.2.1
          simp only [AOp.sbin, SBin.run] at h1
          rw [r1] at h1; cases h1
          simp only [AOp.runS, r2]
        | div =>
          obtain ⟨r, r1, r2⟩ := this.2.2.2
          simp only [AOp.sbin, SBin.run] at h1
          rw [r1] at h1; cases h1
          simp only [AOp.runS, r2]
      · have hd : ∀ y, (Expr.sbin o.sbin (.var t) s).den (fun w => u w y) = o.den (u t y) s := by
          intro y; cases o <;> rfl
        simpa only [hd, Stmt.den] using h2
  | setF => exact hok.elim
  | setG => exact hok.elim
  | setH => exact hok.elim
  | setZero => exact hok.elim

/-- **C21.** A program of assignments and in-place updates, run on jets of functions `u v` at `x`
inside the domains of its operations and without a `*=` with the same object on both sides, ends
normally and leaves under every name the jet of the function the program computes there. -/
theorem C21_programs (hv : c.Valid) (hfit : c.tsize = -1 ∨ c.tsize = n) (p : List (Stmt ℝ V))
    (u : V → (Fin n → ℝ) → ℝ) (x : Fin n → ℝ) (ρ : Store XReal V) (J : V → Jet ℝ)
    (hρ : ∀ v, Shows c n (ρ v) (J v).lift) (hu : ∀ v, IsJet c.order n (u v) x (J v))
    (hok : ProgOk c.order n p fun v => u v x) :
    ∃ ρ', runProg c n (p.map (Stmt.map num)) ρ = (.ok (), ρ') ∧
      ∀ v, ∃ K : Jet ℝ, Shows c n (ρ' v) K.lift ∧
        IsJet c.order n (fun y => progDen p (fun w => u w y) v) x K := by
  induction p generalizing u ρ J with
  | nil => exact ⟨ρ, rfl, fun v => ⟨J v, hρ v, hu v⟩⟩
  | cons s p ih =>
    obtain ⟨ρ₁, h1, J₁, h2, h3⟩ := step_jet hv hfit s u x ρ J hρ hu hok.1
    obtain ⟨ρ', h4, h5⟩ := ih (fun v y => s.den (fun w => u w y) v) ρ₁ J₁ h2 h3 hok.2
    refine ⟨ρ', ?_, h5⟩
    simp only [List.map_cons, runProg, h1, h4]

/-- Two variables `a`, `b`. -/
noncomputable abbrev exStore : Store XReal (_root_.Fin 2) :=
  fun i => obj exDyn2 2 (varC i (num ((![3, 2] : _root_.Fin 2 → ℝ) i)))

/-- `a *= b; a += a; b /= a; a -= 5; b /= b; a = exp(b) / a` -/
abbrev exProg : List (Stmt ℝ (_root_.Fin 2)) :=
  [.upd .mul 0 (.var 1), .upd .add 0 (.var 0), .upd .div 1 (.var 0), .updS .sub 0 (.val 5),
    .upd .div 1 (.var 1), .assign 0 (.bin .div (.fn .exp (.var 1)) (.var 0))]

theorem exProg_den (y : _root_.Fin 2 → ℝ) : progDen exProg y 0 =
    Real.exp (y 1 / (y 0 * y 1 + y 0 * y 1) / (y 1 / (y 0 * y 1 + y 0 * y 1))) /
      (y 0 * y 1 + y 0 * y 1 - 5) := by
  simp [progDen, Stmt.den, setVal, AOp.den, Expr.den, Bin.den, Fn.den]

example : ∃ ρ', runProg exDyn2 2 (exProg.map (Stmt.map num)) exStore = (.ok (), ρ') ∧
    ∃ K : Jet ℝ, Shows exDyn2 2 (ρ' 0) K.lift ∧
      IsJet 2 2 (fun y => Real.exp (y 1 / (y 0 * y 1 + y 0 * y 1) / (y 1 / (y 0 * y 1 + y 0 * y 1))) /
        (y 0 * y 1 + y 0 * y 1 - 5)) ![3, 2] K := by
  obtain ⟨ρ', h1, h2⟩ := C21_programs exDyn2_valid (Or.inl rfl) exProg (fun v y => y v) ![3, 2]
    exStore (fun i => varJet i ((![3, 2] : _root_.Fin 2 → ℝ) i))
    (fun i => (good_var i.2 _).shows exDyn2_valid.order (Or.inl rfl)) (fun i => isJet_var _ _ i)
    (by
      simp [ProgOk, Stmt.Ok, Expr.Dom, Expr.Regular, Expr.den, Stmt.den, setVal, AOp.den, Bin.dom, Fn.dom, Bin.reg]
      norm_num)
  obtain ⟨K, h3, h4⟩ := h2 0
  simp only [exProg_den] at h4
  exact ⟨ρ', h1, K, h3, h4⟩

theorem exStore_wf (v : _root_.Fin 2) : WF exDyn2 2 (exStore v) :=
  wf_obj exDyn2_valid.order (Or.inl rfl) _

/-- Aliased updates and setters: `a *= a; b.set_h(1, 0, 7); a /= b;` end normally. -/
example : ∃ ρ', runProg exDyn2 2 [.upd .mul 0 (.var 0), .setH 1 1 0 (num 7), .upd .div 0 (.var 1)]
    exStore = (.ok (), ρ') ∧ ∀ v, WF exDyn2 2 (ρ' v) :=
  C19_programs exDyn2_valid (Or.inl rfl) _
    (by intro s hs; fin_cases hs <;> simp [Stmt.Plain, exCfg]) exStore exStore_wf

/-- A program that ends normally, and one of its objects afterwards. -/
example : ∃ ρ', runProg exDyn2 2 [.upd .mul 0 (.var 0), .setH 1 1 0 (num 7)] exStore = (.ok (), ρ') ∧
    (ρ' 0).size exDyn2 = 2 ∧ (ρ' 0).mData.length = 6 := by
  obtain ⟨ρ', h, _⟩ := C19_programs exDyn2_valid (Or.inl rfl)
    [.upd .mul 0 (.var 0), .setH 1 1 0 (num 7)]
    (by intro s hs; fin_cases hs <;> simp [Stmt.Plain, exCfg]) exStore exStore_wf
  obtain ⟨_, h1, h2, _⟩ := C01_programs exDyn2_valid (Or.inl rfl) _ exStore ρ' exStore_wf h 0
  exact ⟨ρ', h, h1, h2⟩

/-- The second name is not a target. -/
example : (runProg exDyn2 2 [.upd .mul 0 (.var 1), .setG 0 17 (num 1), .assign 0 (.var 1)]
    exStore).2 1 = exStore 1 :=
  C37_program _ _ _ _ _ (by intro s hs; fin_cases hs <;> simp [Stmt.target])

/-- A dynamic jet of 2 and one of 3 variables: `a += b` throws and changes nothing. -/
example : (Stmt.run exDyn2 2 (fun i : _root_.Fin 2 => if i = 0 then exStore 0 else
      obj exDyn2 3 (varC 2 (num 1))) (.upd .add 0 (.var 1))).1 = .throw .incompatibleSize ∧
    (Stmt.run exDyn2 2 (fun i : _root_.Fin 2 => if i = 0 then exStore 0 else
      obj exDyn2 3 (varC 2 (num 1))) (.upd .add 0 (.var 1))).2 0 = exStore 0 := by
  have h : ∀ ρ : Store XReal (_root_.Fin 2), ρ 0 = exStore 0 → ρ 1 = obj exDyn2 3 (varC 2 (num 1)) →
      (Stmt.run exDyn2 2 ρ (.upd .add 0 (.var 1))).1 = .throw .incompatibleSize := by
    intro ρ h0 h1
    simp only [Stmt.run, Store.operand, show (1 : _root_.Fin 2) ≠ 0 by decide, if_false, Store.change,
      AOp.run, h0, h1]
    rfl
  refine ⟨h _ rfl rfl, ?_⟩
  have h' := h (fun i : _root_.Fin 2 => if i = 0 then exStore 0 else
      obj exDyn2 3 (varC 2 (num 1))) rfl rfl
  have h2 := C37_throw_changes_nothing exDyn2 2 _ _ (.upd .add 0 (.var 1)) _ (Prod.ext h' rfl)
  exact congrFun h2 0

end c21

end HJ
