import Verif.Spec.PyCells
import Verif.Props.Control
import Verif.Props.PyHeap
import Verif.Props.PyControl

/-!
# C64: Python programs with branches and loops in any arithmetic
-/

namespace HJ

open DD

/-- Both end normally with related results, or raise the same exception. -/
inductive Both {A B : Type} (R : A → B → Prop) : Res A → Res B → Prop
  | ok {a : A} {b : B} (h : R a b) : Both R (.ok a) (.ok b)
  | throw (e : Err) : Both R (.throw e) (.throw e)

theorem Both.bind {A B A' B' : Type} {R : A → B → Prop} {R' : A' → B' → Prop} {x : Res A} {y : Res B}
    {k : A → Res A'} {l : B → Res B'} (h : Both R x y)
    (hk : ∀ a b, R a b → Both R' (k a) (l b)) : Both R' (x >>= k) (y >>= l) := by
  cases h with
  | ok h => exact hk _ _ h
  | throw e => exact .throw e

section dense

variable {α V W : Type} [CMath α] {c : Cfg} {n : Nat}

/-- The value of a jet is the number in the cell. -/
def PVal.Has (c : Cfg) (n : Nat) : PVal α → CVal α → Prop
  | .num s, .num t => s = t
  | .jet x, .cell t => HJ.WF c n x ∧ x.f = .ok t
  | _, _ => False

theorem cell_node (hl : CommLaws α) (hv : c.Valid) (hf : Fits c n) {U : Type} (e : Expr α U)
    (ρ : U → DD α) (σ : U → α) (h : ∀ v, WF c n (ρ v) ∧ (ρ v).f = .ok (σ v)) :
    ∃ r, e.evalDD c n ρ = .ok r ∧ PVal.Has c n (.jet r) (.cell (e.plain recipDiv σ)) := by
  classical
  obtain ⟨r, h1, h2, h3⟩ := Holding.eval hl hv hf h e
  exact ⟨r, h1, h2, h3⟩

theorem POp.run_cells (hl : CommLaws α) (hv : c.Valid) (hf : Fits c n) (o : POp) {x y : PVal α}
    {x' y' : CVal α} (hx : x.Has c n x') (hy : y.Has c n y') :
    Both (PVal.Has c n) (o.run c x y) (o.cells x' y') := by
  cases x with
  | num x =>
    cases x' with
    | cell _ => exact hx.elim
    | num x' =>
    obtain rfl : x = x' := hx
    cases y with
    | num y =>
      cases y' with
      | cell _ => exact hy.elim
      | num y' =>
      obtain rfl : y = y' := hy
      cases o with
      | div =>
        simp only [POp.run, POp.nums, POp.cells, true_and]
        by_cases h0 : Cmp.eqB y (Arith.lit 0) = true
        · simp only [h0, if_true]; exact .throw _
        · simp only [h0]; exact .ok rfl
      | _ => exact .ok rfl
    | jet y =>
      cases y' with
      | num _ => exact hy.elim
      | cell t =>
      obtain ⟨r, h1, h2⟩ := cell_node hl hv hf (U := Unit) (.sbin o.left (.var ()) x) (fun _ => y)
        (fun _ => t) fun _ => hy
      simp only [Expr.evalDD, Res.ok_bind] at h1
      simp only [POp.run, h1, Res.ok_bind, POp.cells]
      refine .ok ?_
      cases o <;> exact h2
  | jet x =>
    cases x' with
    | num _ => exact hx.elim
    | cell s =>
    cases y with
    | num y =>
      cases y' with
      | cell _ => exact hy.elim
      | num y' =>
      obtain rfl : y = y' := hy
      obtain ⟨r, h1, h2⟩ := cell_node hl hv hf (U := Unit) (.sbin o.right (.var ()) y) (fun _ => x)
        (fun _ => s) fun _ => hx
      simp only [Expr.evalDD, Res.ok_bind] at h1
      simp only [POp.run, h1, Res.ok_bind, POp.cells]
      refine .ok ?_
      cases o <;> exact h2
    | jet y =>
      cases y' with
      | num _ => exact hy.elim
      | cell t =>
      obtain ⟨r, h1, h2⟩ := cell_node hl hv hf (U := Bool) (.bin o.bin (.var true) (.var false))
        (fun b => if b then x else y) (fun b => if b then s else t) (by
          intro b; cases b
          · exact hy
          · exact hx)
      simp only [Expr.evalDD, Res.ok_bind, if_true] at h1
      have h1' : o.bin.run c x y = .ok r := h1
      simp only [POp.run, h1', Res.ok_bind, POp.cells]
      refine .ok ?_
      cases o <;> exact h2

theorem PyE.eval_cells (hl : CommLaws α) (hv : c.Valid) (hf : Fits c n) (σ : V → PVal α)
    (σ' : V → CVal α) (hσ : ∀ v, (σ v).Has c n (σ' v)) (e : PyE α V) (he : e.InRange n) :
    Both (PVal.Has c n) (e.eval c n σ) (e.cells σ') := by
  induction e with
  | name v => exact .ok (hσ v)
  | lit s => exact .ok rfl
  | const s =>
    simp only [PyE.eval, constant_obj hf, Res.ok_bind]
    exact .ok ⟨wf_obj hv.order hf _, f_obj ..⟩
  | vari i s =>
    obtain ⟨k, rfl⟩ : ∃ k : Nat, i = k := ⟨i.toNat, by have := he.1; omega⟩
    have hk : k < n := by have := he.2; omega
    simp only [PyE.eval, var_obj hf hk, Res.ok_bind]
    exact .ok ⟨wf_obj hv.order hf _, f_obj ..⟩
  | neg e ih =>
    refine (ih he).bind fun x y h => ?_
    cases x <;> cases y
    · obtain rfl := h; exact .ok rfl
    · exact h.elim
    · exact h.elim
    · rename_i x s
      obtain ⟨r, h1, h2⟩ := cell_node hl hv hf (U := Unit) (.neg (.var ())) (fun _ => x)
        (fun _ => s) fun _ => h
      simp only [Expr.evalDD, Res.ok_bind] at h1
      simp only [h1, Res.ok_bind]
      exact .ok h2
  | abs e ih =>
    refine (ih he).bind fun x y h => ?_
    cases x <;> cases y
    · obtain rfl := h; exact .ok rfl
    · exact h.elim
    · exact h.elim
    · rename_i x s
      obtain ⟨r, h1, h2⟩ := cell_node hl hv hf (U := Unit) (.abs (.var ())) (fun _ => x)
        (fun _ => s) fun _ => h
      simp only [Expr.evalDD, Res.ok_bind] at h1
      simp only [h1, Res.ok_bind]
      exact .ok h2
  | fn φ e ih =>
    refine (ih he).bind fun x y h => ?_
    cases x <;> cases y
    · exact .throw _
    · exact h.elim
    · exact h.elim
    · rename_i x s
      obtain ⟨r, h1, h2⟩ := cell_node hl hv hf (U := Unit) (.fn φ (.var ())) (fun _ => x)
        (fun _ => s) fun _ => h
      simp only [Expr.evalDD, Res.ok_bind] at h1
      simp only [h1, Res.ok_bind]
      exact .ok h2
  | op o e₁ e₂ ih₁ ih₂ =>
    exact (ih₁ he.1).bind fun x x' hx => (ih₂ he.2).bind fun y y' hy => o.run_cells hl hv hf hx hy
  | atan2 e₁ e₂ ih₁ ih₂ =>
    refine (ih₁ he.1).bind fun x x' hx => (ih₂ he.2).bind fun y y' hy => ?_
    cases x <;> cases x' <;> first | exact hx.elim | skip
    · cases y <;> cases y' <;> first | exact hy.elim | exact .throw _
    rename_i x s
    cases y <;> cases y' <;> first | exact hy.elim | skip
    · exact .throw _
    rename_i y t
    obtain ⟨r, h1, h2⟩ := cell_node hl hv hf (U := Bool) (.bin .atan2 (.var true) (.var false))
      (fun b => if b then x else y) (fun b => if b then s else t) (by
        intro b; cases b
        · exact hy
        · exact hx)
    simp only [Expr.evalDD, Res.ok_bind, if_true] at h1
    have h1' : x.atan2 c y = .ok r := h1
    simp only [h1', Res.ok_bind]
    exact .ok h2
  | hypot e₁ e₂ ih₁ ih₂ =>
    refine (ih₁ he.1).bind fun x x' hx => (ih₂ he.2).bind fun y y' hy => ?_
    cases x <;> cases x' <;> first | exact hx.elim | skip
    · cases y <;> cases y' <;> first | exact hy.elim | exact .throw _
    rename_i x s
    cases y <;> cases y' <;> first | exact hy.elim | skip
    · exact .throw _
    rename_i y t
    obtain ⟨r, h1, h2⟩ := cell_node hl hv hf (U := Bool) (.bin .hypot (.var true) (.var false))
      (fun b => if b then x else y) (fun b => if b then s else t) (by
        intro b; cases b
        · exact hy
        · exact hx)
    simp only [Expr.evalDD, Res.ok_bind, if_true] at h1
    have h1' : x.hypot c y = .ok r := h1
    simp only [h1', Res.ok_bind]
    exact .ok h2
  | hypot3 e₁ e₂ e₃ ih₁ ih₂ ih₃ =>
    refine (ih₁ he.1).bind fun x x' hx => (ih₂ he.2.1).bind fun y y' hy =>
      (ih₃ he.2.2).bind fun z z' hz => ?_
    cases x <;> cases x' <;> first | exact hx.elim | skip
    · cases y <;> cases y' <;> first | exact hy.elim | exact .throw _
    rename_i x s
    cases y <;> cases y' <;> first | exact hy.elim | skip
    · exact .throw _
    rename_i y t
    cases z <;> cases z' <;> first | exact hz.elim | skip
    · exact .throw _
    rename_i z w
    obtain ⟨r, h1, h2⟩ := cell_node hl hv hf (U := Fin 3) (.hypot3 (.var 0) (.var 1) (.var 2))
      ![x, y, z] ![s, t, w] (by
        intro b; fin_cases b
        · exact hx
        · exact hy
        · exact hz)
    simp only [Expr.evalDD, Res.ok_bind] at h1
    have h1' : DD.hypot3 c x y z = .ok r := h1
    simp only [h1', Res.ok_bind]
    exact .ok h2
  | getF e ih =>
    refine (ih he).bind fun x y h => ?_
    cases x <;> cases y
    · exact .throw _
    · exact h.elim
    · exact h.elim
    · simp only [h.2, Res.ok_bind]
      exact .ok rfl

theorem PVal.cmp_cells (hq : CmpLaws α) (o : DD.CmpOp) {x y : PVal α} {x' y' : CVal α}
    (hx : x.Has c n x') (hy : y.Has c n y') :
    PVal.cmp o x y = .ok (o.scalar x'.get y'.get) := by
  cases x <;> cases x' <;> first | exact hx.elim | skip
  all_goals cases y <;> cases y' <;> first | exact hy.elim | skip
  · obtain rfl := hx; obtain rfl := hy; rfl
  · obtain rfl := hx
    simp only [PVal.cmp, DD.cmpS, hy.2, Res.ok_bind]
    cases o
    · exact congrArg _ (hq.eq _ _)
    · exact congrArg _ (hq.ne _ _)
    · exact congrArg _ (hq.lt _ _).symm
    · exact congrArg _ (hq.lt _ _)
    · exact congrArg _ (hq.le _ _).symm
    · exact congrArg _ (hq.le _ _)
  · obtain rfl := hy
    simp only [PVal.cmp, DD.cmpS, hx.2, Res.ok_bind, CVal.get]
  · simp only [PVal.cmp, DD.cmp, hx.2, hy.2, Res.ok_bind, CVal.get]

theorem PyCond.run_cells (hl : CommLaws α) (hq : CmpLaws α) (hv : c.Valid) (hf : Fits c n)
    (σ : V → PVal α) (σ' : V → CVal α) (hσ : ∀ v, (σ v).Has c n (σ' v)) (b : PyCond α V)
    (hb : b.InRange n) : b.run c n σ = b.cells σ' := by
  have h1 := b.left.eval_cells hl hv hf σ σ' hσ hb.1
  have h2 := b.right.eval_cells hl hv hf σ σ' hσ hb.2
  simp only [PyCond.run, PyCond.cells]
  generalize b.left.eval c n σ = p at h1
  generalize b.left.cells σ' = p' at h1
  generalize b.right.eval c n σ = q at h2
  generalize b.right.cells σ' = q' at h2
  cases h1 with
  | throw e => rfl
  | ok h1 =>
    cases h2 with
    | throw e => rfl
    | ok h2 =>
      simp only [Res.ok_bind]
      exact PVal.cmp_cells hq b.op h1 h2

variable [DecidableEq V] [DecidableEq W]

/-- Everything is in order, and values are the numbers in the cells. -/
def Tracks (c : Cfg) (n : Nat) (st : PySt α V W) (σ : CellSt α V) : Prop :=
  st.Good c n ∧ st.Carries σ

omit [CMath α] [DecidableEq V] [DecidableEq W] in
theorem Tracks.val {st : PySt α V W} {σ : CellSt α V} (h : Tracks c n st σ) (v : V) :
    (st.val v).Has c n (σ.val v) := by
  have he := congrFun h.2.env v
  simp only [PySt.val, CellSt.val, he]
  cases hr : σ.env v with
  | num s => exact rfl
  | ref a =>
    have ha := h.1.names v a (he.trans hr)
    exact ⟨h.1.objects a ha, h.2.obj a (h.2.next ▸ ha)⟩

theorem Tracks.write {st : PySt α V W} {σ : CellSt α V} (h : Tracks c n st σ) (a : Nat) {x : DD α}
    {s : α} (hx : WF c n x) (hs : x.f = .ok s) : Tracks c n (st.write a x) (σ.write a s) := by
  refine ⟨h.1.write a hx, h.2.env, h.2.next, fun b hb => ?_⟩
  simp only [PySt.write, CellSt.write]
  by_cases hba : b = a
  · simp only [hba, if_true, hs]
  · simp only [hba, if_false]; exact h.2.obj b hb

theorem Tracks.write_same {st : PySt α V W} {σ : CellSt α V} (h : Tracks c n st σ) (a : Nat) {x : DD α}
    (hx : WF c n x) (hs : x.f = .ok (σ.cell a)) : Tracks c n (st.write a x) σ := by
  refine ⟨h.1.write a hx, h.2.env, h.2.next, fun b hb => ?_⟩
  simp only [PySt.write]
  by_cases hba : b = a
  · simp only [hba, if_true, hs]
  · simp only [hba, if_false]; exact h.2.obj b hb

theorem Tracks.fresh {st : PySt α V W} {σ : CellSt α V} (h : Tracks c n st σ) (t : V) {r : PVal α}
    {r' : CVal α} (hr : r.Has c n r') : Tracks c n (st.fresh t r) (σ.fresh t r') := by
  cases r <;> cases r' <;> first | exact hr.elim | skip
  · obtain rfl := hr
    refine ⟨h.1.fresh t (r := .num _) trivial, ?_, h.2.next, h.2.obj⟩
    simp only [PySt.fresh, CellSt.fresh, PySt.bind, CellSt.bind, h.2.env]
  · refine ⟨h.1.fresh t (r := .jet _) hr.1, ?_, ?_, fun b hb => ?_⟩
    · simp only [PySt.fresh, CellSt.fresh, PySt.bind, CellSt.bind, PySt.write, CellSt.write, h.2.env,
        h.2.next]
    · simp only [PySt.fresh, CellSt.fresh, h.2.next]
    · simp only [PySt.fresh, CellSt.fresh, PySt.bind, CellSt.bind, PySt.write, CellSt.write,
        h.2.next] at hb ⊢
      by_cases hbn : b = σ.next
      · simp only [hbn, if_true]; exact hr.2
      · simp only [hbn, if_false]; exact h.2.obj b (by omega)

/-- Same outcome and states that track each other. -/
def StepTracks (c : Cfg) (n : Nat) (q : Res Unit × PySt α V W) (q' : Res Unit × CellSt α V) : Prop :=
  q.1 = q'.1 ∧ Tracks c n q.2 q'.2

theorem Tracks.store {st : PySt α V W} {σ : CellSt α V} (h : Tracks c n st σ) (t : V)
    {r : Res (PVal α)} {r' : Res (CVal α)} (hr : Both (PVal.Has c n) r r') :
    StepTracks c n (st.store t r) (σ.store t r') := by
  cases hr with
  | ok hr => exact ⟨rfl, h.fresh t hr⟩
  | throw e => exact ⟨rfl, h⟩

theorem Tracks.setter {st : PySt α V W} {σ : CellSt α V} (h : Tracks c n st σ) (a : Nat)
    {r : Res (DD α)} {y : DD α} (hr : r = .ok y) (hy : WF c n y) (hs : y.f = .ok (σ.cell a)) :
    StepTracks c n (st.putAt a r) (.ok (), σ) := by
  rw [hr]
  exact ⟨rfl, h.write_same a hy hs⟩

theorem cells_step (hl : CommLaws α) (hv : c.Valid) (hf : Fits c n) (hn : c.order = 2 → 0 < n)
    (s : PyStmt α V W) (hs : s.InRange c n) (hs' : s.NoArray) {st : PySt α V W} {σ : CellSt α V}
    (h : Tracks c n st σ) : StepTracks c n (s.run c n st) (s.cells σ) := by
  have hname : ∀ t, (∃ r, st.env t = .num r ∧ σ.env t = .num r) ∨
      ∃ a, st.env t = .ref a ∧ σ.env t = .ref a ∧ WF c n (st.heap a) ∧
        (st.heap a).f = .ok (σ.cell a) := by
    intro t
    have he := congrFun h.2.env t
    cases hr : σ.env t with
    | num r => exact Or.inl ⟨r, he.trans hr, rfl⟩
    | ref a =>
      have ha := h.1.names t a (he.trans hr)
      exact Or.inr ⟨a, he.trans hr, rfl, h.1.objects a ha, h.2.obj a (h.2.next ▸ ha)⟩
  cases s with
  | assign t e =>
    cases e with
    | name s =>
      refine ⟨rfl, h.1.num t _ fun a ha => h.1.names s a ha, ?_, h.2.next, h.2.obj⟩
      simp only [PyStmt.run, PyStmt.cells, PySt.bind, CellSt.bind, h.2.env]
    | _ => exact h.store t (PyE.eval_cells hl hv hf _ _ h.val _ hs)
  | upd o t e =>
    have he := PyE.eval_cells hl hv hf _ _ h.val e hs
    simp only [PyStmt.run, PyStmt.cells]
    generalize hr : e.eval c n st.val = r at he
    generalize e.cells σ.val = r' at he
    cases he with
    | throw e => exact ⟨rfl, h⟩
    | @ok y y' hy =>
      rcases hname t with ⟨s, h1, h2⟩ | ⟨a, h1, h2, h3, h4⟩
      · simp only [h1, h2]
        exact h.store t (o.run_cells hl hv hf (x := .num s) (x' := .num s) rfl hy)
      · simp only [h1, h2]
        cases y <;> cases y' <;> first | exact hy.elim | skip
        · rename_i s s'
          obtain rfl : s = s' := hy
          have hst := h.store t (o.run_cells hl hv hf (x := .jet (st.heap a)) (x' := .cell (σ.cell a))
            (y := .num s) (y' := .num s) ⟨h3, h4⟩ rfl)
          cases o with
          | add => exact hst
          | sub => exact hst
          | mul =>
            obtain ⟨_, b, hb⟩ := h3.eq_obj hv.order
            have h0 : σ.cell a = b 0 := by
              rw [hb, f_obj] at h4
              exact (Res.ok.inj h4).symm
            simp only [PySt.change, hb, AOp.runS, mulAssignS_obj]
            refine ⟨rfl, h.write a (wf_obj hv.order hf _) ?_⟩
            rw [f_obj, h0]; rfl
          | div =>
            obtain ⟨_, b, hb⟩ := h3.eq_obj hv.order
            have h0 : σ.cell a = b 0 := by
              rw [hb, f_obj] at h4
              exact (Res.ok.inj h4).symm
            simp only [PySt.change, hb, AOp.runS, divAssignS_obj]
            refine ⟨rfl, h.write a (wf_obj hv.order hf _) ?_⟩
            rw [f_obj, h0]; rfl
        · rename_i y s
          have hop : st.operand a e y = .obj y ∨ (st.operand a e y = .self ∧ y = st.heap a) := by
            cases e with
            | name v =>
              simp only [PyE.eval, Res.ok.injEq, PySt.val] at hr
              simp only [PySt.operand]
              cases hv' : st.env v with
              | num r => rw [hv'] at hr; cases hr
              | ref b =>
                rw [hv'] at hr
                by_cases hba : b = a
                · subst hba
                  simp only [PVal.jet.injEq] at hr
                  exact Or.inr ⟨by simp, hr.symm⟩
                · exact Or.inl (by simp [hba])
            | _ => exact Or.inl rfl
          have hmul : o.asg = .mul → c.order = 2 → 0 < n := fun _ => hn
          obtain ⟨x', k1, k2, k3⟩ := run_value hv o.asg hmul h3 h4 hy.1 hy.2 hop
          simp only [PySt.change, k1]
          refine ⟨rfl, h.write a k2 ?_⟩
          rw [k3]
          cases o <;> rfl
  | setF t x =>
    simp only [PyStmt.run, PyStmt.cells]
    rcases hname t with ⟨s, h1, h2⟩ | ⟨a, h1, h2, h3, h4⟩
    · simp only [h1, h2]; exact ⟨rfl, h⟩
    · simp only [h1, h2]
      obtain ⟨J, hJ⟩ := h3.shows hv.order
      obtain ⟨y, hy, hy'⟩ := (C03_framed_writes hv hJ x).1
      simp only [hy, PySt.putAt]
      exact ⟨rfl, h.write a hy'.wf hy'.f⟩
  | setH t i j x =>
    simp only [PyStmt.run, PyStmt.cells]
    rcases hname t with ⟨s, h1, h2⟩ | ⟨a, h1, h2, h3, h4⟩
    · simp only [h1, h2]; exact ⟨rfl, h⟩
    · simp only [h1, h2]
      obtain ⟨k2, k3, k4, k5, k6⟩ := hs
      obtain ⟨J, hJ⟩ := h3.shows hv.order
      obtain ⟨i, rfl⟩ : ∃ k : Nat, i = k := ⟨i.toNat, by omega⟩
      obtain ⟨j, rfl⟩ : ∃ k : Nat, j = k := ⟨j.toNat, by omega⟩
      obtain ⟨y, hy, hy'⟩ := (C03_framed_writes hv hJ x).2.2.1 k2 i j (by omega) (by omega)
      exact h.setter a hy hy'.wf (by rw [hy'.f, ← h4, hJ.f])
  | resize t m => exact hs.elim
  | data w t =>
    have hg := (good_step hv hf hn (.data w t) hs h.1).2
    simp only [PyStmt.run, PyStmt.cells] at hg ⊢
    rcases hname t with ⟨s, h1, h2⟩ | ⟨a, h1, h2, h3, h4⟩
    · simp only [h1, h2]; exact ⟨rfl, h⟩
    · simp only [h1, h2] at hg ⊢
      exact ⟨rfl, hg, h.2.env, h.2.next, h.2.obj⟩
  | grad w t =>
    have hg := (good_step hv hf hn (.grad w t) hs h.1).2
    simp only [PyStmt.run, PyStmt.cells] at hg ⊢
    rcases hname t with ⟨s, h1, h2⟩ | ⟨a, h1, h2, h3, h4⟩
    · simp only [h1, h2]; exact ⟨rfl, h⟩
    · simp only [h1, h2] at hg ⊢
      exact ⟨rfl, hg, h.2.env, h.2.next, h.2.obj⟩
  | poke w i x => exact hs'.elim
  | peek t w i => exact hs'.elim

theorem cond_out (hv : c.Valid) (hf : c.tsize = -1 ∨ c.tsize = n) (b : PyCond α V) (hb : b.InRange n)
    {st : PySt α V W} (h : st.Good c n) : PyOutcome (b.run c n st.val) := by
  refine (PyE.eval_out hv hf _ h.val b.left hb.1).bind fun x hx =>
    (PyE.eval_out hv hf _ h.val b.right hb.2).bind fun y hy => ?_
  have h1 := PyE.eval_wf hv hf _ h.val b.left hx
  have h2 := PyE.eval_wf hv hf _ h.val b.right hy
  cases x with
  | num x =>
    cases y with
    | num y => exact .ok _
    | jet y =>
      obtain ⟨_, a, rfl⟩ := WF.eq_obj hv.order h2
      simp only [PVal.cmp, DD.cmpS, f_obj, Res.ok_bind]
      exact .ok _
  | jet x =>
    obtain ⟨_, a, rfl⟩ := WF.eq_obj hv.order h1
    cases y with
    | num y =>
      simp only [PVal.cmp, DD.cmpS, f_obj, Res.ok_bind]
      exact .ok _
    | jet y =>
      obtain ⟨_, a, rfl⟩ := WF.eq_obj hv.order h2
      simp only [PVal.cmp, DD.cmp, f_obj, Res.ok_bind]
      exact .ok _

/-- **C64.** A Python program with branches, loops, shared objects and array views that does not call
`resize` and uses valid variable indices: whatever it does and however often its loops run, it has no
undefined behaviour and fails no assertion; if it ends, it ends normally or with one of Python's own
exceptions, every object is well formed, and every array lies inside the storage of its object.  Holds
in every arithmetic. -/
theorem C64_memory_safe (hv : c.Valid) (hf : c.tsize = -1 ∨ c.tsize = n) (hn : c.order = 2 → 0 < n)
    (p : Ctl (PyStmt α V W) (PyCond α V)) (hp : p.Each (PyStmt.InRange c n) (PyCond.InRange n))
    (st : PySt α V W) (h : st.Good c n) (k : Nat) :
    p.run (pyMachine α V W c n) k st = none ∨
    ∃ o st', p.run (pyMachine α V W c n) k st = some (o, st') ∧ PyOutcome o ∧ st'.Good c n := by
  refine Ctl.keeps (O := PyOutcome) (OB := PyOutcome) (.ok _) (fun b => .ok b) ?_ ?_ ?_
    (fun s hs st h => good_step hv hf hn s hs h) ?_ k p hp st h
  · intro e he
    cases he with
    | zeroDivision => exact .zeroDivision
    | attributeError => exact .attributeError
    | typeError => exact .typeError
    | indexError => exact .indexError
  · exact fun h => by cases h
  · exact fun u h => by cases h
  · exact fun b hb st h => cond_out hv hf b hb h

/-- **C64, jets take the path of their values.**  The same program with one number in place of every
jet takes the same branches and the same number of rounds in every loop (or neither ends), raises the
same exception at the same place if any, binds the same names to the same objects, and gives the same
values, bit for bit. -/
theorem C64_path (hl : CommLaws α) (hq : CmpLaws α) (hv : c.Valid)
    (hf : c.tsize = -1 ∨ c.tsize = n) (hn : c.order = 2 → 0 < n)
    (p : Ctl (PyStmt α V W) (PyCond α V))
    (hp : p.Each (fun s => s.InRange c n ∧ s.NoArray) (PyCond.InRange n))
    (st : PySt α V W) (h : st.Good c n) (σ : CellSt α V) (hσ : st.Carries σ) (k : Nat) :
    (p.run (pyMachine α V W c n) k st = none ∧ p.run (cellMachine α V W) k σ = none) ∨
    ∃ o st' σ', p.run (pyMachine α V W c n) k st = some (o, st') ∧
      p.run (cellMachine α V W) k σ = some (o, σ') ∧ st'.Carries σ' := by
  have key := Ctl.alike (M := pyMachine α V W c n) (M' := cellMachine α V W) (R := Tracks c n)
    (fun s hs st σ h => cells_step hl hv hf hn s hs.1 hs.2 h)
    (fun b hb st σ h => PyCond.run_cells hl hq hv hf _ _ h.val b hb) k p hp st σ ⟨h, hσ⟩
  rcases key with h | ⟨o, st', σ', h1, h2, h3⟩
  · exact Or.inl h
  · exact Or.inr ⟨o, st', σ', h1, h2, h3.2⟩

end dense

/-! ### Concrete cases -/

section samples

open XReal (num)

/-- `b = a` followed by `while a.f > 1: b /= 2` (the object of both names changes). -/
noncomputable def exHalveX : Ctl (PyStmt XReal (Fin 2) Unit) (PyCond XReal (Fin 2)) :=
  exHalve.map (PyStmt.map num) (PyCond.map num)

theorem exHalveSt_good : exHalveSt.Good exDyn2 1 where
  names := fun v a h => by
    fin_cases v
    · cases h; exact Nat.one_pos
    · cases h
  objects := fun a _ => wf_obj exDyn2_valid.order (Or.inl rfl) _
  arrays := fun w b h => by cases h

/-- With infinities, divisions by zero and the like, for every number of rounds. -/
example (k : Nat) : exHalveX.run (pyMachine XReal (Fin 2) Unit exDyn2 1) k exHalveSt = none ∨
    ∃ o st', exHalveX.run (pyMachine XReal (Fin 2) Unit exDyn2 1) k exHalveSt = some (o, st') ∧
      PyOutcome o ∧ st'.Good exDyn2 1 :=
  C64_memory_safe exDyn2_valid (Or.inl rfl) (fun _ => Nat.one_pos) exHalveX
    ⟨trivial, ⟨trivial, trivial⟩, trivial⟩ exHalveSt exHalveSt_good k

/-- One cell with the number 3. -/
noncomputable def exHalveCells : CellSt XReal (Fin 2) := ⟨![.ref 0, .num (num 0)], fun _ => num 3, 1⟩

theorem exHalveSt_carries : exHalveSt.Carries exHalveCells :=
  ⟨rfl, rfl, fun _ _ => f_obj ..⟩

/-- `while x > 1: b /= 2` on numbers makes two rounds: 3, 3/2, 3/4. -/
theorem exHalve_while (e : PyE XReal (Fin 2))
    (he : ∀ (σ : CellSt XReal (Fin 2)) (r : ℝ), σ.env 0 = .ref 0 → σ.cell 0 = num r →
      ∃ x, e.cells σ.val = .ok x ∧ x.get = num r) :
    ∃ σ', whileN ((cellMachine XReal (Fin 2) Unit).test ⟨.gt, e, .lit (num 1)⟩)
      (fun σ => some ((cellMachine XReal (Fin 2) Unit).step (.upd .div 1 (.lit (num 2))) σ)) 3
      (exHalveCells.bind 1 (.ref 0)) = some (.ok (), σ') ∧ σ'.env 0 = .ref 0 ∧ σ'.next = 1 ∧
        σ'.cell 0 = num (3 / 4) := by
  let M := cellMachine XReal (Fin 2) Unit
  let b : PyCond XReal (Fin 2) := ⟨.gt, e, .lit (num 1)⟩
  let s : PyStmt XReal (Fin 2) Unit := .upd .div 1 (.lit (num 2))
  have test : ∀ (σ : CellSt XReal (Fin 2)) (r : ℝ), σ.env 0 = .ref 0 → σ.cell 0 = num r →
      M.test b σ = .ok (decide (1 < r)) := by
    intro σ r h1 h2
    obtain ⟨x, h3, h4⟩ := he σ r h1 h2
    simp only [M, b, cellMachine, PyCond.cells, h3, PyE.cells, Res.ok_bind, h4]
    simp only [CmpOp.scalar, Cmp.gtB, XReal.lt]
    congr
  have step : ∀ (σ : CellSt XReal (Fin 2)) (r : ℝ), σ.env 1 = .ref 0 → σ.cell 0 = num r →
      M.step s σ = (.ok (), σ.write 0 (num (r / 2))) := by
    intro σ r h1 h2
    simp [M, s, cellMachine, PyStmt.cells, PyE.cells, h1, h2, POp.arith, recipDiv]
    rw [XReal.div_num (by norm_num), XReal.mul_num]
    norm_num [div_eq_mul_inv]
  refine ⟨((exHalveCells.bind 1 (.ref 0)).write 0 (num (3 / 2))).write 0 (num (3 / 2 / 2)), ?_, rfl, rfl,
    ?_⟩
  · change whileN (M.test b) (fun σ => some (M.step s σ)) 3 _ = _
    simp only [whileN]
    rw [test _ 3 rfl rfl, step _ 3 rfl rfl]
    simp only [show ((1 : ℝ) < 3) from by norm_num, decide_true]
    rw [test _ (3 / 2) rfl rfl, step _ (3 / 2) rfl rfl]
    simp only [show ((1 : ℝ) < 3 / 2) from by norm_num, decide_true]
    rw [test _ (3 / 2 / 2) rfl rfl]
    simp only [show ¬ ((1 : ℝ) < 3 / 2 / 2) from by norm_num, decide_false]
  · change num (3 / 2 / 2) = num (3 / 4)
    norm_num

theorem exHalveCells_run : ∃ σ', exHalveX.run (cellMachine XReal (Fin 2) Unit) 3 exHalveCells =
    some (.ok (), σ') ∧ σ'.env 0 = .ref 0 ∧ σ'.next = 1 ∧ σ'.cell 0 = num (3 / 4) := by
  have prog : exHalveX.run (cellMachine XReal (Fin 2) Unit) 3 exHalveCells =
      whileN ((cellMachine XReal (Fin 2) Unit).test ⟨.gt, .getF (.name 0), .lit (num 1)⟩)
      (fun σ => some ((cellMachine XReal (Fin 2) Unit).step (.upd .div 1 (.lit (num 2))) σ)) 3
      (exHalveCells.bind 1 (.ref 0)) := by
    simp [exHalveX, exHalve, Ctl.map, Test.map, PyStmt.map, PyCond.map, PyE.map, Ctl.run, Test.run,
      cellMachine, PyStmt.cells, exHalveCells]
  rw [prog]
  exact exHalve_while _ fun σ r h1 h2 => ⟨.num (num r), by
    simp [PyE.cells, CellSt.val, h1, h2], rfl⟩

/-- So the jet program does too, and the object of both names has the value 3/4. -/
example : ∃ st', exHalveX.run (pyMachine XReal (Fin 2) Unit exDyn2 1) 3 exHalveSt =
    some (.ok (), st') ∧ st'.env 0 = .ref 0 ∧ (st'.heap 0).f = .ok (num (3 / 4)) := by
  obtain ⟨σ', h1, h2, h3, h4⟩ := exHalveCells_run
  rcases C64_path xreal_comm xreal_cmp exDyn2_valid (Or.inl rfl) (fun _ => Nat.one_pos) exHalveX
    ⟨⟨trivial, trivial⟩, ⟨trivial, trivial⟩, trivial, trivial⟩ exHalveSt exHalveSt_good exHalveCells
    exHalveSt_carries 3 with ⟨_, h⟩ | ⟨o, st', σ'', k1, k2, k3⟩
  · rw [h1] at h; cases h
  · rw [h1] at k2; cases k2
    exact ⟨st', k1, by rw [k3.env, h2], by rw [k3.obj 0 (by omega), h4]⟩

end samples

end HJ
