import Verif.Props.PyCells
import Verif.Props.PySparse
import Verif.Props.SPyControl

/-!
# C65: Python programs on SScalar with branches and loops in any arithmetic
-/

namespace HJ

open SMap

variable {α V W : Type} [CMath α]

/-- The value of an object is the number in the cell. -/
def SPVal.Has : SPVal α → CVal α → Prop
  | .num s, .num t => s = t
  | .jet x, .cell t => SWF x ∧ x.f = .ok t
  | _, _ => False

theorem scell_node (hl : CommLaws α) {ord : Order α} (ho : ord.Ok) {U : Type} (e : Expr α U)
    (ρ : U → SS α) (σ : U → α) (h : ∀ v, SWF (ρ v) ∧ (ρ v).f = .ok (σ v)) :
    ∃ r, e.evalSS ord ρ = .ok r ∧ SPVal.Has (.jet r) (.cell (e.plain recipDiv σ)) := by
  obtain ⟨r, h1, h2, _⟩ := C51_sparse hl ho ρ σ (fun v => (h v).1) (fun v => (h v).2) e
  choose w hw using fun v => (h v).1.ex
  obtain ⟨r', h3, h4⟩ := evalSS_spec ho ρ (fun v => (w v, (ρ v).mD.find)) hw e
  rw [h1] at h3
  cases h3
  exact ⟨r, h1, SIs.wf h4, h2⟩

theorem POp.runSS_cells (hl : CommLaws α) {ord : Order α} (ho : ord.Ok) (o : POp) {x y : SPVal α}
    {x' y' : CVal α} (hx : x.Has x') (hy : y.Has y') :
    Both SPVal.Has (o.runSS ord x y) (o.cells x' y') := by
  obtain ⟨p, hp, rfl⟩ := lift_order ho
  cases x with
  | num x =>
    cases x' with
    | cell _ => exact hx.elim
    | num x' =>
    obtain rfl : x = x' := hx
    cases y with
    | num y =>
      cases y' with
      | cell _ => exact hy.elim
      | num y' =>
      obtain rfl : y = y' := hy
      cases o with
      | div =>
        simp only [POp.runSS, POp.nums, POp.cells, true_and]
        by_cases h0 : Cmp.eqB y (Arith.lit 0) = true
        · simp only [h0, if_true]; exact .throw _
        · simp only [h0]; exact .ok rfl
      | _ => exact .ok rfl
    | jet y =>
      cases y' with
      | num _ => exact hy.elim
      | cell t =>
      obtain ⟨r, h1, h2⟩ := scell_node hl hp (U := Unit) (.sbin o.left (.var ()) x) (fun _ => y)
        (fun _ => t) fun _ => hy
      simp only [Expr.evalSS, Res.ok_bind] at h1
      simp only [POp.runSS, h1, Res.ok_bind, POp.cells]
      refine .ok ?_
      cases o <;> exact h2
  | jet x =>
    cases x' with
    | num _ => exact hx.elim
    | cell s =>
    cases y with
    | num y =>
      cases y' with
      | cell _ => exact hy.elim
      | num y' =>
      obtain rfl : y = y' := hy
      obtain ⟨r, h1, h2⟩ := scell_node hl hp (U := Unit) (.sbin o.right (.var ()) y) (fun _ => x)
        (fun _ => s) fun _ => hx
      simp only [Expr.evalSS, Res.ok_bind] at h1
      simp only [POp.runSS, h1, Res.ok_bind, POp.cells]
      refine .ok ?_
      cases o <;> exact h2
    | jet y =>
      cases y' with
      | num _ => exact hy.elim
      | cell t =>
      obtain ⟨r, h1, h2⟩ := scell_node hl hp (U := Bool) (.bin o.bin (.var true) (.var false))
        (fun b => if b then x else y) (fun b => if b then s else t) (by
          intro b; cases b
          · exact hy
          · exact hx)
      simp only [Expr.evalSS, Res.ok_bind, if_true] at h1
      have h1' : o.bin.runS (p.sub 0) x y = .ok r := h1
      simp only [POp.runSS, h1', Res.ok_bind, POp.cells]
      refine .ok ?_
      cases o <;> exact h2

theorem SPyE.eval_cells (hl : CommLaws α) (ix : String → Int) (σ : V → SPVal α) (σ' : V → CVal α)
    (hσ : ∀ v, (σ v).Has (σ' v)) (e : SPyE α V) (hd : e.NoD) (hk : e.DictOk) {ord : Order α}
    (ho : ord.Ok) : Both SPVal.Has (e.eval ord σ) ((e.numbered ix).cells σ') := by
  induction e generalizing ord with
  | name v => exact .ok (hσ v)
  | lit s => exact .ok rfl
  | const s => exact .ok ⟨SIs.wf (SS.is_constant ho s), rfl⟩
  | vari k s => exact .ok ⟨SIs.wf (SS.is_var ho k s), rfl⟩
  | make s d => exact .ok ⟨SIs.wf (SS.is_make ho (m := d) hk (fun _ => rfl) s), rfl⟩
  | neg e ih =>
    refine (ih hd hk (ho.sub 1)).bind fun x y h => ?_
    cases x <;> cases y
    · obtain rfl := h; exact .ok rfl
    · exact h.elim
    · exact h.elim
    · rename_i x s
      obtain ⟨r, h1, h2⟩ := scell_node hl ho (U := Unit) (.neg (.var ())) (fun _ => x)
        (fun _ => s) fun _ => h
      simp only [Expr.evalSS, Res.ok_bind] at h1
      simp only [h1, Res.ok_bind]
      exact .ok h2
  | abs e ih =>
    refine (ih hd hk (ho.sub 1)).bind fun x y h => ?_
    cases x <;> cases y
    · obtain rfl := h; exact .ok rfl
    · exact h.elim
    · exact h.elim
    · rename_i x s
      obtain ⟨r, h1, h2⟩ := scell_node hl ho (U := Unit) (.abs (.var ())) (fun _ => x)
        (fun _ => s) fun _ => h
      simp only [Expr.evalSS, Res.ok_bind] at h1
      simp only [h1, Res.ok_bind]
      exact .ok h2
  | fn φ e ih =>
    refine (ih hd hk (ho.sub 1)).bind fun x y h => ?_
    cases x <;> cases y
    · exact .throw _
    · exact h.elim
    · exact h.elim
    · rename_i x s
      obtain ⟨r, h1, h2⟩ := scell_node hl ho (U := Unit) (.fn φ (.var ())) (fun _ => x)
        (fun _ => s) fun _ => h
      simp only [Expr.evalSS, Res.ok_bind] at h1
      simp only [h1, Res.ok_bind]
      exact .ok h2
  | op o e₁ e₂ ih₁ ih₂ =>
    exact (ih₁ hd.1 hk.1 (ho.sub 1)).bind fun x x' hx =>
      (ih₂ hd.2 hk.2 (ho.sub 2)).bind fun y y' hy => o.runSS_cells hl (ho.sub 0) hx hy
  | atan2 e₁ e₂ ih₁ ih₂ =>
    refine (ih₁ hd.1 hk.1 (ho.sub 1)).bind fun x x' hx =>
      (ih₂ hd.2 hk.2 (ho.sub 2)).bind fun y y' hy => ?_
    cases x <;> cases x' <;> first | exact hx.elim | skip
    · cases y <;> cases y' <;> first | exact hy.elim | exact .throw _
    rename_i x s
    cases y <;> cases y' <;> first | exact hy.elim | skip
    · exact .throw _
    rename_i y t
    obtain ⟨r, h1, h2⟩ := scell_node hl ho (U := Bool) (.bin .atan2 (.var true) (.var false))
      (fun b => if b then x else y) (fun b => if b then s else t) (by
        intro b; cases b
        · exact hy
        · exact hx)
    simp only [Expr.evalSS, Res.ok_bind, if_true] at h1
    have h1' : x.atan2 (ord.sub 0) y = .ok r := h1
    simp only [h1', Res.ok_bind]
    exact .ok h2
  | hypot e₁ e₂ ih₁ ih₂ =>
    refine (ih₁ hd.1 hk.1 (ho.sub 1)).bind fun x x' hx =>
      (ih₂ hd.2 hk.2 (ho.sub 2)).bind fun y y' hy => ?_
    cases x <;> cases x' <;> first | exact hx.elim | skip
    · cases y <;> cases y' <;> first | exact hy.elim | exact .throw _
    rename_i x s
    cases y <;> cases y' <;> first | exact hy.elim | skip
    · exact .throw _
    rename_i y t
    obtain ⟨r, h1, h2⟩ := scell_node hl ho (U := Bool) (.bin .hypot (.var true) (.var false))
      (fun b => if b then x else y) (fun b => if b then s else t) (by
        intro b; cases b
        · exact hy
        · exact hx)
    simp only [Expr.evalSS, Res.ok_bind, if_true] at h1
    have h1' : x.hypot (ord.sub 0) y = .ok r := h1
    simp only [h1', Res.ok_bind]
    exact .ok h2
  | hypot3 e₁ e₂ e₃ ih₁ ih₂ ih₃ =>
    refine (ih₁ hd.1 hk.1 (ho.sub 1)).bind fun x x' hx =>
      (ih₂ hd.2.1 hk.2.1 (ho.sub 2)).bind fun y y' hy =>
      (ih₃ hd.2.2 hk.2.2 (ho.sub 3)).bind fun z z' hz => ?_
    cases x <;> cases x' <;> first | exact hx.elim | skip
    · cases y <;> cases y' <;> first | exact hy.elim | exact .throw _
    rename_i x s
    cases y <;> cases y' <;> first | exact hy.elim | skip
    · exact .throw _
    rename_i y t
    cases z <;> cases z' <;> first | exact hz.elim | skip
    · exact .throw _
    rename_i z w
    obtain ⟨r, h1, h2⟩ := scell_node hl ho (U := Fin 3) (.hypot3 (.var 0) (.var 1) (.var 2))
      ![x, y, z] ![s, t, w] (by
        intro b; fin_cases b
        · exact hx
        · exact hy
        · exact hz)
    simp only [Expr.evalSS, Res.ok_bind] at h1
    have h1' : SS.hypot3 (ord.sub 0) x y z = .ok r := h1
    simp only [h1', Res.ok_bind]
    exact .ok h2
  | getF e ih =>
    refine (ih hd hk (ho.sub 1)).bind fun x y h => ?_
    cases x <;> cases y
    · exact .throw _
    · exact h.elim
    · exact h.elim
    · simp only [h.2, Res.ok_bind]
      exact .ok rfl
  | getD e k ih => exact hd.elim


theorem SPVal.cmp_cells (hq : CmpLaws α) (o : DD.CmpOp) {x y : SPVal α} {x' y' : CVal α}
    (hx : x.Has x') (hy : y.Has y') : SPVal.cmp o x y = .ok (o.scalar x'.get y'.get) := by
  cases x <;> cases x' <;> first | exact hx.elim | skip
  all_goals cases y <;> cases y' <;> first | exact hy.elim | skip
  · obtain rfl := hx; obtain rfl := hy; rfl
  · obtain rfl := hx
    simp only [SPVal.cmp, SS.cmpS, hy.2, Res.ok_bind]
    cases o
    · exact congrArg _ (hq.eq _ _)
    · exact congrArg _ (hq.ne _ _)
    · exact congrArg _ (hq.lt _ _).symm
    · exact congrArg _ (hq.lt _ _)
    · exact congrArg _ (hq.le _ _).symm
    · exact congrArg _ (hq.le _ _)
  · obtain rfl := hy
    simp only [SPVal.cmp, SS.cmpS, hx.2, Res.ok_bind, CVal.get]
  · simp only [SPVal.cmp, SS.cmp, hx.2, hy.2, Res.ok_bind, CVal.get]

theorem SPyCond.run_cells (hl : CommLaws α) (hq : CmpLaws α) (ix : String → Int) (σ : V → SPVal α)
    (σ' : V → CVal α) (hσ : ∀ v, (σ v).Has (σ' v)) (b : SPyCond α V) (hd : b.NoD) (hk : b.DictOk)
    {ord : Order α} (ho : ord.Ok) : b.run ord σ = (b.numbered ix).cells σ' := by
  have h1 := b.left.eval_cells hl ix σ σ' hσ hd.1 hk.1 (ho.sub 0)
  have h2 := b.right.eval_cells hl ix σ σ' hσ hd.2 hk.2 (ho.sub 1)
  simp only [SPyCond.run, PyCond.cells, SPyCond.numbered]
  generalize b.left.eval (ord.sub 0) σ = p at h1
  generalize (b.left.numbered ix).cells σ' = p' at h1
  generalize b.right.eval (ord.sub 1) σ = q at h2
  generalize (b.right.numbered ix).cells σ' = q' at h2
  cases h1 with
  | throw e => rfl
  | ok h1 =>
    cases h2 with
    | throw e => rfl
    | ok h2 =>
      simp only [Res.ok_bind]
      exact SPVal.cmp_cells hq b.op h1 h2

variable [DecidableEq V] [DecidableEq W]

/-- Everything is in order, and values are the numbers in the cells. -/
def STracks (st : SPySt α V) (σ : CellSt α V) : Prop := st.WF ∧ st.Carries σ

omit [CMath α] [DecidableEq V] in
theorem STracks.val {st : SPySt α V} {σ : CellSt α V} (h : STracks st σ) (v : V) :
    (st.val v).Has (σ.val v) := by
  have he := congrFun h.2.env v
  simp only [SPySt.val, CellSt.val, he]
  cases hr : σ.env v with
  | num s => exact rfl
  | ref a =>
    have ha := h.1.env v a (he.trans hr)
    exact ⟨h.1.obj a ha, h.2.obj a (h.2.next ▸ ha)⟩

omit [CMath α] [DecidableEq W] in
theorem STracks.write {st : SPySt α V} {σ : CellSt α V} (h : STracks st σ) (a : Nat) {x : SS α}
    {s : α} (hx : SWF x) (hs : x.f = .ok s) : STracks (st.write a x) (σ.write a s) := by
  refine ⟨⟨h.1.env, fun b hb => ?_⟩, h.2.env, h.2.next, fun b hb => ?_⟩
  · simp only [SPySt.write] at hb ⊢
    by_cases hba : b = a
    · simp only [hba, if_true]; exact hx
    · simp only [hba, if_false]; exact h.1.obj b hb
  · simp only [SPySt.write, CellSt.write] at hb ⊢
    by_cases hba : b = a
    · simp only [hba, if_true]; exact hs
    · simp only [hba, if_false]; exact h.2.obj b hb

omit [CMath α] [DecidableEq W] in
theorem STracks.bind {st : SPySt α V} {σ : CellSt α V} (h : STracks st σ) (t : V) {r : PyV α}
    (hr : ∀ a, r = .ref a → a < st.next) : STracks (st.bind t r) (σ.bind t r) := by
  refine ⟨⟨fun v a hv => ?_, h.1.obj⟩, ?_, h.2.next, h.2.obj⟩
  · simp only [SPySt.bind] at hv ⊢
    by_cases hvt : v = t
    · simp only [hvt, if_true] at hv; exact hr a hv
    · simp only [hvt, if_false] at hv; exact h.1.env v a hv
  · simp only [SPySt.bind, CellSt.bind, h.2.env]

omit [CMath α] [DecidableEq W] in
theorem STracks.fresh {st : SPySt α V} {σ : CellSt α V} (h : STracks st σ) (t : V) {r : SPVal α}
    {r' : CVal α} (hr : r.Has r') : STracks (st.fresh t r) (σ.fresh t r') := by
  cases r <;> cases r' <;> first | exact hr.elim | skip
  · obtain rfl := hr
    exact h.bind t fun a ha => by cases ha
  · have hn := h.2.next
    refine ⟨⟨fun v b hv => ?_, fun b hb => ?_⟩, ?_, ?_, fun b hb => ?_⟩
    · simp only [SPySt.fresh, SPySt.bind, SPySt.write] at hv ⊢
      by_cases hvt : v = t
      · simp only [hvt, if_true, PyV.ref.injEq] at hv; omega
      · simp only [hvt, if_false] at hv; have := h.1.env v b hv; omega
    · simp only [SPySt.fresh, SPySt.bind, SPySt.write] at hb ⊢
      by_cases hbn : b = st.next
      · simp only [hbn, if_true]; exact hr.1
      · simp only [hbn, if_false]; exact h.1.obj b (by omega)
    · simp only [SPySt.fresh, CellSt.fresh, SPySt.bind, CellSt.bind, SPySt.write, CellSt.write,
        h.2.env, h.2.next]
    · simp only [SPySt.fresh, CellSt.fresh, h.2.next]
    · simp only [SPySt.fresh, CellSt.fresh, SPySt.bind, CellSt.bind, SPySt.write, CellSt.write,
        h.2.next] at hb ⊢
      by_cases hbn : b = σ.next
      · simp only [hbn, if_true]; exact hr.2
      · simp only [hbn, if_false]; exact h.2.obj b (by omega)

/-- Same outcome and states that track each other. -/
def SStepTracks (q : Res Unit × SPySt α V) (q' : Res Unit × CellSt α V) : Prop :=
  q.1 = q'.1 ∧ STracks q.2 q'.2

omit [CMath α] [DecidableEq W] in
theorem STracks.store {st : SPySt α V} {σ : CellSt α V} (h : STracks st σ) (t : V)
    {r : Res (SPVal α)} {r' : Res (CVal α)} (hr : Both SPVal.Has r r') :
    SStepTracks (st.store t r) (σ.store t r') := by
  cases hr with
  | ok hr => exact ⟨rfl, h.fresh t hr⟩
  | throw e => exact ⟨rfl, h⟩

theorem scells_step (hl : CommLaws α) (ix : String → Int) {ord : Order α} (ho : ord.Ok)
    (s : SPyStmt α V) (hd : s.NoD) (hk : s.DictOk) {st : SPySt α V} {σ : CellSt α V}
    (h : STracks st σ) :
    SStepTracks (s.run ord st) ((s.numbered ix : PyStmt α V W).cells σ) := by
  cases s with
  | assign t e =>
    cases e with
    | name s =>
      have hb := h.bind t (r := st.env s) fun a ha => h.1.env s a ha
      refine ⟨rfl, ?_⟩
      simp only [SPyStmt.run, SPyStmt.numbered, SPyE.numbered, PyStmt.cells, ← h.2.env]
      exact hb
    | getD e k => exact hd.elim
    | _ => exact h.store t (SPyE.eval_cells hl ix _ _ h.val _ hd hk (ho.sub 1))
  | upd o t e =>
    have he := e.eval_cells hl ix _ _ h.val hd hk (ho.sub 1)
    simp only [SPyStmt.run, SPyStmt.numbered, PyStmt.cells]
    generalize hr : e.eval (ord.sub 1) st.val = r at he
    generalize (e.numbered ix).cells σ.val = r' at he
    cases he with
    | throw e => exact ⟨rfl, h⟩
    | @ok y y' hy =>
      have hE := congrFun h.2.env t
      cases ht : σ.env t with
      | num s =>
        simp only [hE, ht]
        exact h.store t (o.runSS_cells hl (ho.sub 0) (x := .num s) (x' := .num s) rfl hy)
      | ref a =>
        have ha := h.1.env t a (hE.trans ht)
        have h3 := h.1.obj a ha
        have h4 := h.2.obj a (h.2.next ▸ ha)
        simp only [hE, ht]
        cases y <;> cases y' <;> first | exact hy.elim | skip
        · rename_i s s'
          obtain rfl : s = s' := hy
          have hst := h.store t (o.runSS_cells hl (ho.sub 0) (x := .jet (st.heap a))
            (x' := .cell (σ.cell a)) (y := .num s) (y' := .num s) ⟨h3, h4⟩ rfl)
          have hm : ∀ s, ∃ r, (st.heap a).mulAssignS s = .ok r ∧ SWF r ∧
              r.f = .ok (σ.cell a *ₛ s) := by
            intro s
            refine ⟨⟨some (σ.cell a *ₛ s), _⟩, by simp only [SS.mulAssignS, h4, Res.ok_bind]; rfl,
              ⟨by simp, (accumSelf_spec (fun _ w => w *ₛ s) h3.nodup).1⟩, rfl⟩
          cases o with
          | add => exact hst
          | sub => exact hst
          | mul =>
            obtain ⟨r, k1, k2, k3⟩ := hm s
            simp only [k1, SPySt.change]
            exact ⟨rfl, h.write a k2 k3⟩
          | div =>
            obtain ⟨r, k1, k2, k3⟩ := hm (Arith.lit 1 ÷ₛ s)
            simp only [SS.divAssignS, k1, SPySt.change]
            exact ⟨rfl, h.write a k2 k3⟩
        · rename_i y s
          have hop : OperandWF (st.operand a e y) ∧ ((st.operand a e y).get (st.heap a)).f = .ok s := by
            cases e with
            | name v =>
              simp only [SPyE.eval, Res.ok.injEq, SPySt.val] at hr
              simp only [SPySt.operand]
              cases hv' : st.env v with
              | num r => exact hy
              | ref b =>
                rw [hv'] at hr
                by_cases hba : b = a
                · subst hba
                  simp only [SPVal.jet.injEq] at hr
                  simp only [if_true]
                  exact ⟨trivial, hr ▸ hy.2⟩
                · simp only [hba, if_false]; exact hy
            | _ => exact hy
          have hval : ∃ r, o.asgSS (ord.sub 0) (st.heap a) (st.operand a e y) = .ok r ∧
              r.f = .ok (o.arith Arith.div (σ.cell a) s) := by
            cases o <;> simp only [POp.asgSS, SS.addAssign, SS.subAssign, SS.mulAssign, SS.divAssign,
              h4, hop.2, Res.ok_bind] <;> exact ⟨_, rfl, rfl⟩
          obtain ⟨r, k1, k2⟩ := hval
          simp only [k1, SPySt.change]
          exact ⟨rfl, h.write a (asg_wf (ho.sub 0) o h3 hop.1 k1) k2⟩

/-- What a statement or comparison of an `SScalar` program can end with. -/
inductive SPyOutcome {β : Type} : Res β → Prop
  | ok (b : β) : SPyOutcome (.ok b)
  | zeroDivision : SPyOutcome (.throw .zeroDivision)
  | attributeError : SPyOutcome (.throw .attributeError)
  | typeError : SPyOutcome (.throw .typeError)

omit [DecidableEq V] [DecidableEq W] in
theorem test_same {ord ord' : Order α} (ho : ord.Ok) (ho' : ord'.Ok) (b : SPyCond α V)
    (hk : b.DictOk) {st st' : SPySt α V} (hw : st.WF) (hw' : st'.WF) (h : SameSt st st') :
    b.run ord st.val = b.run ord' st'.val ∧ SPyOutcome (b.run ord st.val) := by
  have h1 := eval_same b.left hk.1 (ho.sub 0) (ho'.sub 0) (hw.sameVal hw' h)
  have h2 := eval_same b.right hk.2 (ho.sub 1) (ho'.sub 1) (hw.sameVal hw' h)
  simp only [SPyCond.run]
  generalize b.left.eval (ord.sub 0) st.val = p at h1
  generalize b.left.eval (ord'.sub 0) st'.val = p' at h1
  generalize b.right.eval (ord.sub 1) st.val = q at h2
  generalize b.right.eval (ord'.sub 1) st'.val = q' at h2
  have hthrow : ∀ {e : Err}, e = .zeroDivision ∨ e = .attributeError ∨ e = .typeError →
      SPyOutcome (Res.throw e : Res Bool) := by
    rintro e (rfl | rfl | rfl)
    exacts [.zeroDivision, .attributeError, .typeError]
  have hval : ∀ x y : SS α, SWF x → SWF y → SameSS x y → ∃ v, x.f = .ok v ∧ y.f = .ok v := by
    intro x y hx hy h
    obtain ⟨v, hv⟩ := hx.ex
    exact ⟨v, SS.f_ok hv, SS.f_ok (h.is hy hv)⟩
  cases p with
  | ok x =>
    cases p' with
    | ok x' =>
      cases q with
      | ok y =>
        cases q' with
        | ok y' =>
          simp only [Res.ok_bind]
          cases x <;> cases x' <;> first | exact False.elim h1 | skip
          all_goals cases y <;> cases y' <;> first | exact False.elim h2 | skip
          · cases h1; cases h2
            exact ⟨rfl, .ok _⟩
          · cases h1
            obtain ⟨v, e1, e2⟩ := hval _ _ h2.1 h2.2.1 h2.2.2
            simp only [SPVal.cmp, SS.cmpS, e1, e2, Res.ok_bind]
            exact ⟨trivial, .ok _⟩
          · cases h2
            obtain ⟨v, e1, e2⟩ := hval _ _ h1.1 h1.2.1 h1.2.2
            simp only [SPVal.cmp, SS.cmpS, e1, e2, Res.ok_bind]
            exact ⟨trivial, .ok _⟩
          · obtain ⟨v, e1, e2⟩ := hval _ _ h1.1 h1.2.1 h1.2.2
            obtain ⟨w, e3, e4⟩ := hval _ _ h2.1 h2.2.1 h2.2.2
            simp only [SPVal.cmp, SS.cmp, e1, e2, e3, e4, Res.ok_bind]
            exact ⟨trivial, .ok _⟩
        | _ => exact False.elim h2
      | throw e =>
        cases q' with
        | throw e' =>
          obtain ⟨rfl, h3⟩ := h2
          exact ⟨rfl, hthrow h3⟩
        | _ => exact False.elim h2
      | abort => cases q' <;> exact False.elim h2
      | ub => cases q' <;> exact False.elim h2
    | _ => exact False.elim h1
  | throw e =>
    cases p' with
    | throw e' =>
      obtain ⟨rfl, h3⟩ := h1
      exact ⟨rfl, hthrow h3⟩
    | _ => exact False.elim h1
  | abort => cases p' <;> exact False.elim h1
  | ub => cases p' <;> exact False.elim h1

omit [DecidableEq V] in
theorem SameSt.refl (st : SPySt α V) : SameSt st st :=
  ⟨rfl, rfl, fun _ _ => ⟨rfl, rfl, fun _ => rfl, fun _ => Iff.rfl⟩⟩

/-- **C65.** A Python program on `SScalar` objects with branches and loops, however its hash tables are
iterated: whatever it does and however often its loops run, it has no undefined behaviour and does not
abort; if it ends, it ends normally or with `ZeroDivisionError`, `AttributeError` or `TypeError`, and
all objects are proper.  Holds in every arithmetic. -/
theorem C65_safe (p : Ctl (SPyStmt α V) (SPyCond α V)) (hp : p.Each SPyStmt.DictOk SPyCond.DictOk)
    {ord : Order α} (ho : ord.Ok) (st : SPySt α V) (h : st.WF) (k : Nat) :
    p.run (spyMachine α V) k (ord, st) = none ∨
    ∃ o ord' st', p.run (spyMachine α V) k (ord, st) = some (o, (ord', st')) ∧ SPyOutcome o ∧
      ord'.Ok ∧ st'.WF := by
  have key := Ctl.keeps (M := spyMachine α V) (I := fun q => q.1.Ok ∧ q.2.WF) (O := SPyOutcome)
    (OB := SPyOutcome) (P := SPyStmt.DictOk) (Q := SPyCond.DictOk) (.ok _) (fun b => .ok b) (by
      intro e he
      cases he with
      | zeroDivision => exact .zeroDivision
      | attributeError => exact .attributeError
      | typeError => exact .typeError)
    (fun h => by cases h) (fun u h => by cases h)
    (fun s hs st h => by
      have hs := run_same h.2 h.2 (.refl _) (h.1.sub 0) (h.1.sub 0) s hs
      refine ⟨?_, h.1.sub 1, hs.wf⟩
      simp only [spyMachine]
      rcases hs.safe with e | e | e | e <;> rw [e]
      exacts [.ok _, .zeroDivision, .attributeError, .typeError])
    (fun b hb st h => (test_same (h.1.sub 2) (h.1.sub 2) b hb h.2 h.2 (.refl _)).2)
    k p hp (ord, st) ⟨ho, h⟩
  rcases key with h | ⟨o, st', h1, h2, h3⟩
  · exact Or.inl h
  · exact Or.inr ⟨o, st'.1, st'.2, h1, h2, h3.1, h3.2⟩

/-- **C65, iteration orders do not matter.**  However the hash tables are iterated, the program takes
the same branches and the same number of rounds in every loop (or never ends), ends in the same way and
leaves states that cannot be told apart.  Holds in every arithmetic. -/
theorem C65_order_independent (p : Ctl (SPyStmt α V) (SPyCond α V))
    (hp : p.Each SPyStmt.DictOk SPyCond.DictOk) {ord ord' : Order α} (ho : ord.Ok) (ho' : ord'.Ok)
    (st st' : SPySt α V) (hw : st.WF) (hw' : st'.WF) (h : SameSt st st') (k : Nat) :
    (p.run (spyMachine α V) k (ord, st) = none ∧ p.run (spyMachine α V) k (ord', st') = none) ∨
    ∃ o q q', p.run (spyMachine α V) k (ord, st) = some (o, q) ∧
      p.run (spyMachine α V) k (ord', st') = some (o, q') ∧ SameSt q.2 q'.2 := by
  have key := Ctl.alike (M := spyMachine α V) (M' := spyMachine α V) (P := SPyStmt.DictOk)
    (Q := SPyCond.DictOk)
    (R := fun q q' => (q.1.Ok ∧ q'.1.Ok) ∧ (q.2.WF ∧ q'.2.WF) ∧ SameSt q.2 q'.2)
    (fun s hs q q' h => by
      have hs := run_same h.2.1.1 h.2.1.2 h.2.2 (h.1.1.sub 0) (h.1.2.sub 0) s hs
      exact ⟨hs.out, ⟨h.1.1.sub 1, h.1.2.sub 1⟩, ⟨hs.wf, hs.wf'⟩, hs.same⟩)
    (fun b hb q q' h =>
      (test_same (h.1.1.sub 2) (h.1.2.sub 2) b hb h.2.1.1 h.2.1.2 h.2.2).1)
    k p hp (ord, st) (ord', st') ⟨⟨ho, ho'⟩, ⟨hw, hw'⟩, h⟩
  rcases key with h | ⟨o, q, q', h1, h2, h3⟩
  · exact Or.inl h
  · exact Or.inr ⟨o, q, q', h1, h2, h3.2.2⟩

/-- **C65, sparse scalars take the path of their values.**  The same program with one number in place
of every sparse scalar takes the same branches and the same number of rounds in every loop (or neither
ends), raises the same exception at the same place if any, binds the same names to the same objects,
and gives the same values, bit for bit. -/
theorem C65_path (hl : CommLaws α) (hq : CmpLaws α) (ix : String → Int)
    (p : Ctl (SPyStmt α V) (SPyCond α V))
    (hp : p.Each (fun s => s.NoD ∧ s.DictOk) (fun b => b.NoD ∧ b.DictOk)) {ord : Order α}
    (ho : ord.Ok) (st : SPySt α V) (h : st.WF) (σ : CellSt α V) (hσ : st.Carries σ) (k : Nat) :
    (p.run (spyMachine α V) k (ord, st) = none ∧
      (p.map (SPyStmt.numbered ix) (SPyCond.numbered ix)).run (cellMachine α V W) k σ = none) ∨
    ∃ o ord' st' σ', p.run (spyMachine α V) k (ord, st) = some (o, (ord', st')) ∧
      (p.map (SPyStmt.numbered ix) (SPyCond.numbered ix)).run (cellMachine α V W) k σ =
        some (o, σ') ∧ st'.Carries σ' := by
  rw [Ctl.run_map]
  have key := Ctl.alike (M := spyMachine α V)
    (M' := (⟨fun s => (cellMachine α V W).step (s.numbered ix),
      fun b => (cellMachine α V W).test (b.numbered ix)⟩ :
        Machine (SPyStmt α V) (SPyCond α V) (CellSt α V)))
    (R := fun q σ => q.1.Ok ∧ STracks q.2 σ)
    (fun s hs q σ h => by
      have := scells_step (W := W) hl ix (h.1.sub 0) s hs.1 hs.2 h.2
      exact ⟨this.1, h.1.sub 1, this.2⟩)
    (fun b hb q σ h => SPyCond.run_cells hl hq ix _ _ h.2.val b hb.1 hb.2 (h.1.sub 2))
    k p hp (ord, st) σ ⟨ho, h, hσ⟩
  rcases key with h | ⟨o, q, σ', h1, h2, h3⟩
  · exact Or.inl h
  · exact Or.inr ⟨o, q.1, q.2, σ', h1, h2, h3.2.2⟩

section dense

variable {c : Cfg} {n : Nat}

omit [CMath α] [DecidableEq V] in
theorem SPyE.numbered_inRange {ix : String → Int} (hix : ∀ k, 0 ≤ ix k ∧ ix k < n) (e : SPyE α V) :
    (e.numbered ix).InRange n := by
  induction e with
  | vari k s => exact hix k
  | neg e ih | abs e ih | fn φ e ih | getF e ih | getD e k ih => exact ih
  | op o e₁ e₂ ih₁ ih₂ | atan2 e₁ e₂ ih₁ ih₂ | hypot e₁ e₂ ih₁ ih₂ => exact ⟨ih₁, ih₂⟩
  | hypot3 e₁ e₂ e₃ ih₁ ih₂ ih₃ => exact ⟨ih₁, ih₂, ih₃⟩
  | _ => exact trivial

theorem Test.all_map {B B' : Type} {P : B → Prop} {Q : B' → Prop} {g : B → B'}
    (hg : ∀ b, P b → Q (g b)) (t : Test B) (ht : t.All P) : (t.map g).All Q := by
  induction t with
  | atom b => exact hg b ht
  | not t ih => exact ih ht
  | and s t ih ih' => exact ⟨ih ht.1, ih' ht.2⟩
  | or s t ih ih' => exact ⟨ih ht.1, ih' ht.2⟩

theorem Ctl.each_map {S S' B B' : Type} {P : S → Prop} {P' : S' → Prop} {Q : B → Prop}
    {Q' : B' → Prop} {f : S → S'} {g : B → B'} (hf : ∀ s, P s → P' (f s))
    (hg : ∀ b, Q b → Q' (g b)) (p : Ctl S B) (hp : p.Each P Q) : (p.map f g).Each P' Q' := by
  induction p with
  | skip => exact trivial
  | act s => exact hf s hp
  | seq p q ihp ihq => exact ⟨ihp hp.1, ihq hp.2⟩
  | ite t p q ihp ihq => exact ⟨Test.all_map hg t hp.1, ihp hp.2.1, ihq hp.2.2⟩
  | loop t p ih => exact ⟨Test.all_map hg t hp.1, ih hp.2⟩

/-- **C65, sparse and dense agree.**  The same program written for a dense class (every variable name
replaced by a valid index) takes the same branches and the same number of rounds in every loop (or
neither ends), raises the same exception at the same place if any, binds the same names to the same
objects, and gives the same values, bit for bit, however the hash tables are iterated. -/
theorem C65_dense_agrees (hl : CommLaws α) (hq : CmpLaws α) (hv : c.Valid)
    (hf : c.tsize = -1 ∨ c.tsize = n) (ix : String → Int) (hix : ∀ k, 0 ≤ ix k ∧ ix k < n)
    (p : Ctl (SPyStmt α V) (SPyCond α V))
    (hp : p.Each (fun s => s.NoD ∧ s.DictOk) (fun b => b.NoD ∧ b.DictOk)) {ord : Order α}
    (ho : ord.Ok) (st : SPySt α V) (h : st.WF) (dst : PySt α V W) (hd : dst.Good c n)
    (henv : dst.env = st.env) (hnext : dst.next = st.next)
    (hval : ∀ a < st.next, (dst.heap a).f = (st.heap a).f) (k : Nat) :
    (p.run (spyMachine α V) k (ord, st) = none ∧
      (p.map (SPyStmt.numbered ix) (SPyCond.numbered ix)).run (pyMachine α V W c n) k dst = none) ∨
    ∃ o ord' st' dst', p.run (spyMachine α V) k (ord, st) = some (o, (ord', st')) ∧
      (p.map (SPyStmt.numbered ix) (SPyCond.numbered ix)).run (pyMachine α V W c n) k dst =
        some (o, dst') ∧
      dst'.env = st'.env ∧ dst'.next = st'.next ∧
      ∀ a < st'.next, (dst'.heap a).f = (st'.heap a).f := by
  have hn : 0 < n := by have := hix ""; omega
  let σ : CellSt α V := ⟨st.env, fun a => ((st.heap a).mF).getD (Arith.lit 0), st.next⟩
  have hσ : st.Carries σ := ⟨rfl, rfl, fun a ha => by
    obtain ⟨v, hv⟩ := (h.obj a ha).ex
    change _ = Res.ok (((st.heap a).mF).getD (Arith.lit 0))
    rw [hv.1, SS.f_ok hv]; rfl⟩
  have hσ' : dst.Carries σ := ⟨henv, hnext, fun a ha => (hval a ha).trans (hσ.obj a ha)⟩
  have h2 := C64_path hl hq hv hf (fun _ => hn)
    (p.map (SPyStmt.numbered ix) (SPyCond.numbered ix))
    (Ctl.each_map (fun s _ => by
        cases s <;> exact ⟨SPyE.numbered_inRange hix _, trivial⟩)
      (fun b _ => ⟨SPyE.numbered_inRange hix _, SPyE.numbered_inRange hix _⟩) p hp)
    dst hd σ hσ' k
  rcases C65_path (W := W) hl hq ix p hp ho st h σ hσ k with ⟨h3, h4⟩ | ⟨o, ord', st', σ', h3, h4, h5⟩
  · rcases h2 with ⟨h6, _⟩ | ⟨_, _, _, _, h6, _⟩
    · exact Or.inl ⟨h3, h6⟩
    · rw [h4] at h6; cases h6
  · rcases h2 with ⟨_, h6⟩ | ⟨o', dst', σ'', h6, h7, h8⟩
    · rw [h4] at h6; cases h6
    · rw [h4] at h7
      cases h7
      exact Or.inr ⟨o, ord', st', dst', h3, h6, h8.env.trans h5.env.symm,
        h8.next.trans h5.next.symm, fun a ha => (h8.obj a (h5.next ▸ ha)).trans
          (h5.obj a (h5.next ▸ ha)).symm⟩

end dense

/-! ### Concrete cases -/

section samples

open XReal (num)

/-- `b = a` followed by `while a > 1: b /= 2` (the object of both names changes). -/
noncomputable def exSHalveX : Ctl (SPyStmt XReal (Fin 2)) (SPyCond XReal (Fin 2)) :=
  exSHalve.map (SPyStmt.map num) (SPyCond.map num)

theorem exSHalveX_each : exSHalveX.Each (fun s => s.NoD ∧ s.DictOk) (fun b => b.NoD ∧ b.DictOk) :=
  ⟨⟨trivial, trivial⟩, ⟨⟨trivial, trivial⟩, trivial, trivial⟩, trivial, trivial⟩

theorem exSHalveSt_wf : exSHalveSt.WF where
  env := fun v a h => by
    fin_cases v
    · cases h; exact Nat.one_pos
    · cases h
  obj := fun _ _ => (SS.is_var exRev_ok "u" (num 3)).wf

example (k : Nat) : exSHalveX.run (spyMachine XReal (Fin 2)) k (exRev, exSHalveSt) = none ∨
    ∃ o ord' st', exSHalveX.run (spyMachine XReal (Fin 2)) k (exRev, exSHalveSt) =
      some (o, (ord', st')) ∧ SPyOutcome o ∧ ord'.Ok ∧ st'.WF :=
  C65_safe exSHalveX ⟨trivial, ⟨trivial, trivial⟩, trivial⟩ exRev_ok exSHalveSt exSHalveSt_wf k

example (k : Nat) :
    (exSHalveX.run (spyMachine XReal (Fin 2)) k (exRev, exSHalveSt) = none ∧
      exSHalveX.run (spyMachine XReal (Fin 2)) k (exFwd, exSHalveSt) = none) ∨
    ∃ o q q', exSHalveX.run (spyMachine XReal (Fin 2)) k (exRev, exSHalveSt) = some (o, q) ∧
      exSHalveX.run (spyMachine XReal (Fin 2)) k (exFwd, exSHalveSt) = some (o, q') ∧
      SameSt q.2 q'.2 :=
  C65_order_independent exSHalveX ⟨trivial, ⟨trivial, trivial⟩, trivial⟩ exRev_ok exFwd_ok exSHalveSt
    exSHalveSt exSHalveSt_wf exSHalveSt_wf (.refl _) k

theorem exSHalveSt_carries : exSHalveSt.Carries exHalveCells := ⟨rfl, rfl, fun _ _ => rfl⟩

/-- Two rounds, as on numbers; the object of both names has the value 3/4. -/
theorem exSHalveX_run : ∃ ord' st', exSHalveX.run (spyMachine XReal (Fin 2)) 3 (exRev, exSHalveSt) =
    some (.ok (), (ord', st')) ∧ st'.env 0 = .ref 0 ∧ st'.next = 1 ∧
      (st'.heap 0).f = .ok (num (3 / 4)) := by
  obtain ⟨σ', h1, h2, h3, h4⟩ := exHalve_while (.name 0) fun σ r h1 h2 => ⟨.cell (num r), by
    simp [PyE.cells, CellSt.val, h1, h2], rfl⟩
  have prog : (exSHalveX.map (SPyStmt.numbered fun _ => 0) (SPyCond.numbered fun _ => 0)).run
      (cellMachine XReal (Fin 2) Unit) 3 exHalveCells =
      whileN ((cellMachine XReal (Fin 2) Unit).test ⟨.gt, .name 0, .lit (num 1)⟩)
      (fun σ => some ((cellMachine XReal (Fin 2) Unit).step (.upd .div 1 (.lit (num 2))) σ)) 3
      (exHalveCells.bind 1 (.ref 0)) := by
    simp [exSHalveX, exSHalve, Ctl.map, Test.map, SPyStmt.map, SPyCond.map, SPyE.map, Ctl.run,
      Test.run, SPyStmt.numbered, SPyCond.numbered, SPyE.numbered, cellMachine, PyStmt.cells,
      exHalveCells]
  rw [← prog] at h1
  rcases C65_path (W := Unit) xreal_comm xreal_cmp (fun _ => 0) exSHalveX exSHalveX_each exRev_ok
    exSHalveSt exSHalveSt_wf exHalveCells exSHalveSt_carries 3 with
    ⟨_, h⟩ | ⟨o, ord', st', σ'', k1, k2, k3⟩
  · rw [h1] at h; cases h
  · rw [h1] at k2; cases k2
    exact ⟨ord', st', k1, by rw [k3.env, h2], by rw [k3.next, h3], by rw [k3.obj 0 (by omega), h4]⟩

/-- So the dense program does too. -/
example : ∃ dst', (exSHalveX.map (SPyStmt.numbered fun _ => 0) (SPyCond.numbered fun _ => 0)).run
      (pyMachine XReal (Fin 2) Unit exDyn2 1) 3 exHalveSt = some (.ok (), dst') ∧
    dst'.env 0 = .ref 0 ∧ (dst'.heap 0).f = .ok (num (3 / 4)) := by
  obtain ⟨ord', st', h1, h2, h3, h4⟩ := exSHalveX_run
  rcases C65_dense_agrees xreal_comm xreal_cmp exDyn2_valid (Or.inl rfl) (fun _ => 0)
    (fun _ => ⟨le_refl 0, by norm_num⟩) exSHalveX exSHalveX_each exRev_ok exSHalveSt exSHalveSt_wf
    exHalveSt exHalveSt_good rfl rfl (fun a _ => f_obj ..) 3 with
    ⟨h, _⟩ | ⟨o, ord'', st'', dst', k1, k2, k3, k4, k5⟩
  · rw [h1] at h; cases h
  · rw [h1] at k1; cases k1
    exact ⟨dst', k2, by rw [k3, h2], by rw [k5 0 (by omega), h4]⟩

end samples

end HJ
