import Verif.Spec.PyHeap
import Verif.Props.Program
import Verif.Props.Plain
import Verif.Props.Pad

/-!
# C52: names and objects in Python programs; C53: array views
-/

namespace HJ

open DD

variable {α V W : Type}

section wf

variable [CMath α] {c : Cfg} {n : Nat}

theorem var_wf (hv : c.Valid) (hf : Fits c n) {i : Int} {s : α} {x : DD α}
    (h : DD.var c i s n = .ok x) : WF c n x := by
  have hz : ∀ z : DD α, WF c n z → (do
      let r ← z.setF s
      r.setG c i (Arith.lit 1)) = .ok x → WF c n x := by
    intro z hz h
    obtain ⟨y, h1, h2⟩ := Res.bind_eq_ok.1 h
    obtain ⟨d, h3, h4⟩ := Res.bind_eq_ok.1 h1
    have hy : WF c n y := by
      rw [← Res.ok.inj h4]; exact hz.replace (hz.keep.wr h3)
    obtain ⟨_, _, h5⟩ := Res.bind_eq_ok.1 h2
    obtain ⟨d, h6, h7⟩ := Res.bind_eq_ok.1 h5
    rw [← Res.ok.inj h7]; exact hy.replace (hy.keep.wr h6)
  unfold DD.var at h
  cases hd : c.isDynamic
  · simp only [hd, Bool.false_eq_true, if_false, checkValidSize_fits hf, Res.ok_bind,
      DD.variable0] at h
    rw [zero0_obj hf hd] at h
    exact hz _ (wf_obj hv.order hf _) h
  · simp only [hd, if_true, zero_obj hf, Res.ok_bind] at h
    exact hz _ (wf_obj hv.order hf _) h

theorem setF_wf {x y : DD α} (hx : WF c n x) {s : α} (h : x.setF s = .ok y) : WF c n y := by
  obtain ⟨d, h3, h4⟩ := Res.bind_eq_ok.1 h
  rw [← Res.ok.inj h4]; exact hx.replace (hx.keep.wr h3)

theorem setH_wf {x y : DD α} (hx : WF c n x) {i j : Int} {s : α} (h : x.setH c i j s = .ok y) :
    WF c n y := by
  obtain ⟨_, _, h⟩ := Res.bind_eq_ok.1 h
  obtain ⟨_, _, h⟩ := Res.bind_eq_ok.1 h
  obtain ⟨d, h3, h4⟩ := Res.bind_eq_ok.1 h
  rw [← Res.ok.inj h4]; exact hx.replace (hx.keep.wr h3)

theorem POp.run_wf (hv : c.Valid) (o : POp) {x y r : PVal α} (hx : x.WF c n) (hy : y.WF c n)
    (h : o.run c x y = .ok r) : r.WF c n := by
  cases x with
  | num x =>
    cases y with
    | num y =>
      obtain ⟨z, _, h⟩ := Res.bind_eq_ok.1 h
      rw [← Res.ok.inj h]; trivial
    | jet y =>
      obtain ⟨z, h1, h⟩ := Res.bind_eq_ok.1 h
      rw [← Res.ok.inj h]
      obtain ⟨hf, b, rfl⟩ := WF.eq_obj hv.order hy
      rw [SBin.run_obj hv.order hf] at h1
      rw [← Res.ok.inj h1]; exact wf_obj hv.order hf _
  | jet x =>
    cases y with
    | num y =>
      obtain ⟨z, h1, h⟩ := Res.bind_eq_ok.1 h
      rw [← Res.ok.inj h]
      obtain ⟨hf, b, rfl⟩ := WF.eq_obj hv.order hx
      rw [SBin.run_obj hv.order hf] at h1
      rw [← Res.ok.inj h1]; exact wf_obj hv.order hf _
    | jet y =>
      obtain ⟨z, h1, h⟩ := Res.bind_eq_ok.1 h
      rw [← Res.ok.inj h]
      obtain ⟨hf, a, rfl⟩ := WF.eq_obj hv.order hx
      obtain ⟨_, b, rfl⟩ := WF.eq_obj hv.order hy
      rw [Bin.run_obj hv.order hf] at h1
      rw [← Res.ok.inj h1]; exact wf_obj hv.order hf _

theorem PyE.eval_wf (hv : c.Valid) (hf : Fits c n) (σ : V → PVal α) (hσ : ∀ v, (σ v).WF c n)
    (e : PyE α V) {r : PVal α} (h : e.eval c n σ = .ok r) : r.WF c n := by
  induction e generalizing r with
  | name v => rw [← Res.ok.inj h]; exact hσ v
  | lit s => rw [← Res.ok.inj h]; trivial
  | const s =>
    obtain ⟨z, h1, h⟩ := Res.bind_eq_ok.1 h
    rw [constant_obj hf] at h1
    rw [← Res.ok.inj h, ← Res.ok.inj h1]; exact wf_obj hv.order hf _
  | vari i s =>
    obtain ⟨z, h1, h⟩ := Res.bind_eq_ok.1 h
    rw [← Res.ok.inj h]; exact var_wf hv hf h1
  | neg e ih =>
    obtain ⟨x, h1, h⟩ := Res.bind_eq_ok.1 h
    have hx := ih h1
    cases x with
    | num s => rw [← Res.ok.inj h]; trivial
    | jet x =>
      dsimp only at h
      obtain ⟨z, h2, h9⟩ := Res.bind_eq_ok.1 h
      obtain ⟨_, a, rfl⟩ := WF.eq_obj hv.order hx
      rw [neg_obj hf] at h2
      rw [← Res.ok.inj h9, ← Res.ok.inj h2]; exact wf_obj hv.order hf _
  | abs e ih =>
    obtain ⟨x, h1, h⟩ := Res.bind_eq_ok.1 h
    have hx := ih h1
    cases x with
    | num s => rw [← Res.ok.inj h]; trivial
    | jet x =>
      dsimp only at h
      obtain ⟨z, h2, h9⟩ := Res.bind_eq_ok.1 h
      obtain ⟨_, a, rfl⟩ := WF.eq_obj hv.order hx
      rw [abs_obj hf] at h2
      rw [← Res.ok.inj h9, ← Res.ok.inj h2]; exact wf_obj hv.order hf _
  | fn φ e ih =>
    obtain ⟨x, h1, h⟩ := Res.bind_eq_ok.1 h
    have hx := ih h1
    cases x with
    | num s => cases h
    | jet x =>
      dsimp only at h
      obtain ⟨z, h2, h9⟩ := Res.bind_eq_ok.1 h
      obtain ⟨_, a, rfl⟩ := WF.eq_obj hv.order hx
      rw [un_obj hv.order hf] at h2
      rw [← Res.ok.inj h9, ← Res.ok.inj h2]; exact wf_obj hv.order hf _
  | op o e₁ e₂ ih₁ ih₂ =>
    obtain ⟨x, h1, h⟩ := Res.bind_eq_ok.1 h
    obtain ⟨y, h2, h⟩ := Res.bind_eq_ok.1 h
    exact o.run_wf hv (ih₁ h1) (ih₂ h2) h
  | atan2 e₁ e₂ ih₁ ih₂ =>
    obtain ⟨x, h1, h⟩ := Res.bind_eq_ok.1 h
    obtain ⟨y, h2, h⟩ := Res.bind_eq_ok.1 h
    have hx := ih₁ h1
    have hy := ih₂ h2
    cases x with
    | num s => cases h
    | jet x =>
      cases y with
      | num s => cases h
      | jet y =>
        dsimp only at h
        obtain ⟨z, h3, h9⟩ := Res.bind_eq_ok.1 h
        obtain ⟨_, a, rfl⟩ := WF.eq_obj hv.order hx
        obtain ⟨_, b, rfl⟩ := WF.eq_obj hv.order hy
        rw [atan2_obj hv.order hf] at h3
        rw [← Res.ok.inj h9, ← Res.ok.inj h3]; exact wf_obj hv.order hf _
  | hypot e₁ e₂ ih₁ ih₂ =>
    obtain ⟨x, h1, h⟩ := Res.bind_eq_ok.1 h
    obtain ⟨y, h2, h⟩ := Res.bind_eq_ok.1 h
    have hx := ih₁ h1
    have hy := ih₂ h2
    cases x with
    | num s => cases h
    | jet x =>
      cases y with
      | num s => cases h
      | jet y =>
        dsimp only at h
        obtain ⟨z, h3, h9⟩ := Res.bind_eq_ok.1 h
        obtain ⟨_, a, rfl⟩ := WF.eq_obj hv.order hx
        obtain ⟨_, b, rfl⟩ := WF.eq_obj hv.order hy
        rw [hypot_obj hv.order hf] at h3
        rw [← Res.ok.inj h9, ← Res.ok.inj h3]; exact wf_obj hv.order hf _
  | hypot3 e₁ e₂ e₃ ih₁ ih₂ ih₃ =>
    obtain ⟨x, h1, h⟩ := Res.bind_eq_ok.1 h
    obtain ⟨y, h2, h⟩ := Res.bind_eq_ok.1 h
    obtain ⟨w, h4, h⟩ := Res.bind_eq_ok.1 h
    have hx := ih₁ h1
    have hy := ih₂ h2
    have hw := ih₃ h4
    cases x with
    | num s => cases h
    | jet x =>
      cases y with
      | num s => cases h
      | jet y =>
        cases w with
        | num s => cases h
        | jet w =>
          dsimp only at h
          obtain ⟨z, h3, h9⟩ := Res.bind_eq_ok.1 h
          obtain ⟨_, a, rfl⟩ := WF.eq_obj hv.order hx
          obtain ⟨_, b, rfl⟩ := WF.eq_obj hv.order hy
          obtain ⟨_, d, rfl⟩ := WF.eq_obj hv.order hw
          rw [hypot3_obj hv.order hf] at h3
          rw [← Res.ok.inj h9, ← Res.ok.inj h3]; exact wf_obj hv.order hf _
  | getF e ih =>
    obtain ⟨x, h1, h⟩ := Res.bind_eq_ok.1 h
    cases x with
    | num s => cases h
    | jet x =>
      dsimp only at h
      obtain ⟨z, h2, h9⟩ := Res.bind_eq_ok.1 h
      rw [← Res.ok.inj h9]; trivial

end wf

set_option linter.unusedSectionVars false

section sim

variable [CMath α] [DecidableEq V] [DecidableEq W] {c : Cfg} {n : Nat}

theorem inplace_eq (hv : c.Valid) (hl : CommLaws α) (hn : c.order = 2 → 0 < n) {x y : DD α}
    (hx : WF c n x) (hy : WF c n y) (o : POp)
    (hdiv : o = .div → ∀ p q : α, p ÷ₛ q = recipDiv p q) (b : DD.Operand α)
    (hb : b = .obj y ∨ (b = .self ∧ y = x ∧ o ≠ .mul ∧ o ≠ .div)) :
    ∃ r, o.bin.run c x y = .ok r ∧ o.asg.run c x b = (.ok (), r) ∧ WF c n r := by
  have key : ∃ r, o.bin.run c x y = .ok r ∧ o.asg.run c x b = (.ok (), r) := by
    have hsub : ∀ p q : α, p -ₛ q = p +ₛ -ₛ q := fun p q => (hl.add_neg p q).symm
    rcases hb with rfl | ⟨rfl, rfl, h1, h2⟩
    · cases o with
      | add => exact C22_add_assign hv hx hy
      | sub => exact C22_sub_assign hv hsub hx hy
      | mul => exact C22_mul_assign hv hl.add_comm hl.mul_comm hn hx hy
      | div =>
        obtain ⟨hf, a, rfl⟩ := hx.eq_obj hv.order
        obtain ⟨_, b, rfl⟩ := hy.eq_obj hv.order
        refine ⟨_, div_obj hv.order hf a b, ?_⟩
        have := hdiv rfl (a 0) (b 0)
        rw [recipDiv] at this
        rw [← this]
        exact divAssign_obj hv.order hf a b
    · cases o with
      | add => exact (C23_add_sub_self hv hx).1
      | sub => exact (C23_add_sub_self hv hx).2 hsub
      | mul => exact absurd rfl h1
      | div => exact absurd rfl h2
  obtain ⟨r, h1, h2⟩ := key
  refine ⟨r, h1, h2, ?_⟩
  obtain ⟨hf, a, rfl⟩ := hx.eq_obj hv.order
  obtain ⟨_, b, rfl⟩ := hy.eq_obj hv.order
  rw [Bin.run_obj hv.order hf] at h1
  rw [← Res.ok.inj h1]; exact wf_obj hv.order hf _

/-- The state shows the values, without sharing. -/
structure Sim (c : Cfg) (n : Nat) (st : PySt α V W) (σ : V → PVal α) : Prop where
  val : ∀ v, st.val v = σ v
  unshared : Unshared st
  wf : ∀ v, (σ v).WF c n

theorem Sim.num {st : PySt α V W} {σ : V → PVal α} (h : Sim c n st σ) (t : V) (s : α) :
    Sim c n (st.bind t (.num s)) (fun v => if v = t then .num s else σ v) where
  val v := by
    by_cases hv : v = t
    · simp [PySt.val, PySt.bind, hv]
    · have := h.val v
      simp only [PySt.val, PySt.bind, if_neg hv] at this ⊢
      exact this
  unshared := by
    refine ⟨fun v w a hv hw => ?_, fun v a hv => ?_⟩
    · simp only [PySt.bind] at hv hw
      split at hv <;> try cases hv
      split at hw <;> try cases hw
      exact h.unshared.inj v w a hv hw
    · simp only [PySt.bind] at hv
      split at hv <;> try cases hv
      exact h.unshared.fresh v a hv
  wf v := by
    by_cases hv : v = t
    · simp only [hv, if_true]; trivial
    · simp only [hv, if_false]; exact h.wf v

theorem Sim.jet {st : PySt α V W} {σ : V → PVal α} (h : Sim c n st σ) (t : V) {x : DD α}
    (hx : WF c n x) :
    Sim c n (st.fresh t (.jet x)) (fun v => if v = t then .jet x else σ v) where
  val v := by
    by_cases hv : v = t
    · simp [PySt.val, PySt.fresh, PySt.bind, PySt.write, hv]
    · have h1 := h.val v
      have h2 := h.unshared.fresh v
      simp only [PySt.val, PySt.fresh, PySt.bind, PySt.write, if_neg hv] at h1 ⊢
      rw [← h1]
      cases hr : st.env v with
      | num s => rfl
      | ref a =>
        have := h2 a hr
        have hne : a ≠ st.next := by omega
        simp only [hne, if_false]
  unshared := by
    refine ⟨fun v w a hv hw => ?_, fun v a hv => ?_⟩
    · simp only [PySt.fresh, PySt.bind, PySt.write] at hv hw
      split at hv
      · cases hv
        split at hw
        · simp [*]
        · exact absurd (h.unshared.fresh w _ hw) (by omega)
      · split at hw
        · cases hw
          exact absurd (h.unshared.fresh v _ hv) (by omega)
        · exact h.unshared.inj v w a hv hw
    · simp only [PySt.fresh, PySt.bind, PySt.write] at hv ⊢
      split at hv
      · cases hv; omega
      · have := h.unshared.fresh v a hv; omega
  wf v := by
    by_cases hv : v = t
    · simp only [hv, if_true]; exact hx
    · simp only [hv, if_false]; exact h.wf v

theorem Sim.write {st : PySt α V W} {σ : V → PVal α} (h : Sim c n st σ) {t : V} {a : Nat}
    (ht : st.env t = .ref a) {x : DD α} (hx : WF c n x) :
    Sim c n (st.write a x) (fun v => if v = t then .jet x else σ v) where
  val v := by
    by_cases hv : v = t
    · simp [PySt.val, PySt.write, hv, ht]
    · have h1 := h.val v
      simp only [PySt.val, PySt.write, if_neg hv] at h1 ⊢
      rw [← h1]
      cases hr : st.env v with
      | num s => rfl
      | ref b =>
        have hne : b ≠ a := fun hb => hv (h.unshared.inj v t a (hb ▸ hr) ht)
        simp only [hne, if_false]
  unshared := ⟨h.unshared.inj, h.unshared.fresh⟩
  wf v := by
    by_cases hv : v = t
    · simp only [hv, if_true]; exact hx
    · simp only [hv, if_false]; exact h.wf v

theorem Sim.store {st : PySt α V W} {σ : V → PVal α} (h : Sim c n st σ) (t : V)
    (r : Res (PVal α)) (hr : ∀ x, r = .ok x → x.WF c n) :
    (st.store t r).1 = (assignVal σ t r).1 ∧ Sim c n (st.store t r).2 (assignVal σ t r).2 := by
  cases r with
  | ok r =>
    refine ⟨rfl, ?_⟩
    cases r with
    | num s => exact h.num t s
    | jet x => exact h.jet t (hr _ rfl)
  | throw e => exact ⟨rfl, h⟩
  | abort => exact ⟨rfl, h⟩
  | ub u => exact ⟨rfl, h⟩

theorem Sim.setter {st : PySt α V W} {σ : V → PVal α} (h : Sim c n st σ) (t : V)
    (k : DD α → Res (DD α)) (hk : ∀ x y, WF c n x → k x = .ok y → WF c n y) :
    let r := match st.env t with
      | .ref a => st.putAt a (k (st.heap a))
      | .num _ => (.throw .attributeError, st)
    r.1 = (assignVal σ t ((σ t).set k)).1 ∧ Sim c n r.2 (assignVal σ t ((σ t).set k)).2 := by
  have h1 := h.val t
  have h2 := h.wf t
  cases ht : st.env t with
  | num s =>
    simp only [PySt.val, ht] at h1
    rw [← h1]
    exact ⟨rfl, h⟩
  | ref a =>
    simp only [PySt.val, ht] at h1
    rw [← h1] at h2 ⊢
    simp only [PVal.set]
    cases hr : k (st.heap a) with
    | ok y => exact ⟨rfl, h.write ht (hk _ _ h2 hr)⟩
    | throw e => exact ⟨rfl, h⟩
    | abort => exact ⟨rfl, h⟩
    | ub u => exact ⟨rfl, h⟩

theorem sim_step (hv : c.Valid) (hfit : Fits c n) (hl : CommLaws α) (hn : c.order = 2 → 0 < n)
    (s : PyStmt α V W) (hp : s.Plain)
    (hdiv : s.NoDivAssign ∨ ∀ p q : α, p ÷ₛ q = recipDiv p q) {st : PySt α V W}
    {σ : V → PVal α} (h : Sim c n st σ) :
    (s.run c n st).1 = (s.values c n σ).1 ∧ Sim c n (s.run c n st).2 (s.values c n σ).2 := by
  have hval : st.val = σ := funext h.val
  cases s with
  | assign t e =>
    have : (PyStmt.assign t e : PyStmt α V W).run c n st = st.store t (e.eval c n σ) := by
      cases e with
      | name s => exact absurd rfl (hp s)
      | _ => simp only [PyStmt.run, hval]
    rw [this]
    exact h.store t _ fun x hx => e.eval_wf hv hfit σ h.wf hx
  | upd o t e =>
    simp only [PyStmt.run, PyStmt.values, PyE.eval, hval, Res.ok_bind]
    cases he : e.eval c n σ with
    | throw e => exact ⟨rfl, h⟩
    | abort => exact ⟨rfl, h⟩
    | ub u => exact ⟨rfl, h⟩
    | ok y =>
      have hy := e.eval_wf hv hfit σ h.wf he
      have h1 := h.val t
      have hx := h.wf t
      simp only [Res.ok_bind]
      cases ht : st.env t with
      | num s =>
        simp only [PySt.val, ht] at h1
        simp only
        rw [h1]
        exact h.store t _ fun r hr => o.run_wf hv hx hy hr
      | ref a =>
        simp only [PySt.val, ht] at h1
        have hx' := hx
        rw [← h1] at hx'
        cases y with
        | num s =>
          have hs := h.store t (o.run c (.jet (st.heap a)) (.num s)) fun r hr =>
            o.run_wf hv hx' hy hr
          cases o with
          | add => simp only; rw [← h1]; exact hs
          | sub => simp only; rw [← h1]; exact hs
          | mul =>
            obtain ⟨r, k1, k2⟩ := (C22_scalar_assign hv hx' s).2.2.1
            simp only
            rw [← h1]
            simp only [POp.run, POp.right, SBin.run, k1, Res.ok_bind, AOp.runS, k2, PySt.change]
            exact ⟨rfl, h.write ht (runS_wf hx' .mul (.val s) k2)⟩
          | div =>
            obtain ⟨r, k1, k2⟩ := (C22_scalar_assign hv hx' s).2.2.2
            simp only
            rw [← h1]
            simp only [POp.run, POp.right, SBin.run, k1, Res.ok_bind, AOp.runS, k2, PySt.change]
            exact ⟨rfl, h.write ht (runS_wf hx' .div (.val s) k2)⟩
        | jet y =>
          have hb : st.operand a e y = .obj y ∨
              (st.operand a e y = .self ∧ y = st.heap a ∧ o ≠ .mul ∧ o ≠ .div) := by
            cases e with
            | name s =>
              simp only [PySt.operand]
              cases hs : st.env s with
              | num z => exact Or.inl rfl
              | ref b =>
                by_cases hba : b = a
                · subst hba
                  have hst : s = t := h.unshared.inj s t b hs ht
                  subst hst
                  refine Or.inr ⟨by simp, ?_, fun ho => hp (Or.inl ho) rfl,
                    fun ho => hp (Or.inr ho) rfl⟩
                  have := Res.ok.inj he
                  rw [← h1] at this
                  cases this
                  rfl
                · exact Or.inl (by simp [hba])
            | _ => exact Or.inl rfl
          obtain ⟨r, k1, k2, k3⟩ := inplace_eq hv hl hn hx' hy o (fun ho => by
            rcases hdiv with hd | hd
            · exact absurd ho hd
            · exact hd) _ hb
          simp only
          rw [← h1]
          simp only [POp.run, k1, Res.ok_bind, k2, PySt.change]
          exact ⟨rfl, h.write ht k3⟩
  | setF t s => exact h.setter t _ fun x y hx hy => setF_wf hx hy
  | setH t i j s => exact h.setter t _ fun x y hx hy => setH_wf hx hy
  | resize t m => exact hp.elim
  | data w t => exact hp.elim
  | grad w t => exact hp.elim
  | poke w i s => exact hp.elim
  | peek t w i => exact hp.elim

end sim

section c52

variable [CMath α] [DecidableEq V] [DecidableEq W] {c : Cfg} {n : Nat}

/-- **C52.** Python programs that never make a second name for an object have value semantics:
in-place operators give what the plain operators give, and no statement changes another name. -/
theorem C52_functional (hv : c.Valid) (hfit : c.tsize = -1 ∨ c.tsize = n) (hl : CommLaws α)
    (hn : c.order = 2 → 0 < n) (p : List (PyStmt α V W)) (hp : ∀ s ∈ p, s.Plain)
    (hdiv : (∀ s ∈ p, s.NoDivAssign) ∨ ∀ x y : α, x ÷ₛ y = recipDiv x y) (st : PySt α V W)
    (hs : Unshared st) (hw : ∀ v, (st.val v).WF c n) :
    (pyRun c n p st).1 = (valRun c n p st.val).1 ∧
      ∀ v, (pyRun c n p st).2.val v = (valRun c n p st.val).2 v := by
  have key : ∀ (p : List (PyStmt α V W)), (∀ s ∈ p, s.Plain) →
      ((∀ s ∈ p, s.NoDivAssign) ∨ ∀ x y : α, x ÷ₛ y = recipDiv x y) →
      ∀ (st : PySt α V W) (σ : V → PVal α), Sim c n st σ →
      (pyRun c n p st).1 = (valRun c n p σ).1 ∧ Sim c n (pyRun c n p st).2 (valRun c n p σ).2 := by
    intro p
    induction p with
    | nil => intro _ _ st σ h; exact ⟨rfl, h⟩
    | cons s p ih =>
      intro hp hdiv st σ h
      obtain ⟨h1, h2⟩ := sim_step hv hfit hl hn s (hp s (by simp))
        (hdiv.imp_left fun hd => hd s (by simp)) h
      simp only [pyRun, valRun]
      generalize s.run c n st = r at h1 h2
      generalize s.values c n σ = r' at h1 h2
      obtain ⟨o, st'⟩ := r
      obtain ⟨o', σ'⟩ := r'
      dsimp only at h1 h2
      subst h1
      cases o with
      | ok u =>
        exact ih (fun s h => hp s (by simp [h]))
          (hdiv.imp_left fun hd s h => hd s (by simp [h])) st' σ' h2
      | throw e => exact ⟨rfl, h2⟩
      | abort => exact ⟨rfl, h2⟩
      | ub u => exact ⟨rfl, h2⟩
  have h := key p hp hdiv st st.val ⟨fun _ => rfl, hs, hw⟩
  exact ⟨h.1, h.2.val⟩

theorem val_write (st : PySt α V W) (a : Nat) (x : DD α) :
    (∀ v, st.env v = .ref a → (st.write a x).val v = .jet x) ∧
      ∀ v, st.env v ≠ .ref a → (st.write a x).val v = st.val v := by
  refine ⟨fun v h => ?_, fun v h => ?_⟩
  · simp [PySt.val, PySt.write, h]
  · simp only [PySt.val, PySt.write]
    cases hr : st.env v with
    | num s => rfl
    | ref b =>
      have hb : b ≠ a := fun hb => h (hb ▸ hr)
      simp only [hb, if_false]

/-- **C52, shared objects.** `t o= e` with a jet `e` (and `*=`, `/=` with a number) changes the
object `t` refers to: all its names show the result of `t o e`, all other names are as before, and
no name is rebound. -/
theorem C52_in_place (hv : c.Valid) (hl : CommLaws α) (hn : c.order = 2 → 0 < n)
    (hdiv : ∀ x y : α, x ÷ₛ y = recipDiv x y) (st : PySt α V W) (o : POp) (t : V) (a : Nat)
    (ht : st.env t = .ref a) (hx : WF c n (st.heap a)) (e : PyE α V) (y : PVal α)
    (he : e.eval c n st.val = .ok y) (hy : y.WF c n)
    (hnum : ∀ s, y = .num s → o = .mul ∨ o = .div)
    (hself : ∀ s, e = .name s → st.env s = .ref a → o = .add ∨ o = .sub) :
    ∃ r st', o.run c (st.val t) y = .ok r ∧ (PyStmt.upd o t e).run c n st = (.ok (), st') ∧
      st'.env = st.env ∧ (∀ v, st.env v = .ref a → st'.val v = r) ∧
      ∀ v, st.env v ≠ .ref a → st'.val v = st.val v := by
  have hval : st.val t = .jet (st.heap a) := by simp only [PySt.val, ht]
  simp only [PyStmt.run, he, ht, hval]
  cases y with
  | num s =>
    rcases hnum s rfl with rfl | rfl
    · obtain ⟨r, k1, k2⟩ := (C22_scalar_assign hv hx s).2.2.1
      refine ⟨.jet r, st.write a r, ?_, ?_, rfl, val_write st a r⟩
      · simp only [POp.run, POp.right, SBin.run, k1, Res.ok_bind]
      · simp only [AOp.runS, k2, PySt.change]
    · obtain ⟨r, k1, k2⟩ := (C22_scalar_assign hv hx s).2.2.2
      refine ⟨.jet r, st.write a r, ?_, ?_, rfl, val_write st a r⟩
      · simp only [POp.run, POp.right, SBin.run, k1, Res.ok_bind]
      · simp only [AOp.runS, k2, PySt.change]
  | jet y =>
    have hb : st.operand a e y = .obj y ∨
        (st.operand a e y = .self ∧ y = st.heap a ∧ o ≠ .mul ∧ o ≠ .div) := by
      cases e with
      | name s =>
        simp only [PySt.operand]
        cases hs : st.env s with
        | num z => exact Or.inl rfl
        | ref b =>
          by_cases hba : b = a
          · subst hba
            refine Or.inr ⟨by simp, ?_, ?_, ?_⟩
            · have := Res.ok.inj he
              simp only [PySt.val, hs] at this
              cases this
              rfl
            · rcases hself s rfl hs with rfl | rfl <;> simp
            · rcases hself s rfl hs with rfl | rfl <;> simp
          · exact Or.inl (by simp [hba])
      | _ => exact Or.inl rfl
    obtain ⟨r, k1, k2, _⟩ := inplace_eq hv hl hn hx hy o (fun _ => hdiv) _ hb
    refine ⟨.jet r, st.write a r, ?_, ?_, rfl, val_write st a r⟩
    · simp only [POp.run, k1, Res.ok_bind]
    · simp only [k2, PySt.change]

/-- **C52 (violated).** `t += s` and `t -= s` with a number are not in place: `t` becomes a name of
a new object, and every other name of the old object keeps the old value. -/
theorem C52_violated_number (hv : c.Valid) (st : PySt α V W) (t : V) (a : Nat)
    (hnames : ∀ v b, st.env v = .ref b → b < st.next)
    (ht : st.env t = .ref a) (hx : WF c n (st.heap a)) (o : POp) (ho : o = .add ∨ o = .sub)
    (e : PyE α V) (s : α) (he : e.eval c n st.val = .ok (.num s)) :
    ∃ r st', o.run c (st.val t) (.num s) = .ok r ∧ (PyStmt.upd o t e).run c n st = (.ok (), st') ∧
      ∀ v, st'.val v = if v = t then r else st.val v := by
  have hval : st.val t = .jet (st.heap a) := by simp only [PySt.val, ht]
  have hr : ∃ r, o.run c (.jet (st.heap a)) (.num s) = .ok (.jet r) := by
    obtain ⟨hf, b, hb⟩ := WF.eq_obj hv.order hx
    have h1 := SBin.run_obj hv.order hf o.right b s
    exact ⟨_, by simp only [POp.run, hb]; rw [h1, Res.ok_bind]⟩
  obtain ⟨r, hr⟩ := hr
  refine ⟨.jet r, st.fresh t (.jet r), by rw [hval, hr], ?_, fun v => ?_⟩
  · simp only [PyStmt.run, he, ht]
    rcases ho with rfl | rfl <;> simp only [hr, PySt.store]
  · by_cases h : v = t
    · simp [PySt.val, PySt.fresh, PySt.bind, PySt.write, h]
    · simp only [PySt.val, PySt.fresh, PySt.bind, PySt.write, if_neg h]
      cases hr : st.env v with
      | num s => rfl
      | ref b =>
        have := hnames v b hr
        have hne : b ≠ st.next := by omega
        simp only [hne, if_false]

/-- **C52, second names.** `t = s` makes `t` another name of the object of `s`; nothing else
changes. -/
theorem C52_alias (st : PySt α V W) (t s : V) :
    ∃ st', (PyStmt.assign t (.name s) : PyStmt α V W).run c n st = (.ok (), st') ∧
      st'.env t = st.env s ∧ st'.heap = st.heap ∧
      ∀ v, st'.val v = if v = t then st.val s else st.val v := by
  refine ⟨_, rfl, by simp [PySt.bind], rfl, fun v => ?_⟩
  by_cases h : v = t <;> simp [PySt.val, PySt.bind, h]

end c52

section c53

variable [CMath α] {c : Cfg} {n : Nat}

theorem PyOutcome.bind {A B : Type} {x : Res A} {k : A → Res B} (hx : PyOutcome x)
    (hk : ∀ a, x = .ok a → PyOutcome (k a)) : PyOutcome (x >>= k) := by
  cases hx with
  | ok a => exact hk a rfl
  | zeroDivision => exact .zeroDivision
  | attributeError => exact .attributeError
  | typeError => exact .typeError
  | indexError => exact .indexError

theorem PyOutcome.jet {x : Res (DD α)} {y : DD α} (h : x = .ok y) :
    PyOutcome (do let r ← x; .ok (PVal.jet r)) := by
  rw [h]; exact .ok _

theorem POp.run_out (hv : c.Valid) (o : POp) {x y : PVal α} (hx : x.WF c n) (hy : y.WF c n) :
    PyOutcome (o.run c x y) := by
  cases x with
  | num x =>
    cases y with
    | num y =>
      refine PyOutcome.bind ?_ fun _ _ => .ok _
      cases o with
      | div => simp only [POp.nums]; split; exacts [.zeroDivision, .ok _]
      | _ => exact .ok _
    | jet y =>
      obtain ⟨hf, b, rfl⟩ := WF.eq_obj hv.order hy
      exact PyOutcome.jet (SBin.run_obj hv.order hf _ _ _)
  | jet x =>
    obtain ⟨hf, a, rfl⟩ := WF.eq_obj hv.order hx
    cases y with
    | num y => exact PyOutcome.jet (SBin.run_obj hv.order hf _ _ _)
    | jet y =>
      obtain ⟨_, b, rfl⟩ := WF.eq_obj hv.order hy
      exact PyOutcome.jet (Bin.run_obj hv.order hf _ _ _)

theorem PyE.eval_out (hv : c.Valid) (hf : Fits c n) (σ : V → PVal α) (hσ : ∀ v, (σ v).WF c n)
    (e : PyE α V) (he : e.InRange n) : PyOutcome (e.eval c n σ) := by
  have hw := fun (e : PyE α V) {r} h => e.eval_wf hv hf σ hσ (r := r) h
  induction e with
  | name v => exact .ok _
  | lit s => exact .ok _
  | const s => exact PyOutcome.jet (constant_obj hf _)
  | vari i s =>
    obtain ⟨k, rfl⟩ : ∃ k : Nat, i = k := ⟨i.toNat, by have := he.1; omega⟩
    exact PyOutcome.jet (var_obj hf (by have := he.2; omega) _)
  | neg e ih =>
    refine (ih he).bind fun x hx => ?_
    have := hw _ hx
    cases x with
    | num s => exact .ok _
    | jet x =>
      obtain ⟨_, a, rfl⟩ := WF.eq_obj hv.order this
      exact PyOutcome.jet (neg_obj hf _)
  | abs e ih =>
    refine (ih he).bind fun x hx => ?_
    have := hw _ hx
    cases x with
    | num s => exact .ok _
    | jet x =>
      obtain ⟨_, a, rfl⟩ := WF.eq_obj hv.order this
      exact PyOutcome.jet (abs_obj hf _)
  | fn φ e ih =>
    refine (ih he).bind fun x hx => ?_
    have := hw _ hx
    cases x with
    | num s => exact .attributeError
    | jet x =>
      obtain ⟨_, a, rfl⟩ := WF.eq_obj hv.order this
      exact PyOutcome.jet (un_obj hv.order hf _ _)
  | op o e₁ e₂ ih₁ ih₂ =>
    exact (ih₁ he.1).bind fun x hx => (ih₂ he.2).bind fun y hy =>
      o.run_out hv (hw _ hx) (hw _ hy)
  | atan2 e₁ e₂ ih₁ ih₂ =>
    refine (ih₁ he.1).bind fun x hx => (ih₂ he.2).bind fun y hy => ?_
    have h1 := hw _ hx
    have h2 := hw _ hy
    cases x with
    | num s => exact .attributeError
    | jet x =>
      cases y with
      | num s => exact .typeError
      | jet y =>
        obtain ⟨_, a, rfl⟩ := WF.eq_obj hv.order h1
        obtain ⟨_, b, rfl⟩ := WF.eq_obj hv.order h2
        exact PyOutcome.jet (atan2_obj hv.order hf _ _)
  | hypot e₁ e₂ ih₁ ih₂ =>
    refine (ih₁ he.1).bind fun x hx => (ih₂ he.2).bind fun y hy => ?_
    have h1 := hw _ hx
    have h2 := hw _ hy
    cases x with
    | num s => exact .attributeError
    | jet x =>
      cases y with
      | num s => exact .typeError
      | jet y =>
        obtain ⟨_, a, rfl⟩ := WF.eq_obj hv.order h1
        obtain ⟨_, b, rfl⟩ := WF.eq_obj hv.order h2
        exact PyOutcome.jet (hypot_obj hv.order hf _ _)
  | hypot3 e₁ e₂ e₃ ih₁ ih₂ ih₃ =>
    refine (ih₁ he.1).bind fun x hx => (ih₂ he.2.1).bind fun y hy => (ih₃ he.2.2).bind fun z hz => ?_
    have h1 := hw _ hx
    have h2 := hw _ hy
    have h3 := hw _ hz
    cases x with
    | num s => exact .attributeError
    | jet x =>
      cases y with
      | num s => exact .typeError
      | jet y =>
        cases z with
        | num s => exact .typeError
        | jet z =>
          obtain ⟨_, a, rfl⟩ := WF.eq_obj hv.order h1
          obtain ⟨_, b, rfl⟩ := WF.eq_obj hv.order h2
          obtain ⟨_, d, rfl⟩ := WF.eq_obj hv.order h3
          exact PyOutcome.jet (hypot3_obj hv.order hf _ _ _)
  | getF e ih =>
    refine (ih he).bind fun x hx => ?_
    have := hw _ hx
    cases x with
    | num s => exact .attributeError
    | jet x =>
      obtain ⟨_, a, rfl⟩ := WF.eq_obj hv.order this
      simp only [f_obj, Res.ok_bind]
      exact .ok _

variable [DecidableEq V] [DecidableEq W]

theorem PySt.Good.val {st : PySt α V W} (h : st.Good c n) (v : V) : (st.val v).WF c n := by
  simp only [PySt.val]
  cases hr : st.env v with
  | num s => trivial
  | ref a => exact h.objects a (h.names v a hr)

theorem PySt.Good.num {st : PySt α V W} (h : st.Good c n) (t : V) (b : PyV α)
    (hb : ∀ a, b = .ref a → a < st.next) : (st.bind t b).Good c n where
  names v a hv := by
    simp only [PySt.bind] at hv
    split at hv
    · exact hb a hv
    · exact h.names v a hv
  objects := h.objects
  arrays := h.arrays

theorem PySt.Good.write {st : PySt α V W} (h : st.Good c n) (a : Nat) {x : DD α}
    (hx : WF c n x) : (st.write a x).Good c n where
  names := h.names
  objects b hb := by
    simp only [PySt.write]
    split
    · exact hx
    · exact h.objects b hb
  arrays := h.arrays

theorem PySt.Good.fresh {st : PySt α V W} (h : st.Good c n) (t : V) {r : PVal α}
    (hr : r.WF c n) : (st.fresh t r).Good c n := by
  cases r with
  | num s => exact h.num t _ fun a ha => by cases ha
  | jet x =>
    refine ⟨fun v a hv => ?_, fun b hb => ?_, fun w r hw => ?_⟩
    · simp only [PySt.fresh, PySt.bind, PySt.write] at hv ⊢
      split at hv
      · cases hv; omega
      · have := h.names v a hv; omega
    · simp only [PySt.fresh, PySt.bind, PySt.write] at hb ⊢
      split
      · exact hr
      · exact h.objects b (by omega)
    · obtain ⟨h1, h2⟩ := h.arrays w r hw
      exact ⟨by simp only [PySt.fresh]; omega, h2⟩

theorem PySt.Good.store {st : PySt α V W} (h : st.Good c n) (t : V) {r : Res (PVal α)}
    (ho : PyOutcome r) (hr : ∀ x, r = .ok x → x.WF c n) :
    PyOutcome (st.store t r).1 ∧ (st.store t r).2.Good c n := by
  cases ho with
  | ok x => exact ⟨.ok _, h.fresh t (hr x rfl)⟩
  | zeroDivision => exact ⟨.zeroDivision, h⟩
  | attributeError => exact ⟨.attributeError, h⟩
  | typeError => exact ⟨.typeError, h⟩
  | indexError => exact ⟨.indexError, h⟩

theorem View.check_good {st : PySt α V W} (h : st.Good c n) {w : W} {r : View}
    (hw : st.views w = some r) (i : Nat) :
    r.check st i = if i < r.len then .ok () else .throw .indexError := by
  have hg := (h.arrays w r hw).2.1
  unfold View.check
  by_cases hi : i < r.len
  · rw [if_neg (by omega), if_neg (by simp [hg]), if_pos hi]
  · rw [if_pos (by omega), if_neg hi]

theorem wr_wf {x : DD α} (hx : WF c n x) {i : Nat} (hi : i < storedLen c.order n) (s : α) :
    ∃ d, wr x.mData i s = .ok d ∧ WF c n { x with mData := d } := by
  have h : wr x.mData (i : Int) s = .ok (x.mData.set i (some s)) := by
    unfold wr
    rw [if_neg (by rw [hx.len]; omega)]
    rfl
  exact ⟨_, h, hx.replace (hx.keep.wr h)⟩

theorem rd_wf {x : DD α} (hx : WF c n x) {i : Nat} (hi : i < storedLen c.order n) :
    ∃ s, rd x.mData i = .ok s ∧ x.mData[i]? = some (some s) := by
  have hl : i < x.mData.length := by rw [hx.len]; exact hi
  have hm := hx.init x.mData[i] (List.getElem_mem hl)
  cases hc : x.mData[i] with
  | none => exact absurd hc hm
  | some s =>
    have hg : x.mData[i]? = some (some s) := by rw [List.getElem?_eq_getElem hl, hc]
    refine ⟨s, ?_, hg⟩
    unfold rd
    rw [if_neg (by omega)]
    simp only [Int.toNat_natCast, hg]

theorem good_step (hv : c.Valid) (hf : Fits c n) (hn : c.order = 2 → 0 < n) (s : PyStmt α V W)
    (hs : s.InRange c n) {st : PySt α V W} (h : st.Good c n) :
    PyOutcome (s.run c n st).1 ∧ (s.run c n st).2.Good c n := by
  cases s with
  | assign t e =>
    cases e with
    | name s => exact ⟨.ok _, h.num t _ fun a ha => h.names s a ha⟩
    | _ => exact h.store t (PyE.eval_out hv hf _ h.val _ hs) fun x hx => PyE.eval_wf hv hf _ h.val _ hx
  | upd o t e =>
    have h1 := PyE.eval_out hv hf _ h.val e hs
    have h2 := fun {y} hy => PyE.eval_wf hv hf _ h.val e (r := y) hy
    simp only [PyStmt.run]
    generalize e.eval c n st.val = r at h1 h2
    cases h1 with
    | ok y =>
      have hy := h2 rfl
      cases ht : st.env t with
      | num x =>
        have hx : (PVal.num x).WF c n := trivial
        exact h.store t (o.run_out hv hx hy) fun z hz => o.run_wf hv hx hy hz
      | ref a =>
        have ha := h.objects a (h.names t a ht)
        cases y with
        | num s =>
          have hst := h.store t (o.run_out hv (x := .jet (st.heap a)) ha hy)
            fun z hz => o.run_wf hv (x := .jet (st.heap a)) ha hy hz
          cases o with
          | add => exact hst
          | sub => exact hst
          | mul =>
            obtain ⟨r, _, k2⟩ := (C22_scalar_assign hv ha s).2.2.1
            have k3 : AOp.mul.runS (st.heap a) (.val s) = (.ok (), r) := k2
            simp only [PySt.change, k3]
            exact ⟨.ok _, h.write a (runS_wf ha .mul (.val s) k3)⟩
          | div =>
            obtain ⟨r, _, k2⟩ := (C22_scalar_assign hv ha s).2.2.2
            have k3 : AOp.div.runS (st.heap a) (.val s) = (.ok (), r) := k2
            simp only [PySt.change, k3]
            exact ⟨.ok _, h.write a (runS_wf ha .div (.val s) k3)⟩
        | jet y =>
          have hb : ∀ z, st.operand a e y = .obj z → WF c n z := by
            intro z hz
            have : z = y := by
              cases e with
              | name s =>
                simp only [PySt.operand] at hz
                split at hz
                · split at hz
                  · cases hz
                  · cases hz; rfl
                · cases hz; rfl
              | _ => cases hz; rfl
            rw [this]; exact hy
          rcases run_wf hv ha o.asg _ hb with ⟨x', k1, k2⟩ | ⟨_, h3, h4, _⟩
          · simp only [PySt.change, k1]
            exact ⟨.ok _, h.write a k2⟩
          · exact absurd (hn h3) (by omega)
    | zeroDivision => exact ⟨.zeroDivision, h⟩
    | attributeError => exact ⟨.attributeError, h⟩
    | typeError => exact ⟨.typeError, h⟩
    | indexError => exact ⟨.indexError, h⟩
  | setF t x =>
    simp only [PyStmt.run]
    cases ht : st.env t with
    | num s => exact ⟨.attributeError, h⟩
    | ref a =>
      have ha := h.objects a (h.names t a ht)
      obtain ⟨J, hJ⟩ := ha.shows hv.order
      obtain ⟨y, hy, hy'⟩ := (C03_framed_writes hv hJ x).1
      simp only [hy, PySt.putAt]
      exact ⟨.ok _, h.write a hy'.wf⟩
  | setH t i j x =>
    simp only [PyStmt.run]
    cases ht : st.env t with
    | num s => exact ⟨.attributeError, h⟩
    | ref a =>
      have ha := h.objects a (h.names t a ht)
      obtain ⟨h2, h3, h4, h5, h6⟩ := hs
      obtain ⟨J, hJ⟩ := ha.shows hv.order
      obtain ⟨i, rfl⟩ : ∃ k : Nat, i = k := ⟨i.toNat, by omega⟩
      obtain ⟨j, rfl⟩ : ∃ k : Nat, j = k := ⟨j.toNat, by omega⟩
      obtain ⟨y, hy, hy'⟩ := (C03_framed_writes hv hJ x).2.2.1 h2 i j (by omega) (by omega)
      simp only [hy, PySt.putAt]
      exact ⟨.ok _, h.write a hy'.wf⟩
  | resize t m => exact hs.elim
  | data w t =>
    simp only [PyStmt.run]
    cases ht : st.env t with
    | num s => exact ⟨.attributeError, h⟩
    | ref a =>
      have ha := h.objects a (h.names t a ht)
      refine ⟨.ok _, h.names, h.objects, fun u r hu => ?_⟩
      simp only [PySt.look] at hu ⊢
      split at hu
      · cases hu
        exact ⟨h.names t a ht, rfl, by simp only [ha.len]; omega⟩
      · exact h.arrays u r hu
  | grad w t =>
    simp only [PyStmt.run]
    cases ht : st.env t with
    | num s => exact ⟨.attributeError, h⟩
    | ref a =>
      have ha := h.objects a (h.names t a ht)
      obtain ⟨_, b, hb⟩ := ha.eq_obj hv.order
      refine ⟨.ok _, h.names, h.objects, fun u r hu => ?_⟩
      simp only [PySt.look] at hu ⊢
      split at hu
      · cases hu
        refine ⟨h.names t a ht, rfl, ?_⟩
        simp only [hb, size_obj hf, Int.toNat_natCast]
        rw [storedLen_eq hv.order]
        exact le_dlen c n
      · exact h.arrays u r hu
  | poke w i x =>
    simp only [PyStmt.run]
    cases hw : st.views w with
    | none => exact ⟨.typeError, h⟩
    | some r =>
      simp only [View.check_good h hw]
      by_cases hi : i < r.len
      · obtain ⟨h1, _, h2⟩ := h.arrays w r hw
        obtain ⟨d, h3, h4⟩ := wr_wf (h.objects _ h1) (i := r.off + i) (by omega) x
        push_cast at h3
        simp only [if_pos hi, h3, Res.ok_bind, PySt.putAt]
        exact ⟨.ok _, h.write _ h4⟩
      · simp only [if_neg hi]
        exact ⟨.indexError, h⟩
  | peek t w i =>
    simp only [PyStmt.run]
    cases hw : st.views w with
    | none => exact ⟨.typeError, h⟩
    | some r =>
      simp only [View.check_good h hw]
      by_cases hi : i < r.len
      · obtain ⟨h1, _, h2⟩ := h.arrays w r hw
        obtain ⟨x, h3, _⟩ := rd_wf (h.objects _ h1) (i := r.off + i) (by omega)
        push_cast at h3
        simp only [if_pos hi, h3, Res.ok_bind]
        exact h.store t (.ok _) fun z hz => by cases hz; trivial
      · simp only [if_neg hi]
        exact h.store t .indexError fun z hz => by cases hz

/-- **C53.** A Python program on jets of one class and size that does not call `resize` never has
undefined behaviour and never fails an assertion, however names and arrays share storage: it ends
normally or with one of Python's own exceptions, and afterwards every object is well-formed and
every array still lies inside the storage of its object. -/
theorem C53_memory_safe (hv : c.Valid) (hf : c.tsize = -1 ∨ c.tsize = n)
    (hn : c.order = 2 → 0 < n) (p : List (PyStmt α V W)) (hp : ∀ s ∈ p, s.InRange c n)
    (st : PySt α V W) (h : st.Good c n) :
    PyOutcome (pyRun c n p st).1 ∧ (pyRun c n p st).2.Good c n := by
  induction p generalizing st with
  | nil => exact ⟨.ok _, h⟩
  | cons s p ih =>
    obtain ⟨h1, h2⟩ := good_step hv hf hn s (hp s (by simp)) h
    simp only [pyRun]
    generalize s.run c n st = r at h1 h2
    obtain ⟨o, st'⟩ := r
    dsimp only at h1 h2
    cases h1 with
    | ok u => exact ih (fun s h => hp s (by simp [h])) st' h2
    | zeroDivision => exact ⟨.zeroDivision, h2⟩
    | attributeError => exact ⟨.attributeError, h2⟩
    | typeError => exact ⟨.typeError, h2⟩
    | indexError => exact ⟨.indexError, h2⟩

omit [CMath α] [DecidableEq W] in
theorem store_keeps (st : PySt α V W) (t : V) (r : Res (PVal α)) :
    (st.store t r).2.views = st.views ∧ (st.store t r).2.gen = st.gen := by
  cases r with
  | ok x => cases x <;> exact ⟨rfl, rfl⟩
  | throw e => exact ⟨rfl, rfl⟩
  | abort => exact ⟨rfl, rfl⟩
  | ub u => exact ⟨rfl, rfl⟩

omit [CMath α] [DecidableEq V] [DecidableEq W] in
theorem putAt_keeps (st : PySt α V W) (a : Nat) (r : Res (DD α)) :
    (st.putAt a r).2.views = st.views ∧ (st.putAt a r).2.gen = st.gen := by
  cases r <;> exact ⟨rfl, rfl⟩

/-- A statement other than `resize` keeps all arrays but the one it makes, and moves no storage. -/
theorem run_keeps (s : PyStmt α V W) (hs : s.InRange c n) (w : W) (hw : ¬ s.Makes w)
    (st : PySt α V W) :
    (s.run c n st).2.views w = st.views w ∧ (s.run c n st).2.gen = st.gen := by
  have e1 : ∀ {s1 s2 : PySt α V W}, s1.views = s2.views ∧ s1.gen = s2.gen →
      s1.views w = s2.views w ∧ s1.gen = s2.gen := fun h => ⟨by rw [h.1], h.2⟩
  cases s with
  | assign t e =>
    cases e with
    | name s => exact ⟨rfl, rfl⟩
    | _ => exact e1 (store_keeps _ _ _)
  | upd o t e =>
    simp only [PyStmt.run]
    cases e.eval c n st.val with
    | ok y =>
      cases st.env t with
      | num x => exact e1 (store_keeps _ _ _)
      | ref a =>
        cases y with
        | num s =>
          cases o with
          | add => exact e1 (store_keeps _ _ _)
          | sub => exact e1 (store_keeps _ _ _)
          | mul => exact ⟨rfl, rfl⟩
          | div => exact ⟨rfl, rfl⟩
        | jet y => exact ⟨rfl, rfl⟩
    | throw e => exact ⟨rfl, rfl⟩
    | abort => exact ⟨rfl, rfl⟩
    | ub u => exact ⟨rfl, rfl⟩
  | setF t x =>
    simp only [PyStmt.run]
    cases st.env t
    · exact ⟨rfl, rfl⟩
    · exact e1 (putAt_keeps _ _ _)
  | setH t i j x =>
    simp only [PyStmt.run]
    cases st.env t
    · exact ⟨rfl, rfl⟩
    · exact e1 (putAt_keeps _ _ _)
  | resize t m => exact hs.elim
  | data u t =>
    simp only [PyStmt.run]
    cases st.env t
    · exact ⟨rfl, rfl⟩
    · exact ⟨if_neg (fun h => hw h.symm), rfl⟩
  | grad u t =>
    simp only [PyStmt.run]
    cases st.env t
    · exact ⟨rfl, rfl⟩
    · exact ⟨if_neg (fun h => hw h.symm), rfl⟩
  | poke u i x =>
    simp only [PyStmt.run]
    cases st.views u with
    | none => exact ⟨rfl, rfl⟩
    | some r =>
      simp only
      cases r.check st i with
      | ok y => exact e1 (putAt_keeps _ _ _)
      | throw e => exact ⟨rfl, rfl⟩
      | abort => exact ⟨rfl, rfl⟩
      | ub u => exact ⟨rfl, rfl⟩
  | peek t u i =>
    simp only [PyStmt.run]
    cases st.views u with
    | none => exact ⟨rfl, rfl⟩
    | some r => exact e1 (store_keeps _ _ _)

theorem pyRun_keeps (p : List (PyStmt α V W)) (hp : ∀ s ∈ p, s.InRange c n) (w : W)
    (hw : ∀ s ∈ p, ¬ s.Makes w) (st : PySt α V W) :
    (pyRun c n p st).2.views w = st.views w ∧ (pyRun c n p st).2.gen = st.gen := by
  induction p generalizing st with
  | nil => exact ⟨rfl, rfl⟩
  | cons s p ih =>
    have h := run_keeps s (hp s (by simp)) w (hw s (by simp)) st
    simp only [pyRun]
    generalize s.run c n st = r at h
    obtain ⟨o, st'⟩ := r
    dsimp only at h
    cases o with
    | ok u =>
      have := ih (fun s h => hp s (by simp [h])) (fun s h => hw s (by simp [h])) st'
      exact ⟨this.1.trans h.1, this.2.trans h.2⟩
    | throw e => exact h
    | abort => exact h
    | ub u => exact h

theorem poke_good {st : PySt α V W} (h : st.Good c n) {w : W} {r : View}
    (hw : st.views w = some r) (i : Nat) (s : α) (hi : i < r.len) :
    (PyStmt.poke w i s : PyStmt α V W).run c n st = st.putAt r.obj (do
      let d ← wr (st.heap r.obj).mData ((r.off : Int) + i) s
      .ok { st.heap r.obj with mData := d }) := by
  simp only [PyStmt.run, hw, View.check_good h hw, if_pos hi]

theorem peek_good {st : PySt α V W} (h : st.Good c n) {w : W} {r : View}
    (hw : st.views w = some r) (t : V) (i : Nat) (hi : i < r.len) {v : α}
    (hr : rd (st.heap r.obj).mData ((r.off : Int) + i) = .ok v) :
    (PyStmt.peek t w i : PyStmt α V W).run c n st = (.ok (), st.bind t (.num v)) := by
  simp only [PyStmt.run, hw, View.check_good h hw, if_pos hi, hr, Res.ok_bind]
  rfl

/-- **C53, gradient arrays.** Take `w = t.g`, then run any program without `resize` that does not
reuse the name `w` (it may rebind `t`, and change objects in place).  Then `w[i]` is the current
`g(i)` of the object, `w[i] = s` sets exactly `g(i)`, and an index outside raises `IndexError`. -/
theorem C53_gradient_array (hv : c.Valid) (hf : c.tsize = -1 ∨ c.tsize = n)
    (hn : c.order = 2 → 0 < n) (w : W) (t : V) (p : List (PyStmt α V W))
    (hp : ∀ s ∈ p, s.InRange c n) (hw : ∀ s ∈ p, ¬ s.Makes w) (st : PySt α V W)
    (h : st.Good c n) (a : Nat) (ht : st.env t = .ref a) :
    ∃ st', (pyRun c n (.grad w t :: p) st).2 = st' ∧ ∃ J, Shows c n (st'.heap a) J ∧
      (∀ u i, i < n → (PyStmt.peek u w i).run c n st' = (.ok (), st'.bind u (.num (J.g i)))) ∧
      (∀ i s, i < n → ∃ y, (PyStmt.poke w i s).run c n st' = (.ok (), st'.write a y) ∧
        Shows c n y { J with g := fun k => if k = i then s else J.g k }) ∧
      ∀ u i s, n ≤ i → (PyStmt.peek u w i).run c n st' = (.throw .indexError, st') ∧
        (PyStmt.poke w i s).run c n st' = (.throw .indexError, st') := by
  have hg := (C53_memory_safe hv hf hn (.grad w t :: p)
    (by intro s hs; rcases List.mem_cons.1 hs with rfl | hs; exacts [trivial, hp s hs]) st h).2
  have hsz : (st.heap a).size c = n := by
    obtain ⟨_, b, hb⟩ := (h.objects a (h.names t a ht)).eq_obj hv.order
    rw [hb, size_obj hf]
  have hrun : pyRun c n (.grad w t :: p) st = pyRun c n p (st.look w a 1 n) := by
    simp only [pyRun, PyStmt.run, ht, hsz, Int.toNat_natCast]
  have hk := pyRun_keeps p hp w hw (st.look w a 1 n)
  rw [hrun] at hg ⊢
  refine ⟨_, rfl, ?_⟩
  have hview : (pyRun c n p (st.look w a 1 n)).2.views w = some ⟨a, st.gen a, 1, n⟩ := by
    rw [hk.1]; exact if_pos rfl
  generalize (pyRun c n p (st.look w a 1 n)).2 = st' at hg hview
  have ha := hg.objects a (hg.arrays w _ hview).1
  obtain ⟨J, hJ⟩ := ha.shows hv.order
  refine ⟨J, hJ, fun u i hi => ?_, fun i s hi => ?_, fun u i s hi => ?_⟩
  · refine peek_good hg hview u i hi ?_
    have h1 := hJ.g i hi
    obtain ⟨_, b, hb⟩ := ha.eq_obj hv.order
    simp only [DD.g, assertB, hb, size_obj hf] at h1
    rw [show ((1 : Nat) : Int) = 1 from rfl]
    simp only [hb]
    rw [if_neg (by simp; omega)] at h1
    exact h1
  · obtain ⟨y, h1, h2⟩ := (C03_framed_writes hv hJ s).2.1 i hi
    refine ⟨y, ?_, h2⟩
    rw [poke_good hg hview i s hi]
    simp only [DD.setG, assertB] at h1
    split at h1
    · cases h1
    · simp only [Res.ok_bind] at h1
      simp only [show ((1 : Nat) : Int) = 1 from rfl, h1, PySt.putAt]
  · constructor
    · simp only [PyStmt.run, hview, View.check_good hg hview, if_neg (by omega : ¬ i < n)]
      rfl
    · simp only [PyStmt.run, hview, View.check_good hg hview, if_neg (by omega : ¬ i < n)]

/-- **C53, data arrays.** The same for `w = t.data`: positions 0, `1 + i`, `1 + n + k` are `f`,
`g(i)` and, for second-order jets, the Hessian entry of the `k`-th pair of the upper triangle. -/
theorem C53_data_array (hv : c.Valid) (hf : c.tsize = -1 ∨ c.tsize = n)
    (hn : c.order = 2 → 0 < n) (w : W) (t : V) (p : List (PyStmt α V W))
    (hp : ∀ s ∈ p, s.InRange c n) (hw : ∀ s ∈ p, ¬ s.Makes w) (st : PySt α V W)
    (h : st.Good c n) (a : Nat) (ht : st.env t = .ref a) :
    ∃ st', (pyRun c n (.data w t :: p) st).2 = st' ∧ ∃ J, Shows c n (st'.heap a) J ∧
      (∀ u, (PyStmt.peek u w 0).run c n st' = (.ok (), st'.bind u (.num J.f))) ∧
      (∀ u i, i < n → (PyStmt.peek u w (1 + i)).run c n st' = (.ok (), st'.bind u (.num (J.g i)))) ∧
      (c.order = 2 → ∀ u k i j, (upperPairs n)[k]? = some (i, j) →
        (PyStmt.peek u w (1 + n + k)).run c n st' = (.ok (), st'.bind u (.num (J.h i j)))) ∧
      (∀ s, ∃ y, (PyStmt.poke w 0 s).run c n st' = (.ok (), st'.write a y) ∧
        Shows c n y { J with f := s }) ∧
      (∀ i s, i < n → ∃ y, (PyStmt.poke w (1 + i) s).run c n st' = (.ok (), st'.write a y) ∧
        Shows c n y { J with g := fun k => if k = i then s else J.g k }) ∧
      (c.order = 2 → ∀ k i j s, (upperPairs n)[k]? = some (i, j) →
        ∃ y, (PyStmt.poke w (1 + n + k) s).run c n st' = (.ok (), st'.write a y) ∧
          Shows c n y { J with h := hUpdate J.h i j s }) ∧
      ∀ u i s, storedLen c.order n ≤ i →
        (PyStmt.peek u w i).run c n st' = (.throw .indexError, st') ∧
        (PyStmt.poke w i s).run c n st' = (.throw .indexError, st') := by
  have hg := (C53_memory_safe hv hf hn (.data w t :: p)
    (by intro s hs; rcases List.mem_cons.1 hs with rfl | hs; exacts [trivial, hp s hs]) st h).2
  have hlen := (h.objects a (h.names t a ht)).len
  have hrun : pyRun c n (.data w t :: p) st =
      pyRun c n p (st.look w a 0 (storedLen c.order n)) := by
    simp only [pyRun, PyStmt.run, ht, hlen]
  have hk := pyRun_keeps p hp w hw (st.look w a 0 (storedLen c.order n))
  rw [hrun] at hg ⊢
  refine ⟨_, rfl, ?_⟩
  have hview : (pyRun c n p (st.look w a 0 (storedLen c.order n))).2.views w =
      some ⟨a, st.gen a, 0, storedLen c.order n⟩ := by
    rw [hk.1]; exact if_pos rfl
  generalize (pyRun c n p (st.look w a 0 (storedLen c.order n))).2 = st' at hg hview
  have ha := hg.objects a (hg.arrays w _ hview).1
  obtain ⟨J, hJ⟩ := ha.shows hv.order
  have hle := le_dlen c n
  rw [← storedLen_eq hv.order] at hle
  have hpair : c.order = 2 → ∀ k i j, (upperPairs n)[k]? = some (i, j) →
      1 + n + k < storedLen c.order n := by
    intro h2 k i j hk
    rw [storedLen_eq hv.order, dlen_two h2]
    have := (List.getElem?_eq_some_iff.1 hk).1
    rw [upperPairs_length] at this
    omega
  have hz : ∀ i : Nat, ((0 : Nat) : Int) + i = i := fun i => by simp
  refine ⟨J, hJ, fun u => ?_, fun u i hi => ?_, fun h2 u k i j hk => ?_, fun s => ?_,
    fun i s hi => ?_, fun h2 k i j s hk => ?_, fun u i s hi => ?_⟩
  · refine peek_good hg hview u 0 (by show 0 < storedLen c.order n; omega) ?_
    exact hJ.f
  · refine peek_good hg hview u (1 + i) (by show 1 + i < storedLen c.order n; omega) ?_
    obtain ⟨_, _, h1⟩ := Res.bind_eq_ok.1 (hJ.g i hi)
    simp only [hz]
    push_cast
    exact h1
  · refine peek_good hg hview u (1 + n + k) (hpair h2 k i j hk) ?_
    obtain ⟨_, _, h1⟩ := Res.bind_eq_ok.1 ((C04_flat_index hv h2 hJ).2 k i j hk).2.2.2
    rw [hJ.size] at h1
    simp only [hz]
    push_cast
    exact h1
  · obtain ⟨y, h1, h2⟩ := (C03_framed_writes hv hJ s).1
    refine ⟨y, ?_, h2⟩
    rw [poke_good hg hview 0 s (by show 0 < storedLen c.order n; omega)]
    simp only [hz]
    have h1' : (do
      let d ← wr (st'.heap a).mData ((0 : Nat) : Int) s
      Res.ok { st'.heap a with mData := d }) = .ok y := h1
    rw [h1']; rfl
  · obtain ⟨y, h1, h2⟩ := (C03_framed_writes hv hJ s).2.1 i hi
    refine ⟨y, ?_, h2⟩
    rw [poke_good hg hview (1 + i) s (by show 1 + i < storedLen c.order n; omega)]
    obtain ⟨_, _, h1⟩ := Res.bind_eq_ok.1 h1
    simp only [hz]
    push_cast
    rw [h1]; rfl
  · obtain ⟨y, h1, h2⟩ := (C03_framed_writes hv hJ s).2.2.2.1 h2 k i j hk
    refine ⟨y, ?_, h2⟩
    rw [poke_good hg hview (1 + n + k) s (hpair ‹_› k i j hk)]
    obtain ⟨_, _, h1⟩ := Res.bind_eq_ok.1 h1
    rw [hJ.size] at h1
    simp only [hz]
    push_cast
    rw [h1]; rfl
  · constructor
    · simp only [PyStmt.run, hview, View.check_good hg hview,
        if_neg (by omega : ¬ i < storedLen c.order n)]
      rfl
    · simp only [PyStmt.run, hview, View.check_good hg hview,
        if_neg (by omega : ¬ i < storedLen c.order n)]

/-- **C53 (violated).** A call of `resize` that enlarges an object leaves every array of it without
storage: using one afterwards is undefined behaviour. -/
theorem C53_violated_resize (hv : c.Valid) (hd : c.tsize = -1) (st : PySt α V W) (h : st.Good c n)
    (t : V) (a : Nat) (ht : st.env t = .ref a) (w : W) (r : View) (hw : st.views w = some r)
    (hr : r.obj = a) (m : Nat) (hm : n < m) (u : V) (i : Nat) (hi : i < r.len) (s : α) :
    ∃ st', (PyStmt.resize t m : PyStmt α V W).run c n st = (.ok (), st') ∧
      (PyStmt.peek u w i).run c n st' = (.ub .dangling, st') ∧
      (PyStmt.poke w i s).run c n st' = (.ub .dangling, st') := by
  have hdyn : c.isDynamic = true := by simp [Cfg.isDynamic, hd]
  obtain ⟨_, b, hb⟩ := (h.objects a (h.names t a ht)).eq_obj hv.order
  have hlt : (obj c n b).mData.length < (obj c m (resizeC c n b)).mData.length := by
    have h1 : ∀ k (b : Nat → α), (obj c k b).mData.length = dlen c k := by intro k b; simp [obj]
    rw [h1, h1]
    rcases hv.order with h1 | h1
    · rw [dlen_one h1, dlen_one h1]; omega
    · rw [dlen_two h1, dlen_two h1]
      have h2 := two_tri_self n
      have h3 := two_tri_self m
      nlinarith
  have hg := (h.arrays w r hw).2.1
  obtain ⟨ro, rg, rf, rl⟩ := r
  dsimp only at hr hg hi
  subst hr
  refine ⟨{ st.write ro (obj c m (resizeC c n b)) with
    gen := fun k => if k = ro then st.gen ro + 1 else st.gen k }, ?_, ?_, ?_⟩
  · simp only [PyStmt.run, ht, hdyn, if_true, hb, resize_obj hd b, hlt, and_true]
  · simp only [PyStmt.run, PySt.write, hw, View.check, if_neg (by omega : ¬ rl ≤ i), if_true, hg]
    simp only [ne_eq, Nat.add_eq_left, one_ne_zero, not_false_eq_true, if_true]
    rfl
  · simp only [PyStmt.run, PySt.write, hw, View.check, if_neg (by omega : ¬ rl ≤ i), if_true, hg]
    simp only [ne_eq, Nat.add_eq_left, one_ne_zero, not_false_eq_true, if_true]

end c53

/-! ### Concrete cases -/

section samples

/-- Names 0 and 1 refer to two jets of two variables, name 2 is the number 5. -/
noncomputable def exPy : PySt XReal (Fin 3) (Fin 1) where
  env := ![.ref 0, .ref 1, .num (.num 5)]
  views := fun _ => none
  heap := fun a => if a = 0 then obj exDyn2 2 (varC 0 (.num 3)) else obj exDyn2 2 (varC 1 (.num 2))
  next := 2
  gen := fun _ => 0

/-- Names 0 and 1 refer to the same jet. -/
noncomputable def exPyShared : PySt XReal (Fin 3) (Fin 1) :=
  { exPy with env := ![.ref 0, .ref 0, .num (.num 5)] }

theorem exPy_heap (a : Nat) : WF exDyn2 2 (exPy.heap a) := by
  simp only [exPy]
  split <;> exact wf_obj exDyn2_valid.order (Or.inl rfl) _

theorem exPy_good : exPy.Good exDyn2 2 where
  names v a h := by
    fin_cases v <;> simp [exPy] at h ⊢ <;> omega
  objects a _ := exPy_heap a
  arrays w r h := by simp [exPy] at h

theorem exPyShared_good : exPyShared.Good exDyn2 2 where
  names v a h := by
    fin_cases v <;> simp [exPyShared] at h <;> simp [exPyShared, exPy] <;> omega
  objects a _ := exPy_heap a
  arrays w r h := by simp [exPyShared, exPy] at h

theorem exPy_unshared : Unshared exPy where
  inj v w a hv hw := by
    fin_cases v <;> fin_cases w <;> simp [exPy] at hv hw ⊢ <;> omega
  fresh := exPy_good.names

/-- `x *= y + 5; x += x; y += k; x.f = 7; y /= x; k = y.exp()`. -/
def exPyProg : List (PyStmt XReal (Fin 3) (Fin 1)) :=
  [.upd .mul 0 (.op .add (.name 1) (.lit (.num 5))), .upd .add 0 (.name 0), .upd .add 1 (.name 2),
    .setF 0 (.num 7), .upd .div 1 (.name 0), .assign 2 (.fn .exp (.name 1))]

example : (pyRun exDyn2 2 exPyProg exPy).1 = (valRun exDyn2 2 exPyProg exPy.val).1 ∧
    ∀ v, (pyRun exDyn2 2 exPyProg exPy).2.val v = (valRun exDyn2 2 exPyProg exPy.val).2 v :=
  C52_functional exDyn2_valid (Or.inl rfl) xreal_comm (by simp) exPyProg
    (by intro s hs; fin_cases hs <;> simp [PyStmt.Plain])
    (Or.inr fun x y => (xreal_recipDiv x y).symm) exPy exPy_unshared exPy_good.val

/-- `x *= k` with two names of one jet: both show the product, `k` is still 5. -/
example : ∃ r st', POp.mul.run exDyn2 (exPyShared.val 0) (.num (.num 5)) = .ok r ∧
    (PyStmt.upd .mul 0 (.name 2)).run exDyn2 2 exPyShared = (.ok (), st') ∧
    st'.val 0 = r ∧ st'.val 1 = r ∧ st'.val 2 = .num (.num 5) := by
  obtain ⟨r, st', h1, h2, _, h3, h4⟩ := C52_in_place exDyn2_valid xreal_comm (by simp)
    (fun x y => (xreal_recipDiv x y).symm) exPyShared .mul 0 0 rfl (exPy_heap 0) (.name 2) (.num (.num 5)) rfl trivial
    (by simp) (by intro s hs; cases hs; simp [exPyShared])
  exact ⟨r, st', h1, h2, h3 0 rfl, h3 1 rfl, h4 2 (by simp [exPyShared])⟩

/-- `x += k` with two names of one jet: the other name keeps the old jet. -/
example : ∃ r st', POp.add.run exDyn2 (exPyShared.val 0) (.num (.num 5)) = .ok r ∧
    (PyStmt.upd .add 0 (.name 2)).run exDyn2 2 exPyShared = (.ok (), st') ∧
    st'.val 0 = r ∧ st'.val 1 = exPyShared.val 1 := by
  obtain ⟨r, st', h1, h2, h3⟩ := C52_violated_number exDyn2_valid exPyShared 0 0
    exPyShared_good.names rfl (exPy_heap 0) .add (Or.inl rfl) (.name 2) (.num 5) rfl
  exact ⟨r, st', h1, h2, (h3 0).trans (by simp), (h3 1).trans (by simp)⟩

example : ∃ st', (PyStmt.assign 1 (.name 0)).run exDyn2 2 exPy = (.ok (), st') ∧
    st'.val 1 = exPy.val 0 := by
  obtain ⟨st', h1, _, _, h2⟩ := C52_alias (c := exDyn2) (n := 2) exPy 1 0
  exact ⟨st', h1, (h2 1).trans (by simp)⟩

/-- `w = x.g; x *= x; y = T.variable(1, 2); w[0] = 3; k = w[17]`, two names of one jet. -/
def exPyArr : List (PyStmt XReal (Fin 3) (Fin 1)) :=
  [.grad 0 0, .upd .mul 0 (.name 1), .assign 1 (.vari 1 (.num 2)), .poke 0 0 (.num 3), .peek 2 0 17]

example : PyOutcome (pyRun exDyn2 2 exPyArr exPyShared).1 ∧
    (pyRun exDyn2 2 exPyArr exPyShared).2.Good exDyn2 2 :=
  C53_memory_safe exDyn2_valid (Or.inl rfl) (by simp) exPyArr
    (by intro s hs; fin_cases hs <;> simp [PyStmt.InRange, PyE.InRange]) exPyShared exPyShared_good

/-- `w = x.g; x *= x; x = 1 + y` and then `w[1] = 9`: the object `x` had at first is written. -/
example : ∃ st' J y, (pyRun exDyn2 2 [.grad 0 0, .upd .mul 0 (.name 1),
      .assign 0 (.op .add (.lit (.num 1)) (.name 1))] exPyShared).2 = st' ∧
    Shows exDyn2 2 (st'.heap 0) J ∧
    (PyStmt.poke 0 1 (.num 9)).run exDyn2 2 st' = (.ok (), st'.write 0 y) ∧
    Shows exDyn2 2 y { J with g := fun k => if k = 1 then .num 9 else J.g k } := by
  obtain ⟨st', h1, J, h2, _, h3, _⟩ := C53_gradient_array exDyn2_valid (Or.inl rfl) (by simp) 0 0
    [.upd .mul 0 (.name 1), .assign 0 (.op .add (.lit (.num 1)) (.name 1))]
    (by intro s hs; fin_cases hs <;> simp [PyStmt.InRange, PyE.InRange])
    (by intro s hs; fin_cases hs <;> simp [PyStmt.Makes]) exPyShared exPyShared_good 0 rfl
  obtain ⟨y, h4, h5⟩ := h3 1 (.num 9) (by omega)
  exact ⟨st', J, y, h1, h2, h4, h5⟩

/-- Position 4 of `x.data` is `h(0, 1)`. -/
example : ∃ st' J y, (pyRun exDyn2 2 [.data 0 0, .upd .mul 0 (.name 1)] exPyShared).2 = st' ∧
    Shows exDyn2 2 (st'.heap 0) J ∧
    (PyStmt.poke 0 4 (.num 9)).run exDyn2 2 st' = (.ok (), st'.write 0 y) ∧
    Shows exDyn2 2 y { J with h := hUpdate J.h 0 1 (.num 9) } := by
  obtain ⟨st', h1, J, h2, _, _, _, _, _, h3, _⟩ := C53_data_array exDyn2_valid (Or.inl rfl)
    (by simp) 0 0 [.upd .mul 0 (.name 1)]
    (by intro s hs; fin_cases hs <;> simp [PyStmt.InRange, PyE.InRange])
    (by intro s hs; fin_cases hs <;> simp [PyStmt.Makes]) exPyShared exPyShared_good 0 rfl
  obtain ⟨y, h4, h5⟩ := h3 rfl 1 0 1 (.num 9) (by decide)
  exact ⟨st', J, y, h1, h2, h4, h5⟩

/-- `w = x.g; x.resize(3); w[0] = 1`. -/
example : ∃ st', (PyStmt.resize 0 3).run exDyn2 2 (exPy.look 0 0 1 2) = (.ok (), st') ∧
    (PyStmt.peek 2 0 0).run exDyn2 2 st' = (.ub .dangling, st') ∧
    (PyStmt.poke 0 0 (.num 1)).run exDyn2 2 st' = (.ub .dangling, st') :=
  C53_violated_resize exDyn2_valid rfl (exPy.look 0 0 1 2)
    (good_step exDyn2_valid (Or.inl rfl) (by simp) (.grad 0 0) trivial exPy_good).2
    0 0 rfl 0 ⟨0, 0, 1, 2⟩ rfl rfl 3 (by omega) 2 0 (by decide) (.num 1)

end samples

end HJ
