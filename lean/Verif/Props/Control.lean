import Verif.Proofs.Control
import Verif.Props.Program
import Verif.Props.Plain
import Verif.Props.PyValues

/-!
# C61: programs with branches and loops
-/

open scoped Topology

namespace HJ

open DD

section path

variable {α V : Type} [DecidableEq V] [CMath α] {c : Cfg} {n : Nat}

/-- The jets are well formed and have the values `σ`. -/
def Holding (c : Cfg) (n : Nat) (ρ : Store α V) (σ : V → α) : Prop :=
  ∀ v, WF c n (ρ v) ∧ (ρ v).f = .ok (σ v)

omit [CMath α] in
theorem Holding.set {ρ : Store α V} {σ : V → α} (h : Holding c n ρ σ) (t : V) {x : DD α} {s : α}
    (hx : WF c n x) (hs : x.f = .ok s) :
    Holding c n (ρ.set t x) (fun v => if v = t then s else σ v) := by
  intro v
  by_cases hv : v = t
  · subst hv; simp only [Store.set_eq, if_pos]; exact ⟨hx, hs⟩
  · rw [Store.set_ne _ _ hv]; simp only [hv, if_false]; exact h v

omit [CMath α] in
theorem Holding.set_same {ρ : Store α V} {σ : V → α} (h : Holding c n ρ σ) (t : V) {x : DD α}
    (hx : WF c n x) (hs : x.f = .ok (σ t)) : Holding c n (ρ.set t x) σ := by
  have := h.set t hx hs
  have he : (fun v => if v = t then σ t else σ v) = σ := by
    funext v
    by_cases hv : v = t
    · simp [hv]
    · simp [hv]
  rwa [he] at this

omit [DecidableEq V] in
theorem Holding.eval (hl : CommLaws α) (hv : c.Valid) (hf : Fits c n) {ρ : Store α V} {σ : V → α}
    (h : Holding c n ρ σ) (e : Expr α V) :
    ∃ r, e.evalDD c n ρ = .ok r ∧ WF c n r ∧ r.f = .ok (e.plain recipDiv σ) := by
  obtain ⟨r, h1, h2⟩ := C51_value hl hv ρ σ (fun v => (h v).1) (fun v => (h v).2) hf e
  obtain ⟨r', h3, h4⟩ := C19_no_undefined_behaviour hv hf (fun v => (h v).1) e
  rw [h1] at h3
  cases h3
  exact ⟨r, h1, h4, h2⟩

theorem run_value (hv : c.Valid) (o : AOp) (hn : o = .mul → c.order = 2 → 0 < n) {x y : DD α}
    {s t : α} (hx : WF c n x) (hs : x.f = .ok s) (hy : WF c n y) (ht : y.f = .ok t)
    {b : DD.Operand α} (hb : b = .obj y ∨ (b = .self ∧ y = x)) :
    ∃ x', o.run c x b = (.ok (), x') ∧ WF c n x' ∧ x'.f = .ok (o.plain s t) := by
  obtain ⟨hf, a, rfl⟩ := hx.eq_obj hv.order
  obtain ⟨_, a', rfl⟩ := hy.eq_obj hv.order
  rw [f_obj] at hs ht
  cases hs
  cases ht
  have hw : ∀ a : Nat → α, WF c n (obj c n a) := fun a => wf_obj hv.order hf a
  rcases hb with rfl | ⟨rfl, hb⟩
  · cases o with
    | add => exact ⟨_, addAssign_obj hf a a', hw _, f_obj ..⟩
    | sub => exact ⟨_, subAssign_obj hf a a', hw _, f_obj ..⟩
    | mul =>
      refine ⟨_, mulAssign_obj hv.order (hn rfl) hf a a', hw _, ?_⟩
      rw [f_obj, mulAC, bFin_zero]; rfl
    | div =>
      refine ⟨_, divAssign_obj hv.order hf a a', hw _, ?_⟩
      rw [f_obj, divC, bFin_zero]; rfl
  · have h0 : a' 0 = a 0 := by
      have := congrArg DD.f hb
      rw [f_obj, f_obj] at this
      exact Res.ok.inj this
    rw [h0]
    cases o with
    | add => exact ⟨_, addAssign_self a, hw _, f_obj ..⟩
    | sub => exact ⟨_, subAssign_self a, hw _, f_obj ..⟩
    | mul =>
      refine ⟨_, mulAssign_self hv.order (hn rfl) hf a, hw _, ?_⟩
      rw [f_obj, mulAC, bFin_zero]; rfl
    | div =>
      refine ⟨_, divAssign_self hv.order hf a, hw _, ?_⟩
      rw [f_obj, divSelfC, bFin_zero]; rfl

theorem step_value (hl : CommLaws α) (hv : c.Valid) (hf : Fits c n) {ρ : Store α V} {σ : V → α}
    (h : Holding c n ρ σ) (s : Stmt α V) (hs : s.Plain c n) :
    ∃ ρ', s.run c n ρ = (.ok (), ρ') ∧ Holding c n ρ' (s.plain σ) := by
  cases s with
  | assign t e =>
    obtain ⟨r, h1, h2, h3⟩ := h.eval hl hv hf e
    exact ⟨_, by simp only [Stmt.run, h1]; rfl, h.set t h2 h3⟩
  | upd o t e =>
    obtain ⟨y, e1, e2, e3⟩ := h.eval hl hv hf e
    have hop : ∃ b, ρ.operand c n t e = .ok b ∧ (b = .obj y ∨ (b = .self ∧ y = ρ t)) := by
      cases e with
      | var w =>
        simp only [Expr.evalDD, Res.ok.injEq] at e1
        by_cases hw : w = t
        · exact ⟨.self, by simp [Store.operand, hw], Or.inr ⟨rfl, by rw [← e1, hw]⟩⟩
        · exact ⟨.obj (ρ w), by simp [Store.operand, hw], Or.inl (by rw [e1])⟩
      | _ => exact ⟨.obj y, by simp only [Store.operand, e1, Res.ok_bind], Or.inl rfl⟩
    obtain ⟨b, hb, hb'⟩ := hop
    obtain ⟨x', h1, h2, h3⟩ := run_value hv o hs (h t).1 (h t).2 e2 e3 hb'
    exact ⟨_, by simp only [Stmt.run, hb, Store.change, h1], h.set t h2 h3⟩
  | updS o t s =>
    cases s with
    | cell k => exact hs.elim
    | val s =>
      obtain ⟨_, a, ha⟩ := (h t).1.eq_obj hv.order
      have h0 : σ t = a 0 := by
        have := (h t).2
        rw [ha, f_obj] at this
        exact (Res.ok.inj this).symm
      have hw : ∀ a : Nat → α, WF c n (obj c n a) := fun a => wf_obj hv.order hf a
      simp only [Stmt.run, Store.change, ha]
      cases o with
      | add =>
        refine ⟨_, by simp only [AOp.runS, addAssignS_obj]; rfl, h.set t (hw _) ?_⟩
        rw [f_obj, h0]; rfl
      | sub =>
        refine ⟨_, by simp only [AOp.runS, subAssignS_obj]; rfl, h.set t (hw _) ?_⟩
        rw [f_obj, h0]; rfl
      | mul =>
        refine ⟨_, by simp only [AOp.runS, mulAssignS_obj]; rfl, h.set t (hw _) ?_⟩
        rw [f_obj, h0]; rfl
      | div =>
        refine ⟨_, by simp only [AOp.runS, divAssignS_obj]; rfl, h.set t (hw _) ?_⟩
        rw [f_obj, h0]; rfl
  | setF t x =>
    obtain ⟨_, a, ha⟩ := (h t).1.eq_obj hv.order
    refine ⟨_, by simp only [Stmt.run, ha, setF_obj]; rfl, h.set t (wf_obj hv.order hf _) ?_⟩
    rw [f_obj]; rfl
  | setG t i x =>
    obtain ⟨J, hJ⟩ := (h t).1.shows hv.order
    obtain ⟨k, rfl⟩ : ∃ k : Nat, i = k := ⟨i.toNat, by have := hs.1; omega⟩
    obtain ⟨y, hy, hy'⟩ := (C03_framed_writes hv hJ x).2.1 k (by have := hs.2; omega)
    refine ⟨_, by simp only [Stmt.run, hy]; rfl, h.set_same t hy'.wf ?_⟩
    rw [hy'.f, ← (h t).2, hJ.f]
  | setH t i j x =>
    obtain ⟨J, hJ⟩ := (h t).1.shows hv.order
    obtain ⟨h2, hi, hi', hj, hj'⟩ := hs
    obtain ⟨k, rfl⟩ : ∃ k : Nat, i = k := ⟨i.toNat, by omega⟩
    obtain ⟨l, rfl⟩ : ∃ l : Nat, j = l := ⟨j.toNat, by omega⟩
    obtain ⟨y, hy, hy'⟩ := (C03_framed_writes hv hJ x).2.2.1 h2 k l (by omega) (by omega)
    refine ⟨_, by simp only [Stmt.run, hy]; rfl, h.set_same t hy'.wf ?_⟩
    rw [hy'.f, ← (h t).2, hJ.f]
  | setZero t =>
    obtain ⟨J, hJ⟩ := (h t).1.shows hv.order
    have hy' := (C03_framed_writes hv hJ (Arith.lit 0)).2.2.2.2
    exact ⟨_, rfl, h.set t hy'.wf hy'.f⟩

omit [DecidableEq V] in
theorem cond_value (hl : CommLaws α) (hq : CmpLaws α) (hv : c.Valid) (hf : Fits c n)
    {ρ : Store α V} {σ : V → α} (h : Holding c n ρ σ) (b : Cond α V) :
    b.run c n ρ = .ok (b.plain σ) := by
  cases b with
  | cmp op e₁ e₂ =>
    obtain ⟨x, x1, _, x3⟩ := h.eval hl hv hf e₁
    obtain ⟨y, y1, _, y3⟩ := h.eval hl hv hf e₂
    simp only [Cond.run, Cond.plain, x1, y1, Res.ok_bind, DD.cmp, x3, y3]
  | cmpS op e s =>
    obtain ⟨x, x1, _, x3⟩ := h.eval hl hv hf e
    simp only [Cond.run, Cond.plain, x1, Res.ok_bind, DD.cmpS, x3]
  | sCmp op s e =>
    obtain ⟨x, x1, _, x3⟩ := h.eval hl hv hf e
    simp only [Cond.run, Cond.plain, x1, Res.ok_bind, DD.sCmp, DD.cmpS, x3]
    cases op
    · exact congrArg _ (hq.eq _ _)
    · exact congrArg _ (hq.ne _ _)
    · exact congrArg _ (hq.lt _ _).symm
    · exact congrArg _ (hq.lt _ _)
    · exact congrArg _ (hq.le _ _).symm
    · exact congrArg _ (hq.le _ _)

/-- **C61, jets take the path of their values.**  A program with branches and loops whose statements
are assignments, in-place updates and setters with valid indices runs on jets exactly as on plain
scalars: the same branches are taken, the same loops end after the same number of rounds (or none of
the two ends), there is no undefined behaviour and no exception, and the values are equal, bit for bit.
Holds in every arithmetic with commuting addition and multiplication. -/
theorem C61_path (hl : CommLaws α) (hq : CmpLaws α) (hv : c.Valid) (hf : c.tsize = -1 ∨ c.tsize = n)
    (p : Ctl (Stmt α V) (Cond α V)) (hp : p.All (Stmt.Plain c n)) (ρ : Store α V) (σ : V → α)
    (hρ : ∀ v, WF c n (ρ v)) (hσ : ∀ v, (ρ v).f = .ok (σ v)) (k : Nat) :
    (p.run (ddMachine α V c n) k ρ = none ∧ p.run (plainMachine α V) k σ = none) ∨
    ∃ ρ' σ', p.run (ddMachine α V c n) k ρ = some (.ok (), ρ') ∧
      p.run (plainMachine α V) k σ = some (.ok (), σ') ∧
      ∀ v, WF c n (ρ' v) ∧ (ρ' v).f = .ok (σ' v) := by
  refine Ctl.lockstep (M := ddMachine α V c n) (M' := plainMachine α V) (R := Holding c n)
    (P := Stmt.Plain c n) ?_ ?_ k p hp ρ σ fun v => ⟨hρ v, hσ v⟩
  · intro s hs ρ σ h
    obtain ⟨ρ', h1, h2⟩ := step_value hl hv hf h s hs
    exact ⟨ρ', s.plain σ, h1, rfl, h2⟩
  · intro b ρ σ h
    exact ⟨b.plain σ, cond_value hl hq hv hf h b, rfl⟩

end path

section exact

open XReal (num)

variable {V : Type} [DecidableEq V] {c : Cfg} {n : Nat}

/-- The jets are those of the functions `u` at `x`. -/
def Following (c : Cfg) (n : Nat) (x : Fin n → ℝ) (ρ : Store XReal V)
    (u : (Fin n → ℝ) → V → ℝ) : Prop :=
  ∃ J : V → Jet ℝ, (∀ v, Shows c n (ρ v) (J v).lift) ∧
    ∀ v, IsJet c.order n (fun y => u y v) x (J v)

omit [DecidableEq V] in
theorem Following.eval (hv : c.Valid) (hfit : c.tsize = -1 ∨ c.tsize = n) {x : Fin n → ℝ}
    {ρ : Store XReal V} {u : (Fin n → ℝ) → V → ℝ} (h : Following c n x ρ u) (e : Expr ℝ V)
    (hD : e.Dom c.order (u x)) (hR : e.Regular (u x)) :
    ∃ r, (e.map num).evalDD c n ρ = .ok r ∧ r.f = .ok (num (e.den (u x))) ∧
      ContinuousAt (fun y => e.den (u y)) x := by
  obtain ⟨J, hρ, hu⟩ := h
  obtain ⟨r, h1, h2⟩ := C18_chain_rule hv hfit e (fun v y => u y v) x ρ J hρ hu hR
  obtain ⟨K, h3, h4⟩ := h2 (Or.inl hD)
  refine ⟨r, h1, ?_, h4.grad.continuousAt⟩
  rw [h3.f]
  exact congrArg Res.ok (congrArg num h4.value.symm)

omit [DecidableEq V] in
theorem Following.cond (hv : c.Valid) (hfit : c.tsize = -1 ∨ c.tsize = n) {x : Fin n → ℝ}
    {ρ : Store XReal V} {u : (Fin n → ℝ) → V → ℝ} (h : Following c n x ρ u) (b : Cond ℝ V)
    (hi : b.Inside c.order (u x)) {r : Bool} (hr : r = true ↔ b.Holds (u x)) :
    (b.map num).run c n ρ = .ok r := by
  have key : ∀ (q : Bool) (op : DD.CmpOp) (s t : ℝ), (q = true ↔ op.rel s t) →
      op.scalar (num s) (num t) = q := by
    intro q op s t hq
    rw [Bool.eq_iff_iff, cmp_rel, hq]
  cases b with
  | cmp op e₁ e₂ =>
    obtain ⟨a, a1, a2, _⟩ := h.eval hv hfit e₁ hi.1.1 hi.1.2
    obtain ⟨b, b1, b2, _⟩ := h.eval hv hfit e₂ hi.2.1 hi.2.2
    simp only [Cond.map, Cond.run, a1, b1, Res.ok_bind, DD.cmp, a2, b2]
    exact congrArg _ (key r op _ _ hr)
  | cmpS op e s =>
    obtain ⟨a, a1, a2, _⟩ := h.eval hv hfit e hi.1 hi.2
    simp only [Cond.map, Cond.run, a1, Res.ok_bind, DD.cmpS, a2]
    exact congrArg _ (key r op _ _ hr)
  | sCmp op s e =>
    obtain ⟨a, a1, a2, _⟩ := h.eval hv hfit e hi.1 hi.2
    simp only [Cond.map, Cond.run, a1, Res.ok_bind, DD.sCmp, DD.cmpS, a2]
    refine congrArg _ (key r op.mirror _ _ ?_)
    rw [hr]
    cases op <;> simp [Cond.Holds, DD.CmpOp.mirror, DD.CmpOp.rel, eq_comm]

theorem Following.step (hv : c.Valid) (hfit : c.tsize = -1 ∨ c.tsize = n) {x : Fin n → ℝ}
    {ρ : Store XReal V} {u : (Fin n → ℝ) → V → ℝ} (h : Following c n x ρ u) (s : Stmt ℝ V)
    (hs : s.Ok c.order n (u x)) :
    ∃ ρ', (s.map num).run c n ρ = (.ok (), ρ') ∧ Following c n x ρ' fun y => s.den (u y) := by
  obtain ⟨J, hρ, hu⟩ := h
  obtain ⟨ρ', h1, J', h2, h3⟩ := step_jet hv hfit s (fun v y => u y v) x ρ J hρ hu hs
  exact ⟨ρ', h1, J', h2, h3⟩

/-- **C61, exact derivatives.**  Take a program with branches and loops and jets of functions at `x`.
If every executed statement is inside its domain at `x` and every executed comparison gives the same
result at all points near `x`, then the run on jets ends normally, the program on real numbers ends at
every point near `x`, and the jets are the value, gradient and Hessian, at `x`, of the functions the
program computes. -/
theorem C61_exact (hv : c.Valid) (hfit : c.tsize = -1 ∨ c.tsize = n)
    (p : Ctl (Stmt ℝ V) (Cond ℝ V)) (u u' : (Fin n → ℝ) → V → ℝ) (x : Fin n → ℝ)
    (ρ : Store XReal V) (J : V → Jet ℝ) (hρ : ∀ v, Shows c n (ρ v) (J v).lift)
    (hu : ∀ v, IsJet c.order n (fun y => u y v) x (J v)) (h : SteadyRun c.order n x p u u') :
    (∀ᶠ y in 𝓝 x, RealRun p (u y) (u' y)) ∧
    ∃ k ρ', (∀ m ≥ k, (p.map (Stmt.map num) (Cond.map num)).run (ddMachine XReal V c n) m ρ =
        some (.ok (), ρ')) ∧
      ∀ v, ∃ K : Jet ℝ, Shows c n (ρ' v) K.lift ∧ IsJet c.order n (fun y => u' y v) x K := by
  constructor
  · unfold RealRun
    refine Runs.eventually (fun F y => F y) (fun s F F' hs => ?_) (fun b F r hb => ?_) h
    · exact Filter.Eventually.of_forall fun y => congrFun hs.2 y
    · exact hb.2
  · obtain ⟨k, ρ', h1, J', h2, h3⟩ := Runs.machine
      (M := (⟨fun s => (ddMachine XReal V c n).step (s.map num),
        fun b => (ddMachine XReal V c n).test (b.map num)⟩ :
          Machine (Stmt ℝ V) (Cond ℝ V) (Store XReal V))) (R := Following c n x)
      (fun s F F' ρ hF hs => by
        obtain ⟨ρ', h1, h2⟩ := hF.step hv hfit s hs.1
        exact ⟨ρ', h1, hs.2 ▸ h2⟩)
      (fun b F r ρ hF hb => hF.cond hv hfit b hb.1 hb.2.self_of_nhds) h ⟨J, hρ, hu⟩
    refine ⟨k, ρ', fun m hm => ?_, fun v => ⟨J' v, h2 v, h3 v⟩⟩
    rw [Ctl.run_map]
    exact h1 m hm

theorem realRun_det {p : Ctl (Stmt ℝ V) (Cond ℝ V)} {σ σ' σ'' : V → ℝ} (h : RealRun p σ σ')
    (h' : RealRun p σ σ'') : σ' = σ'' :=
  Runs.det (fun s a a' a'' h h' => h.trans h'.symm)
    (fun b a r r' h h' => by rw [Bool.eq_iff_iff, h, h']) h h'

theorem rel_steady {X : Type} [TopologicalSpace X] {x : X} {f g : X → ℝ} (hf : ContinuousAt f x)
    (hg : ContinuousAt g x) (hne : f x ≠ g x) (op : DD.CmpOp) :
    ∀ᶠ y in 𝓝 x, (op.rel (f y) (g y) ↔ op.rel (f x) (g x)) := by
  rcases lt_or_gt_of_ne hne with h | h
  · filter_upwards [hf.eventually_lt hg h] with y hy
    cases op <;> simp [DD.CmpOp.rel, h.ne, hy.ne, h, hy, h.not_gt, hy.not_gt, h.le, hy.le, h.not_ge,
      hy.not_ge]
  · filter_upwards [hg.eventually_lt hf h] with y hy
    cases op <;> simp [DD.CmpOp.rel, h.ne', hy.ne', h, hy, h.not_gt, hy.not_gt, h.le, hy.le,
      h.not_ge, hy.not_ge]

/-- **C61, no ties.**  It is enough to look at the run at the point `x` itself: if every executed
statement is inside its domain and no executed comparison is between equal values, then every function
`U` the program computes near `x` has the resulting jets as value, gradient and Hessian, and the
program does compute one. -/
theorem C61_no_ties (hv : c.Valid) (hfit : c.tsize = -1 ∨ c.tsize = n)
    (p : Ctl (Stmt ℝ V) (Cond ℝ V)) (u : (Fin n → ℝ) → V → ℝ) (x : Fin n → ℝ) (σ' : V → ℝ)
    (ρ : Store XReal V) (J : V → Jet ℝ) (hρ : ∀ v, Shows c n (ρ v) (J v).lift)
    (hu : ∀ v, IsJet c.order n (fun y => u y v) x (J v)) (h : SafeRun c.order n p (u x) σ') :
    (∀ᶠ y in 𝓝 x, ∃ τ, RealRun p (u y) τ) ∧
    ∃ k ρ', (∀ m ≥ k, (p.map (Stmt.map num) (Cond.map num)).run (ddMachine XReal V c n) m ρ =
        some (.ok (), ρ')) ∧
      ∀ U : (Fin n → ℝ) → V → ℝ, (∀ᶠ y in 𝓝 x, RealRun p (u y) (U y)) →
        U x = σ' ∧
        ∀ v, ∃ K : Jet ℝ, Shows c n (ρ' v) K.lift ∧ IsJet c.order n (fun y => U y v) x K := by
  have hlift : ∃ u', SteadyRun c.order n x p u u' ∧
      (u' x = σ' ∧ ∃ ρ', Following c n x ρ' u') := by
    refine Runs.lift (R := fun a F => F x = a ∧ ∃ ρ', Following c n x ρ' F) ?_ ?_ h
      ⟨rfl, ρ, J, hρ, hu⟩
    · rintro s a a' F ⟨rfl, ρ₁, hF⟩ ⟨hs, rfl⟩
      obtain ⟨ρ₂, _, h2⟩ := hF.step hv hfit s hs
      exact ⟨_, ⟨hs, rfl⟩, rfl, ρ₂, h2⟩
    · rintro b a r F ⟨rfl, ρ₁, hF⟩ ⟨⟨hi, hne⟩, hr⟩
      refine ⟨hi, ?_⟩
      have key : ∀ᶠ y in 𝓝 x, (b.Holds (F y) ↔ b.Holds (F x)) := by
        cases b with
        | cmp op e₁ e₂ =>
          obtain ⟨_, _, _, h1⟩ := hF.eval hv hfit e₁ hi.1.1 hi.1.2
          obtain ⟨_, _, _, h2⟩ := hF.eval hv hfit e₂ hi.2.1 hi.2.2
          exact rel_steady h1 h2 hne op
        | cmpS op e s =>
          obtain ⟨_, _, _, h1⟩ := hF.eval hv hfit e hi.1 hi.2
          exact rel_steady h1 continuousAt_const hne op
        | sCmp op s e =>
          obtain ⟨_, _, _, h1⟩ := hF.eval hv hfit e hi.1 hi.2
          exact rel_steady continuousAt_const h1 (Ne.symm hne) op
      exact key.mono fun y hy => hr.trans hy.symm
  obtain ⟨u', hs, hx, _⟩ := hlift
  obtain ⟨h1, k, ρ', h2, h3⟩ := C61_exact hv hfit p u u' x ρ J hρ hu hs
  refine ⟨h1.mono fun y hy => ⟨_, hy⟩, k, ρ', h2, fun U hU => ?_⟩
  have heq : ∀ᶠ y in 𝓝 x, u' y = U y := (h1.and hU).mono fun y hy => realRun_det hy.1 hy.2
  refine ⟨heq.self_of_nhds.symm.trans hx, fun v => ?_⟩
  obtain ⟨K, k1, k2⟩ := h3 v
  exact ⟨K, k1, k2.congr_fun (heq.mono fun y hy => congrFun hy v)⟩

/-- **C61, ties.**  At a tie the jets follow the branch taken at the point, which need not be the one
taken near it: `if (a == 0) r = 0; else r = a;` computes the identity, whose derivative is 1, but
gives the gradient 0 at 0. -/
theorem C61_violated_tie : ∃ (p : Ctl (Stmt ℝ (Fin 2)) (Cond ℝ (Fin 2)))
    (ρ ρ' : Store XReal (Fin 2)),
    (∀ v, Shows exDyn2 1 (ρ v) (varJet 0 0).lift) ∧
    (∀ y : Fin 1 → ℝ, RealRun p (fun _ => y 0) (fun _ => y 0)) ∧
    IsJet 2 1 (fun y => y 0) (fun _ => 0) (varJet 0 0) ∧ (varJet 0 0).g 0 = 1 ∧
    (p.map (Stmt.map num) (Cond.map num)).run (ddMachine XReal (Fin 2) exDyn2 1) 0 ρ =
      some (.ok (), ρ') ∧ (ρ' 1).g exDyn2 0 = .ok (num 0) := by
  let p : Ctl (Stmt ℝ (Fin 2)) (Cond ℝ (Fin 2)) :=
    .ite (.atom (.cmpS .eq (.var 0) 0)) (.act (.assign 1 (.const 0))) (.act (.assign 1 (.var 0)))
  let ρ : Store XReal (Fin 2) := fun _ => obj exDyn2 1 (varC 0 (num 0))
  have hf : Fits exDyn2 1 := Or.inl rfl
  refine ⟨p, ρ, ρ.set 1 (obj exDyn2 1 (constC (num 0))),
    fun v => (good_var (by omega) _).shows exDyn2_valid.order hf, fun y => ?_, ?_, ?_, ?_, ?_⟩
  · by_cases hy : y 0 = 0
    · refine .iteT (.atom ?_) (.act ?_)
      · simp [Cond.Holds, Expr.den, DD.CmpOp.rel, hy]
      · funext v
        simp [Stmt.den, setVal, Expr.den, hy]
    · refine .iteF (.atom ?_) (.act ?_)
      · simp [Cond.Holds, Expr.den, DD.CmpOp.rel, hy]
      · funext v
        simp [Stmt.den, setVal, Expr.den]
  · exact isJet_var 2 (fun _ => 0) 0
  · simp [varJet]
  · have ht : (Cond.map num (.cmpS .eq (.var 0) 0) : Cond XReal (Fin 2)).run exDyn2 1 ρ = .ok true := by
      simp only [Cond.map, Expr.map, Cond.run, Expr.evalDD, Res.ok_bind, DD.cmpS, ρ, f_obj]
      refine congrArg _ ((cmp_rel .eq 0 0).2 rfl)
    have he : (Expr.map num (.const 0) : Expr XReal (Fin 2)).evalDD exDyn2 1 ρ =
        .ok (obj exDyn2 1 (constC (num 0))) := constant_obj hf _
    simp only [p, Ctl.map, Test.map, Ctl.run, Test.run, ddMachine, ht, Stmt.map, Stmt.run, he]
    rfl
  · rw [Store.set_eq]
    refine (g_obj hf _ (i := 0) (by omega)).trans ?_
    simp [constC]

/-! ## Examples -/

theorem xreal_eq_comm (x y : XReal) : x.eq y ↔ y.eq x := by
  cases x <;> cases y <;> simp [XReal.eq, eq_comm]

theorem xreal_cmp : CmpLaws XReal where
  eq x y := decide_eq_decide.2 (xreal_eq_comm x y)
  ne x y := decide_eq_decide.2 (not_congr (xreal_eq_comm x y))
  lt x y := rfl
  le x y := decide_eq_decide.2 (or_congr Iff.rfl (xreal_eq_comm x y))

/-- Newton's iteration for `√a`: `while (abs(x * x - a) > 0.1) x = (x + a / x) / 2;`. -/
noncomputable def exNewton : Ctl (Stmt ℝ (Fin 2)) (Cond ℝ (Fin 2)) :=
  .loop (.atom (.cmpS .gt (.abs (.bin .sub (.bin .mul (.var 1) (.var 1)) (.var 0))) (1 / 10)))
    (.act (.assign 1 (.sbin .divS (.bin .add (.var 1) (.bin .div (.var 0) (.var 1))) 2)))

/-- Two rounds from `x = 1`, `a = 2`: 1, 3/2, 17/12. -/
theorem exNewton_safe : SafeRun 2 2 exNewton ![2, 1] ![2, 17 / 12] := by
  have hd : ∀ t : ℝ, t ≠ 0 → (Stmt.assign 1 (.sbin .divS (.bin .add (.var 1)
      (.bin .div (.var 0) (.var 1))) 2) : Stmt ℝ (Fin 2)).den ![2, t] = ![2, (t + 2 / t) / 2] := by
    intro t _
    funext v
    fin_cases v <;> simp [Stmt.den, setVal, Expr.den, Bin.den, SBin.den]
  have hok : ∀ t : ℝ, t ≠ 0 → (Stmt.assign 1 (.sbin .divS (.bin .add (.var 1)
      (.bin .div (.var 0) (.var 1))) 2) : Stmt ℝ (Fin 2)).Ok 2 2 ![2, t] := by
    intro t ht
    simp [Stmt.Ok, Expr.Dom, Expr.Regular, Expr.den, Bin.dom, Bin.reg, SBin.dom, ht]
  refine .loopT (a' := ![2, 3 / 2]) (.atom ?_) (.act ⟨hok 1 (by norm_num), ?_⟩)
    (.loopT (a' := ![2, 17 / 12]) (.atom ?_) (.act ⟨hok _ (by norm_num), ?_⟩) (.loopF (.atom ?_)))
  · simp [Cond.Sure, Cond.Inside, Cond.Holds, DD.CmpOp.rel, Expr.Dom, Expr.Regular, Expr.den,
      Bin.dom, Bin.reg, Bin.den]
    norm_num
  · rw [hd 1 (by norm_num)]; norm_num
  · simp [Cond.Sure, Cond.Inside, Cond.Holds, DD.CmpOp.rel, Expr.Dom, Expr.Regular, Expr.den,
      Bin.dom, Bin.reg, Bin.den]
    norm_num [abs_of_pos]
  · rw [hd _ (by norm_num)]; norm_num
  · simp [Cond.Sure, Cond.Inside, Cond.Holds, DD.CmpOp.rel, Expr.Dom, Expr.Regular, Expr.den,
      Bin.dom, Bin.reg, Bin.den]
    norm_num [abs_of_pos]

/-- Jets of `a` and of the start value `x`: whatever function Newton's iteration computes near
`(2, 1)`, its value there is 17/12 and the resulting jet has its derivatives. -/
example (U : (Fin 2 → ℝ) → Fin 2 → ℝ)
    (hU : ∀ᶠ y in 𝓝 ![2, 1], RealRun exNewton (fun v => y v) (U y)) :
    ∃ k ρ', (∀ m ≥ k, (exNewton.map (Stmt.map num) (Cond.map num)).run
        (ddMachine XReal (Fin 2) exDyn2 2) m
        (fun i => obj exDyn2 2 (varC i (num ((![2, 1] : Fin 2 → ℝ) i)))) = some (.ok (), ρ')) ∧
      (ρ' 1).f = .ok (num (17 / 12)) ∧
      ∃ K : Jet ℝ, Shows exDyn2 2 (ρ' 1) K.lift ∧ IsJet 2 2 (fun y => U y 1) ![2, 1] K := by
  obtain ⟨_, k, ρ', h1, h2⟩ := C61_no_ties exDyn2_valid (Or.inl rfl) exNewton (fun y v => y v)
    ![2, 1] ![2, 17 / 12] _ (fun i => varJet i ((![2, 1] : Fin 2 → ℝ) i))
    (fun i => (good_var i.2 _).shows exDyn2_valid.order (Or.inl rfl)) (fun i => isJet_var _ _ i)
    exNewton_safe
  obtain ⟨hx, h3⟩ := h2 U hU
  obtain ⟨K, k1, k2⟩ := h3 1
  refine ⟨k, ρ', h1, ?_, K, k1, k2⟩
  rw [k1.f]
  refine congrArg Res.ok (congrArg num ?_)
  rw [← k2.value, hx]
  simp

/-- Newton's iteration on jets and on plain scalars. -/
example (k : Nat) (ρ : Store XReal (Fin 2)) (σ : Fin 2 → XReal) (hρ : ∀ v, WF exDyn2 2 (ρ v))
    (hσ : ∀ v, (ρ v).f = .ok (σ v)) :
    ((exNewton.map (Stmt.map num) (Cond.map num)).run (ddMachine XReal (Fin 2) exDyn2 2) k ρ = none ∧
      (exNewton.map (Stmt.map num) (Cond.map num)).run (plainMachine XReal (Fin 2)) k σ = none) ∨
    ∃ ρ' σ', (exNewton.map (Stmt.map num) (Cond.map num)).run (ddMachine XReal (Fin 2) exDyn2 2) k ρ =
        some (.ok (), ρ') ∧
      (exNewton.map (Stmt.map num) (Cond.map num)).run (plainMachine XReal (Fin 2)) k σ =
        some (.ok (), σ') ∧ ∀ v, WF exDyn2 2 (ρ' v) ∧ (ρ' v).f = .ok (σ' v) :=
  C61_path xreal_comm xreal_cmp exDyn2_valid (Or.inl rfl) _
    (show Ctl.All (Stmt.Plain exDyn2 2) (exNewton.map (Stmt.map num) (Cond.map num)) from trivial)
    ρ σ hρ hσ k

theorem isJet_const (o : Nat) {n : Nat} (s : ℝ) (x : Fin n → ℝ) :
    IsJet o n (fun _ => s) x ⟨s, fun _ => 0, fun _ _ => 0⟩ := by
  refine isJet_mk (fun _ _ => 0) rfl (Filter.Eventually.of_forall fun y => ?_) (fun _ _ => rfl) ?_
  · exact HasFDerivAt.toLin (hasFDerivAt_const s y) (fun i => by simp)
  · exact fun _ i => HasFDerivAt.toLin (hasFDerivAt_const (0 : ℝ) x) (fun i => by simp)

/-- `while (i < 2) { r *= a; i += 1; }` with a counter `i` that is itself a jet (names: `a` 0, `r` 1,
`i` 2).  The last comparison is a tie, but one that is there at all points. -/
noncomputable def exPower : Ctl (Stmt ℝ (Fin 3)) (Cond ℝ (Fin 3)) :=
  .loop (.atom (.cmpS .lt (.var 2) 2))
    (.seq (.act (.upd .mul 1 (.var 0))) (.act (.updS .add 2 (.val 1))))

theorem exPower_steady (x : Fin 1 → ℝ) :
    SteadyRun 2 1 x exPower (fun y => ![y 0, 1, 0]) (fun y => ![y 0, 1 * y 0 * y 0, 2]) := by
  have hbody : ∀ (r : (Fin 1 → ℝ) → ℝ) (i j : ℝ), j = i + 1 → Runs
      (fun (s : Stmt ℝ (Fin 3)) (u u' : (Fin 1 → ℝ) → Fin 3 → ℝ) => s.Ok 2 1 (u x) ∧
        u' = fun y => s.den (u y))
      (fun (b : Cond ℝ (Fin 3)) u q => b.Inside 2 (u x) ∧ ∀ᶠ y in 𝓝 x, (q = true ↔ b.Holds (u y)))
      (.seq (.act (.upd .mul 1 (.var 0))) (.act (.updS .add 2 (.val 1))))
      (fun y => ![y 0, r y, i]) (fun y => ![y 0, r y * y 0, j]) := by
    rintro r i j rfl
    refine .seq (a' := fun y => ![y 0, r y * y 0, i]) (.act ⟨?_, ?_⟩) (.act ⟨?_, ?_⟩)
    · simp [Stmt.Ok, Expr.Dom, Expr.Regular]
    · funext y v
      fin_cases v <;> simp [Stmt.den, setVal, Expr.den, AOp.den]
    · simp [Stmt.Ok]
    · funext y v
      fin_cases v <;> simp [Stmt.den, setVal, AOp.den]
  refine .loopT (.atom ⟨?_, ?_⟩) (hbody (fun _ => 1) 0 1 (by norm_num))
    (.loopT (.atom ⟨?_, ?_⟩) (hbody (fun y => 1 * y 0) 1 2 (by norm_num)) (.loopF (.atom ⟨?_, ?_⟩)))
  all_goals simp [Cond.Inside, Cond.Holds, Expr.Dom, Expr.Regular, Expr.den, DD.CmpOp.rel]

example (x : ℝ) : ∃ k ρ', (∀ m ≥ k, (exPower.map (Stmt.map num) (Cond.map num)).run
      (ddMachine XReal (Fin 3) exDyn2 1) m ![obj exDyn2 1 (varC 0 (num x)),
        obj exDyn2 1 (constC (num 1)), obj exDyn2 1 (constC (num 0))] = some (.ok (), ρ')) ∧
      ∃ K : Jet ℝ, Shows exDyn2 1 (ρ' 1) K.lift ∧
        IsJet 2 1 (fun y => 1 * y 0 * y 0) (fun _ => x) K := by
  have hf : Fits exDyn2 1 := Or.inl rfl
  obtain ⟨_, k, ρ', h1, h2⟩ := C61_exact exDyn2_valid hf exPower _ _ (fun _ => x)
    ![obj exDyn2 1 (varC 0 (num x)), obj exDyn2 1 (constC (num 1)), obj exDyn2 1 (constC (num 0))]
    ![varJet 0 x, ⟨1, fun _ => 0, fun _ _ => 0⟩, ⟨0, fun _ => 0, fun _ _ => 0⟩]
    (by
      intro v
      fin_cases v
      · exact (good_var (by omega) _).shows exDyn2_valid.order hf
      · exact (good_const _).shows exDyn2_valid.order hf
      · exact (good_const _).shows exDyn2_valid.order hf)
    (by
      intro v
      fin_cases v
      · exact isJet_var _ _ 0
      · exact isJet_const _ _ _
      · exact isJet_const _ _ _)
    (exPower_steady _)
  obtain ⟨K, k1, k2⟩ := h2 1
  exact ⟨k, ρ', h1, K, k1, k2⟩

end exact

end HJ
