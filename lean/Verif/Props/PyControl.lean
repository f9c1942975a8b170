import Verif.Spec.PyControl
import Verif.Props.Control
import Verif.Props.PyExact
import Verif.Props.PySparse

/-!
# C62: Python programs with shared objects, branches and loops
-/

open scoped Topology

namespace HJ

open XReal (num)

variable {V W : Type} {c : Cfg} {n : Nat} {x : Fin n → ℝ}

/-! ## Straight-line programs -/

section states

variable {st : PySt XReal V W} {σ : MathSt n V}

theorem PySt.IsAt.val (h : st.IsAt c n x σ) (v : V) : (st.val v).IsAt c n x (σ.val v) := by
  rcases h.env v with ⟨r, h1, h2⟩ | ⟨a, ha, h1, h2⟩
  · simp only [PySt.val, MathSt.val, h1, h2]; rfl
  · simp only [PySt.val, MathSt.val, h1, h2]; exact h.obj a ha

theorem PySt.IsAt.write (h : st.IsAt c n x σ) (a : Nat) {r : DD XReal} {F : (Fin n → ℝ) → ℝ}
    (hr : JetAt c n r F x) : (st.write a r).IsAt c n x (σ.write a F) := by
  refine ⟨h.next, h.env, fun b hb => ?_⟩
  simp only [PySt.write, MathSt.write]
  by_cases hab : b = a
  · simp only [hab, if_true]; exact hr
  · simp only [hab, if_false]; exact h.obj b hb

theorem PySt.IsAt.ref (h : st.IsAt c n x σ) {t : V} {a : Nat} (ht : σ.env t = .ref a) :
    st.env t = .ref a ∧ JetAt c n (st.heap a) (σ.mean a) x := by
  rcases h.env t with ⟨r, _, h2⟩ | ⟨b, hb, h1, h2⟩
  · rw [ht] at h2; cases h2
  · rw [ht] at h2; cases h2; exact ⟨h1, h.obj a hb⟩

variable [DecidableEq V]

theorem PySt.IsAt.fresh (h : st.IsAt c n x σ) (t : V) {r : PVal XReal} {m : PMath n}
    (hr : r.IsAt c n x m) : (st.fresh t r).IsAt c n x (σ.fresh t m) := by
  cases m with
  | num s =>
    obtain rfl := hr.num_inv
    refine ⟨h.next, fun v => ?_, h.obj⟩
    by_cases hv : v = t
    · exact Or.inl ⟨s, by simp [PySt.fresh, PySt.bind, hv], by simp [MathSt.fresh, MathSt.bind, hv]⟩
    · simpa [PySt.fresh, PySt.bind, MathSt.fresh, MathSt.bind, hv] using h.env v
  | fn F =>
    obtain ⟨y, rfl, hy⟩ := hr.fn_inv
    have hn := h.next
    refine ⟨by simp [PySt.fresh, MathSt.fresh, hn], fun v => ?_, fun a ha => ?_⟩
    · by_cases hv : v = t
      · exact Or.inr ⟨σ.next, by simp [MathSt.fresh],
          by simp [PySt.fresh, PySt.bind, hv, hn], by simp [MathSt.fresh, MathSt.bind, hv]⟩
      · rcases h.env v with ⟨r, h1, h2⟩ | ⟨a, ha, h1, h2⟩
        · exact Or.inl ⟨r, by simp [PySt.fresh, PySt.bind, PySt.write, hv, h1],
            by simp [MathSt.fresh, MathSt.bind, MathSt.write, hv, h2]⟩
        · exact Or.inr ⟨a, by simp only [MathSt.fresh]; omega,
            by simp [PySt.fresh, PySt.bind, PySt.write, hv, h1],
            by simp [MathSt.fresh, MathSt.bind, MathSt.write, hv, h2]⟩
    · simp only [PySt.fresh, PySt.bind, PySt.write, MathSt.fresh, MathSt.bind, MathSt.write, hn]
        at ha ⊢
      by_cases hb : a = σ.next
      · simp only [hb, if_true]; exact hy
      · simp only [hb, if_false]; exact h.obj a (by omega)

end states

theorem asg_den (o : POp) (s t : ℝ) : o.asg.den s t = o.den s t := by cases o <;> rfl

theorem PyE.Den.name_inv {order : Nat} {σ : V → PMath n} {s : V} {m : PMath n}
    (h : (PyE.name s : PyE ℝ V).Den order x σ m) : m = σ s := by
  cases h; rfl

/-- An in-place operator with a number. -/
theorem asg_scale (hv : c.Valid) (hfit : c.tsize = -1 ∨ c.tsize = n) (o : POp) {d : DD XReal}
    {F : (Fin n → ℝ) → ℝ} (hd : JetAt c n d F x) (s : ℝ) (h0 : o = .div → s ≠ 0) :
    ∃ r, o.asg.runS d (.val (num s)) = (.ok (), r) ∧ JetAt c n r (fun y => o.den (F y) s) x := by
  obtain ⟨K, h1, h2⟩ := hd
  obtain ⟨ρ', h3, J', h4, h5⟩ := step_jet hv hfit (V := Unit) (.updS o.asg () (.val s)) (fun _ => F) x
    (fun _ => d) (fun _ => K) (fun _ => h1) (fun _ => h2)
    (fun ho => h0 (by cases o <;> simp_all [POp.asg]))
  refine ⟨ρ' (), ?_, J' (), h4 (), ?_⟩
  · simp only [Stmt.map, Stmt.run, Store.change, Prod.mk.injEq] at h3
    rw [← h3.2, Store.set_eq, ← h3.1]
  · have := h5 ()
    simp only [Stmt.den, setVal, if_true, asg_den] at this
    exact this

/-- Setting the value. -/
theorem setF_exact (hv : c.Valid) {d : DD XReal} {F : (Fin n → ℝ) → ℝ} (hd : JetAt c n d F x)
    (s : ℝ) : ∃ r, d.setF (num s) = .ok r ∧ JetAt c n r (fun y => F y + (s - F x)) x := by
  obtain ⟨K, h1, h2⟩ := hd
  obtain ⟨⟨r, h3, h4⟩, _⟩ := C03_framed_writes hv h1 (num s)
  refine ⟨r, h3, ⟨s, K.g, K.h⟩, h4, ?_⟩
  have := h2.shift (s - F x)
  rwa [← h2.value, add_sub_cancel] at this

variable [DecidableEq V] [DecidableEq W]

/-- One statement. -/
theorem means_exact (hv : c.Valid) (hfit : c.tsize = -1 ∨ c.tsize = n) {st : PySt XReal V W}
    {σ σ' : MathSt n V} (h : st.IsAt c n x σ) {s : PyStmt ℝ V W} (hs : s.Means c.order x σ σ') :
    ∃ st', (s.map num).run c n st = (.ok (), st') ∧ st'.IsAt c n x σ' := by
  cases hs with
  | share t s =>
    refine ⟨_, rfl, h.next, fun v => ?_, h.obj⟩
    by_cases hv : v = t
    · simpa [PySt.bind, MathSt.bind, hv] using h.env s
    · simpa [PySt.bind, MathSt.bind, hv] using h.env v
  | assign he hn =>
    rename_i t e m
    obtain ⟨r, h1, h2⟩ := C54_expressions hv hfit x _ _ h.val e m he
    refine ⟨st.fresh t r, ?_, h.fresh t h2⟩
    cases e with
    | name s => exact absurd rfl (hn s)
    | _ =>
      simp only [PyE.map] at h1
      simp only [PyStmt.map, PyE.map, PyStmt.run, h1, PySt.store]
  | updFn ht he hd hs =>
    rename_i o t e a G
    obtain ⟨r, h1, h2⟩ := C54_expressions hv hfit x _ _ h.val e _ he
    obtain ⟨y, rfl, hy⟩ := h2.fn_inv
    obtain ⟨h3, h4⟩ := h.ref ht
    have hom : o.asg = .mul → o = .mul := by cases o <;> simp [POp.asg]
    have hod : o.asg = .div → o = .div := by cases o <;> simp [POp.asg]
    have hop : st.operand a (e.map num) y = .obj y ∨
        (st.operand a (e.map num) y = .self ∧ y = st.heap a ∧ e.Names σ a) := by
      cases e with
      | name s =>
        simp only [PyE.map, PySt.operand]
        rcases h.env s with ⟨r, h8, h9⟩ | ⟨b, hb, h8, h9⟩
        · simp only [h8]; exact Or.inl trivial
        · by_cases hba : b = a
          · subst hba
            right
            simp only [h8, if_true]
            refine ⟨trivial, ?_, s, rfl, h9⟩
            simp only [PyE.map, PyE.eval, PySt.val, h8] at h1
            cases h1; rfl
          · simp only [h8, hba, if_false]; exact Or.inl trivial
      | _ => exact Or.inl rfl
    obtain ⟨r, h6, h7⟩ := asg_exact hv o.asg (fun ho h2 => (hs (hom ho) h2).1) h4 hy
      (fun ho => hd (hod ho)) (st.operand a (e.map num) y)
      (hop.imp id fun hh => ⟨hh.1, hh.2.1, fun hm => (hs (hom hm.1) hm.2).2 hh.2.2⟩)
    refine ⟨st.write a r, ?_, h.write a ?_⟩
    · simp only [PyStmt.map, PyStmt.run, h1, h3, h6, PySt.change]
    · simpa only [asg_den] using h7
  | updScale ht he hop hd =>
    rename_i o t e a s
    obtain ⟨r, h1, h2⟩ := C54_expressions hv hfit x _ _ h.val e _ he
    obtain rfl := h2.num_inv
    obtain ⟨h3, h4⟩ := h.ref ht
    obtain ⟨r, h5, h6⟩ := asg_scale hv hfit o h4 s hd
    refine ⟨st.write a r, ?_, h.write a h6⟩
    rcases hop with rfl | rfl <;>
      simp only [POp.asg] at h5 <;>
      simp only [PyStmt.map, PyStmt.run, h1, h3, h5, PySt.change]
  | updShift ht he hop =>
    rename_i o t e a s
    obtain ⟨r, h1, h2⟩ := C54_expressions hv hfit x _ _ h.val e _ he
    obtain rfl := h2.num_inv
    obtain ⟨h3, h4⟩ := h.ref ht
    obtain ⟨r, h5, h6⟩ := C54_expressions hv hfit x
      (fun b : Bool => if b then (.fn (σ.mean a) : PMath n) else .num s)
      (fun b => if b then .jet (st.heap a) else .num (num s))
      (fun b => by cases b; exacts [rfl, h4]) (.op o (.name true) (.name false))
      (.fn fun y => o.den (σ.mean a y) s)
      (.opRight (.name true) (.name false) (by rcases hop with rfl | rfl <;> simp))
    simp only [PyE.map, PyE.eval, Res.ok_bind, if_true, Bool.false_eq_true, if_false] at h5
    refine ⟨st.fresh t r, ?_, h.fresh t h6⟩
    rcases hop with rfl | rfl <;>
      simp only [PyStmt.map, PyStmt.run, h1, h3, h5, PySt.store]
  | updNum ht he =>
    rename_i o t e r m
    have h3 : st.env t = .num (num r) := by
      rcases h.env t with ⟨r', h1, h2⟩ | ⟨b, hb, h1, h2⟩
      · rw [ht] at h2; cases h2; exact h1
      · rw [ht] at h2; cases h2
    obtain ⟨q, h4, h5⟩ := C54_expressions hv hfit x _ _ h.val _ m he
    refine ⟨st.fresh t q, ?_, h.fresh t h5⟩
    simp only [PyE.map, PyE.eval, Res.ok_bind] at h4
    cases hy : (e.map num).eval c n st.val with
    | ok y =>
      rw [hy, Res.ok_bind] at h4
      simp only [PyStmt.map, PyStmt.run, hy, h3, h4, PySt.store]
    | throw => rw [hy] at h4; cases h4
    | abort => rw [hy] at h4; cases h4
    | ub => rw [hy] at h4; cases h4
  | setF ht =>
    rename_i t s a
    obtain ⟨h3, h4⟩ := h.ref ht
    obtain ⟨r, h5, h6⟩ := setF_exact hv h4 s
    refine ⟨st.write a r, ?_, h.write a h6⟩
    simp only [PyStmt.map, PyStmt.run, h3, h5, PySt.putAt]

/-! ## The program on numbers -/

/-- The number at the point `y`. -/
def PMath.at (m : PMath n) (y : Fin n → ℝ) : ℝ :=
  match m with
  | .num r => r
  | .fn F => F y

/-- A number. -/
def PMath.isNum : PMath n → Bool
  | .num _ => true
  | .fn _ => false

section numbers

omit [DecidableEq V] [DecidableEq W]

variable {order : Nat} {σ : MathSt n V} {e : PyE ℝ V} {m : PMath n}

theorem MathSt.read_at (σ : MathSt n V) (y : Fin n → ℝ) (v : V) :
    (σ.at y).read v = (σ.val v).at y := by
  simp only [PtSt.read, MathSt.at, MathSt.val]
  cases σ.env v <;> rfl

theorem PyE.Den.isNum (h : e.Den order x σ.val m) : e.isNum σ.env = m.isNum := by
  induction h with
  | name v =>
    simp only [PyE.isNum, MathSt.val]
    cases σ.env v <;> rfl
  | negNum _ ih => exact ih
  | neg _ ih => exact ih
  | absNum _ ih => exact ih
  | abs _ _ ih => exact ih
  | opNums _ _ _ ih₁ ih₂ => simp only [PyE.isNum, ih₁, ih₂, PMath.isNum, Bool.and_self]
  | opFns _ _ _ ih₁ ih₂ => simp only [PyE.isNum, ih₁, ih₂, PMath.isNum, Bool.and_self]
  | opRight _ _ _ ih₁ ih₂ => simp only [PyE.isNum, ih₁, ih₂, PMath.isNum, Bool.and_true]
  | opLeft _ _ _ ih₁ ih₂ => simp only [PyE.isNum, ih₁, ih₂, PMath.isNum, Bool.and_false]
  | _ => rfl

theorem real_vari (x y : Fin n → ℝ) (ρ : V → ℝ) (i : Fin n) (s : ℝ) :
    (PyE.vari i s : PyE ℝ V).real x y ρ = s + (y i - x i) := by
  have h : 0 ≤ ((i : Nat) : Int) ∧ ((i : Nat) : Int) < n := ⟨by omega, by have := i.2; omega⟩
  simp only [PyE.real, h, and_self, dif_pos, Int.toNat_natCast]

/-- At the point `y`, an expression that has a meaning gives the value of its meaning. -/
theorem PyE.Den.real (h : e.Den order x σ.val m) (y : Fin n → ℝ) (hy : e.NoGetF ∨ y = x) :
    e.real x y (σ.at y).read = m.at y := by
  induction h with
  | name v => exact σ.read_at y v
  | lit s => rfl
  | const s => rfl
  | vari i s => exact real_vari x y _ i s
  | negNum _ ih => simp only [PyE.real, PMath.at, ih hy]
  | neg _ ih => simp only [PyE.real, PMath.at, ih hy]
  | absNum _ ih => simp only [PyE.real, PMath.at, ih hy]
  | abs _ _ ih => simp only [PyE.real, PMath.at, ih hy]
  | fn _ _ ih => simp only [PyE.real, PMath.at, ih hy]
  | opNums _ _ _ ih₁ ih₂ =>
    simp only [PyE.real, PMath.at, ih₁ (hy.imp_left And.left), ih₂ (hy.imp_left And.right)]
  | opFns _ _ _ ih₁ ih₂ =>
    simp only [PyE.real, PMath.at, ih₁ (hy.imp_left And.left), ih₂ (hy.imp_left And.right)]
  | opRight _ _ _ ih₁ ih₂ =>
    simp only [PyE.real, PMath.at, ih₁ (hy.imp_left And.left), ih₂ (hy.imp_left And.right)]
  | opLeft _ _ _ ih₁ ih₂ =>
    simp only [PyE.real, PMath.at, ih₁ (hy.imp_left And.left), ih₂ (hy.imp_left And.right)]
  | atan2 _ _ _ ih₁ ih₂ =>
    simp only [PyE.real, PMath.at, ih₁ (hy.imp_left And.left), ih₂ (hy.imp_left And.right)]
  | hypot _ _ _ ih₁ ih₂ =>
    simp only [PyE.real, PMath.at, ih₁ (hy.imp_left And.left), ih₂ (hy.imp_left And.right)]
  | hypot3 _ _ _ _ ih₁ ih₂ ih₃ =>
    simp only [PyE.real, PMath.at, ih₁ (hy.imp_left And.left), ih₂ (hy.imp_left fun h => h.2.1),
      ih₃ (hy.imp_left fun h => h.2.2)]
  | getF _ ih =>
    rcases hy with hy | rfl
    · exact hy.elim
    · exact ih (Or.inr rfl)

/-- A formula is continuous inside its domain. -/
theorem den_continuous (hv : c.Valid) {k : Nat} (e : Expr ℝ (Fin k)) (u : Fin k → ℝ)
    (hD : e.Dom c.order u) (hR : e.Regular u) : ContinuousAt (fun w : Fin k → ℝ => e.den w) u := by
  let c' : Cfg := { c with tsize := -1 }
  have hv' : c'.Valid := ⟨hv.1, Or.inl rfl, hv.3⟩
  obtain ⟨r, _, h2⟩ := C18_chain_rule hv' (Or.inl rfl) e (fun i y => y i) u
    (fun i => obj c' k (varC i (num (u i)))) (fun i => varJet i (u i))
    (fun i => (good_var i.2 _).shows hv'.order (Or.inl rfl)) (fun i => isJet_var _ u i) hR
  obtain ⟨K, _, h4⟩ := h2 (Or.inl hD)
  exact h4.grad.continuousAt

theorem op_continuous {X : Type} [TopologicalSpace X] {z : X} {f g : X → ℝ} (o : POp)
    (hf : ContinuousAt f z) (hg : ContinuousAt g z) (hd : o = .div → g z ≠ 0) :
    ContinuousAt (fun y => o.den (f y) (g y)) z := by
  cases o with
  | add => exact hf.add hg
  | sub => exact hf.sub hg
  | mul => exact hf.mul hg
  | div => exact hf.div₀ hg (hd rfl)

/-- Formulas of continuous functions are continuous. -/
theorem comp_continuous (hv : c.Valid) {X : Type} [TopologicalSpace X] {z : X} {k : Nat}
    (e : Expr ℝ (Fin k)) (f : Fin k → X → ℝ) (hf : ∀ i, ContinuousAt (f i) z)
    (hD : e.Dom c.order fun i => f i z) (hR : e.Regular fun i => f i z) :
    ContinuousAt (fun y => e.den fun i => f i y) z :=
  ContinuousAt.comp (f := fun y i => f i y) (g := fun w => e.den w) (den_continuous hv e _ hD hR)
    (continuousAt_pi.2 hf)

/-- The number an expression gives is a continuous function of the point. -/
theorem PyE.Den.continuous (hv : c.Valid) (h : e.Den c.order x σ.val m)
    (hσ : ∀ v, ContinuousAt (fun y => (σ.at y).read v) x) :
    ContinuousAt (fun y => e.real x y (σ.at y).read) x := by
  induction h with
  | name v => exact hσ v
  | lit s => exact continuousAt_const
  | const s => exact continuousAt_const
  | vari i s =>
    simp only [real_vari]
    exact continuousAt_const.add ((continuous_apply i).continuousAt.sub continuousAt_const)
  | negNum _ ih => exact ih.neg
  | neg _ ih => exact ih.neg
  | absNum _ ih => exact ih.abs
  | abs _ _ ih => exact ih.abs
  | fn h hd ih =>
    rename_i φ e F
    refine comp_continuous hv (.fn φ (.var 0)) ![_] (fun i => ?_) ⟨trivial, ?_⟩ trivial
    · fin_cases i; exact ih
    · change φ.dom _ (e.real x x _)
      rw [h.real x (Or.inr rfl)]; exact hd
  | opNums h₁ h₂ hd ih₁ ih₂ =>
    exact op_continuous _ ih₁ ih₂ fun ho => by rw [h₂.real x (Or.inr rfl)]; exact hd ho
  | opFns h₁ h₂ hd ih₁ ih₂ =>
    exact op_continuous _ ih₁ ih₂ fun ho => by rw [h₂.real x (Or.inr rfl)]; exact hd ho
  | opRight h₁ h₂ hd ih₁ ih₂ =>
    exact op_continuous _ ih₁ ih₂ fun ho => by rw [h₂.real x (Or.inr rfl)]; exact hd ho
  | opLeft h₁ h₂ hd ih₁ ih₂ =>
    exact op_continuous _ ih₁ ih₂ fun ho => by rw [h₂.real x (Or.inr rfl)]; exact hd ho
  | atan2 h₁ h₂ hd ih₁ ih₂ =>
    rename_i e₁ e₂ F G
    have k1 : e₁.real x x (σ.at x).read = F x := h₁.real x (Or.inr rfl)
    have k2 : e₂.real x x (σ.at x).read = G x := h₂.real x (Or.inr rfl)
    refine comp_continuous hv (.bin .atan2 (.var 0) (.var 1))
      ![fun y => e₁.real x y (σ.at y).read, fun y => e₂.real x y (σ.at y).read] (fun i => ?_)
      ⟨trivial, trivial, ?_⟩ ⟨trivial, trivial, ?_⟩
    · fin_cases i; exacts [ih₁, ih₂]
    · change ¬ (e₁.real x x (σ.at x).read = 0 ∧ e₂.real x x (σ.at x).read = 0)
      rw [k1, k2]
      rintro ⟨h5, h6⟩
      rcases hd with h | h
      · exact h h5
      · rw [h6] at h; exact lt_irrefl _ h
    · change e₁.real x x (σ.at x).read ≠ 0 ∨ 0 < e₂.real x x (σ.at x).read
      rw [k1, k2]; exact hd
  | hypot _ _ _ ih₁ ih₂ => exact ((ih₁.pow 2).add (ih₂.pow 2)).sqrt
  | hypot3 _ _ _ _ ih₁ ih₂ ih₃ => exact (((ih₁.pow 2).add (ih₂.pow 2)).add (ih₃.pow 2)).sqrt
  | getF _ ih => exact ih

/-- On numbers, a statement does what its meaning says. -/
theorem PyStmt.Means.real [DecidableEq V] {s : PyStmt ℝ V W} {σ' : MathSt n V} (hs : s.Smooth)
    (h : s.Means order x σ σ') (y : Fin n → ℝ) : σ'.at y = s.real x y (σ.at y) := by
  have hput : ∀ (t : V) (m : PMath n), (σ.fresh t m).at y = (σ.at y).put t m.isNum (m.at y) := by
    intro t m
    cases m with
    | num r => rfl
    | fn F =>
      simp only [MathSt.fresh, MathSt.at, MathSt.bind, MathSt.write, PMath.isNum, PMath.at, PtSt.put,
        PtSt.make, PtSt.bind, PtSt.write, Bool.false_eq_true, if_false, PtSt.mk.injEq, true_and,
        and_true]
      funext a
      by_cases ha : a = σ.next <;> simp only [ha, if_true, if_false]
  have hwrite : ∀ (a : Nat) (F : (Fin n → ℝ) → ℝ),
      (σ.write a F).at y = (σ.at y).write a (F y) := by
    intro a F
    simp only [MathSt.at, MathSt.write, PtSt.write, PtSt.mk.injEq, true_and, and_true]
    funext b
    by_cases hb : b = a <;> simp only [hb, if_true, if_false]
  cases h with
  | share t s => rfl
  | assign he hn =>
    rename_i t e m
    rw [hput, ← he.isNum, ← he.real y (Or.inl hs)]
    cases e with
    | name s => exact absurd rfl (hn s)
    | _ => rfl
  | updFn ht he hd hm =>
    rename_i o t e a G
    have h1 : (σ.at y).env t = .ref a := ht
    have h2 : e.isNum (σ.at y).env = false := he.isNum
    simp only [PyStmt.real, h1, h2, Bool.false_eq_true, false_and, if_false, hwrite,
      he.real y (Or.inl hs)]
    rfl
  | updScale ht he ho hd =>
    rename_i o t e a r
    have h1 : (σ.at y).env t = .ref a := ht
    have h3 : ¬ (o = .add ∨ o = .sub) := by rcases ho with rfl | rfl <;> simp
    simp only [PyStmt.real, h1, h3, and_false, if_false, hwrite, he.real y (Or.inl hs)]
    rfl
  | updShift ht he ho =>
    rename_i o t e a r
    have h1 : (σ.at y).env t = .ref a := ht
    have h2 : e.isNum (σ.at y).env = true := he.isNum
    simp only [PyStmt.real, h1, h2, ho, and_self, if_true, hput, he.real y (Or.inl hs)]
    rfl
  | updNum ht he =>
    rename_i o t e r m
    have h1 : (σ.at y).env t = .num r := ht
    have h2 := he.isNum
    simp only [PyE.isNum, Bool.true_and] at h2
    have h3 := he.real y (Or.inl ⟨trivial, hs⟩)
    simp only [PyE.real] at h3
    rw [hput, ← h2, ← h3]
    simp only [PyStmt.real, h1]
    rfl
  | setF ht => exact hs.elim

end numbers

/-! ## Comparisons -/

section comparisons

omit [DecidableEq V] [DecidableEq W]

theorem PVal.IsAt.cmp {v w : PVal XReal} {m k : PMath n} (h : v.IsAt c n x m) (h' : w.IsAt c n x k)
    (o : DD.CmpOp) {r : Bool} (hr : r = true ↔ o.rel (m.at x) (k.at x)) :
    PVal.cmp o v w = .ok r := by
  have key : ∀ (q : Bool) (op : DD.CmpOp) (s t : ℝ), (q = true ↔ op.rel s t) →
      op.scalar (XReal.num s) (XReal.num t) = q := by
    intro q op s t hq
    rw [Bool.eq_iff_iff, cmp_rel, hq]
  have jetF : ∀ {d : DD XReal} {F : (Fin n → ℝ) → ℝ}, (PVal.jet d).IsAt c n x (.fn F) →
      d.f = .ok (XReal.num (F x)) := by
    rintro d F ⟨K, h1, h2⟩
    rw [h1.f]
    exact congrArg Res.ok (congrArg XReal.num h2.value.symm)
  cases m with
  | num s =>
    obtain rfl := h.num_inv
    cases k with
    | num t =>
      obtain rfl := h'.num_inv
      exact congrArg Res.ok (key r o _ _ hr)
    | fn G =>
      obtain ⟨d, rfl, hd⟩ := h'.fn_inv
      simp only [PVal.cmp, DD.cmpS, jetF hd, Res.ok_bind]
      refine congrArg Res.ok (key r o.mirror _ _ ?_)
      rw [hr]
      cases o <;> simp [DD.CmpOp.mirror, DD.CmpOp.rel, PMath.at, eq_comm]
  | fn F =>
    obtain ⟨d, rfl, hd⟩ := h.fn_inv
    cases k with
    | num t =>
      obtain rfl := h'.num_inv
      simp only [PVal.cmp, DD.cmpS, jetF hd, Res.ok_bind]
      exact congrArg Res.ok (key r o _ _ hr)
    | fn G =>
      obtain ⟨d', rfl, hd'⟩ := h'.fn_inv
      simp only [PVal.cmp, DD.cmp, jetF hd, jetF hd', Res.ok_bind]
      exact congrArg Res.ok (key r o _ _ hr)

/-- A comparison gives the result of the comparison of the values at the point. -/
theorem PySt.IsAt.test (hv : c.Valid) (hfit : c.tsize = -1 ∨ c.tsize = n) {st : PySt XReal V W}
    {σ : MathSt n V} (h : st.IsAt c n x σ) (b : PyCond ℝ V) (hi : b.Inside c.order x σ) {r : Bool}
    (hr : r = true ↔ b.Holds x x (σ.at x)) : (b.map num).run c n st.val = .ok r := by
  obtain ⟨⟨m, hm⟩, k, hk⟩ := hi
  obtain ⟨v, h1, h2⟩ := C54_expressions hv hfit x _ _ h.val _ m hm
  obtain ⟨w, h3, h4⟩ := C54_expressions hv hfit x _ _ h.val _ k hk
  simp only [PyCond.run, PyCond.map, h1, h3, Res.ok_bind]
  refine h2.cmp h4 b.op ?_
  rw [hr, PyCond.Holds, hm.real x (Or.inr rfl), hk.real x (Or.inr rfl)]

theorem PySt.IsAt.continuous {st : PySt XReal V W} {σ : MathSt n V} (h : st.IsAt c n x σ) (v : V) :
    ContinuousAt (fun y => (σ.at y).read v) x := by
  rcases h.env v with ⟨r, _, h2⟩ | ⟨a, ha, _, h2⟩
  · simp only [PtSt.read, MathSt.at, h2]; exact continuousAt_const
  · simp only [PtSt.read, MathSt.at, h2]
    obtain ⟨K, _, hK⟩ := h.obj a ha
    exact hK.grad.continuousAt

end comparisons

/-! ## Programs -/

omit [DecidableEq W] in
theorem pyRealRun_det {x y : Fin n → ℝ} {p : Ctl (PyStmt ℝ V W) (PyCond ℝ V)} {σ σ' σ'' : PtSt V}
    (h : PyRealRun x y p σ σ') (h' : PyRealRun x y p σ σ'') : σ' = σ'' :=
  Runs.det (fun s a a' a'' h h' => h.trans h'.symm)
    (fun b a r r' h h' => by rw [Bool.eq_iff_iff, h, h']) h h'

/-- **C62, sharing.**  A Python program of assignments, in-place operators and `t.f = s` on jets and
numbers, with branches and loops and with any sharing of objects between names: if every executed
statement has a meaning and every executed comparison is inside the domains of its operations, then the
program ends normally, has taken the branches that the values at `x` say, and afterwards every name
holds exactly the number, or the object with exactly the value and derivatives at `x` of the function,
that the program assigns to it. -/
theorem C62_sharing (hv : c.Valid) (hfit : c.tsize = -1 ∨ c.tsize = n)
    (p : Ctl (PyStmt ℝ V W) (PyCond ℝ V)) (σ σ' : MathSt n V) (st : PySt XReal V W)
    (h : st.IsAt c n x σ) (hp : PyPathRun c.order x p σ σ') :
    ∃ k st', (∀ m ≥ k, (p.map (PyStmt.map num) (PyCond.map num)).run (pyMachine XReal V W c n) m st =
        some (.ok (), st')) ∧ st'.IsAt c n x σ' := by
  obtain ⟨k, st', h1, h2⟩ := Runs.machine
    (M := (⟨fun s => (pyMachine XReal V W c n).step (s.map num),
      fun b => (pyMachine XReal V W c n).test (b.map num)⟩ :
        Machine (PyStmt ℝ V W) (PyCond ℝ V) (PySt XReal V W)))
    (R := fun st σ => st.IsAt c n x σ)
    (fun s σ σ' st hσ hs => means_exact hv hfit hσ hs)
    (fun b σ r st hσ hb => hσ.test hv hfit b hb.1 hb.2) hp h
  refine ⟨k, st', fun m hm => ?_, h2⟩
  rw [Ctl.run_map]
  exact h1 m hm

omit [DecidableEq W] in
theorem PySteadyRun.path {order : Nat} {p : Ctl (PyStmt ℝ V W) (PyCond ℝ V)} {σ σ' : MathSt n V}
    (h : PySteadyRun order x p σ σ') : PyPathRun order x p σ σ' := by
  obtain ⟨_, h1, rfl⟩ := Runs.lift (R := fun a b => a = b)
    (step' := fun s σ σ' => s.Means order x σ σ')
    (test' := fun b σ r => b.Inside order x σ ∧ (r = true ↔ b.Holds x x (σ.at x)))
    (fun s a a' F hF hs => ⟨a', hF ▸ hs.2, rfl⟩)
    (fun b a r F hF hb => hF ▸ ⟨hb.1, hb.2.self_of_nhds⟩) h rfl
  exact h1

/-- **C62, derivatives.**  If moreover the executed statements do not throw derivatives away and every
executed comparison gives the same result at all points near `x`, then the functions are those the
program computes: run on plain numbers at any point near `x`, it ends with the values of these
functions at that point. -/
theorem C62_exact (hv : c.Valid) (hfit : c.tsize = -1 ∨ c.tsize = n)
    (p : Ctl (PyStmt ℝ V W) (PyCond ℝ V)) (σ σ' : MathSt n V) (st : PySt XReal V W)
    (h : st.IsAt c n x σ) (hp : PySteadyRun c.order x p σ σ') :
    (∀ᶠ y in 𝓝 x, PyRealRun x y p (σ.at y) (σ'.at y)) ∧
    ∃ k st', (∀ m ≥ k, (p.map (PyStmt.map num) (PyCond.map num)).run (pyMachine XReal V W c n) m st =
        some (.ok (), st')) ∧ st'.IsAt c n x σ' := by
  refine ⟨?_, C62_sharing hv hfit p σ σ' st h hp.path⟩
  unfold PyRealRun
  refine Runs.eventually (pr := fun σ y => σ.at y) (fun s σ σ' hs => ?_) (fun b σ r hb => ?_) hp
  · exact Filter.Eventually.of_forall fun y => hs.2.real hs.1 y
  · exact hb.2

theorem PySafeRun.steady (hv : c.Valid) (hfit : c.tsize = -1 ∨ c.tsize = n)
    {p : Ctl (PyStmt ℝ V W) (PyCond ℝ V)} {σ σ' : MathSt n V} {st : PySt XReal V W}
    (h : st.IsAt c n x σ) (hp : PySafeRun c.order x p σ σ') : PySteadyRun c.order x p σ σ' := by
  have hlift : ∃ τ, PySteadyRun c.order x p σ τ ∧ (τ = σ' ∧ ∃ st' : PySt XReal V W,
      st'.IsAt c n x τ) := by
    refine Runs.lift (R := fun a b => b = a ∧ ∃ st' : PySt XReal V W, st'.IsAt c n x b) ?_ ?_ hp
      ⟨rfl, st, h⟩
    · rintro s a a' F ⟨rfl, st₁, hF⟩ hs
      obtain ⟨st₂, _, h2⟩ := means_exact hv hfit hF hs.2
      exact ⟨a', hs, rfl, st₂, h2⟩
    · rintro b a r F ⟨rfl, st₁, hF⟩ ⟨hi, hne, hr⟩
      refine ⟨hi, ?_⟩
      obtain ⟨⟨m, hm⟩, k, hk⟩ := hi
      exact (rel_steady (hm.continuous hv hF.continuous) (hk.continuous hv hF.continuous) hne
        b.op).mono fun y hy => hr.trans hy.symm
  obtain ⟨_, hs, rfl, _⟩ := hlift
  exact hs

/-- **C62, no ties.**  It is enough that no executed comparison is between equal values at `x`.  Then
whatever states `U y` the program on numbers ends in, at the points `y` near `x`: a name that holds a
number holds this number at all these points, and a name that holds an object holds value, gradient and
Hessian at `x` of what it stands for at these points. -/
theorem C62_no_ties (hv : c.Valid) (hfit : c.tsize = -1 ∨ c.tsize = n)
    (p : Ctl (PyStmt ℝ V W) (PyCond ℝ V)) (σ σ' : MathSt n V) (st : PySt XReal V W)
    (h : st.IsAt c n x σ) (hp : PySafeRun c.order x p σ σ') :
    (∀ᶠ y in 𝓝 x, PyRealRun x y p (σ.at y) (σ'.at y)) ∧
    ∃ k st', (∀ m ≥ k, (p.map (PyStmt.map num) (PyCond.map num)).run (pyMachine XReal V W c n) m st =
        some (.ok (), st')) ∧
      ∀ U : (Fin n → ℝ) → PtSt V, (∀ᶠ y in 𝓝 x, PyRealRun x y p (σ.at y) (U y)) → ∀ v,
        (∃ r : ℝ, st'.env v = .num (num r) ∧ ∀ᶠ y in 𝓝 x, (U y).read v = r) ∨
        ∃ a, st'.env v = .ref a ∧ JetAt c n (st'.heap a) (fun y => (U y).read v) x := by
  obtain ⟨h1, k, st', h2, h3⟩ := C62_exact hv hfit p σ σ' st h (hp.steady hv hfit h)
  refine ⟨h1, k, st', h2, fun U hU v => ?_⟩
  have heq := (h1.and hU).mono fun y hy => pyRealRun_det hy.1 hy.2
  rcases h3.env v with ⟨r, h4, h5⟩ | ⟨a, ha, h4, h5⟩
  · refine Or.inl ⟨r, h4, heq.mono fun y hy => ?_⟩
    rw [← hy]
    simp only [PtSt.read, MathSt.at, h5]
  · refine Or.inr ⟨a, h4, ?_⟩
    obtain ⟨K, k1, k2⟩ := h3.obj a ha
    refine ⟨K, k1, k2.congr_fun (heq.mono fun y hy => ?_)⟩
    simp only [← hy]
    simp only [PtSt.read, MathSt.at, h5]

/-! ## Example -/

/-- `b = a` and then `while a.f > 1: b /= 2`, where `a` is a jet: the loop changes `a` through `b`. -/
noncomputable def exHalve : Ctl (PyStmt ℝ (Fin 2) Unit) (PyCond ℝ (Fin 2)) :=
  .seq (.act (.assign 1 (.name 0)))
    (.loop (.atom ⟨.gt, .getF (.name 0), .lit 1⟩) (.act (.upd .div 1 (.lit 2))))

/-- Name 0 is the variable, name 1 the number 0. -/
def exHalveMath : MathSt 1 (Fin 2) := ⟨![.ref 0, .num 0], fun _ y => y 0, 1⟩

/-- Both names are the variable divided by 4. -/
noncomputable def exHalved : MathSt 1 (Fin 2) :=
  ((exHalveMath.bind 1 (.ref 0)).write 0 fun y => y 0 / 2).write 0 fun y => y 0 / 2 / 2

/-- At 3 the loop makes two rounds and meets no tie. -/
theorem exHalve_safe : PySafeRun 2 (fun _ => 3) exHalve exHalveMath exHalved := by
  have step : ∀ σ : MathSt 1 (Fin 2), σ.env 1 = .ref 0 →
      (PyStmt.upd .div 1 (.lit 2) : PyStmt ℝ (Fin 2) Unit).Means 2 (fun _ => 3) σ
        (σ.write 0 fun y => σ.mean 0 y / 2) := fun σ h =>
    .updScale h (.lit 2) (Or.inr rfl) (fun _ => by norm_num)
  have inside : ∀ σ : MathSt 1 (Fin 2), σ.env 0 = .ref 0 →
      (⟨.gt, .getF (.name 0), .lit 1⟩ : PyCond ℝ (Fin 2)).Inside 2 (fun _ => 3) σ := by
    intro σ h
    have h1 : σ.val 0 = .fn (σ.mean 0) := by simp only [MathSt.val, h]
    have h2 : (PyE.name 0 : PyE ℝ (Fin 2)).Den 2 (fun _ => 3) σ.val (.fn (σ.mean 0)) := by
      rw [← h1]; exact .name 0
    exact ⟨⟨_, .getF h2⟩, _, .lit 1⟩
  refine .seq (.act ⟨trivial, .share 1 0⟩) (.loopT (.atom ⟨inside _ rfl, ?_, ?_⟩)
    (.act ⟨trivial, step _ rfl⟩) (.loopT (.atom ⟨inside _ rfl, ?_, ?_⟩)
      (.act ⟨trivial, step _ rfl⟩) (.loopF (.atom ⟨inside _ rfl, ?_, ?_⟩))))
  all_goals
    simp [PyE.real, PyCond.Holds, DD.CmpOp.rel, PtSt.read, MathSt.at, MathSt.bind, MathSt.write,
      exHalveMath]
  all_goals norm_num

/-- A state with this meaning. -/
noncomputable def exHalveSt : PySt XReal (Fin 2) Unit :=
  ⟨![.ref 0, .num (num 0)], fun _ => none, fun _ => obj exDyn2 1 (varC 0 (num 3)), 1, fun _ => 0⟩

theorem exHalveSt_isAt : exHalveSt.IsAt exDyn2 1 (fun _ => 3) exHalveMath := by
  refine ⟨rfl, fun v => ?_, fun a _ => ⟨varJet 0 3,
    (good_var (by omega) _).shows exDyn2_valid.order (Or.inl rfl), isJet_var 2 (fun _ => 3) 0⟩⟩
  fin_cases v
  · exact Or.inr ⟨0, by simp [exHalveMath], rfl, rfl⟩
  · exact Or.inl ⟨0, rfl, rfl⟩

/-- The jet named `a`, never assigned to, is afterwards that of the variable divided by 4. -/
example : ∃ k st', (∀ m ≥ k, (exHalve.map (PyStmt.map num) (PyCond.map num)).run
      (pyMachine XReal (Fin 2) Unit exDyn2 1) m exHalveSt = some (.ok (), st')) ∧
    st'.env 0 = .ref 0 ∧ st'.env 1 = .ref 0 ∧
    JetAt exDyn2 1 (st'.heap 0) (fun y => y 0 / 2 / 2) (fun _ => 3) := by
  obtain ⟨_, k, st', h1, h2⟩ := C62_exact exDyn2_valid (Or.inl rfl) exHalve exHalveMath exHalved
    exHalveSt exHalveSt_isAt (exHalve_safe.steady exDyn2_valid (Or.inl rfl) exHalveSt_isAt)
  exact ⟨k, st', h1, (h2.ref (t := 0) rfl).1, (h2.ref (t := 1) rfl).1, (h2.ref (t := 0) rfl).2⟩

/-- The same seen from the program on numbers. -/
example (U : (Fin 1 → ℝ) → PtSt (Fin 2))
    (hU : ∀ᶠ y in 𝓝 (fun _ => 3), PyRealRun (fun _ => 3) y exHalve (exHalveMath.at y) (U y)) :
    ∃ k st', (∀ m ≥ k, (exHalve.map (PyStmt.map num) (PyCond.map num)).run
      (pyMachine XReal (Fin 2) Unit exDyn2 1) m exHalveSt = some (.ok (), st')) ∧
    ∀ v, (∃ r : ℝ, st'.env v = .num (num r) ∧ ∀ᶠ y in 𝓝 (fun _ => 3), (U y).read v = r) ∨
      ∃ a, st'.env v = .ref a ∧ JetAt exDyn2 1 (st'.heap a) (fun y => (U y).read v) (fun _ => 3) := by
  obtain ⟨_, k, st', h1, h2⟩ := C62_no_ties exDyn2_valid (Or.inl rfl) exHalve exHalveMath exHalved
    exHalveSt exHalveSt_isAt exHalve_safe
  exact ⟨k, st', h1, h2 U hU⟩

/-- `C62_sharing` with a statement that replaces the value. -/
example : ∃ k st', (∀ m ≥ k, (Ctl.seq exHalve (.act (.setF 1 5)) |>.map (PyStmt.map num)
      (PyCond.map num)).run (pyMachine XReal (Fin 2) Unit exDyn2 1) m exHalveSt =
        some (.ok (), st')) ∧ st'.env 0 = .ref 0 ∧
    JetAt exDyn2 1 (st'.heap 0) (fun y => y 0 / 2 / 2 + (5 - 3 / 2 / 2)) (fun _ => 3) := by
  obtain ⟨k, st', h1, h2⟩ := C62_sharing exDyn2_valid (Or.inl rfl)
    (.seq exHalve (.act (.setF 1 5))) exHalveMath _ exHalveSt exHalveSt_isAt
    (.seq (exHalve_safe.steady exDyn2_valid (Or.inl rfl) exHalveSt_isAt).path
      (.act (.setF (a := 0) rfl)))
  exact ⟨k, st', h1, (h2.ref (t := 0) rfl).1, (h2.ref (t := 0) rfl).2⟩

end HJ
