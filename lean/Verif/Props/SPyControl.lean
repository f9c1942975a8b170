import Verif.Spec.SPyControl
import Verif.Props.PyControl

/-!
# C63: Python programs on sparse scalars with branches and loops
-/

open scoped Topology

namespace HJ

open XReal (num)

variable {V : Type} {x : String → ℝ}

theorem eventually_nearLines {P : (String → ℝ) → Prop} :
    (∀ᶠ y in nearLines x, P y) ↔ ∀ k, ∀ᶠ t in 𝓝 (x k), P (Function.update x k t) := by
  simp only [nearLines, Filter.eventually_iSup, Filter.eventually_map]

theorem self_of_nearLines {P : (String → ℝ) → Prop} (h : ∀ᶠ y in nearLines x, P y) : P x := by
  have := (eventually_nearLines.1 h "").self_of_nhds
  rwa [Function.update_eq_self] at this

/-! ## The program on numbers -/

/-- A number. -/
def SMath.isNum : SMath → Bool
  | .num _ => true
  | .fn _ => false

variable {σ : SMathSt V} {e : SPyE ℝ V} {m : SMath}

theorem SMathSt.read_at (σ : SMathSt V) (y : String → ℝ) (v : V) :
    (σ.at y).read v = (σ.val v).at y := by
  simp only [PtSt.read, SMathSt.at, SMathSt.val]
  cases σ.env v <;> rfl

theorem SPyE.Den.isNum (h : e.Den x σ.val m) : e.isNum σ.env = m.isNum := by
  induction h with
  | name v =>
    simp only [SPyE.isNum, SMathSt.val]
    cases σ.env v <;> rfl
  | negNum _ ih => exact ih
  | neg _ ih => exact ih
  | absNum _ ih => exact ih
  | abs _ _ ih => exact ih
  | opNums _ _ _ ih₁ ih₂ => simp only [SPyE.isNum, ih₁, ih₂, SMath.isNum, Bool.and_self]
  | opFns _ _ _ ih₁ ih₂ => simp only [SPyE.isNum, ih₁, ih₂, SMath.isNum, Bool.and_self]
  | opRight _ _ _ ih₁ ih₂ => simp only [SPyE.isNum, ih₁, ih₂, SMath.isNum, Bool.and_true]
  | opLeft _ _ _ ih₁ ih₂ => simp only [SPyE.isNum, ih₁, ih₂, SMath.isNum, Bool.and_false]
  | _ => rfl

/-- At the point `y`, an expression that has a meaning gives the value of its meaning. -/
theorem SPyE.Den.real (h : e.Den x σ.val m) (y : String → ℝ)
    (hy : e.NoGet ∨ (e.NoGetD ∧ y = x)) : e.real x y (σ.at y).read = m.at y := by
  have two : ∀ {A B A' B' : Prop}, (A ∧ B) ∨ ((A' ∧ B') ∧ y = x) →
      (A ∨ (A' ∧ y = x)) ∧ (B ∨ (B' ∧ y = x)) := by
    rintro A B A' B' (h | h)
    · exact ⟨Or.inl h.1, Or.inl h.2⟩
    · exact ⟨Or.inr ⟨h.1.1, h.2⟩, Or.inr ⟨h.1.2, h.2⟩⟩
  induction h with
  | name v => exact σ.read_at y v
  | lit s => rfl
  | const s => rfl
  | vari k s => rfl
  | make s d hd => rfl
  | negNum _ ih => simp only [SPyE.real, SMath.at, ih hy]
  | neg _ ih => simp only [SPyE.real, SMath.at, ih hy]
  | absNum _ ih => simp only [SPyE.real, SMath.at, ih hy]
  | abs _ _ ih => simp only [SPyE.real, SMath.at, ih hy]
  | fn _ _ ih => simp only [SPyE.real, SMath.at, ih hy]
  | opNums _ _ _ ih₁ ih₂ => simp only [SPyE.real, SMath.at, ih₁ (two hy).1, ih₂ (two hy).2]
  | opFns _ _ _ ih₁ ih₂ => simp only [SPyE.real, SMath.at, ih₁ (two hy).1, ih₂ (two hy).2]
  | opRight _ _ _ ih₁ ih₂ => simp only [SPyE.real, SMath.at, ih₁ (two hy).1, ih₂ (two hy).2]
  | opLeft _ _ _ ih₁ ih₂ => simp only [SPyE.real, SMath.at, ih₁ (two hy).1, ih₂ (two hy).2]
  | atan2 _ _ _ ih₁ ih₂ => simp only [SPyE.real, SMath.at, ih₁ (two hy).1, ih₂ (two hy).2]
  | hypot _ _ _ ih₁ ih₂ => simp only [SPyE.real, SMath.at, ih₁ (two hy).1, ih₂ (two hy).2]
  | hypot3 _ _ _ _ ih₁ ih₂ ih₃ =>
    simp only [SPyE.real, SMath.at, ih₁ (two hy).1, ih₂ (two (two hy).2).1, ih₃ (two (two hy).2).2]
  | getF _ ih =>
    rcases hy with hy | ⟨hy, rfl⟩
    · exact hy.elim
    · exact ih (Or.inr ⟨hy, rfl⟩)
  | getD k _ ih =>
    rcases hy with hy | ⟨hy, rfl⟩
    · exact hy.elim
    · exact hy.elim

/-- On every coordinate line, the number an expression gives is continuous. -/
theorem SPyE.Den.continuous (h : e.Den x σ.val m) (hg : e.NoGetD) (k : String)
    (hσ : ∀ v, ContinuousAt (fun t => (σ.at (Function.update x k t)).read v) (x k)) :
    ContinuousAt (fun t => e.real x (Function.update x k t) (σ.at (Function.update x k t)).read)
      (x k) := by
  have at_x : ∀ {e : SPyE ℝ V} {m : SMath}, e.Den x σ.val m → e.NoGetD →
      e.real x (Function.update x k (x k)) (σ.at (Function.update x k (x k))).read = m.at x := by
    intro e m h hg
    rw [Function.update_eq_self]
    exact h.real x (Or.inr ⟨hg, rfl⟩)
  have hco : ∀ j, ContinuousAt (fun t => Function.update x k t j - x j) (x k) := by
    intro j
    refine ContinuousAt.sub ?_ continuousAt_const
    by_cases hj : j = k
    · subst hj; simp only [Function.update_self]; exact continuousAt_id
    · simp only [Function.update_of_ne hj]; exact continuousAt_const
  have v : exDyn1.Valid := exDyn1_valid
  induction h with
  | name v => exact hσ v
  | lit s => exact continuousAt_const
  | const s => exact continuousAt_const
  | vari j s => exact continuousAt_const.add (hco j)
  | make s d hd =>
    refine continuousAt_const.add ?_
    clear hd hg
    induction d with
    | nil => exact continuousAt_const
    | cons a d ih =>
      simp only [List.map_cons, List.sum_cons]
      exact (continuousAt_const.mul (hco _)).add ih
  | negNum _ ih => exact (ih hg).neg
  | neg _ ih => exact (ih hg).neg
  | absNum _ ih => exact (ih hg).abs
  | abs _ _ ih => exact (ih hg).abs
  | fn h hd ih =>
    rename_i φ e F
    refine comp_continuous v (.fn φ (.var 0)) ![_] (fun i => ?_) ⟨trivial, ?_⟩ trivial
    · fin_cases i; exact ih hg
    · change φ.dom _ (e.real x _ _)
      rw [at_x h hg]; exact hd
  | opNums h₁ h₂ hd ih₁ ih₂ =>
    exact op_continuous _ (ih₁ hg.1) (ih₂ hg.2) fun ho => by rw [at_x h₂ hg.2]; exact hd ho
  | opFns h₁ h₂ hd ih₁ ih₂ =>
    exact op_continuous _ (ih₁ hg.1) (ih₂ hg.2) fun ho => by rw [at_x h₂ hg.2]; exact hd ho
  | opRight h₁ h₂ hd ih₁ ih₂ =>
    exact op_continuous _ (ih₁ hg.1) (ih₂ hg.2) fun ho => by rw [at_x h₂ hg.2]; exact hd ho
  | opLeft h₁ h₂ hd ih₁ ih₂ =>
    exact op_continuous _ (ih₁ hg.1) (ih₂ hg.2) fun ho => by rw [at_x h₂ hg.2]; exact hd ho
  | atan2 h₁ h₂ hd ih₁ ih₂ =>
    rename_i e₁ e₂ F G
    have k1 := at_x h₁ hg.1
    have k2 := at_x h₂ hg.2
    refine comp_continuous v (.bin .atan2 (.var 0) (.var 1))
      ![fun t => e₁.real x (Function.update x k t) (σ.at (Function.update x k t)).read,
        fun t => e₂.real x (Function.update x k t) (σ.at (Function.update x k t)).read] (fun i => ?_)
      ⟨trivial, trivial, ?_⟩ ⟨trivial, trivial, ?_⟩
    · fin_cases i; exacts [ih₁ hg.1, ih₂ hg.2]
    · change ¬ (e₁.real x (Function.update x k (x k)) (σ.at (Function.update x k (x k))).read = 0 ∧
        e₂.real x (Function.update x k (x k)) (σ.at (Function.update x k (x k))).read = 0)
      rw [k1, k2]
      rintro ⟨h5, h6⟩
      rcases hd with h | h
      · exact h h5
      · rw [show G x = 0 from h6] at h; exact lt_irrefl _ h
    · change e₁.real x (Function.update x k (x k)) (σ.at (Function.update x k (x k))).read ≠ 0 ∨
        0 < e₂.real x (Function.update x k (x k)) (σ.at (Function.update x k (x k))).read
      rw [k1, k2]; exact hd
  | hypot _ _ _ ih₁ ih₂ => exact (((ih₁ hg.1).pow 2).add ((ih₂ hg.2).pow 2)).sqrt
  | hypot3 _ _ _ _ ih₁ ih₂ ih₃ =>
    exact ((((ih₁ hg.1).pow 2).add ((ih₂ hg.2.1).pow 2)).add ((ih₃ hg.2.2).pow 2)).sqrt
  | getF _ ih => exact ih hg
  | getD _ _ _ => exact hg.elim

/-- On numbers, a statement does what its meaning says. -/
theorem SPyStmt.Den.real [DecidableEq V] {s : SPyStmt ℝ V} {σ' : SMathSt V} (hs : s.Smooth)
    (h : s.Den x σ σ') (y : String → ℝ) : σ'.at y = s.real x y (σ.at y) := by
  have hput : ∀ (t : V) (m : SMath), (σ.fresh t m).at y = (σ.at y).put t m.isNum (m.at y) := by
    intro t m
    cases m with
    | num r => rfl
    | fn F =>
      simp only [SMathSt.fresh, SMathSt.at, SMathSt.bind, SMathSt.write, SMath.isNum, SMath.at,
        PtSt.put, PtSt.make, PtSt.bind, PtSt.write, Bool.false_eq_true, if_false, PtSt.mk.injEq,
        true_and, and_true]
      funext a
      by_cases ha : a = σ.next <;> simp only [ha, if_true, if_false]
  have hwrite : ∀ (a : Nat) (F : (String → ℝ) → ℝ),
      (σ.write a F).at y = (σ.at y).write a (F y) := by
    intro a F
    simp only [SMathSt.at, SMathSt.write, PtSt.write, PtSt.mk.injEq, true_and, and_true]
    funext b
    by_cases hb : b = a <;> simp only [hb, if_true, if_false]
  cases h with
  | share t s => rfl
  | assign he hn =>
    rename_i t e m
    rw [hput, ← he.isNum, ← he.real y (Or.inl hs)]
    cases e with
    | name s => exact absurd rfl (hn s)
    | _ => rfl
  | updFn ht he hd hm =>
    rename_i o t e a G
    have h1 : (σ.at y).env t = .ref a := ht
    have h2 : e.isNum (σ.at y).env = false := he.isNum
    simp only [SPyStmt.real, h1, h2, Bool.false_eq_true, false_and, if_false, hwrite,
      he.real y (Or.inl hs)]
    rfl
  | updScale ht he ho hd =>
    rename_i o t e a r
    have h1 : (σ.at y).env t = .ref a := ht
    have h3 : ¬ (o = .add ∨ o = .sub) := by rcases ho with rfl | rfl <;> simp
    simp only [SPyStmt.real, h1, h3, and_false, if_false, hwrite, he.real y (Or.inl hs)]
    rfl
  | updShift ht he ho =>
    rename_i o t e a r
    have h1 : (σ.at y).env t = .ref a := ht
    have h2 : e.isNum (σ.at y).env = true := he.isNum
    simp only [SPyStmt.real, h1, h2, ho, and_self, if_true, hput, he.real y (Or.inl hs)]
    rfl
  | updNum ht he =>
    rename_i o t e r m
    have h1 : (σ.at y).env t = .num r := ht
    have h2 := he.isNum
    simp only [SPyE.isNum, Bool.true_and] at h2
    have h3 := he.real y (Or.inl ⟨trivial, hs⟩)
    simp only [SPyE.real] at h3
    rw [hput, ← h2, ← h3]
    simp only [SPyStmt.real, h1]
    rfl

/-! ## Comparisons -/

theorem SPVal.IsAt.cmp {v w : SPVal XReal} {m k : SMath} (h : v.IsAt x m) (h' : w.IsAt x k)
    (o : DD.CmpOp) {r : Bool} (hr : r = true ↔ o.rel (m.at x) (k.at x)) :
    SPVal.cmp o v w = .ok r := by
  have key : ∀ (q : Bool) (op : DD.CmpOp) (s t : ℝ), (q = true ↔ op.rel s t) →
      op.scalar (XReal.num s) (XReal.num t) = q := by
    intro q op s t hq
    rw [Bool.eq_iff_iff, cmp_rel, hq]
  cases m with
  | num s =>
    obtain rfl := h.num_inv
    cases k with
    | num t =>
      obtain rfl := h'.num_inv
      exact congrArg Res.ok (key r o _ _ hr)
    | fn G =>
      obtain ⟨d, rfl, hd⟩ := h'.fn_inv
      simp only [SPVal.cmp, SS.cmpS, hd.f, Res.ok_bind]
      refine congrArg Res.ok (key r o.mirror _ _ ?_)
      rw [hr]
      cases o <;> simp [DD.CmpOp.mirror, DD.CmpOp.rel, SMath.at, eq_comm]
  | fn F =>
    obtain ⟨d, rfl, hd⟩ := h.fn_inv
    cases k with
    | num t =>
      obtain rfl := h'.num_inv
      simp only [SPVal.cmp, SS.cmpS, hd.f, Res.ok_bind]
      exact congrArg Res.ok (key r o _ _ hr)
    | fn G =>
      obtain ⟨d', rfl, hd'⟩ := h'.fn_inv
      simp only [SPVal.cmp, SS.cmp, hd.f, hd'.f, Res.ok_bind]
      exact congrArg Res.ok (key r o _ _ hr)

theorem SPySt.IsAt.continuous {st : SPySt XReal V} {σ : SMathSt V} (h : st.IsAt x σ) (k : String)
    (v : V) : ContinuousAt (fun t => (σ.at (Function.update x k t)).read v) (x k) := by
  rcases h.env v with ⟨r, _, h2⟩ | ⟨a, ha, _, h2⟩
  · simp only [PtSt.read, SMathSt.at, h2]; exact continuousAt_const
  · simp only [PtSt.read, SMathSt.at, h2]
    obtain ⟨g, _, hg⟩ := (h.obj a ha).d k
    exact hg.continuousAt

/-! ## Programs -/

variable [DecidableEq V]

theorem spyRealRun_det {x y : String → ℝ} {p : Ctl (SPyStmt ℝ V) (SPyCond ℝ V)} {σ σ' σ'' : PtSt V}
    (h : SPyRealRun x y p σ σ') (h' : SPyRealRun x y p σ σ'') : σ' = σ'' :=
  Runs.det (fun s a a' a'' h h' => h.trans h'.symm)
    (fun b a r r' h h' => by rw [Bool.eq_iff_iff, h, h']) h h'

/-- **C63, sharing.**  A Python program of assignments and in-place operators on sparse scalars and
numbers, with branches and loops and with any sharing of objects between names: if every executed
statement and comparison has a meaning, then — for every iteration order of the hash tables — the
program ends normally, has taken the branches that the values at `x` say, and afterwards every name
holds exactly the number, or the object with exactly the value and the partial derivatives at `x` of
the function, that the program assigns to it. -/
theorem C63_sharing (p : Ctl (SPyStmt ℝ V) (SPyCond ℝ V)) (σ σ' : SMathSt V) (st : SPySt XReal V)
    (h : st.IsAt x σ) (hp : SPyPathRun x p σ σ') {ord : Order XReal} (ho : ord.Ok) :
    ∃ k ord' st', (∀ m ≥ k, (p.map (SPyStmt.map num) (SPyCond.map num)).run (spyMachine XReal V) m
        (ord, st) = some (.ok (), (ord', st'))) ∧ st'.IsAt x σ' := by
  obtain ⟨k, ⟨ord', st'⟩, h1, h2⟩ := Runs.machine
    (M := (⟨fun s => (spyMachine XReal V).step (s.map num),
      fun b => (spyMachine XReal V).test (b.map num)⟩ :
        Machine (SPyStmt ℝ V) (SPyCond ℝ V) (Order XReal × SPySt XReal V)))
    (R := fun st σ => st.1.Ok ∧ st.2.IsAt x σ)
    (fun s σ σ' st hσ hs => by
      obtain ⟨st', k1, k2⟩ := stmt_exact (hσ.1.sub 0) hσ.2 hs
      exact ⟨(st.1.sub 1, st'), by simp only [spyMachine, k1], hσ.1.sub 1, k2⟩)
    (fun b σ r st hσ hb => by
      obtain ⟨m, k, hm, hk, hr⟩ := hb
      obtain ⟨v, h1, h2⟩ := C56_expressions ((hσ.1.sub 2).sub 0) _ _ hσ.2.val _ m hm
      obtain ⟨w, h3, h4⟩ := C56_expressions ((hσ.1.sub 2).sub 1) _ _ hσ.2.val _ k hk
      simp only [spyMachine, SPyCond.run, SPyCond.map, h1, h3, Res.ok_bind]
      exact h2.cmp h4 b.op hr) hp (st := (ord, st)) ⟨ho, h⟩
  refine ⟨k, ord', st', fun m hm => ?_, h2.2⟩
  rw [Ctl.run_map]
  exact h1 m hm

theorem SPySteadyRun.path {p : Ctl (SPyStmt ℝ V) (SPyCond ℝ V)} {σ σ' : SMathSt V}
    (h : SPySteadyRun x p σ σ') : SPyPathRun x p σ σ' := by
  obtain ⟨_, h1, rfl⟩ := Runs.lift (R := fun a b => a = b)
    (step' := fun s σ σ' => s.Den x σ σ')
    (test' := fun b σ r => ∃ m k, b.left.Den x σ.val m ∧ b.right.Den x σ.val k ∧
      (r = true ↔ b.op.rel (m.at x) (k.at x)))
    (fun s a a' F hF hs => ⟨a', hF ▸ hs.2, rfl⟩)
    (fun b a r F hF hb => by
      subst hF
      obtain ⟨⟨⟨⟨m, hm⟩, gm⟩, ⟨k, hk⟩, gk⟩, hr⟩ := hb
      refine ⟨m, k, hm, hk, (self_of_nearLines hr).trans ?_⟩
      rw [SPyCond.Holds, hm.real x (Or.inr ⟨gm, rfl⟩), hk.real x (Or.inr ⟨gk, rfl⟩)]) h rfl
  exact h1

/-- **C63, derivatives.**  If moreover the executed statements do not throw derivatives away and every
executed comparison gives the same result at all points near `x` on the coordinate lines, then the
functions are those the program computes: run on plain numbers at any such point, it ends with the
values of these functions at that point. -/
theorem C63_exact (p : Ctl (SPyStmt ℝ V) (SPyCond ℝ V)) (σ σ' : SMathSt V) (st : SPySt XReal V)
    (h : st.IsAt x σ) (hp : SPySteadyRun x p σ σ') {ord : Order XReal} (ho : ord.Ok) :
    (∀ᶠ y in nearLines x, SPyRealRun x y p (σ.at y) (σ'.at y)) ∧
    ∃ k ord' st', (∀ m ≥ k, (p.map (SPyStmt.map num) (SPyCond.map num)).run (spyMachine XReal V) m
        (ord, st) = some (.ok (), (ord', st'))) ∧ st'.IsAt x σ' := by
  refine ⟨?_, C63_sharing p σ σ' st h hp.path ho⟩
  unfold SPyRealRun
  refine Runs.eventually (pr := fun σ y => σ.at y) (fun s σ σ' hs => ?_) (fun b σ r hb => ?_) hp
  · exact Filter.Eventually.of_forall fun y => hs.2.real hs.1 y
  · exact hb.2

theorem SPySafeRun.steady {p : Ctl (SPyStmt ℝ V) (SPyCond ℝ V)} {σ σ' : SMathSt V}
    {st : SPySt XReal V} (h : st.IsAt x σ) (hp : SPySafeRun x p σ σ') {ord : Order XReal}
    (ho : ord.Ok) : SPySteadyRun x p σ σ' := by
  have hlift : ∃ τ, SPySteadyRun x p σ τ ∧ (τ = σ' ∧ ∃ st' : SPySt XReal V, st'.IsAt x τ) := by
    refine Runs.lift (R := fun a b => b = a ∧ ∃ st' : SPySt XReal V, st'.IsAt x b) ?_ ?_ hp
      ⟨rfl, st, h⟩
    · rintro s a a' F ⟨rfl, st₁, hF⟩ hs
      obtain ⟨st₂, _, h2⟩ := stmt_exact ho hF hs.2
      exact ⟨a', hs, rfl, st₂, h2⟩
    · rintro b a r F ⟨rfl, st₁, hF⟩ ⟨hi, hne, hr⟩
      refine ⟨hi, eventually_nearLines.2 fun j => ?_⟩
      obtain ⟨⟨⟨m, hm⟩, gm⟩, ⟨k, hk⟩, gk⟩ := hi
      have hs := rel_steady (hm.continuous gm j (hF.continuous j))
        (hk.continuous gk j (hF.continuous j)) (by rw [Function.update_eq_self]; exact hne) b.op
      rw [Function.update_eq_self] at hs
      exact hs.mono fun t ht => hr.trans ht.symm
  obtain ⟨_, hs, rfl, _⟩ := hlift
  exact hs

/-- **C63, no ties.**  It is enough that no executed comparison is between equal values at `x`.  Then
whatever states `U y` the program on numbers ends in, at the points `y` near `x` on the coordinate
lines: a name that holds a number holds this number at all these points, and a name that holds an
object holds the value and the partial derivatives at `x` of what it stands for at these points. -/
theorem C63_no_ties (p : Ctl (SPyStmt ℝ V) (SPyCond ℝ V)) (σ σ' : SMathSt V) (st : SPySt XReal V)
    (h : st.IsAt x σ) (hp : SPySafeRun x p σ σ') {ord : Order XReal} (ho : ord.Ok) :
    (∀ᶠ y in nearLines x, SPyRealRun x y p (σ.at y) (σ'.at y)) ∧
    ∃ k ord' st', (∀ m ≥ k, (p.map (SPyStmt.map num) (SPyCond.map num)).run (spyMachine XReal V) m
        (ord, st) = some (.ok (), (ord', st'))) ∧
      ∀ U : (String → ℝ) → PtSt V, (∀ᶠ y in nearLines x, SPyRealRun x y p (σ.at y) (U y)) → ∀ v,
        (∃ r : ℝ, st'.env v = .num (num r) ∧ ∀ᶠ y in nearLines x, (U y).read v = r) ∨
        ∃ a, st'.env v = .ref a ∧ SIsAt x (st'.heap a) (fun y => (U y).read v) := by
  obtain ⟨h1, k, ord', st', h2, h3⟩ := C63_exact p σ σ' st h (hp.steady h ho) ho
  refine ⟨h1, k, ord', st', h2, fun U hU v => ?_⟩
  have heq := (h1.and hU).mono fun y hy => spyRealRun_det hy.1 hy.2
  rcases h3.env v with ⟨r, h4, h5⟩ | ⟨a, ha, h4, h5⟩
  · refine Or.inl ⟨r, h4, heq.mono fun y hy => ?_⟩
    rw [← hy]
    simp only [PtSt.read, SMathSt.at, h5]
  · refine Or.inr ⟨a, h4, ?_⟩
    have hj := h3.obj a ha
    have hval : ∀ᶠ y in nearLines x, (U y).read v = σ'.mean a y := by
      refine heq.mono fun y hy => ?_
      rw [← hy]
      simp only [PtSt.read, SMathSt.at, h5]
    refine ⟨hj.wf, ?_, fun k => ?_⟩
    · rw [hj.f, self_of_nearLines hval]
    · obtain ⟨g, g1, g2⟩ := hj.d k
      exact ⟨g, g1, g2.congr_of_eventuallyEq (eventually_nearLines.1 hval k)⟩

/-! ## Example -/

/-- `b = a` and then `while a > 1: b /= 2`, where `a` is a sparse scalar. -/
noncomputable def exSHalve : Ctl (SPyStmt ℝ (Fin 2)) (SPyCond ℝ (Fin 2)) :=
  .seq (.act (.assign 1 (.name 0)))
    (.loop (.atom ⟨.gt, .name 0, .lit 1⟩) (.act (.upd .div 1 (.lit 2))))

/-- Name 0 is the variable `u`, name 1 the number 0. -/
def exSHalveMath : SMathSt (Fin 2) := ⟨![.ref 0, .num 0], fun _ y => y "u", 1⟩

/-- Both names are the variable divided by 4. -/
noncomputable def exSHalved : SMathSt (Fin 2) :=
  ((exSHalveMath.bind 1 (.ref 0)).write 0 fun y => y "u" / 2).write 0 fun y => y "u" / 2 / 2

/-- At 3 the loop makes two rounds and meets no tie. -/
theorem exSHalve_safe : SPySafeRun (fun _ => 3) exSHalve exSHalveMath exSHalved := by
  have step : ∀ σ : SMathSt (Fin 2), σ.env 1 = .ref 0 →
      (SPyStmt.upd .div 1 (.lit 2) : SPyStmt ℝ (Fin 2)).Den (fun _ => 3) σ
        (σ.write 0 fun y => σ.mean 0 y / 2) := fun σ h =>
    .updScale h (.lit 2) (Or.inr rfl) (fun _ => by norm_num)
  have inside : ∀ σ : SMathSt (Fin 2),
      (⟨.gt, .name 0, .lit 1⟩ : SPyCond ℝ (Fin 2)).Inside (fun _ => 3) σ := fun σ =>
    ⟨⟨⟨_, .name 0⟩, trivial⟩, ⟨_, .lit 1⟩, trivial⟩
  refine .seq (.act ⟨trivial, .share 1 0⟩) (.loopT (.atom ⟨inside _, ?_, ?_⟩)
    (.act ⟨trivial, step _ rfl⟩) (.loopT (.atom ⟨inside _, ?_, ?_⟩)
      (.act ⟨trivial, step _ rfl⟩) (.loopF (.atom ⟨inside _, ?_, ?_⟩))))
  all_goals
    simp [SPyE.real, SPyCond.Holds, DD.CmpOp.rel, PtSt.read, SMathSt.at, SMathSt.bind, SMathSt.write,
      exSHalveMath]
  all_goals norm_num

/-- A state with this meaning. -/
noncomputable def exSHalveSt : SPySt XReal (Fin 2) :=
  ⟨![.ref 0, .num (num 0)], fun _ => SS.var exRev "u" (num 3), 1⟩

theorem exSHalveSt_isAt : exSHalveSt.IsAt (fun _ => 3) exSHalveMath := by
  refine ⟨rfl, fun v => ?_, fun a _ => ?_⟩
  · fin_cases v
    · exact Or.inr ⟨0, by simp [exSHalveMath], rfl, rfl⟩
    · exact Or.inl ⟨0, rfl, rfl⟩
  · have h := isAt_var (x := fun _ => 3) exRev_ok "u" 3
    have he : (fun y : String → ℝ => 3 + (y "u" - 3)) = fun y => y "u" := by funext y; ring
    change SIsAt _ _ (fun y : String → ℝ => y "u")
    rw [← he]
    exact h

/-- The sparse scalar named `a`, never assigned to, is afterwards that of the variable divided by 4. -/
example : ∃ k ord' st', (∀ m ≥ k, (exSHalve.map (SPyStmt.map num) (SPyCond.map num)).run
      (spyMachine XReal (Fin 2)) m (exRev, exSHalveSt) = some (.ok (), (ord', st'))) ∧
    st'.env 0 = .ref 0 ∧ st'.env 1 = .ref 0 ∧
    SIsAt (fun _ => 3) (st'.heap 0) (fun y => y "u" / 2 / 2) := by
  obtain ⟨_, k, ord', st', h1, h2⟩ := C63_exact exSHalve exSHalveMath exSHalved
    exSHalveSt exSHalveSt_isAt (exSHalve_safe.steady exSHalveSt_isAt exRev_ok) exRev_ok
  exact ⟨k, ord', st', h1, (h2.ref (t := 0) rfl).1, (h2.ref (t := 1) rfl).1,
    (h2.ref (t := 0) rfl).2⟩

/-- The same seen from the program on numbers. -/
example (U : (String → ℝ) → PtSt (Fin 2))
    (hU : ∀ᶠ y in nearLines (fun _ => 3),
      SPyRealRun (fun _ => 3) y exSHalve (exSHalveMath.at y) (U y)) :
    ∃ k ord' st', (∀ m ≥ k, (exSHalve.map (SPyStmt.map num) (SPyCond.map num)).run
      (spyMachine XReal (Fin 2)) m (exRev, exSHalveSt) = some (.ok (), (ord', st'))) ∧
    ∀ v, (∃ r : ℝ, st'.env v = .num (num r) ∧ ∀ᶠ y in nearLines (fun _ => 3), (U y).read v = r) ∨
      ∃ a, st'.env v = .ref a ∧ SIsAt (fun _ => 3) (st'.heap a) (fun y => (U y).read v) := by
  obtain ⟨_, k, ord', st', h1, h2⟩ := C63_no_ties exSHalve exSHalveMath exSHalved
    exSHalveSt exSHalveSt_isAt exSHalve_safe exRev_ok
  exact ⟨k, ord', st', h1, h2 U hU⟩

/-- `C63_sharing` with a branch on a partial derivative: `if b.d('u') == 0.25: b = 0`. -/
example : ∃ k ord' st', (∀ m ≥ k, (Ctl.seq exSHalve (.ite (.atom ⟨.eq, .getD (.name 1) "u",
      .lit (1 / 4)⟩) (.act (.assign 1 (.lit 0))) .skip) |>.map (SPyStmt.map num)
      (SPyCond.map num)).run (spyMachine XReal (Fin 2)) m (exRev, exSHalveSt) =
        some (.ok (), (ord', st'))) ∧ st'.IsAt (fun _ => 3) (exSHalved.fresh 1 (.num 0)) := by
  refine C63_sharing (.seq exSHalve (.ite (.atom ⟨.eq, .getD (.name 1) "u", .lit (1 / 4)⟩)
    (.act (.assign 1 (.lit 0))) .skip)) exSHalveMath _ exSHalveSt exSHalveSt_isAt
    (.seq (exSHalve_safe.steady exSHalveSt_isAt exRev_ok).path (.iteT (.atom ?_)
      (.act (.assign (.lit 0) (by intro s h; cases h))))) exRev_ok
  refine ⟨_, _, .getD "u" (F := fun y => y "u" / 2 / 2) (.name 1), .lit (1 / 4), ?_⟩
  have hd : HasDerivAt (fun t : ℝ => t / 2 / 2) (1 / 2 / 2) 3 :=
    ((hasDerivAt_id (3 : ℝ)).div_const 2).div_const 2
  simp only [SMath.at, DD.CmpOp.rel, Function.update_self, hd.deriv]
  norm_num

end HJ
