import Verif.Proofs.PySparse

/-!
# C56: Python programs on sparse scalars
-/

namespace HJ

open SMap

variable {V : Type} {x : String → ℝ}

/-- **C56.** If an expression has a meaning — every operation is applied inside its domain — then
evaluating it ends normally, and the result is the number, or a jet with exactly the value and, for
every name, exactly the partial derivative of the function the expression stands for. -/
theorem C56_expressions {ord : Order XReal} (ho : ord.Ok) (σ : V → SMath) (ρ : V → SPVal XReal)
    (hρ : ∀ v, (ρ v).IsAt x (σ v)) (e : SPyE ℝ V) (m : SMath) (h : e.Den x σ m) :
    ∃ r, (e.map XReal.num).eval ord ρ = .ok r ∧ r.IsAt x m := by
  induction h generalizing ord with
  | name v => exact ⟨ρ v, rfl, hρ v⟩
  | lit s => exact ⟨.num (.num s), rfl, rfl⟩
  | const s => exact ⟨_, rfl, isAt_constant ho s⟩
  | vari k s => exact ⟨_, rfl, isAt_var ho k s⟩
  | make s d hd => exact ⟨_, rfl, isAt_make ho s d hd⟩
  | negNum _ ih =>
    obtain ⟨a, h1, h2⟩ := ih (ho.sub 1)
    obtain rfl := h2.num_inv
    exact ⟨.num (.num _), by simp only [SPyE.map, SPyE.eval, h1, Res.ok_bind, XReal.neg_num], rfl⟩
  | neg _ ih =>
    rename_i e F _
    obtain ⟨a, h1, h2⟩ := ih (ho.sub 1)
    obtain ⟨y, rfl, hy⟩ := h2.fn_inv
    obtain ⟨r, h3, h4⟩ := snode ho (U := Unit) (.neg (.var ())) (fun _ => F) (fun _ => y)
      (fun _ => hy) trivial trivial
    simp only [Expr.map, Expr.evalSS, Res.ok_bind] at h3
    exact ⟨.jet r, by simp only [SPyE.map, SPyE.eval, h1, h3, Res.ok_bind], h4⟩
  | absNum _ ih =>
    rename_i e s _
    obtain ⟨a, h1, h2⟩ := ih (ho.sub 1)
    obtain rfl := h2.num_inv
    refine ⟨.num (.num |s|), ?_, rfl⟩
    simp only [SPyE.map, SPyE.eval, h1, Res.ok_bind]
    by_cases hs : s < 0
    · have : Cmp.ltB (XReal.num s) (Arith.lit 0) = true := by
        simp [Cmp.ltB, XReal.lt, hs]
      simp only [this, if_true, XReal.neg_num, abs_of_neg hs]
    · have : Cmp.ltB (XReal.num s) (Arith.lit 0) = false := by
        simp [Cmp.ltB, XReal.lt, hs]
      simp only [this, Bool.false_eq_true, if_false, abs_of_nonneg (not_lt.1 hs)]
  | abs _ hd ih =>
    rename_i e F _
    obtain ⟨a, h1, h2⟩ := ih (ho.sub 1)
    obtain ⟨y, rfl, hy⟩ := h2.fn_inv
    obtain ⟨r, h3, h4⟩ := snode ho (U := Unit) (.abs (.var ())) (fun _ => F) (fun _ => y)
      (fun _ => hy) trivial ⟨trivial, hd⟩
    simp only [Expr.map, Expr.evalSS, Res.ok_bind] at h3
    exact ⟨.jet r, by simp only [SPyE.map, SPyE.eval, h1, h3, Res.ok_bind], h4⟩
  | fn _ hd ih =>
    rename_i φ e F _
    obtain ⟨a, h1, h2⟩ := ih (ho.sub 1)
    obtain ⟨y, rfl, hy⟩ := h2.fn_inv
    obtain ⟨r, h3, h4⟩ := snode ho (U := Unit) (.fn φ (.var ())) (fun _ => F) (fun _ => y)
      (fun _ => hy) ⟨trivial, hd⟩ trivial
    simp only [Expr.map, Expr.evalSS, Res.ok_bind] at h3
    exact ⟨.jet r, by simp only [SPyE.map, SPyE.eval, h1, h3, Res.ok_bind], h4⟩
  | opNums _ _ hd ih₁ ih₂ =>
    rename_i o e₁ e₂ s t _ _
    obtain ⟨a, h1, h2⟩ := ih₁ (ho.sub 1)
    obtain ⟨b, h3, h4⟩ := ih₂ (ho.sub 2)
    obtain rfl := h2.num_inv
    obtain rfl := h4.num_inv
    exact ⟨.num (.num (o.den s t)), by
      simp only [SPyE.map, SPyE.eval, h1, h3, Res.ok_bind, op_nums _ o s t hd], rfl⟩
  | opFns _ _ hd ih₁ ih₂ =>
    rename_i o e₁ e₂ F G _ _
    obtain ⟨a, h1, h2⟩ := ih₁ (ho.sub 1)
    obtain ⟨b, h3, h4⟩ := ih₂ (ho.sub 2)
    obtain ⟨y, rfl, hy⟩ := h2.fn_inv
    obtain ⟨z, rfl, hz⟩ := h4.fn_inv
    obtain ⟨r, h5, h6⟩ := bin_fns (ho.sub 0) o hy hz hd
    exact ⟨.jet r, by simp only [SPyE.map, SPyE.eval, h1, h3, Res.ok_bind, POp.runSS, h5], h6⟩
  | opRight _ _ hd ih₁ ih₂ =>
    rename_i o e₁ e₂ F t _ _
    obtain ⟨a, h1, h2⟩ := ih₁ (ho.sub 1)
    obtain ⟨b, h3, h4⟩ := ih₂ (ho.sub 2)
    obtain ⟨y, rfl, hy⟩ := h2.fn_inv
    obtain rfl := h4.num_inv
    obtain ⟨r, h5, h6⟩ := sbin_right (ho.sub 0) o hy t hd
    exact ⟨.jet r, by simp only [SPyE.map, SPyE.eval, h1, h3, Res.ok_bind, POp.runSS, h5], h6⟩
  | opLeft _ _ hd ih₁ ih₂ =>
    rename_i o e₁ e₂ s G _ _
    obtain ⟨a, h1, h2⟩ := ih₁ (ho.sub 1)
    obtain ⟨b, h3, h4⟩ := ih₂ (ho.sub 2)
    obtain rfl := h2.num_inv
    obtain ⟨z, rfl, hz⟩ := h4.fn_inv
    obtain ⟨r, h5, h6⟩ := sbin_left (ho.sub 0) o hz s hd
    exact ⟨.jet r, by simp only [SPyE.map, SPyE.eval, h1, h3, Res.ok_bind, POp.runSS, h5], h6⟩
  | atan2 _ _ hd ih₁ ih₂ =>
    rename_i e₁ e₂ F G _ _
    obtain ⟨a, h1, h2⟩ := ih₁ (ho.sub 1)
    obtain ⟨b, h3, h4⟩ := ih₂ (ho.sub 2)
    obtain ⟨y, rfl, hy⟩ := h2.fn_inv
    obtain ⟨z, rfl, hz⟩ := h4.fn_inv
    have hD : Bin.atan2.dom (F x) (G x) := by
      rintro ⟨h5, h6⟩
      rcases hd with h | h
      · exact h h5
      · rw [h6] at h; exact lt_irrefl _ h
    obtain ⟨r, h5, h6⟩ := snode ho (U := Bool) (.bin .atan2 (.var true) (.var false))
      (fun b => if b then F else G) (fun b => if b then y else z)
      (fun b => by cases b; exacts [hz, hy]) ⟨trivial, trivial, hD⟩ ⟨trivial, trivial, hd⟩
    simp only [Expr.map, Expr.evalSS, Res.ok_bind, if_true, Bool.false_eq_true, if_false,
      Bin.runS] at h5
    exact ⟨.jet r, by simp only [SPyE.map, SPyE.eval, h1, h3, Res.ok_bind, h5], h6⟩
  | hypot _ _ hd ih₁ ih₂ =>
    rename_i e₁ e₂ F G _ _
    obtain ⟨a, h1, h2⟩ := ih₁ (ho.sub 1)
    obtain ⟨b, h3, h4⟩ := ih₂ (ho.sub 2)
    obtain ⟨y, rfl, hy⟩ := h2.fn_inv
    obtain ⟨z, rfl, hz⟩ := h4.fn_inv
    have hD : Bin.hypot.dom (F x) (G x) := by
      rintro ⟨h5, h6⟩
      exact hd.elim (fun h => h h5) (fun h => h h6)
    obtain ⟨r, h5, h6⟩ := snode ho (U := Bool) (.bin .hypot (.var true) (.var false))
      (fun b => if b then F else G) (fun b => if b then y else z)
      (fun b => by cases b; exacts [hz, hy]) ⟨trivial, trivial, hD⟩ ⟨trivial, trivial, trivial⟩
    simp only [Expr.map, Expr.evalSS, Res.ok_bind, if_true, Bool.false_eq_true, if_false,
      Bin.runS] at h5
    exact ⟨.jet r, by simp only [SPyE.map, SPyE.eval, h1, h3, Res.ok_bind, h5], h6⟩
  | hypot3 _ _ _ hd ih₁ ih₂ ih₃ =>
    rename_i e₁ e₂ e₃ F G H _ _ _
    obtain ⟨a, h1, h2⟩ := ih₁ (ho.sub 1)
    obtain ⟨b, h3, h4⟩ := ih₂ (ho.sub 2)
    obtain ⟨b', h5, h6⟩ := ih₃ (ho.sub 3)
    obtain ⟨y, rfl, hy⟩ := h2.fn_inv
    obtain ⟨z, rfl, hz⟩ := h4.fn_inv
    obtain ⟨w, rfl, hw⟩ := h6.fn_inv
    have hD : ¬ (F x = 0 ∧ G x = 0 ∧ H x = 0) := by
      rintro ⟨h5, h6, h7⟩
      exact hd.elim (fun h => h h5) fun h => h.elim (fun h => h h6) (fun h => h h7)
    obtain ⟨r, h7, h8⟩ := snode ho (U := Fin 3) (.hypot3 (.var 0) (.var 1) (.var 2))
      ![F, G, H] ![y, z, w] (fun b => by fin_cases b; exacts [hy, hz, hw])
      ⟨trivial, trivial, trivial, hD⟩ ⟨trivial, trivial, trivial⟩
    simp only [Expr.map, Expr.evalSS, Res.ok_bind] at h7
    exact ⟨.jet r, by
      simp only [SPyE.map, SPyE.eval, h1, h3, h5, Res.ok_bind]
      erw [h7]; rfl, h8⟩
  | getF _ ih =>
    rename_i e F _
    obtain ⟨a, h1, h2⟩ := ih (ho.sub 1)
    obtain ⟨y, rfl, hy⟩ := h2.fn_inv
    exact ⟨.num (.num (F x)), by simp only [SPyE.map, SPyE.eval, h1, Res.ok_bind, hy.f], rfl⟩
  | getD k _ ih =>
    rename_i e F _
    obtain ⟨a, h1, h2⟩ := ih (ho.sub 1)
    obtain ⟨y, rfl, hy⟩ := h2.fn_inv
    obtain ⟨g, h3, h4⟩ := hy.d k
    refine ⟨.num (.num g), by simp only [SPyE.map, SPyE.eval, h1, Res.ok_bind, h3], ?_⟩
    rw [h4.deriv]; rfl

theorem SPyE.Den.name_inv {σ : V → SMath} {s : V} {m : SMath}
    (h : (SPyE.name s : SPyE ℝ V).Den x σ m) : m = σ s := by
  cases h; rfl

variable [DecidableEq V]

section states

variable {st : SPySt XReal V} {σ : SMathSt V}

omit [DecidableEq V] in
theorem SPySt.IsAt.val (h : st.IsAt x σ) (v : V) : (st.val v).IsAt x (σ.val v) := by
  rcases h.env v with ⟨r, h1, h2⟩ | ⟨a, ha, h1, h2⟩
  · simp only [SPySt.val, SMathSt.val, h1, h2]; rfl
  · simp only [SPySt.val, SMathSt.val, h1, h2]; exact h.obj a ha

theorem SPySt.IsAt.fresh (h : st.IsAt x σ) (t : V) {r : SPVal XReal} {m : SMath}
    (hr : r.IsAt x m) : (st.fresh t r).IsAt x (σ.fresh t m) := by
  cases m with
  | num s =>
    obtain rfl := hr.num_inv
    refine ⟨h.next, fun v => ?_, h.obj⟩
    by_cases hv : v = t
    · exact Or.inl ⟨s, by simp [SPySt.fresh, SPySt.bind, hv], by simp [SMathSt.fresh, SMathSt.bind, hv]⟩
    · simpa [SPySt.fresh, SPySt.bind, SMathSt.fresh, SMathSt.bind, hv] using h.env v
  | fn F =>
    obtain ⟨y, rfl, hy⟩ := hr.fn_inv
    have hn := h.next
    refine ⟨by simp [SPySt.fresh, SMathSt.fresh, hn], fun v => ?_, fun a ha => ?_⟩
    · by_cases hv : v = t
      · exact Or.inr ⟨σ.next, by simp [SMathSt.fresh],
          by simp [SPySt.fresh, SPySt.bind, hv, hn], by simp [SMathSt.fresh, SMathSt.bind, hv]⟩
      · rcases h.env v with ⟨r, h1, h2⟩ | ⟨a, ha, h1, h2⟩
        · exact Or.inl ⟨r, by simp [SPySt.fresh, SPySt.bind, SPySt.write, hv, h1],
            by simp [SMathSt.fresh, SMathSt.bind, SMathSt.write, hv, h2]⟩
        · exact Or.inr ⟨a, by simp only [SMathSt.fresh]; omega,
            by simp [SPySt.fresh, SPySt.bind, SPySt.write, hv, h1],
            by simp [SMathSt.fresh, SMathSt.bind, SMathSt.write, hv, h2]⟩
    · simp only [SPySt.fresh, SPySt.bind, SPySt.write, SMathSt.fresh, SMathSt.bind, SMathSt.write, hn]
        at ha ⊢
      by_cases hb : a = σ.next
      · simp only [hb, if_true]; exact hy
      · simp only [hb, if_false]; exact h.obj a (by omega)

omit [DecidableEq V] in
theorem SPySt.IsAt.write (h : st.IsAt x σ) (a : Nat) {r : SS XReal} {F : (String → ℝ) → ℝ}
    (hr : SIsAt x r F) : (st.write a r).IsAt x (σ.write a F) := by
  refine ⟨h.next, h.env, fun b hb => ?_⟩
  simp only [SPySt.write, SMathSt.write]
  by_cases hab : b = a
  · simp only [hab, if_true]; exact hr
  · simp only [hab, if_false]; exact h.obj b hb

omit [DecidableEq V] in
theorem SPySt.IsAt.ref (h : st.IsAt x σ) {t : V} {a : Nat} (ht : σ.env t = .ref a) :
    st.env t = .ref a ∧ SIsAt x (st.heap a) (σ.mean a) := by
  rcases h.env t with ⟨r, _, h2⟩ | ⟨b, hb, h1, h2⟩
  · rw [ht] at h2; cases h2
  · rw [ht] at h2; cases h2; exact ⟨h1, h.obj a hb⟩

end states

/-- One statement. -/
theorem stmt_exact {ord : Order XReal} (ho : ord.Ok) {st : SPySt XReal V} {σ σ' : SMathSt V}
    (h : st.IsAt x σ) {s : SPyStmt ℝ V} (hs : s.Den x σ σ') :
    ∃ st', (s.map XReal.num).run ord st = (.ok (), st') ∧ st'.IsAt x σ' := by
  cases hs with
  | share t s =>
    refine ⟨_, rfl, h.next, fun v => ?_, h.obj⟩
    by_cases hv : v = t
    · simpa [SPySt.bind, SMathSt.bind, hv] using h.env s
    · simpa [SPySt.bind, SMathSt.bind, hv] using h.env v
  | assign he hn =>
    rename_i t e m
    obtain ⟨r, h1, h2⟩ := C56_expressions (ho.sub 1) _ _ h.val e m he
    refine ⟨st.fresh t r, ?_, h.fresh t h2⟩
    cases e with
    | name s => exact absurd rfl (hn s)
    | _ =>
      simp only [SPyE.map] at h1
      simp only [SPyStmt.map, SPyE.map, SPyStmt.run, h1, SPySt.store]
  | updFn ht he hd hs =>
    rename_i o t e a G
    obtain ⟨r, h1, h2⟩ := C56_expressions (ho.sub 1) _ _ h.val e _ he
    obtain ⟨y, rfl, hy⟩ := h2.fn_inv
    obtain ⟨h3, h4⟩ := h.ref ht
    by_cases hn : e.Names σ a
    · have hop : o = .add ∨ o = .sub := by
        cases o with
        | add => exact Or.inl rfl
        | sub => exact Or.inr rfl
        | mul => exact absurd hn (hs (Or.inl rfl))
        | div => exact absurd hn (hs (Or.inr rfl))
      obtain ⟨s, rfl, hsa⟩ := hn
      obtain ⟨h5, _⟩ := h.ref hsa
      have hG : G = σ.mean a := by
        have hval : σ.val s = .fn (σ.mean a) := by simp only [SMathSt.val, hsa]
        have := he.name_inv.trans hval
        injection this
      subst hG
      obtain ⟨r, h6, h7⟩ := asg_self (ord := ord.sub 0) o h4 hop
      refine ⟨st.write a r, ?_, h.write a h7⟩
      simp only [SPyE.map] at h1
      simp only [SPyStmt.map, SPyStmt.run, h1, h3, SPyE.map, SPySt.operand, h5, if_true, h6,
        SPySt.change]
    · obtain ⟨r, h6, h7⟩ := asg_obj (ho.sub 0) o h4 hy hd
      have hop : st.operand a (e.map XReal.num) y = .obj y := by
        cases e with
        | name s =>
          simp only [SPyE.map, SPySt.operand]
          rcases h.env s with ⟨r, h8, h9⟩ | ⟨b, hb, h8, h9⟩
          · simp only [h8]
          · have : b ≠ a := fun hba => hn ⟨s, rfl, by rw [h9, hba]⟩
            simp only [h8, this, if_false]
        | _ => rfl
      refine ⟨st.write a r, ?_, h.write a h7⟩
      simp only [SPyStmt.map, SPyStmt.run, h1, h3, hop, h6, SPySt.change]
  | updScale ht he hop hd =>
    rename_i o t e a s
    obtain ⟨r, h1, h2⟩ := C56_expressions (ho.sub 1) _ _ h.val e _ he
    obtain rfl := h2.num_inv
    obtain ⟨h3, h4⟩ := h.ref ht
    obtain ⟨h5, h6⟩ := asg_num h4 s
    rcases hop with rfl | rfl
    · obtain ⟨r, h7, h8⟩ := h5
      exact ⟨st.write a r, by simp only [SPyStmt.map, SPyStmt.run, h1, h3, h7, SPySt.change],
        h.write a h8⟩
    · obtain ⟨r, h7, h8⟩ := h6 (hd rfl)
      exact ⟨st.write a r, by simp only [SPyStmt.map, SPyStmt.run, h1, h3, h7, SPySt.change],
        h.write a h8⟩
  | updShift ht he hop =>
    rename_i o t e a s
    obtain ⟨r, h1, h2⟩ := C56_expressions (ho.sub 1) _ _ h.val e _ he
    obtain rfl := h2.num_inv
    obtain ⟨h3, h4⟩ := h.ref ht
    obtain ⟨r, h5, h6⟩ := sbin_right (ho.sub 0) o h4 s (by rcases hop with rfl | rfl <;> simp)
    refine ⟨st.fresh t (.jet r), ?_, h.fresh t (m := .fn _) h6⟩
    rcases hop with rfl | rfl <;>
      simp only [SPyStmt.map, SPyStmt.run, h1, h3, POp.runSS, h5, Res.ok_bind, SPySt.store]
  | updNum ht he =>
    rename_i o t e r m
    have h3 : st.env t = .num (XReal.num r) := by
      rcases h.env t with ⟨r', h1, h2⟩ | ⟨b, hb, h1, h2⟩
      · rw [ht] at h2; cases h2; exact h1
      · rw [ht] at h2; cases h2
    suffices hh : ∃ q, (do
        let y ← (e.map XReal.num).eval (ord.sub 1) st.val
        o.runSS (ord.sub 0) (.num (XReal.num r)) y) = .ok q ∧ q.IsAt x m by
      obtain ⟨q, h4, h5⟩ := hh
      refine ⟨st.fresh t q, ?_, h.fresh t h5⟩
      cases hy : (e.map XReal.num).eval (ord.sub 1) st.val with
      | ok y =>
        rw [hy, Res.ok_bind] at h4
        simp only [SPyStmt.map, SPyStmt.run, hy, h3, h4, SPySt.store]
      | throw => rw [hy] at h4; cases h4
      | abort => rw [hy] at h4; cases h4
      | ub => rw [hy] at h4; cases h4
    cases he with
    | opNums h₁ h₂ hd =>
      cases h₁
      obtain ⟨q, h4, h5⟩ := C56_expressions (ho.sub 1) _ _ h.val e _ h₂
      obtain rfl := h5.num_inv
      exact ⟨.num (.num _), by rw [h4, Res.ok_bind, op_nums _ _ _ _ hd], rfl⟩
    | opLeft h₁ h₂ hd =>
      cases h₁
      obtain ⟨q, h4, h5⟩ := C56_expressions (ho.sub 1) _ _ h.val e _ h₂
      obtain ⟨z, rfl, hz⟩ := h5.fn_inv
      obtain ⟨w, h6, h7⟩ := sbin_left (ho.sub 0) o hz r hd
      exact ⟨.jet w, by simp only [h4, Res.ok_bind, POp.runSS, h6], h7⟩
    | opFns h₁ h₂ hd => cases h₁
    | opRight h₁ h₂ hd => cases h₁

/-- **C56.** A Python program of assignments and in-place operators on sparse scalars and numbers,
with any sharing of objects between names: if it has a meaning, it ends normally — for every iteration
order of the hash tables — and afterwards every name holds exactly the number, or the object with
exactly the value and the partial derivatives of the function, that the program assigns to it. -/
theorem C56_programs {ord : Order XReal} (ho : ord.Ok) (p : List (SPyStmt ℝ V)) (σ σ' : SMathSt V)
    (hp : SPyDen x p σ σ') (st : SPySt XReal V) (h : st.IsAt x σ) :
    ∃ st', spyRun ord (p.map fun s => s.map XReal.num) st = (.ok (), st') ∧ st'.IsAt x σ' := by
  induction hp generalizing st ord with
  | nil σ => exact ⟨st, rfl, h⟩
  | cons hs _ ih =>
    obtain ⟨st₁, h1, h2⟩ := stmt_exact (ho.sub 0) h hs
    obtain ⟨st₂, h3, h4⟩ := ih (ho.sub 1) st₁ h2
    exact ⟨st₂, by simp only [List.map_cons, spyRun, h1, h3], h4⟩

/-- **C56 violated.**  With `s` and `t` names of the same object (for example `t` itself), the
statement `t *= s` leaves `f·d + f·(f·d)` instead of the derivative `2·f·d` of the square. -/
theorem C56_violated_mul_self {ord : Order XReal} (st : SPySt XReal V) (t s : V) (a : Nat)
    (ht : st.env t = .ref a) (hs : st.env s = .ref a) (F : (String → ℝ) → ℝ)
    (h : SIsAt x (st.heap a) F) :
    ∃ st', (SPyStmt.upd .mul t (.name s)).run ord st = (.ok (), st') ∧
      (st'.heap a).f = .ok (XReal.num (F x * F x)) ∧
      (∀ k g, (st.heap a).d k = XReal.num g →
        (st'.heap a).d k = XReal.num (F x * g + F x * (F x * g))) ∧
      (SIsAt x (st'.heap a) (fun y => F y * F y) ↔
        F x = 0 ∨ F x = 1 ∨ ∀ k, (st.heap a).d k = XReal.num 0) := by
  have ha := accumSelf_spec (fun u w => w +ₛ XReal.num (F x) *ₛ u)
    (m := scale (st.heap a).mD (XReal.num (F x))) (by rw [(scale_spec _).1]; exact h.wf.nodup)
  let r : SS XReal := ⟨some (XReal.num (F x) *ₛ XReal.num (F x)), SS.accumInto (ord.sub 0)
    (fun u w => w +ₛ XReal.num (F x) *ₛ u) (scale (st.heap a).mD (XReal.num (F x))) .self⟩
  have hr : SIs r (XReal.num (F x * F x)) _ := ⟨rfl, ha.1, ha.2⟩
  have hd : ∀ k g, (st.heap a).d k = XReal.num g →
      r.d k = XReal.num (F x * g + F x * (F x * g)) := by
    intro k g hg
    rw [SS.d_eq hr, (scale_spec _).2]
    rw [SS.d_eq h.is] at hg
    rcases h.entry k with hk | ⟨w, hk⟩
    · rw [hk] at hg ⊢
      have : g = 0 := by simpa using hg.symm
      simp [this]
    · rw [hk] at hg ⊢
      have : w = g := by simpa using hg
      simp [this]; ring
  refine ⟨st.write a r, ?_, ?_⟩
  · simp only [SPyStmt.run, SPyE.eval, SPySt.val, ht, hs, SPySt.operand, if_true, POp.asgSS,
      SS.mulAssign, SS.Operand.get, h.f, Res.ok_bind, SPySt.change, r]
  have hw : (st.write a r).heap a = r := by simp [SPySt.write]
  rw [hw]
  refine ⟨SS.f_ok hr, hd, ?_⟩
  have hsq : ∀ k g, HasDerivAt (fun u => F (Function.update x k u)) g (x k) →
      HasDerivAt (fun u => F (Function.update x k u) * F (Function.update x k u))
        (F x * g + F x * g) (x k) := by
    intro k g hg
    have := hg.mul hg
    rw [Function.update_eq_self] at this
    exact this.congr_deriv (by ring)
  constructor
  · intro hi
    by_cases h0 : F x = 0
    · exact Or.inl h0
    by_cases h1 : F x = 1
    · exact Or.inr (Or.inl h1)
    refine Or.inr (Or.inr fun k => ?_)
    obtain ⟨g, hg, hg'⟩ := h.d k
    obtain ⟨q, hq, hq'⟩ := hi.d k
    rw [hd k g hg] at hq
    have e1 : q = F x * g + F x * (F x * g) := by simpa using hq.symm
    have e2 := hq'.unique (hsq k g hg')
    have : F x * ((F x - 1) * g) = 0 := by rw [e1] at e2; linear_combination e2
    rcases mul_eq_zero.1 this with h2 | h2
    · exact absurd h2 h0
    · rcases mul_eq_zero.1 h2 with h3 | h3
      · exact absurd (sub_eq_zero.1 h3) h1
      · rw [hg, h3]
  · intro hc
    refine ⟨hr.wf, SS.f_ok hr, fun k => ?_⟩
    obtain ⟨g, hg, hg'⟩ := h.d k
    refine ⟨_, hd k g hg, (hsq k g hg').congr_deriv ?_⟩
    rcases hc with hc | hc | hc
    · rw [hc]; ring
    · rw [hc]; ring
    · rw [hc k] at hg
      have : g = 0 := by simpa using hg.symm
      rw [this]; ring

/-- **C56 violated.**  With `s` and `t` names of the same object the statement `t /= s` leaves
`d/f - d/f²` instead of the derivative 0 of the constant 1. -/
theorem C56_violated_div_self {ord : Order XReal} (st : SPySt XReal V) (t s : V) (a : Nat)
    (ht : st.env t = .ref a) (hs : st.env s = .ref a) (F : (String → ℝ) → ℝ)
    (h : SIsAt x (st.heap a) F) (h0 : F x ≠ 0) :
    ∃ st', (SPyStmt.upd .div t (.name s)).run ord st = (.ok (), st') ∧
      (st'.heap a).f = .ok (XReal.num 1) ∧
      ∀ k g, (st.heap a).d k = XReal.num g →
        (st'.heap a).d k = XReal.num (g / F x - g / F x ^ 2) := by
  have ha := accumSelf_spec
    (fun u w => w +ₛ (-ₛ XReal.num (F x) ÷ₛ Arith.powN (XReal.num (F x)) 2) *ₛ u)
    (m := scale (st.heap a).mD (Arith.lit 1 ÷ₛ XReal.num (F x)))
    (by rw [(scale_spec _).1]; exact h.wf.nodup)
  let r : SS XReal := ⟨some (XReal.num (F x) ÷ₛ XReal.num (F x)), SS.accumInto (ord.sub 0)
    (fun u w => w +ₛ (-ₛ XReal.num (F x) ÷ₛ Arith.powN (XReal.num (F x)) 2) *ₛ u)
    (scale (st.heap a).mD (Arith.lit 1 ÷ₛ XReal.num (F x))) .self⟩
  have hr : SIs r (XReal.num (F x) ÷ₛ XReal.num (F x)) _ := ⟨rfl, ha.1, ha.2⟩
  refine ⟨st.write a r, ?_, ?_⟩
  · simp only [SPyStmt.run, SPyE.eval, SPySt.val, ht, hs, SPySt.operand, if_true, POp.asgSS,
      SS.divAssign, SS.Operand.get, h.f, Res.ok_bind, SPySt.change, r]
  have hw : (st.write a r).heap a = r := by simp [SPySt.write]
  rw [hw]
  refine ⟨?_, fun k g hg => ?_⟩
  · rw [SS.f_ok hr, XReal.div_num h0, div_self h0]
  · rw [SS.d_eq hr, (scale_spec _).2]
    rw [SS.d_eq h.is] at hg
    rcases h.entry k with hk | ⟨w, hk⟩
    · rw [hk] at hg ⊢
      have : g = 0 := by simpa using hg.symm
      simp [this]
    · rw [hk] at hg ⊢
      have : w = g := by simpa using hg
      subst this
      simp only [Option.map_some, Option.getD_some, XReal.powN_num, XReal.lit_num, XReal.neg_num,
        XReal.div_num h0, XReal.div_num (pow_ne_zero 2 h0), XReal.mul_num, XReal.add_num,
        XReal.num.injEq, Int.cast_one]
      field_simp
      ring

/-! ### Safety and independence of the iteration order, in any arithmetic -/

section order

variable {α : Type} [CMath α]

/-- Two values that cannot be told apart. -/
def SameVal : SPVal α → SPVal α → Prop
  | .num s, .num s' => s = s'
  | .jet y, .jet y' => SWF y ∧ SWF y' ∧ SameSS y y'
  | _, _ => False

/-- Two outcomes that cannot be told apart, neither of them an abort or undefined behaviour. -/
def SameRes : Res (SPVal α) → Res (SPVal α) → Prop
  | .ok a, .ok b => SameVal a b
  | .throw e, .throw e' => e = e' ∧ (e = .zeroDivision ∨ e = .attributeError ∨ e = .typeError)
  | _, _ => False

omit [DecidableEq V] in
theorem snode_same {ord ord' : Order α} (ho : ord.Ok) (ho' : ord'.Ok) {U : Type} (e : Expr α U)
    (y y' : U → SS α) (h : ∀ v, SWF (y v) ∧ SWF (y' v) ∧ SameSS (y v) (y' v)) :
    ∃ r r', e.evalSS ord y = .ok r ∧ e.evalSS ord' y' = .ok r' ∧ SWF r ∧ SWF r' ∧ SameSS r r' := by
  obtain ⟨r, r', h1, h2, h3⟩ := C42_order_independent ho ho' e y y' (fun v => (h v).1)
    (fun v => (h v).2.1) fun v => (h v).2.2
  have wf : ∀ {ord : Order α}, ord.Ok → ∀ (y : U → SS α), (∀ v, SWF (y v)) → ∀ r,
      e.evalSS ord y = .ok r → SWF r := by
    intro ord ho y hy r hr
    choose w hw using fun v => (hy v).ex
    obtain ⟨r', h1, h2⟩ := evalSS_spec ho y (fun v => (w v, (y v).mD.find)) hw e
    rw [hr] at h1
    cases h1
    exact SIs.wf h2
  exact ⟨r, r', h1, h2, wf ho y (fun v => (h v).1) r h1, wf ho' y' (fun v => (h v).2.1) r' h2, h3⟩

omit [CMath α] in
theorem lift_order {ord : Order α} (ho : ord.Ok) : ∃ o' : Order α, o'.Ok ∧ o'.sub 0 = ord :=
  ⟨fun p => ord p.tail, fun p m => ho p.tail m, rfl⟩

theorem runSS_same {ord ord' : Order α} (ho : ord.Ok) (ho' : ord'.Ok) (o : POp)
    {a a' b b' : SPVal α} (ha : SameVal a a') (hb : SameVal b b') :
    SameRes (o.runSS ord a b) (o.runSS ord' a' b') := by
  obtain ⟨p, hp, rfl⟩ := lift_order ho
  obtain ⟨q, hq, rfl⟩ := lift_order ho'
  cases a with
  | num s =>
    cases a' with
    | jet _ => exact ha.elim
    | num s' =>
    obtain rfl : s = s' := ha
    cases b with
    | num u =>
      cases b' with
      | jet _ => exact hb.elim
      | num u' =>
      obtain rfl : u = u' := hb
      simp only [POp.runSS]
      have : (∃ r, o.nums s u = .ok r) ∨ o.nums s u = .throw .zeroDivision := by
        cases o with
        | div =>
          simp only [POp.nums]
          split
          · exact Or.inr rfl
          · exact Or.inl ⟨_, rfl⟩
        | _ => exact Or.inl ⟨_, rfl⟩
      rcases this with ⟨r, h⟩ | h
      · simp only [h, Res.ok_bind]; rfl
      · simp only [h]; exact ⟨rfl, Or.inl rfl⟩
    | jet z =>
      cases b' with
      | num _ => exact hb.elim
      | jet z' =>
      obtain ⟨r, r', h1, h2, h3⟩ := snode_same hp hq (U := Unit) (.sbin o.left (.var ()) s)
        (fun _ => z) (fun _ => z') fun _ => hb
      simp only [Expr.evalSS, Res.ok_bind] at h1 h2
      simp only [POp.runSS, h1, h2, Res.ok_bind]
      exact h3
  | jet y =>
    cases a' with
    | num _ => exact ha.elim
    | jet y' =>
    cases b with
    | num u =>
      cases b' with
      | jet _ => exact hb.elim
      | num u' =>
      obtain rfl : u = u' := hb
      obtain ⟨r, r', h1, h2, h3⟩ := snode_same hp hq (U := Unit) (.sbin o.right (.var ()) u)
        (fun _ => y) (fun _ => y') fun _ => ha
      simp only [Expr.evalSS, Res.ok_bind] at h1 h2
      simp only [POp.runSS, h1, h2, Res.ok_bind]
      exact h3
    | jet z =>
      cases b' with
      | num _ => exact hb.elim
      | jet z' =>
      obtain ⟨r, r', h1, h2, h3⟩ := snode_same hp hq (U := Bool)
        (.bin o.bin (.var true) (.var false)) (fun b => if b then y else z)
        (fun b => if b then y' else z') fun b => by cases b; exacts [hb, ha]
      simp only [Expr.evalSS, Res.ok_bind, if_true, Bool.false_eq_true, if_false] at h1 h2
      simp only [POp.runSS, h1, h2, Res.ok_bind]
      exact h3

omit [DecidableEq V] in
/-- Continue with related values. -/
theorem SameRes.bind {r r' : Res (SPVal α)} (h : SameRes r r')
    {k k' : SPVal α → Res (SPVal α)} (hk : ∀ a a', SameVal a a' → SameRes (k a) (k' a')) :
    SameRes (r >>= k) (r' >>= k') := by
  cases r <;> cases r' <;> first | exact h.elim | exact hk _ _ h | exact h

omit [DecidableEq V] in
/-- Evaluating an expression never aborts and is never undefined, and the result does not depend on
the iteration orders. -/
theorem eval_same (e : SPyE α V) (hk : e.DictOk) {ord ord' : Order α} (ho : ord.Ok)
    (ho' : ord'.Ok) {ρ ρ' : V → SPVal α} (hρ : ∀ v, SameVal (ρ v) (ρ' v)) :
    SameRes (e.eval ord ρ) (e.eval ord' ρ') := by
  induction e generalizing ord ord' with
  | name v => exact hρ v
  | lit s => exact rfl
  | const s =>
    have h1 := SS.is_constant ho s
    have h2 := SS.is_constant ho' s
    exact ⟨SIs.wf h1, SIs.wf h2, h1.same h2 rfl fun _ => rfl⟩
  | vari k s =>
    have h1 := SS.is_var ho k s
    have h2 := SS.is_var ho' k s
    exact ⟨SIs.wf h1, SIs.wf h2, h1.same h2 rfl fun _ => rfl⟩
  | make s d =>
    have h1 := SS.is_make ho (m := d) hk (fun _ => rfl) s
    have h2 := SS.is_make ho' (m := d) hk (fun _ => rfl) s
    exact ⟨SIs.wf h1, SIs.wf h2, h1.same h2 rfl fun _ => rfl⟩
  | neg e ih =>
    simp only [SPyE.eval]
    refine (ih hk (ho.sub 1) (ho'.sub 1)).bind fun a a' h => ?_
    cases a <;> cases a' <;> first | exact h.elim | skip
    · exact congrArg _ h
    · obtain ⟨r, r', h1, h2, h3⟩ := snode_same ho ho' (U := Unit) (.neg (.var ())) (fun _ => _)
        (fun _ => _) fun _ => h
      simp only [Expr.evalSS, Res.ok_bind] at h1 h2
      simp only [h1, h2, Res.ok_bind]
      exact h3
  | abs e ih =>
    simp only [SPyE.eval]
    refine (ih hk (ho.sub 1) (ho'.sub 1)).bind fun a a' h => ?_
    cases a <;> cases a' <;> first | exact h.elim | skip
    · obtain rfl := (show _ = _ from h)
      exact rfl
    · obtain ⟨r, r', h1, h2, h3⟩ := snode_same ho ho' (U := Unit) (.abs (.var ())) (fun _ => _)
        (fun _ => _) fun _ => h
      simp only [Expr.evalSS, Res.ok_bind] at h1 h2
      simp only [h1, h2, Res.ok_bind]
      exact h3
  | fn φ e ih =>
    simp only [SPyE.eval]
    refine (ih hk (ho.sub 1) (ho'.sub 1)).bind fun a a' h => ?_
    cases a <;> cases a' <;> first | exact h.elim | skip
    · exact ⟨rfl, Or.inr (Or.inl rfl)⟩
    · obtain ⟨r, r', h1, h2, h3⟩ := snode_same ho ho' (U := Unit) (.fn φ (.var ())) (fun _ => _)
        (fun _ => _) fun _ => h
      simp only [Expr.evalSS, Res.ok_bind] at h1 h2
      simp only [h1, h2, Res.ok_bind]
      exact h3
  | op o e₁ e₂ ih₁ ih₂ =>
    simp only [SPyE.eval]
    refine (ih₁ hk.1 (ho.sub 1) (ho'.sub 1)).bind fun a a' ha => ?_
    refine (ih₂ hk.2 (ho.sub 2) (ho'.sub 2)).bind fun b b' hb => ?_
    exact runSS_same (ho.sub 0) (ho'.sub 0) o ha hb
  | atan2 e₁ e₂ ih₁ ih₂ =>
    simp only [SPyE.eval]
    refine (ih₁ hk.1 (ho.sub 1) (ho'.sub 1)).bind fun a a' ha => ?_
    refine (ih₂ hk.2 (ho.sub 2) (ho'.sub 2)).bind fun b b' hb => ?_
    cases a <;> cases a' <;> first | exact ha.elim | skip
    · cases b <;> cases b' <;> exact ⟨rfl, Or.inr (Or.inl rfl)⟩
    · cases b <;> cases b' <;> first | exact hb.elim | skip
      · exact ⟨rfl, Or.inr (Or.inr rfl)⟩
      rename_i y y' z z'
      obtain ⟨r, r', h1, h2, h3⟩ := snode_same ho ho' (U := Bool)
        (.bin .atan2 (.var true) (.var false)) (fun b => if b then y else z)
        (fun b => if b then y' else z') fun b => by cases b; exacts [hb, ha]
      simp only [Expr.evalSS, Res.ok_bind, if_true, Bool.false_eq_true, if_false, Bin.runS] at h1 h2
      simp only [h1, h2, Res.ok_bind]
      exact h3
  | hypot e₁ e₂ ih₁ ih₂ =>
    simp only [SPyE.eval]
    refine (ih₁ hk.1 (ho.sub 1) (ho'.sub 1)).bind fun a a' ha => ?_
    refine (ih₂ hk.2 (ho.sub 2) (ho'.sub 2)).bind fun b b' hb => ?_
    cases a <;> cases a' <;> first | exact ha.elim | skip
    · cases b <;> cases b' <;> exact ⟨rfl, Or.inr (Or.inl rfl)⟩
    · cases b <;> cases b' <;> first | exact hb.elim | skip
      · exact ⟨rfl, Or.inr (Or.inr rfl)⟩
      rename_i y y' z z'
      obtain ⟨r, r', h1, h2, h3⟩ := snode_same ho ho' (U := Bool)
        (.bin .hypot (.var true) (.var false)) (fun b => if b then y else z)
        (fun b => if b then y' else z') fun b => by cases b; exacts [hb, ha]
      simp only [Expr.evalSS, Res.ok_bind, if_true, Bool.false_eq_true, if_false, Bin.runS] at h1 h2
      simp only [h1, h2, Res.ok_bind]
      exact h3
  | hypot3 e₁ e₂ e₃ ih₁ ih₂ ih₃ =>
    simp only [SPyE.eval]
    refine (ih₁ hk.1 (ho.sub 1) (ho'.sub 1)).bind fun a a' ha => ?_
    refine (ih₂ hk.2.1 (ho.sub 2) (ho'.sub 2)).bind fun b b' hb => ?_
    refine (ih₃ hk.2.2 (ho.sub 3) (ho'.sub 3)).bind fun c c' hc => ?_
    cases a <;> cases a' <;> first | exact ha.elim | skip
    · cases b <;> cases b' <;> exact ⟨rfl, Or.inr (Or.inl rfl)⟩
    · cases b <;> cases b' <;> first | exact hb.elim | skip
      · exact ⟨rfl, Or.inr (Or.inr rfl)⟩
      cases c <;> cases c' <;> first | exact hc.elim | skip
      · exact ⟨rfl, Or.inr (Or.inr rfl)⟩
      rename_i y y' z z' w w'
      obtain ⟨r, r', h1, h2, h3⟩ := snode_same ho ho' (U := Fin 3)
        (.hypot3 (.var 0) (.var 1) (.var 2)) ![y, z, w] ![y', z', w']
        fun b => by fin_cases b; exacts [ha, hb, hc]
      simp only [Expr.evalSS, Res.ok_bind] at h1 h2
      replace h1 : SS.hypot3 (ord.sub 0) y z w = .ok r := h1
      replace h2 : SS.hypot3 (ord'.sub 0) y' z' w' = .ok r' := h2
      simp only [h1, h2, Res.ok_bind]
      exact h3
  | getF e ih =>
    simp only [SPyE.eval]
    refine (ih hk (ho.sub 1) (ho'.sub 1)).bind fun a a' h => ?_
    cases a <;> cases a' <;> first | exact h.elim | skip
    · exact ⟨rfl, Or.inr (Or.inl rfl)⟩
    · rename_i y y'
      obtain ⟨v, hv⟩ := SWF.ex h.1
      have hf := h.2.2.f
      simp only [← hf, SS.f_ok hv, Res.ok_bind]
      rfl
  | getD e k ih =>
    simp only [SPyE.eval]
    refine (ih hk (ho.sub 1) (ho'.sub 1)).bind fun a a' h => ?_
    cases a <;> cases a' <;> first | exact h.elim | skip
    · exact ⟨rfl, Or.inr (Or.inl rfl)⟩
    · exact h.2.2.d k

theorem asg_wf {ord : Order α} (ho : ord.Ok) (o : POp) {y r : SS α} {b : SS.Operand α} (hy : SWF y)
    (hb : OperandWF b) (h : o.asgSS ord y b = .ok r) : SWF r := by
  obtain ⟨v, hv⟩ := hy.ex
  have hw : ∃ w, (b.get y).f = .ok w := by
    cases b with
    | self => exact ⟨v, SS.f_ok hv⟩
    | obj z => obtain ⟨w, hw⟩ := SWF.ex (x := z) hb; exact ⟨w, SS.f_ok hw⟩
  obtain ⟨w, hw⟩ := hw
  have nd : ∀ (g : α → α → α) (m : SMap α), m.keys.Nodup → (SS.accumInto ord g m b).keys.Nodup := by
    intro g m hm
    cases b with
    | self => exact (accumSelf_spec g hm).1
    | obj z => exact (accumInto_spec ho g hm (y := z) hb).1
  have sc : ∀ t, (scale y.mD t).keys.Nodup := fun t => by rw [(scale_spec t).1]; exact hy.nodup
  cases o <;> simp only [POp.asgSS, SS.addAssign, SS.subAssign, SS.mulAssign, SS.divAssign,
    SS.f_ok hv, hw, Res.ok_bind] at h <;> cases h
  · exact ⟨by simp, nd _ _ hy.nodup⟩
  · exact ⟨by simp, nd _ _ hy.nodup⟩
  · exact ⟨by simp, nd _ _ (sc _)⟩
  · exact ⟨by simp, nd _ _ (sc _)⟩

omit [DecidableEq V] in
theorem SPySt.WF.sameVal {st st' : SPySt α V} (hw : st.WF) (hw' : st'.WF) (h : SameSt st st') (v : V) :
    SameVal (st.val v) (st'.val v) := by
  have he := congrFun h.env v
  simp only [SPySt.val, ← he]
  cases hv : st.env v with
  | num s => exact rfl
  | ref a =>
    have ha := hw.env v a hv
    exact ⟨hw.obj a ha, hw'.obj a (h.next ▸ ha), h.obj a ha⟩

/-- Two outcomes of statements: the same way of ending, proper states that cannot be told apart. -/
structure SameOut (q q' : Res Unit × SPySt α V) : Prop where
  out : q.1 = q'.1
  safe : q.1 = .ok () ∨ q.1 = .throw .zeroDivision ∨ q.1 = .throw .attributeError ∨
    q.1 = .throw .typeError
  wf : q.2.WF
  wf' : q'.2.WF
  same : SameSt q.2 q'.2

section run

variable {st st' : SPySt α V} (hw : st.WF) (hw' : st'.WF) (h : SameSt st st')

include hw hw' h

theorem store_same (t : V) {r r' : Res (SPVal α)} (hr : SameRes r r') :
    SameOut (st.store t r) (st'.store t r') := by
  cases r with
  | ok a =>
    cases r' with
    | ok a' =>
      cases a with
      | num s =>
        cases a' with
        | jet _ => exact False.elim hr
        | num s' =>
        obtain rfl : s = s' := hr
        refine ⟨rfl, Or.inl rfl, ⟨fun v b hv => ?_, hw.obj⟩, ⟨fun v b hv => ?_, hw'.obj⟩, ?_, h.next, h.obj⟩
        · simp only [SPySt.store, SPySt.fresh, SPySt.bind] at hv
          by_cases hvt : v = t
          · simp [hvt] at hv
          · simp only [hvt, if_false] at hv; exact hw.env v b hv
        · simp only [SPySt.store, SPySt.fresh, SPySt.bind] at hv
          by_cases hvt : v = t
          · simp [hvt] at hv
          · simp only [hvt, if_false] at hv; exact hw'.env v b hv
        · simp only [SPySt.store, SPySt.fresh, SPySt.bind, h.env]
      | jet y =>
        cases a' with
        | num _ => exact False.elim hr
        | jet y' =>
        obtain ⟨h1, h2, h3⟩ := (show SWF y ∧ SWF y' ∧ SameSS y y' from hr)
        have hn := h.next
        refine ⟨rfl, Or.inl rfl, ⟨fun v b hv => ?_, fun b hb => ?_⟩, ⟨fun v b hv => ?_, fun b hb => ?_⟩,
          ?_, ?_, fun b hb => ?_⟩
        · simp only [SPySt.store, SPySt.fresh, SPySt.bind, SPySt.write] at hv ⊢
          by_cases hvt : v = t
          · simp only [hvt, if_true, PyV.ref.injEq] at hv; omega
          · simp only [hvt, if_false] at hv; have := hw.env v b hv; omega
        · simp only [SPySt.store, SPySt.fresh, SPySt.bind, SPySt.write] at hb ⊢
          by_cases hbn : b = st.next
          · simp only [hbn, if_true]; exact h1
          · simp only [hbn, if_false]; exact hw.obj b (by omega)
        · simp only [SPySt.store, SPySt.fresh, SPySt.bind, SPySt.write] at hv ⊢
          by_cases hvt : v = t
          · simp only [hvt, if_true, PyV.ref.injEq] at hv; omega
          · simp only [hvt, if_false] at hv; have := hw'.env v b hv; omega
        · simp only [SPySt.store, SPySt.fresh, SPySt.bind, SPySt.write] at hb ⊢
          by_cases hbn : b = st'.next
          · simp only [hbn, if_true]; exact h2
          · simp only [hbn, if_false]; exact hw'.obj b (by omega)
        · simp only [SPySt.store, SPySt.fresh, SPySt.bind, SPySt.write, h.env, hn]
        · simp only [SPySt.store, SPySt.fresh, SPySt.bind, SPySt.write, hn]
        · simp only [SPySt.store, SPySt.fresh, SPySt.bind, SPySt.write, hn] at hb ⊢
          by_cases hbn : b = st'.next
          · simp only [hbn, if_true]; exact h3
          · simp only [hbn, if_false]; exact h.obj b (by omega)
    | throw => exact False.elim hr
    | abort => exact False.elim hr
    | ub => exact False.elim hr
  | throw e =>
    cases r' with
    | throw e' =>
      obtain ⟨rfl, h1⟩ := hr
      refine ⟨rfl, Or.inr ?_, hw, hw', h⟩
      rcases h1 with rfl | rfl | rfl
      · exact Or.inl rfl
      · exact Or.inr (Or.inl rfl)
      · exact Or.inr (Or.inr rfl)
    | ok => exact False.elim hr
    | abort => exact False.elim hr
    | ub => exact False.elim hr
  | abort => cases r' <;> exact False.elim hr
  | ub => cases r' <;> exact False.elim hr

omit [DecidableEq V] in
theorem change_same (a : Nat) {r r' : SS α} (h1 : SWF r) (h2 : SWF r') (h3 : SameSS r r') :
    SameOut (st.change a (.ok r)) (st'.change a (.ok r')) := by
  refine ⟨rfl, Or.inl rfl, ⟨hw.env, fun b hb => ?_⟩, ⟨hw'.env, fun b hb => ?_⟩, h.env, h.next,
    fun b hb => ?_⟩ <;>
  · simp only [SPySt.change, SPySt.write] at hb ⊢
    by_cases hba : b = a
    · simp only [hba, if_true]; assumption
    · simp only [hba, if_false]
      first | exact hw.obj b hb | exact hw'.obj b hb | exact h.obj b hb

/-- One statement. -/
theorem run_same {ord ord' : Order α} (ho : ord.Ok) (ho' : ord'.Ok) (s : SPyStmt α V)
    (hk : s.DictOk) : SameOut (s.run ord st) (s.run ord' st') := by
  cases s with
  | assign t e =>
    by_cases hn : ∃ s, e = .name s
    · obtain ⟨s, rfl⟩ := hn
      have he := h.env
      refine ⟨rfl, Or.inl rfl, ⟨fun v b hv => ?_, hw.obj⟩, ⟨fun v b hv => ?_, hw'.obj⟩, ?_, h.next, h.obj⟩
      · simp only [SPyStmt.run, SPySt.bind] at hv
        by_cases hvt : v = t
        · simp only [hvt, if_true] at hv; exact hw.env s b hv
        · simp only [hvt, if_false] at hv; exact hw.env v b hv
      · simp only [SPyStmt.run, SPySt.bind] at hv
        by_cases hvt : v = t
        · simp only [hvt, if_true] at hv; exact hw'.env s b hv
        · simp only [hvt, if_false] at hv; exact hw'.env v b hv
      · simp only [SPyStmt.run, SPySt.bind, he]
    · have := store_same hw hw' h t (eval_same e hk (ho.sub 1) (ho'.sub 1) (hw.sameVal hw' h))
      cases e with
      | name s => exact absurd ⟨s, rfl⟩ hn
      | _ => exact this
  | upd o t e =>
    have hev := eval_same e hk (ho.sub 1) (ho'.sub 1) (hw.sameVal hw' h)
    have he := congrFun h.env t
    simp only [SPyStmt.run, ← he]
    cases hr : e.eval (ord.sub 1) st.val with
    | ok y =>
      cases hr' : e.eval (ord'.sub 1) st'.val with
      | ok y' =>
        rw [hr, hr'] at hev
        cases hv : st.env t with
        | num s =>
          exact store_same hw hw' h t (runSS_same (ho.sub 0) (ho'.sub 0) o (a := .num s) (a' := .num s)
            rfl hev)
        | ref a =>
          have ha := hw.env t a hv
          have w1 := hw.obj a ha
          have w2 := hw'.obj a (h.next ▸ ha)
          have w3 := h.obj a ha
          cases y with
          | num s =>
            cases y' with
            | jet _ => exact False.elim hev
            | num s' =>
            obtain rfl : s = s' := hev
            have wm : ∀ {y : SS α}, SWF y → ∀ s r, y.mulAssignS s = .ok r → SWF r := by
              intro y hy s r h
              obtain ⟨v, hv⟩ := hy.ex
              have h1 := accumSelf_spec (fun _ w => w *ₛ s) hy.nodup
              simp only [SS.mulAssignS, SS.f_ok hv, Res.ok_bind] at h
              cases h
              exact ⟨by simp, h1.1⟩
            have sm : ∀ s, ∃ r r', (st.heap a).mulAssignS s = .ok r ∧
                (st'.heap a).mulAssignS s = .ok r' ∧ SameSS r r' := by
              intro s
              obtain ⟨v, hv⟩ := w1.ex
              have hv' := w3.is w2 hv
              have h1 := accumSelf_spec (fun _ w => w *ₛ s) w1.nodup
              have h2 := accumSelf_spec (fun _ w => w *ₛ s) w2.nodup
              have e1 : SIs (⟨some (v *ₛ s), accumSelf (fun _ w => w *ₛ s) (st.heap a).mD⟩ : SS α)
                (v *ₛ s) _ := ⟨rfl, h1.1, h1.2⟩
              have e2 : SIs (⟨some (v *ₛ s), accumSelf (fun _ w => w *ₛ s) (st'.heap a).mD⟩ : SS α)
                (v *ₛ s) _ := ⟨rfl, h2.1, h2.2⟩
              exact ⟨_, _, by simp only [SS.mulAssignS, SS.f_ok hv, Res.ok_bind],
                by simp only [SS.mulAssignS, SS.f_ok hv', Res.ok_bind],
                e1.same e2 rfl fun k => by rw [← hv'.look k]⟩
            have sh : SameRes (o.runSS (ord.sub 0) (.jet (st.heap a)) (.num s))
                (o.runSS (ord'.sub 0) (.jet (st'.heap a)) (.num s)) :=
              runSS_same (ho.sub 0) (ho'.sub 0) o (a := .jet _) (a' := .jet _) (b := .num s)
                (b' := .num s) ⟨w1, w2, w3⟩ rfl
            cases o with
            | add => exact store_same hw hw' h t sh
            | sub => exact store_same hw hw' h t sh
            | mul =>
              obtain ⟨r, r', h1, h2, h3⟩ := sm s
              simp only [h1, h2]
              exact change_same hw hw' h a (wm w1 _ _ h1) (wm w2 _ _ h2) h3
            | div =>
              obtain ⟨r, r', h1, h2, h3⟩ := sm (Arith.lit 1 ÷ₛ s)
              simp only [SS.divAssignS, h1, h2]
              exact change_same hw hw' h a (wm w1 _ _ h1) (wm w2 _ _ h2) h3
          | jet y =>
            cases y' with
            | num _ => exact False.elim hev
            | jet y' =>
            obtain ⟨g1, g2, g3⟩ := (show SWF y ∧ SWF y' ∧ SameSS y y' from hev)
            have hop : OperandWF (st.operand a e y) ∧ OperandWF (st'.operand a e y') ∧
                SameOperand (st.operand a e y) (st'.operand a e y') := by
              cases e with
              | name s =>
                simp only [SPySt.operand, ← congrFun h.env s]
                cases st.env s with
                | num _ => exact ⟨g1, g2, g3⟩
                | ref b =>
                  by_cases hba : b = a
                  · simp only [hba, if_true]; exact ⟨trivial, trivial, trivial⟩
                  · simp only [hba, if_false]; exact ⟨g1, g2, g3⟩
              | _ => exact ⟨g1, g2, g3⟩
            obtain ⟨q1, q2, q3⟩ := hop
            have hc := C42_assign (ho.sub 0) (ho'.sub 0) _ _ _ _ w1 w2 q1 q2 w3 q3
            have : ∃ r r', o.asgSS (ord.sub 0) (st.heap a) (st.operand a e y) = .ok r ∧
                o.asgSS (ord'.sub 0) (st'.heap a) (st'.operand a e y') = .ok r' ∧ SameSS r r' := by
              cases o
              exacts [hc.1, hc.2.1, hc.2.2.1, hc.2.2.2]
            obtain ⟨r, r', h1, h2, h3⟩ := this
            simp only [h1, h2]
            exact change_same hw hw' h a (asg_wf (ho.sub 0) o w1 q1 h1) (asg_wf (ho'.sub 0) o w2 q2 h2)
              h3
      | throw => rw [hr, hr'] at hev; exact False.elim hev
      | abort => rw [hr, hr'] at hev; exact False.elim hev
      | ub => rw [hr, hr'] at hev; exact False.elim hev
    | throw x =>
      cases hr' : e.eval (ord'.sub 1) st'.val with
      | throw x' =>
        rw [hr, hr'] at hev
        exact store_same hw hw' h t (r := .throw x) (r' := .throw x') hev
      | ok => rw [hr, hr'] at hev; exact False.elim hev
      | abort => rw [hr, hr'] at hev; exact False.elim hev
      | ub => rw [hr, hr'] at hev; exact False.elim hev
    | abort => rw [hr] at hev; cases hr' : e.eval (ord'.sub 1) st'.val <;> rw [hr'] at hev <;>
        exact False.elim hev
    | ub => rw [hr] at hev; cases hr' : e.eval (ord'.sub 1) st'.val <;> rw [hr'] at hev <;>
        exact False.elim hev

end run

/-- **C56, in any arithmetic.** However the hash tables are iterated, a program ends in the same way
and leaves states that cannot be told apart. -/
theorem C56_order_independent {ord ord' : Order α} (ho : ord.Ok) (ho' : ord'.Ok)
    (p : List (SPyStmt α V)) (hk : ∀ s ∈ p, s.DictOk) (st st' : SPySt α V) (hw : st.WF)
    (hw' : st'.WF) (h : SameSt st st') :
    (spyRun ord p st).1 = (spyRun ord' p st').1 ∧ SameSt (spyRun ord p st).2 (spyRun ord' p st').2 := by
  induction p generalizing ord ord' st st' with
  | nil => exact ⟨rfl, h⟩
  | cons s p ih =>
    have hs := run_same hw hw' h (ho.sub 0) (ho'.sub 0) s (hk s (by simp))
    simp only [spyRun]
    obtain ⟨out, safe, wf, wf', same⟩ := hs
    generalize s.run (ord.sub 0) st = q at out safe wf same ⊢
    generalize s.run (ord'.sub 0) st' = q' at out wf' same ⊢
    obtain ⟨a, q⟩ := q
    obtain ⟨a', q'⟩ := q'
    dsimp only at out safe wf wf' same
    subst out
    rcases safe with rfl | rfl | rfl | rfl
    · exact ih (ho.sub 1) (ho'.sub 1) (fun s hs => hk s (List.mem_cons_of_mem _ hs)) q q' wf wf' same
    all_goals exact ⟨rfl, same⟩

/-- **C56, in any arithmetic.** A program on proper objects ends normally or raises
`ZeroDivisionError`, `AttributeError` or `TypeError`: it never aborts and is never undefined; all
objects stay proper. -/
theorem C56_safe {ord : Order α} (ho : ord.Ok) (p : List (SPyStmt α V)) (hk : ∀ s ∈ p, s.DictOk)
    (st : SPySt α V) (hw : st.WF) :
    ((spyRun ord p st).1 = .ok () ∨ (spyRun ord p st).1 = .throw .zeroDivision ∨
      (spyRun ord p st).1 = .throw .attributeError ∨ (spyRun ord p st).1 = .throw .typeError) ∧
    (spyRun ord p st).2.WF := by
  induction p generalizing ord st with
  | nil => exact ⟨Or.inl rfl, hw⟩
  | cons s p ih =>
    have hself : SameSt st st := ⟨rfl, rfl, fun a _ => ⟨rfl, rfl, fun _ => rfl, fun _ => Iff.rfl⟩⟩
    have hs := run_same hw hw hself (ho.sub 0) (ho.sub 0) s (hk s (by simp))
    simp only [spyRun]
    obtain ⟨-, safe, wf, -, -⟩ := hs
    generalize s.run (ord.sub 0) st = q at safe wf ⊢
    obtain ⟨a, q⟩ := q
    dsimp only at safe wf
    rcases safe with rfl | rfl | rfl | rfl
    · exact ih (ho.sub 1) (fun s hs => hk s (List.mem_cons_of_mem _ hs)) q wf
    · exact ⟨Or.inr (Or.inl rfl), wf⟩
    · exact ⟨Or.inr (Or.inr (Or.inl rfl)), wf⟩
    · exact ⟨Or.inr (Or.inr (Or.inr rfl)), wf⟩

end order

/-! ### Concrete cases -/

section samples

/-- All names are bound to the number 5; there are no objects. -/
noncomputable def exSPy : SPySt XReal (Fin 3) := ⟨fun _ => .num (.num 5), fun _ => SS.default, 0⟩
/-- Its meaning. -/
noncomputable def exSMath : SMathSt (Fin 3) := ⟨fun _ => .num 5, fun _ _ => 0, 0⟩

theorem exSPy_isAt (x : String → ℝ) : exSPy.IsAt x exSMath :=
  ⟨rfl, fun _ => Or.inl ⟨5, rfl, rfl⟩, fun _ h => absurd h (by simp [exSMath])⟩

/-- The point `a = 3`, everything else 2. -/
noncomputable def exPoint : String → ℝ := fun k => if k = "a" then 3 else 2

/-- `x = SScalar.variable("a", 3); y = x; y *= z; y += y; z = (x * x).log() + 1`:
`y *= z` and `y += y` also change `x`. -/
def exSPyProg : List (SPyStmt ℝ (Fin 3)) :=
  [.assign 0 (.vari "a" 3), .assign 1 (.name 0), .upd .mul 1 (.name 2), .upd .add 1 (.name 1),
    .assign 2 (.op .add (.fn .log (.op .mul (.name 0) (.name 0))) (.lit 1))]

/-- Afterwards `x` and `y` are the function `10 a`, and `z` is `log (100 a²) + 1`. -/
example : ∃ st', spyRun exRev (exSPyProg.map fun s => s.map XReal.num) exSPy = (.ok (), st') ∧
    (st'.val 0).IsAt exPoint (.fn fun y => 10 * y "a") ∧
    (st'.val 1).IsAt exPoint (.fn fun y => 10 * y "a") ∧
    (st'.val 2).IsAt exPoint (.fn fun y => Real.log (10 * y "a" * (10 * y "a")) + 1) := by
  obtain ⟨st', h1, h2⟩ := C56_programs (x := exPoint) exRev_ok exSPyProg exSMath _
    (.cons (.assign (.vari "a" 3) (by simp))
      (.cons (.share 1 0)
        (.cons (.updScale (a := 0) (s := 5) rfl (.name 2) (Or.inl rfl) (by simp))
          (.cons (.updFn (a := 0) rfl (.name 1) (by simp) (by simp))
            (.cons (.assign (.opRight (F := fun y => Real.log _) (.fn (φ := .log)
                (.opFns (.name 0) (.name 0) (by simp)) (by
                  change (0 : ℝ) < _
                  simp [SMathSt.write, SMathSt.fresh, SMathSt.bind, POp.den, exPoint, exSMath]))
                (.lit 1) (by simp)) (by simp))
              (.nil _))))))
    exSPy (exSPy_isAt _)
  have e : ∀ y : String → ℝ, (3 + (y "a" - exPoint "a")) * 5 + (3 + (y "a" - exPoint "a")) * 5 =
      10 * y "a" := fun y => by simp [exPoint]; ring
  have h3 := h2.val
  refine ⟨st', h1, ?_, ?_, ?_⟩
  · simp only [← e]; exact h3 0
  · simp only [← e]; exact h3 1
  · simp only [← e]; exact h3 2

/-- `SScalar(7, {"a": 2, "b": -1}).d("b")` is -1, and the product with the variable `b` (value 2) has
the derivative `-1·2 + 7` with respect to `b`. -/
example : ∃ r, ((SPyE.op .mul (.make 7 [("a", 2), ("b", -1)]) (.vari "b" 2) :
      SPyE ℝ (Fin 3)).map XReal.num).eval exFwd exSPy.val = .ok r ∧
    r.IsAt exPoint (.fn fun y => (7 + (2 * (y "a" - 3) + -1 * (y "b" - 2))) * y "b") := by
  obtain ⟨r, h1, h2⟩ := C56_expressions (x := exPoint) exFwd_ok exSMath.val exSPy.val
    (exSPy_isAt _).val (SPyE.op .mul (.make 7 [("a", 2), ("b", -1)]) (.vari "b" 2)) _
    (.opFns (.make 7 _ (by decide)) (.vari "b" 2) (by simp))
  refine ⟨r, h1, ?_⟩
  have e : (fun y : String → ℝ => (7 + (2 * (y "a" - 3) + -1 * (y "b" - 2))) * y "b") =
      fun y => POp.mul.den (7 + (([("a", 2), ("b", -1)] : SMap ℝ).map
        fun e => e.2 * (y e.1 - exPoint e.1)).sum) (2 + (y "b" - exPoint "b")) := by
    funext y; simp [POp.den, exPoint]
  rw [e]; exact h2

/-- Two names of the variable `a` with value 3. -/
noncomputable def exSPyShared : SPySt XReal (Fin 3) :=
  ⟨fun _ => .ref 0, fun _ => SS.var exFwd "a" (.num 3), 1⟩

theorem exSPyShared_at : SIsAt exPoint (exSPyShared.heap 0) fun y => y "a" := by
  have h := isAt_var (x := exPoint) exFwd_ok "a" 3
  have e : (fun y : String → ℝ => 3 + (y "a" - exPoint "a")) = fun y => y "a" := by
    funext y; simp [exPoint]
  rw [e] at h
  exact h

/-- `x *= y` for two names of `a = 3`: the derivative becomes 12, not 6. -/
example : ∃ st', (SPyStmt.upd .mul 0 (.name 1)).run exRev exSPyShared = (.ok (), st') ∧
    (st'.heap 0).d "a" = XReal.num 12 ∧
    ¬ SIsAt exPoint (st'.heap 0) (fun y => y "a" * y "a") := by
  have hd : (exSPyShared.heap 0).d "a" = XReal.num 1 := by
    simp [exSPyShared, SS.d_eq (SS.is_var exFwd_ok "a" (XReal.num 3))]
  obtain ⟨st', h1, _, h2, h3⟩ := C56_violated_mul_self (ord := exRev) exSPyShared 0 1 0 rfl rfl _
    exSPyShared_at
  refine ⟨st', h1, ?_, fun h => ?_⟩
  · have := h2 "a" 1 hd
    rw [this]
    norm_num [exPoint]
  · rcases h3.1 h with h | h | h
    · norm_num [exPoint] at h
    · norm_num [exPoint] at h
    · rw [h "a"] at hd; norm_num at hd

/-- `x /= x` for `a = 3`: the derivative becomes `1/3 - 1/9`, not 0. -/
example : ∃ st', (SPyStmt.upd .div 0 (.name 0)).run exRev exSPyShared = (.ok (), st') ∧
    (st'.heap 0).d "a" = XReal.num (2 / 9) := by
  have hd : (exSPyShared.heap 0).d "a" = XReal.num 1 := by
    simp [exSPyShared, SS.d_eq (SS.is_var exFwd_ok "a" (XReal.num 3))]
  obtain ⟨st', h1, _, h2⟩ := C56_violated_div_self (ord := exRev) exSPyShared 0 0 0 rfl rfl _
    exSPyShared_at (by norm_num [exPoint])
  refine ⟨st', h1, ?_⟩
  rw [h2 "a" 1 hd]
  norm_num [exPoint]

theorem exSPyShared_wf : exSPyShared.WF where
  env := fun v a h => by
    simp only [exSPyShared, PyV.ref.injEq] at h
    simp [exSPyShared, ← h]
  obj := fun _ _ => (SS.is_var exFwd_ok "a" (XReal.num 3)).wf

/-- A program that makes a second object, changes both, and then fails: `y = -x; x *= x;
y -= x.hypot(y); x = z.d("a") / 0`. -/
noncomputable def exSPyFail : List (SPyStmt XReal (Fin 3)) :=
  [.assign 1 (.neg (.name 0)), .upd .mul 0 (.name 0), .upd .sub 1 (.hypot (.name 0) (.name 1)),
    .assign 0 (.op .div (.getD (.name 2) "a") (.lit (.num 0)))]

example : (spyRun exRev exSPyFail exSPyShared).1 = (spyRun exFwd exSPyFail exSPyShared).1 ∧
    SameSt (spyRun exRev exSPyFail exSPyShared).2 (spyRun exFwd exSPyFail exSPyShared).2 :=
  C56_order_independent exRev_ok exFwd_ok exSPyFail
    (by intro s hs; fin_cases hs <;> simp [SPyStmt.DictOk, SPyE.DictOk]) exSPyShared exSPyShared
    exSPyShared_wf exSPyShared_wf ⟨rfl, rfl, fun _ _ => ⟨rfl, rfl, fun _ => rfl, fun _ => Iff.rfl⟩⟩

example : (spyRun exRev exSPyFail exSPyShared).2.WF :=
  (C56_safe exRev_ok exSPyFail
    (by intro s hs; fin_cases hs <;> simp [SPyStmt.DictOk, SPyE.DictOk]) exSPyShared
    exSPyShared_wf).2

end samples

end HJ
