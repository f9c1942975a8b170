import Verif.Spec.PyMath
import Verif.Props.PyHeap

/-!
# C54: Python programs compute exact derivatives
-/

namespace HJ

open DD

variable {V W : Type} {c : Cfg} {n : Nat}

/-- Adding a constant to a function changes only the value of its jet. -/
theorem IsJet.shift {o : Nat} {F : (Fin n → ℝ) → ℝ} {x : Fin n → ℝ} {K : Jet ℝ}
    (h : IsJet o n F x K) (a : ℝ) : IsJet o n (fun y => F y + a) x { K with f := K.f + a } where
  value := by rw [h.value]
  grad := h.grad.add_const a
  near ho := by
    filter_upwards [h.near ho] with y hy using hy.add_const a
  hess ho i := by
    have : (fun y => fderiv ℝ (fun y => F y + a) y (Pi.single i 1)) =
        fun y => fderiv ℝ F y (Pi.single i 1) := by
      funext y; rw [fderiv_add_const]
    rw [this]; exact h.hess ho i

/-- One operation on jets of functions. -/
theorem node (hv : c.Valid) (hfit : c.tsize = -1 ∨ c.tsize = n) {U : Type} (e : Expr ℝ U)
    (u : U → (Fin n → ℝ) → ℝ) (x : Fin n → ℝ) (y : U → DD XReal)
    (h : ∀ v, (PVal.jet (y v)).IsAt c n x (.fn (u v)))
    (hD : e.Dom c.order fun v => u v x) (hR : e.Regular fun v => u v x) :
    ∃ r, (e.map XReal.num).evalDD c n y = .ok r ∧
      (PVal.jet r).IsAt c n x (.fn fun z => e.den fun v => u v z) := by
  choose J hJ using h
  obtain ⟨r, h1, h2⟩ := C18_chain_rule hv hfit e u x y J (fun v => (hJ v).1) (fun v => (hJ v).2) hR
  exact ⟨r, h1, h2 (Or.inl hD)⟩

theorem PVal.IsAt.num_inv {x : Fin n → ℝ} {a : PVal XReal} {r : ℝ} (h : a.IsAt c n x (.num r)) :
    a = .num (XReal.num r) := by
  cases a with
  | num s => exact congrArg PVal.num h
  | jet y => exact h.elim

theorem PVal.IsAt.fn_inv {x : Fin n → ℝ} {a : PVal XReal} {F : (Fin n → ℝ) → ℝ}
    (h : a.IsAt c n x (.fn F)) : ∃ y, a = .jet y ∧ (PVal.jet y).IsAt c n x (.fn F) := by
  cases a with
  | num s => exact h.elim
  | jet y => exact ⟨y, rfl, h⟩

theorem PVal.IsAt.wf {x : Fin n → ℝ} {a : PVal XReal} {m : PMath n} (h : a.IsAt c n x m) :
    a.WF c n := by
  cases a with
  | num s => exact trivial
  | jet y =>
    cases m with
    | num r => exact h.elim
    | fn F => obtain ⟨K, hK, _⟩ := h; exact hK.wf

/-- **C54.** If an expression has a meaning — every operation is applied inside its domain — then
evaluating it ends normally, and the result is the number, or a jet with exactly the value, the
gradient and (order 2) the Hessian of the function the expression stands for. -/
theorem C54_expressions (hv : c.Valid) (hfit : c.tsize = -1 ∨ c.tsize = n) (x : Fin n → ℝ)
    (σ : V → PMath n) (ρ : V → PVal XReal) (hρ : ∀ v, (ρ v).IsAt c n x (σ v)) (e : PyE ℝ V)
    (m : PMath n) (h : e.Den c.order x σ m) :
    ∃ r, (e.map XReal.num).eval c n ρ = .ok r ∧ r.IsAt c n x m := by
  induction h with
  | name v => exact ⟨ρ v, rfl, hρ v⟩
  | lit s => exact ⟨.num (.num s), rfl, rfl⟩
  | const s =>
    obtain ⟨r, h1, h2⟩ := node hv hfit (U := Empty) (.const s) (fun v => v.elim) x (fun v => v.elim)
      (fun v => v.elim) trivial trivial
    simp only [Expr.map, Expr.evalDD] at h1
    exact ⟨.jet r, by simp only [PyE.map, PyE.eval, h1, Res.ok_bind], h2⟩
  | vari i s =>
    have h1 := var_obj (c := c) (n := n) hfit i.2 (XReal.num s)
    refine ⟨.jet _, by simp only [PyE.map, PyE.eval]; rw [h1, Res.ok_bind], varJet i s,
      (good_var i.2 s).shows hv.order hfit, ?_⟩
    have h2 := (isJet_var c.order x i).shift (s - x i)
    have e1 : (fun y : Fin n → ℝ => y i + (s - x i)) = fun y => s + (y i - x i) := by
      funext y; ring
    rw [e1] at h2
    have e2 : { varJet i (x i) with f := (varJet i (x i)).f + (s - x i) } = varJet i s := by
      simp [varJet]
    rwa [e2] at h2
  | negNum _ ih =>
    obtain ⟨a, h1, h2⟩ := ih
    obtain rfl := h2.num_inv
    exact ⟨.num (.num _), by simp only [PyE.map, PyE.eval, h1, Res.ok_bind, XReal.neg_num], rfl⟩
  | neg _ ih =>
    rename_i e F _
    obtain ⟨a, h1, h2⟩ := ih
    obtain ⟨y, rfl, hy⟩ := h2.fn_inv
    obtain ⟨r, h3, h4⟩ := node hv hfit (U := Unit) (.neg (.var ())) (fun _ => F) x (fun _ => y)
      (fun _ => hy) trivial trivial
    simp only [Expr.map, Expr.evalDD, Res.ok_bind] at h3
    exact ⟨.jet r, by simp only [PyE.map, PyE.eval, h1, h3, Res.ok_bind], h4⟩
  | absNum _ ih =>
    rename_i e s _
    obtain ⟨a, h1, h2⟩ := ih
    obtain rfl := h2.num_inv
    refine ⟨.num (.num |s|), ?_, rfl⟩
    simp only [PyE.map, PyE.eval, h1, Res.ok_bind]
    by_cases hs : s < 0
    · have : Cmp.ltB (XReal.num s) (Arith.lit 0) = true := by
        simp [Cmp.ltB, XReal.lt, hs]
      simp only [this, if_true, XReal.neg_num, abs_of_neg hs]
    · have : Cmp.ltB (XReal.num s) (Arith.lit 0) = false := by
        simp [Cmp.ltB, XReal.lt, hs]
      simp only [this, Bool.false_eq_true, if_false, abs_of_nonneg (not_lt.1 hs)]
  | abs _ hd ih =>
    rename_i e F _
    obtain ⟨a, h1, h2⟩ := ih
    obtain ⟨y, rfl, hy⟩ := h2.fn_inv
    obtain ⟨r, h3, h4⟩ := node hv hfit (U := Unit) (.abs (.var ())) (fun _ => F) x (fun _ => y)
      (fun _ => hy) trivial ⟨trivial, hd⟩
    simp only [Expr.map, Expr.evalDD, Res.ok_bind] at h3
    exact ⟨.jet r, by simp only [PyE.map, PyE.eval, h1, h3, Res.ok_bind], h4⟩
  | fn _ hd ih =>
    rename_i φ e F _
    obtain ⟨a, h1, h2⟩ := ih
    obtain ⟨y, rfl, hy⟩ := h2.fn_inv
    obtain ⟨r, h3, h4⟩ := node hv hfit (U := Unit) (.fn φ (.var ())) (fun _ => F) x (fun _ => y)
      (fun _ => hy) ⟨trivial, hd⟩ trivial
    simp only [Expr.map, Expr.evalDD, Res.ok_bind] at h3
    exact ⟨.jet r, by simp only [PyE.map, PyE.eval, h1, h3, Res.ok_bind], h4⟩
  | opNums _ _ hd ih₁ ih₂ =>
    rename_i o e₁ e₂ s t _ _
    obtain ⟨a, h1, h2⟩ := ih₁
    obtain ⟨b, h3, h4⟩ := ih₂
    obtain rfl := h2.num_inv
    obtain rfl := h4.num_inv
    refine ⟨.num (.num (o.den s t)), ?_, rfl⟩
    simp only [PyE.map, PyE.eval, h1, h3, Res.ok_bind, POp.run]
    cases o with
    | add => rfl
    | sub => simp only [POp.nums, XReal.sub_num, Res.ok_bind, POp.den]
    | mul => rfl
    | div =>
      have ht := hd rfl
      have : Cmp.eqB (XReal.num t) (Arith.lit 0) = false := by
        simp [Cmp.eqB, XReal.eq, ht]
      simp only [POp.nums, this, XReal.div_num ht, Res.ok_bind, POp.den, Bool.false_eq_true, if_false]
  | opFns _ _ hd ih₁ ih₂ =>
    rename_i o e₁ e₂ F G _ _
    obtain ⟨a, h1, h2⟩ := ih₁
    obtain ⟨b, h3, h4⟩ := ih₂
    obtain ⟨y, rfl, hy⟩ := h2.fn_inv
    obtain ⟨z, rfl, hz⟩ := h4.fn_inv
    have hD : o.bin.dom (F x) (G x) := by
      cases o with
      | div => exact hd rfl
      | _ => trivial
    have hR : o.bin.reg (F x) (G x) := by cases o <;> trivial
    obtain ⟨r, h5, h6⟩ := node hv hfit (U := Bool) (.bin o.bin (.var true) (.var false))
      (fun b => if b then F else G) x (fun b => if b then y else z)
      (fun b => by cases b; exacts [hz, hy]) ⟨trivial, trivial, hD⟩ ⟨trivial, trivial, hR⟩
    simp only [Expr.map, Expr.evalDD, Res.ok_bind, if_true, Bool.false_eq_true, if_false] at h5
    refine ⟨.jet r, by simp only [PyE.map, PyE.eval, h1, h3, Res.ok_bind, POp.run, h5], ?_⟩
    cases o <;> exact h6
  | opRight _ _ hd ih₁ ih₂ =>
    rename_i o e₁ e₂ F t _ _
    obtain ⟨a, h1, h2⟩ := ih₁
    obtain ⟨b, h3, h4⟩ := ih₂
    obtain ⟨y, rfl, hy⟩ := h2.fn_inv
    obtain rfl := h4.num_inv
    have hD : o.right.dom (F x) t := by
      cases o with
      | div => exact hd rfl
      | _ => trivial
    obtain ⟨r, h5, h6⟩ := node hv hfit (U := Unit) (.sbin o.right (.var ()) t)
      (fun _ => F) x (fun _ => y) (fun _ => hy) ⟨trivial, hD⟩ trivial
    simp only [Expr.map, Expr.evalDD, Res.ok_bind] at h5
    refine ⟨.jet r, by simp only [PyE.map, PyE.eval, h1, h3, Res.ok_bind, POp.run, h5], ?_⟩
    cases o <;> exact h6
  | opLeft _ _ hd ih₁ ih₂ =>
    rename_i o e₁ e₂ s G _ _
    obtain ⟨a, h1, h2⟩ := ih₁
    obtain ⟨b, h3, h4⟩ := ih₂
    obtain rfl := h2.num_inv
    obtain ⟨z, rfl, hz⟩ := h4.fn_inv
    have hD : o.left.dom (G x) s := by
      cases o with
      | div => exact hd rfl
      | _ => trivial
    obtain ⟨r, h5, h6⟩ := node hv hfit (U := Unit) (.sbin o.left (.var ()) s)
      (fun _ => G) x (fun _ => z) (fun _ => hz) ⟨trivial, hD⟩ trivial
    simp only [Expr.map, Expr.evalDD, Res.ok_bind] at h5
    refine ⟨.jet r, by simp only [PyE.map, PyE.eval, h1, h3, Res.ok_bind, POp.run, h5], ?_⟩
    cases o <;> exact h6
  | atan2 _ _ hd ih₁ ih₂ =>
    rename_i e₁ e₂ F G _ _
    obtain ⟨a, h1, h2⟩ := ih₁
    obtain ⟨b, h3, h4⟩ := ih₂
    obtain ⟨y, rfl, hy⟩ := h2.fn_inv
    obtain ⟨z, rfl, hz⟩ := h4.fn_inv
    have hD : Bin.atan2.dom (F x) (G x) := by
      rintro ⟨h5, h6⟩
      rcases hd with h | h
      · exact h h5
      · rw [h6] at h; exact lt_irrefl _ h
    obtain ⟨r, h5, h6⟩ := node hv hfit (U := Bool) (.bin .atan2 (.var true) (.var false))
      (fun b => if b then F else G) x (fun b => if b then y else z)
      (fun b => by cases b; exacts [hz, hy]) ⟨trivial, trivial, hD⟩ ⟨trivial, trivial, hd⟩
    simp only [Expr.map, Expr.evalDD, Res.ok_bind, if_true, Bool.false_eq_true, if_false,
      Bin.run] at h5
    exact ⟨.jet r, by simp only [PyE.map, PyE.eval, h1, h3, Res.ok_bind, h5], h6⟩
  | hypot _ _ hd ih₁ ih₂ =>
    rename_i e₁ e₂ F G _ _
    obtain ⟨a, h1, h2⟩ := ih₁
    obtain ⟨b, h3, h4⟩ := ih₂
    obtain ⟨y, rfl, hy⟩ := h2.fn_inv
    obtain ⟨z, rfl, hz⟩ := h4.fn_inv
    have hD : Bin.hypot.dom (F x) (G x) := by
      rintro ⟨h5, h6⟩
      exact hd.elim (fun h => h h5) (fun h => h h6)
    obtain ⟨r, h5, h6⟩ := node hv hfit (U := Bool) (.bin .hypot (.var true) (.var false))
      (fun b => if b then F else G) x (fun b => if b then y else z)
      (fun b => by cases b; exacts [hz, hy]) ⟨trivial, trivial, hD⟩ ⟨trivial, trivial, trivial⟩
    simp only [Expr.map, Expr.evalDD, Res.ok_bind, if_true, Bool.false_eq_true, if_false,
      Bin.run] at h5
    exact ⟨.jet r, by simp only [PyE.map, PyE.eval, h1, h3, Res.ok_bind, h5], h6⟩
  | hypot3 _ _ _ hd ih₁ ih₂ ih₃ =>
    rename_i e₁ e₂ e₃ F G H _ _ _
    obtain ⟨a, h1, h2⟩ := ih₁
    obtain ⟨b, h3, h4⟩ := ih₂
    obtain ⟨b', h5, h6⟩ := ih₃
    obtain ⟨y, rfl, hy⟩ := h2.fn_inv
    obtain ⟨z, rfl, hz⟩ := h4.fn_inv
    obtain ⟨w, rfl, hw⟩ := h6.fn_inv
    have hD : ¬ (F x = 0 ∧ G x = 0 ∧ H x = 0) := by
      rintro ⟨h5, h6, h7⟩
      exact hd.elim (fun h => h h5) fun h => h.elim (fun h => h h6) (fun h => h h7)
    obtain ⟨r, h7, h8⟩ := node hv hfit (U := Fin 3) (.hypot3 (.var 0) (.var 1) (.var 2))
      ![F, G, H] x ![y, z, w] (fun b => by fin_cases b; exacts [hy, hz, hw])
      ⟨trivial, trivial, trivial, hD⟩ ⟨trivial, trivial, trivial⟩
    simp only [Expr.map, Expr.evalDD, Res.ok_bind] at h7
    exact ⟨.jet r, by
      simp only [PyE.map, PyE.eval, h1, h3, h5, Res.ok_bind]
      erw [h7]; rfl, h8⟩
  | getF _ ih =>
    rename_i e F _
    obtain ⟨a, h1, h2⟩ := ih
    obtain ⟨y, rfl, K, hy, hK⟩ := h2.fn_inv
    exact ⟨.num (.num (F x)), by
      simp only [PyE.map, PyE.eval, h1, Res.ok_bind, hy.f, Jet.lift, hK.value], rfl⟩

variable [DecidableEq V] [DecidableEq W]

theorem IsAt_set {x : Fin n → ℝ} {σ : V → PMath n} {ρ : V → PVal XReal}
    (hρ : ∀ v, (ρ v).IsAt c n x (σ v)) (t : V) {r : PVal XReal} {m : PMath n} (h : r.IsAt c n x m) :
    ∀ v, (if v = t then r else ρ v).IsAt c n x (setMath σ t m v) := by
  intro v
  unfold setMath
  by_cases hvt : v = t
  · rw [if_pos hvt, if_pos hvt]; exact h
  · rw [if_neg hvt, if_neg hvt]; exact hρ v

omit [DecidableEq W] in
theorem values_exact (hv : c.Valid) (hfit : c.tsize = -1 ∨ c.tsize = n) (x : Fin n → ℝ)
    {σ σ' : V → PMath n} {ρ : V → PVal XReal} (hρ : ∀ v, (ρ v).IsAt c n x (σ v))
    {s : PyStmt ℝ V W} (h : s.Den c.order x σ σ') :
    ∃ ρ', (s.map XReal.num).values c n ρ = (.ok (), ρ') ∧ ∀ v, (ρ' v).IsAt c n x (σ' v) := by
  cases h with
  | assign h =>
    rename_i t e m
    obtain ⟨r, h1, h2⟩ := C54_expressions hv hfit x σ ρ hρ e m h
    exact ⟨_, by simp only [PyStmt.map, PyStmt.values, h1, assignVal], IsAt_set hρ t h2⟩
  | upd h =>
    rename_i o t e m
    obtain ⟨r, h1, h2⟩ := C54_expressions hv hfit x σ ρ hρ _ m h
    simp only [PyE.map] at h1
    exact ⟨_, by simp only [PyStmt.map, PyStmt.values, h1, assignVal], IsAt_set hρ t h2⟩
  | setF h =>
    rename_i t s F
    have ht := hρ t
    rw [h] at ht
    obtain ⟨y, hy, K, h1, h2⟩ := ht.fn_inv
    obtain ⟨z, h3, h4⟩ := (C03_framed_writes hv h1 (XReal.num s)).1
    refine ⟨fun v => if v = t then .jet z else ρ v, ?_,
      IsAt_set hρ t ⟨{ K with f := s }, h4, ?_⟩⟩
    · simp only [PyStmt.map, PyStmt.values, hy, PVal.set, h3, Res.ok_bind, assignVal]
    · have h5 := h2.shift (s - F x)
      rw [← h2.value] at h5
      simpa using h5

omit [DecidableEq V] [DecidableEq W] in
theorem PyStmt.plain_map {α β : Type} (f : α → β) (s : PyStmt α V W) (h : s.Plain) :
    (s.map f).Plain := by
  cases s with
  | assign t e => cases e <;> simp_all [PyStmt.Plain, PyStmt.map, PyE.map]
  | upd o t e =>
    intro ho he
    apply h ho
    cases e <;> simp_all [PyE.map]
  | _ => exact h

/-- **C54.** A Python program of assignments, in-place operators and `t.f = s` (no second name for
an object, no `t *= t` and no `t /= t`), started with names that hold the jets of real functions at
`x` or real numbers: if the program has a meaning, it ends normally and every name holds exactly the
number, or exactly value, gradient and Hessian of the function, that the program assigns to it. -/
theorem C54_programs (hv : c.Valid) (hfit : c.tsize = -1 ∨ c.tsize = n) (hn : c.order = 2 → 0 < n)
    (x : Fin n → ℝ) (p : List (PyStmt ℝ V W)) (hp : ∀ s ∈ p, s.Plain) (σ σ' : V → PMath n)
    (h : PyDen c.order x p σ σ') (st : PySt XReal V W) (hs : Unshared st)
    (hst : ∀ v, (st.val v).IsAt c n x (σ v)) :
    ∃ st', pyRun c n (p.map fun s => s.map XReal.num) st = (.ok (), st') ∧
      ∀ v, (st'.val v).IsAt c n x (σ' v) := by
  have hval : ∀ (ρ : V → PVal XReal), (∀ v, (ρ v).IsAt c n x (σ v)) →
      ∃ ρ', valRun c n (p.map fun s => s.map XReal.num) ρ = (.ok (), ρ') ∧
        ∀ v, (ρ' v).IsAt c n x (σ' v) := by
    clear hp hst
    induction h with
    | nil σ => exact fun ρ hρ => ⟨ρ, rfl, hρ⟩
    | cons h _ ih =>
      intro ρ hρ
      obtain ⟨ρ', h1, h2⟩ := values_exact hv hfit x hρ h
      obtain ⟨ρ'', h3, h4⟩ := ih ρ' h2
      exact ⟨ρ'', by simp only [List.map_cons, valRun, h1, h3], h4⟩
  obtain ⟨ρ', h1, h2⟩ := hval st.val hst
  obtain ⟨h3, h4⟩ := C52_functional hv hfit xreal_comm hn (p.map fun s => s.map XReal.num)
    (by intro s hs; obtain ⟨s', h5, rfl⟩ := List.mem_map.1 hs; exact s'.plain_map _ (hp s' h5))
    (Or.inr fun x y => (xreal_recipDiv x y).symm) st hs fun v => (hst v).wf
  refine ⟨(pyRun c n (p.map fun s => s.map XReal.num) st).2, ?_, fun v => ?_⟩
  · exact Prod.ext (h3.trans (by rw [h1])) rfl
  · rw [h4 v, h1]; exact h2 v

/-- **C54 violated.**  With `s` and `t` names of the same object (for example `t` itself), the
statement `t *= s` at order 2 leaves the Hessian `2 f h + 4 f g gᵀ` instead of that of the square,
`2 f h + 2 g gᵀ`. -/
theorem C54_violated_mul_self (hv : c.Valid) (h2 : c.order = 2) (hn : 0 < n) (st : PySt XReal V W)
    (t s : V) (a : Nat) (ht : st.env t = .ref a) (hs : st.env s = .ref a) (K : Jet ℝ)
    (hK : Shows c n (st.heap a) K.lift) :
    ∃ r st', (PyStmt.upd .mul t (.name s)).run c n st = (.ok (), st') ∧ st'.val t = .jet r ∧
      Shows c n r (Jet.lift ⟨K.f * K.f, fun i => 2 * K.f * K.g i,
        fun i j => 2 * K.f * K.h i j + 4 * K.f * K.g i * K.g j⟩) := by
  have hsym := fun i j (hi : i < n) (hj : j < n) => hK.sym (i := i) (j := j) h2 hi hj
  obtain ⟨hf, b, hb⟩ := hK.wf.eq_obj hv.order
  rw [hb] at hK
  have hu := hK.unique (shows_obj hv.order hf b)
  have h0 : b 0 = XReal.num K.f := hu.1.symm
  have h1 : ∀ i < n, b (1 + i) = XReal.num (K.g i) := fun i hi => (hu.2.1 i hi).symm
  have h3 : ∀ i j, i ≤ j → j < n → b (pos n i j) = XReal.num (K.h i j) := by
    intro i j hij hj
    have := hu.2.2 h2 i j (by omega) hj
    simp only [jetOf, hij, if_true] at this
    exact this.symm
  have hrun := mulAssign_self hv.order (fun _ => hn) hf b
  refine ⟨obj c n (mulAC c n b b fun k => b 0 *ₛ b k +ₛ b 0 *ₛ b k),
    st.write a (obj c n (mulAC c n b b fun k => b 0 *ₛ b k +ₛ b 0 *ₛ b k)), ?_, ?_, ?_⟩
  · simp only [PyStmt.run, PyE.eval, PySt.val, hs, ht, PySt.operand, if_true, POp.asg, AOp.run, hb,
      hrun, PySt.change]
  · simp only [PySt.val, PySt.write, ht, if_true]
  · apply shows_of_obj hv.order hf
    · simp [mulAC, bFin_zero, h0, Jet.lift]
    · intro i hi
      simp only [mulAC]; rw [bFin_succ _ _ _ _ hi]; simp [h0, h1 i hi, Jet.lift]; ring
    · intro _ i j hij hj
      simp only [mulAC]; rw [bFin_pos h2 _ _ _ hij hj]
      simp [h0, h1 i (by omega), h1 j hj, h3 i j hij hj, Jet.lift]; ring
    · intro _ i j hi hj
      have := hsym i j hi hj
      simp only [Jet.lift, XReal.num.injEq] at this ⊢
      rw [this]; ring

/-! ### Concrete cases -/

section samples

/-- Names 0 and 1 are the coordinates, name 2 is the number 5. -/
noncomputable def exMath : Fin 3 → PMath 2 := ![.fn fun y => y 0, .fn fun y => y 1, .num 5]

theorem exPy_isAt : ∀ v, (exPy.val v).IsAt exDyn2 2 ![3, 2] (exMath v) := by
  intro v
  fin_cases v
  · exact ⟨varJet 0 3, (good_var (n := 2) (by omega) 3).shows exDyn2_valid.order (Or.inl rfl),
      isJet_var 2 ![3, 2] 0⟩
  · exact ⟨varJet 1 2, (good_var (n := 2) (by omega) 2).shows exDyn2_valid.order (Or.inl rfl),
      isJet_var 2 ![3, 2] 1⟩
  · rfl

/-- `1 - x.log() * k` is `1 - 5 log x`. -/
example : ∃ r, ((PyE.op .sub (.lit 1) (.op .mul (.fn .log (.name 0)) (.name 2)) :
      PyE ℝ (Fin 3)).map XReal.num).eval exDyn2 2 exPy.val = .ok r ∧
    r.IsAt exDyn2 2 ![3, 2] (.fn fun y => 1 - Real.log (y 0) * 5) :=
  C54_expressions exDyn2_valid (Or.inl rfl) ![3, 2] exMath exPy.val exPy_isAt _ _
    (.opLeft (o := .sub) (.lit 1) (.opRight (o := .mul) (.fn (φ := .log) (.name 0)
      (show (0 : ℝ) < 3 by norm_num)) (.name 2) (by simp)) (by simp))

/-- `x *= y + k; y -= x; k = 2 / y; x.f = 7`. -/
def exPyProg2 : List (PyStmt ℝ (Fin 3) (Fin 1)) :=
  [.upd .mul 0 (.op .add (.name 1) (.name 2)), .upd .sub 1 (.name 0),
    .assign 2 (.op .div (.lit 2) (.name 1)), .setF 0 7]

example : ∃ st', pyRun exDyn2 2 (exPyProg2.map fun s => s.map XReal.num) exPy = (.ok (), st') ∧
    (st'.val 0).IsAt exDyn2 2 ![3, 2] (.fn fun y => y 0 * (y 1 + 5) + (7 - 21)) ∧
    (st'.val 1).IsAt exDyn2 2 ![3, 2] (.fn fun y => y 1 - y 0 * (y 1 + 5)) ∧
    (st'.val 2).IsAt exDyn2 2 ![3, 2] (.fn fun y => 2 / (y 1 - y 0 * (y 1 + 5))) := by
  obtain ⟨st', h1, h2⟩ := C54_programs exDyn2_valid (Or.inl rfl) (by simp) ![3, 2] exPyProg2
    (by intro s hs; fin_cases hs <;> simp [PyStmt.Plain]) exMath _
    (.cons (.upd (.opFns (.name 0) (.opRight (.name 1) (.name 2) (by simp)) (by simp)))
      (.cons (.upd (.opFns (.name 1) (.name 0) (by simp)))
        (.cons (.assign (.opLeft (.lit 2) (.name 1) (by
            intro _; simp [POp.den]; norm_num)))
          (.cons (.setF rfl) (.nil _)))))
    exPy exPy_unshared exPy_isAt
  refine ⟨st', h1, ?_, h2 1, h2 2⟩
  have h3 := h2 0
  have e : (7 : ℝ) - 21 = 7 - 3 * (2 + 5) := by norm_num
  rw [e]
  exact h3

/-- `x *= y` where `y` is another name of `x`. -/
example : ∃ r st', (PyStmt.upd .mul 0 (.name 1)).run exDyn2 2 exPyShared = (.ok (), st') ∧
    st'.val 0 = .jet r ∧
      Shows exDyn2 2 r (Jet.lift ⟨3 * 3, fun i => 2 * 3 * (varJet 0 3).g i,
        fun i j => 2 * 3 * (varJet 0 3).h i j + 4 * 3 * (varJet 0 3).g i * (varJet 0 3).g j⟩) :=
  C54_violated_mul_self exDyn2_valid rfl (by omega) exPyShared 0 1 0 rfl rfl (varJet 0 3)
    ((good_var (n := 2) (by omega) 3).shows exDyn2_valid.order (Or.inl rfl))

end samples

end HJ
