import Verif.Spec.PySparse
import Verif.Props.Sparse
import Mathlib.Analysis.Calculus.Deriv.Mul
import Mathlib.Tactic.FinCases

/-!
# Lemmas on Python programs with sparse scalars
-/

namespace HJ

open SMap

variable {V : Type} {x : String → ℝ}

theorem SIsAt.fin {y : SS XReal} {F : (String → ℝ) → ℝ} (h : SIsAt x y F) : FiniteSS y :=
  ⟨⟨_, h.f⟩, fun k => by obtain ⟨g, hg, _⟩ := h.d k; exact ⟨g, hg⟩⟩

theorem SIsAt.same {y z : SS XReal} {F : (String → ℝ) → ℝ} (h : SIsAt x y F) (hs : SameSS z y)
    (hz : SWF z) : SIsAt x z F :=
  ⟨hz, hs.f.trans h.f, fun k => by rw [hs.d k]; exact h.d k⟩

/-- One operation on objects that hold values and derivatives of functions. -/
theorem snode {ord : Order XReal} (ho : ord.Ok) {U : Type} (e : Expr ℝ U)
    (u : U → (String → ℝ) → ℝ) (y : U → SS XReal) (h : ∀ v, SIsAt x (y v) (u v))
    (hD : e.Dom 1 fun v => u v x) (hR : e.Regular fun v => u v x) :
    ∃ r, (e.map XReal.num).evalSS ord y = .ok r ∧ SIsAt x r fun z => e.den fun v => u v z := by
  have key : ∀ k, ∃ r, (e.map XReal.num).evalSS ord y = .ok r ∧
      r.f = .ok (XReal.num (e.den fun v => u v x)) ∧
      ∃ d : ℝ, r.d k = XReal.num d ∧
        HasDerivAt (fun t => e.den fun v => u v (Function.update x k t)) d (x k) := by
    intro k
    choose g hg hu using fun v => (h v).d k
    have he : ∀ v, u v (Function.update x k (x k)) = u v x := fun v => by
      rw [Function.update_eq_self]
    obtain ⟨r, h1, h2⟩ := C40_chain_rule ho e k (fun v t => u v (Function.update x k t)) g (x k) y
      (fun v => (h v).wf) (fun v => (h v).fin) (fun v => by rw [he]; exact (h v).f) hg hu
      (by simp only [he]; exact hR)
    simp only [he] at h2
    obtain ⟨_, h3, h4⟩ := h2 (Or.inl hD)
    exact ⟨r, h1, h3, h4⟩
  obtain ⟨r, h1, h2, _⟩ := key ""
  refine ⟨r, h1, ?_, h2, fun k => ?_⟩
  · obtain ⟨r', h3, h4⟩ := evalSS_spec ho y (fun v => (XReal.num (u v x), (y v).mD.find))
      (fun v => sisV_of_obj (h v).wf (h v).f) (e.map XReal.num)
    rw [h1] at h3
    cases h3
    exact SIs.wf h4
  · obtain ⟨r', h3, _, h4⟩ := key k
    rw [h1] at h3
    cases h3
    exact h4

theorem SPVal.IsAt.num_inv {a : SPVal XReal} {r : ℝ} (h : a.IsAt x (.num r)) :
    a = .num (XReal.num r) := by
  cases a with
  | num s => exact congrArg SPVal.num h
  | jet y => exact h.elim

theorem SPVal.IsAt.fn_inv {a : SPVal XReal} {F : (String → ℝ) → ℝ} (h : a.IsAt x (.fn F)) :
    ∃ y, a = .jet y ∧ SIsAt x y F := by
  cases a with
  | num s => exact h.elim
  | jet y => exact ⟨y, rfl, h⟩

/-- An oracle with given answers below branch 0. -/
theorem Order.lift {ord : Order XReal} (ho : ord.Ok) : ∃ o' : Order XReal, o'.Ok ∧ o'.sub 0 = ord :=
  ⟨fun p => ord p.tail, fun p m => ho p.tail m, rfl⟩

theorem op_nums (ord : Order XReal) (o : POp) (s t : ℝ) (hd : o = .div → t ≠ 0) :
    o.runSS ord (.num (XReal.num s)) (.num (XReal.num t)) = .ok (.num (.num (o.den s t))) := by
  simp only [POp.runSS]
  cases o with
  | add => rfl
  | sub => simp only [POp.nums, XReal.sub_num, Res.ok_bind, POp.den]
  | mul => rfl
  | div =>
    have ht := hd rfl
    have : Cmp.eqB (XReal.num t) (Arith.lit 0) = false := by
      simp [Cmp.eqB, XReal.eq, ht]
    simp only [POp.nums, this, XReal.div_num ht, Res.ok_bind, POp.den, Bool.false_eq_true, if_false]

theorem bin_fns {ord : Order XReal} (ho : ord.Ok) (o : POp) {y z : SS XReal}
    {F G : (String → ℝ) → ℝ} (hy : SIsAt x y F) (hz : SIsAt x z G) (hd : o = .div → G x ≠ 0) :
    ∃ r, o.bin.runS ord y z = .ok r ∧ SIsAt x r fun v => o.den (F v) (G v) := by
  obtain ⟨ord, ho', rfl⟩ := Order.lift ho
  have hD : o.bin.dom (F x) (G x) := by
    cases o with
    | div => exact hd rfl
    | _ => trivial
  have hR : o.bin.reg (F x) (G x) := by cases o <;> trivial
  obtain ⟨r, h5, h6⟩ := snode ho' (U := Bool) (.bin o.bin (.var true) (.var false))
    (fun b => if b then F else G) (fun b => if b then y else z)
    (fun b => by cases b; exacts [hz, hy]) ⟨trivial, trivial, hD⟩ ⟨trivial, trivial, hR⟩
  simp only [Expr.map, Expr.evalSS, Res.ok_bind, if_true, Bool.false_eq_true, if_false] at h5
  refine ⟨r, h5, ?_⟩
  cases o <;> exact h6

theorem sbin_right {ord : Order XReal} (ho : ord.Ok) (o : POp) {y : SS XReal}
    {F : (String → ℝ) → ℝ} (hy : SIsAt x y F) (t : ℝ) (hd : o = .div → t ≠ 0) :
    ∃ r, o.right.runS ord y (XReal.num t) = .ok r ∧ SIsAt x r fun v => o.den (F v) t := by
  obtain ⟨ord, ho', rfl⟩ := Order.lift ho
  have hD : o.right.dom (F x) t := by
    cases o with
    | div => exact hd rfl
    | _ => trivial
  obtain ⟨r, h5, h6⟩ := snode ho' (U := Unit) (.sbin o.right (.var ()) t)
    (fun _ => F) (fun _ => y) (fun _ => hy) ⟨trivial, hD⟩ trivial
  simp only [Expr.map, Expr.evalSS, Res.ok_bind] at h5
  refine ⟨r, h5, ?_⟩
  cases o <;> exact h6

theorem sbin_left {ord : Order XReal} (ho : ord.Ok) (o : POp) {z : SS XReal}
    {G : (String → ℝ) → ℝ} (hz : SIsAt x z G) (s : ℝ) (hd : o = .div → G x ≠ 0) :
    ∃ r, o.left.runS ord z (XReal.num s) = .ok r ∧ SIsAt x r fun v => o.den s (G v) := by
  obtain ⟨ord, ho', rfl⟩ := Order.lift ho
  have hD : o.left.dom (G x) s := by
    cases o with
    | div => exact hd rfl
    | _ => trivial
  obtain ⟨r, h5, h6⟩ := snode ho' (U := Unit) (.sbin o.left (.var ()) s)
    (fun _ => G) (fun _ => z) (fun _ => hz) ⟨trivial, hD⟩ trivial
  simp only [Expr.map, Expr.evalSS, Res.ok_bind] at h5
  refine ⟨r, h5, ?_⟩
  cases o <;> exact h6

/-- The affine function with slopes `d`. -/
theorem hasDeriv_affine (s : ℝ) (d : SMap ℝ) (hd : d.keys.Nodup) (k : String) :
    HasDerivAt (fun t => s + (d.map fun e => e.2 * (Function.update x k t e.1 - x e.1)).sum)
      ((d.find k).getD 0) (x k) := by
  refine HasDerivAt.const_add s ?_
  induction d with
  | nil => simpa using hasDerivAt_const (x k) (0 : ℝ)
  | cons e d ih =>
    rw [keys_cons, List.nodup_cons] at hd
    have ih := ih hd.2
    simp only [List.map_cons, List.sum_cons]
    rw [find_cons]
    by_cases h : e.1 = k
    · subst h
      have hn : SMap.find d e.1 = none := find_none.2 hd.1
      rw [hn] at ih
      simp only [if_true, Option.getD_some, Function.update_self, Option.getD_none] at ih ⊢
      have h1 : HasDerivAt (fun t => e.2 * (t - x e.1)) e.2 (x e.1) := by
        simpa using ((hasDerivAt_id (x e.1)).sub_const (x e.1)).const_mul e.2
      exact (h1.add ih).congr_deriv (add_zero _)
    · simp only [h, if_false, ne_eq, not_false_eq_true, Function.update_of_ne]
      exact ih.const_add _

theorem isAt_make {ord : Order XReal} (ho : ord.Ok) (s : ℝ) (d : SMap ℝ) (hd : d.keys.Nodup) :
    SIsAt x (SS.make ord (XReal.num s) (d.map fun e => (e.1, XReal.num e.2)))
      fun y => s + (d.map fun e => e.2 * (y e.1 - x e.1)).sum := by
  have hk : (d.map fun e => (e.1, XReal.num e.2)).map Prod.fst = d.keys := by
    simp [keys, Function.comp_def]
  have hf : ∀ k, SMap.find (d.map fun e => (e.1, XReal.num e.2)) k = (d.find k).map XReal.num := by
    intro k
    clear hd hk
    induction d with
    | nil => rfl
    | cons e d ih =>
      rw [List.map_cons, find_cons, find_cons, ih]
      by_cases h : e.1 = k <;> simp [h]
  have h := SS.is_make (ord := ord) ho (m := d.map fun e => (e.1, XReal.num e.2))
    (by rw [keys, hk]; exact hd) hf (XReal.num s)
  refine ⟨SIs.wf h, ?_, fun k => ⟨(d.find k).getD 0, ?_, hasDeriv_affine s d hd k⟩⟩
  · rw [SS.f_ok h]; simp
  · rw [SS.d_eq h]
    cases d.find k <;> simp

theorem isAt_constant {ord : Order XReal} (ho : ord.Ok) (s : ℝ) :
    SIsAt x (SS.constant ord (XReal.num s)) fun _ => s := by
  have := isAt_make (x := x) ho s [] (by simp [keys])
  simpa [SS.constant] using this

theorem isAt_var {ord : Order XReal} (ho : ord.Ok) (k : String) (s : ℝ) :
    SIsAt x (SS.var ord k (XReal.num s)) fun y => s + (y k - x k) := by
  have := isAt_make (x := x) ho s [(k, 1)] (by simp [keys])
  simpa [SS.var] using this

/-! ### In-place operators -/

theorem SIsAt.entry {y : SS XReal} {F : (String → ℝ) → ℝ} (h : SIsAt x y F) (k : String) :
    y.mD.find k = none ∨ ∃ v : ℝ, y.mD.find k = some (XReal.num v) := by
  obtain ⟨g, hg, _⟩ := h.d k
  simp only [SS.d] at hg
  cases hk : y.mD.find k with
  | none => exact Or.inl rfl
  | some w => rw [hk] at hg; simp only at hg; exact Or.inr ⟨g, by rw [hg]⟩

theorem SIsAt.is {y : SS XReal} {F : (String → ℝ) → ℝ} (h : SIsAt x y F) :
    SIs y (XReal.num (F x)) y.mD.find := sisV_of_obj h.wf h.f

theorem asg_obj {ord : Order XReal} (ho : ord.Ok) (o : POp) {y z : SS XReal}
    {F G : (String → ℝ) → ℝ} (hy : SIsAt x y F) (hz : SIsAt x z G) (hd : o = .div → G x ≠ 0) :
    ∃ r, o.asgSS ord y (.obj z) = .ok r ∧ SIsAt x r fun v => o.den (F v) (G v) := by
  obtain ⟨r', h1, h2⟩ := bin_fns ho o hy hz hd
  suffices h : ∃ r, o.asgSS ord y (.obj z) = .ok r ∧ SameSS r r' ∧ SWF r by
    obtain ⟨r, h3, h4, h5⟩ := h
    exact ⟨r, h3, h2.same h4 h5⟩
  have iy := hy.is
  have iz := hz.is
  cases o with
  | add =>
    have ha := accumInto_spec ho (fun a b => b +ₛ a) hy.wf.nodup hz.wf
    have hs : SIs (⟨some (XReal.num (F x) +ₛ XReal.num (G x)),
      SS.accumInto ord (fun a b => b +ₛ a) y.mD (.obj z)⟩ : SS XReal) _ _ := ⟨rfl, ha.1, ha.2⟩
    have hb := SS.is_binary (ho.sub 1) iy iz (Arith.lit 1) (Arith.lit 1)
    have hr := SS.is_make (ho.sub 0) hb.1 hb.2 (XReal.num (F x) +ₛ XReal.num (G x))
    simp only [POp.bin, Bin.runS, SS.add, hy.f, hz.f, Res.ok_bind] at h1
    cases h1
    refine ⟨_, by simp only [POp.asgSS, SS.addAssign, SS.Operand.get, hy.f, hz.f, Res.ok_bind],
      hs.same hr rfl ?_, hs.wf⟩
    intro k
    rcases hy.entry k with hk | ⟨a, hk⟩ <;> rcases hz.entry k with hl | ⟨b, hl⟩ <;>
      simp [hk, hl, step]
  | sub =>
    have ha := accumInto_spec ho (fun a b => b -ₛ a) hy.wf.nodup hz.wf
    have hs : SIs (⟨some (XReal.num (F x) -ₛ XReal.num (G x)),
      SS.accumInto ord (fun a b => b -ₛ a) y.mD (.obj z)⟩ : SS XReal) _ _ := ⟨rfl, ha.1, ha.2⟩
    have hb := SS.is_binary (ho.sub 1) iy iz (Arith.lit 1) (Arith.lit (-1))
    have hr := SS.is_make (ho.sub 0) hb.1 hb.2 (XReal.num (F x) -ₛ XReal.num (G x))
    simp only [POp.bin, Bin.runS, SS.sub, hy.f, hz.f, Res.ok_bind] at h1
    cases h1
    refine ⟨_, by simp only [POp.asgSS, SS.subAssign, SS.Operand.get, hy.f, hz.f, Res.ok_bind],
      hs.same hr rfl ?_, hs.wf⟩
    intro k
    rcases hy.entry k with hk | ⟨a, hk⟩ <;> rcases hz.entry k with hl | ⟨b, hl⟩ <;>
      simp [hk, hl, step, sub_eq_add_neg]
  | mul =>
    obtain ⟨r, r'', h3, h4, h5, h6⟩ := C43_mul_assign ho ho y z hy.wf hz.wf
    simp only [POp.bin, Bin.runS] at h1
    rw [h1] at h4
    cases h4
    exact ⟨r, h3, h5, h6⟩
  | div =>
    have hg := hd rfl
    have ha := accumInto_spec ho (fun a b => b +ₛ (-ₛ XReal.num (F x) ÷ₛ Arith.powN (XReal.num (G x)) 2) *ₛ a)
      (m := scale y.mD (Arith.lit 1 ÷ₛ XReal.num (G x)))
      (by rw [(scale_spec _).1]; exact hy.wf.nodup) hz.wf
    have hs : SIs (⟨some (XReal.num (F x) ÷ₛ XReal.num (G x)), SS.accumInto ord
      (fun a b => b +ₛ (-ₛ XReal.num (F x) ÷ₛ Arith.powN (XReal.num (G x)) 2) *ₛ a)
      (scale y.mD (Arith.lit 1 ÷ₛ XReal.num (G x))) (.obj z)⟩ : SS XReal) _ _ := ⟨rfl, ha.1, ha.2⟩
    have hb := SS.is_binary (ho.sub 1) iy iz (Arith.lit 1 ÷ₛ XReal.num (G x))
      (-ₛ XReal.num (F x) ÷ₛ Arith.powN (XReal.num (G x)) 2)
    have hr := SS.is_make (ho.sub 0) hb.1 hb.2 (XReal.num (F x) *ₛ (Arith.lit 1 ÷ₛ XReal.num (G x)))
    simp only [POp.bin, Bin.runS, SS.div, hy.f, hz.f, Res.ok_bind] at h1
    cases h1
    refine ⟨_, by simp only [POp.asgSS, SS.divAssign, SS.Operand.get, hy.f, hz.f, Res.ok_bind],
      hs.same hr ?_ ?_, hs.wf⟩
    · rw [XReal.div_num hg, XReal.lit_num, XReal.div_num hg, XReal.mul_num, Int.cast_one,
        mul_one_div]
    · intro k; rw [(scale_spec _).2]

theorem asg_self {ord : Order XReal} (o : POp) {y : SS XReal} {F : (String → ℝ) → ℝ}
    (hy : SIsAt x y F) (hd : o = .add ∨ o = .sub) :
    ∃ r, o.asgSS ord y .self = .ok r ∧ SIsAt x r fun v => o.den (F v) (F v) := by
  have ho : (exFwd : Order XReal).Ok := exFwd_ok
  obtain ⟨r', h1, h2⟩ := bin_fns ho o hy hy (by rcases hd with rfl | rfl <;> simp)
  suffices h : ∃ r, o.asgSS ord y .self = .ok r ∧ SameSS r r' ∧ SWF r by
    obtain ⟨r, h3, h4, h5⟩ := h
    exact ⟨r, h3, h2.same h4 h5⟩
  have iy := hy.is
  rcases hd with rfl | rfl
  · have ha := accumSelf_spec (fun a b => b +ₛ a) hy.wf.nodup
    have hs : SIs (⟨some (XReal.num (F x) +ₛ XReal.num (F x)),
      SS.accumInto ord (fun a b => b +ₛ a) y.mD .self⟩ : SS XReal) _ _ := ⟨rfl, ha.1, ha.2⟩
    have hb := SS.is_binary (ho.sub 1) iy iy (Arith.lit 1) (Arith.lit 1)
    have hr := SS.is_make (ho.sub 0) hb.1 hb.2 (XReal.num (F x) +ₛ XReal.num (F x))
    simp only [POp.bin, Bin.runS, SS.add, hy.f, Res.ok_bind] at h1
    cases h1
    refine ⟨_, by simp only [POp.asgSS, SS.addAssign, SS.Operand.get, hy.f, Res.ok_bind],
      hs.same hr rfl ?_, hs.wf⟩
    intro k
    rcases hy.entry k with hk | ⟨a, hk⟩ <;> simp [hk, step]
  · have ha := accumSelf_spec (fun a b => b -ₛ a) hy.wf.nodup
    have hs : SIs (⟨some (XReal.num (F x) -ₛ XReal.num (F x)),
      SS.accumInto ord (fun a b => b -ₛ a) y.mD .self⟩ : SS XReal) _ _ := ⟨rfl, ha.1, ha.2⟩
    have hb := SS.is_binary (ho.sub 1) iy iy (Arith.lit 1) (Arith.lit (-1))
    have hr := SS.is_make (ho.sub 0) hb.1 hb.2 (XReal.num (F x) -ₛ XReal.num (F x))
    simp only [POp.bin, Bin.runS, SS.sub, hy.f, Res.ok_bind] at h1
    cases h1
    refine ⟨_, by simp only [POp.asgSS, SS.subAssign, SS.Operand.get, hy.f, Res.ok_bind],
      hs.same hr rfl ?_, hs.wf⟩
    intro k
    rcases hy.entry k with hk | ⟨a, hk⟩ <;> simp [hk, step]

theorem asg_num {y : SS XReal} {F : (String → ℝ) → ℝ} (hy : SIsAt x y F) (t : ℝ) :
    (∃ r, y.mulAssignS (XReal.num t) = .ok r ∧ SIsAt x r fun v => F v * t) ∧
    (t ≠ 0 → ∃ r, y.divAssignS (XReal.num t) = .ok r ∧ SIsAt x r fun v => F v / t) := by
  have ho : (exFwd : Order XReal).Ok := exFwd_ok
  have wfm : ∀ s r, y.mulAssignS s = .ok r → SWF r := by
    intro s r h
    have h1 := accumSelf_spec (fun _ w => w *ₛ s) hy.wf.nodup
    simp only [SS.mulAssignS, hy.f, Res.ok_bind] at h
    cases h
    exact ⟨by simp, h1.1⟩
  constructor
  · obtain ⟨r', h1, h2⟩ := sbin_right ho .mul hy t (by simp)
    obtain ⟨_, ⟨r, r'', h3, h4, h5⟩, _⟩ := C43_scalar_assign ho y hy.wf (XReal.num t)
    simp only [POp.right, SBin.runS] at h1
    rw [h1] at h4
    cases h4
    exact ⟨r, h3, h2.same h5 (wfm _ _ h3)⟩
  · intro ht
    obtain ⟨r', h1, h2⟩ := sbin_right ho .div hy t (fun _ => ht)
    obtain ⟨_, _, r, r'', h3, h4, h5⟩ := C43_scalar_assign ho y hy.wf (XReal.num t)
    simp only [POp.right, SBin.runS] at h1
    rw [h1] at h4
    cases h4
    exact ⟨r, h3, h2.same h5 (wfm _ _ h3)⟩

end HJ
