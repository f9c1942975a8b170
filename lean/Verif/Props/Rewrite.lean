import Verif.Spec.Rewrite
import Verif.Props.Scale

/-!
# C93: rewriting that does not change a bit
-/

namespace HJ

variable {α V Q : Type} {c : Cfg} {n : Nat}

section
variable [CMath α]

theorem SignLaws.mul_neg (M : SignLaws α) (x y : α) : x *ₛ -ₛ y = -ₛ (x *ₛ y) := by
  rw [M.comm.mul_comm, M.neg_mul, M.comm.mul_comm]

omit [CMath α] in
theorem uFin_eq_bFin [Arith α] (a : Nat → α) (f da daa : α) : uFin c n a f da daa =
    bFin c n true f (fun k => da *ₛ a k) fun i j => daa *ₛ a (1 + i) *ₛ a (1 + j) := by
  unfold uFin bFin
  simp

theorem bFin_neg (M : SignLaws α) {f f' : α} {t t' : Nat → α} {u u' : Nat → Nat → α}
    (hf : f' = -ₛ f) (ht : ∀ k, t' k = -ₛ t k) (hu : ∀ i j, u' i j = -ₛ u i j) :
    bFin c n true f' t' u' = fun k => -ₛ bFin c n true f t u k := by
  funext k
  unfold bFin
  split
  · simp only [fin1, hf, ht]
    split <;> rfl
  · simp only [fin2, hf, ht, hu, M.neg_add]
    split
    · rfl
    · split <;> rfl

omit [CMath α] in
theorem bFin_same [Arith α] {f f' : α} {t t' : Nat → α} {u u' : Nat → Nat → α}
    (hf : f' = f) (ht : ∀ k, t' k = t k) (hu : ∀ i j, u' i j = u i j) :
    bFin c n true f' t' u' = bFin c n true f t u := by
  rw [hf, funext ht, funext fun i => funext (hu i)]

theorem Fn.Odd.coef (M : SignLaws α) {φ : Fn α} (h : φ.Odd) (x : α) :
    (φ.coef (-ₛ x)).f = -ₛ (φ.coef x).f ∧ (φ.coef (-ₛ x)).da = (φ.coef x).da ∧
      (φ.coef (-ₛ x)).daa = -ₛ (φ.coef x).daa := by
  have hm := M.mul_neg
  cases h <;>
    simp only
      [Fn.coef, DD.kSin, DD.kAsin, DD.kAtan, DD.kSinh, DD.kTanh, DD.kAsinh, DD.kAtanh, M.sin, M.cos,
      M.asin, M.atan, M.sinh, M.cosh, M.tanh, M.asinh, M.atanh, M.neg_mul, hm, M.neg_div, M.neg_neg, and_self]

theorem Fn.Even.coef (M : SignLaws α) {φ : Fn α} (h : φ.Even) (x : α) :
    (φ.coef (-ₛ x)).f = (φ.coef x).f ∧ (φ.coef (-ₛ x)).da = -ₛ (φ.coef x).da ∧
      (φ.coef (-ₛ x)).daa = (φ.coef x).daa := by
  cases h <;> simp only [Fn.coef, DD.kCos, DD.kCosh, M.sin, M.cos, M.sinh, M.cosh, and_self]

theorem Expr.SameBits.evalC (M : SignLaws α) (ρ : V → Nat → α) {e e' : Expr α V} (h : e.SameBits e') :
    e.evalC c n ρ = e'.evalC c n ρ := by
  have hm := M.mul_neg
  have ac := M.comm.add_comm
  have mc := M.comm.mul_comm
  induction h with
  | refl => rfl
  | symm _ ih => exact ih.symm
  | trans _ _ ih₁ ih₂ => exact ih₁.trans ih₂
  | neg _ ih => simp only [Expr.evalC, ih]
  | abs _ ih => simp only [Expr.evalC, ih]
  | fn φ _ ih => simp only [Expr.evalC, ih]
  | bin o _ _ ih₁ ih₂ => simp only [Expr.evalC, ih₁, ih₂]
  | sbin o s _ ih => simp only [Expr.evalC, ih]
  | hypot3 _ _ _ ih₁ ih₂ ih₃ => simp only [Expr.evalC, ih₁, ih₂, ih₃]
  | add_comm a b => exact funext fun k => ac _ _
  | mul_comm a b => exact bFin_same (mc _ _) (fun k => ac _ _) fun i j => ac _ _
  | hypot_comm a b =>
    simp only [Expr.evalC, Bin.runC, hypotC, bin5]
    rw [M.hypot_comm]
    refine bFin_same rfl (fun k => ac _ _) fun i j => ?_
    rw
      [M.neg_mul, M.neg_mul, mc (a.evalC c n ρ 0) (b.evalC c n ρ 0), ac, ac (_ *ₛ _)
        (_ *ₛ b.evalC c n ρ _),
      ac (_ *ₛ a.evalC c n ρ _) (_ *ₛ b.evalC c n ρ _)]
  | hypot3_comm a b d =>
    simp only [Expr.evalC, hypot3C]
    rw [M.hypot3_comm]
    refine bFin_same rfl (fun k => ?_) fun i j => ?_
    · simp only [tLin]
      rw [ac (_ *ₛ a.evalC c n ρ k)]
    · simp only [tQuad]
      rw
        [mc (a.evalC c n ρ 0) (b.evalC c n ρ 0), ac (a.evalC c n ρ 0 *ₛ a.evalC c n ρ 0)
          (b.evalC c n ρ 0 *ₛ _),
        ac (_ *ₛ a.evalC c n ρ (1 + j)) (_ *ₛ b.evalC c n ρ (1 + j))]
      simp only [ac (_ *ₛ a.evalC c n ρ (1 + i)) (_ *ₛ b.evalC c n ρ (1 + i))]
  | sub_eq a b =>
    funext k
    simp only [Expr.evalC, Bin.runC, subC, addC]
    split
    · rename_i h
      rw [h, M.comm.add_neg]
    · rfl
  | neg_neg a => exact funext fun k => M.neg_neg _
  | neg_add a b => exact funext fun k => M.neg_add _ _
  | neg_mul a b =>
    refine bFin_neg M (M.neg_mul _ _) (fun k => ?_) fun i j => ?_ <;>
      simp only [Expr.evalC, M.neg_mul, hm, M.neg_add]
  | neg_div a b =>
    refine bFin_neg M (M.neg_mul _ _) (fun k => ?_) fun i j => ?_ <;>
      simp only [Expr.evalC, M.neg_mul, hm, M.neg_div, M.neg_neg, M.neg_add]
    rw [← M.neg_add, M.neg_neg]
  | hypot_neg a b =>
    simp only [Expr.evalC, Bin.runC, hypotC, bin5]
    rw [M.hypot_neg]
    refine bFin_same rfl (fun k => ?_) fun i j => ?_ <;>
      simp only [M.neg_mul, hm, M.neg_div, M.neg_neg]
    rw [← M.neg_mul, ← M.neg_add, M.neg_neg]
  | odd a h =>
    obtain ⟨h1, h2, h3⟩ := h.coef M (a.evalC c n ρ 0)
    simp only [Expr.evalC, Fn.runC, uFin_eq_bFin]
    refine bFin_neg M h1 (fun k => ?_) fun i j => ?_ <;>
      simp only [h2, h3, M.neg_mul, hm, M.neg_neg]
  | even a h =>
    obtain ⟨h1, h2, h3⟩ := h.coef M (a.evalC c n ρ 0)
    simp only [Expr.evalC, Fn.runC, uFin_eq_bFin]
    refine bFin_same h1 (fun k => ?_) fun i j => ?_ <;>
      simp only [h2, h3, M.neg_mul, hm, M.neg_neg]
  | s_add a s => rfl
  | s_mul a s => rfl
  | sub_s a s => rfl
  | s_sub a s => rfl
  | div_s a s => rfl
  | neg_add_s a s =>
    funext k
    simp only [Expr.evalC, SBin.runC, addSC]
    split
    · rw [M.neg_add]
    · rfl
  | neg_mul_s a s => exact funext fun k => M.neg_mul _ _
  | mul_s_neg a s => exact funext fun k => hm _ _
  | s_div_neg a s =>
    simp only [Expr.evalC, SBin.runC, uFin_eq_bFin]
    refine bFin_neg M (M.neg_div _ _) (fun k => ?_) fun i j => ?_ <;>
      simp only [M.neg_mul, hm, M.neg_div, M.neg_neg]

/-- **C93, expressions.**  Rewritten expressions give the same object: value, gradient and Hessian are the same
bit for bit, for all operands, in every arithmetic with the rules. -/
theorem C93_expressions (M : SignLaws α) (hv : c.Valid) (hf : c.tsize = -1 ∨ c.tsize = n) {ρ : V → DD α}
    (h : ∀ v, WF c n (ρ v)) {e e' : Expr α V} (he : e.SameBits e') :
    ∃ r, e.evalDD c n ρ = .ok r ∧ e'.evalDD c n ρ = .ok r := by
  choose a ha using fun v => ((h v).eq_obj hv.order).2
  obtain rfl : ρ = fun v => obj c n (a v) := funext ha
  exact ⟨_, evalDD_obj hv.order hf a e, by rw [evalDD_obj hv.order hf a e', he.evalC M a]⟩

variable [DecidableEq V]

theorem AOp.Of.cells (M : SignLaws α) {o : AOp} {b : Bin} (h : AOp.Of o b) (x y : Nat → α) :
    o.cells c n false x y = b.runC c n x y := by
  cases h with
  | add => rfl
  | sub =>
    funext k
    simp only
      [AOp.cells, AOp.updC, Bin.runC, subC, M.comm.add_neg, Bool.false_eq_true, false_and, if_false]
    split
    · rename_i h
      rw [h]
    · rfl
  | mul =>
    simp only [AOp.cells, AOp.updC, Bin.runC, Bool.false_eq_true, false_and, if_false]
    refine bFin_same rfl (fun k => rfl) fun i j => ?_
    rw [M.comm.add_comm, M.comm.mul_comm (x (1 + j))]

theorem Call.SameBits.step (M : SignLaws α) (hv : c.Valid) (hf : Fits c n) (hn : 0 < n) {k k' : Call α V}
    (h : k.SameBits k') (a : V → Nat → α) : ddLibrary α V c n k (fun v => obj c n (a v)) =
      ddLibrary α V c n k' (fun v => obj c n (a v)) := by
  induction h with
  | refl => rfl
  | symm _ ih => exact ih.symm
  | trans _ _ ih₁ ih₂ => exact ih₁.trans ih₂
  | assign t he =>
    simp only [ddLibrary, Stmt.run_cells hv hf a (.assign t _) trivial, Stmt.cells, he.evalC M a]
  | @upd o t e e' he h1 h2 =>
    have key : ∀ e : Expr α V, (∀ v, e ≠ .var v) → (Stmt.upd o t e).cells c n a =
        setC a t (o.cells c n false (a t) (e.evalC c n a)) := by
      intro e h
      cases e with
      | var v => exact (h v rfl).elim
      | _ => rfl
    simp only [ddLibrary, Stmt.run_cells hv hf a (.upd o t _) (fun _ _ => hn), key _ h1, key _ h2,
      he.evalC M a]
  | @inplace o b t e ho h1 =>
    have key : (Stmt.upd o t e).cells c n a = setC a t (o.cells c n false (a t) (e.evalC c n a)) := by
      cases e with
      | var v =>
        have : v ≠ t := fun h => h1 (by rw [h])
        simp only [Stmt.cells, this, decide_false]
        rfl
      | _ => rfl
    have key' : (Stmt.assign t (.bin b (.var t) e)).cells c n a =
        setC a t (b.runC c n (a t) (e.evalC c n a)) := rfl
    simp only [ddLibrary, Stmt.run_cells hv hf a (.upd o t _) (fun _ _ => hn), key,
      Stmt.run_cells hv hf a (.assign t _) trivial, key', ho.cells M]
  | cmp op h1 h2 =>
    simp only [ddLibrary, Cond.run, evalDD_obj hv.order hf, h1.evalC M a, h2.evalC M a]
  | cmpS op s h1 => simp only [ddLibrary, Cond.run, evalDD_obj hv.order hf, h1.evalC M a]
  | sCmp op s h1 => simp only [ddLibrary, Cond.run, evalDD_obj hv.order hf, h1.evalC M a]

/-- **C93.**  Client code in which expressions are rewritten, or `x op= y` is written as `x = x op y` for
different objects and `op` one of `+ - *`, runs exactly the same: the same path, the same answers and the same
objects, bit for bit, after any number of calls. -/
theorem C93_programs (M : SignLaws α) (hv : c.Valid) (hf : c.tsize = -1 ∨ c.tsize = n) (hn : 0 < n)
    {cl cl' : Caller (Call α V) (Answer α) Q} (hs : cl.SameBits cl')
    (hcl : ∀ q s, cl.next q = some (.act s) → s.Plain c n) (q : Q) {ρ : Store α V}
      (h : ∀ v, WF c n (ρ v))
    (j : Nat) : cl'.run (ddLibrary α V c n) j q ρ = cl.run (ddLibrary α V c n) j q ρ := by
  induction j generalizing q ρ with
  | zero => rfl
  | succ j ih =>
    choose a ha using fun v => ((h v).eq_obj hv.order).2
    obtain rfl : ρ = fun v => obj c n (a v) := funext ha
    obtain ⟨h1, h2⟩ | ⟨k, k', h1, h2, h3⟩ := hs.next q
    · simp only [Caller.run, h1, h2]
    · have hstep := h3.step M hv hf hn a
      simp only [Caller.run, h1, h2, ← hstep]
      have hwf : ∀ r ρ', ddLibrary α V c n k (fun v => obj c n (a v)) = (.ok r, ρ') →
          ∀ v, WF c n (ρ' v) := by
        intro r ρ' hr v
        cases k with
        | act s =>
          simp only [ddLibrary, Stmt.run_cells hv hf a s (hcl q s h1)] at hr
          rw [← (Prod.mk.inj hr).2]
          exact wf_obj hv.order hf _
        | _ =>
          rw [← (Prod.mk.inj hr).2]
          exact wf_obj hv.order hf _
      generalize hL : ddLibrary α V c n k (fun v => obj c n (a v)) = o at hwf ⊢
      obtain ⟨r, ρ'⟩ := o
      cases r with
      | ok r =>
        show cl'.run _ j (cl'.after q r) ρ' = cl.run _ j (cl.after q r) ρ'
        rw [hs.after]
        exact ih _ (hwf r ρ' rfl)
      | _ => rfl

end

/-! ## The rules in floating point -/


theorem xreal_neg_div (x y : XReal) : -ₛ x ÷ₛ y = -ₛ (x ÷ₛ y) := by
  show x.neg.div y = (x.div y).neg
  cases x with
  | num x =>
    cases y with
    | num y =>
      simp only [XReal.neg, XReal.div]
      by_cases hy : y = 0
      · rcases lt_trichotomy x 0 with h | h | h
        · simp [hy, h, h.ne, not_lt.2 (neg_nonneg.2 h.le), XReal.neg]
        · simp [hy, h, XReal.neg]
        · simp [hy, h, h.ne', not_lt.2 h.le, XReal.neg]
      · simp [hy, XReal.neg, neg_div]
    | inf s => simp [XReal.neg, XReal.div]
    | nan => rfl
  | inf s =>
    cases y with
    | num y =>
      simp only [XReal.neg, XReal.div]
      split <;> rfl
    | _ => rfl
  | nan => rfl

theorem xreal_lift_odd {D : ℝ → Prop} {f : ℝ → ℝ} {a b : XReal} (hD : ∀ x, D (-x) ↔ D x)
    (hf : ∀ x, f (-x) = -f x) (h : a = b.neg) (h' : b = a.neg) (x : XReal) :
    XReal.lift D f a b x.neg = (XReal.lift D f a b x).neg := by
  cases x with
  | num x =>
    by_cases h : D x
    · simp only [XReal.neg, XReal.lift, if_pos h, if_pos ((hD x).2 h), hf]
    · simp only [XReal.neg, XReal.lift, if_neg h, if_neg fun k => h ((hD x).1 k)]
  | inf s => cases s <;> simpa [XReal.neg, XReal.lift] using by first | exact h | exact h'
  | nan => rfl

theorem xreal_lift_even {D : ℝ → Prop} {f : ℝ → ℝ} {a : XReal} (hD : ∀ x, D (-x) ↔ D x)
    (hf : ∀ x, f (-x) = f x) (x : XReal) :
    XReal.lift D f a a x.neg = XReal.lift D f a a x := by
  cases x with
  | num x =>
    by_cases h : D x
    · simp only [XReal.neg, XReal.lift, if_pos h, if_pos ((hD x).2 h), hf]
    · simp only [XReal.neg, XReal.lift, if_neg h, if_neg fun k => h ((hD x).1 k)]
  | inf s => cases s <;> rfl
  | nan => rfl

/-- The rules hold in exact arithmetic with infinities and NaN. -/
theorem signLaws_xreal : SignLaws XReal where
  comm := xreal_comm
  neg_neg x := by cases x <;> simp [Arith.neg, XReal.neg]
  neg_add x y := (xreal_neg_add x y).symm
  neg_mul x y := (xreal_neg_mul x y).symm
  neg_div := xreal_neg_div
  hypot_comm x y := by
    cases x <;> cases y <;> simp [CMath.hypot, XReal.hypot, add_comm]
  hypot_neg x y := by
    cases x <;> cases y <;> simp [CMath.hypot, XReal.hypot, Arith.neg, XReal.neg]
  hypot3_comm x y z := by
    cases x <;> cases y <;> cases z <;> simp [CMath.hypot3, XReal.hypot3, add_comm]
  cos := xreal_lift_even (fun _ => Iff.rfl) Real.cos_neg
  cosh := xreal_lift_even (fun _ => Iff.rfl) Real.cosh_neg
  sin := xreal_lift_odd (fun _ => Iff.rfl) Real.sin_neg rfl rfl
  asin := xreal_lift_odd (fun x => ⟨fun h => ⟨by linarith [h.2], by linarith [h.1]⟩,
    fun h => ⟨by linarith [h.2], by linarith [h.1]⟩⟩) Real.arcsin_neg rfl rfl
  atan := xreal_lift_odd (fun _ => Iff.rfl) Real.arctan_neg rfl (by simp [XReal.neg])
  sinh := xreal_lift_odd (fun _ => Iff.rfl) Real.sinh_neg rfl rfl
  tanh := xreal_lift_odd (fun _ => Iff.rfl) Real.tanh_neg rfl (by simp [XReal.neg])
  asinh := xreal_lift_odd (fun _ => Iff.rfl) Real.arsinh_neg rfl rfl
  atanh x := by
    show XReal.atanh x.neg = (XReal.atanh x).neg
    cases x with
    | num x =>
      simp only [XReal.neg, XReal.atanh, abs_neg]
      by_cases h : |x| < 1
      · have hx : x ∈ Set.Ioo (-1 : ℝ) 1 := ⟨(abs_lt.1 h).1, (abs_lt.1 h).2⟩
        have key : Real.artanh (-x) = -Real.artanh x := by
          conv_lhs => rw [← Real.tanh_artanh hx, ← Real.tanh_neg, Real.artanh_tanh]
        simp [h, key]
      · by_cases h1 : x = 1
        · subst h1; norm_num
        · by_cases h2 : x = -1
          · subst h2; norm_num
          · have h3 : ¬ -x = 1 := fun h => h2 (by linarith)
            have h4 : ¬ -x = -1 := fun h => h1 (by linarith)
            simp [h, h1, h2, h3, h4]
    | inf s => rfl
    | nan => rfl

/-- The rules hold in every binary format, for instance `double` and `float`, with infinities, NaN, overflow
and underflow. -/
theorem signLaws_ieee (p emax : Nat) : SignLaws (IEEE p emax) := by
  have E := signLaws_xreal
  have odd : ∀ {F : XReal → XReal}, (∀ x, F (-ₛ x) = -ₛ F x) → ∀ x : IEEE p emax,
      (⟨toFmt p emax (F (-ₛ x).val)⟩ : IEEE p emax) = -ₛ ⟨toFmt p emax (F x.val)⟩ := fun h x =>
    IEEE.ext ((congrArg (toFmt p emax) (h x.val)).trans (toFmt_neg _))
  have even : ∀ {F : XReal → XReal}, (∀ x, F (-ₛ x) = F x) → ∀ x : IEEE p emax,
      (⟨toFmt p emax (F (-ₛ x).val)⟩ : IEEE p emax) = ⟨toFmt p emax (F x.val)⟩ := fun h x =>
    IEEE.ext (congrArg (toFmt p emax) (h x.val))
  exact {
    comm := {
      add_comm := fun x y => IEEE.ext (congrArg (toFmt p emax) (E.comm.add_comm x.val y.val))
      mul_comm := fun x y => IEEE.ext (congrArg (toFmt p emax) (E.comm.mul_comm x.val y.val))
      add_neg := fun x y => IEEE.ext (congrArg (toFmt p emax) (E.comm.add_neg x.val y.val)) }
    neg_neg := fun x => IEEE.ext (E.neg_neg x.val)
    neg_add := fun x y => IEEE.ext
      ((congrArg (toFmt p emax) (E.neg_add x.val y.val)).trans (toFmt_neg _))
    neg_mul := fun x y => odd (F := fun z => z *ₛ y.val) (fun z => E.neg_mul z y.val) x
    neg_div := fun x y => odd (F := fun z => z ÷ₛ y.val) (fun z => E.neg_div z y.val) x
    hypot_comm := fun x y => IEEE.ext (congrArg (toFmt p emax) (E.hypot_comm x.val y.val))
    hypot_neg := fun x y => even (F := fun z => CMath.hypot z y.val) (fun z => E.hypot_neg z y.val) x
    hypot3_comm := fun x y z => IEEE.ext (congrArg (toFmt p emax) (E.hypot3_comm x.val y.val z.val))
    cos := even E.cos
    cosh := even E.cosh
    sin := odd E.sin
    asin := odd E.asin
    atan := odd E.atan
    sinh := odd E.sinh
    tanh := odd E.tanh
    asinh := odd E.asinh
    atanh := odd E.atanh }

/-- **C93, what is not a rewriting.**  `abs(-x)` and `abs(x)` have the same value, but where it is zero their
derivatives have different signs. -/
theorem C93_violated_abs {p emax : Nat} (hf : c.tsize = -1 ∨ c.tsize = n) {i : Nat}
    (hi : i < n) : ∃ x m r r' : DD (IEEE p emax), DD.var c i ⟨.num 0⟩ n = .ok x ∧ x.neg c = .ok m ∧
      x.abs c = .ok r ∧ m.abs c = .ok r' ∧ r.f = r'.f ∧ r.g c i = .ok (Arith.lit 1) ∧
      r'.g c i = .ok (-ₛ Arith.lit 1) := by
  have h0 : ∀ s : IEEE p emax, s.val = .num 0 → Cmp.ltB s (Arith.lit 0) = false := by
    intro s hs
    show Cmp.ltB s.val (Arith.lit 0 : IEEE p emax).val = false
    rw [hs, fmt_lit_zero]
    simp [Cmp.ltB, XReal.lt]
  refine ⟨_, _, _, _, var_obj hf hi _, neg_obj hf _, abs_obj hf _, abs_obj hf _, ?_, ?_, ?_⟩
  · rw [f_obj, f_obj]
    congr 1
    have h1 : (varC i (⟨.num 0⟩ : IEEE p emax)) 0 = ⟨.num 0⟩ := rfl
    simp only [h1]
    rw [h0 _ rfl, h0 _ (by show XReal.num (-0) = _; rw [neg_zero])]
    simp only [Bool.false_eq_true, if_false]
    exact IEEE.ext (by show XReal.num 0 = .num (-0); rw [neg_zero])
  · rw [g_obj hf _ hi]
    have h1 : (varC i (⟨.num 0⟩ : IEEE p emax)) 0 = ⟨.num 0⟩ := rfl
    simp only [h1, h0 _ rfl]
    simp [varC]
  · rw [g_obj hf _ hi]
    have h1 : (varC i (⟨.num 0⟩ : IEEE p emax)) 0 = ⟨.num 0⟩ := rfl
    have h2 : Cmp.ltB (-ₛ (⟨.num 0⟩ : IEEE p emax)) (Arith.lit 0) = false :=
      h0 _ (by show XReal.num (-0) = _; rw [neg_zero])
    simp only [h1, h2]
    simp [varC]

/-! ## Examples -/

/-- `x * y - sin(-x)` and `y * x + sin(x)` in `double`, second order. -/
example (x y : IEEE 53 1023) : ∃ a b r : DD (IEEE 53 1023), DD.var exDyn2 0 x 2 = .ok a ∧
    DD.var exDyn2 1 y 2 = .ok b ∧
    (.bin .sub (.bin .mul (.var 0) (.var 1)) (.fn .sin (.neg (.var 0))) : Expr _ (Fin 2)).evalDD exDyn2 2
      ![a, b] = .ok r ∧
    (.bin .add (.bin .mul (.var 1) (.var 0)) (.fn .sin (.var 0)) : Expr _ (Fin 2)).evalDD exDyn2 2
      ![a, b] = .ok r := by
  have hf : Fits exDyn2 2 := Or.inl rfl
  have hx := var_obj hf (show 0 < 2 by norm_num) x
  have hy := var_obj hf (show 1 < 2 by norm_num) y
  obtain ⟨r, h1, h2⟩ := C93_expressions (signLaws_ieee 53 1023) exDyn2_valid (n := 2) (Or.inl rfl)
    (ρ := ![obj exDyn2 2 (varC 0 x), obj exDyn2 2 (varC 1 y)]) (V := Fin 2) (fun v => by
      match v with
      | 0 => exact wf_obj exDyn2_valid.order hf _
      | 1 => exact wf_obj exDyn2_valid.order hf _)
    ((Expr.SameBits.sub_eq (.bin .mul (.var 0) (.var 1)) (.fn .sin (.neg (.var 0)))).trans
      (.bin .add (.mul_comm _ _) ((Expr.SameBits.neg (.odd _ .sin)).trans (.neg_neg _))))
  exact ⟨_, _, r, hx, hy, h1, h2⟩

/-- `exPowers` written differently: `r = x * r` for `r *= x`, and `(-x) * (-x)` for `x * x`. -/
def exPowersRewritten (α : Type) : Caller (Call α (Fin 2)) (Answer α) Nat where
  next m := if m = 0 then none
    else if m % 2 = 1 then some (.act (.assign 1 (.bin .mul (.var 0) (.var 1))))
    else some (.act (.assign 0 (.bin .mul (.neg (.var 0)) (.neg (.var 0)))))
  after m _ := if m % 2 = 1 then m - 1 else m / 2

example {c : Cfg} (hv : c.Valid) {n : Nat} (hf : c.tsize = -1 ∨ c.tsize = n) (hn : 0 < n) (N j : Nat)
    (ρ : Fin 2 → DD (IEEE 24 127)) (h : ∀ v, WF c n (ρ v)) :
    (exPowersRewritten _).run (ddLibrary _ _ c n) j N ρ = (exPowers _).run
      (ddLibrary _ _ c n) j N ρ := by
  have hs : (exPowers (IEEE 24 127)).SameBits (exPowersRewritten _) := by
    refine ⟨fun m => ?_, fun _ _ => rfl⟩
    by_cases h0 : m = 0
    · exact Or.inl ⟨if_pos h0, if_pos h0⟩
    · by_cases h1 : m % 2 = 1
      · refine Or.inr ⟨_, _, (if_neg h0).trans (if_pos h1), (if_neg h0).trans (if_pos h1), ?_⟩
        exact (Call.SameBits.inplace 1 .mul (by simp)).trans (.assign 1 (.mul_comm _ _))
      · refine Or.inr ⟨_, _, (if_neg h0).trans (if_neg h1), (if_neg h0).trans (if_neg h1), .assign 0 ?_⟩
        exact .symm
          ((Expr.SameBits.neg_mul _ _).trans ((Expr.SameBits.neg ((Expr.SameBits.mul_comm _ _).trans
          (.neg_mul _ _))).trans (.neg_neg _)))
  refine C93_programs (signLaws_ieee 24 127) hv hf hn hs (fun m s hs => ?_) N h j
  simp only [exPowers] at hs
  split at hs
  · cases hs
  · split at hs <;> cases hs
    · exact fun _ _ => hn
    · trivial

/-- `abs` at 0 in `double`, in the only variable of a first-order jet. -/
example : ∃ x m r r' : DD (IEEE 53 1023), DD.var exDyn1 0 ⟨.num 0⟩ 1 = .ok x ∧ x.neg exDyn1 = .ok m ∧
    x.abs exDyn1 = .ok r ∧ m.abs exDyn1 = .ok r' ∧ r.f = r'.f ∧ r.g exDyn1 0 = .ok (Arith.lit 1) ∧
    r'.g exDyn1 0 = .ok (-ₛ Arith.lit 1) :=
  C93_violated_abs (Or.inl rfl) (i := 0) (n := 1) (by norm_num)

/-- The rules in exact arithmetic. -/
example (x : XReal) : CMath.atanh (-ₛ x) = -ₛ CMath.atanh x := signLaws_xreal.atanh x

end HJ
