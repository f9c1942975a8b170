import Verif.Proofs.SPrecise
import Verif.Props.PyControl
import Verif.Spec.PyPrecise

/-!
# Python client code on dense jets in arithmetics with vanishing error (helper lemmas)
-/

namespace HJ

open Filter Topology

section
variable {ι : Type} {l : Filter ι} {α : ι → Type} [∀ k, CMath (α k)] {w : ι → Prec} {ω : ι → ℝ}
  {M : ∀ k, FinErr (α k) (w k)} {c : Cfg} {n : Nat} {x : Fin n → ℝ} {V W Q : Type}

theorem Lim.absNum (hw : Fine w l ω) {a : ∀ k, α k} {t : ℝ} (h : Lim M l ω a (fun _ => t) t) :
    Lim M l ω (fun k => if Cmp.ltB (a k) (Arith.lit 0) then -ₛ a k else a k) (fun _ => |t|) |t| := by
  have hab : Nigh l ω (fun k => |(M k).val (a k)|) (fun _ => |t|) |t| := by
    refine ⟨h.lim.abs, tendsto_const_nhds, (Asymptotics.isBigO_of_le l fun k => ?_).trans h.rate⟩
    rw [Real.norm_eq_abs, Real.norm_eq_abs]
    exact abs_abs_sub_abs_le_abs_sub _ _
  refine Lim.close hw hab (h.fin.mono fun k hk => ?_)
  have h0 : (M k).val (Arith.lit 0) = 0 := by
    simpa using ((M k).lit 0 (by norm_num)).2
  have hl := (M k).less (a k) (Arith.lit 0) hk ((M k).lit 0 (by norm_num)).1
  rw [h0] at hl
  by_cases hlt : Cmp.ltB (a k) (Arith.lit 0) = true
  · have hneg := hl.1 hlt
    rw [if_pos hlt, abs_of_neg hneg]
    have := (M k).neg (a k) hk
    have h2 := sound_self (M := M) this.1
    rwa [this.2] at h2
  · have hpos : 0 ≤ (M k).val (a k) := not_lt.1 fun h => hlt (hl.2 h)
    rw [if_neg hlt, abs_of_nonneg hpos]
    exact sound_self (M := M) hk

/-- Values of Python expressions that converge to a number, or to the jet of a function at `x`. -/
def PValNear (M : ∀ k, FinErr (α k) (w k)) (l : Filter ι) (ω : ι → ℝ) (c : Cfg) (x : Fin n → ℝ)
    (p : ∀ k, PVal (α k)) : PMath n → Prop
  | .num t => ∃ s : ∀ k, α k, (∀ᶠ k in l, p k = .num (s k)) ∧ Lim M l ω s (fun _ => t) t
  | .fn F => ∃ (a : ∀ k, Nat → α k) (aR : Nat → ℝ) (J : Jet ℝ), (∀ᶠ k in l, p k = .jet (obj c n (a k))) ∧
      Conv M l ω c n a (fun _ => aR) J ∧ IsJet c.order n F x J

/-- The objects `r k` converge to the jet of `F` at `x`. -/
def ObjNear (M : ∀ k, FinErr (α k) (w k)) (l : Filter ι) (ω : ι → ℝ) (c : Cfg) (x : Fin n → ℝ)
    (r : ∀ k, DD (α k)) (F : (Fin n → ℝ) → ℝ) : Prop :=
  ∃ (a : ∀ k, Nat → α k) (aR : Nat → ℝ) (J : Jet ℝ), (∀ᶠ k in l, r k = obj c n (a k)) ∧
    Conv M l ω c n a (fun _ => aR) J ∧ IsJet c.order n F x J

/-- States that converge to the mathematical one. -/
structure PyNear (M : ∀ k, FinErr (α k) (w k)) (l : Filter ι) (ω : ι → ℝ) (c : Cfg) (x : Fin n → ℝ)
    (st : ∀ k, PySt (α k) V W) (σ : MathSt n V) : Prop where
  next : ∀ᶠ k in l, (st k).next = σ.next
  num : ∀ v r, σ.env v = .num r →
    ∃ s : ∀ k, α k, (∀ᶠ k in l, (st k).env v = .num (s k)) ∧ Lim M l ω s (fun _ => r) r
  ref : ∀ v a, σ.env v = .ref a → a < σ.next ∧ ∀ᶠ k in l, (st k).env v = .ref a
  objs : ∀ a < σ.next, ObjNear M l ω c x (fun k => (st k).heap a) (σ.mean a)

variable {st : ∀ k, PySt (α k) V W} {σ σ' : MathSt n V}

theorem PValNear.congr {p p' : ∀ k, PVal (α k)} {m : PMath n} (h : PValNear M l ω c x p m)
    (e : ∀ᶠ k in l, p' k = p k) : PValNear M l ω c x p' m := by
  cases m with
  | num t =>
    obtain ⟨s, h1, h2⟩ := h
    exact ⟨s, (h1.and e).mono fun k hk => hk.2.trans hk.1, h2⟩
  | fn F =>
    obtain ⟨a, aR, J, h1, h2⟩ := h
    exact ⟨a, aR, J, (h1.and e).mono fun k hk => hk.2.trans hk.1, h2⟩

theorem ObjNear.congr {r r' : ∀ k, DD (α k)} {F : (Fin n → ℝ) → ℝ} (h : ObjNear M l ω c x r F)
    (e : ∀ᶠ k in l, r' k = r k) : ObjNear M l ω c x r' F := by
  obtain ⟨a, aR, J, h1, h2⟩ := h
  exact ⟨a, aR, J, (h1.and e).mono fun k hk => hk.2.trans hk.1, h2⟩

theorem PyNear.congr (h : PyNear M l ω c x st σ) {st' : ∀ k, PySt (α k) V W}
    (e : ∀ᶠ k in l, st' k = st k) : PyNear M l ω c x st' σ where
  next := (h.next.and e).mono fun k hk => by rw [hk.2, hk.1]
  num v r hr := by
    obtain ⟨s, h1, h2⟩ := h.num v r hr
    exact ⟨s, (h1.and e).mono fun k hk => by rw [hk.2, hk.1], h2⟩
  ref v a ha := ⟨(h.ref v a ha).1, ((h.ref v a ha).2.and e).mono fun k hk => by rw [hk.2, hk.1]⟩
  objs a ha := (h.objs a ha).congr (e.mono fun k hk => by rw [hk])

theorem PyNear.val (h : PyNear M l ω c x st σ) (v : V) :
    PValNear M l ω c x (fun k => (st k).val v) (σ.val v) := by
  unfold MathSt.val
  cases he : σ.env v with
  | num r =>
    obtain ⟨s, h1, h2⟩ := h.num v r he
    exact ⟨s, h1.mono fun k hk => by simp only [PySt.val, hk], h2⟩
  | ref a =>
    obtain ⟨ha, h1⟩ := h.ref v a he
    obtain ⟨b, bR, J, h2, h3⟩ := h.objs a ha
    exact ⟨b, bR, J, (h1.and h2).mono fun k hk => by simp only [PySt.val, hk.1, hk.2], h3⟩

/-- An expression. -/
theorem PyNear.eval [l.NeBot] (hw : Fine w l ω) (hv : c.Valid) (hf : Fits c n)
    (hcmp : ∀ k, (M k).ExactCmp)
    {enc : ∀ k, ℝ → α k} (henc : ∀ s, Lim M l ω (fun k => enc k s) (fun _ => s) s)
    (h : PyNear M l ω c x st σ) {e : PyE ℝ V} {m : PMath n} (hm : e.Den c.order x σ.val m)
    (hP : e.PowPos x (σ.at x).read) :
    ∃ p : ∀ k, PVal (α k), (∀ᶠ k in l, (e.map (enc k)).eval c n (st k).val = .ok (p k)) ∧
      PValNear M l ω c x p m := by
  have jet : ∀ {a : ∀ k, Nat → α k} {aR : Nat → ℝ} {J : Jet ℝ} {F : (Fin n → ℝ) → ℝ}
      {R : ∀ k, Res (PVal (α k))} (_ : ∀ᶠ k in l, R k = .ok (.jet (obj c n (a k))))
      (_ : Conv M l ω c n a (fun _ => aR) J) (_ : IsJet c.order n F x J),
      ∃ p : ∀ k, PVal (α k), (∀ᶠ k in l, R k = .ok (p k)) ∧ PValNear M l ω c x p (.fn F) :=
    fun {a aR J F R} h1 h2 h3 => ⟨fun k => .jet (obj c n (a k)), h1, a, aR, J, .of_forall fun _ => rfl,
      h2, h3⟩
  have numb : ∀ {s : ∀ k, α k} {t : ℝ} {R : ∀ k, Res (PVal (α k))}
      (_ : ∀ᶠ k in l, R k = .ok (.num (s k))) (_ : Lim M l ω s (fun _ => t) t),
      ∃ p : ∀ k, PVal (α k), (∀ᶠ k in l, R k = .ok (p k)) ∧ PValNear M l ω c x p (.num t) :=
    fun {s t R} h1 h2 => ⟨fun k => .num (s k), h1, s, .of_forall fun _ => rfl, h2⟩
  have hc := hv.order
  induction hm with
  | name v => exact ⟨_, .of_forall fun k => rfl, h.val v⟩
  | lit s => exact numb (.of_forall fun k => rfl) (henc s)
  | const s =>
    exact jet (.of_forall fun k => by simp only [PyE.map, PyE.eval, constant_obj hf, Res.ok_bind])
      (conv_const (henc s)) (isJet_const _ _ _)
  | vari i s =>
    have hl1 : Lim M l ω (fun _ => Arith.lit 1) (fun _ => (1 : ℝ)) 1 :=
      (Lim.lit (z := 1) (by norm_num)).goal_eq (fun _ => Int.cast_one) (by simp)
    have hl0 : Lim M l ω (fun _ => Arith.lit 0) (fun _ => (0 : ℝ)) 0 :=
      (Lim.lit (z := 0) (by norm_num)).goal_eq (fun _ => Int.cast_zero) (by simp)
    refine jet (a := fun k => varC i.val (enc k s)) (aR := varC i.val s) (J := varJet i s)
      (.of_forall fun k => by
      simp only [PyE.map, PyE.eval, var_obj hf i.2, Res.ok_bind]) ⟨?_, ?_, ?_, ?_⟩ ?_
    · simpa [varC, varJet] using henc s
    · intro j _
      by_cases hj : j = i.val
      · simpa [varC, varJet, hj, Arith.lit] using hl1
      · simpa [varC, varJet, hj, Arith.lit] using hl0
    · intro _ j j' hj hj'
      have := pos_gt n j j'
      have h1 : pos n j j' ≠ 0 := by omega
      have h2 : pos n j j' ≠ 1 + i.val := by have := i.2; omega
      simpa [varC, varJet, h1, h2, Arith.lit] using hl0
    · intro _ _; rfl
    · have h2 := (isJet_var c.order x i).shift (s - x i)
      have e1 : (fun y : Fin n → ℝ => y i + (s - x i)) = fun y => s + (y i - x i) := by
        funext y; ring
      rw [e1] at h2
      have e2 : { varJet i (x i) with f := (varJet i (x i)).f + (s - x i) } = varJet i s := by
        simp [varJet]
      rwa [e2] at h2
  | negNum _ ih =>
    obtain ⟨p, h1, s, h2, h3⟩ := ih hP
    exact numb ((h1.and h2).mono fun k hk => by simp only [PyE.map, PyE.eval, hk.1, hk.2, Res.ok_bind])
      h3.neg
  | neg _ ih =>
    rename_i e F _
    obtain ⟨p, h1, a, aR, J, h2, h3, h4⟩ := ih hP
    refine jet (a := fun k j => -ₛ a k j) (aR := fun j => -aR j) (J := J.comp1 (-J.f) (-1) 0)
      ((h1.and h2).mono fun k hk => by
        simp only [PyE.map, PyE.eval, hk.1, hk.2, Res.ok_bind, neg_obj hf])
      (conv_lin h3 h3.f.neg fun i _ r hr => hr.neg.of_eq (by ring)) ?_
    have := h4.comp1 (d2At_affine c.order (-1) 0 J.f)
    simpa using this
  | absNum _ ih =>
    obtain ⟨p, h1, s, h2, h3⟩ := ih hP
    exact numb ((h1.and h2).mono fun k hk => by simp only [PyE.map, PyE.eval, hk.1, hk.2, Res.ok_bind])
      (h3.absNum hw)
  | abs _ hd ih =>
    obtain ⟨p, h1, a, aR, J, h2, h3, h4⟩ := ih hP
    rw [h4.value] at hd
    exact jet ((h1.and h2).mono fun k hk => by
      simp only [PyE.map, PyE.eval, hk.1, hk.2, Res.ok_bind, abs_obj hf]; rfl) (conv_abs h3 hd)
      (h4.comp1 (d2At_abs c.order hd))
  | fn hm hd ih =>
    rename_i φ e F
    obtain ⟨p, h1, a, aR, J, h2, h3, h4⟩ := ih hP.1
    have hpow : ∀ b, φ = .pow b → 0 < J.f := fun b hb => by
      have := hP.2 b hb
      rwa [hm.real x (Or.inr rfl), PMath.at, h4.value] at this
    rw [h4.value] at hd
    have hφ := φ.real hc hd fun b hb => (hpow b hb).ne'
    have hl := φ.lim hw enc henc h3.f hd hpow
    refine jet ((h1.and h2).mono fun k hk => by
      simp only [PyE.map, PyE.eval, hk.1, hk.2, Res.ok_bind, un_obj hc hf])
      (conv_uFin hw h3 hl.f hl.da hl.daa) ?_
    rw [hφ.f]
    exact h4.comp1 hφ.d2
  | opNums _ _ hd ih₁ ih₂ =>
    rename_i o e₁ e₂ r t _ _
    obtain ⟨p, h1, s, h2, h3⟩ := ih₁ hP.1
    obtain ⟨p', h1', s', h2', h3'⟩ := ih₂ hP.2
    have e := (h1.and h2).and (h1'.and h2')
    cases o with
    | add => exact numb (e.mono fun k ⟨⟨a1, a2⟩, b1, b2⟩ => by
        simp only [PyE.map, PyE.eval, a1, a2, b1, b2, Res.ok_bind, POp.run, POp.nums]) (h3.add hw h3')
    | sub => exact numb (e.mono fun k ⟨⟨a1, a2⟩, b1, b2⟩ => by
        simp only [PyE.map, PyE.eval, a1, a2, b1, b2, Res.ok_bind, POp.run, POp.nums]) (h3.sub hw h3')
    | mul => exact numb (e.mono fun k ⟨⟨a1, a2⟩, b1, b2⟩ => by
        simp only [PyE.map, PyE.eval, a1, a2, b1, b2, Res.ok_bind, POp.run, POp.nums]) (h3.mul hw h3')
    | div =>
      have hne := hd rfl
      have hl0 : Lim M l ω (fun _ => Arith.lit 0) (fun _ => (0 : ℝ)) 0 :=
        (Lim.lit (z := 0) (by norm_num)).goal_eq (fun _ => Int.cast_zero) (by simp)
      have hz := cmp_lim h3' hl0 hne hcmp .eq (q := false) (by simpa [DD.CmpOp.rel] using hne)
      refine numb ((e.and hz).mono fun k ⟨⟨⟨a1, a2⟩, b1, b2⟩, hz, _⟩ => ?_) (h3.div hw h3' hne)
      simp only [DD.CmpOp.scalar] at hz
      simp only [PyE.map, PyE.eval, a1, a2, b1, b2, Res.ok_bind, POp.run, POp.nums, hz,
        Bool.false_eq_true, if_false]
  | opFns _ _ hd ih₁ ih₂ =>
    rename_i o e₁ e₂ F G _ _
    obtain ⟨p, h1, a, aR, J, h2, h3, h4⟩ := ih₁ hP.1
    obtain ⟨p', h1', a', aR', J', h2', h3', h4'⟩ := ih₂ hP.2
    rw [h4'.value] at hd
    have hD : o.bin.dom J.f J'.f := by
      cases o with
      | div => exact hd rfl
      | _ => trivial
    have hR : o.bin.reg J.f J'.f := by cases o <;> trivial
    refine jet (((h1.and h2).and (h1'.and h2')).mono fun k ⟨⟨a1, a2⟩, b1, b2⟩ => by
      simp only [PyE.map, PyE.eval, a1, a2, b1, b2, Res.ok_bind, POp.run, o.bin.run_obj hc hf])
      (o.bin.conv hw h3 h3' hD hR) ?_
    have := o.bin.isJet c.order h4 h4' hD hR
    cases o <;> exact this
  | opRight _ _ hd ih₁ ih₂ =>
    rename_i o e₁ e₂ F t _ _
    obtain ⟨p, h1, a, aR, J, h2, h3, h4⟩ := ih₁ hP.1
    obtain ⟨p', h1', s', h2', h3'⟩ := ih₂ hP.2
    have hD : o.right.dom J.f t := by
      cases o with
      | div => exact hd rfl
      | _ => trivial
    refine jet (((h1.and h2).and (h1'.and h2')).mono fun k ⟨⟨a1, a2⟩, b1, b2⟩ => by
      simp only [PyE.map, PyE.eval, a1, a2, b1, b2, Res.ok_bind, POp.run, o.right.run_obj hc hf])
      (o.right.conv hw h3' h3 hD) ?_
    have := h4.comp1 (o.right.d2At c.order hD)
    cases o <;> exact this
  | opLeft _ _ hd ih₁ ih₂ =>
    rename_i o e₁ e₂ t G _ _
    obtain ⟨p', h1', s', h2', h3'⟩ := ih₁ hP.1
    obtain ⟨p, h1, a, aR, J, h2, h3, h4⟩ := ih₂ hP.2
    rw [h4.value] at hd
    have hD : o.left.dom J.f t := by
      cases o with
      | div => exact hd rfl
      | _ => trivial
    refine jet (((h1.and h2).and (h1'.and h2')).mono fun k ⟨⟨a1, a2⟩, b1, b2⟩ => by
      simp only [PyE.map, PyE.eval, a1, a2, b1, b2, Res.ok_bind, POp.run, o.left.run_obj hc hf])
      (o.left.conv hw h3' h3 hD) ?_
    have := h4.comp1 (o.left.d2At c.order hD)
    cases o <;> exact this
  | atan2 _ _ hd ih₁ ih₂ =>
    obtain ⟨p, h1, a, aR, J, h2, h3, h4⟩ := ih₁ hP.1
    obtain ⟨p', h1', a', aR', J', h2', h3', h4'⟩ := ih₂ hP.2
    rw [h4.value, h4'.value] at hd
    have hD : Bin.atan2.dom J.f J'.f := by
      rintro ⟨h5, h6⟩
      rcases hd with h | h
      · exact h h5
      · rw [h6] at h; exact lt_irrefl _ h
    refine jet (((h1.and h2).and (h1'.and h2')).mono fun k ⟨⟨a1, a2⟩, b1, b2⟩ => ?_)
      (Bin.atan2.conv hw h3 h3' hD hd) (Bin.atan2.isJet c.order h4 h4' hD hd)
    have := Bin.atan2.run_obj hc hf (a k) (a' k)
    simp only [Bin.run] at this
    simp only [PyE.map, PyE.eval, a1, a2, b1, b2, Res.ok_bind, this]
  | hypot _ _ hd ih₁ ih₂ =>
    obtain ⟨p, h1, a, aR, J, h2, h3, h4⟩ := ih₁ hP.1
    obtain ⟨p', h1', a', aR', J', h2', h3', h4'⟩ := ih₂ hP.2
    rw [h4.value, h4'.value] at hd
    have hD : Bin.hypot.dom J.f J'.f := by
      rintro ⟨h5, h6⟩
      exact hd.elim (fun h => h h5) (fun h => h h6)
    refine jet (((h1.and h2).and (h1'.and h2')).mono fun k ⟨⟨a1, a2⟩, b1, b2⟩ => ?_)
      (Bin.hypot.conv hw h3 h3' hD trivial) (Bin.hypot.isJet c.order h4 h4' hD trivial)
    have := Bin.hypot.run_obj hc hf (a k) (a' k)
    simp only [Bin.run] at this
    simp only [PyE.map, PyE.eval, a1, a2, b1, b2, Res.ok_bind, this]
  | hypot3 _ _ _ hd ih₁ ih₂ ih₃ =>
    obtain ⟨p, h1, a, aR, J, h2, h3, h4⟩ := ih₁ hP.1
    obtain ⟨p', h1', a', aR', J', h2', h3', h4'⟩ := ih₂ hP.2.1
    obtain ⟨p'', h1'', a'', aR'', J'', h2'', h3'', h4''⟩ := ih₃ hP.2.2
    rw [h4.value, h4'.value, h4''.value] at hd
    have hD : ¬ (J.f = 0 ∧ J'.f = 0 ∧ J''.f = 0) := by
      rintro ⟨h5, h6, h7⟩
      exact hd.elim (fun h => h h5) fun h => h.elim (fun h => h h6) (fun h => h h7)
    exact jet (((h1.and h2).and ((h1'.and h2').and (h1''.and h2''))).mono
      fun k ⟨⟨a1, a2⟩, ⟨b1, b2⟩, c1, c2⟩ => by
        simp only [PyE.map, PyE.eval, a1, a2, b1, b2, c1, c2, Res.ok_bind, hypot3_obj hc hf])
      (conv_hypot3 hw h3 h3' h3'' hD) (hypot3_isJet c.order h4 h4' h4'' hD)
  | getF _ ih =>
    obtain ⟨p, h1, a, aR, J, h2, h3, h4⟩ := ih hP
    rw [h4.value]
    exact numb ((h1.and h2).mono fun k hk => by
      simp only [PyE.map, PyE.eval, hk.1, hk.2, Res.ok_bind, f_obj]) h3.f.goal_const

/-! ## Statements -/

theorem PValNear.jet {p : ∀ k, PVal (α k)} {F : (Fin n → ℝ) → ℝ} (h : PValNear M l ω c x p (.fn F)) :
    ∃ r : ∀ k, DD (α k), (∀ᶠ k in l, p k = .jet (r k)) ∧ ObjNear M l ω c x r F := by
  obtain ⟨a, aR, J, h1, h2⟩ := h
  exact ⟨fun k => obj c n (a k), h1, a, aR, J, .of_forall fun _ => rfl, h2⟩

variable [DecidableEq V] [DecidableEq W]

omit [DecidableEq V] [DecidableEq W] in
theorem PyNear.write (h : PyNear M l ω c x st σ) (a : Nat) {r : ∀ k, DD (α k)} {F : (Fin n → ℝ) → ℝ}
    (hr : ObjNear M l ω c x r F) : PyNear M l ω c x (fun k => (st k).write a (r k)) (σ.write a F) where
  next := h.next
  num := h.num
  ref := h.ref
  objs b hb := by
    simp only [PySt.write, MathSt.write]
    by_cases hab : b = a
    · simp only [hab, if_true]; exact hr
    · simp only [hab, if_false]; exact h.objs b hb

omit [DecidableEq W] in
theorem PyNear.bindNum (h : PyNear M l ω c x st σ) (t : V) {s : ∀ k, α k} {r : ℝ}
    (hs : Lim M l ω s (fun _ => r) r) :
    PyNear M l ω c x (fun k => (st k).bind t (.num (s k))) (σ.bind t (.num r)) where
  next := h.next
  num v r' hr := by
    by_cases hv : v = t
    · simp only [MathSt.bind, hv, if_true, PyV.num.injEq] at hr
      exact ⟨s, .of_forall fun k => by simp [PySt.bind, hv], hr ▸ hs⟩
    · simp only [MathSt.bind, hv, if_false] at hr
      obtain ⟨s', h1, h2⟩ := h.num v r' hr
      exact ⟨s', h1.mono fun k hk => by simp [PySt.bind, hv, hk], h2⟩
  ref v a ha := by
    by_cases hv : v = t
    · simp only [MathSt.bind, hv, if_true] at ha
      cases ha
    · simp only [MathSt.bind, hv, if_false] at ha
      exact ⟨(h.ref v a ha).1, (h.ref v a ha).2.mono fun k hk => by simp [PySt.bind, hv, hk]⟩
  objs := h.objs

omit [DecidableEq W] in
theorem PyNear.bindRef (h : PyNear M l ω c x st σ) (t : V) {a : Nat} (ha : a < σ.next) :
    PyNear M l ω c x (fun k => (st k).bind t (.ref a)) (σ.bind t (.ref a)) where
  next := h.next
  num v r' hr := by
    by_cases hv : v = t
    · simp only [MathSt.bind, hv, if_true] at hr
      cases hr
    · simp only [MathSt.bind, hv, if_false] at hr
      obtain ⟨s', h1, h2⟩ := h.num v r' hr
      exact ⟨s', h1.mono fun k hk => by simp [PySt.bind, hv, hk], h2⟩
  ref v b hb := by
    by_cases hv : v = t
    · simp only [MathSt.bind, hv, if_true, PyV.ref.injEq] at hb
      exact ⟨hb ▸ ha, .of_forall fun k => by simp [PySt.bind, hv, hb]⟩
    · simp only [MathSt.bind, hv, if_false] at hb
      exact ⟨(h.ref v b hb).1, (h.ref v b hb).2.mono fun k hk => by simp [PySt.bind, hv, hk]⟩
  objs := h.objs

omit [DecidableEq W] in
theorem PyNear.fresh (h : PyNear M l ω c x st σ) (t : V) {p : ∀ k, PVal (α k)} {m : PMath n}
    (hp : PValNear M l ω c x p m) : PyNear M l ω c x (fun k => (st k).fresh t (p k)) (σ.fresh t m) := by
  cases m with
  | num r =>
    obtain ⟨s, h1, h2⟩ := hp
    exact (h.bindNum t h2).congr (h1.mono fun k hk => by simp only [hk, PySt.fresh])
  | fn F =>
    obtain ⟨r, h1, h2⟩ := hp.jet
    have hw := h.write σ.next h2
    have hg : PyNear M l ω c x (fun k => { (st k).write σ.next (r k) with next := σ.next + 1 })
        { σ.write σ.next F with next := σ.next + 1 } :=
      ⟨.of_forall fun _ => rfl, hw.num, fun v a ha => ⟨Nat.lt_succ_of_lt (hw.ref v a ha).1,
        (hw.ref v a ha).2⟩, fun a ha => by
        by_cases hb : a = σ.next
        · simpa [PySt.write, MathSt.write, hb] using h2
        · exact hw.objs a (by simp only [MathSt.write] at ha ⊢; omega)⟩
    refine (hg.bindRef t (Nat.lt_succ_self _)).congr ((h1.and h.next).mono fun k hk => ?_)
    simp only [hk.1, hk.2, PySt.fresh, PySt.bind, PySt.write]

/-- One statement. -/
theorem PyNear.step [l.NeBot] (hw : Fine w l ω) (hv : c.Valid) (hf : Fits c n)
    (hcmp : ∀ k, (M k).ExactCmp) {enc : ∀ k, ℝ → α k}
    (henc : ∀ s, Lim M l ω (fun k => enc k s) (fun _ => s) s) (h : PyNear M l ω c x st σ)
    {s : PyStmt ℝ V W} (hs : s.Means c.order x σ σ') (hP : s.PowPos x (σ.at x).read) :
    ∃ st' : ∀ k, PySt (α k) V W, (∀ᶠ k in l, (s.map (enc k)).run c n (st k) = (.ok (), st' k)) ∧
      PyNear M l ω c x st' σ' := by
  have hc := hv.order
  cases hs with
  | share t s =>
    refine ⟨fun k => (st k).bind t ((st k).env s), .of_forall fun k => rfl, ?_⟩
    cases hb : σ.env s with
    | num r =>
      obtain ⟨p, h1, h2⟩ := h.num s r hb
      exact (h.bindNum t h2).congr (h1.mono fun k hk => by rw [hk])
    | ref a =>
      obtain ⟨ha, h1⟩ := h.ref s a hb
      exact (h.bindRef t ha).congr (h1.mono fun k hk => by rw [hk])
  | assign he hn =>
    rename_i t e m
    obtain ⟨p, h1, h2⟩ := h.eval hw hv hf hcmp henc he hP
    refine ⟨fun k => (st k).fresh t (p k), h1.mono fun k hk => ?_, h.fresh t h2⟩
    cases e with
    | name s => exact absurd rfl (hn s)
    | _ =>
      simp only [PyE.map] at hk
      simp only [PyStmt.map, PyE.map, PyStmt.run, hk, PySt.store]
  | updFn ht he hd hs =>
    rename_i o t e a G
    obtain ⟨p, h1, b, bR, K, h2, h3, h4⟩ := h.eval hw hv hf hcmp henc he hP
    obtain ⟨ha, ht'⟩ := h.ref t a ht
    obtain ⟨d, dR, J, k2, k3, k4⟩ := h.objs a ha
    have hom : o.asg = .mul → o = .mul := by cases o <;> simp [POp.asg]
    have hod : o.asg = .div → o = .div := by cases o <;> simp [POp.asg]
    rw [h4.value] at hd
    have hjet : IsJet c.order n (fun y => o.den (σ.mean a y) (G y)) x (o.asg.bin.jet J K) := by
      have := Bin.isJet c.order o.asg.bin k4 h4
        (by cases o <;> first | trivial | exact hd rfl) (by cases o <;> trivial)
      cases o <;> exact this
    have fin : ∀ {B : ∀ k, DD.Operand (α k)} {r : ∀ k, Nat → α k} {rR : Nat → ℝ} {L : Jet ℝ},
        (∀ᶠ k in l, (st k).operand a (e.map (enc k)) (obj c n (b k)) = B k) →
        (∀ k, o.asg.run c (obj c n (d k)) (B k) = (.ok (), obj c n (r k))) →
        Conv M l ω c n r (fun _ => rR) L →
        IsJet c.order n (fun y => o.den (σ.mean a y) (G y)) x L →
        ∃ st' : ∀ k, PySt (α k) V W,
          (∀ᶠ k in l, ((PyStmt.upd o t e).map (enc k)).run c n (st k) = (.ok (), st' k)) ∧
          PyNear M l ω c x st' (σ.write a fun y => o.den (σ.mean a y) (G y)) := by
      intro B r rR L hB hr hconv hjet
      refine ⟨fun k => (st k).write a (obj c n (r k)),
        (((h1.and h2).and (ht'.and k2)).and hB).mono fun k ⟨⟨⟨e1, e2⟩, e3, e4⟩, e5⟩ => ?_,
        h.write a ⟨r, rR, _, .of_forall fun _ => rfl, hconv, hjet⟩⟩
      simp only [PyStmt.map, PyStmt.run, e1, e2, e3, e4, e5, hr, PySt.change]
    have hobj : (∀ᶠ k in l, (st k).operand a (e.map (enc k)) (obj c n (b k)) = .obj (obj c n (b k))) →
        ∃ st' : ∀ k, PySt (α k) V W,
          (∀ᶠ k in l, ((PyStmt.upd o t e).map (enc k)).run c n (st k) = (.ok (), st' k)) ∧
          PyNear M l ω c x st' (σ.write a fun y => o.den (σ.mean a y) (G y)) := fun hB =>
      fin hB (fun k => o.asg.run_updC hc hf (fun ho h2 => (hs (hom ho) h2).1) (d k) (b k))
        (o.asg.updC_conv hw false k3 h3 (fun h => by cases h) fun ho => hd (hod ho)) hjet
    cases e with
    | name s =>
      cases hb : σ.env s with
      | num r =>
        have := he.name_inv
        simp only [MathSt.val, hb] at this
        cases this
      | ref a' =>
        obtain ⟨_, hs'⟩ := h.ref s a' hb
        by_cases haa : a' = a
        · subst haa
          have hGm : G = σ.mean a' := by
            have := he.name_inv
            simp only [MathSt.val, hb, PMath.fn.injEq] at this
            exact this
          have hJK : J.f = K.f := by rw [← k4.value, ← h4.value, hGm]
          have hB : ∀ᶠ k in l, (st k).operand a' ((PyE.name s : PyE ℝ V).map (enc k)) (obj c n (b k)) =
              .self := hs'.mono fun k hk => by simp only [PyE.map, PySt.operand, hk, if_true]
          have hj' : IsJet c.order n (fun y => o.den (σ.mean a' y) (G y)) x (o.asg.bin.jet J J) := by
            have := Bin.isJet c.order o.asg.bin k4 (hGm ▸ k4)
              (by cases o <;> first | trivial | exact hJK ▸ hd rfl) (by cases o <;> trivial)
            cases o <;> exact this
          by_cases hm : o.asg = .mul
          · have h1' : c.order ≠ 2 := fun h2 => (hs (hom hm) h2).2 ⟨s, rfl, hb⟩
            rw [hm] at hj' fin
            refine fin hB (fun k => mulAssign_self hc (fun h2 => absurd h2 h1') hf (d k))
              ⟨?_, fun i hi => ?_,
              fun h2 => absurd h2 h1', fun i j => ?_⟩ hj' (rR := mulAC c n dR dR dR)
            · simp only [mulAC, bFin_zero]; exact k3.f.mul hw k3.f
            · simp only [mulAC, bFin_succ _ _ _ _ hi]
              exact (k3.f.mul hw (k3.g i hi)).add hw (k3.f.mul hw (k3.g i hi))
            · simp only [AOp.bin, Bin.jet, Jet.comp2, k3.sym i j]; ring
          · exact fin hB (fun k => o.asg.run_updC_self hc hf hm (d k))
              (o.asg.updC_conv hw true k3 k3 (fun _ => rfl) fun ho => hJK ▸ hd (hod ho)) hj'
        · exact hobj (hs'.mono fun k hk => by simp only [PyE.map, PySt.operand, hk, haa, if_false])
    | _ => exact hobj (.of_forall fun k => rfl)
  | updScale ht he hop hd =>
    rename_i o t e a s
    obtain ⟨p, h1, q, h2, h3⟩ := h.eval hw hv hf hcmp henc he hP
    obtain ⟨ha, ht'⟩ := h.ref t a ht
    obtain ⟨d, dR, J, k2, k3, k4⟩ := h.objs a ha
    have hod : o.asg = .div → o = .div := by cases o <;> simp [POp.asg]
    refine ⟨fun k => (st k).write a (obj c n (o.asg.updSC (d k) (q k))),
      ((h1.and h2).and (ht'.and k2)).mono fun k ⟨⟨e1, e2⟩, e3, e4⟩ => ?_,
      h.write a ⟨_, _, _, .of_forall fun _ => rfl,
        o.asg.updSC_conv hw k3 h3 fun ho => hd (hod ho), ?_⟩⟩
    · have := AOp.runS_updSC (c := c) (n := n) o.asg (d k) (q k)
      rcases hop with rfl | rfl <;> simp only [POp.asg] at this ⊢ <;>
        simp only [PyStmt.map, PyStmt.run, e1, e2, e3, e4, this, PySt.change]
    · have := k4.comp1 (o.asg.sbin.d2At c.order (x := J.f) (s := s)
        (by cases o <;> first | trivial | exact hd rfl))
      cases o <;> exact this
  | updShift ht he hop =>
    rename_i o t e a s
    obtain ⟨p, h1, q, h2, h3⟩ := h.eval hw hv hf hcmp henc he hP
    obtain ⟨ha, ht'⟩ := h.ref t a ht
    obtain ⟨d, dR, J, k2, k3, k4⟩ := h.objs a ha
    have hD : o.right.dom J.f s := by rcases hop with rfl | rfl <;> trivial
    refine ⟨fun k => (st k).fresh t (.jet (obj c n (o.right.runC c n (d k) (q k)))),
      ((h1.and h2).and (ht'.and k2)).mono fun k ⟨⟨e1, e2⟩, e3, e4⟩ => ?_,
      h.fresh t ⟨_, _, _, .of_forall fun _ => rfl, o.right.conv hw h3 k3 hD, ?_⟩⟩
    · have := o.right.run_obj hc hf (d k) (q k)
      rcases hop with rfl | rfl <;>
        simp only [PyStmt.map, PyStmt.run, e1, e2, e3, e4, POp.run, this, Res.ok_bind, PySt.store]
    · have := k4.comp1 (o.right.d2At c.order hD)
      cases o <;> exact this
  | updNum ht he =>
    rename_i o t e r m
    obtain ⟨q, t1, t2⟩ := h.num t r ht
    have hval : σ.val t = .num r := by simp only [MathSt.val, ht]
    have hn : (PyE.name t : PyE ℝ V).Den c.order x σ.val (.num r) := hval ▸ .name t
    have he' : (PyE.op o (.name t) e).Den c.order x σ.val m := by
      cases he with
      | opNums h₁ h₂ hd => cases h₁; exact .opNums hn h₂ hd
      | opFns h₁ => cases h₁
      | opRight h₁ => cases h₁
      | opLeft h₁ h₂ hd => cases h₁; exact .opLeft hn h₂ hd
    obtain ⟨p, h1, h2⟩ := h.eval hw hv hf hcmp henc he' ⟨trivial, hP⟩
    refine ⟨fun k => (st k).fresh t (p k), (h1.and t1).mono fun k ⟨e1, e2⟩ => ?_, h.fresh t h2⟩
    simp only [PyE.map, PyE.eval, Res.ok_bind, PySt.val, e2] at e1
    cases hy : (e.map (enc k)).eval c n (st k).val with
    | ok y =>
      rw [hy, Res.ok_bind] at e1
      simp only [PyStmt.map, PyStmt.run, hy, e2, e1, PySt.store]
    | throw => rw [hy] at e1; cases e1
    | abort => rw [hy] at e1; cases e1
    | ub => rw [hy] at e1; cases e1
  | setF ht =>
    rename_i t s a
    obtain ⟨ha, ht'⟩ := h.ref t a ht
    obtain ⟨d, dR, J, k2, k3, k4⟩ := h.objs a ha
    refine ⟨fun k => (st k).write a (obj c n fun j => if j = 0 then enc k s else d k j),
      (ht'.and k2).mono fun k ⟨e3, e4⟩ => ?_,
      h.write a
        ⟨_, fun j => if j = 0 then s else dR j, ⟨s, J.g, J.h⟩, .of_forall fun _ => rfl,
          ⟨?_, fun i hi => ?_,
        fun h2 i j hij hj => ?_, k3.sym⟩, ?_⟩⟩
    · simp only [PyStmt.map, PyStmt.run, e3, e4, setF_obj, PySt.putAt]
    · simpa using henc s
    · have : 1 + i ≠ 0 := by omega
      simpa [this] using k3.g i hi
    · have : pos n i j ≠ 0 := by have := pos_gt n i j; omega
      simpa [this] using k3.h h2 i j hij hj
    · have := k4.shift (s - σ.mean a x)
      rwa [← k4.value, add_sub_cancel] at this

omit [DecidableEq V] [DecidableEq W] in
theorem PValNear.at [l.NeBot] {p : ∀ k, PVal (α k)} {m : PMath n} (h : PValNear M l ω c x p m) :
    ∃ s : ∀ k, α k, Lim M l ω s (fun _ => m.at x) (m.at x) ∧ ∀ᶠ k in l,
      p k = .num (s k) ∨ ∃ d, p k = .jet d ∧ d.f = .ok (s k) := by
  cases m with
  | num r =>
    obtain ⟨s, h1, h2⟩ := h
    exact ⟨s, h2, h1.mono fun k hk => Or.inl hk⟩
  | fn F =>
    obtain ⟨a, aR, J, h1, h2, h3⟩ := h
    refine ⟨fun k => a k 0, ?_, h1.mono fun k hk => Or.inr ⟨_, hk, f_obj c n (a k)⟩⟩
    simp only [PMath.at, h3.value]
    exact h2.f.goal_const

omit [DecidableEq V] [DecidableEq W] in
/-- One comparison. -/
theorem PyNear.test [l.NeBot] (hw : Fine w l ω) (hv : c.Valid) (hf : Fits c n)
    (hcmp : ∀ k, (M k).ExactCmp) {enc : ∀ k, ℝ → α k}
    (henc : ∀ s, Lim M l ω (fun k => enc k s) (fun _ => s) s) (h : PyNear M l ω c x st σ)
    (b : PyCond ℝ V) (hi : b.Inside c.order x σ)
    (hne : b.left.real x x (σ.at x).read ≠ b.right.real x x (σ.at x).read)
    (hP : b.left.PowPos x (σ.at x).read ∧ b.right.PowPos x (σ.at x).read) {r : Bool}
    (hr : r = true ↔ b.Holds x x (σ.at x)) :
    ∀ᶠ k in l, (b.map (enc k)).run c n (st k).val = .ok r := by
  obtain ⟨⟨m, hm⟩, m', hm'⟩ := hi
  obtain ⟨p, h1, h2⟩ := h.eval hw hv hf hcmp henc hm hP.1
  obtain ⟨p', h1', h2'⟩ := h.eval hw hv hf hcmp henc hm' hP.2
  obtain ⟨s, k1, k2⟩ := h2.at
  obtain ⟨s', k1', k2'⟩ := h2'.at
  rw [PyCond.Holds, hm.real x (Or.inr rfl), hm'.real x (Or.inr rfl)] at hr
  rw [hm.real x (Or.inr rfl), hm'.real x (Or.inr rfl)] at hne
  have c1 := cmp_lim k1 k1' hne hcmp b.op hr
  have c2 := cmp_lim k1' k1 hne.symm hcmp b.op.mirror (q := r) (by
    rw [hr]
    cases b.op <;> simp [DD.CmpOp.mirror, DD.CmpOp.rel, eq_comm])
  refine ((h1.and h1').and ((k2.and k2').and (c1.and c2))).mono
    fun k ⟨⟨e1, e2⟩, ⟨e3, e4⟩, ⟨e5, _⟩, e6, _⟩ => ?_
  simp only [PyCond.run, PyCond.map, e1, e2, Res.ok_bind]
  rcases e3 with e3 | ⟨d, e3, f3⟩ <;> rcases e4 with e4 | ⟨d', e4, f4⟩ <;>
    simp only [e3, e4, PVal.cmp, DD.cmp, DD.cmpS, *, Res.ok_bind]

/-- The client code. -/
theorem pyclient_near [l.NeBot] (hw : Fine w l ω) (hv : c.Valid) (hf : Fits c n)
    (hcmp : ∀ k, (M k).ExactCmp) {enc : ∀ k, ℝ → α k}
    (henc : ∀ s, Lim M l ω (fun k => enc k s) (fun _ => s) s)
    {cl : Caller (PyCall (PyStmt ℝ V W) (PyCond ℝ V) V) (Answer ℝ) Q} {q q' : Q}
    (he : cl.Ends (PyPreciseCall c.order x) q σ q' σ') (h : PyNear M l ω c x st σ) :
    ∃ (m : Nat) (st' : ∀ k, PySt (α k) V W),
      (∀ᶠ k in l, ∀ j ≥ m,
        (cl.map (PyCall.map (PyStmt.map (enc k)) (PyCond.map (enc k))) (Answer.map (M k).val)).run
          (pyLibrary (α k) V W c n) j q (st k) = some (.ok q', st' k)) ∧
      PyNear M l ω c x st' σ' := by
  induction he generalizing st with
  | stop hn =>
    refine ⟨1, st, .of_forall fun k j hj => ?_, h⟩
    obtain ⟨j, rfl⟩ : ∃ i, j = i + 1 := ⟨j - 1, by omega⟩
    simp [Caller.run, Caller.map, hn]
  | call hn hk _ ih =>
    cases hk with
    | @act s σ σ₁ hs =>
      obtain ⟨st₁, h1, h2⟩ := h.step hw hv hf hcmp henc hs.1 hs.2
      obtain ⟨m, st', h3, h4⟩ := ih h2
      refine ⟨m + 1, st', (h1.and h3).mono fun k ⟨h1, hk⟩ j hj => ?_, h4⟩
      obtain ⟨j, rfl⟩ : ∃ i, j = i + 1 := ⟨j - 1, by omega⟩
      have e : (pyLibrary (α k) V W c n)
          ((PyCall.act s : PyCall (PyStmt ℝ V W) (PyCond ℝ V) V).map (PyStmt.map (enc k))
            (PyCond.map (enc k))) (st k) = (.ok .done, st₁ k) := by
        simp only [pyLibrary, Machine.library, pyMachine, PyCall.map, h1, Answer.of]
      simp only [Caller.run, Caller.map, hn, Option.map_some, e]
      exact hk j (by omega)
    | @ask b σ r hb =>
      have h1 := h.test hw hv hf hcmp henc b hb.1 hb.2.1 hb.2.2.2 hb.2.2.1
      obtain ⟨m, st', h3, h4⟩ := ih h
      refine ⟨m + 1, st', (h1.and h3).mono fun k ⟨h1, hk⟩ j hj => ?_, h4⟩
      obtain ⟨j, rfl⟩ : ∃ i, j = i + 1 := ⟨j - 1, by omega⟩
      have e : (pyLibrary (α k) V W c n)
          ((PyCall.ask b : PyCall (PyStmt ℝ V W) (PyCond ℝ V) V).map (PyStmt.map (enc k))
            (PyCond.map (enc k))) (st k) = (.ok (.truth r), st k) := by
        simp only [pyLibrary, Machine.library, pyMachine, PyCall.map, h1, Answer.of]
      simp only [Caller.run, Caller.map, hn, Option.map_some, e]
      exact hk j (by omega)

omit [DecidableEq V] [DecidableEq W] in
/-- Objects that show converging components. -/
theorem ObjNear.of_seed (hv : c.Valid) {F : (Fin n → ℝ) → ℝ} {J : Jet ℝ}
    (hJ : IsJet c.order n F x J) {r : ∀ k, DD (α k)}
    (lim : ∀ {b : ∀ k, α k} {t : ℝ}, (∀ k, (M k).Sound (b k) t) → Lim M l ω b (fun _ => t) t)
    (h : ∀ k, SeedBy c n (M k).Sound J (r k)) : ObjNear M l ω c x r F := by
  choose K h1 h2 h3 h4 using h
  choose a ha using fun k => ((h1 k).wf.eq_obj hv.order).2
  have hjet : ∀ k, (jetOf n (a k)).Eqv c.order n (K k) := fun k => by
    have hs := h1 k
    have hfit := (hs.wf.eq_obj hv.order).1
    rw [ha k] at hs
    exact (shows_obj hv.order hfit (a k)).unique hs
  let J' : Jet ℝ := ⟨J.f, J.g, fun i j => if c.order = 2 ∧ i < n ∧ j < n then J.h i j else 0⟩
  refine ⟨a, packJet n J', J', .of_forall ha, ⟨?_, fun i hi => ?_, fun ho i j hij hj => ?_,
    fun i j => ?_⟩, hJ.congr ⟨rfl, fun _ _ => rfl, fun ho i j hi hj => ?_⟩⟩
  · rw [packJet_zero]
    exact Lim.congr' (.of_forall fun k => (hjet k).1.symm) (.of_forall fun _ => rfl) (lim h2)
  · rw [packJet_succ _ hi]
    exact Lim.congr' (.of_forall fun k => ((hjet k).2.1 i hi).symm) (.of_forall fun _ => rfl)
      (lim fun k => h3 k i hi)
  · rw [packJet_pos _ hij hj]
    simp only [J', if_pos (And.intro ho (And.intro (by omega : i < n) hj))]
    refine Lim.congr' (.of_forall fun k => ?_) (.of_forall fun _ => rfl)
      (lim fun k => h4 k ho i (by omega) j hj)
    have := (hjet k).2.2 ho i j (by omega) hj
    simp only [jetOf, if_pos hij] at this
    exact this.symm
  · simp only [J']
    by_cases h : c.order = 2 ∧ i < n ∧ j < n
    · rw [if_pos h, if_pos ⟨h.1, h.2.2, h.2.1⟩]
      have hJ' := hJ
      rw [h.1] at hJ'
      exact hJ'.sym ⟨i, h.2.1⟩ ⟨j, h.2.2⟩
    · rw [if_neg h, if_neg (fun h' => h ⟨h'.1, h'.2.2, h'.2.1⟩)]
  · simp only [J', if_pos (And.intro ho (And.intro hi hj))]

omit [DecidableEq V] [DecidableEq W] in
/-- The rate in terms of bounds. -/
theorem ObjNear.errLe [l.NeBot] (hc : c.order = 1 ∨ c.order = 2) (hf : Fits c n) {r : ∀ k, DD (α k)}
    {F : (Fin n → ℝ) → ℝ} (h : ObjNear M l ω c x r F) :
    ∀ᶠ C in atTop, ∀ᶠ k in l,
      Within c (fun s t => (M k).fin s ∧ |(M k).val s - t| ≤ C * ‖ω k‖) F x (r k) := by
  obtain ⟨a, aR, J, h1, h2, h3⟩ := h
  have uniq : ∀ {b : ∀ k, α k} {s t : ℝ}, Lim M l ω b (fun _ => s) t → s = t := fun h =>
    tendsto_nhds_unique tendsto_const_nhds h.goal
  have hI : IsJet c.order n F x (jetOf n aR) := by
    refine h3.congr ⟨(uniq h2.f).symm, fun i hi => (uniq (h2.g i hi)).symm, fun ho i j hi hj => ?_⟩
    simp only [jetOf]
    by_cases hij : i ≤ j
    · rw [if_pos hij, uniq (h2.h ho i j hij hj)]
    · rw [if_neg hij, uniq (h2.h ho j i (by omega) hi), h2.sym]
  refine (h2.errLe hc hf (x := fun _ => x) (.of_forall fun _ => hI)).mono fun C hC => ?_
  exact (hC.and h1).mono fun k hk => by rw [hk.2]; exact hk.1

end

end HJ
