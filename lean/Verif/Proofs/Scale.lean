import Verif.Spec.Scale
import Verif.Proofs.Block

/-!
# Scaled seeds (helper lemmas)
-/

namespace HJ

variable {α V : Type} {c : Cfg} {n : Nat} {σ : Nat → α → α}

/-- Contents with scaled derivatives. -/
structure ScaleC (c : Cfg) (n : Nat) (σ : Nat → α → α) (a a' : Nat → α) : Prop where
  f : a' 0 = a 0
  g : ∀ i, i < n → a' (1 + i) = σ i (a (1 + i))
  h : c.order = 2 → ∀ i j, i ≤ j → j < n → a' (pos n i j) = σ i (σ j (a (pos n i j)))

section
variable [Arith α]

theorem ScaleC.scaled (hσ : Scales σ) (hc : c.order = 1 ∨ c.order = 2) (hf : Fits c n) {a a' : Nat → α}
    (h : ScaleC c n σ a a') : ScaledBy c n σ (obj c n a) (obj c n a') where
  wf := wf_obj hc hf a
  wf' := wf_obj hc hf a'
  f := by rw [f_obj, f_obj, h.f]
  g i hi := ⟨_, g_obj hf a hi, by rw [g_obj hf a' hi, h.g i hi]⟩
  h h2 i j hi hj := by
    rcases le_total i j with hij | hij
    · exact ⟨_, h_obj h2 hf a hij hj, by rw [h_obj h2 hf a' hij hj, h.h h2 i j hij hj]⟩
    · exact ⟨_, h_obj_swap h2 hf a hij hi,
        by rw [h_obj_swap h2 hf a' hij hi, h.h h2 j i hij hi, hσ.comm]⟩

omit [Arith α] in
theorem ScaledBy.contents (hc : c.order = 1 ∨ c.order = 2) {x x' : DD α} (h : ScaledBy c n σ x x') :
    ∃ a a', x = obj c n a ∧ x' = obj c n a' ∧ ScaleC c n σ a a' := by
  obtain ⟨hf, a, rfl⟩ := h.wf.eq_obj hc
  obtain ⟨-, a', rfl⟩ := h.wf'.eq_obj hc
  refine ⟨a, a', rfl, rfl, ?_, fun i hi => ?_, fun h2 i j hij hj => ?_⟩
  · have := h.f
    rw [f_obj, f_obj] at this
    simpa using this
  · obtain ⟨u, h1, h2⟩ := h.g i hi
    rw [g_obj hf a hi] at h1
    rw [g_obj hf a' hi] at h2
    cases h1
    simpa using h2
  · obtain ⟨u, h1, h3⟩ := h.h h2 i j (by omega) hj
    rw [h_obj h2 hf a hij hj] at h1
    rw [h_obj h2 hf a' hij hj] at h3
    cases h1
    simpa using h3

theorem ScaleC.const (hσ : Scales σ) (x : α) : ScaleC c n σ (constC x) (constC x) := by
  refine ⟨rfl, fun i hi => ?_, fun _ i j hij hj => ?_⟩
  · simp [constC, hσ.zero]
  · simp [constC, pos_ne_zero', hσ.zero]

omit [Arith α] in
/-- Operations that treat all components but the value alike. -/
theorem ScaleC.lin {a a' r r' : Nat → α} (h : ScaleC c n σ a a') (F : α → α)
    (hF : ∀ i x, F (σ i x) = σ i (F x))
    (h0 : r' 0 = r 0) (hr : ∀ k, k ≠ 0 → r k = F (a k)) (hr' : ∀ k, k ≠ 0 → r' k = F (a' k)) :
    ScaleC c n σ r r' := by
  refine ⟨h0, fun i hi => ?_, fun h2 i j hij hj => ?_⟩
  · rw [hr _ (by omega), hr' _ (by omega), h.g i hi, hF]
  · rw [hr _ (pos_ne_zero' _ _ _), hr' _ (pos_ne_zero' _ _ _), h.h h2 i j hij hj, hF, hF]

theorem Scales.quad (hσ : Scales σ) (i j : Nat) (x y : α) : σ i x *ₛ σ j y = σ i (σ j (x *ₛ y)) := by
  rw [← hσ.mulL, ← hσ.mulR]

theorem Scales.quad' (hσ : Scales σ) (i j : Nat) (x y : α) : σ j x *ₛ σ i y = σ i (σ j (x *ₛ y)) := by
  rw [hσ.quad, hσ.comm]

theorem ScaleC.uFin (hσ : Scales σ) {a a' : Nat → α} (h : ScaleC c n σ a a') (f da daa : α) :
    ScaleC c n σ (uFin c n a f da daa) (uFin c n a' f da daa) := by
  refine ⟨by rw [uFin_zero, uFin_zero], fun i hi => ?_, fun h2 i j hij hj => ?_⟩
  · rw [uFin_succ _ _ _ _ hi, uFin_succ _ _ _ _ hi, h.g i hi, hσ.mulR]
  · rw [uFin_pos h2 _ _ _ _ hij hj, uFin_pos h2 _ _ _ _ hij hj, h.g i (by omega), h.g j hj,
      h.h h2 i j hij hj, ← hσ.mulR i da, ← hσ.mulR j da, ← hσ.mulR i daa,
      hσ.quad, hσ.add j, hσ.add i]

theorem ScaleC.bFin (hσ : Scales σ) {f f' : α} {t t' : Nat → α} {u u' : Nat → Nat → α}
    (hf : f' = f) (hg : ∀ i, i < n → t' (1 + i) = σ i (t (1 + i)))
    (hh : c.order = 2 → ∀ i j, i ≤ j → j < n → t' (pos n i j) = σ i (σ j (t (pos n i j))))
    (hu : ∀ i j, i < n → j < n → u' i j = σ i (σ j (u i j))) :
    ScaleC c n σ (bFin c n true f t u) (bFin c n true f' t' u') := by
  refine ⟨by rw [bFin_zero, bFin_zero, hf], fun i hi => ?_, fun h2 i j hij hj => ?_⟩
  · rw [bFin_succ _ _ _ _ hi, bFin_succ _ _ _ _ hi, hg i hi]
  · rw [bFin_pos h2 _ _ _ hij hj, bFin_pos h2 _ _ _ hij hj, hu i j (by omega) hj, hh h2 i j hij hj,
      hσ.add, hσ.add]

theorem ScaleC.mulA (hσ : Scales σ) {a a' b b' d d' : Nat → α} (h : ScaleC c n σ a a')
    (hb : ScaleC c n σ b b') (hd : ∀ i, i < n → d' (1 + i) = σ i (d (1 + i))) :
    ScaleC c n σ (mulAC c n a b d) (mulAC c n a' b' d') := by
  refine ScaleC.bFin hσ (by rw [h.f, hb.f]) (fun i hi => ?_) (fun h2 i j hij hj => ?_) fun i j hi hj => ?_
  · simp only [h.f, hb.f, h.g i hi, hb.g i hi, hσ.add, ← hσ.mulR]
  · simp only [h.f, hb.f, h.h h2 i j hij hj, hb.h h2 i j hij hj, hσ.add, ← hσ.mulR]
  · simp only [h.g i hi, h.g j hj, hd i hi, hd j hj, hσ.add]
    rw [hσ.quad, hσ.quad']

theorem ScaleC.div (hσ : Scales σ) {a a' b b' : Nat → α} (h : ScaleC c n σ a a')
    (hb : ScaleC c n σ b b') (f da db dab dbb : α) :
    ScaleC c n σ (divC c n a b f da db dab dbb) (divC c n a' b' f da db dab dbb) := by
  refine ScaleC.bFin hσ rfl (fun i hi => ?_) (fun h2 i j hij hj => ?_) fun i j hi hj => ?_
  · simp only [h.g i hi, hb.g i hi, hσ.add, ← hσ.mulR]
  · simp only [h.h h2 i j hij hj, hb.h h2 i j hij hj, hσ.add, ← hσ.mulR]
  · simp only [h.g i hi, h.g j hj, hb.g i hi, hb.g j hj]
    rw [← hσ.mulR i dab, ← hσ.mulR i dab, ← hσ.mulR i dbb, ← hσ.add, hσ.quad, hσ.quad, ← hσ.add, ← hσ.add]

theorem ScaleC.divSelf (hσ : Scales σ) {a a' : Nat → α} (h : ScaleC c n σ a a') (f da db dab dbb : α) :
    ScaleC c n σ (divSelfC c n a f da db dab dbb) (divSelfC c n a' f da db dab dbb) := by
  have ht : ∀ i, i < n → da *ₛ a' (1 + i) +ₛ db *ₛ a' (1 + i) =
      σ i (da *ₛ a (1 + i) +ₛ db *ₛ a (1 + i)) := fun i hi => by
    simp only [h.g i hi, hσ.add, ← hσ.mulR]
  refine ScaleC.bFin hσ rfl ht (fun h2 i j hij hj => ?_) fun i j hi hj => ?_
  · simp only [h.h h2 i j hij hj, hσ.add, ← hσ.mulR]
  · simp only [ht i hi, ht j hj]
    rw [h.g i hi, h.g j hj, ← hσ.mulR i dab, ← hσ.mulR i dab, ← hσ.mulR i dbb, ← hσ.add i (dab *ₛ _),
      hσ.quad, hσ.quad, ← hσ.add i, ← hσ.add j]

theorem ScaleC.bin5 (hσ : Scales σ) {a a' b b' : Nat → α} (h : ScaleC c n σ a a')
    (hb : ScaleC c n σ b b') (f da db daa dab dbb : α) :
    ScaleC c n σ (bin5 c n a b f da db daa dab dbb) (bin5 c n a' b' f da db daa dab dbb) := by
  refine ScaleC.bFin hσ rfl (fun i hi => ?_) (fun h2 i j hij hj => ?_) fun i j hi hj => ?_
  · simp only [h.g i hi, hb.g i hi, hσ.add, ← hσ.mulR]
  · simp only [h.h h2 i j hij hj, hb.h h2 i j hij hj, hσ.add, ← hσ.mulR]
  · simp only [h.g i hi, h.g j hj, hb.g i hi, hb.g j hj]
    rw [← hσ.mulR i daa, ← hσ.mulR i dab, ← hσ.mulR i dab, ← hσ.mulR i dbb, ← hσ.add, ← hσ.add, hσ.quad,
      hσ.quad, ← hσ.add, ← hσ.add]

theorem ScaleC.add (hσ : Scales σ) {a a' b b' : Nat → α} (h : ScaleC c n σ a a')
    (hb : ScaleC c n σ b b') : ScaleC c n σ (addC a b) (addC a' b') :=
  ⟨by simp only [addC, h.f, hb.f], fun i hi => by simp only [addC, h.g i hi, hb.g i hi, hσ.add],
    fun h2 i j hij hj => by simp only [addC, h.h h2 i j hij hj, hb.h h2 i j hij hj, hσ.add]⟩

theorem SBin.scaleC (hσ : Scales σ) {a a' : Nat → α} (h : ScaleC c n σ a a') (o : SBin) (x : α) :
    ScaleC c n σ (o.runC c n a x) (o.runC c n a' x) := by
  cases o with
  | addS | sAdd | subS =>
    exact h.lin id (fun _ _ => rfl) (by simp [SBin.runC, addSC, h.f])
      (fun k hk => by simp [SBin.runC, addSC, hk]) fun k hk => by simp [SBin.runC, addSC, hk]
  | sSub =>
    exact h.lin (fun y => -ₛ y) (fun i y => (hσ.neg i y).symm) (by simp [SBin.runC, sSubC, h.f])
      (fun k hk => by simp [SBin.runC, sSubC, hk]) fun k hk => by simp [SBin.runC, sSubC, hk]
  | mulS | sMul =>
    exact h.lin (fun y => y *ₛ x) (fun i y => (hσ.mulL i y x).symm) (by simp [SBin.runC, h.f])
      (fun k hk => rfl) fun k hk => rfl
  | divS =>
    exact h.lin (fun y => y *ₛ (Arith.lit 1 ÷ₛ x)) (fun i y => (hσ.mulL i y _).symm)
      (by simp [SBin.runC, h.f]) (fun k hk => rfl) fun k hk => rfl
  | sDiv => simp only [SBin.runC, h.f]; exact h.uFin hσ _ _ _

end

section
variable [CMath α]

theorem Bin.scaleC (hσ : Scales σ) {a a' b b' : Nat → α} (h : ScaleC c n σ a a')
    (hb : ScaleC c n σ b b') (o : Bin) : ScaleC c n σ (o.runC c n a b) (o.runC c n a' b') := by
  cases o with
  | add => exact h.add hσ hb
  | sub =>
    refine ⟨by simp [Bin.runC, subC, h.f, hb.f],
      fun i hi => by simp [Bin.runC, subC, h.g i hi, hb.g i hi, hσ.add, hσ.neg], fun h2 i j hij hj => ?_⟩
    simp only [Bin.runC, subC, pos_ne_zero', if_false, h.h h2 i j hij hj, hb.h h2 i j hij hj, hσ.add, hσ.neg]
  | mul =>
    refine ScaleC.bFin hσ (by rw [h.f, hb.f]) (fun i hi => ?_) (fun h2 i j hij hj => ?_)
      fun i j hi hj => ?_
    · simp only [h.f, hb.f, h.g i hi, hb.g i hi, hσ.add, ← hσ.mulR]
    · simp only [h.f, hb.f, h.h h2 i j hij hj, hb.h h2 i j hij hj, hσ.add, ← hσ.mulR]
    · simp only [h.g i hi, h.g j hj, hb.g i hi, hb.g j hj, hσ.add]
      rw [hσ.quad, hσ.quad]
  | div => simp only [Bin.runC, h.f, hb.f]; exact h.div hσ hb _ _ _ _ _
  | atan2 => simp only [Bin.runC, atan2C, h.f, hb.f]; exact h.bin5 hσ hb _ _ _ _ _ _
  | hypot => simp only [Bin.runC, hypotC, h.f, hb.f]; exact h.bin5 hσ hb _ _ _ _ _ _

theorem ScaleC.hypot3 (hσ : Scales σ) {a a' b b' d d' : Nat → α} (h : ScaleC c n σ a a')
    (hb : ScaleC c n σ b b') (hd : ScaleC c n σ d d') :
    ScaleC c n σ (hypot3C c n a b d) (hypot3C c n a' b' d') := by
  simp only [hypot3C, h.f, hb.f, hd.f]
  refine ScaleC.bFin hσ rfl (fun i hi => ?_) (fun h2 i j hij hj => ?_) fun i j hi hj => ?_
  · simp only [tLin, h.g i hi, hb.g i hi, hd.g i hi, hσ.add, ← hσ.mulR]
  · simp only [tLin, h.h h2 i j hij hj, hb.h h2 i j hij hj, hd.h h2 i j hij hj, hσ.add, ← hσ.mulR]
  · have lin : ∀ p q r : α, p *ₛ a' (1 + i) +ₛ q *ₛ b' (1 + i) +ₛ r *ₛ d' (1 + i) =
        σ i (p *ₛ a (1 + i) +ₛ q *ₛ b (1 + i) +ₛ r *ₛ d (1 + i)) := fun p q r => by
      simp only [h.g i hi, hb.g i hi, hd.g i hi, hσ.add, ← hσ.mulR]
    simp only [tQuad, lin]
    rw [h.g j hj, hb.g j hj, hd.g j hj, hσ.quad, hσ.quad, hσ.quad]
    simp only [hσ.add]

theorem Expr.scaleC (hσ : Scales σ) {a a' : V → Nat → α} (h : ∀ v, ScaleC c n σ (a v) (a' v))
    (e : Expr α V) : ScaleC c n σ (e.evalC c n a) (e.evalC c n a') := by
  induction e with
  | var v => exact h v
  | const x => exact ScaleC.const hσ x
  | neg e ih =>
    exact ih.lin (fun y => -ₛ y) (fun i y => (hσ.neg i y).symm) (by simp [Expr.evalC, ih.f])
      (fun k hk => rfl) fun k hk => rfl
  | abs e ih =>
    refine ih.lin (fun y => if Cmp.ltB (e.evalC c n a 0) (Arith.lit 0) then -ₛ y else y)
      (fun i y => ?_) (by simp only [Expr.evalC, absC, ih.f]) (fun k hk => rfl)
      fun k hk => by simp only [Expr.evalC, absC, ih.f]
    split
    · exact (hσ.neg i y).symm
    · rfl
  | fn φ e ih => simp only [Expr.evalC, Fn.runC, ih.f]; exact ih.uFin hσ _ _ _
  | bin o e₁ e₂ ih₁ ih₂ => exact Bin.scaleC hσ ih₁ ih₂ o
  | sbin o e x ih => exact SBin.scaleC hσ ih o x
  | hypot3 e₁ e₂ e₃ ih₁ ih₂ ih₃ => exact ih₁.hypot3 hσ ih₂ ih₃

theorem AOp.scaleC (hσ : Scales σ) {a a' b b' : Nat → α} (h : ScaleC c n σ a a')
    (hb : ScaleC c n σ b b') (o : AOp) (self : Bool) :
    ScaleC c n σ (o.cells c n self a b) (o.cells c n self a' b') := by
  unfold AOp.cells
  split
  · refine h.mulA hσ h fun i hi => by simp only [h.f, h.g i hi, hσ.add, ← hσ.mulR]
  · cases o with
    | add => exact h.add hσ hb
    | sub =>
      exact ⟨by simp only [AOp.updC, h.f, hb.f],
        fun i hi => by simp only [AOp.updC, h.g i hi, hb.g i hi, hσ.sub],
        fun h2 i j hij hj => by simp only [AOp.updC, h.h h2 i j hij hj, hb.h h2 i j hij hj, hσ.sub]⟩
    | mul => exact h.mulA hσ hb hb.g
    | div =>
      cases self with
      | true => simp only [AOp.updC, if_true, h.f]; exact h.divSelf hσ _ _ _ _ _
      | false =>
        simp only [AOp.updC, Bool.false_eq_true, if_false, h.f, hb.f]; exact h.div hσ hb _ _ _ _ _

variable [DecidableEq V]

omit [CMath α] in
theorem ScaleC.set {a a' : V → Nat → α} (h : ∀ v, ScaleC c n σ (a v) (a' v)) (t : V)
    {b b' : Nat → α} (hb : ScaleC c n σ b b') (v : V) :
    ScaleC c n σ (setC a t b v) (setC a' t b' v) := by
  by_cases hv : v = t <;> simp [setC, hv, h, hb]

theorem Stmt.scaleC (hσ : Scales σ) {a a' : V → Nat → α} (h : ∀ v, ScaleC c n σ (a v) (a' v))
    (k : Stmt α V) (hk : k.NoIndex) (v : V) : ScaleC c n σ (k.cells c n a v) (k.cells c n a' v) := by
  cases k with
  | assign t e => exact ScaleC.set h t (Expr.scaleC hσ h e) v
  | upd o t e =>
    cases e with
    | var w => exact ScaleC.set h t (AOp.scaleC hσ (h t) (h w) o _) v
    | _ => exact ScaleC.set h t (AOp.scaleC hσ (h t) (Expr.scaleC hσ h _) o _) v
  | updS o t x =>
    cases x with
    | cell k => exact hk.elim
    | val x =>
      refine ScaleC.set h t ?_ v
      cases o with
      | add =>
        exact (h t).lin id (fun _ _ => rfl) (by simp [AOp.cellsS, addSC, (h t).f])
          (fun k hk => by simp [AOp.cellsS, addSC, hk]) fun k hk => by simp [AOp.cellsS, addSC, hk]
      | sub =>
        exact (h t).lin id (fun _ _ => rfl) (by simp [AOp.cellsS, subSC, (h t).f])
          (fun k hk => by simp [AOp.cellsS, subSC, hk]) fun k hk => by simp [AOp.cellsS, subSC, hk]
      | mul =>
        exact (h t).lin (fun y => y *ₛ x) (fun i y => (hσ.mulL i y _).symm)
          (by simp [AOp.cellsS, (h t).f]) (fun k hk => rfl) fun k hk => rfl
      | div =>
        exact (h t).lin (fun y => y *ₛ (Arith.lit 1 ÷ₛ x)) (fun i y => (hσ.mulL i y _).symm)
          (by simp [AOp.cellsS, (h t).f]) (fun k hk => rfl) fun k hk => rfl
  | setF t x =>
    exact ScaleC.set h t ((h t).lin id (fun _ _ => rfl) (by simp) (fun k hk => by simp [hk])
      fun k hk => by simp [hk]) v
  | setG t i x => exact hk.elim
  | setH t i j x => exact hk.elim
  | setZero t =>
    exact ScaleC.set h t ⟨rfl, fun i _ => (hσ.zero i).symm, fun _ i j _ _ => by
      show _ = σ i (σ j (Arith.lit 0)); rw [hσ.zero, hσ.zero]⟩ v

end

end HJ
