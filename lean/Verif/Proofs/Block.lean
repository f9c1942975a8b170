import Verif.Spec.Block
import Verif.Proofs.Caller
import Verif.Proofs.Factory

/-!
# Some of the variables only (helper lemmas)
-/

namespace HJ

variable {α V : Type} {c c' : Cfg} {n m : Nat} {s : Nat → Nat} {P : Nat → Prop}

theorem Selects.le (hs : Selects s m n) {i j : Nat} (hij : i ≤ j) (hj : j < m) : s i ≤ s j := by
  rcases Nat.lt_or_ge i j with h | h
  · exact (hs.mono i j h hj).le
  · rw [show i = j by omega]

/-- Contents with the selected components of other contents. -/
structure PickC (c c' : Cfg) (n m : Nat) (s : Nat → Nat) (P : Nat → Prop) (a a' : Nat → α) : Prop where
  f : a' 0 = a 0
  g : ∀ i, i < m → P i → a' (1 + i) = a (1 + s i)
  h : c.order = 2 → c'.order = 2 → ∀ i j, i ≤ j → j < m → P i → P j →
    a' (pos m i j) = a (pos n (s i) (s j))

theorem pos_ne_zero' (n i j : Nat) : pos n i j ≠ 0 := by
  have := pos_gt n i j
  omega

theorem PickC.picks (hc : c.order = 1 ∨ c.order = 2) (hc' : c'.order = 1 ∨ c'.order = 2)
    (hf : Fits c n) (hf' : Fits c' m) (hs : Selects s m n) {a a' : Nat → α}
    (h : PickC c c' n m s (fun _ => True) a a') : Picks c c' n m s (obj c n a) (obj c' m a') where
  wf := wf_obj hc hf a
  wf' := wf_obj hc' hf' a'
  f := by rw [f_obj, f_obj, h.f]
  g i hi := by rw [g_obj hf' a' hi, g_obj hf a (hs.lt i hi), h.g i hi trivial]
  h h2 h2' i j hi hj := by
    rcases le_total i j with hij | hij
    · rw
      [h_obj h2' hf' a' hij hj, h_obj h2 hf a (hs.le hij hj)
        (hs.lt j hj), h.h h2 h2' i j hij hj trivial trivial]
    · rw [h_obj_swap h2' hf' a' hij hi, h_obj_swap h2 hf a (hs.le hij hi) (hs.lt i hi),
        h.h h2 h2' j i hij hi trivial trivial]

theorem Picks.contents (hc : c.order = 1 ∨ c.order = 2) (hc' : c'.order = 1 ∨ c'.order = 2)
    (hs : Selects s m n) {x x' : DD α} (h : Picks c c' n m s x x') :
    ∃ a a', x = obj c n a ∧ x' = obj c' m a' ∧ PickC c c' n m s (fun _ => True) a a' := by
  obtain ⟨hf, a, rfl⟩ := h.wf.eq_obj hc
  obtain ⟨hf', a', rfl⟩ := h.wf'.eq_obj hc'
  refine ⟨a, a', rfl, rfl, ?_, fun i hi _ => ?_, fun h2 h2' i j hij hj _ _ => ?_⟩
  · have := h.f
    rw [f_obj, f_obj] at this
    simpa using this
  · have := h.g i hi
    rw [g_obj hf' a' hi, g_obj hf a (hs.lt i hi)] at this
    simpa using this
  · have := h.h h2 h2' i j (by omega) hj
    rw [h_obj h2' hf' a' hij hj, h_obj h2 hf a (hs.le hij hj) (hs.lt j hj)] at this
    simpa using this

section
variable [Arith α]

theorem PickC.const (x : α) : PickC c c' n m s P (constC x) (constC x) := by
  refine ⟨rfl, fun i hi hp => ?_, fun _ _ i j hij hj _ _ => ?_⟩
  · simp [constC]
  · simp [constC, pos_ne_zero']

omit [Arith α] in
/-- Operations that treat all components but the value alike. -/
theorem PickC.lin {a a' r r' : Nat → α} (h : PickC c c' n m s P a a') (F : α → α)
    (h0 : r' 0 = r 0) (hr : ∀ k, k ≠ 0 → r k = F (a k)) (hr' : ∀ k, k ≠ 0 → r' k = F (a' k)) :
    PickC c c' n m s P r r' := by
  refine ⟨h0, fun i hi hp => ?_, fun h2 h2' i j hij hj hp hq => ?_⟩
  · rw [hr _ (by omega), hr' _ (by omega), h.g i hi hp]
  · rw [hr _ (pos_ne_zero' _ _ _), hr' _ (pos_ne_zero' _ _ _), h.h h2 h2' i j hij hj hp hq]

theorem PickC.uFin (hs : Selects s m n) {a a' : Nat → α} (h : PickC c c' n m s P a a') (f da daa : α) :
    PickC c c' n m s P (uFin c n a f da daa) (uFin c' m a' f da daa) := by
  refine ⟨by rw [uFin_zero, uFin_zero], fun i hi hp => ?_, fun h2 h2' i j hij hj hp hq => ?_⟩
  · rw [uFin_succ _ _ _ _ hi, uFin_succ _ _ _ _ (hs.lt i hi), h.g i hi hp]
  · rw [uFin_pos h2' _ _ _ _ hij hj, uFin_pos h2 _ _ _ _ (hs.le hij hj) (hs.lt j hj),
      h.g i (by omega) hp, h.g j hj hq, h.h h2 h2' i j hij hj hp hq]

theorem PickC.bFin (hs : Selects s m n) {f f' : α} {t t' : Nat → α} {u u' : Nat → Nat → α}
    (hf : f' = f) (hg : ∀ i, i < m → P i → t' (1 + i) = t (1 + s i))
    (hh : c.order = 2 → c'.order = 2 → ∀ i j, i ≤ j → j < m → P i → P j →
      t' (pos m i j) = t (pos n (s i) (s j)))
    (hu : ∀ i j, i < m → j < m → P i → P j → u' i j = u (s i) (s j)) :
    PickC c c' n m s P (bFin c n true f t u) (bFin c' m true f' t' u') := by
  refine ⟨by rw [bFin_zero, bFin_zero, hf], fun i hi hp => ?_, fun h2 h2' i j hij hj hp hq => ?_⟩
  · rw [bFin_succ _ _ _ _ hi, bFin_succ _ _ _ _ (hs.lt i hi), hg i hi hp]
  · rw [bFin_pos h2' _ _ _ hij hj, bFin_pos h2 _ _ _ (hs.le hij hj) (hs.lt j hj),
      hu i j (by omega) hj hp hq, hh h2 h2' i j hij hj hp hq]

theorem PickC.mulA (hs : Selects s m n) {a a' b b' d d' : Nat → α} (h : PickC c c' n m s P a a')
    (hb : PickC c c' n m s P b b') (hd : PickC c c' n m s P d d') :
    PickC c c' n m s P (mulAC c n a b d) (mulAC c' m a' b' d') := by
  refine PickC.bFin hs (by rw [h.f, hb.f]) (fun i hi hp => ?_) (fun h2 h2' i j hij hj hp hq => ?_)
    fun i j hi hj hp hq => ?_
  · simp only [h.f, hb.f, h.g i hi hp, hb.g i hi hp]
  · simp only [h.f, hb.f, h.h h2 h2' i j hij hj hp hq, hb.h h2 h2' i j hij hj hp hq]
  · simp only [h.g i hi hp, h.g j hj hq, hd.g i hi hp, hd.g j hj hq]

theorem PickC.div (hs : Selects s m n) {a a' b b' : Nat → α} (h : PickC c c' n m s P a a')
    (hb : PickC c c' n m s P b b') (f da db dab dbb : α) :
    PickC c c' n m s P (divC c n a b f da db dab dbb) (divC c' m a' b' f da db dab dbb) := by
  refine PickC.bFin hs rfl (fun i hi hp => ?_)
    (fun h2 h2' i j hij hj hp hq => ?_) fun i j hi hj hp hq => ?_
  · simp only [h.g i hi hp, hb.g i hi hp]
  · simp only [h.h h2 h2' i j hij hj hp hq, hb.h h2 h2' i j hij hj hp hq]
  · simp only [h.g i hi hp, h.g j hj hq, hb.g i hi hp, hb.g j hj hq]

theorem PickC.divSelf (hs : Selects s m n) {a a' : Nat → α} (h : PickC c c' n m s P a a')
    (f da db dab dbb : α) :
    PickC c c' n m s P (divSelfC c n a f da db dab dbb) (divSelfC c' m a' f da db dab dbb) := by
  refine PickC.bFin hs rfl (fun i hi hp => ?_)
    (fun h2 h2' i j hij hj hp hq => ?_) fun i j hi hj hp hq => ?_
  · simp only [h.g i hi hp]
  · simp only [h.h h2 h2' i j hij hj hp hq]
  · simp only [h.g i hi hp, h.g j hj hq]

theorem PickC.bin5 (hs : Selects s m n) {a a' b b' : Nat → α} (h : PickC c c' n m s P a a')
    (hb : PickC c c' n m s P b b') (f da db daa dab dbb : α) :
    PickC c c' n m s P (bin5 c n a b f da db daa dab dbb) (bin5 c' m a' b' f da db daa dab dbb) := by
  refine PickC.bFin hs rfl (fun i hi hp => ?_)
    (fun h2 h2' i j hij hj hp hq => ?_) fun i j hi hj hp hq => ?_
  · simp only [h.g i hi hp, hb.g i hi hp]
  · simp only [h.h h2 h2' i j hij hj hp hq, hb.h h2 h2' i j hij hj hp hq]
  · simp only [h.g i hi hp, h.g j hj hq, hb.g i hi hp, hb.g j hj hq]

theorem PickC.add {a a' b b' : Nat → α} (h : PickC c c' n m s P a a')
    (hb : PickC c c' n m s P b b') : PickC c c' n m s P (addC a b) (addC a' b') := by
  refine ⟨by simp only [addC, h.f, hb.f], fun i hi hp => by simp only [addC, h.g i hi hp, hb.g i hi hp],
    fun h2 h2' i j hij hj hp hq => by simp only
      [addC, h.h h2 h2' i j hij hj hp hq, hb.h h2 h2' i j hij hj hp hq]⟩

theorem SBin.pickC (hs : Selects s m n) {a a' : Nat → α} (h : PickC c c' n m s P a a') (o : SBin)
    (x : α) :
    PickC c c' n m s P (o.runC c n a x) (o.runC c' m a' x) := by
  cases o with
  | addS | sAdd | subS =>
    exact h.lin id (by simp [SBin.runC, addSC, h.f]) (fun k hk => by simp [SBin.runC, addSC, hk])
      fun k hk => by simp [SBin.runC, addSC, hk]
  | sSub =>
    exact h.lin (fun y => -ₛ y) (by simp [SBin.runC, sSubC, h.f])
      (fun k hk => by simp [SBin.runC, sSubC, hk]) fun k hk => by simp [SBin.runC, sSubC, hk]
  | mulS | sMul =>
    exact h.lin (fun y => y *ₛ x) (by simp [SBin.runC, h.f]) (fun k hk => rfl) fun k hk => rfl
  | divS =>
    exact h.lin (fun y => y *ₛ (Arith.lit 1 ÷ₛ x)) (by simp [SBin.runC, h.f]) (fun k hk => rfl)
      fun k hk => rfl
  | sDiv => simp only [SBin.runC, h.f]; exact h.uFin hs _ _ _

end

section
variable [CMath α]

theorem Bin.pickC (hs : Selects s m n) {a a' b b' : Nat → α} (h : PickC c c' n m s P a a')
    (hb : PickC c c' n m s P b b') (o : Bin) :
    PickC c c' n m s P (o.runC c n a b) (o.runC c' m a' b') := by
  cases o with
  | add => exact h.add hb
  | sub =>
    refine
      ⟨by simp [Bin.runC, subC, h.f, hb.f], fun i hi hp => by simp
        [Bin.runC, subC, h.g i hi hp, hb.g i hi hp],
      fun h2 h2' i j hij hj hp hq => ?_⟩
    simp only [Bin.runC, subC, pos_ne_zero', if_false,
      h.h h2 h2' i j hij hj hp hq, hb.h h2 h2' i j hij hj hp hq]
  | mul =>
    refine PickC.bFin hs (by rw [h.f, hb.f]) (fun i hi hp => ?_) (fun h2 h2' i j hij hj hp hq => ?_)
      fun i j hi hj hp hq => ?_
    · simp only [h.f, hb.f, h.g i hi hp, hb.g i hi hp]
    · simp only [h.f, hb.f, h.h h2 h2' i j hij hj hp hq, hb.h h2 h2' i j hij hj hp hq]
    · simp only [h.g i hi hp, h.g j hj hq, hb.g i hi hp, hb.g j hj hq]
  | div => simp only [Bin.runC, h.f, hb.f]; exact h.div hs hb _ _ _ _ _
  | atan2 => simp only [Bin.runC, atan2C, h.f, hb.f]; exact h.bin5 hs hb _ _ _ _ _ _
  | hypot => simp only [Bin.runC, hypotC, h.f, hb.f]; exact h.bin5 hs hb _ _ _ _ _ _

theorem PickC.hypot3 (hs : Selects s m n) {a a' b b' d d' : Nat → α} (h : PickC c c' n m s P a a')
    (hb : PickC c c' n m s P b b') (hd : PickC c c' n m s P d d') :
    PickC c c' n m s P (hypot3C c n a b d) (hypot3C c' m a' b' d') := by
  simp only [hypot3C, h.f, hb.f, hd.f]
  refine PickC.bFin hs rfl (fun i hi hp => ?_)
    (fun h2 h2' i j hij hj hp hq => ?_) fun i j hi hj hp hq => ?_
  · simp only [tLin, h.g i hi hp, hb.g i hi hp, hd.g i hi hp]
  · simp only
    [tLin, h.h h2 h2' i j hij hj hp hq, hb.h h2 h2' i j hij hj hp hq, hd.h h2 h2' i j hij hj hp hq]
  · simp only [tQuad, h.g i hi hp, h.g j hj hq, hb.g i hi hp, hb.g j hj hq, hd.g i hi hp, hd.g j hj hq]

theorem Expr.pickC (hs : Selects s m n) {a a' : V → Nat → α} (h : ∀ v, PickC c c' n m s P (a v) (a' v))
    (e : Expr α V) : PickC c c' n m s P (e.evalC c n a) (e.evalC c' m a') := by
  induction e with
  | var v => exact h v
  | const x => exact PickC.const x
  | neg e ih =>
    exact ih.lin (fun y => -ₛ y) (by simp [Expr.evalC, ih.f]) (fun k hk => rfl) fun k hk => rfl
  | abs e ih =>
    exact ih.lin (fun y => if Cmp.ltB (e.evalC c n a 0) (Arith.lit 0) then -ₛ y else y)
      (by simp only [Expr.evalC, absC, ih.f]) (fun k hk => rfl)
      fun k hk => by simp only [Expr.evalC, absC, ih.f]
  | fn φ e ih => simp only [Expr.evalC, Fn.runC, ih.f]; exact ih.uFin hs _ _ _
  | bin o e₁ e₂ ih₁ ih₂ => exact Bin.pickC hs ih₁ ih₂ o
  | sbin o e x ih => exact SBin.pickC hs ih o x
  | hypot3 e₁ e₂ e₃ ih₁ ih₂ ih₃ => exact ih₁.hypot3 hs ih₂ ih₃

theorem AOp.pickC (hs : Selects s m n) {a a' b b' : Nat → α} (h : PickC c c' n m s P a a')
    (hb : PickC c c' n m s P b b') (o : AOp) (self : Bool) :
    PickC c c' n m s P (o.cells c n self a b) (o.cells c' m self a' b') := by
  unfold AOp.cells
  split
  · refine h.mulA hs h ⟨by simp only [h.f], fun i hi hp => by simp only [h.f, h.g i hi hp],
      fun h2 h2' i j hij hj hp hq => by simp only [h.f, h.h h2 h2' i j hij hj hp hq]⟩
  · cases o with
    | add => exact h.add hb
    | sub =>
      exact
        ⟨by simp only [AOp.updC, h.f, hb.f], fun i hi hp => by simp only
          [AOp.updC, h.g i hi hp, hb.g i hi hp],
        fun h2 h2' i j hij hj hp hq => by
          simp only [AOp.updC, h.h h2 h2' i j hij hj hp hq, hb.h h2 h2' i j hij hj hp hq]⟩
    | mul => exact h.mulA hs hb hb
    | div =>
      cases self with
      | true => simp only [AOp.updC, if_true, h.f]; exact h.divSelf hs _ _ _ _ _
      | false =>
        simp only [AOp.updC, Bool.false_eq_true, if_false, h.f, hb.f]; exact h.div hs hb _ _ _ _ _

variable [DecidableEq V]

omit [CMath α] in
theorem PickC.set {a a' : V → Nat → α} (h : ∀ v, PickC c c' n m s P (a v) (a' v)) (t : V)
    {b b' : Nat → α} (hb : PickC c c' n m s P b b') (v : V) :
    PickC c c' n m s P (setC a t b v) (setC a' t b' v) := by
  by_cases hv : v = t <;> simp [setC, hv, h, hb]

theorem Stmt.pickC (hs : Selects s m n) {a a' : V → Nat → α} (h : ∀ v, PickC c c' n m s P (a v) (a' v))
    (k : Stmt α V) (hk : k.NoIndex) (v : V) :
    PickC c c' n m s P (k.cells c n a v) (k.cells c' m a' v) := by
  cases k with
  | assign t e => exact PickC.set h t (Expr.pickC hs h e) v
  | upd o t e =>
    cases e with
    | var w => exact PickC.set h t (AOp.pickC hs (h t) (h w) o _) v
    | _ => exact PickC.set h t (AOp.pickC hs (h t) (Expr.pickC hs h _) o _) v
  | updS o t x =>
    cases x with
    | cell k => exact hk.elim
    | val x =>
      refine PickC.set h t ?_ v
      cases o with
      | add =>
        exact (h t).lin id (by simp [AOp.cellsS, addSC, (h t).f])
          (fun k hk => by simp [AOp.cellsS, addSC, hk]) fun k hk => by simp [AOp.cellsS, addSC, hk]
      | sub =>
        exact (h t).lin id (by simp [AOp.cellsS, subSC, (h t).f])
          (fun k hk => by simp [AOp.cellsS, subSC, hk]) fun k hk => by simp [AOp.cellsS, subSC, hk]
      | mul =>
        exact (h t).lin (fun y => y *ₛ x) (by simp [AOp.cellsS, (h t).f]) (fun k hk => rfl)
          fun k hk => rfl
      | div =>
        exact (h t).lin (fun y => y *ₛ (Arith.lit 1 ÷ₛ x)) (by simp [AOp.cellsS, (h t).f])
          (fun k hk => rfl) fun k hk => rfl
  | setF t x =>
    exact PickC.set h t ((h t).lin id (by simp) (fun k hk => by simp [hk]) fun k hk => by simp [hk]) v
  | setG t i x => exact hk.elim
  | setH t i j x => exact hk.elim
  | setZero t => exact PickC.set h t ⟨rfl, fun _ _ _ => rfl, fun _ _ _ _ _ _ _ _ => rfl⟩ v

end

end HJ
