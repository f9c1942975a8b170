import Verif.Proofs.SparseReal
import Verif.Spec.Sparse

/-!
# Sparse scalars outside the domain (helper lemmas)
-/

namespace HJ

open XReal SMap

/-- At least one entry. -/
def SVal.Some' (p : SVal XReal) : Prop := ∃ j v, p.2 j = some v

/-- Some entry is not finite. -/
def SVal.Bad (p : SVal XReal) : Prop := ∃ j v, p.2 j = some v ∧ ¬ v.Fin

/-- Has entries, and the value is NaN or some entry is not finite. -/
def SVal.Taint (p : SVal XReal) : Prop := p.Some' ∧ (p.1 = nan ∨ p.Bad)

variable {p q r : SVal XReal} {f da db dc : XReal}

theorem SVal.Bad.some (h : p.Bad) : p.Some' := by
  obtain ⟨j, v, h, _⟩ := h
  exact ⟨j, v, h⟩

theorem SVal.Bad.taint (h : p.Bad) : p.Taint := ⟨h.some, Or.inr h⟩

theorem some_un (h : p.Some') : (p.un f da).Some' := by
  obtain ⟨j, v, h⟩ := h
  exact ⟨j, v *ₛ da, by simp [SVal.un, h]⟩

theorem bad_un (h : p.Bad) : (p.un f da).Bad := by
  obtain ⟨j, v, h, hv⟩ := h
  exact ⟨j, v *ₛ da, by simp [SVal.un, h], fun hf => hv (fin_mul hf).1⟩

theorem bad_un_coef (h : p.Some') (hd : ¬ da.Fin) : (p.un f da).Bad := by
  obtain ⟨j, v, h⟩ := h
  exact ⟨j, v *ₛ da, by simp [SVal.un, h], fun hf => hd (fin_mul hf).2⟩

theorem step_left {a b : Option XReal} (h : ∃ v, a = some v) :
    ∃ v, step (fun v w => w +ₛ db *ₛ v) a b = some v := by
  cases b with
  | none => exact h
  | some w => exact ⟨_, rfl⟩

theorem step_left_bad {a b : Option XReal} (h : ∃ v, a = some v ∧ ¬ v.Fin) :
    ∃ v, step (fun v w => w +ₛ db *ₛ v) a b = some v ∧ ¬ v.Fin := by
  cases b with
  | none => exact h
  | some w =>
    obtain ⟨v, rfl, hv⟩ := h
    exact ⟨_, rfl, fun hf => hv (fin_add hf).1⟩

theorem step_right_bad {a b : Option XReal} (h : ∃ v, b = some v ∧ ¬ (db *ₛ v).Fin) :
    ∃ v, step (fun v w => w +ₛ db *ₛ v) a b = some v ∧ ¬ v.Fin := by
  obtain ⟨v, rfl, hv⟩ := h
  exact ⟨_, rfl, fun hf => hv (fin_add hf).2⟩

theorem some_bin_l (h : p.Some') : (p.bin q f da db).Some' := by
  obtain ⟨j, h⟩ := some_un (f := f) (da := da) h
  exact ⟨j, step_left h⟩

theorem some_bin_r (h : q.Some') : (p.bin q f da db).Some' := by
  obtain ⟨j, v, h⟩ := h
  exact ⟨j, _, by simp only [SVal.bin, h, step]; rfl⟩

theorem bad_bin_l (h : (p.un f da).Bad) : (p.bin q f da db).Bad := by
  obtain ⟨j, h⟩ := h
  exact ⟨j, step_left_bad h⟩

theorem bad_bin_r (h : q.Some') (hd : ¬ db.Fin ∨ q.Bad) : (p.bin q f da db).Bad := by
  rcases hd with hd | ⟨j, v, hj, hv⟩
  · obtain ⟨j, v, h⟩ := h
    exact ⟨j, step_right_bad ⟨v, h, fun hf => hd (fin_mul hf).1⟩⟩
  · exact ⟨j, step_right_bad ⟨v, hj, fun hf => hv (fin_mul hf).2⟩⟩

theorem bad_tern_l (h : (p.bin q f da db).Bad) : (p.tern q r f da db dc).Bad := by
  obtain ⟨j, h⟩ := h
  exact ⟨j, step_left_bad h⟩

theorem bad_tern_r (h : r.Some') (hd : ¬ dc.Fin ∨ r.Bad) : (p.tern q r f da db dc).Bad := by
  rcases hd with hd | ⟨j, v, hj, hv⟩
  · obtain ⟨j, v, h⟩ := h
    exact ⟨j, step_right_bad ⟨v, h, fun hf => hd (fin_mul hf).1⟩⟩
  · exact ⟨j, step_right_bad ⟨v, hj, fun hf => hv (fin_mul hf).2⟩⟩

/-- The parts of a binary operation through which an operand shows that it is tainted. -/
theorem taint_bin_gen (hl : p.1 = nan → f = nan ∨ ¬ da.Fin) (hr : q.1 = nan → f = nan ∨ ¬ db.Fin)
    (h : p.Taint ∨ q.Taint) : (p.bin q f da db).Taint := by
  rcases h with ⟨hs, h | h⟩ | ⟨hs, h | h⟩
  · rcases hl h with h | h
    · exact ⟨some_bin_l hs, Or.inl h⟩
    · exact (bad_bin_l (bad_un_coef hs h)).taint
  · exact (bad_bin_l (bad_un h)).taint
  · rcases hr h with h | h
    · exact ⟨some_bin_r hs, Or.inl h⟩
    · exact (bad_bin_r hs (Or.inl h)).taint
  · exact (bad_bin_r hs (Or.inr h)).taint

theorem taint_bin_sing (h : p.Some' ∨ q.Some') (ha : ¬ da.Fin) (hb : ¬ db.Fin) :
    (p.bin q f da db).Taint := by
  rcases h with h | h
  · exact (bad_bin_l (bad_un_coef h ha)).taint
  · exact (bad_bin_r h (Or.inl hb)).taint

theorem Bin.staint (o : Bin) (h : p.Taint ∨ q.Taint ∨
    ((p.Some' ∨ q.Some') ∧ ∃ x y, p.1 = num x ∧ q.1 = num y ∧ ¬ o.dom x y)) :
    (o.val p q).Taint := by
  rw [← or_assoc] at h
  cases o with
  | add =>
    rcases h with h | ⟨_, _, _, _, _, h⟩
    · exact taint_bin_gen (fun e => by left; simp [e]) (fun e => by left; simp [e]) h
    · exact absurd trivial h
  | sub =>
    rcases h with h | ⟨_, _, _, _, _, h⟩
    · exact taint_bin_gen (fun e => by left; simp [e]) (fun e => by left; simp [e]) h
    · exact absurd trivial h
  | mul =>
    rcases h with h | ⟨_, _, _, _, _, h⟩
    · exact taint_bin_gen (fun e => by left; simp [e]) (fun e => by left; simp [e]) h
    · exact absurd trivial h
  | div =>
    rcases h with h | ⟨hs, x, y, hx, hy, h⟩
    · exact taint_bin_gen (fun e => by left; simp [e]) (fun e => by left; simp [e]) h
    · have h0 : y = 0 := not_not.mp h
      subst h0
      refine taint_bin_sing hs ?_ ?_
      · rw [hy]; exact not_fin_div_zero _
      · rw [hy, powN_num, zero_pow (by norm_num)]; exact not_fin_div_zero _
  | atan2 =>
    rcases h with h | ⟨hs, x, y, hx, hy, h⟩
    · exact taint_bin_gen (fun e => by right; simp [e]) (fun e => by right; simp [e]) h
    · obtain ⟨rfl, rfl⟩ := not_not.mp h
      refine taint_bin_sing hs ?_ ?_ <;>
      · rw [hx, hy]
        simp only [mul_num, add_num, mul_zero, add_zero]
        exact not_fin_div_zero _
  | hypot =>
    rcases h with h | ⟨hs, x, y, hx, hy, h⟩
    · exact taint_bin_gen (fun e => by right; simp [e]) (fun e => by right; simp [e]) h
    · obtain ⟨rfl, rfl⟩ := not_not.mp h
      have hf : CMath.hypot (num 0) (num 0) = num 0 := by
        change num √(0 ^ 2 + 0 ^ 2) = _
        simp
      refine taint_bin_sing hs ?_ ?_ <;>
      · rw [hx, hy, hf]
        exact not_fin_div_zero _

theorem taint_un_gen (hs : p.Some') (h : f = nan ∨ ¬ da.Fin ∨ p.Bad) : (p.un f da).Taint := by
  rcases h with h | h | h
  · exact ⟨some_un hs, Or.inl h⟩
  · exact (bad_un_coef hs h).taint
  · exact (bad_un h).taint

theorem taint_neg' (h : p.Taint) : p.neg.Taint := by
  rcases h with ⟨⟨j, v, hj⟩, h | ⟨i, w, hi, hw⟩⟩
  · exact ⟨⟨j, _, by simp only [SVal.neg, hj]; rfl⟩, Or.inl (by simp [SVal.neg, h])⟩
  · exact SVal.Bad.taint ⟨i, _, by simp only [SVal.neg, hi]; rfl, fun hf => hw (fin_neg hf)⟩

theorem SBin.staint (o : SBin) {s : XReal} (h : p.Taint ∨
    (p.Some' ∧ ∃ x t, p.1 = num x ∧ s = num t ∧ ¬ o.dom x t)) : (o.val p s).Taint := by
  have hadd : ∀ t, p.Taint → SVal.Taint (p.1 +ₛ t, p.2) := by
    rintro t ⟨hs, h | h⟩
    · exact ⟨hs, Or.inl (by simp [h])⟩
    · exact ⟨hs, Or.inr h⟩
  have hmul : ∀ t, p.Taint → (p.un (p.1 *ₛ t) t).Taint := by
    rintro t ⟨hs, h | h⟩
    · exact taint_un_gen hs (Or.inl (by simp [h]))
    · exact taint_un_gen hs (Or.inr (Or.inr h))
  cases o with
  | addS => exact hadd _ (h.resolve_right fun ⟨_, _, _, _, _, h⟩ => h trivial)
  | sAdd => exact hadd _ (h.resolve_right fun ⟨_, _, _, _, _, h⟩ => h trivial)
  | subS => exact hadd _ (h.resolve_right fun ⟨_, _, _, _, _, h⟩ => h trivial)
  | sSub =>
    obtain ⟨hs, h⟩ := taint_neg' (h.resolve_right fun ⟨_, _, _, _, _, h⟩ => h trivial)
    refine ⟨hs, ?_⟩
    rcases h with h | h
    · left
      change -ₛ p.1 +ₛ s = nan
      rw [show -ₛ p.1 = nan from h]; simp
    · exact Or.inr h
  | mulS => exact hmul _ (h.resolve_right fun ⟨_, _, _, _, _, h⟩ => h trivial)
  | sMul => exact hmul _ (h.resolve_right fun ⟨_, _, _, _, _, h⟩ => h trivial)
  | divS =>
    rcases h with h | ⟨hs, x, t, hx, ht, h⟩
    · exact hmul _ h
    · have h0 : t = 0 := not_not.mp h
      subst h0
      exact taint_un_gen hs (Or.inr (Or.inl (by rw [ht]; exact not_fin_div_zero _)))
  | sDiv =>
    rcases h with ⟨hs, h | h⟩ | ⟨hs, x, t, hx, ht, h⟩
    · exact taint_un_gen hs (Or.inl (by simp [h]))
    · exact taint_un_gen hs (Or.inr (Or.inr h))
    · have h0 : x = 0 := not_not.mp h
      subst h0
      refine taint_un_gen hs (Or.inr (Or.inl ?_))
      rw [hx, powN_num, zero_pow (by norm_num)]; exact not_fin_div_zero _

/-- Expressions with a variable have entries. -/
theorem some_of_mentions {V : Type} (σ : V → SVal XReal) (e : Expr ℝ V)
    (hs : ∀ v, e.Mentions v → (σ v).Some') (h : ∃ v, e.Mentions v) :
    ((e.map num).evalV σ).Some' := by
  have hneg : ∀ p : SVal XReal, p.Some' → p.neg.Some' := by
    rintro p ⟨j, v, h⟩
    exact ⟨j, _, by simp only [SVal.neg, h]; rfl⟩
  induction e with
  | var v => exact hs v rfl
  | const s => obtain ⟨v, h⟩ := h; exact h.elim
  | neg e ih => exact hneg _ (ih hs h)
  | abs e ih =>
    simp only [Expr.map, Expr.evalV]
    split
    · exact hneg _ (ih hs h)
    · exact ih hs h
  | fn φ e ih => exact some_un (ih hs h)
  | bin o e₁ e₂ ih₁ ih₂ =>
    obtain ⟨v, h | h⟩ := h
    · have := ih₁ (fun w hw => hs w (Or.inl hw)) ⟨v, h⟩
      cases o <;> exact some_bin_l this
    · have := ih₂ (fun w hw => hs w (Or.inr hw)) ⟨v, h⟩
      cases o <;> exact some_bin_r this
  | sbin o e s ih =>
    have := ih hs h
    cases o with
    | addS => exact this
    | sAdd => exact this
    | subS => exact this
    | sSub => exact hneg _ this
    | mulS => exact some_un this
    | sMul => exact some_un this
    | divS => exact some_un this
    | sDiv => exact some_un this
  | hypot3 e₁ e₂ e₃ ih₁ ih₂ ih₃ =>
    have hl : ∀ (p q r : SVal XReal) (f a b c : XReal), (p.bin q f a b).Some' →
        (p.tern q r f a b c).Some' := by
      rintro p q r f a b c ⟨j, h⟩
      exact ⟨j, step_left h⟩
    obtain ⟨v, h | h | h⟩ := h
    · exact hl _ _ _ _ _ _ _ (some_bin_l (ih₁ (fun w hw => hs w (Or.inl hw)) ⟨v, h⟩))
    · exact hl _ _ _ _ _ _ _ (some_bin_r (ih₂ (fun w hw => hs w (Or.inr (Or.inl hw))) ⟨v, h⟩))
    · obtain ⟨j, w, hj⟩ := ih₃ (fun w hw => hs w (Or.inr (Or.inr hw))) ⟨v, h⟩
      exact ⟨j, _, by simp only [Expr.map, Expr.evalV, SVal.tern, hj, step]; rfl⟩

theorem ex_mentions {V : Type} {e : Expr ℝ V} (h : ¬ ∀ v, ¬ e.Mentions v) : ∃ v, e.Mentions v := by
  push Not at h
  exact h

/-- Outside the domain some number is not finite. -/
theorem evalV_bad {V : Type} (σ : V → SVal XReal) (x : V → ℝ)
    (hx : ∀ v, (σ v).1 = num (x v)) (hfin : ∀ v j w, (σ v).2 j = some w → w.Fin) (e : Expr ℝ V)
    (hs : ∀ v, e.Mentions v → (σ v).Some') (hB : e.NoBaseZero) (hC : e.ConstDom 1 x)
    (hD : ¬ e.Dom 1 x) : ((e.map num).evalV σ).Taint := by
  have hval : ∀ e : Expr ℝ V, e.Dom 1 x → ((e.map num).evalV σ).1 = num (e.den x) := by
    intro e hd
    let c : Cfg := ⟨1, -1, true, true, fun _ => 0⟩
    obtain ⟨J, _, h2, h3⟩ := eval_both (n := 0) (name := fun _ => "") (c := c) rfl
      (fun v _ => num (x v)) σ (fun v => ⟨x v, fun _ => 0, fun _ _ => 0⟩)
      (fun v => ⟨rfl, fun i hi => absurd hi (by omega), fun h => absurd h (by decide),
        fun _ _ => rfl⟩)
      (fun v => ⟨hx v, hfin v, fun i hi => absurd hi (by omega)⟩) e hd
    rw [h2.f, h3]
  induction e with
  | var v => exact absurd trivial hD
  | const s => exact absurd trivial hD
  | neg e ih => exact taint_neg' (ih hs hB hC hD)
  | abs e ih =>
    simp only [Expr.map, Expr.evalV]
    split
    · exact taint_neg' (ih hs hB hC hD)
    · exact ih hs hB hC hD
  | fn φ e ih =>
    by_cases h : e.Dom 1 x
    · have hd : ¬ φ.dom 1 (e.den x) := fun hd => hD ⟨h, hd⟩
      have hm := ex_mentions fun hn => hd (hC.2 hn)
      refine taint_un_gen (some_of_mentions σ e hs hm) ?_
      rw [hval e h, coefS_eq]
      rcases φ.singular (Or.inl rfl) hd hB.2 with h | h | h
      · exact Or.inl h
      · exact Or.inr (Or.inl h)
      · cases h.1
    · obtain ⟨hs', h | h⟩ := ih hs hB.1 hC.1 h
      · refine taint_un_gen hs' ?_
        rw [h, coefS_eq]
        rcases Fn.nan (o := 1) φ with h | h | h
        · exact Or.inl h
        · exact Or.inr (Or.inl h)
        · cases h.1
      · exact taint_un_gen hs' (Or.inr (Or.inr h))
  | bin o e₁ e₂ ih₁ ih₂ =>
    apply o.staint
    have hs₁ : ∀ v, e₁.Mentions v → (σ v).Some' := fun w hw => hs w (Or.inl hw)
    have hs₂ : ∀ v, e₂.Mentions v → (σ v).Some' := fun w hw => hs w (Or.inr hw)
    by_cases h1 : e₁.Dom 1 x
    · by_cases h2 : e₂.Dom 1 x
      · right; right
        have hd : ¬ o.dom (e₁.den x) (e₂.den x) := fun hd => hD ⟨h1, h2, hd⟩
        refine ⟨?_, _, _, hval e₁ h1, hval e₂ h2, hd⟩
        by_cases hm : ∀ v, ¬ e₁.Mentions v
        · right
          exact some_of_mentions σ e₂ hs₂ (ex_mentions fun hn => hd (hC.2.2 hm hn))
        · left
          exact some_of_mentions σ e₁ hs₁ (ex_mentions hm)
      · exact Or.inr (Or.inl (ih₂ hs₂ hB.2 hC.2.1 h2))
    · exact Or.inl (ih₁ hs₁ hB.1 hC.1 h1)
  | sbin o e s ih =>
    apply o.staint
    by_cases h : e.Dom 1 x
    · have hd : ¬ o.dom (e.den x) s := fun hd => hD ⟨h, hd⟩
      exact Or.inr ⟨some_of_mentions σ e hs (ex_mentions fun hn => hd (hC.2 hn)), _, _, hval e h,
        rfl, hd⟩
    · exact Or.inl (ih hs hB hC.1 h)
  | hypot3 e₁ e₂ e₃ ih₁ ih₂ ih₃ =>
    have hs₁ : ∀ v, e₁.Mentions v → (σ v).Some' := fun w hw => hs w (Or.inl hw)
    have hs₂ : ∀ v, e₂.Mentions v → (σ v).Some' := fun w hw => hs w (Or.inr (Or.inl hw))
    have hs₃ : ∀ v, e₃.Mentions v → (σ v).Some' := fun w hw => hs w (Or.inr (Or.inr hw))
    simp only [Expr.map, Expr.evalV]
    apply SVal.Bad.taint
    by_cases h1 : e₁.Dom 1 x
    · by_cases h2 : e₂.Dom 1 x
      · by_cases h3 : e₃.Dom 1 x
        · have hz : e₁.den x = 0 ∧ e₂.den x = 0 ∧ e₃.den x = 0 := by
            by_contra hz
            exact hD ⟨h1, h2, h3, hz⟩
          have hf : CMath.hypot3 (num 0) (num 0) (num 0) = num 0 := by
            change num √(0 ^ 2 + 0 ^ 2 + 0 ^ 2) = _
            simp
          rw [hval e₁ h1, hval e₂ h2, hval e₃ h3, hz.1, hz.2.1, hz.2.2, hf]
          by_cases hm : ∀ v, ¬ e₁.Mentions v
          · by_cases hk : ∀ v, ¬ e₂.Mentions v
            · exact bad_tern_r (some_of_mentions σ e₃ hs₃ (ex_mentions fun hn =>
                hC.2.2.2 hm hk hn hz)) (Or.inl (not_fin_div_zero _))
            · exact bad_tern_l (bad_bin_r (some_of_mentions σ e₂ hs₂ (ex_mentions hk))
                (Or.inl (not_fin_div_zero _)))
          · exact bad_tern_l (bad_bin_l (bad_un_coef (some_of_mentions σ e₁ hs₁ (ex_mentions hm))
              (not_fin_div_zero _)))
        · obtain ⟨hs', h | h⟩ := ih₃ hs₃ hB.2.2 hC.2.2.1 h3
          · exact bad_tern_r hs' (Or.inl (by rw [h]; simp))
          · exact bad_tern_r hs' (Or.inr h)
      · obtain ⟨hs', h | h⟩ := ih₂ hs₂ hB.2.1 hC.2.1 h2
        · exact bad_tern_l (bad_bin_r hs' (Or.inl (by rw [h]; simp)))
        · exact bad_tern_l (bad_bin_r hs' (Or.inr h))
    · obtain ⟨hs', h | h⟩ := ih₁ hs₁ hB.1 hC.1 h1
      · exact bad_tern_l (bad_bin_l (bad_un_coef hs' (by rw [h]; simp)))
      · exact bad_tern_l (bad_bin_l (bad_un h))

end HJ
