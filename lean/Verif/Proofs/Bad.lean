import Verif.Proofs.Main

/-!
# Outside the domain some component is not finite (helper lemmas)
-/

namespace HJ

open XReal

/-- The value is NaN, or the first gradient component or the first Hessian entry is not finite. -/
def Tainted (c : Cfg) (n : Nat) (a : Nat → XReal) : Prop :=
  a 0 = nan ∨ ¬ (a (1 + 0)).Fin ∨ (c.order = 2 ∧ ¬ (a (pos n 0 0)).Fin)

variable {c : Cfg} {n : Nat} {a b d : Nat → XReal}

theorem taint_uFin (hn : 0 < n) {f da daa : XReal}
    (h : f = nan ∨ ¬ da.Fin ∨ (c.order = 2 ∧ ¬ daa.Fin) ∨ ¬ (a (1 + 0)).Fin ∨
      (c.order = 2 ∧ ¬ (a (pos n 0 0)).Fin)) : Tainted c n (uFin c n a f da daa) := by
  unfold Tainted
  rw [uFin_zero, uFin_succ _ _ _ _ hn]
  by_cases h2 : c.order = 2
  · rw [uFin_pos h2 _ _ _ _ le_rfl hn]
    by_contra hc
    push Not at hc
    obtain ⟨h0, h1, h3⟩ := hc
    have e1 := fin_mul h1
    have e3 := fin_add (h3 h2)
    rcases h with h | h | h | h | h
    · exact h0 h
    · exact h e1.1
    · exact h.2 (fin_mul (fin_mul e3.2).1).1
    · exact h e1.2
    · exact h.2 (fin_mul e3.1).2
  · by_contra hc
    push Not at hc
    obtain ⟨h0, h1, h3⟩ := hc
    have e1 := fin_mul h1
    rcases h with h | h | h | h | h
    · exact h0 h
    · exact h e1.1
    · exact h2 h.1
    · exact h e1.2
    · exact h2 h.1

/-- Kernels with a linear term `t1` that is finite only if its ingredients are. -/
theorem taint_bFin (hn : 0 < n) {f : XReal} {t1 : Nat → XReal} {t2 : Nat → Nat → XReal}
    (h : f = nan ∨ ¬ (t1 (1 + 0)).Fin ∨ (c.order = 2 ∧ ¬ (t1 (pos n 0 0)).Fin)) :
    Tainted c n (bFin c n true f t1 t2) := by
  unfold Tainted
  rw [bFin_zero, bFin_succ _ _ _ _ hn]
  rcases h with h | h | h
  · exact Or.inl h
  · exact Or.inr (Or.inl h)
  · refine Or.inr (Or.inr ⟨h.1, ?_⟩)
    rw [bFin_pos h.1 _ _ _ le_rfl hn]
    exact fun hf => h.2 (fin_add hf).1

theorem taint_lin2 {f da db : XReal}
    (h : f = nan ∨ ¬ da.Fin ∨ ¬ db.Fin ∨ (¬ (a (1 + 0)).Fin ∨ (c.order = 2 ∧ ¬ (a (pos n 0 0)).Fin)) ∨
      (¬ (b (1 + 0)).Fin ∨ (c.order = 2 ∧ ¬ (b (pos n 0 0)).Fin))) :
    f = nan ∨ ¬ (da *ₛ a (1 + 0) +ₛ db *ₛ b (1 + 0)).Fin ∨
      (c.order = 2 ∧ ¬ (da *ₛ a (pos n 0 0) +ₛ db *ₛ b (pos n 0 0)).Fin) := by
  by_contra hc
  push Not at hc
  obtain ⟨h0, h1, h3⟩ := hc
  have e1 := fin_add h1
  rcases h with h | h | h | (h | h) | (h | h)
  · exact h0 h
  · exact h (fin_mul e1.1).1
  · exact h (fin_mul e1.2).1
  · exact h (fin_mul e1.1).2
  · exact h.2 (fin_mul (fin_add (h3 h.1)).1).2
  · exact h (fin_mul e1.2).2
  · exact h.2 (fin_mul (fin_add (h3 h.1)).2).2

/-- Operations that treat gradient and Hessian componentwise. -/
theorem taint_comp {a' : Nat → XReal} (h : Tainted c n a) (h0 : a 0 = nan → a' 0 = nan)
    (hk : ∀ k, 0 < k → (a' k).Fin → (a k).Fin) : Tainted c n a' := by
  rcases h with h | h | h
  · exact Or.inl (h0 h)
  · exact Or.inr (Or.inl fun hf => h (hk _ (by omega) hf))
  · have := pos_gt n 0 0
    exact Or.inr (Or.inr ⟨h.1, fun hf => h.2 (hk _ (by omega) hf)⟩)

theorem taint_neg (h : Tainted c n a) : Tainted c n fun k => -ₛ a k :=
  taint_comp h (fun e => by simp [e]) (fun _ _ hf => fin_neg hf)

theorem taint_abs (h : Tainted c n a) : Tainted c n (absC a) := by
  refine taint_comp h (fun e => ?_) fun k _ hf => ?_
  · simp [absC, e]
  · unfold absC at hf
    split_ifs at hf
    · exact fin_neg hf
    · exact hf

theorem taint_fn (hn : 0 < n) (φ : Fn ℝ) (h : Tainted c n a) :
    Tainted c n ((φ.map num).runC c n a) := by
  unfold Fn.runC
  apply taint_uFin hn
  rcases h with h | h | h
  · rw [h]
    rcases φ.nan (o := c.order) with e | e | e
    · exact Or.inl e
    · exact Or.inr (Or.inl e)
    · exact Or.inr (Or.inr (Or.inl e))
  · exact Or.inr (Or.inr (Or.inr (Or.inl h)))
  · exact Or.inr (Or.inr (Or.inr (Or.inr h)))

theorem taint_fn_sing (hc : c.order = 1 ∨ c.order = 2) (hn : 0 < n) (φ : Fn ℝ) {x : ℝ}
    (ha : a 0 = num x) (h : ¬ φ.dom c.order x) (hb : φ ≠ .logB 0) :
    Tainted c n ((φ.map num).runC c n a) := by
  unfold Fn.runC
  apply taint_uFin hn
  rw [ha]
  rcases φ.singular hc h hb with e | e | e
  · exact Or.inl e
  · exact Or.inr (Or.inl e)
  · exact Or.inr (Or.inr (Or.inl e))

theorem taint_sbin (hn : 0 < n) (p : SBin) {s : XReal} (h : Tainted c n a) :
    Tainted c n (p.runC c n a s) := by
  cases p with
  | addS =>
    exact taint_comp h (fun e => by simp [SBin.runC, addSC, e]) fun k hk hf => by
      simpa [SBin.runC, addSC, hk.ne'] using hf
  | sAdd =>
    exact taint_comp h (fun e => by simp [SBin.runC, addSC, e]) fun k hk hf => by
      simpa [SBin.runC, addSC, hk.ne'] using hf
  | subS =>
    exact taint_comp h (fun e => by simp [SBin.runC, addSC, e]) fun k hk hf => by
      simpa [SBin.runC, addSC, hk.ne'] using hf
  | sSub =>
    exact taint_comp h (fun e => by simp [SBin.runC, sSubC, e]) fun k hk hf => by
      simp only [SBin.runC, sSubC, hk.ne', if_false] at hf
      exact fin_neg hf
  | mulS => exact taint_comp h (fun e => by simp [SBin.runC, e]) fun k hk hf => (fin_mul hf).1
  | sMul => exact taint_comp h (fun e => by simp [SBin.runC, e]) fun k hk hf => (fin_mul hf).1
  | divS => exact taint_comp h (fun e => by simp [SBin.runC, e]) fun k hk hf => (fin_mul hf).1
  | sDiv =>
    apply taint_uFin hn
    rcases h with h | h | h
    · left; rw [h]; simp
    · exact Or.inr (Or.inr (Or.inr (Or.inl h)))
    · exact Or.inr (Or.inr (Or.inr (Or.inr h)))

theorem taint_sbin_sing (hn : 0 < n) (p : SBin) {x s : ℝ} (ha : a 0 = num x)
    (h : ¬ p.dom x s) : Tainted c n (p.runC c n a (num s)) := by
  cases p with
  | divS =>
    have hs : s = 0 := not_not.mp h
    subst hs
    right; left
    intro hf
    exact not_fin_div_zero _ (fin_mul hf).2
  | sDiv =>
    have hx : x = 0 := not_not.mp h
    subst hx
    apply taint_uFin hn
    right; left
    rw [ha, powN_num, zero_pow (by norm_num)]
    exact not_fin_div_zero _
  | _ => exact absurd trivial h

/-- One operand is tainted, or the operation is singular. -/
theorem taint_bin (hn : 0 < n) (p : Bin)
    (h : Tainted c n a ∨ Tainted c n b ∨
      ∃ x y, a 0 = num x ∧ b 0 = num y ∧ ¬ p.dom x y) :
    Tainted c n (p.runC c n a b) := by
  cases p with
  | add =>
    rcases h with h | h | ⟨_, _, _, _, h⟩
    · exact taint_comp h (fun e => by simp [Bin.runC, addC, e]) fun k _ hf => (fin_add hf).1
    · exact taint_comp h (fun e => by simp [Bin.runC, addC, e]) fun k _ hf => (fin_add hf).2
    · exact absurd trivial h
  | sub =>
    rcases h with h | h | ⟨_, _, _, _, h⟩
    · exact taint_comp h (fun e => by simp [Bin.runC, subC, e]) fun k hk hf => by
        simp only [Bin.runC, subC, hk.ne', if_false] at hf
        exact (fin_add hf).1
    · exact taint_comp h (fun e => by simp [Bin.runC, subC, e]) fun k hk hf => by
        simp only [Bin.runC, subC, hk.ne', if_false] at hf
        exact fin_neg (fin_add hf).2
    · exact absurd trivial h
  | mul =>
    apply taint_bFin hn
    apply taint_lin2
    rcases h with (h | h) | (h | h) | ⟨_, _, _, _, h⟩
    · left; rw [h]; simp
    · exact Or.inr (Or.inr (Or.inr (Or.inl h)))
    · left; rw [h]; simp
    · exact Or.inr (Or.inr (Or.inr (Or.inr h)))
    · exact absurd trivial h
  | div =>
    apply taint_bFin hn
    apply taint_lin2
    rcases h with (h | h) | (h | h) | ⟨x, y, hx, hy, h⟩
    · left; rw [h]; simp
    · exact Or.inr (Or.inr (Or.inr (Or.inl h)))
    · left; rw [h]; simp
    · exact Or.inr (Or.inr (Or.inr (Or.inr h)))
    · have h0 : y = 0 := not_not.mp h
      subst h0
      right; left; rw [hy]; exact not_fin_div_zero _
  | atan2 =>
    apply taint_bFin hn
    apply taint_lin2
    rcases h with (h | h) | (h | h) | ⟨x, y, hx, hy, h⟩
    · right; left; rw [h]; simp
    · exact Or.inr (Or.inr (Or.inr (Or.inl h)))
    · right; left; rw [h]; simp
    · exact Or.inr (Or.inr (Or.inr (Or.inr h)))
    · obtain ⟨rfl, rfl⟩ := not_not.mp h
      right; left
      rw [hx, hy]
      simp only [mul_num, add_num, mul_zero, add_zero]
      exact not_fin_div_zero _
  | hypot =>
    apply taint_bFin hn
    apply taint_lin2
    rcases h with (h | h) | (h | h) | ⟨x, y, hx, hy, h⟩
    · right; left; rw [h]; simp
    · exact Or.inr (Or.inr (Or.inr (Or.inl h)))
    · right; right; left; rw [h]; simp
    · exact Or.inr (Or.inr (Or.inr (Or.inr h)))
    · obtain ⟨rfl, rfl⟩ := not_not.mp h
      right; left
      rw [hx, hy]
      have hf : CMath.hypot (num 0) (num 0) = num 0 := by
        change num √(0 ^ 2 + 0 ^ 2) = _
        simp
      rw [hf]
      exact not_fin_div_zero _

theorem taint_hypot3 (hn : 0 < n)
    (h : Tainted c n a ∨ Tainted c n b ∨ Tainted c n d ∨
      (a 0 = num 0 ∧ b 0 = num 0 ∧ d 0 = num 0)) :
    Tainted c n (hypot3C c n a b d) := by
  apply taint_bFin hn
  by_contra hc
  push Not at hc
  obtain ⟨_, h1, h3⟩ := hc
  have e1 := fin_add h1
  have e2 := fin_add e1.1
  rcases h with (h | h | h) | (h | h | h) | (h | h | h) | ⟨h, hb, hd⟩
  · have := (fin_mul e2.1).1; rw [h] at this; simp at this
  · exact h (fin_mul e2.1).2
  · exact h.2 (fin_mul (fin_add (fin_add (h3 h.1)).1).1).2
  · have := (fin_mul e2.2).1; rw [h] at this; simp at this
  · exact h (fin_mul e2.2).2
  · exact h.2 (fin_mul (fin_add (fin_add (h3 h.1)).1).2).2
  · have := (fin_mul e1.2).1; rw [h] at this; simp at this
  · exact h (fin_mul e1.2).2
  · exact h.2 (fin_mul (fin_add (h3 h.1)).2).2
  · have hf : CMath.hypot3 (num 0) (num 0) (num 0) = num 0 := by
      change num √(0 ^ 2 + 0 ^ 2 + 0 ^ 2) = _
      simp
    have := (fin_mul e2.1).1
    rw [h, hb, hd, hf] at this
    exact not_fin_div_zero _ this

/-- Outside the domain some component of the result is not finite. -/
theorem eval_bad (hc : c.order = 1 ∨ c.order = 2) (hn : 0 < n) {V : Type}
    (ρ : V → Nat → XReal) (Jv : V → Jet ℝ) (hρ : ∀ v, Good c n (ρ v) (Jv v)) (e : Expr ℝ V)
    (hB : e.NoBaseZero) (hD : ¬ e.Dom c.order fun v => (Jv v).f) :
    Tainted c n ((e.map num).evalC c n ρ) := by
  induction e with
  | var v => exact absurd trivial hD
  | const s => exact absurd trivial hD
  | neg e ih => exact taint_neg (ih hB hD)
  | abs e ih => exact taint_abs (ih hB hD)
  | fn φ e ih =>
    by_cases h : e.Dom c.order fun v => (Jv v).f
    · obtain ⟨J, hg, hf, _, _⟩ := eval_good hc ρ Jv hρ e h
      refine taint_fn_sing hc hn φ hg.f (fun hd => hD ⟨h, ?_⟩) hB.2
      rw [← hf]; exact hd
    · exact taint_fn hn φ (ih hB.1 h)
  | bin o e₁ e₂ ih₁ ih₂ =>
    apply taint_bin hn
    by_cases h1 : e₁.Dom c.order fun v => (Jv v).f
    · by_cases h2 : e₂.Dom c.order fun v => (Jv v).f
      · right; right
        obtain ⟨J, hg, hf, _, _⟩ := eval_good hc ρ Jv hρ e₁ h1
        obtain ⟨K, kg, kf, _, _⟩ := eval_good hc ρ Jv hρ e₂ h2
        refine ⟨_, _, hg.f, kg.f, fun hd => hD ⟨h1, h2, ?_⟩⟩
        rw [← hf, ← kf]; exact hd
      · exact Or.inr (Or.inl (ih₂ hB.2 h2))
    · exact Or.inl (ih₁ hB.1 h1)
  | sbin o e s ih =>
    by_cases h : e.Dom c.order fun v => (Jv v).f
    · obtain ⟨J, hg, hf, _, _⟩ := eval_good hc ρ Jv hρ e h
      refine taint_sbin_sing hn o hg.f (fun hd => hD ⟨h, ?_⟩)
      rw [← hf]; exact hd
    · exact taint_sbin hn o (ih hB h)
  | hypot3 e₁ e₂ e₃ ih₁ ih₂ ih₃ =>
    apply taint_hypot3 hn
    by_cases h1 : e₁.Dom c.order fun v => (Jv v).f
    · by_cases h2 : e₂.Dom c.order fun v => (Jv v).f
      · by_cases h3 : e₃.Dom c.order fun v => (Jv v).f
        · right; right; right
          obtain ⟨J, hg, hf, _, _⟩ := eval_good hc ρ Jv hρ e₁ h1
          obtain ⟨K, kg, kf, _, _⟩ := eval_good hc ρ Jv hρ e₂ h2
          obtain ⟨L, lg, lf, _, _⟩ := eval_good hc ρ Jv hρ e₃ h3
          have hz : e₁.den (fun v => (Jv v).f) = 0 ∧ e₂.den (fun v => (Jv v).f) = 0 ∧
              e₃.den (fun v => (Jv v).f) = 0 := by
            by_contra hz
            exact hD ⟨h1, h2, h3, hz⟩
          rw [← hf, ← kf, ← lf] at hz
          refine ⟨?_, ?_, ?_⟩
          · rw [← hz.1]; exact hg.f
          · rw [← hz.2.1]; exact kg.f
          · rw [← hz.2.2]; exact lg.f
        · exact Or.inr (Or.inr (Or.inl (ih₃ hB.2.2 h3)))
      · exact Or.inr (Or.inl (ih₂ hB.2.1 h2))
    · exact Or.inl (ih₁ hB.1 h1)

theorem tainted_not_fin {J : Jet ℝ} (hn : 0 < n) (ha : Good c n a J) : ¬ Tainted c n a := by
  rintro (h | h | h)
  · rw [ha.f] at h; cases h
  · rw [ha.g 0 hn] at h; exact h trivial
  · rw [ha.h h.1 0 0 le_rfl hn] at h; exact h.2 trivial

end HJ
