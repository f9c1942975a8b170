import Verif.Proofs.Sparse
import Verif.Proofs.Core

/-!
# Sparse scalars in exact arithmetic (helper lemmas)
-/

namespace HJ

open XReal SMap

/-- The coefficients of the sparse methods are those of the dense ones. -/
theorem coefS_eq (φ : Fn ℝ) (x : XReal) :
    (φ.map num).coefS x = (((φ.map num).coef x).f, ((φ.map num).coef x).da) := by
  cases φ with
  | acos => simp [Fn.map, Fn.coefS, Fn.coef, SS.kAcos, DD.kAcos]
  | _ => rfl

/-- The entries are finite and belong, for the names `name 0, …, name (n-1)`, to the jet. -/
structure SGood (n : Nat) (name : Nat → String) (p : SVal XReal) (J : Jet ℝ) : Prop where
  f : p.1 = num J.f
  fin : ∀ j v, p.2 j = some v → v.Fin
  g : ∀ i < n, (p.2 (name i)).getD (num 0) = num (J.g i)

variable {n : Nat} {name : Nat → String} {p q r : SVal XReal} {J K L : Jet ℝ}

theorem SGood.num (h : SGood n name p J) (j : String) (v : XReal) (hv : p.2 j = some v) :
    ∃ x, v = XReal.num x := (h.fin j v hv).eq_num

theorem sgood_un (h : SGood n name p J) {f da : XReal} {f' d dd : ℝ} (hf : f = num f')
    (hd : da = num d) : SGood n name (p.un f da) (J.comp1 f' d dd) where
  f := hf
  fin := by
    intro j v hv
    simp only [SVal.un, Option.map_eq_some_iff] at hv
    obtain ⟨w, hw, rfl⟩ := hv
    obtain ⟨x, rfl⟩ := h.num j w hw
    simp [hd]
  g := by
    intro i hi
    have := h.g i hi
    simp only [SVal.un, Jet.comp1, hd]
    cases hp : p.2 (name i) with
    | none =>
      rw [hp] at this
      simp only [Option.getD_none, num_inj] at this
      simp [← this]
    | some w =>
      rw [hp] at this
      simp only [Option.getD_some] at this
      simp [this, mul_comm]

theorem sgood_lin (h : SGood n name p J) {f : XReal} {f' m dd : ℝ} (hf : f = num f')
    {g : XReal → XReal} (hg : ∀ x, g (num x) = num (m * x)) :
    SGood n name (f, fun j => (p.2 j).map g) (J.comp1 f' m dd) where
  f := hf
  fin := by
    intro j v hv
    simp only [Option.map_eq_some_iff] at hv
    obtain ⟨w, hw, rfl⟩ := hv
    obtain ⟨x, rfl⟩ := h.num j w hw
    simp [hg]
  g := by
    intro i hi
    have := h.g i hi
    simp only [Jet.comp1]
    cases hp : p.2 (name i) with
    | none =>
      rw [hp] at this
      simp only [Option.getD_none, num_inj] at this
      simp [← this]
    | some w =>
      rw [hp] at this
      simp only [Option.getD_some] at this
      simp [this, hg]

/-- One accumulation. -/
theorem step_num {a b : Option XReal} {x y db : ℝ} (ha : a.getD (num 0) = num x)
    (hb : b.getD (num 0) = num y) :
    (step (fun v w => w +ₛ num db *ₛ v) a b).getD (num 0) = num (x + db * y) := by
  cases b with
  | none =>
    simp only [Option.getD_none, num_inj] at hb
    simp [step, ha, ← hb]
  | some w =>
    simp only [Option.getD_some] at hb
    subst hb
    simp only [step, Option.getD_some, lit_num, Int.cast_zero, ha, mul_num, add_num]

theorem step_fin {a b : Option XReal} {db : ℝ} (ha : ∀ v, a = some v → v.Fin)
    (hb : ∀ v, b = some v → v.Fin) (v : XReal)
    (h : step (fun v w => w +ₛ num db *ₛ v) a b = some v) : v.Fin := by
  cases b with
  | none => exact ha v h
  | some w =>
    simp only [step, Option.some.injEq] at h
    obtain ⟨y, rfl⟩ := (hb w rfl).eq_num
    cases a with
    | none => simp only [Option.getD_none, lit_num, mul_num, add_num] at h; rw [← h]; trivial
    | some u =>
      obtain ⟨x, rfl⟩ := (ha u rfl).eq_num
      simp only [Option.getD_some, mul_num, add_num] at h; rw [← h]; trivial

theorem sgood_bin (h : SGood n name p J) (k : SGood n name q K) {f da db : XReal}
    {f' xa xb xaa xab xbb : ℝ} (hf : f = num f') (hda : da = num xa) (hdb : db = num xb) :
    SGood n name (p.bin q f da db) (Jet.comp2 f' xa xb xaa xab xbb J K) := by
  have hu := sgood_un (f' := f') (dd := 0) h hf hda
  subst hdb
  refine ⟨hf, fun j v hv => ?_, fun i hi => ?_⟩
  · exact step_fin (hu.fin j) (k.fin j) v hv
  · exact step_num (hu.g i hi) (k.g i hi)

theorem sgood_tern (h : SGood n name p J) (k : SGood n name q K) (l : SGood n name r L)
    {f da db dc : XReal} {f' xa xb xc xaa xab xac xbb xbc xcc : ℝ} (hf : f = num f')
    (hda : da = num xa) (hdb : db = num xb) (hdc : dc = num xc) :
    SGood n name (p.tern q r f da db dc)
      (Jet.comp3 f' xa xb xc xaa xab xac xbb xbc xcc J K L) := by
  have hu := sgood_bin (f' := f') (xaa := 0) (xab := 0) (xbb := 0) h k hf hda hdb
  subst hdc
  refine ⟨hf, fun j v hv => ?_, fun i hi => ?_⟩
  · exact step_fin (hu.fin j) (l.fin j) v hv
  · exact step_num (hu.g i hi) (l.g i hi)

theorem Bin.sgood (o : Bin) (h : SGood n name p J) (k : SGood n name q K) (hd : o.dom J.f K.f) :
    SGood n name (o.val p q) (o.jet J K) := by
  cases o with
  | add => exact sgood_bin h k (by rw [h.f, k.f]; rfl) (by simp [Bin.d]) (by simp [Bin.d])
  | sub =>
    exact sgood_bin h k (by rw [h.f, k.f, sub_num]; rfl) (by simp [Bin.d]) (by simp [Bin.d])
  | mul => exact sgood_bin h k (by rw [h.f, k.f]; rfl) (by simp [Bin.d, k.f]) (by simp [Bin.d, h.f])
  | div =>
    have h0 : K.f ≠ 0 := hd
    refine sgood_bin h k ?_ ?_ ?_
    · rw [h.f, k.f, lit_num, div_num h0, mul_num]; simp [Bin.den, div_eq_mul_inv]
    · rw [k.f, lit_num, div_num h0]; simp [Bin.d]
    · rw [h.f, k.f, neg_num, powN_num, div_num (by positivity)]; simp [Bin.d]
  | atan2 =>
    have h0 := (sq_add_sq_pos hd).ne'
    have e : p.1 *ₛ p.1 +ₛ q.1 *ₛ q.1 = num (J.f ^ 2 + K.f ^ 2) := by
      rw [h.f, k.f, mul_num, mul_num, add_num]; congr 1; ring
    refine sgood_bin h k ?_ ?_ ?_
    · rw [h.f, k.f]; rfl
    · rw [e, k.f, div_num h0]; simp [Bin.d]
    · rw [e, h.f, neg_num, div_num h0]; simp [Bin.d]
  | hypot =>
    have h0 := (Real.sqrt_pos.mpr (sq_add_sq_pos hd)).ne'
    have e : CMath.hypot p.1 q.1 = num √(J.f ^ 2 + K.f ^ 2) := by rw [h.f, k.f]; rfl
    refine sgood_bin h k e ?_ ?_
    · rw [e, h.f, div_num h0]; simp [Bin.d]
    · rw [e, k.f, div_num h0]; simp [Bin.d]

theorem SBin.sgood (o : SBin) (h : SGood n name p J) {s : ℝ} (hd : o.dom J.f s) :
    SGood n name (o.val p (num s)) (J.comp1 (o.den J.f s) (o.d J.f s).1 (o.d J.f s).2) := by
  have hid : ∀ f : XReal, ∀ f' dd : ℝ, f = num f' → SGood n name (f, p.2) (J.comp1 f' 1 dd) := by
    intro f f' dd hf
    have := sgood_lin (g := id) (f' := f') (m := 1) (dd := dd) h hf (fun x => by simp)
    simpa using this
  cases o with
  | addS => exact hid _ _ _ (by rw [h.f]; rfl)
  | sAdd => exact hid _ _ _ (by rw [h.f, add_num]; simp [SBin.den, add_comm])
  | subS => exact hid _ _ _ (by rw [h.f, neg_num, add_num]; simp [SBin.den, sub_eq_add_neg])
  | sSub =>
    refine sgood_lin h ?_ (fun x => by simp [SBin.d])
    rw [h.f, neg_num, add_num]; simp [SBin.den]; ring
  | mulS => exact sgood_un h (by rw [h.f]; rfl) rfl
  | sMul => exact sgood_un h (by rw [h.f, mul_num]; simp [SBin.den, mul_comm]) rfl
  | divS =>
    have hs : s ≠ 0 := hd
    refine sgood_un h ?_ ?_
    · rw [h.f, lit_num, div_num hs, mul_num]; simp [SBin.den, div_eq_mul_inv]
    · rw [lit_num, div_num hs]; simp [SBin.d]
  | sDiv =>
    have hx : J.f ≠ 0 := hd
    refine sgood_un h ?_ ?_
    · rw [h.f, div_num hx]; rfl
    · rw [h.f, neg_num, powN_num, div_num (by positivity)]; simp [SBin.d]

/-- Inside the domain dense and sparse evaluation compute the same numbers. -/
theorem eval_both {c : Cfg} (hc : c.order = 1) {V : Type} (ρ : V → Nat → XReal)
    (σ : V → SVal XReal) (Jv : V → Jet ℝ) (hρ : ∀ v, Good c n (ρ v) (Jv v))
    (hσ : ∀ v, SGood n name (σ v) (Jv v)) (e : Expr ℝ V) (hD : e.Dom 1 fun v => (Jv v).f) :
    ∃ J, Good c n ((e.map num).evalC c n ρ) J ∧ SGood n name ((e.map num).evalV σ) J ∧
      J.f = e.den (fun v => (Jv v).f) := by
  induction e with
  | var v => exact ⟨Jv v, hρ v, hσ v, rfl⟩
  | const s => exact ⟨_, good_const s, ⟨rfl, by simp [Expr.map, Expr.evalV],
      by simp [Expr.map, Expr.evalV]⟩, rfl⟩
  | neg e ih =>
    obtain ⟨J, hg, hs, hf⟩ := ih hD
    refine ⟨J.comp1 (-J.f) (-1) 0, good_lin hg ?_ fun k hk r hr => ?_, sgood_lin hs ?_ fun x => ?_, ?_⟩
    · simp [Expr.map, Expr.evalC, hg.f]
    · simp [Expr.map, Expr.evalC, hr]
    · rw [hs.f, neg_num]
    · simp
    · simp [Jet.comp1, hf, Expr.den]
  | abs e ih =>
    obtain ⟨J, hg, hs, hf⟩ := ih hD
    refine ⟨_, good_abs hg, ?_, by simp [Jet.comp1, hf, Expr.den]⟩
    have hl : Cmp.ltB ((e.map num).evalV σ).1 (Arith.lit 0) = decide (J.f < 0) := by
      rw [hs.f, lit_num]
      simp [Cmp.ltB, XReal.lt]
    simp only [Expr.map, Expr.evalV, hl, decide_eq_true_eq]
    by_cases h : J.f < 0
    · rw [if_pos h, if_pos h]
      refine sgood_lin hs ?_ fun x => by simp
      rw [hs.f, neg_num, abs_of_neg h]
    · rw [if_neg h, if_neg h]
      have := sgood_lin (g := id) (f' := J.f) (m := 1) (dd := 0) hs hs.f (fun x => by simp)
      rw [abs_of_nonneg (not_lt.mp h)]
      simpa using this
  | fn φ e ih =>
    obtain ⟨J, hg, hs, hf⟩ := ih hD.1
    have hdom := hD.2
    rw [← hf] at hdom
    obtain ⟨d, dd, hφ⟩ := φ.good (Or.inl rfl) hdom
    refine ⟨_, good_uFin hg (f' := φ.den J.f) (d := d) (dd := dd) ?_ ?_ ?_, sgood_un hs ?_ ?_, ?_⟩
    · rw [hg.f]; exact hφ.f
    · rw [hg.f]; exact hφ.da
    · intro h2; rw [hc] at h2; cases h2
    · rw [hs.f, coefS_eq]; exact hφ.f
    · rw [hs.f, coefS_eq]; exact hφ.da
    · simp [Jet.comp1, hf, Expr.den]
  | bin o e₁ e₂ ih₁ ih₂ =>
    obtain ⟨J, hg, hs, hf⟩ := ih₁ hD.1
    obtain ⟨K, kg, ks, kf⟩ := ih₂ hD.2.1
    have hdom := hD.2.2
    rw [← hf, ← kf] at hdom
    refine ⟨_, o.good hg kg hdom, o.sgood hs ks hdom, ?_⟩
    simp [Bin.jet, Jet.comp2, hf, kf, Expr.den]
  | sbin o e s ih =>
    obtain ⟨J, hg, hs, hf⟩ := ih hD.1
    have hdom := hD.2
    rw [← hf] at hdom
    refine ⟨_, o.good hg hdom, o.sgood hs hdom, ?_⟩
    simp [Jet.comp1, hf, Expr.den]
  | hypot3 e₁ e₂ e₃ ih₁ ih₂ ih₃ =>
    obtain ⟨J, hg, hs, hf⟩ := ih₁ hD.1
    obtain ⟨K, kg, ks, kf⟩ := ih₂ hD.2.1
    obtain ⟨L, lg, ls, lf⟩ := ih₃ hD.2.2.1
    have hdom := hD.2.2.2
    rw [← hf, ← kf, ← lf] at hdom
    have hq : 0 < J.f ^ 2 + K.f ^ 2 + L.f ^ 2 := by
      by_contra hn
      apply hdom
      have := sq_nonneg J.f; have := sq_nonneg K.f; have := sq_nonneg L.f
      refine ⟨?_, ?_, ?_⟩ <;> exact pow_eq_zero_iff (two_ne_zero) |>.mp (by linarith)
    have h0 := (Real.sqrt_pos.mpr hq).ne'
    have e : CMath.hypot3 ((e₁.map num).evalV σ).1 ((e₂.map num).evalV σ).1
        ((e₃.map num).evalV σ).1 = num √(J.f ^ 2 + K.f ^ 2 + L.f ^ 2) := by
      rw [hs.f, ks.f, ls.f]; rfl
    refine ⟨_, good_hypot3 hg kg lg hdom, sgood_tern hs ks ls e ?_ ?_ ?_, ?_⟩
    · rw [e, hs.f, div_num h0]
    · rw [e, ks.f, div_num h0]
    · rw [e, ls.f, div_num h0]
    · simp [hypot3Jet, Jet.comp3, hf, kf, lf, Expr.den]

end HJ
