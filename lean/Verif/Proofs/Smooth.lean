import Verif.Proofs.Converge

/-!
# Expressions are smooth inside their domains
-/

open scoped Topology
open Filter

namespace HJ

theorem Fn.contDiffAt {o : Nat} (φ : Fn ℝ) {r : ℝ} (h : φ.dom o r) : ContDiffAt ℝ o φ.den r := by
  have hlogb : ∀ b : ℝ, 0 < r → ContDiffAt ℝ o (Real.logb b) r := fun b hr => by
    unfold Real.logb
    exact (Real.contDiffAt_log.2 hr.ne').div_const _
  cases φ with
  | sqrt => exact Real.contDiffAt_sqrt (ne_of_gt h)
  | cbrt =>
    have hr : r ≠ 0 := h
    rcases lt_or_gt_of_ne hr with hr | hr
    · have h1 : ContDiffAt ℝ o (fun x : ℝ => -((-x) ^ (1 / 3 : ℝ))) r :=
        (ContDiffAt.rpow_const_of_ne contDiffAt_id.neg (by simp [hr.ne])).neg
      refine h1.congr_of_eventuallyEq ?_
      filter_upwards [gt_mem_nhds hr] with x hx
      simp [Fn.den, XReal.cbrtR, hx]
    · refine (Real.contDiffAt_rpow_const_of_ne (p := 1 / 3) hr.ne').congr_of_eventuallyEq ?_
      filter_upwards [lt_mem_nhds hr] with x hx
      simp [Fn.den, XReal.cbrtR, not_lt.2 hx.le]
  | reciprocal => exact contDiffAt_inv ℝ h
  | cos => exact Real.contDiff_cos.contDiffAt
  | sin => exact Real.contDiff_sin.contDiffAt
  | tan => exact Real.contDiffAt_tan.2 h
  | acos => exact Real.contDiffAt_arccos (ne_of_gt h.1) (ne_of_lt h.2)
  | asin => exact Real.contDiffAt_arcsin (ne_of_gt h.1) (ne_of_lt h.2)
  | atan => exact Real.contDiff_arctan.contDiffAt
  | cosh => exact Real.contDiff_cosh.contDiffAt
  | sinh => exact Real.contDiff_sinh.contDiffAt
  | tanh =>
    have : Fn.den .tanh = fun x => Real.sinh x / Real.cosh x := by
      funext x; exact Real.tanh_eq_sinh_div_cosh x
    rw [this]
    exact Real.contDiff_sinh.contDiffAt.div Real.contDiff_cosh.contDiffAt (Real.cosh_pos r).ne'
  | acosh => exact Real.contDiffAt_arcosh h
  | asinh => exact Real.contDiff_arsinh.contDiffAt
  | atanh =>
    obtain ⟨h1, h2⟩ : -1 < r ∧ r < 1 := h
    have h3 : (1 + r) / (1 - r) ≠ 0 := (div_pos (by linarith) (by linarith)).ne'
    have : ContDiffAt ℝ o (fun x : ℝ => 1 / 2 * Real.log ((1 + x) / (1 - x))) r :=
      contDiffAt_const.mul
        ((((contDiffAt_const.add contDiffAt_id).div (contDiffAt_const.sub contDiffAt_id)
        (by simp only [id]; linarith))).log h3)
    refine this.congr_of_eventuallyEq ?_
    filter_upwards [lt_mem_nhds h1, gt_mem_nhds h2] with x hx hx'
    exact Real.artanh_eq_half_log ⟨hx.le, hx'.le⟩
  | exp => exact Real.contDiff_exp.contDiffAt
  | log => exact Real.contDiffAt_log.2 (ne_of_gt h)
  | log2 => exact hlogb 2 h
  | log10 => exact hlogb 10 h
  | pow b =>
    refine Real.contDiffAt_rpow_const ?_
    rcases h with h | h | h
    · exact .inl h.ne'
    · exact .inl h.1.ne
    · exact .inr h.2
  | logB b => exact hlogb b h.1

theorem atan2_contDiffAt {o : Nat} {r s : ℝ} (hr : r ≠ 0 ∨ 0 < s) :
    ContDiffAt ℝ o (fun z : ℝ × ℝ => Complex.arg ⟨z.2, z.1⟩) (r, s) := by
  have hs : ((s : ℂ) + (r : ℂ) * Complex.I) ∈ Complex.slitPlane := by
    rw [Complex.mem_slitPlane_iff]
    simpa [or_comm] using hr
  have h1 : ContDiffAt ℝ o Complex.log ((s : ℂ) + (r : ℂ) * Complex.I) :=
    (Complex.contDiffAt_log hs).restrict_scalars ℝ
  have h2 : ContDiff ℝ o (fun z : ℝ × ℝ => (z.2 : ℂ) + (z.1 : ℂ) * Complex.I) :=
    (Complex.ofRealCLM.contDiff.comp contDiff_snd).add
      ((Complex.ofRealCLM.contDiff.comp contDiff_fst).mul contDiff_const)
  have h3 : ContDiffAt ℝ o (fun z : ℝ × ℝ => (Complex.log ((z.2 : ℂ) + (z.1 : ℂ) * Complex.I)).im)
      (r, s) :=
    Complex.imCLM.contDiff.contDiffAt.comp (r, s)
      (ContDiffAt.comp (g := Complex.log) (r, s) h1 h2.contDiffAt)
  simpa only [Complex.log_im, ← Complex.mk_eq_add_mul_I] using h3

/-- An expression is `o` times continuously differentiable in its variables. -/
theorem Expr.contDiffAt {V : Type} [Fintype V] {o : Nat} (e : Expr ℝ V) {ρ : V → ℝ} (h : e.Dom o ρ)
    (hr : e.Regular ρ) : ContDiffAt ℝ o (fun σ : V → ℝ => e.den σ) ρ := by
  induction e with
  | var v => exact contDiffAt_pi.1 contDiffAt_id v
  | const s => exact contDiffAt_const
  | neg e ih => exact (ih h hr).neg
  | abs e ih =>
    have h1 : ContDiffAt ℝ o (fun x : ℝ => |x|) (e.den ρ) := by
      rcases lt_or_gt_of_ne hr.2 with hx | hx
      · refine contDiffAt_id.neg.congr_of_eventuallyEq ?_
        filter_upwards [gt_mem_nhds hx] with x hx using abs_of_neg hx
      · refine contDiffAt_id.congr_of_eventuallyEq ?_
        filter_upwards [lt_mem_nhds hx] with x hx using abs_of_pos hx
    exact h1.comp ρ (ih h hr.1)
  | fn φ e ih => exact (φ.contDiffAt h.2).comp ρ (ih h.1 hr)
  | bin b e₁ e₂ ih₁ ih₂ =>
    have a := ih₁ h.1 hr.1
    have b' := ih₂ h.2.1 hr.2.1
    cases b with
    | add => exact a.add b'
    | sub => exact a.sub b'
    | mul => exact a.mul b'
    | div => exact a.div b' h.2.2
    | atan2 => exact (atan2_contDiffAt hr.2.2).comp ρ (a.prodMk b')
    | hypot =>
      refine ContDiffAt.sqrt ((a.pow 2).add (b'.pow 2)) ?_
      intro h0
      have := (add_eq_zero_iff_of_nonneg (sq_nonneg _) (sq_nonneg _)).1 h0
      exact h.2.2 ⟨pow_eq_zero_iff two_ne_zero |>.1 this.1, pow_eq_zero_iff two_ne_zero |>.1 this.2⟩
  | sbin b e s ih =>
    have a := ih h.1 hr
    cases b with
    | addS => exact a.add contDiffAt_const
    | sAdd => exact contDiffAt_const.add a
    | subS => exact a.sub contDiffAt_const
    | sSub => exact contDiffAt_const.sub a
    | mulS => exact a.mul contDiffAt_const
    | sMul => exact contDiffAt_const.mul a
    | divS => exact a.div_const _
    | sDiv => exact contDiffAt_const.div a h.2
  | hypot3 e₁ e₂ e₃ ih₁ ih₂ ih₃ =>
    have a := ih₁ h.1 hr.1
    have b := ih₂ h.2.1 hr.2.1
    have c := ih₃ h.2.2.1 hr.2.2
    refine ContDiffAt.sqrt (((a.pow 2).add (b.pow 2)).add (c.pow 2)) ?_
    intro h0
    have h1 := sq_nonneg (e₁.den ρ)
    have h2 := sq_nonneg (e₂.den ρ)
    have h3 := sq_nonneg (e₃.den ρ)
    exact h.2.2.2 ⟨pow_eq_zero_iff two_ne_zero |>.1 (by linarith),
      pow_eq_zero_iff two_ne_zero |>.1 (by linarith), pow_eq_zero_iff two_ne_zero |>.1 (by linarith)⟩

end HJ
