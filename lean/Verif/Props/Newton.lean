import Verif.Proofs.Newton

/-!
# C75: derivatives through Newton's method

The unknown `y` is the last name, the parameters are the other ones.  `F` is the equation, `D` its
derivative with respect to `y`.
-/

open scoped Topology
open Asymptotics Filter

namespace HJ

open XReal (num)

variable {c : Cfg} {n : Nat}

/-- A step of Newton's method: `y -= F / D;`.  No line of `hyperjet.h`: client code. -/
def newtonStep {α : Type} (F D : Expr α (Fin (n + 1))) : Stmt α (Fin (n + 1)) :=
  .upd .sub (Fin.last n) (.bin .div F D)

theorem den_differentiable {m : Nat} (hv : c.Valid) (e : Expr ℝ (Fin m)) (σ : Fin m → ℝ)
    (h : e.Dom c.order σ) (hr : e.Regular σ) : DifferentiableAt ℝ (fun τ => e.den τ) σ := by
  have hc : ({ c with tsize := -1 } : Cfg).order = 1 ∨ ({ c with tsize := -1 } : Cfg).order = 2 :=
    hv.order
  have hf : Fits { c with tsize := -1 } m := Or.inl rfl
  obtain ⟨r, -, -, h3, -⟩ := core hc hf
    (fun i : Fin m => obj { c with tsize := -1 } m (varC i (num (σ i))))
    (fun i => varJet i (σ i)) (fun i => (good_var i.2 _).shows hc hf) e
  obtain ⟨-, K, -, -, hj, -⟩ := h3 h
  exact (hj (fun i y => y i) σ (fun i => isJet_var _ _ i) hr).grad.differentiableAt

/-- A step of Newton's method gives the gradient of the solution, from the right gradient the Hessian, too. -/
theorem newton_jet (F D : Expr ℝ (Fin (n + 1)))
    (p : Fin n → ℝ) (Y : (Fin n → ℝ) → ℝ) (KY : Jet ℝ) (hY : IsJet c.order n Y p KY)
    (hroot : ∀ᶠ q in 𝓝 p, F.den (Fin.snoc q (Y q)) = 0)
    (hder : ∀ᶠ σ in 𝓝 (Fin.snoc p (Y p) : Fin (n + 1) → ℝ),
      HasDerivAt (fun y => F.den (Fin.snoc (Fin.init σ) y)) (D.den σ) (σ (Fin.last n)))
    (h0 : D.den (Fin.snoc p (Y p)) ≠ 0)
    (hDd : DifferentiableAt ℝ (fun τ => D.den τ) (Fin.snoc p (Y p) : Fin (n + 1) → ℝ))
    (u : (Fin n → ℝ) → ℝ) (J : Jet ℝ) (hu : IsJet c.order n u p J) (e : u p = Y p) (J' : Jet ℝ)
    (hu' : IsJet c.order n
      (fun q => u q - F.den (Fin.snoc q (u q)) / D.den (Fin.snoc q (u q))) p J') :
    u p - F.den (Fin.snoc p (u p)) / D.den (Fin.snoc p (u p)) = Y p ∧
      (∀ i : Fin n, J'.g i = KY.g i) ∧
      ((∀ i : Fin n, J.g i = KY.g i) → c.order = 2 → ∀ i j : Fin n, J'.h i j = KY.h i j) := by
  have hval : u p - F.den (Fin.snoc p (u p)) / D.den (Fin.snoc p (u p)) = Y p := by
    rw [e, hroot.self_of_nhds, zero_div, sub_zero]
  have hd : IsJet c.order n
      (fun q => (u q - F.den (Fin.snoc q (u q)) / D.den (Fin.snoc q (u q))) - Y q) p _ :=
    hu'.comp2 (Φ := fun a b => a - b) hY (isJet_sub _ _ _)
  obtain ⟨C, hC⟩ := newton_bound (Fr := fun σ => F.den σ)
    (Dr := fun σ => D.den σ) hDd hder h0 hu.grad.differentiableAt hY.grad.differentiableAt e hroot
  have hO : (fun q => (u q - F.den (Fin.snoc q (u q)) / D.den (Fin.snoc q (u q))) - Y q) =O[𝓝 p]
      fun q => ‖q - p‖ * (u q - Y q) := by
    refine IsBigO.of_bound C ?_
    filter_upwards [hC] with q hq
    rw [norm_mul, norm_norm, ← mul_assoc]
    exact hq
  have hz : (u p - F.den (Fin.snoc p (u p)) / D.den (Fin.snoc p (u p))) - Y p = 0 := by
    rw [hval, sub_self]
  have hdu := hu.grad.sub hY.grad
  have hn : Tendsto (fun q : Fin n → ℝ => ‖q - p‖) (𝓝 p) (𝓝 0) := by
    have : Continuous fun q : Fin n → ℝ => ‖q - p‖ := by fun_prop
    simpa using this.tendsto p
  refine ⟨hval, fun i => ?_, fun hg ho i j => ?_⟩
  · have := isJet_small1 hd hz (hO.trans_isLittleO (by
      have h4 : (fun q => u q - Y q) =o[𝓝 p] fun _ => (1 : ℝ) := by
        rw [isLittleO_one_iff]
        have := hdu.continuousAt.tendsto
        rw [Pi.sub_apply, e, sub_self] at this
        exact this
      simpa using (isBigO_refl (fun q : Fin n → ℝ => ‖q - p‖) (𝓝 p)).mul_isLittleO h4)) i
    simp only [Jet.comp2] at this
    linarith
  · rw [ho] at hd
    have h4 : (fun q => u q - Y q) =o[𝓝 p] fun q => ‖q - p‖ := by
      have e0 : lin n J.g - lin n KY.g = 0 := by
        rw [show lin n J.g = lin n KY.g from lin_ext fun i => by rw [lin_single, hg i], sub_self]
      rw [e0] at hdu
      have := hasFDerivAt_iff_isLittleO.1 hdu
      simpa [e] using this.norm_right
    have := isJet_small2 hd hz (hO.trans_isLittleO (by
      simpa [pow_two] using (isBigO_refl (fun q : Fin n → ℝ => ‖q - p‖) (𝓝 p)).mul_isLittleO h4)) i j
    simp only [Jet.comp2] at this
    linarith

theorem newton_run (hv : c.Valid) (hfit : c.tsize = -1 ∨ c.tsize = n) (F D : Expr ℝ (Fin (n + 1)))
    (p : Fin n → ℝ) (Y : (Fin n → ℝ) → ℝ) (KY : Jet ℝ) (hY : IsJet c.order n Y p KY)
    (hroot : ∀ᶠ q in 𝓝 p, F.den (Fin.snoc q (Y q)) = 0)
    (hder : ∀ᶠ σ in 𝓝 (Fin.snoc p (Y p) : Fin (n + 1) → ℝ),
      HasDerivAt (fun y => F.den (Fin.snoc (Fin.init σ) y)) (D.den σ) (σ (Fin.last n)))
    (h0 : D.den (Fin.snoc p (Y p)) ≠ 0)
    (hF : F.Dom c.order (Fin.snoc p (Y p)) ∧ F.Regular (Fin.snoc p (Y p)))
    (hD : D.Dom c.order (Fin.snoc p (Y p)) ∧ D.Regular (Fin.snoc p (Y p)))
    (u : (Fin n → ℝ) → ℝ) (J : Jet ℝ) (hu : IsJet c.order n u p J) (e : u p = Y p)
    (ρ : Store XReal (Fin (n + 1))) (hp : ∀ i : Fin n, Shows c n (ρ i.castSucc) (varJet i (p i)).lift)
    (hy : Shows c n (ρ (Fin.last n)) J.lift) :
    ∃ ρ' u' J', (newtonStep (F.map num) (D.map num)).run c n ρ = (.ok (), ρ') ∧
      (∀ i : Fin n, Shows c n (ρ' i.castSucc) (varJet i (p i)).lift) ∧
      Shows c n (ρ' (Fin.last n)) J'.lift ∧ IsJet c.order n u' p J' ∧ u' p = Y p ∧
      (∀ i : Fin n, J'.g i = KY.g i) ∧
      ((∀ i : Fin n, J.g i = KY.g i) → c.order = 2 → ∀ i j : Fin n, J'.h i j = KY.h i j) := by
  have hDd := den_differentiable hv D _ hD.1 hD.2
  obtain ⟨ρ', h1, J', h2, h3⟩ := step_jet hv hfit (newtonStep F D)
    (fun v y => (Fin.snoc y (u y) : Fin (n + 1) → ℝ) v) p ρ
    (fun v => Fin.lastCases (motive := fun _ => Jet ℝ) J (fun i => varJet i (p i)) v)
    (fun v => by
      refine Fin.lastCases ?_ (fun i => ?_) v
      · simpa using hy
      · simpa using hp i)
    (fun v => by
      refine Fin.lastCases ?_ (fun i => ?_) v
      · simpa using hu
      · simpa using isJet_var _ _ i)
    (by
      show Stmt.Ok c.order n (Fin.snoc p (u p)) (newtonStep F D)
      rw [e]
      simp [newtonStep, Stmt.Ok, Expr.Dom, Expr.Regular, Bin.dom, Bin.reg, hF, hD, h0])
  have hu' : IsJet c.order n
      (fun q => u q - F.den (Fin.snoc q (u q)) / D.den (Fin.snoc q (u q))) p (J' (Fin.last n)) := by
    have := h3 (Fin.last n)
    simpa [newtonStep, Stmt.den, setVal, AOp.den, Expr.den, Bin.den] using this
  obtain ⟨hval, hg, hh⟩ := newton_jet F D p Y KY hY hroot hder h0 hDd u J hu e _ hu'
  refine ⟨ρ', _, J' (Fin.last n), h1, fun i => ?_, h2 _, hu', hval, hg, hh⟩
  have := C37_only_target c n ρ ((newtonStep F D).map num) i.castSucc (by
    simp [newtonStep, Stmt.map, Stmt.target, Fin.castSucc_ne_last])
  rw [h1] at this
  dsimp only at this
  rw [this]
  exact hp i

/-- **C75, derivatives through Newton's method.**  Let `Y` be a solution of `F(q, Y(q)) = 0` near the
point, `D` the derivative of `F` with respect to the unknown.  Start with a jet that has the right value
and any derivatives
  (for example none at all).  After one step it has the gradient of `Y`, after two steps
the Hessian, too; further steps keep them. -/
theorem C75_newton (hv : c.Valid) (hfit : c.tsize = -1 ∨ c.tsize = n) (F D : Expr ℝ (Fin (n + 1)))
    (p : Fin n → ℝ) (Y : (Fin n → ℝ) → ℝ) (KY : Jet ℝ) (hY : IsJet c.order n Y p KY)
    (hroot : ∀ᶠ q in 𝓝 p, F.den (Fin.snoc q (Y q)) = 0)
    (hder : ∀ᶠ σ in 𝓝 (Fin.snoc p (Y p) : Fin (n + 1) → ℝ),
      HasDerivAt (fun y => F.den (Fin.snoc (Fin.init σ) y)) (D.den σ) (σ (Fin.last n)))
    (h0 : D.den (Fin.snoc p (Y p)) ≠ 0)
    (hF : F.Dom c.order (Fin.snoc p (Y p)) ∧ F.Regular (Fin.snoc p (Y p)))
    (hD : D.Dom c.order (Fin.snoc p (Y p)) ∧ D.Regular (Fin.snoc p (Y p)))
    (ρ : Store XReal (Fin (n + 1))) (hp : ∀ i : Fin n, Shows c n (ρ i.castSucc) (varJet i (p i)).lift)
    (J : Jet ℝ) (hy : Shows c n (ρ (Fin.last n)) J.lift) (e : J.f = Y p) (k : Nat) (hk : 1 ≤ k) :
    ∃ (ρ' : Store XReal (Fin (n + 1))) (J' : Jet ℝ), runProg c n
      (List.replicate k (newtonStep (F.map num) (D.map num))) ρ = (.ok (), ρ') ∧
      Shows c n (ρ' (Fin.last n)) J'.lift ∧ J'.f = Y p ∧ (∀ i < n, J'.g i = KY.g i) ∧
      (2 ≤ k → c.order = 2 → ∀ i j, i < n → j < n → J'.h i j = KY.h i j) := by
  obtain ⟨u, hu⟩ := exists_isJet c.order p J fun h2 i j => by
    have := hy.sym h2 i.2 j.2
    exact XReal.num_inj.1 this
  have main : ∀ (k : Nat) (ρ : Store XReal (Fin (n + 1))) (J : Jet ℝ) (u : (Fin n → ℝ) → ℝ),
      (∀ i : Fin n, Shows c n (ρ i.castSucc) (varJet i (p i)).lift) → Shows c n (ρ (Fin.last n)) J.lift →
      IsJet c.order n u p J → u p = Y p →
      ∃ (ρ' : Store XReal (Fin (n + 1))) (J' : Jet ℝ), runProg c n
        (List.replicate k (newtonStep (F.map num) (D.map num))) ρ = (.ok (), ρ') ∧
        Shows c n (ρ' (Fin.last n)) J'.lift ∧ J'.f = Y p ∧
        ((1 ≤ k ∨ ∀ i : Fin n, J.g i = KY.g i) → ∀ i : Fin n, J'.g i = KY.g i) ∧
        (2 ≤ k ∨ (1 ≤ k ∧ ∀ i : Fin n, J.g i = KY.g i) → c.order = 2 →
          ∀ i j : Fin n, J'.h i j = KY.h i j) := by
    intro k
    induction k with
    | zero =>
      intro ρ J u hp hy hu e
      refine ⟨ρ, J, rfl, hy, hu.value.symm.trans e, fun h => ?_, fun h => ?_⟩
      · exact h.resolve_left (by omega)
      · omega
    | succ k ih =>
      intro ρ J u hp hy hu e
      obtain ⟨ρ₁, u₁, J₁, a1, a2, a3, a4, a5, a6, a7⟩ :=
        newton_run hv hfit F D p Y KY hY hroot hder h0 hF hD u J hu e ρ hp hy
      obtain ⟨ρ', J', b1, b2, b3, b4, b5⟩ := ih ρ₁ J₁ u₁ a2 a3 a4 a5
      refine ⟨ρ', J', ?_, b2, b3, fun _ => b4 (.inr a6), fun h ho => ?_⟩
      · rw [List.replicate_succ, runProg, a1]
        exact b1
      · by_cases hk : 1 ≤ k
        · exact b5 (.inr ⟨hk, a6⟩) ho
        · have hk0 : k = 0 := by omega
          subst hk0
          have hg := (h.resolve_left (by omega)).2
          rw [List.replicate_zero, runProg] at b1
          cases b1
          have hE := b2.unique a3
          intro i j
          have := hE.2.2 ho i j i.2 j.2
          exact (XReal.num_inj.1 this).trans (a7 hg ho i j)
  obtain ⟨ρ', J', b1, b2, b3, b4, b5⟩ := main k ρ J u hp hy hu (hu.value.trans e)
  exact ⟨ρ', J', b1, b2, b3, fun i hi => b4 (.inl hk) ⟨i, hi⟩,
    fun h ho i j hi hj => b5 (.inl h) ho ⟨i, hi⟩ ⟨j, hj⟩⟩

/-- **C75, the equation alone.**  Let `F = 0` hold at the point and the derivative `D` with respect to the
unknown be nonzero there.  Then the equation defines `Y` near the point, and as many steps as the order
give exactly the derivatives of this `Y`, whatever derivatives the start value carries. -/
theorem C75_implicit (hv : c.Valid) (hfit : c.tsize = -1 ∨ c.tsize = n) (F D : Expr ℝ (Fin (n + 1)))
    (p : Fin n → ℝ) (y₀ : ℝ) (hroot : F.den (Fin.snoc p y₀) = 0)
    (hder : ∀ᶠ σ in 𝓝 (Fin.snoc p y₀ : Fin (n + 1) → ℝ),
      HasDerivAt (fun y => F.den (Fin.snoc (Fin.init σ) y)) (D.den σ) (σ (Fin.last n)))
    (h0 : D.den (Fin.snoc p y₀) ≠ 0)
    (hF : F.Dom c.order (Fin.snoc p y₀) ∧ F.Regular (Fin.snoc p y₀))
    (hD : D.Dom c.order (Fin.snoc p y₀) ∧ D.Regular (Fin.snoc p y₀)) :
    ∃ Y : (Fin n → ℝ) → ℝ, Y p = y₀ ∧
      (∀ᶠ σ in 𝓝 (Fin.snoc p y₀ : Fin (n + 1) → ℝ),
        F.den σ = 0 ↔ Y (Fin.init σ) = σ (Fin.last n)) ∧
      ∀ (ρ : Store XReal (Fin (n + 1))) (J : Jet ℝ) (k : Nat),
        (∀ i : Fin n, Shows c n (ρ i.castSucc) (varJet i (p i)).lift) →
        Shows c n (ρ (Fin.last n)) J.lift → J.f = y₀ → c.order ≤ k →
        ∃ (ρ' : Store XReal (Fin (n + 1))) (K : Jet ℝ),
          runProg c n (List.replicate k (newtonStep (F.map num) (D.map num))) ρ = (.ok (), ρ') ∧
          Shows c n (ρ' (Fin.last n)) K.lift ∧ IsJet c.order n Y p K := by
  have ho : c.order ≠ 0 := by rcases hv.order with h | h <;> omega
  obtain ⟨Y, e, hY, hiff⟩ := implicit_fun ho (F.contDiffAt hF.1 hF.2) hroot
    (by simpa using hder.self_of_nhds) h0
  refine ⟨Y, e, hiff, fun ρ J k hp hy hJ hk => ?_⟩
  obtain ⟨KY, hKY⟩ := exists_jet_of_contDiffAt hv.order hY
  subst e
  have hr : ∀ᶠ q in 𝓝 p, F.den (Fin.snoc q (Y q)) = 0 := by
    have hc : Tendsto (fun q => (Fin.snoc q (Y q) : Fin (n + 1) → ℝ)) (𝓝 p) (𝓝 (Fin.snoc p (Y p))) := by
      refine tendsto_pi_nhds.2 fun i => ?_
      refine Fin.lastCases ?_ (fun i => ?_) i
      · simpa using hY.continuousAt.tendsto
      · simpa using (continuous_apply i).tendsto p
    filter_upwards [hc.eventually hiff] with q hq
    exact hq.2 (by simp)
  obtain ⟨ρ', K, h1, h2, h3, h4, h5⟩ := C75_newton hv hfit F D p Y KY hKY hr hder h0 hF hD ρ hp J hy hJ k
    (by omega)
  exact ⟨ρ', K, h1, h2, hKY.congr ⟨hKY.value.symm.trans h3.symm, fun i hi => (h4 i hi).symm,
    fun h i j hi hj => (h5 (by omega) h i j hi hj).symm⟩⟩

section examples

/-- Heron's method: `y -= (y * y - x) / (2 * y);` started with the number `√x`, that is without any
derivatives, gives the derivatives of the square root. -/
example (x : Fin 1 → ℝ) (hx : 0 < x 0) (k : Nat) (hk : 2 ≤ k) :
    ∃ (ρ' : Store XReal (Fin 2)) (K : Jet ℝ), runProg exDyn2 1 (List.replicate k (newtonStep
        (.bin .sub (.bin .mul (.var 1) (.var 1)) (.var 0)) (.bin .mul (.const (num 2)) (.var 1))))
        ![obj exDyn2 1 (varC 0 (num (x 0))), obj exDyn2 1 (constC (num (√(x 0))))] = (.ok (), ρ') ∧
      Shows exDyn2 1 (ρ' 1) K.lift ∧ IsJet 2 1 (fun q => √(q 0)) x K := by
  have hf : Fits exDyn2 1 := Or.inl rfl
  have hs := Real.sqrt_pos.2 hx
  obtain ⟨r, -, -, h3, -⟩ := core exDyn2_valid.order hf
    (fun _ : Fin 1 => obj exDyn2 1 (varC 0 (num (x 0))))
    (fun _ => varJet 0 (x 0)) (fun i => (good_var (by omega) _).shows exDyn2_valid.order hf)
    (.fn .sqrt (.var 0))
  obtain ⟨-, KY, -, -, hj, -⟩ := h3 (by simpa [Expr.Dom, Fn.dom, varJet, Expr.den] using hx)
  have hY : IsJet 2 1 (fun q : Fin 1 → ℝ => √(q 0)) x KY :=
    hj (fun i y => y i) x (fun i => by
      rw [Subsingleton.elim i 0]
      exact isJet_var _ _ 0) (by simp [Expr.Regular])
  have es : ∀ (q : Fin 1 → ℝ) (y : ℝ), (Fin.snoc q y : Fin 2 → ℝ) = ![q 0, y] := by
    intro q y
    funext i
    fin_cases i <;> rfl
  obtain ⟨ρ', K, h1, h2, h4, h5, h6⟩ := C75_newton exDyn2_valid hf
    (.bin .sub (.bin .mul (.var 1) (.var 1)) (.var 0)) (.bin .mul (.const 2) (.var 1)) x
    (fun q => √(q 0)) KY hY
    (by
      have : ∀ᶠ q : Fin 1 → ℝ in 𝓝 x, 0 < q 0 :=
        (continuous_apply 0).continuousAt.eventually (lt_mem_nhds hx)
      filter_upwards [this] with q hq
      simp [es, Expr.den, Bin.den, Real.mul_self_sqrt hq.le])
    (Eventually.of_forall fun σ => by
      simp only [es, Expr.den, Bin.den]
      have := ((hasDerivAt_id (σ 1)).mul (hasDerivAt_id (σ 1))).sub_const (Fin.init σ 0)
      refine this.congr_deriv ?_
      simp only [id]
      ring)
    (by simp [es, Expr.den, Bin.den, hs.ne'])
    (by simp [Expr.Dom, Expr.Regular, Bin.dom, Bin.reg])
    (by simp [Expr.Dom, Expr.Regular, Bin.dom, Bin.reg])
    ![obj exDyn2 1 (varC 0 (num (x 0))), obj exDyn2 1 (constC (num (√(x 0))))]
    (fun i => by
      rw [Subsingleton.elim i 0]
      exact (good_var (by omega) _).shows exDyn2_valid.order hf)
    ⟨√(x 0), fun _ => 0, fun _ _ => 0⟩ ((good_const _).shows exDyn2_valid.order hf) rfl k (by omega)
  exact ⟨ρ', K, h1, h2, hY.congr ⟨hY.value.symm.trans h4.symm, fun i hi => (h5 i hi).symm,
    fun _ i j hi hj => (h6 hk rfl i j hi hj).symm⟩⟩

/-- Kepler's equation `y - e sin y = m` with eccentricity `e < 1`: whatever solution one has found,
two Newton steps from it give its first and second derivatives with respect to `m` and `e`. -/
example (m e y₀ : ℝ) (he : |e| < 1) (hs : y₀ - e * Real.sin y₀ - m = 0) :
    ∃ Y : (Fin 2 → ℝ) → ℝ, Y ![m, e] = y₀ ∧ ∀ (b : Nat), 2 ≤ b →
      ∃ (ρ' : Store XReal (Fin 3)) (K : Jet ℝ), runProg exDyn2 2 (List.replicate b (newtonStep
        (.bin .sub (.bin .sub (.var 2) (.bin .mul (.var 1) (.fn .sin (.var 2)))) (.var 0))
        (.bin .sub (.const (num 1)) (.bin .mul (.var 1) (.fn .cos (.var 2))))))
        ![obj exDyn2 2 (varC 0 (num m)), obj exDyn2 2 (varC 1 (num e)), obj exDyn2 2 (constC (num y₀))]
          = (.ok (), ρ') ∧
      Shows exDyn2 2 (ρ' 2) K.lift ∧ IsJet 2 2 Y ![m, e] K := by
  have hf : Fits exDyn2 2 := Or.inl rfl
  have es : ∀ (q : Fin 2 → ℝ) (y : ℝ), (Fin.snoc q y : Fin 3 → ℝ) = ![q 0, q 1, y] := by
    intro q y
    funext i
    fin_cases i <;> rfl
  have hne : 1 - e * Real.cos y₀ ≠ 0 := by
    have h1 : |e * Real.cos y₀| < 1 := by
      rw [abs_mul]
      exact (mul_le_of_le_one_right (abs_nonneg _) (Real.abs_cos_le_one _)).trans_lt he
    have := (abs_lt.1 h1).2
    linarith
  obtain ⟨Y, h1, -, h2⟩ := C75_implicit exDyn2_valid hf
    (.bin .sub (.bin .sub (.var 2) (.bin .mul (.var 1) (.fn .sin (.var 2)))) (.var 0))
    (.bin .sub (.const 1) (.bin .mul (.var 1) (.fn .cos (.var 2)))) ![m, e] y₀
    (by simpa [es, Expr.den, Bin.den, Fn.den] using hs)
    (Eventually.of_forall fun σ => by
      simp only [es, Expr.den, Bin.den, Fn.den]
      exact ((hasDerivAt_id (σ 2)).sub ((Real.hasDerivAt_sin (σ 2)).const_mul (σ 1))).sub_const (σ 0))
    (by simpa [es, Expr.den, Bin.den, Fn.den] using hne)
    (by simp [Expr.Dom, Expr.Regular, Bin.dom, Bin.reg, Fn.dom])
    (by simp [Expr.Dom, Expr.Regular, Bin.dom, Bin.reg, Fn.dom])
  refine ⟨Y, h1, fun b hb => h2 _ ⟨y₀, fun _ => 0, fun _ _ => 0⟩ b (fun i => ?_)
    ((good_const _).shows exDyn2_valid.order hf) rfl hb⟩
  fin_cases i
  · exact (good_var (by omega) _).shows exDyn2_valid.order hf
  · exact (good_var (by omega) _).shows exDyn2_valid.order hf

end examples

end HJ
