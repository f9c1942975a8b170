import Verif.Props.Newton
import Verif.Props.Custom

/-!
# C75 in floating-point formats
-/

open scoped Topology
open Filter

namespace HJ

variable {c : Cfg} {n : Nat}

/-- The parameters are the variables, the unknown is a number. 
  (Specification; no line of `hyperjet.h`.) -/
def newtonStart (y₀ : ℝ) : Fin (n + 1) → Fin n ⊕ ℝ := Fin.snoc (α := fun _ => Fin n ⊕ ℝ) .inl (.inr y₀)

theorem startVal_newton (y₀ : ℝ) (q : Fin n → ℝ) : startVal (newtonStart y₀) q = Fin.snoc q y₀ := by
  funext v
  refine Fin.lastCases ?_ (fun i => ?_) v <;> simp [startVal, newtonStart]

theorem Expr.map_inl {V W : Type} (e : Expr ℝ V) (ν : W → ℝ) :
    (e.map (Sum.inl : ℝ → ℝ ⊕ W)).map (scalarOf ν) = e := by
  induction e with
  | fn φ e ih => cases φ <;> simp_all [Expr.map, Fn.map, scalarOf]
  | _ => simp_all [Expr.map, scalarOf]

/-- One step on functions.  (Specification; no line of `hyperjet.h`.) -/
noncomputable def stepFun (F D : Expr ℝ (Fin (n + 1))) (u : (Fin n → ℝ) → ℝ) (q : Fin n → ℝ) : ℝ :=
  u q - F.den (Fin.snoc q (u q)) / D.den (Fin.snoc q (u q))

theorem contDiffAt_snoc {o : Nat} {u : (Fin n → ℝ) → ℝ} {p : Fin n → ℝ} (hu : ContDiffAt ℝ o u p) :
    ContDiffAt ℝ o (fun q => (Fin.snoc q (u q) : Fin (n + 1) → ℝ)) p := by
  refine contDiffAt_pi.2 fun i => ?_
  refine Fin.lastCases ?_ (fun i => ?_) i
  · simpa using hu
  · simpa using (contDiff_apply ℝ ℝ i).contDiffAt

theorem steps_end {o : Nat} {F D : Expr ℝ (Fin (n + 1))} {p : Fin n → ℝ} {y₀ : ℝ}
    (hroot : F.den (Fin.snoc p y₀) = 0) (h0 : D.den (Fin.snoc p y₀) ≠ 0)
    (hF : F.Dom o (Fin.snoc p y₀) ∧ F.Regular (Fin.snoc p y₀) ∧ F.PowPos (Fin.snoc p y₀))
    (hD : D.Dom o (Fin.snoc p y₀) ∧ D.Regular (Fin.snoc p y₀) ∧ D.PowPos (Fin.snoc p y₀)) (ν : Empty → ℝ)
    (k : Nat) (u : (Fin n → ℝ) → ℝ) (e : u p = y₀) :
    (script _ _).Ends (MixCall o p)
      (List.replicate k (.act (newtonStep (F.map Sum.inl) (D.map Sum.inl))))
        ⟨fun q => Fin.snoc q (u q), ν⟩ []
      ⟨fun q => Fin.snoc q ((stepFun F D)^[k] u q), ν⟩ := by
  induction k generalizing u with
  | zero => exact .stop rfl
  | succ k ih =>
    have e' : stepFun F D u p = y₀ := by rw [stepFun, e, hroot, zero_div, sub_zero]
    have h := MixCall.act (order := o) (x := p) (newtonStep (F.map Sum.inl) (D.map Sum.inl))
      ⟨fun q => Fin.snoc q (u q), ν⟩
      (by
        simp [newtonStep, Stmt.map, Expr.map, Expr.map_inl, Stmt.Ok, Expr.Dom, Expr.Regular, Bin.dom,
          Bin.reg, e, hF, hD, h0])
      (by simp [newtonStep, Stmt.map, Expr.map, Expr.map_inl, Stmt.PowPos, Expr.PowPos, e, hF, hD])
    rw [List.replicate_succ, Function.iterate_succ_apply]
    refine .call (r := .done) rfl ?_ (ih (stepFun F D u) e')
    convert h using 3 with q
    funext v
    simp only
      [newtonStep, Stmt.map, Expr.map, Expr.map_inl, Stmt.den, AOp.den, Expr.den, Bin.den, setVal,
      Fin.snoc_last]
    refine Fin.lastCases ?_ (fun i => ?_) v
    · simp [stepFun]
    · simp [Fin.castSucc_ne_last]

/-- The iterates have the jet of the solution. -/
theorem iterate_jet (hv : c.Valid) {F D : Expr ℝ (Fin (n + 1))} {p : Fin n → ℝ}
    {Y : (Fin n → ℝ) → ℝ} {KY : Jet ℝ} (hY : IsJet c.order n Y p KY)
    (hroot : ∀ᶠ q in 𝓝 p, F.den (Fin.snoc q (Y q)) = 0)
    (hder : ∀ᶠ σ in 𝓝 (Fin.snoc p (Y p) : Fin (n + 1) → ℝ),
      HasDerivAt (fun y => F.den (Fin.snoc (Fin.init σ) y)) (D.den σ) (σ (Fin.last n)))
    (h0 : D.den (Fin.snoc p (Y p)) ≠ 0)
    (hF : F.Dom c.order (Fin.snoc p (Y p)) ∧ F.Regular (Fin.snoc p (Y p)))
    (hD : D.Dom c.order (Fin.snoc p (Y p)) ∧ D.Regular (Fin.snoc p (Y p)))
    (k : Nat) (hk : c.order ≤ k) : IsJet c.order n ((stepFun F D)^[k] fun _ => Y p) p KY := by
  have hDd := den_differentiable hv D _ hD.1 hD.2
  have step : ∀ u : (Fin n → ℝ) → ℝ, ContDiffAt ℝ c.order u p → u p = Y p →
      ContDiffAt ℝ c.order (stepFun F D u) p ∧ stepFun F D u p = Y p := by
    intro u hu e
    have hs := contDiffAt_snoc hu
    refine ⟨hu.sub (ContDiffAt.div ?_ ?_ ?_), ?_⟩
    · exact ContDiffAt.comp (g := fun σ => F.den σ) p (by rw [e]; exact F.contDiffAt hF.1 hF.2) hs
    · exact ContDiffAt.comp (g := fun σ => D.den σ) p (by rw [e]; exact D.contDiffAt hD.1 hD.2) hs
    · rw [e]; exact h0
    · rw [stepFun, e, hroot.self_of_nhds, zero_div, sub_zero]
  have all : ∀ k, ContDiffAt ℝ c.order ((stepFun F D)^[k] fun _ => Y p) p ∧
      ((stepFun F D)^[k] fun _ => Y p) p = Y p := by
    intro k
    induction k with
    | zero => exact ⟨contDiffAt_const, rfl⟩
    | succ k ih =>
      rw [Function.iterate_succ_apply']
      exact step _ ih.1 ih.2
  have one : ∀ k J J', IsJet c.order n ((stepFun F D)^[k] fun _ => Y p) p J →
      IsJet c.order n ((stepFun F D)^[k + 1] fun _ => Y p) p J' → (∀ i : Fin n, J'.g i = KY.g i) ∧
      ((∀ i : Fin n, J.g i = KY.g i) → c.order = 2 → ∀ i j : Fin n, J'.h i j = KY.h i j) := by
    intro k J J' hJ hJ'
    rw [Function.iterate_succ_apply'] at hJ'
    exact (newton_jet F D p Y KY hY hroot hder h0 hDd _ J hJ (all k).2 J' hJ').2
  have ho := hv.order
  obtain ⟨J, hJ⟩ := exists_jet_of_contDiffAt ho (all k).1
  have hg : ∀ k J, 1 ≤ k → IsJet c.order n ((stepFun F D)^[k] fun _ => Y p) p J →
      ∀ i : Fin n, J.g i = KY.g i := by
    intro k J hk hJ
    obtain ⟨k, rfl⟩ : ∃ k', k = k' + 1 := ⟨k - 1, by omega⟩
    obtain ⟨J₀, hJ₀⟩ := exists_jet_of_contDiffAt ho (all k).1
    exact (one k J₀ J hJ₀ hJ).1
  refine hJ.congr
    ⟨hJ.value.symm.trans ((all k).2.trans hY.value), fun i hi => hg k J (by omega) hJ ⟨i, hi⟩,
    fun h i j hi hj => ?_⟩
  obtain ⟨k, rfl⟩ : ∃ k', k = k' + 1 := ⟨k - 1, by omega⟩
  obtain ⟨J₀, hJ₀⟩ := exists_jet_of_contDiffAt ho (all k).1
  exact (one k J₀ J hJ₀ hJ).2 (hg k J₀ (by omega) hJ₀) h ⟨i, hi⟩ ⟨j, hj⟩

/-- **C75, formats.**  Let `F = 0` hold at the point and the derivative `D` with respect to the unknown be
nonzero there.  Start with the parameters as variables and the solution as a number, all rounded to the format.
As many steps `y -= F / D;` as the order, or more, give value, gradient and Hessian of the function `Y` that the
equation defines, finite and up to `K / 2^b`, in every format with enough bits `b` and exponent range. -/
theorem C75_formats (hv : c.Valid) (hfit : c.tsize = -1 ∨ c.tsize = n) (F D : Expr ℝ (Fin (n + 1)))
    (p : Fin n → ℝ) (y₀ : ℝ) (hroot : F.den (Fin.snoc p y₀) = 0)
    (hder : ∀ᶠ σ in 𝓝 (Fin.snoc p y₀ : Fin (n + 1) → ℝ),
      HasDerivAt (fun y => F.den (Fin.snoc (Fin.init σ) y)) (D.den σ) (σ (Fin.last n)))
    (h0 : D.den (Fin.snoc p y₀) ≠ 0)
    (hF : F.Dom c.order (Fin.snoc p y₀) ∧ F.Regular (Fin.snoc p y₀) ∧ F.PowPos (Fin.snoc p y₀))
    (hD : D.Dom c.order (Fin.snoc p y₀) ∧ D.Regular (Fin.snoc p y₀) ∧ D.PowPos (Fin.snoc p y₀)) :
    ∃ Y : (Fin n → ℝ) → ℝ, Y p = y₀ ∧
      (∀ᶠ σ in 𝓝 (Fin.snoc p y₀ : Fin (n + 1) → ℝ),
        F.den σ = 0 ↔ Y (Fin.init σ) = σ (Fin.last n)) ∧
      ∀ k, c.order ≤ k → ∃ (K : ℝ) (N m : Nat), ∀ b ≥ N, ∀ emax ≥ N,
        (∃ ρ, Starts c (fun i => IEEE.enc b emax (p i)) (IEEE.enc b emax) (newtonStart y₀) ρ) ∧
        ∀ ρ, Starts c (fun i => IEEE.enc b emax (p i)) (IEEE.enc b emax) (newtonStart y₀) ρ →
          ∃ ρ' ν', (∀ j ≥ m, ((script _ _).map (MCall.map (IEEE.enc b emax)) (Answer.map IEEE.real)).run
              (mixLibrary _ (Fin (n + 1)) Empty c n) j
              (List.replicate k (.act (newtonStep (F.map Sum.inl) (D.map Sum.inl))))
              (ρ, fun t => t.elim) = some (.ok [], ρ', ν')) ∧
            Within c (fun s t => s.val.Fin ∧ |s.real - t| ≤ K / 2 ^ b) Y p (ρ' (Fin.last n)) := by
  have ho : c.order ≠ 0 := by rcases hv.order with h | h <;> omega
  obtain ⟨Y, e, hY, hiff⟩ := implicit_fun ho (F.contDiffAt hF.1 hF.2.1) hroot
    (by simpa using hder.self_of_nhds) h0
  refine ⟨Y, e, hiff, fun k hk => ?_⟩
  obtain ⟨KY, hKY⟩ := exists_jet_of_contDiffAt hv.order hY
  subst e
  have hr : ∀ᶠ q in 𝓝 p, F.den (Fin.snoc q (Y q)) = 0 := by
    filter_upwards [(contDiffAt_snoc hY).continuousAt.eventually hiff] with q hq
    exact hq.2 (by simp)
  have hj := iterate_jet hv hKY hr hder h0 ⟨hF.1, hF.2.1⟩ ⟨hD.1, hD.2.1⟩ k hk
  have he := steps_end hroot h0 hF hD (fun t => t.elim) k (fun _ => Y p) rfl
  have es : (fun q => Fin.snoc q (Y p) : (Fin n → ℝ) → Fin (n + 1) → ℝ) = startVal (newtonStart (Y p)) :=
    funext fun q => (startVal_newton (Y p) q).symm
  rw [es] at he
  obtain ⟨K, N, m, h⟩ := C87_formats hv hfit (script _ _) (newtonStart (Y p))
    (fun t : Empty => t.elim) he
  refine ⟨K, N, m, fun b hb emax hemax => ⟨(h b hb emax hemax).1, fun ρ hρ => ?_⟩⟩
  obtain ⟨ρ', ν', k1, k2, -⟩ := (h b hb emax hemax).2 ρ hρ
  have ee : (fun t : Empty => IEEE.enc b emax (t.elim : ℝ)) = fun t => t.elim := funext fun t => t.elim
  rw [ee] at k1
  refine ⟨ρ', ν', k1, ?_⟩
  have := k2 (Fin.last n)
  simp only [Fin.snoc_last] at this
  exact this.of_jets hj hKY

/-- Kepler's equation `y - e sin y = m` with eccentricity `e < 1`: two Newton steps from the solution, rounded to
the format, give its value and its first and second derivatives with respect to `m` and `e`. -/
example (m e y₀ : ℝ) (he : |e| < 1) (hs : y₀ - e * Real.sin y₀ - m = 0) :
    ∃ Y : (Fin 2 → ℝ) → ℝ, Y ![m, e] = y₀ ∧ ∃ (K : ℝ) (N k : Nat), ∀ b ≥ N, ∀ emax ≥ N,
      ∃ ρ ρ' ν', Starts exDyn2 (fun i => IEEE.enc b emax (![m, e] i)) (IEEE.enc b emax)
        (newtonStart y₀) ρ ∧
        (∀ j ≥ k, ((script _ _).map (MCall.map (IEEE.enc b emax)) (Answer.map IEEE.real)).run
          (mixLibrary _ (Fin 3) Empty exDyn2 2) j
          (List.replicate 2 (.act (newtonStep (Expr.map Sum.inl
            (.bin .sub (.bin .sub (.var 2) (.bin .mul (.var 1) (.fn .sin (.var 2)))) (.var 0)))
            (Expr.map Sum.inl (.bin .sub (.const 1) (.bin .mul (.var 1) (.fn .cos (.var 2))))))))
          (ρ, fun t => t.elim) = some (.ok [], ρ', ν')) ∧
        Within exDyn2 (fun s t => s.val.Fin ∧ |s.real - t| ≤ K / 2 ^ b) Y ![m, e] (ρ' 2) := by
  have es : ∀ (q : Fin 2 → ℝ) (y : ℝ), (Fin.snoc q y : Fin 3 → ℝ) = ![q 0, q 1, y] := by
    intro q y
    funext i
    fin_cases i <;> rfl
  have hne : 1 - e * Real.cos y₀ ≠ 0 := by
    have h1 : |e * Real.cos y₀| < 1 := by
      rw [abs_mul]
      exact (mul_le_of_le_one_right (abs_nonneg _) (Real.abs_cos_le_one _)).trans_lt he
    have := (abs_lt.1 h1).2
    linarith
  obtain ⟨Y, h1, -, h2⟩ := C75_formats exDyn2_valid (n := 2) (Or.inl rfl)
    (.bin .sub (.bin .sub (.var 2) (.bin .mul (.var 1) (.fn .sin (.var 2)))) (.var 0))
    (.bin .sub (.const 1) (.bin .mul (.var 1) (.fn .cos (.var 2)))) ![m, e] y₀
    (by simpa [es, Expr.den, Bin.den, Fn.den] using hs)
    (Eventually.of_forall fun σ => by
      simp only [es, Expr.den, Bin.den, Fn.den]
      exact ((hasDerivAt_id (σ 2)).sub ((Real.hasDerivAt_sin (σ 2)).const_mul (σ 1))).sub_const (σ 0))
    (by simpa [es, Expr.den, Bin.den, Fn.den] using hne)
    (by simp [Expr.Dom, Expr.Regular, Bin.dom, Bin.reg, Fn.dom, Expr.PowPos])
    (by simp [Expr.Dom, Expr.Regular, Bin.dom, Bin.reg, Fn.dom, Expr.PowPos])
  obtain ⟨K, N, k, h3⟩ := h2 2 le_rfl
  refine ⟨Y, h1, K, N, k, fun b hb emax hemax => ?_⟩
  obtain ⟨⟨ρ, hρ⟩, h4⟩ := h3 b hb emax hemax
  obtain ⟨ρ', ν', h5, h6⟩ := h4 ρ hρ
  exact ⟨ρ, ρ', ν', hρ, h5, h6⟩

end HJ
