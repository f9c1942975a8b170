import Verif.Model.SImplicit
import Verif.Props.SCustom

/-!
# C96: derivatives of solutions of equations
-/

namespace HJ

open Filter Topology

section
variable {V : Type} [DecidableEq V] {x : String → ℝ} {v y r : V} {k : String}

/-- The function that `simplicit` gives to `r`.  (Specification; no line of `hyperjet.h`.) -/
noncomputable def solveStep (F : (String → ℝ) → ℝ) (x : String → ℝ) (k : String) (z : String → ℝ) : ℝ :=
  F z * (-1 / partialS F x k) + x k

theorem simplicit_ends (σ : SMixSt V CustomVar) (hv : σ.fns x v = x k)
    (hk : partialS (fun z => σ.fns z y) x k ≠ 0) :
    ∃ ν, (script _ _).Ends (SMixCall x) (simplicit v y r k) σ []
      ⟨fun z => setVal (σ.fns z) r (solveStep (fun z => σ.fns z y) x k z), ν⟩ := by
  let d := partialS (fun z => σ.fns z y) x k
  let ν₁ := setVal σ.nums CustomVar.x (σ.fns x v)
  let ν₂ := setVal ν₁ CustomVar.d d
  let ν₃ := setVal ν₂ CustomVar.d (-1 / d)
  have c1 : SMixCall x (.f CustomVar.x v) σ .done ⟨σ.fns, ν₁⟩ := .f CustomVar.x v σ
  have c2 : SMixCall x (.d CustomVar.d y k) ⟨σ.fns, ν₁⟩ .done ⟨σ.fns, ν₂⟩ := .d CustomVar.d y k
    ⟨σ.fns, ν₁⟩
  have c3 : SMixCall x (.compute CustomVar.d (.sbin .sDiv (.var .d) (-1))) ⟨σ.fns, ν₂⟩ .done
      ⟨σ.fns, ν₃⟩ := by
    have := SMixCall.compute (x := x) CustomVar.d (.sbin .sDiv (.var CustomVar.d) (-1)) ⟨σ.fns, ν₂⟩
      ⟨⟨trivial, by simpa [ν₂, setVal, SBin.dom, Expr.den] using hk⟩, trivial, trivial⟩
    simpa [Expr.den, SBin.den, ν₂, ν₃, setVal] using this
  have c4 := SMixCall.act (x := x) (.assign r (.sbin .addS (.sbin .mulS (.var y)
    (.inr CustomVar.d)) (.inr CustomVar.x))) ⟨σ.fns, ν₃⟩
    (by simp [SStmt.map, SStmt.Ok, Expr.map, Expr.Dom, Expr.Regular, SBin.dom]) trivial
  refine ⟨ν₃, .call rfl c1 (.call rfl c2 (.call rfl c3 (.call (r := .done) rfl ?_ (.stop rfl))))⟩
  convert c4 using 3 with z
  simp [SStmt.map, SStmt.den, Expr.map, Expr.den, SBin.den, scalarOf, setVal, solveStep, d,
    ν₁, ν₂, ν₃, hv]

/-- The Newton step has the derivatives of the solution. -/
theorem solveStep_deriv {F ψ : (String → ℝ) → ℝ} {j : String} (hjk : j ≠ k)
    (hk : partialS F x k ≠ 0) (hx : ψ x = x k)
    (hF : DifferentiableAt ℝ (fun q : ℝ × ℝ => F (Function.update (Function.update x j q.1) k q.2))
      (x j, x k))
    (hψ : DifferentiableAt ℝ (fun t => ψ (Function.update x j t)) (x j))
    (h0 : ∀ᶠ t in 𝓝 (x j), F
      (Function.update (Function.update x j t) k (ψ (Function.update x j t))) = 0) :
    deriv (fun t => solveStep F x k (Function.update x j t)) (x j) =
      deriv (fun t => ψ (Function.update x j t)) (x j) := by
  set A := fderiv ℝ (fun q : ℝ × ℝ => F (Function.update (Function.update x j q.1) k q.2)) (x j, x k)
    with hA
  have hFd := hF.hasFDerivAt
  rw [← hA] at hFd
  have ej : ∀ t, Function.update (Function.update x j t) k (x k) = Function.update x j t := fun t => by
    rw [Function.update_comm hjk, Function.update_eq_self]
  -- along `j`
  have h1 : HasDerivAt (fun t => F (Function.update x j t)) (A (1, 0)) (x j) := by
    have hl : HasDerivAt (fun t : ℝ => (t, x k)) ((1 : ℝ), (0 : ℝ)) (x j) :=
      (hasDerivAt_id _).prodMk (hasDerivAt_const _ _)
    have := HasFDerivAt.comp_hasDerivAt (x j) hFd hl
    simpa [Function.comp_def, ej] using this
  -- along `k`
  have h2 : HasDerivAt (fun t => F (Function.update x k t)) (A (0, 1)) (x k) := by
    have hl : HasDerivAt (fun t : ℝ => (x j, t)) ((0 : ℝ), (1 : ℝ)) (x k) :=
      (hasDerivAt_const _ _).prodMk (hasDerivAt_id _)
    have := HasFDerivAt.comp_hasDerivAt (x k) hFd hl
    simpa [Function.comp_def, Function.update_eq_self] using this
  have hpk : partialS F x k = A (0, 1) := h2.deriv
  -- along the solution
  set ψ' := deriv (fun t => ψ (Function.update x j t)) (x j) with hψ'
  have h3 : HasDerivAt (fun t => F (Function.update (Function.update x j t) k
      (ψ (Function.update x j t)))) (A (1, ψ')) (x j) := by
    have hl : HasDerivAt (fun t : ℝ => (t, ψ (Function.update x j t))) ((1 : ℝ), ψ') (x j) :=
      (hasDerivAt_id _).prodMk hψ.hasDerivAt
    have hp : HasFDerivAt (fun q : ℝ × ℝ => F (Function.update (Function.update x j q.1) k q.2)) A
        (x j, ψ (Function.update x j (x j))) := by
      rwa [Function.update_eq_self, hx]
    exact HasFDerivAt.comp_hasDerivAt (x j) hp hl
  have h4 : A (1, ψ') = 0 :=
    h3.unique ((hasDerivAt_const (x j) (0 : ℝ)).congr_of_eventuallyEq h0)
  have h5 : A (1, ψ') = A (1, 0) + ψ' * A (0, 1) := by
    rw [show ((1 : ℝ), ψ') = (1, 0) + ψ' • ((0 : ℝ), (1 : ℝ)) by simp, map_add, map_smul, smul_eq_mul]
  change deriv (fun t => F (Function.update x j t) * (-1 / partialS F x k) + x k) (x j) = ψ'
  rw [((h1.mul_const (-1 / partialS F x k)).add_const (x k)).deriv]
  rw [h5] at h4
  rw [hpk] at hk ⊢
  field_simp
  linarith

/-- **C96.**  Let the sparse scalar `y`, computed by any straight-line code, stand for a function `F` of the named variables
with `F = 0` and `∂F/∂k ≠ 0` at the point, and let `v` have the value of the variable `k` there.  User code that
makes one Newton step, `x = v.f(); d = y.d(k); d = -1 / d; r = y * d + x;`, gets in `r` the value and, for all
names in `N`, the derivatives of the solution `ψ` of `F = 0` for the variable `k`, as a function of the other
variables: in every format with `b` bits, `b` and `emax` large enough, and every iteration order, up to
`K / 2^b`. -/
theorem C96_formats [Finite V] (start : V → ℝ) (N : Finset String) (pre : List (SMCall ℝ V CustomVar))
    {σ : SMixSt V CustomVar}
    (hpre : (script _ _).Ends (SMixCall x) pre ⟨fun _ => start, fun _ => 0⟩ [] σ)
    (ψ : (String → ℝ) → ℝ) (hv : σ.fns x v = x k) (hy : σ.fns x y = 0)
    (hk : partialS (fun z => σ.fns z y) x k ≠ 0) (hkN : k ∉ N) (hx : ψ x = x k)
    (hF : ∀ j ∈ N, DifferentiableAt ℝ
      (fun q : ℝ × ℝ => σ.fns (Function.update (Function.update x j q.1) k q.2) y) (x j, x k))
    (hψ : ∀ j ∈ N, DifferentiableAt ℝ (fun t => ψ (Function.update x j t)) (x j))
    (h0 : ∀ j ∈ N, ∀ᶠ t in 𝓝 (x j),
      σ.fns (Function.update (Function.update x j t) k (ψ (Function.update x j t))) y = 0) :
    ∃ (K : ℝ) (n m : Nat), ∀ b ≥ n, ∀ emax ≥ n, ∀ (ord : Order (IEEE b emax))
      (vord : V → Order (IEEE b emax)), ord.Ok → (∀ v, (vord v).Ok) →
      ∃ p ν', (∀ i ≥ m, ((script _ _).map (SMCall.map (IEEE.enc b emax)) (Answer.map IEEE.real)).run
          (smixLibrary _ V CustomVar) i (pre ++ simplicit v y r k)
          ((ord, fun v => SS.constant (vord v) (IEEE.enc b emax (start v))),
            fun _ => IEEE.enc b emax 0) = some (.ok [], p, ν')) ∧
        SWithin (fun s t => s.val.Fin ∧ |s.real - t| ≤ K / 2 ^ b) N ψ x (p.2 r) := by
  obtain ⟨ν₁, he⟩ := simplicit_ends (x := x) (v := v) (y := y) (r := r) (k := k) σ hv hk
  obtain ⟨K, n, m, h⟩ := C94_formats (script _ _) start (fun _ => 0) N (script_append hpre he)
  refine ⟨K, n, m, fun b hb emax hemax ord vord ho hvo => ?_⟩
  obtain ⟨p, ν', k1, k2, -⟩ := h b hb emax hemax ord vord ho hvo
  refine ⟨p, ν', k1, ?_⟩
  have h1 := (k2 r).2
  simp only [setVal, if_true] at h1
  obtain ⟨⟨s, a1, a2⟩, a3⟩ := h1
  refine ⟨⟨s, a1, ?_⟩, fun j hj => ?_⟩
  · simpa [solveStep, hy, hx] using a2
  · have hne : j ≠ k := fun e => hkN (e ▸ hj)
    rw [← solveStep_deriv (F := fun z => σ.fns z y) hne hk hx (hF j hj) (hψ j hj) (h0 j hj)]
    exact a3 j hj

end

/-- `v = variable("x", 2); q = variable("p", 4); y = v * v - q;` and the Newton step: `r` gets the value and the
derivative for `p` of `sqrt(p)` at `p = 4`, that is `2` and `1 / 4`; the one for any other name but `x` is `0`. -/
example (x : String → ℝ) (hx : x "x" = 2) (hp : x "p" = 4) (other : String) (ho : other ≠ "x") :
    ∃ (K : ℝ) (n m : Nat), ∀ b ≥ n, ∀ emax ≥ n, ∀ (ord : Order (IEEE b emax))
      (vord : Fin 4 → Order (IEEE b emax)), ord.Ok → (∀ v, (vord v).Ok) →
    ∃ p ν', (∀ j ≥ m, ((script _ _).map (SMCall.map (IEEE.enc b emax)) (Answer.map IEEE.real)).run
        (smixLibrary _ (Fin 4) CustomVar) j
        ([.act (.vari 0 "x" (.inl 2)), .act (.vari 1 "p" (.inl 4)),
          .act (.assign 2 (.bin .sub (.bin .mul (.var 0) (.var 0)) (.var 1)))] ++ simplicit 0 2 3 "x")
        ((ord, fun v => SS.constant (vord v) (IEEE.enc b emax 0)), fun _ => IEEE.enc b emax 0) =
          some (.ok [], p, ν')) ∧
      SWithin (fun s t => s.val.Fin ∧ |s.real - t| ≤ K / 2 ^ b) ({"p", other} : Finset String)
        (fun y => Real.sqrt (y "p")) x (p.2 3) := by
  let f₀ : (String → ℝ) → Fin 4 → ℝ := fun _ _ => 0
  let f₁ : (String → ℝ) → Fin 4 → ℝ := fun z => setVal (f₀ z) 0 (z "x")
  let f₂ : (String → ℝ) → Fin 4 → ℝ := fun z => setVal (f₁ z) 1 (z "p")
  let f₃ : (String → ℝ) → Fin 4 → ℝ := fun z => setVal (f₂ z) 2 (z "x" * z "x" - z "p")
  have c1 : SMixCall x (.act (.vari 0 "x" (.inl 2))) ⟨f₀, fun _ : CustomVar => 0⟩ .done
      ⟨f₁, fun _ => 0⟩ := by
    have := SMixCall.act (x := x) (.vari 0 "x" (.inl 2)) ⟨f₀, fun _ : CustomVar => 0⟩ trivial trivial
    simp only [SStmt.map, SStmt.den, scalarOf, Sum.elim_inl, id, hx, add_sub_cancel] at this
    exact this
  have c2 : SMixCall x (.act (.vari 1 "p" (.inl 4))) ⟨f₁, fun _ : CustomVar => 0⟩ .done
      ⟨f₂, fun _ => 0⟩ := by
    have := SMixCall.act (x := x) (.vari 1 "p" (.inl 4)) ⟨f₁, fun _ : CustomVar => 0⟩ trivial trivial
    simp only [SStmt.map, SStmt.den, scalarOf, Sum.elim_inl, id, hp, add_sub_cancel] at this
    exact this
  have c3 : SMixCall x (.act (.assign 2 (.bin .sub (.bin .mul (.var 0) (.var 0)) (.var 1))))
      ⟨f₂, fun _ : CustomVar => 0⟩ .done ⟨f₃, fun _ => 0⟩ :=
    SMixCall.act (x := x) (.assign 2 (.bin .sub (.bin .mul (.var 0) (.var 0)) (.var 1)))
      ⟨f₂, fun _ : CustomVar => 0⟩
      ⟨⟨⟨trivial, trivial, trivial⟩, trivial, trivial⟩, ⟨trivial, trivial, trivial⟩, trivial, trivial⟩
      ⟨⟨trivial, trivial⟩, trivial⟩
  have e0 : ∀ z, f₃ z 0 = z "x" := fun z => by simp [f₃, f₂, f₁, setVal]
  have e2 : ∀ z, f₃ z 2 = z "x" * z "x" - z "p" := fun z => by simp [f₃, setVal]
  have hother : ∀ j ∈ ({"p", other} : Finset String), j ≠ "x" := by
    intro j hj
    simp only [Finset.mem_insert, Finset.mem_singleton] at hj
    rcases hj with rfl | rfl
    · decide
    · exact ho
  have hup : ∀ (j : String) (t : ℝ), Function.update x j t "p" = if j = "p" then t else 4 := by
    intro j t
    by_cases h : "p" = j
    · subst h; simp
    · rw [Function.update_of_ne h, hp, if_neg (Ne.symm h)]
  have hs4 : Real.sqrt 4 = 2 := by
    rw [show (4 : ℝ) = 2 ^ 2 by norm_num, Real.sqrt_sq (by norm_num)]
  refine C96_formats (x := x) (v := 0) (y := 2) (r := 3) (k := "x") (fun _ => 0) {"p", other} _
    (σ := ⟨f₃, fun _ => 0⟩) (.call rfl c1 (.call rfl c2 (.call rfl c3 (.stop rfl))))
    (fun y => Real.sqrt (y "p")) (e0 x) ?_ ?_ ?_ ?_ ?_ ?_ ?_
  · simp only [e2, hx, hp]; norm_num
  · have hd : HasDerivAt (fun t : ℝ => t * t - 4) (1 * 2 + 2 * 1) 2 :=
      ((hasDerivAt_id (2 : ℝ)).mul (hasDerivAt_id 2)).sub_const 4
    simp only [partialS, e2, Function.update_self, ne_eq, String.reduceEq, not_false_eq_true,
      Function.update_of_ne, hx, hp]
    rw [hd.deriv]
    norm_num
  · exact fun h => hother _ h rfl
  · simp only [hp, hx, hs4]
  · intro j hj
    have hjx := hother j hj
    simp only [e2, Function.update_self, ne_eq, String.reduceEq, not_false_eq_true,
      Function.update_of_ne, hup]
    by_cases h : j = "p"
    · simp only [h, if_true]; fun_prop
    · simp only [h, if_false]; fun_prop
  · intro j hj
    simp only [hup]
    by_cases h : j = "p"
    · subst h
      simp only [if_true, hp]
      exact (Real.hasDerivAt_sqrt (by norm_num)).differentiableAt
    · simp only [h, if_false]; fun_prop
  · intro j hj
    simp only [e2, Function.update_self, ne_eq, String.reduceEq, not_false_eq_true,
      Function.update_of_ne, hup]
    by_cases h : j = "p"
    · subst h
      rw [hp]
      filter_upwards [lt_mem_nhds (show (0 : ℝ) < 4 by norm_num)] with t ht
      simp [Real.mul_self_sqrt ht.le]
    · simp only [h, if_false]
      exact Eventually.of_forall fun _ => by rw [Real.mul_self_sqrt (by norm_num)]; norm_num

end HJ
