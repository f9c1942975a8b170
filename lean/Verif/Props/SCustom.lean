import Verif.Model.SCustom
import Verif.Props.Custom
import Verif.Props.SDense
import Verif.Props.SMixed
import Verif.Props.Sparse
import Verif.Props.Watch
import Verif.Spec.SCustom

/-!
# C95: functions that user code adds to `SScalar`
-/

namespace HJ

open Filter Topology

section
variable {V : Type} [DecidableEq V] {x : String → ℝ} {a r : V}

/-- Calls one after the other. -/
theorem script_append {C R A : Type} {call : C → A → R → A → Prop} {l l' q : List C} {σ σ₁ σ' : A}
    (h : (script C R).Ends call l σ [] σ₁) (h' : (script C R).Ends call l' σ₁ q σ') :
    (script C R).Ends call (l ++ l') σ q σ' := by
  generalize hq : ([] : List C) = e at h
  induction h with
  | @stop l σ hn =>
    subst hq
    exact h'
  | @call l _ _ _ _ k _ hn hk _ ih =>
    cases l with
    | nil => cases hn
    | cons k' l =>
      obtain rfl : k' = k := Option.some.inj hn
      exact .call rfl hk (ih h' hq)

/-- The function that `scustom` gives to `r`. -/
noncomputable def tangent (φ φ₁ : Expr ℝ Unit) (F : (String → ℝ) → ℝ) (x y : String → ℝ) : ℝ :=
  (F y - F x) * φ₁.of1 (F x) + φ.of1 (F x)

theorem scustom_ends {φ φ₁ : Expr ℝ Unit} (σ : SMixSt V CustomVar) (hφ : φ.NumOk fun _ => σ.fns x a)
    (hφ₁ : φ₁.NumOk fun _ => σ.fns x a) :
    ∃ ν, (script _ _).Ends (SMixCall x) (scustom φ φ₁ a r) σ []
      ⟨fun y => setVal (σ.fns y) r (tangent φ φ₁ (fun y => σ.fns y a) x y), ν⟩ := by
  let ν₁ := setVal σ.nums CustomVar.x (σ.fns x a)
  let ν₂ := setVal ν₁ CustomVar.y ((φ.at CustomVar.x).den ν₁)
  let ν₃ := setVal ν₂ CustomVar.d ((φ₁.at CustomVar.x).den ν₂)
  have c1 : SMixCall x (.f CustomVar.x a) σ .done ⟨σ.fns, ν₁⟩ := .f CustomVar.x a σ
  have c2 : SMixCall x (.compute CustomVar.y (φ.at CustomVar.x)) ⟨σ.fns, ν₁⟩ .done ⟨σ.fns, ν₂⟩ :=
    .compute CustomVar.y (φ.at CustomVar.x) ⟨σ.fns, ν₁⟩
      (φ.at_numOk _ _ (by simpa [ν₁, setVal] using hφ))
  have c3 : SMixCall x (.compute CustomVar.d (φ₁.at CustomVar.x)) ⟨σ.fns, ν₂⟩ .done ⟨σ.fns, ν₃⟩ :=
    .compute CustomVar.d (φ₁.at CustomVar.x) ⟨σ.fns, ν₂⟩
      (φ₁.at_numOk _ _ (by simpa [ν₁, ν₂, setVal] using hφ₁))
  have c4 := SMixCall.act (x := x) (.assign r (.sbin .addS (.sbin .mulS (.sbin .subS (.var a)
    (.inr CustomVar.x)) (.inr CustomVar.d)) (.inr CustomVar.y))) ⟨σ.fns, ν₃⟩
    (by simp [SStmt.map, SStmt.Ok, Expr.map, Expr.Dom, Expr.Regular, SBin.dom]) trivial
  refine ⟨ν₃, .call rfl c1 (.call rfl c2 (.call rfl c3 (.call (r := .done) rfl ?_ (.stop rfl))))⟩
  convert c4 using 3 with y
  simp [SStmt.map, SStmt.den, Expr.map, Expr.den, SBin.den, scalarOf, setVal, Expr.at_den, tangent,
    ν₁, ν₂, ν₃]

theorem tangent_deriv {φ φ₁ : Expr ℝ Unit} {F : (String → ℝ) → ℝ} {k : String}
    (hF : DifferentiableAt ℝ (fun t => F (Function.update x k t)) (x k))
    (h : HasDerivAt φ.of1 (φ₁.of1 (F x)) (F x)) :
    deriv (fun t => tangent φ φ₁ F x (Function.update x k t)) (x k) =
      deriv (fun t => φ.of1 (F (Function.update x k t))) (x k) := by
  have h1 : HasDerivAt (fun t => φ.of1 (F (Function.update x k t)))
      (φ₁.of1 (F x) * deriv (fun t => F (Function.update x k t)) (x k)) (x k) := by
    have h' : HasDerivAt φ.of1 (φ₁.of1 (F x)) (F (Function.update x k (x k))) := by
      rwa [Function.update_eq_self]
    exact h'.comp (x k) hF.hasDerivAt
  rw [h1.deriv, mul_comm]
  exact (((hF.hasDerivAt.sub_const (F x)).mul_const (φ₁.of1 (F x))).add_const _).deriv

/-- From the tangent to the function. -/
theorem SWithin.of_tangent {α : Type} [CMath α] {B : α → ℝ → Prop} {N : Set String} {φ φ₁ : Expr ℝ Unit}
    {F : (String → ℝ) → ℝ} {o : SS α}
    (hF : ∀ k ∈ N, DifferentiableAt ℝ (fun t => F (Function.update x k t)) (x k))
    (h : HasDerivAt φ.of1 (φ₁.of1 (F x)) (F x)) (ho : SWithin B N (tangent φ φ₁ F x) x o) :
    SWithin B N (fun y => φ.of1 (F y)) x o := by
  obtain ⟨⟨s, h1, h2⟩, h3⟩ := ho
  refine ⟨⟨s, h1, by simpa [tangent] using h2⟩, fun k hk => ?_⟩
  rw [← tangent_deriv (hF k hk) h]
  exact h3 k hk

/-- **C95.**  Let user code apply a function `φ` that the library does not have to a sparse scalar `a`, by
`x = a.f(); y = φ(x); d = φ'(x); r = (a - x) * d + y;` where `r` may be `a` itself.
There are a constant `K`, a precision, a range and a number of calls such that in every arithmetic of at least that precision and range,
with every iteration order, all calls succeed, and the value of `r` and its derivatives for all names in `N` are
finite and within `K` times the error of one operation of those of `φ(a)`; all other objects keep their
functions. -/
theorem C95_rate [Finite V] (F : (String → ℝ) → V → ℝ) (N : Finset String)
    (hF : ∀ v k, DifferentiableAt ℝ (fun t => F (Function.update x k t) v) (x k)) (φ φ₁ : Expr ℝ Unit)
    (hφ : φ.NumOk fun _ => F x a) (hφ₁ : φ₁.NumOk fun _ => F x a)
    (h1 : HasDerivAt φ.of1 (φ₁.of1 (F x a)) (F x a)) :
    ∃ K w₀ B : ℝ, 0 < w₀ ∧ ∃ m : Nat, ∀ (α : Type) [CMath α] (w : Prec) (M : FinErr α w)
      (enc : ℝ → α) (ord : Order α) (ρ : SStore α V) (ν : CustomVar → α), ord.Ok → w.rel ≤ w₀ →
      w.abs ≤ w₀ → Set.Icc (-B) B ⊆ w.range → M.ExactCmp → (∀ s, M.Sound (enc s) s) →
      (∀ v, SWF (ρ v) ∧ SWithin M.Sound Set.univ (fun y => F y v) x (ρ v)) → (∀ t, M.Sound (ν t) 0) →
      ∃ p ν', (∀ j ≥ m, ((script _ _).map (SMCall.map enc) (Answer.map M.val)).run
          (smixLibrary α V CustomVar) j (scustom φ φ₁ a r) ((ord, ρ), ν) = some (.ok [], p, ν')) ∧
        SWithin (fun s t => M.fin s ∧ |M.val s - t| ≤ K * (w.rel + w.abs)) N (fun y => φ.of1 (F y a)) x
          (p.2 r) ∧
        ∀ v ≠ r, SWithin (fun s t => M.fin s ∧ |M.val s - t| ≤ K * (w.rel + w.abs)) N
          (fun y => F y v) x (p.2 v) := by
  obtain ⟨ν₁, he⟩ := scustom_ends (x := x) (a := a) (r := r) (φ := φ) (φ₁ := φ₁) ⟨F, fun _ => 0⟩ hφ hφ₁
  obtain ⟨K, w₀, B, hw, m, hm⟩ := C94_rate (script _ _) N hF he
  refine ⟨K, w₀, B, hw, m, fun α _ w M enc ord ρ ν a1 a2 a3 a4 a5 a6 a7 a8 => ?_⟩
  obtain ⟨p, ν', k1, k2, -⟩ := hm α w M enc ord ρ ν a1 a2 a3 a4 a5 a6 a7 a8
  refine ⟨p, ν', k1, SWithin.of_tangent (φ₁ := φ₁) (fun k _ => hF a k) h1 ?_, fun v hv => ?_⟩
  · simpa only [setVal, if_true] using (k2 r).2
  · simpa only [setVal, if_neg hv] using (k2 v).2

/-- **C95, formats.**  The same after any other straight-line code, in the formats with `b` bits and exponents
up to `emax`: `…; r = φ(a);`. -/
theorem C95_formats [Finite V] (start : V → ℝ) (N : Finset String) (pre : List (SMCall ℝ V CustomVar))
    {σ : SMixSt V CustomVar}
    (hpre : (script _ _).Ends (SMixCall x) pre ⟨fun _ => start, fun _ => 0⟩ [] σ)
    (hF : ∀ k ∈ N, DifferentiableAt ℝ (fun t => σ.fns (Function.update x k t) a) (x k))
    (φ φ₁ : Expr ℝ Unit) (hφ : φ.NumOk fun _ => σ.fns x a) (hφ₁ : φ₁.NumOk fun _ => σ.fns x a)
    (h1 : HasDerivAt φ.of1 (φ₁.of1 (σ.fns x a)) (σ.fns x a)) :
    ∃ (K : ℝ) (n m : Nat), ∀ b ≥ n, ∀ emax ≥ n, ∀ (ord : Order (IEEE b emax))
      (vord : V → Order (IEEE b emax)), ord.Ok → (∀ v, (vord v).Ok) →
      ∃ p ν', (∀ j ≥ m, ((script _ _).map (SMCall.map (IEEE.enc b emax)) (Answer.map IEEE.real)).run
          (smixLibrary _ V CustomVar) j (pre ++ scustom φ φ₁ a r)
          ((ord, fun v => SS.constant (vord v) (IEEE.enc b emax (start v))),
            fun _ => IEEE.enc b emax 0) = some (.ok [], p, ν')) ∧
        SWithin (fun s t => s.val.Fin ∧ |s.real - t| ≤ K / 2 ^ b) N (fun y => φ.of1 (σ.fns y a)) x
          (p.2 r) := by
  obtain ⟨ν₁, he⟩ := scustom_ends (x := x) (a := a) (r := r) (φ := φ) (φ₁ := φ₁) σ hφ hφ₁
  obtain ⟨K, n, m, h⟩ := C94_formats (script _ _) start (fun _ => 0) N (script_append hpre he)
  refine ⟨K, n, m, fun b hb emax hemax ord vord ho hvo => ?_⟩
  obtain ⟨p, ν', k1, k2, -⟩ := h b hb emax hemax ord vord ho hvo
  refine ⟨p, ν', k1, SWithin.of_tangent (φ₁ := φ₁) hF h1 ?_⟩
  simpa only [setVal, if_true] using (k2 r).2

end

/-! ## No error besides that of `φ` and one multiplication -/

theorem Expr.at_plain {α W : Type} [CMath α] (w : W) (dv : α → α → α) (ν : W → α) (e : Expr α Unit) :
    (e.at w).plain dv ν = e.plain dv fun _ => ν w := by
  induction e with
  | var _ => rfl
  | const _ => rfl
  | neg e ih => simp only [Expr.at, Expr.plain, ih]
  | abs e ih => simp only [Expr.at, Expr.plain, ih]
  | fn _ e ih => simp only [Expr.at, Expr.plain, ih]
  | bin _ _ _ ih₁ ih₂ => simp only [Expr.at, Expr.plain, ih₁, ih₂]
  | sbin _ _ _ ih => simp only [Expr.at, Expr.plain, ih]
  | hypot3 _ _ _ ih₁ ih₂ ih₃ => simp only [Expr.at, Expr.plain, ih₁, ih₂, ih₃]

section
variable {p emax : Nat}

theorem IEEE.cancel {x d y : IEEE p emax} (hx : x.val.Fin) (hd : d.val.Fin) (hy : y.InFormat) :
    ((x +ₛ (-ₛ x)) *ₛ d) +ₛ y = y := by
  obtain ⟨x⟩ := x
  obtain ⟨d⟩ := d
  obtain ⟨y⟩ := y
  have e1 : ((⟨x⟩ : IEEE p emax) +ₛ (-ₛ ⟨x⟩)) = ⟨.num 0⟩ := by
    obtain ⟨r, rfl⟩ : ∃ r, x = .num r := ⟨_, IEEE.real_eq (x := (⟨x⟩ : IEEE p emax)) hx⟩
    show (⟨toFmt p emax (.num (r + -r))⟩ : IEEE p emax) = _
    rw [add_neg_cancel, toFmt_zero]
  have e2 : (⟨.num 0⟩ *ₛ ⟨d⟩ : IEEE p emax) = ⟨.num 0⟩ := by
    obtain ⟨r, rfl⟩ : ∃ r, d = .num r := ⟨_, IEEE.real_eq (x := (⟨d⟩ : IEEE p emax)) hd⟩
    rw [fmt_mul, zero_mul, toFmt_zero]
  have e3 : (XReal.num 0 +ₛ y : XReal) = y := by
    cases y with
    | num r => exact congrArg XReal.num (zero_add r)
    | inf _ => rfl
    | nan => rfl
  rw [e1, e2]
  show (⟨toFmt p emax (XReal.num 0 +ₛ y)⟩ : IEEE p emax) = _
  rw [e3]
  exact IEEE.ext hy

theorem IEEE.zero_times {d : IEEE p emax} (hd : d.val.Fin) :
    (Arith.lit 0 *ₛ d : IEEE p emax) = Arith.lit 0 := by
  obtain ⟨d⟩ := d
  obtain ⟨r, rfl⟩ : ∃ r, d = .num r := ⟨_, IEEE.real_eq (x := (⟨d⟩ : IEEE p emax)) hd⟩
  have e : (Arith.lit 0 : IEEE p emax) = ⟨.num 0⟩ := by
    show (⟨toFmt p emax (.num ((0 : Int) : ℝ))⟩ : IEEE p emax) = _
    rw [Int.cast_zero, toFmt_zero]
  rw [e, fmt_mul, zero_mul, toFmt_zero]

/-- What the recipe leaves in `r`. -/
theorem scustom_is {V : Type} [DecidableEq V] (φ φ₁ : Expr (IEEE p emax) Unit)
    {ord : Order (IEEE p emax)}
    (hord : ord.Ok) {ρ : SStore (IEEE p emax) V} {a : V} (r : V) (ν : CustomVar → IEEE p emax)
    {x : IEEE p emax} (ha : (ρ a).names.Nodup) (hm : (ρ a).mF = some x) (hfin : x.val.Fin)
    (hy : (φ.plain (· ÷ₛ ·) fun _ => x).InFormat) (hd : (φ₁.plain (· ÷ₛ ·) fun _ => x).val.Fin) :
    ∃ ord' ρ' ν', (∀ j ≥ 5, (script _ _).run (smixLibrary _ V CustomVar) j (scustom φ φ₁ a r)
        ((ord, ρ), ν) = some (.ok [], (ord', ρ'), ν')) ∧
      SIs (ρ' r) (φ.plain (· ÷ₛ ·) fun _ => x)
        (fun k => ((ρ a).mD.find k).map (· *ₛ (φ₁.plain (· ÷ₛ ·) fun _ => x))) ∧
          ∀ v ≠ r, ρ' v = ρ v := by
  have hlib : ∀ j ≥ 5, (script _ _).run (smixLibrary _ V CustomVar) j (scustom φ φ₁ a r)
      ((ord, ρ), ν) = some (.ok [], (ord.sub 1, fun v => if v = r then
        ⟨some (((x +ₛ (-ₛ x)) *ₛ (φ₁.plain (· ÷ₛ ·) fun _ => x)) +ₛ (φ.plain (· ÷ₛ ·) fun _ => x)),
          ord [0, 0, 0] (SMap.scale (ord [0, 1, 0, 0] (ord [0, 1, 1, 0, 0] (ρ a).mD))
            (φ₁.plain (· ÷ₛ ·) fun _ => x))⟩ else ρ v),
        setNum (setNum (setNum ν .x x) .y (φ.plain (· ÷ₛ ·) fun _ => x)) .d
          (φ₁.plain (· ÷ₛ ·) fun _ => x)) := by
    intro j hj
    obtain ⟨j, rfl⟩ : ∃ i, j = i + 5 := ⟨j - 5, by omega⟩
    simp
      [Caller.run, script, scustom, smixLibrary, sreadNum, hm, Expr.at_plain, setNum, ssLibrary, SStmt.map,
      SStmt.run, Expr.map, Expr.evalSS, SBin.runS, SS.subS, SS.sAdd, SS.addS, SS.mulS, SStore.put, scalarOf,
      Answer.of, SS.f, Order.sub]
  have h1 : (ord [0, 1, 0, 0] (ord [0, 1, 1, 0, 0] (ρ a).mD)).Perm (ρ a).mD := (hord _ _).trans
    (hord _ _)
  have hn := SMap.nodup_perm ha h1
  have hk : (SMap.scale (ord [0, 1, 0, 0] (ord [0, 1, 1, 0, 0] (ρ a).mD))
      (φ₁.plain (· ÷ₛ ·) fun _ => x)).keys.Nodup := by
    rw [SMap.scale, SMap.keys_map]
    exact hn
  refine ⟨_, _, _, hlib, ⟨?_, ?_, fun k => ?_⟩, fun v hv => if_neg hv⟩
  · simp only [if_true]
    rw [IEEE.cancel hfin hd hy]
  · simp only [if_true]
    exact SMap.nodup_perm hk (hord _ _)
  · simp only [if_true]
    rw [SMap.find_perm hk (hord _ _) k, SMap.scale,
      SMap.find_map _ (· *ₛ (φ₁.plain (· ÷ₛ ·) fun _ => x)), SMap.find_perm ha h1 k]

theorem SS.some_of_f {α : Type} {x : SS α} {v : α} (h : x.f = .ok v) : x.mF = some v := by
  unfold SS.f at h
  split at h
  · rename_i e
    rw [e]
    cases h
    rfl
  · cases h

/-- **C95, exact values.**  In every format, for every finite `x = a.f()`: if `φ'(x)` as computed is finite, the
value of `r` is exactly `φ(x)` as computed - also if that is infinite or NaN - and every derivative of `r` is
one product, `a.d(k) * φ'(x)`.  `r` has the names of `a`; no other object changes. -/
theorem C95_exact {V : Type} [DecidableEq V] (φ φ₁ : Expr (IEEE p emax) Unit) {ord : Order (IEEE p emax)}
    (hord : ord.Ok) {ρ : SStore (IEEE p emax) V} {a : V} (r : V) (ν : CustomVar → IEEE p emax)
    {x : IEEE p emax} (ha : (ρ a).names.Nodup) (hx : (ρ a).f = .ok x) (hfin : x.val.Fin)
    (hy : (φ.plain (· ÷ₛ ·) fun _ => x).InFormat) (hd : (φ₁.plain (· ÷ₛ ·) fun _ => x).val.Fin) :
    ∃ ord' ρ' ν', (∀ j ≥ 5, (script _ _).run (smixLibrary _ V CustomVar) j (scustom φ φ₁ a r)
        ((ord, ρ), ν) = some (.ok [], (ord', ρ'), ν')) ∧ SWF (ρ' r) ∧
      (ρ' r).f = .ok (φ.plain (· ÷ₛ ·) fun _ => x) ∧
      (∀ k, (ρ' r).d k = (ρ a).d k *ₛ (φ₁.plain (· ÷ₛ ·) fun _ => x)) ∧
      (∀ k, k ∈ (ρ' r).names ↔ k ∈ (ρ a).names) ∧ ∀ v ≠ r, ρ' v = ρ v := by
  obtain ⟨o, ρ', ν', h1, h2, h3⟩ := scustom_is φ φ₁ hord r ν ha (SS.some_of_f hx) hfin hy hd
  refine ⟨o, ρ', ν', h1, SIs.wf h2, SS.f_ok h2, fun k => ?_, fun k => ?_, h3⟩
  · simp only [SS.d]
    rw [h2.look k]
    cases SMap.find (ρ a).mD k with
    | none => exact (IEEE.zero_times hd).symm
    | some v => rfl
  · rw [← not_iff_not]
    refine (SMap.find_none (m := (ρ' r).mD)).symm.trans (Iff.trans ?_ (SMap.find_none (m := (ρ a).mD)))
    rw [h2.look k, Option.map_eq_none_iff]

theorem Fn.coef_slope {α : Type} [CMath α] (ψ : Fn α) (x : α) :
    ψ.coefS x = (ψ.plain x, ψ.slope.plain (· ÷ₛ ·) fun _ => x) := by
  cases ψ <;> rfl

/-- **C95, the library's own functions.**  If user code writes one of the library's functions `ψ` in this way,
with the formula for its derivative, the result cannot be told apart from `ψ(a)`, in every format, however the
hash tables are iterated, for all `a` with finite value and finite `ψ'`. -/
theorem C95_library {V : Type} [DecidableEq V] (hp : 1 ≤ p) (ψ : Fn (IEEE p emax))
    {ord ord₂ : Order (IEEE p emax)} (hord : ord.Ok) (hord₂ : ord₂.Ok) {ρ : SStore (IEEE p emax) V}
      {a : V}
    (r : V) (ν : CustomVar → IEEE p emax) {x : IEEE p emax} (ha : (ρ a).names.Nodup)
      (hx : (ρ a).f = .ok x)
    (hfin : x.val.Fin) (hd : (ψ.slope.plain (· ÷ₛ ·) fun _ => x).val.Fin) :
    ∃ ord' ρ' ν' s, (∀ j ≥ 5, (script _ _).run (smixLibrary _ V CustomVar) j
        (scustom (.fn ψ (.var ())) ψ.slope a r) ((ord, ρ), ν) = some (.ok [], (ord', ρ'), ν')) ∧
      (Expr.fn ψ (.var a)).evalSS ord₂ ρ = .ok s ∧ SWF s ∧ SWF (ρ' r) ∧ SameSS (ρ' r) s := by
  have hy : ((Expr.fn ψ (.var ())).plain (· ÷ₛ ·) fun _ => x).InFormat := by
    cases ψ <;> exact toFmt_idem hp _
  obtain ⟨o, ρ', ν', h1, h2, -⟩ := scustom_is (.fn ψ (.var ())) ψ.slope hord r ν ha
    (SS.some_of_f hx) hfin hy hd
  have hs : SIsV (ρ a) (x, (ρ a).mD.find) := ⟨SS.some_of_f hx, ha, fun _ => rfl⟩
  obtain ⟨s, k1, k2⟩ := SS.un_spec (hord₂.sub 0) hs ψ.coefS
  rw [Fn.coef_slope] at k2
  exact ⟨o, ρ', ν', s, h1, k1, SIs.wf k2, SIs.wf h2, h2.same k2 rfl fun _ => rfl⟩

end

/-! ## Example: the logistic function -/

/-- `r = logistic(a);` with `a` the variable `u` at 5, and `b = logistic(b)` in place. -/
example := C95_rate (V := Fin 2) (x := fun _ => 5) (a := 0) (r := 1)
  (fun y v => if v = 0 then y "u" else 7)
  {"u", "v"} (fun v k => by
    by_cases hk : "u" = k
    · subst hk
      by_cases hv : v = 0 <;> simp [hv]
    · by_cases hv : v = 0 <;> simp [hv, Function.update_of_ne hk]) exLogistic exLogistic₁
  (exLogistic_numOk _) (exLogistic₁_numOk _) (exLogistic_hasDerivAt _)

/-- `a = SScalar::variable("u", 2); a = a * a; a = logistic(a);` at `u = 2`, in place: the derivative for `u` is
that of `1 / (1 + exp(-u²))`, the one for any other name `0`. -/
example (x : String → ℝ) (hx : x "u" = 2) (other : String) :
    ∃ (K : ℝ) (n m : Nat), ∀ b ≥ n, ∀ emax ≥ n, ∀ (ord : Order (IEEE b emax))
      (vord : Unit → Order (IEEE b emax)), ord.Ok → (∀ v, (vord v).Ok) →
    ∃ p ν', (∀ j ≥ m, ((script _ _).map (SMCall.map (IEEE.enc b emax)) (Answer.map IEEE.real)).run
        (smixLibrary _ Unit CustomVar) j
        ([.act (.vari () "u" (.inl 2)), .act (.assign () (.bin .mul (.var ()) (.var ())))] ++
          scustom exLogistic exLogistic₁ () ())
        ((ord, fun v => SS.constant (vord v) (IEEE.enc b emax 0)), fun _ => IEEE.enc b emax 0) =
          some (.ok [], p, ν')) ∧
      SWithin (fun s t => s.val.Fin ∧ |s.real - t| ≤ K / 2 ^ b) ({"u", other} : Finset String)
        (fun y => 1 / (1 + Real.exp (-(y "u" * y "u")))) x (p.2 ()) := by
  have c1 : SMixCall x (.act (.vari () "u" (.inl 2)))
      ⟨fun _ (_ : Unit) => 0, fun _ : CustomVar => 0⟩ .done ⟨fun y _ => y "u", fun _ => 0⟩ := by
    have := SMixCall.act (x := x) (.vari () "u" (.inl 2))
      ⟨fun _ (_ : Unit) => 0, fun _ : CustomVar => 0⟩ trivial trivial
    simp only [SStmt.map, SStmt.den, scalarOf, Sum.elim_inl, id, hx, add_sub_cancel] at this
    exact this
  have c2 : SMixCall x (.act (.assign () (.bin .mul (.var ()) (.var ()))))
      ⟨fun y (_ : Unit) => y "u", fun _ : CustomVar => 0⟩ .done
      ⟨fun y _ => y "u" * y "u", fun _ => 0⟩ :=
    SMixCall.act (x := x) (.assign () (.bin .mul (.var ()) (.var ()))) ⟨_, fun _ => 0⟩
      ⟨⟨trivial, trivial, trivial⟩, trivial, trivial, trivial⟩ ⟨trivial, trivial⟩
  have h := C95_formats (x := x) (a := ()) (r := ()) (fun _ => 0) {"u", other}
    [.act (.vari () "u" (.inl 2)), .act (.assign () (.bin .mul (.var ()) (.var ())))]
      (.call rfl c1 (.call rfl c2 (.stop rfl))) (fun k _ => by
      by_cases hk : "u" = k
      · subst hk
        simp
      · simp [Function.update_of_ne hk]) exLogistic exLogistic₁
    (exLogistic_numOk _) (exLogistic₁_numOk _) (exLogistic_hasDerivAt _)
  simp only [exLogistic_of1] at h
  exact h

/-- `φ(x) = x * x / 2` with `φ'(x) = x` in `double`: for every finite value of `a` and every `a.d("u")`, the
derivative is `a.d("u") * x`, rounded once; also in place. -/
example (ord : Order (IEEE 53 1023)) (hord : ord.Ok) (x g : ℝ) :
    ∃ ord' ρ' ν', (∀ j ≥ 5, (script _ _).run (smixLibrary _ Unit CustomVar) j
        (scustom (.sbin .mulS (.bin .mul (.var ()) (.var ())) ⟨.num (1 / 2)⟩) (.var ()) () ())
        ((ord, fun _ => ⟨some ⟨.num x⟩, [("u", ⟨.num g⟩)]⟩), fun _ => ⟨.num 0⟩) =
          some (.ok [], (ord', ρ'), ν')) ∧
      (ρ' ()).f = .ok (⟨.num x⟩ *ₛ ⟨.num x⟩ *ₛ ⟨.num (1 / 2)⟩) ∧
      (ρ' ()).d "u" = (⟨.num g⟩ *ₛ ⟨.num x⟩ : IEEE 53 1023) := by
  obtain ⟨o, ρ', ν', h1, -, h2, h3, -⟩ := C95_exact (p := 53) (emax := 1023) (V := Unit)
    (.sbin .mulS (.bin .mul (.var ()) (.var ())) ⟨.num (1 / 2)⟩) (.var ()) hord
    (ρ := fun _ => ⟨some ⟨.num x⟩, [("u", ⟨.num g⟩)]⟩) (a := ()) () (fun _ => ⟨.num 0⟩) (x := ⟨.num x⟩)
    (by simp [SS.names]) rfl trivial (toFmt_idem (by norm_num) _) trivial
  exact ⟨o, ρ', ν', h1, h2, h3 "u"⟩

/-- Where `φ'(x)` is infinite, the recipe gives NaN for the value. -/
example (x : ℝ) (y : IEEE 53 1023) :
    (((⟨.num x⟩ +ₛ (-ₛ ⟨.num x⟩)) *ₛ ⟨.inf false⟩) +ₛ y : IEEE 53 1023).val = .nan := by
  have e : ((⟨.num x⟩ : IEEE 53 1023) +ₛ (-ₛ ⟨.num x⟩)) = ⟨.num 0⟩ := by
    show (⟨toFmt 53 1023 (.num (x + -x))⟩ : IEEE 53 1023) = _
    rw [add_neg_cancel, toFmt_zero]
  rw [e]
  show toFmt 53 1023 (toFmt 53 1023 (XReal.mulInf 0 false) +ₛ y.val) = .nan
  simp only [XReal.mulInf, if_true, toFmt]
  cases y.val <;> rfl

/-- `r = (a - x) * cos(x) + sin(x)` and `sin(a)` in `double`, at `x = 0` with the derivative `g`. -/
example (ord ord₂ : Order (IEEE 53 1023)) (hord : ord.Ok) (hord₂ : ord₂.Ok) (g : ℝ) :
    ∃ ord' ρ' ν' s, (∀ j ≥ 5, (script _ _).run (smixLibrary _ Bool CustomVar) j
        (scustom (.fn .sin (.var ())) (.fn .cos (.var ())) false true)
        ((ord, fun _ => ⟨some ⟨.num 0⟩, [("u", ⟨.num g⟩)]⟩), fun _ => ⟨.num 0⟩) =
          some (.ok [], (ord', ρ'), ν')) ∧
      (Expr.fn .sin (.var false)).evalSS ord₂ (fun _ => ⟨some ⟨.num 0⟩, [("u", ⟨.num g⟩)]⟩) = .ok s ∧
      SWF s ∧ SWF (ρ' true) ∧ SameSS (ρ' true) s :=
  C95_library (by norm_num) .sin hord hord₂ true _ (by simp [SS.names]) rfl trivial (by
    have e : (CMath.cos (XReal.num 0)) = .num 1 := by
      show XReal.lift (fun _ => True) Real.cos .nan .nan (.num 0) = _
      simp [XReal.lift]
    show (toFmt 53 1023 (CMath.cos (XReal.num 0))).Fin
    rw [e, toFmt_one (by norm_num) (by norm_num)]
    trivial)

end HJ
