import Verif.Model.SCustom2
import Verif.Props.CustomExact
import Verif.Props.SCustom
import Verif.Spec.SCustom2

/-!
# C97: functions of two arguments that user code adds to `SScalar`
-/

namespace HJ

open Filter Topology

section
variable {V W : Type} (f : V → W) (e : Expr ℝ V) (ν : W → ℝ)

theorem Expr.ren_den : (e.ren f).den ν = e.den fun v => ν (f v) := by
  induction e with
  | _ => simp_all [Expr.ren, Expr.den]

theorem Expr.ren_numOk (h : e.NumOk fun v => ν (f v)) : (e.ren f).NumOk ν := by
  have hd := fun e => Expr.ren_den f e ν
  obtain ⟨h1, h2, h3⟩ := h
  refine ⟨?_, ?_, ?_⟩
  · induction e with
    | _ => simp_all [Expr.ren, Expr.Dom, Expr.Regular, Expr.PowPos]
  · induction e with
    | _ => simp_all [Expr.ren, Expr.Dom, Expr.Regular, Expr.PowPos]
  · induction e with
    | fn φ e ih => cases φ <;> simp_all [Expr.ren, Expr.Dom, Expr.Regular, Expr.PowPos]
    | _ => simp_all [Expr.ren, Expr.Dom, Expr.Regular, Expr.PowPos]

end

instance : Finite Custom2Var := Finite.of_injective (β := Fin 5)
  (fun | .x => 0 | .z => 1 | .y => 2 | .d => 3 | .e => 4) (by intro a b; cases a <;> cases b <;> simp)

/-- The function of two arguments.  (Specification; no line of `hyperjet.h`.) -/
noncomputable def Expr.of2 (φ : Expr ℝ Bool) (s t : ℝ) : ℝ := φ.den fun i => if i then t else s

section
variable {V : Type} [DecidableEq V] {x : String → ℝ} {a b r : V}

/-- The function that `scustom2` gives to `r`.  (Specification; no line of `hyperjet.h`.) -/
noncomputable def plane (φ φ₁ φ₂ : Expr ℝ Bool) (F G : (String → ℝ) → ℝ) (x y : String → ℝ) : ℝ :=
  (F y - F x) * φ₁.of2 (F x) (G x) + (G y - G x) * φ₂.of2 (F x) (G x) + φ.of2 (F x) (G x)

theorem scustom2_ends {φ φ₁ φ₂ : Expr ℝ Bool} (σ : SMixSt V Custom2Var)
    (hφ : φ.NumOk fun i => if i then σ.fns x b else σ.fns x a)
    (hφ₁ : φ₁.NumOk fun i => if i then σ.fns x b else σ.fns x a)
    (hφ₂ : φ₂.NumOk fun i => if i then σ.fns x b else σ.fns x a) :
    ∃ ν, (script _ _).Ends (SMixCall x) (scustom2 φ φ₁ φ₂ a b r) σ []
      ⟨fun y => setVal (σ.fns y) r
        (plane φ φ₁ φ₂ (fun y => σ.fns y a) (fun y => σ.fns y b) x y), ν⟩ := by
  let ν₁ := setVal σ.nums Custom2Var.x (σ.fns x a)
  let ν₂ := setVal ν₁ Custom2Var.z (σ.fns x b)
  let ν₃ := setVal ν₂ Custom2Var.y ((φ.ren .arg).den ν₂)
  let ν₄ := setVal ν₃ Custom2Var.d ((φ₁.ren .arg).den ν₃)
  let ν₅ := setVal ν₄ Custom2Var.e ((φ₂.ren .arg).den ν₄)
  have e2 : (fun i => ν₂ (.arg i)) = fun i => if i then σ.fns x b else σ.fns x a := by
    funext i; cases i <;> simp [ν₂, ν₁, setVal, Custom2Var.arg]
  have e3 : (fun i => ν₃ (.arg i)) = fun i => if i then σ.fns x b else σ.fns x a := by
    funext i; cases i <;> simp [ν₃, ν₂, ν₁, setVal, Custom2Var.arg]
  have e4 : (fun i => ν₄ (.arg i)) = fun i => if i then σ.fns x b else σ.fns x a := by
    funext i; cases i <;> simp [ν₄, ν₃, ν₂, ν₁, setVal, Custom2Var.arg]
  have c1 : SMixCall x (.f Custom2Var.x a) σ .done ⟨σ.fns, ν₁⟩ := .f Custom2Var.x a σ
  have c2 : SMixCall x (.f Custom2Var.z b) ⟨σ.fns, ν₁⟩ .done ⟨σ.fns, ν₂⟩ := .f Custom2Var.z b ⟨σ.fns, ν₁⟩
  have c3 : SMixCall x (.compute Custom2Var.y (φ.ren .arg)) ⟨σ.fns, ν₂⟩ .done ⟨σ.fns, ν₃⟩ :=
    .compute Custom2Var.y (φ.ren .arg) ⟨σ.fns, ν₂⟩ (φ.ren_numOk _ _ (by rw [e2]; exact hφ))
  have c4 : SMixCall x (.compute Custom2Var.d (φ₁.ren .arg)) ⟨σ.fns, ν₃⟩ .done ⟨σ.fns, ν₄⟩ :=
    .compute Custom2Var.d (φ₁.ren .arg) ⟨σ.fns, ν₃⟩ (φ₁.ren_numOk _ _ (by rw [e3]; exact hφ₁))
  have c5 : SMixCall x (.compute Custom2Var.e (φ₂.ren .arg)) ⟨σ.fns, ν₄⟩ .done ⟨σ.fns, ν₅⟩ :=
    .compute Custom2Var.e (φ₂.ren .arg) ⟨σ.fns, ν₄⟩ (φ₂.ren_numOk _ _ (by rw [e4]; exact hφ₂))
  have c6 := SMixCall.act (x := x) (.assign r (.sbin .addS (.bin .add
    (.sbin .mulS (.sbin .subS (.var a) (.inr Custom2Var.x)) (.inr Custom2Var.d))
    (.sbin .mulS (.sbin .subS (.var b) (.inr Custom2Var.z)) (.inr Custom2Var.e)))
    (.inr Custom2Var.y))) ⟨σ.fns, ν₅⟩
    (by simp [SStmt.map, SStmt.Ok, Expr.map, Expr.Dom, Expr.Regular, SBin.dom, Bin.dom, Bin.reg])
    ⟨trivial, trivial⟩
  refine ⟨ν₅, .call rfl c1 (.call rfl c2 (.call rfl c3 (.call rfl c4 (.call rfl c5
    (.call (r := .done) rfl ?_ (.stop rfl))))))⟩
  have ey : ν₅ .y = φ.of2 (σ.fns x a) (σ.fns x b) := by
    have : ν₅ .y = (φ.ren .arg).den ν₂ := by simp [ν₅, ν₄, ν₃, setVal]
    rw [this, Expr.ren_den, e2]; rfl
  have ed : ν₅ .d = φ₁.of2 (σ.fns x a) (σ.fns x b) := by
    have : ν₅ .d = (φ₁.ren .arg).den ν₃ := by simp [ν₅, ν₄, setVal]
    rw [this, Expr.ren_den, e3]; rfl
  have ee : ν₅ .e = φ₂.of2 (σ.fns x a) (σ.fns x b) := by
    have : ν₅ .e = (φ₂.ren .arg).den ν₄ := by simp [ν₅, setVal]
    rw [this, Expr.ren_den, e4]; rfl
  have ex : ν₅ .x = σ.fns x a := by simp [ν₅, ν₄, ν₃, ν₂, ν₁, setVal]
  have ez : ν₅ .z = σ.fns x b := by simp [ν₅, ν₄, ν₃, ν₂, setVal]
  convert c6 using 3 with y
  simp only [SStmt.map, SStmt.den, Expr.map, Expr.den, SBin.den, Bin.den, scalarOf, Sum.elim_inr, plane,
    ex, ey, ez, ed, ee]

theorem plane_deriv {φ φ₁ φ₂ : Expr ℝ Bool} {F G : (String → ℝ) → ℝ} {k : String}
    (hF : DifferentiableAt ℝ (fun t => F (Function.update x k t)) (x k))
    (hG : DifferentiableAt ℝ (fun t => G (Function.update x k t)) (x k))
    (hd : DifferentiableAt ℝ (fun q : ℝ × ℝ => φ.of2 q.1 q.2) (F x, G x))
    (h₁ : HasDerivAt (fun s => φ.of2 s (G x)) (φ₁.of2 (F x) (G x)) (F x))
    (h₂ : HasDerivAt (fun t => φ.of2 (F x) t) (φ₂.of2 (F x) (G x)) (G x)) :
    deriv (fun t => plane φ φ₁ φ₂ F G x (Function.update x k t)) (x k) =
      deriv (fun t => φ.of2 (F (Function.update x k t)) (G (Function.update x k t))) (x k) := by
  obtain ⟨A, hA⟩ := hd
  have k₁ : A (1, 0) = φ₁.of2 (F x) (G x) := by
    have hl : HasDerivAt (fun t : ℝ => (t, G x)) ((1 : ℝ), (0 : ℝ)) (F x) :=
      (hasDerivAt_id _).prodMk (hasDerivAt_const _ _)
    have hc : HasDerivAt (fun s => φ.of2 s (G x)) (A (1, 0)) (F x) := by
      have := HasFDerivAt.comp_hasDerivAt (F x) hA hl
      exact this
    exact hc.unique h₁
  have k₂ : A (0, 1) = φ₂.of2 (F x) (G x) := by
    have hl : HasDerivAt (fun t : ℝ => (F x, t)) ((0 : ℝ), (1 : ℝ)) (G x) :=
      (hasDerivAt_const _ _).prodMk (hasDerivAt_id _)
    have hc : HasDerivAt (fun t => φ.of2 (F x) t) (A (0, 1)) (G x) := by
      have := HasFDerivAt.comp_hasDerivAt (G x) hA hl
      exact this
    exact hc.unique h₂
  set F' := deriv (fun t => F (Function.update x k t)) (x k)
  set G' := deriv (fun t => G (Function.update x k t)) (x k)
  have h3 : HasDerivAt (fun t => φ.of2 (F (Function.update x k t)) (G (Function.update x k t)))
      (A (F', G')) (x k) := by
    have hl : HasDerivAt (fun t => (F (Function.update x k t), G (Function.update x k t))) (F', G')
      (x k) :=
      hF.hasDerivAt.prodMk hG.hasDerivAt
    have hp : HasFDerivAt (fun q : ℝ × ℝ => φ.of2 q.1 q.2) A
        (F (Function.update x k (x k)), G (Function.update x k (x k))) := by
      rwa [Function.update_eq_self]
    exact HasFDerivAt.comp_hasDerivAt (x k) hp hl
  have h4 : A (F', G') = F' * φ₁.of2 (F x) (G x) + G' * φ₂.of2 (F x) (G x) := by
    rw [show (F', G') = F' • ((1 : ℝ), (0 : ℝ)) + G' • ((0 : ℝ), (1 : ℝ)) by simp, map_add, map_smul,
      map_smul, smul_eq_mul, smul_eq_mul, k₁, k₂]
  rw [h3.deriv, h4]
  exact ((((hF.hasDerivAt.sub_const (F x)).mul_const (φ₁.of2 (F x) (G x))).add
    ((hG.hasDerivAt.sub_const (G x)).mul_const (φ₂.of2 (F x) (G x)))).add_const _).deriv

/-- **C97.**  Let any straight-line code compute sparse scalars `a` and `b`, and let user code apply a function
`φ` of two arguments that the library does not have to them, by its tangent plane:
`x = a.f(); z = b.f(); y = φ(x, z); d = φ₁(x, z); e = φ₂(x, z); r = (a - x) * d + (b - z) * e + y;`
where `a`, `b` and `r` may be the same object.  In every format with enough `bits` and exponent range, and for
every iteration order, the value of `r` and its derivatives for all names in `N` are finite and those of
`φ(a, b)` up to `K / 2^bits`. -/
theorem C97_formats [Finite V] (start : V → ℝ) (N : Finset String) (pre : List (SMCall ℝ V Custom2Var))
    {σ : SMixSt V Custom2Var}
    (hpre : (script _ _).Ends (SMixCall x) pre ⟨fun _ => start, fun _ => 0⟩ [] σ)
    (hF : ∀ k ∈ N, DifferentiableAt ℝ (fun t => σ.fns (Function.update x k t) a) (x k))
    (hG : ∀ k ∈ N, DifferentiableAt ℝ (fun t => σ.fns (Function.update x k t) b) (x k))
    (φ φ₁ φ₂ : Expr ℝ Bool) (hφ : φ.NumOk fun i => if i then σ.fns x b else σ.fns x a)
    (hφ₁ : φ₁.NumOk fun i => if i then σ.fns x b else σ.fns x a)
    (hφ₂ : φ₂.NumOk fun i => if i then σ.fns x b else σ.fns x a)
    (hd : DifferentiableAt ℝ (fun q : ℝ × ℝ => φ.of2 q.1 q.2) (σ.fns x a, σ.fns x b))
    (h₁ : HasDerivAt (fun s => φ.of2 s (σ.fns x b)) (φ₁.of2 (σ.fns x a) (σ.fns x b)) (σ.fns x a))
    (h₂ : HasDerivAt (fun t => φ.of2 (σ.fns x a) t) (φ₂.of2 (σ.fns x a) (σ.fns x b)) (σ.fns x b)) :
    ∃ (K : ℝ) (n m : Nat), ∀ bits ≥ n, ∀ emax ≥ n, ∀ (ord : Order (IEEE bits emax))
      (vord : V → Order (IEEE bits emax)), ord.Ok → (∀ v, (vord v).Ok) →
      ∃ p ν', (∀ j ≥ m, ((script _ _).map (SMCall.map (IEEE.enc bits emax)) (Answer.map IEEE.real)).run
          (smixLibrary _ V Custom2Var) j (pre ++ scustom2 φ φ₁ φ₂ a b r)
          ((ord, fun v => SS.constant (vord v) (IEEE.enc bits emax (start v))),
            fun _ => IEEE.enc bits emax 0) = some (.ok [], p, ν')) ∧
        SWithin (fun s t => s.val.Fin ∧ |s.real - t| ≤ K / 2 ^ bits) N
          (fun y => φ.of2 (σ.fns y a) (σ.fns y b)) x (p.2 r) ∧
        ∀ v ≠ r, SWithin (fun s t => s.val.Fin ∧ |s.real - t| ≤ K / 2 ^ bits) N
          (fun y => σ.fns y v) x (p.2 v) := by
  obtain ⟨ν₁, he⟩ := scustom2_ends (x := x) (a := a) (b := b) (r := r) σ hφ hφ₁ hφ₂
  obtain ⟨K, n, m, h⟩ := C94_formats (script _ _) start (fun _ => 0) N (script_append hpre he)
  refine ⟨K, n, m, fun bits hb emax hemax ord vord ho hvo => ?_⟩
  obtain ⟨p, ν', k1, k2, -⟩ := h bits hb emax hemax ord vord ho hvo
  refine ⟨p, ν', k1, ?_, fun v hv => by simpa only [setVal, if_neg hv] using (k2 v).2⟩
  have h1 := (k2 r).2
  simp only [setVal, if_true] at h1
  obtain ⟨⟨s, a1, a2⟩, a3⟩ := h1
  refine ⟨⟨s, a1, by simpa [plane] using a2⟩, fun k hk => ?_⟩
  rw [← plane_deriv (F := fun y => σ.fns y a) (G := fun y => σ.fns y b) (hF k hk) (hG k hk) hd h₁ h₂]
  exact a3 k hk

end

/-! ## The exact roundings -/

theorem Expr.ren_plain {α V W : Type} [CMath α] (f : V → W) (dv : α → α → α) (ν : W → α) (e : Expr α V) :
    (e.ren f).plain dv ν = e.plain dv fun v => ν (f v) := by
  induction e with
  | _ => simp_all only [Expr.ren, Expr.plain]

section
variable {p emax : Nat}

theorem IEEE.minus_self {x : IEEE p emax} (hx : x.val.Fin) : x +ₛ (-ₛ x) = Arith.lit 0 := by
  obtain ⟨x⟩ := x
  obtain ⟨r, rfl⟩ : ∃ r, x = .num r := ⟨_, IEEE.real_eq (x := (⟨x⟩ : IEEE p emax)) hx⟩
  rw [fmt_lit_zero]
  show (⟨toFmt p emax (.num (r + -r))⟩ : IEEE p emax) = _
  rw [add_neg_cancel, toFmt_zero]

/-- What the recipe leaves in `r`. -/
theorem scustom2_is {V : Type} [DecidableEq V] (hp : 1 ≤ p) (hemax : 1 ≤ emax)
    (φ φ₁ φ₂ : Expr (IEEE p emax) Bool) {ord : Order (IEEE p emax)}
    (hord : ord.Ok) {ρ : SStore (IEEE p emax) V} {a b : V} (r : V)
    (ν : Custom2Var → IEEE p emax) {x z : IEEE p emax} {X : Bool → IEEE p emax}
    (hX : X = fun i => if i then z else x) (ha : (ρ a).names.Nodup) (hb : (ρ b).names.Nodup)
    (hx : (ρ a).f = .ok x) (hz : (ρ b).f = .ok z)
    (hxf : x.val.Fin) (hzf : z.val.Fin) (hy : (φ.plain (· ÷ₛ ·) X).InFormat)
    (hd : (φ₁.plain (· ÷ₛ ·) X).val.Fin) (he : (φ₂.plain (· ÷ₛ ·) X).val.Fin) :
    ∃ ord' ρ' ν', (∀ j ≥ 7, (script _ _).run (smixLibrary _ V Custom2Var) j (scustom2 φ φ₁ φ₂ a b r)
        ((ord, ρ), ν) = some (.ok [], (ord', ρ'), ν')) ∧
      SIs (ρ' r) (φ.plain (· ÷ₛ ·) X) (fun k => SMap.step (fun v w => w +ₛ Arith.lit 1 *ₛ v)
        ((((ρ a).mD.find k).map (· *ₛ (φ₁.plain (· ÷ₛ ·) X))).map (· *ₛ Arith.lit 1))
        (((ρ b).mD.find k).map (· *ₛ (φ₂.plain (· ÷ₛ ·) X)))) ∧
      ∀ v ≠ r, ρ' v = ρ v := by
  have L := nanLaws_ieee (p := p) (emax := emax) hp hemax
  set Y := φ.plain (· ÷ₛ ·) X with hY
  set D := φ₁.plain (· ÷ₛ ·) X with hD
  set E := φ₂.plain (· ÷ₛ ·) X with hE
  let e : Expr (IEEE p emax) Bool := .sbin .addS (.bin .add (.sbin .mulS (.sbin .subS (.var false) x) D)
      (.sbin .mulS (.sbin .subS (.var true) z) E)) Y
  have hxm := SS.some_of_f hx
  have hzm := SS.some_of_f hz
  obtain ⟨s, h1, h2⟩ := evalSS_spec (hord.sub 0) (fun i => if i then ρ b else ρ a)
    (fun i => if i then (z, (ρ b).mD.find) else (x, (ρ a).mD.find)) (fun i => by
      cases i
      · exact ⟨hxm, ha, fun _ => rfl⟩
      · exact ⟨hzm, hb, fun _ => rfl⟩) e
  have hlib : ∀ j ≥ 7, (script _ _).run (smixLibrary _ V Custom2Var) j (scustom2 φ φ₁ φ₂ a b r)
      ((ord, ρ), ν) = some (.ok [], (ord.sub 1, fun v => if v = r then s else ρ v),
        setNum (setNum (setNum (setNum (setNum ν .x x) .z z) .y Y) .d D) .e E) := by
    intro j hj
    obtain ⟨j, rfl⟩ : ∃ i, j = i + 7 := ⟨j - 7, by omega⟩
    have a1 : φ.plain (· ÷ₛ ·) (fun i => setNum (setNum ν .x x) .z z (.arg i)) = Y := by
      rw [hY, hX]
      congr 1
      funext i
      cases i <;> simp [setNum, Custom2Var.arg]
    have a2 : φ₁.plain (· ÷ₛ ·) (fun i => setNum (setNum (setNum ν .x x) .z z) .y Y (.arg i)) = D := by
      rw [hD, hX]
      congr 1
      funext i
      cases i <;> simp [setNum, Custom2Var.arg]
    have a3 : φ₂.plain (· ÷ₛ ·)
        (fun i => setNum (setNum (setNum (setNum ν .x x) .z z) .y Y) .d D (.arg i)) = E := by
      rw [hE, hX]
      congr 1
      funext i
      cases i <;> simp [setNum, Custom2Var.arg]
    have h1' : (Expr.sbin .addS (.bin .add (.sbin .mulS (.sbin .subS (.var a) x) D)
        (.sbin .mulS (.sbin .subS (.var b) z) E)) Y).evalSS (ord.sub 0) ρ = .ok s := h1
    simp only
      [Caller.run, script, scustom2, smixLibrary, sreadNum, SS.f, hxm, hzm, Expr.ren_plain, a1, a2,
      a3, List.tail, ssLibrary, SStmt.map, SStmt.run, Expr.map, scalarOf, Sum.elim_inr]
    simp [setNum, h1', SStore.put, Answer.of]
  have zero : ∀ u : IEEE p emax, u.InFormat → Arith.lit 0 +ₛ u = u := fun u hu => by
    rw [L.comm.add_comm, L.add_zero u hu]
  have hv : (e.evalV fun i => if i then (z, (ρ b).mD.find) else (x, (ρ a).mD.find)).1 = Y := by
    show (((x +ₛ -ₛ x) *ₛ D) +ₛ ((z +ₛ -ₛ z) *ₛ E)) +ₛ Y = Y
    rw [IEEE.minus_self hxf, IEEE.minus_self hzf, IEEE.zero_times hd, IEEE.zero_times he,
      zero _ L.num_zero, zero _ hy]
  refine ⟨_, _, _, hlib, ?_, fun v hne => if_neg hne⟩
  simp only [if_true]
  exact ⟨h2.f.trans (congrArg some hv), h2.nodup, h2.look⟩

/-- **C97, exact values.**  In every format, for finite `x = a.f()` and `z = b.f()`: if both partial derivatives
as computed are finite, the value of `r` is exactly `φ(x, z)` as computed - also if that is infinite or NaN - and
every derivative of `r` is `a.d(k) * φ₁(x, z) + b.d(k) * φ₂(x, z)`, with these three roundings.  `r` has the names
of `a` and `b`; no other object changes. -/
theorem C97_exact {V : Type} [DecidableEq V] (hp : 1 ≤ p) (hemax : 1 ≤ emax)
    (φ φ₁ φ₂ : Expr (IEEE p emax) Bool) {ord : Order (IEEE p emax)}
    (hord : ord.Ok) {ρ : SStore (IEEE p emax) V} {a b : V} (r : V)
    (ν : Custom2Var → IEEE p emax) {x z : IEEE p emax} {X : Bool → IEEE p emax}
    (hX : X = fun i => if i then z else x) (ha : (ρ a).names.Nodup) (hb : (ρ b).names.Nodup)
    (hx : (ρ a).f = .ok x) (hz : (ρ b).f = .ok z)
    (hxf : x.val.Fin) (hzf : z.val.Fin) (hy : (φ.plain (· ÷ₛ ·) X).InFormat)
    (hd : (φ₁.plain (· ÷ₛ ·) X).val.Fin) (he : (φ₂.plain (· ÷ₛ ·) X).val.Fin) :
    ∃ ord' ρ' ν', (∀ j ≥ 7, (script _ _).run (smixLibrary _ V Custom2Var) j (scustom2 φ φ₁ φ₂ a b r)
        ((ord, ρ), ν) = some (.ok [], (ord', ρ'), ν')) ∧ SWF (ρ' r) ∧
      (ρ' r).f = .ok (φ.plain (· ÷ₛ ·) X) ∧
      (∀ k, (ρ' r).d k =
        ((ρ a).d k *ₛ (φ₁.plain (· ÷ₛ ·) X)) +ₛ ((ρ b).d k *ₛ (φ₂.plain (· ÷ₛ ·) X))) ∧
      (∀ k, k ∈ (ρ' r).names ↔ k ∈ (ρ a).names ∨ k ∈ (ρ b).names) ∧ ∀ v ≠ r, ρ' v = ρ v := by
  have L := nanLaws_ieee (p := p) (emax := emax) hp hemax
  obtain ⟨o, ρ', ν', h1, h2, h3⟩ := scustom2_is hp hemax φ φ₁ φ₂ hord r ν hX ha hb hx hz hxf hzf hy hd he
  have one : ∀ u v : IEEE p emax, Arith.lit 1 *ₛ (u *ₛ v) = u *ₛ v := fun u v => by
    rw [L.comm.mul_comm, L.mul_one _ (L.num_mul u v)]
  have zero : ∀ u : IEEE p emax, u.InFormat → Arith.lit 0 +ₛ u = u := fun u hu => by
    rw [L.comm.add_comm, L.add_zero u hu]
  refine ⟨o, ρ', ν', h1, SIs.wf h2, SS.f_ok h2, fun k => ?_, fun k => ?_, h3⟩
  · simp only [SS.d]
    rw [h2.look k]
    cases SMap.find (ρ a).mD k <;> cases SMap.find (ρ b).mD k <;>
      simp only [SMap.step, Option.map_none, Option.map_some, Option.getD_none, Option.getD_some, one,
        IEEE.zero_times hd, IEEE.zero_times he, L.mul_one _ (L.num_mul _ _), zero _ L.num_zero,
        zero _ (L.num_mul _ _), L.add_zero _ (L.num_mul _ _)]
  · have hn : ∀ o : SS (IEEE p emax), k ∈ o.names ↔ o.mD.find k ≠ none := fun o => by
      rw [← not_iff_not, not_not]
      exact (SMap.find_none (m := o.mD)).symm
    rw [hn, hn, hn, h2.look k]
    cases SMap.find (ρ a).mD k <;> cases SMap.find (ρ b).mD k <;> simp [SMap.step]

/-- **C97, the library's own operations.**  If user code writes one of the library's operations `o` of two
operands in this way, with the formulas for value and partial derivatives, the result cannot be told apart from
`a o b`, in every format, however the hash tables are iterated. -/
theorem C97_library {V : Type} [DecidableEq V] (hp : 1 ≤ p) (hemax : 1 ≤ emax) (o : Bin)
    {ord ord₂ : Order (IEEE p emax)} (hord : ord.Ok) (hord₂ : ord₂.Ok) {ρ : SStore (IEEE p emax) V}
    {a b : V} (r : V)
    (ν : Custom2Var → IEEE p emax) {x z : IEEE p emax} {X : Bool → IEEE p emax}
    (hX : X = fun i => if i then z else x) (ha : (ρ a).names.Nodup) (hb : (ρ b).names.Nodup)
    (hx : (ρ a).f = .ok x) (hz : (ρ b).f = .ok z) (hxf : x.val.Fin) (hzf : z.val.Fin)
    (hd : (o.slope₁.plain (· ÷ₛ ·) X).val.Fin) (he : (o.slope₂.plain (· ÷ₛ ·) X).val.Fin) :
    ∃ ord' ρ' ν' s, (∀ j ≥ 7, (script _ _).run (smixLibrary _ V Custom2Var) j
        (scustom2 o.formula o.slope₁ o.slope₂ a b r) ((ord, ρ), ν) = some (.ok [], (ord', ρ'), ν')) ∧
      (Expr.bin o (.var a) (.var b)).evalSS ord₂ ρ = .ok s ∧ SWF s ∧ SWF (ρ' r) ∧ SameSS (ρ' r) s := by
  have L := nanLaws_ieee (p := p) (emax := emax) hp hemax
  have hy : (o.formula.plain (· ÷ₛ ·) X).InFormat := by
    cases o <;> exact toFmt_idem hp _
  obtain ⟨o', ρ', ν', h1, h2, -⟩ :=
    scustom2_is hp hemax o.formula o.slope₁ o.slope₂ hord r ν hX ha hb hx hz
    hxf hzf hy hd he
  obtain ⟨s, k1, k2⟩ := evalSS_spec hord₂ (fun i => if i then ρ b else ρ a)
    (fun i => if i then (z, (ρ b).mD.find) else (x, (ρ a).mD.find)) (fun i => by
      cases i
      · exact ⟨SS.some_of_f hx, ha, fun _ => rfl⟩
      · exact ⟨SS.some_of_f hz, hb, fun _ => rfl⟩) (.bin o (.var false) (.var true))
  have hv : (o.val (x, (ρ a).mD.find) (z, (ρ b).mD.find)) = (o.formula.plain (· ÷ₛ ·) X,
      fun k => SMap.step (fun v w => w +ₛ (o.slope₂.plain (· ÷ₛ ·) X) *ₛ v)
        (((ρ a).mD.find k).map (· *ₛ (o.slope₁.plain (· ÷ₛ ·) X))) ((ρ b).mD.find k)) := by
    subst hX
    cases o with
    | div =>
      simp only [Bin.val, IEEE.square]
      rfl
    | _ => rfl
  have k2' : SIsV s (o.val (x, (ρ a).mD.find) (z, (ρ b).mD.find)) := k2
  rw [hv] at k2'
  refine ⟨o', ρ', ν', s, h1, k1, SIs.wf k2', SIs.wf h2, h2.same k2' rfl fun k => ?_⟩
  have one : ∀ u v : IEEE p emax, Arith.lit 1 *ₛ (u *ₛ v) = v *ₛ u := fun u v => by
    rw [L.comm.mul_comm, L.mul_one _ (L.num_mul u v), L.comm.mul_comm]
  dsimp only
  generalize SMap.find (ρ a).mD k = A
  generalize SMap.find (ρ b).mD k = B
  cases A <;> cases B <;>
    simp only [SMap.step, Option.map_none, Option.map_some, Option.getD_none, Option.getD_some, one,
      L.mul_one _ (L.num_mul _ _)]

end

/-- `a = variable("u", 2); b = variable("v", 3);` and `r = a * exp(b)` as a function of user code with the partial
derivatives `exp(b)` and `a * exp(b)`; the result replaces `a`. -/
example (x : String → ℝ) (hu : x "u" = 2) (hv : x "v" = 3) (other : String) :
    ∃ (K : ℝ) (n m : Nat), ∀ bits ≥ n, ∀ emax ≥ n, ∀ (ord : Order (IEEE bits emax))
      (vord : Bool → Order (IEEE bits emax)), ord.Ok → (∀ v, (vord v).Ok) →
    ∃ p ν', (∀ j ≥ m, ((script _ _).map (SMCall.map (IEEE.enc bits emax)) (Answer.map IEEE.real)).run
        (smixLibrary _ Bool Custom2Var) j
        ([.act (.vari false "u" (.inl 2)), .act (.vari true "v" (.inl 3))] ++
          scustom2 (.bin .mul (.var false) (.fn .exp (.var true))) (.fn .exp (.var true))
            (.bin .mul (.var false) (.fn .exp (.var true))) false true false)
        ((ord, fun v => SS.constant (vord v) (IEEE.enc bits emax 0)), fun _ => IEEE.enc bits emax 0) =
          some (.ok [], p, ν')) ∧
      SWithin (fun s t => s.val.Fin ∧ |s.real - t| ≤ K / 2 ^ bits) ({"u", "v", other} : Finset String)
        (fun y => y "u" * Real.exp (y "v")) x (p.2 false) := by
  let f₀ : (String → ℝ) → Bool → ℝ := fun _ _ => 0
  let f₁ : (String → ℝ) → Bool → ℝ := fun z => setVal (f₀ z) false (z "u")
  let f₂ : (String → ℝ) → Bool → ℝ := fun z => setVal (f₁ z) true (z "v")
  have c1 : SMixCall x (.act (.vari false "u" (.inl 2))) ⟨f₀, fun _ : Custom2Var => 0⟩ .done
      ⟨f₁, fun _ => 0⟩ := by
    have := SMixCall.act (x := x) (.vari false "u" (.inl 2))
      ⟨f₀, fun _ : Custom2Var => 0⟩ trivial trivial
    simp only [SStmt.map, SStmt.den, scalarOf, Sum.elim_inl, id, hu, add_sub_cancel] at this
    exact this
  have c2 : SMixCall x (.act (.vari true "v" (.inl 3))) ⟨f₁, fun _ : Custom2Var => 0⟩ .done
      ⟨f₂, fun _ => 0⟩ := by
    have := SMixCall.act (x := x) (.vari true "v" (.inl 3)) ⟨f₁, fun _ : Custom2Var => 0⟩ trivial trivial
    simp only [SStmt.map, SStmt.den, scalarOf, Sum.elim_inl, id, hv, add_sub_cancel] at this
    exact this
  have ea : ∀ z, f₂ z false = z "u" := fun z => by simp [f₂, f₁, setVal]
  have eb : ∀ z, f₂ z true = z "v" := fun z => by simp [f₂, setVal]
  have hc : ∀ (w k : String), DifferentiableAt ℝ (fun t => Function.update x k t w) (x k) := by
    intro w k
    by_cases h : w = k
    · subst h; simp
    · simp [Function.update_of_ne h]
  have e1 : ∀ s t, (Expr.bin .mul (.var false) (.fn .exp (.var true)) : Expr ℝ Bool).of2 s t =
      s * Real.exp t := fun s t => by simp [Expr.of2, Expr.den, Bin.den, Fn.den]
  have e2 : ∀ s t, (Expr.fn .exp (.var true) : Expr ℝ Bool).of2 s t = Real.exp t :=
    fun s t => by simp [Expr.of2, Expr.den, Fn.den]
  have h := C97_formats (x := x) (a := false) (b := true) (r := false) (fun _ => 0) {"u", "v", other}
    [.act (.vari false "u" (.inl 2)), .act (.vari true "v" (.inl 3))]
    (σ := ⟨f₂, fun _ => 0⟩) (.call rfl c1 (.call rfl c2 (.stop rfl)))
    (fun k _ => by simpa only [ea] using hc "u" k) (fun k _ => by simpa only [eb] using hc "v" k)
    (.bin .mul (.var false) (.fn .exp (.var true))) (.fn .exp (.var true))
    (.bin .mul (.var false) (.fn .exp (.var true)))
    (by simp [Expr.NumOk, Expr.Dom, Expr.Regular, Expr.PowPos, Bin.dom, Bin.reg, Fn.dom])
    (by simp [Expr.NumOk, Expr.Dom, Expr.Regular, Expr.PowPos, Fn.dom])
    (by simp [Expr.NumOk, Expr.Dom, Expr.Regular, Expr.PowPos, Bin.dom, Bin.reg, Fn.dom])
    (by simp only [e1]; fun_prop)
    (by simp only [e1, e2]; simpa using (hasDerivAt_id _).mul_const (Real.exp (f₂ x true)))
    (by simp only [e1]; exact (Real.hasDerivAt_exp _).const_mul _)
  obtain ⟨K, n, m, h⟩ := h
  refine ⟨K, n, m, fun bits hb emax hm ord vord ho hvo => ?_⟩
  obtain ⟨p, ν', k1, k2, -⟩ := h bits hb emax hm ord vord ho hvo
  simp only [e1, ea, eb] at k2
  exact ⟨p, ν', k1, k2⟩

/-- `r = a * b` as a function of user code in `double`, with the partial derivatives `b` and `a`, for operands that
share the name `u`. -/
example (ord : Order (IEEE 53 1023)) (hord : ord.Ok) (x z g h k : ℝ) :
    ∃ ord' ρ' ν', (∀ j ≥ 7, (script _ _).run (smixLibrary _ Bool Custom2Var) j
        (scustom2 (.bin .mul (.var false) (.var true)) (.var true) (.var false) false true false)
        ((ord, fun v => if v then ⟨some ⟨.num z⟩, [("v", ⟨.num k⟩), ("u", ⟨.num h⟩)]⟩
          else ⟨some ⟨.num x⟩, [("u", ⟨.num g⟩)]⟩), fun _ => ⟨.num 0⟩) = some (.ok [], (ord', ρ'), ν')) ∧
      (ρ' false).f = .ok (⟨.num x⟩ *ₛ ⟨.num z⟩) ∧
      (ρ' false).d "u" = ((⟨.num g⟩ *ₛ ⟨.num z⟩) +ₛ (⟨.num h⟩ *ₛ ⟨.num x⟩) : IEEE 53 1023) := by
  obtain ⟨o, ρ', ν', h1, -, h2, h3, -⟩ := C97_exact (p := 53) (emax := 1023) (V := Bool) (by norm_num)
    (by norm_num) (.bin .mul (.var false) (.var true)) (.var true) (.var false) hord
    (ρ := fun v => if v then ⟨some ⟨.num z⟩, [("v", ⟨.num k⟩), ("u", ⟨.num h⟩)]⟩
      else ⟨some ⟨.num x⟩, [("u", ⟨.num g⟩)]⟩) (a := false) (b := true) false (fun _ => ⟨.num 0⟩)
    (x := ⟨.num x⟩) (z := ⟨.num z⟩) rfl (by simp [SS.names]) (by simp [SS.names]) rfl rfl trivial trivial
    ((nanLaws_ieee (p := 53) (emax := 1023) (by norm_num) (by norm_num)).num_mul ⟨.num x⟩ ⟨.num z⟩)
    trivial trivial
  exact ⟨o, ρ', ν', h1, h2, h3 "u"⟩

/-- The user's product and `a * b` in `double`, for all finite values and any derivatives; in place. -/
example (ord ord₂ : Order (IEEE 53 1023)) (hord : ord.Ok) (hord₂ : ord₂.Ok) (x z g h : ℝ) :=
  C97_library (by norm_num) (by norm_num) .mul hord hord₂
    (ρ := fun v => if v then ⟨some ⟨.num z⟩, [("v", ⟨.num h⟩)]⟩ else ⟨some ⟨.num x⟩, [("u", ⟨.num g⟩)]⟩)
    (a := false) (b := true) false (fun _ => ⟨.num 0⟩) (x := ⟨.num x⟩) (z := ⟨.num z⟩) rfl
      (by simp [SS.names]) (by simp [SS.names]) rfl rfl
    trivial trivial (show (XReal.num z).Fin from trivial) (show (XReal.num x).Fin from trivial)

end HJ
