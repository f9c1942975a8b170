import Verif.Proofs.SMixed
import Verif.Props.Mixed

/-!
# C94: client code that computes with sparse scalars and with numbers
-/

namespace HJ

open Filter Topology SMap

section

variable {V W Q : Type} [DecidableEq V] [DecidableEq W] {x : String → ℝ}

/-- **C94.**  Let client code of any kind compute with sparse scalars and with numbers: it reads values and
derivatives, calls `eval` with dictionaries of numbers, computes with the numbers, takes decisions by them, and
uses the results as scalar operands, as the values of new variables and as values and derivatives of new
objects.  On functions of the named variables and real numbers it ends with all calls inside their domains,
without comparing equal numbers and with `pow` of positive numbers only.  There are a constant `K`, a
precision, a range and a number of calls such that in every arithmetic of at least that precision and range,
with every iteration order of the hash tables, the client code on sparse scalars ends in the same state within
that many calls, and all numbers, the values of all objects and their derivatives for all names in `N` are
finite and within `K` times the error of one operation of the exact ones. -/
theorem C94_rate [Finite V] [Finite W] (cl : Caller (SMCall ℝ V W) (Answer ℝ) Q) {q q' : Q}
    {σ σ' : SMixSt V W} (N : Finset String)
    (hd : ∀ v k, DifferentiableAt ℝ (fun t => σ.fns (Function.update x k t) v) (x k))
    (h : cl.Ends (SMixCall x) q σ q' σ') :
    ∃ K w₀ B : ℝ, 0 < w₀ ∧ ∃ m : Nat, ∀ (α : Type) [CMath α] (w : Prec) (M : FinErr α w)
      (enc : ℝ → α) (ord : Order α) (ρ : SStore α V) (ν : W → α), ord.Ok → w.rel ≤ w₀ → w.abs ≤ w₀ →
      Set.Icc (-B) B ⊆ w.range → M.ExactCmp → (∀ s, M.Sound (enc s) s) →
      (∀ v, SWF (ρ v) ∧ SWithin M.Sound Set.univ (fun y => σ.fns y v) x (ρ v)) →
      (∀ t, M.Sound (ν t) (σ.nums t)) →
      ∃ p ν', (∀ j ≥ m, (cl.map (SMCall.map enc) (Answer.map M.val)).run (smixLibrary α V W) j q
          ((ord, ρ), ν) = some (.ok q', p, ν')) ∧
        (∀ v, SWF (p.2 v) ∧ SWithin (fun s t => M.fin s ∧ |M.val s - t| ≤ K * (w.rel + w.abs)) N
          (fun y => σ'.fns y v) x (p.2 v)) ∧
        ∀ t, M.fin (ν' t) ∧ |M.val (ν' t) - σ'.nums t| ≤ K * (w.rel + w.abs) := by
  by_contra hcon
  push Not at hcon
  choose α inst w M enc ord ρ ν ho hle hle' hrng hcmp hclose hseed hnum hbad using
    fun k : ℕ => hcon k (1 / ((k : ℝ) + 1)) k (by positivity) k
  have hw := fine_self (fun k => (M k).rel_nonneg) (fun k => (M k).abs_nonneg) hle hle' hrng
  have lim : ∀ {b : ∀ k, α k} {r : ℝ}, (∀ k, (M k).Sound (b k) r) →
      Lim M atTop (fun k => (w k).rel + (w k).abs) b (fun _ => r) r := fun h =>
    Lim.close hw (Nigh.const _) (Eventually.of_forall h)
  have hρ : SNearing M atTop (fun k => (w k).rel + (w k).abs) x ρ σ.fns := by
    choose a ha hs using fun k v => (hseed k v).2.1
    refine ⟨fun k v => (a k v, fun j => (ρ k v).mD.find j), fun k v => ?_, fun v => ⟨?_, fun nm => ?_⟩⟩
    · obtain ⟨b, hb⟩ := Option.ne_none_iff_exists'.1 (hseed k v).1.init
      have := ha k v
      simp only [SS.f, hb, Res.ok.injEq] at this
      exact ⟨by rw [hb, this], (hseed k v).1.nodup, fun _ => rfl⟩
    · exact lim fun k => hs k v
    · refine ⟨_, lim fun k => ?_, (hd v nm).hasDerivAt⟩
      have := (hseed k v).2.2 nm trivial
      unfold SS.d at this
      cases hf : (ρ k v).mD.find nm with
      | none => simpa [hf] using this
      | some g => simpa [hf] using this
  obtain ⟨m, st, ν', h1, h2⟩ := smixclient_near hw (fun _ => rfl) hcmp
    (fun s => lim fun k => hclose k s) h ho ⟨hρ, fun t => lim fun k => hnum k t⟩
  obtain ⟨C, hC, hC'⟩ := ((eventually_all.2 fun v => h2.objs.errs (fun _ => rfl) N v).and
    (eventually_all.2 fun t => (h2.nums t).errs fun _ => rfl)).exists
  obtain ⟨k, ⟨⟨⟨hk, hk'⟩, hr⟩, hCk⟩, hmk⟩ := (((((eventually_all.2 hC).and (eventually_all.2 hC')).and
    h1).and ((tendsto_natCast_atTop_atTop (R := ℝ)).eventually_ge_atTop C)).and
    (eventually_ge_atTop m)).exists
  have le := mul_le_mul_of_nonneg_right hCk (add_nonneg (M k).rel_nonneg (M k).abs_nonneg)
  obtain ⟨t, ht⟩ := hbad k (st k) (ν' k) (fun j hj => hr j (le_trans hmk hj)) fun v => by
    obtain ⟨e0, ⟨a, e1, e2⟩, e3⟩ := hk v
    exact ⟨e0, ⟨a, e1, e2.1, e2.2.trans le⟩,
      fun nm hnm => ⟨(e3 nm hnm).1, (e3 nm hnm).2.trans le⟩⟩
  exact absurd ((hk' t).2.trans le) (not_le.2 (ht (hk' t).1))

/-- **C94, formats.**  The same for the formats with `b` bits and exponents up to `emax`, started with objects
that hold numbers; the variables are created by the client code itself. -/
theorem C94_formats [Finite V] [Finite W] (cl : Caller (SMCall ℝ V W) (Answer ℝ) Q) {q q' : Q}
    (start : V → ℝ) (num : W → ℝ) {σ' : SMixSt V W} (N : Finset String)
    (h : cl.Ends (SMixCall x) q ⟨fun _ => start, num⟩ q' σ') :
    ∃ (K : ℝ) (n m : Nat), ∀ b ≥ n, ∀ emax ≥ n, ∀ (ord : Order (IEEE b emax))
      (vord : V → Order (IEEE b emax)), ord.Ok → (∀ v, (vord v).Ok) →
      ∃ p ν', (∀ j ≥ m, (cl.map (SMCall.map (IEEE.enc b emax)) (Answer.map IEEE.real)).run
            (smixLibrary _ V W) j q
          ((ord, fun v => SS.constant (vord v) (IEEE.enc b emax (start v))),
            fun t => IEEE.enc b emax (num t)) = some (.ok q', p, ν')) ∧
        (∀ v, SWF (p.2 v) ∧ SWithin (fun s t => s.val.Fin ∧ |s.real - t| ≤ K / 2 ^ b) N
          (fun y => σ'.fns y v) x (p.2 v)) ∧
        ∀ t, (ν' t).val.Fin ∧ |(ν' t).real - σ'.nums t| ≤ K / 2 ^ b := by
  obtain ⟨K, u₀, B, hu, m, hm⟩ := C94_rate cl N (fun v k => differentiableAt_const _) h
  obtain ⟨n, hn, hfmt⟩ := fmt_enough hu B
  refine ⟨2 * |K|, n, m, fun b hb emax he ord vord ho hvo => ?_⟩
  obtain ⟨f1, f2, f3⟩ := hfmt b hb emax he
  have le := fmt_rate (p := b) (le_trans (by omega : 1 ≤ n) he) K
  obtain ⟨p, ν', h1, h2, h3⟩ := hm _ _ (ieeeErr b emax (hn.trans hb) (hn.trans he)) (IEEE.enc b emax) ord
    (fun v => SS.constant (vord v) (IEEE.enc b emax (start v))) (fun t => IEEE.enc b emax (num t)) ho
    f1 f2 f3 (ieee_exactCmp _ _) (ieee_enc _ _) (fun v => by
      have hc := SS.is_constant (hvo v) (IEEE.enc b emax (start v))
      refine ⟨hc.wf, ⟨_, SS.f_ok hc, ieee_enc _ _ _⟩, fun k _ => ?_⟩
      rw [SS.d_eq hc]
      simpa using sound_lit (ieeeErr b emax (hn.trans hb) (hn.trans he)) 0 (by norm_num))
    fun t => ieee_enc _ _ _
  refine ⟨p, ν', h1, fun v => ?_, fun t => ⟨(h3 t).1, (h3 t).2.trans le⟩⟩
  obtain ⟨e0, ⟨a, e1, e2⟩, e3⟩ := h2 v
  exact ⟨e0, ⟨a, e1, e2.1, e2.2.trans le⟩, fun nm hnm => ⟨(e3 nm hnm).1, (e3 nm hnm).2.trans le⟩⟩

end

/-! ## Newton's method -/

/-- Newton's method for one unknown with the name `nm`, user code; the state counts the steps:
`while (true) { auto a = SScalar::variable(nm, z); a = F(a); f = a.f(); if (f * f < tol) break;
d = a.d(nm); z = z - f / d; }` (no line of `hyperjet.h`) -/
def snewton (nm : String) (F : Expr ℝ Unit) (tol : ℝ) :
    Caller (SMCall ℝ Unit NewtonVar) (Answer ℝ) (Nat × NewtonAt) where
  next q := match q.2 with
    | .seed => some (.act (.vari () nm (.inr .z)))
    | .eval => some (.act (.assign () (F.map .inl)))
    | .value => some (.f .f ())
    | .check => some (.test .lt (.bin .mul (.var .f) (.var .f)) (.const tol))
    | .slope => some (.d .d () nm)
    | .step => some (.compute .z (.bin .sub (.var .z) (.bin .div (.var .f) (.var .d))))
    | .stop => none
  after
    | (k, .seed), _ => (k, .eval)
    | (k, .eval), _ => (k, .value)
    | (k, .value), _ => (k, .check)
    | (k, .check), .truth true => (k, .stop)
    | (k, .check), _ => (k, .slope)
    | (k, .slope), _ => (k, .step)
    | (k, .step), _ => (k + 1, .seed)
    | (k, .stop), _ => (k, .stop)

theorem of1_partialS (nm : String) (F : Expr ℝ Unit) (z : ℝ) (x : String → ℝ) :
    partialS (fun y => F.of1 (z + (y nm - x nm))) x nm = deriv F.of1 z := by
  have : (fun t => F.of1 (z + (Function.update x nm t nm - x nm))) = fun t => F.of1
    (t + (z - x nm)) := by
    funext t
    rw [Function.update_self]
    congr 1
    ring
  rw [partialS, this, deriv_comp_add_const]
  congr 1
  ring

section
variable {nm : String} {F : Expr ℝ Unit} {tol : ℝ} {x : String → ℝ}

/-- One round up to the check. -/
theorem snewton_round {z : ℝ} (hD : F.Dom 1 fun _ => z) (hR : F.Regular fun _ => z)
    (hP : F.PowPos fun _ => z) (hne : F.of1 z * F.of1 z ≠ tol) {σ σ' : SMixSt Unit NewtonVar}
    (hσ : σ.nums .z = z) {i : Nat} {q : Nat × NewtonAt}
    (h : (snewton nm F tol).Ends (SMixCall x) (i, if F.of1 z * F.of1 z < tol then .stop else .slope)
      ⟨fun y _ => F.of1 (z + (y nm - x nm)), setVal σ.nums NewtonVar.f (F.of1 z)⟩ q σ') :
    (snewton nm F tol).Ends (SMixCall x) (i, .seed) σ q σ' := by
  subst hσ
  have hF : ∀ ν : NewtonVar → ℝ, (F.map Sum.inl).map (scalarOf ν) = F := fun ν => by
    rw [Expr.map_fuse]; exact F.map_id_self
  have c1 : SMixCall x (.act (.vari () nm (.inr .z))) σ .done
      ⟨fun y _ => σ.nums .z + (y nm - x nm), σ.nums⟩ := by
    have := SMixCall.act (x := x) (.vari () nm (.inr .z)) σ trivial trivial
    simp only [SStmt.map, SStmt.den, scalarOf, Sum.elim_inr] at this
    exact this
  have c2 : SMixCall x (.act (.assign () (F.map .inl)))
      ⟨fun y _ => σ.nums .z + (y nm - x nm), σ.nums⟩ .done
      ⟨fun y _ => F.of1 (σ.nums .z + (y nm - x nm)), σ.nums⟩ := by
    have := SMixCall.act (x := x) (.assign () (F.map .inl))
      ⟨fun y _ => σ.nums .z + (y nm - x nm), σ.nums⟩
      (by simp only [SStmt.map, hF, SStmt.Ok, sub_self, add_zero]; exact ⟨hD, hR⟩)
      (by simp only [SStmt.map, hF, SStmt.PowPos, sub_self, add_zero]; exact hP)
    simp only [SStmt.map, hF, SStmt.den] at this
    exact this
  have c3 : SMixCall x (.f NewtonVar.f ()) ⟨fun y _ => F.of1 (σ.nums .z + (y nm - x nm)), σ.nums⟩
      .done ⟨fun y _ => F.of1 (σ.nums .z + (y nm - x nm)),
        setVal σ.nums NewtonVar.f (F.of1 (σ.nums .z))⟩ := by
    have := SMixCall.f (x := x) NewtonVar.f ()
      ⟨fun y _ => F.of1 (σ.nums .z + (y nm - x nm)), σ.nums⟩
    simpa only [sub_self, add_zero] using this
  refine .call rfl c1 (.call rfl c2 (.call rfl c3 (.call rfl
    (.test (r := decide (F.of1 (σ.nums .z) * F.of1 (σ.nums .z) < tol)) .lt
      (.bin .mul (.var NewtonVar.f) (.var NewtonVar.f)) (.const tol) _ ?_ ?_ ?_ ?_) ?_)))
  · exact ⟨⟨trivial, trivial, trivial⟩, ⟨trivial, trivial, trivial⟩, trivial, trivial⟩
  · exact ⟨trivial, trivial, trivial⟩
  · simpa [Expr.den, Bin.den, setVal] using hne
  · simp [Expr.den, Bin.den, setVal, DD.CmpOp.rel]
  · have e3 : (snewton nm F tol).after (i, .check)
        (.truth (decide (F.of1 (σ.nums .z) * F.of1 (σ.nums .z) < tol))) =
        (i, if F.of1 (σ.nums .z) * F.of1 (σ.nums .z) < tol then .stop else .slope) := by
      by_cases h : F.of1 (σ.nums .z) * F.of1 (σ.nums .z) < tol <;> simp [h, snewton]
    rw [← e3] at h
    exact h

/-- The whole loop. -/
theorem snewton_ends (k : Nat) {z : ℕ → ℝ}
    (hz : ∀ j < k, z (j + 1) = z j - F.of1 (z j) / deriv F.of1 (z j))
    (hF : ∀ j ≤ k, F.Dom 1 (fun _ => z j) ∧ F.Regular (fun _ => z j) ∧ F.PowPos fun _ => z j)
    (h0 : ∀ j < k, tol < F.of1 (z j) ^ 2 ∧ deriv F.of1 (z j) ≠ 0) (hk : F.of1 (z k) ^ 2 < tol)
    (σ : SMixSt Unit NewtonVar) (hσ : σ.nums .z = z 0) (i : Nat) :
    ∃ σ', (snewton nm F tol).Ends (SMixCall x) (i, .seed) σ (i + k, .stop) σ' ∧ σ'.nums .z = z k ∧
      σ'.nums .f = F.of1 (z k) := by
  induction k generalizing z σ i with
  | zero =>
    obtain ⟨hD, hR, hP⟩ := hF 0 le_rfl
    rw [sq] at hk
    refine ⟨⟨fun y _ => F.of1 (z 0 + (y nm - x nm)), setVal σ.nums .f (F.of1 (z 0))⟩,
      snewton_round hD hR hP hk.ne hσ ?_, ?_, ?_⟩
    · rw [if_pos hk]
      exact .stop rfl
    · simpa [setVal] using hσ
    · simp [setVal]
  | succ k ih =>
    obtain ⟨hD, hR, hP⟩ := hF 0 (by omega)
    obtain ⟨h1, h2⟩ := h0 0 (by omega)
    rw [sq] at h1
    let σ₁ : SMixSt Unit NewtonVar :=
      ⟨fun y _ => F.of1 (z 0 + (y nm - x nm)), setVal σ.nums .f (F.of1 (z 0))⟩
    let σ₂ : SMixSt Unit NewtonVar := ⟨σ₁.fns, setVal σ₁.nums .d (deriv F.of1 (z 0))⟩
    have c1 : SMixCall x (.d NewtonVar.d () nm) σ₁ .done σ₂ := by
      have := SMixCall.d (x := x) NewtonVar.d () nm σ₁
      rw [show partialS (fun y => σ₁.fns y ()) x nm = deriv F.of1 (z 0) from
        of1_partialS nm F (z 0) x] at this
      exact this
    let e : Expr ℝ NewtonVar := .bin .sub (.var .z) (.bin .div (.var .f) (.var .d))
    have c2 : SMixCall x (.compute .z e) σ₂ .done ⟨σ₂.fns, setVal σ₂.nums .z (e.den σ₂.nums)⟩ :=
      .compute .z e σ₂ ⟨⟨trivial, ⟨trivial, trivial, by
        simpa [e, Expr.den, σ₂, setVal, Bin.dom] using h2⟩, trivial⟩,
        ⟨trivial, ⟨trivial, trivial, trivial⟩, trivial⟩, trivial, trivial, trivial⟩
    obtain ⟨σ', k1, k2, k3⟩ := ih (z := fun j => z (j + 1)) (fun j hj => hz (j + 1) (by omega))
      (fun j hj => hF (j + 1) (by omega)) (fun j hj => h0 (j + 1) (by omega)) hk
      ⟨σ₂.fns, setVal σ₂.nums .z (e.den σ₂.nums)⟩ (by
        rw [hz 0 (by omega)]
        simp [e, Expr.den, Bin.den, σ₂, σ₁, setVal, hσ]) (i + 1)
    refine ⟨σ', snewton_round hD hR hP h1.ne' hσ ?_, k2, k3⟩
    rw [if_neg h1.not_gt, show i + (k + 1) = i + 1 + k by omega]
    exact .call rfl c1 (.call rfl c2 k1)

end

/-- **C94, Newton's method.**  Let the exact Newton iteration for `F(z) = 0` be defined for `k` steps, and let
`F(z)² < tol` hold for the first time, strictly, after `k` steps.  Then in every format with at least `n`
bits and exponents up to at least `n`, with every iteration order of the hash tables, Newton's method on sparse
scalars stops after exactly `k` steps with an approximation within `K / 2 ^ b` of the exact iterate, and a
value within `K / 2 ^ b` of that of `F` there. -/
theorem C94_newton (nm : String) (F : Expr ℝ Unit) (tol : ℝ) (k : Nat) {z : ℕ → ℝ}
    (hz : ∀ j < k, z (j + 1) = z j - F.of1 (z j) / deriv F.of1 (z j))
    (hF : ∀ j ≤ k, F.Dom 1 (fun _ => z j) ∧ F.Regular (fun _ => z j) ∧ F.PowPos fun _ => z j)
    (h0 : ∀ j < k, tol < F.of1 (z j) ^ 2 ∧ deriv F.of1 (z j) ≠ 0) (hk : F.of1 (z k) ^ 2 < tol) :
    ∃ (K : ℝ) (n m : Nat), ∀ b ≥ n, ∀ emax ≥ n, ∀ ord vord : Order (IEEE b emax), ord.Ok → vord.Ok →
      ∃ p ν', (∀ j ≥ m, ((snewton nm F tol).map (SMCall.map (IEEE.enc b emax))
            (Answer.map IEEE.real)).run (smixLibrary _ Unit NewtonVar) j (0, .seed)
          ((ord, fun _ => SS.constant vord (IEEE.enc b emax 0)), fun _ => IEEE.enc b emax (z 0)) =
            some (.ok (k, .stop), p, ν')) ∧
        |(ν' .z).real - z k| ≤ K / 2 ^ b ∧ |(ν' .f).real - F.of1 (z k)| ≤ K / 2 ^ b := by
  obtain ⟨σ', h1, h2, h3⟩ := snewton_ends (nm := nm) (x := fun _ => 0) k hz hF h0 hk
    ⟨fun _ _ => 0, fun _ => z 0⟩ rfl 0
  rw [Nat.zero_add] at h1
  obtain ⟨K, n, m, h⟩ := C94_formats (snewton nm F tol) (fun _ => 0) (fun _ => z 0) ∅ h1
  refine ⟨K, n, m, fun b hb emax he ord vord ho hvo => ?_⟩
  obtain ⟨p, ν', k1, _, k3⟩ := h b hb emax he ord (fun _ => vord) ho fun _ => hvo
  exact ⟨p, ν', k1, h2 ▸ (k3 .z).2, h3 ▸ (k3 .f).2⟩

/-! ## Examples -/

/-- The square root of 2, started at 2 with `tol = 1/1000`: two steps, ending near 17/12. -/
example : ∃ (K : ℝ) (n m : Nat), ∀ b ≥ n, ∀ emax ≥ n, ∀ ord vord : Order (IEEE b emax), ord.Ok →
  vord.Ok →
    ∃ p ν', (∀ j ≥ m, ((snewton "s" exSquare (1 / 1000)).map (SMCall.map (IEEE.enc b emax))
        (Answer.map IEEE.real)).run (smixLibrary _ Unit NewtonVar) j (0, .seed)
          ((ord, fun _ => SS.constant vord (IEEE.enc b emax 0)), fun _ => IEEE.enc b emax 2) =
            some (.ok (2, .stop), p, ν')) ∧
      |(ν' .z).real - 17 / 12| ≤ K / 2 ^ b ∧ |(ν' .f).real - 1 / 144| ≤ K / 2 ^ b := by
  have h := C94_newton "s" exSquare (1 / 1000) 2
    (z := fun j => if j = 0 then 2 else if j = 1 then 3 / 2 else 17 / 12)
    (fun j hj => by
      rw [exSquare_deriv, exSquare_of1]
      interval_cases j <;> norm_num)
    (fun j _ => ⟨⟨⟨trivial, trivial, trivial⟩, trivial⟩, ⟨trivial, trivial, trivial⟩, trivial, trivial⟩)
    (fun j hj => by
      rw [exSquare_deriv, exSquare_of1]
      interval_cases j <;> norm_num)
    (by rw [exSquare_of1]; norm_num)
  rw [exSquare_of1] at h
  norm_num at h ⊢
  exact h

/-- User code with `eval`:
`a = SScalar::variable("u", w); a = a * a; e = a.eval({{"u", w}, {"v", w}}); if (e > 1) a *= e;` -/
def exChange : Caller (SMCall ℝ Unit Bool) (Answer ℝ) Nat where
  next
    | 0 => some (.act (.vari () "u" (.inr false)))
    | 1 => some (.act (.assign () (.bin .mul (.var ()) (.var ()))))
    | 2 => some (.eval true () [("u", false), ("v", false)])
    | 3 => some (.test .gt (.var true) (.const 1))
    | 4 => some (.act (.updS .mul () (.inr true)))
    | _ => none
  after
    | 0, _ => 1
    | 1, _ => 2
    | 2, _ => 3
    | 3, .truth true => 4
    | 3, _ => 5
    | 4, _ => 6
    | n, _ => n

theorem exChange_slope (x : String → ℝ) (k : String) :
    partialS
      (fun y => (3 + (y "u" - x "u")) * (3 + (y "u" - x "u"))) x k = if k = "u" then 6 else 0 := by
  unfold partialS
  by_cases hk : k = "u"
  · subst hk
    have h := ((hasDerivAt_id (x "u")).sub_const (x "u")).const_add 3
    have := (h.mul h).deriv
    simp only [Function.update_self, if_true]
    refine Eq.trans ?_ (this.trans ?_)
    · rfl
    · norm_num
  · simp [Function.update_of_ne (Ne.symm hk), hk]

/-- On real numbers with `w = 3`: the change is `6 * 3 = 18`, the test succeeds, and `a` is `18 u²`. -/
theorem exChange_ends (x : String → ℝ) (start : Unit → ℝ) (num : Bool → ℝ) (h : num false = 3) :
    exChange.Ends (SMixCall x) 0 ⟨fun _ => start, num⟩ 6
      ⟨fun y _ => (3 + (y "u" - x "u")) * (3 + (y "u" - x "u")) * 18, setVal num true 18⟩ := by
  have c1 : SMixCall x (.act (.vari () "u" (.inr false))) ⟨fun _ => start, num⟩ .done
      ⟨fun y _ => 3 + (y "u" - x "u"), num⟩ := by
    have := SMixCall.act (x := x) (.vari () "u" (.inr false)) ⟨fun _ => start, num⟩ trivial trivial
    simp only [SStmt.map, SStmt.den, scalarOf, Sum.elim_inr, h] at this
    exact this
  have c2 : SMixCall x (.act (.assign () (.bin .mul (.var ()) (.var ()))))
      ⟨fun y _ => 3 + (y "u" - x "u"), num⟩ .done
      ⟨fun y _ => (3 + (y "u" - x "u")) * (3 + (y "u" - x "u")), num⟩ :=
    SMixCall.act (x := x) (.assign () (.bin .mul (.var ()) (.var ()))) ⟨_, num⟩
      ⟨⟨trivial, trivial, trivial⟩, trivial, trivial, trivial⟩ ⟨trivial, trivial⟩
  have c3 : SMixCall x (.eval true () [("u", false), ("v", false)])
      ⟨fun y _ => (3 + (y "u" - x "u")) * (3 + (y "u" - x "u")), num⟩ .done
      ⟨fun y _ => (3 + (y "u" - x "u")) * (3 + (y "u" - x "u")), setVal num true 18⟩ := by
    have := SMixCall.eval (x := x) true () [("u", false), ("v", false)] (by simp)
      ⟨fun y _ => (3 + (y "u" - x "u")) * (3 + (y "u" - x "u")), num⟩
    simp only [List.map_cons, List.map_nil, exChange_slope, List.sum_cons, List.sum_nil, h] at this
    norm_num [show ("v" = "u") = False by simp] at this
    exact this
  refine .call rfl c1 (.call rfl c2 (.call rfl c3 (.call rfl
    (.test (r := true) .gt (.var true) (.const 1) _ ⟨trivial, trivial, trivial⟩
      ⟨trivial, trivial, trivial⟩ ?_ ?_) (.call (r := .done) rfl ?_ (.stop rfl)))))
  · simp [Expr.den, setVal]
  · simp [Expr.den, setVal, DD.CmpOp.rel]
  · have := SMixCall.act (x := x) (.updS .mul () (.inr true))
      ⟨fun y _ => (3 + (y "u" - x "u")) * (3 + (y "u" - x "u")), setVal num true 18⟩
      (fun h => by cases h) trivial
    exact this

/-- In all formats with enough bits the change is `18` and the derivative of `a` is `108`, up to `K / 2^b`. -/
example (x : String → ℝ) : ∃ (K : ℝ) (n m : Nat), ∀ b ≥ n, ∀ emax ≥ n, ∀ ord vord : Order (IEEE b emax),
    ord.Ok → vord.Ok →
    ∃ p ν', (∀ j ≥ m, (exChange.map (SMCall.map (IEEE.enc b emax)) (Answer.map IEEE.real)).run
        (smixLibrary _ Unit Bool) j 0 ((ord, fun _ => SS.constant vord (IEEE.enc b emax 0)),
          fun _ => IEEE.enc b emax 3) = some (.ok 6, p, ν')) ∧
      |(ν' true).real - 18| ≤ K / 2 ^ b ∧ |((p.2 ()).d "u").real - 6 * 18| ≤ K / 2 ^ b := by
  obtain ⟨K, n, m, h⟩ := C94_formats exChange (fun _ => 0) (fun _ => 3) {"u"}
    (exChange_ends x (fun _ => 0) (fun _ => 3) rfl)
  refine ⟨K, n, m, fun b hb emax he ord vord ho hvo => ?_⟩
  obtain ⟨p, ν', k1, k2, k3⟩ := h b hb emax he ord (fun _ => vord) ho fun _ => hvo
  refine ⟨p, ν', k1, by simpa [setVal] using (k3 true).2, ?_⟩
  have e := exChange_slope x "u"
  simp only [if_true] at e
  have e2 : deriv (fun t => (3 + (Function.update x "u" t "u" - x "u")) *
      (3 + (Function.update x "u" t "u" - x "u")) * (18 : ℝ)) (x "u") = 6 * 18 := by
    rw [deriv_mul_const_field]
    exact congrArg (· * (18 : ℝ)) e
  have := ((k2 ()).2.2 "u" (by simp)).2
  rwa [e2] at this

/-- `C94_rate` for the same code: the seeds are any functions differentiable along the lines. -/
example (x : String → ℝ) (c : ℝ) : ∃ K w₀ B : ℝ, 0 < w₀ ∧ ∃ m : Nat, ∀ (α : Type) [CMath α] (w : Prec)
    (M : FinErr α w) (enc : ℝ → α) (ord : Order α) (ρ : SStore α Unit) (ν : Bool → α), ord.Ok →
    w.rel ≤ w₀ → w.abs ≤ w₀ → Set.Icc (-B) B ⊆ w.range → M.ExactCmp → (∀ s, M.Sound (enc s) s) →
    (∀ v, SWF (ρ v) ∧ SWithin M.Sound Set.univ (fun _ => c) x (ρ v)) → (∀ t, M.Sound (ν t) 3) →
    ∃ p ν', (∀ j ≥ m, (exChange.map (SMCall.map enc) (Answer.map M.val)).run (smixLibrary α Unit Bool) j
        0 ((ord, ρ), ν) = some (.ok 6, p, ν')) ∧
      |M.val (ν' true) - 18| ≤ K * (w.rel + w.abs) := by
  obtain ⟨K, w₀, B, h0, m, h⟩ := C94_rate exChange ∅
    (fun v k => differentiableAt_const _) (exChange_ends x (fun _ => c) (fun _ => 3) rfl)
  refine ⟨K, w₀, B, h0, m, fun α _ w M enc ord ρ ν a1 a2 a3 a4 a5 a6 a7 a8 => ?_⟩
  obtain ⟨p, ν', k1, _, k3⟩ := h α w M enc ord ρ ν a1 a2 a3 a4 a5 a6 a7 a8
  exact ⟨p, ν', k1, by simpa [setVal] using (k3 true).2⟩

end HJ
