import Verif.Props.Algebra
import Verif.Props.Calculus
import Verif.Props.Sparse
import Verif.Spec.Plain
import Verif.Proofs.Round

/-!
# C51: the value of a jet is the value of the formula
-/

namespace HJ

open DD

variable {α V : Type}

theorem Fn.coef_plain [CMath α] (φ : Fn α) (x : α) : (φ.coef x).f = φ.plain x := by
  cases φ <;> rfl

theorem Fn.coefS_plain [CMath α] (φ : Fn α) (x : α) : (φ.coefS x).1 = φ.plain x := by
  cases φ <;> rfl

theorem evalC_plain [CMath α] (hl : CommLaws α) (c : Cfg) (n : Nat) (a : V → Nat → α)
    (e : Expr α V) : e.evalC c n a 0 = e.plain recipDiv fun v => a v 0 := by
  induction e with
  | var v => rfl
  | const s => rfl
  | neg e ih => simp only [Expr.evalC, Expr.plain, ih]
  | abs e ih => simp only [Expr.evalC, Expr.plain, absC, ih]
  | fn φ e ih => simp only [Expr.evalC, Expr.plain, Fn.runC, uFin_zero, Fn.coef_plain, ih]
  | bin o e₁ e₂ ih₁ ih₂ =>
    simp only [Expr.evalC, Expr.plain, ← ih₁, ← ih₂]
    cases o <;> simp only [Bin.runC, Bin.plain, mulC, divC, atan2C, hypotC, bin5, bFin_zero,
      recipDiv] <;> rfl
  | sbin o e s ih =>
    simp only [Expr.evalC, Expr.plain, ← ih]
    cases o
    · rfl
    · exact hl.add_comm _ _
    · exact hl.add_neg _ _
    · exact (hl.add_comm _ _).trans (hl.add_neg _ _)
    · rfl
    · exact hl.mul_comm _ _
    · rfl
    · exact uFin_zero _ _ _ _
  | hypot3 e₁ e₂ e₃ ih₁ ih₂ ih₃ =>
    simp only [Expr.evalC, Expr.plain, ← ih₁, ← ih₂, ← ih₃, hypot3C, bFin_zero]

theorem evalV_plain [CMath α] (hl : CommLaws α) (σ : V → SVal α) (e : Expr α V) :
    (e.evalV σ).1 = e.plain recipDiv fun v => (σ v).1 := by
  induction e with
  | var v => rfl
  | const s => rfl
  | neg e ih => simp only [Expr.evalV, Expr.plain, ← ih]; rfl
  | abs e ih =>
    simp only [Expr.evalV, Expr.plain, ← ih]
    split <;> rfl
  | fn φ e ih => simp only [Expr.evalV, Expr.plain, ← ih, ← Fn.coefS_plain]; rfl
  | bin o e₁ e₂ ih₁ ih₂ =>
    simp only [Expr.evalV, Expr.plain, ← ih₁, ← ih₂]
    cases o <;> rfl
  | sbin o e s ih =>
    simp only [Expr.evalV, Expr.plain, ← ih]
    cases o
    · rfl
    · exact hl.add_comm _ _
    · exact hl.add_neg _ _
    · exact (hl.add_comm _ _).trans (hl.add_neg _ _)
    · rfl
    · exact hl.mul_comm _ _
    · rfl
    · rfl
  | hypot3 e₁ e₂ e₃ ih₁ ih₂ ih₃ =>
    simp only [Expr.evalV, Expr.plain, ← ih₁, ← ih₂, ← ih₃]; rfl

theorem Expr.plain_noDiv [CMath α] (d d' : α → α → α) (p : V → α) (e : Expr α V) (h : e.NoDiv) :
    e.plain d p = e.plain d' p := by
  induction e with
  | var v => rfl
  | const s => rfl
  | neg e ih => simp only [Expr.plain, ih h]
  | abs e ih => simp only [Expr.plain, ih h]
  | fn φ e ih => simp only [Expr.plain, ih h]
  | bin o e₁ e₂ ih₁ ih₂ =>
    simp only [Expr.plain, ih₁ h.2.1, ih₂ h.2.2]
    have := h.1
    cases o <;> first | rfl | exact absurd rfl this
  | sbin o e s ih =>
    simp only [Expr.plain, ih h.2]
    have := h.1
    cases o <;> first | rfl | exact absurd rfl this
  | hypot3 e₁ e₂ e₃ ih₁ ih₂ ih₃ => simp only [Expr.plain, ih₁ h.1, ih₂ h.2.1, ih₃ h.2.2]

theorem Expr.plain_congr [CMath α] (d d' : α → α → α) (hd : ∀ x y, d x y = d' x y) (p : V → α)
    (e : Expr α V) : e.plain d p = e.plain d' p := by
  have : d = d' := funext fun x => funext fun y => hd x y
  rw [this]

/-- **C51, jets.**  The value component of a formula on jets is, operation for operation, the
formula on plain scalars, with `x / y` computed as `x * (1 / y)`.  Holds in every arithmetic whose
addition and multiplication commute, so in floating point too: no derivative leaks into a value. -/
theorem C51_value [CMath α] (hl : CommLaws α) {c : Cfg} (hv : c.Valid) {n : Nat} (ρ : V → DD α)
    (p : V → α) (hρ : ∀ v, WF c n (ρ v)) (hp : ∀ v, (ρ v).f = .ok (p v)) (hf : Fits c n)
    (e : Expr α V) : ∃ r, e.evalDD c n ρ = .ok r ∧ r.f = .ok (e.plain recipDiv p) := by
  choose _ a ha using fun v => (hρ v).eq_obj hv.order
  have h1 : ρ = fun v => obj c n (a v) := funext ha
  have h2 : p = fun v => a v 0 := by
    funext v
    have := hp v
    rw [ha v, f_obj] at this
    exact (Res.ok.inj this).symm
  refine ⟨_, by rw [h1]; exact evalDD_obj hv.order hf a e, ?_⟩
  rw [f_obj, evalC_plain hl, h2]

/-- **C51, jets, formulas without `x / y` and `x / s`.**  The value is exactly the one plain scalars
give. -/
theorem C51_value_no_division [CMath α] (hl : CommLaws α) {c : Cfg} (hv : c.Valid) {n : Nat}
    (ρ : V → DD α) (p : V → α) (hρ : ∀ v, WF c n (ρ v)) (hp : ∀ v, (ρ v).f = .ok (p v))
    (hf : Fits c n) (e : Expr α V) (he : e.NoDiv) :
    ∃ r, e.evalDD c n ρ = .ok r ∧ r.f = .ok (e.plain Arith.div p) := by
  obtain ⟨r, h1, h2⟩ := C51_value hl hv ρ p hρ hp hf e
  exact ⟨r, h1, by rw [h2, e.plain_noDiv _ Arith.div p he]⟩

/-- **C51, sparse scalars.** -/
theorem C51_sparse [CMath α] (hl : CommLaws α) {ord : Order α} (ho : ord.Ok) (ρ : V → SS α)
    (p : V → α) (hρ : ∀ v, SWF (ρ v)) (hp : ∀ v, (ρ v).f = .ok (p v)) (e : Expr α V) :
    ∃ r, e.evalSS ord ρ = .ok r ∧ r.f = .ok (e.plain recipDiv p) ∧
      (e.NoDiv → r.f = .ok (e.plain Arith.div p)) := by
  choose w hw using fun v => (hρ v).ex
  obtain ⟨r, h1, h2⟩ := evalSS_spec ho ρ (fun v => (w v, (ρ v).mD.find)) hw e
  have h3 : p = w := by
    funext v
    have := hp v
    rw [SS.f_ok (hw v)] at this
    exact (Res.ok.inj this).symm
  have h4 : r.f = .ok (e.plain recipDiv p) := by
    rw [SS.f_ok h2, evalV_plain hl, h3]
  exact ⟨r, h1, h4, fun he => by rw [h4, e.plain_noDiv _ Arith.div p he]⟩

/-- **C51, dense and sparse agree.**  The same formula on jets (of any order and size) and on sparse
scalars with equal values has equal values, bit for bit. -/
theorem C51_dense_sparse [CMath α] (hl : CommLaws α) {c : Cfg} (hv : c.Valid) {n : Nat}
    {ord : Order α} (ho : ord.Ok) (ρ : V → DD α) (σ : V → SS α) (p : V → α)
    (hρ : ∀ v, WF c n (ρ v)) (hp : ∀ v, (ρ v).f = .ok (p v)) (hσ : ∀ v, SWF (σ v))
    (hq : ∀ v, (σ v).f = .ok (p v)) (hf : Fits c n) (e : Expr α V) :
    ∃ r s y, e.evalDD c n ρ = .ok r ∧ e.evalSS ord σ = .ok s ∧ r.f = .ok y ∧ s.f = .ok y := by
  obtain ⟨r, h1, h2⟩ := C51_value hl hv ρ p hρ hp hf e
  obtain ⟨s, k1, k2, _⟩ := C51_sparse hl ho σ p hσ hq e
  exact ⟨r, s, _, h1, k1, h2, k2⟩

/-- Rounded arithmetic satisfies the laws, however ties are broken. -/
theorem rounded_comm (rnd : ℚ → ℚ) : CommLaws (Rounded rnd) where
  add_comm x y := by show (⟨rnd _⟩ : Rounded rnd) = ⟨rnd _⟩; rw [add_comm]
  mul_comm x y := by show (⟨rnd _⟩ : Rounded rnd) = ⟨rnd _⟩; rw [mul_comm]
  add_neg x y := by
    show (⟨rnd (x.val + -y.val)⟩ : Rounded rnd) = ⟨rnd (x.val - y.val)⟩
    rw [sub_eq_add_neg]

theorem xreal_comm : CommLaws XReal where
  add_comm x y := by
    show x.add y = y.add x
    cases x <;> cases y <;> simp only [XReal.add, add_comm]
    rename_i s t
    cases s <;> cases t <;> rfl
  mul_comm x y := by
    show x.mul y = y.mul x
    cases x <;> cases y <;> simp only [XReal.mul, mul_comm]
    rename_i s t
    cases s <;> cases t <;> rfl
  add_neg x y := rfl

theorem xreal_recipDiv (x y : XReal) : recipDiv x y = x ÷ₛ y := by
  show x.mul (XReal.div (.num ((1 : ℤ) : ℝ)) y) = x.div y
  cases x with
  | nan => cases y <;> simp only [XReal.div] <;> (try split) <;> rfl
  | num x =>
    cases y with
    | num y =>
      simp only [XReal.div]
      by_cases hy : y = 0
      · simp only [hy, if_true, Int.cast_one, one_ne_zero, if_false, not_lt.2 zero_le_one,
          XReal.mul, XReal.mulInf, Bool.not_false]
      · simp only [hy, if_false, XReal.mul, Int.cast_one, mul_one_div]
    | inf s => simp [XReal.div, XReal.mul]
    | nan => rfl
  | inf s =>
    cases y with
    | num y =>
      simp only [XReal.div]
      by_cases hy : y = 0
      · simp only [hy, if_true, Int.cast_one, one_ne_zero, if_false, not_lt.2 zero_le_one,
          XReal.mul, lt_irrefl]
        cases s <;> rfl
      · simp only [hy, if_false, XReal.mul, XReal.mulInf, Int.cast_one, one_div, inv_eq_zero,
          inv_lt_zero]
    | inf t => simp [XReal.div, XReal.mul, XReal.mulInf]
    | nan => rfl

/-- **C51, exact arithmetic.**  In exact real arithmetic (infinities and NaN included) the value of
every formula, divisions included, is the value with plain scalars, for jets and for sparse
scalars. -/
theorem C51_exact {c : Cfg} (hv : c.Valid) {n : Nat} {ord : Order XReal} (ho : ord.Ok)
    (ρ : V → DD XReal) (σ : V → SS XReal) (p : V → XReal) (hρ : ∀ v, WF c n (ρ v))
    (hp : ∀ v, (ρ v).f = .ok (p v)) (hσ : ∀ v, SWF (σ v)) (hq : ∀ v, (σ v).f = .ok (p v))
    (hf : Fits c n) (e : Expr XReal V) :
    (∃ r, e.evalDD c n ρ = .ok r ∧ r.f = .ok (e.plain Arith.div p)) ∧
    ∃ r, e.evalSS ord σ = .ok r ∧ r.f = .ok (e.plain Arith.div p) := by
  obtain ⟨r, h1, h2⟩ := C51_value xreal_comm hv ρ p hρ hp hf e
  obtain ⟨s, k1, k2, _⟩ := C51_sparse xreal_comm ho σ p hσ hq e
  have := e.plain_congr recipDiv Arith.div xreal_recipDiv p
  exact ⟨⟨r, h1, by rw [h2, this]⟩, s, k1, by rw [k2, this]⟩

/-- A second-order jet of one variable with value 3. -/
noncomputable def exPlain : DD XReal := ⟨1, [some (.num 3), some (.num 1), some (.num 5)]⟩
/-- A sparse scalar with value 3. -/
noncomputable def exPlainS : SS XReal := ⟨some (.num 3), [("a", .num 1), ("b", .num 5)]⟩

theorem exPlain_wf : WF exDyn2 1 exPlain := ⟨Or.inl rfl, rfl, rfl, by decide⟩
theorem exPlainS_wf : SWF exPlainS := ⟨by simp [exPlainS], by decide⟩

/-- `2 - x * hypot(x, exp(x))` -/
def exPlainE : Expr XReal Unit :=
  .sbin .sSub (.bin .mul (.var ()) (.bin .hypot (.var ()) (.fn .exp (.var ())))) (.num 2)

example : ∃ r, exPlainE.evalDD exDyn2 1 (fun _ => exPlain) = .ok r ∧
    r.f = .ok (.num 2 -ₛ .num 3 *ₛ CMath.hypot (.num 3) (CMath.exp (XReal.num 3))) :=
  C51_value_no_division xreal_comm exDyn2_valid _ (fun _ => .num 3) (fun _ => exPlain_wf)
    (fun _ => rfl) (Or.inl rfl) exPlainE (by simp [exPlainE, Expr.NoDiv])

example : ∃ r, (Expr.bin .div (.const (.num 7)) (.var ())).evalDD exDyn2 1 (fun _ => exPlain) = .ok r ∧
    r.f = .ok (.num 7 *ₛ (Arith.lit 1 ÷ₛ .num 3)) :=
  C51_value xreal_comm exDyn2_valid _ (fun _ => .num 3) (fun _ => exPlain_wf) (fun _ => rfl)
    (Or.inl rfl) (.bin .div (.const (.num 7)) (.var ()))

example : ∃ r, exPlainE.evalSS exRev (fun _ => exPlainS) = .ok r ∧
    r.f = .ok (.num 2 -ₛ .num 3 *ₛ CMath.hypot (.num 3) (CMath.exp (XReal.num 3))) := by
  obtain ⟨r, h1, _, h2⟩ := C51_sparse xreal_comm exRev_ok (fun _ => exPlainS) (fun _ => .num 3)
    (fun _ => exPlainS_wf) (fun _ => rfl) exPlainE
  exact ⟨r, h1, h2 (by simp [exPlainE, Expr.NoDiv])⟩

example : ∃ r s y, exPlainE.evalDD exDyn2 1 (fun _ => exPlain) = .ok r ∧
    exPlainE.evalSS exRev (fun _ => exPlainS) = .ok s ∧ r.f = .ok y ∧ s.f = .ok y :=
  C51_dense_sparse xreal_comm exDyn2_valid exRev_ok _ _ (fun _ => .num 3) (fun _ => exPlain_wf)
    (fun _ => rfl) (fun _ => exPlainS_wf) (fun _ => rfl) (Or.inl rfl) exPlainE

example : (∃ r, (Expr.bin .div (.var ()) (.const (.num 7))).evalDD exDyn2 1 (fun _ => exPlain) = .ok r ∧
      r.f = .ok (.num 3 ÷ₛ .num 7)) ∧
    ∃ r, (Expr.bin .div (.var ()) (.const (.num 7))).evalSS exRev (fun _ => exPlainS) = .ok r ∧
      r.f = .ok (.num 3 ÷ₛ .num 7) :=
  C51_exact exDyn2_valid exRev_ok _ _ (fun _ => .num 3) (fun _ => exPlain_wf) (fun _ => rfl)
    (fun _ => exPlainS_wf) (fun _ => rfl) (Or.inl rfl) (.bin .div (.var ()) (.const (.num 7)))

section rounding

variable {rnd : ℚ → ℚ}

theorem f49 {c : Cfg} (hv : c.Valid) {n : Nat} {x : DD (Rounded rnd)} (hx : WF c n x)
    {w : Rounded rnd} (h : x.f = .ok w) : ∃ a, x = obj c n a ∧ a 0 = w := by
  obtain ⟨_, a, rfl⟩ := hx.eq_obj hv.order
  rw [f_obj] at h
  exact ⟨a, rfl, Res.ok.inj h⟩

/-- **C51 is violated by divisions in floating point.**  For every rounding to nearest: dividing a
jet of value 49 by a jet of value 49 (or by the number 49) gives a jet of value `1 - 2⁻⁵³`, while
`49 / 49` is 1. -/
theorem C51_violated_division (hr : Nearest rnd) {c : Cfg} (hv : c.Valid) {n : Nat}
    {x y : DD (Rounded rnd)} (hx : WF c n x) (hy : WF c n y) (hxf : x.f = .ok ⟨49⟩)
    (hyf : y.f = .ok ⟨49⟩) :
    (⟨49⟩ : Rounded rnd) ÷ₛ ⟨49⟩ = ⟨1⟩ ∧
    (∃ r, x.div c y = .ok r ∧ r.f = .ok ⟨1 - 1 / 2 ^ 53⟩) ∧
    (∃ r, x.divS c ⟨49⟩ = .ok r ∧ r.f = .ok ⟨1 - 1 / 2 ^ 53⟩) := by
  obtain ⟨a, rfl, ha⟩ := f49 hv hx hxf
  obtain ⟨b, rfl, hb⟩ := f49 hv hy hyf
  have hf := hx.fits
  have hval : (⟨49⟩ : Rounded rnd) *ₛ (Arith.lit 1 ÷ₛ ⟨49⟩) = ⟨1 - 1 / 2 ^ 53⟩ := by
    show (⟨rnd (49 * rnd (rnd ((1 : ℤ) : ℚ) / 49))⟩ : Rounded rnd) = _
    rw [Int.cast_one, round_one hr, round_prod49 hr]
  refine ⟨?_, ⟨_, div_obj hv.order hf a b, ?_⟩, ⟨_, divS_obj hf a _, ?_⟩⟩
  · show (⟨rnd (49 / 49)⟩ : Rounded rnd) = _
    rw [show (49 / 49 : ℚ) = 1 by norm_num, round_one hr]
  · rw [f_obj, divC, bFin_zero, ha, hb, hval]
  · rw [f_obj, ha, hval]

/-- **C22 is violated by `/` and `/=` in floating point.**  For every rounding to nearest and
operands of value 49, `x / y` has the value `1 - 2⁻⁵³`, but `x /= y` leaves the value 1 in `x`. -/
theorem C22_violated_div_rounding (hr : Nearest rnd) {c : Cfg} (hv : c.Valid) {n : Nat}
    {x y : DD (Rounded rnd)} (hx : WF c n x) (hy : WF c n y) (hxf : x.f = .ok ⟨49⟩)
    (hyf : y.f = .ok ⟨49⟩) :
    (∃ r, x.div c y = .ok r ∧ r.f = .ok ⟨1 - 1 / 2 ^ 53⟩) ∧
    (∃ r, x.divAssign c (.obj y) = (.ok (), r) ∧ r.f = .ok ⟨1⟩) := by
  obtain ⟨h1, h2, _⟩ := C51_violated_division hr hv hx hy hxf hyf
  refine ⟨h2, ?_⟩
  obtain ⟨a, rfl, ha⟩ := f49 hv hx hxf
  obtain ⟨b, rfl, hb⟩ := f49 hv hy hyf
  exact ⟨_, divAssign_obj hv.order hx.fits a b, by rw [f_obj, divC, bFin_zero, ha, hb, h1]⟩

/-- The variable 49 as a second-order jet, in doubles. -/
def ex49 : DD (Rounded nearest) := ⟨1, [some ⟨49⟩, some ⟨1⟩, some ⟨0⟩]⟩

theorem ex49_wf : WF exDyn2 1 ex49 := ⟨Or.inl rfl, rfl, rfl, by decide⟩

example : (∃ r, ex49.div exDyn2 ex49 = .ok r ∧ r.f = .ok ⟨1 - 1 / 2 ^ 53⟩) ∧
    (∃ r, ex49.divAssign exDyn2 (.obj ex49) = (.ok (), r) ∧ r.f = .ok ⟨1⟩) :=
  C22_violated_div_rounding nearest_spec exDyn2_valid ex49_wf ex49_wf rfl rfl

example : ∃ r, ex49.divS exDyn2 ⟨49⟩ = .ok r ∧ r.f = .ok ⟨1 - 1 / 2 ^ 53⟩ :=
  (C51_violated_division nearest_spec exDyn2_valid ex49_wf ex49_wf rfl rfl).2.2

end rounding

end HJ
