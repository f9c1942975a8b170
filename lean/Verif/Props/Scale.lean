import Verif.Proofs.Scale
import Verif.Props.Block
import Verif.Props.SDense

/-!
# C92: scaled seeds give scaled derivatives
-/

namespace HJ

variable {α V Q : Type} {c : Cfg} {n : Nat} {σ : Nat → α → α}

section
variable [CMath α]

/-- **C92, expressions.** -/
theorem C92_expressions (hσ : Scales σ) (hv : c.Valid) (hf : c.tsize = -1 ∨ c.tsize = n) {ρ ρ' : V → DD α}
    (h : ∀ v, ScaledBy c n σ (ρ v) (ρ' v)) (e : Expr α V) :
    ∃ r r', e.evalDD c n ρ = .ok r ∧ e.evalDD c n ρ' = .ok r' ∧ ScaledBy c n σ r r' := by
  choose a a' h1 h2 h3 using fun v => (h v).contents hv.order
  obtain rfl : ρ = fun v => obj c n (a v) := funext h1
  obtain rfl : ρ' = fun v => obj c n (a' v) := funext h2
  exact ⟨_, _, evalDD_obj hv.order hf a e, evalDD_obj hv.order hf a' e,
    (Expr.scaleC hσ h3 e).scaled hσ hv.order hf⟩

/-- Comparisons look at the values only. -/
theorem Cond.run_scaleC (hσ : Scales σ) (hv : c.Valid) (hf : Fits c n) {a a' : V → Nat → α}
    (h : ∀ v, ScaleC c n σ (a v) (a' v)) (b : Cond α V) :
    ∃ r, b.run c n (fun v => obj c n (a v)) = .ok r ∧ b.run c n (fun v => obj c n (a' v)) = .ok r := by
  have hev : ∀ e : Expr α V, e.evalC c n a' 0 = e.evalC c n a 0 := fun e => (Expr.scaleC hσ h e).f
  cases b <;> simp only [Cond.run, evalDD_obj hv.order hf, Res.ok_bind,
    DD.cmp, DD.cmpS, DD.sCmp, f_obj, hev] <;> exact ⟨_, rfl, rfl⟩

variable [DecidableEq V]

/-- **C92.**  Run client code that neither reads derivatives nor names variables by their index twice, the
second time with the derivatives of all jets in other units.  It goes through the same states, the values
are the same, and in the end all derivatives are those of the first run in the other units: bit for bit, in
every arithmetic in which the change of units is exact (`Scales`), with all operators and functions, in place
and with the same object on both sides too. -/
theorem C92_scaled (hσ : Scales σ) (hv : c.Valid) (hf : c.tsize = -1 ∨ c.tsize = n) (hn : 0 < n)
    (cl : Caller (Call α V) (Answer α) Q)
    (hcl : ∀ q k, cl.next q = some k → k.NoDerivs Stmt.NoIndex) (q : Q) (ρ ρ' : Store α V)
    (h : ∀ v, ScaledBy c n σ (ρ v) (ρ' v)) (j : Nat) :
    (cl.run (ddLibrary α V c n) j q ρ = none ∧ cl.run (ddLibrary α V c n) j q ρ' = none) ∨
    ∃ q' r r', cl.run (ddLibrary α V c n) j q ρ = some (.ok q', r) ∧
      cl.run (ddLibrary α V c n) j q ρ' = some (.ok q', r') ∧ ∀ v, ScaledBy c n σ (r v) (r' v) := by
  have hstart : ∃ a a' : V → Nat → α, ρ = (fun v => obj c n (a v)) ∧ ρ' = (fun v => obj c n (a' v)) ∧
      ∀ v, ScaleC c n σ (a v) (a' v) := by
    choose a a' h1 h2 h3 using fun v => (h v).contents hv.order
    exact ⟨a, a', funext h1, funext h2, h3⟩
  obtain h | ⟨q', r, r', h1, h2, a, a', rfl, rfl, h3⟩ := Caller.lockstep (cl := cl)
    (L := ddLibrary α V c n) (L' := ddLibrary α V c n)
    (Rel := fun ρ ρ' => ∃ a a' : V → Nat → α, ρ = (fun v => obj c n (a v)) ∧
      ρ' = (fun v => obj c n (a' v)) ∧ ∀ v, ScaleC c n σ (a v) (a' v))
    (P := fun k => k.NoDerivs Stmt.NoIndex)
    (by
      rintro k _ _ hk ⟨a, a', rfl, rfl, hp⟩
      cases k with
      | act k =>
        exact ⟨.done, _, _, by simp only [ddLibrary, Stmt.run_cells hv hf a k (hk.plain hn), Answer.of],
          by simp only [ddLibrary, Stmt.run_cells hv hf a' k (hk.plain hn), Answer.of], _, _, rfl, rfl,
          Stmt.scaleC hσ hp k hk⟩
      | ask b =>
        obtain ⟨r, hr, hr'⟩ := Cond.run_scaleC hσ hv hf hp b
        exact ⟨.truth r, _, _, by simp only [ddLibrary, hr, Answer.of],
          by simp only [ddLibrary, hr', Answer.of], _, _, rfl, rfl, hp⟩
      | f v =>
        exact ⟨.number (a v 0), _, _, by simp only [ddLibrary, f_obj, Answer.of],
          by simp only [ddLibrary, f_obj, Answer.of, (hp v).f], _, _, rfl, rfl, hp⟩
      | g v i => exact hk.elim
      | h v i j => exact hk.elim) hcl j q hstart
  · exact Or.inl h
  · exact Or.inr ⟨q', _, _, h1, h2, fun v => (h3 v).scaled hσ hv.order hf⟩

end

/-- **C92, where to start.**  A constant is the same in all units; an independent variable in another unit is
`variable(i, x)` followed by `set_g(i, ...)` with 1 in the other unit. -/
theorem C92_seeds [Arith α] (hσ : Scales σ) (hv : c.Valid) (hf : c.tsize = -1 ∨ c.tsize = n) (x : α) :
    (∃ y, DD.constant c x n = .ok y ∧ ScaledBy c n σ y y) ∧
    ∀ i : Nat, i < n → ∃ y y', DD.var c i x n = .ok y ∧ y.setG c i (σ i (Arith.lit 1)) = .ok y' ∧
      ScaledBy c n σ y y' := by
  refine ⟨⟨_, constant_obj hf x, (ScaleC.const hσ x).scaled hσ hv.order hf⟩, fun i hi =>
    ⟨_, _, var_obj hf hi x, setG_obj hf _ hi _, ScaleC.scaled hσ hv.order hf
      ⟨if_neg (by omega), fun k hk => ?_, fun h2 a b hab hb => ?_⟩⟩⟩
  · by_cases h : k = i
    · subst h; simp [varC]
    · have h' : ¬ 1 + k = 1 + i := by omega
      simp [varC, h, hσ.zero]
  · have h1 : ¬ pos n a b = 1 + i := by
      have := pos_gt n a b
      omega
    simp only [varC, pos_ne_zero', h1, if_false, hσ.zero]

/-! ## Changes of units that are exact -/

/-- In exact arithmetic every factor will do. -/
theorem scales_real {ι : Type} (t : ι → ℝ) : Scales (fun i (x : ℝ) => t i * x) where
  zero i := by simp [Arith.lit]
  add i x y := mul_add _ _ _
  sub i x y := mul_sub _ _ _
  neg i x := mul_neg _ _
  mulL i x y := (mul_assoc _ _ _).symm
  mulR i x y := mul_left_comm _ _ _
  comm i j x := mul_left_comm _ _ _

theorem roundEven_neg (x : ℝ) : roundEven (-x) = -roundEven x := by
  have hfl : ∀ (y : ℝ) (k : ℤ), (k : ℝ) ≤ y → y < k + 1 → ⌊y⌋ = k := fun y k h1 h2 =>
    Int.floor_eq_iff.2 ⟨h1, h2⟩
  have hrd : ∀ (y : ℝ) (k : ℤ), (k : ℝ) - 1 / 2 ≤ y → y < k + 1 / 2 → round y = k := fun y k h1 h2 => by
    rw [round_eq]
    exact hfl _ _ (by linarith) (by linarith)
  have h0 := Int.floor_add_fract x
  have h1 := Int.fract_nonneg x
  have h2 := Int.fract_lt_one x
  set k := ⌊x⌋ with hk
  unfold roundEven
  by_cases h : Int.fract x = 1 / 2
  · have f1 : ⌊-x⌋ = -(k + 1) := hfl _ _ (by push_cast; linarith) (by push_cast; linarith)
    have f2 : Int.fract (-x) = 1 / 2 := by
      rw [Int.fract, f1]
      push_cast
      linarith
    have f3 : Even (-(k + 1)) ↔ ¬ Even k := by rw [even_neg, Int.even_add_one]
    rw [f1, f2, h, ← hk]
    by_cases he : Even k
    · rw [if_neg (fun h' => f3.1 h'.2 he), if_pos ⟨rfl, he⟩]
      exact hrd _ _ (by push_cast; linarith) (by push_cast; linarith)
    · rw [if_pos ⟨rfl, f3.2 he⟩, if_neg (by simp [he]), hrd x (k + 1) (by push_cast; linarith)
        (by push_cast; linarith)]
  · have hx : ¬ Int.fract (-x) = 1 / 2 := fun h' => h (by
      have h3 := Int.floor_add_fract (-x)
      have h4 : x = ((-⌊-x⌋ - 1 : ℤ) : ℝ) + 1 / 2 := by
        push_cast
        linarith
      rw [h4, Int.fract_intCast_add]
      norm_num [Int.fract])
    rw [if_neg (fun h' => hx h'.1), if_neg (fun h' => h h'.1)]
    obtain hlt | hlt := lt_or_gt_of_ne h
    · rw [hrd x k (by linarith) (by linarith), hrd (-x) (-k) (by push_cast; linarith)
        (by push_cast; linarith)]
    · rw [hrd x (k + 1) (by push_cast; linarith) (by push_cast; linarith),
        hrd (-x) (-(k + 1)) (by push_cast; linarith) (by push_cast; linarith)]

section formats
variable {p emax : Nat}

theorem rndFmt_neg (x : ℝ) : rndFmt p emax (-x) = -rndFmt p emax x := by
  unfold rndFmt
  rw [abs_neg, neg_div, roundEven_neg]
  push_cast
  ring

theorem toFmt_neg (x : XReal) : toFmt p emax (-ₛ x) = -ₛ toFmt p emax x := by
  cases x with
  | num x =>
    show toFmt p emax (.num (-x)) = _
    rw [toFmt_num, toFmt_num, rndFmt_neg, abs_neg]
    split
    · rfl
    · rename_i h
      have hx : x ≠ 0 := by
        rintro rfl
        apply h
        have h0 : rndFmt p emax 0 = 0 := by simp [rndFmt, roundEven_zero]
        rw [h0, abs_zero]
        positivity
      show XReal.inf (decide (-x < 0)) = .inf !(decide (x < 0))
      congr 1
      obtain h | h := lt_or_gt_of_ne hx
      · simp [h, h.le]
      · simp [h, h.le]
  | inf s => rfl
  | nan => rfl

theorem xreal_neg_add (x y : XReal) : -ₛ (x +ₛ y) = -ₛ x +ₛ -ₛ y := by
  show (x.add y).neg = x.neg.add y.neg
  cases x with
  | num x => cases y <;> simp [XReal.add, XReal.neg, add_comm]
  | inf s => cases y with
    | inf t => cases s <;> cases t <;> rfl
    | _ => rfl
  | nan => rfl

theorem xreal_neg_mul (x y : XReal) : -ₛ (x *ₛ y) = -ₛ x *ₛ y := by
  have h : ∀ (x : ℝ) s, (XReal.mulInf x s).neg = XReal.mulInf (-x) s := by
    intro x s
    unfold XReal.mulInf
    rcases lt_trichotomy x 0 with h | h | h
    · simp [h, h.ne, XReal.neg, not_lt.2 (neg_nonneg.2 h.le)]
    · simp [h, XReal.neg]
    · simp [h, h.ne', XReal.neg, not_lt.2 h.le]
  have h' : ∀ (x : ℝ) s, (XReal.mulInf x s).neg = XReal.mulInf x !s := by
    intro x s
    unfold XReal.mulInf
    rcases lt_trichotomy x 0 with h | h | h
    · simp [h, h.ne, XReal.neg]
    · simp [h, XReal.neg]
    · simp [h.ne', XReal.neg, not_lt.2 h.le]
  show (x.mul y).neg = x.neg.mul y
  cases x with
  | num x => cases y with
    | num y => simp [XReal.mul, XReal.neg]
    | inf s => exact h x s
    | nan => rfl
  | inf s => cases y with
    | num y => exact h' y s
    | inf t => cases s <;> cases t <;> rfl
    | nan => rfl
  | nan => rfl

/-- In every binary format changing the sign is exact, also if results overflow or underflow. -/
theorem scales_ieee {ι : Type} (s : ι → Bool) : Scales (flip (α := IEEE p emax) s) := by
  have add : ∀ x y : IEEE p emax, -ₛ (x +ₛ y) = -ₛ x +ₛ -ₛ y := fun x y => IEEE.ext
    ((toFmt_neg _).symm.trans (congrArg (toFmt p emax) (xreal_neg_add x.val y.val)))
  have mul : ∀ x y : IEEE p emax, -ₛ (x *ₛ y) = -ₛ x *ₛ y := fun x y => IEEE.ext
    ((toFmt_neg _).symm.trans (congrArg (toFmt p emax) (xreal_neg_mul x.val y.val)))
  have mulc : ∀ x y : IEEE p emax, x *ₛ y = y *ₛ x := fun x y =>
    IEEE.ext (congrArg (toFmt p emax) (xreal_comm.mul_comm x.val y.val))
  have sub : ∀ x y : IEEE p emax, -ₛ (x -ₛ y) = -ₛ x -ₛ -ₛ y := fun x y => add x (-ₛ y)
  have zero : -ₛ (Arith.lit 0 : IEEE p emax) = Arith.lit 0 := by
    rw [fmt_lit_zero]
    exact IEEE.ext (congrArg XReal.num neg_zero)
  refine ⟨fun i => ?_, fun i x y => ?_, fun i x y => ?_, fun i x => ?_, fun i x y => ?_, fun i x y => ?_,
    fun i j x => ?_⟩ <;> unfold flip <;> cases s i <;> simp only [Bool.false_eq_true, if_false, if_true]
  · exact zero
  · exact add x y
  · exact sub x y
  · exact mul x y
  · rw [mulc, mul, mulc]
  · cases s j <;> simp

end formats

theorem log_zpow_mul (k : ℤ) {x : ℝ} (hx : x ≠ 0) : Int.log 2 |2 ^ k * x| = k + Int.log 2 |x| := by
  have hpos : 0 < |x| := abs_pos.2 hx
  have e : |2 ^ k * x| = 2 ^ k * |x| := by rw [abs_mul, abs_of_pos (by positivity : (0 : ℝ) < 2 ^ k)]
  have key : ∀ m : ℤ, m ≤ Int.log 2 |2 ^ k * x| ↔ m ≤ k + Int.log 2 |x| := by
    intro m
    have h1 := Int.zpow_le_iff_le_log (b := 2) (by norm_num) (x := m) (r := |2 ^ k * x|)
      (abs_pos.2 (mul_ne_zero (by positivity) hx))
    have h2 := Int.zpow_le_iff_le_log (b := 2) (by norm_num) (x := m - k) (r := |x|) hpos
    rw [← h1, e, ← sub_le_iff_le_add', ← h2, Nat.cast_ofNat, zpow_sub₀ (by norm_num), div_le_iff₀
      (by positivity), mul_comm]
  exact le_antisymm ((key _).1 le_rfl) ((key _).2 le_rfl)

theorem rndEven_zpow_mul (p : Nat) (k : ℤ) (x : ℝ) : rndEven p (2 ^ k * x) = 2 ^ k * rndEven p x := by
  by_cases hx : x = 0
  · simp [hx, rndEven, roundEven_zero]
  unfold rndEven
  rw [log_zpow_mul k hx, show k + Int.log 2 |x| + 1 - p = k + (Int.log 2 |x| + 1 - p) by omega,
    zpow_add₀ (by norm_num), mul_div_mul_left _ _ (by positivity)]
  ring

/-- Powers of two are exact factors if numbers are rounded to any precision, as long as nothing overflows or
underflows. -/
theorem scales_units {ι : Type} (p : Nat) (k : ι → ℤ) : Scales (unitTwo (rnd := rndEven p) k) := by
  have ext : ∀ (i : ι) (x y : ℝ), 2 ^ k i * x = y →
      (⟨2 ^ k i * rndEven p x⟩ : Flt (rndEven p)) = ⟨rndEven p y⟩ := fun i x y h => by
    rw [← h, rndEven_zpow_mul]
  refine ⟨fun i => ?_, fun i x y => ext i _ _ (mul_add _ _ _), fun i x y => ext i _ _ (mul_sub _ _ _),
    fun i x => Flt.ext (mul_neg _ _), fun i x y => ext i _ _ (mul_assoc _ _ _).symm,
    fun i x y => ext i _ _ (mul_left_comm _ _ _), fun i j x => Flt.ext (mul_left_comm _ _ _)⟩
  refine Flt.ext ?_
  show (2 : ℝ) ^ k i * rndEven p ((0 : ℤ) : ℝ) = rndEven p ((0 : ℤ) : ℝ)
  simp [rndEven, roundEven_zero]

/-- **C92, where it ends.**  In a format, other units are exact only as long as nothing underflows (or
overflows): half of the derivative 1 is 1/2, half of the smallest positive number is 0. -/
theorem C92_violated_underflow {p emax : Nat} (hp : 2 ≤ p) (he : 1 ≤ emax) :
    ∃ x x' r r' : DD (IEEE p emax), WF exDyn1 1 x ∧ WF exDyn1 1 x' ∧ x.f = x'.f ∧
      x.g exDyn1 0 = .ok ⟨.num 1⟩ ∧ x'.g exDyn1 0 = .ok ⟨.num (2 ^ (2 - emax - p : ℤ))⟩ ∧
      x.mulS exDyn1 ⟨.num (2 ^ (-1 : ℤ))⟩ = .ok r ∧ x'.mulS exDyn1 ⟨.num (2 ^ (-1 : ℤ))⟩ = .ok r' ∧
      r.g exDyn1 0 = .ok ⟨.num (2 ^ (-1 : ℤ))⟩ ∧ r'.g exDyn1 0 = .ok ⟨.num 0⟩ := by
  have hf : Fits exDyn1 1 := Or.inl rfl
  have g : ∀ a : Nat → IEEE p emax, (obj exDyn1 1 a).g exDyn1 0 = .ok (a 1) := fun a =>
    g_obj (i := 0) hf a (by norm_num)
  refine ⟨obj exDyn1 1 (fun _ => ⟨.num 1⟩),
    obj exDyn1 1 (fun k => if k = 0 then ⟨.num 1⟩ else ⟨.num (2 ^ (2 - emax - p : ℤ))⟩), _, _,
    wf_obj exDyn1_valid.order hf _, wf_obj exDyn1_valid.order hf _, by rw [f_obj, f_obj]; rfl, g _, g _,
    mulS_obj hf _ _, mulS_obj hf _ _, ?_, ?_⟩
  · rw [g]
    show Res.ok (⟨toFmt p emax (.num (1 * 2 ^ (-1 : ℤ)))⟩ : IEEE p emax) = _
    rw [one_mul, toFmt_zpow (by omega) (by omega) (by omega)]
  · rw [g]
    show Res.ok (⟨toFmt p emax (.num (2 ^ (2 - emax - p : ℤ) * 2 ^ (-1 : ℤ)))⟩ : IEEE p emax) = _
    have h : rndFmt p emax (2 ^ (2 - emax - p : ℤ) * 2 ^ (-1 : ℤ)) = 0 := by
      rw [← zpow_add₀ (by norm_num)]
      unfold rndFmt
      rw [log_two_zpow, ← zpow_sub₀ (by norm_num), max_eq_right (by omega),
        show (2 - emax - p + -1 - (1 - emax + 1 - p) : ℤ) = -1 by ring]
      have : roundEven ((2 : ℝ) ^ (-1 : ℤ)) = 0 := by
        have h1 : ⌊(2 : ℝ) ^ (-1 : ℤ)⌋ = 0 := Int.floor_eq_iff.2 ⟨by norm_num, by norm_num⟩
        unfold roundEven
        rw [if_pos ⟨by rw [Int.fract, h1]; norm_num, by rw [h1]; exact Even.zero⟩, h1]
      rw [this, Int.cast_zero, zero_mul]
    rw [toFmt_num, h, if_pos (by rw [abs_zero]; positivity)]

/-! ## Examples -/

/-- Binary powering in `double` of a jet with any gradient, and with the signs of the second variable
reversed: the mixed second derivative changes its sign, the pure ones do not. -/
example (N j : Nat) (x y : IEEE 53 1023) :
    ((exPowers (IEEE 53 1023)).run (ddLibrary (IEEE 53 1023) (Fin 2) exDyn2 2) j N
        ![obj exDyn2 2 (exSlope x y), obj exDyn2 2 (constC (Arith.lit 1))] = none ∧
      (exPowers (IEEE 53 1023)).run (ddLibrary (IEEE 53 1023) (Fin 2) exDyn2 2) j N
        ![obj exDyn2 2 (exSlope x (-ₛ y)), obj exDyn2 2 (constC (Arith.lit 1))] = none) ∨
    ∃ q' r r', (exPowers (IEEE 53 1023)).run (ddLibrary (IEEE 53 1023) (Fin 2) exDyn2 2) j N
        ![obj exDyn2 2 (exSlope x y), obj exDyn2 2 (constC (Arith.lit 1))] = some (.ok q', r) ∧
      (exPowers (IEEE 53 1023)).run (ddLibrary (IEEE 53 1023) (Fin 2) exDyn2 2) j N
        ![obj exDyn2 2 (exSlope x (-ₛ y)), obj exDyn2 2 (constC (Arith.lit 1))] = some (.ok q', r') ∧
      ∀ v, (∃ u, (r v).h exDyn2 0 1 = .ok u ∧ (r' v).h exDyn2 0 1 = .ok (-ₛ u)) ∧
        ∃ u, (r v).h exDyn2 1 1 = .ok u ∧ (r' v).h exDyn2 1 1 = .ok (-ₛ -ₛ u) := by
  have hσ := scales_ieee (p := 53) (emax := 1023) (fun i => i == 1)
  have hf : Fits exDyn2 2 := Or.inl rfl
  obtain h | ⟨q', r, r', h1, h2, h3⟩ := C92_scaled hσ exDyn2_valid hf (by norm_num) (exPowers (IEEE 53 1023))
    (fun q k hk => by
      simp only [exPowers] at hk
      split at hk
      · cases hk
      · split at hk <;> cases hk <;> trivial) N
    ![obj exDyn2 2 (exSlope x y), obj exDyn2 2 (constC (Arith.lit 1))]
    ![obj exDyn2 2 (exSlope x (-ₛ y)), obj exDyn2 2 (constC (Arith.lit 1))] (fun v => by
      match v with
      | 0 =>
        refine ScaleC.scaled hσ exDyn2_valid.order hf ⟨rfl, fun i hi => ?_, fun _ i k hik hk => ?_⟩
        · interval_cases i <;> rfl
        · have : ∀ m, 3 ≤ m → ∀ z : IEEE 53 1023, exSlope x z m = Arith.lit 0 := fun m hm z => by
            match m, hm with
            | m + 3, _ => rfl
          have hp := pos_gt 2 i k
          rw [this _ (by omega), this _ (by omega), hσ.zero, hσ.zero]
      | 1 => exact (ScaleC.const hσ _).scaled hσ exDyn2_valid.order hf) j
  · exact Or.inl h
  · exact Or.inr ⟨q', r, r', h1, h2, fun v => ⟨(h3 v).h rfl 0 1 (by norm_num) (by norm_num),
      (h3 v).h rfl 1 1 (by norm_num) (by norm_num)⟩⟩

/-- `sin(x y)` with lengths in metres and in units of `2^-10` metres, rounded to 53 bits. -/
example (x y : Flt (rndEven 53)) :
    ∃ ρ ρ' : Fin 2 → DD (Flt (rndEven 53)), (∀ v, ScaledBy exDyn2 2 (unitTwo fun _ => 10) (ρ v) (ρ' v)) ∧
      DD.var exDyn2 0 x 2 = .ok (ρ 0) ∧ ∃ r r',
        (.fn .sin (.bin .mul (.var 0) (.var 1)) : Expr _ (Fin 2)).evalDD exDyn2 2 ρ = .ok r ∧
        (.fn .sin (.bin .mul (.var 0) (.var 1)) : Expr _ (Fin 2)).evalDD exDyn2 2 ρ' = .ok r' ∧
        ScaledBy exDyn2 2 (unitTwo fun _ => 10) r r' := by
  have hσ := scales_units 53 (fun _ : Nat => 10)
  obtain ⟨a, a', h1, h2, h3⟩ := (C92_seeds hσ exDyn2_valid (n := 2) (Or.inl rfl) x).2 0 (by norm_num)
  obtain ⟨b, b', h4, h5, h6⟩ := (C92_seeds hσ exDyn2_valid (n := 2) (Or.inl rfl) y).2 1 (by norm_num)
  have h : ∀ v : Fin 2, ScaledBy exDyn2 2 (unitTwo fun _ => 10) (![a, b] v) (![a', b'] v) := fun v => by
    match v with
    | 0 => exact h3
    | 1 => exact h6
  exact ⟨![a, b], ![a', b'], h, h1, C92_expressions hσ exDyn2_valid (Or.inl rfl) h _⟩

/-- Degrees and radians in exact arithmetic. -/
example : Scales (fun (_ : Nat) (x : ℝ) => Real.pi / 180 * x) := scales_real fun _ => Real.pi / 180

/-- `double`. -/
example : ∃ x x' r r' : DD (IEEE 53 1023), WF exDyn1 1 x ∧ WF exDyn1 1 x' ∧ x.f = x'.f ∧
    x.g exDyn1 0 = .ok ⟨.num 1⟩ ∧ x'.g exDyn1 0 = .ok ⟨.num (2 ^ (2 - (1023 : Nat) - (53 : Nat) : ℤ))⟩ ∧
    x.mulS exDyn1 ⟨.num (2 ^ (-1 : ℤ))⟩ = .ok r ∧ x'.mulS exDyn1 ⟨.num (2 ^ (-1 : ℤ))⟩ = .ok r' ∧
    r.g exDyn1 0 = .ok ⟨.num (2 ^ (-1 : ℤ))⟩ ∧ r'.g exDyn1 0 = .ok ⟨.num 0⟩ :=
  C92_violated_underflow (by norm_num) (by norm_num)

end HJ
