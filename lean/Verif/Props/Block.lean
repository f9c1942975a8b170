import Verif.Proofs.Block
import Verif.Props.Caller
import Verif.Props.Watch
import Mathlib.Tactic.IntervalCases

/-!
# C89: derivatives with respect to different variables do not influence each other
-/

namespace HJ

variable {α V Q : Type} {c c' : Cfg} {n m : Nat} {s : Nat → Nat} {P : Nat → Prop}

section
variable [CMath α]

/-- **C89, expressions.**  Evaluating an expression on jets of `m` variables gives, bit for bit and in
every arithmetic, the value and the derivatives that evaluating it on jets of more variables gives for
the selected ones. -/
theorem C89_expressions (hv : c.Valid) (hv' : c'.Valid) (hs : Selects s m n) {ρ ρ' : V → DD α}
    (hf : c.tsize = -1 ∨ c.tsize = n) (hf' : c'.tsize = -1 ∨ c'.tsize = m)
    (h : ∀ v, Picks c c' n m s (ρ v) (ρ' v)) (e : Expr α V) :
    ∃ r r', e.evalDD c n ρ = .ok r ∧ e.evalDD c' m ρ' = .ok r' ∧ Picks c c' n m s r r' := by
  choose a a' h1 h2 h3 using fun v => (h v).contents hv.order hv'.order hs
  obtain rfl : ρ = fun v => obj c n (a v) := funext h1
  obtain rfl : ρ' = fun v => obj c' m (a' v) := funext h2
  exact ⟨_, _, evalDD_obj hv.order hf a e, evalDD_obj hv'.order hf' a' e,
    (Expr.pickC hs h3 e).picks hv.order hv'.order hf hf' hs⟩

/-- Comparisons look at the values only. -/
theorem Cond.run_pickC (hv : c.Valid) (hv' : c'.Valid) (hf : Fits c n) (hf' : Fits c' m)
    (hs : Selects s m n) {a a' : V → Nat → α} (h : ∀ v, PickC c c' n m s P (a v) (a' v)) (b : Cond α V) :
    ∃ r, b.run c n (fun v => obj c n (a v)) = .ok r ∧ b.run c' m (fun v => obj c' m (a' v)) = .ok r := by
  have hev : ∀ e : Expr α V, e.evalC c' m a' 0 = e.evalC c n a 0 := fun e => (Expr.pickC hs h e).f
  cases b <;> simp only [Cond.run, evalDD_obj hv.order hf, evalDD_obj hv'.order hf', Res.ok_bind,
    DD.cmp, DD.cmpS, DD.sCmp, f_obj, hev] <;> exact ⟨_, rfl, rfl⟩

omit [CMath α] in
theorem Stmt.NoIndex.plain {k : Stmt α V} (h : k.NoIndex) (hn : 0 < n) : k.Plain c n := by
  cases k with
  | updS o t x => cases x <;> simp_all [Stmt.NoIndex, Stmt.Plain]
  | _ => simp_all [Stmt.NoIndex, Stmt.Plain]

variable [DecidableEq V]

/-- **C89, blocks of variables.**  Run any client code that neither reads derivatives nor names variables
by their index on jets of `n` variables, and again on jets of `m` of these variables, possibly of another
type.  It goes through the same states, and in the end the jets of the second run have the values and
derivatives of the first run, bit for bit, in every arithmetic.  So all derivatives can be computed in
blocks of variables. -/
theorem C89_blocks (hv : c.Valid) (hv' : c'.Valid) (hs : Selects s m n) (hm : 0 < m)
    (hf : c.tsize = -1 ∨ c.tsize = n) (hf' : c'.tsize = -1 ∨ c'.tsize = m)
    (cl : Caller (Call α V) (Answer α) Q)
    (hcl : ∀ q k, cl.next q = some k → k.NoDerivs Stmt.NoIndex) (q : Q) (ρ ρ' : Store α V)
    (h : ∀ v, Picks c c' n m s (ρ v) (ρ' v)) (j : Nat) :
    (cl.run (ddLibrary α V c n) j q ρ = none ∧ cl.run (ddLibrary α V c' m) j q ρ' = none) ∨
    ∃ q' r r', cl.run (ddLibrary α V c n) j q ρ = some (.ok q', r) ∧
      cl.run (ddLibrary α V c' m) j q ρ' = some (.ok q', r') ∧
      ∀ v, Picks c c' n m s (r v) (r' v) := by
  have hn : 0 < n := lt_of_le_of_lt (Nat.zero_le _) (hs.lt 0 hm)
  have hstart : ∃ a a' : V → Nat → α, ρ = (fun v => obj c n (a v)) ∧ ρ' = (fun v => obj c' m (a' v)) ∧
      ∀ v, PickC c c' n m s (fun _ => True) (a v) (a' v) := by
    choose a a' h1 h2 h3 using fun v => (h v).contents hv.order hv'.order hs
    exact ⟨a, a', funext h1, funext h2, h3⟩
  obtain h | ⟨q', r, r', h1, h2, a, a', rfl, rfl, h3⟩ := Caller.lockstep (cl := cl)
    (L := ddLibrary α V c n) (L' := ddLibrary α V c' m)
    (Rel := fun ρ ρ' => ∃ a a' : V → Nat → α, ρ = (fun v => obj c n (a v)) ∧
      ρ' = (fun v => obj c' m (a' v)) ∧ ∀ v, PickC c c' n m s (fun _ => True) (a v) (a' v))
    (P := fun k => k.NoDerivs Stmt.NoIndex)
    (by
      rintro k _ _ hk ⟨a, a', rfl, rfl, hp⟩
      cases k with
      | act k =>
        exact ⟨.done, _, _, by simp only [ddLibrary, Stmt.run_cells hv hf a k (hk.plain hn), Answer.of],
          by simp only [ddLibrary, Stmt.run_cells hv' hf' a' k (hk.plain hm), Answer.of], _, _, rfl, rfl,
          Stmt.pickC hs hp k hk⟩
      | ask b =>
        obtain ⟨r, hr, hr'⟩ := Cond.run_pickC hv hv' hf hf' hs hp b
        exact ⟨.truth r, _, _, by simp only [ddLibrary, hr, Answer.of],
          by simp only [ddLibrary, hr', Answer.of], _, _, rfl, rfl, hp⟩
      | f v =>
        exact ⟨.number (a v 0), _, _, by simp only [ddLibrary, f_obj, Answer.of],
          by simp only [ddLibrary, f_obj, Answer.of, (hp v).f], _, _, rfl, rfl, hp⟩
      | g v i => exact hk.elim
      | h v i j => exact hk.elim) hcl j q hstart
  · exact Or.inl h
  · exact Or.inr ⟨q', _, _, h1, h2, fun v => (h3 v).picks hv.order hv'.order hf hf' hs⟩

omit [CMath α] in
theorem AgreeOn.contents (hc : c.order = 1 ∨ c.order = 2) {x y : DD α} (h : AgreeOn c n P x y) :
    ∃ a a', x = obj c n a ∧ y = obj c n a' ∧ PickC c c n n id P a a' := by
  obtain ⟨hf, a, rfl⟩ := h.wf.eq_obj hc
  obtain ⟨-, a', rfl⟩ := h.wf'.eq_obj hc
  refine ⟨a, a', rfl, rfl, ?_, fun i hi hp => ?_, fun h2 _ i j hij hj hp hq => ?_⟩
  · have := h.f
    rw [f_obj, f_obj] at this
    simpa using this
  · have := h.g i hi hp
    rw [g_obj hf a' hi, g_obj hf a hi] at this
    simpa using this
  · have := h.h h2 i j (by omega) hj hp hq
    rw [h_obj h2 hf a' hij hj, h_obj h2 hf a hij hj] at this
    simpa using this

omit [CMath α] in
theorem PickC.agree (hc : c.order = 1 ∨ c.order = 2) (hf : Fits c n) {a a' : Nat → α}
    (h : PickC c c n n id P a a') : AgreeOn c n P (obj c n a) (obj c n a') where
  wf := wf_obj hc hf a
  wf' := wf_obj hc hf a'
  f := by rw [f_obj, f_obj, h.f]
  g i hi hp := by rw [g_obj hf a' hi, g_obj hf a hi, h.g i hi hp]; rfl
  h h2 i j hi hj hp hq := by
    rcases le_total i j with hij | hij
    · rw [h_obj h2 hf a' hij hj, h_obj h2 hf a hij hj, h.h h2 h2 i j hij hj hp hq]; rfl
    · rw [h_obj_swap h2 hf a' hij hi, h_obj_swap h2 hf a hij hi, h.h h2 h2 j i hij hi hq hp]; rfl

theorem selects_id (n : Nat) : Selects id n n := ⟨fun _ h => h, fun _ _ h _ => h⟩

theorem Stmt.agreeC {a a' : V → Nat → α} (h : ∀ v, PickC c c n n id P (a v) (a' v)) (k : Stmt α V)
    (hk : k.Plain c n) (v : V) : PickC c c n n id P (k.cells c n a v) (k.cells c n a' v) := by
  have cell : ∀ (t : V) (k₀ : Nat) (x : α), PickC c c n n id P
      (fun k => if k = k₀ then x else a t k) (fun k => if k = k₀ then x else a' t k) := by
    intro t k₀ x
    refine ⟨?_, fun i hi hp => ?_, fun h2 h2' i j hij hj hp hq => ?_⟩
    · simp only [(h t).f]
    · have := (h t).g i hi hp
      simp only [id] at this ⊢
      rw [this]
    · have := (h t).h h2 h2' i j hij hj hp hq
      simp only [id] at this ⊢
      rw [this]
  cases k with
  | setG t i x => exact PickC.set h t (cell t _ x) v
  | setH t i j x => exact PickC.set h t (cell t _ x) v
  | updS o t x =>
    cases x with
    | cell k => exact hk.elim
    | val x => exact Stmt.pickC (selects_id n) h (.updS o t (.val x)) trivial v
  | assign t e => exact Stmt.pickC (selects_id n) h (.assign t e) trivial v
  | upd o t e => exact Stmt.pickC (selects_id n) h (.upd o t e) trivial v
  | setF t x => exact Stmt.pickC (selects_id n) h (.setF t x) trivial v
  | setZero t => exact Stmt.pickC (selects_id n) h (.setZero t) trivial v

/-- **C89, derivatives are local.**  Run client code on two families of jets with the same values and the
same derivatives with respect to the variables in `P`, whatever the other derivatives are (infinite or
NaN, for example).  If the code reads derivatives with respect to variables in `P` only, it goes through
the same states, and the resulting jets have the same values and the same derivatives with respect to
the variables in `P`, in every arithmetic. -/
theorem C89_local (hv : c.Valid) (hf : c.tsize = -1 ∨ c.tsize = n)
    (cl : Caller (Call α V) (Answer α) Q)
    (hcl : ∀ q k, cl.next q = some k → k.ReadsOnly (Stmt.Plain c n) P c.order n) (q : Q)
    (ρ ρ' : Store α V) (h : ∀ v, AgreeOn c n P (ρ v) (ρ' v)) (j : Nat) :
    (cl.run (ddLibrary α V c n) j q ρ = none ∧ cl.run (ddLibrary α V c n) j q ρ' = none) ∨
    ∃ q' r r', cl.run (ddLibrary α V c n) j q ρ = some (.ok q', r) ∧
      cl.run (ddLibrary α V c n) j q ρ' = some (.ok q', r') ∧ ∀ v, AgreeOn c n P (r v) (r' v) := by
  have hstart : ∃ a a' : V → Nat → α, ρ = (fun v => obj c n (a v)) ∧ ρ' = (fun v => obj c n (a' v)) ∧
      ∀ v, PickC c c n n id P (a v) (a' v) := by
    choose a a' h1 h2 h3 using fun v => (h v).contents hv.order
    exact ⟨a, a', funext h1, funext h2, h3⟩
  obtain h | ⟨q', r, r', h1, h2, a, a', rfl, rfl, h3⟩ := Caller.lockstep (cl := cl)
    (L := ddLibrary α V c n) (L' := ddLibrary α V c n)
    (Rel := fun ρ ρ' => ∃ a a' : V → Nat → α, ρ = (fun v => obj c n (a v)) ∧
      ρ' = (fun v => obj c n (a' v)) ∧ ∀ v, PickC c c n n id P (a v) (a' v))
    (P := fun k => k.ReadsOnly (Stmt.Plain c n) P c.order n)
    (by
      rintro k _ _ hk ⟨a, a', rfl, rfl, hp⟩
      cases k with
      | act k =>
        exact ⟨.done, _, _, by simp only [ddLibrary, Stmt.run_cells hv hf a k hk, Answer.of],
          by simp only [ddLibrary, Stmt.run_cells hv hf a' k hk, Answer.of], _, _, rfl, rfl,
          Stmt.agreeC hp k hk⟩
      | ask b =>
        obtain ⟨r, hr, hr'⟩ := Cond.run_pickC hv hv hf hf (selects_id n) hp b
        exact ⟨.truth r, _, _, by simp only [ddLibrary, hr, Answer.of],
          by simp only [ddLibrary, hr', Answer.of], _, _, rfl, rfl, hp⟩
      | f v =>
        exact ⟨.number (a v 0), _, _, by simp only [ddLibrary, f_obj, Answer.of],
          by simp only [ddLibrary, f_obj, Answer.of, (hp v).f], _, _, rfl, rfl, hp⟩
      | g v i =>
        obtain ⟨h0, hi, hP⟩ := hk
        obtain ⟨i, rfl⟩ : ∃ k : Nat, i = k := ⟨i.toNat, by omega⟩
        have hi' : i < n := by omega
        have := ((hp v).agree hv.order hf).g i hi' (by simpa using hP)
        exact ⟨.number (a v (1 + i)), _, _, by simp only [ddLibrary, g_obj hf _ hi', Answer.of],
          by simp only [ddLibrary, this, g_obj hf _ hi', Answer.of], _, _, rfl, rfl, hp⟩
      | h v i j =>
        obtain ⟨h2, ⟨h0, hi, hP⟩, h0', hj, hP'⟩ := hk
        obtain ⟨i, rfl⟩ : ∃ k : Nat, i = k := ⟨i.toNat, by omega⟩
        obtain ⟨j, rfl⟩ : ∃ k : Nat, j = k := ⟨j.toNat, by omega⟩
        have := ((hp v).agree hv.order hf).h h2 i j (by omega) (by omega) (by simpa using hP)
          (by simpa using hP')
        have hh := (shows_obj hv.order hf (a v)).h h2 i j (by omega) (by omega)
        exact ⟨.number _, _, _, by simp only [ddLibrary, hh, Answer.of]; rfl,
          by simp only [ddLibrary, this, hh, Answer.of], _, _, rfl, rfl, hp⟩) hcl j q hstart
  · exact Or.inl h
  · exact Or.inr ⟨q', _, _, h1, h2, fun v => (h3 v).agree hv.order hf⟩

end

/-- **C89, independent variables.**  The independent variable number `s j` of `n` becomes the variable number
`j` of `m`; a variable that is not selected becomes a constant. -/
theorem C89_variables [Arith α] (hv : c.Valid) (hv' : c'.Valid) (hs : Selects s m n)
    (hf : c.tsize = -1 ∨ c.tsize = n) (hf' : c'.tsize = -1 ∨ c'.tsize = m) {i : Nat} (hi : i < n)
      (x : α) :
    ∃ y, DD.var c i x n = .ok y ∧
      (∀ j < m, s j = i → ∃ y', DD.var c' j x m = .ok y' ∧ Picks c c' n m s y y') ∧
      ((∀ j < m, s j ≠ i) → ∃ y', DD.constant c' x m = .ok y' ∧ Picks c c' n m s y y') := by
  have hne : ∀ k a b : Nat, k < n → (pos n a b = 1 + k) = False := by
    intro k a b hk
    have := pos_gt n a b
    simp; omega
  have hne' : ∀ k a b : Nat, k < m → (pos m a b = 1 + k) = False := by
    intro k a b hk
    have := pos_gt m a b
    simp; omega
  refine
    ⟨_, var_obj hf hi x, fun j hj hij => ⟨_, var_obj hf' hj x, PickC.picks hv.order hv'.order hf hf' hs
    ⟨rfl, fun k hk _ => ?_, fun _ _ a b hab hb _ _ => ?_⟩⟩, fun hno => ⟨_, constant_obj hf' x,
    PickC.picks hv.order hv'.order hf hf' hs ⟨rfl, fun k hk _ => ?_, fun _ _ a b hab hb _ _ => ?_⟩⟩⟩
  · have : k = j ↔ s k = i := by
      constructor
      · rintro rfl; exact hij
      · intro h
        rcases lt_trichotomy k j with hkj | rfl | hkj
        · have := hs.mono k j hkj hj; omega
        · rfl
        · have := hs.mono j k hkj hk; omega
    simp [varC, this]
  · simp only [varC, pos_ne_zero', if_false, hne i _ _ hi, hne' j _ _ hj]
  · have := hno k hk
    simp [varC, constC, this]
  · simp only [varC, constC, pos_ne_zero', if_false, hne i _ _ hi]

/-! ## The numbering of the variables -/

/-- Contents of a jet of two variables with value 1, gradient `(x, y)` and Hessian 0. -/
def exSlope {α : Type} [Arith α] (x y : α) : Nat → α
  | 0 => Arith.lit 1
  | 1 => x
  | 2 => y
  | _ => Arith.lit 0

theorem fmt_two {p emax : Nat} (hp : 1 ≤ p) (he : 1 ≤ emax) : (Arith.lit 2 : IEEE p emax) =
    ⟨.num 2⟩ := by
  show (⟨toFmt p emax (.num ((2 : Int) : ℝ))⟩ : IEEE p emax) = _
  have := toFmt_zpow (emax := emax) hp (k := 1) (by omega) (by omega)
  rw [zpow_one] at this
  rw [Int.cast_ofNat, this]

/-- **C89, the order of the variables matters.**  In a format like `double`, `1 / x` for `x = 1` with the
gradient `(2^emax, 1/2)` has an infinite mixed second derivative; with the two variables exchanged the
mixed second derivative is `2^emax`, which is exact. -/
theorem C89_violated_order {p emax : Nat} (hp : 1 ≤ p) (he : 1 ≤ emax) :
    ∃ (x y : DD (IEEE p emax)) (J : Jet (IEEE p emax)),
      Shows exDyn2 2 x J ∧ Shows exDyn2 2 y ⟨J.f, fun i => J.g (1 - i), fun i j => J.h (1 - i) (1 - j)⟩ ∧
      ∃ r r', DD.sDiv exDyn2 (Arith.lit 1) x = .ok r ∧ DD.sDiv exDyn2 (Arith.lit 1) y = .ok r' ∧
        r.h exDyn2 0 1 = .ok ⟨.inf false⟩ ∧ r'.h exDyn2 1 0 = .ok ⟨.num (2 ^ emax)⟩ := by
  have hf : Fits exDyn2 2 := Or.inl rfl
  have z : ∀ k : ℤ, 2 - emax - p ≤ k → k ≤ emax → toFmt p emax (.num (2 ^ k)) = .num (2 ^ k) :=
    fun k h h' =>
    toFmt_zpow hp h h'
  have one : (Arith.lit 1 : IEEE p emax) = ⟨.num 1⟩ := fmt_one hp he
  have p3 : Arith.powN (⟨.num 1⟩ : IEEE p emax) 3 = ⟨.num 1⟩ := by
    show (⟨toFmt p emax (.num ((1 : ℝ) ^ 3))⟩ : IEEE p emax) = _
    rw [one_pow, toFmt_one hp he]
  have p2 : Arith.powN (⟨.num 1⟩ : IEEE p emax) 2 = ⟨.num 1⟩ := by
    show (⟨toFmt p emax (.num ((1 : ℝ) ^ 2))⟩ : IEEE p emax) = _
    rw [one_pow, toFmt_one hp he]
  have t2 : toFmt p emax (.num 2) = .num 2 := by simpa using z 1 (by omega) (by omega)
  have daa : (Arith.lit 2 *ₛ Arith.lit 1 ÷ₛ Arith.powN (Arith.lit 1 : IEEE p emax) 3) = ⟨.num 2⟩ := by
    rw [one, p3, fmt_two hp he, fmt_mul, mul_one, t2, fmt_div one_ne_zero, div_one, t2]
  have dh : (-ₛ (Arith.lit 1) ÷ₛ Arith.powN (Arith.lit 1 : IEEE p emax) 2) *ₛ Arith.lit 0 =
    ⟨.num 0⟩ := by
    have m1 : toFmt p emax (.num (-1)) = .num (-1) := by
      have hr : rndFmt p emax (-1) = -1 := by
        unfold rndFmt
        rw [abs_neg, abs_one, Int.log_one_right]
        set E : ℤ := max 0 (1 - (emax : ℤ)) + 1 - p with hE
        obtain ⟨q, hq⟩ : ∃ q : Nat, E = -(q : ℤ) := ⟨(-E).toNat, by omega⟩
        have h : (-1 : ℝ) / 2 ^ E = ((-2 ^ q : ℤ) : ℝ) := by
          rw [hq, zpow_neg, zpow_natCast]
          push_cast
          rw [div_inv_eq_mul]; ring
        rw [h, roundEven_int, ← h, div_mul_cancel₀ _ (by positivity)]
      rw [toFmt_num, hr, if_pos]
      rw [abs_neg, abs_one]
      exact one_lt_pow₀ (by norm_num) (by omega)
    rw [one, p2, fmt_zero]
    show (⟨.num (-1)⟩ ÷ₛ ⟨.num 1⟩ *ₛ ⟨.num 0⟩ : IEEE p emax) = _
    rw [fmt_div one_ne_zero, div_one, m1, fmt_zero_mul]
  refine ⟨obj exDyn2 2 (exSlope ⟨.num (2 ^ (emax : ℤ))⟩ ⟨.num (2 ^ (-1 : ℤ))⟩),
    obj exDyn2 2
      (exSlope ⟨.num (2 ^ (-1 : ℤ))⟩ ⟨.num (2 ^ (emax : ℤ))⟩), _, shows_obj exDyn2_valid.order hf _,
    ⟨wf_obj exDyn2_valid.order hf _, size_obj hf _, f_obj _ _ _, ?_, ?_⟩, _, _,
    sDiv_obj exDyn2_valid.order hf _ _, sDiv_obj exDyn2_valid.order hf _ _, ?_, ?_⟩
  · intro i hi
    rw [g_obj hf _ hi]
    interval_cases i <;> rfl
  · intro _ i j hi hj
    interval_cases i <;> interval_cases j
    · exact h_obj (i := 0) (j := 0) rfl hf _ (by decide) (by decide)
    · exact h_obj (i := 0) (j := 1) rfl hf _ (by decide) (by decide)
    · exact h_obj_swap (i := 0) (j := 1) rfl hf _ (by decide) (by decide)
    · exact h_obj (i := 1) (j := 1) rfl hf _ (by decide) (by decide)
  · refine (h_obj (i := 0) (j := 1) rfl hf _ (by decide) (by decide)).trans ?_
    rw [uFin_pos rfl _ _ _ _ (by decide) (by decide)]
    simp only [exSlope]
    rw [daa]
    show Res.ok ((-ₛ (Arith.lit 1) ÷ₛ Arith.powN (Arith.lit 1 : IEEE p emax) 2) *ₛ Arith.lit 0 +ₛ _) = _
    rw
      [dh, fmt_mul, ← zpow_one_add₀ (by norm_num), toFmt_over hp (by omega), fmt_inf_mul (by positivity)]
    rfl
  · refine (h_obj_swap (i := 0) (j := 1) rfl hf _ (by decide) (by decide)).trans ?_
    rw [uFin_pos rfl _ _ _ _ (by decide) (by decide)]
    simp only [exSlope]
    rw [daa]
    show Res.ok ((-ₛ (Arith.lit 1) ÷ₛ Arith.powN (Arith.lit 1 : IEEE p emax) 2) *ₛ Arith.lit 0 +ₛ _) = _
    rw [dh, fmt_mul, show (2 : ℝ) * 2 ^ (-1 : ℤ) = 1 by norm_num, toFmt_one hp he, fmt_mul, one_mul,
      z _ (by omega) le_rfl]
    show Res.ok (⟨toFmt p emax (.num (0 + 2 ^ (emax : ℤ)))⟩ : IEEE p emax) = _
    rw [zero_add, z _ (by omega) le_rfl, zpow_natCast]

/-! ## Examples -/

/-- `x^N` by repeated squaring, with jets of the variables 0 and 2 of four variables: first order for two
variables gives the value and the gradient that second order for four variables gives. -/
example {α : Type} [CMath α] (N j : Nat) (x : α) :
    ((exPowers α).run (ddLibrary α (Fin 2) exDyn2 4) j N
        ![obj exDyn2 4 (varC 2 x), obj exDyn2 4 (constC (Arith.lit 1))] = none ∧
      (exPowers α).run (ddLibrary α (Fin 2) exDyn1 2) j N
        ![obj exDyn1 2 (varC 1 x), obj exDyn1 2 (constC (Arith.lit 1))] = none) ∨
    ∃ q' r r', (exPowers α).run (ddLibrary α (Fin 2) exDyn2 4) j N
        ![obj exDyn2 4 (varC 2 x), obj exDyn2 4 (constC (Arith.lit 1))] = some (.ok q', r) ∧
      (exPowers α).run (ddLibrary α (Fin 2) exDyn1 2) j N
        ![obj exDyn1 2 (varC 1 x), obj exDyn1 2 (constC (Arith.lit 1))] = some (.ok q', r') ∧
      ∀ v, Picks exDyn2 exDyn1 4 2 (2 * ·) (r v) (r' v) := by
  have hs : Selects (2 * ·) 2 4 := ⟨fun i h => by omega, fun i j h _ => by omega⟩
  refine C89_blocks exDyn2_valid exDyn1_valid hs (by decide) (Or.inl rfl) (Or.inl rfl) _
    (fun q k hk => ?_) N _ _ (fun v => ?_) j
  · simp only [exPowers] at hk
    split at hk
    · cases hk
    · split at hk <;> cases hk <;> trivial
  · fin_cases v
    · obtain ⟨y, h1, h2, -⟩ := C89_variables exDyn2_valid exDyn1_valid hs (Or.inl rfl) (Or.inl rfl)
        (i := 2) (by decide) x
      obtain ⟨y', h3, h4⟩ := h2 1 (by decide) rfl
      rw [var_obj (Or.inl rfl) (by decide)] at h1 h3
      cases h1; cases h3
      exact h4
    · exact (PickC.const _).picks exDyn2_valid.order exDyn1_valid.order (Or.inl rfl) (Or.inl rfl) hs

/-- The same with an expression: `φ(x y) / z` for any of the functions `φ`, with all three variables, and with the last one only. -/
example {α : Type} [CMath α] (φ : Fn α) (x y z : α) :
    ∃ r r', Expr.evalDD exDyn2 3 ![obj exDyn2 3 (varC 0 x), obj exDyn2 3 (varC 1 y), obj exDyn2 3
      (varC 2 z)]
        (.bin .div (.fn φ (.bin .mul (.var (0 : Fin 3)) (.var 1))) (.var 2)) = .ok r ∧
      Expr.evalDD exDyn2 1 ![obj exDyn2 1 (constC x), obj exDyn2 1 (constC y), obj exDyn2 1 (varC 0 z)]
        (.bin .div (.fn φ (.bin .mul (.var (0 : Fin 3)) (.var 1))) (.var 2)) = .ok r' ∧
      r'.f = r.f ∧ r'.g exDyn2 0 = r.g exDyn2 2 ∧ r'.h exDyn2 0 0 = r.h exDyn2 2 2 := by
  have hs : Selects (fun _ => 2) 1 3 := ⟨fun i h => by omega, fun i j h _ => by omega⟩
  have hf : ∀ n : Nat, Fits exDyn2 n := fun _ => Or.inl rfl
  obtain ⟨r, r', h1, h2, h3⟩ := C89_expressions (c := exDyn2) (c' := exDyn2) exDyn2_valid exDyn2_valid hs
    (ρ := ![obj exDyn2 3 (varC 0 x), obj exDyn2 3 (varC 1 y), obj exDyn2 3 (varC 2 z)])
    (ρ' := ![obj exDyn2 1 (constC x), obj exDyn2 1 (constC y), obj exDyn2 1 (varC 0 z)])
    (Or.inl rfl) (Or.inl rfl) (by
      have key : ∀ i : Nat, i < 3 → i ≠ 2 → ∀ x : α,
          Picks exDyn2 exDyn2 3 1 (fun _ => 2) (obj exDyn2 3 (varC i x)) (obj exDyn2 1 (constC x)) := by
        intro i hi hi2 x
        obtain ⟨y, h1, -, h2⟩ := C89_variables exDyn2_valid exDyn2_valid hs (hf 3) (hf 1) hi x
        obtain ⟨y', h3, h4⟩ := h2 fun j _ => Ne.symm hi2
        rw [var_obj (hf 3) hi] at h1
        rw [constant_obj (hf 1)] at h3
        cases h1; cases h3
        exact h4
      intro v
      fin_cases v
      · exact key 0 (by decide) (by decide) x
      · exact key 1 (by decide) (by decide) y
      · obtain ⟨y, h1, h2, -⟩ := C89_variables exDyn2_valid exDyn2_valid hs (hf 3) (hf 1) (i := 2)
          (by decide) z
        obtain ⟨y', h3, h4⟩ := h2 0 (by decide) rfl
        rw [var_obj (hf 3) (by decide)] at h1
        rw [var_obj (hf 1) (by decide)] at h3
        cases h1; cases h3
        exact h4) (.bin .div (.fn φ (.bin .mul (.var 0) (.var 1))) (.var 2))
  exact ⟨r, r', h1, h2, h3.f, h3.g 0 (by decide), h3.h rfl rfl 0 0 (by decide) (by decide)⟩

/-- A NaN in the derivative for the second variable leaves the derivatives for the first one alone. -/
example (N j : Nat) (x y : XReal) :
    ((exPowers XReal).run (ddLibrary XReal (Fin 2) exDyn2 2) j N
        ![obj exDyn2 2 (exSlope x y), obj exDyn2 2 (constC (.num 1))] = none ∧
      (exPowers XReal).run (ddLibrary XReal (Fin 2) exDyn2 2) j N
        ![obj exDyn2 2 (exSlope x .nan), obj exDyn2 2 (constC (.num 1))] = none) ∨
    ∃ q' r r', (exPowers XReal).run (ddLibrary XReal (Fin 2) exDyn2 2) j N
        ![obj exDyn2 2 (exSlope x y), obj exDyn2 2 (constC (.num 1))] = some (.ok q', r) ∧
      (exPowers XReal).run (ddLibrary XReal (Fin 2) exDyn2 2) j N
        ![obj exDyn2 2 (exSlope x .nan), obj exDyn2 2 (constC (.num 1))] = some (.ok q', r') ∧
      ∀ v, AgreeOn exDyn2 2 (· = 0) (r v) (r' v) := by
  refine C89_local exDyn2_valid (Or.inl rfl) _ (fun q k hk => ?_) N _ _ (fun v => ?_) j
  · simp only [exPowers] at hk
    split at hk
    · cases hk
    · split at hk <;> cases hk <;> simp [Call.ReadsOnly, Stmt.Plain]
  · fin_cases v
    · refine PickC.agree exDyn2_valid.order (Or.inl rfl)
        ⟨rfl, fun i hi hp => ?_, fun _ _ i j _ _ hp hq => ?_⟩
      · subst hp; rfl
      · subst hp; subst hq; rfl
    · exact PickC.agree exDyn2_valid.order (Or.inl rfl) (PickC.const _)

/-- `double`. -/
example : ∃ (x y : DD (IEEE 53 1023)) (J : Jet (IEEE 53 1023)),
    Shows exDyn2 2 x J ∧ Shows exDyn2 2 y ⟨J.f, fun i => J.g (1 - i), fun i j => J.h (1 - i) (1 - j)⟩ ∧
    ∃ r r', DD.sDiv exDyn2 (Arith.lit 1) x = .ok r ∧ DD.sDiv exDyn2 (Arith.lit 1) y = .ok r' ∧
      r.h exDyn2 0 1 = .ok ⟨.inf false⟩ ∧ r'.h exDyn2 1 0 = .ok ⟨.num (2 ^ 1023)⟩ :=
  C89_violated_order (by norm_num) (by norm_num)

end HJ
