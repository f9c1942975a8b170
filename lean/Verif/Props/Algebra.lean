import Verif.Spec.RealMath
import Verif.Proofs.EvalC
import Mathlib.Tactic.FieldSimp
import Mathlib.Tactic.LinearCombination
import Mathlib.Tactic.IntervalCases

/-!
# C22–C27: compound assignment and the algebra of jets
-/

namespace HJ

open DD

/-! ### C22 -/

section any

variable {α : Type} [Arith α] {c : Cfg} {n : Nat} {x y : DD α}

/-- **C22, `+=`.**  For distinct objects `x += y` leaves in `x` the object `x + y`, bit for bit. -/
theorem C22_add_assign (hv : c.Valid) (hx : WF c n x) (hy : WF c n y) :
    ∃ r, x.add c y = .ok r ∧ x.addAssign c (.obj y) = (.ok (), r) := by
  obtain ⟨hf, a, rfl⟩ := hx.eq_obj hv.order
  obtain ⟨_, b, rfl⟩ := hy.eq_obj hv.order
  exact ⟨_, add_obj hv.order hf a b, addAssign_obj hf a b⟩

example : ∃ r, exJet.add exDyn2 exJet' = .ok r ∧ exJet.addAssign exDyn2 (.obj exJet') = (.ok (), r) :=
  C22_add_assign exDyn2_valid exJet_wf exJet'_wf

/-- **C22, `-=`**, bit for bit for every scalar type with `p - q = p + (-q)` (as IEEE doubles). -/
theorem C22_sub_assign (hv : c.Valid) (hsub : ∀ p q : α, p -ₛ q = p +ₛ -ₛ q) (hx : WF c n x)
    (hy : WF c n y) : ∃ r, x.sub c y = .ok r ∧ x.subAssign c (.obj y) = (.ok (), r) := by
  obtain ⟨hf, a, rfl⟩ := hx.eq_obj hv.order
  obtain ⟨_, b, rfl⟩ := hy.eq_obj hv.order
  refine ⟨_, sub_obj hv.order hf a b, ?_⟩
  rw [subAssign_obj hf a b]
  congr 1
  apply obj_ext
  intro k _
  unfold subC
  split
  · next h => rw [h]
  · rw [hsub]

example : ∃ r, exJet.sub exDyn2 exJet' = .ok r ∧ exJet.subAssign exDyn2 (.obj exJet') = (.ok (), r) :=
  C22_sub_assign exDyn2_valid (fun p q => sub_eq_add_neg p q) exJet_wf exJet'_wf

/-- **C22, `*=`**, bit for bit for every scalar type with commutative `+` and `*` (as IEEE
doubles).  At order 2 there must be at least one variable. -/
theorem C22_mul_assign (hv : c.Valid) (hadd : ∀ p q : α, p +ₛ q = q +ₛ p)
    (hmul : ∀ p q : α, p *ₛ q = q *ₛ p) (hn : c.order = 2 → 0 < n) (hx : WF c n x) (hy : WF c n y) :
    ∃ r, x.mul c y = .ok r ∧ x.mulAssign c (.obj y) = (.ok (), r) := by
  obtain ⟨hf, a, rfl⟩ := hx.eq_obj hv.order
  obtain ⟨_, b, rfl⟩ := hy.eq_obj hv.order
  refine ⟨_, mul_obj hv.order hf a b, ?_⟩
  rw [mulAssign_obj hv.order hn hf a b]
  congr 1
  apply obj_ext' hv.order
  · simp only [mulAC, mulC, bFin_zero]
  · intro i hi; simp only [mulAC, mulC]; rw [bFin_succ _ _ _ _ hi, bFin_succ _ _ _ _ hi]
  · intro h2 i j hij hj
    simp only [mulAC, mulC]
    rw [bFin_pos h2 _ _ _ hij hj, bFin_pos h2 _ _ _ hij hj]
    congr 1
    rw [hadd, hmul (a (1 + j))]

example : ∃ r, exJet.mul exDyn2 exJet' = .ok r ∧ exJet.mulAssign exDyn2 (.obj exJet') = (.ok (), r) :=
  C22_mul_assign exDyn2_valid (fun p q => add_comm p q) (fun p q => mul_comm p q) (fun _ => by decide)
    exJet_wf exJet'_wf

/-- `*=` on two second-order jets without variables is undefined behaviour (`&m_data[1 + size()]`
is one past the end), while `*` is fine. -/
theorem C22_violated_mul_assign_size0 (h2 : c.order = 2) (hx : WF c 0 x) (hy : WF c 0 y) :
    (∃ r, x.mul c y = .ok r ∧ WF c 0 r) ∧ ∃ u z, x.mulAssign c (.obj y) = (.ub u, z) := by
  have hc : c.order = 1 ∨ c.order = 2 := Or.inr h2
  obtain ⟨hf, a, rfl⟩ := hx.eq_obj hc
  obtain ⟨_, b, rfl⟩ := hy.eq_obj hc
  refine ⟨⟨_, mul_obj hc hf a b, wf_obj hc hf _⟩, ?_⟩
  have hl : dlen c 0 = 1 := by rw [dlen_two h2]; rfl
  have hsz := size_obj (α := α) hf a
  have hszb := size_obj (α := α) hf b
  refine ⟨.outOfBounds, obj c 0 a, ?_⟩
  unfold DD.mulAssign DD.checked
  simp only [DD.Operand.size, hsz, hszb, checkEqualSize_self]
  simp only [DD.Operand.src, Src.get]
  rw [rd_obj0, rd_obj0]
  simp only [Res.ok_bind, data_obj]
  rw [wr_mk0 (ψ := fl fun k => if k = 0 then a 0 *ₛ b 0 else a k)]
  · simp only [Res.ok_bind, mk_length, hl]
    rw [forUp_empty (by simp)]
    simp only [Res.ok_bind, h2, show ¬ (2 : Nat) = 1 by decide, if_false]
    rfl
  · intro m _; by_cases h : m = 0 <;> simp [fl, h]

example : ∃ u z, (⟨0, [some 3]⟩ : DD ℚ).mulAssign exDyn2 (.obj ⟨0, [some 2]⟩) = (.ub u, z) :=
  (C22_violated_mul_assign_size0 rfl ⟨Or.inl rfl, rfl, rfl, by decide⟩
    ⟨Or.inl rfl, rfl, rfl, by decide⟩).2

/-- **C22, scalars.**  `x += s`, `x *= s` and `x /= s` leave in `x` the object `x + s`, `x * s`,
`x / s`, bit for bit; `x -= s` likewise when `p - q = p + (-q)`. -/
theorem C22_scalar_assign (hv : c.Valid) (hx : WF c n x) (s : α) :
    (∃ r, x.addS s = .ok r ∧ x.addAssignS (.val s) = (.ok (), r)) ∧
    ((∀ p q : α, p -ₛ q = p +ₛ -ₛ q) →
      ∃ r, x.subS s = .ok r ∧ x.subAssignS (.val s) = (.ok (), r)) ∧
    (∃ r, x.mulS c s = .ok r ∧ x.mulAssignS (.val s) = (.ok (), r)) ∧
    (∃ r, x.divS c s = .ok r ∧ x.divAssignS (.val s) = (.ok (), r)) := by
  obtain ⟨hf, a, rfl⟩ := hx.eq_obj hv.order
  refine ⟨⟨_, addS_obj a s, addAssignS_obj a s⟩, fun hsub => ⟨_, subS_obj a s, ?_⟩,
    ⟨_, mulS_obj hf a s, mulAssignS_obj a s⟩, ⟨_, divS_obj hf a s, divAssignS_obj a s⟩⟩
  rw [subAssignS_obj]
  congr 1
  apply obj_ext
  intro k _
  unfold subSC addSC
  rw [hsub]

example : ∃ r, exJet.divS exDyn2 4 = .ok r ∧ exJet.divAssignS (.val 4) = (.ok (), r) :=
  (C22_scalar_assign exDyn2_valid exJet_wf 4).2.2.2

/-- **C23, `+=` and `-=`.**  `x += x` and `x -= x` leave in `x` what `x + x` and `x - x` return. -/
theorem C23_add_sub_self (hv : c.Valid) (hx : WF c n x) :
    (∃ r, x.add c x = .ok r ∧ x.addAssign c .self = (.ok (), r)) ∧
    ((∀ p q : α, p -ₛ q = p +ₛ -ₛ q) →
      ∃ r, x.sub c x = .ok r ∧ x.subAssign c .self = (.ok (), r)) := by
  obtain ⟨hf, a, rfl⟩ := hx.eq_obj hv.order
  refine ⟨⟨_, add_obj hv.order hf a a, addAssign_self a⟩, fun hsub => ⟨_, sub_obj hv.order hf a a, ?_⟩⟩
  rw [subAssign_self]
  congr 1
  apply obj_ext
  intro k _
  unfold subC
  split
  · next h => rw [h]
  · rw [hsub]

example : ∃ r, exJet.sub exDyn2 exJet = .ok r ∧ exJet.subAssign exDyn2 .self = (.ok (), r) :=
  (C23_add_sub_self exDyn2_valid exJet_wf).2 fun p q => sub_eq_add_neg p q

/-- **C23, `*=` at order 1.**  `x *= x` leaves in `x` what `x * x` returns. -/
theorem C23_mul_self_order1 (h1 : c.order = 1) (hx : WF c n x) :
    ∃ r, x.mul c x = .ok r ∧ x.mulAssign c .self = (.ok (), r) := by
  have hc : c.order = 1 ∨ c.order = 2 := Or.inl h1
  obtain ⟨hf, a, rfl⟩ := hx.eq_obj hc
  refine ⟨_, mul_obj hc hf a a, ?_⟩
  rw [mulAssign_self hc (by omega) hf a]
  congr 1
  apply obj_ext' hc
  · simp only [mulAC, mulC, bFin_zero]
  · intro i hi; simp only [mulAC, mulC]; rw [bFin_succ _ _ _ _ hi, bFin_succ _ _ _ _ hi]
  · intro h2; omega

example : ∃ r, exJet1.mul exDyn1 exJet1 = .ok r ∧ exJet1.mulAssign exDyn1 .self = (.ok (), r) :=
  C23_mul_self_order1 rfl exJet1_wf

/-- **C24, what is right.**  With a reference to one of the object's own components, `+=`, `-=` and
`/=` do the same as with the value of that component. -/
theorem C24_own_component (hv : c.Valid) (hx : WF c n x) {p : Nat} {s : α}
    (hp : rd x.mData p = .ok s) :
    x.addAssignS (.cell p) = x.addAssignS (.val s) ∧
    x.subAssignS (.cell p) = x.subAssignS (.val s) ∧
    x.divAssignS (.cell p) = x.divAssignS (.val s) := by
  obtain ⟨hf, a, rfl⟩ := hx.eq_obj hv.order
  have hlt : p < dlen c n := by
    by_contra h
    rw [rd_oob (Or.inr (by simp [obj]; omega))] at hp
    simp at hp
  have hs : a p = s := by
    have := (rd_obj (a := a) p rfl hlt).symm.trans hp
    simpa using this
  subst hs
  rw [addAssignS_cell a hlt, addAssignS_obj, subAssignS_cell a hlt, subAssignS_obj,
    divAssignS_cell a hlt, divAssignS_obj]
  exact ⟨rfl, rfl, rfl⟩

/-- `a /= a.g(0)`. -/
example : exJet.divAssignS (.cell 1) = exJet.divAssignS (.val 20) :=
  (C24_own_component exDyn2_valid exJet_wf (p := 1) rfl).2.2

/-- **C24 violated.**  `x *= (reference to stored component p)` multiplies the components up to and
including `p` by the value of that component and all later ones by its square. -/
theorem C24_violated_mul_own_component (hv : c.Valid) (hx : WF c n x) {p : Nat} {s : α}
    (hp : rd x.mData p = .ok s) :
    ∃ r, x.mulAssignS (.cell p) = (.ok (), r) ∧ WF c n r ∧ ∀ (k : Nat) (v : α),
      rd x.mData k = .ok v → rd r.mData k = .ok (if k ≤ p then v *ₛ s else v *ₛ (s *ₛ s)) := by
  obtain ⟨hf, a, rfl⟩ := hx.eq_obj hv.order
  have hlt : ∀ {k : Nat} {v : α}, rd (obj c n a).mData k = .ok v → k < dlen c n ∧ a k = v := by
    intro k v hp
    have hk : k < dlen c n := by
      by_contra h
      rw [rd_oob (Or.inr (by simp [obj]; omega))] at hp
      simp at hp
    have := (rd_obj (a := a) k rfl hk).symm.trans hp
    exact ⟨hk, by simpa using this⟩
  obtain ⟨hpl, rfl⟩ := hlt hp
  refine ⟨_, mulAssignS_cell a hpl, wf_obj hv.order hf _, ?_⟩
  intro k v hk
  obtain ⟨hkl, rfl⟩ := hlt hk
  rw [rd_obj k rfl hkl]
  simp [mulSelfC]

/-- `a *= a.g(0)` multiplies the Hessian entry 60 by 400. -/
example : ∃ r, exJet.mulAssignS (.cell 1) = (.ok (), r) ∧ rd r.mData 5 = .ok 24000 := by
  obtain ⟨r, h, _, h'⟩ := C24_violated_mul_own_component exDyn2_valid exJet_wf (p := 1) (s := 20) rfl
  refine ⟨r, h, ?_⟩
  have := h' 5 60 rfl
  rw [show (5 : Int) = (5 : Nat) by rfl, this]
  decide +kernel

end any

/-! ### Exact arithmetic -/

section exact

variable {K : Type} [Field K] [Arith K] [Exact K] {c : Cfg} {n : Nat} {x y z : DD K}

attribute [local simp] Exact.add Exact.sub Exact.mul Exact.div Exact.neg Exact.lit Exact.powN

omit [Field K] [Arith K] [Exact K] in
theorem pos_ne_zero (n i j : Nat) : pos n i j ≠ 0 := by have := pos_gt n i j; omega

/-- Compare two objects component by component. -/
macro "jet_ext" hc:term : tactic =>
  `(tactic| (apply obj_ext' $hc
             on_goal 3 =>
               intro h2 i j hij hj
               have hi := Nat.lt_of_le_of_lt hij hj
               try simp (discharger := omega) only [mulAC, mulC, divC, divSelfC, bFin_zero, uFin_zero,
                 addC, subC, addSC, sSubC, constC, bFin_succ, uFin_succ, bFin_pos, uFin_pos, pos_ne_zero,
                 Nat.add_eq_zero_iff, one_ne_zero, false_and, if_false, if_true, Exact.add, Exact.sub,
                 Exact.mul, Exact.div, Exact.neg, Exact.lit, Exact.powN, hi, hij, hj, Int.cast_one,
                 Int.cast_zero, Int.cast_neg, Int.cast_ofNat]
             on_goal 2 =>
               intro i hi
               try simp (discharger := omega) only [mulAC, mulC, divC, divSelfC, bFin_zero, uFin_zero,
                 addC, subC, addSC, sSubC, constC, bFin_succ, uFin_succ, Nat.add_eq_zero_iff,
                 one_ne_zero, false_and, if_false, if_true, Exact.add, Exact.sub, Exact.mul, Exact.div,
                 Exact.neg, Exact.lit, Exact.powN, hi, Int.cast_one, Int.cast_zero, Int.cast_neg,
                 Int.cast_ofNat]
             on_goal 1 =>
               try simp only [mulAC, mulC, divC, divSelfC, bFin_zero, uFin_zero, addC, subC, addSC,
                 sSubC, constC, if_true, Exact.add, Exact.sub, Exact.mul, Exact.div, Exact.neg,
                 Exact.lit, Exact.powN, Int.cast_one, Int.cast_zero, Int.cast_neg, Int.cast_ofNat]))

/-- **C22, `/=`.**  In exact arithmetic `x /= y` leaves in `x` the object `x / y`. -/
theorem C22_div_assign (hv : c.Valid) (hx : WF c n x) (hy : WF c n y) :
    ∃ r, x.div c y = .ok r ∧ x.divAssign c (.obj y) = (.ok (), r) := by
  obtain ⟨hf, a, rfl⟩ := hx.eq_obj hv.order
  obtain ⟨_, b, rfl⟩ := hy.eq_obj hv.order
  refine ⟨_, div_obj hv.order hf a b, ?_⟩
  rw [divAssign_obj hv.order hf a b]
  congr 3
  simp [div_eq_mul_inv]

example : ∃ r, exJet.div exDyn2 exJet' = .ok r ∧ exJet.divAssign exDyn2 (.obj exJet') = (.ok (), r) :=
  C22_div_assign exDyn2_valid exJet_wf exJet'_wf

/-- **C23, `/=`.**  In exact arithmetic `x /= x` leaves in `x` what `x / x` returns. -/
theorem C23_div_self (hv : c.Valid) (hx : WF c n x) (h0 : ∀ v, x.f = .ok v → v ≠ 0) :
    ∃ r, x.div c x = .ok r ∧ x.divAssign c .self = (.ok (), r) := by
  obtain ⟨hf, a, rfl⟩ := hx.eq_obj hv.order
  have ha := h0 (a 0) (f_obj c n a)
  refine ⟨_, div_obj hv.order hf a a, ?_⟩
  rw [divAssign_self hv.order hf a]
  congr 1
  jet_ext hv.order <;> field_simp <;> ring

example : ∃ r, exJet.div exDyn2 exJet = .ok r ∧ exJet.divAssign exDyn2 .self = (.ok (), r) := by
  refine C23_div_self exDyn2_valid exJet_wf ?_
  intro v h
  have : (10 : ℚ) = v := by simpa using (show exJet.f = .ok 10 from rfl).symm.trans h
  rw [← this]; norm_num

/-- **C23 violated, `*=` at order 2.**  `x *= x` has the value and gradient of the square but
Hessian `2 f h + 4 f g gᵀ` instead of `2 f h + 2 g gᵀ`. -/
theorem C23_violated_mul_self (h2 : c.order = 2) (hn : 0 < n) {J : Jet K} (hx : Shows c n x J) :
    ∃ r s, x.mulAssign c .self = (.ok (), r) ∧ x.mul c x = .ok s ∧
      Shows c n r ⟨J.f * J.f, fun i => 2 * J.f * J.g i,
        fun i j => 2 * J.f * J.h i j + 4 * J.f * J.g i * J.g j⟩ ∧
      Shows c n s ⟨J.f * J.f, fun i => 2 * J.f * J.g i,
        fun i j => 2 * J.f * J.h i j + 2 * J.g i * J.g j⟩ := by
  have hc : c.order = 1 ∨ c.order = 2 := Or.inr h2
  obtain ⟨hf, a, rfl⟩ := hx.wf.eq_obj hc
  have hu := hx.unique (shows_obj hc hf a)
  have h0 : J.f = a 0 := hu.1
  have h1 : ∀ i < n, J.g i = a (1 + i) := hu.2.1
  have h3 : ∀ i j, i ≤ j → j < n → J.h i j = a (pos n i j) := by
    intro i j hij hj
    have := hu.2.2 h2 i j (by omega) hj
    simpa [jetOf, hij] using this
  refine ⟨_, _, mulAssign_self hc (fun _ => hn) hf a, mul_obj hc hf a a, ?_, ?_⟩
  · apply shows_of_obj hc hf
    · simp [mulAC, bFin_zero, h0]
    · intro i hi
      simp only [mulAC]; rw [bFin_succ _ _ _ _ hi]; simp [h0, h1 i hi]; ring
    · intro _ i j hij hj
      simp only [mulAC]; rw [bFin_pos h2 _ _ _ hij hj]
      simp [h0, h1 i (by omega), h1 j hj, h3 i j hij hj]; ring
    · intro _ i j hi hj
      simp only [hx.sym h2 hi hj]; ring
  · apply shows_of_obj hc hf
    · simp [mulC, bFin_zero, h0]
    · intro i hi
      simp only [mulC]; rw [bFin_succ _ _ _ _ hi]; simp [h0, h1 i hi]; ring
    · intro _ i j hij hj
      simp only [mulC]; rw [bFin_pos h2 _ _ _ hij hj]
      simp [h0, h1 i (by omega), h1 j hj, h3 i j hij hj]; ring
    · intro _ i j hi hj
      simp only [hx.sym h2 hi hj]; ring

/-- **C23 violated, consequence.**  At order 2, `x *= x` differs from `x * x` unless the value is
one half or the gradient vanishes. -/
theorem C23_violated_mul_self_differs [CharZero K] (h2 : c.order = 2) {J : Jet K}
    (hx : Shows c n x J) {i : Nat} (hi : i < n) (hg : J.g i ≠ 0) (hne : J.f ≠ 1 / 2) :
    ∃ r s, x.mulAssign c .self = (.ok (), r) ∧ x.mul c x = .ok s ∧ r.h c i i ≠ s.h c i i := by
  obtain ⟨r, s, h1, h3, hr, hs⟩ := C23_violated_mul_self h2 (by omega) hx
  refine ⟨r, s, h1, h3, ?_⟩
  rw [hr.h h2 i i hi hi, hs.h h2 i i hi hi]
  intro h
  simp only [Res.ok.injEq, add_right_inj] at h
  have : (J.f - 1 / 2) * (4 * (J.g i * J.g i)) = 0 := by linear_combination h
  rcases mul_eq_zero.1 this with h | h
  · exact hne (sub_eq_zero.1 h)
  · simp [hg] at h

/-- `exJet *= exJet`: the entry `h(0,0)` is 16800 instead of 1600. -/
example : (∃ r, exJet.mulAssign exDyn2 .self = (.ok (), r) ∧ r.h exDyn2 0 0 = .ok 16800) ∧
    ∃ s, exJet.mul exDyn2 exJet = .ok s ∧ s.h exDyn2 0 0 = .ok 1600 := by
  obtain ⟨r, s, h1, h2, hr, hs⟩ := C23_violated_mul_self rfl (by decide) exJet_shows
  refine ⟨⟨r, h1, ?_⟩, s, h2, ?_⟩
  · rw [show (0 : Int) = (0 : Nat) by rfl, hr.h rfl 0 0 (by decide) (by decide)]; norm_num
  · rw [show (0 : Int) = (0 : Nat) by rfl, hs.h rfl 0 0 (by decide) (by decide)]; norm_num

example : ∃ r s, exJet.mulAssign exDyn2 .self = (.ok (), r) ∧ exJet.mul exDyn2 exJet = .ok s ∧
    r.h exDyn2 (1 : Nat) (1 : Nat) ≠ s.h exDyn2 (1 : Nat) (1 : Nat) :=
  C23_violated_mul_self_differs rfl exJet_shows (by decide) (by norm_num) (by norm_num)

/-- **C24 violated, `x *= x.f()`.**  The derivatives are multiplied by the square of the value. -/
theorem C24_violated_mul_own_value (hv : c.Valid) {J : Jet K} (hx : Shows c n x J) :
    ∃ r, x.mulAssignS (.cell 0) = (.ok (), r) ∧
      Shows c n r ⟨J.f * J.f, fun i => J.f ^ 2 * J.g i, fun i j => J.f ^ 2 * J.h i j⟩ := by
  have hc := hv.order
  obtain ⟨hf, a, rfl⟩ := hx.wf.eq_obj hc
  have hu := hx.unique (shows_obj hc hf a)
  refine ⟨_, mulAssignS_cell a (p := 0) (dlen_pos c n), ?_⟩
  apply shows_of_obj hc hf
  · simp [mulSelfC, hu.1, jetOf]
  · intro i hi
    simp [mulSelfC, hu.1, hu.2.1 i hi, jetOf]; ring
  · intro h2 i j hij hj
    have hp := pos_gt n i j
    simp [mulSelfC, hu.1, hu.2.2 h2 i j (by omega) hj, jetOf, hij, show pos n i j ≠ 0 by omega]; ring
  · intro h2 i j hi hj
    simp only [hx.sym h2 hi hj]

/-- `exJet *= exJet.f()`: the derivative 20 becomes 2000, not 200. -/
example : ∃ r, exJet.mulAssignS (.cell 0) = (.ok (), r) ∧ r.g exDyn2 0 = .ok 2000 := by
  obtain ⟨r, h, hr⟩ := C24_violated_mul_own_value exDyn2_valid exJet_shows
  refine ⟨r, h, ?_⟩
  rw [show (0 : Int) = (0 : Nat) by rfl, hr.g 0 (by decide)]; norm_num

/-- **C25.**  Jets of equal size form a commutative ring under the operators, in exact
arithmetic: every identity holds between the objects the code returns. -/
theorem C25_commutative_ring (hv : c.Valid) (hx : WF c n x) (hy : WF c n y) (hz : WF c n z) :
    (x.add c y = y.add c x) ∧
    ((do let s ← x.add c y; s.add c z) = (do let s ← y.add c z; x.add c s)) ∧
    (x.mul c y = y.mul c x) ∧
    ((do let s ← x.mul c y; s.mul c z) = (do let s ← y.mul c z; x.mul c s)) ∧
    ((do let s ← y.add c z; x.mul c s) =
      (do let s ← x.mul c y; let t ← x.mul c z; s.add c t)) ∧
    ((do let o ← DD.zero c n; x.add c o) = .ok x) ∧
    ((do let o ← DD.constant c (Arith.lit 1) n; x.mul c o) = .ok x) ∧
    ((do let s ← x.neg c; x.add c s) = DD.zero c n) ∧
    (x.sub c y = (do let s ← y.neg c; x.add c s)) := by
  obtain ⟨hf, a, rfl⟩ := hx.eq_obj hv.order
  obtain ⟨_, b, rfl⟩ := hy.eq_obj hv.order
  obtain ⟨_, d, rfl⟩ := hz.eq_obj hv.order
  have hc := hv.order
  simp only [add_obj hc hf, mul_obj hc hf, sub_obj hc hf, neg_obj hf, zero_obj hf,
    constant_obj hf, Res.ok_bind, Res.ok.injEq]
  refine ⟨?_, ?_, ?_, ?_, ?_, ?_, ?_, ?_, ?_⟩
  · jet_ext hc <;> ring
  · jet_ext hc <;> ring
  · jet_ext hc <;> ring
  · jet_ext hc <;> ring
  · jet_ext hc <;> ring
  · jet_ext hc <;> simp
  · jet_ext hc <;> simp
  · jet_ext hc <;> simp
  · jet_ext hc <;> ring

example : exJet.mul exDyn2 exJet' = exJet'.mul exDyn2 exJet :=
  (C25_commutative_ring exDyn2_valid exJet_wf exJet'_wf exJet_wf).2.2.1

/-- **C27.**  An operator with a scalar operand gives the same object as the operator with the
constant jet, in exact arithmetic (division: for a non-zero divisor). -/
theorem C27_scalar_is_constant (hv : c.Valid) (hx : WF c n x) (s : K) :
    ∃ k, DD.constant c s n = .ok k ∧
    x.addS s = x.add c k ∧ DD.sAdd s x = k.add c x ∧
    x.subS s = x.sub c k ∧ DD.sSub c s x = k.sub c x ∧
    x.mulS c s = x.mul c k ∧ DD.sMul c s x = k.mul c x ∧
    (s ≠ 0 → x.divS c s = x.div c k) ∧
    ((∀ v, x.f = .ok v → v ≠ 0) → DD.sDiv c s x = k.div c x) := by
  obtain ⟨hf, a, rfl⟩ := hx.eq_obj hv.order
  have hc := hv.order
  refine ⟨_, constant_obj hf s, ?_⟩
  simp only [add_obj hc hf, mul_obj hc hf, sub_obj hc hf, div_obj hc hf, addS_obj, sAdd_obj,
    subS_obj, sSub_obj hf, mulS_obj hf, sMul_obj hf, divS_obj hf, sDiv_obj hc hf, Res.ok.injEq,
    f_obj, forall_eq']
  refine ⟨?_, ?_, ?_, ?_, ?_, ?_, ?_, ?_⟩
  · jet_ext hc <;> ring
  · jet_ext hc <;> ring
  · jet_ext hc <;> ring
  · jet_ext hc <;> ring
  · jet_ext hc <;> ring
  · jet_ext hc <;> ring
  · intro _; jet_ext hc <;> ring
  · intro ha; jet_ext hc <;> field_simp <;> ring

example : ∃ k, DD.constant exDyn2 (5 : ℚ) 2 = .ok k ∧ DD.sSub exDyn2 5 exJet = k.sub exDyn2 exJet := by
  obtain ⟨k, hk, h⟩ := C27_scalar_is_constant exDyn2_valid exJet_wf 5
  exact ⟨k, hk, h.2.2.2.1⟩

end exact

section recip

variable {K : Type} [Field K] [CMath K] [Exact K] {c : Cfg} {n : Nat} {x y : DD K}

/-- **C26.**  Division, reciprocal and multiplication fit together for a divisor with non-zero
value, in exact arithmetic. -/
theorem C26_division (hv : c.Valid) (hx : WF c n x) (hy : WF c n y)
    (h0 : ∀ v, y.f = .ok v → v ≠ 0) :
    ((do let q ← x.div c y; q.mul c y) = .ok x) ∧
    (x.div c y = (do let r ← DD.un c y DD.kReciprocal; x.mul c r)) ∧
    (DD.sDiv c (Arith.lit 1) y = DD.un c y DD.kReciprocal) ∧
    ((do let r ← DD.un c y DD.kReciprocal; DD.un c r DD.kReciprocal) = .ok y) := by
  obtain ⟨hf, a, rfl⟩ := hx.eq_obj hv.order
  obtain ⟨_, b, rfl⟩ := hy.eq_obj hv.order
  have hc := hv.order
  have hb := h0 (b 0) (f_obj c n b)
  simp only [mul_obj hc hf, div_obj hc hf, un_obj hc hf, sDiv_obj hc hf, Res.ok_bind,
    Res.ok.injEq, DD.kReciprocal]
  refine ⟨?_, ?_, ?_, ?_⟩
  · jet_ext hc <;> field_simp <;> ring
  · jet_ext hc <;> field_simp <;> ring
  · jet_ext hc <;> field_simp
  · jet_ext hc <;> (field_simp; try ring)

example : (do let q ← exR.div exDyn2 exR; q.mul exDyn2 exR) = .ok exR := by
  refine (C26_division exDyn2_valid exR_wf exR_wf ?_).1
  intro v h
  have : (10 : ℝ) = v := by simpa using (show exR.f = .ok 10 from rfl).symm.trans h
  rw [← this]; norm_num

end recip

end HJ
