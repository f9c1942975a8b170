import Verif.Props.Python

/-!
# C50: negative size arguments of the dynamic factories
-/

namespace HJ

open DD

variable {α : Type} [Arith α]

theorem neg_length_order1 {c : Cfg} (h1 : c.order = 1) (n : Int) :
    dataLengthFromSize c n = 1 + n := by simp [dataLengthFromSize, h1]

theorem neg_length_order2 {c : Cfg} (h2 : c.order = 2) (m : Nat) :
    dataLengthFromSize c (-3 - m) = (storedLen 2 m : Nat) := by
  have e : (-3 - (m : Int) + 1) * (-3 - m + 2) = (((m + 1) * (m + 2) : Nat) : Int) := by
    push_cast; ring
  unfold dataLengthFromSize storedLen
  simp only [h2, show ¬ ((2 : Nat) = 1) by decide, if_false]
  rw [e]
  rfl

theorem zero_dyn {c : Cfg} (hd : c.tsize = -1) (n : Int) :
    (DD.zero c n : Res (DD α)) = (if dataLengthFromSize c n < 0 then .throw .lengthError
      else .ok ⟨n, List.replicate (dataLengthFromSize c n).toNat (some (Arith.lit 0))⟩) := by
  simp only [DD.zero, (isDynamic_iff c).2 hd, if_true, vectorZeros]
  split <;> rfl

theorem empty_dyn {c : Cfg} (hd : c.tsize = -1) (n : Int) :
    (DD.empty c n : Res (DD α)) = DD.zero c n := by
  simp only [DD.zero, DD.empty, (isDynamic_iff c).2 hd, if_true]

/-- **C50 at order 1.** A negative size is rejected by `zero`, `empty`, `constant` and `variable`
of the dynamic type, with the exception being that of the storage and not "Negative size", except
for the size -1 (violated): `zero` and `empty` then return an object that reports size -1 and has
no value at all, and `constant` and `variable` write out of bounds. -/
theorem C50_order1 {c : Cfg} (h1 : c.order = 1) (hd : c.tsize = -1) (v : α) (i : Int) :
    (∀ n : Int, n < -1 → (DD.zero c n : Res (DD α)) = .throw .lengthError ∧
      (DD.empty c n : Res (DD α)) = .throw .lengthError ∧
      DD.constant c v n = .throw .lengthError ∧ DD.var c i v n = .throw .lengthError) ∧
    (∃ x : DD α, DD.zero c (-1) = .ok x ∧ DD.empty c (-1) = .ok x ∧ x.size c = -1 ∧
      x.mData = [] ∧ x.f = .ub .outOfBounds) ∧
    DD.constant c v (-1) = .ub .outOfBounds ∧ DD.var c i v (-1) = .ub .outOfBounds := by
  have hdd := (isDynamic_iff c).2 hd
  refine ⟨?_, ?_, ?_, ?_⟩
  · intro n hn
    have hz : (DD.zero c n : Res (DD α)) = .throw .lengthError := by
      rw [zero_dyn hd, neg_length_order1 h1, if_pos (by omega)]
    refine ⟨hz, by rw [empty_dyn hd, hz], ?_, ?_⟩
    · simp only [DD.constant, hdd, if_true, hz]; rfl
    · simp only [DD.var, hdd, if_true, hz]; rfl
  · refine ⟨⟨-1, []⟩, ?_, ?_, ?_, rfl, rfl⟩
    · rw [zero_dyn hd, neg_length_order1 h1]; rfl
    · rw [empty_dyn hd, zero_dyn hd, neg_length_order1 h1]; rfl
    · simp [DD.size, hdd]
  · have hz : (DD.zero c (-1) : Res (DD α)) = .ok ⟨-1, []⟩ := by
      rw [zero_dyn hd, neg_length_order1 h1]; rfl
    simp only [DD.constant, hdd, if_true, hz]; rfl
  · have hz : (DD.zero c (-1) : Res (DD α)) = .ok ⟨-1, []⟩ := by
      rw [zero_dyn hd, neg_length_order1 h1]; rfl
    simp only [DD.var, hdd, if_true, hz]; rfl

example : (DD.zero exDyn1 (-7) : Res (DD ℚ)) = .throw .lengthError :=
  ((C50_order1 (c := exDyn1) rfl rfl (0 : ℚ) 0).1 (-7) (by decide)).1

/-- **C50**, violated at order 2: *every* negative size is accepted by `zero` and `empty` of the
dynamic type.  The object reports the negative size.  With size `-3 - m` it stores as many values as
a jet of `m` variables, with size -1 or -2 none.  `constant` accepts every size below -2 as well,
and returns an object with the given value. -/
theorem C50_violated_order2 {c : Cfg} (h2 : c.order = 2) (hd : c.tsize = -1) (v : α) :
    (∀ n : Int, n = -1 ∨ n = -2 →
      (∃ x : DD α, DD.zero c n = .ok x ∧ DD.empty c n = .ok x ∧ x.size c = n ∧ x.mData = []) ∧
      DD.constant c v n = .ub .outOfBounds) ∧
    (∀ m : Nat, ∃ x y : DD α, DD.zero c (-3 - m) = .ok x ∧ DD.empty c (-3 - m) = .ok x ∧
      DD.constant c v (-3 - m) = .ok y ∧
      x.size c = -3 - m ∧ y.size c = -3 - m ∧
      x.mData = List.replicate (storedLen 2 m) (some (Arith.lit 0)) ∧
      y.mData = some v :: List.replicate (storedLen 2 m - 1) (some (Arith.lit 0)) ∧
      y.f = .ok v) := by
  have hdd := (isDynamic_iff c).2 hd
  constructor
  · intro n hn
    have hl : dataLengthFromSize c n = 0 := by
      unfold dataLengthFromSize
      rcases hn with rfl | rfl <;> simp [h2]
    have hz : (DD.zero c n : Res (DD α)) = .ok ⟨n, []⟩ := by
      rw [zero_dyn hd, hl]; rfl
    refine ⟨⟨⟨n, []⟩, hz, by rw [empty_dyn hd, hz], by simp [DD.size, hdd], rfl⟩, ?_⟩
    simp only [DD.constant, hdd, if_true, hz]; rfl
  · intro m
    have hz : (DD.zero c (-3 - m) : Res (DD α)) =
        .ok ⟨-3 - m, List.replicate (storedLen 2 m) (some (Arith.lit 0))⟩ := by
      rw [zero_dyn hd, neg_length_order2 h2, if_neg (by omega)]; rfl
    have hpos : 0 < storedLen 2 m := by
      unfold storedLen
      rw [if_neg (by decide)]
      have : 2 ≤ (m + 1) * (m + 2) := by nlinarith
      omega
    obtain ⟨k, hk⟩ : ∃ k, storedLen 2 m = k + 1 := ⟨_, (Nat.succ_pred_eq_of_pos hpos).symm⟩
    refine ⟨⟨-3 - m, List.replicate (storedLen 2 m) (some (Arith.lit 0))⟩,
      ⟨-3 - m, some v :: List.replicate (storedLen 2 m - 1) (some (Arith.lit 0))⟩,
      hz, by rw [empty_dyn hd, hz], ?_, by simp [DD.size, hdd], by simp [DD.size, hdd], rfl, rfl,
      rfl⟩
    simp only [DD.constant, hdd, if_true, hz, Res.ok_bind, DD.setF, hk, List.replicate_succ]
    rfl

/-- `constant(5, -4)` of the dynamic second-order type has size -4 and 3 stored values. -/
example : ∃ y : DD ℚ, DD.constant exDyn2 5 (-4) = .ok y ∧ y.size exDyn2 = -4 ∧
    y.mData = [some 5, some 0, some 0] := ⟨⟨-4, [some 5, some 0, some 0]⟩, by rfl, rfl, rfl⟩

/-- **C50**, violated, consequence: pickling such an object and unpickling it gives an object of
another size. -/
theorem C50_violated_pickle {c : Cfg} (hv : c.Valid) (h2 : c.order = 2) (hd : c.tsize = -1)
    (he : c.exc = true) (m : Nat) :
    ∃ (x y : DD α) (st : List (PyVal α)), DD.zero c (-3 - m) = .ok x ∧ pickleGet x = .ok st ∧
      pickleSet c st = .ok y ∧ x.size c = -3 - m ∧ y.size c = m ∧ y.mData = x.mData := by
  have hdd := (isDynamic_iff c).2 hd
  obtain ⟨x, _, hz, _, _, hs, _, hx, _⟩ := (C50_violated_order2 h2 hd (Arith.lit 0 : α)).2 m
  have hwf : WF c m (⟨m, x.mData⟩ : DD α) := by
    refine ⟨Or.inl hd, by simp [hd], by rw [h2, hx]; simp, ?_⟩
    intro cell hc
    simp only [hx] at hc
    rw [List.eq_of_mem_replicate hc]
    simp
  obtain ⟨st, g1, g2⟩ := C06_round_trip hv (Or.inl he) hwf
  exact ⟨x, ⟨m, x.mData⟩, st, hz, g1, g2, hs, by simp [DD.size, hdd], rfl⟩

example : ∃ (x y : DD ℚ) (st : List (PyVal ℚ)), DD.zero exDyn2 (-3 - (2 : Nat)) = .ok x ∧
    pickleGet x = .ok st ∧ pickleSet exDyn2 st = .ok y ∧ x.size exDyn2 = -3 - (2 : Nat) ∧
    y.size exDyn2 = (2 : Nat) ∧ y.mData = x.mData :=
  C50_violated_pickle exDyn2_valid rfl rfl rfl 2

end HJ
