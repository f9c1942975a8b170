import Verif.Proofs.Pad
import Verif.Proofs.Shows
import Verif.Spec.Samples
import Mathlib.Tactic.IntervalCases

/-!
# C12, C13, C14: padding and resizing
-/

namespace HJ

open DD

variable {α : Type} [Arith α]

/-- Jet `J` of `n` variables seen as a jet of more variables, the new ones last. -/
def Jet.padR (n : Nat) (J : Jet α) : Jet α :=
  ⟨J.f, fun i => if i < n then J.g i else Arith.lit 0,
    fun i j => if i < n ∧ j < n then J.h i j else Arith.lit 0⟩

/-- Jet `J` seen as a jet of more variables, the `k` new ones first. -/
def Jet.padL (k : Nat) (J : Jet α) : Jet α :=
  ⟨J.f, fun i => if k ≤ i then J.g (i - k) else Arith.lit 0,
    fun i j => if k ≤ i ∧ k ≤ j then J.h (i - k) (j - k) else Arith.lit 0⟩

/-- **C12.**  `a.pad_right(m)` with `m ≥ size()` is `a` as a jet of `m` variables whose last
`m - size()` variables do not occur; with `m < size()` it is undefined behaviour. -/
theorem C12_pad_right {c : Cfg} (hv : c.Valid) (hd : c.tsize = -1) {n : Nat} {x : DD α} {J : Jet α}
    (hx : Shows c n x J) (m : Nat) :
    (n ≤ m → ∃ y, x.padRight c m = .ok y ∧ Shows c m y (J.padR n)) ∧
    (m < n → ∃ u, x.padRight c m = .ub u) := by
  obtain ⟨hf, a, rfl⟩ := hx.wf.eq_obj hv.order
  have hf' : Fits c m := Or.inl hd
  have hu := hx.unique (shows_obj hv.order hf a)
  refine ⟨fun hnm => ⟨_, padRight_obj hv.order hd hnm a, ?_⟩,
    fun hmn => (pad_shrink hv.order hd hmn a).1⟩
  apply shows_of_obj hv.order hf'
  · simpa [padRC, Jet.padR, jetOf] using hu.1.symm
  · intro i hi
    simp only [Jet.padR, padRC]
    by_cases h : i < n
    · rw [if_pos (by omega), if_pos h]; exact (hu.2.1 i h).symm
    · rw [if_neg (by omega), if_pos (by omega), if_neg h]
  · intro h2 i j hij hj
    rw [padRC_pos hnm a hij hj]
    simp only [Jet.padR]
    by_cases h : j < n
    · rw [if_pos h, if_pos ⟨by omega, h⟩, hu.2.2 h2 i j (by omega) h]
      simp [jetOf, hij]
    · rw [if_neg h, if_neg (by omega)]
  · intro h2 i j _ _
    simp only [Jet.padR]
    by_cases h : i < n ∧ j < n
    · rw [if_pos h, if_pos ⟨h.2, h.1⟩]; exact hx.sym h2 h.1 h.2
    · rw [if_neg h, if_neg (by tauto)]

/-- **C13.**  `a.pad_left(m)` with `m ≥ size()` is `a` as a jet of `m` variables whose first
`m - size()` variables do not occur; with `m < size()` it is undefined behaviour. -/
theorem C13_pad_left {c : Cfg} (hv : c.Valid) (hd : c.tsize = -1) {n : Nat} {x : DD α} {J : Jet α}
    (hx : Shows c n x J) (m : Nat) :
    (n ≤ m → ∃ y, x.padLeft c m = .ok y ∧ Shows c m y (J.padL (m - n))) ∧
    (m < n → ∃ u, x.padLeft c m = .ub u) := by
  obtain ⟨hf, a, rfl⟩ := hx.wf.eq_obj hv.order
  have hf' : Fits c m := Or.inl hd
  have hu := hx.unique (shows_obj hv.order hf a)
  refine ⟨fun hnm => ⟨_, padLeft_obj hv.order hd hnm a, ?_⟩,
    fun hmn => (pad_shrink hv.order hd hmn a).2⟩
  apply shows_of_obj hv.order hf'
  · simpa [padLC, Jet.padL, jetOf] using hu.1.symm
  · intro i hi
    simp only [Jet.padL, padLC]
    rw [if_neg (by omega)]
    by_cases h : m - n ≤ i
    · rw [if_neg (by omega), if_pos (by omega), if_pos h, hu.2.1 _ (by omega)]
      simp only [jetOf]
      congr 1; omega
    · rw [if_pos (by omega), if_neg h]
  · intro h2 i j hij hj
    rw [padLC_pos a hij hj]
    simp only [Jet.padL]
    by_cases h : m - n ≤ i
    · rw [if_pos h, if_pos ⟨h, by omega⟩, hu.2.2 h2 _ _ (by omega) (by omega)]
      simp only [jetOf]
      rw [if_pos (by omega)]
    · rw [if_neg h, if_neg (by omega)]
  · intro h2 i j hi hj
    simp only [Jet.padL]
    by_cases h : m - n ≤ i ∧ m - n ≤ j
    · rw [if_pos h, if_pos ⟨h.2, h.1⟩]; exact hx.sym h2 (by omega) (by omega)
    · rw [if_neg h, if_neg (by tauto)]

example : ∃ y, exJet.padRight exDyn2 3 = .ok y ∧ y.h exDyn2 1 0 = .ok 50 ∧ y.h exDyn2 2 1 = .ok 0 := by
  obtain ⟨y, h, s⟩ := (C12_pad_right exDyn2_valid rfl exJet_shows 3).1 (by decide)
  refine ⟨y, h, ?_, ?_⟩
  · rw [show (1 : Int) = (1 : Nat) by rfl, show (0 : Int) = (0 : Nat) by rfl,
      s.h rfl 1 0 (by decide) (by decide)]; rfl
  · rw [show (2 : Int) = (2 : Nat) by rfl, show (1 : Int) = (1 : Nat) by rfl,
      s.h rfl 2 1 (by decide) (by decide)]; rfl

example : ∃ y, exJet.padLeft exDyn2 3 = .ok y ∧ y.h exDyn2 1 2 = .ok 50 ∧ y.g exDyn2 0 = .ok 0 := by
  obtain ⟨y, h, s⟩ := (C13_pad_left exDyn2_valid rfl exJet_shows 3).1 (by decide)
  refine ⟨y, h, ?_, ?_⟩
  · rw [show (2 : Int) = (2 : Nat) by rfl, show (1 : Int) = (1 : Nat) by rfl,
      s.h rfl 1 2 (by decide) (by decide)]; rfl
  · rw [show (0 : Int) = (0 : Nat) by rfl, s.g 0 (by decide)]; rfl

example : ∃ u, exJet.padLeft exDyn2 1 = .ub u :=
  (C13_pad_left exDyn2_valid rfl exJet_shows 1).2 (by decide)

/-! ### resize -/

/-- Contents after `resize`. -/
def resizeC (c : Cfg) (n : Nat) (a : Nat → α) (k : Nat) : α :=
  if k < dlen c n then a k else Arith.lit 0

theorem resize_obj {c : Cfg} (hd : c.tsize = -1) {n m : Nat} (a : Nat → α) :
    (obj c n a).resize c m = (.ok (), obj c m (resizeC c n a)) := by
  have hdyn : c.isDynamic = true := by simp [Cfg.isDynamic, hd]
  unfold DD.resize
  rw [dataLength_eq]
  simp only [data_obj]
  rw [if_neg (by omega)]
  unfold obj
  simp only [hdyn, if_true, Int.toNat_natCast, Prod.mk.injEq, true_and, DD.mk.injEq]
  apply List.ext_getElem?
  intro k
  rw [mk_getElem?]
  by_cases h1 : k < dlen c n
  · by_cases h2 : k < dlen c m
    · rw [if_pos h2, List.getElem?_append_left (by simp; omega), List.getElem?_take, if_pos h2,
        mk_getElem?, if_pos h1]
      simp [fl, resizeC, h1]
    · rw [if_neg h2]
      apply List.getElem?_eq_none
      simp
      omega
  · rw [List.getElem?_append_right (by simp; omega), List.getElem?_replicate]
    have e : ((mk (dlen c n) (fl a)).take (dlen c m)).length = min (dlen c m) (dlen c n) := by simp
    rw [e, mk_length]
    by_cases h2 : k < dlen c m
    · rw [if_pos h2, if_pos (by omega)]
      simp [fl, resizeC, h1]
    · rw [if_neg h2, if_neg (by omega)]

/-- **C14, order 1.**  `resize(m)` keeps the value and the derivatives of the remaining variables
and sets the derivatives of new variables to zero. -/
theorem C14_resize_order1 {c : Cfg} (h1 : c.order = 1) (hd : c.tsize = -1) {n : Nat} {x : DD α}
    {J : Jet α} (hx : Shows c n x J) (m : Nat) :
    ∃ y, x.resize c m = (.ok (), y) ∧ Shows c m y (J.padR n) := by
  have ho : c.order = 1 ∨ c.order = 2 := Or.inl h1
  obtain ⟨hf, a, rfl⟩ := hx.wf.eq_obj ho
  have hf' : Fits c m := Or.inl hd
  have hu := hx.unique (shows_obj ho hf a)
  refine ⟨_, resize_obj hd a, ?_⟩
  apply shows_of_obj ho hf'
  · simp only [resizeC, dlen_pos, if_true, Jet.padR]; exact hu.1.symm
  · intro i hi
    simp only [resizeC, dlen_one h1, Jet.padR]
    by_cases h : i < n
    · rw [if_pos (by omega), if_pos h]; exact (hu.2.1 i h).symm
    · rw [if_neg (by omega), if_neg h]
  · intro h2; omega
  · intro h2; omega

example : ∃ y, exJet1.resize exDyn1 3 = (.ok (), y) ∧ y.g exDyn1 1 = .ok 30 ∧ y.g exDyn1 2 = .ok 0 :=
  ⟨_, rfl, rfl, rfl⟩

/-- **C14, order 2: what remains true.**  The result is a well-formed jet of `m` variables with the
old value, and the gradient of the variables that remain is kept. -/
theorem C14_resize_order2 {c : Cfg} (h2 : c.order = 2) (hd : c.tsize = -1) {n : Nat} {x : DD α}
    {J : Jet α} (hx : Shows c n x J) (m : Nat) :
    ∃ y, x.resize c m = (.ok (), y) ∧ WF c m y ∧ y.size c = m ∧ y.f = .ok J.f ∧
      ∀ i : Nat, i < n → i < m → y.g c i = .ok (J.g i) := by
  have ho : c.order = 1 ∨ c.order = 2 := Or.inr h2
  obtain ⟨hf, a, rfl⟩ := hx.wf.eq_obj ho
  have hf' : Fits c m := Or.inl hd
  have hu := hx.unique (shows_obj ho hf a)
  have hl := le_dlen c n
  refine ⟨_, resize_obj hd a, wf_obj ho hf' _, size_obj hf' _, ?_, ?_⟩
  · rw [f_obj, hu.1]; simp [resizeC, dlen_pos, jetOf]
  · intro i hi hm
    rw [g_obj hf' _ hm, hu.2.1 i hi]
    simp only [resizeC, jetOf]
    rw [if_pos (by omega)]

/-- **C14 violated at order 2 (growing).**  After `resize(m)` with `m > n ≥ 1` the derivative with
respect to the first new variable is the old Hessian entry `h(0,0)`, not zero. -/
theorem C14_violated_order2_grow {c : Cfg} (h2 : c.order = 2) (hd : c.tsize = -1) {n : Nat}
    {x : DD α} {J : Jet α} (hx : Shows c n x J) {m : Nat} (hn : 0 < n) (hm : n < m) :
    ∃ y, x.resize c m = (.ok (), y) ∧ y.g c n = .ok (J.h 0 0) := by
  have ho : c.order = 1 ∨ c.order = 2 := Or.inr h2
  obtain ⟨hf, a, rfl⟩ := hx.wf.eq_obj ho
  have hf' : Fits c m := Or.inl hd
  have hu := hx.unique (shows_obj ho hf a)
  refine ⟨_, resize_obj hd a, ?_⟩
  have hp := pos_lt (i := 0) (j := 0) h2 (Nat.le_refl _) hn
  have e : pos n 0 0 = 1 + n := by simp [pos, tri]
  rw [g_obj hf' _ hm, hu.2.2 h2 0 0 hn hn]
  rw [e] at hp
  simp [resizeC, jetOf, e, hp]

example : ∃ y, exJet.resize exDyn2 3 = (.ok (), y) ∧ y.g exDyn2 2 = .ok 40 :=
  C14_violated_order2_grow rfl rfl exJet_shows (by decide) (by decide)

/-- **C14 violated at order 2 (shrinking).**  After `resize(m)` with `1 ≤ m < n` the Hessian entry
`h(0,0)` is the old gradient entry `g(m)`. -/
theorem C14_violated_order2_shrink {c : Cfg} (h2 : c.order = 2) (hd : c.tsize = -1) {n : Nat}
    {x : DD α} {J : Jet α} (hx : Shows c n x J) {m : Nat} (hn : 0 < m) (hm : m < n) :
    ∃ y, x.resize c m = (.ok (), y) ∧ y.h c 0 0 = .ok (J.g m) := by
  have ho : c.order = 1 ∨ c.order = 2 := Or.inr h2
  obtain ⟨hf, a, rfl⟩ := hx.wf.eq_obj ho
  have hf' : Fits c m := Or.inl hd
  have hu := hx.unique (shows_obj ho hf a)
  refine ⟨_, resize_obj hd a, ?_⟩
  have e : pos m 0 0 = 1 + m := by simp [pos, tri]
  have hl := le_dlen c n
  have := h_obj h2 hf' (resizeC c n a) (i := 0) (j := 0) (Nat.le_refl _) hn
  rw [show (0 : Int) = (0 : Nat) by rfl, this, hu.2.1 m hm, e]
  simp only [resizeC, jetOf]
  rw [if_pos (by omega)]

example : ∃ y, exJet.resize exDyn2 1 = (.ok (), y) ∧ y.h exDyn2 0 0 = .ok 30 :=
  C14_violated_order2_shrink rfl rfl exJet_shows (by decide) (by decide)

/-- **C14 violated by a failing resize.**  At order 1 a size below -1 makes `resize` throw, but the
object now reports the requested size while its storage is unchanged. -/
theorem C14_violated_failed_resize {c : Cfg} (h1 : c.order = 1) (hd : c.tsize = -1) (x : DD α)
    {size : Int} (hs : size < -1) :
    ∃ y, x.resize c size = (.throw .lengthError, y) ∧ y.size c = size ∧ y.mData = x.mData := by
  refine ⟨{ x with mSize := size }, ?_, ?_, rfl⟩
  · unfold DD.resize dataLengthFromSize
    simp only [h1, if_true]
    rw [if_pos (by omega)]
  · simp [DD.size, Cfg.isDynamic, hd]

example : ∃ y, exJet1.resize exDyn1 (-5) = (.throw .lengthError, y) ∧ y.size exDyn1 = -5 ∧
    y.mData = exJet1.mData := C14_violated_failed_resize rfl rfl _ (by decide)

/-- At order 2 a negative size is accepted by `resize` and reported by `size()`: the formula
`(n+1)(n+2)/2` is not negative. -/
theorem C14_violated_negative_size {c : Cfg} (h2 : c.order = 2) (hd : c.tsize = -1) (x : DD α)
    {size : Int} (hs : size < 0) :
    ∃ y, x.resize c size = (.ok (), y) ∧ y.size c = size := by
  have hnn : ¬ dataLengthFromSize c size < 0 := by
    unfold dataLengthFromSize
    simp only [h2, show ¬ ((2 : Nat) = 1) by decide, if_false]
    have : 0 ≤ (size + 1) * (size + 2) := by
      rcases (show size = -1 ∨ size ≤ -2 by omega) with h | h
      · subst h; decide
      · exact Int.mul_nonneg_of_nonpos_of_nonpos (by omega) (by omega)
    have := Int.tdiv_nonneg this (show (0 : Int) ≤ 2 by decide)
    omega
  refine ⟨_, by unfold DD.resize; simp only [hnn, if_false]; rfl, ?_⟩
  simp [DD.size, Cfg.isDynamic, hd]

example : ∃ y, exJet.resize exDyn2 (-3) = (.ok (), y) ∧ y.size exDyn2 = -3 :=
  C14_violated_negative_size rfl rfl _ (by decide)

end HJ
