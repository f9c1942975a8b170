import Verif.Proofs.Factory
import Verif.Spec.Samples
import Mathlib.Tactic.IntervalCases

/-!
# C05, C07, C08, C09, C38, C39, C47: construction
-/

namespace HJ

variable {α : Type}

/-! ## Data length decoding (helper lemmas) -/

theorem truncRat_int (z : Int) : truncRat (z : ℚ) = z := by
  simp [truncRat]

/-- A valid length is decoded to its size. -/
theorem decode_valid {c : Cfg} (hv : c.Valid) (n : Nat) :
    (if c.order = 1 then ((storedLen c.order n : Nat) : Int) - 1
      else (truncRat (c.root (1 + 8 * ((storedLen c.order n : Nat) : Int)) - 3)).tdiv 2) = n := by
  rw [storedLen_eq hv.order]
  rcases hv.order with h | h
  · rw [if_pos h, dlen_one h]; push_cast; ring
  · rw [if_neg (by omega), dlen_two h]
    have e : 1 + 8 * ((1 + n + tri n n : Nat) : Int)
        = (2 * ((n + 1 : Nat) : Int) + 1) * (2 * ((n + 1 : Nat) : Int) + 1) := by
      have h2 := two_len n
      push_cast at h2 ⊢
      linarith
    rw [e, hv.root]
    have e2 : (2 * ((n + 1 : Nat) : ℚ) + 1 - 3) = ((2 * n : Int) : ℚ) := by push_cast; ring
    rw [e2, truncRat_int, Int.mul_tdiv_cancel_left _ (by norm_num)]

/-- A size whose data length is `L` exists only for the valid lengths and 0. -/
theorem length_valid {c : Cfg} (hv : c.Valid) {s : Int} {L : Nat}
    (h : dataLengthFromSize c s = L) : L = 0 ∨ ∃ n : Nat, L = storedLen c.order n := by
  unfold dataLengthFromSize at h
  rcases hv.order with h1 | h2
  · rw [if_pos h1] at h
    by_cases h0 : L = 0
    · exact Or.inl h0
    · refine Or.inr ⟨L - 1, ?_⟩
      simp only [storedLen, if_pos h1]; omega
  · rw [if_neg (by omega)] at h
    have key : ∀ t : Int, 0 ≤ t → ((t + 1) * (t + 2)).tdiv 2 = L → ∃ n : Nat, L = storedLen c.order n := by
      intro t ht hL
      obtain ⟨m, rfl⟩ := Int.eq_ofNat_of_zero_le ht
      refine ⟨m, ?_⟩
      rw [storedLen_eq hv.order, dlen_two h2]
      rw [two_len, Int.mul_tdiv_cancel_left _ (by norm_num)] at hL
      exact_mod_cast hL.symm
    by_cases hs : 0 ≤ s
    · exact Or.inr (key s hs h)
    · by_cases hs3 : s ≤ -3
      · right
        apply key (-3 - s) (by omega)
        rw [← h]; congr 1; ring
      · left
        have : s = -1 ∨ s = -2 := by omega
        rcases this with rfl | rfl <;> simp at h <;> omega

theorem decode_zero {c : Cfg} (hv : c.Valid) :
    (if c.order = 1 then (0 : Int) - 1 else (truncRat (c.root (1 + 8 * 0) - 3)).tdiv 2) = -1 := by
  by_cases h : c.order = 1
  · simp [h]
  · rw [if_neg h]
    have e := hv.root 0
    norm_num at e
    simp only [mul_zero, add_zero, e]
    have : (1 - 3 : ℚ) = ((-2 : Int) : ℚ) := by norm_num
    rw [this, truncRat_int]; rfl

theorem length_neg_one {c : Cfg} : dataLengthFromSize c (-1) = 0 := by
  unfold dataLengthFromSize; split <;> rfl

theorem dataLength_stored {c : Cfg} (hv : c.Valid) (n : Nat) :
    dataLengthFromSize c n = storedLen c.order n := by
  rw [dataLength_eq, storedLen_eq hv.order]

theorem storedLen_pos (c : Cfg) (hv : c.Valid) (n : Nat) : 0 < storedLen c.order n := by
  rw [storedLen_eq hv.order]; exact dlen_pos c n

theorem storedLen_inj {c : Cfg} (hv : c.Valid) {m n : Nat}
    (h : storedLen c.order m = storedLen c.order n) : m = n := by
  have h1 := decode_valid hv m
  have h2 := decode_valid hv n
  rw [h] at h1
  exact_mod_cast h1.symm.trans h2

/-! ## C05 -/

/-- **C05**, the length check itself, with exceptions: a length is decoded to `n` exactly when it
is the number of components of a jet of `n` variables, any other non-zero length is rejected, and
(the violation) length 0 is accepted as size -1. -/
theorem C05_length_decoding {c : Cfg} (hv : c.Valid) (he : c.exc = true) (L : Nat) :
    (∀ n : Nat, sizeFromDataLength c L = .ok n ↔ L = storedLen c.order n) ∧
    (L ≠ 0 → (¬ ∃ n, L = storedLen c.order n) → sizeFromDataLength c L = .throw .invalidLength) ∧
    (L = 0 → sizeFromDataLength c L = .ok (-1)) := by
  have hval : ∀ n : Nat, L = storedLen c.order n → sizeFromDataLength c L = .ok n := by
    rintro n rfl
    unfold sizeFromDataLength
    simp only [decode_valid hv n, he, if_true, dataLength_stored hv, bne_self_eq_false,
      Bool.false_eq_true, if_false]
  have hzero : L = 0 → sizeFromDataLength c L = .ok (-1) := by
    rintro rfl
    unfold sizeFromDataLength
    simp only [Nat.cast_zero, decode_zero hv, he, if_true, length_neg_one, bne_self_eq_false,
      Bool.false_eq_true, if_false]
  have hbad : L ≠ 0 → (¬ ∃ n, L = storedLen c.order n) →
      sizeFromDataLength c L = .throw .invalidLength := by
    intro h0 hn
    unfold sizeFromDataLength
    simp only [he, if_true]
    rw [if_pos]
    simp only [bne_iff_ne, ne_eq]
    intro h
    rcases length_valid hv h with h | h
    · exact h0 h
    · exact hn h
  refine ⟨fun n => ⟨fun h => ?_, hval n⟩, hbad, hzero⟩
  by_cases h0 : L = 0
  · rw [hzero h0] at h
    simp only [Res.ok.injEq] at h
    omega
  · by_cases hn : ∃ m, L = storedLen c.order m
    · obtain ⟨m, hm⟩ := hn
      rw [hval m hm] at h
      simp only [Res.ok.injEq, Nat.cast_inj] at h
      rw [← h, hm]
    · rw [hbad h0 hn] at h
      simp at h

/-- **C05**, dynamic types: `create(data)` for non-empty data succeeds exactly for the valid
lengths, with `size() = n` and the data unchanged, and throws otherwise. -/
theorem C05_create_dynamic {c : Cfg} (hv : c.Valid) (he : c.exc = true) (hd : c.tsize = -1)
    (data : Data α) :
    (∀ n : Nat, data.length = storedLen c.order n →
      ∃ x, DD.create c data = .ok x ∧ x.size c = n ∧ x.mData = data) ∧
    (data ≠ [] → (¬ ∃ n, data.length = storedLen c.order n) →
      DD.create c data = .throw .invalidLength) := by
  have hdyn : c.isDynamic = true := (isDynamic_iff c).2 hd
  obtain ⟨h1, h2, _⟩ := C05_length_decoding hv he data.length
  refine ⟨fun n hn => ⟨⟨n, data⟩, ?_, by simp [DD.size, hdyn], rfl⟩, fun hne hn => ?_⟩
  · unfold DD.create
    simp [hdyn, (h1 n).2 hn]
  · unfold DD.create
    simp [hdyn, h2 (by simpa using hne) hn]

/-- **C05**, violated for the empty sequence: dynamic types accept it, with `size() = -1`. -/
theorem C05_violated_empty {c : Cfg} (hv : c.Valid) (he : c.exc = true) (hd : c.tsize = -1) :
    ∃ x, DD.create c ([] : Data α) = .ok x ∧ x.size c = -1 ∧ ∀ n, ¬ WF c n x := by
  have hdyn : c.isDynamic = true := (isDynamic_iff c).2 hd
  obtain ⟨_, _, h3⟩ := C05_length_decoding hv he 0
  refine ⟨⟨-1, []⟩, ?_, by simp [DD.size, hdyn], ?_⟩
  · unfold DD.create
    simp only [hdyn, if_true, List.length_nil, h3 rfl, Res.ok_bind]
  · intro n h
    have := h.msize
    rw [if_pos hd] at this
    simp only at this
    omega

/-- **C05**, static types: `create` succeeds exactly for the length of the type and throws for
every other length (including 0). -/
theorem C05_create_static {c : Cfg} (hv : c.Valid) (he : c.exc = true) {N : Nat}
    (hN : c.tsize = N) (data : Data α) :
    (data.length = storedLen c.order N →
      ∃ x, DD.create c data = .ok x ∧ x.size c = N ∧ x.mData = data) ∧
    (data.length ≠ storedLen c.order N → ∃ err, DD.create c data = .throw err) := by
  have hdyn : c.isDynamic = false := by simp [Cfg.isDynamic, hN]
  obtain ⟨h1, h2, h3⟩ := C05_length_decoding hv he data.length
  refine ⟨fun hn => ⟨⟨0, data⟩, ?_, by simp [DD.size, hdyn, hN], rfl⟩, fun hne => ?_⟩
  · unfold DD.create
    simp [hdyn, (h1 N).2 hn, checkValidSize, he, hN]
  · unfold DD.create
    simp only [hdyn, Bool.false_eq_true, if_false]
    by_cases h0 : data.length = 0
    · rw [h3 h0]
      refine ⟨.invalidSize, ?_⟩
      simp only [Res.ok_bind, checkValidSize, hdyn, he, hN]
      simp
    · by_cases hn : ∃ m, data.length = storedLen c.order m
      · obtain ⟨m, hm⟩ := hn
        rw [(h1 m).2 hm]
        refine ⟨.invalidSize, ?_⟩
        have : m ≠ N := by rintro rfl; exact hne hm
        simp [checkValidSize, hdyn, he, hN, this]
      · rw [h2 h0 hn]
        exact ⟨_, rfl⟩

/-- Six scalars make an order-2 jet of 2 variables, five are rejected. -/
example : (∃ x, DD.create exDyn2 [some (1 : ℚ), some 2, some 3, some 4, some 5, some 6] = .ok x ∧
      x.size exDyn2 = 2) ∧
    DD.create exDyn2 [some (1 : ℚ), some 2, some 3, some 4, some 5] = .throw .invalidLength := by
  constructor
  · obtain ⟨x, h1, h2, _⟩ := (C05_create_dynamic exDyn2_valid rfl rfl
      [some (1 : ℚ), some 2, some 3, some 4, some 5, some 6]).1 2 rfl
    exact ⟨x, h1, h2⟩
  · apply (C05_create_dynamic exDyn2_valid rfl rfl _).2 (by simp)
    rintro ⟨n, hn⟩
    have h5 : 5 = (n + 1) * (n + 2) / 2 := hn
    by_cases h : n ≤ 2
    · interval_cases n <;> simp at h5
    · have : 4 * 5 ≤ (n + 1) * (n + 2) := Nat.mul_le_mul (by omega) (by omega)
      omega

/-! ## C47 -/

/-- **C47**, violated: with `HYPERJET_NO_EXCEPTIONS` and assertions, the length check aborts
exactly on the lengths it should accept (the valid ones and 0) and lets every other length
through, with a size that does not match. -/
theorem C47_violated_assert_inverted {c : Cfg} (hv : c.Valid) (he : c.exc = false)
    (hdbg : c.dbg = true) (L : Nat) :
    ((∃ n, L = storedLen c.order n) → sizeFromDataLength c L = .abort) ∧
    (L = 0 → sizeFromDataLength c L = .abort) ∧
    (L ≠ 0 → (¬ ∃ n, L = storedLen c.order n) →
      ∃ s, sizeFromDataLength c L = .ok s ∧ dataLengthFromSize c s ≠ L) := by
  refine ⟨?_, ?_, ?_⟩
  · rintro ⟨n, rfl⟩
    unfold sizeFromDataLength
    simp [decode_valid hv n, he, hdbg, dataLength_stored hv, assertB]
  · rintro rfl
    unfold sizeFromDataLength
    simp only [Nat.cast_zero, decode_zero hv]
    simp [he, hdbg, length_neg_one, assertB]
  · intro h0 hn
    unfold sizeFromDataLength
    have hne : ∀ s, dataLengthFromSize c s ≠ L := by
      intro s h
      rcases length_valid hv h with h | h
      · exact h0 h
      · exact hn h
    simp only [he, Bool.false_eq_true, if_false]
    refine ⟨if c.order = 1 then (L : Int) - 1
      else (truncRat (c.root (1 + 8 * (L : Int)) - 3)).tdiv 2, ?_, hne _⟩
    · have hb : ∀ s, (dataLengthFromSize c s == (L : Int)) = false := by
        intro s; simp [hne s]
      simp [assertB, hb]

/-- **C47**, the same seen from `create`: a correct data sequence of a dynamic jet aborts. -/
theorem C47_violated_create_aborts {c : Cfg} (hv : c.Valid) (he : c.exc = false)
    (hdbg : c.dbg = true) {n : Nat} {x : DD α} (hx : WF c n x) :
    DD.create c x.mData = .abort := by
  have := (C47_violated_assert_inverted hv he hdbg x.mData.length).1 ⟨n, hx.len⟩
  unfold DD.create
  cases c.isDynamic <;> simp [this]

/-- **C47**, without assertions (release): every length is accepted, and the valid ones are
decoded correctly. -/
theorem C47_release_accepts {c : Cfg} (hv : c.Valid) (he : c.exc = false)
    (hdbg : c.dbg = false) (L : Nat) :
    (∃ s, sizeFromDataLength c L = .ok s) ∧
    (∀ n, L = storedLen c.order n → sizeFromDataLength c L = .ok n) := by
  constructor
  · unfold sizeFromDataLength
    simp [he, hdbg, assertB]
  · rintro n rfl
    unfold sizeFromDataLength
    simp [decode_valid hv n, he, hdbg, assertB]

example : DD.create { exDyn2 with exc := false } exJet.mData = .abort :=
  C47_violated_create_aborts (c := { exDyn2 with exc := false })
    ⟨Or.inr rfl, Or.inl rfl, exRoot⟩ rfl rfl (n := 2) ⟨Or.inl rfl, rfl, rfl, by decide⟩

/-! ## C07 -/

/-- **C07.** The factories of a static type of `N` variables given an explicit size: with
exceptions they throw exactly when the size is not `N`, otherwise they give the object of the
factory without the argument. -/
theorem C07_static_size_argument [Arith α] {c : Cfg} {N : Nat} (hN : c.tsize = N)
    (he : c.exc = true) (size i : Int) (v : α) :
    (DD.empty c size = if size = N then .ok (DD.empty0 c : DD α) else .throw .invalidSize) ∧
    (DD.zero c size = if size = N then .ok (DD.zero0 c : DD α) else .throw .invalidSize) ∧
    (DD.constant c v size = if size = N then DD.constant0 c v else .throw .invalidSize) ∧
    (DD.var c i v size = if size = N then DD.variable0 c i v else .throw .invalidSize) := by
  have hdyn : c.isDynamic = false := by simp [Cfg.isDynamic, hN]
  by_cases h : size = N
  · simp [DD.empty, DD.zero, DD.constant, DD.var, hdyn, checkValidSize, he, hN, h]
  · simp [DD.empty, DD.zero, DD.constant, DD.var, hdyn, checkValidSize, he, hN, h]

/-- **C07**, without exceptions: the check is an assertion. -/
theorem C07_static_size_argument_noexc [Arith α] {c : Cfg} {N : Nat} (hN : c.tsize = N)
    (he : c.exc = false) (size : Int) :
    DD.zero c size = if size ≠ N ∧ c.dbg = true then .abort else .ok (DD.zero0 c : DD α) := by
  have hdyn : c.isDynamic = false := by simp [Cfg.isDynamic, hN]
  by_cases h : size = N <;> cases hd : c.dbg <;>
    simp [DD.zero, hdyn, checkValidSize, he, hN, h, assertB, hd]

/-- The static type of 2 variables: `zero(2)` is `zero()`, `zero(-1)` throws. -/
example : DD.zero exSta2 2 = .ok (DD.zero0 exSta2 : DD ℚ) ∧
    DD.zero exSta2 (-1) = (.throw .invalidSize : Res (DD ℚ)) :=
  ⟨by simpa using (C07_static_size_argument (α := ℚ) (c := exSta2) (N := 2) rfl rfl 2 0 0).2.1,
   by simpa using (C07_static_size_argument (α := ℚ) (c := exSta2) (N := 2) rfl rfl (-1) 0 0).2.1⟩

/-! ## C08 -/

/-- The jet of a constant. -/
def constJet [Arith α] (v : α) : Jet α := ⟨v, fun _ => Arith.lit 0, fun _ _ => Arith.lit 0⟩

/-- The jet of the `i`-th variable. -/
def unitJet [Arith α] (i : Nat) (v : α) : Jet α :=
  ⟨v, fun k => if k = i then Arith.lit 1 else Arith.lit 0, fun _ _ => Arith.lit 0⟩

theorem shows_const [Arith α] {c : Cfg} (hv : c.Valid) {n : Nat} (hf : Fits c n) (v : α) :
    Shows c n (obj c n (constC v)) (constJet v) := by
  apply shows_of_obj hv.order hf
  · simp [constC, constJet]
  · intro i _; simp [constC, constJet]
  · intro _ i j _ _
    have := pos_gt n i j
    simp [constC, constJet, show pos n i j ≠ 0 by omega]
  · intro _ _ _ _ _; rfl

theorem shows_unit [Arith α] {c : Cfg} (hv : c.Valid) {n : Nat} (hf : Fits c n) {i : Nat}
    (hi : i < n) (v : α) : Shows c n (obj c n (varC i v)) (unitJet i v) := by
  apply shows_of_obj hv.order hf
  · simp [varC, unitJet]
  · intro k _; simp [varC, unitJet]
  · intro _ p q _ _
    have := pos_gt n p q
    simp [varC, unitJet, show pos n p q ≠ 0 by omega, show pos n p q ≠ 1 + i by omega]
  · intro _ _ _ _ _; rfl

/-- **C08.** What the factories return, component by component, for dynamic types with any size
and static types with their own size. -/
theorem C08_factory_contents [Arith α] {c : Cfg} (hv : c.Valid) {n : Nat}
    (hf : c.tsize = -1 ∨ c.tsize = n) (v : α) :
    (∃ x, DD.zero c n = .ok x ∧ Shows c n x (constJet (Arith.lit 0 : α))) ∧
    (∃ x, DD.constant c v n = .ok x ∧ Shows c n x (constJet v)) ∧
    (∀ i : Nat, i < n → ∃ x, DD.var c i v n = .ok x ∧ Shows c n x (unitJet i v)) ∧
    (∀ vals : List α, vals.length = n → ∃ xs, DD.variables c vals = .ok xs ∧ xs.length = n ∧
      ∀ (i : Nat) (w : α), vals[i]? = some w →
        ∃ x, xs[i]? = some x ∧ DD.var c i w n = .ok x ∧ Shows c n x (unitJet i w)) := by
  refine ⟨⟨_, zero_obj hf, ?_⟩, ⟨_, constant_obj hf v, shows_const hv hf v⟩,
    fun i hi => ⟨_, var_obj hf hi v, shows_unit hv hf hi v⟩, ?_⟩
  · have := shows_const hv hf (Arith.lit 0 : α)
    have e : (constC (Arith.lit 0 : α)) = fun _ => Arith.lit 0 := by
      funext k; simp [constC]
    rwa [e] at this
  · rintro vals rfl
    refine ⟨_, variables_obj hf, by simp, ?_⟩
    intro i w hw
    have hi : i < vals.length := by
      by_contra h
      rw [List.getElem?_eq_none (by omega)] at hw
      simp at hw
    refine ⟨obj c vals.length (varC i w), ?_, var_obj hf hi w, shows_unit hv hf hi w⟩
    simp only [List.getElem?_map, List.getElem?_zipIdx, hw]
    simp

/-- The argument-free forms: for static types they agree with the explicit size `N`; for dynamic
types they are the jets without variables. -/
theorem C08_factories_without_size [Arith α] {c : Cfg} (hv : c.Valid) (v : α) :
    (∃ x, DD.constant0 c v = .ok x ∧ Shows c (if c.tsize = -1 then 0 else c.tsize.toNat) x
      (constJet v)) ∧
    Shows c (if c.tsize = -1 then 0 else c.tsize.toNat) (DD.zero0 c)
      (constJet (Arith.lit 0 : α)) := by
  have key : ∃ n, n = (if c.tsize = -1 then 0 else c.tsize.toNat) ∧ Fits c n ∧
      (DD.zero0 c : DD α) = obj c n (fun _ => Arith.lit 0) := by
    by_cases hd : c.tsize = -1
    · refine ⟨0, by simp [hd], Or.inl hd, ?_⟩
      have hdyn : c.isDynamic = true := (isDynamic_iff c).2 hd
      have hl : dlen c 0 = 1 := by unfold dlen; split <;> rfl
      simp [DD.zero0, hdyn, obj, mk, fl, hl]
    · have h0 : 0 ≤ c.tsize := by rcases hv.tsize with h | h <;> omega
      have hf : Fits c c.tsize.toNat := Or.inr (by omega)
      refine ⟨c.tsize.toNat, by simp [hd], hf, ?_⟩
      exact zero0_obj hf (by simp [Cfg.isDynamic, hd])
  obtain ⟨n, hn, hf, hz⟩ := key
  rw [← hn]
  refine ⟨⟨obj c n (constC v), ?_, shows_const hv hf v⟩, ?_⟩
  · unfold DD.constant0
    rw [hz, setF_obj]
    rfl
  · rw [hz]
    have := shows_const hv hf (Arith.lit 0 : α)
    have e : (constC (Arith.lit 0 : α)) = fun _ => Arith.lit 0 := by
      funext k; simp [constC]
    rwa [e] at this

/-- Two variables with values 5 and 7, dynamic second-order type. -/
example : ∃ xs x, DD.variables exDyn2 [(5 : ℚ), 7] = .ok xs ∧ xs[1]? = some x ∧
    Shows exDyn2 2 x (unitJet 1 7) := by
  obtain ⟨xs, h1, _, h3⟩ := (C08_factory_contents exDyn2_valid (n := 2) (Or.inl rfl) (0 : ℚ)).2.2.2
    [5, 7] rfl
  obtain ⟨x, h4, _, h5⟩ := h3 1 7 rfl
  exact ⟨xs, x, h1, h4, h5⟩

/-! ## C09 -/

/-- **C09**, violated: what `variable(i, v, n)` does for indices outside `0 .. n-1`.
`i = -1` returns the constant 1 (the value is overwritten), in every build; smaller `i` is
an out-of-bounds write; `i ≥ n` aborts with assertions, and without them either silently sets the
`(i-n)`-th flat Hessian entry or is an out-of-bounds write. -/
theorem C09_violated_bad_index [Arith α] {c : Cfg} (hv : c.Valid) {n : Nat}
    (hf : c.tsize = -1 ∨ c.tsize = n) (v : α) :
    (∃ x, DD.var c (-1) v n = .ok x ∧ Shows c n x (constJet (Arith.lit 1 : α))) ∧
    (∀ i : Int, i < -1 → DD.var c i v n = .ub .outOfBounds) ∧
    (c.dbg = true → ∀ i : Nat, n ≤ i → DD.var c i v n = .abort) ∧
    (c.dbg = false → ∀ i : Nat, storedLen c.order n ≤ 1 + i →
      DD.var c i v n = .ub .outOfBounds) ∧
    (c.dbg = false → c.order = 2 → ∀ p q : Nat, p ≤ q → q < n →
      ∃ (i : Nat) (x : DD α), n ≤ i ∧ DD.var c i v n = .ok x ∧
        Shows c n x ⟨v, fun _ => Arith.lit 0,
          fun a b => if (a = p ∧ b = q) ∨ (a = q ∧ b = p) then Arith.lit 1 else Arith.lit 0⟩) := by
  have key : ∀ i : Int, DD.var c i v n = (obj c n (constC v)).setG c i (Arith.lit 1) := by
    intro i
    unfold DD.var
    cases hd : c.isDynamic
    · simp only [Bool.false_eq_true, if_false, checkValidSize_fits hf, Res.ok_bind, DD.variable0]
      rw [zero0_obj hf hd, setF_obj]; rfl
    · simp only [if_true, zero_obj hf, Res.ok_bind]
      rw [setF_obj]; rfl
  have hle := le_dlen c n
  have hset : ∀ i : Int, (i < n ∨ c.dbg = false) → DD.var c i v n = (do
      let d ← wr (mk (dlen c n) (fl (constC v))) (1 + i) (Arith.lit 1)
      .ok { obj c n (constC v) with mData := d }) := by
    intro i hi
    rw [key i]
    unfold DD.setG assertB
    rw [size_obj hf, data_obj]
    have : (c.dbg && !decide (i < (n : Int))) = false := by
      rcases hi with hi | hi <;> simp [hi]
    rw [this]
    rfl
  refine ⟨?_, ?_, ?_, ?_, ?_⟩
  · refine ⟨obj c n (constC (Arith.lit 1)), ?_, shows_const hv hf _⟩
    rw [hset (-1) (Or.inl (by omega)), wr_mk (z := 1 + -1) (ψ := fl (constC (Arith.lit 1))) 0 rfl (dlen_pos c n)]
    · rfl
    · intro m _; by_cases h : m = 0 <;> simp [fl, constC, h]
  · intro i hi
    rw [hset i (Or.inl (by omega)), wr_oob (Or.inl (by omega))]
    rfl
  · intro hdbg i hi
    rw [key i]
    unfold DD.setG assertB
    rw [size_obj hf]
    have : decide ((i : Int) < (n : Int)) = false := by simp; omega
    rw [hdbg, this]
    rfl
  · intro hdbg i hi
    rw [storedLen_eq hv.order] at hi
    rw [hset i (Or.inr hdbg), wr_oob (Or.inr (by simp; omega))]
    rfl
  · intro hdbg h2 p q hpq hq
    have hgt := pos_gt n p q
    have hlt := pos_lt h2 hpq hq
    refine ⟨pos n p q - 1, obj c n (fun k => if k = pos n p q then Arith.lit 1 else constC v k), by omega,
      ?_, ?_⟩
    · rw [hset _ (Or.inr hdbg), wr_mk (ψ := fl (fun k => if k = pos n p q then Arith.lit 1
        else constC v k)) (pos n p q) (by omega) hlt]
      · rfl
      · intro m _; by_cases h : m = pos n p q <;> simp [fl, h]
    · apply shows_of_obj hv.order hf
      · simp [constC, show ¬ 0 = pos n p q by omega]
      · intro k _
        have : ¬ 1 + k = pos n p q := by omega
        simp [constC, this]
      · intro _ a b hab hb
        simp only
        by_cases he : a = p ∧ b = q
        · obtain ⟨rfl, rfl⟩ := he; simp
        · have hne : pos n a b ≠ pos n p q := by
            intro h
            have h1 := dec_pos hab hb
            rw [h, dec_pos hpq hq] at h1
            simp only [Prod.mk.injEq] at h1
            omega
          have h2' : ¬ ((a = p ∧ b = q) ∨ (a = q ∧ b = p)) := by omega
          have := pos_gt n a b
          rw [if_neg hne, if_neg h2']
          simp [constC, show pos n a b ≠ 0 by omega]
      · intro _ a b _ _
        simp only
        by_cases h : (a = p ∧ b = q) ∨ (a = q ∧ b = p)
        · rw [if_pos h, if_pos (by tauto)]
        · rw [if_neg h, if_neg (by tauto)]

/-- `variable(-1, 5, 2)` is the constant 1. -/
example : ∃ x, DD.var exDyn2 (-1) (5 : ℚ) 2 = .ok x ∧ x.f = .ok 1 := by
  obtain ⟨x, h, hs⟩ := (C09_violated_bad_index exDyn2_valid (n := 2) (Or.inl rfl) (5 : ℚ)).1
  exact ⟨x, h, hs.f⟩

/-! ## C38 -/

/-- **C38**, violated for dynamic types: the object made from a bare scalar (by the implicit
conversion, or with value 0 by the default constructor) says `size() = 1` but stores one scalar.
It is not a well-formed jet of any number of variables; on the right of `+` with a 1-variable
jet it makes the operator read out of bounds, on the left it silently drops the other operand's
gradient and Hessian. -/
theorem C38_violated_dynamic [Arith α] {c : Cfg} (hv : c.Valid) (hd : c.tsize = -1) (v : α) :
    ∃ r, DD.ofScalar c v = .ok r ∧ r.size c = 1 ∧ r.f = .ok v ∧ (∀ n, ¬ WF c n r) ∧
      (∀ x, WF c 1 x → DD.add c x r = .ub .outOfBounds) ∧
      (∀ x J, Shows c 1 x J → ∃ y, DD.add c r x = .ok y ∧
        Shows c 1 y (⟨v +ₛ J.f, fun _ => Arith.lit 0, fun _ _ => Arith.lit 0⟩)) := by
  have hdyn : c.isDynamic = true := (isDynamic_iff c).2 hd
  have hf : Fits c 1 := Or.inl hd
  refine ⟨⟨1, [some v]⟩, ?_, by simp [DD.size, hdyn], rfl, ?_, ?_, ?_⟩
  · unfold DD.ofScalar
    simp [DD.default, hdyn, wr, forUp, iter]
  · intro n h
    have h1 := h.len
    have h2 := h.msize
    rw [if_pos hd] at h2
    simp only [List.length_cons, List.length_nil] at h1
    rw [storedLen_eq hv.order] at h1
    have := le_dlen c n
    simp only at h2
    omega
  · intro x hx
    obtain ⟨_, a, rfl⟩ := hx.eq_obj hv.order
    obtain ⟨r, hr⟩ := empty_ok (α := α) hf
    have hle := le_dlen c 1
    have hs : DD.size c (⟨1, [some v]⟩ : DD α) = 1 := by simp [DD.size, hdyn]
    have hs' : (obj c 1 a).size c = 1 := by simpa using size_obj hf a
    have hr' : (DD.empty c 1 : Res (DD α)) = .ok ⟨1, mk (dlen c 1) r⟩ := by
      simpa [hdyn] using hr
    unfold DD.add
    simp only [hs, hs', checkEqualSize_self, Res.ok_bind, hr', f_obj]
    have hfr : (⟨1, [some v]⟩ : DD α).f = .ok v := rfl
    rw [hfr]
    simp only [Res.ok_bind]
    have ho : ¬ c.order < 1 := by have := hv.order; omega
    unfold binary
    rw [wr_mk (z := 0) (ψ := fun k => if k = 0 then some (a 0 +ₛ v) else r k) 0 rfl (dlen_pos c 1)
      (by intro m _; by_cases h : m = 0 <;> simp [h])]
    simp only [Res.ok_bind, Coef.isZero, Bool.and_false, Bool.or_false,
      decide_eq_true_eq, ho, if_false, dataLength_obj hf]
    rw [forUp_fail (lo := 1) (hi := dlen c 1) (k := 1) (u := .outOfBounds)
      (fun _ => mk (dlen c 1) (fun k => if k = 0 then some (a 0 +ₛ v) else r k)) (Nat.le_refl 1)
      (by omega) (by intro i h1 h2; omega)]
    · rfl
    · simp only [Src.get]
      rw [rd_obj 1 rfl (by omega)]
      simp only [Res.ok_bind]
      rw [rd_oob (Or.inr (by simp))]
      rfl
  · intro x J hx
    obtain ⟨_, a, rfl⟩ := hx.wf.eq_obj hv.order
    have hJ := hx.unique (shows_obj hv.order hf a)
    have hs : DD.size c (⟨1, [some v]⟩ : DD α) = 1 := by simp [DD.size, hdyn]
    have hs' : (obj c 1 a).size c = 1 := by simpa using size_obj hf a
    have hz : (DD.empty c 1 : Res (DD α)) = .ok (obj c 1 (fun _ => Arith.lit 0)) := by
      have := zero_obj (α := α) hf
      unfold DD.zero at this
      unfold DD.empty
      simpa [hdyn] using this
    refine ⟨obj c 1 (constC (v +ₛ J.f)), ?_, shows_const hv hf _⟩
    have hfr : (⟨1, [some v]⟩ : DD α).f = .ok v := rfl
    have hl : DD.dataLength c (⟨1, [some v]⟩ : DD α) = 1 := by simp [DD.dataLength, hdyn, DD.len]
    unfold DD.add
    simp only [hs, hs', checkEqualSize_self, Res.ok_bind, hz, f_obj, hfr]
    unfold binary
    rw [data_obj, wr_mk0 (ψ := fl (constC (v +ₛ J.f)))]
    · simp only [Res.ok_bind, hl, forUp_empty (Int.le_refl 1), Coef.isZero]
      simp [obj]
    · intro m _
      have h0 : J.f = a 0 := hJ.1
      by_cases h : m = 0 <;> simp [fl, constC, h, h0]

/-- **C38**, the default constructor of dynamic types has the same defect. -/
theorem C38_violated_default [Arith α] {c : Cfg} (hv : c.Valid) (hd : c.tsize = -1) :
    DD.ofScalar c (Arith.lit 0 : α) = .ok (DD.default c) ∧ ∀ n, ¬ WF c n (DD.default c : DD α) := by
  have hdyn : c.isDynamic = true := (isDynamic_iff c).2 hd
  have h1 : DD.ofScalar c (Arith.lit 0 : α) = .ok (DD.default c) := by
    unfold DD.ofScalar
    simp [DD.default, hdyn, wr, forUp, iter]
  refine ⟨h1, ?_⟩
  obtain ⟨r, hr, _, _, hw, _⟩ := C38_violated_dynamic hv hd (Arith.lit 0 : α)
  rw [h1] at hr
  cases hr
  exact hw

/-- **C38** holds for static types: the conversion from a scalar is the constant. -/
theorem C38_static [Arith α] {c : Cfg} (hv : c.Valid) {N : Nat} (hN : c.tsize = N) (v : α) :
    ∃ r, DD.ofScalar c v = .ok r ∧ Shows c N r (constJet v) := by
  have hdyn : c.isDynamic = false := by simp [Cfg.isDynamic, hN]
  have hf : Fits c N := Or.inr hN
  refine ⟨obj c N (constC v), ?_, shows_const hv hf v⟩
  unfold DD.ofScalar
  simp only [DD.default, hdyn, Bool.false_eq_true, if_false, DD.staticUninit,
    staticDataSize_eq hN, replicate_eq_mk, Int.toNat_natCast]
  rw [wr_mk0 (ψ := mix 1 (fl (constC v)) (fun _ => none))]
  · simp only [Res.ok_bind, mk_length]
    rw [forUp_eq' (lo := 1) (hi := dlen c N)
      (fun k => mk (dlen c N) (mix k (fl (constC v)) (fun _ => none))) (zlo := 1) rfl rfl rfl
      (dlen_pos c N)]
    · simp only [Res.ok_bind, mk_mix_all, obj, hdyn]; rfl
    · intro i h1 h2
      rw [wr_mix rfl h2]
      simp [fl, constC, show i ≠ 0 by omega]
  · intro m _
    by_cases h : m = 0 <;> simp [mix, fl, constC, h]

/-- A 1-variable jet to which the bare scalar 3 is added on the right. -/
example : ∃ r, DD.ofScalar exDyn1 (3 : ℚ) = .ok r ∧
    DD.add exDyn1 ⟨1, [some 10, some 20]⟩ r = .ub .outOfBounds := by
  obtain ⟨r, h1, _, _, _, h2, _⟩ := C38_violated_dynamic exDyn1_valid rfl (3 : ℚ)
  exact ⟨r, h1, h2 _ ⟨Or.inl rfl, rfl, rfl, by decide⟩⟩

example : ∃ r, DD.ofScalar exSta2 (3 : ℚ) = .ok r ∧ Shows exSta2 2 r (constJet 3) :=
  C38_static exSta2_valid rfl 3

/-! ## C39 -/

/-- `std::copy` of a list into storage from position `p` on. -/
theorem copyList (data : List α) : ∀ (p : Nat) (d : Data α), p ≤ d.length →
    data.foldlM (init := ((p : Int), d)) (fun (x : Int × Data α) v => do
      let d ← wr x.2 x.1 v
      Res.ok (x.1 + 1, d)) =
    if p + data.length ≤ d.length then
      .ok (((p + data.length : Nat) : Int), d.take p ++ data.map some ++ d.drop (p + data.length))
    else .ub .outOfBounds := by
  induction data with
  | nil => intro p d hp; simp [hp]
  | cons v data ih =>
    intro p d hp
    rw [List.foldlM_cons]
    by_cases h : p < d.length
    · have hw : wr d (p : Int) v = .ok (d.set p (some v)) := by
        unfold wr; rw [if_neg (by omega)]; simp
      simp only [hw, Res.ok_bind]
      have := ih (p + 1) (d.set p (some v)) (by simp; omega)
      push_cast at this
      rw [this]
      have e : (p + 1 + data.length ≤ (d.set p (some v)).length) ↔
          (p + (v :: data).length ≤ d.length) := by simp; omega
      by_cases h2 : p + (v :: data).length ≤ d.length
      · rw [if_pos (e.2 h2), if_pos h2]
        congr 2
        · simp; ring
        · have e2 : (p + 1 + data.length) = p + (v :: data).length := by simp; omega
          rw [e2, List.drop_set_of_lt (by simp)]
          have e3 : (d.set p (some v)).take (p + 1) = d.take p ++ [some v] := by
            rw [List.take_set, List.take_add_one]
            rw [List.getElem?_eq_getElem h]
            rw [List.set_append_right _ _ (by simp)]
            simp [Nat.min_eq_left hp]
          rw [e3]
          simp
      · rw [if_neg (by rw [e]; exact h2), if_neg h2]
    · have hw : wr d (p : Int) v = .ub .outOfBounds := wr_oob (Or.inr (by omega))
      simp only [hw]
      rw [if_neg (by simp; omega)]
      rfl

/-- **C39**, violated for dynamic types: brace construction from any non-empty list of a valid
length writes out of bounds (the vector is empty). -/
theorem C39_violated_dynamic {c : Cfg} (hv : c.Valid) (he : c.exc = true) (hd : c.tsize = -1)
    {n : Nat} (data : List α) (hl : data.length = storedLen c.order n) :
    DD.ofInitList c data = .ub .outOfBounds := by
  have hdyn : c.isDynamic = true := (isDynamic_iff c).2 hd
  unfold DD.ofInitList
  rw [((C05_length_decoding hv he data.length).1 n).2 hl]
  simp only [Res.ok_bind, hdyn, if_true]
  have := copyList data 0 [] (Nat.le_refl _)
  rw [if_neg (by have := storedLen_pos c hv n; simp; intro h; simp [h] at hl; omega)] at this
  simp only [Nat.cast_zero] at this
  rw [this]
  rfl

/-- **C39**, static types: a list with the components of `m` variables is accepted exactly when
`m ≤ N`.  It gives the jet for `m = N`; for `m < N` (the violation) some component is
uninitialised, for `m > N` there is an out-of-bounds write.  Other lengths throw (0 is
accepted and initialises nothing). -/
theorem C39_static {c : Cfg} (hv : c.Valid) (he : c.exc = true) {N : Nat} (hN : c.tsize = N)
    (data : List α) :
    (data.length = storedLen c.order N →
      ∃ x, DD.ofInitList c data = .ok x ∧ WF c N x ∧ x.mData = data.map some) ∧
    (∀ m, m < N → data.length = storedLen c.order m →
      ∃ x, DD.ofInitList c data = .ok x ∧ (∀ n, ¬ WF c n x) ∧
        rd x.mData (data.length : Int) = .ub .uninitialised) ∧
    (∀ m, N < m → data.length = storedLen c.order m →
      DD.ofInitList c data = .ub .outOfBounds) ∧
    (data ≠ [] → (¬ ∃ m, data.length = storedLen c.order m) →
      DD.ofInitList c data = .throw .invalidLength) := by
  have hdyn : c.isDynamic = false := by simp [Cfg.isDynamic, hN]
  have hst : DD.staticUninit α c = List.replicate (storedLen c.order N) none := by
    unfold DD.staticUninit
    rw [staticDataSize_eq hN, storedLen_eq hv.order, Int.toNat_natCast]
  have hmono : ∀ m k, m < k → storedLen c.order m < storedLen c.order k := by
    intro m k hmk
    rw [storedLen_eq hv.order, storedLen_eq hv.order]
    rcases hv.order with h | h
    · rw [dlen_one h, dlen_one h]; omega
    · rw [dlen_two h, dlen_two h]
      have h1 := two_tri_self m
      have h2 := two_tri_self k
      have : m * (m + 1) ≤ k * (k + 1) := Nat.mul_le_mul (by omega) (by omega)
      omega
  obtain ⟨h1, h2, _⟩ := C05_length_decoding hv he data.length
  have key : ∀ m, data.length = storedLen c.order m →
      DD.ofInitList c data = if data.length ≤ storedLen c.order N then
        .ok ⟨0, data.map some ++ List.replicate (storedLen c.order N - data.length) none⟩
        else .ub .outOfBounds := by
    intro m hm
    unfold DD.ofInitList
    rw [(h1 m).2 hm]
    simp only [Res.ok_bind, hdyn, Bool.false_eq_true, if_false, hst]
    have := copyList data 0 (List.replicate (storedLen c.order N) none) (Nat.zero_le _)
    simp only [Nat.cast_zero, Nat.zero_add, List.length_replicate, List.take_zero,
      List.nil_append, List.drop_replicate] at this
    rw [this]
    split <;> rfl
  refine ⟨?_, ?_, ?_, ?_⟩
  · intro hl
    refine ⟨⟨0, data.map some⟩, ?_, ?_, rfl⟩
    · rw [key N hl, if_pos (by omega), hl]; simp
    · exact ⟨Or.inr hN, by simp [hN], by simpa using hl, by simp⟩
  · intro m hm hl
    have hlt := hmono m N hm
    refine ⟨_, by rw [key m hl, if_pos (by omega)], ?_, ?_⟩
    · intro n h
      have hnn := h.init none (by
        simp only [List.mem_append, List.mem_replicate]
        right; exact ⟨by omega, trivial⟩)
      exact hnn rfl
    · unfold rd
      rw [if_neg (by omega), Int.toNat_natCast]
      simp only
      rw [List.getElem?_append_right (by simp)]
      have : (List.replicate (storedLen c.order N - data.length) (none : Option α))[
          data.length - (data.map some).length]? = some none := by
        rw [List.getElem?_replicate, if_pos (by simp; omega)]
      rw [this]
  · intro m hm hl
    have hlt := hmono N m hm
    rw [key m hl, if_neg (by omega)]
  · intro hne hn
    unfold DD.ofInitList
    rw [h2 (by simpa using hne) hn]
    rfl

/-- `DDScalar<2, double, 2>{1.0}` leaves the gradient uninitialised. -/
example : ∃ x, DD.ofInitList exSta2 [(1 : ℚ)] = .ok x ∧ rd x.mData 1 = .ub .uninitialised := by
  obtain ⟨x, h1, _, h2⟩ := (C39_static exSta2_valid rfl (N := 2) rfl [(1 : ℚ)]).2.1 0 (by decide) rfl
  exact ⟨x, h1, h2⟩

example : DD.ofInitList exDyn2 [(1 : ℚ), 2, 3] = .ub .outOfBounds :=
  C39_violated_dynamic exDyn2_valid rfl rfl (n := 1) _ rfl

end HJ
