import Verif.Proofs.Machine
import Verif.Proofs.Round
import Verif.Proofs.PyValues
import Verif.Props.Construct
import Verif.Spec.PyApi
import Mathlib.Tactic.NormNum

/-!
# C60: 64-bit index arithmetic and the square root in doubles

All other theorems compute sizes and indices with unlimited integers.  C60 says that this is
justified for every jet that can be stored at all, and that the decoding of lengths by
`std::sqrt` in double precision is right for all of them.
-/

namespace HJ

/-- Jets that fit into memory have few variables. -/
theorem storable_size {n : Nat} (h : Storable (storedLen 2 n)) : n < 1518500250 := by
  by_contra hc
  push Not at hc
  unfold Storable storedLen at h
  simp only [OfNat.ofNat_ne_one, if_false] at h
  have h1 : 1518500251 * 1518500252 ≤ (n + 1) * (n + 2) := Nat.mul_le_mul (by omega) (by omega)
  have h2 : 1518500251 * 1518500252 / 2 ≤ (n + 1) * (n + 2) / 2 := Nat.div_le_div_right h1
  omega

theorem storable_one {n : Nat} (h : Storable (storedLen 1 n)) : n < 2 ^ 60 := by
  unfold Storable storedLen at h
  simp only [if_true] at h
  omega

/-- **C60**, lengths: computing the length of the data of a jet that can be stored does not
overflow and gives its number of components. -/
theorem C60_length {c : Cfg} (hc : c.order = 1 ∨ c.order = 2) {n : Nat}
    (hn : Storable (storedLen c.order n)) : dataLength64 c n = some (storedLen c.order n : Int) := by
  unfold dataLength64
  rcases hc with h | h
  · rw [h] at hn ⊢
    have := storable_one hn
    rw [if_pos rfl, i64_ok (by omega) (by omega)]
    simp [storedLen]
  · rw [h] at hn ⊢
    have hs := storable_size hn
    have hp : ((n : Int) + 1) * (n + 2) < 2 ^ 63 := by
      have : ((n : Int) + 1) * (n + 2) ≤ 1518500250 * 1518500251 :=
        mul_le_mul (by omega) (by omega) (by omega) (by omega)
      omega
    have h0 : 0 ≤ ((n : Int) + 1) * (n + 2) := by positivity
    have e : (((n : Int) + 1) * (n + 2)).tdiv 2 = ((storedLen 2 n : Nat) : Int) := by
      rw [Int.tdiv_eq_ediv_of_nonneg h0]
      unfold storedLen
      simp only [OfNat.ofNat_ne_one, if_false]
      push_cast
      rfl
    simp only [OfNat.ofNat_ne_one, if_false, Option.bind_eq_bind]
    rw [i64_ok (by omega) (by omega), Option.bind_some, i64_ok (by omega) (by omega),
      Option.bind_some, i64_ok (by omega) hp, Option.bind_some, e, i64_ok (by omega) ?_]
    unfold Storable at hn
    omega

/-- **C60**, violated: a request for an order-2 jet of `size` variables (`empty(size)`,
`resize(size)`, ... of a dynamic class) is undefined behaviour instead of an error as soon as the
size is 3037000499 or more. -/
theorem C60_violated_size {c : Cfg} (hc : c.order = 2) {size : Int} (h0 : 0 ≤ size)
    (h63 : size < 2 ^ 63) : dataLength64 c size = none ↔ 3037000499 ≤ size := by
  unfold dataLength64
  simp only [hc, OfNat.ofNat_ne_one, if_false, Option.bind_eq_bind]
  constructor
  · intro h
    by_contra hlt
    have hp : (size + 1) * (size + 2) ≤ 3037000499 * 3037000500 :=
      mul_le_mul (by omega) (by omega) (by omega) (by omega)
    have h1 : 0 ≤ (size + 1) * (size + 2) := by positivity
    rw [i64_ok (by omega) (by omega), Option.bind_some, i64_ok (by omega) (by omega),
      Option.bind_some, i64_ok (by omega) (by omega), Option.bind_some,
      Int.tdiv_eq_ediv_of_nonneg h1, i64_ok (by omega) (by omega)] at h
    cases h
  · intro h
    have hp : 3037000500 * 3037000501 ≤ (size + 1) * (size + 2) :=
      mul_le_mul (by omega) (by omega) (by omega) (by omega)
    rcases lt_or_ge (size + 1) (2 ^ 63) with h1 | h1
    · rw [i64_ok (by omega) h1, Option.bind_some]
      rcases lt_or_ge (size + 2) (2 ^ 63) with h2 | h2
      · rw [i64_ok (by omega) h2, Option.bind_some, i64_none (by omega)]; rfl
      · rw [i64_none h2]; rfl
    · rw [i64_none h1]; rfl

/-- The undefined behaviour is not harmless: with two's complement arithmetic there is a size for
which storage for two numbers is allocated. -/
theorem C60_violated_wrapped : dataLengthWrapped 4814665733036938099 = 2 := by
  norm_num [dataLengthWrapped, wrap64]
  rfl

/-- **C60**, what wrapping around means: the result is the 64-bit number congruent to the exact one, and
without overflow nothing changes. -/
theorem C60_wrapped {c : Cfg} (hc : c.order = 2) :
    (∀ z, -2 ^ 63 ≤ wrap64 z ∧ wrap64 z < 2 ^ 63 ∧ (2 ^ 64 : Int) ∣ z - wrap64 z) ∧
    ∀ size m, dataLength64 c size = some m → dataLengthWrapped size = m := by
  refine ⟨fun z => ?_, fun size m h => ?_⟩
  · unfold wrap64
    omega
  · have key : ∀ {z w : Int}, i64 z = some w → wrap64 z = z ∧ w = z := by
      intro z w hz
      unfold i64 at hz
      split at hz
      · cases hz
        refine ⟨?_, rfl⟩
        unfold wrap64
        omega
      · cases hz
    simp only [dataLength64, hc, OfNat.ofNat_ne_one, if_false, Option.bind_eq_bind,
      Option.bind_eq_some_iff] at h
    obtain ⟨a, ha, b, hb, p, hp, hm⟩ := h
    obtain ⟨ka, rfl⟩ := key ha
    obtain ⟨kb, rfl⟩ := key hb
    obtain ⟨kp, rfl⟩ := key hp
    obtain ⟨_, rfl⟩ := key hm
    unfold dataLengthWrapped
    rw [ka, kb, kp]

example : dataLengthWrapped 3 = 10 :=
  (C60_wrapped (c := exDyn2) rfl).2 3 10 (by decide)

/-- **C60**, subscripts: in a jet that can be stored, the subscripts of `g(i)`, `h(i)`, `h(i, j)` and
of the walk in `eval` are computed without overflow and are the documented cells. -/
theorem C60_subscripts {c : Cfg} (hc : c.order = 1 ∨ c.order = 2) {n : Nat}
    (hn : Storable (storedLen c.order n)) :
    (∀ i : Nat, i < n → gAt64 i = some (1 + i : Int)) ∧
    (c.order = 2 → ∀ i : Nat, 1 + n + i < storedLen c.order n →
      hFlat64 n i = some (1 + n + i : Int)) ∧
    (c.order = 2 → ∀ i j : Nat, i < n → j < n → hAt64 n i j = some (hCell n i j)) ∧
    (c.order = 2 → ∀ i j : Nat, j ≤ i → i < n → evalK64 n i j = some (hCell n j i)) := by
  have hstored : (storedLen c.order n : Int) < 2 ^ 60 := by
    unfold Storable at hn; omega
  have hn60 : n < 2 ^ 60 := by
    rcases hc with h | h
    · rw [h] at hn; exact storable_one hn
    · rw [h] at hn; have := storable_size hn; omega
  -- the row formula
  have hrow : c.order = 2 → ∀ p q : Nat, p ≤ q → q < n → hRow64 n p q = some (hCell n p q) := by
    intro h2 p q hpq hq
    rw [h2] at hn
    have hs := storable_size hn
    have hle : (2 * (n : Int) - 1 - p) * p ≤ 3037000500 * 1518500250 :=
      mul_le_mul (by omega) (by omega) (by omega) (by omega)
    have h0 : 0 ≤ (2 * (n : Int) - 1 - p) * p := mul_nonneg (by omega) (by omega)
    have ht : ((2 * (n : Int) - 1 - p) * p).tdiv 2 = ((2 * (n : Int) - 1 - p) * p) / 2 :=
      Int.tdiv_eq_ediv_of_nonneg h0
    unfold hRow64 hCell
    simp only [Option.bind_eq_bind]
    rw [i64_ok (by omega) (by omega), Option.bind_some, i64_ok (by omega) (by omega),
      Option.bind_some, i64_ok (by omega) (by omega), Option.bind_some,
      i64_ok (by omega) (by omega), Option.bind_some, i64_ok (by omega) (by omega),
      Option.bind_some, ht, i64_ok (by omega) (by omega), Option.bind_some,
      i64_ok (by omega) (by omega), Option.bind_some, i64_ok (by omega) (by omega),
      min_eq_left (by omega), max_eq_right (by omega), ht]
  refine ⟨fun i hi => ?_, fun _ i hi => ?_, fun h2 i j hi hj => ?_, fun h2 i j hj hi => ?_⟩
  · unfold gAt64; rw [i64_ok (by omega) (by omega)]
  · unfold hFlat64
    simp only [Option.bind_eq_bind]
    rw [i64_ok (by omega) (by omega), Option.bind_some, i64_ok (by omega) (by omega)]
  · unfold hAt64
    split
    · exact hrow h2 i j (by omega) hj
    · rw [hrow h2 j i (by omega) hi]
      unfold hCell
      rw [min_comm, max_comm]
  · have hcell : ∀ q p : Nat, p ≤ q → q < n → hCell n p q = (pos n p q : Nat) := fun q p a b => hCell_pos a b
    rw [hcell i j hj hi]
    have hlt : ∀ p : Nat, p ≤ i → (pos n p i : Int) < 2 ^ 60 := by
      intro p hp
      have h1 := pos_lt h2 hp hi
      rw [← storedLen_eq hc] at h1
      omega
    induction j with
    | zero =>
      have : pos n 0 i = 1 + n + i := by simp [pos, tri]
      have h0 := hlt 0 (by omega)
      unfold evalK64
      simp only [Option.bind_eq_bind]
      rw [i64_ok (by omega) (by omega), Option.bind_some, i64_ok (by omega) (by omega), this]
      push_cast
      rfl
    | succ j ih =>
      have e : pos n (j + 1) i = pos n j i + (n - j - 1) := by
        have h1 := hCell_pos (n := n) (p := j) (q := i) (by omega) hi
        unfold pos
        have : tri n (j + 1) = tri n j + (n - j) := by simp [tri]
        omega
      have h0 := hlt (j + 1) hj
      unfold evalK64
      simp only [Option.bind_eq_bind]
      rw [ih (by omega), Option.bind_some, i64_ok (by omega) (by omega), Option.bind_some,
        i64_ok (by omega) (by omega), Option.bind_some, i64_ok (by omega) (by omega), e]
      congr 1
      omega

/-- The square root of the rounded number is at most `2³²` and at least 1. -/
theorem Fpu.Correct.root_range {u : Fpu} (hu : u.Correct) {t : Int} (h1 : 1 ≤ t) (h2 : t < 2 ^ 63) :
    0 ≤ u.conv t ∧ 1 ≤ u.sqrt (u.conv t) ∧ u.sqrt (u.conv t) ≤ 2 ^ 32 := by
  have f1 : IsF53 1 := ⟨1, 0, by norm_num, by simp⟩
  have ha : 1 ≤ u.conv t := (hu.conv t).ge f1 (by exact_mod_cast h1)
  have hb : u.conv t ≤ 2 ^ 64 := (hu.conv t).le (isF53_pow 64) (by
    have : ((t : ℚ) : ℝ) ≤ ((2 ^ 64 : ℚ) : ℝ) := by exact_mod_cast (by omega : t ≤ 2 ^ 64)
    simpa using this)
  have h0 : 0 ≤ u.conv t := by linarith
  have ha' : (1 : ℝ) ≤ u.conv t := by exact_mod_cast ha
  have hb' : ((u.conv t : ℚ) : ℝ) ≤ 2 ^ 64 := by exact_mod_cast hb
  refine ⟨h0, (hu.sqrt _ h0).ge f1 ?_, (hu.sqrt _ h0).le (isF53_pow 32) ?_⟩
  · push_cast
    exact Real.one_le_sqrt.2 ha'
  · push_cast
    rw [Real.sqrt_le_left (by norm_num)]
    calc ((u.conv t : ℚ) : ℝ) ≤ 2 ^ 64 := hb'
      _ = (2 ^ 32) ^ 2 := by norm_num

theorem truncRat_between {q : ℚ} (h1 : -2 ≤ q) (h2 : q ≤ 2 ^ 32) :
    -2 ≤ truncRat q ∧ truncRat q ≤ 2 ^ 32 := by
  have hd : (0 : ℤ) < q.den := by exact_mod_cast q.den_pos
  have hq : (q.num : ℚ) = q * q.den := (Rat.mul_den_eq_num q).symm
  have hdq : (0 : ℚ) < q.den := by exact_mod_cast q.den_pos
  have a1 : -2 * (q.den : ℤ) ≤ q.num := by
    have : (-2 * (q.den : ℤ) : ℚ) ≤ q.num := by rw [hq]; push_cast; nlinarith
    exact_mod_cast this
  have a2 : q.num ≤ 2 ^ 32 * (q.den : ℤ) := by
    have : (q.num : ℚ) ≤ (2 ^ 32 * (q.den : ℤ) : ℚ) := by rw [hq]; push_cast; nlinarith
    exact_mod_cast this
  unfold truncRat
  constructor
  · have := Int.tdiv_le_tdiv hd a1
    rwa [Int.mul_tdiv_cancel _ hd.ne'] at this
  · have := Int.tdiv_le_tdiv hd a2
    rwa [Int.mul_tdiv_cancel _ hd.ne'] at this

/-- The assumption `Cfg.Valid.root` about the square root (exact on odd squares) holds for every
correctly rounded square root of doubles, for all squares that fit into 64 bits -- also for those
that are not doubles themselves. -/
theorem C60_root {u : Fpu} (hu : u.Correct) (k : Nat) (hk : (2 * k + 1) * (2 * k + 1) < 2 ^ 63) :
    u.sqrt (u.conv ((2 * k + 1) * (2 * k + 1))) = 2 * k + 1 := by
  have hr := hu.root_range (t := (2 * k + 1) * (2 * k + 1)) (by nlinarith) (by exact_mod_cast hk)
  have hlt : 2 * k + 1 < 2 ^ 52 := by
    by_contra hc
    push Not at hc
    have := Nat.mul_le_mul hc hc
    omega
  have hc := hu.conv ((2 * k + 1) * (2 * k + 1))
  have := sqrt_square (m := 2 * k + 1) (by omega) hlt (y := u.conv ((2 * k + 1) * (2 * k + 1)))
    (by push_cast at hc ⊢; exact hc) (hu.sqrt _ hr.1)
  rw [this]
  push_cast
  rfl

/-- **C60**, decoding of lengths: for every length `L > 0` of data that can be stored, and correctly
rounded floating point operations, `size_from_data_length` does not overflow; it returns `n` when
`L` is the number of components of a jet of `n` variables and throws when there is no such `n`. -/
theorem C60_decode {c : Cfg} (hv : c.Valid) {u : Fpu} (hu : u.Correct) {L : Nat} (h0 : 0 < L)
    (hL : Storable L) :
    (∀ n : Nat, L = storedLen c.order n → decode64 c u L = some (.ok n)) ∧
    ((¬ ∃ n, L = storedLen c.order n) → decode64 c u L = some (.throw .invalidLength)) := by
  have hL' : 8 * L < 2 ^ 63 := hL
  -- the size that is computed, and its range
  obtain ⟨s, hs, hs1, hs2, hval⟩ : ∃ s : Int,
      decodeSize64 c u L = some s ∧ -1 ≤ s ∧ (if c.order = 1 then s < 2 ^ 60 else s ≤ 2 ^ 31) ∧
      ∀ n : Nat, L = storedLen c.order n → s = n := by
    rcases hv.order with ho | ho
    · refine ⟨(L : Int) - 1, ?_, by omega, ?_, ?_⟩
      · unfold decodeSize64
        rw [if_pos ho, i64_ok (by omega) (by omega)]
      · rw [if_pos ho]; omega
      · intro n hn
        rw [ho] at hn
        simp only [storedLen, if_true] at hn
        omega
    · have h1 : ¬ c.order = 1 := by omega
      have hr := hu.root_range (t := 1 + 8 * (L : Int)) (by omega) (by omega)
      have hsub := hu.sub (u.sqrt (u.conv (1 + 8 * (L : Int)))) 3
      set r := u.sqrt (u.conv (1 + 8 * (L : Int))) with hrdef
      have hsub1 : -2 ≤ u.sub r 3 := hsub.ge (b := -2) ⟨-2, 0, by norm_num, by simp⟩ (by
        have : (-2 : ℚ) ≤ r - 3 := by linarith [hr.2.1]
        exact_mod_cast this)
      have hsub2 : u.sub r 3 ≤ 2 ^ 32 := hsub.le (isF53_pow 32) (by
        have : r - 3 ≤ (2 ^ 32 : ℚ) := by linarith [hr.2.2]
        exact_mod_cast this)
      have ht := truncRat_between hsub1 hsub2
      refine ⟨(truncRat (u.sub r 3)).tdiv 2, ?_, ?_, ?_, ?_⟩
      · unfold decodeSize64
        simp only [if_neg h1, Option.bind_eq_bind]
        rw [i64_ok (by omega) (by omega), Option.bind_some, i64_ok (by omega) (by omega),
          Option.bind_some, ← hrdef, i64_ok (by omega) (by omega), Option.bind_some]
      · have := Int.tdiv_le_tdiv (c := 2) (by norm_num) ht.1
        exact this
      · rw [if_neg h1]
        have := Int.tdiv_le_tdiv (c := 2) (by norm_num) ht.2
        exact this
      · intro n hn
        rw [ho] at hn
        have hsq : (1 + 8 * (L : Int)) = (2 * (n + 1 : Nat) + 1) * (2 * (n + 1 : Nat) + 1) := by
          have : 2 * L = (n + 1) * (n + 2) := by
            rw [hn]
            unfold storedLen
            simp only [OfNat.ofNat_ne_one, if_false]
            exact Nat.mul_div_cancel' (Nat.even_mul_succ_self (n + 1)).two_dvd
          have : (2 * L : Int) = (n + 1) * (n + 2) := by exact_mod_cast this
          push_cast
          linarith
        have hroot := C60_root hu (n + 1) (by
          have : ((2 * (n + 1 : Nat) + 1) * (2 * (n + 1 : Nat) + 1) : Int) < 2 ^ 63 := by
            rw [← hsq]; omega
          exact_mod_cast this)
        have hrn : r = ((2 * (n + 1) + 1 : Nat) : ℚ) := by
          rw [hrdef, hsq]
          push_cast at hroot ⊢
          exact hroot
        have hn53 : 2 * n < 2 ^ 33 := by
          have h := hr.2.2
          rw [hrn] at h
          have : 2 * (n + 1) + 1 ≤ 2 ^ 32 := by exact_mod_cast h
          omega
        have he : u.sub r 3 = ((2 * n : Int) : ℚ) := by
          have : r - 3 = ((2 * n : Int) : ℚ) := by rw [hrn]; push_cast; ring
          rw [this] at hsub
          exact hsub.exact (isF53_of_int (by rw [abs_of_nonneg (by positivity)]; omega))
        rw [he]
        unfold truncRat
        rw [Rat.num_intCast, Rat.den_intCast]
        simp
  have hlen : dataLength64 c s = some (dataLengthFromSize c s) := by
    unfold dataLength64 dataLengthFromSize
    split
    · rename_i h1
      rw [if_pos h1] at hs2
      exact i64_ok (by omega) (by omega)
    · rename_i h1
      rw [if_neg h1] at hs2
      have hp : (s + 1) * (s + 2) ≤ (2 ^ 31 + 1) * (2 ^ 31 + 2) :=
        mul_le_mul (by omega) (by omega) (by omega) (by omega)
      have hp0 : 0 ≤ (s + 1) * (s + 2) := mul_nonneg (by omega) (by omega)
      simp only [Option.bind_eq_bind]
      rw [i64_ok (by omega) (by omega), Option.bind_some, i64_ok (by omega) (by omega),
        Option.bind_some, i64_ok (by omega) (by omega), Option.bind_some,
        Int.tdiv_eq_ediv_of_nonneg hp0, i64_ok (by omega) (by omega)]
  have hdec : decode64 c u L = if dataLengthFromSize c s != L then some (.throw .invalidLength)
      else some (.ok s) := by
    unfold decode64
    rw [hs]
    simp only [Option.bind_eq_bind, Option.bind_some, hlen]
  refine ⟨fun n hn => ?_, fun hno => ?_⟩
  · rw [hdec, hval n hn, dataLength_stored hv, hn]
    simp
  · rw [hdec, if_pos]
    simp only [bne_iff_ne, ne_eq]
    intro h
    rcases length_valid hv h with h | h
    · omega
    · exact hno h

/-- **C60**, the idealised decoding used elsewhere in the model agrees with the machine. -/
theorem C60_agrees {c : Cfg} (hv : c.Valid) (he : c.exc = true) {u : Fpu} (hu : u.Correct) {L : Nat}
    (h0 : 0 < L) (hL : Storable L) : decode64 c u L = some (sizeFromDataLength c L) := by
  obtain ⟨h1, h2⟩ := C60_decode hv hu h0 hL
  obtain ⟨g1, g2, _⟩ := C05_length_decoding hv he L
  by_cases h : ∃ n, L = storedLen c.order n
  · obtain ⟨n, hn⟩ := h
    rw [h1 n hn, (g1 n).2 hn]
  · rw [h2 h, g2 (by omega) h]

/-! ## Examples -/

/-- A billion variables: `2⁵³ < 8 L + 1`, so the argument of the square root is rounded. -/
example : Storable (storedLen 2 1000000000) ∧ 2 ^ 53 < 8 * storedLen 2 1000000000 + 1 := by
  unfold Storable storedLen
  norm_num

example {c : Cfg} (hv : c.Valid) (ho : c.order = 2) :
    decode64 c ieee (storedLen 2 1000000000 : Nat) = some (.ok 1000000000) := by
  have := (C60_decode hv ieee_correct (L := storedLen c.order 1000000000)
    (by rw [ho]; norm_num [storedLen]) (by rw [ho]; norm_num [Storable, storedLen])).1 _ rfl
  rwa [ho] at this

/-- `500000001500000000` is not the length of the data of any jet of order 2. -/
example {c : Cfg} (hv : c.Valid) (ho : c.order = 2) :
    decode64 c ieee (500000001500000000 : Nat) = some (.throw .invalidLength) := by
  refine (C60_decode hv ieee_correct (by norm_num) (by norm_num [Storable])).2 ?_
  rintro ⟨n, hn⟩
  rw [ho] at hn
  unfold storedLen at hn
  simp only [OfNat.ofNat_ne_one, if_false] at hn
  rcases Nat.lt_or_ge n 1000000000 with h | h
  · have : (n + 1) * (n + 2) ≤ 1000000000 * 1000000001 := Nat.mul_le_mul (by omega) (by omega)
    omega
  · have : 1000000001 * 1000000002 ≤ (n + 1) * (n + 2) := Nat.mul_le_mul (by omega) (by omega)
    omega

example : hAt64 1000000000 5 7 = some 5999999993 := by
  have := (C60_subscripts (c := ⟨2, -1, true, false, fun _ => 0⟩) (Or.inr rfl) (n := 1000000000)
    (by norm_num [Storable, storedLen])).2.2.1 rfl 5 7 (by norm_num) (by norm_num)
  simpa [hCell] using this

example {c : Cfg} (hc : c.order = 2) : dataLength64 c 3037000499 = none :=
  (C60_violated_size hc (by norm_num) (by norm_num)).2 le_rfl

end HJ
