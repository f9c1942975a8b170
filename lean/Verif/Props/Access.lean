import Verif.Proofs.Shows
import Verif.Proofs.Triangle
import Verif.Spec.Samples

/-!
# C02, C03, C04: component accessors
-/

namespace HJ

variable {α : Type}

/-! ## C02 -/

/-- **C02.** The cells addressed by `h(i, j)`: inside the Hessian block of the storage, the same
for `(i, j)` and `(j, i)`, different for different unordered pairs, and all of the block;
and `h(i, j)` returns the contents of that cell. -/
theorem C02_hessian_cells {c : Cfg} (hv : c.Valid) (h2 : c.order = 2) {n : Nat} {x : DD α}
    (hx : WF c n x) :
    (∀ i j : Nat, i < n → j < n →
      (1 + n : Int) ≤ DD.hIndex (x.size c) i j ∧ DD.hIndex (x.size c) i j < x.mData.length ∧
      ∃ v, x.h c i j = .ok v ∧
        x.mData[(DD.hIndex (x.size c) i j).toNat]? = some (some v)) ∧
    (∀ i j : Nat, i < n → j < n → x.h c i j = x.h c j i) ∧
    (∀ i j i' j' : Nat, i < n → j < n → i' < n → j' < n →
      (DD.hIndex (x.size c) i j = DD.hIndex (x.size c) i' j' ↔
        (i = i' ∧ j = j') ∨ (i = j' ∧ j = i'))) ∧
    (∀ k : Nat, 1 + n ≤ k → k < x.mData.length →
      ∃ i j : Nat, i ≤ j ∧ j < n ∧ DD.hIndex (x.size c) i j = k) := by
  obtain ⟨hf, a, rfl⟩ := hx.eq_obj hv.order
  rw [size_obj hf]
  have hL : (obj c n a).mData.length = dlen c n := by simp [obj]
  rw [hL]
  have key : ∀ i j : Nat, i < n → j < n → ∃ p q, p ≤ q ∧ q < n ∧
      ((p = i ∧ q = j) ∨ (p = j ∧ q = i)) ∧ DD.hIndex (n : Int) i j = (pos n p q : Int) := by
    intro i j hi hj
    by_cases hij : i ≤ j
    · exact ⟨i, j, hij, hj, Or.inl ⟨rfl, rfl⟩, hIndex_eq hij hj⟩
    · exact ⟨j, i, by omega, hi, Or.inr ⟨rfl, rfl⟩, by
        rw [hIndex_comm]; exact hIndex_eq (by omega) hi⟩
  refine ⟨?_, ?_, ?_, ?_⟩
  · intro i j hi hj
    obtain ⟨p, q, hpq, hq, _, he⟩ := key i j hi hj
    have h1 := pos_gt n p q
    have h3 := pos_lt (c := c) h2 hpq hq
    refine ⟨by omega, by omega, a (pos n p q), ?_, ?_⟩
    · have hs := shows_obj hv.order hf a
      unfold DD.h assertB
      rw [size_obj hf, he, rd_obj _ rfl h3]
      simp [hi, hj]
    · rw [he]
      rw [Int.toNat_natCast, data_obj, mk_getElem?, if_pos h3]; rfl
  · intro i j hi hj
    have hs := shows_obj hv.order hf a
    rw [hs.h h2 i j hi hj, hs.h h2 j i hj hi, hs.sym h2 hi hj]
  · intro i j i' j' hi hj hi' hj'
    constructor
    · intro heq
      obtain ⟨p, q, hpq, hq, hcase, he⟩ := key i j hi hj
      obtain ⟨p', q', hpq', hq', hcase', he'⟩ := key i' j' hi' hj'
      have hpos : pos n p q = pos n p' q' := by
        have : (pos n p q : Int) = pos n p' q' := by rw [← he, ← he', heq]
        exact_mod_cast this
      have hd := dec_pos hpq hq
      rw [hpos, dec_pos hpq' hq'] at hd
      simp only [Prod.mk.injEq] at hd
      omega
    · rintro (⟨rfl, rfl⟩ | ⟨rfl, rfl⟩)
      · rfl
      · exact hIndex_comm _ _ _
  · intro k h1 hk
    rw [dlen_two h2] at hk
    obtain ⟨p1, p2, p3⟩ := tri_dec (n := n) (m := k - 1 - n) (by omega)
    refine ⟨_, _, p1, p2, ?_⟩
    rw [hIndex_eq p1 p2, p3]
    congr 1
    omega

/-- The case of a dynamic jet of 2 variables: `h(0,1)` is the cell holding 50. -/
example : ∃ v, exJet.h exDyn2 0 1 = .ok v ∧
    exJet.mData[(DD.hIndex (exJet.size exDyn2) 0 1).toNat]? = some (some v) :=
  ((C02_hessian_cells exDyn2_valid rfl exJet_wf).1 0 1 (by decide) (by decide)).2.2

/-! ## C03 -/

/-- The Hessian after assigning `v` to the entry `{i, j}`. -/
def hUpdate (h : Nat → Nat → α) (i j : Nat) (v : α) (p q : Nat) : α :=
  if (p = i ∧ q = j) ∨ (p = j ∧ q = i) then v else h p q

/-- **C03.** Each setter succeeds and changes exactly the addressed component: afterwards the
object shows the old jet with that component replaced. -/
theorem C03_framed_writes [Arith α] {c : Cfg} (hv : c.Valid) {n : Nat} {x : DD α} {J : Jet α}
    (hx : Shows c n x J) (v : α) :
    (∃ y, x.setF v = .ok y ∧ Shows c n y { J with f := v }) ∧
    (∀ i : Nat, i < n → ∃ y, x.setG c i v = .ok y ∧
      Shows c n y { J with g := fun p => if p = i then v else J.g p }) ∧
    (c.order = 2 → ∀ i j : Nat, i < n → j < n → ∃ y, x.setH c i j v = .ok y ∧
      Shows c n y { J with h := hUpdate J.h i j v }) ∧
    (c.order = 2 → ∀ (k i j : Nat), (upperPairs n)[k]? = some (i, j) →
      ∃ y, x.setHFlat c k v = .ok y ∧ Shows c n y { J with h := hUpdate J.h i j v }) ∧
    Shows c n x.setZero ⟨Arith.lit 0, fun _ => Arith.lit 0, fun _ _ => Arith.lit 0⟩ := by
  obtain ⟨hf, a, rfl⟩ := hx.wf.eq_obj hv.order
  have hJ := hx.unique (shows_obj hv.order hf a)
  have hle := le_dlen c n
  have hsym := fun h2 i j hi hj => hx.sym (i := i) (j := j) h2 hi hj
  -- the write to the cell of `h(i,j)`
  have hwrite : c.order = 2 → ∀ i j : Nat, i ≤ j → j < n → ∃ b : Nat → α,
      wr (mk (dlen c n) (fl a)) (pos n i j : Int) v = .ok (mk (dlen c n) (fl b)) ∧
      Shows c n (obj c n b) { J with h := hUpdate J.h i j v } := by
    intro h2 i j hij hj
    refine ⟨fun k => if k = pos n i j then v else a k, ?_, ?_⟩
    · apply wr_mk _ rfl (pos_lt h2 hij hj)
      intro m _
      by_cases h : m = pos n i j <;> simp [fl, h]
    · apply shows_of_obj hv.order hf
      · have := pos_gt n i j
        simp only [if_neg (show ¬ 0 = pos n i j by omega)]
        exact hJ.1.symm
      · intro p hp
        have := pos_gt n i j
        simp only [if_neg (show ¬ 1 + p = pos n i j by omega)]
        exact (hJ.2.1 p hp).symm
      · intro _ p q hpq hq
        simp only [hUpdate]
        by_cases he : p = i ∧ q = j
        · obtain ⟨rfl, rfl⟩ := he; simp
        · have hne : pos n p q ≠ pos n i j := by
            intro h
            have h1 := dec_pos hpq hq
            rw [h, dec_pos hij hj] at h1
            simp only [Prod.mk.injEq] at h1
            omega
          rw [if_neg hne]
          have hne2 : ¬ ((p = i ∧ q = j) ∨ (p = j ∧ q = i)) := by omega
          rw [if_neg hne2, hJ.2.2 h2 p q (by omega) hq]
          simp [jetOf, hpq]
      · intro _ p q hp hq
        simp only [hUpdate]
        by_cases he : (p = i ∧ q = j) ∨ (p = j ∧ q = i)
        · rw [if_pos he, if_pos (by tauto)]
        · rw [if_neg he, if_neg (by tauto), hsym h2 p q hp hq]
  refine ⟨?_, ?_, ?_, ?_, ?_⟩
  · refine ⟨_, setF_obj c n a v, ?_⟩
    apply shows_of_obj hv.order hf
    · simp
    · intro i hi
      simp only [if_neg (show ¬ 1 + i = 0 by omega)]
      exact (hJ.2.1 i hi).symm
    · intro h2 i j hij hj
      have := pos_gt n i j
      simp only [if_neg (show ¬ pos n i j = 0 by omega)]
      rw [hJ.2.2 h2 i j (by omega) hj]
      simp [jetOf, hij]
    · exact fun h2 i j hi hj => hsym h2 i j hi hj
  · intro i hi
    refine ⟨obj c n (fun k => if k = 1 + i then v else a k), ?_, ?_⟩
    · unfold DD.setG assertB
      rw [size_obj hf]
      simp only [Nat.cast_lt, hi, decide_true, Bool.not_true, Bool.and_false, Bool.false_eq_true,
        if_false, Res.ok_bind]
      rw [data_obj, wr_mk (1 + i) (by push_cast; rfl) (by omega)
        (ψ := fl (fun k => if k = 1 + i then v else a k))]
      · rfl
      · intro m _; by_cases h : m = 1 + i <;> simp [fl, h]
    · apply shows_of_obj hv.order hf
      · simp only [if_neg (show ¬ 0 = 1 + i by omega)]; exact hJ.1.symm
      · intro p hp
        by_cases h : p = i
        · simp [h]
        · simp only [if_neg h, if_neg (show ¬ 1 + p = 1 + i by omega)]
          exact (hJ.2.1 p hp).symm
      · intro h2 p q hpq hq
        have := pos_gt n p q
        simp only [if_neg (show ¬ pos n p q = 1 + i by omega)]
        rw [hJ.2.2 h2 p q (by omega) hq]
        simp [jetOf, hpq]
      · exact fun h2 i j hi hj => hsym h2 i j hi hj
  · intro h2 i j hi hj
    have hset : ∀ p q : Nat, p ≤ q → q < n → ((p = i ∧ q = j) ∨ (p = j ∧ q = i)) →
        ∃ y, (obj c n a).setH c i j v = .ok y ∧ Shows c n y { J with h := hUpdate J.h p q v } := by
      intro p q hpq hq hc
      obtain ⟨b, hb, hs⟩ := hwrite h2 p q hpq hq
      refine ⟨obj c n b, ?_, hs⟩
      unfold DD.setH assertB
      rw [size_obj hf]
      have he : DD.hIndex (n : Int) i j = (pos n p q : Int) := by
        rcases hc with ⟨rfl, rfl⟩ | ⟨rfl, rfl⟩
        · exact hIndex_eq hpq hq
        · rw [hIndex_comm]; exact hIndex_eq hpq hq
      rw [he, data_obj, hb]
      simp [hi, hj, obj]
    by_cases hij : i ≤ j
    · exact hset i j hij hj (Or.inl ⟨rfl, rfl⟩)
    · obtain ⟨y, hy, hs⟩ := hset j i (by omega) hi (Or.inr ⟨rfl, rfl⟩)
      refine ⟨y, hy, ?_⟩
      have : hUpdate J.h j i v = hUpdate J.h i j v := by
        funext p q
        simp only [hUpdate]
        by_cases he : (p = i ∧ q = j) ∨ (p = j ∧ q = i)
        · rw [if_pos he, if_pos (by tauto)]
        · rw [if_neg he, if_neg (by tauto)]
      rwa [this] at hs
  · intro h2 k i j hk
    have hkl : k < tri n n := by
      rw [← upperPairs_length]
      by_contra h
      rw [List.getElem?_eq_none (by omega)] at hk
      simp at hk
    rw [upperPairs_dec hkl] at hk
    obtain ⟨p1, p2, p3⟩ := tri_dec hkl
    simp only [Option.some.injEq] at hk
    rw [hk] at p1 p2 p3
    simp only at p1 p2 p3
    obtain ⟨b, hb, hs⟩ := hwrite h2 i j p1 p2
    refine ⟨obj c n b, ?_, hs⟩
    unfold DD.setHFlat assertB
    rw [size_obj hf]
    have ht := two_tri_self n
    have hlt : (k : Int) < ((n : Int) * (n + 1)).tdiv 2 := by
      have : ((n : Int) * (n + 1)) = 2 * (tri n n : Int) := by exact_mod_cast ht.symm
      rw [this, Int.mul_tdiv_cancel_left _ (by norm_num)]
      exact_mod_cast hkl
    have he : 1 + (n : Int) + k = (pos n i j : Int) := by
      unfold pos; rw [p3]; push_cast; ring
    rw [he, data_obj, hb]
    simp [hlt, obj]
  · have : (obj c n a).setZero = obj c n (fun _ => (Arith.lit 0 : α)) := by
      unfold DD.setZero obj
      congr 1
      simp [mk, fl]
    rw [this]
    exact shows_of_obj hv.order hf rfl (fun _ _ => rfl) (fun _ _ _ _ _ => rfl)
      (fun _ _ _ _ _ => rfl)

/-- Writing 99 to `h(1, 0)` of the sample jet: `h(0, 1)` reads 99 and `h(1, 1)` is still 60. -/
example : (do let y ← exJet.setH exDyn2 1 0 99
              let u ← y.h exDyn2 0 1
              let w ← y.h exDyn2 1 1
              pure (u, w)) = (.ok (99, 60) : Res (ℚ × ℚ)) := by
  simp [exJet, DD.setH, DD.h, DD.size, exCfg, Cfg.isDynamic, assertB, DD.hIndex, wr, rd]

/-- The hypotheses of C03 hold for the sample jet. -/
example : ∃ J, Shows exDyn2 2 exJet J := exJet_wf.shows exDyn2_valid.order

/-! ## C04 -/

/-- **C04.** The flat accessor enumerates the upper triangle row by row, and there are
`n (n + 1) / 2` entries. -/
theorem C04_flat_index {c : Cfg} (hv : c.Valid) (h2 : c.order = 2) {n : Nat} {x : DD α} {J : Jet α}
    (hx : Shows c n x J) :
    (upperPairs n).length = n * (n + 1) / 2 ∧
    ∀ k i j : Nat, (upperPairs n)[k]? = some (i, j) →
      i ≤ j ∧ j < n ∧ x.hFlat c k = x.h c i j ∧ x.hFlat c k = .ok (J.h i j) := by
  obtain ⟨hf, a, rfl⟩ := hx.wf.eq_obj hv.order
  have ht := two_tri_self n
  refine ⟨by rw [upperPairs_length]; omega, ?_⟩
  intro k i j hk
  have hkl : k < tri n n := by
    rw [← upperPairs_length]
    by_contra h
    rw [List.getElem?_eq_none (by omega)] at hk
    simp at hk
  rw [upperPairs_dec hkl] at hk
  obtain ⟨p1, p2, p3⟩ := tri_dec hkl
  simp only [Option.some.injEq] at hk
  rw [hk] at p1 p2 p3
  simp only at p1 p2 p3
  have hflat : (obj c n a).hFlat c k = .ok (a (pos n i j)) := by
    unfold DD.hFlat assertB
    rw [size_obj hf]
    have hlt : (k : Int) < ((n : Int) * (n + 1)).tdiv 2 := by
      have : ((n : Int) * (n + 1)) = 2 * (tri n n : Int) := by exact_mod_cast ht.symm
      rw [this, Int.mul_tdiv_cancel_left _ (by norm_num)]
      exact_mod_cast hkl
    have he : 1 + (n : Int) + k = (pos n i j : Int) := by
      unfold pos; rw [p3]; push_cast; ring
    rw [he, rd_obj _ rfl (pos_lt h2 p1 p2)]
    simp [hlt]
  have hh : (obj c n a).h c i j = .ok (a (pos n i j)) := h_obj h2 hf a p1 p2
  refine ⟨p1, p2, by rw [hflat, hh], ?_⟩
  rw [hflat, ← hh, hx.h h2 i j (by omega) p2]

/-- For 3 variables the fourth flat entry is `h(1, 1)`. -/
example : (upperPairs 3)[3]? = some (1, 1) := rfl

example : exJet.hFlat exDyn2 2 = exJet.h exDyn2 1 1 := by
  obtain ⟨J, hJ⟩ := exJet_wf.shows exDyn2_valid.order
  exact ((C04_flat_index exDyn2_valid rfl hJ).2 2 1 1 rfl).2.2.1

end HJ
