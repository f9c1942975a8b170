import Verif.Proofs.Matrix
import Verif.Proofs.Shows
import Verif.Spec.Samples

/-!
# C11: gradient and Hessian as arrays
-/

namespace HJ

open DD

variable {α : Type} {c : Cfg} {n : Nat}

/-- `M` is the `n × n` matrix with entries `H`. -/
structure IsMat (n : Nat) (M : Mat α) (H : Nat → Nat → α) : Prop where
  rows : M.rows = n
  cols : M.cols = n
  entry : ∀ i j : Nat, i < n → j < n → M.rd i j = .ok (H i j)

/-- The symmetric matrix with the upper triangle of `H`. -/
def mirror (H : Nat → Nat → α) (i j : Nat) : α := if i ≤ j then H i j else H j i

theorem rd_lowUp {H L : Nat → Nat → α} {out : Mat α} (hr : (n : Int) ≤ out.rows)
    (hc : (n : Int) ≤ out.cols) {i j : Nat} (hi : i < n) (hj : j < n) :
    (lowTo n 0 L (upTo n (tri n n) H out)).rd i j = .ok (if i ≤ j then H i j else L i j) := by
  unfold Mat.rd
  rw [if_pos (by simp only [lowTo, upTo]; omega)]
  simp only [lowTo, upTo]
  by_cases hij : i ≤ j
  · have hlt := off_lt (n := n) hij hj
    rw [if_neg (by omega), if_pos (by
      refine ⟨by omega, by omega, by omega, ?_⟩
      simp only [Int.toNat_natCast]
      rw [show ((j : Int) - i).toNat = j - i by omega]; exact hlt), if_pos hij]
    simp
  · rw [if_pos (by omega), if_neg hij]
    simp

theorem rd_lowUp_out {H L : Nat → Nat → α} {out : Mat α} (p q : Int)
    (h : ¬ (0 ≤ p ∧ p < n ∧ 0 ≤ q ∧ q < n)) :
    (lowTo n 0 L (upTo n (tri n n) H out)).rd p q = out.rd p q := by
  unfold Mat.rd
  simp only [lowTo, upTo]
  rw [if_neg (c := 0 ≤ q ∧ q < p ∧ _) (by omega), if_neg (c := 0 ≤ p ∧ p ≤ q ∧ _) (by omega)]
  rfl

theorem mirror_comm (H : Nat → Nat → α) (i j : Nat) : mirror H i j = mirror H j i := by
  unfold mirror
  by_cases hij : i ≤ j
  · by_cases hji : j ≤ i
    · have : i = j := by omega
      subst this; rfl
    · rw [if_pos hij, if_neg hji]
  · rw [if_neg hij, if_pos (by omega)]

/-- **C11, `hm("full")`.** The symmetric matrix of all `h(i, j)`. -/
theorem C11_hm_full [Arith α] (h2 : c.order = 2) {x : DD α} {J : Jet α} (hx : Shows c n x J) :
    ∃ M, x.hm c "full" = .ok M ∧ IsMat n M J.h := by
  obtain ⟨hf, a, rfl⟩ := hx.wf.eq_obj (Or.inr h2)
  unfold DD.hm
  rw [size_obj hf, hmInto_full h2 hf a (Int.le_refl _) (Int.le_refl _)]
  refine ⟨_, rfl, rfl, rfl, fun i j hi hj => ?_⟩
  rw [rd_lowUp (Int.le_refl _) (Int.le_refl _) hi hj]
  have hh := hx.h h2 i j hi hj
  by_cases hij : i ≤ j
  · rw [h_obj h2 hf a hij hj] at hh
    rw [if_pos hij]; exact hh
  · rw [h_obj_swap h2 hf a (show j ≤ i by omega) hi] at hh
    rw [if_neg hij]; exact hh

/-- **C11, `hm("zeros")`.** `h(i, j)` on and above the diagonal, zero below. -/
theorem C11_hm_zeros [Arith α] (h2 : c.order = 2) {x : DD α} {J : Jet α} (hx : Shows c n x J) :
    ∃ M, x.hm c "zeros" = .ok M ∧
      IsMat n M fun i j => if i ≤ j then J.h i j else Arith.lit 0 := by
  obtain ⟨hf, a, rfl⟩ := hx.wf.eq_obj (Or.inr h2)
  unfold DD.hm
  rw [size_obj hf, hmInto_zeros h2 hf a (Int.le_refl _) (Int.le_refl _)]
  refine ⟨_, rfl, rfl, rfl, fun i j hi hj => ?_⟩
  rw [rd_lowUp (Int.le_refl _) (Int.le_refl _) hi hj]
  have hh := hx.h h2 i j hi hj
  by_cases hij : i ≤ j
  · rw [h_obj h2 hf a hij hj] at hh
    simp only [if_pos hij]; exact hh
  · simp only [if_neg hij]

/-- **C11, other modes.** Any other mode string throws. -/
theorem C11_hm_other_mode [Arith α] (h2 : c.order = 2) {x : DD α} (hx : WF c n x) {mode : String}
    (h1 : mode ≠ "zeros") (h3 : mode ≠ "full") : x.hm c mode = .throw .invalidMode := by
  obtain ⟨hf, a, rfl⟩ := hx.eq_obj (Or.inr h2)
  unfold DD.hm
  rw [size_obj hf]
  exact hmInto_bad h2 hf a (Int.le_refl _) (Int.le_refl _) h1 h3

/-- **C11, `hm(mode, out)` into a matrix that may be larger.** Its leading `n × n` block becomes the
Hessian, the other entries keep their contents. -/
theorem C11_hm_into [Arith α] (h2 : c.order = 2) {x : DD α} {J : Jet α} (hx : Shows c n x J)
    {out : Mat α} (hr : (n : Int) ≤ out.rows) (hc : (n : Int) ≤ out.cols) :
    ∃ M, x.hmInto c "full" out = .ok M ∧ M.rows = out.rows ∧ M.cols = out.cols ∧
      (∀ i j : Nat, i < n → j < n → M.rd i j = .ok (J.h i j)) ∧
      ∀ p q : Int, ¬ (0 ≤ p ∧ p < n ∧ 0 ≤ q ∧ q < n) → M.rd p q = out.rd p q := by
  obtain ⟨hf, a, rfl⟩ := hx.wf.eq_obj (Or.inr h2)
  rw [hmInto_full h2 hf a hr hc]
  refine ⟨_, rfl, rfl, rfl, fun i j hi hj => ?_, fun p q h => rd_lowUp_out p q h⟩
  rw [rd_lowUp hr hc hi hj]
  have hh := hx.h h2 i j hi hj
  by_cases hij : i ≤ j
  · rw [h_obj h2 hf a hij hj] at hh
    rw [if_pos hij]; exact hh
  · rw [h_obj_swap h2 hf a (show j ≤ i by omega) hi] at hh
    rw [if_neg hij]; exact hh

/-- **C11, first order.** A first-order jet with at least one variable has no Hessian: `hm` reads
past the end of the storage, in debug builds too. -/
theorem C11_hm_order1_violated [Arith α] (h1 : c.order = 1) (hn : 0 < n) {x : DD α} (hx : WF c n x)
    (mode : String) : x.hm c mode = .ub .outOfBounds := by
  obtain ⟨hf, a, rfl⟩ := hx.eq_obj (Or.inl h1)
  have hflat : (obj c n a).hFlat c 0 = .ub .outOfBounds := by
    unfold DD.hFlat assertB
    rw [size_obj hf, rd_oob (by rw [data_obj, mk_length, dlen_one h1]; right; push_cast; omega)]
    have : (0 : Int) < ((n : Int) * (n + 1)).tdiv 2 := by
      have h := two_tri_self n
      have e : ((n : Int) * (n + 1)) = 2 * (tri n n : Int) := by exact_mod_cast h.symm
      rw [e, Int.mul_tdiv_cancel_left _ (by norm_num)]
      have : 1 * 2 ≤ n * (n + 1) := Nat.mul_le_mul hn (by omega)
      omega
    simp [this]
  unfold DD.hm DD.hmInto
  simp only [size_obj hf]
  rw [forUp_fail (lo := 0) (k := 0) (hi := n) (u := .outOfBounds)
    (fun _ => ((0 : Int), (⟨n, n, fun _ _ => none⟩ : Mat α))) (Nat.le_refl _) hn
    (fun i h1 h2 => by omega)]
  · rfl
  · refine forUp_fail (lo := 0) (k := 0) (hi := n) (u := .outOfBounds)
      (fun _ => ((0 : Int), (⟨n, n, fun _ _ => none⟩ : Mat α))) (Nat.le_refl _) hn
      (fun i h1 h2 => by omega) ?_
    simp [hflat]

/-- **C11, `ag`.** The gradient as an array. -/
theorem C11_ag {x : DD α} {J : Jet α} (hc : c.order = 1 ∨ c.order = 2) (hx : Shows c n x J) :
    x.ag c = .ok ((List.range n).map J.g) := by
  obtain ⟨hf, a, rfl⟩ := hx.wf.eq_obj hc
  rw [ag_obj hf]
  congr 1
  apply List.map_congr_left
  intro i hi
  have := hx.g i (by simpa using hi)
  rw [g_obj hf a (by simpa using hi)] at this
  exact Res.ok.inj this

/-- **C11, `set_hm`.** Only the upper triangle of the argument is read; value and gradient stay. -/
theorem C11_set_hm (h2 : c.order = 2) {x : DD α} {J : Jet α} (hx : Shows c n x J) {M : Mat α}
    {H : Nat → Nat → α} (hM : ∀ i j : Nat, i ≤ j → j < n → M.rd i j = .ok (H i j)) :
    ∃ y, x.setHm c M = .ok y ∧ Shows c n y ⟨J.f, J.g, mirror H⟩ := by
  obtain ⟨hf, a, rfl⟩ := hx.wf.eq_obj (Or.inr h2)
  have e : obj c n a = ⟨if c.isDynamic then n else 0, mk (dlen c n) (fl a)⟩ := rfl
  rw [e, setHm_eq h2 hf hM]
  have e2 : (⟨if c.isDynamic then n else 0, mk (dlen c n) (hmCells n (tri n n) H (fl a))⟩ : DD α) =
      obj c n fun k => if n < k then H (dec n (k - 1 - n)).1 (dec n (k - 1 - n)).2 else a k := by
    unfold obj
    congr 1
    apply mk_ext
    intro k hk
    rw [dlen_two h2] at hk
    unfold hmCells
    simp only [fl]
    by_cases hn : n < k
    · rw [if_pos (by omega), if_pos hn]
    · rw [if_neg (by omega), if_neg hn]
  refine ⟨_, rfl, ?_⟩
  rw [e2]
  refine shows_of_obj (Or.inr h2) hf ?_ ?_ ?_ (fun _ _ _ _ _ => mirror_comm H _ _)
  · have := hx.f; rw [f_obj] at this; simpa using Res.ok.inj this
  · intro i hi
    have := hx.g i hi
    rw [g_obj hf a hi] at this
    simpa [show ¬ n < 1 + i by omega] using Res.ok.inj this
  · intro _ i j hij hj
    have := pos_gt n i j
    simp [mirror, this, dec_pos hij hj, hij]

/-- **C11, `from_gradient`.** -/
theorem C11_from_gradient [Arith α] (h1 : c.order = 1) {g : List α}
    (hfit : c.tsize = -1 ∨ c.tsize = g.length) (v : α) :
    ∃ x, fromGradient c v g = .ok x ∧ WF c g.length x ∧ x.f = .ok v ∧ x.ag c = .ok g := by
  have hf : Fits c g.length := hfit
  refine ⟨_, fromGradient_obj h1 hf v v, wf_obj (Or.inl h1) hf _, f_obj _ _ _, ?_⟩
  rw [ag_obj hf]
  congr 1
  apply List.ext_getElem
  · simp
  · intro i h1 h2
    simp [List.getD, List.getElem?_eq_getElem h2, show 1 + i ≠ 0 by omega]

/-- **C11, `from_arrays`.** The jet with value `v`, gradient `g` and the symmetric Hessian with the
upper triangle of the given matrix. -/
theorem C11_from_arrays [Arith α] (h2 : c.order = 2) {g : List α}
    (hfit : c.tsize = -1 ∨ c.tsize = g.length) (v : α) {M : Mat α} {H : Nat → Nat → α}
    (hM : IsMat g.length M H) :
    ∃ x, fromArrays c v g M = .ok x ∧ x.ag c = .ok g ∧
      Shows c g.length x ⟨v, fun i => g.getD i v, mirror H⟩ := by
  have hf : Fits c g.length := hfit
  refine ⟨_, fromArrays_obj h2 hf v v hM.rows hM.cols
    (fun i j hij hj => hM.entry i j (by omega) hj), ?_, ?_⟩
  · rw [ag_obj hf]
    congr 1
    apply List.ext_getElem
    · simp
    · intro i h1 h2
      simp only [List.getElem_map, List.getElem_range]
      rw [if_neg (by omega), if_pos (by omega)]
      simp [List.getD, List.getElem?_eq_getElem h2]
  · refine shows_of_obj (Or.inr h2) hf rfl ?_ ?_ (fun _ _ _ _ _ => mirror_comm H _ _)
    · intro i hi
      rw [if_neg (by omega), if_pos (by omega)]
      simp
    · intro _ i j hij hj
      have := pos_gt g.length i j
      rw [if_neg (by omega), if_neg (by omega), dec_pos hij hj]
      simp [mirror, hij]

/-- **C11, when the matrix is reported back.** `from_arrays(f, g, H).hm("full")` is `H` exactly when
`H` is symmetric. -/
theorem C11_reports_iff_symmetric [Arith α] (h2 : c.order = 2) {g : List α}
    (hfit : c.tsize = -1 ∨ c.tsize = g.length) (v : α) {M : Mat α} {H : Nat → Nat → α}
    (hM : IsMat g.length M H) :
    ∃ x M', fromArrays c v g M = .ok x ∧ x.hm c "full" = .ok M' ∧
      (IsMat g.length M' H ↔ ∀ i j : Nat, i < g.length → j < g.length → H i j = H j i) := by
  obtain ⟨x, h1, _, hs⟩ := C11_from_arrays h2 hfit v hM
  obtain ⟨M', h3, h4⟩ := C11_hm_full h2 hs
  refine ⟨x, M', h1, h3, fun h i j hi hj => ?_, fun h => ⟨h4.rows, h4.cols, fun i j hi hj => ?_⟩⟩
  · have e : ∀ i j : Nat, i < g.length → j < g.length → H i j = mirror H i j := by
      intro i j hi hj
      have := h.entry i j hi hj
      rw [h4.entry i j hi hj] at this
      exact (Res.ok.inj this).symm
    rw [e i j hi hj, e j i hj hi, mirror_comm]
  · rw [h4.entry i j hi hj]
    simp only [mirror]
    by_cases hij : i ≤ j
    · rw [if_pos hij]
    · rw [if_neg hij, h i j hi hj]

/-- **C11, round trip.** Exporting value, gradient and full Hessian and importing them again gives
an identical object. -/
theorem C11_round_trip [Arith α] (h2 : c.order = 2) {x : DD α} (hx : WF c n x) :
    ∃ v g M, x.f = .ok v ∧ x.ag c = .ok g ∧ x.hm c "full" = .ok M ∧ fromArrays c v g M = .ok x := by
  obtain ⟨J, hJ⟩ := hx.shows (Or.inr h2)
  obtain ⟨M, hM, hM'⟩ := C11_hm_full h2 hJ
  have hag := C11_ag (Or.inr h2) hJ
  refine ⟨J.f, _, M, hJ.f, hag, hM, ?_⟩
  have hl : ((List.range n).map J.g).length = n := by simp
  obtain ⟨y, h1, h3, h4⟩ := C11_from_arrays (c := c) (g := (List.range n).map J.g) h2
    (by rw [hl]; exact hx.fits) J.f (M := M) (H := J.h) (by rw [hl]; exact hM')
  rw [h1]
  rw [hl] at h4
  congr 1
  refine h4.ext (Or.inr h2) hJ ⟨rfl, fun i hi => ?_, fun _ i j hi hj => ?_⟩
  · simp [List.getD, hi]
  · simp only [mirror]
    by_cases hij : i ≤ j
    · rw [if_pos hij]
    · rw [if_neg hij]
      exact hJ.sym h2 hj hi

/-- **C11, wrong dimensions.** A matrix of another shape is caught by an assertion in debug builds;
without assertions a matrix with too few rows or columns is read out of bounds. -/
theorem C11_wrong_dimensions [Arith α] (h2 : c.order = 2) {g : List α}
    (hfit : c.tsize = -1 ∨ c.tsize = g.length) (v : α) {M : Mat α}
    (hd : ¬ (M.rows = g.length ∧ M.cols = g.length)) :
    (c.dbg = true → fromArrays c v g M = .abort) ∧
    (c.dbg = false → 0 ≤ M.rows → 0 ≤ M.cols → (M.rows < g.length ∨ M.cols < g.length) →
      (∀ i j : Int, 0 ≤ i → i < M.rows → 0 ≤ j → j < M.cols → ∃ w, M.rd i j = .ok w) →
      fromArrays c v g M = .ub .outOfBounds) := by
  have hf : Fits c g.length := hfit
  constructor
  · intro hdbg
    unfold fromArrays assertB
    have : (((g.length : Int) == M.rows) && ((g.length : Int) == M.cols)) = false := by
      by_contra h
      simp only [Bool.not_eq_false, Bool.and_eq_true, beq_iff_eq] at h
      exact hd ⟨h.1.symm, h.2.symm⟩
    rw [this, hdbg]; rfl
  · intro hdbg hrow hcol hsmall hinit
    obtain ⟨r, hr'⟩ := empty_ok (α := α) hf
    unfold fromArrays DD.setF assertB
    simp only [hdbg, Bool.false_and, Bool.false_eq_true, if_false, hr', Res.ok_bind]
    rw [wr_mk0 (ψ := fun m => if m = 0 then some v else r m) (fun _ _ => rfl)]
    simp only [Res.ok_bind]
    rw [setAg_eq hf]
    simp only [Res.ok_bind]
    exact setHm_small h2 hf hdbg hrow hcol hsmall hinit

/-! ### Concrete cases -/

/-- The matrix ((1, 2), (3, 4)), not symmetric. -/
def exMat : Mat ℚ := ⟨2, 2, fun i j => some (if i = 0 then if j = 0 then 1 else 2 else if j = 0 then 3 else 4)⟩

theorem exMat_is : IsMat 2 exMat fun i j => if i = 0 then if j = 0 then 1 else 2 else
    if j = 0 then 3 else 4 where
  rows := rfl
  cols := rfl
  entry := by intro i j hi hj; interval_cases i <;> interval_cases j <;> rfl

example : ∃ M, exJet.hm exDyn2 "full" = .ok M ∧ M.rd 1 0 = .ok 50 ∧ M.rd 0 1 = .ok 50 := by
  obtain ⟨M, h1, h2⟩ := C11_hm_full rfl exJet_shows
  exact ⟨M, h1, h2.entry 1 0 (by norm_num) (by norm_num), h2.entry 0 1 (by norm_num) (by norm_num)⟩

example : ∃ M, exJet.hm exDyn2 "zeros" = .ok M ∧ M.rd 1 0 = .ok 0 ∧ M.rd 0 1 = .ok 50 := by
  obtain ⟨M, h1, h2⟩ := C11_hm_zeros rfl exJet_shows
  exact ⟨M, h1, h2.entry 1 0 (by norm_num) (by norm_num), h2.entry 0 1 (by norm_num) (by norm_num)⟩

example : exJet.hm exDyn2 "upper" = .throw .invalidMode :=
  C11_hm_other_mode rfl exJet_wf (by decide) (by decide)

/-- Into a 3 × 3 matrix. -/
example : ∃ M, exJet.hmInto exDyn2 "full" ⟨3, 3, fun _ _ => some 9⟩ = .ok M ∧ M.rd 1 1 = .ok 60 ∧
    M.rd 2 0 = .ok 9 := by
  obtain ⟨M, h1, _, _, h2, h3⟩ := C11_hm_into (out := ⟨3, 3, fun _ _ => some 9⟩) rfl exJet_shows
    (by norm_num) (by norm_num)
  refine ⟨M, h1, h2 1 1 (by norm_num) (by norm_num), ?_⟩
  rw [h3 2 0 (by norm_num)]; rfl

example : exJet1.hm exDyn1 "full" = .ub .outOfBounds :=
  C11_hm_order1_violated rfl (by norm_num) exJet1_wf _

example : exJet.ag exDyn2 = .ok [20, 30] := C11_ag (Or.inr rfl) exJet_shows

/-- `set_hm` with the non-symmetric matrix: the entry 3 is ignored. -/
example : ∃ y, exJet.setHm exDyn2 exMat = .ok y ∧ y.f = .ok 10 ∧ y.h exDyn2 1 0 = .ok 2 := by
  obtain ⟨y, h1, h2⟩ := C11_set_hm rfl exJet_shows
    (fun i j hij hj => exMat_is.entry i j (by omega) hj)
  exact ⟨y, h1, h2.f, h2.h rfl 1 0 (by norm_num) (by norm_num)⟩

example : ∃ x, fromGradient exDyn1 (5 : ℚ) [1, 2] = .ok x ∧ WF exDyn1 2 x ∧ x.f = .ok 5 ∧
    x.ag exDyn1 = .ok [1, 2] := C11_from_gradient rfl (Or.inl rfl) 5

example : ∃ x, fromArrays exDyn2 (5 : ℚ) [1, 2] exMat = .ok x ∧ x.h exDyn2 1 0 = .ok 2 := by
  obtain ⟨x, h1, _, h2⟩ := C11_from_arrays (c := exDyn2) (g := [(1 : ℚ), 2]) rfl (Or.inl rfl) 5 exMat_is
  exact ⟨x, h1, h2.h rfl 1 0 (by norm_num) (by norm_num)⟩

/-- A non-symmetric matrix is not reported back. -/
example : ∃ x M', fromArrays exDyn2 (5 : ℚ) [1, 2] exMat = .ok x ∧ x.hm exDyn2 "full" = .ok M' ∧
    ¬ IsMat 2 M' fun i j => if i = 0 then if j = 0 then 1 else 2 else if j = 0 then 3 else 4 := by
  obtain ⟨x, M', h1, h2, h3⟩ := C11_reports_iff_symmetric (c := exDyn2) (g := [(1 : ℚ), 2]) rfl
    (Or.inl rfl) 5 exMat_is
  refine ⟨x, M', h1, h2, fun h => ?_⟩
  have := h3.1 h 0 1 (by norm_num) (by norm_num)
  norm_num at this

example : ∃ v g M, exJet.f = .ok v ∧ exJet.ag exDyn2 = .ok g ∧ exJet.hm exDyn2 "full" = .ok M ∧
    fromArrays exDyn2 v g M = .ok exJet := C11_round_trip rfl exJet_wf

/-- A release build given a 2 × 2 matrix for 3 variables. -/
example : fromArrays { exDyn2 with dbg := false } (5 : ℚ) [1, 2, 3] exMat = .ub .outOfBounds := by
  refine (C11_wrong_dimensions (c := { exDyn2 with dbg := false }) rfl (Or.inl rfl) 5
    (by simp [exMat])).2 rfl (by decide) (by decide) (Or.inl (by simp [exMat])) ?_
  intro i j h1 h2 h3 h4
  refine ⟨if i = 0 then if j = 0 then 1 else 2 else if j = 0 then 3 else 4, ?_⟩
  unfold Mat.rd
  rw [if_pos ⟨h1, h2, h3, h4⟩]
  rfl

end HJ
