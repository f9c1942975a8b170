import Verif.Spec.PyApi
import Verif.Props.PyHeap
import Verif.Props.Negative
import Verif.Props.Matrix
import Verif.Props.Pad

/-!
# Helper lemmas for the table of Python calls
-/

namespace HJ

open DD

variable {α : Type} {c : Cfg} {n : Nat}

/-! ### Outcomes without exceptions -/

/-- The outcome is a result or undefined behaviour. -/
def Quiet {A : Type} (r : Res A) : Prop := (∃ a, r = .ok a) ∨ ∃ u, r = .ub u

theorem Quiet.ok {A : Type} (a : A) : Quiet (.ok a) := Or.inl ⟨a, rfl⟩

theorem Quiet.bind {A B : Type} {r : Res A} {k : A → Res B} (h : Quiet r) (hk : ∀ a, Quiet (k a)) :
    Quiet (r >>= k) := by
  rcases h with ⟨a, rfl⟩ | ⟨u, rfl⟩
  · exact hk a
  · exact Or.inr ⟨u, rfl⟩

theorem Quiet.forUp {σ : Type} {body : Int → σ → Res σ} (h : ∀ i s, Quiet (body i s)) (lo hi : Int)
    (s : σ) : Quiet (forUp lo hi s body) := by
  unfold HJ.forUp
  generalize (hi - lo).toNat = m
  induction m generalizing lo s with
  | zero => exact .ok _
  | succ m ih => exact (h _ _).bind fun s => ih _ _

theorem quiet_rd (d : Data α) (i : Int) : Quiet (rd d i) := by
  unfold rd
  split_ifs
  · exact Or.inr ⟨_, rfl⟩
  · split
    · exact Or.inr ⟨_, rfl⟩
    · exact Or.inr ⟨_, rfl⟩
    · exact .ok _

theorem quiet_wr (d : Data α) (i : Int) (v : α) : Quiet (wr d i v) := by
  unfold wr
  split_ifs
  · exact Or.inr ⟨_, rfl⟩
  · exact .ok _

theorem quiet_copy (d : Data α) (w : Walk α) : Quiet (w.copy d) :=
  (quiet_rd _ _).bind fun _ => (quiet_wr _ _ _).bind fun _ => .ok _

theorem quiet_fill [Arith α] (w : Walk α) : Quiet w.fill0 := (quiet_wr _ _ _).bind fun _ => .ok _

/-- The size field of the result, unless the outcome is undefined behaviour. -/
def SizeIs (m : Int) (r : Res (DD α)) : Prop := (∃ y, r = .ok y ∧ y.mSize = m) ∨ ∃ u, r = .ub u

theorem SizeIs.bind {A : Type} {m : Int} {r : Res A} {k : A → Res (DD α)} (h : Quiet r)
    (hk : ∀ a, SizeIs m (k a)) : SizeIs m (r >>= k) := by
  rcases h with ⟨a, rfl⟩ | ⟨u, rfl⟩
  · exact hk a
  · exact Or.inr ⟨u, rfl⟩

theorem padRight_sizeIs [Arith α] (x : DD α) {m : Int} {r : DD α} (hr : DD.empty c m = .ok r)
    (hm : r.mSize = m) : SizeIs m (x.padRight c m) := by
  unfold DD.padRight
  rw [hr, Res.ok_bind]
  refine .bind (.forUp (fun _ _ => quiet_copy _ _) _ _ _) fun w => ?_
  refine .bind (.forUp (fun _ _ => quiet_fill _) _ _ _) fun w => ?_
  split_ifs
  · exact Or.inl ⟨_, rfl, hm⟩
  refine .bind (.forUp (fun _ _ => ?_) _ _ _) fun w => ?_
  · exact (Quiet.forUp (fun _ _ => quiet_copy _ _) _ _ _).bind fun _ =>
      .forUp (fun _ _ => quiet_fill _) _ _ _
  refine .bind (.forUp (fun _ _ => .forUp (fun _ _ => quiet_fill _) _ _ _) _ _ _) fun w => ?_
  exact Or.inl ⟨_, rfl, hm⟩

theorem padLeft_sizeIs [Arith α] (x : DD α) {m : Int} {r : DD α} (hr : DD.empty c m = .ok r)
    (hm : r.mSize = m) : SizeIs m (x.padLeft c m) := by
  unfold DD.padLeft
  rw [hr, Res.ok_bind]
  refine .bind (quiet_copy _ _) fun w => ?_
  refine .bind (.forUp (fun _ _ => quiet_fill _) _ _ _) fun w => ?_
  refine .bind (.forUp (fun _ _ => quiet_copy _ _) _ _ _) fun w => ?_
  split_ifs
  · exact Or.inl ⟨_, rfl, hm⟩
  refine .bind (.forUp (fun _ _ => .forUp (fun _ _ => quiet_fill _) _ _ _) _ _ _) fun w => ?_
  refine .bind (.forUp (fun _ _ => .forUp (fun _ _ => quiet_copy _ _) _ _ _) _ _ _) fun w => ?_
  exact Or.inl ⟨_, rfl, hm⟩

/-! ### Broken objects -/

/-- The computation is undefined behaviour or gives an object that is no jet. -/
def Broken (c : Cfg) (r : Res (DD α)) : Prop :=
  (∃ u, r = .ub u) ∨ ∃ x, r = .ok x ∧ ∀ n, ¬ WF c n x

theorem not_wf_neg (hd : c.tsize = -1) {x : DD α} (h : x.mSize < 0) (n : Nat) : ¬ WF c n x := by
  intro hx
  have := hx.msize
  rw [if_pos hd] at this
  omega

theorem SizeIs.broken (hd : c.tsize = -1) {m : Int} (hm : m < 0) {r : Res (DD α)}
    (h : SizeIs m r) : Broken c r := by
  rcases h with ⟨y, rfl, hy⟩ | h
  · exact Or.inr ⟨y, rfl, not_wf_neg hd (by omega)⟩
  · exact Or.inl h

/-! ### Factories that are told a size -/

theorem zero_neg [Arith α] (hv : c.Valid) (hd : c.tsize = -1) {s : Int} (hs : s < 0) :
    (c.order = 1 ∧ s < -1 ∧ (DD.zero c s : Res (DD α)) = .throw .lengthError) ∨
    (¬ (c.order = 1 ∧ s < -1) ∧ ∃ x : DD α, DD.zero c s = .ok x ∧ x.mSize = s) := by
  by_cases h : c.order = 1 ∧ s < -1
  · exact Or.inl ⟨h.1, h.2, ((C50_order1 h.1 hd (Arith.lit 0 : α) 0).1 s h.2).1⟩
  · refine Or.inr ⟨h, ?_⟩
    rw [zero_dyn hd]
    rcases hv.order with h1 | h2
    · have : s = -1 := by omega
      subst this
      rw [neg_length_order1 h1, if_neg (by omega)]
      exact ⟨_, rfl, rfl⟩
    · rcases (show s = -1 ∨ s = -2 ∨ s ≤ -3 by omega) with rfl | rfl | h3
      · have : dataLengthFromSize c (-1) = 0 := by unfold dataLengthFromSize; simp [h2]
        rw [this, if_neg (by omega)]
        exact ⟨_, rfl, rfl⟩
      · have : dataLengthFromSize c (-2) = 0 := by unfold dataLengthFromSize; simp [h2]
        rw [this, if_neg (by omega)]
        exact ⟨_, rfl, rfl⟩
      · obtain ⟨m, rfl⟩ : ∃ m : Nat, s = -3 - m := ⟨(-3 - s).toNat, by omega⟩
        rw [neg_length_order2 h2, if_neg (by omega)]
        exact ⟨_, rfl, rfl⟩

theorem sizeIs_setF {x : DD α} (v : α) : SizeIs x.mSize (x.setF v) :=
  .bind (quiet_wr _ _ _) fun _ => Or.inl ⟨_, rfl, rfl⟩

theorem sizeIs_setG (hb : c.dbg = false) {x : DD α} (i : Int) (v : α) :
    SizeIs x.mSize (x.setG c i v) := by
  unfold DD.setG assertB
  simp only [hb, Bool.false_and, Bool.false_eq_true, if_false, Res.ok_bind]
  exact .bind (quiet_wr _ _ _) fun _ => Or.inl ⟨_, rfl, rfl⟩

theorem checkValidSize_static (he : c.exc = true) (hd : c.tsize ≠ -1) {s : Int}
    (hs : s ≠ c.tsize) : checkValidSize c s = .throw .invalidSize := by
  have hdyn : c.isDynamic = false := by simp [Cfg.isDynamic, hd]
  simp [checkValidSize, hdyn, he, hs]

theorem static_size (hv : c.Valid) (hd : c.tsize ≠ -1) :
    Fits c c.tsize.toNat ∧ c.tsize = (c.tsize.toNat : Int) := by
  have : 0 ≤ c.tsize := by rcases hv.tsize with h | h; exact absurd h hd; exact h
  exact ⟨Or.inr (by omega), by omega⟩

theorem setG_any (hb : c.dbg = false) (a : Nat → α) (i : Int) (v : α) :
    (0 ≤ 1 + i ∧ 1 + i < dlen c n → ∃ a', (obj c n a).setG c i v = .ok (obj c n a')) ∧
    (¬ (0 ≤ 1 + i ∧ 1 + i < dlen c n) → (obj c n a).setG c i v = .ub .outOfBounds) := by
  unfold DD.setG assertB
  simp only [hb, Bool.false_and, Bool.false_eq_true, if_false, Res.ok_bind]
  constructor
  · intro h
    refine ⟨fun k => if k = (1 + i).toNat then v else a k, ?_⟩
    rw [data_obj, wr_mk (1 + i).toNat (ψ := fl fun k => if k = (1 + i).toNat then v else a k)
      (by omega) (by omega)]
    · rfl
    · intro m _; by_cases hm : m = (1 + i).toNat <;> simp [fl, hm]
  · intro h
    rw [wr_oob (by rw [data_obj, mk_length]; omega)]
    rfl

theorem var_any [Arith α] (hf : Fits c n) (i : Int) (v : α) :
    DD.var c i v n = (obj c n (constC v)).setG c i (Arith.lit 1) := by
  unfold DD.var
  cases hd : c.isDynamic
  · simp only [Bool.false_eq_true, if_false, checkValidSize_fits hf, Res.ok_bind, DD.variable0]
    rw [zero0_obj hf hd, setF_obj]; rfl
  · simp only [if_true, zero_obj hf, Res.ok_bind]
    rw [setF_obj]; rfl

/-! ### Data lists -/

theorem decodeLen_some {o L m : Nat} (h : decodeLen o L = some m) : L = storedLen o m := by
  unfold decodeLen at h
  have := List.find?_some h
  simpa using (by simpa using this : storedLen o m = L).symm

theorem le_storedLen (o m : Nat) : m ≤ storedLen o m := by
  unfold storedLen
  split_ifs
  · omega
  · have : (m + 1) * 2 ≤ (m + 1) * (m + 2) := Nat.mul_le_mul_left _ (by omega)
    omega

theorem decodeLen_none {o L : Nat} (h : decodeLen o L = none) : ¬ ∃ m, L = storedLen o m := by
  rintro ⟨m, rfl⟩
  unfold decodeLen at h
  have h1 := List.find?_eq_none.1 h m (by
    have := le_storedLen o m
    simp; omega)
  simp at h1

theorem decodeLen_stored (hv : c.Valid) (n : Nat) :
    decodeLen c.order (storedLen c.order n) = some n := by
  cases h : decodeLen c.order (storedLen c.order n) with
  | none => exact absurd ⟨n, rfl⟩ (decodeLen_none h)
  | some m => rw [storedLen_inj hv (decodeLen_some h)]

theorem wf_list {xs : List α} (hf : Fits c n) (hl : xs.length = storedLen c.order n) :
    WF c n (⟨if c.tsize = -1 then (n : Int) else 0, xs.map some⟩ : DD α) where
  fits := hf
  msize := rfl
  len := by simpa using hl
  init := by
    intro cell h
    simp only [List.mem_map] at h
    obtain ⟨v, _, rfl⟩ := h
    simp

/-! ### Matrices -/

theorem NpMat.rd_in (M : NpMat α) {i j : Nat} (hi : i < M.rows) (hj : j < M.cols) :
    M.toMat.rd i j = .ok (M.val i j) := by
  unfold Mat.rd NpMat.toMat
  simp only
  rw [if_pos (by omega)]
  simp

theorem NpMat.rd_any (M : NpMat α) (i j : Int) (h0 : 0 ≤ i) (hi : i < M.toMat.rows) (h1 : 0 ≤ j)
    (hj : j < M.toMat.cols) : ∃ w, M.toMat.rd i j = .ok w := by
  obtain ⟨i, rfl⟩ := Int.eq_ofNat_of_zero_le h0
  obtain ⟨j, rfl⟩ := Int.eq_ofNat_of_zero_le h1
  simp only [NpMat.toMat, Nat.cast_lt] at hi hj
  exact ⟨_, M.rd_in hi hj⟩

theorem wf_mk (hc : c.order = 1 ∨ c.order = 2) (hf : Fits c n) {φ : Nat → Option α}
    (hφ : ∀ k < dlen c n, φ k ≠ none) :
    WF c n (⟨if c.isDynamic then (n : Int) else 0, mk (dlen c n) φ⟩ : DD α) where
  fits := hf
  msize := by simp only [isDynamic_iff]
  len := by rw [storedLen_eq hc]; simp
  init := by
    intro cell hcell
    simp only [mk, List.mem_map] at hcell
    obtain ⟨k, hk, rfl⟩ := hcell
    exact hφ k (by simpa using hk)

theorem fromArrays_big [Arith α] (h2 : c.order = 2) (hb : c.dbg = false) {g : List α}
    (hf : Fits c g.length) (v : α) {M : NpMat α}
    (hM : (g.length ≤ M.rows ∧ g.length ≤ M.cols) ∨ g.length = 0) :
    ∃ x, fromArrays c v g M.toMat = .ok x ∧ WF c g.length x := by
  obtain ⟨r, hr'⟩ := empty_ok (α := α) hf
  unfold fromArrays DD.setF assertB
  simp only [hb, Bool.false_and, Bool.false_eq_true, if_false, hr', Res.ok_bind]
  rw [wr_mk0 (ψ := fun m => if m = 0 then some v else r m) (fun _ _ => rfl)]
  simp only [Res.ok_bind]
  rw [setAg_eq hf]
  simp only [Res.ok_bind]
  rw [setHm_eq h2 hf (H := fun i j => M.val i j)]
  · refine ⟨_, rfl, wf_mk (Or.inr h2) hf ?_⟩
    intro k hk
    rw [dlen_two h2] at hk
    unfold hmCells agCells
    by_cases h0 : k = 0
    · simp [h0]
    · by_cases hn : k ≤ g.length
      · rw [if_neg (by omega), if_pos (by omega)]
        simp only [ne_eq, List.getElem?_eq_none_iff, not_le]
        omega
      · rw [if_pos (by omega)]; simp
  · intro i j hij hj
    exact M.rd_in (by omega) (by omega)

theorem setHm_wf (h2 : c.order = 2) {x : DD α} (hx : WF c n x) {M : NpMat α}
    (hM : (n ≤ M.rows ∧ n ≤ M.cols) ∨ n = 0) :
    ∃ y, x.setHm c M.toMat = .ok y ∧ WF c n y := by
  obtain ⟨J, hJ⟩ := hx.shows (Or.inr h2)
  obtain ⟨y, h1, h3⟩ := C11_set_hm h2 hJ (M := M.toMat) (H := fun i j => M.val i j)
    (fun i j hij hj => M.rd_in (by omega) (by omega))
  exact ⟨y, h1, h3.wf⟩

theorem setHm_order1 (h1 : c.order = 1) (hb : c.dbg = false) {x : DD α} (hx : WF c n x)
    (hn : 0 < n) (M : NpMat α) : x.setHm c M.toMat = .ub .outOfBounds := by
  obtain ⟨hf, a, rfl⟩ := hx.eq_obj (Or.inl h1)
  unfold DD.setHm
  simp only [size_obj hf]
  rw [forUp_fail (lo := 0) (k := 0) (hi := n) (u := .outOfBounds)
    (fun _ => ((0 : Int), obj c n a)) (Nat.le_refl _) hn (fun i _ h => by omega)]
  · rfl
  · refine forUp_fail (lo := 0) (k := 0) (hi := n) (u := .outOfBounds)
      (fun _ => ((0 : Int), obj c n a)) (Nat.le_refl _) hn (fun i _ h => by omega) ?_
    simp only [Nat.cast_zero]
    by_cases hin : 0 < M.rows ∧ 0 < M.cols
    · have := M.rd_in hin.1 hin.2
      simp only [Nat.cast_zero] at this
      rw [this]
      simp only [Res.ok_bind, DD.setHFlat, assertB, hb, Bool.false_and, Bool.false_eq_true,
        if_false]
      rw [wr_oob (by rw [data_obj, mk_length, dlen_one h1, size_obj hf]; right; push_cast; omega)]
      rfl
    · unfold Mat.rd NpMat.toMat
      simp only
      rw [if_neg (by omega)]
      rfl

theorem setHm_order1_zero {x : DD α} (hx : WF c 0 x) (hc : c.order = 1 ∨ c.order = 2)
    (M : NpMat α) : x.setHm c M.toMat = .ok x := by
  obtain ⟨hf, a, rfl⟩ := hx.eq_obj hc
  unfold DD.setHm
  simp only [size_obj hf]
  rw [forUp_empty (by simp)]
  rfl

theorem hm_zero [Arith α] {x : DD α} (hx : WF c 0 x) (hc : c.order = 1 ∨ c.order = 2)
    (mode : String) :
    (mode = "zeros" ∨ mode = "full" → ∃ M, x.hm c mode = .ok M) ∧
    (¬ (mode = "zeros" ∨ mode = "full") → x.hm c mode = .throw .invalidMode) := by
  obtain ⟨hf, a, rfl⟩ := hx.eq_obj hc
  unfold DD.hm DD.hmInto
  simp only [size_obj hf]
  have hz : ∀ {σ : Type} (s : σ) (body : Int → σ → Res σ),
      forUp 0 ((0 : Nat) : Int) s body = .ok s := fun s body => forUp_empty (by simp)
  simp only [hz, Res.ok_bind]
  constructor
  · rintro (rfl | rfl)
    · exact ⟨_, by rw [if_pos rfl]⟩
    · exact ⟨_, by rw [if_neg (by decide), if_pos rfl]⟩
  · intro h
    rw [if_neg (by tauto), if_neg (by tauto)]

/-! ### `eval` -/

/-- A loop whose rounds succeed and keep an invariant. -/
theorem forUp_ok {σ : Type} {lo hi : Nat} (P : Nat → σ → Prop) {body : Int → σ → Res σ} {s : σ}
    (hle : lo ≤ hi) (h0 : P lo s)
    (step : ∀ i s, lo ≤ i → i < hi → P i s → ∃ s', body (i : Int) s = .ok s' ∧ P (i + 1) s') :
    ∃ s', forUp (lo : Int) (hi : Int) s body = .ok s' ∧ P hi s' := by
  unfold forUp
  have e : ((hi : Int) - (lo : Int)).toNat = hi - lo := by omega
  rw [e]
  clear e
  obtain ⟨m, rfl⟩ : ∃ m, hi = lo + m := ⟨hi - lo, by omega⟩
  clear hle
  rw [show lo + m - lo = m by omega]
  induction m generalizing lo s with
  | zero => exact ⟨s, rfl, h0⟩
  | succ m ih =>
    obtain ⟨s', h, hs'⟩ := step lo s (Nat.le_refl _) (by omega) h0
    simp only [iter, h, Res.ok_bind]
    have := ih (lo := lo + 1) hs' (fun i s h1 h2 => step i s (by omega) (by omega))
    rw [show lo + 1 + m = lo + (m + 1) by omega] at this
    push_cast at this
    exact this

theorem eval_ok [Arith α] (hc : c.order = 1 ∨ c.order = 2) {x : DD α} (hx : WF c n x)
    {d : List α} (hd : n ≤ d.length) : ∃ v, x.eval c d = .ok v := by
  obtain ⟨hf, a, rfl⟩ := hx.eq_obj hc
  have hle := le_dlen c n
  unfold DD.eval
  simp only [size_obj hf, f_obj, Res.ok_bind]
  obtain ⟨s, hs, _⟩ := forUp_ok (lo := 0) (hi := n) (s := a 0) (fun _ _ => True)
    (body := fun i acc => do
      let di ← rdVal d i
      let gi ← (obj c n a).g c i
      .ok (acc +ₛ di *ₛ gi)) (Nat.zero_le _) trivial (by
    intro i s _ hi _
    refine ⟨s +ₛ d[i] *ₛ a (1 + i), ?_, trivial⟩
    rw [rdVal_eq (by omega), g_obj hf a hi]; rfl)
  simp only [Nat.cast_zero] at hs
  rw [hs]
  simp only [Res.ok_bind]
  split_ifs with h1
  · exact ⟨_, rfl⟩
  have h2 : c.order = 2 := by omega
  obtain ⟨t, ht, _⟩ := forUp_ok (lo := 0) (hi := n) (s := (Arith.lit 0 : α)) (fun _ _ => True)
    (body := fun i t => do
      let (k, a') ← forUp 0 i (1 + (n : Int) + i, (Arith.lit 0 : α)) fun j (k, a') => do
        let dj ← rdVal d j
        let v ← rd (obj c n a).mData k
        .ok (k + ((n : Int) - j - 1), a' +ₛ dj *ₛ v)
      let (_, a') ← forUp i (n : Int) (k, a') fun j (k, a') => do
        let dj ← rdVal d j
        let v ← rd (obj c n a).mData k
        .ok (k + 1, a' +ₛ dj *ₛ v)
      let di ← rdVal d i
      .ok (t +ₛ di *ₛ a')) (Nat.zero_le _) trivial (by
    intro i t _ hi _
    obtain ⟨⟨k₁, s₁⟩, e1, e2⟩ := forUp_ok (lo := 0) (hi := i)
      (s := (1 + (n : Int) + i, (Arith.lit 0 : α)))
      (fun j p => p.1 = (pos n j i : Int))
      (body := fun j p => do
        let dj ← rdVal d j
        let v ← rd (obj c n a).mData p.1
        .ok (p.1 + ((n : Int) - j - 1), p.2 +ₛ dj *ₛ v)) (Nat.zero_le _)
      (by simp [pos, tri]) (by
      rintro j ⟨k, s⟩ _ hj hk
      simp only at hk
      have hp : pos n j i < dlen c n := pos_lt h2 (by omega) hi
      refine ⟨(k + ((n : Int) - j - 1), s +ₛ d[j] *ₛ a (pos n j i)), ?_, ?_⟩
      · simp only
        rw [rdVal_eq (by omega), hk, rd_obj (pos n j i) rfl hp]; rfl
      · simp only [hk]
        unfold pos
        rw [tri_succ]
        omega)
    simp only [Nat.cast_zero] at e1
    rw [e1]
    simp only [Res.ok_bind]
    simp only at e2
    obtain ⟨⟨k₂, s₂⟩, e3, _⟩ := forUp_ok (lo := i) (hi := n) (s := (k₁, s₁))
      (fun j p => p.1 = (pos n i j : Int))
      (body := fun j p => do
        let dj ← rdVal d j
        let v ← rd (obj c n a).mData p.1
        .ok (p.1 + 1, p.2 +ₛ dj *ₛ v)) (by omega) e2 (by
      rintro j ⟨k, s⟩ hij hj hk
      simp only at hk
      have hp : pos n i j < dlen c n := pos_lt h2 hij hj
      refine ⟨(k + 1, s +ₛ d[j] *ₛ a (pos n i j)), ?_, ?_⟩
      · simp only
        rw [rdVal_eq (by omega), hk, rd_obj (pos n i j) rfl hp]; rfl
      · simp only [hk]
        unfold pos
        omega)
    rw [e3]
    simp only [Res.ok_bind]
    rw [rdVal_eq (by omega)]
    exact ⟨_, rfl, trivial⟩)
  simp only [Nat.cast_zero] at ht
  rw [ht]
  exact ⟨_, rfl⟩

theorem eval_short [Arith α] (hc : c.order = 1 ∨ c.order = 2) {x : DD α} (hx : WF c n x)
    {d : List α} (hd : d.length < n) : x.eval c d = .ub .outOfBounds := by
  obtain ⟨hf, a, rfl⟩ := hx.eq_obj hc
  unfold DD.eval
  simp only [size_obj hf, f_obj, Res.ok_bind]
  have := forUp_ub (lo := 0) (hi := n) (k := d.length) (s := a 0) (u := .outOfBounds)
    (fun _ _ => True) (body := fun i acc => do
      let di ← rdVal d i
      let gi ← (obj c n a).g c i
      .ok (acc +ₛ di *ₛ gi)) (Nat.zero_le _) hd trivial (by
    intro i s _ hi _
    by_cases h : i < d.length
    · refine Or.inr ⟨s +ₛ d[i] *ₛ a (1 + i), ?_, trivial⟩
      rw [rdVal_eq h, g_obj hf a hi]; rfl
    · left
      unfold rdVal
      rw [if_neg (by omega), Int.toNat_natCast, List.getElem?_eq_none (by omega)]
      rfl) (by
    intro s _
    unfold rdVal
    rw [if_neg (by omega), Int.toNat_natCast, List.getElem?_eq_none (by omega)]
    rfl)
  simp only [Nat.cast_zero] at this
  rw [this]
  rfl

/-! ### Hessian entries at arbitrary indices -/

theorem hIndex_hCell (n : Nat) (i j : Int) : hIndex n i j = hCell n i j := by
  unfold hIndex hCell
  split_ifs with h
  · rw [min_eq_left (by omega), max_eq_right (by omega)]
  · rw [min_eq_right (by omega), max_eq_left (by omega)]

theorem h_any (hc : c.order = 1 ∨ c.order = 2) (hb : c.dbg = false) {x : DD α} (hx : WF c n x)
    (i j : Int) :
    (0 ≤ hCell n i j ∧ hCell n i j < storedLen c.order n → ∃ v, x.h c i j = .ok v) ∧
    (¬ (0 ≤ hCell n i j ∧ hCell n i j < storedLen c.order n) →
      x.h c i j = .ub .outOfBounds) := by
  obtain ⟨hf, a, rfl⟩ := hx.eq_obj hc
  unfold DD.h assertB
  simp only [hb, Bool.false_and, Bool.false_eq_true, if_false, Res.ok_bind, size_obj hf, hIndex_hCell,
    storedLen_eq hc]
  constructor
  · intro h
    exact ⟨_, rd_obj (hCell n i j).toNat (by omega) (by omega)⟩
  · intro h
    exact rd_oob (by rw [data_obj, mk_length]; omega)

theorem setH_any [CMath α] (hc : c.order = 1 ∨ c.order = 2) (hb : c.dbg = false) {x : DD α} (hx : WF c n x)
    (i j : Int) (v : α) :
    (0 ≤ hCell n i j ∧ hCell n i j < storedLen c.order n → ∃ y, x.setH c i j v = .ok y ∧ WF c n y) ∧
    (¬ (0 ≤ hCell n i j ∧ hCell n i j < storedLen c.order n) →
      x.setH c i j v = .ub .outOfBounds) := by
  have hs : x.size c = n := by
    obtain ⟨hf, a, rfl⟩ := hx.eq_obj hc
    exact size_obj hf a
  constructor
  · intro h
    have : ∃ y, x.setH c i j v = .ok y := by
      unfold DD.setH assertB wr
      simp only [hb, Bool.false_and, Bool.false_eq_true, if_false, Res.ok_bind, hs, hIndex_hCell,
        hx.len]
      rw [if_neg (by omega)]
      exact ⟨_, rfl⟩
    obtain ⟨y, hy⟩ := this
    exact ⟨y, hy, setH_wf hx hy⟩
  · intro h
    unfold DD.setH assertB wr
    simp only [hb, Bool.false_and, Bool.false_eq_true, if_false, Res.ok_bind, hs, hIndex_hCell,
      hx.len]
    rw [if_pos (by omega)]
    rfl

end HJ
