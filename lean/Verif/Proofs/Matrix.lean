import Verif.Proofs.Factory

/-!
# Matrix import and export in closed form (helper lemmas)
-/

namespace HJ

open DD

variable {α : Type} {c : Cfg} {n : Nat}

theorem hFlat_obj (h2 : c.order = 2) (hf : Fits c n) (a : Nat → α) {k : Nat} (hk : k < tri n n) :
    (obj c n a).hFlat c k = .ok (a (1 + n + k)) := by
  unfold DD.hFlat assertB
  have h := two_tri_self n
  have e : ((n : Int) * (n + 1)).tdiv 2 = tri n n := by
    have : ((n : Int) * (n + 1)) = 2 * (tri n n : Int) := by exact_mod_cast h.symm
    rw [this, Int.mul_tdiv_cancel_left _ (by norm_num)]
  rw [size_obj hf, e, rd_obj (1 + n + k) (by push_cast; ring) (by rw [dlen_two h2]; omega)]
  have : ((k : Int) < tri n n) := by exact_mod_cast hk
  simp [this]

/-- The upper triangle has been written up to packed position `m`. -/
def upTo (n m : Nat) (H : Nat → Nat → α) (out : Mat α) : Mat α :=
  { out with at' := fun p q =>
      if 0 ≤ p ∧ p ≤ q ∧ q < n ∧ tri n p.toNat + (q - p).toNat < m then some (H p.toNat q.toNat)
      else out.at' p q }

/-- The lower triangle has been written for rows before `i` and for row `i` before column `j`. -/
def lowTo (i j : Nat) (H : Nat → Nat → α) (out : Mat α) : Mat α :=
  { out with at' := fun p q =>
      if 0 ≤ q ∧ q < p ∧ (p < i ∨ (p = i ∧ q < j)) then some (H p.toNat q.toNat)
      else out.at' p q }

theorem off_inj {i j p q : Nat} (h1 : i ≤ j) (h2 : j < n) (h3 : p ≤ q) (h4 : q < n)
    (h : tri n i + (j - i) = tri n p + (q - p)) : p = i ∧ q = j := by
  have a := dec_tri h1 h2
  have b := dec_tri h3 h4
  rw [← h, a] at b
  exact ⟨(Prod.mk.inj b).1.symm, (Prod.mk.inj b).2.symm⟩

theorem upTo_step {out : Mat α} (hr : (n : Int) ≤ out.rows) (hc : (n : Int) ≤ out.cols)
    {H : Nat → Nat → α} {i j : Nat} (hij : i ≤ j) (hj : j < n) :
    (upTo n (tri n i + (j - i)) H out).wr i j (H i j) =
      .ok (upTo n (tri n i + (j - i) + 1) H out) := by
  unfold Mat.wr
  rw [if_pos (by simp only [upTo]; omega)]
  congr 1
  simp only [upTo]
  congr 1
  funext p q
  by_cases hpq : p = i ∧ q = j
  · obtain ⟨rfl, rfl⟩ := hpq
    rw [if_pos ⟨rfl, rfl⟩, if_pos (by simp; omega)]
    simp
  · rw [if_neg hpq]
    by_cases hu : 0 ≤ p ∧ p ≤ q ∧ q < n
    · have hne : tri n p.toNat + (q - p).toNat ≠ tri n i + (j - i) := by
        intro h
        have := off_inj hij hj (p := p.toNat) (q := q.toNat) (by omega) (by omega) (by omega)
        omega
      by_cases hl : tri n p.toNat + (q - p).toNat < tri n i + (j - i)
      · rw [if_pos ⟨hu.1, hu.2.1, hu.2.2, hl⟩, if_pos ⟨hu.1, hu.2.1, hu.2.2, by omega⟩]
      · rw [if_neg (by tauto), if_neg (by intro h; omega)]
    · rw [if_neg (by tauto), if_neg (by tauto)]

theorem hmUpper (h2 : c.order = 2) (hf : Fits c n) (a : Nat → α) {out : Mat α}
    (hr : (n : Int) ≤ out.rows) (hc : (n : Int) ≤ out.cols) :
    (forUp 0 (n : Int) ((0 : Int), out) fun i (it, out) =>
      forUp i (n : Int) (it, out) fun j (it, out) => do
        let v ← (obj c n a).hFlat c it
        let out ← out.wr i j v
        .ok (it + 1, out)) =
    .ok ((tri n n : Int), upTo n (tri n n) (fun i j => a (pos n i j)) out) := by
  refine triLoop (fun m => ((m : Int), upTo n m (fun i j => a (pos n i j)) out)) (n := n)
    (inner := fun i j (it, out) => do
        let v ← (obj c n a).hFlat c it
        let out ← out.wr i j v
        .ok (it + 1, out)) rfl ?_ (fun _ _ => rfl) ?_
  · simp [upTo]
  · intro i j hij hj
    have hlt := off_lt hij hj
    simp only []
    rw [hFlat_obj h2 hf a hlt]
    simp only [Res.ok_bind]
    have := upTo_step (n := n) hr hc (H := fun i j => a (pos n i j)) hij hj
    simp only [pos] at this
    simp only [pos, this, Res.ok_bind]
    congr 2

theorem lowLoop {out : Mat α} (hr : (n : Int) ≤ out.rows) (hc : (n : Int) ≤ out.cols)
    {H : Nat → Nat → α} {body : Int → Int → Mat α → Res (Mat α)}
    (hbody : ∀ i j, j < i → i < n → body (i : Int) (j : Int) (lowTo i j H out) =
      (lowTo i j H out).wr i j (H i j)) :
    (forUp 0 (n : Int) out fun i out => forUp 0 i out fun j out => body i j out) =
      .ok (lowTo n 0 H out) := by
  refine forUp_eq' (lo := 0) (hi := n) (fun i => lowTo i 0 H out) (zlo := 0) rfl rfl ?_
    (Nat.zero_le _) ?_
  · obtain ⟨R, C, A⟩ := out
    simp only [lowTo, Mat.mk.injEq, true_and]
    funext p q
    rw [if_neg (by simp; omega)]
  · intro i _ hi
    have := forUp_eq' (lo := 0) (hi := i) (zlo := 0) (zhi := i) (fun j => lowTo i j H out)
      (body := fun j out => body i j out) (s := lowTo i 0 H out) rfl rfl rfl (Nat.zero_le _) ?_
    · rw [this]
      congr 1
      simp only [lowTo]
      congr 1
      funext p q
      by_cases h : 0 ≤ q ∧ q < p ∧ (p < i ∨ p = i ∧ q < i)
      · rw [if_pos h, if_pos (by push_cast; omega)]
      · rw [if_neg h, if_neg (by push_cast; omega)]
    · intro j _ hj
      rw [hbody i j hj hi]
      unfold Mat.wr
      rw [if_pos (by simp only [lowTo]; omega)]
      congr 1
      simp only [lowTo]
      congr 1
      funext p q
      by_cases hpq : p = i ∧ q = j
      · obtain ⟨rfl, rfl⟩ := hpq
        rw [if_pos ⟨rfl, rfl⟩, if_pos (by push_cast; omega)]
        simp
      · rw [if_neg hpq]
        by_cases h : 0 ≤ q ∧ q < p ∧ (p < i ∨ p = i ∧ q < j)
        · rw [if_pos h, if_pos (by push_cast; omega)]
        · rw [if_neg h, if_neg (by push_cast; omega)]

/-- `hm("zeros", out)`. -/
theorem hmInto_zeros [Arith α] (h2 : c.order = 2) (hf : Fits c n) (a : Nat → α) {out : Mat α}
    (hr : (n : Int) ≤ out.rows) (hc : (n : Int) ≤ out.cols) :
    (obj c n a).hmInto c "zeros" out = .ok (lowTo n 0 (fun _ _ => Arith.lit 0)
      (upTo n (tri n n) (fun i j => a (pos n i j)) out)) := by
  unfold DD.hmInto
  simp only [size_obj hf]
  rw [hmUpper h2 hf a hr hc]
  simp only [Res.ok_bind, if_true]
  exact lowLoop (out := upTo n (tri n n) (fun i j => a (pos n i j)) out)
    (body := fun i j out => out.wr i j (Arith.lit 0)) hr hc (fun _ _ _ _ => rfl)

/-- `hm("full", out)`. -/
theorem hmInto_full [Arith α] (h2 : c.order = 2) (hf : Fits c n) (a : Nat → α) {out : Mat α}
    (hr : (n : Int) ≤ out.rows) (hc : (n : Int) ≤ out.cols) :
    (obj c n a).hmInto c "full" out = .ok (lowTo n 0 (fun i j => a (pos n j i))
      (upTo n (tri n n) (fun i j => a (pos n i j)) out)) := by
  unfold DD.hmInto
  simp only [size_obj hf]
  rw [hmUpper h2 hf a hr hc]
  simp only [Res.ok_bind, show ¬ ("full" = "zeros") by decide, if_false, if_true]
  refine lowLoop (out := upTo n (tri n n) (fun i j => a (pos n i j)) out)
    (body := fun i j out => do let v ← out.rd j i; out.wr i j v) hr hc ?_
  intro i j hj hi
  have : (lowTo i j (fun i j => a (pos n j i))
      (upTo n (tri n n) (fun i j => a (pos n i j)) out)).rd j i = .ok (a (pos n j i)) := by
    unfold Mat.rd
    rw [if_pos (by simp only [lowTo, upTo]; omega)]
    have hlt := off_lt (n := n) (i := j) (j := i) (by omega) hi
    simp only [lowTo, upTo]
    rw [if_neg (by omega), if_pos (by
      refine ⟨by omega, by omega, by omega, ?_⟩
      simp only [Int.toNat_natCast]
      rw [show ((i : Int) - j).toNat = i - j by omega]; exact hlt)]
    simp
  rw [this]; rfl

theorem hmInto_bad [Arith α] (h2 : c.order = 2) (hf : Fits c n) (a : Nat → α) {out : Mat α}
    (hr : (n : Int) ≤ out.rows) (hc : (n : Int) ≤ out.cols) {mode : String} (h1 : mode ≠ "zeros")
    (h3 : mode ≠ "full") : (obj c n a).hmInto c mode out = .throw .invalidMode := by
  unfold DD.hmInto
  simp only [size_obj hf]
  rw [hmUpper h2 hf a hr hc]
  simp [h1, h3]

/-- The cells after `set_hm` has written up to packed position `m`. -/
def hmCells (n m : Nat) (H : Nat → Nat → α) (φ : Nat → Option α) (k : Nat) : Option α :=
  if n < k ∧ k < 1 + n + m then some (H (dec n (k - 1 - n)).1 (dec n (k - 1 - n)).2) else φ k

theorem setHm_eq (h2 : c.order = 2) (hf : Fits c n) {φ : Nat → Option α} {M : Mat α}
    {H : Nat → Nat → α} (hM : ∀ i j : Nat, i ≤ j → j < n → M.rd i j = .ok (H i j)) :
    DD.setHm c ⟨if c.isDynamic then n else 0, mk (dlen c n) φ⟩ M =
      .ok ⟨if c.isDynamic then n else 0, mk (dlen c n) (hmCells n (tri n n) H φ)⟩ := by
  have hs : ∀ d : Data α, DD.size c ⟨if c.isDynamic then (n : Int) else 0, d⟩ = n := by
    intro d
    unfold DD.size
    cases hd : c.isDynamic
    · simp [hf.static hd]
    · simp
  have h := two_tri_self n
  have e : ((n : Int) * (n + 1)).tdiv 2 = tri n n := by
    have : ((n : Int) * (n + 1)) = 2 * (tri n n : Int) := by exact_mod_cast h.symm
    rw [this, Int.mul_tdiv_cancel_left _ (by norm_num)]
  unfold DD.setHm
  simp only [hs]
  rw [triLoop (fun m => ((m : Int), (⟨if c.isDynamic then (n : Int) else 0,
    mk (dlen c n) (hmCells n m H φ)⟩ : DD α))) (n := n)
    (inner := fun i j (it, x) => do
        let v ← M.rd i j
        let x ← x.setHFlat c it v
        .ok (it + 1, x)) rfl ?_ (fun _ _ => rfl) ?_]
  · rfl
  · congr 2
    apply mk_ext
    intro k _
    unfold hmCells
    rw [if_neg (by omega)]
  · intro i j hij hj
    have hlt := off_lt hij hj
    simp only []
    rw [hM i j hij hj]
    simp only [Res.ok_bind]
    unfold DD.setHFlat assertB
    simp only [hs, e]
    have : (((tri n i + (j - i) : Nat) : Int) < tri n n) := by exact_mod_cast hlt
    simp only [this, decide_true, Bool.and_true, Int.natCast_nonneg, Bool.not_true, Bool.and_false,
      Bool.false_eq_true, if_false, Res.ok_bind]
    rw [wr_mk (1 + n + (tri n i + (j - i))) (by push_cast; ring) (by rw [dlen_two h2]; omega)
      (ψ := hmCells n (tri n i + (j - i) + 1) H φ)]
    · simp
    · intro m _
      unfold hmCells
      by_cases hm : m = 1 + n + (tri n i + (j - i))
      · rw [if_pos hm, if_pos (by omega), hm,
          show 1 + n + (tri n i + (j - i)) - 1 - n = tri n i + (j - i) by omega, dec_tri hij hj]
      · rw [if_neg hm]
        by_cases h3 : n < m ∧ m < 1 + n + (tri n i + (j - i))
        · rw [if_pos h3, if_pos (by omega)]
        · rw [if_neg h3, if_neg (by omega)]

/-- Without assertions, a matrix that is too small is read out of bounds. -/
theorem setHm_small (h2 : c.order = 2) (hf : Fits c n) {φ : Nat → Option α} {M : Mat α}
    (hdbg : c.dbg = false) (hrow : 0 ≤ M.rows) (hcol : 0 ≤ M.cols) (hsmall : M.rows < n ∨ M.cols < n)
    (hinit : ∀ i j : Int, 0 ≤ i → i < M.rows → 0 ≤ j → j < M.cols → ∃ w, M.rd i j = .ok w) :
    DD.setHm c ⟨if c.isDynamic then n else 0, mk (dlen c n) φ⟩ M = .ub .outOfBounds := by
  have hs : ∀ d : Data α, DD.size c ⟨if c.isDynamic then (n : Int) else 0, d⟩ = n := by
    intro d
    unfold DD.size
    cases hd : c.isDynamic
    · simp [hf.static hd]
    · simp
  -- one entry
  have hone : ∀ i j : Nat, i ≤ j → j < n → ∀ φ : Nat → Option α,
      (do let v ← M.rd i j
          let x ← DD.setHFlat c (⟨if c.isDynamic then (n : Int) else 0, mk (dlen c n) φ⟩ : DD α)
            ((tri n i + (j - i) : Nat) : Int) v
          (.ok (((tri n i + (j - i) : Nat) : Int) + 1, x) : Res (Int × DD α))) =
        .ub .outOfBounds ∨
      ((i : Int) < M.rows ∧ (j : Int) < M.cols ∧ ∃ ψ, (do
          let v ← M.rd i j
          let x ← DD.setHFlat c (⟨if c.isDynamic then (n : Int) else 0, mk (dlen c n) φ⟩ : DD α)
            ((tri n i + (j - i) : Nat) : Int) v
          (.ok (((tri n i + (j - i) : Nat) : Int) + 1, x) : Res (Int × DD α))) =
        .ok (((tri n i + (j - i) + 1 : Nat) : Int),
          ⟨if c.isDynamic then (n : Int) else 0, mk (dlen c n) ψ⟩)) := by
    intro i j hij hj φ
    by_cases hin : (i : Int) < M.rows ∧ (j : Int) < M.cols
    · right
      obtain ⟨w, hw⟩ := hinit i j (by omega) hin.1 (by omega) hin.2
      have hlt := off_lt hij hj
      refine ⟨hin.1, hin.2, fun m => if m = 1 + n + (tri n i + (j - i)) then some w else φ m, ?_⟩
      rw [hw]
      simp only [Res.ok_bind]
      unfold DD.setHFlat assertB
      simp only [hdbg, Bool.false_and, Bool.false_eq_true, if_false, Res.ok_bind, hs]
      rw [wr_mk (1 + n + (tri n i + (j - i))) (by push_cast; ring) (by rw [dlen_two h2]; omega)
        (fun _ _ => rfl)]
      simp
    · left
      have : M.rd i j = .ub .outOfBounds := by
        unfold Mat.rd
        rw [if_neg (by omega)]
      rw [this]; rfl
  let P : Nat → Int × DD α → Prop := fun i s => ∃ ψ, s = (((tri n i : Nat) : Int),
    ⟨if c.isDynamic then (n : Int) else 0, mk (dlen c n) ψ⟩)
  let Q : Nat → Nat → Int × DD α → Prop := fun i j s => ∃ ψ, s = (((tri n i + (j - i) : Nat) : Int),
    ⟨if c.isDynamic then (n : Int) else 0, mk (dlen c n) ψ⟩)
  let inner : Int → Int → Int × DD α → Res (Int × DD α) := fun i j s => do
    let v ← M.rd i j
    let x ← s.2.setHFlat c s.1 v
    .ok (s.1 + 1, x)
  have hq : ∀ i j s, i ≤ j → j < n → Q i j s →
      inner i j s = .ub .outOfBounds ∨ ∃ s', inner i j s = .ok s' ∧ Q i (j + 1) s' := by
    rintro i j s hij hj ⟨ψ, rfl⟩
    rcases hone i j hij hj ψ with h | ⟨_, _, ψ', h⟩
    · exact Or.inl h
    · refine Or.inr ⟨_, h, ψ', ?_⟩
      rw [show tri n i + (j + 1 - i) = tri n i + (j - i) + 1 by omega]
  have hrows : ∀ i s, i < n → P i s → forUp (i : Int) (n : Int) s (inner i) = .ub .outOfBounds ∨
      ∃ s', forUp (i : Int) (n : Int) s (inner i) = .ok s' ∧ P (i + 1) s' := by
    rintro i s hi ⟨ψ, rfl⟩
    rcases forUp_inv (fun j s => Q i j s) (u := .outOfBounds) (lo := i) (hi := n) (body := inner i)
      (by omega) (s := (((tri n i : Nat) : Int),
        (⟨if c.isDynamic then (n : Int) else 0, mk (dlen c n) ψ⟩ : DD α))) ⟨ψ, by simp⟩
      (fun j s h1 h2 h3 => hq i j s h1 h2 h3) with h | ⟨s', h, ψ', rfl⟩
    · exact Or.inl h
    · exact Or.inr ⟨_, h, ψ', rfl⟩
  have hbad : ∀ i, i < n → (¬ (i : Int) < M.rows ∨ ¬ ((n - 1 : Nat) : Int) < M.cols) → ∀ s, P i s →
      forUp (i : Int) (n : Int) s (inner i) = .ub .outOfBounds := by
    rintro i hi hb s ⟨ψ, rfl⟩
    refine forUp_ub (fun j s => Q i j s) (k := n - 1) (by omega) (by omega) ⟨ψ, by simp⟩
      (fun j s h1 h2 h3 => hq i j s h1 h2 h3) ?_
    rintro s ⟨ψ, rfl⟩
    rcases hone i (n - 1) (by omega) (by omega) ψ with h | ⟨h1, h3, _⟩
    · exact h
    · omega
  unfold DD.setHm
  simp only [hs]
  have key : forUp 0 (n : Int) ((0 : Int), (⟨if c.isDynamic then (n : Int) else 0,
      mk (dlen c n) φ⟩ : DD α)) (fun i s => forUp i (n : Int) s (inner i)) = .ub .outOfBounds := by
    rcases Classical.em (M.cols < n) with h | h
    · exact forUp_ub P (lo := 0) (k := 0) (Nat.le_refl _) (by omega) ⟨φ, by simp [tri]⟩
        (fun i s _ hi hp => hrows i s hi hp) (fun s hp => hbad 0 (by omega) (Or.inr (by omega)) s hp)
    · exact forUp_ub P (lo := 0) (k := n - 1) (by omega) (by omega) ⟨φ, by simp [tri]⟩
        (fun i s _ hi hp => hrows i s hi hp)
        (fun s hp => hbad (n - 1) (by omega) (Or.inl (by omega)) s hp)
  have e : ∀ (A : Res (Int × DD α)), A = .ub .outOfBounds →
      (do let (_, x) ← A; (.ok x : Res (DD α))) = .ub .outOfBounds := by rintro A rfl; rfl
  exact e _ key

theorem rdVal_eq {l : List α} {i : Nat} (hi : i < l.length) : rdVal l (i : Int) = .ok l[i] := by
  unfold rdVal
  rw [if_neg (by omega), Int.toNat_natCast, List.getElem?_eq_getElem hi]

/-- Cells after `ag() = g` has written `m` entries. -/
def agCells (g : List α) (m : Nat) (φ : Nat → Option α) (k : Nat) : Option α :=
  if 1 ≤ k ∧ k < 1 + m then g[k - 1]? else φ k

theorem setAg_eq {g : List α} (hf : Fits c g.length) {φ : Nat → Option α} :
    DD.setAg c ⟨if c.isDynamic then g.length else 0, mk (dlen c g.length) φ⟩ g =
      .ok ⟨if c.isDynamic then g.length else 0, mk (dlen c g.length) (agCells g g.length φ)⟩ := by
  have hs : ∀ d : Data α, DD.size c ⟨if c.isDynamic then (g.length : Int) else 0, d⟩ = g.length := by
    intro d
    unfold DD.size
    cases hd : c.isDynamic
    · simp [hf.static hd]
    · simp
  have hl := le_dlen c g.length
  unfold DD.setAg
  simp only [hs]
  rw [forUp_eq' (lo := 0) (hi := g.length) (fun m => mk (dlen c g.length) (agCells g m φ)) (zlo := 0)
    rfl rfl ?_ (Nat.zero_le _) ?_]
  · rfl
  · apply mk_ext
    intro k _
    unfold agCells
    rw [if_neg (by omega)]
  · intro i _ hi
    simp only [rdVal_eq hi, Res.ok_bind]
    apply wr_mk (1 + i) (by push_cast; ring) (by omega)
    intro m _
    unfold agCells
    by_cases hm : m = 1 + i
    · rw [if_pos hm, if_pos (by omega), hm, show 1 + i - 1 = i by omega, List.getElem?_eq_getElem hi]
    · rw [if_neg hm]
      by_cases h3 : 1 ≤ m ∧ m < 1 + i
      · rw [if_pos h3, if_pos (by omega)]
      · rw [if_neg h3, if_neg (by omega)]

theorem ag_obj (hf : Fits c n) (a : Nat → α) :
    (obj c n a).ag c = .ok ((List.range n).map fun i => a (1 + i)) := by
  have hl := le_dlen c n
  unfold DD.ag
  rw [size_obj hf]
  refine forUp_eq' (lo := 0) (hi := n) (fun m => (List.range m).map fun i => a (1 + i)) (zlo := 0)
    rfl rfl rfl (Nat.zero_le _) ?_
  intro i _ hi
  rw [rd_obj (1 + i) (by push_cast; ring) (by omega)]
  simp [List.range_succ]

/-- `from_gradient`. -/
theorem fromGradient_obj [Arith α] (h1 : c.order = 1) {g : List α} (hf : Fits c g.length) (v : α)
    (d : α) : fromGradient c v g = .ok (obj c g.length fun k => if k = 0 then v else g.getD (k - 1) d) := by
  obtain ⟨r, hr⟩ := empty_ok (α := α) hf
  unfold fromGradient DD.setF
  simp only [hr, Res.ok_bind]
  rw [wr_mk0 (ψ := fun m => if m = 0 then some v else r m) (fun _ _ => rfl)]
  simp only [Res.ok_bind]
  rw [setAg_eq hf]
  congr 1
  unfold obj
  congr 1
  apply mk_ext
  intro k hk
  rw [dlen_one h1] at hk
  unfold agCells
  simp only [fl]
  by_cases h0 : k = 0
  · simp [h0]
  · rw [if_pos (by omega), if_neg h0, List.getElem?_eq_getElem (by omega)]
    simp [List.getD, List.getElem?_eq_getElem (show k - 1 < g.length by omega)]

/-- `from_arrays`. -/
theorem fromArrays_obj [Arith α] (h2 : c.order = 2) {g : List α} (hf : Fits c g.length) (v d : α)
    {M : Mat α} (hr : M.rows = g.length) (hc : M.cols = g.length) {H : Nat → Nat → α}
    (hM : ∀ i j : Nat, i ≤ j → j < g.length → M.rd i j = .ok (H i j)) :
    fromArrays c v g M = .ok (obj c g.length fun k => if k = 0 then v else
      if k ≤ g.length then g.getD (k - 1) d
      else H (dec g.length (k - 1 - g.length)).1 (dec g.length (k - 1 - g.length)).2) := by
  obtain ⟨r, hr'⟩ := empty_ok (α := α) hf
  unfold fromArrays DD.setF assertB
  simp only [hr', hr, hc, beq_self_eq_true, Bool.and_self, Bool.not_true, Bool.and_false,
    Bool.false_eq_true, if_false, Res.ok_bind]
  rw [wr_mk0 (ψ := fun m => if m = 0 then some v else r m) (fun _ _ => rfl)]
  simp only [Res.ok_bind]
  rw [setAg_eq hf]
  simp only [Res.ok_bind]
  rw [setHm_eq h2 hf hM]
  congr 1
  unfold obj
  congr 1
  apply mk_ext
  intro k hk
  rw [dlen_two h2] at hk
  unfold hmCells agCells
  simp only [fl]
  by_cases h0 : k = 0
  · simp [h0]
  · by_cases hn : k ≤ g.length
    · rw [if_neg (by omega), if_pos (by omega), if_pos hn]
      simp [h0, List.getD, List.getElem?_eq_getElem (show k - 1 < g.length by omega)]
    · rw [if_pos (by omega), if_neg h0, if_neg hn]

end HJ
