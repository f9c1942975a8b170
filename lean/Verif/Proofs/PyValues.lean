import Verif.Spec.PyValues
import Verif.Props.PyApi
import Verif.Props.PyExact
import Verif.Props.Taylor

/-!
# Proofs: cells of jets, in-place operators on jets of functions
-/

namespace HJ

open DD

section cells

variable {α : Type} {c : Cfg} {n : Nat}

theorem hCell_pos {p q : Nat} (hpq : p ≤ q) (hq : q < n) : hCell n p q = (pos n p q : Nat) := by
  unfold hCell
  rw [min_eq_left (by omega), max_eq_right (by omega)]
  have := code_off hpq hq
  unfold pos
  push_cast at this ⊢
  omega

theorem hCell_swap (n : Nat) (i j : Int) : hCell n i j = hCell n j i := by
  unfold hCell; rw [min_comm, max_comm]

theorem cell_obj (hc : c.order = 1 ∨ c.order = 2) {a : Nat → α} {J : Jet α}
    (h : Shows c n (obj c n a) J) {k : Nat} : CellIs c.order n k J (a k) := by
  have hu := h.unique (shows_obj hc h.wf.fits a)
  refine ⟨?_, ?_, ?_⟩
  · rintro rfl; exact hu.1.symm
  · rintro p hp rfl; exact (hu.2.1 p hp).symm
  · intro h2 p q hpq hq hk
    rw [hCell_pos hpq hq] at hk
    have : k = pos n p q := by exact_mod_cast hk
    subst this
    have := hu.2.2 h2 p q (by omega) hq
    simpa [jetOf, hpq] using this.symm

theorem cell_data (hc : c.order = 1 ∨ c.order = 2) {x : DD α} {J : Jet α} (h : Shows c n x J)
    {k : Nat} {v : α} (hk : x.mData[k]? = some (some v)) : CellIs c.order n k J v := by
  obtain ⟨hf, a, rfl⟩ := h.wf.eq_obj hc
  have : v = a k := by
    rw [data_obj] at hk
    unfold mk at hk
    rw [List.getElem?_map] at hk
    by_cases hl : k < dlen c n
    · rw [List.getElem?_range hl] at hk
      simpa [fl] using hk.symm
    · rw [List.getElem?_eq_none (by simpa using hl)] at hk
      simp at hk
  rw [this]; exact cell_obj hc h

theorem cell_rd [CMath α] (hc : c.order = 1 ∨ c.order = 2) {x : DD α} {J : Jet α} (h : Shows c n x J)
    {k : Nat} (hk : k < storedLen c.order n) : ∃ v, rd x.mData k = .ok v ∧ CellIs c.order n k J v := by
  obtain ⟨v, h1, h2⟩ := rd_wf h.wf hk
  exact ⟨v, h1, cell_data hc h h2⟩

/-- Every stored number is exactly one component. -/
theorem cell_unique (hc : c.order = 1 ∨ c.order = 2) {k : Nat} (hk : k < storedLen c.order n)
    {J : Jet α} {v w : α} (hv : CellIs c.order n k J v) (hw : CellIs c.order n k J w) : v = w := by
  by_cases h0 : k = 0
  · rw [hv.f h0, hw.f h0]
  · by_cases hn : k ≤ n
    · rw [hv.g (k - 1) (by omega) (by omega), hw.g (k - 1) (by omega) (by omega)]
    · rw [storedLen_eq hc] at hk
      rcases hc with h1 | h2
      · rw [dlen_one h1] at hk; omega
      · rw [dlen_two h2] at hk
        obtain ⟨a1, a2, a3⟩ := tri_dec (n := n) (m := k - 1 - n) (by omega)
        have e : (k : Int) = hCell n ((dec n (k - 1 - n)).1 : Nat) ((dec n (k - 1 - n)).2 : Nat) := by
          rw [hCell_pos a1 a2]
          unfold pos
          omega
        rw [hv.h h2 _ _ a1 a2 e, hw.h h2 _ _ a1 a2 e]

theorem put_obj (hc : c.order = 1 ∨ c.order = 2) {a : Nat → α} {J : Jet α}
    (h : Shows c n (obj c n a) J) (k : Nat) (v : α) :
    Shows c n (obj c n fun m => if m = k then v else a m) (J.put n k v) := by
  have hu := h.unique (shows_obj hc h.wf.fits a)
  apply shows_of_obj hc h.wf.fits
  · simp only [Jet.put, eq_comm (a := k)]
    split_ifs
    · rfl
    · exact hu.1.symm
  · intro i hi
    simp only [Jet.put, eq_comm (a := k)]
    split_ifs
    · rfl
    · exact (hu.2.1 i hi).symm
  · intro h2 i j hij hj
    simp only [Jet.put, hCell_pos hij hj]
    have := hu.2.2 h2 i j (by omega) hj
    simp only [jetOf, hij, if_true] at this
    by_cases e : k = pos n i j
    · rw [if_pos e.symm, if_pos (by exact_mod_cast e)]
    · rw [if_neg (Ne.symm e), if_neg (by exact_mod_cast e), this]
  · intro h2 i j hi hj
    simp only [Jet.put]
    rw [hCell_swap n i j]
    split_ifs
    · rfl
    · exact h.sym h2 hi hj

theorem put_wr (hc : c.order = 1 ∨ c.order = 2) {x : DD α} {J : Jet α} (h : Shows c n x J)
    {k : Nat} (hk : k < storedLen c.order n) (v : α) :
    ∃ d, wr x.mData k v = .ok d ∧ Shows c n { x with mData := d } (J.put n k v) := by
  obtain ⟨hf, a, rfl⟩ := h.wf.eq_obj hc
  rw [storedLen_eq hc] at hk
  refine ⟨mk (dlen c n) (fl fun m => if m = k then v else a m), ?_, put_obj hc h k v⟩
  rw [data_obj, wr_mk k (ψ := fl fun m => if m = k then v else a m) rfl hk]
  intro m _
  by_cases e : m = k <;> simp [fl, e]

theorem obj_setG (hb : c.dbg = false) (a : Nat → α) {i : Int} (v : α)
    (hi : 0 ≤ 1 + i ∧ 1 + i < dlen c n) :
    (obj c n a).setG c i v = .ok (obj c n fun m => if m = (1 + i).toNat then v else a m) := by
  unfold DD.setG assertB
  simp only [hb, Bool.false_and, Bool.false_eq_true, if_false, Res.ok_bind]
  rw [data_obj, wr_mk (1 + i).toNat (ψ := fl fun k => if k = (1 + i).toNat then v else a k)
    (by omega) (by omega)]
  · rfl
  · intro m _
    by_cases e : m = (1 + i).toNat <;> simp [fl, e]

/-- `from_arrays` with a matrix that may be larger than needed. -/
theorem fromArrays_shows [Arith α] (h2 : c.order = 2) (hb : c.dbg = false) {g : List α}
    (hf : Fits c g.length) (v : α) {M : NpMat α}
    (hM : (g.length ≤ M.rows ∧ g.length ≤ M.cols) ∨ g.length = 0) :
    ∃ x, fromArrays c v g M.toMat = .ok x ∧
      Shows c g.length x ⟨v, fun i => g.getD i v, mirror M.val⟩ := by
  obtain ⟨r, hr'⟩ := empty_ok (α := α) hf
  unfold fromArrays DD.setF assertB
  simp only [hb, Bool.false_and, Bool.false_eq_true, if_false, hr', Res.ok_bind]
  rw [wr_mk0 (ψ := fun m => if m = 0 then some v else r m) (fun _ _ => rfl)]
  simp only [Res.ok_bind]
  rw [setAg_eq hf]
  simp only [Res.ok_bind]
  rw [setHm_eq h2 hf (H := fun i j => M.val i j)]
  · have e : (⟨if c.isDynamic then (g.length : Int) else 0, mk (dlen c g.length)
        (hmCells g.length (tri g.length g.length) (fun i j => M.val i j)
          (agCells g g.length fun m => if m = 0 then some v else r m))⟩ : DD α) =
        obj c g.length fun k => if k = 0 then v else if k ≤ g.length then g.getD (k - 1) v
          else M.val (dec g.length (k - 1 - g.length)).1 (dec g.length (k - 1 - g.length)).2 := by
      unfold obj
      congr 1
      apply mk_ext
      intro k hk
      rw [dlen_two h2] at hk
      unfold hmCells agCells
      simp only [fl]
      by_cases h0 : k = 0
      · simp [h0]
      · by_cases hn : k ≤ g.length
        · rw [if_neg (by omega), if_pos (by omega), if_neg h0, if_pos hn]
          simp [List.getD, List.getElem?_eq_getElem (show k - 1 < g.length by omega)]
        · rw [if_pos (by omega), if_neg h0, if_neg hn]
    refine ⟨_, rfl, ?_⟩
    rw [e]
    refine shows_of_obj (Or.inr h2) hf rfl ?_ ?_ (fun _ _ _ _ _ => mirror_comm _ _ _)
    · intro i hi
      rw [if_neg (by omega), if_pos (by omega)]
      simp
    · intro _ i j hij hj
      have := pos_gt g.length i j
      rw [if_neg (by omega), if_neg (by omega), dec_pos hij hj]
      simp [mirror, hij]
  · intro i j hij hj
    exact M.rd_in (by omega) (by omega)

/-- The Hessian matrix of a jet without variables. -/
theorem hm_empty [Arith α] {x : DD α} (hx : WF c 0 x) (hc : c.order = 1 ∨ c.order = 2)
    {mode : String} (hm : mode = "zeros" ∨ mode = "full") :
    ∃ M, x.hm c mode = .ok M ∧ M.rows = 0 ∧ M.cols = 0 := by
  obtain ⟨hf, a, rfl⟩ := hx.eq_obj hc
  unfold DD.hm DD.hmInto
  simp only [size_obj hf]
  have hz : ∀ {σ : Type} (s : σ) (body : Int → σ → Res σ),
      forUp 0 ((0 : Nat) : Int) s body = .ok s := fun s body => forUp_empty (by simp)
  simp only [hz, Res.ok_bind]
  rcases hm with rfl | rfl
  · exact ⟨_, by rw [if_pos rfl], rfl, rfl⟩
  · exact ⟨_, by rw [if_neg (by decide), if_pos rfl], rfl, rfl⟩

end cells

section exact

variable {c : Cfg} {n : Nat}

/-- `x /= x`. -/
theorem div_self_exact (hv : c.Valid) {d : DD XReal} {F : (Fin n → ℝ) → ℝ} {x : Fin n → ℝ}
    (h : JetAt c n d F x) (h0 : F x ≠ 0) :
    ∃ r, d.div c d = .ok r ∧ d.divAssign c .self = (.ok (), r) := by
  obtain ⟨K, hK, hj⟩ := h
  obtain ⟨a, K', rfl, hg, _, _⟩ := good_of_shows hv.order hK
  have hf := hK.wf.fits
  have ha : a 0 = .num (F x) := by
    have := hK.f; rw [f_obj] at this
    rw [hj.value]; exact Res.ok.inj this
  have hag : ∀ i < n, a (1 + i) = .num (K.g i) := by
    intro i hi
    have := hK.g i hi; rw [g_obj hf a hi] at this
    exact Res.ok.inj this
  have hah : c.order = 2 → ∀ i j, i ≤ j → j < n → a (pos n i j) = .num (K.h i j) := by
    intro h2 i j hij hj
    have := hK.h h2 i j (by omega) hj; rw [h_obj h2 hf a hij hj] at this
    exact Res.ok.inj this
  refine ⟨_, div_obj hv.order hf a a, ?_⟩
  rw [divAssign_self hv.order hf a]
  congr 1
  have e2 : F x * F x ≠ 0 := mul_ne_zero h0 h0
  apply obj_ext' hv.order
  · simp only [divC, divSelfC, bFin_zero]
    rw [← xreal_recipDiv]; rfl
  · intro i hi
    simp only [divC, divSelfC]
    rw [bFin_succ _ _ _ _ hi, bFin_succ _ _ _ _ hi]
  · intro h2 i j hij hj
    simp only [divC, divSelfC]
    rw [bFin_pos h2 _ _ _ hij hj, bFin_pos h2 _ _ _ hij hj]
    rw [ha, hah h2 i j hij hj, hag i (by omega), hag j hj]
    simp [XReal.div_num, h0]
    field_simp
    ring

/-- In-place operators on jets of functions, also with the object itself as right operand. -/
theorem asg_exact (hv : c.Valid) (o : AOp) (hn : o = .mul → c.order = 2 → 0 < n) {d e : DD XReal}
    {F G : (Fin n → ℝ) → ℝ} {x : Fin n → ℝ} (hd : JetAt c n d F x) (he : JetAt c n e G x)
    (h0 : o = .div → G x ≠ 0) (b : DD.Operand XReal)
    (hb : b = .obj e ∨ (b = .self ∧ e = d ∧ ¬ (o = .mul ∧ c.order = 2))) :
    ∃ r, o.run c d b = (.ok (), r) ∧ JetAt c n r (fun y => o.den (F y) (G y)) x := by
  have hx : WF c n d := by obtain ⟨K, hK, _⟩ := hd; exact hK.wf
  have hy : WF c n e := by obtain ⟨K, hK, _⟩ := he; exact hK.wf
  have hsub : ∀ p q : XReal, p -ₛ q = p +ₛ -ₛ q := fun p q => (xreal_comm.add_neg p q).symm
  have hnode : ∀ o' : Bin, o'.dom (F x) (G x) → o'.reg (F x) (G x) →
      ∃ r, o'.run c d e = .ok r ∧ JetAt c n r (fun y => o'.den (F y) (G y)) x := by
    intro o' hD hR
    obtain ⟨r, h5, h6⟩ := node hv hx.fits (U := Bool) (.bin o' (.var true) (.var false))
      (fun b => if b then F else G) x (fun b => if b then d else e)
      (fun b => by cases b; exacts [he, hd]) ⟨trivial, trivial, hD⟩ ⟨trivial, trivial, hR⟩
    simp only [Expr.map, Expr.evalDD, Res.ok_bind, if_true, Bool.false_eq_true, if_false] at h5
    exact ⟨r, h5, h6⟩
  have key : ∃ r, (match o with
      | .add => d.add c e | .sub => d.sub c e | .mul => d.mul c e | .div => d.div c e) = .ok r ∧
      o.run c d b = (.ok (), r) := by
    rcases hb with rfl | ⟨rfl, rfl, h1⟩
    · cases o with
      | add => exact C22_add_assign hv hx hy
      | sub => exact C22_sub_assign hv hsub hx hy
      | mul => exact C22_mul_assign hv xreal_comm.add_comm xreal_comm.mul_comm (hn rfl) hx hy
      | div =>
        obtain ⟨hf, a, rfl⟩ := hx.eq_obj hv.order
        obtain ⟨_, b, rfl⟩ := hy.eq_obj hv.order
        refine ⟨_, div_obj hv.order hf a b, ?_⟩
        have := (xreal_recipDiv (a 0) (b 0)).symm
        rw [recipDiv] at this
        rw [← this]
        exact divAssign_obj hv.order hf a b
    · cases o with
      | add => exact (C23_add_sub_self hv hx).1
      | sub => exact (C23_add_sub_self hv hx).2 hsub
      | mul => exact C23_mul_self_order1 (hv.order.resolve_right fun h => h1 ⟨rfl, h⟩) hx
      | div => exact div_self_exact hv he (h0 rfl)
  obtain ⟨r, h1, h2⟩ := key
  refine ⟨r, h2, ?_⟩
  cases o with
  | add => obtain ⟨r', h3, h4⟩ := hnode .add trivial trivial; cases h1.symm.trans h3; exact h4
  | sub => obtain ⟨r', h3, h4⟩ := hnode .sub trivial trivial; cases h1.symm.trans h3; exact h4
  | mul => obtain ⟨r', h3, h4⟩ := hnode .mul trivial trivial; cases h1.symm.trans h3; exact h4
  | div => obtain ⟨r', h3, h4⟩ := hnode .div (h0 rfl) trivial; cases h1.symm.trans h3; exact h4

/-- `eval` on a jet of real numbers. -/
theorem eval_exact (hv : c.Valid) {x : DD XReal} {J : Jet ℝ} (h : Shows c n x J.lift) {e : List ℝ}
    (hl : n ≤ e.length) :
    x.eval c (e.map XReal.num) = .ok (.num (taylorPoly c.order n J fun i => e.getD i 0)) := by
  obtain ⟨hf, b, rfl⟩ := h.wf.eq_obj hv.order
  have h0 : b 0 = .num J.f := by
    have := h.f; rw [f_obj] at this; exact Res.ok.inj this
  have hg : ∀ i < n, b (1 + i) = .num (J.g i) := by
    intro i hi
    have := h.g i hi; rw [g_obj hf b hi] at this
    exact Res.ok.inj this
  have hh : c.order = 2 → ∀ i j, i ≤ j → j < n → b (pos n i j) = .num (J.h i j) := by
    intro h2 i j hij hj
    have := h.h h2 i j (by omega) hj; rw [h_obj h2 hf b hij hj] at this
    exact Res.ok.inj this
  obtain ⟨a, ha⟩ : ∃ a : Nat → ℝ, ∀ k r, b k = .num r → a k = r := by
    refine ⟨fun k => match b k with | .num r => r | _ => 0, ?_⟩
    intro k r hk
    simp only [hk]
  have e1 : obj c n b = obj c n fun k => .num (a k) := by
    apply obj_ext' hv.order
    · rw [h0, ha _ _ h0]
    · intro i hi; rw [hg i hi, ha _ _ (hg i hi)]
    · intro h2 i j hij hj; rw [hh h2 i j hij hj, ha _ _ (hh h2 i j hij hj)]
  have hι : Emb XReal.num := ⟨fun _ _ => rfl, fun _ _ => rfl, by simp, rfl⟩
  rw [e1, eval_emb hι hv.order hf a hl]
  congr 2
  unfold taylorSum taylorPoly
  have hsym : c.order = 2 → ∀ i j, i < n → j < n → J.h i j = J.h j i := by
    intro h2 i j hi hj
    have := h.sym h2 hi hj
    simpa [Jet.lift] using this
  congr 1
  · congr 1
    · exact ha _ _ h0
    · apply Finset.sum_congr rfl
      intro i hi
      rw [← ha _ _ (hg i (Finset.mem_range.1 hi))]; rfl
  · rcases hv.order with h1 | h2
    · rw [if_pos h1, if_pos h1]
    · rw [if_neg (by omega), if_neg (by omega)]
      congr 1
      apply Finset.sum_congr rfl
      intro i hi
      apply Finset.sum_congr rfl
      intro j hj
      have hi' := Finset.mem_range.1 hi
      have hj' := Finset.mem_range.1 hj
      congr 2
      by_cases hij : i ≤ j
      · simp only [jetOf, hij, if_true]
        exact ha _ _ (hh h2 i j hij hj')
      · simp only [jetOf, hij, if_false]
        rw [hsym h2 i j hi' hj']
        exact ha _ _ (hh h2 j i (by omega) hi')

end exact

end HJ
