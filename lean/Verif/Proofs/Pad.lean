import Verif.Proofs.Factory

/-!
# Padding in closed form (helper lemmas)
-/

namespace HJ

open DD

variable {α : Type} [Arith α]

omit [Arith α] in
theorem iter_const {σ : Type} {b : σ → Res σ} (st : Nat → σ) :
    ∀ (n : Nat) (lo : Int), (∀ q < n, b (st q) = .ok (st (q + 1))) →
      iter (fun _ => b) n lo (st 0) = .ok (st n) := by
  intro n
  induction n generalizing st with
  | zero => intro lo _; rfl
  | succ n ih =>
    intro lo h
    simp only [iter, h 0 (Nat.succ_pos _), Res.ok_bind]
    have := ih (fun q => st (q + 1)) (lo + 1) (fun q hq => h (q + 1) (by omega))
    simpa using this

/-- The walk that has written the first `t` cells of the final contents `F`. -/
def W (L : Nat) (F r : Nat → Option α) (s t : Nat) : Walk α := ⟨s, t, mk L (mix t F r)⟩

section
variable {L Ls : Nat} {F r : Nat → Option α} {a : Nat → α}

omit [Arith α] in
theorem copyRun {lo hi : Int} (cnt : Nat) (hcnt : hi - lo = cnt) (s t : Nat)
    (h : ∀ q < cnt, t + q < L ∧ s + q < Ls ∧ F (t + q) = some (a (s + q))) :
    forUp lo hi (W L F r s t) (fun _ w => w.copy (mk Ls (fl a))) =
      .ok (W L F r (s + cnt) (t + cnt)) := by
  unfold forUp
  have e : (hi - lo).toNat = cnt := by omega
  rw [e]
  refine iter_const (fun q => W L F r (s + q) (t + q)) cnt lo ?_
  intro q hq
  obtain ⟨h1, h2, h3⟩ := h q hq
  unfold Walk.copy W
  simp only
  rw [rd_mk (v := a (s + q)) (s + q) rfl h2 rfl]
  simp only [Res.ok_bind]
  rw [wr_mix rfl h1 h3]
  rfl

theorem fillRun {lo hi : Int} (cnt : Nat) (hcnt : hi - lo = cnt) (s t : Nat)
    (h : ∀ q < cnt, t + q < L ∧ F (t + q) = some (Arith.lit 0)) :
    forUp lo hi (W L F r s t) (fun _ w => w.fill0) = .ok (W L F r s (t + cnt)) := by
  unfold forUp
  have e : (hi - lo).toNat = cnt := by omega
  rw [e]
  refine iter_const (fun q => W L F r s (t + q)) cnt lo ?_
  intro q hq
  obtain ⟨h1, h3⟩ := h q hq
  unfold Walk.fill0 W
  simp only
  rw [wr_mix rfl h1 h3]
  rfl

end

/-- Contents of `pad_right`. -/
def padRC (n m : Nat) (a : Nat → α) (k : Nat) : α :=
  if k ≤ n then a k else if k ≤ m then Arith.lit 0
  else if (dec m (k - 1 - m)).2 < n then
    a (pos n (dec m (k - 1 - m)).1 (dec m (k - 1 - m)).2)
  else Arith.lit 0

/-- Contents of `pad_left`. -/
def padLC (n m : Nat) (a : Nat → α) (k : Nat) : α :=
  if k = 0 then a 0 else if k ≤ m - n then Arith.lit 0 else if k ≤ m then a (k - (m - n))
  else if m - n ≤ (dec m (k - 1 - m)).1 then
    a (pos n ((dec m (k - 1 - m)).1 - (m - n)) ((dec m (k - 1 - m)).2 - (m - n)))
  else Arith.lit 0

theorem padRC_pos {n m : Nat} (hnm : n ≤ m) (a : Nat → α) {i j : Nat} (hij : i ≤ j) (hj : j < m) :
    padRC n m a (pos m i j) = if j < n then a (pos n i j) else Arith.lit 0 := by
  have h := pos_gt m i j
  unfold padRC
  rw [if_neg (by omega), if_neg (by omega), dec_pos hij hj]

theorem padLC_pos {n m : Nat} (a : Nat → α) {i j : Nat} (hij : i ≤ j) (hj : j < m) :
    padLC n m a (pos m i j) =
      if m - n ≤ i then a (pos n (i - (m - n)) (j - (m - n))) else Arith.lit 0 := by
  have h := pos_gt m i j
  unfold padLC
  rw [if_neg (by omega), if_neg (by omega), if_neg (by omega), dec_pos hij hj]

theorem tri_step {m i : Nat} (_h : i < m) : tri m (i + 1) = tri m i + (m - i) := tri_succ m i

theorem padRight_obj {c : Cfg} (hc : c.order = 1 ∨ c.order = 2) (hd : c.tsize = -1) {n m : Nat}
    (hnm : n ≤ m) (a : Nat → α) :
    (obj c n a).padRight c m = .ok (obj c m (padRC n m a)) := by
  have hf : Fits c n := Or.inl hd
  have hf' : Fits c m := Or.inl hd
  have hdyn : c.isDynamic = true := by simp [Cfg.isDynamic, hd]
  obtain ⟨r, hr⟩ := empty_ok (α := α) hf'
  have hl := le_dlen c m
  have hln := le_dlen c n
  unfold DD.padRight
  simp only [hr, Res.ok_bind, size_obj hf, data_obj]
  have e0 : (⟨0, 0, mk (dlen c m) r⟩ : Walk α) = W (dlen c m) (fl (padRC n m a)) r 0 0 := by
    unfold W; rw [mix_zero]; rfl
  rw [e0, copyRun (n + 1) (by push_cast; ring)]
  · simp only [Res.ok_bind, Nat.zero_add]
    rw [fillRun (m - n) (by push_cast [Nat.cast_sub hnm]; ring)]
    · simp only [Res.ok_bind]
      have e1 : n + 1 + (m - n) = 1 + m := by omega
      rw [e1]
      rcases hc with h1 | h2
      · rw [if_pos h1]
        unfold W
        rw [← dlen_one h1 m, mk_mix_all]
        rfl
      · rw [if_neg (by omega)]
        have hdm := dlen_two h2 m
        have hdn := dlen_two h2 n
        rw [forUp_eq' (lo := 0) (hi := n) (fun i => W (dlen c m) (fl (padRC n m a)) r
          (1 + n + tri n i) (1 + m + tri m i)) (zlo := 0) rfl rfl (by simp [tri]; ring_nf)
          (Nat.zero_le _)]
        · simp only [Res.ok_bind]
          rw [forUp_eq' (lo := 0) (hi := m - n) (fun i => W (dlen c m) (fl (padRC n m a)) r
            (1 + n + tri n n) (1 + m + tri m (n + i))) (zlo := 0) rfl
            (by push_cast [Nat.cast_sub hnm]; ring) (by simp) (Nat.zero_le _)]
          · simp only [Res.ok_bind]
            have e2 : n + (m - n) = m := by omega
            unfold W
            rw [e2, ← hdm, mk_mix_all]
            rfl
          · intro i _ hi
            rw [fillRun (m - n - i) (by push_cast [Nat.cast_sub hnm, Nat.cast_sub (show i ≤ m - n by omega)]; ring)]
            · have := tri_step (m := m) (i := n + i) (by omega)
              rw [show n + (i + 1) = n + i + 1 by omega, this]
              congr 2; omega
            · intro q hq
              have hp : 1 + m + tri m (n + i) + q = pos m (n + i) (n + i + q) := by
                unfold pos; omega
              have hb : n + i + q < m := by omega
              rw [hp]
              refine ⟨pos_lt h2 (by omega) hb, ?_⟩
              simp only [fl]
              rw [padRC_pos hnm a (by omega) hb, if_neg (by omega)]
        · intro i _ hi
          rw [copyRun (n - i) (by push_cast [Nat.cast_sub (show i ≤ n by omega)]; ring)]
          · simp only [Res.ok_bind]
            rw [fillRun (m - n) (by push_cast [Nat.cast_sub hnm]; ring)]
            · rw [tri_step (m := m) (by omega), tri_step (m := n) hi]
              congr 2 <;> omega
            · intro q hq
              have hp : 1 + m + tri m i + (n - i) + q = pos m i (n + q) := by unfold pos; omega
              rw [hp]
              refine ⟨pos_lt h2 (by omega) (by omega), ?_⟩
              simp only [fl]
              rw [padRC_pos hnm a (by omega) (by omega), if_neg (by omega)]
          · intro q hq
            have hp : 1 + m + tri m i + q = pos m i (i + q) := by unfold pos; omega
            have hp' : 1 + n + tri n i + q = pos n i (i + q) := by unfold pos; omega
            rw [hp, hp']
            refine ⟨pos_lt h2 (by omega) (by omega), pos_lt h2 (by omega) (by omega), ?_⟩
            simp only [fl]
            rw [padRC_pos hnm a (by omega) (by omega), if_pos (by omega)]
    · intro q hq
      refine ⟨by omega, ?_⟩
      simp only [fl, padRC]
      rw [if_neg (by omega), if_pos (by omega)]
  · intro q hq
    refine ⟨by omega, by omega, ?_⟩
    simp only [fl, padRC]
    rw [if_pos (by omega)]

theorem padLeft_obj {c : Cfg} (hc : c.order = 1 ∨ c.order = 2) (hd : c.tsize = -1) {n m : Nat}
    (hnm : n ≤ m) (a : Nat → α) :
    (obj c n a).padLeft c m = .ok (obj c m (padLC n m a)) := by
  have hf : Fits c n := Or.inl hd
  have hf' : Fits c m := Or.inl hd
  have hdyn : c.isDynamic = true := by simp [Cfg.isDynamic, hd]
  obtain ⟨r, hr⟩ := empty_ok (α := α) hf'
  have hl := le_dlen c m
  have hln := le_dlen c n
  unfold DD.padLeft
  simp only [hr, Res.ok_bind, size_obj hf, data_obj]
  have e0 : (⟨0, 0, mk (dlen c m) r⟩ : Walk α) = W (dlen c m) (fl (padLC n m a)) r 0 0 := by
    unfold W; rw [mix_zero]; rfl
  have hcopy : (W (dlen c m) (fl (padLC n m a)) r 0 0).copy (mk (dlen c n) (fl a)) =
      .ok (W (dlen c m) (fl (padLC n m a)) r 1 1) := by
    unfold Walk.copy W
    simp only
    rw [rd_mk (v := a 0) 0 rfl (by omega) rfl]
    simp only [Res.ok_bind]
    rw [wr_mix rfl (by omega) (v := a 0) rfl]
    rfl
  rw [e0, hcopy]
  simp only [Res.ok_bind]
  rw [fillRun (m - n) (by push_cast [Nat.cast_sub hnm]; ring)]
  · simp only [Res.ok_bind]
    rw [copyRun n (by ring)]
    · simp only [Res.ok_bind]
      have e1 : 1 + (m - n) + n = 1 + m := by omega
      rw [e1]
      rcases hc with h1 | h2
      · rw [if_pos h1]
        unfold W
        rw [← dlen_one h1 m, mk_mix_all]
        rfl
      · rw [if_neg (by omega)]
        have hdm := dlen_two h2 m
        have hdn := dlen_two h2 n
        rw [forUp_eq' (lo := 0) (hi := m - n) (fun i => W (dlen c m) (fl (padLC n m a)) r
          (1 + n) (1 + m + tri m i)) (zlo := 0) rfl
          (by push_cast [Nat.cast_sub hnm]; ring) (by simp [tri]) (Nat.zero_le _)]
        · simp only [Res.ok_bind]
          rw [forUp_eq' (lo := 0) (hi := n) (fun i => W (dlen c m) (fl (padLC n m a)) r
            (1 + n + tri n i) (1 + m + tri m (m - n + i))) (zlo := 0) rfl rfl (by simp [tri])
            (Nat.zero_le _)]
          · simp only [Res.ok_bind]
            have e2 : m - n + n = m := by omega
            unfold W
            rw [e2, ← hdm, mk_mix_all]
            rfl
          · intro i _ hi
            rw [copyRun (n - i) (by push_cast [Nat.cast_sub (show i ≤ n by omega)]; ring)]
            · rw [show m - n + (i + 1) = m - n + i + 1 by omega, tri_step (m := m) (by omega),
                tri_step (m := n) hi]
              congr 2 <;> omega
            · intro q hq
              have hp : 1 + m + tri m (m - n + i) + q = pos m (m - n + i) (m - n + i + q) := by
                unfold pos; omega
              have hp' : 1 + n + tri n i + q = pos n i (i + q) := by unfold pos; omega
              rw [hp, hp']
              refine ⟨pos_lt h2 (by omega) (by omega), pos_lt h2 (by omega) (by omega), ?_⟩
              simp only [fl]
              rw [padLC_pos a (by omega) (by omega), if_pos (by omega)]
              congr 3 <;> omega
        · intro i _ hi
          rw [fillRun (m - i) (by push_cast [Nat.cast_sub (show i ≤ m by omega)]; ring)]
          · rw [tri_step (m := m) (by omega)]
            congr 2
            omega
          · intro q hq
            have hp : 1 + m + tri m i + q = pos m i (i + q) := by unfold pos; omega
            rw [hp]
            refine ⟨pos_lt h2 (by omega) (by omega), ?_⟩
            simp only [fl]
            rw [padLC_pos a (by omega) (by omega), if_neg (by omega)]
    · intro q hq
      refine ⟨by omega, by omega, ?_⟩
      simp only [fl, padLC]
      rw [if_neg (by omega), if_neg (by omega), if_pos (by omega)]
      congr 2
      omega
  · intro q hq
    refine ⟨by omega, ?_⟩
    simp only [fl, padLC]
    rw [if_neg (by omega), if_pos (by omega)]

/-! ### Shrinking -/

/-- A piece of the walk that writes `k` cells or is undefined behaviour. -/
def Adv (k : Nat) (w : Walk α) (r : Res (Walk α)) : Prop :=
  (∃ u, r = .ub u) ∨ ∃ w', r = .ok w' ∧ w'.tgt = w.tgt + k ∧ w'.out.length = w.out.length ∧
    (w.tgt ≤ w.out.length → w'.tgt ≤ w'.out.length)

omit [Arith α] in
theorem Adv.zero (w : Walk α) : Adv 0 w (.ok w) := Or.inr ⟨w, rfl, by simp, rfl, fun h => h⟩

omit [Arith α] in
theorem Adv.bind {k l : Nat} {w : Walk α} {r : Res (Walk α)} {f : Walk α → Res (Walk α)}
    (h : Adv k w r) (hf : ∀ w', Adv l w' (f w')) : Adv (k + l) w (r >>= f) := by
  rcases h with ⟨u, rfl⟩ | ⟨w', rfl, h1, h2, h3⟩
  · exact Or.inl ⟨u, rfl⟩
  · rcases hf w' with ⟨u, hu⟩ | ⟨w'', hw, g1, g2, g3⟩
    · exact Or.inl ⟨u, by simpa using hu⟩
    · refine Or.inr ⟨w'', by simpa using hw, by rw [g1, h1]; push_cast; ring, by rw [g2, h2],
        fun h => g3 (h3 h)⟩

omit [Arith α] in
theorem Adv.write {w : Walk α} {v : α} {s : Int} :
    Adv 1 w (do let d ← wr w.out w.tgt v; .ok ⟨s, w.tgt + 1, d⟩) := by
  unfold wr
  split
  · exact Or.inl ⟨_, rfl⟩
  · rename_i h
    refine Or.inr ⟨_, rfl, by simp, by simp, ?_⟩
    intro _
    simp only [List.length_set]
    omega

omit [Arith α] in
theorem Adv.copy (d : Data α) (w : Walk α) : Adv 1 w (w.copy d) := by
  unfold Walk.copy rd
  split
  · exact Or.inl ⟨_, rfl⟩
  · split
    · exact Or.inl ⟨_, rfl⟩
    · exact Or.inl ⟨_, rfl⟩
    · exact Adv.write

theorem Adv.fill (w : Walk α) : Adv 1 w w.fill0 := Adv.write

omit [Arith α] in
theorem Adv.loop {body : Int → Walk α → Res (Walk α)} (cnt : Int → Nat)
    (h : ∀ i w, Adv (cnt i) w (body i w)) :
    ∀ (n : Nat) (lo : Int) (w : Walk α),
      Adv (((List.range n).map fun q : Nat => cnt (lo + (q : Int))).sum) w (iter body n lo w) := by
  intro n
  induction n with
  | zero => intro lo w; exact Adv.zero w
  | succ n ih =>
    intro lo w
    simp only [iter]
    have := Adv.bind (h lo w) (fun w' => ih (lo + 1) w')
    rw [List.range_succ_eq_map]
    simp only [List.map_cons, List.map_map, List.sum_cons, Nat.cast_zero, add_zero]
    convert this using 3
    apply List.map_congr_left
    intro q _
    simp only [Function.comp]
    congr 1
    push_cast
    ring

omit [Arith α] in
theorem Adv.loop1 {body : Int → Walk α → Res (Walk α)}
    (h : ∀ i w, Adv 1 w (body i w)) (lo hi : Int) (w : Walk α) :
    Adv (hi - lo).toNat w (forUp lo hi w body) := by
  have := Adv.loop (fun _ => 1) h (hi - lo).toNat lo w
  rw [show ((List.range (hi - lo).toNat).map fun _ : Nat => 1).sum = (hi - lo).toNat by
    induction (hi - lo).toNat with
    | zero => rfl
    | succ n ih => rw [List.range_succ, List.map_append, List.sum_append, ih]; simp] at this
  exact this

omit [Arith α] in
theorem Adv.rows {body : Int → Int → Walk α → Res (Walk α)}
    (h : ∀ i j w, Adv 1 w (body i j w)) (n : Nat) (w : Walk α) :
    Adv (tri n n) w (forUp 0 n w fun i w => forUp i n w (body i)) := by
  have := Adv.loop (fun i => ((n : Int) - i).toNat) (fun i w => Adv.loop1 (h i) i n w) n 0 w
  have e : ((List.range n).map fun q => ((n : Int) - (0 + (q : Nat))).toNat).sum = tri n n := by
    have : ∀ k, k ≤ n → ((List.range k).map fun q => ((n : Int) - (0 + (q : Nat))).toNat).sum
        = tri n k := by
      intro k
      induction k with
      | zero => intro _; rfl
      | succ k ih =>
        intro hk
        rw [List.range_succ, List.map_append, List.sum_append, ih (by omega), tri_succ]
        simp
    exact this n (Nat.le_refl _)
  rw [e] at this
  exact this

omit [Arith α] in
theorem Adv.ub {k : Nat} {w : Walk α} {r : Res (Walk α)} (h : Adv k w r)
    (h0 : w.tgt ≤ w.out.length) (hk : (w.out.length : Int) < w.tgt + k) : ∃ u, r = .ub u := by
  rcases h with h | ⟨w', _, h1, h2, h3⟩
  · exact h
  · have := h3 h0
    omega

theorem dlen_lt {c : Cfg} (hc : c.order = 1 ∨ c.order = 2) {m n : Nat} (h : m < n) :
    dlen c m < dlen c n := by
  rcases hc with h1 | h1
  · rw [dlen_one h1, dlen_one h1]; omega
  · rw [dlen_two h1, dlen_two h1]
    have h3 := two_tri_self m
    have h2 := two_tri_self n
    have : m * (m + 1) ≤ n * (n + 1) := Nat.mul_le_mul (by omega) (by omega)
    omega

theorem pad_shrink {c : Cfg} (hc : c.order = 1 ∨ c.order = 2) (hd : c.tsize = -1) {n m : Nat}
    (hmn : m < n) (a : Nat → α) :
    (∃ u, (obj c n a).padRight c m = .ub u) ∧ (∃ u, (obj c n a).padLeft c m = .ub u) := by
  have hf : Fits c n := Or.inl hd
  have hf' : Fits c m := Or.inl hd
  obtain ⟨r, hr⟩ := empty_ok (α := α) hf'
  have hlt := dlen_lt hc hmn
  have fin : ∀ (w : Res (Walk α)) (g : Walk α → Res (DD α)) (k : Nat),
      Adv k (⟨0, 0, mk (dlen c m) r⟩ : Walk α) w → dlen c m < k → ∃ u, (w >>= g) = .ub u := by
    intro w g k h hk
    obtain ⟨u, rfl⟩ := h.ub (by simp) (by simp; omega)
    exact ⟨u, rfl⟩
  constructor
  · unfold DD.padRight
    simp only [hr, Res.ok_bind, size_obj hf, data_obj]
    have h1 := Adv.loop1 (fun _ w => Adv.copy (mk (dlen c n) (fl a)) w) 0 ((n : Int) + 1)
      (⟨0, 0, mk (dlen c m) r⟩ : Walk α)
    have e1 : ((n : Int) + 1 - 0).toNat = 1 + n := by omega
    rw [e1] at h1
    have hz : ∀ w : Walk α, forUp 0 ((m : Int) - n) w (fun _ w => w.fill0) = .ok w :=
      fun w => forUp_empty (by omega)
    rcases hc with ho | ho
    · simp only [hz, Res.ok_bind, ho, if_true]
      exact fin _ _ _ h1 (by rw [dlen_one ho] at *; omega)
    · simp only [hz, Res.ok_bind, show ¬ c.order = 1 by omega, if_false]
      rw [← bind_assoc]
      have hb : ∀ r : Res (Walk α), (r >>= fun w => Res.ok w) = r := fun r => bind_pure r
      simp only [hb]
      refine fin _ _ _ (h1.bind fun w => Adv.rows (body := fun _ _ w => w.copy _)
        (fun _ _ w => Adv.copy _ w) n w) ?_
      rw [dlen_two ho n] at hlt
      omega
  · unfold DD.padLeft
    simp only [hr, Res.ok_bind, size_obj hf, data_obj]
    have hz : ∀ w : Walk α, forUp 0 ((m : Int) - n) w (fun _ w => w.fill0) = .ok w :=
      fun w => forUp_empty (by omega)
    have hz2 : ∀ w : Walk α, forUp 0 ((m : Int) - n) w (fun i w => forUp i m w (fun _ w => w.fill0)) = .ok w :=
      fun w => forUp_empty (by omega)
    have h1 := (Adv.copy (mk (dlen c n) (fl a)) (⟨0, 0, mk (dlen c m) r⟩ : Walk α)).bind
      (fun w => Adv.loop1 (fun _ w => Adv.copy (mk (dlen c n) (fl a)) w) 0 (n : Int) w)
    have e1 : 1 + ((n : Int) - 0).toNat = 1 + n := by omega
    rw [e1] at h1
    rcases hc with ho | ho
    · simp only [hz, Res.ok_bind, ho, if_true]
      rw [← bind_assoc]
      exact fin _ _ _ h1 (by rw [dlen_one ho] at *; omega)
    · simp only [hz, hz2, Res.ok_bind, show ¬ c.order = 1 by omega, if_false]
      rw [← bind_assoc, ← bind_assoc]
      refine fin _ _ _ (h1.bind fun w => Adv.rows (body := fun _ _ w => w.copy _)
        (fun _ _ w => Adv.copy _ w) n w) ?_
      rw [dlen_two ho n] at hlt
      omega

end HJ
