import Verif.Proofs.Kernel

/-!
# Operations on well-formed objects in closed form (helper lemmas)
-/

namespace HJ

variable {α : Type}

/-- The object with `n` variables and contents `a`. -/
def obj (c : Cfg) (n : Nat) (a : Nat → α) : DD α :=
  ⟨if c.isDynamic then n else 0, mk (dlen c n) (fl a)⟩

/-- The size `n` is possible for the type: dynamic, or `TSize = n`. -/
def Fits (c : Cfg) (n : Nat) : Prop := c.tsize = -1 ∨ c.tsize = n

/-- Position of `h(i, j)`, `i ≤ j`. -/
def pos (n i j : Nat) : Nat := 1 + n + (tri n i + (j - i))

theorem Fits.static {c : Cfg} {n : Nat} (h : Fits c n) (hd : c.isDynamic = false) :
    c.tsize = n := by
  rcases h with h | h
  · simp [Cfg.isDynamic, h] at hd
  · exact h

theorem obj_ext {c : Cfg} {n : Nat} {a b : Nat → α} (h : ∀ k < dlen c n, a k = b k) :
    obj c n a = obj c n b := by
  unfold obj
  rw [mk_ext]
  intro k hk
  simp [fl, h k hk]

theorem obj_inj {c : Cfg} {n : Nat} {a b : Nat → α} (h : obj c n a = obj c n b) :
    ∀ k < dlen c n, a k = b k := by
  intro k hk
  have := mk_inj (congrArg DD.mData h) k hk
  simpa [fl] using this

theorem obj_ext' {c : Cfg} (hc : c.order = 1 ∨ c.order = 2) {n : Nat} {a b : Nat → α}
    (h0 : a 0 = b 0) (hg : ∀ i < n, a (1 + i) = b (1 + i))
    (hh : c.order = 2 → ∀ i j, i ≤ j → j < n → a (pos n i j) = b (pos n i j)) :
    obj c n a = obj c n b := by
  apply obj_ext
  intro k hk
  by_cases hk0 : k = 0
  · rw [hk0, h0]
  by_cases hkn : k ≤ n
  · have := hg (k - 1) (by omega)
    rwa [show 1 + (k - 1) = k by omega] at this
  · rcases hc with h1 | h2
    · rw [dlen_one h1] at hk; omega
    · rw [dlen_two h2] at hk
      obtain ⟨p1, p2, p3⟩ := tri_dec (n := n) (m := k - 1 - n) (by omega)
      have := hh h2 _ _ p1 p2
      unfold pos at this
      rw [p3] at this
      rwa [show 1 + n + (k - 1 - n) = k by omega] at this

theorem pos_lt {c : Cfg} {n i j : Nat} (h2 : c.order = 2) (hij : i ≤ j) (hj : j < n) :
    pos n i j < dlen c n := by
  rw [dlen_two h2]
  have := off_lt hij hj
  unfold pos; omega

theorem pos_gt (n i j : Nat) : n < pos n i j := by unfold pos; omega

theorem dec_pos {n i j : Nat} (hij : i ≤ j) (hj : j < n) : dec n (pos n i j - 1 - n) = (i, j) := by
  have e : pos n i j - 1 - n = tri n i + (j - i) := by unfold pos; omega
  rw [e, dec_tri hij hj]

theorem fin1_zero (f : α) (t1 : Nat → α) : fin1 f t1 0 = f := rfl
theorem fin1_succ (f : α) (t1 : Nat → α) (i : Nat) : fin1 f t1 (1 + i) = t1 (1 + i) := by
  unfold fin1; rw [if_neg (by omega)]
theorem fin1_pos (f : α) (t1 : Nat → α) (n i j : Nat) : fin1 f t1 (pos n i j) = t1 (pos n i j) := by
  have := pos_gt n i j
  unfold fin1; rw [if_neg (by omega)]
theorem fin2_zero [Arith α] (n : Nat) (f : α) (t1 : Nat → α) (t2 : Nat → Nat → α) :
    fin2 n f t1 t2 0 = f := rfl
theorem fin2_succ [Arith α] {n : Nat} (f : α) (t1 : Nat → α) (t2 : Nat → Nat → α) {i : Nat}
    (hi : i < n) : fin2 n f t1 t2 (1 + i) = t1 (1 + i) := by
  unfold fin2; rw [if_neg (by omega), if_pos (by omega)]
theorem fin2_pos [Arith α] {n : Nat} (f : α) (t1 : Nat → α) (t2 : Nat → Nat → α) {i j : Nat}
    (hij : i ≤ j) (hj : j < n) : fin2 n f t1 t2 (pos n i j) = t1 (pos n i j) +ₛ t2 i j := by
  have := pos_gt n i j
  unfold fin2
  rw [if_neg (by omega), if_neg (by omega), dec_pos hij hj]

@[simp] theorem size_obj {c : Cfg} {n : Nat} (hf : Fits c n) (a : Nat → α) :
    (obj c n a).size c = n := by
  unfold DD.size obj
  cases hd : c.isDynamic
  · simp [hf.static hd]
  · simp

theorem staticDataSize_eq {c : Cfg} {n : Nat} (h : c.tsize = n) : c.staticDataSize = dlen c n := by
  have := dataLength_eq c n
  unfold dataLengthFromSize at this
  unfold Cfg.staticDataSize
  rw [h]; exact this

theorem dataLength_obj {c : Cfg} {n : Nat} (hf : Fits c n) (a : Nat → α) :
    (obj c n a).dataLength c = dlen c n := by
  unfold DD.dataLength DD.len obj
  cases hd : c.isDynamic
  · simp [staticDataSize_eq (hf.static hd)]
  · simp

@[simp] theorem len_obj (c : Cfg) (n : Nat) (a : Nat → α) : (obj c n a).len = dlen c n := by
  simp [DD.len, obj]

theorem data_obj (c : Cfg) (n : Nat) (a : Nat → α) : (obj c n a).mData = mk (dlen c n) (fl a) := rfl

theorem mkDD_obj (c : Cfg) (n : Nat) (a b : Nat → α) :
    ({ obj c n a with mData := mk (dlen c n) (fl b) } : DD α) = obj c n b := rfl

theorem checkEqualSize_self (c : Cfg) (n : Int) : checkEqualSize c n n = .ok () := by
  unfold checkEqualSize assertB
  cases c.isDynamic <;> cases c.exc <;> simp

theorem checkValidSize_fits {c : Cfg} {n : Nat} (hf : Fits c n) : checkValidSize c n = .ok () := by
  unfold checkValidSize assertB
  cases hd : c.isDynamic
  · cases c.exc <;> simp [hf.static hd]
  · cases c.exc <;> simp

theorem replicate_eq_mk (L : Nat) (v : Option α) : List.replicate L v = mk L (fun _ => v) := by
  apply List.ext_getElem?
  intro k
  rw [mk_getElem?]
  by_cases h : k < L <;> simp [h]

/-- What `empty(size)` returns, seen as storage to be overwritten. -/
theorem empty_ok [Arith α] {c : Cfg} {n : Nat} (hf : Fits c n) :
    ∃ r : Nat → Option α, (DD.empty c n : Res (DD α)) =
      .ok ⟨if c.isDynamic then n else 0, mk (dlen c n) r⟩ := by
  unfold DD.empty
  cases hd : c.isDynamic
  · refine ⟨fun _ => none, ?_⟩
    simp only [Bool.false_eq_true, if_false]
    rw [checkValidSize_fits hf]
    simp [DD.empty0, hd, DD.staticUninit, staticDataSize_eq (hf.static hd), replicate_eq_mk]
  · refine ⟨fun _ => some (Arith.lit 0), ?_⟩
    simp [DD.vectorZeros, dataLength_eq, replicate_eq_mk]
    rw [if_neg (by omega)]
    simp

theorem rd_obj {c : Cfg} {n : Nat} {a : Nat → α} {z : Int} (k : Nat) (hz : z = k)
    (hk : k < dlen c n) : rd (obj c n a).mData z = .ok (a k) := rd_mk k hz hk rfl

theorem rd_obj0 {c : Cfg} {n : Nat} {a : Nat → α} : rd (obj c n a).mData 0 = .ok (a 0) :=
  rd_obj 0 rfl (dlen_pos c n)

theorem rd_mk0 {c : Cfg} {n : Nat} {a : Nat → α} : rd (mk (dlen c n) (fl a)) 0 = .ok (a 0) :=
  rd_obj0

theorem wr_mk0 {c : Cfg} {n : Nat} {φ ψ : Nat → Option α} {v : α}
    (hv : ∀ m < dlen c n, ψ m = if m = 0 then some v else φ m) :
    wr (mk (dlen c n) φ) 0 v = .ok (mk (dlen c n) ψ) :=
  wr_mk 0 rfl (dlen_pos c n) hv

theorem f_obj (c : Cfg) (n : Nat) (a : Nat → α) : (obj c n a).f = .ok (a 0) :=
  rd_obj 0 rfl (dlen_pos c n)

theorem g_obj {c : Cfg} {n : Nat} (hf : Fits c n) (a : Nat → α) {i : Nat} (hi : i < n) :
    (obj c n a).g c i = .ok (a (1 + i)) := by
  have := le_dlen c n
  unfold DD.g assertB
  rw [size_obj hf, rd_obj (1 + i) (by push_cast; ring) (by omega)]
  simp [hi]

theorem h_obj {c : Cfg} (h2 : c.order = 2) {n : Nat} (hf : Fits c n) (a : Nat → α) {i j : Nat}
    (hij : i ≤ j) (hj : j < n) : (obj c n a).h c i j = .ok (a (pos n i j)) := by
  unfold DD.h assertB
  rw [size_obj hf, rd_obj (pos n i j) (hIndex_eq hij hj) (pos_lt h2 hij hj)]
  simp [hj, show i < n by omega]

theorem h_obj_swap {c : Cfg} (h2 : c.order = 2) {n : Nat} (hf : Fits c n) (a : Nat → α) {i j : Nat}
    (hij : i ≤ j) (hj : j < n) : (obj c n a).h c j i = .ok (a (pos n i j)) := by
  unfold DD.h assertB
  rw [size_obj hf, hIndex_comm, rd_obj (pos n i j) (hIndex_eq hij hj) (pos_lt h2 hij hj)]
  simp [hj, show i < n by omega]

theorem setF_obj (c : Cfg) (n : Nat) (a : Nat → α) (v : α) :
    (obj c n a).setF v = .ok (obj c n (fun k => if k = 0 then v else a k)) := by
  unfold DD.setF
  rw [data_obj, wr_mk0 (ψ := fl (fun k => if k = 0 then v else a k))]
  · rfl
  · intro m _; by_cases h : m = 0 <;> simp [fl, h]

/-- Copying loop `for k: r[k] = F k`. -/
theorem fillLoop {L : Nat} {F : Nat → α} {r : Nat → Option α} {zL : Int} (hzL : zL = L)
    {body : Int → Data α → Res (Data α)}
    (hbody : ∀ k < L, body (k : Int) (mk L (mix k (fl F) r)) = wr (mk L (mix k (fl F) r)) k (F k)) :
    forUp 0 zL (mk L r) body = .ok (mk L (fl F)) := by
  rw [forUp_eq' (zlo := 0) (lo := 0) (hi := L) (fun k => mk L (mix k (fl F) r)) rfl hzL (by rw [mix_zero])
    (Nat.zero_le _), mk_mix_all]
  intro k _ hk
  rw [hbody k hk]
  exact wr_mix rfl hk rfl

section ops

variable [Arith α] {c : Cfg} {n : Nat}

theorem neg_obj (hf : Fits c n) (a : Nat → α) :
    (obj c n a).neg c = .ok (obj c n fun k => -ₛ a k) := by
  obtain ⟨r, hr⟩ := empty_ok (α := α) hf
  unfold DD.neg
  simp only [size_obj hf, hr, Res.ok_bind, dataLength_obj hf]
  rw [fillLoop (F := fun k => -ₛ a k) rfl]
  · rfl
  · intro k hk
    rw [rd_obj k rfl hk]; rfl

/-- Contents of a sum. -/
def addC (a b : Nat → α) (k : Nat) : α := a k +ₛ b k

theorem add_obj (hc : c.order = 1 ∨ c.order = 2) (hf : Fits c n) (a b : Nat → α) :
    (obj c n a).add c (obj c n b) = .ok (obj c n (addC a b)) := by
  obtain ⟨r, hr⟩ := empty_ok (α := α) hf
  unfold DD.add
  simp only [size_obj hf, checkEqualSize_self, hr, Res.ok_bind, f_obj, data_obj]
  rw [binary_eq hc (size_obj hf a) (dataLength_obj hf a) a b _ false (addC a b) (fun _ _ => a 0) r
    rfl rfl (fun _ => rfl) (by simp)]
  simp only [Res.ok_bind]
  congr 1
  apply obj_ext
  intro k _
  simp only [bFin, or_true, if_true, fin1]
  split
  · next h => subst h; rfl
  · rfl

/-- Contents of a difference. -/
def subC (a b : Nat → α) (k : Nat) : α := if k = 0 then a 0 -ₛ b 0 else a k +ₛ -ₛ b k

theorem sub_obj (hc : c.order = 1 ∨ c.order = 2) (hf : Fits c n) (a b : Nat → α) :
    (obj c n a).sub c (obj c n b) = .ok (obj c n (subC a b)) := by
  obtain ⟨r, hr⟩ := empty_ok (α := α) hf
  unfold DD.sub
  simp only [size_obj hf, checkEqualSize_self, hr, Res.ok_bind, f_obj, data_obj]
  rw [binary_eq hc (size_obj hf a) (dataLength_obj hf a) a b _ false (fun k => a k +ₛ -ₛ b k)
    (fun _ _ => a 0) r rfl rfl (fun _ => rfl) (by simp)]
  simp only [Res.ok_bind]
  congr 1
  apply obj_ext
  intro k _
  simp only [bFin, or_true, if_true, fin1, subC]

/-- Contents of `x + scalar`. -/
def addSC (a : Nat → α) (s : α) (k : Nat) : α := if k = 0 then a 0 +ₛ s else a k

theorem addS_obj (a : Nat → α) (s : α) : (obj c n a).addS s = .ok (obj c n (addSC a s)) := by
  unfold DD.addS
  simp only [f_obj, Res.ok_bind, setF_obj]
  rfl

theorem sAdd_obj (a : Nat → α) (s : α) : DD.sAdd s (obj c n a) = .ok (obj c n (addSC a s)) :=
  addS_obj a s

theorem subS_obj (a : Nat → α) (s : α) :
    (obj c n a).subS s = .ok (obj c n (addSC a (-ₛ s))) := addS_obj a _

/-- Contents of `scalar - x`. -/
def sSubC (s : α) (a : Nat → α) (k : Nat) : α := if k = 0 then -ₛ a 0 +ₛ s else -ₛ a k

theorem sSub_obj (hf : Fits c n) (s : α) (a : Nat → α) :
    DD.sSub c s (obj c n a) = .ok (obj c n (sSubC s a)) := by
  obtain ⟨r, hr⟩ := empty_ok (α := α) hf
  unfold DD.sSub
  have hl : (⟨if c.isDynamic then (n : Int) else 0, mk (dlen c n) r⟩ : DD α).dataLength c =
      dlen c n := by
    unfold DD.dataLength DD.len
    cases hd : c.isDynamic
    · simp [staticDataSize_eq (hf.static hd)]
    · simp
  simp only [size_obj hf, hr, Res.ok_bind, hl]
  rw [fillLoop (F := fun k => -ₛ a k) rfl]
  · simp only [Res.ok_bind]
    rw [rd_mk0]
    simp only [Res.ok_bind]
    rw [wr_mk0 (ψ := fl (sSubC s a))]
    · rfl
    · intro m _; by_cases h : m = 0 <;> simp [fl, sSubC, h]
  · intro k hk
    rw [rd_obj k rfl hk]; rfl

theorem mulS_obj (hf : Fits c n) (a : Nat → α) (s : α) :
    (obj c n a).mulS c s = .ok (obj c n fun k => a k *ₛ s) := by
  obtain ⟨r, hr⟩ := empty_ok (α := α) hf
  unfold DD.mulS
  simp only [size_obj hf, hr, Res.ok_bind, dataLength_obj hf]
  rw [fillLoop (F := fun k => a k *ₛ s) rfl]
  · rfl
  · intro k hk
    rw [rd_obj k rfl hk]; rfl

theorem sMul_obj (hf : Fits c n) (s : α) (a : Nat → α) :
    DD.sMul c s (obj c n a) = .ok (obj c n fun k => a k *ₛ s) := mulS_obj hf a s

theorem divS_obj (hf : Fits c n) (a : Nat → α) (s : α) :
    (obj c n a).divS c s = .ok (obj c n fun k => a k *ₛ (Arith.lit 1 ÷ₛ s)) := sMul_obj hf _ a

/-- Contents of a product. -/
def mulC (c : Cfg) (n : Nat) (a b : Nat → α) : Nat → α :=
  bFin c n true (a 0 *ₛ b 0) (fun k => b 0 *ₛ a k +ₛ a 0 *ₛ b k)
    (fun i j => b (1 + i) *ₛ a (1 + j) +ₛ a (1 + i) *ₛ b (1 + j))

theorem mul_obj (hc : c.order = 1 ∨ c.order = 2) (hf : Fits c n) (a b : Nat → α) :
    (obj c n a).mul c (obj c n b) = .ok (obj c n (mulC c n a b)) := by
  obtain ⟨r, hr⟩ := empty_ok (α := α) hf
  unfold DD.mul
  simp only [size_obj hf, checkEqualSize_self, hr, Res.ok_bind, f_obj, data_obj]
  rw [binary_eq hc (size_obj hf a) (dataLength_obj hf a) a b _ true
    (fun k => b 0 *ₛ a k +ₛ a 0 *ₛ b k)
    (fun i j => b (1 + i) *ₛ a (1 + j) +ₛ a (1 + i) *ₛ b (1 + j)) r rfl rfl (fun _ => rfl)
    (fun _ _ _ => rfl)]
  rfl

/-- Contents of `l / r` from its coefficients. -/
def divC (c : Cfg) (n : Nat) (a b : Nat → α) (f da db dab dbb : α) : Nat → α :=
  bFin c n true f (fun k => da *ₛ a k +ₛ db *ₛ b k)
    (fun i j => dab *ₛ b (1 + i) *ₛ a (1 + j) +ₛ
      (dab *ₛ a (1 + i) +ₛ dbb *ₛ b (1 + i)) *ₛ b (1 + j))

theorem div_obj (hc : c.order = 1 ∨ c.order = 2) (hf : Fits c n) (a b : Nat → α) :
    (obj c n a).div c (obj c n b) = .ok (obj c n (divC c n a b (a 0 *ₛ (Arith.lit 1 ÷ₛ b 0))
      (Arith.lit 1 ÷ₛ b 0) (-ₛ a 0 ÷ₛ Arith.powN (b 0) 2) (Arith.lit (-1) ÷ₛ Arith.powN (b 0) 2)
      (Arith.lit 2 *ₛ a 0 ÷ₛ Arith.powN (b 0) 3))) := by
  obtain ⟨r, hr⟩ := empty_ok (α := α) hf
  unfold DD.div
  simp only [size_obj hf, checkEqualSize_self, hr, Res.ok_bind, f_obj, data_obj]
  rw [binary_eq hc (size_obj hf a) (dataLength_obj hf a) a b _ true _ _ r rfl rfl (fun _ => rfl)
    (fun _ _ _ => rfl)]
  rfl

theorem sDiv_obj (hc : c.order = 1 ∨ c.order = 2) (hf : Fits c n) (s : α) (a : Nat → α) :
    DD.sDiv c s (obj c n a) = .ok (obj c n (uFin c n a (s ÷ₛ a 0) (-ₛ s ÷ₛ Arith.powN (a 0) 2)
      (Arith.lit 2 *ₛ s ÷ₛ Arith.powN (a 0) 3))) := by
  obtain ⟨r, hr⟩ := empty_ok (α := α) hf
  unfold DD.sDiv
  simp only [size_obj hf, hr, Res.ok_bind, f_obj, data_obj]
  rw [unary_eq hc (size_obj hf a) (dataLength_obj hf a)]
  rfl

theorem un_obj (hc : c.order = 1 ∨ c.order = 2) (hf : Fits c n) (k : α → DD.U α) (a : Nat → α) :
    DD.un c (obj c n a) k = .ok (obj c n (uFin c n a (k (a 0)).f (k (a 0)).da (k (a 0)).daa)) := by
  obtain ⟨r, hr⟩ := empty_ok (α := α) hf
  unfold DD.un
  simp only [size_obj hf, hr, Res.ok_bind, f_obj, data_obj]
  rw [unary_eq hc (size_obj hf a) (dataLength_obj hf a)]
  rfl

/-- Contents of a two-operand function with five scalar coefficients. -/
def bin5 (c : Cfg) (n : Nat) (a b : Nat → α) (f da db daa dab dbb : α) : Nat → α :=
  bFin c n true f (fun k => da *ₛ a k +ₛ db *ₛ b k)
    (fun i j => (daa *ₛ a (1 + i) +ₛ dab *ₛ b (1 + i)) *ₛ a (1 + j) +ₛ
      (dab *ₛ a (1 + i) +ₛ dbb *ₛ b (1 + i)) *ₛ b (1 + j))

theorem binary_obj5 (hc : c.order = 1 ∨ c.order = 2) (hf : Fits c n) (a b : Nat → α)
    (f da db daa dab dbb : α) (r : Nat → Option α) :
    binary c false (obj c n a) (mk (dlen c n) (fl a)) (.data (mk (dlen c n) (fl b))) f (.val da)
      (.val db) (.val daa) (.val dab) (.val dbb) (mk (dlen c n) r) =
      .ok (mk (dlen c n) (fl (bin5 c n a b f da db daa dab dbb))) := by
  rw [binary_eq hc (size_obj hf a) (dataLength_obj hf a) a b _ true _ _ r rfl rfl (fun _ => rfl)
    (fun _ _ _ => rfl)]
  rfl

end ops

section fns

variable [CMath α] {c : Cfg} {n : Nat}

/-- Contents of `atan2`. -/
def atan2C (c : Cfg) (n : Nat) (a b : Nat → α) : Nat → α :=
  let tmp := a 0 *ₛ a 0 +ₛ b 0 *ₛ b 0
  let da := b 0 ÷ₛ tmp
  let db := -ₛ a 0 ÷ₛ tmp
  bin5 c n a b (CMath.atan2 (a 0) (b 0)) da db (db *ₛ da *ₛ Arith.lit 2)
    (db *ₛ db -ₛ da *ₛ da) (-ₛ (db *ₛ da *ₛ Arith.lit 2))

theorem atan2_obj (hc : c.order = 1 ∨ c.order = 2) (hf : Fits c n) (a b : Nat → α) :
    DD.atan2 c (obj c n a) (obj c n b) = .ok (obj c n (atan2C c n a b)) := by
  obtain ⟨r, hr⟩ := empty_ok (α := α) hf
  unfold DD.atan2
  simp only [size_obj hf, hr, Res.ok_bind, f_obj]
  simp only [data_obj]
  rw [binary_obj5 hc hf]
  rfl

/-- Contents of `hypot(a, b)`. -/
def hypotC (c : Cfg) (n : Nat) (a b : Nat → α) : Nat → α :=
  let f := CMath.hypot (a 0) (b 0)
  let f3 := f *ₛ f *ₛ f
  bin5 c n a b f (a 0 ÷ₛ f) (b 0 ÷ₛ f) (b 0 *ₛ b 0 ÷ₛ f3) (-ₛ a 0 *ₛ b 0 ÷ₛ f3)
    (a 0 *ₛ a 0 ÷ₛ f3)

theorem hypot_obj (hc : c.order = 1 ∨ c.order = 2) (hf : Fits c n) (a b : Nat → α) :
    DD.hypot c (obj c n a) (obj c n b) = .ok (obj c n (hypotC c n a b)) := by
  obtain ⟨r, hr⟩ := empty_ok (α := α) hf
  unfold DD.hypot
  simp only [size_obj hf, checkEqualSize_self, hr, Res.ok_bind, f_obj]
  simp only [data_obj]
  rw [binary_obj5 hc hf]
  rfl

/-- Contents of `hypot(a, b, c)`. -/
def hypot3C (c : Cfg) (n : Nat) (a b d : Nat → α) : Nat → α :=
  let f := CMath.hypot3 (a 0) (b 0) (d 0)
  let f3 := f *ₛ f *ₛ f
  bFin c n true f (tLin a b d (a 0 ÷ₛ f) (b 0 ÷ₛ f) (d 0 ÷ₛ f))
    (tQuad a b d ((b 0 *ₛ b 0 +ₛ d 0 *ₛ d 0) ÷ₛ f3) (-ₛ (a 0 *ₛ b 0) ÷ₛ f3)
      (-ₛ (a 0 *ₛ d 0) ÷ₛ f3) ((a 0 *ₛ a 0 +ₛ d 0 *ₛ d 0) ÷ₛ f3) (-ₛ (b 0 *ₛ d 0) ÷ₛ f3)
      ((a 0 *ₛ a 0 +ₛ b 0 *ₛ b 0) ÷ₛ f3))

theorem hypot3_obj (hc : c.order = 1 ∨ c.order = 2) (hf : Fits c n) (a b d : Nat → α) :
    DD.hypot3 c (obj c n a) (obj c n b) (obj c n d) = .ok (obj c n (hypot3C c n a b d)) := by
  obtain ⟨r, hr⟩ := empty_ok (α := α) hf
  unfold DD.hypot3
  simp only [size_obj hf, checkEqualSize_self, hr, Res.ok_bind, f_obj]
  simp only [data_obj]
  rw [ternary_eq hc (size_obj hf a) (dataLength_obj hf a) _ _ _ _ _ _ _ _ _ _ _ _ _ _
    (Nat.le_refl _)]
  rfl

theorem abs_obj (hf : Fits c n) (a : Nat → α) :
    DD.abs c (obj c n a) = .ok (obj c n (fun k => if Cmp.ltB (a 0) (Arith.lit 0) then -ₛ a k
      else a k)) := by
  unfold DD.abs
  simp only [f_obj, Res.ok_bind]
  cases h : Cmp.ltB (a 0) (Arith.lit 0)
  · simp
  · simp [neg_obj hf]

end fns

/-! ### Compound assignment -/

section assign

variable [Arith α] {c : Cfg} {n : Nat}

theorem addAssign_obj (hf : Fits c n) (a b : Nat → α) :
    (obj c n a).addAssign c (.obj (obj c n b)) = (.ok (), obj c n (addC a b)) := by
  unfold DD.addAssign DD.checked
  simp only [DD.Operand.size, size_obj hf, checkEqualSize_self, data_obj, len_obj]
  rw [fillLoop (F := addC a b) rfl]
  · rfl
  · intro k hk
    rw [rd_mk (v := a k) k rfl hk (by rw [mix_ge (Nat.le_refl _)]; rfl)]
    simp only [DD.Operand.src, Src.get, Res.ok_bind]
    rw [rd_obj k rfl hk]; rfl

theorem addAssign_self (a : Nat → α) :
    (obj c n a).addAssign c .self = (.ok (), obj c n (addC a a)) := by
  unfold DD.addAssign DD.checked
  simp only [DD.Operand.size, checkEqualSize_self, data_obj, len_obj]
  rw [fillLoop (F := addC a a) rfl]
  · rfl
  · intro k hk
    simp only [DD.Operand.src, Src.get]
    rw [rd_mk (v := a k) k rfl hk (by rw [mix_ge (Nat.le_refl _)]; rfl)]
    rfl

theorem subAssign_obj (hf : Fits c n) (a b : Nat → α) :
    (obj c n a).subAssign c (.obj (obj c n b)) = (.ok (), obj c n (fun k => a k -ₛ b k)) := by
  unfold DD.subAssign DD.checked
  simp only [DD.Operand.size, size_obj hf, checkEqualSize_self, data_obj, len_obj]
  rw [fillLoop (F := fun k => a k -ₛ b k) rfl]
  · rfl
  · intro k hk
    rw [rd_mk (v := a k) k rfl hk (by rw [mix_ge (Nat.le_refl _)]; rfl)]
    simp only [DD.Operand.src, Src.get, Res.ok_bind]
    rw [rd_obj k rfl hk]; rfl

theorem subAssign_self (a : Nat → α) :
    (obj c n a).subAssign c .self = (.ok (), obj c n (fun k => a k -ₛ a k)) := by
  unfold DD.subAssign DD.checked
  simp only [DD.Operand.size, checkEqualSize_self, data_obj, len_obj]
  rw [fillLoop (F := fun k => a k -ₛ a k) rfl]
  · rfl
  · intro k hk
    simp only [DD.Operand.src, Src.get]
    rw [rd_mk (v := a k) k rfl hk (by rw [mix_ge (Nat.le_refl _)]; rfl)]
    rfl

/-- Contents after `a *= b`; `b1` is what the gradient loop reads from `b`, `b2` what the Hessian
loop reads. -/
def mulAC (c : Cfg) (n : Nat) (a b1 b2 : Nat → α) : Nat → α :=
  bFin c n true (a 0 *ₛ b1 0) (fun k => b1 0 *ₛ a k +ₛ a 0 *ₛ b1 k)
    (fun i j => a (1 + i) *ₛ b2 (1 + j) +ₛ a (1 + j) *ₛ b2 (1 + i))

theorem mulAssign_src (hc : c.order = 1 ∨ c.order = 2) (hn : c.order = 2 → 0 < n) (hf : Fits c n)
    (a b1 b2 : Nat → α) (b : DD.Operand α) (hbs : b.size c (obj c n a) = n)
    (hb0 : rd (b.src.get (mk (dlen c n) (fl a))) 0 = .ok (b1 0))
    (hb1 : ∀ k, 1 ≤ k → k < dlen c n → rd (b.src.get (mk (dlen c n) (mix k
      (fl (fin1 (a 0 *ₛ b1 0) (fun k => b1 0 *ₛ a k +ₛ a 0 *ₛ b1 k))) (fl a)))) (k : Int) = .ok (b1 k))
    (hb2 : ∀ r, (∀ m, m ≤ n → rd r (m : Int) =
        .ok (fin1 (a 0 *ₛ b1 0) (fun k => b1 0 *ₛ a k +ₛ a 0 *ₛ b1 k) m)) → ∀ i, i < n →
      rd (b.src.get r) (1 + (i : Int)) = .ok (b2 (1 + i))) :
    (obj c n a).mulAssign c b = (.ok (), obj c n (mulAC c n a b1 b2)) := by
  have hpos := dlen_pos c n
  have hle := le_dlen c n
  unfold DD.mulAssign DD.checked
  simp only [hbs, size_obj hf, checkEqualSize_self, data_obj]
  rw [hb0]
  simp only [Res.ok_bind]
  rw [rd_mk0]
  simp only [Res.ok_bind]
  rw [wr_zero hpos (t1 := fun k => b1 0 *ₛ a k +ₛ a 0 *ₛ b1 k)]
  simp only [Res.ok_bind, mk_length]
  rw [gradLoop hpos (t1 := fun k => b1 0 *ₛ a k +ₛ a 0 *ₛ b1 k) rfl]
  · simp only [Res.ok_bind]
    rcases hc with h1 | h2
    · rw [if_pos h1]
      simp only [DD.finish, mulAC, bFin]
      rw [if_pos (Or.inl h1)]; rfl
    · rw [if_neg (by omega)]
      have hdl := dlen_two h2 n
      have htri : 0 < tri n n := by
        have := off_lt (n := n) (i := 0) (j := 0) (Nat.le_refl _) (hn h2); omega
      rw [addrOf_mk (1 + n) (by push_cast; ring) (by omega)]
      simp only [Res.ok_bind]
      rw [hessLoop h2 (t2 := fun i j => a (1 + i) *ₛ b2 (1 + j) +ₛ a (1 + j) *ₛ b2 (1 + i)) rfl rfl
        (inner := fun i j (it, d) => do
          let ai ← rd (mk (dlen c n) (fl a)) (1 + (i : Int))
          let bj ← rd (b.src.get d) (1 + j)
          let aj ← rd (mk (dlen c n) (fl a)) (1 + j)
          let bi ← rd (b.src.get d) (1 + (i : Int))
          let old ← rd d it
          let d ← wr d it (old +ₛ (ai *ₛ bj +ₛ aj *ₛ bi))
          .ok (it + 1, d))]
      · simp only [Res.ok_bind, DD.finish, mulAC, bFin]
        rw [if_neg (by simp [h2])]; rfl
      · intro i hi r k _
        rfl
      · intro i j k hij hj r hr hk
        simp only []
        rw [rd_mk (v := a (1 + i)) (1 + i) (by push_cast; ring) (by omega) rfl, hb2 r hr j hj,
          rd_mk (v := a (1 + j)) (1 + j) (by push_cast; ring) (by omega) rfl,
          hb2 r hr i (by omega), hk]
        rfl
  · intro k h1 h2
    rw [rd_mk (v := a k) k rfl h2 (by rw [mix_ge (Nat.le_refl _)]; rfl), hb1 k h1 h2]
    rfl

theorem mulAssign_obj (hc : c.order = 1 ∨ c.order = 2) (hn : c.order = 2 → 0 < n) (hf : Fits c n)
    (a b : Nat → α) :
    (obj c n a).mulAssign c (.obj (obj c n b)) = (.ok (), obj c n (mulAC c n a b b)) := by
  have hle := le_dlen c n
  apply mulAssign_src hc hn hf a b b (.obj (obj c n b)) (size_obj hf b)
  · exact rd_obj 0 rfl (dlen_pos c n)
  · intro k _ h; exact rd_obj k rfl h
  · intro r _ i hi; exact rd_obj (1 + i) (by push_cast; ring) (by omega)

/-- Contents after `a *= a`: the Hessian loop sees the already updated gradient. -/
theorem mulAssign_self (hc : c.order = 1 ∨ c.order = 2) (hn : c.order = 2 → 0 < n) (hf : Fits c n)
    (a : Nat → α) :
    (obj c n a).mulAssign c .self =
      (.ok (), obj c n (mulAC c n a a (fun k => a 0 *ₛ a k +ₛ a 0 *ₛ a k))) := by
  apply mulAssign_src hc hn hf a a _ .self (size_obj hf a)
  · exact rd_obj 0 rfl (dlen_pos c n)
  · intro k _ h
    exact rd_mk k rfl h (by rw [mix_ge (Nat.le_refl _)]; rfl)
  · intro r hr i hi
    have := hr (1 + i) (by omega)
    rw [fin1_succ] at this
    simpa [DD.Operand.src, Src.get] using this

theorem divAssign_obj (hc : c.order = 1 ∨ c.order = 2) (hf : Fits c n) (a b : Nat → α) :
    (obj c n a).divAssign c (.obj (obj c n b)) = (.ok (), obj c n (divC c n a b (a 0 ÷ₛ b 0)
      (Arith.lit 1 ÷ₛ b 0) (-ₛ a 0 ÷ₛ Arith.powN (b 0) 2) (Arith.lit (-1) ÷ₛ Arith.powN (b 0) 2)
      (Arith.lit 2 *ₛ a 0 ÷ₛ Arith.powN (b 0) 3))) := by
  unfold DD.divAssign DD.checked
  simp only [DD.Operand.size, size_obj hf, checkEqualSize_self]
  simp only [DD.Operand.src, Src.get]
  rw [rd_obj0, rd_obj0]
  simp only [Res.ok_bind, data_obj]
  rw [binary_eq hc (size_obj hf a) (dataLength_obj hf a) a b _ true _ _ (fl a) rfl rfl
    (fun _ => rfl) (fun _ _ _ => rfl)]
  rfl

/-- Contents after `a /= a`. -/
def divSelfC (c : Cfg) (n : Nat) (a : Nat → α) (f da db dab dbb : α) : Nat → α :=
  let t1 : Nat → α := fun k => da *ₛ a k +ₛ db *ₛ a k
  bFin c n true f t1 (fun i j => dab *ₛ t1 (1 + i) *ₛ a (1 + j) +ₛ
      (dab *ₛ a (1 + i) +ₛ dbb *ₛ t1 (1 + i)) *ₛ t1 (1 + j))

theorem divAssign_self (hc : c.order = 1 ∨ c.order = 2) (hf : Fits c n) (a : Nat → α) :
    (obj c n a).divAssign c .self = (.ok (), obj c n (divSelfC c n a (a 0 ÷ₛ a 0)
      (Arith.lit 1 ÷ₛ a 0) (-ₛ a 0 ÷ₛ Arith.powN (a 0) 2) (Arith.lit (-1) ÷ₛ Arith.powN (a 0) 2)
      (Arith.lit 2 *ₛ a 0 ÷ₛ Arith.powN (a 0) 3))) := by
  unfold DD.divAssign DD.checked
  simp only [DD.Operand.size, checkEqualSize_self]
  simp only [DD.Operand.src, Src.get]
  rw [rd_obj0]
  simp only [Res.ok_bind, data_obj]
  rw [binary_eq_src hc (size_obj hf a) (dataLength_obj hf a) a a
    (fun k => Arith.lit 1 ÷ₛ a 0 *ₛ a k +ₛ -ₛ a 0 ÷ₛ Arith.powN (a 0) 2 *ₛ a k) _ _ true
    (fun k => Arith.lit 1 ÷ₛ a 0 *ₛ a k +ₛ -ₛ a 0 ÷ₛ Arith.powN (a 0) 2 *ₛ a k) _ (fl a)
    rfl rfl (fun _ => rfl) (fun _ _ _ => rfl)]
  · rfl
  · intro k _ h
    exact rd_mk k rfl h (by rw [mix_ge (Nat.le_refl _)]; rfl)
  · intro r hr i hi
    have := hr (1 + i) (by omega)
    rw [fin1_succ] at this
    simpa [Src.get] using this

theorem addAssignS_obj (a : Nat → α) (s : α) :
    (obj c n a).addAssignS (.val s) = (.ok (), obj c n (addSC a s)) := by
  unfold DD.addAssignS
  rw [rd_obj0]
  simp only [Res.ok_bind, DD.SRef.get, data_obj]
  rw [wr_mk0 (ψ := fl (addSC a s))]
  · rfl
  · intro m _; by_cases h : m = 0 <;> simp [fl, addSC, h]

theorem addAssignS_cell (a : Nat → α) {k : Nat} (hk : k < dlen c n) :
    (obj c n a).addAssignS (.cell k) = (.ok (), obj c n (addSC a (a k))) := by
  have := addAssignS_obj (c := c) (n := n) a (a k)
  unfold DD.addAssignS at this ⊢
  simp only [DD.SRef.get, rd_obj k rfl hk]
  exact this

/-- Contents after `a -= scalar`. -/
def subSC (a : Nat → α) (s : α) (k : Nat) : α := if k = 0 then a 0 -ₛ s else a k

theorem subAssignS_obj (a : Nat → α) (s : α) :
    (obj c n a).subAssignS (.val s) = (.ok (), obj c n (subSC a s)) := by
  unfold DD.subAssignS
  rw [rd_obj0]
  simp only [Res.ok_bind, DD.SRef.get, data_obj]
  rw [wr_mk0 (ψ := fl (subSC a s))]
  · rfl
  · intro m _; by_cases h : m = 0 <;> simp [fl, subSC, h]

theorem subAssignS_cell (a : Nat → α) {k : Nat} (hk : k < dlen c n) :
    (obj c n a).subAssignS (.cell k) = (.ok (), obj c n (subSC a (a k))) := by
  have := subAssignS_obj (c := c) (n := n) a (a k)
  unfold DD.subAssignS at this ⊢
  simp only [DD.SRef.get, rd_obj k rfl hk]
  exact this

theorem mulAssignS_obj (a : Nat → α) (s : α) :
    (obj c n a).mulAssignS (.val s) = (.ok (), obj c n (fun k => a k *ₛ s)) := by
  unfold DD.mulAssignS
  simp only [data_obj, len_obj]
  rw [fillLoop (F := fun k => a k *ₛ s) rfl]
  · rfl
  · intro k hk
    rw [rd_mk (v := a k) k rfl hk (by rw [mix_ge (Nat.le_refl _)]; rfl)]
    rfl

/-- Contents after `a *= (reference to own cell p)`: cells after `p` are multiplied by the square
of the old value of cell `p`. -/
def mulSelfC (a : Nat → α) (p k : Nat) : α := if k ≤ p then a k *ₛ a p else a k *ₛ (a p *ₛ a p)

theorem mulAssignS_cell (a : Nat → α) {p : Nat} (hp : p < dlen c n) :
    (obj c n a).mulAssignS (.cell p) = (.ok (), obj c n (mulSelfC a p)) := by
  unfold DD.mulAssignS
  simp only [data_obj, len_obj]
  rw [fillLoop (F := mulSelfC a p) rfl]
  · rfl
  · intro k hk
    rw [rd_mk (v := a k) k rfl hk (by rw [mix_ge (Nat.le_refl _)]; rfl)]
    simp only [DD.SRef.get, Res.ok_bind]
    by_cases h : k ≤ p
    · rw [rd_mk (v := a p) p rfl hp (by rw [mix_ge h]; rfl)]
      simp [mulSelfC, h]
    · rw [rd_mk (v := a p *ₛ a p) p rfl hp (by rw [mix_lt (by omega)]; simp [fl, mulSelfC])]
      simp [mulSelfC, h]

theorem divAssignS_obj (a : Nat → α) (s : α) :
    (obj c n a).divAssignS (.val s) = (.ok (), obj c n (fun k => a k *ₛ (Arith.lit 1 ÷ₛ s))) := by
  unfold DD.divAssignS
  simp only [DD.SRef.get]
  exact mulAssignS_obj a _

theorem divAssignS_cell (a : Nat → α) {p : Nat} (hp : p < dlen c n) :
    (obj c n a).divAssignS (.cell p) =
      (.ok (), obj c n (fun k => a k *ₛ (Arith.lit 1 ÷ₛ a p))) := by
  unfold DD.divAssignS
  simp only [DD.SRef.get, rd_obj p rfl hp]
  exact mulAssignS_obj a _

end assign

/-! ### Components of the kernel results -/

section comps

variable {α : Type} [Arith α] {c : Cfg} {n : Nat}

theorem uFin_zero (a : Nat → α) (f da daa : α) : uFin c n a f da daa 0 = f := by
  by_cases h : c.order = 1 <;> simp [uFin, h, fin1, fin2]

theorem uFin_succ (a : Nat → α) (f da daa : α) {i : Nat} (hi : i < n) :
    uFin c n a f da daa (1 + i) = da *ₛ a (1 + i) := by
  by_cases h : c.order = 1
  · simp [uFin, h, fin1]
  · simp only [uFin, h, if_false]; rw [fin2_succ _ _ _ hi]

theorem uFin_pos (h2 : c.order = 2) (a : Nat → α) (f da daa : α) {i j : Nat} (hij : i ≤ j)
    (hj : j < n) : uFin c n a f da daa (pos n i j) =
      da *ₛ a (pos n i j) +ₛ daa *ₛ a (1 + i) *ₛ a (1 + j) := by
  have h : ¬ c.order = 1 := by omega
  simp only [uFin, h, if_false]; rw [fin2_pos _ _ _ hij hj]

theorem bFin_zero (q : Bool) (f : α) (t1 : Nat → α) (t2 : Nat → Nat → α) :
    bFin c n q f t1 t2 0 = f := by
  by_cases h : c.order = 1 ∨ q = false <;> simp [bFin, h, fin1, fin2]

theorem bFin_succ (q : Bool) (f : α) (t1 : Nat → α) (t2 : Nat → Nat → α) {i : Nat} (hi : i < n) :
    bFin c n q f t1 t2 (1 + i) = t1 (1 + i) := by
  by_cases h : c.order = 1 ∨ q = false
  · simp [bFin, h, fin1]
  · simp only [bFin, h, if_false]; rw [fin2_succ _ _ _ hi]

theorem bFin_pos (h2 : c.order = 2) (f : α) (t1 : Nat → α) (t2 : Nat → Nat → α) {i j : Nat}
    (hij : i ≤ j) (hj : j < n) :
    bFin c n true f t1 t2 (pos n i j) = t1 (pos n i j) +ₛ t2 i j := by
  have h : ¬ (c.order = 1 ∨ true = false) := by simp [h2]
  unfold bFin
  rw [if_neg h, fin2_pos _ _ _ hij hj]

end comps

end HJ
