import Verif.Proofs.Loop

/-!
# `unary`, `binary`, `ternary` in closed form (helper lemmas)
-/

namespace HJ

variable {α σ : Type}

/-- Initialised contents. -/
def fl (F : Nat → α) (k : Nat) : Option α := some (F k)

/-- The walk over the packed upper triangle: position `m` has state `st m`. -/
theorem triLoop {n : Nat} (st : Nat → σ) {outer : Int → σ → Res σ} {inner : Nat → Int → σ → Res σ}
    {zn : Int} (hzn : zn = n) {s : σ} (hs : s = st 0)
    (houter : ∀ i, i < n → outer (i : Int) (st (tri n i)) =
      forUp (i : Int) (n : Int) (st (tri n i)) (inner i))
    (step : ∀ i j, i ≤ j → j < n →
      inner i (j : Int) (st (tri n i + (j - i))) = .ok (st (tri n i + (j - i) + 1))) :
    forUp 0 zn s outer = .ok (st (tri n n)) := by
  refine forUp_eq' (lo := 0) (fun i => st (tri n i)) (by simp) hzn hs (Nat.zero_le n) ?_
  intro i _ hi
  rw [houter i hi]
  have := forUp_eq' (fun j => st (tri n i + (j - i))) (body := inner i) (zlo := i) (zhi := n)
    (s := st (tri n i)) (lo := i) (hi := n) rfl rfl (by simp) (by omega) ?_
  · rw [this]; rfl
  · intro j h1 h2
    rw [step i j h1 h2]
    congr 2
    omega

/-- Contents after the gradient loop of the kernels. -/
def fin1 (f : α) (t1 : Nat → α) (k : Nat) : α := if k = 0 then f else t1 k

/-- Contents after the Hessian loop of the kernels. -/
def fin2 [Arith α] (n : Nat) (f : α) (t1 : Nat → α) (t2 : Nat → Nat → α) (k : Nat) : α :=
  if k = 0 then f else if k ≤ n then t1 k
  else t1 k +ₛ t2 (dec n (k - 1 - n)).1 (dec n (k - 1 - n)).2

theorem wr_zero {L : Nat} (hL : 0 < L) {f : α} {t1 : Nat → α} {r : Nat → Option α} :
    wr (mk L r) 0 f = .ok (mk L (mix 1 (fl (fin1 f t1)) r)) := by
  apply wr_mk 0 rfl hL
  intro m _
  by_cases h : m = 0
  · subst h; simp [mix, fl, fin1]
  · simp [mix, h]

/-- The gradient loop, for a body that writes `t1 k` into cell `k`. -/
theorem gradLoop {L : Nat} (hL : 0 < L) {f : α} {t1 : Nat → α} {r : Nat → Option α}
    {body : Int → Data α → Res (Data α)} {zL : Int} (hzL : zL = L)
    (hbody : ∀ k, 1 ≤ k → k < L → body (k : Int) (mk L (mix k (fl (fin1 f t1)) r)) =
      wr (mk L (mix k (fl (fin1 f t1)) r)) k (t1 k)) :
    forUp 1 zL (mk L (mix 1 (fl (fin1 f t1)) r)) body = .ok (mk L (fl (fin1 f t1))) := by
  rw [forUp_eq' (fun k => mk L (mix k (fl (fin1 f t1)) r)) (lo := 1) (hi := L) (by simp) hzL rfl hL]
  · rw [mk_mix_all]
  · intro k h1 h2
    rw [hbody k h1 h2]
    apply wr_mix rfl h2
    simp [fl, fin1]
    omega

/-- The Hessian loop, for a body that adds `t2 i j` to the cell at position `(i, j)`.  While it
runs, the value and gradient cells keep the contents `fin1 f t1`. -/
theorem hessLoop [Arith α] {c : Cfg} {n : Nat} (h2 : c.order = 2) {f : α} {t1 : Nat → α}
    {t2 : Nat → Nat → α} {outer : Int → Int × Data α → Res (Int × Data α)}
    {inner : Nat → Int → Int × Data α → Res (Int × Data α)} {zn z : Int} (hzn : zn = n)
    (hz : z = ((1 + n : Nat) : Int))
    (houter : ∀ i, i < n → ∀ r k, (∀ m, m ≤ n → rd r (m : Int) = .ok (fin1 f t1 m)) →
      outer (i : Int) (k, r) = forUp (i : Int) (n : Int) (k, r) (inner i))
    (step : ∀ i j k, i ≤ j → j < n → ∀ r, (∀ m, m ≤ n → rd r (m : Int) = .ok (fin1 f t1 m)) →
      rd r ((k : Nat) : Int) = .ok (t1 k) →
      inner i (j : Int) ((k : Int), r) = do
        let r ← wr r (k : Int) (t1 k +ₛ t2 i j)
        .ok ((k : Int) + 1, r)) :
    forUp 0 zn (z, mk (dlen c n) (fl (fin1 f t1))) outer =
      .ok (((1 + n + tri n n : Nat) : Int), mk (dlen c n) (fl (fin2 n f t1 t2))) := by
  have hL := dlen_two h2 n
  have hrd : ∀ p m, m ≤ n → rd (mk (dlen c n) (mix (1 + n + p) (fl (fin2 n f t1 t2))
      (fl (fin1 f t1)))) (m : Int) = .ok (fin1 f t1 m) := by
    intro p m hm
    apply rd_mk m rfl (by omega)
    rw [mix_lt (by omega)]
    simp only [fl, fin1, fin2]
    by_cases h0 : m = 0
    · simp [h0]
    · simp [h0, hm]
  rw [triLoop (fun m => (((1 + n + m : Nat) : Int),
    mk (dlen c n) (mix (1 + n + m) (fl (fin2 n f t1 t2)) (fl (fin1 f t1))))) (inner := inner) hzn]
  · rw [← hL, mk_mix_all]
  · refine Prod.ext ?_ ?_
    · simp [hz]
    · apply mk_ext
      intro k _
      by_cases h : k < 1 + n
      · rw [mix_lt (by omega)]
        simp only [fl, fin1, fin2]
        by_cases h0 : k = 0
        · simp [h0]
        · simp [h0, show k ≤ n by omega]
      · rw [mix_ge (by omega)]
  · intro i hi
    exact houter i hi _ _ (hrd _)
  · intro i j hij hj
    have hlt := off_lt hij hj
    rw [step i j _ hij hj _ (hrd _)]
    · rw [wr_mix rfl (by omega) (v := t1 (1 + n + (tri n i + (j - i))) +ₛ t2 i j)]
      · simp only [Res.ok_bind]
        congr 2
      · have e : 1 + n + (tri n i + (j - i)) - 1 - n = tri n i + (j - i) := by omega
        simp only [fl, fin2, e, dec_tri hij hj]
        rw [if_neg (by omega), if_neg (by omega)]
    · apply rd_mk _ rfl (by omega)
      rw [mix_ge (by omega)]
      simp only [fl, fin1]
      rw [if_neg (by omega)]

variable [Arith α]

/-- Final contents of `unary` with scalar coefficients. -/
def uFin (c : Cfg) (n : Nat) (a : Nat → α) (f da daa : α) : Nat → α :=
  if c.order = 1 then fin1 f (fun k => da *ₛ a k)
  else fin2 n f (fun k => da *ₛ a k) (fun i j => daa *ₛ a (1 + i) *ₛ a (1 + j))

theorem unary_eq {c : Cfg} (hc : c.order = 1 ∨ c.order = 2) {n : Nat} {self : DD α}
    (hs : self.size c = n) (hl : self.dataLength c = dlen c n) (a : Nat → α) (f da daa : α)
    (r : Nat → Option α) :
    unary c false self (mk (dlen c n) (fl a)) f (.val da) (.val daa) (mk (dlen c n) r) =
      .ok (mk (dlen c n) (fl (uFin c n a f da daa))) := by
  have hpos := dlen_pos c n
  have hle := le_dlen c n
  unfold unary
  simp only [hl, hs]
  rw [wr_zero hpos (t1 := fun k => da *ₛ a k)]
  have h0 : ¬ c.order < 1 := by omega
  simp only [Res.ok_bind, Coef.isZero, h0, decide_false, Bool.or_self, Bool.false_eq_true, if_false]
  rw [gradLoop hpos (t1 := fun k => da *ₛ a k) rfl]
  · simp only [Res.ok_bind, Bool.or_false, decide_eq_true_eq]
    rcases hc with h1 | h2
    · rw [if_pos (by omega), uFin, if_pos h1]
    · rw [if_neg (by omega), uFin, if_neg (by omega)]
      rw [hessLoop h2 (t2 := fun i j => daa *ₛ a (1 + i) *ₛ a (1 + j)) rfl (by push_cast; rfl)
        (inner := fun i j (k, r) => do
          let aj ← rd (mk (dlen c n) (fl a)) (1 + j)
          let t ← needScalar (mulZ (some (daa *ₛ a (1 + i))) aj)
          let old ← rd r k
          let r ← wr r k (old +ₛ t)
          .ok (k + 1, r))]
      · rfl
      · intro i hi r k _
        rw [rd_mk (v := a (1 + i)) (1 + i) (by push_cast; ring) (by omega) rfl]
        rfl
      · intro i j k hij hj r _ hk
        simp only []
        rw [rd_mk (v := a (1 + j)) (1 + j) (by push_cast; ring) (by omega) rfl]
        simp only [Res.ok_bind, mulZ, needScalar, hk]
  · intro k h1 h2
    rw [rd_mk (v := a k) k rfl h2 rfl]
    rfl

/-- Final contents of `binary` given the linear and quadratic terms. -/
def bFin (c : Cfg) (n : Nat) (quad : Bool) (f : α) (t1 : Nat → α) (t2 : Nat → Nat → α) : Nat → α :=
  if c.order = 1 ∨ quad = false then fin1 f t1 else fin2 n f t1 t2

/-- `b1` are the values of operand `b` seen by the gradient loop, `b2` those seen by the Hessian
loop; for a separate operand they coincide. -/
theorem binary_eq_src {c : Cfg} (hc : c.order = 1 ∨ c.order = 2) {n : Nat} {self : DD α}
    (hs : self.size c = n) (hl : self.dataLength c = dlen c n) (a b1 b2 : Nat → α) (b : Src α)
    (f : α) {da db daa dab dbb : Coef α} (quad : Bool) (t1 : Nat → α) (t2 : Nat → Nat → α)
    (r : Nat → Option α)
    (hlin : (da.isZero && db.isZero) = false)
    (hquad : (daa.isZero && dab.isZero && dbb.isZero) = !quad)
    (ht1 : ∀ k, addZ (da.app (a k)) (db.app (b1 k)) = some (t1 k))
    (ht2 : quad = true → ∀ i j, addZ
      (mulZ (addZ (daa.app (a (1 + i))) (dab.app (b2 (1 + i)))) (a (1 + j)))
      (mulZ (addZ (dab.app (a (1 + i))) (dbb.app (b2 (1 + i)))) (b2 (1 + j))) = some (t2 i j))
    (hb1 : ∀ k, 1 ≤ k → k < dlen c n →
      rd (b.get (mk (dlen c n) (mix k (fl (fin1 f t1)) r))) (k : Int) = .ok (b1 k))
    (hb2 : ∀ r, (∀ m, m ≤ n → rd r (m : Int) = .ok (fin1 f t1 m)) → ∀ i, i < n →
      rd (b.get r) (1 + (i : Int)) = .ok (b2 (1 + i))) :
    binary c false self (mk (dlen c n) (fl a)) b f da db daa dab dbb (mk (dlen c n) r) =
      .ok (mk (dlen c n) (fl (bFin c n quad f t1 t2))) := by
  have hpos := dlen_pos c n
  have hle := le_dlen c n
  unfold binary
  simp only [hl, hs]
  rw [wr_zero hpos (t1 := t1)]
  have h0 : ¬ c.order < 1 := by omega
  simp only [Res.ok_bind, hlin, h0, decide_false, Bool.or_self, Bool.false_eq_true, if_false]
  rw [gradLoop hpos (t1 := t1) rfl]
  · simp only [Res.ok_bind, hquad]
    by_cases h1 : c.order = 1 ∨ quad = false
    · rw [if_pos, bFin, if_pos h1]
      rcases h1 with h1 | h1 <;> simp [h1]
    · have h2 : c.order = 2 := by tauto
      have hq : quad = true := by cases quad <;> simp_all
      rw [if_neg (by simp [h2, hq]), bFin, if_neg h1]
      rw [hessLoop h2 (t2 := t2) rfl (by push_cast; rfl)
        (inner := fun i j (k, r) => do
          let aj ← rd (mk (dlen c n) (fl a)) (1 + j)
          let bj ← rd (b.get r) (1 + j)
          let t ← needScalar (addZ
            (mulZ (addZ (daa.app (a (1 + i))) (dab.app (b2 (1 + i)))) aj)
            (mulZ (addZ (dab.app (a (1 + i))) (dbb.app (b2 (1 + i)))) bj))
          let old ← rd r k
          let r ← wr r k (old +ₛ t)
          .ok (k + 1, r))]
      · rfl
      · intro i hi r k hr
        simp only []
        rw [rd_mk (v := a (1 + i)) (1 + i) (by push_cast; ring) (by omega) rfl, hb2 r hr i hi]
        rfl
      · intro i j k hij hj r hr hk
        simp only []
        rw [rd_mk (v := a (1 + j)) (1 + j) (by push_cast; ring) (by omega) rfl, hb2 r hr j hj]
        simp only [Res.ok_bind, ht2 hq, needScalar, hk]
  · intro k h1 h2
    rw [rd_mk (v := a k) k rfl h2 rfl, hb1 k h1 h2]
    simp only [Res.ok_bind, ht1, needScalar]

theorem binary_eq {c : Cfg} (hc : c.order = 1 ∨ c.order = 2) {n : Nat} {self : DD α}
    (hs : self.size c = n) (hl : self.dataLength c = dlen c n) (a b : Nat → α)
    (f : α) {da db daa dab dbb : Coef α} (quad : Bool) (t1 : Nat → α) (t2 : Nat → Nat → α)
    (r : Nat → Option α)
    (hlin : (da.isZero && db.isZero) = false)
    (hquad : (daa.isZero && dab.isZero && dbb.isZero) = !quad)
    (ht1 : ∀ k, addZ (da.app (a k)) (db.app (b k)) = some (t1 k))
    (ht2 : quad = true → ∀ i j, addZ
      (mulZ (addZ (daa.app (a (1 + i))) (dab.app (b (1 + i)))) (a (1 + j)))
      (mulZ (addZ (dab.app (a (1 + i))) (dbb.app (b (1 + i)))) (b (1 + j))) = some (t2 i j)) :
    binary c false self (mk (dlen c n) (fl a)) (.data (mk (dlen c n) (fl b))) f da db daa dab dbb
      (mk (dlen c n) r) = .ok (mk (dlen c n) (fl (bFin c n quad f t1 t2))) := by
  have hle := le_dlen c n
  refine binary_eq_src hc hs hl a b b _ f quad t1 t2 r hlin hquad ht1 ht2 ?_ ?_
  · intro k _ h; exact rd_mk k rfl h rfl
  · intro r _ i hi
    exact rd_mk (1 + i) (by push_cast; ring) (by omega) rfl

/-- Linear term of `ternary` with scalar coefficients. -/
def tLin (a b d : Nat → α) (da db dc : α) (k : Nat) : α := da *ₛ a k +ₛ db *ₛ b k +ₛ dc *ₛ d k

/-- Quadratic term of `ternary` with scalar coefficients. -/
def tQuad (a b d : Nat → α) (daa dab dac dbb dbc dcc : α) (i j : Nat) : α :=
  (daa *ₛ a (1 + i) +ₛ dab *ₛ b (1 + i) +ₛ dac *ₛ d (1 + i)) *ₛ a (1 + j) +ₛ
  (dab *ₛ a (1 + i) +ₛ dbb *ₛ b (1 + i) +ₛ dbc *ₛ d (1 + i)) *ₛ b (1 + j) +ₛ
  (dac *ₛ a (1 + i) +ₛ dbc *ₛ b (1 + i) +ₛ dcc *ₛ d (1 + i)) *ₛ d (1 + j)

theorem ternary_eq {c : Cfg} (hc : c.order = 1 ∨ c.order = 2) {n : Nat} {self : DD α}
    (hs : self.size c = n) (hl : self.dataLength c = dlen c n) (a b d : Nat → α)
    (f da db dc daa dab dac dbb dbc dcc : α) (r : Nat → Option α) {Ld : Nat}
    (hLd : dlen c n ≤ Ld) :
    ternary c false self (mk (dlen c n) (fl a)) (mk (dlen c n) (fl b)) (mk Ld (fl d)) f
      (.val da) (.val db) (.val dc) (.val daa) (.val dab) (.val dac) (.val dbb) (.val dbc) (.val dcc)
      (mk (dlen c n) r) = .ok (mk (dlen c n) (fl (bFin c n true f (tLin a b d da db dc)
        (tQuad a b d daa dab dac dbb dbc dcc)))) := by
  have hpos := dlen_pos c n
  have hle := le_dlen c n
  unfold ternary
  simp only [hl, hs]
  rw [wr_zero hpos (t1 := tLin a b d da db dc)]
  have h0 : ¬ c.order < 1 := by omega
  simp only [Res.ok_bind, Coef.isZero, h0, decide_false, Bool.or_self, Bool.and_self,
    Bool.false_eq_true, if_false]
  rw [gradLoop hpos (t1 := tLin a b d da db dc) rfl]
  · simp only [Res.ok_bind, Bool.or_false, decide_eq_true_eq]
    rcases hc with h1 | h2
    · rw [if_pos (by omega), bFin, if_pos (Or.inl h1)]
    · rw [if_neg (by omega), bFin, if_neg (by simp [h2])]
      rw [hessLoop h2 (t2 := tQuad a b d daa dab dac dbb dbc dcc) rfl (by push_cast; rfl)
        (inner := fun i j (k, r) => do
          let aj ← rd (mk (dlen c n) (fl a)) (1 + j)
          let bj ← rd (mk (dlen c n) (fl b)) (1 + j)
          let cj ← rd (mk Ld (fl d)) (1 + j)
          let t ← needScalar (addZ (addZ
            (mulZ (some (daa *ₛ a (1 + i) +ₛ dab *ₛ b (1 + i) +ₛ dac *ₛ d (1 + i))) aj)
            (mulZ (some (dab *ₛ a (1 + i) +ₛ dbb *ₛ b (1 + i) +ₛ dbc *ₛ d (1 + i))) bj))
            (mulZ (some (dac *ₛ a (1 + i) +ₛ dbc *ₛ b (1 + i) +ₛ dcc *ₛ d (1 + i))) cj))
          let old ← rd r k
          let r ← wr r k (old +ₛ t)
          .ok (k + 1, r))]
      · rfl
      · intro i hi r k _
        simp only []
        rw [rd_mk (v := a (1 + i)) (1 + i) (by push_cast; ring) (by omega) rfl,
          rd_mk (v := b (1 + i)) (1 + i) (by push_cast; ring) (by omega) rfl,
          rd_mk (v := d (1 + i)) (1 + i) (by push_cast; ring) (by omega) rfl]
        rfl
      · intro i j k hij hj r _ hk
        simp only []
        rw [rd_mk (v := a (1 + j)) (1 + j) (by push_cast; ring) (by omega) rfl,
          rd_mk (v := b (1 + j)) (1 + j) (by push_cast; ring) (by omega) rfl,
          rd_mk (v := d (1 + j)) (1 + j) (by push_cast; ring) (by omega) rfl]
        simp only [Res.ok_bind, mulZ, addZ, needScalar, hk]
        rfl
  · intro k h1 h2
    rw [rd_mk (v := a k) k rfl h2 rfl, rd_mk (v := b k) k rfl h2 rfl, rd_mk (v := d k) k rfl (by omega) rfl]
    rfl

end HJ
