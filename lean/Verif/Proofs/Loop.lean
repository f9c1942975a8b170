import Verif.Model.DD
import Mathlib.Tactic.Ring
import Mathlib.Tactic.Linarith

/-!
# Loops and storage in closed form (helper lemmas)
-/

namespace HJ

variable {α σ : Type}

theorem iter_eq (body : Int → σ → Res σ) (st : Nat → σ) :
    ∀ (n lo : Nat), (∀ i, lo ≤ i → i < lo + n → body (i : Int) (st i) = .ok (st (i + 1))) →
      iter body n (lo : Int) (st lo) = .ok (st (lo + n)) := by
  intro n
  induction n with
  | zero => intro lo _; rfl
  | succ n ih =>
    intro lo hstep
    have h1 := hstep lo (Nat.le_refl _) (by omega)
    simp only [iter, h1, Res.ok_bind]
    have := ih (lo + 1) (fun i h1 h2 => hstep i (by omega) (by omega))
    rw [show ((lo : Int) + 1) = ((lo + 1 : Nat) : Int) by push_cast; ring]
    rw [this]
    congr 2
    omega

/-- A loop whose `i`-th round takes state `st i` to `st (i+1)`. -/
theorem forUp_eq {lo hi : Nat} (st : Nat → σ) {body : Int → σ → Res σ} (hle : lo ≤ hi)
    (step : ∀ i, lo ≤ i → i < hi → body (i : Int) (st i) = .ok (st (i + 1))) :
    forUp (lo : Int) (hi : Int) (st lo) body = .ok (st hi) := by
  unfold forUp
  have : ((hi : Int) - (lo : Int)).toNat = hi - lo := by omega
  rw [this, iter_eq body st (hi - lo) lo (fun i h1 h2 => step i h1 (by omega))]
  congr 2
  omega

/-- The same with the bounds and states given up to equality. -/
theorem forUp_eq' {lo hi : Nat} (st : Nat → σ) {body : Int → σ → Res σ} {zlo zhi : Int} {s : σ}
    (hzl : zlo = lo) (hzh : zhi = hi) (hs : s = st lo) (hle : lo ≤ hi)
    (step : ∀ i, lo ≤ i → i < hi → body (i : Int) (st i) = .ok (st (i + 1))) :
    forUp zlo zhi s body = .ok (st hi) := by
  subst hzl hzh hs
  exact forUp_eq st hle step

/-- A loop whose rounds before `k` succeed and whose round `k` is undefined behaviour. -/
theorem forUp_fail {lo hi k : Nat} (st : Nat → σ) {body : Int → σ → Res σ} {zlo zhi : Int} {s : σ}
    {u : UB} (hlk : lo ≤ k) (hk : k < hi)
    (step : ∀ i, lo ≤ i → i < k → body (i : Int) (st i) = .ok (st (i + 1)))
    (hfail : body (k : Int) (st k) = .ub u)
    (hzl : zlo = lo := by rfl) (hzh : zhi = hi := by rfl) (hs : s = st lo := by rfl) :
    forUp zlo zhi s body = .ub u := by
  subst hzl hzh hs
  unfold forUp
  have e : ((hi : Int) - (lo : Int)).toNat = hi - lo := by omega
  rw [e]
  obtain ⟨m, rfl⟩ : ∃ m, k = lo + m := ⟨k - lo, by omega⟩
  clear e hlk
  induction m generalizing lo with
  | zero =>
    obtain ⟨r, hr⟩ : ∃ r, hi - lo = r + 1 := ⟨hi - lo - 1, by omega⟩
    rw [hr]
    simp only [iter]
    simp only [Nat.add_zero] at hfail
    rw [hfail]; rfl
  | succ m ih =>
    obtain ⟨r, hr⟩ : ∃ r, hi - lo = r + 1 := ⟨hi - lo - 1, by omega⟩
    rw [hr]
    simp only [iter]
    rw [step lo (Nat.le_refl _) (by omega)]
    simp only [Res.ok_bind]
    have := ih (lo := lo + 1) (by rw [show lo + 1 + m = lo + (m + 1) by omega]; exact hk)
      (fun i h1 h2 => step i (by omega) (by omega))
      (by rw [show lo + 1 + m = lo + (m + 1) by omega]; exact hfail)
    rw [show hi - (lo + 1) = r by omega] at this
    push_cast at this
    exact this

/-- A loop whose rounds either keep an invariant or are undefined behaviour, one of them surely. -/
theorem forUp_ub {lo hi k : Nat} (P : Nat → σ → Prop) {body : Int → σ → Res σ} {s : σ} {u : UB}
    (hlk : lo ≤ k) (hk : k < hi) (h0 : P lo s)
    (step : ∀ i s, lo ≤ i → i < hi → P i s →
      body (i : Int) s = .ub u ∨ ∃ s', body (i : Int) s = .ok s' ∧ P (i + 1) s')
    (hfail : ∀ s, P k s → body (k : Int) s = .ub u) :
    forUp (lo : Int) (hi : Int) s body = .ub u := by
  unfold forUp
  have e : ((hi : Int) - (lo : Int)).toNat = hi - lo := by omega
  rw [e]
  clear e
  obtain ⟨m, rfl⟩ : ∃ m, k = lo + m := ⟨k - lo, by omega⟩
  clear hlk
  induction m generalizing lo s with
  | zero =>
    obtain ⟨r, hr⟩ : ∃ r, hi - lo = r + 1 := ⟨hi - lo - 1, by omega⟩
    rw [hr]
    simp only [iter]
    simp only [Nat.add_zero] at hfail
    rw [hfail s h0]; rfl
  | succ m ih =>
    obtain ⟨r, hr⟩ : ∃ r, hi - lo = r + 1 := ⟨hi - lo - 1, by omega⟩
    rw [hr]
    simp only [iter]
    rcases step lo s (Nat.le_refl _) (by omega) h0 with h | ⟨s', h, hs'⟩
    · rw [h]; rfl
    · rw [h]
      simp only [Res.ok_bind]
      have := ih (lo := lo + 1) hs' (fun i s h1 h2 => step i s (by omega) h2)
        (by rw [show lo + 1 + m = lo + (m + 1) by omega]; exact hk)
        (by rw [show lo + 1 + m = lo + (m + 1) by omega]; exact hfail)
      rw [show hi - (lo + 1) = r by omega] at this
      push_cast at this
      exact this

/-- A loop whose rounds keep an invariant. -/
theorem forUp_inv {lo hi : Nat} (P : Nat → σ → Prop) {body : Int → σ → Res σ} {s : σ} {u : UB}
    (hle : lo ≤ hi) (h0 : P lo s)
    (step : ∀ i s, lo ≤ i → i < hi → P i s →
      body (i : Int) s = .ub u ∨ ∃ s', body (i : Int) s = .ok s' ∧ P (i + 1) s') :
    forUp (lo : Int) (hi : Int) s body = .ub u ∨
      ∃ s', forUp (lo : Int) (hi : Int) s body = .ok s' ∧ P hi s' := by
  unfold forUp
  have e : ((hi : Int) - (lo : Int)).toNat = hi - lo := by omega
  rw [e]
  clear e
  obtain ⟨m, rfl⟩ : ∃ m, hi = lo + m := ⟨hi - lo, by omega⟩
  clear hle
  rw [show lo + m - lo = m by omega]
  induction m generalizing lo s with
  | zero => exact Or.inr ⟨s, rfl, h0⟩
  | succ m ih =>
    simp only [iter]
    rcases step lo s (Nat.le_refl _) (by omega) h0 with h | ⟨s', h, hs'⟩
    · rw [h]; exact Or.inl rfl
    · rw [h]
      simp only [Res.ok_bind]
      have := ih (lo := lo + 1) hs' (fun i s h1 h2 => step i s (by omega) (by omega))
      rw [show lo + 1 + m = lo + (m + 1) by omega] at this
      push_cast at this
      exact this

/-- An empty range. -/
theorem forUp_empty {lo hi : Int} {s : σ} {body : Int → σ → Res σ} (h : hi ≤ lo) :
    forUp lo hi s body = .ok s := by
  unfold forUp
  have : (hi - lo).toNat = 0 := by omega
  rw [this]; rfl

/-- Storage of length `L` with cell contents given by a function. -/
def mk (L : Nat) (φ : Nat → Option α) : Data α := (List.range L).map φ

@[simp] theorem mk_length (L : Nat) (φ : Nat → Option α) : (mk L φ).length = L := by simp [mk]

theorem mk_getElem? (L : Nat) (φ : Nat → Option α) (k : Nat) :
    (mk L φ)[k]? = if k < L then some (φ k) else none := by
  by_cases h : k < L
  · simp [mk, h]
  · simp [mk, h]

theorem mk_ext {L : Nat} {φ ψ : Nat → Option α} (h : ∀ k < L, φ k = ψ k) : mk L φ = mk L ψ := by
  apply List.ext_getElem?
  intro k
  rw [mk_getElem?, mk_getElem?]
  by_cases hk : k < L
  · simp [hk, h k hk]
  · simp [hk]

theorem mk_inj {L : Nat} {φ ψ : Nat → Option α} (h : mk L φ = mk L ψ) : ∀ k < L, φ k = ψ k := by
  intro k hk
  have := congrArg (fun d : Data α => d[k]?) h
  simp only [mk_getElem?, if_pos hk, Option.some.injEq] at this
  exact this

/-- Every storage is of this form. -/
theorem eq_mk (d : Data α) : d = mk d.length (fun k => (d[k]?).join) := by
  apply List.ext_getElem?
  intro k
  rw [mk_getElem?]
  by_cases hk : k < d.length
  · simp [hk]
  · simp [hk]

theorem rd_mk {L : Nat} {φ : Nat → Option α} {z : Int} {v : α} (k : Nat) (hz : z = k) (hk : k < L)
    (hv : φ k = some v) : rd (mk L φ) z = .ok v := by
  subst hz
  unfold rd
  rw [if_neg (by omega), Int.toNat_natCast, mk_getElem?, if_pos hk, hv]

theorem wr_mk {L : Nat} {φ ψ : Nat → Option α} {z : Int} {v : α} (k : Nat) (hz : z = k)
    (hk : k < L) (hv : ∀ m < L, ψ m = if m = k then some v else φ m) :
    wr (mk L φ) z v = .ok (mk L ψ) := by
  subst hz
  unfold wr
  rw [if_neg (by simp; omega)]
  congr 1
  apply List.ext_getElem?
  intro m
  rw [mk_getElem?]
  by_cases hm : m < L
  · rw [if_pos hm, hv m hm]
    by_cases hmk : m = k
    · subst hmk; simp [hm]
    · rw [List.getElem?_set_ne (by simp; omega), mk_getElem?, if_pos hm, if_neg hmk]
  · simp only [hm, if_false, List.getElem?_eq_none_iff, List.length_set, mk_length]
    omega

theorem rd_oob {d : Data α} {z : Int} (h : z < 0 ∨ (d.length : Int) ≤ z) :
    rd d z = .ub .outOfBounds := by
  unfold rd
  by_cases hz : z < 0
  · simp [hz]
  · rw [if_neg hz]
    have : d[z.toNat]? = none := by
      rw [List.getElem?_eq_none_iff]; omega
    rw [this]

theorem wr_oob {d : Data α} {z : Int} {v : α} (h : z < 0 ∨ (d.length : Int) ≤ z) :
    wr d z v = .ub .outOfBounds := by
  unfold wr; rw [if_pos h]

theorem addrOf_mk {L : Nat} {φ : Nat → Option α} {z : Int} (k : Nat) (hz : z = k) (hk : k < L) :
    addrOf (mk L φ) z = .ok (k : Int) := by
  subst hz
  unfold addrOf
  rw [if_neg (by simp; omega)]

/-- A function that is `F` below `k` and `G` from `k` on. -/
def mix (k : Nat) (F G : Nat → Option α) (m : Nat) : Option α := if m < k then F m else G m

theorem mix_lt {k m : Nat} {F G : Nat → Option α} (h : m < k) : mix k F G m = F m := if_pos h
theorem mix_ge {k m : Nat} {F G : Nat → Option α} (h : k ≤ m) : mix k F G m = G m :=
  if_neg (by omega)

theorem wr_mix {L k : Nat} {F G : Nat → Option α} {z : Int} {v : α} (hz : z = k) (hk : k < L)
    (hv : F k = some v) : wr (mk L (mix k F G)) z v = .ok (mk L (mix (k + 1) F G)) := by
  apply wr_mk k hz hk
  intro m _
  unfold mix
  by_cases h : m = k
  · subst h; simp [hv]
  · by_cases h2 : m < k
    · simp [h, h2, show m < k + 1 by omega]
    · simp [h, h2, show ¬ m < k + 1 by omega]

theorem mix_zero (F G : Nat → Option α) : mix 0 F G = G := by
  funext m; simp [mix]

theorem mk_mix_all (L : Nat) (F G : Nat → Option α) : mk L (mix L F G) = mk L F :=
  mk_ext fun _ hk => mix_lt hk

/-! ### Packed upper triangle -/

/-- Number of packed entries before row `i` of an `n × n` upper triangle. -/
def tri (n : Nat) : Nat → Nat
  | 0 => 0
  | i + 1 => tri n i + (n - i)

theorem tri_succ (n i : Nat) : tri n (i + 1) = tri n i + (n - i) := rfl

theorem tri_succ_succ (n i : Nat) : tri (n + 1) (i + 1) = (n + 1) + tri n i := by
  induction i with
  | zero => simp [tri]
  | succ i ih => rw [tri_succ, ih, tri_succ]; omega

theorem two_tri {n i : Nat} (h : i ≤ n) : 2 * (tri n i : Int) = i * (2 * n + 1 - i) := by
  induction i with
  | zero => simp [tri]
  | succ i ih =>
    have := ih (by omega)
    rw [tri_succ]
    push_cast [Nat.cast_sub (show i ≤ n by omega)]
    linarith [this]

theorem two_tri_self (n : Nat) : 2 * tri n n = n * (n + 1) := by
  have := two_tri (Nat.le_refl n)
  have h2 : (2 * (tri n n : Int)) = ((n * (n + 1) : Nat) : Int) := by
    rw [this]; push_cast; ring
  exact_mod_cast h2

theorem tri_mono {n i j : Nat} (h : i ≤ j) : tri n i ≤ tri n j := by
  induction h with
  | refl => exact Nat.le_refl _
  | step _ ih => rw [Nat.succ_eq_add_one, tri_succ]; omega

/-- Row and column of packed entry `m`. -/
def dec : Nat → Nat → Nat × Nat
  | 0, m => (0, m)
  | n + 1, m => if m < n + 1 then (0, m) else
      ((dec n (m - (n + 1))).1 + 1, (dec n (m - (n + 1))).2 + 1)

theorem dec_tri {n i j : Nat} (hij : i ≤ j) (hj : j < n) : dec n (tri n i + (j - i)) = (i, j) := by
  induction n generalizing i j with
  | zero => omega
  | succ n ih =>
    cases i with
    | zero => simp [dec, tri]; omega
    | succ i =>
      obtain ⟨j, rfl⟩ : ∃ j', j = j' + 1 := ⟨j - 1, by omega⟩
      rw [tri_succ_succ]
      have h := ih (i := i) (j := j) (by omega) (by omega)
      have e : n + 1 + tri n i + (j + 1 - (i + 1)) - (n + 1) = tri n i + (j - i) := by omega
      simp only [dec]
      rw [if_neg (by omega), e, h]

theorem tri_dec {n m : Nat} (hm : m < tri n n) :
    (dec n m).1 ≤ (dec n m).2 ∧ (dec n m).2 < n ∧
      tri n (dec n m).1 + ((dec n m).2 - (dec n m).1) = m := by
  induction n generalizing m with
  | zero => simp [tri] at hm
  | succ n ih =>
    simp only [dec]
    by_cases h : m < n + 1
    · rw [if_pos h]; simp [tri, h]
    · rw [if_neg h]
      rw [tri_succ_succ] at hm
      obtain ⟨h1, h2, h3⟩ := ih (m := m - (n + 1)) (by omega)
      refine ⟨by simpa using h1, by simpa using h2, ?_⟩
      simp only [tri_succ_succ]
      omega

theorem off_lt {n i j : Nat} (hij : i ≤ j) (hj : j < n) : tri n i + (j - i) < tri n n := by
  have h1 : tri n (i + 1) ≤ tri n n := tri_mono (by omega)
  rw [tri_succ] at h1
  omega

/-- The code's closed form for the packed position (lines 767, 771, 782, 786). -/
theorem code_off {n i j : Nat} (hij : i ≤ j) (hj : j < n) :
    ((2 * (n : Int) - 1 - i) * i).tdiv 2 + j = ((tri n i + (j - i) : Nat) : Int) := by
  have h := two_tri (n := n) (i := i) (by omega)
  have e : (2 * (n : Int) - 1 - i) * i = 2 * ((tri n i : Int) - i) := by
    rw [mul_sub, h]; ring
  rw [e, Int.mul_tdiv_cancel_left _ (by norm_num)]
  push_cast [Nat.cast_sub hij]
  ring

theorem hIndex_eq {n i j : Nat} (hij : i ≤ j) (hj : j < n) :
    DD.hIndex n i j = ((1 + n + (tri n i + (j - i)) : Nat) : Int) := by
  unfold DD.hIndex
  by_cases h : i < j
  · rw [if_pos (by omega)]
    have := code_off hij hj
    push_cast at this ⊢
    linarith
  · have hij' : j = i := by omega
    subst hij'
    rw [if_neg (by omega)]
    have := code_off hij hj
    push_cast at this ⊢
    linarith

theorem hIndex_comm (n i j : Int) : DD.hIndex n i j = DD.hIndex n j i := by
  unfold DD.hIndex
  by_cases h : i < j
  · rw [if_pos h, if_neg (by omega)]
  · by_cases h2 : j < i
    · rw [if_neg h, if_pos h2]
    · have : i = j := by omega
      subst this; rfl

/-- Number of scalars of a jet with `n` variables. -/
def dlen (c : Cfg) (n : Nat) : Nat := if c.order = 1 then 1 + n else 1 + n + tri n n

theorem dlen_pos (c : Cfg) (n : Nat) : 0 < dlen c n := by unfold dlen; split <;> omega

theorem le_dlen (c : Cfg) (n : Nat) : 1 + n ≤ dlen c n := by unfold dlen; split <;> omega

theorem dlen_one {c : Cfg} (h : c.order = 1) (n : Nat) : dlen c n = 1 + n := if_pos h
theorem dlen_two {c : Cfg} (h : c.order = 2) (n : Nat) : dlen c n = 1 + n + tri n n :=
  if_neg (by omega)

theorem two_len (n : Nat) : ((n : Int) + 1) * (n + 2) = 2 * ((1 + n + tri n n : Nat) : Int) := by
  have h := two_tri_self n
  have h' : 2 * (tri n n : Int) = n * (n + 1) := by exact_mod_cast h
  push_cast
  linarith

theorem dataLength_eq (c : Cfg) (n : Nat) : dataLengthFromSize c n = dlen c n := by
  unfold dataLengthFromSize dlen
  split
  · push_cast; ring
  · rw [two_len, Int.mul_tdiv_cancel_left _ (by norm_num)]

end HJ
