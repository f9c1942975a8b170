import Verif.Spec.EvalErr
import Verif.Props.Taylor
import Verif.Props.CallerFinite
import Verif.Proofs.PyApi

/-!
# C85: rounding errors of `eval`
-/

namespace HJ

open DD Filter Topology Asymptotics

section near
variable {α : Type} [CMath α] {w : Prec} (M : FinErr α w)

/-- `a` is finite and within `C` errors of one operation of `t`, which is at most `C`. -/
structure CloseTo (C : ℝ) (a : α) (t : ℝ) : Prop where
  fin : M.fin a
  err : |M.val a - t| ≤ C * (w.rel + w.abs)
  size : |t| ≤ C

/-- The growth of the constants in one operation. -/
def grow (C : ℝ) : ℝ := 8 * (C + 1) ^ 2

theorem grow_le {C : ℝ} (h : 0 ≤ C) : C ≤ grow C := by unfold grow; nlinarith

theorem grow_iter_nonneg {C : ℝ} (h : 0 ≤ C) (k : Nat) : 0 ≤ grow^[k] C := by
  induction k with
  | zero => exact h
  | succ k _ => rw [Function.iterate_succ_apply']; unfold grow; positivity

theorem grow_iter_mono {C : ℝ} (h : 0 ≤ C) : Monotone fun k => grow^[k] C :=
  monotone_nat_of_le_succ fun k => by
    simp only [Function.iterate_succ_apply']
    exact grow_le (grow_iter_nonneg h k)

variable {M}

theorem CloseTo.mono {C C' : ℝ} {a : α} {t : ℝ} (h : CloseTo M C a t) (hC : C ≤ C') :
    CloseTo M C' a t :=
  ⟨h.fin, h.err.trans (mul_le_mul_of_nonneg_right hC (add_nonneg M.rel_nonneg M.abs_nonneg)),
    h.size.trans hC⟩

/-- One rounded operation. -/
theorem CloseTo.round {C B D : ℝ} {a : α} {s t : ℝ} (hs : HJ.Sound w M.fin M.val a s) (hB : |s| ≤ B)
    (hr : Set.Icc (-B) B ⊆ w.range) (ht : |s - t| ≤ D * (w.rel + w.abs)) (hC : D + B + 1 ≤ C)
    (hB' : |t| ≤ C) : CloseTo M C a t := by
  obtain ⟨h1, h2⟩ := hs (hr (abs_le.1 hB))
  have h3 := M.rel_nonneg
  have h4 := M.abs_nonneg
  have h5 : 0 ≤ B := (abs_nonneg s).trans hB
  refine ⟨h1, ?_, hB'⟩
  have h6 : |M.val a - t| ≤ |M.val a - s| + |s - t| := by
    have : M.val a - t = (M.val a - s) + (s - t) := by ring
    rw [this]; exact abs_add_le _ _
  have h7 : w.rel * |s| ≤ w.rel * B := mul_le_mul_of_nonneg_left hB h3
  have h8 := mul_le_mul_of_nonneg_right hC (add_nonneg h3 h4)
  nlinarith [mul_nonneg h5 h4]

theorem CloseTo.val_le {C : ℝ} {a : α} {t : ℝ} (hw : w.rel + w.abs ≤ 1) (hC : 0 ≤ C)
    (h : CloseTo M C a t) : |M.val a| ≤ 2 * C := by
  have h1 := h.err.trans (mul_le_of_le_one_right hC hw)
  have h2 : |M.val a| ≤ |M.val a - t| + |t| := by
    have : M.val a = (M.val a - t) + t := by ring
    conv_lhs => rw [this]
    exact abs_add_le _ _
  have h3 := h.size
  linarith

theorem CloseTo.add {C : ℝ} {a b : α} {s t : ℝ} (hw : w.rel + w.abs ≤ 1) (hC : 0 ≤ C)
    (hr : Set.Icc (-grow C) (grow C) ⊆ w.range) (h : CloseTo M C a s) (g : CloseTo M C b t) :
    CloseTo M (grow C) (a +ₛ b) (s + t) := by
  have h1 := h.val_le hw hC
  have h2 := g.val_le hw hC
  have h3 := abs_add_le (M.val a) (M.val b)
  have hB : 4 * C ≤ grow C := by unfold grow; nlinarith
  refine CloseTo.round (M.add a b h.fin g.fin) (B := 4 * C) (D := 2 * C) (by linarith)
    (fun r hr' => hr ⟨by linarith [hr'.1], by linarith [hr'.2]⟩) ?_ (by unfold grow; nlinarith)
    ((abs_add_le _ _).trans (by have := h.size; have := g.size; linarith))
  have : M.val a + M.val b - (s + t) = (M.val a - s) + (M.val b - t) := by ring
  rw [this]
  refine (abs_add_le _ _).trans ?_
  have := h.err; have := g.err
  linarith

theorem CloseTo.mul {C : ℝ} {a b : α} {s t : ℝ} (hw : w.rel + w.abs ≤ 1) (hC : 0 ≤ C)
    (hr : Set.Icc (-grow C) (grow C) ⊆ w.range) (h : CloseTo M C a s) (g : CloseTo M C b t) :
    CloseTo M (grow C) (a *ₛ b) (s * t) := by
  have h1 := h.val_le hw hC
  have h2 := g.val_le hw hC
  have h3 : |M.val a * M.val b| ≤ 4 * C ^ 2 := by
    rw [abs_mul]
    nlinarith [mul_le_mul h1 h2 (abs_nonneg _) (by linarith)]
  have hB : 4 * C ^ 2 ≤ grow C := by unfold grow; nlinarith
  have hst : |s * t| ≤ C ^ 2 := by
    rw [abs_mul, sq]
    exact mul_le_mul h.size g.size (abs_nonneg _) hC
  refine CloseTo.round (M.mul a b h.fin g.fin) (B := 4 * C ^ 2) (D := 3 * C ^ 2) h3
    (fun r hr' => hr ⟨by linarith [hr'.1], by linarith [hr'.2]⟩) ?_ (by unfold grow; nlinarith)
    (by linarith [sq_nonneg C])
  have : M.val a * M.val b - s * t = M.val a * (M.val b - t) + (M.val a - s) * t := by ring
  rw [this]
  refine (abs_add_le _ _).trans ?_
  rw [abs_mul, abs_mul]
  have e1 := mul_le_mul h1 g.err (abs_nonneg _) (by linarith)
  have e2 := mul_le_mul h.err g.size (abs_nonneg _) ((abs_nonneg _).trans h.err)
  nlinarith

end near

section loop
variable {α : Type} [CMath α] {w : Prec} {M : FinErr α w} {c : Cfg} {n : Nat}

/-- The polynomial, row by row. -/
theorem taylorAt_rows {order : Nat} (F : (Fin n → ℝ) → ℝ) (x δ : Fin n → ℝ) (G : Nat → ℝ)
    (H' : Nat → Nat → ℝ) (D : Nat → ℝ)
    (hG : ∀ i : Fin n, G (i : Nat) = partialD F x i)
    (hH : ∀ i j : Fin n, H' (i : Nat) (j : Nat) = partialD (fun y => partialD F y i) x j)
    (hD : ∀ i : Fin n, D (i : Nat) = δ i) :
    taylorAt order F x δ = (F x + ∑ i ∈ Finset.range n, D i * G i) +
      if order = 1 then 0 else 1 / 2 * ∑ i ∈ Finset.range n, D i *
        ∑ j ∈ Finset.range n, D j * H' i j := by
  unfold taylorAt
  simp only [Finset.sum_range, hG, hH, hD, Finset.mul_sum]
  congr 1
  · congr 1
    exact Finset.sum_congr rfl fun i _ => mul_comm _ _
  · split
    · rfl
    · exact Finset.sum_congr rfl fun i _ => Finset.sum_congr rfl fun j _ => by ring

/-- `eval` on a jet and a vector close to real ones. -/
theorem eval_close (hc : c.order = 1 ∨ c.order = 2) {C : ℝ} (hC : 1 ≤ C) (hw : w.rel + w.abs ≤ 1)
    (hr : Set.Icc (-(grow^[2 * n + 4] C)) (grow^[2 * n + 4] C) ⊆ w.range)
    (hhalf : M.fin Arith.half ∧ M.val Arith.half = 1 / 2) {F : (Fin n → ℝ) → ℝ} {x δ : Fin n → ℝ}
    {r : DD α} (h : Within c (CloseTo M C) F x r) {d : List α} (hl : n ≤ d.length)
    (hd : ∀ i : Fin n, CloseTo M C d[i] (δ i)) :
    ∃ a, r.eval c d = .ok a ∧ CloseTo M (grow^[2 * n + 4] C) a (taylorAt c.order F x δ) := by
  have hC0 : 0 ≤ C := by linarith
  set N := 2 * n + 4 with hN
  -- levels of accuracy
  let L : Nat → α → ℝ → Prop := fun k => CloseTo M (grow^[k] C)
  have up : ∀ {k k' a t}, L k a t → k ≤ k' → L k' a t := fun h hk => h.mono (grow_iter_mono hC0 hk)
  have rng : ∀ {k}, k + 1 ≤ N → Set.Icc (-grow (grow^[k] C)) (grow (grow^[k] C)) ⊆ w.range :=
    fun {k} hk s hs => by
      rw [← Function.iterate_succ_apply' grow k C] at hs
      have : grow^[k + 1] C ≤ grow^[N] C := grow_iter_mono hC0 hk
      exact hr ⟨by linarith [hs.1], by linarith [hs.2]⟩
  have add : ∀ {k a b s t}, k + 1 ≤ N → L k a s → L k b t → L (k + 1) (a +ₛ b) (s + t) :=
    fun {k a b s t} hk h g => by
      have := CloseTo.add hw (grow_iter_nonneg hC0 k) (rng hk) h g
      rwa [← Function.iterate_succ_apply' grow k C] at this
  have mul : ∀ {k a b s t}, k + 1 ≤ N → L k a s → L k b t → L (k + 1) (a *ₛ b) (s * t) :=
    fun {k a b s t} hk h g => by
      have := CloseTo.mul hw (grow_iter_nonneg hC0 k) (rng hk) h g
      rwa [← Function.iterate_succ_apply' grow k C] at this
  have zero : L 0 (Arith.lit 0) 0 := by
    have := M.lit 0 (by norm_num)
    refine ⟨this.1, ?_, by simpa using hC0⟩
    rw [this.2]
    simpa using mul_nonneg hC0 (add_nonneg M.rel_nonneg M.abs_nonneg)
  have half : L 0 Arith.half (1 / 2) := by
    refine ⟨hhalf.1, ?_, ?_⟩
    · rw [hhalf.2]
      simpa using mul_nonneg hC0 (add_nonneg M.rel_nonneg M.abs_nonneg)
    · rw [abs_of_pos (by norm_num)]
      simp only [Function.iterate_zero, id]
      linarith
  -- real numbers with natural subscripts
  let G : Nat → ℝ := fun i => if hi : i < n then partialD F x ⟨i, hi⟩ else 0
  let H : Nat → Nat → ℝ := fun i j => if h : i < n ∧ j < n then
    partialD (fun y => partialD F y ⟨i, h.1⟩) x ⟨j, h.2⟩ else 0
  let D : Nat → ℝ := fun i => if hi : i < n then δ ⟨i, hi⟩ else 0
  have hdD : ∀ i, i < n → ∃ a, rdVal d (i : Int) = .ok a ∧ L 0 a (D i) := fun i hi => by
    refine ⟨d[i], ?_, ?_⟩
    · unfold rdVal
      rw [if_neg (by omega), Int.toNat_natCast]
      simp [show i < d.length by omega]
    · simp only [D, hi, dif_pos]
      exact hd ⟨i, hi⟩
  have hg : ∀ i, i < n → ∃ a, r.g c (i : Int) = .ok a ∧ L 0 a (G i) := fun i hi => by
    simp only [G, hi, dif_pos]
    exact h.g ⟨i, hi⟩
  have hh : c.order = 2 → ∀ i j k, i < n → j < n → k = pos n (min i j) (max i j) →
      ∃ a, rd r.mData (k : Nat) = .ok a ∧ L 0 a (H i j) := fun h2 i j k hi hj hk => by
    obtain ⟨a, h1, h3⟩ := h.h h2 ⟨i, hi⟩ ⟨j, hj⟩
    refine ⟨a, ?_, ?_⟩
    · unfold DD.h assertB at h1
      rw [h.size] at h1
      have e : hIndex n i j = (k : Int) := by
        rcases le_total i j with hij | hij
        · rw [hk, min_eq_left hij, max_eq_right hij]; exact hIndex_eq hij hj
        · rw [hk, min_eq_right hij, max_eq_left hij, hIndex_comm]; exact hIndex_eq hij hi
      simpa [hi, hj, e] using h1
    · simp only [H, hi, hj, and_self, dif_pos]
      exact h3
  rw [taylorAt_rows F x δ G H D (fun i => by simp [G]) (fun i j => by simp [H]) (fun i => by simp [D])]
  unfold DD.eval
  obtain ⟨f, hf, hfx⟩ := h.f
  rw [h.size, hf]
  simp only [Res.ok_bind]
  obtain ⟨a, ha, haL⟩ := forUp_ok (lo := 0) (hi := n)
    (P := fun i a => L (i + 1) a (F x + ∑ q ∈ Finset.range i, D q * G q)) (s := f)
    (body := fun i acc => do
      let di ← rdVal d i
      let gi ← r.g c i
      .ok (acc +ₛ di *ₛ gi)) (Nat.zero_le n)
    (by simpa using up (k := 0) hfx (by omega)) (fun i s _ hi hs => by
      obtain ⟨b, hb, hbL⟩ := hdD i hi
      obtain ⟨e, he, heL⟩ := hg i hi
      refine ⟨_, by rw [hb, he]; rfl, ?_⟩
      rw [Finset.sum_range_succ, ← add_assoc]
      exact add (by omega) hs (up (mul (by omega) hbL heL) (by omega)))
  rw [Nat.cast_zero] at ha
  rw [ha]
  simp only [Res.ok_bind]
  rcases hc with h1 | h2
  · rw [if_pos h1, if_pos h1, add_zero]
    exact ⟨a, rfl, up haL (by omega)⟩
  rw [if_neg (by omega), if_neg (by omega)]
  obtain ⟨t, ht, htL⟩ := forUp_ok (lo := 0) (hi := n)
    (P := fun i t => L (n + 2 + i) t
      (∑ q ∈ Finset.range i, D q * ∑ j ∈ Finset.range n, D j * H q j)) (s := (Arith.lit 0 : α))
    (body := fun i t => do
      let (k, a) ← forUp 0 i (1 + (n : Int) + i, (Arith.lit 0 : α)) fun j (k, a) => do
        let dj ← rdVal d j
        let v ← rd r.mData k
        .ok (k + ((n : Int) - j - 1), a +ₛ dj *ₛ v)
      let (_, a) ← forUp i n (k, a) fun j (k, a) => do
        let dj ← rdVal d j
        let v ← rd r.mData k
        .ok (k + 1, a +ₛ dj *ₛ v)
      let di ← rdVal d i
      .ok (t +ₛ di *ₛ a)) (Nat.zero_le n) (by simpa using up zero (by omega)) (fun i t _ hi ht => by
      obtain ⟨p, hp, hp1, hp2⟩ := forUp_ok (lo := 0) (hi := i)
        (P := fun j (p : Int × α) => p.1 = (pos n j i : Nat) ∧
          L (j + 1) p.2 (∑ q ∈ Finset.range j, D q * H i q))
        (s := (1 + (n : Int) + i, (Arith.lit 0 : α)))
        (body := fun j (k, a) => do
          let dj ← rdVal d j
          let v ← rd r.mData k
          .ok (k + ((n : Int) - j - 1), a +ₛ dj *ₛ v)) (Nat.zero_le i)
        ⟨by simp [pos, tri], by simpa using up zero (by omega)⟩ (fun j p _ hj hp => by
          obtain ⟨k, a⟩ := p
          obtain ⟨hk, haL⟩ := hp
          simp only at hk haL
          obtain ⟨b, hb, hbL⟩ := hdD j (by omega)
          obtain ⟨e, he, heL⟩ := hh h2 i j (pos n j i) hi (by omega)
            (by rw [min_eq_right (by omega), max_eq_left (by omega)])
          refine ⟨_, by simp only [hb, hk, he]; rfl, ?_, ?_⟩
          · simp only [pos, tri_succ]; omega
          · rw [Finset.sum_range_succ]
            exact add (by omega) haL (up (mul (by omega) hbL heL) (by omega)))
      obtain ⟨p', hp', hp1', hp2'⟩ := forUp_ok (lo := i) (hi := n)
        (P := fun j (p : Int × α) => p.1 = (pos n i j : Nat) ∧
          L (j + 1) p.2 (∑ q ∈ Finset.range j, D q * H i q))
        (s := p)
        (body := fun j (k, a) => do
          let dj ← rdVal d j
          let v ← rd r.mData k
          .ok (k + 1, a +ₛ dj *ₛ v)) (by omega) ⟨hp1, hp2⟩ (fun j p hij hj hp => by
          obtain ⟨k, a⟩ := p
          obtain ⟨hk, haL⟩ := hp
          simp only at hk haL
          obtain ⟨b, hb, hbL⟩ := hdD j hj
          obtain ⟨e, he, heL⟩ := hh h2 i j (pos n i j) hi hj
            (by rw [min_eq_left hij, max_eq_right hij])
          refine ⟨_, by simp only [hb, hk, he]; rfl, ?_, ?_⟩
          · simp only [pos]; omega
          · rw [Finset.sum_range_succ]
            exact add (by omega) haL (up (mul (by omega) hbL heL) (by omega)))
      obtain ⟨b, hb, hbL⟩ := hdD i hi
      rw [Nat.cast_zero] at hp
      refine ⟨_, by simp only [hp, Res.ok_bind, hp', hb]; rfl, ?_⟩
      rw [Finset.sum_range_succ]
      exact add (k := n + 2 + i) (by omega) ht (up (mul (k := n + 1) (by omega) (up hbL (by omega)) hp2') (by omega)))
  rw [Nat.cast_zero] at ht
  rw [ht]
  refine ⟨_, rfl, ?_⟩
  have e := mul (k := n + 2 + n) (by omega) (up half (by omega)) htL
  exact up (add (by omega) (up haL (by omega)) e) (by omega)

end loop

section main
variable {c : Cfg} {n : Nat}

/-- **C85.**  For all constants `K` and `R` there are a constant `K'`, a precision and a range such that in
every arithmetic of at least that precision and range, for every jet whose value, gradient and Hessian are
within `K` errors of one operation of those of a function `F`, for every vector `d` that close to `δ`, and as
long as derivatives and `δ` are at most `R`, the number `eval(d)` is finite and within `K'` errors of one
operation of the Taylor polynomial of `F`. -/
theorem C85_rate (hv : c.Valid) (n : Nat) (K R : ℝ) : ∃ K' w₀ B : ℝ, 0 < w₀ ∧
    ∀ (α : Type) [CMath α] (w : Prec) (M : FinErr α w), w.rel ≤ w₀ → w.abs ≤ w₀ →
      Set.Icc (-B) B ⊆ w.range → M.fin Arith.half → M.val Arith.half = 1 / 2 →
      ∀ (F : (Fin n → ℝ) → ℝ) (x δ : Fin n → ℝ) (r : DD α) (d : List α), BoundedBy c.order R F x →
      Within c (fun s t => M.fin s ∧ |M.val s - t| ≤ K * (w.rel + w.abs)) F x r →
      (∀ i, |δ i| ≤ R) → ∀ hl : n ≤ d.length,
      (∀ i : Fin n, M.fin d[i] ∧ |M.val d[i] - δ i| ≤ K * (w.rel + w.abs)) →
      ∃ a, r.eval c d = .ok a ∧ M.fin a ∧
        |M.val a - taylorAt c.order F x δ| ≤ K' * (w.rel + w.abs) := by
  let C := max 1 (max K R)
  have hK : K ≤ C := (le_max_left _ _).trans (le_max_right _ _)
  have hR : R ≤ C := (le_max_right _ _).trans (le_max_right _ _)
  refine ⟨grow^[2 * n + 4] C, 1 / 2, grow^[2 * n + 4] C, by norm_num,
    fun α _ w M h1 h2 h3 h4 h5 F x δ r d hb hr hδ hl hd => ?_⟩
  have up : ∀ {s : α} {t : ℝ}, M.fin s ∧ |M.val s - t| ≤ K * (w.rel + w.abs) → |t| ≤ R →
      CloseTo M C s t := fun hs ht => ⟨hs.1,
    hs.2.trans (mul_le_mul_of_nonneg_right hK (add_nonneg M.rel_nonneg M.abs_nonneg)), ht.trans hR⟩
  obtain ⟨a, ha, hfin⟩ := eval_close (M := M) (d := d) hv.order (le_max_left 1 (max K R)) (by linarith)
    h3 ⟨h4, h5⟩
    { size := hr.size
      f := hr.f.imp fun s hs => ⟨hs.1, up hs.2 hb.f⟩
      g := fun i => (hr.g i).imp fun s hs => ⟨hs.1, up hs.2 (hb.g i)⟩
      h := fun h i j => (hr.h h i j).imp fun s hs => ⟨hs.1, up hs.2 (hb.h h i j)⟩ } hl
    (fun i => up (hd i) (hδ i))
  exact ⟨a, ha, hfin.fin, hfin.err⟩

/-! ### Bounds for the derivatives of what client code computes -/

/-- Exact arithmetic that calls numbers above `B` infinite. -/
def cutErr (B : ℝ) (hB : 10 ≤ B) : FinErr (Flt id) ⟨0, 0, Set.Icc (-B) B⟩ :=
  have cut : ∀ {x : Flt id} {r : ℝ}, HJ.Sound (.plain 0) (fun _ => True) idErr.val x r →
      HJ.Sound ⟨0, 0, Set.Icc (-B) B⟩ (fun s => |idErr.val s| ≤ B) idErr.val x r := fun {x r} h hr => by
    have h1 := sound_plain.1 h
    simp only [Close, zero_mul, abs_nonpos_iff, sub_eq_zero] at h1
    exact ⟨show |idErr.val x| ≤ B by rw [h1]; exact abs_le.2 hr, by simp [h1]⟩
  { val := idErr.val
    fin := fun s => |idErr.val s| ≤ B
    rel_nonneg := le_rfl
    abs_nonneg := le_rfl
    lit := fun z hz => ⟨by
      rw [idErr.lit10 z hz]
      exact le_trans (by exact_mod_cast hz) hB, idErr.lit10 z hz⟩
    neg := fun a ha => ⟨by rwa [idErr.neg a, abs_neg], idErr.neg a⟩
    less := fun a b _ _ => idErr.less a b
    add := fun a b _ _ => cut (idErr.toFin.add a b trivial trivial)
    sub := fun a b _ _ => cut (idErr.toFin.sub a b trivial trivial)
    mul := fun a b _ _ => cut (idErr.toFin.mul a b trivial trivial)
    div := fun a b h _ _ => cut (idErr.toFin.div a b h trivial trivial)
    powN := fun a k h _ => cut (idErr.toFin.powN a k h trivial)
    pow := fun a b h _ _ => cut (idErr.toFin.pow a b h trivial trivial)
    sqrt := fun a h _ => cut (idErr.toFin.sqrt a h trivial)
    cbrt := fun a _ => cut (idErr.toFin.cbrt a trivial)
    cos := fun a _ => cut (idErr.toFin.cos a trivial)
    sin := fun a _ => cut (idErr.toFin.sin a trivial)
    tan := fun a h _ => cut (idErr.toFin.tan a h trivial)
    acos := fun a h h' _ => cut (idErr.toFin.acos a h h' trivial)
    asin := fun a h h' _ => cut (idErr.toFin.asin a h h' trivial)
    atan := fun a _ => cut (idErr.toFin.atan a trivial)
    atan2 := fun a b h _ _ => cut (idErr.toFin.atan2 a b h trivial trivial)
    hypot := fun a b _ _ => cut (idErr.toFin.hypot a b trivial trivial)
    hypot3 := fun a b d _ _ _ => cut (idErr.toFin.hypot3 a b d trivial trivial trivial)
    cosh := fun a _ => cut (idErr.toFin.cosh a trivial)
    sinh := fun a _ => cut (idErr.toFin.sinh a trivial)
    tanh := fun a _ => cut (idErr.toFin.tanh a trivial)
    acosh := fun a h _ => cut (idErr.toFin.acosh a h trivial)
    asinh := fun a _ => cut (idErr.toFin.asinh a trivial)
    atanh := fun a h h' _ => cut (idErr.toFin.atanh a h h' trivial)
    exp := fun a _ => cut (idErr.toFin.exp a trivial)
    log := fun a h _ => cut (idErr.toFin.log a h trivial)
    log2 := fun a h _ => cut (idErr.toFin.log2 a h trivial)
    log10 := fun a h _ => cut (idErr.toFin.log10 a h trivial) }

variable {V Q : Type} [DecidableEq V]

/-- The derivatives of what client code computes are bounded on compact sets. -/
theorem client_bounded [Finite V] (hv : c.Valid) (hfit : c.tsize = -1 ∨ c.tsize = n)
    (cl : Caller (Call ℝ V) (Answer ℝ) Q) (q : Q) (fin : (Fin n → ℝ) → Q) (start : V → Fin n ⊕ ℝ)
    (U : (Fin n → ℝ) → V → ℝ) {S : Set (Fin n → ℝ)} (hS : IsCompact S)
    (h : ∀ x ∈ S, ∃ σ', cl.Ends (PreciseCall c.order n) q (startVal start x) (fin x) σ')
    (hU : ∀ x ∈ S, ∀ᶠ y in 𝓝 x, ∃ q'', cl.Ends RealCall q (startVal start y) q'' (U y)) :
    ∃ R, ∀ x ∈ S, ∀ v, BoundedBy c.order R (fun y => U y v) x := by
  obtain ⟨K, w₀, B, hw, m, hm⟩ := C84_rate hv hfit cl q fin (startVal start) U hS (startJet start)
    (fun x _ => startJet_isJet c.order start x) (fun v => (startJet_continuous start v).1.continuousOn)
    (fun v i _ => ((startJet_continuous start v).2.1 i).continuousOn)
    (fun _ v i _ j _ => ((startJet_continuous start v).2.2 i j).continuousOn) h hU
  have hB : 10 ≤ max 10 B := le_max_left _ _
  refine ⟨max 10 B, fun x hx v => ?_⟩
  have henc : ∀ s : ℝ, (cutErr _ hB).Sound (⟨s⟩ : Flt id) s := fun s hs =>
    ⟨abs_le.2 hs, by
      show |s - s| ≤ 0 * |s| + 0
      simp⟩
  obtain ⟨ρ, hρ⟩ := starts_exists hfit (fun i => (⟨x i⟩ : Flt id)) (fun s => (⟨s⟩ : Flt id)) start
  obtain ⟨ρ', -, h2⟩ := hm x hx (Flt id) _ (cutErr _ hB) (fun s => ⟨s⟩) ρ hw.le hw.le
    (fun s hs => ⟨by linarith [hs.1, le_max_right 10 B], hs.2.trans (le_max_right 10 B)⟩)
    (fun op a b _ _ => flt_exactCmp id op a b) henc fun v =>
      starts_seedBy (by simpa using sound_lit (cutErr _ hB) 0 (by norm_num))
        (by simpa using sound_lit (cutErr _ hB) 1 (by norm_num)) hv hfit start x _ henc hρ v
  have key : ∀ {s : Flt id} {t : ℝ}, ((cutErr _ hB).fin s ∧ |(cutErr _ hB).val s - t| ≤ K * (0 + 0)) →
      |t| ≤ max 10 B := fun {s t} hs => by
    have h1 := hs.2
    rw [add_zero, mul_zero, abs_nonpos_iff, sub_eq_zero] at h1
    rw [← h1]; exact hs.1
  have hv := h2 v
  exact ⟨let ⟨_, _, h⟩ := hv.f; key h, fun i => let ⟨_, _, h⟩ := hv.g i; key h,
    fun h2 i j => let ⟨_, _, h⟩ := hv.h h2 i j; key h⟩

/-- **C85, client code.**  In every format with at least `N` significant bits and exponents up to at least
`N`, after client code as in C84, `eval` of the rounded vector `δ` is within `K / 2 ^ b` of the Taylor
polynomial of what the code computes, at every point of the compact set and for all `δ` up to `R`. -/
theorem C85_client [Finite V] (hv : c.Valid) (hfit : c.tsize = -1 ∨ c.tsize = n)
    (cl : Caller (Call ℝ V) (Answer ℝ) Q) (q : Q) (fin : (Fin n → ℝ) → Q) (start : V → Fin n ⊕ ℝ)
    (U : (Fin n → ℝ) → V → ℝ) {S : Set (Fin n → ℝ)} (hS : IsCompact S) (R : ℝ)
    (h : ∀ x ∈ S, ∃ σ', cl.Ends (PreciseCall c.order n) q (startVal start x) (fin x) σ')
    (hU : ∀ x ∈ S, ∀ᶠ y in 𝓝 x, ∃ q'', cl.Ends RealCall q (startVal start y) q'' (U y)) :
    ∃ (K : ℝ) (N m : Nat), ∀ x ∈ S, ∀ b ≥ N, ∀ emax ≥ N, ∀ ρ,
      Starts c (fun i => IEEE.enc b emax (x i)) (IEEE.enc b emax) start ρ →
        ∃ ρ', (∀ j ≥ m, (cl.map (Call.map (IEEE.enc b emax)) (Answer.map IEEE.real)).run
            (ddLibrary _ V c n) j q ρ = some (.ok (fin x), ρ')) ∧
          ∀ v (δ : Fin n → ℝ), (∀ i, |δ i| ≤ R) →
            ∃ a, (ρ' v).eval c (List.ofFn fun i => IEEE.enc b emax (δ i)) = .ok a ∧ a.val.Fin ∧
              |a.real - taylorAt c.order (fun y => U y v) x δ| ≤ K / 2 ^ b := by
  obtain ⟨R₁, hR₁⟩ := client_bounded hv hfit cl q fin start U hS h hU
  obtain ⟨K, u₀, B, hu, m, hm⟩ := C84_rate hv hfit cl q fin (startVal start) U hS (startJet start)
    (fun x _ => startJet_isJet c.order start x) (fun v => (startJet_continuous start v).1.continuousOn)
    (fun v i _ => ((startJet_continuous start v).2.1 i).continuousOn)
    (fun _ v i _ j _ => ((startJet_continuous start v).2.2 i j).continuousOn) h hU
  obtain ⟨K', u₁, B', hu', hm'⟩ := C85_rate hv n (max K (max |R| 1)) (max R R₁)
  obtain ⟨N, hN, hfmt⟩ := fmt_enough (lt_min hu hu') (max (max B B') R)
  refine ⟨2 * |K'|, N, m, fun x hx b hb emax he ρ hρ => ?_⟩
  obtain ⟨f1, f2, f3⟩ := hfmt b hb emax he
  have cutB : ∀ {D : ℝ}, D ≤ max (max B B') R → Set.Icc (-D) D ⊆ (fmtPrec b emax).range :=
    fun hD s hs => f3 ⟨by linarith [hs.1], hs.2.trans hD⟩
  have hω : 0 ≤ (fmtPrec b emax).rel + (fmtPrec b emax).abs := by simp only [fmtPrec]; positivity
  let M := ieeeErr b emax (hN.trans hb) (hN.trans he)
  obtain ⟨ρ', h1, h2⟩ := hm x hx _ _ M (IEEE.enc b emax) ρ
    (f1.trans (min_le_left _ _)) (f2.trans (min_le_left _ _))
    (cutB ((le_max_left _ _).trans (le_max_left _ _))) (ieee_exactCmp _ _) (ieee_enc _ _) fun v =>
      starts_seedBy (by simpa using sound_lit _ 0 (by norm_num))
        (by simpa using sound_lit _ 1 (by norm_num))
        hv hfit start x _ (ieee_enc _ _) hρ v
  refine ⟨ρ', h1, fun v δ hδ => ?_⟩
  obtain ⟨a, ha, ha1, ha2⟩ := hm' _ _ M (f1.trans (min_le_right _ _)) (f2.trans (min_le_right _ _))
    (cutB ((le_max_right _ _).trans (le_max_left _ _))) trivial rfl (fun y => U y v) x δ (ρ' v)
    (List.ofFn fun i => IEEE.enc b emax (δ i))
    (let hb := hR₁ x hx v
     ⟨hb.f.trans (le_max_right _ _), fun i => (hb.g i).trans (le_max_right _ _),
      fun h i j => (hb.h h i j).trans (le_max_right _ _)⟩)
    ((h2 v).mono fun s t hs => ⟨hs.1, hs.2.trans (mul_le_mul_of_nonneg_right (le_max_left _ _) hω)⟩)
    (fun i => (hδ i).trans (le_max_left _ _)) (by simp) (fun i => by
      have := ieee_enc (hN.trans hb) (hN.trans he) (δ i) (cutB (le_max_right _ _) (abs_le.1 (hδ i)))
      simp only [Fin.getElem_fin, List.getElem_ofFn]
      refine ⟨this.1, this.2.trans ?_⟩
      have e1 : |δ i| ≤ max K (max |R| 1) :=
        ((hδ i).trans (le_abs_self R)).trans ((le_max_left _ _).trans (le_max_right _ _))
      have e2 : 1 ≤ max K (max |R| 1) := (le_max_right _ _).trans (le_max_right _ _)
      have e3 := mul_le_mul_of_nonneg_left e1 M.rel_nonneg
      have e4 := mul_le_mul_of_nonneg_right e2 M.abs_nonneg
      nlinarith)
  exact ⟨a, ha, ha1, ha2.trans (fmt_rate (le_trans (by omega) he) K')⟩

/-- Taylor's theorem in terms of `taylorAt`. -/
theorem taylorAt_rem {order : Nat} (ho : order = 1 ∨ order = 2) {F : (Fin n → ℝ) → ℝ} {x : Fin n → ℝ}
    {J : Jet ℝ} (hJ : IsJet order n F x J) :
    (fun δ => F (x + δ) - taylorAt order F x δ) =o[𝓝 0] fun δ => ‖δ‖ ^ order := by
  have hg : ∀ i : Fin n, partialD F x i = J.g i := fun i => by
    unfold partialD
    rw [hJ.grad.fderiv, lin_single]
  have hh : order = 2 → ∀ i j : Fin n, partialD (fun y => partialD F y i) x j = J.h i j := fun h2 i j => by
    unfold partialD
    rw [(hJ.hess h2 i).fderiv, lin_single]
  rcases ho with h | h <;> subst h
  · simp only [taylorAt, if_true, add_zero, pow_one]
    have := (hasFDerivAt_iff_isLittleO_nhds_zero.1 hJ.grad).norm_right
    refine this.congr_left fun d => ?_
    rw [lin_apply']
    simp only [hg]; ring
  · refine (taylor2 hJ fun i j hi hj => hJ.sym ⟨i, hi⟩ ⟨j, hj⟩).congr_left fun d => ?_
    simp only [taylorAt, show ¬ (2 : Nat) = 1 by decide, if_false, hg, hh rfl, hJ.value]

/-- **C85, Taylor.**  After client code as in C84 in a format, `eval(δ)` is the value of the computed function
at `x + δ` up to `K / 2 ^ b` for the rounding and `o(‖δ‖)`, at order 2 `o(‖δ‖²)`, for the remainder. -/
theorem C85_taylor [Finite V] (hv : c.Valid) (hfit : c.tsize = -1 ∨ c.tsize = n)
    (cl : Caller (Call ℝ V) (Answer ℝ) Q) (q : Q) (fin : (Fin n → ℝ) → Q) (start : V → Fin n ⊕ ℝ)
    (U : (Fin n → ℝ) → V → ℝ) {S : Set (Fin n → ℝ)} (hS : IsCompact S)
    (h : ∀ x ∈ S, ∃ σ', cl.Ends (PreciseCall c.order n) q (startVal start x) (fin x) σ')
    (hU : ∀ x ∈ S, ∀ᶠ y in 𝓝 x, ∃ q'', cl.Ends RealCall q (startVal start y) q'' (U y)) :
    ∃ (K : ℝ) (N m : Nat), ∀ x ∈ S, ∀ ε > 0, ∃ τ > 0, ∀ b ≥ N, ∀ emax ≥ N, ∀ ρ,
      Starts c (fun i => IEEE.enc b emax (x i)) (IEEE.enc b emax) start ρ →
        ∃ ρ', (∀ j ≥ m, (cl.map (Call.map (IEEE.enc b emax)) (Answer.map IEEE.real)).run
            (ddLibrary _ V c n) j q ρ = some (.ok (fin x), ρ')) ∧
          ∀ v (δ : Fin n → ℝ), ‖δ‖ ≤ τ →
            ∃ a, (ρ' v).eval c (List.ofFn fun i => IEEE.enc b emax (δ i)) = .ok a ∧ a.val.Fin ∧
              |a.real - U (x + δ) v| ≤ K / 2 ^ b + ε * ‖δ‖ ^ c.order := by
  obtain ⟨K, N, m, hm⟩ := C85_client hv hfit cl q fin start U hS 1 h hU
  refine ⟨K, N, m, fun x hx ε hε => ?_⟩
  have hJ : ∀ v, ∃ J, IsJet c.order n (fun y => U y v) x J := fun v => by
    obtain ⟨σ', hp⟩ := h x hx
    obtain ⟨p, -, hp1, hp2⟩ := client_path hv hfit (startJet_isJet c.order start x) hp (hU x hx)
    obtain ⟨ρ, hρ⟩ := exists_shows hv.order hfit (startJet_isJet c.order start x)
    obtain ⟨-, ρ', -, h4⟩ := exact_run hv hfit p.ctl _ U x σ' _ (startJet_isJet c.order start x) hp1 hp2 hρ
    exact (h4 v).imp fun J hJ => hJ.2
  have hrem : ∀ᶠ δ in 𝓝 (0 : Fin n → ℝ), ∀ v,
      ‖U (x + δ) v - taylorAt c.order (fun y => U y v) x δ‖ ≤ ε * ‖‖δ‖ ^ c.order‖ :=
    eventually_all.2 fun v => (taylorAt_rem hv.order (hJ v).choose_spec).bound hε
  obtain ⟨τ, hτ, hball⟩ := Metric.eventually_nhds_iff_ball.1 hrem
  refine ⟨min (τ / 2) 1, by positivity, fun b hb emax he ρ hρ => ?_⟩
  obtain ⟨ρ', h1, h2⟩ := hm x hx b hb emax he ρ hρ
  refine ⟨ρ', h1, fun v δ hδ => ?_⟩
  obtain ⟨a, ha, hfin, herr⟩ := h2 v δ fun i =>
    (norm_le_pi_norm δ i).trans (hδ.trans (min_le_right _ _))
  refine ⟨a, ha, hfin, ?_⟩
  have := hball δ (by
    rw [mem_ball_zero_iff]
    have := hδ.trans (min_le_left _ _)
    linarith) v
  rw [Real.norm_eq_abs, Real.norm_of_nonneg (by positivity)] at this
  have e : a.real - U (x + δ) v = (a.real - taylorAt c.order (fun y => U y v) x δ) -
      (U (x + δ) v - taylorAt c.order (fun y => U y v) x δ) := by ring
  rw [e]
  refine (abs_sub _ _).trans ?_
  linarith

/-! ### Examples -/

/-- Repeated squaring and then `y.eval(δ)`, in every format with enough bits: the value at `x + δ` up to
rounding and a remainder of third order. -/
example (N : Nat) (lo hi : ℝ) : ∃ (K : ℝ) (k m : Nat),
    ∀ x ∈ Set.Icc (fun _ : Fin 1 => lo) (fun _ => hi), ∀ ε > 0, ∃ τ > 0, ∀ b ≥ k, ∀ emax ≥ k, ∀ ρ,
      Starts exDyn2 (fun i => IEEE.enc b emax (x i)) (IEEE.enc b emax) ![.inl 0, .inr 1] ρ →
        ∃ ρ', (∀ j ≥ m, ((exPowers ℝ).map (Call.map (IEEE.enc b emax)) (Answer.map IEEE.real)).run
            (ddLibrary _ (Fin 2) exDyn2 1) j N ρ = some (.ok 0, ρ')) ∧
          ∀ δ : Fin 1 → ℝ, ‖δ‖ ≤ τ →
            ∃ a, (ρ' 1).eval exDyn2 (List.ofFn fun i => IEEE.enc b emax (δ i)) = .ok a ∧ a.val.Fin ∧
              |a.real - (x 0 + δ 0) ^ N| ≤ K / 2 ^ b + ε * ‖δ‖ ^ 2 := by
  have e0 : ∀ y : Fin 1 → ℝ, startVal ![.inl 0, .inr 1] y = ![y 0, 1] := fun y =>
    funext fun v => by fin_cases v <;> rfl
  choose U hU hU1 using fun y : Fin 1 → ℝ => exPowers_ends N ![y 0, 1]
  obtain ⟨K, k, m, h⟩ := C85_taylor exDyn2_valid (n := 1) (Or.inl rfl) (exPowers ℝ) N (fun _ => 0)
    ![.inl 0, .inr 1] U (isCompact_Icc (a := fun _ : Fin 1 => lo) (b := fun _ => hi))
    (fun x _ => ⟨U x, by rw [e0]; exact hU x⟩)
    (fun x _ => .of_forall fun y => ⟨0, by rw [e0]; exact (hU y).mono fun k a r a' h => h.1.real⟩)
  refine ⟨K, k, m, fun x hx ε hε => ?_⟩
  obtain ⟨τ, hτ, h'⟩ := h x hx ε hε
  refine ⟨τ, hτ, fun b hb emax he ρ hρ => ?_⟩
  obtain ⟨ρ', h1, h2⟩ := h' b hb emax he ρ hρ
  refine ⟨ρ', h1, fun δ hδ => ?_⟩
  obtain ⟨a, ha, hf, hr⟩ := h2 1 δ hδ
  refine ⟨a, ha, hf, ?_⟩
  rw [hU1, show exDyn2.order = 2 from rfl] at hr
  simpa using hr

end main

end HJ
