import Verif.Spec.Error
import Verif.Proofs.EvalC
import Verif.Proofs.JetOps
import Verif.Proofs.Core
import Mathlib.Tactic.GCongr
import Mathlib.Tactic.Positivity
import Mathlib.Tactic.Linarith
import Mathlib.Tactic.Ring

/-!
# Rounding errors of polynomials (helper lemmas)
-/

namespace HJ

variable {α V : Type} {u : ℝ}

/-- The computed number `x` differs from `a` by at most `((1 + u)^k - 1) A`, and `|a| ≤ A`. -/
structure Near (u : ℝ) (k : Nat) (x a A : ℝ) : Prop where
  err : |x - a| ≤ ((1 + u) ^ k - 1) * A
  le : |a| ≤ A

namespace Near

variable {k l : Nat} {x y a b A B : ℝ}

theorem nonneg (h : Near u k x a A) : 0 ≤ A := (abs_nonneg a).trans h.le

theorem abs_le (h : Near u k x a A) : |x| ≤ (1 + u) ^ k * A := by
  have h1 := abs_add_le (x - a) a
  rw [sub_add_cancel] at h1
  have := h.err
  have := h.le
  linarith

theorem mono (hu : 0 ≤ u) (h : Near u k x a A) (hk : k ≤ l) : Near u l x a A :=
  ⟨h.err.trans (mul_le_mul_of_nonneg_right
    (sub_le_sub_right (pow_le_pow_right₀ (by linarith) hk) 1) h.nonneg), h.le⟩

theorem exact (x : ℝ) : Near u 0 x x |x| := ⟨by simp, le_rfl⟩

theorem zero (k : Nat) : Near u k 0 0 0 := ⟨by simp, by simp⟩

theorem neg (h : Near u k x a A) : Near u k (-x) (-a) A :=
  ⟨by rw [← neg_sub', abs_neg]; exact h.err, by rw [abs_neg]; exact h.le⟩

/-- One more rounding. -/
theorem round {z : ℝ} (hu : 0 ≤ u) (h : Near u k x a A) (hz : |z - x| ≤ u * |x|) :
    Near u (k + 1) z a A := by
  refine ⟨?_, h.le⟩
  have h1 : |z - a| ≤ |z - x| + |x - a| := by
    have := abs_add_le (z - x) (x - a)
    rwa [sub_add_sub_cancel] at this
  have h2 := mul_le_mul_of_nonneg_left h.abs_le hu
  have h3 := h.err
  rw [pow_succ]
  nlinarith

theorem add (h : Near u k x a A) (g : Near u k y b B) : Near u k (x + y) (a + b) (A + B) := by
  refine ⟨?_, (abs_add_le a b).trans (add_le_add h.le g.le)⟩
  rw [add_sub_add_comm, mul_add]
  exact (abs_add_le _ _).trans (add_le_add h.err g.err)

theorem mul (h : Near u k x a A) (g : Near u l y b B) :
    Near u (k + l) (x * y) (a * b) (A * B) := by
  refine ⟨?_, by rw [abs_mul]; exact mul_le_mul h.le g.le (abs_nonneg b) h.nonneg⟩
  have h1 : x * y - a * b = (x - a) * y + a * (y - b) := by ring
  have h2 : |(x - a) * y| ≤ ((1 + u) ^ k - 1) * A * ((1 + u) ^ l * B) := by
    rw [abs_mul]
    exact mul_le_mul h.err g.abs_le (abs_nonneg y) ((abs_nonneg _).trans h.err)
  have h3 : |a * (y - b)| ≤ A * (((1 + u) ^ l - 1) * B) := by
    rw [abs_mul]
    exact mul_le_mul h.le g.err (abs_nonneg _) h.nonneg
  rw [h1, pow_add]
  refine (abs_add_le _ _).trans ((add_le_add h2 h3).trans (le_of_eq ?_))
  ring

end Near

section
variable [CMath α] {c : Cfg} {n : Nat}

theorem RelErr.near_add (M : RelErr α u) {k : Nat} {x y : α} {a b A B : ℝ}
    (h : Near u k (M.val x) a A) (g : Near u k (M.val y) b B) :
    Near u (k + 1) (M.val (x +ₛ y)) (a + b) (A + B) := (h.add g).round M.nonneg (M.add x y)

theorem RelErr.near_sub (M : RelErr α u) {k : Nat} {x y : α} {a b A B : ℝ}
    (h : Near u k (M.val x) a A) (g : Near u k (M.val y) b B) :
    Near u (k + 1) (M.val (x -ₛ y)) (a - b) (A + B) := by
  rw [sub_eq_add_neg]
  exact (h.add g.neg).round M.nonneg (by rw [← sub_eq_add_neg]; exact M.sub x y)

theorem RelErr.near_mul (M : RelErr α u) {k l : Nat} {x y : α} {a b A B : ℝ}
    (h : Near u k (M.val x) a A) (g : Near u l (M.val y) b B) :
    Near u (k + l + 1) (M.val (x *ₛ y)) (a * b) (A * B) :=
  (h.mul g).round M.nonneg (M.mul x y)

theorem RelErr.near_neg (M : RelErr α u) {k : Nat} {x : α} {a A : ℝ}
    (h : Near u k (M.val x) a A) : Near u k (M.val (-ₛ x)) (-a) A := by
  rw [M.neg]; exact h.neg

/-- Reals computed with exactly. -/
theorem real_ops : (∀ a b : ℝ, a +ₛ b = a + b) ∧ (∀ a b : ℝ, a -ₛ b = a - b) ∧
    (∀ a b : ℝ, a *ₛ b = a * b) ∧ (∀ a b : ℝ, a ÷ₛ b = a / b) ∧ (∀ a : ℝ, -ₛ a = -a) ∧
    ∀ z : Int, (Arith.lit z : ℝ) = z :=
  ⟨Exact.add, Exact.sub, Exact.mul, Exact.div, Exact.neg, Exact.lit⟩

theorem near_mulC (M : RelErr α u) {k l : Nat} {a b : Nat → α} {a' b' A B : Nat → ℝ}
    (h : ∀ i, Near u k (M.val (a i)) (a' i) (A i)) (g : ∀ i, Near u l (M.val (b i)) (b' i) (B i))
    (i : Nat) : Near u (k + l + 3) (M.val (mulC c n a b i)) (mulC c n a' b' i) (mulC c n A B i) := by
  have hu := M.nonneg
  have t1 : ∀ i, Near u (k + l + 2) (M.val (b 0 *ₛ a i +ₛ a 0 *ₛ b i)) (b' 0 * a' i + a' 0 * b' i)
      (B 0 * A i + A 0 * B i) := fun i =>
    M.near_add ((M.near_mul (g 0) (h i)).mono hu (by omega)) (M.near_mul (h 0) (g i))
  have t2 : ∀ i j, Near u (k + l + 2) (M.val (b (1 + i) *ₛ a (1 + j) +ₛ a (1 + i) *ₛ b (1 + j)))
      (b' (1 + i) * a' (1 + j) + a' (1 + i) * b' (1 + j))
      (B (1 + i) * A (1 + j) + A (1 + i) * B (1 + j)) := fun i j =>
    M.near_add ((M.near_mul (g _) (h _)).mono hu (by omega)) (M.near_mul (h _) (g _))
  have t0 := (M.near_mul (h 0) (g 0)).mono hu (l := k + l + 3) (by omega)
  unfold mulC bFin
  obtain ⟨r1, -, r3, -⟩ := real_ops
  simp only [r1, r3]
  split
  · unfold fin1
    split
    · exact t0
    · exact (t1 i).mono hu (by omega)
  · unfold fin2
    split
    · exact t0
    · split
      · exact (t1 i).mono hu (by omega)
      · simp only [r1]
        exact M.near_add (t1 i) (t2 _ _)

/-- Every stored component of a polynomial is near the component computed exactly. -/
theorem evalC_near (M : RelErr α u) (ρ : V → Nat → α) (e : Expr α V) (he : e.Poly M.val) (i : Nat) :
    Near u e.roundings (M.val (e.evalC c n ρ i))
      ((e.map M.val).evalC c n (fun v i => M.val (ρ v i)) i)
      ((e.map M.val).majorant.evalC c n (fun v i => |M.val (ρ v i)|) i) := by
  have hu := M.nonneg
  obtain ⟨r1, r2, r3, r4, r5, r6⟩ := real_ops
  induction e generalizing i with
  | var v => exact Near.exact _
  | const s =>
    simp only [Expr.evalC, Expr.map, Expr.majorant, constC, r6, Expr.roundings]
    split
    · exact Near.exact _
    · rw [M.lit 0 (by simp)]; simpa using Near.zero (u := u) 0
  | neg e ih =>
    simp only [Expr.evalC, Expr.map, Expr.majorant, r5]
    exact M.near_neg (ih he i)
  | abs e => exact he.elim
  | fn φ e => exact he.elim
  | hypot3 => exact he.elim
  | bin o e₁ e₂ ih₁ ih₂ =>
    cases o with
    | add =>
      simp only [Expr.evalC, Expr.map, Expr.majorant, Bin.runC, addC, r1]
      exact M.near_add ((ih₁ he.1 i).mono hu (le_max_left _ _)) ((ih₂ he.2 i).mono hu (le_max_right _ _))
    | sub =>
      have h1 := fun i => (ih₁ he.1 i).mono hu (le_max_left _ e₂.roundings)
      have h2 := fun i => (ih₂ he.2 i).mono hu (le_max_right e₁.roundings _)
      simp only [Expr.evalC, Expr.map, Expr.majorant, Bin.runC, addC, subC, r1, r2, r5]
      split
      · rename_i h; subst h; exact M.near_sub (h1 0) (h2 0)
      · exact M.near_add (h1 i) (M.near_neg (h2 i))
    | mul => exact near_mulC M (ih₁ he.1) (ih₂ he.2) i
    | div => exact he.elim
    | atan2 => exact he.elim
    | hypot => exact he.elim
  | sbin o e s ih =>
    have hs : Near u 0 (M.val s) (M.val s) |M.val s| := Near.exact _
    cases o with
    | addS =>
      simp only [Expr.evalC, Expr.map, Expr.majorant, SBin.runC, addSC, r1]
      split
      · exact M.near_add (ih he 0) (hs.mono hu (Nat.zero_le _))
      · exact (ih he i).mono hu (Nat.le_succ _)
    | sAdd =>
      simp only [Expr.evalC, Expr.map, Expr.majorant, SBin.runC, addSC, r1]
      split
      · exact M.near_add (ih he 0) (hs.mono hu (Nat.zero_le _))
      · exact (ih he i).mono hu (Nat.le_succ _)
    | subS =>
      simp only [Expr.evalC, Expr.map, Expr.majorant, SBin.runC, addSC, r1, r5]
      split
      · exact M.near_add (ih he 0) (M.near_neg (hs.mono hu (Nat.zero_le _)))
      · exact (ih he i).mono hu (Nat.le_succ _)
    | sSub =>
      simp only [Expr.evalC, Expr.map, Expr.majorant, SBin.runC, addSC, sSubC, r1, r5]
      split
      · exact M.near_add (M.near_neg (ih he 0)) (hs.mono hu (Nat.zero_le _))
      · exact (M.near_neg (ih he i)).mono hu (Nat.le_succ _)
    | mulS =>
      simp only [Expr.evalC, Expr.map, Expr.majorant, SBin.runC, r3]
      exact M.near_mul (ih he i) hs
    | sMul =>
      simp only [Expr.evalC, Expr.map, Expr.majorant, SBin.runC, r3]
      exact M.near_mul (ih he i) hs
    | divS =>
      simp only [Expr.evalC, Expr.map, Expr.majorant, SBin.runC, r3, r4, r6]
      have h1 : Near u 1 (M.val (Arith.lit 1 ÷ₛ s)) (((1 : Int) : ℝ) / M.val s)
          (((1 : Int) : ℝ) / |M.val s|) := by
        have h0 : Near u 0 (((1 : Int) : ℝ) / M.val s) (((1 : Int) : ℝ) / M.val s)
            (((1 : Int) : ℝ) / |M.val s|) := by
          have := Near.exact (u := u) (((1 : Int) : ℝ) / M.val s)
          rwa [abs_div, show |((1 : Int) : ℝ)| = ((1 : Int) : ℝ) by simp] at this
        refine h0.round hu ?_
        have := M.div (Arith.lit 1) s he.2
        rwa [M.lit 1 (by simp)] at this
      exact M.near_mul (ih he.1 i) h1
    | sDiv => exact he.elim

end

/-- A polynomial computed with reals is the polynomial computed with extended reals. -/
theorem evalC_num {c : Cfg} {n : Nat} (ρ : V → Nat → ℝ) (e : Expr ℝ V) (he : e.Poly id) (i : Nat) :
    (e.map XReal.num).evalC c n (fun v i => XReal.num (ρ v i)) i = XReal.num (e.evalC c n ρ i) := by
  obtain ⟨r1, r2, r3, r4, r5, r6⟩ := real_ops
  induction e generalizing i with
  | var v => rfl
  | const s =>
    simp only [Expr.evalC, Expr.map, constC, r6, XReal.lit_num]
    split <;> rfl
  | neg e ih =>
    simp only [Expr.evalC, Expr.map, r5, ih he, XReal.neg_num]
  | abs e => exact he.elim
  | fn φ e => exact he.elim
  | hypot3 => exact he.elim
  | bin o e₁ e₂ ih₁ ih₂ =>
    cases o with
    | add => simp only [Expr.evalC, Expr.map, Bin.runC, addC, r1, ih₁ he.1, ih₂ he.2, XReal.add_num]
    | sub =>
      simp only [Expr.evalC, Expr.map, Bin.runC, subC, r1, r2, r5, ih₁ he.1, ih₂ he.2, XReal.add_num,
        XReal.sub_num, XReal.neg_num]
      split <;> rfl
    | mul =>
      simp only [Expr.evalC, Expr.map, Bin.runC, mulC, bFin, r1, r3, ih₁ he.1, ih₂ he.2,
        XReal.add_num, XReal.mul_num]
      split
      · unfold fin1
        split <;> rfl
      · unfold fin2
        simp only [r1, XReal.add_num]
        split
        · rfl
        · split <;> rfl
    | div => exact he.elim
    | atan2 => exact he.elim
    | hypot => exact he.elim
  | sbin o e s ih =>
    cases o with
    | sDiv => exact he.elim
    | divS =>
      have hs : s ≠ 0 := he.2
      simp only [Expr.evalC, Expr.map, SBin.runC, r3, r4, r6, ih he.1, XReal.lit_num,
        XReal.div_num hs, XReal.mul_num]
    | _ =>
      simp only [Expr.evalC, Expr.map, SBin.runC, addSC, sSubC, r1, r3, r5, ih he, XReal.add_num,
        XReal.neg_num, XReal.mul_num]
      try (split <;> rfl)

theorem Expr.Poly.dom {o : Nat} {e : Expr ℝ V} (he : e.Poly id) (x : V → ℝ) :
    e.Dom o x ∧ e.Regular x := by
  induction e with
  | var v => exact ⟨trivial, trivial⟩
  | const s => exact ⟨trivial, trivial⟩
  | neg e ih => exact ih he
  | abs e => exact he.elim
  | fn φ e => exact he.elim
  | hypot3 => exact he.elim
  | bin b e₁ e₂ ih₁ ih₂ =>
    cases b with
    | add => exact ⟨⟨(ih₁ he.1).1, (ih₂ he.2).1, trivial⟩, (ih₁ he.1).2, (ih₂ he.2).2, trivial⟩
    | sub => exact ⟨⟨(ih₁ he.1).1, (ih₂ he.2).1, trivial⟩, (ih₁ he.1).2, (ih₂ he.2).2, trivial⟩
    | mul => exact ⟨⟨(ih₁ he.1).1, (ih₂ he.2).1, trivial⟩, (ih₁ he.1).2, (ih₂ he.2).2, trivial⟩
    | div => exact he.elim
    | atan2 => exact he.elim
    | hypot => exact he.elim
  | sbin b e s ih =>
    cases b with
    | sDiv => exact he.elim
    | divS => exact ⟨⟨(ih he.1).1, he.2⟩, (ih he.1).2⟩
    | _ => exact ⟨⟨(ih he).1, trivial⟩, (ih he).2⟩

theorem Expr.Poly.map {val : α → ℝ} {e : Expr α V} (he : e.Poly val) : (e.map val).Poly id := by
  induction e with
  | var v => trivial
  | const s => trivial
  | neg e ih => exact ih he
  | abs e => exact he.elim
  | fn φ e => exact he.elim
  | hypot3 => exact he.elim
  | bin b e₁ e₂ ih₁ ih₂ =>
    cases b with
    | add => exact ⟨ih₁ he.1, ih₂ he.2⟩
    | sub => exact ⟨ih₁ he.1, ih₂ he.2⟩
    | mul => exact ⟨ih₁ he.1, ih₂ he.2⟩
    | div => exact he.elim
    | atan2 => exact he.elim
    | hypot => exact he.elim
  | sbin b e s ih =>
    cases b with
    | sDiv => exact he.elim
    | divS => exact ⟨ih he.1, he.2⟩
    | _ => exact ih he

theorem Expr.Poly.majorant {e : Expr ℝ V} (he : e.Poly id) : e.majorant.Poly id := by
  induction e with
  | var v => trivial
  | const s => trivial
  | neg e ih => exact ih he
  | abs e => exact he.elim
  | fn φ e => exact he.elim
  | hypot3 => exact he.elim
  | bin b e₁ e₂ ih₁ ih₂ =>
    cases b with
    | add => exact ⟨ih₁ he.1, ih₂ he.2⟩
    | sub => exact ⟨ih₁ he.1, ih₂ he.2⟩
    | mul => exact ⟨ih₁ he.1, ih₂ he.2⟩
    | div => exact he.elim
    | atan2 => exact he.elim
    | hypot => exact he.elim
  | sbin b e s ih =>
    cases b with
    | sDiv => exact he.elim
    | divS => exact ⟨ih he.1, abs_ne_zero.2 he.2⟩
    | _ => exact ih he

/-- The jet a polynomial has in exact arithmetic. -/
theorem poly_jet {c : Cfg} (hc : c.order = 1 ∨ c.order = 2) {n : Nat} (hf : Fits c n)
    (ρ : V → Nat → ℝ) (J : V → Jet ℝ) (hρ : ∀ v, Shows c n (obj c n (ρ v)) (J v)) (e : Expr ℝ V)
    (he : e.Poly id) (F : V → (Fin n → ℝ) → ℝ) (x : Fin n → ℝ)
    (hF : ∀ v, IsJet c.order n (F v) x (J v)) :
    ∃ K : Jet ℝ, IsJet c.order n (fun y => e.den fun v => F v y) x K ∧
      K.Eqv c.order n (jetOf n (e.evalC c n ρ)) := by
  have hs : ∀ v, Shows c n (obj c n fun i => XReal.num (ρ v i)) (J v).lift := fun v => by
    have hu := (hρ v).unique (shows_obj hc hf (ρ v))
    refine shows_of_obj hc hf ?_ (fun i hi => ?_) (fun h2 i j hij hj => ?_) (fun h2 i j hi hj => ?_)
    · exact congrArg XReal.num hu.1.symm
    · exact congrArg XReal.num (hu.2.1 i hi).symm
    · have := hu.2.2 h2 i j (by omega) hj
      simp only [jetOf, if_pos hij] at this
      exact congrArg XReal.num this.symm
    · exact congrArg XReal.num ((hρ v).sym h2 hi hj)
  obtain ⟨r, h1, -, h3, -⟩ := core hc hf _ J hs e
  obtain ⟨-, K, hK, -, hj, -⟩ := h3 (he.dom _).1
  refine ⟨K, hj F x hF (he.dom (o := 0) _).2, ?_⟩
  rw [evalDD_obj hc hf] at h1
  injection h1 with h1
  subst h1
  have hu := hK.unique (shows_obj hc hf _)
  simp only [Jet.Eqv, Jet.lift, jetOf, evalC_num ρ e he, XReal.num_inj] at hu ⊢
  refine ⟨hu.1, hu.2.1, fun h2 i j hi hj => ?_⟩
  have := hu.2.2 h2 i j hi hj
  split at this <;> split <;> first | omega | (rw [XReal.num_inj] at this; exact this)

theorem one_add_pow_le {u : ℝ} (hu : 0 ≤ u) (k : Nat) (hk : k * u < 1) :
    (1 + u) ^ k - 1 ≤ k * u / (1 - k * u) := by
  have h : ∀ k : Nat, k * u < 1 → (1 + u) ^ k * (1 - k * u) ≤ 1 := by
    intro k
    induction k with
    | zero => simp
    | succ k ih =>
      intro hk
      push_cast at hk ⊢
      have h1 := ih (by nlinarith)
      have h2 : (0 : ℝ) ≤ (1 + u) ^ k := by positivity
      have h3 : (1 + u) * (1 - (k + 1) * u) ≤ 1 - k * u := by
        have : (0 : ℝ) ≤ k := Nat.cast_nonneg k
        nlinarith [mul_nonneg this (mul_nonneg hu hu), mul_nonneg hu hu]
      calc (1 + u) ^ (k + 1) * (1 - (k + 1) * u) = (1 + u) ^ k * ((1 + u) * (1 - (k + 1) * u)) := by ring
        _ ≤ (1 + u) ^ k * (1 - k * u) := mul_le_mul_of_nonneg_left h3 h2
        _ ≤ 1 := h1
  have h0 : 0 < 1 - k * u := by linarith
  rw [le_div_iff₀ h0]
  have := h k hk
  linarith

end HJ
