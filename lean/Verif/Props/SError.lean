import Verif.Spec.SError
import Verif.Props.Error
import Verif.Props.Sparse

/-!
# C58 for sparse scalars: rounding errors of polynomials
-/

namespace HJ

open SMap

variable {V α : Type} {n : Nat}

section
variable [CMath α] {u : ℝ}

/-- One derivative of a binary operation. -/
theorem polyNear_step (M : RelErr α u) {k kd l ld m : Nat} {o o' : Option α} {da db : α}
    {a A b B d D f F : ℝ} (h : Near u k (M.val (o.getD (Arith.lit 0))) a A)
    (hd : Near u kd (M.val da) d D) (g : Near u l (M.val (o'.getD (Arith.lit 0))) b B)
    (hb : Near u ld (M.val db) f F) (h1 : k + kd ≤ m) (h2 : l + ld ≤ m) :
    Near u (m + 2) (M.val ((step (fun v w => w +ₛ db *ₛ v) (o.map (· *ₛ da)) o').getD (Arith.lit 0)))
      (a * d + f * b) (A * D + F * B) := by
  have hu := M.nonneg
  have h0 : M.val (Arith.lit 0) = 0 := by simpa using M.lit 0 (by simp)
  cases o with
  | none =>
    simp only [Option.getD_none, h0] at h
    have e1 := (h.mul hd).mono hu h1
    rw [zero_mul] at e1
    cases o' with
    | none =>
      simp only [Option.getD_none, h0] at g
      have e2 := (hb.mul g).mono hu (by omega : ld + l ≤ m)
      rw [mul_zero] at e2
      have := (e1.add e2).mono hu (by omega : m ≤ m + 2)
      rw [add_zero] at this
      simpa [step, h0] using this
    | some v =>
      simp only [Option.getD_some] at g
      have e2 := (M.near_mul hb g).mono hu (by omega : ld + l + 1 ≤ m + 1)
      have e1 : Near u (m + 1) (M.val (Arith.lit 0)) (a * d) (A * D) := by
        rw [h0]; exact e1.mono hu (by omega)
      simpa [step] using M.near_add e1 e2
  | some w =>
    simp only [Option.getD_some] at h
    have e1 := (M.near_mul h hd).mono hu (by omega : k + kd + 1 ≤ m + 1)
    cases o' with
    | none =>
      simp only [Option.getD_none, h0] at g
      have e2 := (hb.mul g).mono hu (by omega : ld + l ≤ m + 1)
      rw [mul_zero] at e2
      have := (e1.add e2).mono hu (by omega : m + 1 ≤ m + 2)
      rw [add_zero] at this
      simpa [step] using this
    | some v =>
      simp only [Option.getD_some] at g
      have e2 := (M.near_mul hb g).mono hu (by omega : ld + l + 1 ≤ m + 1)
      simpa [step] using M.near_add e1 e2

/-- What is stored by the names `nm` is near the numbers `a`. -/
def PolyNear (M : RelErr α u) (nm : Fin n → String) (k : Nat) (p : SVal α) (a A : Nat → ℝ) : Prop :=
  Near u k (M.val p.1) (a 0) (A 0) ∧
    ∀ i : Fin n, Near u k (M.val ((p.2 (nm i)).getD (Arith.lit 0))) (a (1 + i)) (A (1 + i))

theorem PolyNear.neg {M : RelErr α u} {nm : Fin n → String} {k : Nat} {p : SVal α} {a A : Nat → ℝ}
    (h : PolyNear M nm k p a A) : PolyNear M nm k p.neg (fun i => -a i) A := by
  refine ⟨M.near_neg h.1, fun i => ?_⟩
  have := h.2 i
  simp only [SVal.neg]
  cases hp : p.2 (nm i) with
  | none =>
    rw [hp] at this
    simp only [Option.getD_none, Option.map_none, M.lit 0 (by simp)] at this ⊢
    simpa using this.neg
  | some v =>
    rw [hp] at this
    exact M.near_neg this

theorem PolyNear.un {M : RelErr α u} {nm : Fin n → String} {k l : Nat} {p : SVal α} {a A : Nat → ℝ} {s : α}
    {b B : ℝ} (h : PolyNear M nm k p a A) (g : Near u l (M.val s) b B) :
    PolyNear M nm (k + l + 1) (p.un (p.1 *ₛ s) s) (fun i => a i * b) fun i => A i * B := by
  refine ⟨M.near_mul h.1 g, fun i => ?_⟩
  have := h.2 i
  simp only [SVal.un]
  cases hp : p.2 (nm i) with
  | none =>
    rw [hp] at this
    simp only [Option.getD_none, Option.map_none, M.lit 0 (by simp)] at this ⊢
    simpa using (this.mul g).mono M.nonneg (Nat.le_succ _)
  | some v =>
    rw [hp] at this
    exact M.near_mul this g

theorem PolyNear.mono {M : RelErr α u} {nm : Fin n → String} {k l : Nat} {p : SVal α} {a A : Nat → ℝ}
    (h : PolyNear M nm k p a A) (hk : k ≤ l) : PolyNear M nm l p a A :=
  ⟨h.1.mono M.nonneg hk, fun i => (h.2 i).mono M.nonneg hk⟩

/-- Adding a number. -/
theorem PolyNear.shift {M : RelErr α u} {nm : Fin n → String} {k : Nat} {p : SVal α} {a A : Nat → ℝ} {s : α}
    {b B : ℝ} (h : PolyNear M nm k p a A) (g : Near u k (M.val s) b B) :
    PolyNear M nm (k + 1) (p.1 +ₛ s, p.2) (addSC a b) (addSC A B) := by
  obtain ⟨r1, -⟩ := real_ops
  refine ⟨?_, fun i => ?_⟩
  · simp only [addSC, r1, if_true]
    exact M.near_add h.1 g
  · simp only [addSC, if_neg (show ¬ 1 + (i : Nat) = 0 by omega)]
    exact (h.2 i).mono M.nonneg (Nat.le_succ _)

/-- The configuration of the exact computation: first order. -/
abbrev polyCfg : Cfg := exDyn1

/-- Every stored derivative of a polynomial is near the derivative computed exactly. -/
theorem evalV_near (M : RelErr α u) (nm : Fin n → String) (ρ : V → SVal α) (a A : V → Nat → ℝ)
    (hρ : ∀ v, PolyNear M nm 0 (ρ v) (a v) (A v)) (e : Expr α V) (he : e.Poly M.val) :
    PolyNear M nm e.sparseRoundings (e.evalV ρ) ((e.map M.val).evalC polyCfg n a)
      ((e.map M.val).majorant.evalC polyCfg n A) := by
  have hu := M.nonneg
  obtain ⟨r1, r2, r3, r4, r5, r6⟩ := real_ops
  have h0 : M.val (Arith.lit 0) = 0 := by simpa using M.lit 0 (by simp)
  have one : Near u 0 (M.val (Arith.lit 1)) 1 1 := by
    have := Near.exact (u := u) (M.val (Arith.lit 1))
    rw [M.lit 1 (by simp)] at this ⊢
    simpa using this
  have mone : Near u 0 (M.val (Arith.lit (-1))) (-1) 1 := by
    have := Near.exact (u := u) (M.val (Arith.lit (-1)))
    rw [M.lit (-1) (by simp)] at this ⊢
    simpa using this
  induction e with
  | var v => exact hρ v
  | const s =>
    refine ⟨Near.exact _, fun i => ?_⟩
    simp only [Expr.evalV, Expr.evalC, Expr.map, Expr.majorant, constC, r6, Expr.sparseRoundings,
      if_neg (show ¬ 1 + (i : Nat) = 0 by omega), Option.getD_none, h0]
    simpa using Near.zero (u := u) 0
  | neg e ih =>
    simp only [Expr.evalV, Expr.evalC, Expr.map, Expr.majorant, r5]
    exact (ih he).neg
  | abs e => exact he.elim
  | fn φ e => exact he.elim
  | hypot3 => exact he.elim
  | bin o e₁ e₂ ih₁ ih₂ =>
    cases o with
    | add =>
      have h1 := (ih₁ he.1).mono (le_max_left _ e₂.sparseRoundings)
      have h2 := (ih₂ he.2).mono (le_max_right e₁.sparseRoundings _)
      refine ⟨?_, fun i => ?_⟩
      · simp only [Expr.evalC, Expr.map, Expr.majorant, Bin.runC, addC, r1]
        exact (M.near_add h1.1 h2.1).mono hu (Nat.le_succ _)
      · simp only [Expr.evalC, Expr.map, Expr.majorant, Bin.runC, addC, r1]
        have := polyNear_step M (h1.2 i) one (h2.2 i) one le_rfl le_rfl
        simp only [mul_one, one_mul] at this
        exact this
    | sub =>
      have h1 := (ih₁ he.1).mono (le_max_left _ e₂.sparseRoundings)
      have h2 := (ih₂ he.2).mono (le_max_right e₁.sparseRoundings _)
      refine ⟨?_, fun i => ?_⟩
      · simp only [Expr.evalC, Expr.map, Expr.majorant, Bin.runC, addC, subC, r1, r2, if_true]
        exact (M.near_sub h1.1 h2.1).mono hu (Nat.le_succ _)
      · simp only [Expr.evalC, Expr.map, Expr.majorant, Bin.runC, addC, subC, r1, r5,
          if_neg (show ¬ 1 + (i : Nat) = 0 by omega)]
        have := polyNear_step M (h1.2 i) one (h2.2 i) mone le_rfl le_rfl
        simp only [mul_one, one_mul, neg_mul] at this
        exact this
    | mul =>
      have h1 := ih₁ he.1
      have h2 := ih₂ he.2
      refine ⟨?_, fun i => ?_⟩
      · exact (M.near_mul h1.1 h2.1).mono hu (Nat.le_succ _)
      · have := polyNear_step M (m := e₁.sparseRoundings + e₂.sparseRoundings) (h1.2 i) h2.1 (h2.2 i) h1.1
          le_rfl (by omega)
        have cell : ∀ b d : Nat → ℝ, mulC polyCfg n b d (1 + i) = b (1 + i) * d 0 + b 0 * d (1 + i) := by
          intro b d
          have : mulC polyCfg n b d (1 + i) = fin1 (b 0 *ₛ d 0) (fun k => d 0 *ₛ b k +ₛ b 0 *ₛ d k)
            (1 + i) :=
            rfl
          rw [this, fin1, if_neg (show ¬ 1 + (i : Nat) = 0 by omega), r1, r3, r3, mul_comm (d 0)]
        simp only [Expr.evalC, Expr.map, Expr.majorant, Bin.runC, cell]
        exact this
    | div => exact he.elim
    | atan2 => exact he.elim
    | hypot => exact he.elim
  | sbin o e s ih =>
    have hs : ∀ k, Near u k (M.val s) (M.val s) |M.val s| := fun k => (Near.exact _).mono hu
      (Nat.zero_le k)
    cases o with
    | addS => exact (ih he).shift (hs _)
    | sAdd => exact (ih he).shift (hs _)
    | subS => exact (ih he).shift (M.near_neg (hs _))
    | sSub => exact (ih he).neg.shift (hs _)
    | mulS => exact (ih he).un (hs 0)
    | sMul => exact (ih he).un (hs 0)
    | divS =>
      have h1 : Near u 1 (M.val (Arith.lit 1 ÷ₛ s)) (((1 : Int) : ℝ) / M.val s)
          (((1 : Int) : ℝ) / |M.val s|) := by
        have h0 : Near u 0 (((1 : Int) : ℝ) / M.val s) (((1 : Int) : ℝ) / M.val s)
            (((1 : Int) : ℝ) / |M.val s|) := by
          have := Near.exact (u := u) (((1 : Int) : ℝ) / M.val s)
          rwa [abs_div, show |((1 : Int) : ℝ)| = ((1 : Int) : ℝ) by simp] at this
        refine h0.round hu ?_
        have := M.div (Arith.lit 1) s he.2
        rwa [M.lit 1 (by simp)] at this
      simp only [Expr.evalV, SBin.val, Expr.evalC, Expr.map, Expr.majorant, SBin.runC, r3, r4, r6]
      exact (ih he.1).un h1
    | sDiv => exact he.elim

/-- **C58, sparse scalars.**  A polynomial evaluated on sparse variables of different names: the value and every
derivative are off by at most `(1 + u)^k - 1` times the value and the same derivative of the majorant at `|x|`,
however the hash tables are iterated. -/
theorem C58_sparse (M : RelErr α u) {ord : Order α} (ho : ord.Ok) {ov : Fin n → Order α}
    (hov : ∀ i, (ov i).Ok) {name : Fin n → String} (hn : Function.Injective name) (e : Expr α (Fin n))
    (he : e.Poly M.val) (x : Fin n → α) :
    let F := fun y : Fin n → ℝ => (e.map M.val).den y
    let G := fun y : Fin n → ℝ => (e.map M.val).majorant.den y
    let p := fun i => M.val (x i)
    let q := fun i => |M.val (x i)|
    let γ := (1 + u) ^ e.sparseRoundings - 1
    ∃ r, e.evalSS ord (fun i => SS.var (ov i) (name i) (x i)) = .ok r ∧
      (∃ s, r.f = .ok s ∧ |M.val s - F p| ≤ γ * G q) ∧
      ∀ i, |M.val (r.d (name i)) - partialD F p i| ≤ γ * partialD G q i := by
  intro F G p q γ
  have hc : polyCfg.order = 1 ∨ polyCfg.order = 2 := Or.inl rfl
  have hfit : Fits polyCfg n := Or.inl rfl
  have h0 : M.val (Arith.lit 0) = 0 := by simpa using M.lit 0 (by simp)
  have h1 : M.val (Arith.lit 1) = 1 := by simpa using M.lit 1 (by simp)
  let pv : Fin n → SVal α := fun i => (x i, fun k => if k = name i then some (Arith.lit 1) else none)
  have hpv : ∀ i, SIsV (SS.var (ov i) (name i) (x i)) (pv i) := fun i => SS.is_var (hov i) _ _
  let cell : (Fin n → ℝ) → Fin n → Nat → ℝ := fun y i => varC i (y i)
  have hjet : ∀ y : Fin n → ℝ, ∀ E : Expr ℝ (Fin n), E.Poly id →
      E.den y = E.evalC polyCfg n (cell y) 0 ∧ ∀ i : Fin n, partialD (fun z => E.den z) y i =
        E.evalC polyCfg n (cell y) (1 + i) := by
    intro y E hE
    obtain ⟨K, hK, hKe⟩ := poly_jet hc hfit (cell y) (fun i => jetOf n (cell y i))
      (fun i => shows_obj hc hfit _) E hE (fun i z => z i) y (fun i => (isJet_var 1 y i).congr (by
        refine ⟨by simp [varJet, jetOf, cell, varC], fun k hk => ?_, fun h => absurd h (by norm_num)⟩
        simp only [varJet, jetOf, cell, varC, if_neg (show ¬ 1 + k = 0 by omega)]
        by_cases h : k = i
        · simp [h, Exact.lit]
        · simp [h, Exact.lit]))
    refine ⟨?_, fun i => ?_⟩
    · have := hK.value
      rw [hKe.1] at this
      exact this
    · unfold partialD
      rw [hK.grad.fderiv, lin_single, hKe.2.1 i i.2]
      rfl
  obtain ⟨r, hr, hs⟩ := evalSS_spec ho _ pv hpv e
  have near : ∀ v, PolyNear M name 0 (pv v) (cell p v) (cell q v) := fun v => by
    refine ⟨Near.exact _, fun i => ?_⟩
    simp only [pv, cell, varC, if_neg (show ¬ 1 + (i : Nat) = 0 by omega)]
    by_cases h : i = v
    · subst h
      simpa [Exact.lit, h1] using Near.exact (u := u) 1
    · have h2 : ¬ 1 + (i : Nat) = 1 + v := fun k => h (Fin.ext (by omega))
      have h3 : ¬ name i = name v := fun k => h (hn k)
      simp only [if_neg h2, if_neg h3, Option.getD_none, h0, Exact.lit]
      simpa using Near.zero (u := u) 0
  have hw := evalV_near (n := n) M name pv (cell p) (cell q) near e he
  obtain ⟨f1, f2⟩ := hjet p (e.map M.val) he.map
  obtain ⟨g1, g2⟩ := hjet q (e.map M.val).majorant he.map.majorant
  refine ⟨r, hr, ⟨_, SS.f_ok hs, ?_⟩, fun i => ?_⟩
  · show |_ - (e.map M.val).den p| ≤ γ * (e.map M.val).majorant.den q
    rw [f1, g1]
    exact hw.1.err
  · rw [SS.d_eq hs]
    show |_ - partialD (fun z => (e.map M.val).den z) p i| ≤
      γ * partialD (fun z => (e.map M.val).majorant.den z) q i
    rw [f2, g2]
    exact (hw.2 i).err

end

section
attribute [-instance] instArithRounded

theorem double_bound {k : Nat} (hk : k < 2 ^ 53) {a b : ℝ}
    (h : |a| ≤ ((1 + 1 / 2 ^ 53 : ℝ) ^ k - 1) * b) : |a| ≤ (k : ℝ) / (2 ^ 53 - k) * b := by
  have hk' : (k : ℝ) < 2 ^ 53 := by exact_mod_cast hk
  have hγ : (1 + 1 / 2 ^ 53 : ℝ) ^ k - 1 ≤ (k : ℝ) / (2 ^ 53 - k) := by
    have h1 := one_add_pow_le (u := 1 / 2 ^ 53) (by norm_num) k (by linarith)
    refine h1.trans (le_of_eq ?_)
    have : (2 ^ 53 - k : ℝ) ≠ 0 := by linarith
    have h2 : (1 - (k : ℝ) * (1 / 2 ^ 53)) = (2 ^ 53 - k) / 2 ^ 53 := by ring
    rw [h2]
    field_simp
  rcases Nat.eq_zero_or_pos k with hz | hz
  · subst hz
    simpa using h
  · have hpos : (0 : ℝ) < (1 + 1 / 2 ^ 53 : ℝ) ^ k - 1 := by
      have := one_lt_pow₀ (by norm_num : (1 : ℝ) < 1 + 1 / 2 ^ 53) hz.ne'
      linarith
    have hb : 0 ≤ b := nonneg_of_mul_nonneg_right ((abs_nonneg a).trans h) hpos
    exact h.trans (mul_le_mul_of_nonneg_right hγ hb)

/-- **C58, sparse scalars.**  Doubles rounded to nearest, `u = 2⁻⁵³`: the derivatives are off by at most
`k u / (1 - k u)` times the derivatives of the majorant at `|x|`. -/
theorem C58_sparse_double {rnd : ℚ → ℚ} (h : Nearest rnd) (m : CMath (Rounded rnd))
    (hm : m.toArith = instArithRounded rnd) {ord : Order (Rounded rnd)} (ho : ord.Ok)
    {ov : Fin n → Order (Rounded rnd)} (hov : ∀ i, (ov i).Ok) {name : Fin n → String}
    (hn : Function.Injective name) (e : Expr (Rounded rnd) (Fin n)) (he : e.Poly fun s => (s.val : ℝ))
    (x : Fin n → Rounded rnd) (hk : e.sparseRoundings < 2 ^ 53) :
    let F := fun y : Fin n → ℝ => (e.map fun s => (s.val : ℝ)).den y
    let G := fun y : Fin n → ℝ => (e.map fun s => (s.val : ℝ)).majorant.den y
    let p := fun i => ((x i).val : ℝ)
    let q := fun i => |((x i).val : ℝ)|
    let γ := (e.sparseRoundings : ℝ) / (2 ^ 53 - e.sparseRoundings)
    ∃ r, e.evalSS ord (fun i => SS.var (ov i) (name i) (x i)) = .ok r ∧
      (∃ s, r.f = .ok s ∧ |(s.val : ℝ) - F p| ≤ γ * G q) ∧
      ∀ i, |((r.d (name i)).val : ℝ) - partialD F p i| ≤ γ * partialD G q i := by
  intro F G p q γ
  obtain ⟨r, h1, ⟨s, h2, h3⟩, h4⟩ := C58_sparse (roundedErr h m hm) ho hov hn e he x
  exact ⟨r, h1, ⟨s, h2, double_bound hk h3⟩, fun i => double_bound hk (h4 i)⟩

end

/-! ### A concrete case -/

/-- `(a + 3 b) a - b` in sparse doubles: seven roundings. -/
example : ∃ r : SS (Rounded nearest),
    @Expr.evalSS _ _ (exLib nearest) exRev
      (fun i : Fin 2 => SS.var exFwd (![("a" : String), "b"] i) (![⟨1 / 3⟩, ⟨-7⟩] i))
        (exPoly nearest) = .ok r ∧
    |((r.d "a").val : ℝ) - partialD (fun y : Fin 2 → ℝ => (y 0 + y 1 * 3) * y 0 - y 1)
        (fun i => (((![⟨1 / 3⟩, ⟨-7⟩] : Fin 2 → Rounded nearest) i).val : ℝ)) 0| ≤
      (7 : ℝ) / (2 ^ 53 - 7) * partialD (fun y : Fin 2 → ℝ => (y 0 + y 1 * 3) * y 0 + y 1)
        (fun i => |(((![⟨1 / 3⟩, ⟨-7⟩] : Fin 2 → Rounded nearest) i).val : ℝ)|) 0 := by
  obtain ⟨r, h1, -, h2⟩ := C58_sparse_double nearest_spec (exLib nearest) rfl exRev_ok
    (fun _ => exFwd_ok)
    (name := ![("a" : String), "b"]) (by
      intro i j h
      fin_cases i <;> fin_cases j <;> simp at h ⊢)
    (exPoly nearest) (by simp [exPoly, Expr.Poly]) ![⟨1 / 3⟩, ⟨-7⟩]
      (by simp [exPoly, Expr.sparseRoundings])
  refine ⟨r, h1, ?_⟩
  have := h2 0
  simpa [exPoly, Expr.sparseRoundings, Expr.map, Expr.den, Expr.majorant, Bin.den, SBin.den] using this

/-- `C58_sparse` itself, for any arithmetic with relative error `2⁻⁵³`. -/
example : ∃ r : SS (Rounded nearest), @Expr.evalSS _ _ (exLib nearest) exFwd
    (fun i : Fin 2 => SS.var exRev (![("a" : String), "b"] i) (![⟨1 / 3⟩, ⟨-7⟩] i))
      (exPoly nearest) = .ok r := by
  let _ := exLib nearest
  obtain ⟨r, h, -⟩ := C58_sparse (roundedErr nearest_spec (exLib nearest) rfl) exFwd_ok
    (fun _ => exRev_ok)
    (name := ![("a" : String), "b"]) (by
      intro i j h
      fin_cases i <;> fin_cases j <;> simp at h ⊢)
    (exPoly nearest) (by simp [exPoly, Expr.Poly]) ![⟨1 / 3⟩, ⟨-7⟩]
  exact ⟨r, h⟩

end HJ
