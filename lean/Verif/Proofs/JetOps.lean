import Verif.Spec.Exact
import Verif.Proofs.EvalC

/-!
# Evaluation on jets in exact arithmetic (helper lemmas)

`Expr.jet` is the calculus of jets by the chain and product rules; `evalDD_jet` says that the code
computes it when the scalar arithmetic is that of a field.
-/

namespace HJ

variable {K V : Type}

theorem Jet.ext' {J L : Jet K} (hf : J.f = L.f) (hg : ∀ i, J.g i = L.g i)
    (hh : ∀ i j, J.h i j = L.h i j) : J = L := by
  cases J; cases L
  simp only [Jet.mk.injEq]
  exact ⟨hf, funext hg, funext fun i => funext (hh i)⟩

theorem Shows.cells {c : Cfg} (hc : c.order = 1 ∨ c.order = 2) {n : Nat} {x : DD K} {J : Jet K}
    (h : Shows c n x J) : Fits c n ∧ ∃ a, x = obj c n a ∧ a 0 = J.f ∧ (∀ i < n, a (1 + i) = J.g i) ∧
      (c.order = 2 → ∀ i j, i ≤ j → j < n → a (pos n i j) = J.h i j) := by
  obtain ⟨hf, a, rfl⟩ := h.wf.eq_obj hc
  have hu := h.unique (shows_obj hc hf a)
  refine ⟨hf, a, rfl, hu.1.symm, fun i hi => (hu.2.1 i hi).symm, fun h2 i j hij hj => ?_⟩
  have := hu.2.2 h2 i j (by omega) hj
  simpa [jetOf, hij] using this.symm

section
variable [Field K]

/-- Coefficients of a unary operation. -/
def Jet.un (u : DD.U K) (J : Jet K) : Jet K :=
  ⟨u.f, fun i => u.da * J.g i, fun i j => u.da * J.h i j + u.daa * J.g i * J.g j⟩

/-- Value and derivative coefficients of a binary operation. -/
structure Co (K : Type) where
  f : K
  da : K
  db : K
  daa : K
  dab : K
  dbb : K

/-- Second-order chain rule for two operands. -/
def Jet.bi (u : Co K) (J L : Jet K) : Jet K :=
  ⟨u.f, fun i => u.da * J.g i + u.db * L.g i, fun i j => u.da * J.h i j + u.db * L.h i j +
    (u.daa * J.g i * J.g j + u.dab * (J.g i * L.g j + L.g i * J.g j) + u.dbb * L.g i * L.g j)⟩

/-- Second-order chain rule for three operands. -/
def Jet.tr (f da db dc daa dab dac dbb dbc dcc : K) (J L M : Jet K) : Jet K :=
  ⟨f, fun i => da * J.g i + db * L.g i + dc * M.g i,
    fun i j => da * J.h i j + db * L.h i j + dc * M.h i j +
    (daa * J.g i * J.g j + dbb * L.g i * L.g j + dcc * M.g i * M.g j +
      dab * (J.g i * L.g j + L.g i * J.g j) + dac * (J.g i * M.g j + M.g i * J.g j) +
      dbc * (L.g i * M.g j + M.g i * L.g j))⟩

variable [CMath K]

/-- Coefficients the code uses for the operations with two operands. -/
def Bin.co : Bin → K → K → Co K
  | .add => fun a b => ⟨a + b, 1, 1, 0, 0, 0⟩
  | .sub => fun a b => ⟨a - b, 1, -1, 0, 0, 0⟩
  | .mul => fun a b => ⟨a * b, b, a, 0, 1, 0⟩
  | .div => fun a b => ⟨a * (1 / b), 1 / b, -a / b ^ 2, 0, -1 / b ^ 2, 2 * a / b ^ 3⟩
  | .atan2 => fun a b =>
      let t := a * a + b * b
      ⟨CMath.atan2 a b, b / t, -a / t, -a / t * (b / t) * 2, -a / t * (-a / t) - b / t * (b / t),
        -(-a / t * (b / t) * 2)⟩
  | .hypot => fun a b =>
      let f := CMath.hypot a b
      ⟨f, a / f, b / f, b * b / (f * f * f), -a * b / (f * f * f), a * a / (f * f * f)⟩

/-- Coefficients the code uses for the operations with a scalar operand. -/
def SBin.co : SBin → K → K → DD.U K
  | .addS => fun a s => ⟨a + s, 1, 0⟩
  | .sAdd => fun a s => ⟨a + s, 1, 0⟩
  | .subS => fun a s => ⟨a + -s, 1, 0⟩
  | .sSub => fun a s => ⟨-a + s, -1, 0⟩
  | .mulS => fun a s => ⟨a * s, s, 0⟩
  | .sMul => fun a s => ⟨a * s, s, 0⟩
  | .divS => fun a s => ⟨a * (1 / s), 1 / s, 0⟩
  | .sDiv => fun a s => ⟨s / a, -s / a ^ 2, 2 * s / a ^ 3⟩

/-- `hypot` of three operands. -/
def Jet.hypot3 (J L M : Jet K) : Jet K :=
  let f := CMath.hypot3 J.f L.f M.f
  let q := f * f * f
  Jet.tr f (J.f / f) (L.f / f) (M.f / f) ((L.f * L.f + M.f * M.f) / q) (-(J.f * L.f) / q)
    (-(J.f * M.f) / q) ((J.f * J.f + M.f * M.f) / q) (-(L.f * M.f) / q)
    ((J.f * J.f + L.f * L.f) / q) J L M

/-- Evaluate an expression on jets. -/
def Expr.jet (J : V → Jet K) : Expr K V → Jet K
  | .var v => J v
  | .const s => ⟨s, fun _ => 0, fun _ _ => 0⟩
  | .neg e => (e.jet J).un ⟨-(e.jet J).f, -1, 0⟩
  | .abs e => if Cmp.ltB (e.jet J).f (0 : K) then (e.jet J).un ⟨-(e.jet J).f, -1, 0⟩ else e.jet J
  | .fn φ e => (e.jet J).un (φ.coef (e.jet J).f)
  | .bin o e₁ e₂ => Jet.bi (o.co (e₁.jet J).f (e₂.jet J).f) (e₁.jet J) (e₂.jet J)
  | .sbin o e s => (e.jet J).un (o.co (e.jet J).f s)
  | .hypot3 e₁ e₂ e₃ => Jet.hypot3 (e₁.jet J) (e₂.jet J) (e₃.jet J)

variable [Exact K]

attribute [local simp] Exact.add Exact.sub Exact.mul Exact.div Exact.neg Exact.lit Exact.powN

section
variable {c : Cfg} {n : Nat}

theorem Jet.un_sym (u : DD.U K) {J : Jet K} (hs : ∀ i j, i < n → j < n → J.h i j = J.h j i)
    {i j : Nat} (hi : i < n) (hj : j < n) : (J.un u).h i j = (J.un u).h j i := by
  simp only [Jet.un, hs i j hi hj]; ring

theorem shows_un (hc : c.order = 1 ∨ c.order = 2) {a : Nat → K} {J : Jet K}
    (h : Shows c n (obj c n a) J) (u : DD.U K) :
    Shows c n (obj c n (uFin c n a u.f u.da u.daa)) (J.un u) := by
  obtain ⟨hf, a', e, h0, h1, h2⟩ := h.cells hc
  have hu := h.unique (shows_obj hc hf a)
  apply shows_of_obj hc hf
  · rw [uFin_zero]; rfl
  · intro i hi
    rw [uFin_succ _ _ _ _ hi]
    simp [Jet.un, hu.2.1 i hi, jetOf]
  · intro ho i j hij hj
    rw [uFin_pos ho _ _ _ _ hij hj]
    have hi : i < n := by omega
    simp [Jet.un, hu.2.1 i hi, hu.2.1 j hj, hu.2.2 ho i j hi hj, jetOf, hij]
  · intro ho i j hi hj
    exact Jet.un_sym u (fun i j hi hj => h.sym ho hi hj) hi hj

theorem shows_lin (hc : c.order = 1 ∨ c.order = 2) {a : Nat → K} {J : Jet K}
    (h : Shows c n (obj c n a) J) (f s : K) {b : Nat → K} (h0 : b 0 = f)
    (hb : ∀ k, k ≠ 0 → b k = s * a k) :
    Shows c n (obj c n b) (J.un ⟨f, s, 0⟩) := by
  have hf := (h.cells hc).1
  have hu := h.unique (shows_obj hc hf a)
  apply shows_of_obj hc hf
  · exact h0
  · intro i hi
    rw [hb _ (by omega)]
    simp [Jet.un, hu.2.1 i hi, jetOf]
  · intro ho i j hij hj
    have := pos_gt n i j
    rw [hb _ (by omega)]
    simp [Jet.un, hu.2.2 ho i j (by omega) hj, jetOf, hij]
  · intro ho i j hi hj
    exact Jet.un_sym _ (fun i j hi hj => h.sym ho hi hj) hi hj

theorem shows_bi (hc : c.order = 1 ∨ c.order = 2) {a b : Nat → K} {J L : Jet K}
    (ha : Shows c n (obj c n a) J) (hb : Shows c n (obj c n b) L) (u : Co K) {d : Nat → K}
    (h0 : d 0 = u.f) (h1 : ∀ i < n, d (1 + i) = u.da * a (1 + i) + u.db * b (1 + i))
    (h2 : c.order = 2 → ∀ i j, i ≤ j → j < n → d (pos n i j) =
      u.da * a (pos n i j) + u.db * b (pos n i j) + (u.daa * a (1 + i) * a (1 + j) +
        u.dab * (a (1 + i) * b (1 + j) + b (1 + i) * a (1 + j)) + u.dbb * b (1 + i) * b (1 + j))) :
    Shows c n (obj c n d) (Jet.bi u J L) := by
  have hf := (ha.cells hc).1
  have hu := ha.unique (shows_obj hc hf a)
  have hw := hb.unique (shows_obj hc hf b)
  apply shows_of_obj hc hf
  · exact h0
  · intro i hi
    rw [h1 i hi]
    simp [Jet.bi, hu.2.1 i hi, hw.2.1 i hi, jetOf]
  · intro ho i j hij hj
    have hi : i < n := by omega
    rw [h2 ho i j hij hj]
    simp [Jet.bi, hu.2.1 i hi, hu.2.1 j hj, hu.2.2 ho i j hi hj, hw.2.1 i hi, hw.2.1 j hj,
      hw.2.2 ho i j hi hj, jetOf, hij]
  · intro ho i j hi hj
    simp only [Jet.bi, ha.sym ho hi hj, hb.sym ho hi hj]
    ring

theorem Bin.shows (hc : c.order = 1 ∨ c.order = 2) (o : Bin) {a b : Nat → K} {J L : Jet K}
    (ha : Shows c n (obj c n a) J) (hb : Shows c n (obj c n b) L) :
    Shows c n (obj c n (o.runC c n a b)) (Jet.bi (o.co J.f L.f) J L) := by
  have hf := (ha.cells hc).1
  have e1 : J.f = a 0 := (ha.unique (shows_obj hc hf a)).1
  have e2 : L.f = b 0 := (hb.unique (shows_obj hc hf b)).1
  rw [e1, e2]
  cases o
  · apply shows_bi hc ha hb
    · simp [Bin.runC, Bin.co, addC]
    · intro i hi; simp [Bin.runC, Bin.co, addC]
    · intro _ i j hij hj; simp [Bin.runC, Bin.co, addC]
  · apply shows_bi hc ha hb
    · simp [Bin.runC, Bin.co, subC]
    · intro i hi; simp [Bin.runC, Bin.co, subC]
    · intro _ i j hij hj
      have := pos_gt n i j
      simp [Bin.runC, Bin.co, subC, show pos n i j ≠ 0 by omega]
  · apply shows_bi hc ha hb
    · simp [Bin.runC, Bin.co, mulC, bFin_zero]
    · intro i hi; simp only [Bin.runC, Bin.co, mulC]; rw [bFin_succ _ _ _ _ hi]; simp
    · intro h2 i j hij hj
      simp only [Bin.runC, Bin.co, mulC]; rw [bFin_pos h2 _ _ _ hij hj]; simp; ring
  · apply shows_bi hc ha hb
    · simp [Bin.runC, Bin.co, divC, bFin_zero]
    · intro i hi; simp only [Bin.runC, Bin.co, divC]; rw [bFin_succ _ _ _ _ hi]; simp
    · intro h2 i j hij hj
      simp only [Bin.runC, Bin.co, divC]; rw [bFin_pos h2 _ _ _ hij hj]; simp; ring
  · apply shows_bi hc ha hb
    · simp [Bin.runC, Bin.co, atan2C, bin5, bFin_zero]
    · intro i hi; simp only [Bin.runC, Bin.co, atan2C, bin5]; rw [bFin_succ _ _ _ _ hi]; simp
    · intro h2 i j hij hj
      simp only [Bin.runC, Bin.co, atan2C, bin5]; rw [bFin_pos h2 _ _ _ hij hj]; simp; ring
  · apply shows_bi hc ha hb
    · simp [Bin.runC, Bin.co, hypotC, bin5, bFin_zero]
    · intro i hi; simp only [Bin.runC, Bin.co, hypotC, bin5]; rw [bFin_succ _ _ _ _ hi]; simp
    · intro h2 i j hij hj
      simp only [Bin.runC, Bin.co, hypotC, bin5]; rw [bFin_pos h2 _ _ _ hij hj]; simp; ring

theorem SBin.shows (hc : c.order = 1 ∨ c.order = 2) (o : SBin) {a : Nat → K} {J : Jet K}
    (ha : Shows c n (obj c n a) J) (s : K) :
    Shows c n (obj c n (o.runC c n a s)) (J.un (o.co J.f s)) := by
  have hf := (ha.cells hc).1
  have e1 : J.f = a 0 := (ha.unique (shows_obj hc hf a)).1
  rw [e1]
  cases o
  · exact shows_lin hc ha _ _ (by simp [SBin.runC, addSC]) (fun k hk => by simp [SBin.runC, addSC, hk])
  · exact shows_lin hc ha _ _ (by simp [SBin.runC, addSC]) (fun k hk => by simp [SBin.runC, addSC, hk])
  · exact shows_lin hc ha _ _ (by simp [SBin.runC, addSC]) (fun k hk => by simp [SBin.runC, addSC, hk])
  · exact shows_lin hc ha _ _ (by simp [SBin.runC, sSubC]) (fun k hk => by simp [SBin.runC, sSubC, hk])
  · exact shows_lin hc ha _ _ (by simp [SBin.runC]) (fun k hk => by simp [SBin.runC, mul_comm])
  · exact shows_lin hc ha _ _ (by simp [SBin.runC]) (fun k hk => by simp [SBin.runC, mul_comm])
  · exact shows_lin hc ha _ _ (by simp [SBin.runC]) (fun k hk => by simp [SBin.runC, mul_comm])
  · have := shows_un hc ha (SBin.sDiv.co (a 0) s)
    simpa [SBin.co, SBin.runC] using this

theorem neg_shows (hc : c.order = 1 ∨ c.order = 2) {a : Nat → K} {J : Jet K}
    (ha : Shows c n (obj c n a) J) :
    Shows c n (obj c n fun k => -ₛ a k) (J.un ⟨-J.f, -1, 0⟩) := by
  have hf := (ha.cells hc).1
  have e1 : J.f = a 0 := (ha.unique (shows_obj hc hf a)).1
  rw [e1]
  exact shows_lin hc ha _ _ (by simp) (fun k _ => by simp)

theorem hypot3_shows (hc : c.order = 1 ∨ c.order = 2) {a b d : Nat → K} {J L M : Jet K}
    (ha : Shows c n (obj c n a) J) (hb : Shows c n (obj c n b) L) (hd : Shows c n (obj c n d) M) :
    Shows c n (obj c n (hypot3C c n a b d)) (Jet.hypot3 J L M) := by
  have hf := (ha.cells hc).1
  have hu := ha.unique (shows_obj hc hf a)
  have hw := hb.unique (shows_obj hc hf b)
  have hz := hd.unique (shows_obj hc hf d)
  apply shows_of_obj hc hf
  · simp [hypot3C, bFin_zero, Jet.hypot3, Jet.tr, hu.1, hw.1, hz.1, jetOf]
  · intro i hi
    simp only [hypot3C]
    rw [bFin_succ _ _ _ _ hi]
    simp [tLin, Jet.hypot3, Jet.tr, hu.1, hw.1, hz.1, hu.2.1 i hi, hw.2.1 i hi, hz.2.1 i hi, jetOf]
  · intro ho i j hij hj
    have hi : i < n := by omega
    simp only [hypot3C]
    rw [bFin_pos ho _ _ _ hij hj]
    simp [tLin, tQuad, Jet.hypot3, Jet.tr, hu.1, hw.1, hz.1, hu.2.1 i hi, hw.2.1 i hi, hz.2.1 i hi,
      hu.2.1 j hj, hw.2.1 j hj, hz.2.1 j hj, hu.2.2 ho i j hi hj, hw.2.2 ho i j hi hj,
      hz.2.2 ho i j hi hj, jetOf, hij]
    ring
  · intro ho i j hi hj
    simp only [Jet.hypot3, Jet.tr, ha.sym ho hi hj, hb.sym ho hi hj, hd.sym ho hi hj]
    ring

theorem evalC_shows (hc : c.order = 1 ∨ c.order = 2) (hf : Fits c n) {ρ : V → Nat → K}
    {J : V → Jet K} (h : ∀ v, Shows c n (obj c n (ρ v)) (J v)) (e : Expr K V) :
    Shows c n (obj c n (e.evalC c n ρ)) (e.jet J) := by
  induction e with
  | var v => exact h v
  | const s =>
    apply shows_of_obj hc hf
    · rfl
    · intro i hi; simp [Expr.evalC, constC, Expr.jet]
    · intro _ i j hij hj
      have := pos_gt n i j
      simp [Expr.evalC, constC, Expr.jet, show pos n i j ≠ 0 by omega]
    · intro _ i j _ _; rfl
  | neg e ih => exact neg_shows hc ih
  | abs e ih =>
    have e1 : (e.jet J).f = e.evalC c n ρ 0 := (ih.unique (shows_obj hc hf _)).1
    simp only [Expr.evalC, Expr.jet]
    unfold absC
    rw [e1]
    simp only [Exact.lit, Int.cast_zero]
    by_cases hl : Cmp.ltB (e.evalC c n ρ 0) (0 : K) = true
    · simp only [hl, if_true]
      rw [← e1]; exact neg_shows hc ih
    · simp only [hl]; exact ih
  | fn φ e ih =>
    have e1 : (e.jet J).f = e.evalC c n ρ 0 := (ih.unique (shows_obj hc hf _)).1
    simp only [Expr.evalC, Expr.jet, Fn.runC]
    rw [e1]
    exact shows_un hc ih _
  | bin o e₁ e₂ ih₁ ih₂ => exact o.shows hc ih₁ ih₂
  | sbin o e s ih => exact o.shows hc ih s
  | hypot3 e₁ e₂ e₃ ih₁ ih₂ ih₃ => exact hypot3_shows hc ih₁ ih₂ ih₃

theorem evalDD_jet (hc : c.order = 1 ∨ c.order = 2) (hf : Fits c n) {ρ : V → DD K}
    {J : V → Jet K} (h : ∀ v, Shows c n (ρ v) (J v)) (e : Expr K V) :
    ∃ r, e.evalDD c n ρ = .ok r ∧ Shows c n r (e.jet J) := by
  have : ∃ a : V → Nat → K, ρ = fun v => obj c n (a v) :=
    ⟨fun v => ((h v).wf.eq_obj hc).2.choose, funext fun v => ((h v).wf.eq_obj hc).2.choose_spec⟩
  obtain ⟨a, rfl⟩ := this
  exact ⟨_, evalDD_obj hc hf a e, evalC_shows hc hf h e⟩

end

/-! ### Renumbering -/

/-- The jet whose variable `i` is variable `σ i` of `J`, or does not occur in it. -/
def Jet.pull (σ : Nat → Option Nat) (J : Jet K) : Jet K :=
  ⟨J.f, fun i => match σ i with
    | some k => J.g k
    | none => 0,
   fun i j => match σ i, σ j with
    | some k, some l => J.h k l
    | _, _ => 0⟩

omit [Exact K] in
theorem jet_pull (σ : Nat → Option Nat) (J : V → Jet K) (e : Expr K V) :
    e.jet (fun v => (J v).pull σ) = (e.jet J).pull σ := by
  have hun : ∀ (u : DD.U K) (J : Jet K), (J.pull σ).un u = (J.un u).pull σ := by
    intro u J
    apply Jet.ext'
    · rfl
    · intro i; simp only [Jet.un, Jet.pull]; cases σ i <;> simp
    · intro i j; simp only [Jet.un, Jet.pull]; cases σ i <;> cases σ j <;> simp
  induction e with
  | var v => rfl
  | const s =>
    apply Jet.ext'
    · rfl
    · intro i; simp only [Expr.jet, Jet.pull]; cases σ i <;> rfl
    · intro i j; simp only [Expr.jet, Jet.pull]; cases σ i <;> cases σ j <;> rfl
  | neg e ih => simp only [Expr.jet, ih]; exact hun _ _
  | abs e ih =>
    simp only [Expr.jet, ih]
    rw [hun]
    have : ((e.jet J).pull σ).f = (e.jet J).f := rfl
    rw [this]
    split <;> rfl
  | fn φ e ih => simp only [Expr.jet, ih]; exact hun _ _
  | bin o e₁ e₂ ih₁ ih₂ =>
    simp only [Expr.jet, ih₁, ih₂]
    apply Jet.ext'
    · rfl
    · intro i; simp only [Jet.bi, Jet.pull]; cases σ i <;> simp
    · intro i j; simp only [Jet.bi, Jet.pull]; cases σ i <;> cases σ j <;> simp
  | sbin o e s ih => simp only [Expr.jet, ih]; exact hun _ _
  | hypot3 e₁ e₂ e₃ ih₁ ih₂ ih₃ =>
    simp only [Expr.jet, ih₁, ih₂, ih₃]
    apply Jet.ext'
    · rfl
    · intro i; simp only [Jet.hypot3, Jet.tr, Jet.pull]; cases σ i <;> simp
    · intro i j; simp only [Jet.hypot3, Jet.tr, Jet.pull]; cases σ i <;> cases σ j <;> simp

end

end HJ
