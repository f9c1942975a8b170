import Verif.Props.Pad
import Verif.Proofs.JetOps
import Verif.Spec.RealMath

/-!
# C34, C35: unused variables and the numbering of variables
-/

namespace HJ

variable {K V : Type} [Field K] [CMath K] [Exact K] {c : Cfg} {n m : Nat}

theorem padR_pull (J : Jet K) : J.padR n = J.pull fun i => if i < n then some i else none := by
  apply Jet.ext'
  · rfl
  · intro i
    simp only [Jet.padR, Jet.pull, Exact.lit, Int.cast_zero]
    by_cases h : i < n <;> simp [h]
  · intro i j
    simp only [Jet.padR, Jet.pull, Exact.lit, Int.cast_zero]
    by_cases h : i < n <;> by_cases h' : j < n <;> simp [h, h']

theorem padL_pull (k : Nat) (J : Jet K) :
    J.padL k = J.pull fun i => if k ≤ i then some (i - k) else none := by
  apply Jet.ext'
  · rfl
  · intro i
    simp only [Jet.padL, Jet.pull, Exact.lit, Int.cast_zero]
    by_cases h : k ≤ i <;> simp [h]
  · intro i j
    simp only [Jet.padL, Jet.pull, Exact.lit, Int.cast_zero]
    by_cases h : k ≤ i <;> by_cases h' : k ≤ j <;> simp [h, h']

/-- **C34, `pad_right`.**  Padding all operands of an expression and evaluating gives the same
object as evaluating and padding the result, in exact arithmetic. -/
theorem C34_pad_right_commutes (hv : c.Valid) (hd : c.tsize = -1) (hnm : n ≤ m) {ρ ρ' : V → DD K}
    (hρ : ∀ v, WF c n (ρ v)) (hρ' : ∀ v, (ρ v).padRight c m = .ok (ρ' v)) (e : Expr K V) :
    ∃ r r', e.evalDD c n ρ = .ok r ∧ e.evalDD c m ρ' = .ok r' ∧ r.padRight c m = .ok r' := by
  have hc := hv.order
  choose J hJ using fun v => (hρ v).shows hc
  obtain ⟨r, h1, h2⟩ := evalDD_jet hc (Or.inl hd) hJ e
  have hJ' : ∀ v, Shows c m (ρ' v) ((J v).padR n) := by
    intro v
    obtain ⟨y, hy, hs⟩ := (C12_pad_right hv hd (hJ v) m).1 hnm
    rw [hρ' v] at hy
    cases hy; exact hs
  obtain ⟨r', h3, h4⟩ := evalDD_jet hc (Or.inl hd) hJ' e
  obtain ⟨y, hy, hs⟩ := (C12_pad_right hv hd h2 m).1 hnm
  refine ⟨r, r', h1, h3, ?_⟩
  rw [hy]
  congr 1
  refine hs.ext hc h4 ?_
  have : e.jet (fun v => (J v).padR n) = (e.jet J).padR n := by
    simp only [padR_pull]; exact jet_pull _ _ _
  rw [this]
  exact ⟨rfl, fun _ _ => rfl, fun _ _ _ _ _ => rfl⟩

/-- **C34, `pad_left`.** -/
theorem C34_pad_left_commutes (hv : c.Valid) (hd : c.tsize = -1) (hnm : n ≤ m) {ρ ρ' : V → DD K}
    (hρ : ∀ v, WF c n (ρ v)) (hρ' : ∀ v, (ρ v).padLeft c m = .ok (ρ' v)) (e : Expr K V) :
    ∃ r r', e.evalDD c n ρ = .ok r ∧ e.evalDD c m ρ' = .ok r' ∧ r.padLeft c m = .ok r' := by
  have hc := hv.order
  choose J hJ using fun v => (hρ v).shows hc
  obtain ⟨r, h1, h2⟩ := evalDD_jet hc (Or.inl hd) hJ e
  have hJ' : ∀ v, Shows c m (ρ' v) ((J v).padL (m - n)) := by
    intro v
    obtain ⟨y, hy, hs⟩ := (C13_pad_left hv hd (hJ v) m).1 hnm
    rw [hρ' v] at hy
    cases hy; exact hs
  obtain ⟨r', h3, h4⟩ := evalDD_jet hc (Or.inl hd) hJ' e
  obtain ⟨y, hy, hs⟩ := (C13_pad_left hv hd h2 m).1 hnm
  refine ⟨r, r', h1, h3, ?_⟩
  rw [hy]
  congr 1
  refine hs.ext hc h4 ?_
  have : e.jet (fun v => (J v).padL (m - n)) = (e.jet J).padL (m - n) := by
    simp only [padL_pull]; exact jet_pull _ _ _
  rw [this]
  exact ⟨rfl, fun _ _ => rfl, fun _ _ _ _ _ => rfl⟩

/-- `sin(x) * x` on the padded sample jet. -/
example : ∃ x' r r', exR.padRight exDyn2 3 = .ok x' ∧
    (Expr.bin .mul (.fn .sin (.var ())) (.var ())).evalDD exDyn2 2 (fun _ : Unit => exR) = .ok r ∧
    (Expr.bin .mul (.fn .sin (.var ())) (.var ())).evalDD exDyn2 3 (fun _ : Unit => x') = .ok r' ∧
    r.padRight exDyn2 3 = .ok r' := by
  obtain ⟨J, hJ⟩ := exR_wf.shows exDyn2_valid.order
  obtain ⟨x', h, _⟩ := (C12_pad_right exDyn2_valid rfl hJ 3).1 (by decide)
  obtain ⟨r, r', h1, h2, h3⟩ := C34_pad_right_commutes exDyn2_valid rfl (n := 2) (m := 3) (by decide)
    (ρ := fun _ : Unit => exR) (ρ' := fun _ => x') (fun _ => exR_wf) (fun _ => h)
    (.bin .mul (.fn .sin (.var ())) (.var ()))
  exact ⟨x', r, r', h, h1, h2, h3⟩

/-- The jet whose variable `i` is variable `σ i` of `J`. -/
def Jet.renum {α : Type} (σ : Nat → Nat) (J : Jet α) : Jet α :=
  ⟨J.f, fun i => J.g (σ i), fun i j => J.h (σ i) (σ j)⟩

/-- **C35.**  If the operands are renumbered, so is the result and nothing else changes, in exact
arithmetic.  `σ` is any map of variable numbers, in particular a permutation. -/
theorem C35_renumbering (hv : c.Valid) (hn : c.tsize = -1 ∨ c.tsize = n)
    (hm : c.tsize = -1 ∨ c.tsize = m) (σ : Nat → Nat) {ρ ρ' : V → DD K} {J : V → Jet K}
    (hρ : ∀ v, Shows c n (ρ v) (J v)) (hρ' : ∀ v, Shows c m (ρ' v) ((J v).renum σ))
    (e : Expr K V) :
    ∃ r r' R, e.evalDD c n ρ = .ok r ∧ e.evalDD c m ρ' = .ok r' ∧ Shows c n r R ∧
      Shows c m r' (R.renum σ) := by
  obtain ⟨r, h1, h2⟩ := evalDD_jet hv.order hn hρ e
  obtain ⟨r', h3, h4⟩ := evalDD_jet hv.order hm hρ' e
  refine ⟨r, r', _, h1, h3, h2, ?_⟩
  have h : ∀ J : Jet K, J.renum σ = J.pull fun i => some (σ i) := fun _ => rfl
  simp only [h] at h4 ⊢
  rwa [jet_pull] at h4

/-- The sample jet with its variables exchanged. -/
def exRswap : DD ℝ := ⟨2, [some 10, some 30, some 20, some 60, some 50, some 40]⟩

theorem exR_shows : Shows exDyn2 2 exR ⟨10, fun i => if i = 0 then 20 else 30,
    fun i j => if i + j = 0 then 40 else if i + j = 1 then 50 else 60⟩ where
  wf := exR_wf
  size := rfl
  f := rfl
  g := by intro i hi; interval_cases i <;> rfl
  h := by intro _ i j hi hj; interval_cases i <;> interval_cases j <;> rfl

theorem exRswap_shows : Shows exDyn2 2 exRswap (Jet.renum (fun i => 1 - i)
    ⟨10, fun i => if i = 0 then 20 else 30,
    fun i j => if i + j = 0 then 40 else if i + j = 1 then 50 else 60⟩) where
  wf := ⟨Or.inl rfl, rfl, rfl, by simp [exRswap]⟩
  size := rfl
  f := rfl
  g := by intro i hi; interval_cases i <;> rfl
  h := by intro _ i j hi hj; interval_cases i <;> interval_cases j <;> rfl

example (e : Expr ℝ Unit) : ∃ r r', e.evalDD exDyn2 2 (fun _ => exR) = .ok r ∧
    e.evalDD exDyn2 2 (fun _ => exRswap) = .ok r' ∧ r'.g exDyn2 0 = r.g exDyn2 1 ∧
    r'.h exDyn2 1 1 = r.h exDyn2 0 0 := by
  obtain ⟨r, r', R, h1, h2, h3, h4⟩ := C35_renumbering exDyn2_valid (n := 2) (m := 2) (Or.inl rfl)
    (Or.inl rfl) (fun i => 1 - i) (fun _ : Unit => exR_shows) (fun _ => exRswap_shows) e
  refine ⟨r, r', h1, h2, ?_, ?_⟩
  · exact (h4.g 0 (by decide)).trans (h3.g 1 (by decide)).symm
  · exact (h4.h rfl 1 1 (by decide) (by decide)).trans (h3.h rfl 0 0 (by decide) (by decide)).symm

end HJ
