import Verif.Model.Custom
import Verif.Props.Mixed

/-!
# C88: functions that user code adds to the library
-/

namespace HJ

open Filter Topology

section
variable {W : Type} (w : W) (e : Expr ℝ Unit) (ν : W → ℝ)

theorem Expr.at_den : (e.at w).den ν = e.of1 (ν w) := by
  unfold Expr.of1
  induction e with
  | _ => simp_all [Expr.at, Expr.den]

theorem Expr.at_dom {o : Nat} (h : e.Dom o fun _ => ν w) : (e.at w).Dom o ν := by
  have hd := fun e => Expr.at_den w e ν
  unfold Expr.of1 at hd
  induction e with
  | _ => simp_all [Expr.at, Expr.Dom]

theorem Expr.at_regular (h : e.Regular fun _ => ν w) : (e.at w).Regular ν := by
  have hd := fun e => Expr.at_den w e ν
  unfold Expr.of1 at hd
  induction e with
  | _ => simp_all [Expr.at, Expr.Regular]

theorem Expr.at_powPos (h : e.PowPos fun _ => ν w) : (e.at w).PowPos ν := by
  have hd := fun e => Expr.at_den w e ν
  unfold Expr.of1 at hd
  induction e with
  | fn φ e ih => cases φ <;> simp_all [Expr.at, Expr.PowPos]
  | bin o e₁ e₂ ih₁ ih₂ => cases o <;> simp_all [Expr.at, Expr.PowPos]
  | _ => simp_all [Expr.at, Expr.PowPos]

theorem Expr.at_numOk (h : e.NumOk fun _ => ν w) : (e.at w).NumOk ν :=
  ⟨e.at_dom w ν h.1, e.at_regular w ν h.2.1, e.at_powPos w ν h.2.2⟩

end

section
variable {V W : Type} [DecidableEq V] [DecidableEq W] {order n : Nat} {x : Fin n → ℝ}

/-- The calls lead from `σ` to `σ'`. -/
def Leads (order : Nat) (x : Fin n → ℝ) (l : List (MCall ℝ V W)) (σ σ' : MixSt n V W) : Prop :=
  ∀ rest q' σ'', (script (MCall ℝ V W) (Answer ℝ)).Ends (MixCall order x) rest σ' q' σ'' →
    (script (MCall ℝ V W) (Answer ℝ)).Ends (MixCall order x) (l ++ rest) σ q' σ''

theorem Leads.nil (σ : MixSt n V W) : Leads order x [] σ σ := fun _ _ _ h => h

theorem Leads.cons {k : MCall ℝ V W} {l : List (MCall ℝ V W)} {a : Answer ℝ} {σ σ₁ σ' : MixSt n V W}
    (hk : MixCall order x k σ a σ₁) (h : Leads order x l σ₁ σ') : Leads order x (k :: l) σ σ' :=
  fun rest _ _ hr => .call rfl hk (h rest _ _ hr)

theorem Leads.append {l l' : List (MCall ℝ V W)} {σ σ₁ σ' : MixSt n V W} (h : Leads order x l σ σ₁)
    (h' : Leads order x l' σ₁ σ') : Leads order x (l ++ l') σ σ' := fun rest _ _ hr => by
  rw [List.append_assoc]
  exact h _ _ _ (h' _ _ _ hr)

theorem leads_flatMap {ι : Type} (f : ι → List (MCall ℝ V W)) (P : (ι → Prop) → MixSt n V W → Prop)
    (l : List ι)
      (step : ∀ D σ, ∀ i ∈ l, P D σ → ∃ σ', Leads order x (f i) σ σ' ∧ P (fun k => k = i ∨ D k) σ')
    (D : ι → Prop) (σ : MixSt n V W) (h : P D σ) :
    ∃ σ', Leads order x (l.flatMap f) σ σ' ∧ P (fun k => k ∈ l ∨ D k) σ' := by
  induction l generalizing D σ with
  | nil => exact ⟨σ, .nil σ, by simpa using h⟩
  | cons i l ih =>
    obtain ⟨σ₁, h1, h2⟩ := step D σ i (by simp) h
    obtain ⟨σ', h3, h4⟩ := ih (fun D σ i hi => step D σ i (by simp [hi])) _ σ₁ h2
    refine ⟨σ', h1.append h3, ?_⟩
    convert h4 using 2 with k
    simp only [List.mem_cons, eq_iff_iff]
    tauto

end

section
variable {V : Type} [DecidableEq V] {order n : Nat} {x : Fin n → ℝ} {a r : V}
  {σ₀ σ : MixSt n V CustomVar} {z : CustomVar → ℝ} {J T : Jet ℝ} {S : CustomVar → Prop} {G : Nat → Prop}
  {H : Nat → Nat → Prop}

/-- What holds while `custom` runs: all jets but `r` are unchanged, the numbers in `S` are those of `z`, and
the jet of `r` has the value of `T`, and its derivatives where `G` and `H` hold. -/
structure CustomInv (order : Nat) (x : Fin n → ℝ) (r : V) (σ₀ : MixSt n V CustomVar) (z : CustomVar → ℝ)
    (T : Jet ℝ) (S : CustomVar → Prop) (G : Nat → Prop) (H : Nat → Nat → Prop)
    (σ : MixSt n V CustomVar) : Prop where
  keep : ∀ v ≠ r, ∀ y, σ.fns y v = σ₀.fns y v
  nums : ∀ t, S t → σ.nums t = z t
  jet : ∃ K : Jet ℝ, IsJet order n (fun y => σ.fns y r) x K ∧ K.f = T.f ∧
    (∀ i < n, G i → K.g i = T.g i) ∧
    (order = 2 → ∀ i < n, ∀ j < n, H i j → K.h i j = T.h i j)

theorem CustomInv.fns (h : CustomInv order x r σ₀ z T S G H σ) (har : a ≠ r) :
    (fun y => σ.fns y a) = fun y => σ₀.fns y a := funext fun y => h.keep a har y

theorem numOk_mul (ν : CustomVar → ℝ) (s t : CustomVar) :
    (Expr.bin .mul (.var s) (.var t) : Expr ℝ CustomVar).NumOk ν :=
  ⟨⟨trivial, trivial, trivial⟩, ⟨trivial, trivial, trivial⟩, trivial, trivial⟩

theorem leads_value {φ φ₁ : Expr ℝ Unit} (har : a ≠ r) {K : Jet ℝ}
    (hK : IsJet order n (fun y => σ₀.fns y r) x K) (hφ : φ.NumOk fun _ => σ₀.fns x a)
    (hφ₁ : φ₁.NumOk fun _ => σ₀.fns x a) (hx : z .x = σ₀.fns x a) (hd : z .d = φ₁.of1 (σ₀.fns x a))
    (hT : T.f = φ.of1 (σ₀.fns x a)) :
    ∃ σ', Leads order x (customValue φ φ₁ a r) σ₀ σ' ∧
      CustomInv order x r σ₀ z T (fun t => t = .x ∨ t = .d) (fun _ => False) (fun _ _ => False) σ' := by
  refine
    ⟨_, .cons (.f CustomVar.x a σ₀)
      (.cons (.compute CustomVar.y (φ.at CustomVar.x) _ (φ.at_numOk _ _ ?_)) (.cons
    (.compute CustomVar.d (φ₁.at CustomVar.x) _ (φ₁.at_numOk _ _ ?_))
      (.cons (.setF r (.inr CustomVar.y) _) (.nil _)))), ?_, ?_, ?_⟩
  · simpa [setVal] using hφ
  · simpa [setVal] using hφ₁
  · intro v hv y
    simp [setVal, hv]
  · rintro t (rfl | rfl)
    · simp [setVal, hx]
    · simp [setVal, hd, Expr.at_den]
  · refine ⟨K.putF (φ.of1 (σ₀.fns x a)), ?_, hT.symm, fun _ _ h => h.elim, fun _ _ _ _ _ h => h.elim⟩
    simpa [setVal, scalarOf, Expr.at_den] using hK.withF (φ.of1 (σ₀.fns x a))

theorem leads_grad (har : a ≠ r) (hJ : IsJet order n (fun y => σ₀.fns y a) x J)
    (hS : ∀ t, S t → t = .x ∨ t = .d) (hSd : S .d) (hT : ∀ i < n, T.g i = z .d * J.g i) {i : Nat}
      (hi : i < n)
    (h : CustomInv order x r σ₀ z T S G H σ) :
    ∃ σ', Leads order x (customGrad a r i) σ σ' ∧
      CustomInv order x r σ₀ z T S (fun k => k = i ∨ G k) H σ' := by
  obtain ⟨K, hK, hf, hg, hh⟩ := h.jet
  refine ⟨_, .cons (.g CustomVar.p a ⟨i, hi⟩ σ) (.cons (.compute CustomVar.p _ _ (numOk_mul _ _ _))
    (.cons (.setG r ⟨i, hi⟩ (.inr CustomVar.p) _) (.nil _))), ?_, ?_, ?_⟩
  · intro v hv y
    simp [setVal, hv, h.keep v hv y]
  · intro t ht
    have := h.nums t ht
    rcases hS t ht with rfl | rfl <;> simpa [setVal] using this
  · have e := h.nums .d hSd
    refine ⟨K.putG i (z .d * J.g i), ?_, hf, fun k hk hG => ?_, hh⟩
    · simpa [scalarOf, setVal, Expr.den, Bin.den, h.fns har, hJ.partialD_eq, e] using
        hK.withG ⟨i, hi⟩ (z .d * J.g i)
    by_cases hki : k = i
    · simp [Jet.putG, hki, hT i hi]
    · simpa [Jet.putG, hki] using hg k hk (by tauto)

theorem leads_hess (har : a ≠ r) (hJ : IsJet 2 n (fun y => σ₀.fns y a) x J)
    (hS : ∀ t, S t ↔ t = .x ∨ t = .d ∨ t = .dd)
    (hT : ∀ i < n, ∀ j < n, T.h i j = z .d * J.h i j + z .dd * J.g i * J.g j) {i j : Nat} (hi : i < n)
    (hj : j < n) (h : CustomInv 2 x r σ₀ z T S G H σ) :
    ∃ σ', Leads 2 x (customHess a r i j) σ σ' ∧
      CustomInv 2 x r σ₀ z T S G (fun k l => k = i ∧ l = j ∨ H k l) σ' := by
  obtain ⟨K, hK, hf, hg, hh⟩ := h.jet
  refine
    ⟨_, .cons (.g CustomVar.p a ⟨i, hi⟩ σ)
      (.cons (.g CustomVar.q a ⟨j, hj⟩ _) (.cons (.h CustomVar.s a ⟨i, hi⟩ ⟨j, hj⟩ _ rfl)
    (.cons (.compute CustomVar.s _ _ ⟨?_, ?_, ?_⟩)
      (.cons (.setH r ⟨i, hi⟩ ⟨j, hj⟩ (.inr CustomVar.s) _ rfl) (.nil _))))),
    ?_, ?_, ?_⟩
  · exact ⟨⟨trivial, trivial, trivial⟩, ⟨⟨trivial, trivial, trivial⟩, trivial, trivial⟩, trivial⟩
  · exact ⟨⟨trivial, trivial, trivial⟩, ⟨⟨trivial, trivial, trivial⟩, trivial, trivial⟩, trivial⟩
  · exact ⟨⟨trivial, trivial⟩, ⟨trivial, trivial⟩, trivial⟩
  · intro v hv y
    simp [setVal, hv, h.keep v hv y]
  · intro t ht
    have := h.nums t ht
    rcases (hS t).1 ht with rfl | rfl | rfl <;> simpa [setVal] using this
  · have e1 := h.nums .d ((hS _).2 (by simp))
    have e2 := h.nums .dd ((hS _).2 (by simp))
    refine ⟨K.putH i j (T.h i j), ?_, hf, hg, fun _ k hk l hl hH => ?_⟩
    · rw [hT i hi j hj]
      simpa
        [scalarOf, setVal, Expr.den, Bin.den, h.fns har, hJ.partialD_eq, hJ.partialDD_eq, e1, e2] using
        hK.withH ⟨i, hi⟩ ⟨j, hj⟩ (z .d * J.h i j + z .dd * J.g i * J.g j)
    have hs : T.h i j = T.h j i := by
      rw [hT i hi j hj, hT j hj i hi, hJ.sym ⟨i, hi⟩ ⟨j, hj⟩]
      ring
    by_cases hkl : k = i ∧ l = j ∨ k = j ∧ l = i
    · have e3 : T.h k l = T.h i j := by
        rcases hkl with ⟨rfl, rfl⟩ | ⟨rfl, rfl⟩
        · rfl
        · exact hs.symm
      simp only [Jet.putH, if_pos hkl, e3]
    · simp only [Jet.putH, if_neg hkl]
      exact hh rfl k hk l hl (by tauto)

/-- `custom` makes `r` a jet of `φ(a)`. -/
theorem custom_leads (ho : order = 1 ∨ order = 2) {φ φ₁ φ₂ : Expr ℝ Unit} (har : a ≠ r) {K : Jet ℝ}
    (hJ : IsJet order n (fun y => σ₀.fns y a) x J) (hK : IsJet order n (fun y => σ₀.fns y r) x K)
    (hφ : φ.NumOk fun _ => σ₀.fns x a) (hφ₁ : φ₁.NumOk fun _ => σ₀.fns x a)
    (hφ₂ : order = 2 → φ₂.NumOk fun _ => σ₀.fns x a)
    (h1 : ∀ᶠ s in 𝓝 (σ₀.fns x a), HasDerivAt φ.of1 (φ₁.of1 s) s)
    (h2 : order = 2 → HasDerivAt φ₁.of1 (φ₂.of1 (σ₀.fns x a)) (σ₀.fns x a)) :
    ∃ σ', Leads order x (custom order n φ φ₁ φ₂ a r) σ₀ σ' ∧ (∀ v ≠ r, ∀ y, σ'.fns y v = σ₀.fns y v) ∧
      ∃ L, IsJet order n (fun y => σ'.fns y r) x L ∧ IsJet order n
        (fun y => φ.of1 (σ₀.fns y a)) x L := by
  let z : CustomVar → ℝ := fun
    | .x => σ₀.fns x a
    | .d => φ₁.of1 (σ₀.fns x a)
    | .dd => φ₂.of1 (σ₀.fns x a)
    | _ => 0
  let T := J.comp1 (φ.of1 J.f) (z .d) (z .dd)
  have hT : IsJet order n (fun y => φ.of1 (σ₀.fns y a)) x T :=
    hJ.comp1 (φ := φ.of1) (by
      rw [← hJ.value]
      exact ⟨h1.self_of_nhds, fun h => ⟨φ₁.of1, h1, h2 h⟩⟩)
  obtain ⟨σ₁, l1, i1⟩ := leads_value (z := z) (T := T) har hK hφ hφ₁ rfl rfl (by
    simp [T, Jet.comp1, hJ.value])
  obtain ⟨σ₂, l2, i2⟩ := leads_flatMap (order := order) (x := x) (customGrad a r)
    (fun D => CustomInv order x r σ₀ z T (fun t => t = .x ∨ t = .d) D fun _ _ => False) (List.range n)
    (fun D σ i hi h => leads_grad har hJ (fun _ h => h) (Or.inr rfl) (fun _ _ => rfl)
      (List.mem_range.1 hi) h)
    _ σ₁ i1
  rcases ho with rfl | rfl
  · obtain ⟨L, k1, k2, k3, -⟩ := i2.jet
    refine ⟨σ₂, by simpa [custom] using l1.append l2, i2.keep, L, k1, hT.congr ⟨k2.symm, fun i hi => ?_,
      fun h => absurd h (by norm_num)⟩⟩
    exact (k3 i hi (by simp [hi])).symm
  · let σ₃ : MixSt n V CustomVar := ⟨σ₂.fns, setVal σ₂.nums .dd (φ₂.of1 (σ₀.fns x a))⟩
    have c3 : MixCall 2 x (.compute .dd (φ₂.at .x)) σ₂ .done σ₃ := by
      have hx : σ₂.nums .x = σ₀.fns x a := i2.nums .x (Or.inl rfl)
      have := MixCall.compute (order := 2) (x := x) .dd (φ₂.at .x) σ₂ (φ₂.at_numOk _ _ (by
        rw [hx]; exact hφ₂ rfl))
      rwa [Expr.at_den, hx] at this
    have i3 : CustomInv 2 x r σ₀ z T (fun t => t = .x ∨ t = .d ∨ t = .dd)
        (fun k => k ∈ List.range n ∨ False) (fun _ _ => False) σ₃ :=
      ⟨i2.keep, by
        rintro t (rfl | rfl | rfl)
        · simpa [σ₃, setVal] using i2.nums .x (Or.inl rfl)
        · simpa [σ₃, setVal] using i2.nums .d (Or.inr rfl)
        · simp [σ₃, setVal, z], i2.jet⟩
    obtain ⟨σ₄, l4, i4⟩ := leads_flatMap (order := 2) (x := x)
      (fun i => (List.range' i (n - i)).flatMap (customHess a r i))
      (fun D => CustomInv 2 x r σ₀ z T (fun t => t = .x ∨ t = .d ∨ t = .dd)
        (fun k => k ∈ List.range n ∨ False) fun i j => D i ∧ i ≤ j) (List.range n)
      (fun D σ i hi h => by
        obtain ⟨σ', l5, i5⟩ := leads_flatMap (order := 2) (x := x) (customHess a r i)
          (fun D' => CustomInv 2 x r σ₀ z T (fun t => t = .x ∨ t = .d ∨ t = .dd)
            (fun k => k ∈ List.range n ∨ False) fun k l => k = i ∧ D' l ∨ D k ∧ k ≤ l)
          (List.range' i (n - i)) (fun D' σ j hj h => by
            obtain ⟨σ', l6, i6⟩ := leads_hess har hJ (fun _ => Iff.rfl) (fun _ _ _ _ => rfl)
              (List.mem_range.1 hi) (j := j) (by
                have := List.mem_range.1 hi
                rw [List.mem_range'_1] at hj
                omega) h
            refine ⟨σ', l6, ?_⟩
            convert i6 using 3 with k l
            simp only [eq_iff_iff]
            tauto) (fun _ => False) σ (by
              convert h using 3 with k l
              simp)
        refine ⟨σ', l5, i5.keep, i5.nums, ?_⟩
        obtain ⟨L, k1, k2, k3, k4⟩ := i5.jet
        refine ⟨L, k1, k2, k3, fun h2 k hk l hl hkl => k4 h2 k hk l hl ?_⟩
        rcases hkl with ⟨rfl | hD, hle⟩
        · refine Or.inl ⟨rfl, Or.inl ?_⟩
          rw [List.mem_range'_1]
          omega
        · exact Or.inr ⟨hD, hle⟩) (fun _ => False) σ₃ (by
          convert i3 using 3 with k l
          simp)
    obtain ⟨L, k1, k2, k3, k4⟩ := i4.jet
    refine ⟨σ₄, ?_, i4.keep, L, k1, hT.congr ⟨k2.symm, fun i hi => ?_, fun _ i j hi hj => ?_⟩⟩
    · have := (l1.append l2).append (Leads.cons c3 l4)
      simpa [custom] using this
    · exact (k3 i hi (by simp [hi])).symm
    · have key : ∀ i j, i < n → j < n → i ≤ j → T.h i j = L.h i j := fun i j hi hj hij =>
        (k4 rfl i hi j hj ⟨by simp [hi], hij⟩).symm
      rcases le_total i j with hij | hij
      · exact key i j hi hj hij
      · rw [hT.sym ⟨i, hi⟩ ⟨j, hj⟩, k1.sym ⟨i, hi⟩ ⟨j, hj⟩]
        exact key j i hj hi hij

end

section
variable {V : Type} [DecidableEq V] {c : Cfg} {n : Nat} {x : Fin n → ℝ} {a r : V}

/-- The numbers of `custom` are finitely many. -/
instance : Finite CustomVar :=
  Finite.of_surjective
    (fun i : Fin 7 => (![.x, .y, .d, .dd, .p, .q, .s] : Fin 7 → CustomVar) i) fun t => by
    cases t
    exacts [⟨0, rfl⟩, ⟨1, rfl⟩, ⟨2, rfl⟩, ⟨3, rfl⟩, ⟨4, rfl⟩, ⟨5, rfl⟩, ⟨6, rfl⟩]

/-- Functions with the same jet. -/
theorem Within.of_jets {α : Type} {B : α → ℝ → Prop} {F G : (Fin n → ℝ) → ℝ} {L : Jet ℝ} {o : DD α}
    (hF : IsJet c.order n F x L) (hG : IsJet c.order n G x L)
      (h : Within c B F x o) : Within c B G x o where
  size := h.size
  f := by rw [hG.value, ← hF.value]; exact h.f
  g i := by rw [hG.partialD_eq, ← hF.partialD_eq]; exact h.g i
  h ho i j := by
    have e : partialDD G x i j = partialDD F x i j := by
      rw [ho] at hF hG
      rw [hG.partialDD_eq, hF.partialDD_eq]
    have := h.h ho i j
    simp only [partialDD] at e
    rwa [e]

/-- **C88.**  Let user code apply a function `φ` that the library does not have to a jet `a`: it reads value and
derivatives of `a`, computes `φ`, `φ'` and `φ''` with numbers, and writes the components of `r ≠ a` with
`set_f`, `set_g` and `set_h`.  There are a constant `K`, a precision, a range and a number of calls such that
in every arithmetic of at least that precision and range all calls succeed, and value, gradient and Hessian of
`r` are finite and within `K` times the error of one operation of those of `φ(a)`; all other jets keep their
functions. -/
theorem C88_rate [Finite V] (hv : c.Valid) (hfit : c.tsize = -1 ∨ c.tsize = n) (F : (Fin n → ℝ) → V → ℝ)
    (J : V → Jet ℝ) (hJ : ∀ v, IsJet c.order n (fun y => F y v) x (J v)) (har : a ≠ r)
    (φ φ₁ φ₂ : Expr ℝ Unit) (hφ : φ.NumOk fun _ => F x a) (hφ₁ : φ₁.NumOk fun _ => F x a)
    (hφ₂ : c.order = 2 → φ₂.NumOk fun _ => F x a)
    (h1 : ∀ᶠ s in 𝓝 (F x a), HasDerivAt φ.of1 (φ₁.of1 s) s)
    (h2 : c.order = 2 → HasDerivAt φ₁.of1 (φ₂.of1 (F x a)) (F x a)) :
    ∃ K w₀ B : ℝ, 0 < w₀ ∧ ∃ m : Nat, ∀ (α : Type) [CMath α] (w : Prec) (M : FinErr α w)
      (enc : ℝ → α) (ρ : Store α V) (ν : CustomVar → α), w.rel ≤ w₀ → w.abs ≤ w₀ →
      Set.Icc (-B) B ⊆ w.range → M.ExactCmp → M.fin Arith.half → M.val Arith.half = 1 / 2 →
      (∀ s, M.Sound (enc s) s) →
      (∀ v, SeedBy c n M.Sound (J v) (ρ v)) → (∀ t, M.Sound (ν t) 0) →
      ∃ ρ' ν', (∀ j ≥ m, ((script _ _).map (MCall.map enc) (Answer.map M.val)).run
          (mixLibrary α V CustomVar c n) j (custom c.order n φ φ₁ φ₂ a r) (ρ, ν) = some
            (.ok [], ρ', ν')) ∧
        Within c (fun s t => M.fin s ∧ |M.val s - t| ≤ K * (w.rel + w.abs)) (fun y => φ.of1 (F y a)) x
          (ρ' r) ∧
        ∀ v ≠ r, Within c (fun s t => M.fin s ∧ |M.val s - t| ≤ K * (w.rel + w.abs)) (fun y => F y v) x
          (ρ' v) := by
  obtain ⟨σ', l, keep, L, hL, hL'⟩ := custom_leads (σ₀ := ⟨F, fun _ => 0⟩) hv.order har (hJ a)
    (hJ r) hφ hφ₁
    hφ₂ h1 h2
  have he := l [] [] σ' (.stop rfl)
  rw [List.append_nil] at he
  obtain ⟨K, w₀, B, hw, m, hm⟩ := C87_rate hv hfit (script _ _) J hJ he
  refine ⟨K, w₀, B, hw, m, fun α _ w M enc ρ ν h1 h2 h3 h4 h5 h6 h7 h8 h9 => ?_⟩
  obtain ⟨ρ', ν', k1, k2, -⟩ := hm α w M enc ρ ν h1 h2 h3 h4 h5 h6 h7 h8 h9
  refine ⟨ρ', ν', k1, (k2 r).of_jets hL hL', fun v hne => ?_⟩
  have := k2 v
  rwa [show (fun y => σ'.fns y v) = fun y => F y v from funext fun y => keep v hne y] at this

/-- **C88, formats.**  The same for a formula `e` of the variables, in the formats with `b` bits and exponents
up to `emax`: `a = e; r = φ(a);`. -/
theorem C88_formats [Finite V] (hv : c.Valid) (hfit : c.tsize = -1 ∨ c.tsize = n) (start : V → Fin n ⊕ ℝ)
    (har : a ≠ r) (e : Expr ℝ V) (hD : e.Dom c.order (startVal start x))
      (hR : e.Regular (startVal start x))
    (hP : e.PowPos (startVal start x)) (φ φ₁ φ₂ : Expr ℝ Unit)
    (hφ : φ.NumOk fun _ => e.den (startVal start x)) (hφ₁ : φ₁.NumOk fun _ => e.den (startVal start x))
    (hφ₂ : c.order = 2 → φ₂.NumOk fun _ => e.den (startVal start x))
    (h1 : ∀ᶠ s in 𝓝 (e.den (startVal start x)), HasDerivAt φ.of1 (φ₁.of1 s) s)
    (h2 : c.order = 2 → HasDerivAt φ₁.of1 (φ₂.of1 (e.den (startVal start x)))
      (e.den (startVal start x))) :
    ∃ (K : ℝ) (N m : Nat), ∀ b ≥ N, ∀ emax ≥ N, ∀ ρ,
      Starts c (fun i => IEEE.enc b emax (x i)) (IEEE.enc b emax) start ρ →
      ∃ ρ' ν', (∀ j ≥ m, ((script _ _).map (MCall.map (IEEE.enc b emax)) (Answer.map IEEE.real)).run
          (mixLibrary _ V CustomVar c n) j
          (.act (.assign a (e.map .inl)) :: custom c.order n φ φ₁ φ₂ a r)
          (ρ, fun _ => IEEE.enc b emax 0) = some (.ok [], ρ', ν')) ∧
        Within c (fun s t => s.val.Fin ∧ |s.real - t| ≤ K / 2 ^ b)
          (fun y => φ.of1 (e.den (startVal start y))) x (ρ' r) := by
  have hF : ∀ ν : CustomVar → ℝ, (e.map Sum.inl).map (scalarOf ν) = e := fun ν => by
    rw [Expr.map_fuse]; exact e.map_id_self
  let σ₁ : MixSt n V CustomVar :=
    ⟨fun y => setVal (startVal start y) a (e.den (startVal start y)), fun _ => 0⟩
  have hx : ∀ y, σ₁.fns y a = e.den (startVal start y) := fun y => by simp [σ₁, setVal]
  have hr : ∀ y, σ₁.fns y r = startVal start y r := fun y => by simp [σ₁, setVal, har.symm]
  have c1 : MixCall c.order x (.act (.assign a (e.map .inl))) ⟨startVal start, fun _ => 0⟩ .done σ₁ := by
    have := MixCall.act (order := c.order) (x := x) (.assign a (e.map .inl))
      ⟨startVal start, fun _ : CustomVar => 0⟩ (by simp only [Stmt.map, hF, Stmt.Ok]; exact ⟨hD, hR⟩)
      (by simp only [Stmt.map, hF, Stmt.PowPos]; exact hP)
    simp only [Stmt.map, hF, Stmt.den] at this
    exact this
  obtain ⟨JA, hJA⟩ : ∃ JA, IsJet c.order n (fun y => σ₁.fns y a) x JA := by
    have hval : startVal start x = fun v => (startJet start x v).f :=
      funext fun v => (startJet_isJet c.order start x v).value
    obtain ⟨_, -, -, h, -⟩ := core hv.order hfit (fun v => obj c n (packJet n (startJet start x v).lift))
      (startJet start x) (fun v => shows_packJet hv.order hfit _ fun _ i j _ _ => by
        unfold startJet
        cases start v <;> simp [Jet.lift, varJet]) e
    rw [hval] at hD hR
    obtain ⟨-, J, -, -, hj, -⟩ := h hD
    exact ⟨J, by
      simp only [hx]
      exact hj _ x (startJet_isJet c.order start x) hR⟩
  obtain ⟨σ', l, -, L, hL, hL'⟩ := custom_leads (σ₀ := σ₁) (x := x) (a := a) (r := r) (φ := φ)
    (φ₁ := φ₁) (φ₂ := φ₂) hv.order har hJA
    (by rw [show (fun y => σ₁.fns y r) = fun y => startVal start y r from funext hr]
        exact startJet_isJet c.order start x r)
    (by rwa [hx]) (by rwa [hx]) (by rwa [hx]) (by rwa [hx]) (by rwa [hx])
  have he := (Leads.cons c1 l) [] [] σ' (.stop rfl)
  rw [List.append_nil] at he
  obtain ⟨K, N, m, h⟩ := C87_formats hv hfit (script _ _) start (fun _ => 0) he
  refine ⟨K, N, m, fun b hb emax hemax ρ hρ => ?_⟩
  obtain ⟨ρ', ν', k1, k2, -⟩ := (h b hb emax hemax).2 ρ hρ
  refine ⟨ρ', ν', k1, ?_⟩
  have := (k2 r).of_jets hL hL'
  simpa only [hx] using this

end

/-! ## Example: the logistic function -/

/-- `1 / (1 + exp(-t))`. -/
noncomputable def exLogistic : Expr ℝ Unit := .sbin .sDiv (.sbin .sAdd (.fn .exp (.neg (.var ()))) 1) 1

/-- Its derivative `φ (1 - φ)`. -/
noncomputable def exLogistic₁ : Expr ℝ Unit := .bin .mul exLogistic (.sbin .sSub exLogistic 1)

/-- Its second derivative `φ' (1 - 2 φ)`. -/
noncomputable def exLogistic₂ : Expr ℝ Unit :=
  .bin .mul exLogistic₁ (.sbin .sSub (.sbin .mulS exLogistic 2) 1)

theorem exLogistic_of1 (t : ℝ) : exLogistic.of1 t = 1 / (1 + Real.exp (-t)) := by
  simp [Expr.of1, exLogistic, Expr.den, SBin.den, Fn.den]

theorem exLogistic₁_of1 (t : ℝ) : exLogistic₁.of1 t = exLogistic.of1 t * (1 - exLogistic.of1 t) := rfl

theorem exLogistic₂_of1 (t : ℝ) : exLogistic₂.of1 t = exLogistic₁.of1 t *
    (1 - exLogistic.of1 t * 2) := rfl

theorem exLogistic_hasDerivAt (t : ℝ) : HasDerivAt exLogistic.of1 (exLogistic₁.of1 t) t := by
  have hp : 1 + Real.exp (-t) ≠ 0 := by positivity
  rw [show exLogistic.of1 = fun t => 1 / (1 + Real.exp (-t)) from funext exLogistic_of1, exLogistic₁_of1,
    exLogistic_of1]
  have := (((hasDerivAt_neg t).exp).const_add 1).inv hp
  simp only [one_div]
  refine this.congr_deriv ?_
  field_simp
  ring

theorem exLogistic₁_hasDerivAt (t : ℝ) : HasDerivAt exLogistic₁.of1 (exLogistic₂.of1 t) t := by
  have h := exLogistic_hasDerivAt t
  have := h.mul (h.const_sub 1)
  rw [exLogistic₂_of1]
  refine this.congr_deriv ?_
  rw [exLogistic₁_of1]
  ring

theorem exLogistic_numOk (t : ℝ) : exLogistic.NumOk fun _ => t := by
  have h : 1 + Real.exp (-t) ≠ 0 := by positivity
  refine ⟨?_, ?_, ?_⟩ <;>
    simp
      [exLogistic, Expr.Dom, Expr.Regular, Expr.PowPos, Expr.den, SBin.den, SBin.dom, Fn.den, Fn.dom, h]

theorem exLogistic₁_numOk (t : ℝ) : exLogistic₁.NumOk fun _ => t := by
  obtain ⟨h1, h2, h3⟩ := exLogistic_numOk t
  refine ⟨?_, ?_, ?_⟩ <;>
    simp [exLogistic₁, Expr.Dom, Expr.Regular, Expr.PowPos, SBin.dom, Bin.dom, Bin.reg, h1, h2, h3]

theorem exLogistic₂_numOk (t : ℝ) : exLogistic₂.NumOk fun _ => t := by
  obtain ⟨h1, h2, h3⟩ := exLogistic_numOk t
  obtain ⟨k1, k2, k3⟩ := exLogistic₁_numOk t
  refine ⟨?_, ?_, ?_⟩ <;>
    simp
      [exLogistic₂, Expr.Dom, Expr.Regular, Expr.PowPos, SBin.dom, Bin.dom, Bin.reg, h1, h2, h3, k1, k2, k3]

/-- `r = logistic(a);` for a jet of first order, `a` the first variable at 5. -/
example := C88_rate (V := Fin 2) (n := 2) (x := ![5, 1]) (a := 0) (r := 1) exDyn1_valid (Or.inl rfl)
  (startVal ![.inl 0, .inr 7]) _ (startJet_isJet _ _ _) (by decide) exLogistic exLogistic₁ exLogistic₂
  (exLogistic_numOk _) (exLogistic₁_numOk _) (fun _ => exLogistic₂_numOk _)
  (Filter.Eventually.of_forall exLogistic_hasDerivAt) fun _ => exLogistic₁_hasDerivAt _

/-- `a = x * y; r = logistic(a);` at (2, 3), order 2. -/
example : ∃ (K : ℝ) (N m : Nat), ∀ b ≥ N, ∀ emax ≥ N, ∀ ρ : Store (IEEE b emax) (Fin 4),
    Starts exDyn2 (fun i => IEEE.enc b emax ((![2, 3] : Fin 2 → ℝ) i)) (IEEE.enc b emax)
      ![.inl 0, .inl 1, .inr 0, .inr 0] ρ →
    ∃ ρ' ν', (∀ j ≥ m, ((script _ _).map (MCall.map (IEEE.enc b emax)) (Answer.map IEEE.real)).run
        (mixLibrary _ (Fin 4) CustomVar exDyn2 2) j
        (.act
          (.assign 2 (.bin .mul (.var 0) (.var 1))) :: custom 2 2 exLogistic exLogistic₁ exLogistic₂ 2 3)
        (ρ, fun _ => IEEE.enc b emax 0) = some (.ok [], ρ', ν')) ∧
      Within exDyn2 (fun s t => s.val.Fin ∧ |s.real - t| ≤ K / 2 ^ b)
        (fun y => 1 / (1 + Real.exp (-(y 0 * y 1)))) ![2, 3] (ρ' 3) := by
  have h := C88_formats (a := 2) (r := 3) (x := ![2, 3]) exDyn2_valid (Or.inl rfl)
    ![.inl 0, .inl 1, .inr 0, .inr 0] (by decide) (.bin .mul (.var 0) (.var 1))
    ⟨trivial, trivial, trivial⟩ (by simp [Expr.Regular, Bin.reg])
      (by simp [Expr.PowPos]) exLogistic exLogistic₁
    exLogistic₂ (exLogistic_numOk _) (exLogistic₁_numOk _) (fun _ => exLogistic₂_numOk _)
    (Filter.Eventually.of_forall exLogistic_hasDerivAt) fun _ => exLogistic₁_hasDerivAt _
  simp only [exLogistic_of1] at h
  exact h

/-! ## Example: `eval` in client code -/

theorem exEval_partialD (y : Fin 1 → ℝ) (i : Fin 1) :
    partialD (fun y : Fin 1 → ℝ => y 0 * y 0) y i = 2 * y 0 := by
  have h : HasFDerivAt (fun y : Fin 1 → ℝ => y 0 * y 0)
      (y 0 • ContinuousLinearMap.proj (R := ℝ) (φ := fun _ : Fin 1 => ℝ) 0 +
        y 0 • ContinuousLinearMap.proj (R := ℝ) (φ := fun _ : Fin 1 => ℝ) 0) y :=
    (hasFDerivAt_apply 0 y).mul (hasFDerivAt_apply 0 y)
  unfold partialD
  rw [h.fderiv]
  obtain rfl : i = 0 := Subsingleton.elim _ _
  simp
  ring

/-- `v = v * v; s = v.eval({p});` with `v` the variable at 3 and `p = 1/2`, order 2: the number `s` converges to
`3.5² = 12.25`. -/
example : ∃ (K : ℝ) (N m : Nat), ∀ b ≥ N, ∀ emax ≥ N, ∀ ρ : Store (IEEE b emax) Unit,
    Starts exDyn2 (fun i => IEEE.enc b emax ((![3] : Fin 1 → ℝ) i)) (IEEE.enc b emax)
      (fun _ => .inl 0) ρ →
    ∃ ρ' ν', (∀ j ≥ m, ((script _ _).map (MCall.map (IEEE.enc b emax)) (Answer.map IEEE.real)).run
        (mixLibrary _ Unit CustomVar exDyn2 1) j
        [.act (.assign () (.bin .mul (.var ()) (.var ()))), .eval .s () [.p]]
        (ρ, fun _ => IEEE.enc b emax (1 / 2)) = some (.ok [], ρ', ν')) ∧
      |(ν' CustomVar.s).real - 49 / 4| ≤ K / 2 ^ b := by
  have c1 : MixCall (n := 1) 2 ![3] (.act (.assign () (.bin .mul (.var ()) (.var ()))))
      ⟨startVal fun _ : Unit => .inl 0, fun _ : CustomVar => 1 / 2⟩ .done
      ⟨fun y _ => y 0 * y 0, fun _ => 1 / 2⟩ := by
    have := MixCall.act (order := 2) (x := (![3] : Fin 1 → ℝ))
      (.assign () (.bin .mul (.var ()) (.var ())))
      ⟨startVal fun _ : Unit => .inl 0, fun _ : CustomVar => 1 / 2⟩
      (by simp [Stmt.map, Stmt.Ok, Expr.map, Expr.Dom, Expr.Regular, Bin.dom, Bin.reg])
      (by simp [Stmt.map, Stmt.PowPos, Expr.map, Expr.PowPos])
    convert this using 2
    funext y v
    simp [Stmt.den, Stmt.map, Expr.map, Expr.den, Bin.den, setVal, startVal]
  have c2 := MixCall.eval (order := 2) (x := (![3] : Fin 1 → ℝ)) CustomVar.s () [CustomVar.p] (by simp)
    ⟨fun y _ => y 0 * y 0, fun _ => 1 / 2⟩
  have he := (Leads.cons c1 (Leads.cons c2 (Leads.nil _))) [] [] _ (.stop rfl)
  obtain ⟨K, N, m, h⟩ := C87_formats exDyn2_valid (Or.inl rfl) (script _ _) (fun _ : Unit => .inl 0)
    (fun _ => 1 / 2) he
  refine ⟨K, N, m, fun b hb emax hemax ρ hρ => ?_⟩
  obtain ⟨ρ', ν', k1, -, k3⟩ := (h b hb emax hemax).2 ρ hρ
  refine ⟨ρ', ν', k1, ?_⟩
  have e : taylorAt 2 (fun y : Fin 1 → ℝ => y 0 * y 0) ![3] (fun _ => 1 / 2) = 49 / 4 := by
    have e2 : partialD (fun y : Fin 1 → ℝ => 2 * y 0) ![3] 0 = 2 := by
      have : HasFDerivAt (fun y : Fin 1 → ℝ => 2 * y 0)
          ((2 : ℝ) • ContinuousLinearMap.proj (R := ℝ) (φ := fun _ : Fin 1 => ℝ) 0) ![3] :=
        (hasFDerivAt_apply 0 _).const_mul 2
      unfold partialD
      rw [this.fderiv]
      simp
    simp only [taylorAt, exEval_partialD, Fin.sum_univ_one, e2]
    norm_num
  have := (k3 CustomVar.s).2
  simp only [setVal, if_true] at this
  rw [← e]
  exact this

end HJ
