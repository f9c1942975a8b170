import Verif.Spec.Client
import Verif.Proofs.Bad
import Verif.Proofs.Factory

/-!
# From contents to objects (helper lemmas for the calculus properties)
-/

namespace HJ

open XReal Topology

variable {c : Cfg} {n : Nat}

theorem forall_cells {c : Cfg} (hc : c.order = 1 ∨ c.order = 2) {n : Nat} {P : Nat → Prop}
    (h0 : P 0) (hg : ∀ i < n, P (1 + i))
    (hh : c.order = 2 → ∀ i j, i ≤ j → j < n → P (pos n i j)) : ∀ k < dlen c n, P k := by
  intro k hk
  by_cases hk0 : k = 0
  · rw [hk0]; exact h0
  by_cases hkn : k ≤ n
  · have := hg (k - 1) (by omega)
    rwa [show 1 + (k - 1) = k by omega] at this
  · rcases hc with h1 | h2
    · rw [dlen_one h1] at hk; omega
    · rw [dlen_two h2] at hk
      obtain ⟨p1, p2, p3⟩ := tri_dec (n := n) (m := k - 1 - n) (by omega)
      have := hh h2 _ _ p1 p2
      unfold pos at this
      rw [p3] at this
      rwa [show 1 + n + (k - 1 - n) = k by omega] at this

theorem finiteDD_obj {a : Nat → XReal} : FiniteDD (obj c n a) ↔ ∀ k < dlen c n, (a k).Fin := by
  unfold FiniteDD
  constructor
  · intro h k hk
    obtain ⟨v, hv⟩ := h (some (a k)) (by
      rw [data_obj]; unfold mk; rw [List.mem_map]
      exact ⟨k, List.mem_range.mpr hk, rfl⟩)
    simp only [Option.some.injEq] at hv
    rw [hv]; trivial
  · intro h cell hcell
    rw [data_obj] at hcell
    unfold mk at hcell
    rw [List.mem_map] at hcell
    obtain ⟨k, hk, rfl⟩ := hcell
    have := h k (List.mem_range.mp hk)
    cases hak : a k with
    | num v => exact ⟨v, by simp [fl, hak]⟩
    | inf s => rw [hak] at this; cases this
    | nan => rw [hak] at this; cases this

theorem Good.finite (hc : c.order = 1 ∨ c.order = 2) {a : Nat → XReal} {J : Jet ℝ}
    (h : Good c n a J) : FiniteDD (obj c n a) :=
  finiteDD_obj.mpr <| forall_cells hc (by rw [h.f]; trivial) (fun i hi => by rw [h.g i hi]; trivial)
    (fun h2 i j hij hj => by rw [h.h h2 i j hij hj]; trivial)

theorem Good.shows (hc : c.order = 1 ∨ c.order = 2) (hf : Fits c n) {a : Nat → XReal} {J : Jet ℝ}
    (h : Good c n a J) : Shows c n (obj c n a) J.lift :=
  shows_of_obj hc hf h.f h.g h.h (fun _ i j _ _ => by simp only [Jet.lift]; rw [h.sym i j])

theorem not_finite_of_tainted (hn : 0 < n) {a : Nat → XReal} (h : Tainted c n a) :
    ¬ FiniteDD (obj c n a) := by
  rw [finiteDD_obj]
  intro hf
  rcases h with h | h | h
  · have := hf 0 (dlen_pos c n)
    rw [h] at this; cases this
  · exact h (hf _ (by have := le_dlen c n; omega))
  · exact h.2 (hf _ (pos_lt h.1 le_rfl hn))

/-- Objects showing real jets have good contents. -/
theorem good_of_shows (hc : c.order = 1 ∨ c.order = 2) {x : DD XReal} {J : Jet ℝ}
    (h : Shows c n x J.lift) : ∃ a K, x = obj c n a ∧ Good c n a K ∧ J.Eqv c.order n K ∧
      ∀ i j, ¬ (c.order = 2 ∧ i < n ∧ j < n) → K.h i j = 0 := by
  obtain ⟨hf, a, rfl⟩ := h.wf.eq_obj hc
  have hu := h.unique (shows_obj hc hf a)
  refine ⟨a, ⟨J.f, J.g, fun i j => if c.order = 2 ∧ i < n ∧ j < n then J.h i j else 0⟩, rfl, ?_, ?_, ?_⟩
  · refine ⟨hu.1.symm, fun i hi => (hu.2.1 i hi).symm, fun h2 i j hij hj => ?_, fun i j => ?_⟩
    · have := hu.2.2 h2 i j (by omega) hj
      simp only [jetOf, if_pos hij] at this
      rw [← this]
      simp [Jet.lift, h2, hj, show i < n by omega]
    · by_cases hij : c.order = 2 ∧ i < n ∧ j < n
      · have := h.sym hij.1 hij.2.1 hij.2.2
        simp only [Jet.lift, num_inj] at this
        simp [hij, this]
      · simp only
        rw [if_neg hij, if_neg (by tauto)]
  · exact ⟨rfl, fun _ _ => rfl, fun h2 i j hi hj => by simp [h2, hi, hj]⟩
  · intro i j h
    simp only
    rw [if_neg h]

/-- What the evaluation of an expression on jets of real functions gives. -/
theorem core (hc : c.order = 1 ∨ c.order = 2) (hf : Fits c n) {V : Type} (ρ : V → DD XReal)
    (Jv : V → Jet ℝ) (hρ : ∀ v, Shows c n (ρ v) (Jv v).lift) (e : Expr ℝ V) :
    ∃ r, (e.map num).evalDD c n ρ = .ok r ∧ WF c n r ∧
      (e.Dom c.order (fun v => (Jv v).f) → FiniteDD r ∧ ∃ J : Jet ℝ, Shows c n r J.lift ∧
        J.f = e.den (fun v => (Jv v).f) ∧
        (∀ (u : V → (Fin n → ℝ) → ℝ) (x : Fin n → ℝ), (∀ v, IsJet c.order n (u v) x (Jv v)) →
          e.Regular (fun v => (Jv v).f) →
          IsJet c.order n (fun y => e.den fun v => u v y) x J) ∧
        (∀ i < n, (∀ v, e.Mentions v → (Jv v).g i = 0 ∧
            (c.order = 2 → ∀ j < n, (Jv v).h i j = 0)) → J.ZeroAt i)) ∧
      (0 < n → e.NoBaseZero → ¬ e.Dom c.order (fun v => (Jv v).f) → ¬ FiniteDD r) := by
  choose a K ha hK hJK hK0 using fun v => good_of_shows hc (hρ v)
  have hfun : ρ = fun v => obj c n (a v) := funext ha
  have hval : (fun v => (Jv v).f) = fun v => (K v).f := funext fun v => (hJK v).1
  rw [hval, hfun]
  refine ⟨_, evalDD_obj hc hf a (e.map num), wf_obj hc hf _, ?_, ?_⟩
  · intro hD
    obtain ⟨J, hJ, hJf, hJj, hJz⟩ := eval_good hc a K hK e hD
    refine ⟨hJ.finite hc, J, hJ.shows hc hf, hJf, fun u x hu hr => ?_, ?_⟩
    · exact hJj u x (fun v => (hu v).congr (hJK v)) hr
    · intro i hi h
      refine hJz i fun v hv => ⟨by rw [← (hJK v).2.1 i hi]; exact (h v hv).1, fun j => ?_⟩
      by_cases hr : c.order = 2 ∧ i < n ∧ j < n
      · rw [← (hJK v).2.2 hr.1 i j hi hr.2.2]
        exact (h v hv).2 hr.1 j hr.2.2
      · exact hK0 v i j hr
  · intro hn hB hD
    exact not_finite_of_tainted hn (eval_bad hc hn a K hK e hB hD)

/-- The jet of the `i`-th independent variable. -/
def varJet (i : Nat) (v : ℝ) : Jet ℝ := ⟨v, fun k => if k = i then 1 else 0, fun _ _ => 0⟩

theorem good_var {i : Nat} (hi : i < n) (v : ℝ) : Good c n (varC i (num v)) (varJet i v) where
  f := by simp [varC, varJet]
  g := by
    intro k _
    unfold varC varJet
    rw [if_neg (by omega)]
    by_cases h : k = i
    · simp [h]
    · simp [h]
  h := by
    intro _ k j _ _
    have := pos_gt n k j
    unfold varC varJet
    rw [if_neg (by omega), if_neg (by omega)]
    simp
  sym := fun _ _ => rfl

theorem isJet_var (o : Nat) (x : _root_.Fin n → ℝ) (i : _root_.Fin n) :
    IsJet o n (fun y => y i) x (varJet i (x i)) :=
  isJet_coord o i x

/-- Evaluation at a point, on independent variables. -/
theorem core_at (hc : c.order = 1 ∨ c.order = 2) (hf : Fits c n) (e : Expr ℝ (_root_.Fin n))
    (x : _root_.Fin n → ℝ) :
    ∃ r, evalAt c e x = .ok r ∧ WF c n r ∧
      (e.Dom c.order x → FiniteDD r ∧ ∃ J : Jet ℝ, Shows c n r J.lift ∧ J.f = e.den x ∧
        (e.Regular x → IsJet c.order n (fun y => e.den y) x J) ∧
        (∀ i : _root_.Fin n, ¬ e.Mentions i → J.ZeroAt i)) ∧
      (0 < n → e.NoBaseZero → ¬ e.Dom c.order x → ¬ FiniteDD r) := by
  have hl : (List.ofFn fun i => num (x i)).length = n := by simp
  have hvars := variables_obj (c := c) (vals := List.ofFn fun i => num (x i)) (by rw [hl]; exact hf)
  obtain ⟨r, h1, h2, h3, h4⟩ := core hc hf (fun i : _root_.Fin n => obj c n (varC i (num (x i))))
    (fun i => varJet i (x i)) (fun i => (good_var i.2 (x i)).shows hc hf) e
  refine ⟨r, ?_, h2, fun hD => ?_, h4⟩
  · unfold evalAt
    rw [hvars]
    simp only [Res.ok_bind]
    rw [← h1]
    congr 1
    funext i
    simp [List.getD_eq_getElem?_getD]
  · obtain ⟨hfin, J, hs, hJf, hj, hz⟩ := h3 hD
    refine ⟨hfin, J, hs, hJf, fun hr => hj _ x (fun i => isJet_var _ x i) hr, fun i hi => ?_⟩
    refine hz i i.2 fun v hv => ⟨?_, fun _ _ _ => rfl⟩
    have : (i : Nat) ≠ v := fun h => hi (by rwa [Fin.ext h])
    simp [varJet, this]

end HJ
