import Verif.Spec.SEvalErr
import Verif.Props.SPrecise
import Verif.Props.EvalErr

/-!
# C86: rounding errors of `SScalar::eval`

`eval` compares iterators of two containers (C44).  The theorems are about implementations where all end
iterators are equal.
-/

namespace HJ

open SMap Filter Topology

section
variable {α : Type} [CMath α] {w : Prec} {M : FinErr α w}

/-- The loop of `eval`. -/
theorem seval_close {C : ℝ} (hC : 1 ≤ C) (hw : w.rel + w.abs ≤ 1) (N : Finset String)
    (hr : Set.Icc (-(grow^[N.card + 2] C)) (grow^[N.card + 2] C) ⊆ w.range) {D δ : String → ℝ}
    {d : SMap α} (hd : ∀ k s, d.find k = some s → k ∈ N ∧ CloseTo M C s (δ k))
    (hN : ∀ k ∈ N, d.find k ≠ none) :
    ∀ (m : SMap α), m.keys.Nodup → (∀ e ∈ m, e.1 ∈ N → CloseTo M C e.2 (D e.1)) →
    ∀ (T : Finset String) (a : α) (t : ℝ), (∀ k ∈ T, k ∈ N ∧ k ∉ m.keys) →
      CloseTo M (grow^[T.card + 1] C) a t →
      ∃ a', m.foldlM (fun r coef =>
          if false = true then (.ub .foreignIterator : Res α) else
          match d.find coef.1 with
          | none => .ok r
          | some v => .ok (r +ₛ coef.2 *ₛ v)) a = .ok a' ∧
        CloseTo M (grow^[N.card + 1] C) a'
          (t + ∑ k ∈ N.filter (· ∈ m.keys), D k * δ k) := by
  have hC0 : 0 ≤ C := by linarith
  have rng : ∀ {k}, k + 1 ≤ N.card + 2 → Set.Icc (-grow (grow^[k] C)) (grow (grow^[k] C)) ⊆ w.range :=
    fun {k} hk s hs => by
      rw [← Function.iterate_succ_apply' grow k C] at hs
      have : grow^[k + 1] C ≤ grow^[N.card + 2] C := grow_iter_mono hC0 hk
      exact hr ⟨by linarith [hs.1], by linarith [hs.2]⟩
  intro m
  induction m with
  | nil =>
    intro _ _ T a t hT ha
    have : T.card ≤ N.card := Finset.card_le_card fun k hk => (hT k hk).1
    exact
      ⟨a, rfl, by simpa [keys] using ha.mono (grow_iter_mono hC0 (by omega : T.card + 1 ≤ N.card + 1))⟩
  | cons e m ih =>
    intro hm he T a t hT ha
    rw [keys_cons, List.nodup_cons] at hm
    rw [List.foldlM_cons]
    cases hf : d.find e.1 with
    | none =>
      obtain ⟨a', h1, h2⟩ := ih hm.2 (fun e' h' => he e' (List.mem_cons_of_mem _ h')) T a t
        (fun k hk =>
          ⟨(hT k hk).1, fun h => (hT k hk).2 (by rw [keys_cons]; exact List.mem_cons_of_mem _ h)⟩)
        ha
      refine ⟨a', by simpa [hf] using h1, ?_⟩
      have : N.filter (· ∈ keys (e :: m)) = N.filter (· ∈ keys m) := by
        ext k
        simp only [Finset.mem_filter, keys_cons, List.mem_cons]
        constructor
        · rintro ⟨h3, rfl | h4⟩
          · exact absurd hf (hN _ h3)
          · exact ⟨h3, h4⟩
        · exact fun h => ⟨h.1, .inr h.2⟩
      rwa [this]
    | some v =>
      obtain ⟨hk, hv⟩ := hd _ _ hf
      have hT' : e.1 ∉ T := fun h => (hT _ h).2 (by rw [keys_cons]; exact List.mem_cons_self)
      have hcard : T.card + 1 ≤ N.card := by
        rw [← Finset.card_insert_of_notMem hT']
        refine Finset.card_le_card fun k hk' => ?_
        rcases Finset.mem_insert.1 hk' with rfl | h
        · exact hk
        · exact (hT k h).1
      have e1 := CloseTo.mul hw hC0 (rng (k := 0) (by omega)) (he e List.mem_cons_self hk) hv
      have e2 := CloseTo.add hw (grow_iter_nonneg hC0 (T.card + 1)) (rng (by omega)) ha
        (e1.mono (show grow^[1] C ≤ _ from grow_iter_mono hC0 (by omega : 1 ≤ T.card + 1)))
      rw [← Function.iterate_succ_apply' grow (T.card + 1) C] at e2
      obtain ⟨a', h1, h2⟩ := ih hm.2 (fun e' h' => he e' (List.mem_cons_of_mem _ h')) (insert e.1 T)
        (a +ₛ e.2 *ₛ v) (t + D e.1 * δ e.1) (fun k hk' => by
          rcases Finset.mem_insert.1 hk' with rfl | h
          · exact ⟨hk, hm.1⟩
          · exact
            ⟨(hT k h).1, fun h' => (hT k h).2 (by rw [keys_cons]; exact List.mem_cons_of_mem _ h')⟩)
        (by rw [Finset.card_insert_of_notMem hT']; exact e2)
      refine ⟨a', by simpa [hf] using h1, ?_⟩
      have : N.filter (· ∈ keys (e :: m)) = insert e.1 (N.filter (· ∈ keys m)) := by
        ext k
        simp only [Finset.mem_filter, keys_cons, List.mem_cons, Finset.mem_insert]
        constructor
        · rintro ⟨h3, rfl | h4⟩
          · exact .inl rfl
          · exact .inr ⟨h3, h4⟩
        · rintro (rfl | h)
          · exact ⟨hk, .inl rfl⟩
          · exact ⟨h.1, .inr h.2⟩
      rw [this, Finset.sum_insert (by simp [hm.1]), ← add_assoc]
      exact h2

end

/-- **C86.**  For all constants `K` and `R` and all names `N` there are a constant `K'`, a precision and a
range such that in every arithmetic of at least that precision and range, for every object whose derivatives
for the names in `N` are within `K` errors of one operation of those of `F`, for every displacement `d` of
exactly these names that close to `δ`, and as long as derivatives and `δ` are at most `R`, the number `eval(d)`
is finite and within `K'` errors of one operation of the first-order change of `F` – whatever other names the
object stores, and also for names of `N` it does not store. -/
theorem C86_rate (N : Finset String) (K R : ℝ) : ∃ K' w₀ B : ℝ, 0 < w₀ ∧
    ∀ (α : Type) [CMath α] (w : Prec) (M : FinErr α w), w.rel ≤ w₀ → w.abs ≤ w₀ →
      Set.Icc (-B) B ⊆ w.range →
      ∀ (F : (String → ℝ) → ℝ) (x δ : String → ℝ) (r : SS α) (d : SMap α), SWF r →
      (∀ k ∈ N, |partialS F x k| ≤ R ∧ |δ k| ≤ R) →
      SWithin (fun s t => M.fin s ∧ |M.val s - t| ≤ K * (w.rel + w.abs)) N F x r →
      (∀ k, k ∈ N ↔ ∃ s, d.find k = some s) →
      (∀ k s, d.find k = some s → M.fin s ∧ |M.val s - δ k| ≤ K * (w.rel + w.abs)) →
      ∃ a, r.eval false d = .ok a ∧ M.fin a ∧
        |M.val a - changeAt N F x δ| ≤ K' * (w.rel + w.abs) := by
  let C := max 1 (max K R)
  have hC : 1 ≤ C := le_max_left _ _
  have hK : K ≤ C := (le_max_left _ _).trans (le_max_right _ _)
  have hR : R ≤ C := (le_max_right _ _).trans (le_max_right _ _)
  refine ⟨grow^[N.card + 1] C + N.card * (C * C), 1 / 2, grow^[N.card + 2] C, by norm_num,
    fun α _ w M h1 h2 h3 F x δ r d hwf hb hr hN hd => ?_⟩
  have hω : 0 ≤ w.rel + w.abs := add_nonneg M.rel_nonneg M.abs_nonneg
  have up : ∀ {s : α} {t : ℝ}, M.fin s ∧ |M.val s - t| ≤ K * (w.rel + w.abs) → |t| ≤ R →
      CloseTo M C s t := fun hs ht => ⟨hs.1,
    hs.2.trans (mul_le_mul_of_nonneg_right hK hω), ht.trans hR⟩
  have hz := M.lit 0 (by norm_num)
  have zero : CloseTo M (grow^[(∅ : Finset String).card + 1] C) (Arith.lit 0) 0 := by
    have h0 : 0 ≤ grow^[(∅ : Finset String).card + 1] C := grow_iter_nonneg (by linarith) _
    exact ⟨hz.1, by rw [hz.2]; simpa using mul_nonneg h0 hω, by simpa using h0⟩
  obtain ⟨a, ha, hcl⟩ := seval_close (M := M) hC (by linarith) N h3 (D := partialS F x) (δ := δ) (d := d)
    (fun k s hs => have hk := (hN k).2 ⟨s, hs⟩; ⟨hk, up (hd k s hs) (hb k hk).2⟩)
    (fun k hk => by obtain ⟨s, hs⟩ := (hN k).1 hk; simp [hs]) r.mD hwf.nodup
    (fun e he hk => by
      have h4 := hr.2 e.1 hk
      have : r.mD.find e.1 = some e.2 := (find_mem hwf.nodup).mpr he
      simp only [SS.d, this] at h4
      exact up h4 (hb _ hk).1) ∅ (Arith.lit 0) 0 (by simp) zero
  refine ⟨a, ha, hcl.fin, ?_⟩
  rw [zero_add] at hcl
  -- the names of `N` that are not stored
  have hrest : |∑ k ∈ N.filter (· ∉ r.mD.keys), partialS F x k * δ k| ≤
      N.card * (C * C) * (w.rel + w.abs) := by
    refine (Finset.abs_sum_le_sum_abs _ _).trans ?_
    refine (Finset.sum_le_card_nsmul _ _ (C * C * (w.rel + w.abs)) fun k hk => ?_).trans ?_
    · obtain ⟨hk, hk'⟩ := Finset.mem_filter.1 hk
      have h4 := hr.2 k hk
      simp only [SS.d, find_none.2 hk', hz.2, Int.cast_zero, zero_sub, abs_neg] at h4
      rw [abs_mul]
      have h5 : |partialS F x k| ≤ C * (w.rel + w.abs) :=
        h4.2.trans (mul_le_mul_of_nonneg_right hK hω)
      calc _ ≤ C * (w.rel + w.abs) * C :=
            mul_le_mul h5 ((hb k hk).2.trans hR) (abs_nonneg _) (mul_nonneg (by linarith) hω)
        _ = _ := by ring
    · rw [nsmul_eq_mul, mul_assoc (N.card : ℝ)]
      refine mul_le_mul_of_nonneg_right ?_ (mul_nonneg (by nlinarith) hω)
      exact_mod_cast Finset.card_filter_le _ _
  have hsum : changeAt N F x δ = ∑ k ∈ N.filter (· ∈ r.mD.keys), partialS F x k * δ k +
      ∑ k ∈ N.filter (· ∉ r.mD.keys), partialS F x k * δ k :=
    (Finset.sum_filter_add_sum_filter_not _ _ _).symm
  rw [hsum, ← sub_sub]
  refine (abs_sub _ _).trans ?_
  have := hcl.err
  rw [add_mul]
  linarith

section
variable {V Q : Type} [DecidableEq V] {x : String → ℝ}

/-- **C86, client code.**  In every format with at least `n` significant bits and exponents up to at least
`n`, after client code as in C80, `eval` of a displacement of the names in `N` with the rounded `δ` is within
`K / 2 ^ b` of the first-order change of what the code computes, for all `δ` up to `R` and every iteration
order of the hash tables. -/
theorem C86_client [Finite V] (cl : Caller (SCall ℝ V) (Answer ℝ) Q) {q q' : Q} (start : V → ℝ)
    (U : (String → ℝ) → V → ℝ) {σ' : V → ℝ} (N : Finset String) (R : ℝ)
    (h : cl.Ends (SPreciseCall x) q start q' σ')
    (hU : ∀ᶠ y in nearLines x, ∃ q'', cl.Ends (SRealCall x y) q start q'' (U y)) :
    ∃ (K : ℝ) (n m : Nat), ∀ b ≥ n, ∀ emax ≥ n, ∀ (ord : Order (IEEE b emax))
      (vord : V → Order (IEEE b emax)), ord.Ok → (∀ v, (vord v).Ok) →
      ∃ p,
        (∀ j ≥ m, (cl.map (SCall.map (IEEE.enc b emax)) (Answer.map IEEE.real)).run (ssLibrary _ V) j q
          (ord, fun v => SS.constant (vord v) (IEEE.enc b emax (start v))) = some (.ok q', p)) ∧
        ∀ v (δ : String → ℝ), (∀ k ∈ N, |δ k| ≤ R) → ∀ d : SMap (IEEE b emax),
          (∀ k, d.find k = if k ∈ N then some (IEEE.enc b emax (δ k)) else none) →
          ∃ a, (p.2 v).eval false d = .ok a ∧ a.val.Fin ∧
            |a.real - changeAt N (fun y => U y v) x δ| ≤ K / 2 ^ b := by
  obtain ⟨R₁, hR₁⟩ : ∃ R₁, ∀ v, ∀ k ∈ N, |partialS (fun y => U y v) x k| ≤ R₁ := by
    obtain ⟨R₁, hR₁⟩ := (((Set.finite_univ (α := V)).prod N.finite_toSet).image
      fun p => |partialS (fun y => U y p.1) x p.2|).bddAbove
    exact ⟨R₁, fun v k hk => hR₁ ⟨(v, k), ⟨trivial, hk⟩, rfl⟩⟩
  obtain ⟨K, u₀, B, hu, m, hm⟩ := C80_rate cl (fun _ v => start v) U N
    (fun v k => differentiableAt_const _) h hU
  obtain ⟨K', u₁, B', hu', hm'⟩ := C86_rate N (max K (max |R| 1)) (max R R₁)
  obtain ⟨n, hn, hfmt⟩ := fmt_enough (lt_min hu hu') (max (max B B') R)
  refine ⟨2 * |K'|, n, m, fun b hb emax he ord vord ho hvo => ?_⟩
  obtain ⟨f1, f2, f3⟩ := hfmt b hb emax he
  have cutB : ∀ {D : ℝ}, D ≤ max (max B B') R → Set.Icc (-D) D ⊆ (fmtPrec b emax).range :=
    fun hD s hs => f3 ⟨by linarith [hs.1], hs.2.trans hD⟩
  have hω : 0 ≤ (fmtPrec b emax).rel + (fmtPrec b emax).abs := by simp only [fmtPrec]; positivity
  let M := ieeeErr b emax (hn.trans hb) (hn.trans he)
  obtain ⟨p, h1, h2⟩ := hm _ _ M (IEEE.enc b emax) ord
    (fun v => SS.constant (vord v) (IEEE.enc b emax (start v))) ho
    (f1.trans (min_le_left _ _)) (f2.trans (min_le_left _ _))
    (cutB ((le_max_left _ _).trans (le_max_left _ _))) (ieee_exactCmp _ _) (ieee_enc _ _) fun v => by
      have hc := SS.is_constant (hvo v) (IEEE.enc b emax (start v))
      refine ⟨hc.wf, ⟨_, SS.f_ok hc, ieee_enc _ _ _⟩, fun k _ => ?_⟩
      rw [SS.d_eq hc]
      simpa using sound_lit (ieeeErr b emax (hn.trans hb) (hn.trans he)) 0 (by norm_num)
  refine ⟨p, h1, fun v δ hδ d hd => ?_⟩
  have wide : ∀ {s : IEEE b emax} {t : ℝ}, M.fin s ∧ |M.val s - t| ≤ K *
      ((fmtPrec b emax).rel + (fmtPrec b emax).abs) → M.fin s ∧ |M.val s - t| ≤ max K (max |R| 1) *
      ((fmtPrec b emax).rel + (fmtPrec b emax).abs) := fun hs =>
    ⟨hs.1, hs.2.trans (mul_le_mul_of_nonneg_right (le_max_left _ _) hω)⟩
  obtain ⟨a, ha, ha1, ha2⟩ := hm' _ _ M (f1.trans (min_le_right _ _)) (f2.trans (min_le_right _ _))
    (cutB ((le_max_right _ _).trans (le_max_left _ _))) (fun y => U y v) x δ (p.2 v) d (h2 v).1
    (fun k hk => ⟨(hR₁ v k hk).trans (le_max_right _ _), (hδ k hk).trans (le_max_left _ _)⟩)
    ⟨(h2 v).2.1.imp fun s hs => ⟨hs.1, wide hs.2⟩, fun k hk => wide ((h2 v).2.2 k hk)⟩
    (fun k => by rw [hd]; by_cases hk : k ∈ N <;> simp [hk])
    (fun k s hs => by
      rw [hd] at hs
      by_cases hk : k ∈ N
      · rw [if_pos hk, Option.some.injEq] at hs
        subst hs
        have := ieee_enc (hn.trans hb) (hn.trans he) (δ k) (cutB (le_max_right _ _) (abs_le.1 (hδ k hk)))
        refine ⟨this.1, this.2.trans ?_⟩
        have e1 : |δ k| ≤ max K (max |R| 1) :=
          ((hδ k hk).trans (le_abs_self R)).trans ((le_max_left _ _).trans (le_max_right _ _))
        have e2 : 1 ≤ max K (max |R| 1) := (le_max_right _ _).trans (le_max_right _ _)
        have e3 := mul_le_mul_of_nonneg_left e1 M.rel_nonneg
        have e4 := mul_le_mul_of_nonneg_right e2 M.abs_nonneg
        nlinarith
      · simp [hk] at hs)
  exact ⟨a, ha, ha1, ha2.trans (fmt_rate (le_trans (by omega) he) K')⟩

end

/-! ## Examples -/

/-- `u` created as a variable, `u^N` by repeated squaring, then `eval({{"u", s},
  {"v", t}})` in every format
with enough bits: `N u^(N-1) s` up to `K / 2^b`, whatever `t` is. -/
example (N : Nat) (x : String → ℝ) (R : ℝ) :
    ∃ (K : ℝ) (n m : Nat), ∀ b ≥ n, ∀ emax ≥ n, ∀ ord vord : Order (IEEE b emax), ord.Ok → vord.Ok →
      ∃ p, (∀ j ≥ m, ((exSVarPowers (x "u") N).map (SCall.map (IEEE.enc b emax))
            (Answer.map IEEE.real)).run (ssLibrary _ (Fin 2)) j none
          (ord, fun _ => SS.constant vord (IEEE.enc b emax 1)) = some (.ok (some 0), p)) ∧
        ∀ s t : ℝ, |s| ≤ R → |t| ≤ R →
          ∃ a, (p.2 1).eval false [("u", IEEE.enc b emax s), ("v", IEEE.enc b emax t)] = .ok a ∧
            a.val.Fin ∧ |a.real - N * x "u" ^ (N - 1) * s| ≤ K / 2 ^ b := by
  let σ (y : String → ℝ) : Fin 2 → ℝ := (SStmt.vari 0 "u" (x "u")).den x y fun _ => 1
  have hσ : ∀ y, σ y 0 = y "u" ∧ σ y 1 = 1 := fun y => by
    simp [σ, SStmt.den, setVal]
  choose U hU hU' hU1 using fun y : String → ℝ => exSPowers_ends x y N (σ y)
  have hUf : ∀ y, U y 1 = y "u" ^ N := fun y => by rw [hU1 y, (hσ y).1, (hσ y).2, one_mul]
  obtain ⟨K, n, m, h⟩ := C86_client (x := x) (exSVarPowers (x "u") N) (q := none) (q' := some 0)
    (fun _ => 1) U (σ' := U x) {"u", "v"} R
    (Caller.Ends.call (k := SCall.act (.vari 0 "u" (x "u"))) (r := .done) rfl
      ⟨SSureCall.act _ _ trivial, trivial⟩
      (exSVarPowers_rest (exSPowers_precise (hU' x rfl))))
    (.of_forall fun y =>
      ⟨some 0, Caller.Ends.call (k := SCall.act (.vari 0 "u" (x "u"))) (r := .done) rfl
      (SRealCall.act _ _) (exSVarPowers_rest (hU y))⟩)
  refine ⟨K, n, m, fun b hb emax he ord vord ho hvo => ?_⟩
  obtain ⟨p, h1, h2⟩ := h b hb emax he ord (fun _ => vord) ho fun _ => hvo
  refine ⟨p, h1, fun s t hs ht => ?_⟩
  obtain ⟨a, e1, e2, e3⟩ := h2 1 (fun k => if k = "u" then s else t)
    (fun k _ => by by_cases hk : k = "u" <;> simp [hk, hs, ht])
    [("u", IEEE.enc b emax s), ("v", IEEE.enc b emax t)] fun k => by
      rw [find_cons, find_cons, find_nil]
      by_cases hu : "u" = k
      · subst hu; simp
      · by_cases hv : "v" = k
        · subst hv; simp
        · simp [hu, hv, Ne.symm hu, Ne.symm hv]
  refine ⟨a, e1, e2, ?_⟩
  have d1 : deriv (fun r : ℝ => Function.update x "u" r "u" ^ N) (x "u") = N * x "u" ^ (N - 1) := by
    simp
  have d2 : deriv (fun r : ℝ => Function.update x "v" r "u" ^ N) (x "v") = 0 := by
    simp [Function.update_of_ne]
  have : changeAt {"u", "v"} (fun y => U y 1) x (fun k => if k = "u" then s else t) =
      N * x "u" ^ (N - 1) * s := by
    unfold changeAt partialS
    rw [Finset.sum_pair (by decide)]
    simp only [hUf, d1, d2]
    simp
  rwa [this] at e3

end HJ
