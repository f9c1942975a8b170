import Verif.Proofs.Caller
import Verif.Props.Rate
import Verif.Props.Finite
import Verif.Proofs.LocalOps
import Verif.Spec.Watch

/-!
# C73: arbitrary client code
-/

open scoped Topology

namespace HJ

open DD

section any

variable {α V Q : Type} [DecidableEq V] [CMath α] {c c' : Cfg} {n : Nat}

theorem call_safe (hv : c.Valid) (hf : c.tsize = -1 ∨ c.tsize = n) (k : Call α V) (ρ : Store α V)
    (hk : k.Valid (Stmt.Plain c n) c.order n) (hw : ∀ v, WF c n (ρ v)) :
    ∃ r ρ', ddLibrary α V c n k ρ = (.ok r, ρ') ∧ ∀ v, WF c n (ρ' v) := by
  obtain ⟨a, rfl⟩ := wf_env hv hw
  cases k with
  | act s =>
    exact ⟨.done, fun v => obj c n (s.cells c n a v),
      by simp only [ddLibrary, Stmt.run_cells hv hf a s hk, Answer.of], fun v => wf_obj hv.order hf _⟩
  | ask b =>
    have : ∃ r, b.run c n (fun v => obj c n (a v)) = .ok r := by
      cases b <;> simp only [Cond.run, evalDD_obj hv.order hf, Res.ok_bind, DD.cmp, DD.cmpS,
        DD.sCmp, f_obj] <;> exact ⟨_, rfl⟩
    obtain ⟨r, hr⟩ := this
    exact ⟨.truth r, _, by simp only [ddLibrary, hr, Answer.of], hw⟩
  | f v => exact ⟨.number (a v 0), _, by simp only [ddLibrary, f_obj, Answer.of], hw⟩
  | g v i =>
    obtain ⟨i, rfl⟩ : ∃ m : Nat, i = m := ⟨i.toNat, by have := hk.1; omega⟩
    have hi : i < n := by have := hk.2; omega
    exact ⟨.number (a v (1 + i)), _, by simp only [ddLibrary, g_obj hf (a v) hi, Answer.of], hw⟩
  | h v i j =>
    obtain ⟨h2, hi, hi', hj, hj'⟩ := hk
    obtain ⟨i, rfl⟩ : ∃ m : Nat, i = m := ⟨i.toNat, by omega⟩
    obtain ⟨j, rfl⟩ : ∃ m : Nat, j = m := ⟨j.toNat, by omega⟩
    have e := (shows_obj hv.order hf (a v)).h h2 i j (by omega) (by omega)
    exact ⟨.number ((jetOf n (a v)).h i j), _, by simp only [ddLibrary, e, Answer.of], hw⟩

/-- **C73, safety.**  Client code of any kind - arrays, recursion, integer variables, `try`/`catch`,
numbers read out of jets and used again - that only makes calls with valid indices never runs into
undefined behaviour or a failed assertion, in any arithmetic, and the jets stay well formed. -/
theorem C73_safe (hv : c.Valid) (hf : c.tsize = -1 ∨ c.tsize = n)
    (cl : Caller (Call α V) (Answer α) Q)
    (hcl : ∀ q k, cl.next q = some k → k.Valid (Stmt.Plain c n) c.order n) (q : Q) (ρ : Store α V)
    (hρ : ∀ v, WF c n (ρ v)) (j : Nat) :
    cl.run (ddLibrary α V c n) j q ρ = none ∨
      ∃ q' ρ', cl.run (ddLibrary α V c n) j q ρ = some (.ok q', ρ') ∧ ∀ v, WF c n (ρ' v) := by
  obtain h | ⟨q', s, s', h1, _, h2, _⟩ := Caller.lockstep (cl := cl) (L := ddLibrary α V c n)
    (L' := ddLibrary α V c n) (Rel := fun ρ ρ' => (∀ v, WF c n (ρ v)) ∧ ρ = ρ')
    (P := fun k => k.Valid (Stmt.Plain c n) c.order n) (by
      rintro k ρ _ hk ⟨hw, rfl⟩
      obtain ⟨r, ρ', h1, h2⟩ := call_safe hv hf k ρ hk hw
      exact ⟨r, ρ', ρ', h1, h1, h2, rfl⟩) hcl j q ⟨hρ, rfl⟩
  · exact Or.inl h.1
  · exact Or.inr ⟨q', s, h1, h2⟩

/-- **C73, jets take the path of their values.**  Client code that does not read derivatives goes
through the same states on jets as on plain scalars and ends in the same state (or does not end in
either case), and the values are equal, bit for bit, in every arithmetic with commuting addition and
multiplication. -/
theorem C73_path (hl : CommLaws α) (hq : CmpLaws α) (hv : c.Valid) (hf : c.tsize = -1 ∨ c.tsize = n)
    (cl : Caller (Call α V) (Answer α) Q)
    (hcl : ∀ q k, cl.next q = some k → k.NoDerivs (Stmt.Plain c n)) (q : Q) (ρ : Store α V) (σ : V → α)
    (hρ : ∀ v, WF c n (ρ v)) (hσ : ∀ v, (ρ v).f = .ok (σ v)) (j : Nat) :
    (cl.run (ddLibrary α V c n) j q ρ = none ∧ cl.run (plainLibrary α V) j q σ = none) ∨
    ∃ q' ρ' σ', cl.run (ddLibrary α V c n) j q ρ = some (.ok q', ρ') ∧
      cl.run (plainLibrary α V) j q σ = some (.ok q', σ') ∧ ∀ v, WF c n (ρ' v) ∧ (ρ' v).f = .ok
        (σ' v) := by
  refine Caller.lockstep (Rel := Holding c n) (P := fun k => k.NoDerivs (Stmt.Plain c n)) ?_ hcl j q
    fun v => ⟨hρ v, hσ v⟩
  intro k ρ σ hk h
  cases k with
  | act s =>
    obtain ⟨ρ', h1, h2⟩ := step_value hl hv hf h s hk
    exact ⟨.done, ρ', s.plain σ, by simp only [ddLibrary, h1, Answer.of], rfl, h2⟩
  | ask b =>
    exact ⟨_, ρ, σ, by simp only [ddLibrary, cond_value hl hq hv hf h b, Answer.of], rfl, h⟩
  | f v => exact ⟨_, ρ, σ, by simp only [ddLibrary, (h v).2, Answer.of], rfl, h⟩
  | g v i => exact hk.elim
  | h v i j => exact hk.elim

/-- The objects have the same value and gradient, and the same Hessian if both have one. -/
def SameJets (c c' : Cfg) (n : Nat) (x x' : DD α) : Prop :=
  ∃ J J', Shows c n x J ∧ Shows c' n x' J' ∧ J.f = J'.f ∧ (∀ i < n, J.g i = J'.g i) ∧
    (c.order = 2 → c'.order = 2 → ∀ i < n, ∀ j < n, J.h i j = J'.h i j)

omit [CMath α] in
theorem shows_packJet (hc : c.order = 1 ∨ c.order = 2) (hf : Fits c n) (J : Jet α)
    (hs : c.order = 2 → ∀ i j, i < n → j < n → J.h i j = J.h j i) :
    Shows c n (obj c n (packJet n J)) J :=
  shows_of_obj hc hf (packJet_zero ..) (fun _ hi => packJet_succ _ hi)
    (fun _ _ _ hij hj => packJet_pos _ hij hj) hs

omit [CMath α] in
theorem SameJets.contents (hv : c.Valid) (hv' : c'.Valid) {x x' : DD α} (h : SameJets c c' n x x') :
    ∃ a a', x = obj c n a ∧ x' = obj c' n a' ∧ SameC c c' n a a' := by
  obtain ⟨J, J', hJ, hJ', h0, hg, hh⟩ := h
  have e : ∀ {c : Cfg}, c.Valid → ∀ {x : DD α} {J : Jet α}, Shows c n x J → ∀ K : Jet α, J.f = K.f →
      (∀ i < n, J.g i = K.g i) → (c.order = 2 → ∀ i < n, ∀ j < n, J.h i j = K.h i j) →
      x = obj c n (packJet n K) := by
    intro c hv x J hJ K k0 kg kh
    have hs : Shows c n x K := ⟨hJ.wf, hJ.size, by rw [hJ.f, k0], fun i hi => by rw [hJ.g i hi, kg i hi],
      fun h2 i j hi hj => by rw [hJ.h h2 i j hi hj, kh h2 i hi j hj]⟩
    exact hs.ext hv.order (shows_packJet hv.order hs.wf.fits K fun h2 i j hi hj => hs.sym h2 hi hj)
      ⟨rfl, fun _ _ => rfl, fun _ _ _ _ _ => rfl⟩
  refine ⟨packJet n (if c.order = c'.order then J' else J), packJet n J', e hv hJ _ ?_ ?_ ?_,
    e hv' hJ' J' rfl (fun _ _ => rfl) fun _ _ _ _ _ => rfl, ?_, ?_⟩
  · split
    · exact h0
    · rfl
  · intro i hi
    split
    · exact hg i hi
    · rfl
  · intro h2 i hi j hj
    split
    · next ho => exact hh h2 (ho ▸ h2) i hi j hj
    · rfl
  · intro k hk
    split
    · rfl
    · by_cases h : k = 0
      · subst h; rw [packJet_zero, packJet_zero, h0]
      · simp only [packJet, h, hk, if_false, if_true]
        exact hg _ (by omega)
  · intro ho
    rw [if_pos ho]

omit [CMath α] in
theorem SameC.same (hv : c.Valid) (hv' : c'.Valid) (hf : Fits c n) (hf' : Fits c' n) {a a' : Nat → α}
    (h : SameC c c' n a a') : SameJets c c' n (obj c n a) (obj c' n a') := by
  refine ⟨_, _, shows_obj hv.order hf a, shows_obj hv'.order hf' a', h.1 0 (Nat.zero_le _),
    fun i hi => h.1 _ (by omega), fun h2 h2' i _ j _ => ?_⟩
  rw [h.2 (h2.trans h2'.symm)]

/-- **C73, the class does not matter.**  Client code with calls that are valid for two of the classes
`DDScalar<1 or 2, α, static or dynamic>` goes through the same states with both - whatever it reads of
the values and derivatives both have - and the results have equal values and gradients, and equal
Hessians if both have one, in every arithmetic. -/
theorem C73_types (hv : c.Valid) (hv' : c'.Valid) (hf : c.tsize = -1 ∨ c.tsize = n)
    (hf' : c'.tsize = -1 ∨ c'.tsize = n) (cl : Caller (Call α V) (Answer α) Q)
    (hcl : ∀ q k, cl.next q = some k →
      k.Valid (Stmt.Plain c n) c.order n ∧ k.Valid (Stmt.Plain c' n) c'.order n) (q : Q)
    (ρ ρ' : Store α V) (h : ∀ v, SameJets c c' n (ρ v) (ρ' v)) (j : Nat) :
    (cl.run (ddLibrary α V c n) j q ρ = none ∧ cl.run (ddLibrary α V c' n) j q ρ' = none) ∨
    ∃ q' r r', cl.run (ddLibrary α V c n) j q ρ = some (.ok q', r) ∧
      cl.run (ddLibrary α V c' n) j q ρ' = some (.ok q', r') ∧ ∀ v, SameJets c c' n (r v) (r' v) := by
  have hstart : ∃ a a' : V → Nat → α, ρ = (fun v => obj c n (a v)) ∧ ρ' = (fun v => obj c' n (a' v)) ∧
      ∀ v, SameC c c' n (a v) (a' v) := by
    choose a a' h1 h2 h3 using fun v => (h v).contents hv hv'
    exact ⟨a, a', funext h1, funext h2, h3⟩
  obtain h | ⟨q', r, r', h1, h2, a, a', rfl, rfl, h3⟩ := Caller.lockstep (cl := cl)
    (L := ddLibrary α V c n) (L' := ddLibrary α V c' n)
    (Rel := fun ρ ρ' => ∃ a a' : V → Nat → α, ρ = (fun v => obj c n (a v)) ∧
      ρ' = (fun v => obj c' n (a' v)) ∧ ∀ v, SameC c c' n (a v) (a' v))
    (P := fun k => k.Valid (Stmt.Plain c n) c.order n ∧ k.Valid (Stmt.Plain c' n) c'.order n)
    (by
      rintro k _ _ ⟨hk, hk'⟩ ⟨a, a', rfl, rfl, hs⟩
      have h0 : ∀ v, a v 0 = a' v 0 := fun v => (hs v).1 0 (Nat.zero_le _)
      cases k with
      | act s =>
        exact ⟨.done, _, _, by simp only [ddLibrary, Stmt.run_cells hv hf a s hk, Answer.of],
          by simp only [ddLibrary, Stmt.run_cells hv' hf' a' s hk', Answer.of], _, _, rfl, rfl,
          Stmt.cells_same hs s⟩
      | ask b =>
        have hev : ∀ e : Expr α V, e.evalC c n a 0 = e.evalC c' n a' 0 := fun e =>
          (SameC.eval hs e).1 0 (Nat.zero_le _)
        have : ∃ r, b.run c n (fun v => obj c n (a v)) = .ok r ∧
            b.run c' n (fun v => obj c' n (a' v)) = .ok r := by
          cases b <;> simp only [Cond.run, evalDD_obj hv.order hf, evalDD_obj hv'.order hf', Res.ok_bind,
            DD.cmp, DD.cmpS, DD.sCmp, f_obj, hev] <;> exact ⟨_, rfl, rfl⟩
        obtain ⟨r, hr, hr'⟩ := this
        exact ⟨.truth r, _, _, by simp only [ddLibrary, hr, Answer.of],
          by simp only [ddLibrary, hr', Answer.of], _, _, rfl, rfl, hs⟩
      | f v =>
        exact ⟨.number (a v 0), _, _, by simp only [ddLibrary, f_obj, Answer.of],
          by simp only [ddLibrary, f_obj, Answer.of, h0], _, _, rfl, rfl, hs⟩
      | g v i =>
        obtain ⟨i, rfl⟩ : ∃ m : Nat, i = m := ⟨i.toNat, by have := hk.1; omega⟩
        have hi : i < n := by have := hk.2; omega
        exact ⟨.number (a v (1 + i)), _, _, by simp only [ddLibrary, g_obj hf (a v) hi, Answer.of],
          by simp only [ddLibrary, g_obj hf' (a' v) hi, Answer.of, (hs v).1 (1 + i) (by omega)],
          _, _, rfl, rfl, hs⟩
      | h v i j =>
        obtain ⟨h2, hi, hi', hj, hj'⟩ := hk
        obtain ⟨i, rfl⟩ : ∃ m : Nat, i = m := ⟨i.toNat, by omega⟩
        obtain ⟨j, rfl⟩ : ∃ m : Nat, j = m := ⟨j.toNat, by omega⟩
        have e := (hs v).2 (h2.trans hk'.1.symm)
        have e1 := (shows_obj hv.order hf (a v)).h h2 i j (by omega) (by omega)
        have e2 := (shows_obj hv'.order hf' (a' v)).h hk'.1 i j (by omega) (by omega)
        exact ⟨.number ((jetOf n (a v)).h i j), _, _, by simp only [ddLibrary, e1, Answer.of],
          by simp only [ddLibrary, e2, Answer.of, e], _, _, rfl, rfl, hs⟩) hcl j q hstart
  · exact Or.inl h
  · exact Or.inr ⟨q', _, _, h1, h2, fun v => (h3 v).same hv hv' hf hf'⟩

end any

/-! ## Exact derivatives -/

section exact

open XReal (num)

variable {V Q : Type} [DecidableEq V] {c : Cfg} {n : Nat}

/-- **C73, exact derivatives.**  Let client code of any kind run on jets of functions at `x`, reading
values and derivatives whenever it likes.  If the run on functions - statements change the functions,
comparisons look at the values at `x`, reading gives the value or a partial derivative at `x` - ends with
the functions `u'` and every statement is inside its domain, then the run on jets ends, in the same
state, and the jets are the value, gradient and Hessian of these functions at `x`. -/
theorem C73_exact (hv : c.Valid) (hfit : c.tsize = -1 ∨ c.tsize = n)
    (cl : Caller (Call XReal V) (Answer XReal) Q) {q q' : Q} {u u' : (Fin n → ℝ) → V → ℝ}
    {x : Fin n → ℝ} (ρ : Store XReal V) (J : V → Jet ℝ) (hρ : ∀ v, Shows c n (ρ v) (J v).lift)
    (hu : ∀ v, IsJet c.order n (fun y => u y v) x (J v)) (h : cl.Ends (PointCall c.order x) q u q' u') :
    ∃ m ρ', (∀ j ≥ m, cl.run (ddLibrary XReal V c n) j q ρ = some (.ok q', ρ')) ∧
      ∀ v, ∃ K : Jet ℝ, Shows c n (ρ' v) K.lift ∧ IsJet c.order n (fun y => u' y v) x K := by
  obtain ⟨m, ρ', h1, K, h2, h3⟩ := h.run (L := ddLibrary XReal V c n) (Rel := Following c n x)
    (st := ρ) (by
      rintro k u r u' ρ hF hk
      cases hk with
      | act s _ hs =>
        obtain ⟨ρ', h1, h2⟩ := hF.step hv hfit s hs
        exact ⟨ρ', by simp only [ddLibrary, h1, Answer.of], h2⟩
      | ask b _ hb hr =>
        exact ⟨ρ, by simp only [ddLibrary, hF.cond hv hfit b hb hr, Answer.of], hF⟩
      | f v =>
        obtain ⟨J, hJ, hu⟩ := hF
        refine ⟨ρ, ?_, J, hJ, hu⟩
        simp only [ddLibrary, (hJ v).f, Answer.of, Jet.lift, ← (hu v).value]
      | g v i =>
        obtain ⟨J, hJ, hu⟩ := hF
        refine ⟨ρ, ?_, J, hJ, hu⟩
        simp only
          [ddLibrary, (hJ v).g i i.2, Answer.of, Jet.lift, partialD, (hu v).grad.fderiv, lin_single]
      | h v i j _ ho =>
        obtain ⟨J, hJ, hu⟩ := hF
        refine ⟨ρ, ?_, J, hJ, hu⟩
        have := congrFun (congrFun (IsJet.partials (ho ▸ hu v)).2 i) j
        simp only [ddLibrary, (hJ v).h ho i j i.2 j.2, Answer.of, Jet.lift, this])
    ⟨J, hρ, hu⟩
  exact ⟨m, ρ', h1, fun v => ⟨K v, h2 v, h3 v⟩⟩

theorem realCall_det (k : Call ℝ V) (σ : V → ℝ) (r : Answer ℝ) (σ' : V → ℝ) (s : Answer ℝ) (σ'' : V → ℝ)
    (h : RealCall k σ r σ') (h' : RealCall k σ s σ'') : r = s ∧ σ' = σ'' := by
  cases h with
  | act => cases h'; exact ⟨rfl, rfl⟩
  | ask b _ hr =>
    cases h' with
    | ask _ _ hr' => exact ⟨by rw [Bool.eq_iff_iff.2 (hr.trans hr'.symm)], rfl⟩

/-- **C73, the derivatives of what the client code computes.**  If client code that does not read
numbers runs on real numbers at `x` inside the domains and without comparing equal values, then every
function `U` it computes near `x` (and it does compute one, in the same final state) has the resulting
jets as value, gradient and Hessian at `x`. -/
theorem C73_no_ties (hv : c.Valid) (hfit : c.tsize = -1 ∨ c.tsize = n)
    (cl : Caller (Call ℝ V) (Answer ℝ) Q) {q q' : Q} (u : (Fin n → ℝ) → V → ℝ) (x : Fin n → ℝ)
    {σ' : V → ℝ} (ρ : Store XReal V) (J : V → Jet ℝ) (hρ : ∀ v, Shows c n (ρ v) (J v).lift)
    (hu : ∀ v, IsJet c.order n (fun y => u y v) x (J v))
    (h : cl.Ends (SureCall c.order n) q (u x) q' σ') :
    (∀ᶠ y in 𝓝 x, ∃ τ, cl.Ends RealCall q (u y) q' τ) ∧
    ∃ m ρ', (∀ j ≥ m, (cl.map (Call.map num) (Answer.map XReal.real)).run (ddLibrary XReal V c n) j q ρ =
        some (.ok q', ρ')) ∧
      ∀ U : (Fin n → ℝ) → V → ℝ, (∀ᶠ y in 𝓝 x, ∃ q'', cl.Ends RealCall q (u y) q'' (U y)) →
        U x = σ' ∧ ∀ v, ∃ K : Jet ℝ, Shows c n (ρ' v) K.lift ∧ IsJet c.order n (fun y => U y v) x K := by
  obtain ⟨l, hl, hg⟩ := h.path
  obtain ⟨h1, k, ρ', h2, h3⟩ := C61_no_ties hv hfit l.ctl u x σ' ρ J hρ hu hg.runs
  have hends : ∀ y τ, RealRun l.ctl (u y) τ → cl.Ends RealCall q (u y) q' τ := fun y τ hy =>
    hl.ends (Path.goes_runs (fun b a r r' h h' => by rw [Bool.eq_iff_iff, h, h']) hy)
  refine ⟨h1.mono fun y hy => ?_, l.length + 1, ρ', fun j hj => ?_, fun U hU => h3 U ?_⟩
  · obtain ⟨τ, hτ⟩ := hy
    exact ⟨τ, hends y τ hτ⟩
  · have := h2 k le_rfl
    rw [Ctl.run_map] at this
    exact hl.run num _ (Path.goes_run this) j (by omega)
  · filter_upwards [h1, hU] with y ⟨τ, hy⟩ ⟨q'', hy'⟩
    have := (Caller.Ends.det realCall_det (hends y τ hy) hy').2
    rwa [this] at hy

end exact

/-! ## Precision -/

section precise

variable {V Q : Type} [DecidableEq V] [Finite V] {c : Cfg} {n : Nat}

/-- **C73, rounding errors.**  If client code that does not read numbers runs on real numbers at `x`
inside the domains and without comparing equal values, then there is a constant `K` such that in every
arithmetic of sufficient precision `w` the client code ends in the same state and value, gradient and
Hessian of all jets are within `K w` of those of the function `U` it computes. -/
theorem C73_precision (hv : c.Valid) (hfit : c.tsize = -1 ∨ c.tsize = n)
    (cl : Caller (Call ℝ V) (Answer ℝ) Q) {q q' : Q} (u U : (Fin n → ℝ) → V → ℝ) (x : Fin n → ℝ)
    {σ' : V → ℝ} (J : V → Jet ℝ) (hu : ∀ v, IsJet c.order n (fun y => u y v) x (J v))
    (h : cl.Ends (PreciseCall c.order n) q (u x) q' σ')
    (hU : ∀ᶠ y in 𝓝 x, ∃ q'', cl.Ends RealCall q (u y) q'' (U y)) :
    ∃ K w₀ : ℝ, 0 < w₀ ∧ ∃ m : Nat, ∀ (α : Type) [CMath α] (w : ℝ) (M : LibErr α w) (enc : ℝ → α)
      (ρ : Store α V), w ≤ w₀ → ExactCmp M.val → (∀ s, Close w (M.val (enc s)) s) →
      (∀ v, Seed c n M.val w (J v) (ρ v)) →
      ∃ ρ', (∀ j ≥ m, (cl.map (Call.map enc) (Answer.map M.val)).run (ddLibrary α V c n) j q ρ =
          some (.ok q', ρ')) ∧
        ∀ v, ErrLe c M.val (K * w) (fun y => U y v) x (ρ' v) := by
  obtain ⟨l, hl, hg⟩ := h.precisePath
  obtain ⟨ρ₀, hρ₀⟩ : ∃ ρ₀ : Store XReal V, ∀ v, Shows c n (ρ₀ v) (J v).lift :=
    ⟨fun v => obj c n (packJet n (J v).lift), fun v =>
      shows_packJet hv.order hfit _ fun h2 i j hi hj => by
      have := IsJet.sym (h2 ▸ hu v) ⟨i, hi⟩ ⟨j, hj⟩
      simp only [Jet.lift, this]⟩
  have hsafe : SafeRun c.order n l.ctl (u x) σ' := by
    refine (Path.Goes.runs (l := l) (step := fun s σ σ' => s.Ok c.order n σ ∧ σ' = s.den σ)
      (test := fun b σ r => b.Sure c.order σ ∧ (r = true ↔ b.Holds σ)) ?_)
    have hg' := hg
    generalize u x = σ at hg'
    clear hl hU hg h
    induction hg' with
    | nil a => exact .nil a
    | act h _ ih => exact .act ⟨h.1.1, h.2⟩ ih
    | ask h _ ih => exact .ask ⟨h.1.1, h.2⟩ ih
  have h1 := (C61_no_ties hv hfit l.ctl u x σ' ρ₀ J hρ₀ hu hsafe).1
  have hends : ∀ y τ, RealRun l.ctl (u y) τ → cl.Ends RealCall q (u y) q' τ := fun y τ hy =>
    hl.ends (Path.goes_runs (fun b a r r' h h' => by rw [Bool.eq_iff_iff, h, h']) hy)
  have hU' : ∀ᶠ y in 𝓝 x, RealRun l.ctl (u y) (U y) := by
    filter_upwards [h1, hU] with y ⟨τ, hy⟩ ⟨q'', hy'⟩
    have := (Caller.Ends.det realCall_det (hends y τ hy) hy').2
    rwa [this] at hy
  obtain ⟨K, w₀, hw₀, m, hm⟩ := C69_programs hv hfit l.ctl u U x σ' J hu hg.runs hU'
  refine ⟨K, w₀, hw₀, l.length + 1, fun α _ w M enc ρ hw hcmp henc hρ => ?_⟩
  obtain ⟨ρ', h2, h3⟩ := hm α w M enc ρ hw hcmp henc hρ
  refine ⟨ρ', fun j hj => ?_, h3⟩
  have := h2 m le_rfl
  rw [Ctl.run_map] at this
  exact hl.run enc _ (Path.goes_run this) j (by omega)

end precise

/-! ## Examples -/

section examples

open XReal (num)

/-- `while (m > 0) { if (m % 2) { r *= b; m--; } else { b = b * b; m /= 2; } }` with an integer `m`
(names: `b` 0, `r` 1). -/
def exPowers (α : Type) : Caller (Call α (Fin 2)) (Answer α) Nat where
  next m := if m = 0 then none
    else if m % 2 = 1 then some (.act (.upd .mul 1 (.var 0)))
    else some (.act (.assign 0 (.bin .mul (.var 0) (.var 0))))
  after m _ := if m % 2 = 1 then m - 1 else m / 2

theorem exPowers_ends (m : Nat) (σ : Fin 2 → ℝ) :
    ∃ σ', (exPowers ℝ).Ends (PreciseCall 2 1) m σ 0 σ' ∧ σ' 1 = σ 1 * σ 0 ^ m := by
  induction m using Nat.strong_induction_on generalizing σ with
  | _ m ih =>
    by_cases h0 : m = 0
    · subst h0
      exact ⟨σ, .stop (by simp [exPowers]), by simp⟩
    · by_cases h1 : m % 2 = 1
      · obtain ⟨σ', h, e⟩ := ih (m - 1) (by omega) ((Stmt.upd .mul 1 (.var 0)).den σ)
        refine ⟨σ', .call (k := .act (.upd .mul 1 (.var 0))) (r := .done) (by simp [exPowers, h0, h1])
          ⟨.act _ _ (by simp [Stmt.Ok, Expr.Dom, Expr.Regular]), trivial⟩
          (by simpa only [exPowers, h1, if_true] using h), ?_⟩
        rw [e]
        obtain ⟨k, rfl⟩ : ∃ k, m = k + 1 := ⟨m - 1, by omega⟩
        simp [Stmt.den, setVal, AOp.den, Expr.den, pow_succ]
        ring
      · obtain ⟨σ', h, e⟩ := ih (m / 2) (by omega)
          ((Stmt.assign 0 (.bin .mul (.var 0) (.var 0))).den σ)
        refine ⟨σ', .call (k := .act (.assign 0 (.bin .mul (.var 0) (.var 0)))) (r := .done)
          (by simp [exPowers, h0, h1])
          ⟨.act _ _ (by simp [Stmt.Ok, Expr.Dom, Expr.Regular, Bin.dom, Bin.reg]), ⟨trivial, trivial⟩⟩
          (by simpa only [exPowers, h1, if_false] using h), ?_⟩
        rw [e]
        obtain ⟨k, rfl⟩ : ∃ k, m = 2 * k := ⟨m / 2, by omega⟩
        simp [Stmt.den, setVal, Expr.den, Bin.den, ← pow_two, ← pow_mul]

theorem SureCall.real {V : Type} [DecidableEq V] {order n : Nat} {k : Call ℝ V} {σ σ' : V → ℝ}
    {r : Answer ℝ} (h : SureCall order n k σ r σ') : RealCall k σ r σ' := by
  cases h with
  | act s _ hs => exact .act s _
  | ask b _ hb hr => exact .ask b _ hr

/-- Repeated squaring on jets gives the derivatives of `x^N`, for every `N`. -/
example (N : Nat) (x : Fin 1 → ℝ) :
    ∃ m ρ', (∀ j ≥ m, ((exPowers ℝ).map (Call.map num) (Answer.map XReal.real)).run
        (ddLibrary XReal (Fin 2) exDyn2 1) j N
        ![obj exDyn2 1 (varC 0 (num (x 0))), obj exDyn2 1 (constC (num 1))] = some (.ok 0, ρ')) ∧
      ∃ K : Jet ℝ, Shows exDyn2 1 (ρ' 1) K.lift ∧ IsJet 2 1 (fun y => y 0 ^ N) x K := by
  have hf : Fits exDyn2 1 := Or.inl rfl
  choose U hU hU1 using fun y : Fin 1 → ℝ => exPowers_ends N ![y 0, 1]
  obtain ⟨_, m, ρ', h1, h2⟩ := C73_no_ties exDyn2_valid hf (exPowers ℝ) (q := N) (q' := 0)
    (fun y => ![y 0, 1]) x (σ' := U x)
    ![obj exDyn2 1 (varC 0 (num (x 0))), obj exDyn2 1 (constC (num 1))]
    ![varJet 0 (x 0), ⟨1, fun _ => 0, fun _ _ => 0⟩]
    (by
      intro v
      fin_cases v
      · exact (good_var (by omega) _).shows exDyn2_valid.order hf
      · exact (good_const _).shows exDyn2_valid.order hf)
    (by
      intro v
      fin_cases v
      · exact isJet_var _ _ 0
      · exact isJet_const _ _ _)
    ((hU x).mono fun k a r a' h => h.1)
  obtain ⟨-, h3⟩ := h2 U (Filter.Eventually.of_forall fun y =>
    ⟨0, (hU y).mono fun k a r a' h => h.1.real⟩)
  obtain ⟨K, k1, k2⟩ := h3 1
  refine ⟨m, ρ', h1, K, k1, ?_⟩
  have e : (fun y => U y 1) = fun y : Fin 1 → ℝ => y 0 ^ N := funext fun y => by
    rw [hU1 y]; simp
  exact e ▸ k2

/-- The same in double precision and beyond. -/
example (N : Nat) (x : Fin 1 → ℝ) :
    ∃ K w₀ : ℝ, 0 < w₀ ∧ ∃ m : Nat, ∀ (α : Type) [CMath α] (w : ℝ) (M : LibErr α w) (enc : ℝ → α)
      (ρ : Store α (Fin 2)), w ≤ w₀ → ExactCmp M.val → (∀ s, Close w (M.val (enc s)) s) →
      (∀ v, Seed exDyn2 1 M.val w
        ((![varJet 0 (x 0), ⟨1, fun _ => 0, fun _ _ => 0⟩] : Fin 2 → Jet ℝ) v) (ρ v)) →
      ∃ ρ', (∀ j ≥ m, ((exPowers ℝ).map (Call.map enc) (Answer.map M.val)).run
          (ddLibrary α (Fin 2) exDyn2 1) j N ρ = some (.ok 0, ρ')) ∧
        ErrLe exDyn2 M.val (K * w) (fun y => y 0 ^ N) x (ρ' 1) := by
  choose U hU hU1 using fun y : Fin 1 → ℝ => exPowers_ends N ![y 0, 1]
  obtain ⟨K, w₀, h0, m, h⟩ := C73_precision exDyn2_valid (n := 1) (Or.inl rfl) (exPowers ℝ) (q := N)
    (q' := 0) (fun y => ![y 0, 1]) U x ![varJet 0 (x 0), ⟨1, fun _ => 0, fun _ _ => 0⟩]
    (by
      intro v
      fin_cases v
      · exact isJet_var _ _ 0
      · exact isJet_const _ _ _)
    (hU x) (Filter.Eventually.of_forall fun y => ⟨0, (hU y).mono fun k a r a' h => h.1.real⟩)
  refine ⟨K, w₀, h0, m, fun α _ w M enc ρ hw hc he hρ => ?_⟩
  obtain ⟨ρ', h1, h2⟩ := h α w M enc ρ hw hc he hρ
  have e : (fun y => U y 1) = fun y : Fin 1 → ℝ => y 0 ^ N := funext fun y => by
    rw [hU1 y]; simp
  exact ⟨ρ', h1, e ▸ h2 1⟩

/-- In all classes, in any arithmetic: the same numbers. -/
example {α : Type} [CMath α] (N j : Nat) (x : α) :
    ((exPowers α).run (ddLibrary α (Fin 2) exDyn1 1) j N
        ![obj exDyn1 1 (varC 0 x), obj exDyn1 1 (constC (Arith.lit 1))] = none ∧
      (exPowers α).run (ddLibrary α (Fin 2) exDyn2 1) j N
        ![obj exDyn2 1 (varC 0 x), obj exDyn2 1 (constC (Arith.lit 1))] = none) ∨
    ∃ q' r r', (exPowers α).run (ddLibrary α (Fin 2) exDyn1 1) j N
        ![obj exDyn1 1 (varC 0 x), obj exDyn1 1 (constC (Arith.lit 1))] = some (.ok q', r) ∧
      (exPowers α).run (ddLibrary α (Fin 2) exDyn2 1) j N
        ![obj exDyn2 1 (varC 0 x), obj exDyn2 1 (constC (Arith.lit 1))] = some (.ok q', r') ∧
      ∀ v, SameJets exDyn1 exDyn2 1 (r v) (r' v) := by
  refine C73_types exDyn1_valid exDyn2_valid (Or.inl rfl) (Or.inl rfl) _ (fun q k hk => ?_) N _ _
    (fun v => ?_) j
  · simp only [exPowers] at hk
    split at hk
    · cases hk
    · split at hk <;> cases hk <;> simp [Call.Valid, Stmt.Plain]
  · fin_cases v <;>
      exact SameC.same exDyn1_valid exDyn2_valid (Or.inl rfl) (Or.inl rfl)
        ⟨fun _ _ => rfl, fun _ => rfl⟩

/-- A step of Newton's method for `x² = 2` that reads value and derivative: `r = x * x - 2;
x -= r.f() / r.g(0);` (names: `x` 0, `r` 1). -/
noncomputable def exStep : Caller (Call XReal (Fin 2)) (Answer XReal) (Nat × XReal) where
  next
    | (0, _) => some (.act (.assign 1 (.bin .sub (.bin .mul (.var 0) (.var 0)) (.const (num 2)))))
    | (1, _) => some (.f 1)
    | (2, _) => some (.g 1 0)
    | (3, s) => some (.act (.updS .sub 0 (.val s)))
    | _ => none
  after
    | (1, _), .number t => (2, t)
    | (2, s), .number t => (3, s ÷ₛ t)
    | (k, s), _ => (k + 1, s)

theorem exStep_ends (a : ℝ) (ha : a ≠ 0) : ∃ s, exStep.Ends (PointCall 2 fun _ : Fin 1 => a) (0, num 0)
    (fun y => ![y 0, 0]) (4, s) (fun y => ![y 0 - (a * a - 2) / (2 * a), y 0 * y 0 - 2]) := by
  refine ⟨num ((a * a - 2) / (2 * a)), ?_⟩
  have h1 : (fun y : Fin 1 → ℝ => (Stmt.assign (1 : Fin 2)
      (.bin .sub (.bin .mul (.var 0) (.var 0)) (.const (2 : ℝ)))).den ![y 0, 0]) =
        fun y => ![y 0, y 0 * y 0 - 2] := by
    funext y v
    fin_cases v <;> simp [Stmt.den, setVal, Expr.den, Bin.den]
  have h2 : partialD (fun y : Fin 1 → ℝ => y 0 * y 0 - 2) (fun _ => a) 0 = 2 * a := by
    have h0 : HasFDerivAt (fun y : Fin 1 → ℝ => y 0) (ContinuousLinearMap.proj (R := ℝ) (0 : Fin 1))
        (fun _ => a) := hasFDerivAt_apply (0 : Fin 1) _
    have := (h0.mul h0).sub_const 2
    rw [partialD]
    erw [this.fderiv]
    simp
    ring
  refine .call (k := .act (Stmt.map num (.assign 1 (.bin .sub (.bin .mul (.var 0) (.var 0))
    (.const (2 : ℝ)))))) rfl (.act _ _ ?_) ?_
  · simp [Stmt.Ok, Expr.Dom, Expr.Regular, Bin.dom, Bin.reg]
  rw [h1]
  refine .call (k := .f 1) rfl (.f _ _) (.call (k := .g 1 ((0 : Fin 1) : Nat)) rfl (.g _ _ _) ?_)
  have h3 : exStep.after (exStep.after (exStep.after (0, num 0) .done) (.number (num
      ((![a, a * a - 2] : Fin 2 → ℝ) 1)))) (.number (num (2 * a))) =
        (3, num ((a * a - 2) / (2 * a))) := by
    show ((3 : Nat), num (a * a - 2) ÷ₛ num (2 * a)) = _
    rw [XReal.div_num (by positivity)]
  have h4 : partialD (fun y : Fin 1 → ℝ => (![y 0, y 0 * y 0 - 2] : Fin 2 → ℝ) 1)
    (fun _ => a) 0 = 2 * a := h2
  rw [h4]
  erw [h3]
  have h5 : (fun y : Fin 1 → ℝ => (Stmt.updS .sub (0 : Fin 2) (.val ((a * a - 2) / (2 * a)))).den
      (![y 0, y 0 * y 0 - 2] : Fin 2 → ℝ)) =
        fun y => ![y 0 - (a * a - 2) / (2 * a), y 0 * y 0 - 2] := by
    funext y v
    fin_cases v <;> simp [Stmt.den, setVal, AOp.den]
  refine .call (k := .act (Stmt.map num (.updS .sub 0 (.val ((a * a - 2) / (2 * a)))))) rfl
    (.act _ _ ?_) ?_
  · simp [Stmt.Ok]
  rw [h5]
  exact .stop rfl

/-- The new `x` has the value of Newton's step and the derivative 1: numbers that are read have no
derivatives. -/
example (a : ℝ) (ha : a ≠ 0) : ∃ q' m ρ', (∀ j ≥ m, exStep.run (ddLibrary XReal (Fin 2) exDyn2 1) j
      (0, num 0) ![obj exDyn2 1 (varC 0 (num a)), obj exDyn2 1 (constC (num 0))] = some (.ok q', ρ')) ∧
    (ρ' 0).f = .ok (num (a - (a * a - 2) / (2 * a))) ∧ (ρ' 0).g exDyn2 0 = .ok (num 1) := by
  have hf : Fits exDyn2 1 := Or.inl rfl
  obtain ⟨s, h⟩ := exStep_ends a ha
  obtain ⟨m, ρ', h1, h2⟩ := C73_exact exDyn2_valid hf exStep
    ![obj exDyn2 1 (varC 0 (num a)), obj exDyn2 1 (constC (num 0))]
    ![varJet 0 a, ⟨0, fun _ => 0, fun _ _ => 0⟩]
    (by
      intro v
      fin_cases v
      · exact (good_var (by omega) _).shows exDyn2_valid.order hf
      · exact (good_const _).shows exDyn2_valid.order hf)
    (by
      intro v
      fin_cases v
      · exact isJet_var _ _ 0
      · exact isJet_const _ _ _) h
  obtain ⟨K, k1, k2⟩ := h2 0
  refine ⟨_, m, ρ', h1, ?_, ?_⟩
  · rw [k1.f]
    show Res.ok (num K.f) = _
    rw [← k2.value]
    rfl
  · have e := k1.g 0 (by omega)
    rw [show ((0 : Nat) : Int) = 0 from rfl] at e
    rw [e]
    show Res.ok (num (K.g 0)) = _
    have := congrFun k2.partials.1 0
    rw [show K.g 0 = K.g ((0 : Fin 1) : Nat) from rfl, ← this]
    have h0 : HasFDerivAt (fun y : Fin 1 → ℝ => y 0) (ContinuousLinearMap.proj (R := ℝ) (0 : Fin 1))
        (fun _ => a) := hasFDerivAt_apply (0 : Fin 1) _
    have h3 := h0.sub_const ((a * a - 2) / (2 * a))
    rw [partialD]
    erw [h3.fderiv]
    simp

/-- It cannot fail, whatever the arithmetic. -/
example {α : Type} [CMath α] (N j : Nat) (x : α) :
    (exPowers α).run (ddLibrary α (Fin 2) exDyn2 1) j N
        ![obj exDyn2 1 (varC 0 x), obj exDyn2 1 (constC (Arith.lit 1))] = none ∨
    ∃ q' r, (exPowers α).run (ddLibrary α (Fin 2) exDyn2 1) j N
        ![obj exDyn2 1 (varC 0 x), obj exDyn2 1 (constC (Arith.lit 1))] = some (.ok q', r) ∧
      ∀ v, WF exDyn2 1 (r v) := by
  refine C73_safe exDyn2_valid (Or.inl rfl) _ (fun q k hk => ?_) N _ (fun v => ?_) j
  · simp only [exPowers] at hk
    split at hk
    · cases hk
    · split at hk <;> cases hk <;> simp [Call.Valid, Stmt.Plain]
  · fin_cases v <;> exact wf_obj exDyn2_valid.order (Or.inl rfl) _

/-- It computes the powers that it computes on plain numbers. -/
example (N j : Nat) (x : XReal) :
    ((exPowers XReal).run (ddLibrary XReal (Fin 2) exDyn2 1) j N
        ![obj exDyn2 1 (varC 0 x), obj exDyn2 1 (constC (num 1))] = none ∧
      (exPowers XReal).run (plainLibrary XReal (Fin 2)) j N ![x, num 1] = none) ∨
    ∃ q' r σ', (exPowers XReal).run (ddLibrary XReal (Fin 2) exDyn2 1) j N
        ![obj exDyn2 1 (varC 0 x), obj exDyn2 1 (constC (num 1))] = some (.ok q', r) ∧
      (exPowers XReal).run (plainLibrary XReal (Fin 2)) j N ![x, num 1] = some (.ok q', σ') ∧
      ∀ v, WF exDyn2 1 (r v) ∧ (r v).f = .ok (σ' v) := by
  refine C73_path xreal_comm xreal_cmp exDyn2_valid (Or.inl rfl) _ (fun q k hk => ?_) N _ _
    (fun v => ?_) (fun v => ?_) j
  · simp only [exPowers] at hk
    split at hk
    · cases hk
    · split at hk <;> cases hk <;> simp [Call.NoDerivs, Stmt.Plain]
  · fin_cases v <;> exact wf_obj exDyn2_valid.order (Or.inl rfl) _
  · fin_cases v <;> exact f_obj _ _ _

end examples

end HJ
