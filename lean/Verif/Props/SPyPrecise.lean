import Verif.Proofs.SPyPrecise
import Verif.Props.Finite
import Verif.Props.PyCaller

/-!
# C83: rounding errors of Python client code of any kind on `SScalar`
-/

namespace HJ

open Filter Topology Asymptotics SMap

section

variable {V Q : Type} [DecidableEq V] {x : String → ℝ}

theorem SWithin.mono {α : Type} [CMath α] {B B' : α → ℝ → Prop} {N : Set String}
    {F : (String → ℝ) → ℝ} {r : SS α} (h : SWithin B N F x r) (hB : ∀ s t, B s t → B' s t) :
    SWithin B' N F x r := by
  obtain ⟨⟨a, e1, e2⟩, e3⟩ := h
  exact ⟨⟨a, e1, hB _ _ e2⟩, fun k hk => hB _ _ (e3 k hk)⟩

/-- **C83.**  Let Python client code of any kind that does not use `float(v)` run on functions of named
variables at `x` inside the domains, without comparing equal values and with `**` of positive numbers only.
There are a constant `K`, a precision, a range and a number of calls such that in every arithmetic of at
least that precision and range, for every iteration order of the hash tables, the client code on `SScalar`
ends in the same state within that many calls, with the same objects under the same names, and the numbers,
and the values and the derivatives for all names in `N` of the objects, are finite and within `K` times the
error of one operation of the exact ones. -/
theorem C83_rate [Finite V] (cl : Caller (PyCall (SPyStmt ℝ V) (SPyCond ℝ V) V) (Answer ℝ) Q) {q q' : Q}
    {σ σ' : SMathSt V} (N : Finset String)
    (hu : ∀ a < σ.next, ∀ k, DifferentiableAt ℝ (fun t => σ.mean a (Function.update x k t)) (x k))
    (h : cl.Ends (SPyPreciseCall x) q σ q' σ') :
    ∃ K w₀ B : ℝ, 0 < w₀ ∧ ∃ m : Nat, ∀ (α : Type) [CMath α] (w : Prec) (M : FinErr α w)
      (enc : ℝ → α) (ord : Order α) (st : SPySt α V), ord.Ok → w.rel ≤ w₀ → w.abs ≤ w₀ →
      Set.Icc (-B) B ⊆ w.range → M.ExactCmp → (∀ s, M.Sound (enc s) s) →
      st.Like M.Sound (fun a r => SWF r ∧ SWithin M.Sound Set.univ (σ.mean a) x r) σ →
      ∃ p, (∀ j ≥ m, (cl.map (PyCall.map (SPyStmt.map enc) (SPyCond.map enc)) (Answer.map M.val)).run
          (spyLibrary α V) j q (ord, st) = some (.ok q', p)) ∧
        p.2.Like (fun s t => M.fin s ∧ |M.val s - t| ≤ K * (w.rel + w.abs))
          (fun a => SWithin (fun s t => M.fin s ∧ |M.val s - t| ≤ K * (w.rel + w.abs)) N (σ'.mean a) x)
          σ' := by
  by_contra hcon
  push Not at hcon
  choose α inst w M enc ord st ho hle hle' hrng hcmp hclose hseed hbad using
    fun k : ℕ => hcon k (1 / ((k : ℝ) + 1)) k (by positivity) k
  have hw := fine_self (fun k => (M k).rel_nonneg) (fun k => (M k).abs_nonneg) hle hle' hrng
  have lim : ∀ {b : ∀ k, α k} {r : ℝ}, (∀ k, (M k).Sound (b k) r) →
      Lim M atTop (fun k => (w k).rel + (w k).abs) b (fun _ => r) r := fun h =>
    Lim.close hw (Nigh.const _) (Eventually.of_forall h)
  have henc : ∀ s, Lim M atTop (fun k => (w k).rel + (w k).abs) (fun k => enc k s) (fun _ => s) s :=
    fun s => lim fun k => hclose k s
  have h0 : SPyNear M atTop (fun k => (w k).rel + (w k).abs) x st σ := by
    refine ⟨.of_forall fun k => (hseed k).next, fun v r hr => ?_, fun v a ha => ?_, fun a ha => ?_⟩
    · have : ∀ k, ∃ s, (st k).env v = .num s ∧ (M k).Sound s r := fun k => by
        rcases (hseed k).env v with ⟨s, r', h1, h2, h3⟩ | ⟨a, _, _, h2⟩
        · rw [hr] at h2; cases h2; exact ⟨s, h1, h3⟩
        · rw [hr] at h2; cases h2
      choose s h1 h2 using this
      exact ⟨s, .of_forall h1, lim h2⟩
    · have : ∀ k, a < σ.next ∧ (st k).env v = .ref a := fun k => by
        rcases (hseed k).env v with ⟨s, r', _, h2, _⟩ | ⟨a', ha', h1, h2⟩
        · rw [ha] at h2; cases h2
        · rw [ha] at h2; cases h2; exact ⟨ha', h1⟩
      exact ⟨(this 0).1, .of_forall fun k => (this k).2⟩
    · exact SObjNear.of_within (hu a ha) lim fun k => (hseed k).obj a ha
  obtain ⟨m, p, h1, h2⟩ := spyclient_near hw hcmp henc h ho h0
  have hω : ∀ k, ‖(w k).rel + (w k).abs‖ = (w k).rel + (w k).abs := fun k =>
    Real.norm_of_nonneg (add_nonneg (M k).rel_nonneg (M k).abs_nonneg)
  have hnum : ∀ᶠ C : ℝ in atTop, ∀ᶠ k in atTop, ∀ v,
      (∃ s r, (p k).2.env v = .num s ∧ σ'.env v = .num r ∧
        ((M k).fin s ∧ |(M k).val s - r| ≤ C * ((w k).rel + (w k).abs))) ∨
      ∃ a < σ'.next, (p k).2.env v = .ref a ∧ σ'.env v = .ref a := by
    have each : ∀ v, ∀ᶠ C : ℝ in atTop, ∀ᶠ k in atTop,
        (∃ s r, (p k).2.env v = .num s ∧ σ'.env v = .num r ∧
          ((M k).fin s ∧ |(M k).val s - r| ≤ C * ((w k).rel + (w k).abs))) ∨
        ∃ a < σ'.next, (p k).2.env v = .ref a ∧ σ'.env v = .ref a := fun v => by
      cases he : σ'.env v with
      | num r =>
        obtain ⟨s, k1, k2⟩ := h2.num v r he
        refine (isBigO_iff_eventually_isBigOWith.1 k2.rate).mono fun C hC => ?_
        refine ((k2.fin.and hC.bound).and k1).mono fun k hk => Or.inl ⟨s k, r, hk.2, rfl, hk.1.1, ?_⟩
        have := hk.1.2
        rwa [Real.norm_eq_abs, hω] at this
      | ref a =>
        obtain ⟨ha, k1⟩ := h2.ref v a he
        exact .of_forall fun C => k1.mono fun k hk => Or.inr ⟨a, ha, hk, rfl⟩
    exact (eventually_all.2 each).mono fun C hC => eventually_all.2 hC
  have hobj : ∀ᶠ C : ℝ in atTop, ∀ᶠ k in atTop, ∀ a : Fin σ'.next,
      SWithin (fun s t => (M k).fin s ∧ |(M k).val s - t| ≤ C * ((w k).rel + (w k).abs)) N (σ'.mean a) x
        ((p k).2.heap a) := by
    refine (eventually_all.2 fun a : Fin σ'.next => (h2.objs a a.2).errLe N).mono
      fun C hC => eventually_all.2 fun a => (hC a).mono fun k hk => ?_
    rwa [hω] at hk
  obtain ⟨C, hC, hC'⟩ := (hnum.and hobj).exists
  obtain ⟨k, ⟨⟨⟨⟨hk, hk'⟩, hr⟩, hCk⟩, hmk⟩, hnext⟩ := (((((hC.and hC').and h1).and
    ((tendsto_natCast_atTop_atTop (R := ℝ)).eventually_ge_atTop C)).and
    (eventually_ge_atTop m)).and h2.next).exists
  have le := mul_le_mul_of_nonneg_right hCk (add_nonneg (M k).rel_nonneg (M k).abs_nonneg)
  refine hbad k (p k) (fun j hj => hr j (le_trans hmk hj)) ⟨hnext, fun v => ?_, fun a ha => ?_⟩
  · rcases hk v with ⟨s, r, e1, e2, e3, e4⟩ | h
    · exact Or.inl ⟨s, r, e1, e2, e3, e4.trans le⟩
    · exact Or.inr h
  · exact (hk' ⟨a, ha⟩).mono fun s t hst => ⟨hst.1, hst.2.trans le⟩

/-- **C83, formats.**  The same for the formats with `p` bits and exponents up to `emax`, started with names
for numbers only; the variables are created by the client code itself. -/
theorem C83_formats [Finite V] (cl : Caller (PyCall (SPyStmt ℝ V) (SPyCond ℝ V) V) (Answer ℝ) Q)
    {q q' : Q} (start : V → ℝ) {σ σ' : SMathSt V} (N : Finset String) (h0 : σ.next = 0)
    (hs : ∀ v, σ.env v = .num (start v)) (h : cl.Ends (SPyPreciseCall x) q σ q' σ') :
    ∃ (K : ℝ) (k m : Nat), ∀ b ≥ k, ∀ emax ≥ k, ∀ (ord : Order (IEEE b emax)) (st : SPySt (IEEE b emax) V),
      ord.Ok → st.next = 0 → (∀ v, st.env v = .num (IEEE.enc b emax (start v))) →
      ∃ p,
        (∀ j ≥ m, (cl.map (PyCall.map (SPyStmt.map (IEEE.enc b emax)) (SPyCond.map (IEEE.enc b emax)))
          (Answer.map IEEE.real)).run (spyLibrary _ V) j q (ord, st) = some (.ok q', p)) ∧
        p.2.Like (fun s t => s.val.Fin ∧ |s.real - t| ≤ K / 2 ^ b)
          (fun a => SWithin (fun s t => s.val.Fin ∧ |s.real - t| ≤ K / 2 ^ b) N (σ'.mean a) x) σ' := by
  obtain ⟨K, u₀, B, hu, m, hm⟩ := C83_rate cl N (fun a ha => absurd ha (by omega)) h
  obtain ⟨k, hk, hfmt⟩ := fmt_enough hu B
  refine ⟨2 * |K|, k, m, fun b hb emax he ord st ho hst hse => ?_⟩
  obtain ⟨f1, f2, f3⟩ := hfmt b hb emax he
  obtain ⟨p, h1, h2⟩ := hm _ _ (ieeeErr b emax (hk.trans hb) (hk.trans he)) (IEEE.enc b emax) ord st ho
    f1 f2 f3 (ieee_exactCmp _ _) (ieee_enc _ _)
    ⟨hst.trans h0.symm, fun v => Or.inl ⟨_, _, hse v, hs v, ieee_enc _ _ _⟩,
      fun a ha => absurd ha (by omega)⟩
  have le := fmt_rate (p := b) (le_trans (by omega : 1 ≤ k) he) K
  refine ⟨p, h1, h2.next, fun v => ?_, fun a ha => ?_⟩
  · rcases h2.env v with ⟨s, r, e1, e2, e3, e4⟩ | h
    · exact Or.inl ⟨s, r, e1, e2, e3, e4.trans le⟩
    · exact Or.inr h
  · exact (h2.obj a ha).mono fun s t hst => ⟨hst.1, hst.2.trans le⟩

/-- **C83, what the functions are.**  If the client code starts with numbers only and does not throw
derivatives away (`e.f`, `e.d(k)`), then `σ'` is, on the coordinate lines through `x` near `x`, what the
client code computes there on plain numbers. -/
theorem C83_functions (cl : Caller (PyCall (SPyStmt ℝ V) (SPyCond ℝ V) V) (Answer ℝ) Q) {q q' : Q}
    {σ σ' : SMathSt V} (h0 : σ.next = 0) (hs : ∀ v, ∃ r, σ.env v = .num r)
    (h : cl.Ends (SPySureCall x) q σ q' σ') (U : (String → ℝ) → PtSt V)
    (hU : ∀ᶠ y in nearLines x, ∃ q'', cl.Ends (SPyRealCall x y) q (σ.at y) q'' (U y)) :
    ∀ᶠ y in nearLines x, σ'.at y = U y := by
  choose r hr using hs
  have hst : SPySt.IsAt x (⟨fun v => .num (.num (r v)), fun _ => ⟨none, []⟩, 0⟩ : SPySt XReal V) σ :=
    ⟨h0.symm, fun v => Or.inl ⟨r v, rfl, hr v⟩, fun a ha => absurd ha (by omega)⟩
  have ho : Order.Ok (fun _ m => m : Order XReal) := fun _ m => List.Perm.refl m
  have h1 := (C77_sparse_no_ties cl _ hst ho h).1
  exact (h1.and hU).mono fun y ⟨hy, q'', hy'⟩ =>
    (Caller.Ends.det (pyMakes_det (fun s a a' a'' h h' => h.trans h'.symm)
      (fun b a r r' h h' => by rw [Bool.eq_iff_iff, h, h'])) hy hy').2

end

/-! ## Examples -/

/-- `a = SScalar.variable("u", s)` and then `m` times `b *= a`. -/
noncomputable def exSPyPowers (s : ℝ) (m : Nat) :
    Caller (PyCall (SPyStmt ℝ (Fin 2)) (SPyCond ℝ (Fin 2)) (Fin 2)) (Answer ℝ) (Option Nat) where
  next
    | none => some (.act (.assign 0 (.vari "u" s)))
    | some 0 => none
    | some (_ + 1) => some (.act (.upd .mul 1 (.name 0)))
  after
    | none, _ => some m
    | some m, _ => some (m - 1)

theorem exSPyPowers_loop (s : ℝ) (N m : Nat) (x : String → ℝ) (σ : SMathSt (Fin 2))
    (g : (String → ℝ) → ℝ) (h0 : σ.env 0 = .ref 0) (hm : σ.mean 0 = fun y => y "u") (hn : 0 < σ.next)
    (h1 : (∃ s, σ.env 1 = .num s) ∨ ∃ b, 0 < b ∧ σ.env 1 = .ref b)
    (hr : ∀ y, (σ.at y).read 1 = g y) :
    ∃ σ', (exSPyPowers s N).Ends (fun k a r a' => SPySureCall x k a r a' ∧ SPyPreciseCall x k a r a')
      (some m) σ (some 0) σ' ∧ (∀ y, (σ'.at y).read 1 = g y * y "u" ^ m) ∧
      ((m = 0 ∧ σ' = σ) ∨ ∃ b, σ'.env 1 = .ref b) := by
  induction m generalizing σ g with
  | zero => exact ⟨σ, .stop rfl, fun y => by rw [hr]; simp, Or.inl ⟨rfl, rfl⟩⟩
  | succ m ih =>
    have hv : σ.val 0 = .fn fun y => y "u" := by simp only [SMathSt.val, h0, hm]
    have hd : (SPyE.name 0 : SPyE ℝ (Fin 2)).Den x σ.val (.fn fun y => y "u") := hv ▸ .name 0
    rcases h1 with ⟨s, h1⟩ | ⟨b, hb, h1⟩
    · obtain ⟨σ', k1, k2, k3⟩ := ih (σ.fresh 1 (.fn fun y => s * y "u")) (fun y => g y * y "u")
        (by simp [SMathSt.fresh, SMathSt.bind, SMathSt.write, h0])
        (by simp [SMathSt.fresh, SMathSt.bind, SMathSt.write, hm, hn.ne])
        (Nat.succ_pos _)
        (Or.inr ⟨σ.next, hn, by simp [SMathSt.fresh, SMathSt.bind, SMathSt.write]⟩)
        (fun y => by
          have := hr y
          simp only [PtSt.read, SMathSt.at, h1] at this
          simp [PtSt.read, SMathSt.at, SMathSt.fresh, SMathSt.bind, SMathSt.write, this])
      have hs : (SPyStmt.upd .mul 1 (.name 0) : SPyStmt ℝ (Fin 2)).Den x σ
          (σ.fresh 1 (.fn fun y => s * y "u")) := .updNum h1 (.opLeft (.lit s) hd (by simp))
      refine ⟨σ', .call rfl ⟨.act ⟨trivial, hs⟩, .act ⟨hs, trivial⟩⟩ k1,
        fun y => by rw [k2]; ring, Or.inr ?_⟩
      rcases k3 with ⟨_, rfl⟩ | h
      · exact ⟨σ.next, by simp [SMathSt.fresh, SMathSt.bind, SMathSt.write]⟩
      · exact h
    · obtain ⟨σ', k1, k2, k3⟩ := ih (σ.write b fun y => σ.mean b y * y "u") (fun y => g y * y "u") h0
        (by simp [SMathSt.write, hm, hb.ne]) hn (Or.inr ⟨b, hb, h1⟩)
        (fun y => by
          have := hr y
          simp only [PtSt.read, SMathSt.at, h1] at this
          simp [PtSt.read, SMathSt.at, SMathSt.write, h1, this])
      have hs : (SPyStmt.upd .mul 1 (.name 0) : SPyStmt ℝ (Fin 2)).Den x σ
          (σ.write b fun y => σ.mean b y * y "u") := .updFn h1 hd (by simp) (fun _ => by
          rintro ⟨v, hv, hv'⟩; cases hv; rw [h0] at hv'; cases hv'; omega)
      refine ⟨σ', .call rfl ⟨.act ⟨trivial, hs⟩, .act ⟨hs, trivial⟩⟩ k1,
        fun y => by rw [k2]; ring, Or.inr ?_⟩
      rcases k3 with ⟨_, rfl⟩ | h
      · exact ⟨b, h1⟩
      · exact h

/-- Numbers only. -/
def exSPyOnes : SMathSt (Fin 2) := ⟨fun _ => .num 1, fun _ _ => 0, 0⟩

theorem exSPyPowers_ends (N : Nat) (x : String → ℝ) :
    ∃ σ', (exSPyPowers (x "u") N).Ends
      (fun k a r a' => SPySureCall x k a r a' ∧ SPyPreciseCall x k a r a') none exSPyOnes (some 0) σ' ∧
      (∀ y, (σ'.at y).read 1 = y "u" ^ N) ∧ (0 < N → ∃ b, σ'.env 1 = .ref b) := by
  have hs : (SPyStmt.assign 0 (.vari "u" (x "u")) : SPyStmt ℝ (Fin 2)).Den x exSPyOnes
      (exSPyOnes.fresh 0 (.fn fun y => x "u" + (y "u" - x "u"))) :=
    .assign (.vari "u" (x "u")) (by simp)
  obtain ⟨σ', h1, h2, h3⟩ := exSPyPowers_loop (x "u") N N x
    (exSPyOnes.fresh 0 (.fn fun y => x "u" + (y "u" - x "u"))) (fun _ => 1)
    (by simp [SMathSt.fresh, SMathSt.bind, SMathSt.write, exSPyOnes])
    (by simp [SMathSt.fresh, SMathSt.bind, SMathSt.write, exSPyOnes])
    (Nat.succ_pos _)
    (Or.inl ⟨1, by simp [SMathSt.fresh, SMathSt.bind, SMathSt.write, exSPyOnes]⟩)
    (fun y => by simp [PtSt.read, SMathSt.at, SMathSt.fresh, SMathSt.bind, SMathSt.write, exSPyOnes])
  refine ⟨σ', .call rfl ⟨.act ⟨trivial, hs⟩, .act ⟨hs, trivial⟩⟩ h1,
    fun y => by rw [h2, one_mul], fun hN => ?_⟩
  rcases h3 with ⟨h, _⟩ | h
  · omega
  · exact h

/-- `b = 1.0`, `a = SScalar.variable("u", x)`, `N ≥ 1` times `b *= a`: in formats that are precise and wide
enough, `b` is then an object with the value of the `N`-th power, the derivative `N x^(N-1)` for `u` and `0`
for any other name, up to `K / 2 ^ p`. -/
example (N : Nat) (hN : 0 < N) (x : String → ℝ) (other : String) (hne : other ≠ "u") :
    ∃ (K : ℝ) (k m : Nat), ∀ b ≥ k, ∀ emax ≥ k,
    ∀ (ord : Order (IEEE b emax)) (st : SPySt (IEEE b emax) (Fin 2)), ord.Ok → st.next = 0 →
      (∀ v, st.env v = .num (IEEE.enc b emax 1)) →
      ∃ p, (∀ j ≥ m, ((exSPyPowers (x "u") N).map
          (PyCall.map (SPyStmt.map (IEEE.enc b emax)) (SPyCond.map (IEEE.enc b emax)))
          (Answer.map IEEE.real)).run (spyLibrary _ (Fin 2)) j none (ord, st) =
            some (.ok (some 0), p)) ∧
        ∃ a, p.2.env 1 = .ref a ∧
          (∃ r, (p.2.heap a).f = .ok r ∧ r.val.Fin ∧ |r.real - x "u" ^ N| ≤ K / 2 ^ b) ∧
          (((p.2.heap a).d "u").val.Fin ∧
            |((p.2.heap a).d "u").real - N * x "u" ^ (N - 1)| ≤ K / 2 ^ b) ∧
          (((p.2.heap a).d other).val.Fin ∧ |((p.2.heap a).d other).real| ≤ K / 2 ^ b) := by
  obtain ⟨σ', h1, h2, h3⟩ := exSPyPowers_ends N x
  obtain ⟨e, he⟩ := h3 hN
  obtain ⟨K, k, m, h⟩ := C83_formats (exSPyPowers (x "u") N) (fun _ => 1) {"u", other} rfl
    (fun _ => rfl) (h1.mono fun _ _ _ _ h => h.2)
  refine ⟨K, k, m, fun b hb emax hemax ord st ho hst hse => ?_⟩
  obtain ⟨p, k1, k2⟩ := h b hb emax hemax ord st ho hst hse
  refine ⟨p, k1, e, ?_⟩
  rcases k2.env 1 with ⟨_, _, _, k3, _⟩ | ⟨a, ha, k3, k4⟩
  · rw [he] at k3; cases k3
  · rw [he] at k4; cases k4
    have hf : σ'.mean e = fun y => y "u" ^ N := funext fun y => by
      rw [← h2 y]; simp only [PtSt.read, SMathSt.at, he]
    obtain ⟨e2, e3⟩ := k2.obj e ha
    have d1 := e3 "u" (by simp)
    have d2 := e3 other (by simp)
    simp only [hf] at e2 d1 d2
    refine ⟨k3, e2, ?_, ?_⟩
    · have : deriv (fun t : ℝ => Function.update x "u" t "u" ^ N) (x "u") = N * x "u" ^ (N - 1) := by
        simp
      rwa [this] at d1
    · have : deriv (fun t : ℝ => Function.update x other t "u" ^ N) (x other) = 0 := by
        simp [Function.update_of_ne (Ne.symm hne)]
      rwa [this, sub_zero] at d2

/-- And its meaning is what the loop computes on numbers. -/
example (N : Nat) (x : String → ℝ) (U : (String → ℝ) → PtSt (Fin 2))
    (hU : ∀ᶠ y in nearLines x, ∃ q,
      (exSPyPowers (x "u") N).Ends (SPyRealCall x y) none (exSPyOnes.at y) q (U y)) :
    ∀ᶠ y in nearLines x, (U y).read 1 = y "u" ^ N := by
  obtain ⟨σ', h1, h2, _⟩ := exSPyPowers_ends N x
  exact (C83_functions (exSPyPowers (x "u") N) rfl (fun _ => ⟨1, rfl⟩)
    (h1.mono fun _ _ _ _ h => h.1) U hU).mono fun y hy => by rw [← hy, h2]

/-- The hypotheses of `C83_rate` can be met with objects made beforehand: two names for the object
`SScalar.variable("u", x)`. -/
example (b emax : Nat) (hb : 4 ≤ b) (he : 4 ≤ emax) (x : String → ℝ) (ord : Order (IEEE b emax))
    (ho : ord.Ok) :
    (⟨![.ref 0, .ref 0], fun _ => SS.var ord "u" (IEEE.enc b emax (x "u")), 1⟩ :
      SPySt (IEEE b emax) (Fin 2)).Like (ieeeErr b emax hb he).Sound
        (fun _ r => SWF r ∧ SWithin (ieeeErr b emax hb he).Sound Set.univ (fun y => y "u") x r)
      (⟨![.ref 0, .ref 0], fun _ y => y "u", 1⟩ : SMathSt (Fin 2)) ∧
    ∀ k, DifferentiableAt ℝ (fun t => Function.update x k t "u") (x k) := by
  have hv := SS.is_var ho "u" (IEEE.enc b emax (x "u"))
  refine ⟨⟨rfl, fun v => Or.inr ⟨0, Nat.one_pos, ?_, ?_⟩, fun a _ => ⟨hv.wf, ⟨_, SS.f_ok hv,
    ieee_enc _ _ _⟩, fun k _ => ?_⟩⟩, fun k => ?_⟩
  · fin_cases v <;> rfl
  · fin_cases v <;> rfl
  · rw [SS.d_eq hv]
    by_cases hk : k = "u"
    · subst hk
      simpa using sound_lit (ieeeErr b emax hb he) 1 (by norm_num)
    · simpa [hk, Function.update_of_ne (Ne.symm hk)] using
        sound_lit (ieeeErr b emax hb he) 0 (by norm_num)
  · by_cases hk : k = "u"
    · subst hk
      simp
    · simp [Function.update_of_ne (Ne.symm hk)]

end HJ
