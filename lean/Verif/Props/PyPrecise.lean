import Verif.Proofs.PyPrecise
import Verif.Props.Finite
import Verif.Props.PyCaller

/-!
# C82: rounding errors of Python client code of any kind on dense jets
-/

namespace HJ

open Filter Topology Asymptotics

section

variable {V W Q : Type} [DecidableEq V] [DecidableEq W] {c : Cfg} {n : Nat} {x : Fin n → ℝ}

/-- **C82.**  Let Python client code of any kind that does not use `float(v)` run on functions at `x` inside
the domains, without comparing equal values and with `**` of positive numbers only.  There are a constant
`K`, a precision, a range and a number of calls such that in every arithmetic of at least that precision and
range the client code on jets ends in the same state within that many calls, with the same objects under the
same names, and the numbers, and the values, gradients and Hessians of the objects, are finite and within
`K` times the error of one operation of the exact ones. -/
theorem C82_rate [Finite V] (hv : c.Valid) (hfit : c.tsize = -1 ∨ c.tsize = n)
    (cl : Caller (PyCall (PyStmt ℝ V W) (PyCond ℝ V) V) (Answer ℝ) Q) {q q' : Q} {σ σ' : MathSt n V}
    (J : Nat → Jet ℝ) (hJ : ∀ a < σ.next, IsJet c.order n (σ.mean a) x (J a))
    (h : cl.Ends (PyPreciseCall c.order x) q σ q' σ') :
    ∃ K w₀ B : ℝ, 0 < w₀ ∧ ∃ m : Nat, ∀ (α : Type) [CMath α] (w : Prec) (M : FinErr α w)
      (enc : ℝ → α) (st : PySt α V W), w.rel ≤ w₀ → w.abs ≤ w₀ → Set.Icc (-B) B ⊆ w.range →
      M.ExactCmp → (∀ s, M.Sound (enc s) s) → st.Like M.Sound (fun a => SeedBy c n M.Sound (J a)) σ →
      ∃ st', (∀ j ≥ m, (cl.map (PyCall.map (PyStmt.map enc) (PyCond.map enc)) (Answer.map M.val)).run
          (pyLibrary α V W c n) j q st = some (.ok q', st')) ∧
        st'.Like (fun s t => M.fin s ∧ |M.val s - t| ≤ K * (w.rel + w.abs))
          (fun a => Within c (fun s t => M.fin s ∧ |M.val s - t| ≤ K * (w.rel + w.abs)) (σ'.mean a) x)
          σ' := by
  by_contra hcon
  push Not at hcon
  choose α inst w M enc st hle hle' hrng hcmp hclose hseed hbad using
    fun k : ℕ => hcon k (1 / ((k : ℝ) + 1)) k (by positivity) k
  have hw := fine_self (fun k => (M k).rel_nonneg) (fun k => (M k).abs_nonneg) hle hle' hrng
  have lim : ∀ {b : ∀ k, α k} {r : ℝ}, (∀ k, (M k).Sound (b k) r) →
      Lim M atTop (fun k => (w k).rel + (w k).abs) b (fun _ => r) r := fun h =>
    Lim.close hw (Nigh.const _) (Eventually.of_forall h)
  have henc : ∀ s, Lim M atTop (fun k => (w k).rel + (w k).abs) (fun k => enc k s) (fun _ => s) s :=
    fun s => lim fun k => hclose k s
  have h0 : PyNear M atTop (fun k => (w k).rel + (w k).abs) c x st σ := by
    refine ⟨.of_forall fun k => (hseed k).next, fun v r hr => ?_, fun v a ha => ?_, fun a ha => ?_⟩
    · have : ∀ k, ∃ s, (st k).env v = .num s ∧ (M k).Sound s r := fun k => by
        rcases (hseed k).env v with ⟨s, r', h1, h2, h3⟩ | ⟨a, _, _, h2⟩
        · rw [hr] at h2; cases h2; exact ⟨s, h1, h3⟩
        · rw [hr] at h2; cases h2
      choose s h1 h2 using this
      exact ⟨s, .of_forall h1, lim h2⟩
    · have : ∀ k, a < σ.next ∧ (st k).env v = .ref a := fun k => by
        rcases (hseed k).env v with ⟨s, r', _, h2, _⟩ | ⟨a', ha', h1, h2⟩
        · rw [ha] at h2; cases h2
        · rw [ha] at h2; cases h2; exact ⟨ha', h1⟩
      exact ⟨(this 0).1, .of_forall fun k => (this k).2⟩
    · exact ObjNear.of_seed hv (hJ a ha) lim fun k => (hseed k).obj a ha
  obtain ⟨m, st', h1, h2⟩ := pyclient_near hw hv hfit hcmp henc h h0
  have hω : ∀ k, ‖(w k).rel + (w k).abs‖ = (w k).rel + (w k).abs := fun k =>
    Real.norm_of_nonneg (add_nonneg (M k).rel_nonneg (M k).abs_nonneg)
  have hnum : ∀ᶠ C : ℝ in atTop, ∀ᶠ k in atTop, ∀ v,
      (∃ s r, (st' k).env v = .num s ∧ σ'.env v = .num r ∧
        ((M k).fin s ∧ |(M k).val s - r| ≤ C * ((w k).rel + (w k).abs))) ∨
      ∃ a < σ'.next, (st' k).env v = .ref a ∧ σ'.env v = .ref a := by
    have each : ∀ v, ∀ᶠ C : ℝ in atTop, ∀ᶠ k in atTop,
        (∃ s r, (st' k).env v = .num s ∧ σ'.env v = .num r ∧
          ((M k).fin s ∧ |(M k).val s - r| ≤ C * ((w k).rel + (w k).abs))) ∨
        ∃ a < σ'.next, (st' k).env v = .ref a ∧ σ'.env v = .ref a := fun v => by
      cases he : σ'.env v with
      | num r =>
        obtain ⟨s, k1, k2⟩ := h2.num v r he
        refine (isBigO_iff_eventually_isBigOWith.1 k2.rate).mono fun C hC => ?_
        refine ((k2.fin.and hC.bound).and k1).mono fun k hk => Or.inl ⟨s k, r, hk.2, rfl, hk.1.1, ?_⟩
        have := hk.1.2
        rwa [Real.norm_eq_abs, hω] at this
      | ref a =>
        obtain ⟨ha, k1⟩ := h2.ref v a he
        exact .of_forall fun C => k1.mono fun k hk => Or.inr ⟨a, ha, hk, rfl⟩
    exact (eventually_all.2 each).mono fun C hC => eventually_all.2 hC
  have hobj : ∀ᶠ C : ℝ in atTop, ∀ᶠ k in atTop, ∀ a : Fin σ'.next,
      Within c (fun s t => (M k).fin s ∧ |(M k).val s - t| ≤ C * ((w k).rel + (w k).abs)) (σ'.mean a) x
        ((st' k).heap a) := by
    refine (eventually_all.2 fun a : Fin σ'.next => (h2.objs a a.2).errLe hv.order hfit).mono
      fun C hC => eventually_all.2 fun a => (hC a).mono fun k hk => ?_
    rwa [hω] at hk
  obtain ⟨C, hC, hC'⟩ := (hnum.and hobj).exists
  obtain ⟨k, ⟨⟨⟨⟨hk, hk'⟩, hr⟩, hCk⟩, hmk⟩, hnext⟩ := (((((hC.and hC').and h1).and
    ((tendsto_natCast_atTop_atTop (R := ℝ)).eventually_ge_atTop C)).and
    (eventually_ge_atTop m)).and h2.next).exists
  have le := mul_le_mul_of_nonneg_right hCk (add_nonneg (M k).rel_nonneg (M k).abs_nonneg)
  refine hbad k (st' k) (fun j hj => hr j (le_trans hmk hj)) ⟨hnext, fun v => ?_, fun a ha => ?_⟩
  · rcases hk v with ⟨s, r, e1, e2, e3, e4⟩ | h
    · exact Or.inl ⟨s, r, e1, e2, e3, e4.trans le⟩
    · exact Or.inr h
  · exact (hk' ⟨a, ha⟩).mono fun s t hst => ⟨hst.1, hst.2.trans le⟩

/-- **C82, formats.**  The same for the formats with `p` bits and exponents up to `emax`, started with names
for numbers only; the variables are created by the client code itself. -/
theorem C82_formats [Finite V] (hv : c.Valid) (hfit : c.tsize = -1 ∨ c.tsize = n)
    (cl : Caller (PyCall (PyStmt ℝ V W) (PyCond ℝ V) V) (Answer ℝ) Q) {q q' : Q} (start : V → ℝ)
    {σ σ' : MathSt n V} (h0 : σ.next = 0) (hs : ∀ v, σ.env v = .num (start v))
    (h : cl.Ends (PyPreciseCall c.order x) q σ q' σ') :
    ∃ (K : ℝ) (k m : Nat), ∀ b ≥ k, ∀ emax ≥ k, ∀ st : PySt (IEEE b emax) V W, st.next = 0 →
      (∀ v, st.env v = .num (IEEE.enc b emax (start v))) →
      ∃ st', (∀ j ≥ m, (cl.map (PyCall.map (PyStmt.map (IEEE.enc b emax)) (PyCond.map (IEEE.enc b emax)))
          (Answer.map IEEE.real)).run (pyLibrary _ V W c n) j q st = some (.ok q', st')) ∧
        st'.Like (fun s t => s.val.Fin ∧ |s.real - t| ≤ K / 2 ^ b)
          (fun a => Within c (fun s t => s.val.Fin ∧ |s.real - t| ≤ K / 2 ^ b) (σ'.mean a) x) σ' := by
  obtain ⟨K, u₀, B, hu, m, hm⟩ := C82_rate hv hfit cl (fun _ => ⟨0, fun _ => 0, fun _ _ => 0⟩)
    (fun a ha => absurd ha (by omega)) h
  obtain ⟨k, hk, hfmt⟩ := fmt_enough hu B
  refine ⟨2 * |K|, k, m, fun b hb emax he st hst hse => ?_⟩
  obtain ⟨f1, f2, f3⟩ := hfmt b hb emax he
  obtain ⟨st', h1, h2⟩ := hm _ _ (ieeeErr b emax (hk.trans hb) (hk.trans he)) (IEEE.enc b emax) st
    f1 f2 f3 (ieee_exactCmp _ _) (ieee_enc _ _)
    ⟨hst.trans h0.symm, fun v => Or.inl ⟨_, _, hse v, hs v, ieee_enc _ _ _⟩,
      fun a ha => absurd ha (by omega)⟩
  have le := fmt_rate (p := b) (le_trans (by omega : 1 ≤ k) he) K
  refine ⟨st', h1, h2.next, fun v => ?_, fun a ha => ?_⟩
  · rcases h2.env v with ⟨s, r, e1, e2, e3, e4⟩ | h
    · exact Or.inl ⟨s, r, e1, e2, e3, e4.trans le⟩
    · exact Or.inr h
  · exact (h2.obj a ha).mono fun s t hst => ⟨hst.1, hst.2.trans le⟩

/-- **C82, what the functions are.**  If the client code does not throw derivatives away
  (`e.f`, `t.f = s`),
then `σ'` is, at all points near `x`, what the client code computes there on plain numbers. -/
theorem C82_functions (hv : c.Valid) (hfit : c.tsize = -1 ∨ c.tsize = n)
    (cl : Caller (PyCall (PyStmt ℝ V W) (PyCond ℝ V) V) (Answer ℝ) Q) {q q' : Q} {σ σ' : MathSt n V}
    (hσ : ∀ v a, σ.env v = .ref a → a < σ.next) (J : Nat → Jet ℝ)
    (hJ : ∀ a < σ.next, IsJet c.order n (σ.mean a) x (J a))
    (h : cl.Ends (PySureCall c.order x) q σ q' σ') (U : (Fin n → ℝ) → PtSt V)
    (hU : ∀ᶠ y in 𝓝 x, ∃ q'', cl.Ends (PyRealCall x y) q (σ.at y) q'' (U y)) :
    ∀ᶠ y in 𝓝 x, σ'.at y = U y := by
  obtain ⟨s, hs⟩ : ∃ s : Fin σ.next → DD XReal, ∀ a, JetAt c n (s a) (σ.mean a) x := by
    refine ⟨fun a => obj c n (packJet n (J a).lift), fun a => ⟨J a, shows_of_obj hv.order hfit
      (packJet_zero ..) (fun i hi => packJet_succ _ hi) (fun _ i j hij hj => packJet_pos _ hij hj)
      (fun h2 i j hi hj => ?_), hJ a a.2⟩⟩
    have h := hJ a a.2
    rw [h2] at h
    simp only [Jet.lift, h.sym ⟨i, hi⟩ ⟨j, hj⟩]
  let st : PySt XReal V W := ⟨fun v => match σ.env v with
    | .num r => .num (.num r)
    | .ref a => .ref a, fun _ => none, fun a => if h : a < σ.next then s ⟨a, h⟩ else ⟨0, []⟩, σ.next,
    fun _ => 0⟩
  have hst : st.IsAt c n x σ := by
    refine ⟨rfl, fun v => ?_, fun a ha => ?_⟩
    · cases he : σ.env v with
      | num r => exact Or.inl ⟨r, by simp only [st, he], rfl⟩
      | ref a => exact Or.inr ⟨a, hσ v a he, by simp only [st, he], rfl⟩
    · simp only [st, dif_pos ha]
      exact hs ⟨a, ha⟩
  have h1 := (C77_dense_no_ties hv hfit cl st hst h).1
  exact (h1.and hU).mono fun y ⟨hy, q'', hy'⟩ =>
    (Caller.Ends.det (pyMakes_det (fun s a a' a'' h h' => h.trans h'.symm)
      (fun b a r r' h h' => by rw [Bool.eq_iff_iff, h, h'])) hy hy').2

end

/-! ## Examples -/

/-- `a = T.variable(0, s, 1)` and then `m` times `b *= a`. -/
noncomputable def exPyPowers (s : ℝ) (m : Nat) :
    Caller (PyCall (PyStmt ℝ (Fin 2) Unit) (PyCond ℝ (Fin 2)) (Fin 2)) (Answer ℝ) (Option Nat) where
  next
    | none => some (.act (.assign 0 (.vari 0 s)))
    | some 0 => none
    | some (_ + 1) => some (.act (.upd .mul 1 (.name 0)))
  after
    | none, _ => some m
    | some m, _ => some (m - 1)

theorem exPyPowers_loop (s : ℝ) (N m : Nat) (x : Fin 1 → ℝ) (σ : MathSt 1 (Fin 2)) (g : (Fin 1 → ℝ) → ℝ)
    (h0 : σ.env 0 = .ref 0) (hm : σ.mean 0 = fun y => y 0) (hn : 0 < σ.next)
    (h1 : (∃ s, σ.env 1 = .num s) ∨ ∃ b, 0 < b ∧ σ.env 1 = .ref b)
    (hr : ∀ y, (σ.at y).read 1 = g y) :
    ∃ σ', (exPyPowers s N).Ends (fun k a r a' => PySureCall 2 x k a r a' ∧ PyPreciseCall 2 x k a r a')
      (some m) σ (some 0) σ' ∧ (∀ y, (σ'.at y).read 1 = g y * y 0 ^ m) ∧
      ((m = 0 ∧ σ' = σ) ∨ ∃ b, σ'.env 1 = .ref b) := by
  induction m generalizing σ g with
  | zero => exact ⟨σ, .stop rfl, fun y => by rw [hr]; simp, Or.inl ⟨rfl, rfl⟩⟩
  | succ m ih =>
    have hv : σ.val 0 = .fn fun y => y 0 := by simp only [MathSt.val, h0, hm]
    have hd : (PyE.name 0 : PyE ℝ (Fin 2)).Den 2 x σ.val (.fn fun y => y 0) := hv ▸ .name 0
    rcases h1 with ⟨s, h1⟩ | ⟨b, hb, h1⟩
    · obtain ⟨σ', k1, k2, k3⟩ := ih (σ.fresh 1 (.fn fun y => s * y 0)) (fun y => g y * y 0)
        (by simp [MathSt.fresh, MathSt.bind, MathSt.write, h0])
        (by simp [MathSt.fresh, MathSt.bind, MathSt.write, hm, hn.ne])
        (Nat.succ_pos _)
        (Or.inr ⟨σ.next, hn, by simp [MathSt.fresh, MathSt.bind, MathSt.write]⟩)
        (fun y => by
          have := hr y
          simp only [PtSt.read, MathSt.at, h1] at this
          simp [PtSt.read, MathSt.at, MathSt.fresh, MathSt.bind, MathSt.write, this])
      have hs : (PyStmt.upd .mul 1 (.name 0) : PyStmt ℝ (Fin 2) Unit).Means 2 x σ
          (σ.fresh 1 (.fn fun y => s * y 0)) := .updNum h1 (.opLeft (.lit s) hd (by simp))
      refine ⟨σ', .call rfl ⟨.act ⟨trivial, hs⟩, .act ⟨hs, trivial⟩⟩ k1,
        fun y => by rw [k2]; ring, Or.inr ?_⟩
      rcases k3 with ⟨_, rfl⟩ | h
      · exact ⟨σ.next, by simp [MathSt.fresh, MathSt.bind, MathSt.write]⟩
      · exact h
    · obtain ⟨σ', k1, k2, k3⟩ := ih (σ.write b fun y => σ.mean b y * y 0) (fun y => g y * y 0) h0
        (by simp [MathSt.write, hm, hb.ne]) hn (Or.inr ⟨b, hb, h1⟩)
        (fun y => by
          have := hr y
          simp only [PtSt.read, MathSt.at, h1] at this
          simp [PtSt.read, MathSt.at, MathSt.write, h1, this])
      have hs : (PyStmt.upd .mul 1 (.name 0) : PyStmt ℝ (Fin 2) Unit).Means 2 x σ
          (σ.write b fun y => σ.mean b y * y 0) := .updFn h1 hd (by simp) (fun _ _ =>
          ⟨one_pos, by rintro ⟨v, hv, hv'⟩; cases hv; rw [h0] at hv'; cases hv'; omega⟩)
      refine ⟨σ', .call rfl ⟨.act ⟨trivial, hs⟩, .act ⟨hs, trivial⟩⟩ k1,
        fun y => by rw [k2]; ring, Or.inr ?_⟩
      rcases k3 with ⟨_, rfl⟩ | h
      · exact ⟨b, h1⟩
      · exact h

/-- Numbers only. -/
def exPyOnes : MathSt 1 (Fin 2) := ⟨fun _ => .num 1, fun _ _ => 0, 0⟩

theorem exPyPowers_ends (N : Nat) (x : Fin 1 → ℝ) :
    ∃ σ', (exPyPowers (x 0) N).Ends
      (fun k a r a' => PySureCall 2 x k a r a' ∧ PyPreciseCall 2 x k a r a') none exPyOnes (some 0) σ' ∧
      (∀ y, (σ'.at y).read 1 = y 0 ^ N) ∧ (0 < N → ∃ b, σ'.env 1 = .ref b) := by
  have hs : (PyStmt.assign 0 (.vari 0 (x 0)) : PyStmt ℝ (Fin 2) Unit).Means 2 x exPyOnes
      (exPyOnes.fresh 0 (.fn fun y => x 0 + (y 0 - x 0))) :=
    .assign (.vari (0 : Fin 1) (x 0)) (by simp)
  obtain ⟨σ', h1, h2, h3⟩ := exPyPowers_loop (x 0) N N x
    (exPyOnes.fresh 0 (.fn fun y => x 0 + (y 0 - x 0))) (fun _ => 1)
    (by simp [MathSt.fresh, MathSt.bind, MathSt.write, exPyOnes])
    (by simp [MathSt.fresh, MathSt.bind, MathSt.write, exPyOnes])
    (Nat.succ_pos _)
    (Or.inl ⟨1, by simp [MathSt.fresh, MathSt.bind, MathSt.write, exPyOnes]⟩)
    (fun y => by simp [PtSt.read, MathSt.at, MathSt.fresh, MathSt.bind, MathSt.write, exPyOnes])
  refine ⟨σ', .call rfl ⟨.act ⟨trivial, hs⟩, .act ⟨hs, trivial⟩⟩ h1,
    fun y => by rw [h2, one_mul], fun hN => ?_⟩
  rcases h3 with ⟨h, _⟩ | h
  · omega
  · exact h

/-- `b = 1.0`, `a = T.variable(0, x, 1)`, `N ≥ 1` times `b *= a`: in formats that are precise and wide
enough, `b` is then an object with value, gradient and Hessian of the `N`-th power up to `K / 2 ^ p`. -/
example (N : Nat) (hN : 0 < N) (x : Fin 1 → ℝ) : ∃ (K : ℝ) (k m : Nat), ∀ b ≥ k, ∀ emax ≥ k,
    ∀ st : PySt (IEEE b emax) (Fin 2) Unit, st.next = 0 →
      (∀ v, st.env v = .num (IEEE.enc b emax 1)) →
      ∃ st', (∀ j ≥ m, ((exPyPowers (x 0) N).map
          (PyCall.map (PyStmt.map (IEEE.enc b emax)) (PyCond.map (IEEE.enc b emax)))
          (Answer.map IEEE.real)).run (pyLibrary _ (Fin 2) Unit exDyn2 1) j none st =
            some (.ok (some 0), st')) ∧
        ∃ a, st'.env 1 = .ref a ∧ Within exDyn2
          (fun s t => s.val.Fin ∧ |s.real - t| ≤ K / 2 ^ b) (fun y => y 0 ^ N) x (st'.heap a) := by
  obtain ⟨σ', h1, h2, h3⟩ := exPyPowers_ends N x
  obtain ⟨e, he⟩ := h3 hN
  obtain ⟨K, k, m, h⟩ := C82_formats exDyn2_valid (Or.inl rfl) (exPyPowers (x 0) N) (fun _ => 1) rfl
    (fun _ => rfl) (h1.mono fun _ _ _ _ h => h.2)
  refine ⟨K, k, m, fun b hb emax hemax st hst hse => ?_⟩
  obtain ⟨st', k1, k2⟩ := h b hb emax hemax st hst hse
  refine ⟨st', k1, e, ?_⟩
  rcases k2.env 1 with ⟨_, _, _, k3, _⟩ | ⟨a, ha, k3, k4⟩
  · rw [he] at k3; cases k3
  · rw [he] at k4; cases k4
    have : σ'.mean e = fun y => y 0 ^ N := funext fun y => by
      rw [← h2 y]; simp only [PtSt.read, MathSt.at, he]
    exact ⟨k3, this ▸ k2.obj e ha⟩

/-- And its meaning is what the loop computes on numbers. -/
example (N : Nat) (x : Fin 1 → ℝ) (U : (Fin 1 → ℝ) → PtSt (Fin 2))
    (hU : ∀ᶠ y in 𝓝 x, ∃ q, (exPyPowers (x 0) N).Ends (PyRealCall x y) none (exPyOnes.at y) q (U y)) :
    ∀ᶠ y in 𝓝 x, (U y).read 1 = y 0 ^ N := by
  obtain ⟨σ', h1, h2, _⟩ := exPyPowers_ends N x
  exact (C82_functions exDyn2_valid (Or.inl rfl) (exPyPowers (x 0) N) (fun v a h => by cases h)
    (fun _ => ⟨0, fun _ => 0, fun _ _ => 0⟩) (fun a ha => absurd ha (Nat.not_lt_zero _))
    (h1.mono fun _ _ _ _ h => h.1) U hU).mono fun y hy => by rw [← hy, h2]

/-- The hypotheses of `C82_rate` can be met with objects made beforehand: two names for one of the objects
of `variables`. -/
example (b emax : Nat) (hb : 4 ≤ b) (he : 4 ≤ emax) (x : Fin 1 → ℝ) (ρ : Store (IEEE b emax) Unit)
    (h : Starts exDyn2 (fun i : Fin 1 => IEEE.enc b emax (x i)) (IEEE.enc b emax) (fun _ => .inl 0) ρ) :
    (⟨![.ref 0, .ref 0], fun _ => none, fun _ => ρ (), 1, fun _ => 0⟩ :
      PySt (IEEE b emax) (Fin 2) Unit).Like (ieeeErr b emax hb he).Sound
        (fun _ => SeedBy exDyn2 1 (ieeeErr b emax hb he).Sound (varJet 0 (x 0)))
      (⟨![.ref 0, .ref 0], fun _ y => y 0, 1⟩ : MathSt 1 (Fin 2)) ∧
    IsJet 2 1 (fun y => y 0) x (varJet 0 (x 0)) := by
  refine ⟨⟨rfl, fun v => Or.inr ⟨0, Nat.one_pos, ?_, ?_⟩, fun a _ => ?_⟩, isJet_var 2 x 0⟩
  · fin_cases v <;> rfl
  · fin_cases v <;> rfl
  · exact starts_seedBy (by simpa using sound_lit _ 0 (by norm_num))
      (by simpa using sound_lit _ 1 (by norm_num)) exDyn2_valid (Or.inl rfl) _ x _ (ieee_enc _ _) h ()

end HJ
