import Verif.Proofs.Converge
import Verif.Proofs.Control
import Verif.Props.Control
import Verif.Spec.PreciseRun
import Verif.Proofs.Matrix
import Mathlib.Analysis.Calculus.FDeriv.Symmetric

/-!
# Programs in families of arithmetics (helper lemmas)
-/

namespace HJ

open Filter Topology

/-! ## One run followed by many machines -/

theorem Runs.machines {S B A : Type} {step : S → A → A → Prop} {test : B → A → Bool → Prop}
    {p : Ctl S B} {a a' : A} (h : Runs step test p a a') :
    ∃ m : Nat, ∀ {ι : Type} {l : Filter ι} {T : ι → Type} (M : ∀ k, Machine S B (T k))
      (R : (∀ k, T k) → A → Prop)
      (_ : ∀ s a a' st, R st a → step s a a' →
        ∃ st', (∀ᶠ k in l, (M k).step s (st k) = (.ok (), st' k)) ∧ R st' a')
      (_ : ∀ b a r st, R st a → test b a r → ∀ᶠ k in l, (M k).test b (st k) = .ok r)
      {st : ∀ k, T k} (_ : R st a),
      ∃ st', (∀ᶠ k in l, ∀ j ≥ m, p.run (M k) j (st k) = some (.ok (), st' k)) ∧ R st' a' := by
  have tests : ∀ {ι : Type} {l : Filter ι} {T : ι → Type} {M : ∀ k, Machine S B (T k)} {a : A}
      {st : ∀ k, T k} (_ : ∀ b r, test b a r → ∀ᶠ k in l, (M k).test b (st k) = .ok r)
      {t : Test B} {r : Bool}, t.Gives test a r → ∀ᶠ k in l, t.run (M k) (st k) = .ok r := by
    intro ι l T M a st ht t r h
    induction h with
    | atom h => exact ht _ _ h
    | not _ ih => exact ih.mono fun k h => by simp only [Test.run, h, Res.ok_bind]
    | andF _ ih => exact ih.mono fun k h => by simp [Test.run, h]
    | andT _ _ ih ih' => exact (ih.and ih').mono fun k h => by simp [Test.run, h.1, h.2]
    | orT _ ih => exact ih.mono fun k h => by simp [Test.run, h]
    | orF _ _ ih ih' => exact (ih.and ih').mono fun k h => by simp [Test.run, h.1, h.2]
  induction h with
  | skip => exact ⟨0, fun M R _ _ st hR => ⟨st, .of_forall fun k j _ => rfl, hR⟩⟩
  | act h =>
    refine ⟨0, fun M R hstep _ st hR => ?_⟩
    obtain ⟨st', h1, h2⟩ := hstep _ _ _ st hR h
    exact ⟨st', h1.mono fun k hk j _ => by simp only [Ctl.run, hk], h2⟩
  | seq _ _ ih ih' =>
    obtain ⟨m, ih⟩ := ih
    obtain ⟨m', ih'⟩ := ih'
    refine ⟨max m m', fun M R hstep htest st hR => ?_⟩
    obtain ⟨st', h1, h2⟩ := ih M R hstep htest hR
    obtain ⟨st'', h1', h2'⟩ := ih' M R hstep htest h2
    refine ⟨st'', (h1.and h1').mono fun k hk j hj => ?_, h2'⟩
    simp only [Ctl.run, hk.1 j (le_trans (le_max_left _ _) hj)]
    exact hk.2 j (le_trans (le_max_right _ _) hj)
  | iteT ht _ ih =>
    obtain ⟨m, ih⟩ := ih
    refine ⟨m, fun M R hstep htest st hR => ?_⟩
    obtain ⟨st', h1, h2⟩ := ih M R hstep htest hR
    refine ⟨st', (h1.and (tests (fun b r => htest b _ r st hR) ht)).mono fun k hk j hj => ?_, h2⟩
    simp only [Ctl.run, hk.2]
    exact hk.1 j hj
  | iteF ht _ ih =>
    obtain ⟨m, ih⟩ := ih
    refine ⟨m, fun M R hstep htest st hR => ?_⟩
    obtain ⟨st', h1, h2⟩ := ih M R hstep htest hR
    refine ⟨st', (h1.and (tests (fun b r => htest b _ r st hR) ht)).mono fun k hk j hj => ?_, h2⟩
    simp only [Ctl.run, hk.2]
    exact hk.1 j hj
  | loopF ht =>
    refine ⟨1, fun M R hstep htest st hR => ⟨st, ?_, hR⟩⟩
    refine (tests (fun b r => htest b _ r st hR) ht).mono fun k hk j hj => ?_
    obtain ⟨j, rfl⟩ : ∃ i, j = i + 1 := ⟨j - 1, by omega⟩
    simp only [Ctl.run, whileN, hk]
  | @loopT t p a a' a'' ht _ _ ih ih' =>
    obtain ⟨m, ih⟩ := ih
    obtain ⟨m', ih'⟩ := ih'
    refine ⟨max m m' + 1, fun M R hstep htest st hR => ?_⟩
    obtain ⟨st', h1, h2⟩ := ih M R hstep htest hR
    obtain ⟨st'', h1', h2'⟩ := ih' M R hstep htest h2
    refine ⟨st'', ((h1.and h1').and (tests (fun b r => htest b _ r st hR) ht)).mono
      fun k hk j hj => ?_, h2'⟩
    obtain ⟨j, rfl⟩ : ∃ i, j = i + 1 := ⟨j - 1, by omega⟩
    simp only [Ctl.run, whileN, hk.2]
    have hm' : max m m' ≤ j := by omega
    rw [hk.1.1 (j + 1) (by have := le_max_left m m'; omega)]
    have h3 := hk.1.2 j (le_trans (le_max_right _ _) hm')
    simp only [Ctl.run] at h3
    exact whileN_more (fun st r h => p.run_more (by omega) st h) le_rfl (st' k) h3

/-! ## Statements and comparisons -/

section
variable {ι : Type} {l : Filter ι} {α : ι → Type} [∀ k, CMath (α k)] {u : ι → Prec} {ω : ι → ℝ}
  {M : ∀ k, FinErr (α k) (u k)} {c : Cfg} {n : Nat} {a b : ∀ k, Nat → α k}
  {aR bR : ι → Nat → ℝ} {J K : Jet ℝ}

/-- Contents after `a op= b`. -/
def AOp.updC {α : Type} [CMath α] (c : Cfg) (n : Nat) (o : AOp) (self : Bool)
    (a b : Nat → α) : Nat → α :=
  match o with
  | .add => addC a b
  | .sub => fun k => a k -ₛ b k
  | .mul => mulAC c n a b b
  | .div => if self then divSelfC c n a (a 0 ÷ₛ a 0) (Arith.lit 1 ÷ₛ a 0)
      (-ₛ a 0 ÷ₛ Arith.powN (a 0) 2) (Arith.lit (-1) ÷ₛ Arith.powN (a 0) 2)
      (Arith.lit 2 *ₛ a 0 ÷ₛ Arith.powN (a 0) 3)
    else divC c n a b (a 0 ÷ₛ b 0)
      (Arith.lit 1 ÷ₛ b 0) (-ₛ a 0 ÷ₛ Arith.powN (b 0) 2) (Arith.lit (-1) ÷ₛ Arith.powN (b 0) 2)
      (Arith.lit 2 *ₛ a 0 ÷ₛ Arith.powN (b 0) 3)

theorem AOp.run_updC {α : Type} [CMath α] {c : Cfg} {n : Nat} (hc : c.order = 1 ∨ c.order = 2)
    (hf : Fits c n) (o : AOp) (hn : o = .mul → c.order = 2 → 0 < n) (a b : Nat → α) :
    o.run c (obj c n a) (.obj (obj c n b)) = (.ok (), obj c n (o.updC c n false a b)) := by
  cases o with
  | add => exact addAssign_obj hf a b
  | sub => exact subAssign_obj hf a b
  | mul => exact mulAssign_obj hc (hn rfl) hf a b
  | div => exact divAssign_obj hc hf a b

theorem AOp.run_updC_self {α : Type} [CMath α] {c : Cfg} {n : Nat} (hc : c.order = 1 ∨ c.order = 2)
    (hf : Fits c n) (o : AOp) (hn : o ≠ .mul) (a : Nat → α) :
    o.run c (obj c n a) .self = (.ok (), obj c n (o.updC c n true a a)) := by
  cases o with
  | add => exact addAssign_self a
  | sub => exact subAssign_self a
  | mul => exact absurd rfl hn
  | div => exact divAssign_self hc hf a

theorem AOp.updC_conv (hu : Fine u l ω) (o : AOp) (self : Bool) (ha : Conv M l ω c n a aR J)
    (hb : Conv M l ω c n b bR K) (hself : self = true → J = K) (h : o = .div → K.f ≠ 0) :
    Conv M l ω c n (fun k => o.updC c n self (a k) (b k)) (fun k => o.updC c n self (aR k) (bR k))
      (o.bin.jet J K) := by
  have l1 : Lim M l ω (fun _ => Arith.lit 1) (fun _ => Arith.lit 1) (1 : ℤ) := Lim.lit (by norm_num)
  have l2 : Lim M l ω (fun _ => Arith.lit 2) (fun _ => Arith.lit 2) (2 : ℤ) := Lim.lit (by norm_num)
  have m1 : Lim M l ω (fun _ => Arith.lit (-1)) (fun _ => Arith.lit (-1)) (-1 : ℤ) := Lim.lit
    (by norm_num)
  cases o with
  | add => exact Bin.conv hu .add ha hb trivial trivial
  | sub =>
    refine ⟨ha.f.sub hu hb.f, fun i hi => ?_, fun h2 i j hij hj => ?_, fun i j => ?_⟩
    · exact ((ha.g i hi).sub hu (hb.g i hi)).of_eq (by simp [AOp.bin, Bin.jet, Jet.comp2, Bin.d]; ring)
    · exact ((ha.h h2 i j hij hj).sub hu (hb.h h2 i j hij hj)).of_eq
        (by simp [AOp.bin, Bin.jet, Jet.comp2, Bin.d]; ring)
    · simp [AOp.bin, Bin.jet, Jet.comp2, Bin.d, ha.sym i j, hb.sym i j]
  | mul =>
    refine ⟨?_, fun i hi => ?_, fun h2 i j hij hj => ?_, fun i j => ?_⟩
    · simp only [AOp.updC, mulAC, bFin_zero]; exact ha.f.mul hu hb.f
    · simp only [AOp.updC, mulAC, bFin_succ _ _ _ _ hi]
      exact (hb.f.mul hu (ha.g i hi)).add hu (ha.f.mul hu (hb.g i hi))
    · simp only [AOp.updC, mulAC, bFin_pos h2 _ _ _ hij hj]
      exact (((hb.f.mul hu (ha.h h2 i j hij hj)).add hu (ha.f.mul hu (hb.h h2 i j hij hj))).add hu
        (((ha.g i (by omega)).mul hu (hb.g j hj)).add hu ((ha.g j hj).mul hu (hb.g i (by omega))))).of_eq
        (by simp [AOp.bin, Bin.jet, Jet.comp2, Bin.d]; ring)
    · simp only [AOp.bin, Bin.jet, Jet.comp2, ha.sym i j, hb.sym i j]; ring
  | div =>
    have hy : K.f ≠ 0 := h rfl
    cases self with
    | false =>
      have p2 := hb.f.powN hu (n := 2) (by norm_num)
      have p3 := hb.f.powN hu (n := 3) (by norm_num)
      simp only [AOp.updC]
      exact conv_div hu ha hb (ha.f.div hu hb.f hy)
        ((l1.div hu hb.f hy).of_eq (by simp [AOp.bin, Bin.d])) (ha.f.neg.div hu p2 (pow_ne_zero 2 hy))
        ((m1.div hu p2 (pow_ne_zero 2 hy)).of_eq (by simp [AOp.bin, Bin.d]))
        (((l2.mul hu ha.f).div hu p3 (pow_ne_zero 3 hy)).of_eq (by simp [AOp.bin, Bin.d]))
    | true =>
      obtain rfl := hself rfl
      have p2 := ha.f.powN hu (n := 2) (by norm_num)
      have p3 := ha.f.powN hu (n := 3) (by norm_num)
      have cda := l1.div hu ha.f hy
      have cdb := ha.f.neg.div hu p2 (pow_ne_zero 2 hy)
      have cdab := m1.div hu p2 (pow_ne_zero 2 hy)
      have cdbb := (l2.mul hu ha.f).div hu p3 (pow_ne_zero 3 hy)
      have t1 : ∀ i < n, Lim M l ω (fun k => Arith.lit 1 ÷ₛ a k 0 *ₛ a k (1 + i) +ₛ
          -ₛ a k 0 ÷ₛ Arith.powN (a k 0) 2 *ₛ a k (1 + i))
            (fun k => Arith.lit 1 ÷ₛ aR k 0 *ₛ aR k (1 + i) +ₛ
          -ₛ aR k 0 ÷ₛ Arith.powN (aR k 0) 2 *ₛ aR k (1 + i)) 0 := fun i hi =>
        ((cda.mul hu (ha.g i hi)).add hu (cdb.mul hu (ha.g i hi))).of_eq (by push_cast; field_simp; ring)
      refine ⟨?_, fun i hi => ?_, fun h2 i j hij hj => ?_, fun i j => ?_⟩
      · simp only [AOp.updC, if_true, divSelfC, bFin_zero]
        exact (ha.f.div hu ha.f hy)
      · simp only [AOp.updC, if_true, divSelfC, bFin_succ _ _ _ _ hi]
        refine (t1 i hi).of_eq ?_
        simp only [AOp.bin, Bin.jet, Jet.comp2, Bin.d]; field_simp; ring
      · simp only [AOp.updC, if_true, divSelfC, bFin_pos h2 _ _ _ hij hj]
        have ti := t1 i (by omega)
        have tj := t1 j hj
        have hh := ha.h h2 i j hij hj
        refine (((cda.mul hu hh).add hu (cdb.mul hu hh)).add hu
          (((cdab.mul hu ti).mul hu (ha.g j hj)).add hu
            (((cdab.mul hu (ha.g i (by omega))).add hu (cdbb.mul hu ti)).mul hu tj))).of_eq ?_
        simp only [AOp.bin, Bin.jet, Jet.comp2, Bin.d]; push_cast; field_simp; ring
      · simp only [AOp.bin, Bin.jet, Jet.comp2, ha.sym i j]; ring

/-- Contents after `a op= s`. -/
def AOp.updSC {α : Type} [CMath α] (o : AOp) (a : Nat → α) (s : α) : Nat → α :=
  match o with
  | .add => addSC a s
  | .sub => subSC a s
  | .mul => fun k => a k *ₛ s
  | .div => fun k => a k *ₛ (Arith.lit 1 ÷ₛ s)

theorem AOp.runS_updSC {α : Type} [CMath α] {c : Cfg} {n : Nat} (o : AOp) (a : Nat → α) (s : α) :
    o.runS (obj c n a) (.val s) = (.ok (), obj c n (o.updSC a s)) := by
  cases o with
  | add => exact addAssignS_obj a s
  | sub => exact subAssignS_obj a s
  | mul => exact mulAssignS_obj a s
  | div => exact divAssignS_obj a s

theorem AOp.updSC_conv (hu : Fine u l ω) (o : AOp) (ha : Conv M l ω c n a aR J) {s : ∀ k, α k}
    {sR : ι → ℝ}    {t : ℝ} (hs : Lim M l ω s sR t) (h : o = .div → t ≠ 0) :
    Conv M l ω c n (fun k => o.updSC (a k) (s k)) (fun k => o.updSC (aR k) (sR k))
      (J.comp1 (o.sbin.den J.f t) (o.sbin.d J.f t).1 (o.sbin.d J.f t).2) := by
  cases o with
  | add => exact SBin.conv hu .addS hs ha trivial
  | sub =>
    refine conv_lin ha ((ha.f.sub hu hs).of_eq (by simp [AOp.sbin, SBin.den])) fun i hi r hr => ?_
    simp only [AOp.updSC, subSC, hi.ne', if_false]
    exact hr.of_eq (by simp [AOp.sbin, SBin.d])
  | mul => exact SBin.conv hu .mulS hs ha trivial
  | div => exact SBin.conv hu .divS hs ha (h rfl)

end

/-! ## Families of stores -/

section
variable {ι : Type} {l : Filter ι} {α : ι → Type} [∀ k, CMath (α k)] {u : ι → Prec} {ω : ι → ℝ}
  {M : ∀ k, FinErr (α k) (u k)} {c : Cfg} {n : Nat} {V : Type}

/-- The stores, and those of exact arithmetic, converge to jets of the functions `F` at `x`. -/
def Nearing (M : ∀ k, FinErr (α k) (u k)) (l : Filter ι) (ω : ι → ℝ) (c : Cfg) (n : Nat) (x : Fin n → ℝ)
    (st : ∀ k, Store (α k) V) (stR : ι → Store ℝ V) (F : (Fin n → ℝ) → V → ℝ) : Prop :=
  ∃ (co : ∀ k, V → Nat → α k) (coR : ι → V → Nat → ℝ) (J : V → Jet ℝ),
    (∀ k, st k = fun v => obj c n (co k v)) ∧ (∀ k, stR k = fun v => obj c n (coR k v)) ∧
    (∀ v, Conv M l ω c n (fun k => co k v) (fun k => coR k v) (J v)) ∧ ∀ v, IsJet c.order n
      (fun y => F y v) x (J v)

variable {x : Fin n → ℝ} {st : ∀ k, Store (α k) V} {stR : ι → Store ℝ V}
  {F : (Fin n → ℝ) → V → ℝ} {enc : ∀ k, ℝ → α k}

theorem Nearing.eval (h : Nearing M l ω c n x st stR F) (hu : Fine u l ω) (hv : c.Valid)
    (hf : Fits c n) (henc : ∀ s, Lim M l ω (fun k => enc k s) (fun _ => s) s) (e : Expr ℝ V)
    (hD : e.Dom c.order (F x)) (hR : e.Regular (F x)) (hP : e.PowPos (F x)) :
    ∃ (r : ∀ k, Nat → α k) (rR : ι → Nat → ℝ) (K : Jet ℝ),
      (∀ k, (e.map (enc k)).evalDD c n (st k) = .ok (obj c n (r k))) ∧
      (∀ k, e.evalDD c n (stR k) = .ok (obj c n (rR k))) ∧ Conv M l ω c n r rR K ∧
      IsJet c.order n (fun y => e.den (F y)) x K := by
  obtain ⟨co, coR, J, h1, h1R, h2, h3⟩ := h
  have hx : (fun v => (J v).f) = F x := by
    funext v; exact (h3 v).value.symm
  obtain ⟨K, k1, _, k3⟩ := eval_conv hu hv.order enc henc co coR J h2 e (by rwa [hx]) (by rwa [hx])
    (by rwa [hx])
  exact ⟨_, _, K, fun k => by rw [h1 k]; exact evalDD_obj hv.order hf (co k) _,
    fun k => by rw [h1R k]; exact evalDD_obj hv.order hf (coR k) _, k1,
    k3 (fun v y => F y v) x h3⟩

variable [DecidableEq V]

theorem Nearing.set (h : Nearing M l ω c n x st stR F) {t : V} {r : ∀ k, Nat → α k}
    {rR : ι → Nat → ℝ} {K : Jet ℝ}     (hr : Conv M l ω c n r rR K) {φ : (Fin n → ℝ) → ℝ}
      (hK : IsJet c.order n φ x K) :
    Nearing M l ω c n x (fun k => (st k).set t (obj c n (r k))) (fun k => (stR k).set t (obj c n (rR k)))
      fun y => setVal (F y) t (φ y) := by
  obtain ⟨co, coR, J, h1, h1R, h2, h3⟩ := h
  refine ⟨fun k v => if v = t then r k else co k v, fun k v => if v = t then rR k else coR k v,
    fun v => if v = t then K else J v, fun k => ?_, fun k => ?_, fun v => ?_, fun v => ?_⟩
  · funext v
    beta_reduce
    rw [h1 k]
    by_cases hvt : v = t
    · simp [Store.set, hvt]
    · simp [Store.set, hvt]
  · funext v
    beta_reduce
    rw [h1R k]
    by_cases hvt : v = t
    · simp [Store.set, hvt]
    · simp [Store.set, hvt]
  · by_cases hvt : v = t
    · simpa [hvt] using hr
    · simpa [hvt] using h2 v
  · by_cases hvt : v = t
    · simpa [setVal, hvt] using hK
    · simpa [setVal, hvt] using h3 v

/-- One statement. -/
theorem Nearing.step (h : Nearing M l ω c n x st stR F) (hu : Fine u l ω) (hv : c.Valid)
    (hf : Fits c n) (henc : ∀ s, Lim M l ω (fun k => enc k s) (fun _ => s) s) (s : Stmt ℝ V)
    (hok : s.Ok c.order n (F x)) (hP : s.PowPos (F x)) :
    ∃ (st' : ∀ k, Store (α k) V) (stR' : ι → Store ℝ V),
      (∀ k, (s.map (enc k)).run c n (st k) = (.ok (), st' k)) ∧
      (∀ k, s.run c n (stR k) = (.ok (), stR' k)) ∧ Nearing M l ω c n x st' stR' fun y => s.den
        (F y) := by
  cases s with
  | assign t e =>
    obtain ⟨r, rR, K, h1, h1R, h2, h3⟩ := h.eval hu hv hf henc e hok.1 hok.2 hP
    refine ⟨_, _, fun k => ?_, fun k => ?_, h.set h2 h3⟩
    · simp only [Stmt.map, Stmt.run, h1, Store.put]
    · simp only [Stmt.run, h1R, Store.put]
  | upd o t e =>
    obtain ⟨hD, hR, hdiv, hmul⟩ := hok
    have h' := h
    obtain ⟨co, coR, J, c1, c1R, c2, c3⟩ := h'
    have hst : ∀ k, st k t = obj c n (co k t) := fun k => congrFun (c1 k) t
    have hstR : ∀ k, stR k t = obj c n (coR k t) := fun k => congrFun (c1R k) t
    have hjet : ∀ {K : Jet ℝ}, IsJet c.order n (fun y => e.den (F y)) x K →
        (o = .div → K.f ≠ 0) ∧
        IsJet c.order n (fun y => o.den (F y t) (e.den (F y))) x (o.bin.jet (J t) K) := by
      intro K h3
      have hd : o = .div → K.f ≠ 0 := fun ho => by
        rw [← h3.value]; exact hdiv ho
      have := Bin.isJet c.order o.bin (c3 t) h3
        (by cases o <;> first | trivial | exact hd rfl) (by cases o <;> trivial)
      exact ⟨hd, by cases o <;> exact this⟩
    by_cases he : e = .var t
    · subst he
      have hne : o ≠ .mul := fun ho => (hmul ho).1 rfl
      obtain ⟨hd, hj⟩ := hjet (c3 t)
      refine ⟨_, _, fun k => ?_, fun k => ?_,
        h.set (o.updC_conv hu true (c2 t) (c2 t) (fun _ => rfl) hd) hj⟩
      · simp only [Stmt.map, Stmt.run, Expr.map, Store.operand, if_true, Store.change, hst,
          o.run_updC_self hv.order hf hne]
      · simp only [Stmt.run, Store.operand, if_true, Store.change, hstR,
          o.run_updC_self hv.order hf hne]
    · obtain ⟨r, rR, K, h1, h1R, h2, h3⟩ := h.eval hu hv hf henc e hD hR hP
      obtain ⟨hd, hj⟩ := hjet h3
      refine ⟨_, _, fun k => ?_, fun k => ?_,
        h.set (o.updC_conv hu false (c2 t) h2 (fun h => by cases h) hd) hj⟩
      · have hop : (st k).operand c n t (e.map (enc k)) = .ok (.obj (obj c n (r k))) := by
          have := h1 k
          cases e with
          | var w =>
            have hw : w ≠ t := fun hw => he (by rw [hw])
            simp only [Expr.map, Expr.evalDD, Res.ok.injEq] at this
            simp [Store.operand, Expr.map, hw, this]
          | _ =>
            simp only [Expr.map] at this
            simp only [Store.operand, Expr.map, this, Res.ok_bind]
        simp only [Stmt.map, Stmt.run, hop, Store.change, hst,
          o.run_updC hv.order hf (fun ho => (hmul ho).2)]
      · have hop : (stR k).operand c n t e = .ok (.obj (obj c n (rR k))) := by
          have := h1R k
          cases e with
          | var w =>
            have hw : w ≠ t := fun hw => he (by rw [hw])
            simp only [Expr.evalDD, Res.ok.injEq] at this
            simp [Store.operand, hw, this]
          | _ => simp only [Store.operand, this, Res.ok_bind]
        simp only [Stmt.run, hop, Store.change, hstR,
          o.run_updC hv.order hf (fun ho => (hmul ho).2)]
  | updS o t s =>
    cases s with
    | cell k => exact hok.elim
    | val s =>
      have h' := h
      obtain ⟨co, coR, J, c1, c1R, c2, c3⟩ := h'
      have hst : ∀ k, st k t = obj c n (co k t) := fun k => congrFun (c1 k) t
      have hstR : ∀ k, stR k t = obj c n (coR k t) := fun k => congrFun (c1R k) t
      have hd := o.updSC_conv hu (c2 t) (henc s) (fun ho => hok ho)
      refine ⟨_, _, fun k => ?_, fun k => ?_, h.set hd ?_⟩
      · simp only [Stmt.map, Stmt.run, Store.change, hst, AOp.runS_updSC]
      · simp only [Stmt.run, Store.change, hstR, AOp.runS_updSC]
      · have := (c3 t).comp1 (o.sbin.d2At c.order (x := (J t).f) (s := s)
          (by cases o <;> first | trivial | exact hok rfl))
        cases o <;> exact this
  | setF t v => exact hok.elim
  | setG t i v => exact hok.elim
  | setH t i j v => exact hok.elim
  | setZero t => exact hok.elim

theorem rel_lim {a b : ι → ℝ} {r s : ℝ} (ha : Tendsto a l (𝓝 r)) (hb : Tendsto b l (𝓝 s)) (hne : r ≠ s)
    (op : DD.CmpOp) : ∀ᶠ k in l, (op.rel (a k) (b k) ↔ op.rel r s) := by
  rcases lt_or_gt_of_ne hne with h | h
  · filter_upwards [Tendsto.eventually_lt ha hb h] with k hk
    cases op <;> simp [DD.CmpOp.rel, h.ne, hk.ne, h, hk, h.not_gt, hk.not_gt, h.le, hk.le, h.not_ge,
      hk.not_ge]
  · filter_upwards [Tendsto.eventually_lt hb ha h] with k hk
    cases op <;> simp [DD.CmpOp.rel, h.ne', hk.ne', h, hk, h.not_gt, hk.not_gt, h.le, hk.le,
      h.not_ge, hk.not_ge]

theorem real_exactCmp : ExactCmp (id : ℝ → ℝ) := by
  intro op a b
  cases op <;> exact decide_eq_true_iff

theorem cmp_lim {a b : ∀ k, α k} {aR bR : ι → ℝ} {r s : ℝ} (ha : Lim M l ω a aR r)
    (hb : Lim M l ω b bR s) (hne : r ≠ s)
    (hcmp : ∀ k, (M k).ExactCmp) (op : DD.CmpOp) {q : Bool} (hq : q = true ↔ op.rel r s) :
    ∀ᶠ k in l, op.scalar (a k) (b k) = q ∧ op.scalar (aR k) (bR k) = q := by
  filter_upwards [rel_lim ha.lim hb.lim hne op, rel_lim ha.goal hb.goal hne op, ha.fin,
    hb.fin] with k hk hk' fa fb
  constructor
  · rw [Bool.eq_iff_iff, hcmp k op _ _ fa fb, hk, hq]
  · rw [Bool.eq_iff_iff, real_exactCmp op, id, id, hk', hq]

omit [DecidableEq V] in
/-- One comparison. -/
theorem Nearing.cond (h : Nearing M l ω c n x st stR F) (hu : Fine u l ω) (hv : c.Valid)
    (hf : Fits c n) (henc : ∀ s, Lim M l ω (fun k => enc k s) (fun _ => s) s)
      (hcmp : ∀ k, (M k).ExactCmp)
    (b : Cond ℝ V) (hs : b.Sure c.order (F x)) (hP : b.PowPos (F x)) {q : Bool}
    (hq : q = true ↔ b.Holds (F x)) :
    ∀ᶠ k in l, (b.map (enc k)).run c n (st k) = .ok q ∧ b.run c n (stR k) = .ok q := by
  obtain ⟨hi, hne⟩ := hs
  cases b with
  | cmp op e₁ e₂ =>
    obtain ⟨r, rR, K, h1, h1R, h2, h3⟩ := h.eval hu hv hf henc e₁ hi.1.1 hi.1.2 hP.1
    obtain ⟨r', rR', K', h1', h1R', h2', h3'⟩ := h.eval hu hv hf henc e₂ hi.2.1 hi.2.2 hP.2
    refine (cmp_lim (h2.f.of_eq h3.value.symm) (h2'.f.of_eq h3'.value.symm) hne hcmp op hq).mono
      fun k hk => ?_
    simp only [Cond.map, Cond.run, h1, h1', h1R, h1R', Res.ok_bind, DD.cmp, f_obj, hk.1, hk.2, and_self]
  | cmpS op e s =>
    obtain ⟨r, rR, K, h1, h1R, h2, h3⟩ := h.eval hu hv hf henc e hi.1 hi.2 hP
    refine (cmp_lim (h2.f.of_eq h3.value.symm) (henc s) hne hcmp op hq).mono fun k hk => ?_
    simp only [Cond.map, Cond.run, h1, h1R, Res.ok_bind, DD.cmpS, f_obj, hk.1, hk.2, and_self]
  | sCmp op s e =>
    obtain ⟨r, rR, K, h1, h1R, h2, h3⟩ := h.eval hu hv hf henc e hi.1 hi.2 hP
    refine (cmp_lim (h2.f.of_eq h3.value.symm) (henc s) hne hcmp op.mirror (q := q) ?_).mono
      fun k hk => ?_
    · rw [hq]
      cases op <;> simp [Cond.Holds, DD.CmpOp.mirror, DD.CmpOp.rel, eq_comm]
    · simp only [Cond.map, Cond.run, h1, h1R, Res.ok_bind, DD.sCmp, DD.cmpS, f_obj, hk.1, hk.2, and_self]

end

/-! ## Seeds -/

/-- The Hessian of a jet is symmetric. -/
theorem IsJet.sym {n : Nat} {F : (Fin n → ℝ) → ℝ} {x : Fin n → ℝ} {J : Jet ℝ} (h : IsJet 2 n F x J)
    (i j : Fin n) : J.h i j = J.h j i := by
  have hsum : ∀ L : (Fin n → ℝ) →L[ℝ] ℝ,
      L = ∑ i : Fin n, L (Pi.single i 1) • (ContinuousLinearMap.proj i : (Fin n → ℝ) →L[ℝ] ℝ) := by
    intro L
    apply ContinuousLinearMap.coe_injective
    apply LinearMap.pi_ext
    intro k t
    simp [Pi.single_apply]
    rw [mul_comm, ← smul_eq_mul, ← map_smul, ← Pi.single_smul]
    simp
  have hd : HasFDerivAt (fderiv ℝ F)
      (∑ i : Fin n, (lin n (J.h i)).smulRight (ContinuousLinearMap.proj i : (Fin n → ℝ) →L[ℝ] ℝ)) x := by
    have h1 : HasFDerivAt (fun y => ∑ i : Fin n, fderiv ℝ F y (Pi.single i 1) •
        (ContinuousLinearMap.proj i : (Fin n → ℝ) →L[ℝ] ℝ))
        (∑ i : Fin n, (lin n (J.h i)).smulRight (ContinuousLinearMap.proj i : (Fin n → ℝ) →L[ℝ] ℝ)) x :=
      HasFDerivAt.fun_sum fun i _ =>
        HasFDerivAt.smul_const (F := (Fin n → ℝ) →L[ℝ] ℝ) (h.hess rfl i) (ContinuousLinearMap.proj i)
    refine h1.congr_of_eventuallyEq (Eventually.of_forall fun y => ?_)
    exact hsum _
  have := second_derivative_symmetric_of_eventually
    ((h.near rfl).mono fun y hy => hy.hasFDerivAt) hd (Pi.single i 1) (Pi.single j 1)
  simp only [sum_apply, ContinuousLinearMap.smulRight_apply, lin_single,
    smul_apply, ContinuousLinearMap.proj_apply, smul_eq_mul, Pi.single_apply,
    mul_ite, mul_one, mul_zero, Finset.sum_ite_eq', Finset.mem_univ, if_true] at this
  exact this.symm

open Classical in
/-- Contents showing a given jet. -/
noncomputable def packJet {α : Type} (n : Nat) (J : Jet α) (k : Nat) : α :=
  if k = 0 then J.f else if k ≤ n then J.g (k - 1) else
    if h : ∃ q : Nat × Nat, q.1 ≤ q.2 ∧ q.2 < n ∧ pos n q.1 q.2 = k then J.h h.choose.1 h.choose.2
    else J.f

theorem packJet_zero {α : Type} (n : Nat) (J : Jet α) : packJet n J 0 = J.f := by simp [packJet]

theorem packJet_succ {α : Type} {n : Nat} (J : Jet α) {i : Nat} (hi : i < n) :
    packJet n J (1 + i) = J.g i := by
  simp [packJet, show 1 + i ≤ n by omega]

theorem packJet_pos {α : Type} {n : Nat} (J : Jet α) {i j : Nat} (hij : i ≤ j) (hj : j < n) :
    packJet n J (pos n i j) = J.h i j := by
  have hgt := pos_gt n i j
  have hex : ∃ q : Nat × Nat, q.1 ≤ q.2 ∧ q.2 < n ∧ pos n q.1 q.2 = pos n i j := ⟨(i, j), hij, hj, rfl⟩
  unfold packJet
  rw [if_neg (by omega), if_neg (by omega), dif_pos hex]
  have hq := hex.choose_spec
  generalize hex.choose = q at hq
  obtain ⟨h1, h2, h3⟩ := hq
  have := off_inj hij hj h1 h2 (by unfold pos at h3; omega)
  rw [this.1, this.2]

section
variable {ι : Type} {l : Filter ι} {α : ι → Type} [∀ k, CMath (α k)] {u : ι → Prec} {ω : ι → ℝ}
  {M : ∀ k, FinErr (α k) (u k)} {c : Cfg} {n : Nat} {V : Type}

/-- Objects whose components converge to those of jets. -/
theorem Nearing.of_shows (hc : c.order = 1 ∨ c.order = 2) {x : Fin n → ℝ} {F : (Fin n → ℝ) → V → ℝ}
    {J : V → Jet ℝ} (hF : ∀ v, IsJet c.order n (fun y => F y v) x (J v))
    {st : ∀ k, Store (α k) V} {K : ∀ k, V → Jet (α k)} (hS : ∀ k v, Shows c n (st k v) (K k v))
    {stR : ι → Store ℝ V} {KR : ι → V → Jet ℝ} (hSR : ∀ k v, Shows c n (stR k v) (KR k v))
    (hf : ∀ v, Lim M l ω (fun k => (K k v).f) (fun k => (KR k v).f) (J v).f)
    (hg : ∀ v, ∀ i < n, Lim M l ω (fun k => (K k v).g i) (fun k => (KR k v).g i) ((J v).g i))
    (hh : c.order = 2 → ∀ v, ∀ i < n, ∀ j < n,
      Lim M l ω (fun k => (K k v).h i j) (fun k => (KR k v).h i j) ((J v).h i j)) :
    Nearing M l ω c n x st stR F := by
  classical
  have hobj : ∀ k v, ∃ a, st k v = obj c n a := fun k v => ((hS k v).wf.eq_obj hc).2
  have hobjR : ∀ k v, ∃ a, stR k v = obj c n a := fun k v => ((hSR k v).wf.eq_obj hc).2
  choose co hco using hobj
  choose coR hcoR using hobjR
  have hjet : ∀ k v, (jetOf n (co k v)).Eqv c.order n (K k v) := fun k v => by
    have h1 := hS k v
    have hfit := (h1.wf.eq_obj hc).1
    rw [hco k v] at h1
    exact (shows_obj hc hfit (co k v)).unique h1
  have hjetR : ∀ k v, (jetOf n (coR k v)).Eqv c.order n (KR k v) := fun k v => by
    have h1 := hSR k v
    have hfit := (h1.wf.eq_obj hc).1
    rw [hcoR k v] at h1
    exact (shows_obj hc hfit (coR k v)).unique h1
  let J' : V → Jet ℝ := fun v => ⟨(J v).f, (J v).g,
    fun i j => if c.order = 2 ∧ i < n ∧ j < n then (J v).h i j else 0⟩
  have hsym : c.order = 2 → ∀ v, ∀ i < n, ∀ j < n, (J v).h i j = (J v).h j i := by
    intro h2 v i hi j hj
    have h := hF v
    rw [h2] at h
    exact h.sym ⟨i, hi⟩ ⟨j, hj⟩
  refine ⟨co, coR, J', fun k => funext fun v => hco k v, fun k => funext fun v => hcoR k v,
    fun v => ⟨?_, fun i hi => ?_, fun h2 i j hij hj => ?_, fun i j => ?_⟩,
    fun v => (hF v).congr ⟨rfl, fun _ _ => rfl, fun h2 i j hi hj => ?_⟩⟩
  · refine Lim.congr' (.of_forall fun k => ?_) (.of_forall fun k => ?_) (hf v)
    · exact (hjet k v).1.symm
    · exact (hjetR k v).1.symm
  · refine Lim.congr' (.of_forall fun k => ?_) (.of_forall fun k => ?_) (hg v i hi)
    · exact ((hjet k v).2.1 i hi).symm
    · exact ((hjetR k v).2.1 i hi).symm
  · simp only [J']
    rw [if_pos ⟨h2, by omega, hj⟩]
    refine Lim.congr' (.of_forall fun k => ?_) (.of_forall fun k => ?_) (hh h2 v i (by omega) j hj)
    · have := (hjet k v).2.2 h2 i j (by omega) hj
      simp only [jetOf, if_pos hij] at this
      beta_reduce
      rw [this]
    · have := (hjetR k v).2.2 h2 i j (by omega) hj
      simp only [jetOf, if_pos hij] at this
      beta_reduce
      rw [this]
  · simp only [J']
    by_cases h : c.order = 2 ∧ i < n ∧ j < n
    · rw [if_pos h, if_pos ⟨h.1, h.2.2, h.2.1⟩, hsym h.1 v i h.2.1 j h.2.2]
    · rw [if_neg h, if_neg (fun h' => h ⟨h'.1, h'.2.2, h'.2.1⟩)]
  · simp only [J', if_pos (And.intro h2 (And.intro hi hj))]

/-- What converges to a jet is in the end close to the derivatives. -/
theorem Nearing.approx [Finite V] (hc : c.order = 1 ∨ c.order = 2) (hfit : Fits c n) {x : Fin n → ℝ}
    {F : (Fin n → ℝ) → V → ℝ} {st : ∀ k, Store (α k) V} {stR : ι → Store ℝ V}
    (h : Nearing M l ω c n x st stR F) {ε : ℝ} (hε : 0 < ε) :
    ∀ᶠ k in l, ∀ v,
      Within c (fun s t => (M k).fin s ∧ |(M k).val s - t| < ε) (fun y => F y v) x (st k v) := by
  obtain ⟨co, coR, J, h1, _, h2, h3⟩ := h
  refine eventually_all.2 fun v => ((h2 v).approx hc hfit (h3 v) hε).mono fun k hk => ?_
  rwa [show st k v = obj c n (co k v) from congrFun (h1 k) v]

/-- The distance to the exact derivatives at the points `xs k`. -/
theorem Nearing.errLe [Finite V] (hc : c.order = 1 ∨ c.order = 2) (hfit : Fits c n) {x : Fin n → ℝ}
    {F G : (Fin n → ℝ) → V → ℝ} {st : ∀ k, Store (α k) V} {stR : ι → Store ℝ V}
    (h : Nearing M l ω c n x st stR F) {xs : ι → Fin n → ℝ}
    (hG : ∀ᶠ k in l, ∀ v, ∃ J, Shows c n (stR k v) J ∧ IsJet c.order n (fun y => G y v) (xs k) J) :
    ∀ᶠ C in atTop, ∀ᶠ k in l, ∀ v,
      Within c (fun s t => (M k).fin s ∧ |(M k).val s - t| ≤ C * ‖ω k‖) (fun y => G y v) (xs k)
        (st k v) := by
  obtain ⟨co, coR, J, h1, h1R, h2, -⟩ := h
  have hI : ∀ v, ∀ᶠ k in l, IsJet c.order n (fun y => G y v) (xs k) (jetOf n (coR k v)) :=
    fun v => hG.mono fun k hk => by
      obtain ⟨J', hS, hJ⟩ := hk v
      rw [show stR k v = obj c n (coR k v) from congrFun (h1R k) v] at hS
      exact hJ.congr (hS.unique (shows_obj hc hfit (coR k v)))
  refine (eventually_all.2 fun v => (h2 v).errLe hc hfit (hI v)).mono fun C hC => ?_
  refine eventually_all.2 fun v => (hC v).mono fun k hk => ?_
  rwa [show st k v = obj c n (co k v) from congrFun (h1 k) v]

end

/-- There are objects with given jets. -/
theorem exists_shows {c : Cfg} {n : Nat} {V : Type} (hc : c.order = 1 ∨ c.order = 2) (hfit : Fits c n)
    {x : Fin n → ℝ} {F : (Fin n → ℝ) → V → ℝ} {J : V → Jet ℝ}
    (hF : ∀ v, IsJet c.order n (fun y => F y v) x (J v)) :
    ∃ st : Store ℝ V, ∀ v, Shows c n (st v) (J v) := by
  refine ⟨fun v => obj c n (packJet n (J v)), fun v => shows_of_obj hc hfit (packJet_zero ..)
    (fun i hi => packJet_succ _ hi) (fun _ i j hij hj => packJet_pos _ hij hj)
    (fun h2 i j hi hj => ?_)⟩
  have h := hF v
  rw [h2] at h
  exact h.sym ⟨i, hi⟩ ⟨j, hj⟩

/-! ## From a run at a point to a run of functions -/

/-- No rounding at all. -/
def idErr : LibErr (Flt id) 0 :=
  fltErr le_rfl one_pos (fun x => by simp [Close]) (fun z _ => rfl)

theorem unit_fine : Fine (fun _ : Unit => .plain 0) ⊤ (fun _ => 1) :=
  .plain tendsto_const_nhds (Asymptotics.isBigO_zero _ _)

theorem unit_enc (s : ℝ) :
    Lim (fun _ : Unit => idErr.toFin) ⊤ (fun _ => 1) (fun _ => (⟨s⟩ : Flt id)) (fun _ => s) s :=
  ⟨Nigh.const s, .of_forall fun _ => trivial⟩

section
variable {c : Cfg} {n : Nat} {V : Type} [DecidableEq V]

/-- A run of functions near `x`. -/
def FunRun (order : Nat) (x : Fin n → ℝ) (p : Ctl (Stmt ℝ V) (Cond ℝ V))
    (F F' : (Fin n → ℝ) → V → ℝ) : Prop :=
  Runs (fun s F F' => (s.Ok order n (F x) ∧ s.PowPos (F x)) ∧ F' = fun y => s.den (F y))
    (fun b F r => ((b.Sure order (F x) ∧ b.PowPos (F x)) ∧ (r = true ↔ b.Holds (F x))) ∧
      ∀ᶠ y in 𝓝 x, (r = true ↔ b.Holds (F y))) p F F'

theorem PreciseRun.lift (hv : c.Valid) (hfit : Fits c n) {p : Ctl (Stmt ℝ V) (Cond ℝ V)}
    {F : (Fin n → ℝ) → V → ℝ} {x : Fin n → ℝ} {J : V → Jet ℝ} {σ' : V → ℝ}
    (hF : ∀ v, IsJet c.order n (fun y => F y v) x (J v)) (h : PreciseRun c.order n p (F x) σ') :
    ∃ F', FunRun c.order x p F F' ∧ F' x = σ' := by
  have henc := unit_enc
  have hu := unit_fine
  have h0 : ∃ (st : Unit → Store (Flt id) V) (stR : Unit → Store ℝ V),
      Nearing (fun _ : Unit => idErr.toFin) ⊤ (fun _ => 1) c n x st stR F := by
    have hsym : c.order = 2 → ∀ v, ∀ i j, i < n → j < n → (J v).h i j = (J v).h j i := by
      intro h2 v i j hi hj
      have h := hF v
      rw [h2] at h
      exact h.sym ⟨i, hi⟩ ⟨j, hj⟩
    refine ⟨fun _ v => obj c n (packJet n ((J v).mapv fun s => (⟨s⟩ : Flt id))),
      fun _ v => obj c n (packJet n (J v)),
      Nearing.of_shows hv.order hF (K := fun _ v => (J v).mapv fun s => (⟨s⟩ : Flt id))
        (fun _ v => shows_of_obj hv.order hfit (packJet_zero ..) (fun i hi => packJet_succ _ hi)
          (fun _ i j hij hj => packJet_pos _ hij hj) (fun h2 i j hi hj => ?_))
        (KR := fun _ => J)
        (fun _ v => shows_of_obj hv.order hfit (packJet_zero ..) (fun i hi => packJet_succ _ hi)
          (fun _ i j hij hj => packJet_pos _ hij hj) (fun h2 i j hi hj => hsym h2 v i j hi hj))
        (fun v => henc _) (fun v i _ => henc _) (fun _ v i _ j _ => henc _)⟩
    simp only [Jet.mapv, hsym h2 v i j hi hj]
  obtain ⟨st, stR, h0⟩ := h0
  obtain ⟨F', h1, h2, _⟩ := Runs.lift (R := fun a G => G x = a ∧
      ∃ st stR, Nearing (fun _ : Unit => idErr.toFin) ⊤ (fun _ => 1) c n x st stR G)
    (step' := fun s F F' => (s.Ok c.order n (F x) ∧ s.PowPos (F x)) ∧ F' = fun y => s.den (F y))
    (test' := fun b F r => ((b.Sure c.order (F x) ∧ b.PowPos (F x)) ∧ (r = true ↔ b.Holds (F x))) ∧
      ∀ᶠ y in 𝓝 x, (r = true ↔ b.Holds (F y)))
    (by
      rintro s a a' G ⟨rfl, st, stR, hG⟩ ⟨hs, rfl⟩
      obtain ⟨st', stR', _, _, h2⟩ := hG.step hu hv hfit (enc := fun _ s => ⟨s⟩) henc s hs.1 hs.2
      exact ⟨_, ⟨hs, rfl⟩, rfl, st', stR', h2⟩)
    (by
      rintro b a r G ⟨rfl, st, stR, hG⟩ ⟨⟨hs, hP⟩, hr⟩
      refine ⟨⟨⟨hs, hP⟩, hr⟩, ?_⟩
      obtain ⟨hi, hne⟩ := hs
      have key : ∀ᶠ y in 𝓝 x, (b.Holds (G y) ↔ b.Holds (G x)) := by
        cases b with
        | cmp op e₁ e₂ =>
          obtain ⟨_, _, _, _, _, _, h1⟩ := hG.eval hu hv hfit
            (enc := fun _ s => ⟨s⟩) henc e₁ hi.1.1 hi.1.2 hP.1
          obtain ⟨_, _, _, _, _, _, h2⟩ := hG.eval hu hv hfit
            (enc := fun _ s => ⟨s⟩) henc e₂ hi.2.1 hi.2.2 hP.2
          exact rel_steady h1.grad.continuousAt h2.grad.continuousAt hne op
        | cmpS op e s =>
          obtain ⟨_, _, _, _, _, _, h1⟩ := hG.eval hu hv hfit (enc := fun _ s => ⟨s⟩) henc e hi.1 hi.2 hP
          exact rel_steady h1.grad.continuousAt continuousAt_const hne op
        | sCmp op s e =>
          obtain ⟨_, _, _, _, _, _, h1⟩ := hG.eval hu hv hfit (enc := fun _ s => ⟨s⟩) henc e hi.1 hi.2 hP
          exact rel_steady continuousAt_const h1.grad.continuousAt (Ne.symm hne) op
      exact key.mono fun y hy => hr.trans hy.symm) h ⟨rfl, st, stR, h0⟩
  exact ⟨F', h1, h2⟩

theorem FunRun.real {order : Nat} {x : Fin n → ℝ} {p : Ctl (Stmt ℝ V) (Cond ℝ V)}
    {F F' : (Fin n → ℝ) → V → ℝ} (h : FunRun order x p F F') :
    ∀ᶠ y in 𝓝 x, RealRun p (F y) (F' y) := by
  unfold RealRun
  refine Runs.eventually (fun F y => F y) (fun s F F' hs => ?_) (fun b F r hb => ?_) h
  · exact Filter.Eventually.of_forall fun y => congrFun hs.2 y
  · exact hb.2

end

end HJ
