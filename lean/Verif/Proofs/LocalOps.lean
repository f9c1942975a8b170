import Verif.Proofs.Local
import Verif.Proofs.Converge
import Mathlib.Algebra.BigOperators.Fin

/-!
# The error made by one operation: the components of the result
-/

namespace HJ

section
variable {α : Type} [CMath α] {u : ℝ} {M : LibErr α u} {k l : Nat} {x y : α} {r s A B : ℝ}

/-- The number `x` is `r` up to `k` roundings of terms of size `A`. -/
def Nr (M : LibErr α u) (k : Nat) (x : α) (r A : ℝ) : Prop := Near (1 / (1 - u) - 1) k (M.val x) r A

theorem LibErr.gap (M : LibErr α u) : 0 ≤ 1 / (1 - u) - 1 := sub_nonneg.2 M.one_le

theorem LibErr.gap_ge (M : LibErr α u) : u ≤ 1 / (1 - u) - 1 := by
  have := M.nonneg
  have := M.lt_one
  rw [le_sub_iff_add_le, le_div_iff₀ (by linarith)]
  nlinarith

theorem LibErr.near_round (M : LibErr α u) {z t : ℝ} (h : Near (1 / (1 - u) - 1) k t r A)
    (hz : Close u z t) : Near (1 / (1 - u) - 1) (k + 1) z r A :=
  h.round M.gap (le_trans hz (mul_le_mul_of_nonneg_right M.gap_ge (abs_nonneg _)))

theorem Has.nr (h : Has M k x r) : Nr M k x r |r| := Rel.near M.one_le h

theorem Nr.of_eq (h : Nr M k x r A) (e : r = s) (E : A = B) : Nr M k x s B := e ▸ E ▸ h

theorem Nr.mono (h : Nr M k x r A) (hk : k ≤ l) : Nr M l x r A := Near.mono M.gap h hk

theorem Nr.of_le (h : Nr M k x r A) (hA : A ≤ B) : Nr M k x r B :=
  ⟨h.err.trans (mul_le_mul_of_nonneg_left hA (sub_nonneg.2 (one_le_pow₀ (by linarith [M.gap])))),
    h.le.trans hA⟩

theorem Nr.neg (h : Nr M k x r A) : Nr M k (-ₛ x) (-r) A := by
  unfold Nr; rw [M.neg]; exact Near.neg h

theorem Nr.add (h : Nr M k x r A) (g : Nr M l y s B) : Nr M (max k l + 1) (x +ₛ y) (r + s) (A + B) :=
  M.near_round (Near.add (h.mono (le_max_left k l)) (g.mono (le_max_right k l))) (M.add x y)

theorem Nr.sub (h : Nr M k x r A) (g : Nr M l y s B) : Nr M (max k l + 1) (x -ₛ y) (r - s) (A + B) := by
  rw [sub_eq_add_neg]
  refine M.near_round (Near.add (h.mono (le_max_left k l)) (g.mono (le_max_right k l)).neg) ?_
  rw [M.neg, ← sub_eq_add_neg]
  exact M.sub x y

theorem Nr.mul (h : Nr M k x r A) (g : Nr M l y s B) : Nr M (k + l + 1) (x *ₛ y) (r * s) (A * B) :=
  M.near_round (Near.mul h g) (M.mul x y)

/-- Contents `a` are the jet `J` up to `k` roundings of terms of size `S`. -/
structure Nears (M : LibErr α u) (k : Nat) (c : Cfg) (n : Nat) (a : Nat → α) (J S : Jet ℝ) :
    Prop where
  f : Nr M k (a 0) J.f S.f
  g : ∀ i < n, Nr M k (a (1 + i)) (J.g i) (S.g i)
  h : c.order = 2 → ∀ i j, i ≤ j → j < n → Nr M k (a (pos n i j)) (J.h i j) (S.h i j)
  symJ : ∀ i j, J.h i j = J.h j i
  symS : ∀ i j, S.h i j = S.h j i

variable {c : Cfg} {n : Nat} {a b d : Nat → α} {J K L SJ SK SL : Jet ℝ}

theorem Nears.within (h : Nears M k c n a J SJ) :
    Jet.Within c.order n ((1 / (1 - u)) ^ k - 1) SJ ((jetOf n a).mapv M.val) J := by
  have e : ∀ {x r A}, Nr M k x r A → |M.val x - r| ≤ ((1 / (1 - u)) ^ k - 1) * A := by
    intro x r A hx
    have := Near.err hx
    rwa [add_sub_cancel] at this
  refine ⟨e h.f, fun i hi => e (h.g i hi), fun h2 i j hi hj => ?_⟩
  simp only [jetOf, Jet.mapv]
  split
  · rename_i hij
    exact e (h.h h2 i j hij hj)
  · rename_i hij
    rw [h.symJ i j, h.symS i j]
    exact e (h.h h2 j i (by omega) hi)

theorem Nears.self (M : LibErr α u) (c : Cfg) (n : Nat) (a : Nat → α) :
    Nears M 0 c n a ((jetOf n a).mapv M.val) (((jetOf n a).mapv M.val).mapv fun s => |s|) where
  f := Near.exact _
  g := fun _ _ => Near.exact _
  h := fun _ i j hij _ => by
    simp only [jetOf, Jet.mapv, if_pos hij]
    exact Near.exact _
  symJ := fun i j => by
    simp only [jetOf, Jet.mapv]
    rcases lt_trichotomy i j with h | rfl | h
    · rw [if_pos h.le, if_neg (by omega)]
    · rfl
    · rw [if_neg (by omega), if_pos h.le]
  symS := fun i j => by
    simp only [jetOf, Jet.mapv]
    rcases lt_trichotomy i j with h | rfl | h
    · rw [if_pos h.le, if_neg (by omega)]
    · rfl
    · rw [if_neg (by omega), if_pos h.le]

theorem nears_uFin (ha : Nears M 0 c n a J SJ) {f da daa : α} {f' d dd F D DD : ℝ}
    (hf : Nr M 11 f f' F) (hd : Nr M 11 da d D) (hdd : Nr M 11 daa dd DD) :
    Nears M 16 c n (uFin c n a f da daa) (J.comp1 f' d dd) (SJ.comp1 F D DD) where
  f := by simp only [uFin_zero]; exact hf.mono (by norm_num)
  g := by
    intro i hi
    simp only [uFin_succ _ _ _ _ hi]
    exact (hd.mul (ha.g i hi)).mono (by norm_num)
  h := by
    intro h2 i j hij hj
    simp only [uFin_pos h2 _ _ _ _ hij hj]
    exact ((hd.mul (ha.h h2 i j hij hj)).add ((hdd.mul (ha.g i (by omega))).mul (ha.g j hj))).mono
      (by norm_num)
  symJ := by
    intro i j
    simp only [Jet.comp1, ha.symJ i j]; ring
  symS := by
    intro i j
    simp only [Jet.comp1, ha.symS i j]; ring

theorem nears_bin5 (ha : Nears M 0 c n a J SJ) (hb : Nears M 0 c n b K SK)
    {f da db daa dab dbb : α} {f' xa xb xaa xab xbb F A B AA AB BB : ℝ} (hf : Nr M 11 f f' F)
    (hda : Nr M 11 da xa A) (hdb : Nr M 11 db xb B) (hdaa : Nr M 11 daa xaa AA)
    (hdab : Nr M 11 dab xab AB) (hdbb : Nr M 11 dbb xbb BB) :
    Nears M 16 c n (bin5 c n a b f da db daa dab dbb) (Jet.comp2 f' xa xb xaa xab xbb J K)
      (Jet.comp2 F A B AA AB BB SJ SK) where
  f := by simp only [bin5, bFin_zero]; exact hf.mono (by norm_num)
  g := by
    intro i hi
    simp only [bin5, bFin_succ _ _ _ _ hi]
    exact ((hda.mul (ha.g i hi)).add (hdb.mul (hb.g i hi))).mono (by norm_num)
  h := by
    intro h2 i j hij hj
    have ai := ha.g i (by omega)
    have bi := hb.g i (by omega)
    simp only [bin5, bFin_pos h2 _ _ _ hij hj]
    exact (((hda.mul (ha.h h2 i j hij hj)).add (hdb.mul (hb.h h2 i j hij hj))).add
      ((((hdaa.mul ai).add (hdab.mul bi)).mul (ha.g j hj)).add
        (((hdab.mul ai).add (hdbb.mul bi)).mul (hb.g j hj)))).mono (by norm_num)
  symJ := by
    intro i j
    simp only [Jet.comp2, ha.symJ i j, hb.symJ i j]; ring
  symS := by
    intro i j
    simp only [Jet.comp2, ha.symS i j, hb.symS i j]; ring

theorem nears_mul (ha : Nears M 0 c n a J SJ) (hb : Nears M 0 c n b K SK) :
    Nears M 16 c n (mulC c n a b) (Jet.comp2 (J.f * K.f) K.f J.f 0 1 0 J K)
      (Jet.comp2 (SJ.f * SK.f) SK.f SJ.f 0 1 0 SJ SK) where
  f := by simp only [mulC, bFin_zero]; exact (ha.f.mul hb.f).mono (by norm_num)
  g := by
    intro i hi
    simp only [mulC, bFin_succ _ _ _ _ hi]
    exact ((hb.f.mul (ha.g i hi)).add (ha.f.mul (hb.g i hi))).mono (by norm_num)
  h := by
    intro h2 i j hij hj
    simp only [mulC, bFin_pos h2 _ _ _ hij hj]
    exact ((((hb.f.mul (ha.h h2 i j hij hj)).add (ha.f.mul (hb.h h2 i j hij hj))).add
      (((hb.g i (by omega)).mul (ha.g j hj)).add ((ha.g i (by omega)).mul (hb.g j hj)))).mono
      (by norm_num)).of_eq (by simp [Jet.comp2]) (by simp [Jet.comp2])
  symJ := by
    intro i j
    simp only [Jet.comp2, ha.symJ i j, hb.symJ i j]; ring
  symS := by
    intro i j
    simp only [Jet.comp2, ha.symS i j, hb.symS i j]; ring

theorem nears_div (ha : Nears M 0 c n a J SJ) (hb : Nears M 0 c n b K SK)
    {f da db dab dbb : α} {f' xa xb xab xbb F A B AB BB : ℝ} (hf : Nr M 11 f f' F)
    (hda : Nr M 11 da xa A) (hdb : Nr M 11 db xb B) (hdab : Nr M 11 dab xab AB)
    (hdbb : Nr M 11 dbb xbb BB) :
    Nears M 16 c n (divC c n a b f da db dab dbb) (Jet.comp2 f' xa xb 0 xab xbb J K)
      (Jet.comp2 F A B 0 AB BB SJ SK) where
  f := by simp only [divC, bFin_zero]; exact hf.mono (by norm_num)
  g := by
    intro i hi
    simp only [divC, bFin_succ _ _ _ _ hi]
    exact ((hda.mul (ha.g i hi)).add (hdb.mul (hb.g i hi))).mono (by norm_num)
  h := by
    intro h2 i j hij hj
    have ai := ha.g i (by omega)
    have bi := hb.g i (by omega)
    simp only [divC, bFin_pos h2 _ _ _ hij hj]
    exact ((((hda.mul (ha.h h2 i j hij hj)).add (hdb.mul (hb.h h2 i j hij hj))).add
      (((hdab.mul bi).mul (ha.g j hj)).add
        (((hdab.mul ai).add (hdbb.mul bi)).mul (hb.g j hj)))).mono (by norm_num)).of_eq
        (by simp [Jet.comp2]) (by simp [Jet.comp2])
  symJ := by
    intro i j
    simp only [Jet.comp2, ha.symJ i j, hb.symJ i j]; ring
  symS := by
    intro i j
    simp only [Jet.comp2, ha.symS i j, hb.symS i j]; ring

theorem nears_tern (ha : Nears M 0 c n a J SJ) (hb : Nears M 0 c n b K SK)
    (hd : Nears M 0 c n d L SL) {f da db dc daa dab dac dbb dbc dcc : α}
    {f' xa xb xc xaa xab xac xbb xbc xcc F A B C AA AB AC BB BC CC : ℝ} (hf : Nr M 9 f f' F)
    (hda : Nr M 9 da xa A) (hdb : Nr M 9 db xb B) (hdc : Nr M 9 dc xc C) (hdaa : Nr M 9 daa xaa AA)
    (hdab : Nr M 9 dab xab AB) (hdac : Nr M 9 dac xac AC) (hdbb : Nr M 9 dbb xbb BB)
    (hdbc : Nr M 9 dbc xbc BC) (hdcc : Nr M 9 dcc xcc CC) :
    Nears M 16 c n (bFin c n true f (tLin a b d da db dc) (tQuad a b d daa dab dac dbb dbc dcc))
      (Jet.comp3 f' xa xb xc xaa xab xac xbb xbc xcc J K L)
      (Jet.comp3 F A B C AA AB AC BB BC CC SJ SK SL) where
  f := by simp only [bFin_zero]; exact hf.mono (by norm_num)
  g := by
    intro i hi
    simp only [bFin_succ _ _ _ _ hi, tLin]
    exact (((hda.mul (ha.g i hi)).add (hdb.mul (hb.g i hi))).add (hdc.mul (hd.g i hi))).mono
      (by norm_num)
  h := by
    intro h2 i j hij hj
    have ai := ha.g i (by omega)
    have bi := hb.g i (by omega)
    have di := hd.g i (by omega)
    simp only [bFin_pos h2 _ _ _ hij hj, tLin, tQuad]
    exact ((((hda.mul (ha.h h2 i j hij hj)).add (hdb.mul (hb.h h2 i j hij hj))).add
      (hdc.mul (hd.h h2 i j hij hj))).add
      ((((((hdaa.mul ai).add (hdab.mul bi)).add (hdac.mul di)).mul (ha.g j hj)).add
        ((((hdab.mul ai).add (hdbb.mul bi)).add (hdbc.mul di)).mul (hb.g j hj))).add
        ((((hdac.mul ai).add (hdbc.mul bi)).add (hdcc.mul di)).mul (hd.g j hj)))).mono (by norm_num)
  symJ := by
    intro i j
    simp only [Jet.comp3, ha.symJ i j, hb.symJ i j, hd.symJ i j]; ring
  symS := by
    intro i j
    simp only [Jet.comp3, ha.symS i j, hb.symS i j, hd.symS i j]; ring

theorem nears_lin (ha : Nears M 0 c n a J SJ) {a' : Nat → α} {f' m F A : ℝ}
    (hf : Nr M 16 (a' 0) f' F)
    (h : ∀ i, 0 < i → ∀ r R, Nr M 0 (a i) r R → Nr M 16 (a' i) (m * r) (A * R)) :
    Nears M 16 c n a' (J.comp1 f' m 0) (SJ.comp1 F A 0) where
  f := hf
  g := fun i hi => h _ (by omega) _ _ (ha.g i hi)
  h := by
    intro h2 i j hij hj
    have := pos_gt n i j
    exact (h _ (by omega) _ _ (ha.h h2 i j hij hj)).of_eq (by simp [Jet.comp1]) (by simp [Jet.comp1])
  symJ := by
    intro i j
    simp [Jet.comp1, ha.symJ i j]
  symS := by
    intro i j
    simp [Jet.comp1, ha.symS i j]

/-- Derivatives of the outer function from its jet. -/
theorem IsJet.partials {m : Nat} {F : (Fin m → ℝ) → ℝ} {p : Fin m → ℝ} {K : Jet ℝ}
    (h : IsJet 2 m F p K) : (partialD F p = fun a : Fin m => K.g a) ∧
      (partialDD F p = fun (a b : Fin m) => K.h a b) := by
  constructor
  · funext a
    unfold partialD
    rw [h.grad.fderiv, lin_single]
  · funext a b
    unfold partialDD partialD
    rw [(h.hess rfl a).fderiv, lin_single]

theorem jet_ext {J K : Jet ℝ} (hf : J.f = K.f) (hg : ∀ i, J.g i = K.g i)
    (hh : ∀ i j, J.h i j = K.h i j) : J = K := by
  cases J; cases K
  simp only at hf hg hh
  rw [hf, funext hg, funext fun i => funext (hh i)]

theorem chainJet_one (f : ℝ) (g : Fin 1 → ℝ) (h : Fin 1 → Fin 1 → ℝ) (P : Fin 1 → Jet ℝ) :
    chainJet f g h P = (P 0).comp1 f (g 0) (h 0 0) := by
  refine jet_ext rfl (fun i => ?_) fun i j => ?_
  · simp [chainJet, Jet.comp1]
  · simp [chainJet, Jet.comp1, mul_assoc]

theorem chainJet_two (f : ℝ) (g : Fin 2 → ℝ) (h : Fin 2 → Fin 2 → ℝ) (hs : h 1 0 = h 0 1)
    (P : Fin 2 → Jet ℝ) :
    chainJet f g h P = Jet.comp2 f (g 0) (g 1) (h 0 0) (h 0 1) (h 1 1) (P 0) (P 1) := by
  refine jet_ext rfl (fun i => ?_) fun i j => ?_
  · simp [chainJet, Jet.comp2]
  · simp only [chainJet, Jet.comp2, Fin.sum_univ_two, hs]; ring

theorem chainJet_three (f : ℝ) (g : Fin 3 → ℝ) (h : Fin 3 → Fin 3 → ℝ) (h1 : h 1 0 = h 0 1)
    (h2 : h 2 0 = h 0 2) (h3 : h 2 1 = h 1 2) (P : Fin 3 → Jet ℝ) :
    chainJet f g h P = Jet.comp3 f (g 0) (g 1) (g 2) (h 0 0) (h 0 1) (h 0 2) (h 1 1) (h 1 2) (h 2 2)
      (P 0) (P 1) (P 2) := by
  refine jet_ext rfl (fun i => ?_) fun i j => ?_
  · simp [chainJet, Jet.comp3, Fin.sum_univ_three]
  · simp only [chainJet, Jet.comp3, Fin.sum_univ_three, h1, h2, h3]; ring

/-- One operand. -/
theorem op_one {φ : ℝ → ℝ} {p : Fin 1 → ℝ} {d dd : ℝ} (h : D2At 2 φ (p 0) d dd) :
    partialD (fun y : Fin 1 → ℝ => φ (y 0)) p 0 = d ∧
      partialDD (fun y : Fin 1 → ℝ => φ (y 0)) p 0 0 = dd := by
  have hj := ((isJet_var 2 p 0).comp1 (φ := φ) h).partials
  rw [hj.1, hj.2]
  simp [Jet.comp1, varJet]

theorem nears_one {o : Op α 1} {ρ : Fin 1 → Nat → α} {φ : ℝ → ℝ} {d dd : ℝ} {a' : Nat → α}
    (ho : o.den M.val = fun y => φ (y 0))
    (hs : o.size2 M.val = fun p a b => |partialDD (o.den M.val) p a b|)
    (hφ : D2At 2 φ (M.val (ρ 0 0)) d dd)
    (h : Nears M 16 c n a' (((jetOf n (ρ 0)).mapv M.val).comp1 (φ (M.val (ρ 0 0))) d dd)
      ((((jetOf n (ρ 0)).mapv M.val).mapv fun s => |s|).comp1 |φ (M.val (ρ 0 0))| |d| |dd|)) :
    Nears M 16 c n a' (exactJet (o.den M.val) fun v => (jetOf n (ρ v)).mapv M.val)
      (o.sizeJet M.val fun v => (jetOf n (ρ v)).mapv M.val) := by
  obtain ⟨h1, h2⟩ := op_one (p := fun v => ((jetOf n (ρ v)).mapv M.val).f) hφ
  unfold exactJet Op.sizeJet
  rw [chainJet_one, chainJet_one, hs, ho]
  simp only [h1, h2]
  exact h

theorem SBin.nears (o : SBin) (s : α) (ha : Nears M 0 c n a J SJ) (hS : SJ.f = |J.f|)
    (hJ : J.f = M.val (a 0)) (h : o.dom J.f (M.val s)) :
    Nears M 16 c n (o.runC c n a s)
      (J.comp1 (o.den J.f (M.val s)) (o.d J.f (M.val s)).1 (o.d J.f (M.val s)).2)
      (SJ.comp1 |o.den J.f (M.val s)| |(o.d J.f (M.val s)).1| |(o.d J.f (M.val s)).2|) := by
  have l1 : Has M 0 (Arith.lit 1) (1 : ℤ) := Has.lit (by norm_num)
  have l2 : Has M 0 (Arith.lit 2) (2 : ℤ) := Has.lit (by norm_num)
  have hs : Has M 0 s (M.val s) := Has.self s
  have h0 : Has M 0 (a 0) J.f := (Has.self _).of_eq hJ.symm
  cases o with
  | addS =>
    have key : Nears M 16 c n (SBin.addS.runC c n a s) (J.comp1 (J.f + M.val s) 1 0)
        (SJ.comp1 |J.f + M.val s| 1 0) := by
      refine nears_lin ha ?_ fun i hi r R hr => ?_
      · refine (Has.nr (k := 1) (.close ?_)).mono (by norm_num)
        rw [hJ]
        exact M.add _ _
      · simp only [SBin.runC, addSC, hi.ne', if_false, one_mul]
        exact hr.mono (by norm_num)
    simpa [SBin.den, SBin.d] using key
  | sAdd =>
    have key : Nears M 16 c n (SBin.sAdd.runC c n a s) (J.comp1 (M.val s + J.f) 1 0)
        (SJ.comp1 |M.val s + J.f| 1 0) := by
      refine nears_lin ha ?_ fun i hi r R hr => ?_
      · refine (Has.nr (k := 1) (.close ?_)).mono (by norm_num)
        rw [hJ, add_comm]
        exact M.add _ _
      · simp only [SBin.runC, addSC, hi.ne', if_false, one_mul]
        exact hr.mono (by norm_num)
    simpa [SBin.den, SBin.d] using key
  | subS =>
    have key : Nears M 16 c n (SBin.subS.runC c n a s) (J.comp1 (J.f - M.val s) 1 0)
        (SJ.comp1 |J.f - M.val s| 1 0) := by
      refine nears_lin ha ?_ fun i hi r R hr => ?_
      · refine (Has.nr (k := 1) (.close ?_)).mono (by norm_num)
        rw [hJ, sub_eq_add_neg, ← M.neg]
        exact M.add _ _
      · simp only [SBin.runC, addSC, hi.ne', if_false, one_mul]
        exact hr.mono (by norm_num)
    simpa [SBin.den, SBin.d] using key
  | sSub =>
    have key : Nears M 16 c n (SBin.sSub.runC c n a s) (J.comp1 (M.val s - J.f) (-1) 0)
        (SJ.comp1 |M.val s - J.f| 1 0) := by
      refine nears_lin ha ?_ fun i hi r R hr => ?_
      · refine (Has.nr (k := 1) (.close ?_)).mono (by norm_num)
        rw [hJ, sub_eq_add_neg, add_comm, ← M.neg]
        exact M.add _ _
      · simp only [SBin.runC, sSubC, hi.ne', if_false]
        exact (hr.neg.mono (by norm_num)).of_eq (by ring) (by ring)
    simpa [SBin.den, SBin.d] using key
  | mulS =>
    have key : Nears M 16 c n (SBin.mulS.runC c n a s) (J.comp1 (J.f * M.val s) (M.val s) 0)
        (SJ.comp1 |J.f * M.val s| |M.val s| 0) :=
      nears_lin ha ((h0.mul hs).nr.mono (by norm_num)) fun i hi r R hr =>
        ((hr.mul hs.nr).mono (by norm_num)).of_eq (mul_comm _ _) (mul_comm _ _)
    simpa [SBin.den, SBin.d] using key
  | sMul =>
    have key : Nears M 16 c n (SBin.sMul.runC c n a s) (J.comp1 (M.val s * J.f) (M.val s) 0)
        (SJ.comp1 |M.val s * J.f| |M.val s| 0) :=
      nears_lin ha (((h0.mul hs).of_eq (mul_comm _ _)).nr.mono (by norm_num)) fun i hi r R hr =>
        ((hr.mul hs.nr).mono (by norm_num)).of_eq (mul_comm _ _) (mul_comm _ _)
    simpa [SBin.den, SBin.d] using key
  | divS =>
    have hs0 : M.val s ≠ 0 := h
    have q := (l1.div hs hs0).of_eq (s := 1 / M.val s) (by simp)
    have key : Nears M 16 c n (SBin.divS.runC c n a s) (J.comp1 (J.f / M.val s) (1 / M.val s) 0)
        (SJ.comp1 |J.f / M.val s| |1 / M.val s| 0) :=
      nears_lin ha (((h0.mul q).of_eq (by ring)).nr.mono (by norm_num)) fun i hi r R hr =>
        ((hr.mul q.nr).mono (by norm_num)).of_eq (mul_comm _ _) (mul_comm _ _)
    simpa only [SBin.den, SBin.d, abs_zero] using key
  | sDiv =>
    have hx : J.f ≠ 0 := h
    exact nears_uFin ha ((hs.div h0 hx).nr.mono (by norm_num))
      ((hs.neg.div (h0.powN (by norm_num)) (pow_ne_zero 2 hx)).nr.mono (by norm_num))
      ((((l2.mul hs).div (h0.powN (by norm_num)) (pow_ne_zero 3 hx)).of_eq
        (by simp [SBin.d])).nr.mono (by norm_num))

end

end HJ
