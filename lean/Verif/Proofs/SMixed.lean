import Verif.Proofs.Mixed
import Verif.Proofs.SPrecise
import Verif.Props.SEvalErr
import Verif.Spec.SMixed

/-!
# Client code with sparse scalars and numbers in arithmetics with vanishing error (helper lemmas)
-/

namespace HJ

open Filter Topology SMap

section
variable {ι : Type} {l : Filter ι} {α : ι → Type} [∀ k, CMath (α k)] {u : ι → Prec} {ω : ι → ℝ}
  {M : ∀ k, FinErr (α k) (u k)} {L : Type} {val : L → ℝ} {enc : ∀ k, L → α k} {nm : String}

/-! ## Scalar operands of any kind -/

theorem find_values {A B : Type} (f : A → B) (d : SMap A) (j : String) :
    SMap.find (d.map fun e => (e.1, f e.2)) j = (d.find j).map f := by
  induction d with
  | nil => rfl
  | cons e d ih =>
    rw [List.map_cons, find_cons, find_cons, ih]
    by_cases h : e.1 = j <;> simp [h]

theorem Fn.limSL (hu : Fine u l ω) {enc₀ : ∀ k, ℝ → α k}
    (henc₀ : ∀ s, Lim M l ω (fun k => enc₀ k s) (fun _ => s) s)
    (henc : ∀ s, Lim M l ω (fun k => enc k s) (fun _ => val s) (val s)) (φ : Fn L)
    {x : ∀ k, α k} {xR : ι → ℝ} {r : ℝ} (h : Lim M l ω x xR r) (hd : (φ.map val).dom 1 r)
    (h0 : ∀ b, φ.map val = .pow b → 0 < r) :
    Lim M l ω (fun k => ((φ.map (enc k)).coefS (x k)).1) (fun k => ((φ.map val).coefS (xR k)).1)
        ((φ.map val).coef r).f ∧
      Lim M l ω (fun k => ((φ.map (enc k)).coefS (x k)).2) (fun k => ((φ.map val).coefS (xR k)).2)
        ((φ.map val).coef r).da := by
  have hl := φ.limL hu henc₀ henc h hd h0
  cases φ with
  | acos => exact Fn.limS hu _ henc₀ .acos h hd h0
  | _ => exact ⟨hl.f, hl.da⟩

theorem evalV_convL (hu : Fine u l ω) {V : Type} {enc₀ : ∀ k, ℝ → α k}
    (henc₀ : ∀ s, Lim M l ω (fun k => enc₀ k s) (fun _ => s) s)
    (henc : ∀ s, Lim M l ω (fun k => enc k s) (fun _ => val s) (val s)) (ρ : ∀ k, V → SVal (α k))
      (ρR : ι → V → SVal ℝ) (Jv : V → Jet ℝ)
    (hρ : ∀ v, SConv M l ω nm (fun k => ρ k v) (fun k => ρR k v) (Jv v)) (e : Expr L V)
    (hD : (e.map val).Dom 1 fun v => (Jv v).f) (hR : (e.map val).Regular fun v => (Jv v).f)
    (hP : (e.map val).PowPos fun v => (Jv v).f) :
    ∃ J, SConv M l ω nm (fun k => (e.map (enc k)).evalV (ρ k)) (fun k => (e.map val).evalV (ρR k)) J ∧
      J.f = (e.map val).den (fun v => (Jv v).f) ∧
      ∀ (w : V → (Fin 1 → ℝ) → ℝ) (x : Fin 1 → ℝ), (∀ v, IsJet 1 1 (w v) x (Jv v)) →
        IsJet 1 1 (fun y => (e.map val).den fun v => w v y) x J := by
  induction e with
  | var v => exact ⟨Jv v, hρ v, rfl, fun w x hw => hw v⟩
  | const s =>
    refine ⟨⟨val s, fun _ => 0, fun _ _ => 0⟩, ⟨henc s, ?_⟩, rfl, fun w x hw => ?_⟩
    · exact (Lim.lit (z := 0) (by norm_num)).of_eq (by simp)
    · refine isJet_mk (fun _ _ => 0) rfl (Filter.Eventually.of_forall fun y => ?_) (fun _ _ => rfl) ?_
      · exact HasFDerivAt.toLin (hasFDerivAt_const (val s) y) (fun i => by simp)
      · exact fun _ i => HasFDerivAt.toLin (hasFDerivAt_const (0 : ℝ) x) (fun i => by simp)
  | neg e ih =>
    obtain ⟨J, hg, hf, hj⟩ := ih hD hR hP
    refine ⟨J.comp1 (-J.f) (-1) 0, sconv_neg hg, ?_, fun w x hw => ?_⟩
    · simp [Jet.comp1, hf, Expr.den, Expr.map]
    · have := (hj w x hw).comp1 (d2At_affine 1 (-1) 0 J.f)
      simpa [Expr.den, Expr.map] using this
  | abs e ih =>
    obtain ⟨J, hg, hf, hj⟩ := ih hD hR.1 hP
    have hne : J.f ≠ 0 := by rw [hf]; exact hR.2
    refine ⟨J.comp1 |J.f| (if J.f < 0 then -1 else 1) 0, ?_, ?_,
      fun w x hw => (hj w x hw).comp1 (d2At_abs 1 hne)⟩
    · rcases lt_or_gt_of_ne hne with hneg | hpos
      · have hev : ∀ᶠ k in l, Cmp.ltB ((e.map (enc k)).evalV (ρ k)).1 (Arith.lit 0) = true := by
          filter_upwards [Tendsto.eventually_lt_const hneg hg.f.lim, hg.f.fin] with k hk hf
          rw [(M k).less _ _ hf (fin_lit0 k), val_lit0]
          exact hk
        have hevR : ∀ᶠ k in l, Cmp.ltB ((e.map val).evalV (ρR k)).1 (Arith.lit 0) = true := by
          filter_upwards [Tendsto.eventually_lt_const hneg hg.f.goal] with k hk
          exact decide_eq_true (show _ < ((0 : ℤ) : ℝ) by simpa using hk)
        rw [if_pos hneg, abs_of_neg hneg]
        have hn := sconv_neg (dd := 0) hg
        refine ⟨Lim.congr' ?_ ?_ hn.f, Lim.congr' ?_ ?_ hn.g⟩ <;>
        · filter_upwards [hev, hevR] with k hk hk'
          simp [Expr.map, Expr.evalV, hk, hk']
      · have hev : ∀ᶠ k in l, Cmp.ltB ((e.map (enc k)).evalV (ρ k)).1 (Arith.lit 0) = false := by
          filter_upwards [Tendsto.eventually_const_lt hpos hg.f.lim, hg.f.fin] with k hk hf
          rw [Bool.eq_false_iff, Ne, (M k).less _ _ hf (fin_lit0 k), val_lit0]
          exact not_lt.2 (le_of_lt hk)
        have hevR : ∀ᶠ k in l, Cmp.ltB ((e.map val).evalV (ρR k)).1 (Arith.lit 0) = false := by
          filter_upwards [Tendsto.eventually_const_lt hpos hg.f.goal] with k hk
          exact decide_eq_false (show ¬ _ < ((0 : ℤ) : ℝ) by simpa using le_of_lt hk)
        rw [if_neg (not_lt.2 hpos.le), abs_of_pos hpos]
        refine ⟨Lim.congr' ?_ ?_ hg.f, Lim.congr' ?_ ?_ (hg.g.of_eq (s := 1 * J.g 0) (by ring))⟩ <;>
        · filter_upwards [hev, hevR] with k hk hk'
          simp [Expr.map, Expr.evalV, hk, hk']
    · simp [Jet.comp1, hf, Expr.den, Expr.map]
  | fn φ e ih =>
    obtain ⟨J, hg, hf, hj⟩ := ih hD.1 hR hP.1
    have hdom := hD.2
    have hpow := hP.2
    rw [← hf] at hdom hpow
    have hφ := (φ.map val).real (Or.inl rfl) hdom fun b hb => (hpow b hb).ne'
    have hl := φ.limSL hu henc₀ henc hg.f hdom hpow
    refine ⟨_, sconv_un (dd := ((φ.map val).coef J.f).daa) hu hg hl.1 hl.2, ?_, fun w x hw => ?_⟩
    · simp only [Jet.comp1, Expr.den, Expr.map]; rw [hφ.f, hf]
    · rw [hφ.f]
      exact (hj w x hw).comp1 hφ.d2
  | bin o e₁ e₂ ih₁ ih₂ =>
    obtain ⟨J, hg, hf, hj⟩ := ih₁ hD.1 hR.1 hP.1
    obtain ⟨K, kg, kf, kj⟩ := ih₂ hD.2.1 hR.2.1 hP.2
    have hdom := hD.2.2
    have hreg := hR.2.2
    rw [← hf, ← kf] at hdom hreg
    refine ⟨_, o.sconv hu hg kg hdom hreg, ?_, fun w x hw => ?_⟩
    · simp [Bin.jet, Jet.comp2, hf, kf, Expr.den, Expr.map]
    · exact o.isJet _ (hj w x hw) (kj w x hw) hdom hreg
  | sbin o e s ih =>
    obtain ⟨J, hg, hf, hj⟩ := ih hD.1 hR hP
    have hdom := hD.2
    rw [← hf] at hdom
    refine ⟨_, o.sconv hu hg (henc s) hdom, ?_, fun w x hw => ?_⟩
    · simp [Jet.comp1, hf, Expr.den, Expr.map]
    · exact (hj w x hw).comp1 (o.d2At 1 hdom)
  | hypot3 e₁ e₂ e₃ ih₁ ih₂ ih₃ =>
    obtain ⟨J, hg, hf, hj⟩ := ih₁ hD.1 hR.1 hP.1
    obtain ⟨K, kg, kf, kj⟩ := ih₂ hD.2.1 hR.2.1 hP.2.1
    obtain ⟨L, lg, lf, lj⟩ := ih₃ hD.2.2.1 hR.2.2 hP.2.2
    have hdom := hD.2.2.2
    rw [← hf, ← kf, ← lf] at hdom
    have h0 := (Real.sqrt_pos.mpr (sq3_pos hdom)).ne'
    have f := hg.f.hypot3 hu kg.f lg.f (sq3_pos hdom)
    refine ⟨hypot3Jet J K L, ?_, ?_, fun w x hw => ?_⟩
    · exact sconv_tern hu hg kg lg f (hg.f.div hu f h0) (kg.f.div hu f h0) (lg.f.div hu f h0)
    · simp [hypot3Jet, Jet.comp3, hf, kf, lf, Expr.den, Expr.map]
    · exact hypot3_isJet _ (hj w x hw) (kj w x hw) (lj w x hw) hdom

end

section
variable {ι : Type} {l : Filter ι} {α : ι → Type} [∀ k, CMath (α k)] {w : ι → Prec} {ω : ι → ℝ}
  {M : ∀ k, FinErr (α k) (w k)} {x : String → ℝ} {L : Type} {val : L → ℝ} {enc : ∀ k, L → α k}
  {V : Type}

theorem SWithErr.evalL [l.NeBot] (hw : Fine w l ω) {enc₀ : ∀ k, ℝ → α k}
    (henc₀ : ∀ s, Lim M l ω (fun k => enc₀ k s) (fun _ => s) s)
    (henc : ∀ s, Lim M l ω (fun k => enc k s) (fun _ => val s) (val s)) {p : ∀ k, V → SVal (α k)}
    {u : (String → ℝ) → V → ℝ} (h : ∀ v, SWithErr M l ω x (fun k => p k v) fun y => u y v)
    (e : Expr L V) (hD : (e.map val).Dom 1 (u x)) (hR : (e.map val).Regular (u x))
      (hP : (e.map val).PowPos (u x)) :
    SWithErr M l ω x (fun k => (e.map (enc k)).evalV (p k)) fun y => (e.map val).den (u y) := by
  have key : ∀ nm, Lim M l ω (fun k => ((e.map (enc k)).evalV (p k)).1) (fun _ => (e.map val).den (u x))
      ((e.map val).den (u x)) ∧ ∃ g, Lim M l ω
        (fun k => (((e.map (enc k)).evalV (p k)).2 nm).getD (Arith.lit 0))
      (fun _ => g) g ∧ HasDerivAt (fun t => (e.map val).den (u (Function.update x nm t))) g (x nm) := by
    intro nm
    choose g hg hd using fun v => (h v).d nm
    obtain ⟨J, h1, h2, h3⟩ := evalV_convL (nm := nm) hw henc₀ henc p
      (fun _ v => (u x v, fun _ => some (g v))) (fun v => ⟨u x v, fun _ => g v, fun _ _ => 0⟩)
      (fun v => ⟨(h v).f, hg v⟩) e hD hR hP
    refine ⟨(h1.f.goal_const).of_eq h2 |>.goal_eq (fun _ => h2) rfl, J.g 0, h1.g.goal_const, ?_⟩
    have hj := h3 (fun v y => u (Function.update x nm (y 0)) v) (fun _ => x nm) fun v => by
      have := isJet_line (hd v)
      simpa using this
    exact hasDeriv_line (F := fun t => (e.map val).den (u (Function.update x nm t))) hj
  exact ⟨(key "").1, fun nm => (key nm).2⟩

variable [DecidableEq V] {ρ : ∀ k, SStore (α k) V} {u : (String → ℝ) → V → ℝ}

theorem sstep_nearL [l.NeBot] (hw : Fine w l ω) {enc₀ : ∀ k, ℝ → α k}
    (henc₀ : ∀ s, Lim M l ω (fun k => enc₀ k s) (fun _ => s) s)
    (henc : ∀ s, Lim M l ω (fun k => enc k s) (fun _ => val s) (val s)) {ord : ∀ k, Order (α k)}
    (ho : ∀ k, (ord k).Ok) (h : SNearing M l ω x ρ u) (s : SStmt L V) (hs : (s.map val).Ok (u x))
    (hP : (s.map val).PowPos (u x)) :
    ∃ τ : ∀ k, SStore (α k) V, (∀ k, (s.map (enc k)).run (ord k) (ρ k) = (.ok (), τ k)) ∧
      SNearing M l ω x τ fun y => (s.map val).den x y (u y) := by
  obtain ⟨p, h1, h2⟩ := id h
  cases s with
  | assign t e =>
    have hF := SWithErr.evalL hw henc₀ henc h2 e hs.1 hs.2 hP
    choose r k1 k2 using fun k => evalSS_spec (ho k) (ρ k) (p k) (h1 k) (e.map (enc k))
    cases e with
    | var s =>
      choose r k1 k2 using fun k => is_copied (ho k) (h1 k s)
      exact h.put t k1 k2 hF
    | _ => exact h.put t k1 k2 hF
  | vari t nm s =>
    refine h.put t (fun _ => rfl)
      (s := fun k => (enc k s, fun j => if j = nm then some (Arith.lit 1) else none))
      (fun k => SS.is_var (ho k) nm (enc k s)) ⟨?_, fun j => ?_⟩
    · simpa using henc s
    · by_cases hj : j = nm
      · refine ⟨1, ?_, ?_⟩
        · simp only [hj, if_true, Option.getD_some]
          exact (Lim.lit (z := 1) (by norm_num)).goal_eq (fun _ => by norm_num [Arith.lit]) (by norm_num)
        · subst hj
          simpa using ((hasDerivAt_id (x j)).sub_const (x j)).const_add (val s)
      · refine ⟨0, ?_, ?_⟩
        · simp only [hj, if_false, Option.getD_none]
          exact (Lim.lit (z := 0) (by norm_num)).goal_eq (fun _ => by norm_num [Arith.lit]) (by norm_num)
        · simp only [Function.update_of_ne (Ne.symm hj)]
          exact hasDerivAt_const _ _
  | make t s d =>
    have hn : d.keys.Nodup := by
      have e : (d.map fun e => (e.1, val e.2)).map Prod.fst = d.map Prod.fst := by
        simp [Function.comp_def]
      have hs : ((d.map fun e => (e.1, val e.2)).map Prod.fst).Nodup := hs
      rwa [e] at hs
    refine h.put t (fun _ => rfl) (s := fun k => (enc k s, fun j => (d.find j).map (enc k)))
      (fun k => SS.is_make (ho k) (by
        have : (d.map fun e => (e.1, enc k e.2)).map Prod.fst = d.map Prod.fst := by
          simp [Function.comp_def]
        rw [keys, this]; exact hn) (find_values (enc k) d) (enc k s)) ⟨?_, fun j => ?_⟩
    · have e : ∀ d : SMap L,
      ((d.map fun e => (e.1, val e.2)).map fun e => e.2 * (x e.1 - x e.1)).sum = 0 :=
        fun d => by simp [Function.comp_def]
      simp only [e, add_zero]
      exact henc s
    · refine ⟨((d.find j).map val).getD 0, ?_, ?_⟩
      · cases hj : d.find j with
        | none =>
          simp only [hj, Option.map_none, Option.getD_none]
          exact (Lim.lit (z := 0) (by norm_num)).goal_eq (fun _ => by norm_num [Arith.lit])
            (by norm_num)
        | some g =>
          simp only [hj, Option.map_some, Option.getD_some]
          exact henc g
      · rw [← find_values val d j]
        exact hasDeriv_affine (val s) _ hs j
  | upd o t e =>
    obtain ⟨hd, hr, h0, hself⟩ := hs
    have hF := SWithErr.evalL hw henc₀ henc h2 e hd hr hP
    have main : ∃ (b : ∀ k, SS.Operand (α k)) (r : ∀ k, SS (α k)),
        (∀ k, (ρ k).operand ((ord k).sub 1) t (e.map (enc k)) = .ok (b k)) ∧
        (∀ k, o.runSS ((ord k).sub 0) (ρ k t) (b k) = .ok (r k)) ∧
        ∃ s : ∀ k, SVal (α k), (∀ k, SIsV (r k) (s k)) ∧
          SWithErr M l ω x s fun y => o.den (u y t) ((e.map val).den (u y)) := by
      choose z k1 k2 using fun k => evalSS_spec ((ho k).sub 1) (ρ k) (p k) (h1 k) (e.map (enc k))
      have hobj : ∀ (z : ∀ k, SS (α k)), (∀ k, SIsV (z k) ((e.map (enc k)).evalV (p k))) →
          ∃ r : ∀ k, SS (α k), (∀ k, o.runSS ((ord k).sub 0) (ρ k t) (.obj (z k)) = .ok (r k)) ∧
          ∃ s : ∀ k, SVal (α k), (∀ k, SIsV (r k) (s k)) ∧
          SWithErr M l ω x s fun y => o.den (u y t) ((e.map val).den (u y)) := fun z hz =>
        asg_near hw (fun k => (ho k).sub 0) o (fun k => h1 k t) hz (h2 t) hF h0
      cases e with
      | var s =>
        by_cases hst : s = t
        · subst hst
          obtain ⟨r, j1, j2⟩ := asg_self_near (ord := fun k => (ord k).sub 0) hw o
            (fun k => h1 k s) (h2 s)
            (hself rfl)
          exact ⟨fun _ => .self, r, fun k => by simp [SStore.operand, Expr.map], j1, j2⟩
        · obtain ⟨r, j1, j2⟩ := hobj (fun k => ρ k s) (fun k => h1 k s)
          exact ⟨fun k => .obj (ρ k s), r, fun k => by simp [SStore.operand, Expr.map, hst], j1, j2⟩
      | _ =>
        obtain ⟨r, j1, j2⟩ := hobj z k2
        refine ⟨fun k => .obj (z k), r, fun k => ?_, j1, j2⟩
        have := k1 k
        simp only [Expr.map] at this
        simp only [SStore.operand, Expr.map, this, Res.ok_bind]
    obtain ⟨b, r, k1, k2, s, k3, k4⟩ := main
    exact h.put t (fun k => by simp only [k1, Res.ok_bind, k2]) k3 k4
  | updS o t s =>
    obtain ⟨r, k1, s', k2, k3⟩ := asgS_near hw o (fun k => h1 k t) (h2 t) (henc s) hs
    exact h.put t k1 k2 k3

omit [DecidableEq V] in
theorem scond_nearL [l.NeBot] (hw : Fine w l ω) (hcmp : ∀ k, (M k).ExactCmp) {enc₀ : ∀ k, ℝ → α k}
    (henc₀ : ∀ s, Lim M l ω (fun k => enc₀ k s) (fun _ => s) s)
    (henc : ∀ s, Lim M l ω (fun k => enc k s) (fun _ => val s) (val s)) {ord : ∀ k, Order (α k)}
    (ho : ∀ k, (ord k).Ok) (h : SNearing M l ω x ρ u) (b : Cond L V) (hb : (b.map val).Sure 1 (u x))
    (hP : (b.map val).PowPos (u x)) {r : Bool} (hr : r = true ↔ (b.map val).Holds (u x)) :
    ∀ᶠ k in l, (b.map (enc k)).runSS (ord k) (ρ k) = .ok r := by
  obtain ⟨p, h1, h2⟩ := h
  cases b with
  | cmp op e₁ e₂ =>
    have hF := SWithErr.evalL hw henc₀ henc h2 e₁ hb.1.1.1 hb.1.1.2 hP.1
    have hG := SWithErr.evalL hw henc₀ henc h2 e₂ hb.1.2.1 hb.1.2.2 hP.2
    choose y j1 j2 using fun k => evalSS_spec ((ho k).sub 0) (ρ k) (p k) (h1 k) (e₁.map (enc k))
    choose z k1 k2 using fun k => evalSS_spec ((ho k).sub 1) (ρ k) (p k) (h1 k) (e₂.map (enc k))
    refine (cmp_lim hF.f hG.f hb.2 hcmp op hr).mono fun k hk => ?_
    simp only [Cond.map, Cond.runSS, j1, k1, Res.ok_bind, SS.cmp, SS.f_ok (j2 k), SS.f_ok (k2 k), hk.1]
  | cmpS op e s =>
    have hF := SWithErr.evalL hw henc₀ henc h2 e hb.1.1 hb.1.2 hP
    choose y j1 j2 using fun k => evalSS_spec (ho k) (ρ k) (p k) (h1 k) (e.map (enc k))
    refine (cmp_lim hF.f (henc s) hb.2 hcmp op hr).mono fun k hk => ?_
    simp only [Cond.map, Cond.runSS, j1, Res.ok_bind, SS.cmpS, SS.f_ok (j2 k), hk.1]
  | sCmp op s e =>
    have hF := SWithErr.evalL hw henc₀ henc h2 e hb.1.1 hb.1.2 hP
    choose y j1 j2 using fun k => evalSS_spec (ho k) (ρ k) (p k) (h1 k) (e.map (enc k))
    refine (cmp_lim hF.f (henc s) hb.2 hcmp (SS.mirror op) (q := r) ?_).mono fun k hk => ?_
    · rw [hr]
      cases op <;> simp [SS.mirror, DD.CmpOp.rel, Cond.map, Cond.Holds, eq_comm]
    · simp only [Cond.map, Cond.runSS, j1, Res.ok_bind, SS.sCmp, SS.cmpS, SS.f_ok (j2 k), hk.1]


/-! ## Client code -/

omit [DecidableEq V] in
theorem SStmt.map_fuse {A B C : Type} (f : A → B) (g : B → C) (s : SStmt A V) :
    (s.map f).map g = s.map (g ∘ f) := by
  cases s <;> simp [SStmt.map, Expr.map_fuse, Function.comp_def]

variable {W Q : Type} [DecidableEq W] {ν : ∀ k, W → α k} {enc₀ : ∀ k, ℝ → α k}

/-- Sparse scalars and numbers converge to the mathematical state. -/
structure SMNear (M : ∀ k, FinErr (α k) (w k)) (l : Filter ι) (ω : ι → ℝ) (x : String → ℝ)
    (ρ : ∀ k, SStore (α k) V) (ν : ∀ k, W → α k) (σ : SMixSt V W) : Prop where
  objs : SNearing M l ω x ρ σ.fns
  nums : ∀ w, Lim M l ω (fun k => ν k w) (fun _ => σ.nums w) (σ.nums w)

omit [DecidableEq V] in
theorem SMNear.setNum {σ : SMixSt V W} (h : SMNear M l ω x ρ ν σ) {s : ∀ k, α k} {r : ℝ} (t : W)
    (hs : Lim M l ω s (fun _ => r) r) :
    SMNear M l ω x ρ (fun k => HJ.setNum (ν k) t (s k)) ⟨σ.fns, setVal σ.nums t r⟩ where
  objs := h.objs
  nums w := by
    by_cases hw : w = t
    · simpa [HJ.setNum, setVal, hw] using hs
    · simpa [HJ.setNum, setVal, hw] using h.nums w

omit [DecidableEq V] [DecidableEq W] in
theorem SMNear.scalars {σ : SMixSt V W} (h : SMNear M l ω x ρ ν σ)
    (henc₀ : ∀ s, Lim M l ω (fun k => enc₀ k s) (fun _ => s) s) (s : ℝ ⊕ W) :
    Lim M l ω (fun k => scalarOf (ν k) (Sum.map (enc₀ k) id s)) (fun _ => scalarOf σ.nums s)
      (scalarOf σ.nums s) := by
  cases s with
  | inl s => exact henc₀ s
  | inr w => exact h.nums w

/-- What `Lim` says about the errors. -/
theorem Lim.errs {b : ∀ k, α k} {r : ℝ} (hω : ∀ k, ω k = (w k).rel + (w k).abs)
    (hb : Lim M l ω b (fun _ => r) r) :
    ∀ᶠ C : ℝ in atTop, ∀ᶠ k in l, (M k).fin (b k) ∧
      |(M k).val (b k) - r| ≤ C * ((w k).rel + (w k).abs) := by
  refine (Asymptotics.isBigO_iff_eventually_isBigOWith.1 hb.rate).mono fun C hC => ?_
  refine (hb.fin.and hC.bound).mono fun k hk => ⟨hk.1, ?_⟩
  have := hk.2
  rwa [Real.norm_eq_abs, hω, Real.norm_of_nonneg (add_nonneg (M k).rel_nonneg (M k).abs_nonneg)] at this

omit [DecidableEq V] in
theorem SNearing.errs (h : SNearing M l ω x ρ u) (hω : ∀ k, ω k = (w k).rel + (w k).abs)
    (N : Finset String) (v : V) :
    ∀ᶠ C : ℝ in atTop, ∀ᶠ k in l, SWF (ρ k v) ∧
      SWithin (fun s t => (M k).fin s ∧ |(M k).val s - t| ≤ C * ((w k).rel + (w k).abs)) N
        (fun y => u y v) x (ρ k v) := by
  obtain ⟨p, h1, h2⟩ := h
  have a2 : ∀ᶠ C : ℝ in atTop, ∀ nm ∈ N, ∀ᶠ k in l,
      (M k).fin (((p k v).2 nm).getD (Arith.lit 0)) ∧
      |(M k).val (((p k v).2 nm).getD (Arith.lit 0)) - deriv (fun t => u (Function.update x nm t) v)
        (x nm)| ≤ C * ((w k).rel + (w k).abs) := N.eventually_all.2 fun nm _ => by
    obtain ⟨g, k1, k2⟩ := (h2 v).d nm
    rw [k2.deriv]
    exact k1.errs hω
  refine (((h2 v).f.errs hω).and a2).mono fun C ⟨c1, c2⟩ => ?_
  refine (c1.and (N.eventually_all.2 c2)).mono fun k ⟨d1, d2⟩ =>
    ⟨(h1 k v).wf, ⟨(p k v).1, SS.f_ok (h1 k v), d1⟩, fun nm hnm => ?_⟩
  rw [SS.d_eq (h1 k v)]
  exact d2 nm hnm

/-- `eval` on an object and numbers that converge. -/
theorem SMNear.eval_lim (hw : Fine w l ω) (hω : ∀ k, ω k = (w k).rel + (w k).abs)
    {σ : SMixSt V W} (h : SMNear M l ω x ρ ν σ) (v : V) (d : List (String × W))
    (hd : (d.map Prod.fst).Nodup) :
    ∃ s : ∀ k, α k,
      (∀ᶠ k in l, (ρ k v).eval false (d.map fun e => (e.1, ν k e.2)) = .ok (s k)) ∧
      Lim M l ω s
        (fun _ => (d.map fun e => partialS (fun y => σ.fns y v) x e.1 * σ.nums e.2).sum)
        (d.map fun e => partialS (fun y => σ.fns y v) x e.1 * σ.nums e.2).sum := by
  set F := fun y => σ.fns y v with hF
  set T := (d.map fun e => partialS F x e.1 * σ.nums e.2).sum with hT
  set N : Finset String := (d.map Prod.fst).toFinset with hN
  set δ : String → ℝ := fun k => ((SMap.find d k).map σ.nums).getD 0 with hδ
  have hfind : ∀ e ∈ d, SMap.find d e.1 = some e.2 := fun e he =>
    (find_mem hd).2 (by simpa using he)
  have hsum : changeAt N F x δ = T := by
    rw [changeAt, hN, List.sum_toFinset _ hd, List.map_map, hT]
    refine congrArg List.sum (List.map_congr_left fun e he => ?_)
    simp [hδ, hfind e he]
  have hmem : ∀ k, k ∈ N ↔ ∃ t, SMap.find d k = some t := fun k => by
    rw [hN, List.mem_toFinset]
    constructor
    · intro hk
      obtain ⟨e, he, rfl⟩ := List.mem_map.1 hk
      exact ⟨_, hfind e he⟩
    · rintro ⟨t, ht⟩
      exact List.mem_map.2 ⟨(k, t), (find_mem hd).1 ht, rfl⟩
  have hnum : ∀ᶠ C : ℝ in atTop, ∀ k ∈ N, ∀ t, SMap.find d k = some t → ∀ᶠ i in l,
      (M i).fin (ν i t) ∧ |(M i).val (ν i t) - δ k| ≤ C * ((w i).rel + (w i).abs) :=
    N.eventually_all.2 fun k hk => by
      obtain ⟨t, ht⟩ := (hmem k).1 hk
      refine ((h.nums t).errs hω).mono fun C hC t' ht' => ?_
      obtain rfl : t = t' := by rw [ht] at ht'; exact Option.some.inj ht'
      have : δ k = σ.nums t := by simp [hδ, ht]
      rwa [this]
  have hb : ∀ᶠ C : ℝ in atTop, ∀ k ∈ N, |partialS F x k| ≤ C ∧ |δ k| ≤ C :=
    N.eventually_all.2 fun k _ => (eventually_ge_atTop _).and (eventually_ge_atTop _)
  obtain ⟨C, ⟨h1, h2⟩, h3⟩ := (((h.objs.errs hω N v).and hnum).and hb).exists
  obtain ⟨K', w₀, B, hw₀, hE⟩ := C86_rate N C C
  have h2' : ∀ᶠ i in l, ∀ k ∈ N, ∀ t, SMap.find d k = some t →
      (M i).fin (ν i t) ∧ |(M i).val (ν i t) - δ k| ≤ C * ((w i).rel + (w i).abs) :=
    N.eventually_all.2 fun k hk => by
      obtain ⟨t, ht⟩ := (hmem k).1 hk
      refine (h2 k hk t ht).mono fun i hi t' ht' => ?_
      obtain rfl : t = t' := by rw [ht] at ht'; exact Option.some.inj ht'
      exact hi
  have key : ∀ᶠ k in l, ∃ a, (ρ k v).eval false (d.map fun e => (e.1, ν k e.2)) = .ok a ∧
      (M k).fin a ∧ |(M k).val a - T| ≤ K' * ((w k).rel + (w k).abs) := by
    filter_upwards [h1, h2', hw.rel.eventually_le_const hw₀, hw.abs.eventually_le_const hw₀,
      hw.range B] with k k1 k2 k3 k4 k5
    rw [← hsum]
    refine hE (α k) (w k) (M k) k3 k4 k5 F x δ (ρ k v) _ k1.1 h3 k1.2 (fun j => ?_) fun j s hs => ?_
    · rw [hmem, find_values]
      cases SMap.find d j <;> simp
    · rw [find_values, Option.map_eq_some_iff] at hs
      obtain ⟨t, ht, rfl⟩ := hs
      exact k2 j ((hmem j).2 ⟨t, ht⟩) t ht
  classical
  have hch : ∀ k, ∃ a : α k, (∃ a, (ρ k v).eval false (d.map fun e => (e.1, ν k e.2)) = .ok a ∧
      (M k).fin a ∧ |(M k).val a - T| ≤ K' * ((w k).rel + (w k).abs)) →
      (ρ k v).eval false (d.map fun e => (e.1, ν k e.2)) = .ok a ∧
      (M k).fin a ∧ |(M k).val a - T| ≤ K' * ((w k).rel + (w k).abs) := fun k => by
    by_cases hk : ∃ a, (ρ k v).eval false (d.map fun e => (e.1, ν k e.2)) = .ok a ∧
      (M k).fin a ∧ |(M k).val a - T| ≤ K' * ((w k).rel + (w k).abs)
    · exact ⟨hk.choose, fun _ => hk.choose_spec⟩
    · exact ⟨Arith.lit 0, fun h => absurd h hk⟩
  choose s hs' using hch
  have hn : ∀ k, ‖ω k‖ = (w k).rel + (w k).abs := fun k => by
    rw [hω]; exact Real.norm_of_nonneg (add_nonneg (M k).rel_nonneg (M k).abs_nonneg)
  have hr : (fun k => (M k).val (s k) - T) =O[l] ω := by
    refine Asymptotics.IsBigO.of_bound K' (key.mono fun k hk => ?_)
    rw [hn, Real.norm_eq_abs]
    exact (hs' k hk).2.2
  refine ⟨s, key.mono fun k hk => (hs' k hk).1, ⟨?_, tendsto_const_nhds, hr⟩,
    key.mono fun k hk => (hs' k hk).2.1⟩
  have hz : Tendsto ω l (𝓝 0) := by
    rw [show ω = fun k => (w k).rel + (w k).abs from funext hω]; simpa using hw.rel.add hw.abs
  simpa using (hr.trans_tendsto hz).add_const T

/-- One call. -/
theorem SMNear.call [l.NeBot] (hw : Fine w l ω) (hω : ∀ k, ω k = (w k).rel + (w k).abs)
    (hcmp : ∀ k, (M k).ExactCmp) (henc₀ : ∀ s, Lim M l ω (fun k => enc₀ k s) (fun _ => s) s)
    {σ σ' : SMixSt V W} {ord : ∀ k, Order (α k)} (ho : ∀ k, (ord k).Ok) (h : SMNear M l ω x ρ ν σ)
    {m : SMCall ℝ V W} {a : Answer ℝ} (hm : SMixCall x m σ a σ') :
    ∃ (ord' : ∀ k, Order (α k)) (ρ' : ∀ k, SStore (α k) V) (ν' : ∀ k, W → α k),
      (∀ k, (ord' k).Ok) ∧
      (∀ᶠ k in l, ∃ a', a'.map (M k).val = a ∧
        smixLibrary (α k) V W (m.map (enc₀ k)) ((ord k, ρ k), ν k) =
          (.ok a', (ord' k, ρ' k), ν' k)) ∧
      SMNear M l ω x ρ' ν' σ' := by
  have hs := h.scalars henc₀
  cases hm with
  | act s σ hok hP =>
    obtain ⟨τ, h1, h2⟩ := sstep_nearL hw henc₀ hs (fun k => (ho k).sub 0) h.objs s hok hP
    refine ⟨fun k => (ord k).sub 1, τ, ν, fun k => (ho k).sub 1,
      .of_forall fun k => ⟨.done, rfl, ?_⟩, h2, h.nums⟩
    have := h1 k
    simp only [SMCall.map, smixLibrary, ssLibrary, SStmt.map_fuse]
    simp only [Function.comp_def, this, Answer.of]
  | ask b σ hb hP hr =>
    refine ⟨ord, ρ, ν, ho, (scond_nearL hw hcmp henc₀ hs (fun k => (ho k).sub 2) h.objs b hb hP hr).mono
      fun k hk => ⟨.truth _, rfl, ?_⟩, h⟩
    simp only [SMCall.map, smixLibrary, ssLibrary, Cond.map_fuse]
    simp only [Function.comp_def, hk, Answer.of]
  | compute t e σ he =>
    exact ⟨ord, ρ, _, ho, .of_forall fun k => ⟨.done, rfl, rfl⟩,
      h.setNum t (plain_lim hw henc₀ h.nums e he)⟩
  | test op e₁ e₂ σ h₁ h₂ hne hr =>
    refine ⟨ord, ρ, ν, ho, (cmp_lim (plain_lim hw henc₀ h.nums e₁ h₁)
      (plain_lim hw henc₀ h.nums e₂ h₂) hne hcmp op hr).mono fun k hk => ⟨.truth _, rfl, ?_⟩, h⟩
    simp only [SMCall.map, smixLibrary, hk.1]
  | f t v σ =>
    obtain ⟨p, h1, h2⟩ := h.objs
    refine ⟨ord, ρ, _, ho, .of_forall fun k => ⟨.done, rfl, ?_⟩, h.setNum t (h2 v).f⟩
    simp only [SMCall.map, smixLibrary, SS.f_ok (h1 k v), sreadNum]
  | d t v nm σ =>
    obtain ⟨p, h1, h2⟩ := h.objs
    obtain ⟨g, k1, k2⟩ := (h2 v).d nm
    have e : partialS (fun y => σ.fns y v) x nm = g := k2.deriv
    refine ⟨ord, ρ, _, ho, .of_forall fun k => ⟨.done, rfl, ?_⟩, h.setNum t (e.symm ▸ k1)⟩
    simp only [SMCall.map, smixLibrary, SS.d_eq (h1 k v), sreadNum]
  | eval t v d hd σ =>
    obtain ⟨s, h1, h2⟩ := h.eval_lim hw hω v d hd
    refine ⟨ord, ρ, _, ho, h1.mono fun k hk => ⟨.done, rfl, ?_⟩, h.setNum t h2⟩
    simp only [SMCall.map, smixLibrary, hk, sreadNum]

/-- The client code. -/
theorem smixclient_near [l.NeBot] (hw : Fine w l ω) (hω : ∀ k, ω k = (w k).rel + (w k).abs)
    (hcmp : ∀ k, (M k).ExactCmp) (henc₀ : ∀ s, Lim M l ω (fun k => enc₀ k s) (fun _ => s) s)
    {cl : Caller (SMCall ℝ V W) (Answer ℝ) Q} {q q' : Q} {σ σ' : SMixSt V W}
    (he : cl.Ends (SMixCall x) q σ q' σ') {ord : ∀ k, Order (α k)} (ho : ∀ k, (ord k).Ok)
    (h : SMNear M l ω x ρ ν σ) :
    ∃ (m : Nat) (st' : ∀ k, Order (α k) × SStore (α k) V) (ν' : ∀ k, W → α k),
      (∀ᶠ k in l, ∀ j ≥ m, (cl.map (SMCall.map (enc₀ k)) (Answer.map (M k).val)).run
          (smixLibrary (α k) V W) j q ((ord k, ρ k), ν k) = some (.ok q', st' k, ν' k)) ∧
      SMNear M l ω x (fun k => (st' k).2) ν' σ' := by
  induction he generalizing ρ ν ord with
  | stop hn =>
    refine ⟨1, fun k => (ord k, ρ k), ν, .of_forall fun k j hj => ?_, h⟩
    obtain ⟨j, rfl⟩ : ∃ i, j = i + 1 := ⟨j - 1, by omega⟩
    simp [Caller.run, Caller.map, hn]
  | call hn hk _ ih =>
    obtain ⟨ord₁, ρ₁, ν₁, ho₁, h1, h2⟩ := h.call hw hω hcmp henc₀ ho hk
    obtain ⟨m, st', ν', h3, h4⟩ := ih ho₁ h2
    refine ⟨m + 1, st', ν', (h1.and h3).mono fun k ⟨⟨a', ha, h1⟩, hk⟩ j hj => ?_, h4⟩
    obtain ⟨j, rfl⟩ : ∃ i, j = i + 1 := ⟨j - 1, by omega⟩
    simp only [Caller.run, Caller.map, hn, Option.map_some, h1, ha]
    exact hk j (by omega)

end

end HJ
