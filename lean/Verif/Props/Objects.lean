import Verif.Spec.Objects
import Verif.Props.PyApi
import Verif.Proofs.Caller
import Verif.Props.Construct

/-!
# C76: objects of any sizes, copying and moving
-/

namespace HJ

open DD

variable {α V Q : Type} {c : Cfg} {sz : V → Option Nat} {ρ ρ' : Store α V}

/-- What was expected came out. -/
def Fate.Met {A : Type} (P : A → Prop) (T : Err → Prop) : Fate A → Prop
  | .ends a => P a
  | .throws e => T e
  | .unknown => True

theorem Fate.met_live {A : Type} {P : A → Prop} {T : Err → Prop} {o : Option Nat} {k : Nat → Fate A}
    (h : ∀ n, o = some n → (k n).Met P T) : (Fate.live o k).Met P T := by
  cases o with
  | none => trivial
  | some n => exact h n rfl

theorem Fate.met_map {A B : Type} {P : B → Prop} {T : Err → Prop} {f : Fate A} {g : A → B}
    (h : f.Met (fun a => P (g a)) T) : (f.map g).Met P T := by
  cases f with
  | ends a => exact h
  | throws e => exact h
  | unknown => trivial

theorem Fate.Met.mono {A : Type} {P P' : A → Prop} {T T' : Err → Prop} {f : Fate A} (h : f.Met P T)
    (hP : ∀ a, P a → P' a) (hT : ∀ e, T e → T' e) : f.Met P' T' := by
  cases f with
  | ends a => exact hP _ h
  | throws e => exact hT _ h
  | unknown => trivial

theorem Fate.Met.and {A : Type} {P P' Q : A → Prop} {T T' U : Err → Prop} {f : Fate A} (h : f.Met P T)
    (h' : f.Met P' T') (hP : ∀ a, P a → P' a → Q a) (hT : ∀ e, T e → T' e → U e) : f.Met Q U := by
  cases f with
  | ends a => exact hP _ h h'
  | throws e => exact hT _ h h'
  | unknown => trivial

theorem ObjSizes.obj (hv : c.Valid) (h : ObjSizes c sz ρ) {v : V} {n : Nat} (hn : sz v = some n) :
    Fits c n ∧ ∃ a, ρ v = obj c n a := (h v n hn).eq_obj hv.order

/-- A new object is as expected. -/
abbrev NewObj (c : Cfg) (r : Res (DD α)) (n : Option Nat) : Prop :=
  ∃ x, r = .ok x ∧ ∀ m, n = some m → WF c m x

theorem newObj (hv : c.Valid) {r : Res (DD α)} {n : Nat} {a : Nat → α} (hf : Fits c n)
    (h : r = .ok (obj c n a)) : NewObj c r (some n) :=
  ⟨_, h, fun m hm => by cases hm; exact wf_obj hv.order hf a⟩

theorem sized_met (hv : c.Valid) {size : Int} {r : Int → Res (DD α)}
    (h1 : ∀ n : Nat, size = n → Fits c n → ∃ a, r n = .ok (obj c n a))
    (h2 : c.tsize ≠ -1 → size ≠ c.tsize → r size = .throw .invalidSize) :
    (Fate.sized c size).Met (NewObj c (r size)) (fun e => r size = .throw e) := by
  unfold Fate.sized
  split_ifs with hd hs hs
  · obtain ⟨n, rfl⟩ := Int.eq_ofNat_of_zero_le hs
    obtain ⟨a, ha⟩ := h1 n rfl (Or.inl hd)
    exact newObj hv (Or.inl hd) ha
  · trivial
  · obtain ⟨hf, hN⟩ := static_size hv hd
    obtain ⟨a, ha⟩ := h1 _ (hs.trans hN) hf
    subst hs
    rw [← hN] at ha
    exact newObj hv hf ha
  · exact h2 hd hs

theorem maker_met [CMath α] (hv : c.Valid) (he : c.exc = true) (h : ObjSizes c sz ρ) (m : Maker α V) :
    (m.fate c sz).Met (NewObj c (m.run c ρ)) fun e => m.run c ρ = .throw e := by
  cases m with
  | zero size =>
    refine sized_met hv (r := DD.zero c) (fun n _ hf => ⟨_, zero_obj hf⟩) fun hd hs => ?_
    have hdd : c.isDynamic = false := by simp [Cfg.isDynamic, hd]
    unfold DD.zero
    simp only [hdd, Bool.false_eq_true, if_false, checkValidSize_static he hd hs]
    rfl
  | const f size =>
    refine sized_met hv (r := DD.constant c f) (fun n _ hf => ⟨_, constant_obj hf f⟩) fun hd hs => ?_
    have hdd : c.isDynamic = false := by simp [Cfg.isDynamic, hd]
    unfold DD.constant
    simp only [hdd, Bool.false_eq_true, if_false, checkValidSize_static he hd hs]
    rfl
  | var i f size =>
    simp only [Maker.fate]
    split_ifs with hi
    · obtain ⟨i, rfl⟩ := Int.eq_ofNat_of_zero_le hi.1
      refine sized_met hv (r := DD.var c i f)
        (fun n hn hf => ⟨_, var_obj hf (by omega) f⟩) fun hd hs => ?_
      have hdd : c.isDynamic = false := by simp [Cfg.isDynamic, hd]
      unfold DD.var
      simp only [hdd, Bool.false_eq_true, if_false, checkValidSize_static he hd hs]
      rfl
    · trivial
  | blank => exact ⟨_, rfl, fun m hm => by cases hm⟩
  | ofScalar f =>
    simp only [Maker.fate]
    split_ifs with hd
    · obtain ⟨x, hx, _⟩ := C38_violated_dynamic hv hd f
      exact ⟨x, hx, fun m hm => by cases hm⟩
    · obtain ⟨x, hx, hs⟩ := C38_static hv (static_size hv hd).2 f
      exact ⟨x, hx, fun m hm => by cases hm; exact hs.wf⟩
  | neg a =>
    refine Fate.met_live fun n hn => ?_
    obtain ⟨hf, b, e⟩ := h.obj hv hn
    exact newObj hv hf (by simp only [Maker.run]; rw [e]; exact neg_obj hf b)
  | abs a =>
    refine Fate.met_live fun n hn => ?_
    obtain ⟨hf, b, e⟩ := h.obj hv hn
    exact newObj hv hf (by simp only [Maker.run]; rw [e]; exact abs_obj hf b)
  | fn φ a =>
    refine Fate.met_live fun n hn => ?_
    obtain ⟨hf, b, e⟩ := h.obj hv hn
    exact newObj hv hf (by simp only [Maker.run]; rw [e]; exact un_obj hv.order hf _ b)
  | sbin o a s =>
    refine Fate.met_live fun n hn => ?_
    obtain ⟨hf, b, e⟩ := h.obj hv hn
    exact newObj hv hf (by simp only [Maker.run]; rw [e]; exact SBin.run_obj hv.order hf o b s)
  | bin o a b =>
    refine Fate.met_live fun n hn => Fate.met_live fun m hm => ?_
    obtain ⟨hf, p, ep⟩ := h.obj hv hn
    obtain ⟨hf', q, eq⟩ := h.obj hv hm
    simp only [Maker.run]
    split_ifs with hnm ho
    · subst hnm
      exact newObj hv hf (by rw [ep, eq]; exact Bin.run_obj hv.order hf o p q)
    · trivial
    · have hd := dyn_of_ne (h a n hn) (h b m hm) hnm
      obtain ⟨m1, m2, m3, m4, m5, _⟩ := C15_size_mismatch hd he (x := ρ a) (y := ρ b)
        (by rw [ep, eq, size_obj hf, size_obj hf']; exact_mod_cast hnm) (ρ a)
      cases o with
      | add => exact m1
      | sub => exact m2
      | mul => exact m3
      | div => exact m4
      | hypot => exact m5
      | atan2 => exact absurd rfl ho
  | hypot3 a b e =>
    refine Fate.met_live fun n hn => Fate.met_live fun m hm => Fate.met_live fun k hk => ?_
    obtain ⟨hf, p, ep⟩ := h.obj hv hn
    obtain ⟨hf', q, eq⟩ := h.obj hv hm
    obtain ⟨hf'', r, er⟩ := h.obj hv hk
    simp only [Maker.run]
    split_ifs with hnm hk'
    · have hd := dyn_of_ne (h a n hn) (h b m hm) hnm
      exact (C15_size_mismatch hd he (x := ρ a) (y := ρ b)
        (by rw [ep, eq, size_obj hf, size_obj hf']; exact_mod_cast hnm) (ρ e)).2.2.2.2.2.1
    · obtain rfl : n = m := not_not.1 hnm
      subst hk'
      exact newObj hv hf (by rw [ep, eq, er]; exact hypot3_obj hv.order hf p q r)
    · trivial
  | padRight a m =>
    refine Fate.met_live fun n hn => ?_
    obtain ⟨hf, b, e⟩ := h.obj hv hn
    split_ifs with hm
    · obtain ⟨m, rfl⟩ := Int.eq_ofNat_of_zero_le (show 0 ≤ m by omega)
      exact newObj hv (Or.inl hm.1) (by
        simp only [Maker.run]; rw [e]; exact padRight_obj hv.order hm.1 (by omega) b)
    · trivial
  | padLeft a m =>
    refine Fate.met_live fun n hn => ?_
    obtain ⟨hf, b, e⟩ := h.obj hv hn
    split_ifs with hm
    · obtain ⟨m, rfl⟩ := Int.eq_ofNat_of_zero_le (show 0 ≤ m by omega)
      exact newObj hv (Or.inl hm.1) (by
        simp only [Maker.run]; rw [e]; exact padLeft_obj hv.order hm.1 (by omega) b)
    · trivial

/-- A changed object is as expected. -/
abbrev Changed (c : Cfg) (r : Res Unit × DD α) (n : Option Nat) : Prop :=
  ∃ x, r = (.ok (), x) ∧ ∀ m, n = some m → WF c m x

theorem changed (hv : c.Valid) {r : Res Unit × DD α} {n : Nat} {a : Nat → α} (hf : Fits c n)
    (h : r = (.ok (), obj c n a)) : Changed c r (some n) :=
  ⟨_, h, fun m hm => by cases hm; exact wf_obj hv.order hf a⟩

theorem change_met [CMath α] [DecidableEq V] (hv : c.Valid) (he : c.exc = true) (h : ObjSizes c sz ρ)
    (v : V)
    (o : Change α V) :
    (o.fate c sz v).Met (Changed c (o.run c ρ v)) fun e => o.run c ρ v = (.throw e, ρ v) := by
  cases o with
  | asg o b =>
    refine Fate.met_live fun n hn => Fate.met_live fun m hm => ?_
    simp only [Change.run]
    split_ifs with hbv hnm hz hnm hz
    · subst hbv
      rw [hn] at hm
      cases hm
      exact absurd rfl hnm
    · trivial
    · obtain rfl : n = m := not_not.1 hnm
      rcases run_wf hv (h v n hn) o .self (by simp) with ⟨x, hx, hw⟩ | ⟨a1, a2, a3, _⟩
      · exact ⟨x, hx, fun m hm => by cases hm; exact hw⟩
      · exact absurd ⟨a1, a2, a3⟩ hz
    · obtain ⟨hf, p, ep⟩ := h.obj hv hn
      obtain ⟨hf', q, eq⟩ := h.obj hv hm
      have hd := dyn_of_ne (h v n hn) (h b m hm) hnm
      obtain ⟨_, _, _, _, _, _, m1, m2, m3, m4⟩ := C15_size_mismatch hd he (x := ρ v) (y := ρ b)
        (by rw [ep, eq, size_obj hf, size_obj hf']; exact_mod_cast hnm) (ρ v)
      cases o
      exacts [m1, m2, m3, m4]
    · trivial
    · obtain rfl : n = m := not_not.1 hnm
      rcases run_wf hv (h v n hn) o (.obj (ρ b)) (by
        rintro y ⟨⟩
        exact h b n hm) with ⟨x, hx, hw⟩ | ⟨a1, a2, a3, _⟩
      · exact ⟨x, hx, fun m hm => by cases hm; exact hw⟩
      · exact absurd ⟨a1, a2, a3⟩ hz
  | asgS o s =>
    refine Fate.met_live fun n hn => ?_
    obtain ⟨hf, b, e⟩ := h.obj hv hn
    simp only [Change.run, e]
    cases o
    · exact changed hv hf (addAssignS_obj ..)
    · exact changed hv hf (subAssignS_obj ..)
    · exact changed hv hf (mulAssignS_obj ..)
    · exact changed hv hf (divAssignS_obj ..)
  | setF s =>
    refine Fate.met_live fun n hn => ?_
    obtain ⟨hf, b, e⟩ := h.obj hv hn
    exact changed hv hf (by simp only [Change.run, e, setF_obj, DD.setter]; rfl)
  | setG i s =>
    refine Fate.met_live fun n hn => ?_
    obtain ⟨hf, b, e⟩ := h.obj hv hn
    split_ifs with hi
    · obtain ⟨i, rfl⟩ := Int.eq_ofNat_of_zero_le hi.1
      exact changed hv hf (by
        simp only [Change.run, e]
        rw [setG_obj hf b (by omega)]
        simp only [DD.setter]; rfl)
    · trivial
  | setH i j s =>
    refine Fate.met_live fun n hn => ?_
    obtain ⟨hf, b, e⟩ := h.obj hv hn
    split_ifs with hi
    · obtain ⟨h2, hi, hi', hj, hj'⟩ := hi
      exact changed hv hf (by simp only [Change.run, e, setH_obj h2 hf b hi hi' hj hj', DD.setter]; rfl)
    · trivial
  | setZero =>
    refine Fate.met_live fun n hn => ?_
    obtain ⟨hf, b, e⟩ := h.obj hv hn
    exact changed (a := fun _ => Arith.lit 0) hv hf (by
      simp only [Change.run, e, DD.setZero, HJ.obj, mk, List.map_map, Function.comp_def]
      rfl)
  | resize m =>
    refine Fate.met_live fun n hn => ?_
    obtain ⟨hf, b, e⟩ := h.obj hv hn
    split_ifs with hm
    · obtain ⟨m, rfl⟩ := Int.eq_ofNat_of_zero_le hm.2
      exact changed hv (Or.inl hm.1) (by
        simp only [Change.run, e]
        exact resize_obj hm.1 b)
    · trivial

theorem query_met [CMath α] (hv : c.Valid) (h : ObjSizes c sz ρ) (k : Query α V) :
    (k.fate c sz).Met (fun _ => ∃ r, k.run c ρ = .ok r ∧ ∀ e, r ≠ .threw e) fun _ => False := by
  cases k with
  | f a =>
    refine Fate.met_live fun n hn => ?_
    obtain ⟨hf, b, e⟩ := h.obj hv hn
    exact ⟨.number (b 0), by simp only [Query.run, e, f_obj, Res.ok_bind], by simp⟩
  | g a i =>
    refine Fate.met_live fun n hn => ?_
    obtain ⟨hf, b, e⟩ := h.obj hv hn
    split_ifs with hi
    · obtain ⟨i, rfl⟩ := Int.eq_ofNat_of_zero_le hi.1
      refine ⟨.number (b (1 + i)), ?_, by simp⟩
      simp only [Query.run, e]
      rw [g_obj hf b (by omega)]
      rfl
    · trivial
  | h a i j =>
    refine Fate.met_live fun n hn => ?_
    obtain ⟨hf, b, e⟩ := h.obj hv hn
    split_ifs with hi
    · obtain ⟨h2, hi, hi', hj, hj'⟩ := hi
      obtain ⟨i, rfl⟩ := Int.eq_ofNat_of_zero_le hi
      obtain ⟨j, rfl⟩ := Int.eq_ofNat_of_zero_le hj
      have := (shows_obj hv.order hf b).h h2 i j (by omega) (by omega)
      refine ⟨.number ((jetOf n b).h i j), ?_, by simp⟩
      simp only [Query.run, e]
      rw [this]
      rfl
    · trivial
  | size a => exact Fate.met_live fun n hn => ⟨_, rfl, by simp⟩
  | cmp o a b =>
    refine Fate.met_live fun n hn => Fate.met_live fun m hm => ?_
    obtain ⟨hf, p, ep⟩ := h.obj hv hn
    obtain ⟨hf', q, eq⟩ := h.obj hv hm
    simp only [Query.run, ep, eq, DD.cmp, f_obj, Res.ok_bind]
    exact ⟨_, rfl, by simp⟩
  | cmpS o a s =>
    refine Fate.met_live fun n hn => ?_
    obtain ⟨hf, b, e⟩ := h.obj hv hn
    simp only [Query.run, e, DD.cmpS, f_obj, Res.ok_bind]
    exact ⟨_, rfl, by simp⟩
  | sCmp o s a =>
    refine Fate.met_live fun n hn => ?_
    obtain ⟨hf, b, e⟩ := h.obj hv hn
    simp only [Query.run, e, DD.sCmp, DD.cmpS, f_obj, Res.ok_bind]
    exact ⟨_, rfl, by simp⟩
  | eval a d =>
    refine Fate.met_live fun n hn => ?_
    split_ifs with hd
    · obtain ⟨r, hr⟩ := eval_ok hv.order (h a n hn) hd
      exact ⟨.number r, by simp only [Query.run, hr, Res.ok_bind], by simp⟩
    · trivial

/-! ### Calls -/

theorem ObjSizes.set [DecidableEq V] (h : ObjSizes c sz ρ) {v : V} {n : Option Nat} {x : DD α}
    (hx : ∀ m, n = some m → WF c m x) : ObjSizes c (setSize sz v n) (ρ.set v x) := by
  intro w m hw
  unfold setSize at hw
  unfold Store.set
  split_ifs at hw ⊢ with e
  · exact hx m hw
  · exact h w m hw

theorem hollow_wf {x : DD α} {n : Nat} (hx : WF c n x) :
    ∀ m, (if c.tsize = -1 then none else some n) = some m → WF c m (x.hollow c) := by
  intro m hm
  split_ifs at hm with hd
  cases hm
  have hdd : c.isDynamic = false := by simp [Cfg.isDynamic, hd]
  simpa [DD.hollow, hdd] using hx

/-- `std::swap` exchanges two objects, also of different sizes. -/
theorem swap_eq [DecidableEq V] (ρ : Store α V) (a b w : V) :
    ρ.swap c a b w = if w = b then ρ a else if w = a then ρ b else ρ w := by
  unfold Store.swap Store.moveTo Store.set
  by_cases hab : b = a
  · subst hab
    by_cases hw : w = b <;> simp [hw]
  · by_cases hw : w = b
    · simp [hw]
    · by_cases hw' : w = a
      · subst hw'
        simp [hw, hab]
      · simp [hw, hw']

/-- **C76, every call.**  The sizes of the objects decide what a call does, in every arithmetic and build
mode with exceptions: it returns, and the new sizes are known; or it throws a known exception and changes
nothing; or it belongs to the cases nothing is promised for (invalid indices and sizes, use of objects
that were moved from or have no value). -/
theorem C76_call [CMath α] [DecidableEq V] (hv : c.Valid) (he : c.exc = true) (h : ObjSizes c sz ρ)
    (k : ObjCall α V) :
    match k.fate c sz with
    | .ends sz' => ∃ r ρ', objLibrary α V c k ρ = (.ok r, ρ') ∧ (∀ e, r ≠ .threw e) ∧ ObjSizes c sz' ρ'
    | .throws e => objLibrary α V c k ρ = (.ok (.threw e), ρ)
    | .unknown => True := by
  suffices hm : (k.fate c sz).Met (fun sz' => ∃ r ρ', objLibrary α V c k ρ = (.ok r, ρ') ∧
      (∀ e, r ≠ .threw e) ∧ ObjSizes c sz' ρ') fun e => objLibrary α V c k ρ = (.ok (.threw e), ρ) by
    cases hk : k.fate c sz with
    | ends sz' => rw [hk] at hm; exact hm
    | throws e => rw [hk] at hm; exact hm
    | unknown => trivial
  cases k with
  | make v m =>
    refine Fate.met_map ((maker_met hv he h m).mono ?_ ?_)
    · rintro n ⟨x, hx, hw⟩
      exact ⟨.done, ρ.set v x, by simp only [objLibrary, hx, Store.put, Res.ok_bind, Reply.catch],
        by simp, h.set hw⟩
    · intro e hx
      simp only [objLibrary, hx, Store.put]
      rfl
  | change v o =>
    refine Fate.met_map ((change_met hv he h v o).mono ?_ ?_)
    · rintro n ⟨x, hx, hw⟩
      exact
        ⟨.done, ρ.set v x, by simp only [objLibrary, hx, Res.ok_bind, Reply.catch], by simp, h.set hw⟩
    · intro e hx
      simp only [objLibrary, hx]
      refine Prod.ext rfl (funext fun w => ?_)
      simp only [Store.set]
      split_ifs with hw
      · rw [hw]
      · rfl
  | ask k =>
    refine Fate.met_map ((query_met hv h k).mono ?_ fun e he => he.elim)
    rintro - ⟨r, hr, hn⟩
    refine ⟨r, ρ, ?_, hn, h⟩
    simp only [objLibrary, hr, Reply.catch]
  | copy v a =>
    exact Fate.met_live fun n hn =>
      ⟨.done, _, rfl, by simp, h.set fun m hm => by cases hm; exact h a n hn⟩
  | move v a =>
    exact Fate.met_live fun n hn => ⟨.done, _, rfl, by simp,
      (h.set fun m hm => by cases hm; exact h a n hn).set (hollow_wf (h a n hn))⟩
  | swap a b =>
    refine Fate.met_live fun n hn => Fate.met_live fun m hm => ⟨.done, _, rfl, by simp, ?_⟩
    intro w l hw
    rw [swap_eq]
    unfold setSize at hw
    split_ifs at hw ⊢
    · cases hw; exact h a _ hn
    · cases hw; exact h b _ hm
    · exact h w l hw

/-! ### Clients -/

section clients

variable [CMath α] [DecidableEq V]

omit [CMath α] in
/-- Two libraries that follow the same table and give the same answers. -/
theorem careful_lockstep {cl : Caller (ObjCall α V) (Reply α) Q} {I : Q → (V → Option Nat) → Prop}
    (hI : cl.Careful c I) {L L' : Library (ObjCall α V) (Reply α) (Store α V)}
    {Rel : (V → Option Nat) → Store α V → Store α V → Prop}
    (hL : ∀ sz ρ ρ' k, Rel sz ρ ρ' → match ObjCall.fate c sz k with
      | .ends sz' => ∃ r ρ₁ ρ₁', L k ρ = (.ok r, ρ₁) ∧ L' k ρ' = (.ok r, ρ₁') ∧ (∀ e, r ≠ .threw e) ∧
          Rel sz' ρ₁ ρ₁'
      | .throws e => L k ρ = (.ok (.threw e), ρ) ∧ L' k ρ' = (.ok (.threw e), ρ')
      | .unknown => True)
    (j : Nat) (q : Q) {sz : V → Option Nat} {ρ ρ' : Store α V} (hq : I q sz) (h : Rel sz ρ ρ') :
    (cl.run L j q ρ = none ∧ cl.run L' j q ρ' = none) ∨
      ∃ q' sz' ρ₁ ρ₁', cl.run L j q ρ = some (.ok q', ρ₁) ∧ cl.run L' j q ρ' = some (.ok q', ρ₁') ∧
        I q' sz' ∧ Rel sz' ρ₁ ρ₁' := by
  induction j generalizing q sz ρ ρ' with
  | zero => exact Or.inl ⟨rfl, rfl⟩
  | succ j ih =>
    unfold Caller.run
    cases hn : cl.next q with
    | none => exact Or.inr ⟨q, sz, ρ, ρ', rfl, rfl, hq, h⟩
    | some k =>
      have h1 := hI q sz k hq hn
      have h2 := hL sz ρ ρ' k h
      simp only
      cases hk : k.fate c sz with
      | ends sz' =>
        rw [hk] at h1 h2
        obtain ⟨r, ρ₁, ρ₁', e1, e2, e3, e4⟩ := h2
        rw [e1, e2]
        exact ih _ (h1 r e3) e4
      | throws e =>
        rw [hk] at h1 h2
        rw [h2.1, h2.2]
        exact ih _ h1 h
      | unknown => rw [hk] at h1; exact h1.elim

/-- **C76, clients.**  Client code of any kind that keeps within the table never runs into undefined
behaviour or a failed assertion, and every object that the table calls a jet of `n` variables is one. -/
theorem C76_safe (hv : c.Valid) (he : c.exc = true) (cl : Caller (ObjCall α V) (Reply α) Q)
    {I : Q → (V → Option Nat) → Prop} (hI : cl.Careful c I) (q : Q) (hq : I q sz) (h : ObjSizes c sz ρ)
    (j : Nat) :
    cl.run (objLibrary α V c) j q ρ = none ∨
      ∃ q' sz' ρ', cl.run (objLibrary α V c) j q ρ = some (.ok q', ρ') ∧ I q' sz' ∧ ObjSizes c sz' ρ' := by
  obtain h | ⟨q', sz', ρ₁, ρ₁', h1, _, h2, h3, _⟩ := careful_lockstep hI (L := objLibrary α V c)
    (L' := objLibrary α V c) (Rel := fun sz ρ ρ' => ObjSizes c sz ρ ∧ ρ = ρ') (by
      rintro sz ρ _ k ⟨h, rfl⟩
      have := C76_call hv he h k
      cases hk : k.fate c sz with
      | ends sz' =>
        rw [hk] at this
        obtain ⟨r, ρ', h1, h2, h3⟩ := this
        exact ⟨r, ρ', ρ', h1, h1, h2, h3, rfl⟩
      | throws e => rw [hk] at this; exact ⟨this, this⟩
      | unknown => trivial) j q hq ⟨h, rfl⟩
  · exact Or.inl h.1
  · exact Or.inr ⟨q', sz', ρ₁, h1, h2, h3⟩

/-- The jets are the same. -/
def SameLive (sz : V → Option Nat) (ρ ρ' : Store α V) : Prop := ∀ v n, sz v = some n → ρ v = ρ' v

omit [DecidableEq V] in
theorem maker_agree (h : SameLive sz ρ ρ') (m : Maker α V) :
    (m.fate c sz).Met (fun _ => m.run c ρ = m.run c ρ') fun _ => m.run c ρ = m.run c ρ' := by
  have all : ∀ {A : Type} {P : Prop} (f : Fate A), P → f.Met (fun _ => P) fun _ => P := by
    intro A P f hP
    cases f <;> first | exact hP | trivial
  cases m with
  | zero | const | var | blank | ofScalar => exact all _ rfl
  | neg a | abs a | fn φ a | sbin o a s | padRight a m | padLeft a m =>
    exact Fate.met_live fun n hn => all _ (by simp only [Maker.run, h a n hn])
  | bin o a b =>
    exact Fate.met_live fun n hn => Fate.met_live fun m hm => all _ (by
      simp only [Maker.run, h a n hn, h b m hm])
  | hypot3 a b e =>
    exact Fate.met_live fun n hn => Fate.met_live fun m hm => Fate.met_live fun k hk => all _ (by
      simp only [Maker.run, h a n hn, h b m hm, h e k hk])

theorem change_agree (h : SameLive sz ρ ρ') (v : V) (o : Change α V) :
    (o.fate c sz v).Met (fun _ => o.run c ρ v = o.run c ρ' v) fun _ =>
      o.run c ρ v = o.run c ρ' v ∧ ρ v = ρ' v := by
  have all : ∀ {A : Type} {P : Prop} {n : Nat} (_ : sz v = some n) (f : Fate A), P → f.Met
    (fun _ => P) fun _ => P ∧ ρ v = ρ' v := by
    intro A P n hn f hP
    cases f <;> first | exact hP | exact ⟨hP, h v n hn⟩ | trivial
  cases o with
  | asg o b =>
    exact Fate.met_live fun n hn => Fate.met_live fun m hm => all hn _ (by
      simp only [Change.run, h v n hn, h b m hm])
  | asgS o s | setF s | setG i s | setH i j s | setZero | resize m =>
    exact Fate.met_live fun n hn => all hn _ (by simp only [Change.run, h v n hn])

omit [DecidableEq V] in
theorem query_agree (h : SameLive sz ρ ρ') (k : Query α V) :
    (k.fate c sz).Met (fun _ => k.run c ρ = k.run c ρ') fun _ => k.run c ρ = k.run c ρ' := by
  have all : ∀ {A : Type} {P : Prop} (f : Fate A), P → f.Met (fun _ => P) fun _ => P := by
    intro A P f hP
    cases f <;> first | exact hP | trivial
  cases k with
  | cmp o a b =>
    exact Fate.met_live fun n hn => Fate.met_live fun m hm => all _ (by
      simp only [Query.run, h a n hn, h b m hm])
  | f a | g a i | h a i j | size a | cmpS o a s | sCmp o s a | eval a d =>
    exact Fate.met_live fun n hn => all _ (by simp only [Query.run, h a n hn])

omit [CMath α] in
theorem SameLive.set (h : SameLive sz ρ ρ') (v : V) (n : Option Nat) (x : DD α) :
    SameLive (setSize sz v n) (ρ.set v x) (ρ'.set v x) := by
  intro w m hw
  unfold setSize at hw
  unfold Store.set
  split_ifs at hw ⊢
  · rfl
  · exact h w m hw

/-- **C76, moving is copying.**  In client code of any kind that uses no object after moving from it
(until it is assigned again), every `std::move` could be left out: the run with moves and the run with
copies go through the same states, with the same answers, and end with the same jets. -/
theorem C76_moves (hv : c.Valid) (he : c.exc = true) (cl : Caller (ObjCall α V) (Reply α) Q)
    {I : Q → (V → Option Nat) → Prop} (hI : cl.Careful c I) (q : Q) (hq : I q sz) (h : ObjSizes c sz ρ)
    (j : Nat) :
    (cl.run (objLibrary α V c) j q ρ = none ∧
      cl.run (fun k => objLibrary α V c k.copying) j q ρ = none) ∨
    ∃ q' sz' ρ₁ ρ₂, cl.run (objLibrary α V c) j q ρ = some (.ok q', ρ₁) ∧
      cl.run (fun k => objLibrary α V c k.copying) j q ρ = some (.ok q', ρ₂) ∧ I q' sz' ∧
      ∀ v n, sz' v = some n → WF c n (ρ₁ v) ∧ ρ₁ v = ρ₂ v := by
  obtain h | ⟨q', sz', ρ₁, ρ₁', h1, h2, h3, h4, h5⟩ := careful_lockstep hI (L := objLibrary α V c)
    (L' := fun k => objLibrary α V c k.copying)
    (Rel := fun sz ρ ρ' => ObjSizes c sz ρ ∧ SameLive sz ρ ρ') (by
      rintro sz ρ ρ' k ⟨h, hs⟩
      have hc := C76_call hv he h k
      suffices hm : (k.fate c sz).Met
          (fun sz' => ∀ r ρ₁, objLibrary α V c k ρ = (.ok r, ρ₁) → (∀ e, r ≠ .threw e) →
            ∃ ρ₂, objLibrary α V c k.copying ρ' = (.ok r, ρ₂) ∧ SameLive sz' ρ₁ ρ₂)
          (fun e => objLibrary α V c k ρ = (.ok (.threw e), ρ) →
            objLibrary α V c k.copying ρ' = (.ok (.threw e), ρ')) by
        cases hk : k.fate c sz with
        | ends sz' =>
          rw [hk] at hc hm
          obtain ⟨r, ρ₁, e1, e2, e3⟩ := hc
          obtain ⟨ρ₂, e4, e5⟩ := hm r ρ₁ e1 e2
          exact ⟨r, ρ₁, ρ₂, e1, e4, e2, e3, e5⟩
        | throws e => rw [hk] at hc hm; exact ⟨hc, hm hc⟩
        | unknown => trivial
      cases k with
      | make v m =>
        refine Fate.met_map ((maker_agree hs m).mono ?_ ?_)
        · intro n hn r ρ₁ hr hr'
          simp only [ObjCall.copying, objLibrary, ← hn] at hr ⊢
          cases hx : m.run c ρ with
          | ok x =>
            simp only [hx, Store.put, Res.ok_bind, Reply.catch, Prod.mk.injEq, Res.ok.injEq] at hr ⊢
            obtain ⟨rfl, rfl⟩ := hr
            exact ⟨_, ⟨rfl, rfl⟩, hs.set v n x⟩
          | throw e => rw [hx] at hr; cases hr; exact absurd rfl (hr' e)
          | abort => rw [hx] at hr; cases hr
          | ub u => rw [hx] at hr; cases hr
        · intro e hn hr
          simp only [ObjCall.copying, objLibrary, ← hn] at hr ⊢
          cases hx : m.run c ρ with
          | ok x => rw [hx] at hr; cases hr
          | throw e => rw [hx] at hr; cases hr; rfl
          | abort => rw [hx] at hr; cases hr
          | ub u => rw [hx] at hr; cases hr
      | change v o =>
        have hm := (change_met hv he h v o)
        refine Fate.met_map (Fate.Met.and ((change_agree hs v o)) hm ?_ ?_)
        · rintro n hn ⟨x, hx, -⟩ r ρ₁ hr -
          simp only [ObjCall.copying, objLibrary, ← hn, hx, Res.ok_bind, Reply.catch, Prod.mk.injEq,
            Res.ok.injEq] at hr ⊢
          obtain ⟨rfl, rfl⟩ := hr
          exact ⟨_, ⟨rfl, rfl⟩, hs.set v n x⟩
        · rintro e ⟨hn, hx⟩ hr -
          simp only [ObjCall.copying, objLibrary, ← hn, hr]
          refine Prod.ext rfl (funext fun w => ?_)
          simp only [Store.set]
          split_ifs with hw
          · rw [hw, hx]
          · rfl
      | ask k =>
        refine Fate.met_map ((query_agree hs k).mono ?_ ?_)
        · intro _ hn r ρ₁ hr _
          simp only [ObjCall.copying, objLibrary, ← hn, Prod.mk.injEq] at hr ⊢
          obtain ⟨hr, rfl⟩ := hr
          exact ⟨_, ⟨hr, rfl⟩, hs⟩
        · intro e hn hr
          simp only [ObjCall.copying, objLibrary, ← hn, Prod.mk.injEq, and_true] at hr ⊢
          exact hr
      | copy v a =>
        refine Fate.met_live fun n hn => ?_
        rintro r ρ₁ hr -
        cases hr
        refine ⟨_, rfl, ?_⟩
        rw [hs a n hn]
        exact hs.set _ _ _
      | move v a =>
        refine Fate.met_live fun n hn => ?_
        rintro r ρ₁ hr -
        cases hr
        refine ⟨_, rfl, ?_⟩
        intro w m hw
        have hx := hs a n hn
        simp only [Store.moveTo, Store.set, setSize] at hw ⊢
        by_cases hwa : w = a
        · subst hwa
          have hd : c.isDynamic = false := by
            by_contra hd
            have hd : c.tsize = -1 := by simpa [Cfg.isDynamic] using hd
            simp [hd] at hw
          simp [DD.hollow, hd, hx]
        · simp only [hwa, if_false] at hw ⊢
          by_cases hwv : w = v
          · simp only [hwv, if_true, hx]
          · simp only [hwv, if_false] at hw ⊢
            exact hs w m hw
      | swap a b =>
        refine Fate.met_live fun n hn => Fate.met_live fun m hm => ?_
        rintro r ρ₁ hr -
        cases hr
        refine ⟨_, rfl, ?_⟩
        intro w l hw
        rw [swap_eq, swap_eq, hs a n hn, hs b m hm]
        unfold setSize at hw
        split_ifs at hw ⊢
        · rfl
        · rfl
        · exact hs w l hw) j q hq ⟨h, fun v n _ => rfl⟩
  · exact Or.inl h
  · exact Or.inr ⟨q', sz', ρ₁, ρ₁', h1, h2, h3, fun v n hn => ⟨h4 v n hn, h5 v n hn⟩⟩

/-- **C76, code that ends.**  If moreover every call brings the client code closer to its end, in some
measure, it ends. -/
theorem C76_ends (hv : c.Valid) (he : c.exc = true) (cl : Caller (ObjCall α V) (Reply α) Q)
    {I : Q → (V → Option Nat) → Prop} (hI : cl.Careful c I) (μ : Q → Nat)
    (hμ : ∀ q k r, cl.next q = some k → μ (cl.after q r) < μ q) (q : Q) (hq : I q sz)
    (h : ObjSizes c sz ρ) (j : Nat) (hj : μ q < j) :
    ∃ q' sz' ρ', cl.run (objLibrary α V c) j q ρ = some (.ok q', ρ') ∧ cl.next q' = none ∧ I q' sz' ∧
      ObjSizes c sz' ρ' := by
  induction j generalizing q sz ρ with
  | zero => omega
  | succ j ih =>
    unfold Caller.run
    cases hn : cl.next q with
    | none => exact ⟨q, sz, ρ, rfl, hn, hq, h⟩
    | some k =>
      have h1 := hI q sz k hq hn
      have h2 := C76_call hv he h k
      simp only
      cases hk : k.fate c sz with
      | ends sz' =>
        rw [hk] at h1 h2
        obtain ⟨r, ρ₁, e1, e2, e3⟩ := h2
        rw [e1]
        exact ih _ (h1 r e2) e3 (by have := hμ q k r hn; omega)
      | throws e =>
        rw [hk] at h1 h2
        rw [h2]
        exact ih _ h1 h (by have := hμ q k (.threw e) hn; omega)
      | unknown => rw [hk] at h1; exact h1.elim

/-- **C76, move and swap.**  The target of a move is what the source was; `std::swap` exchanges the two
objects, whatever their sizes, also an object with itself; no other object changes. -/
theorem C76_contents (ρ : Store α V) (a b : V) :
    (∃ ρ', objLibrary α V c (.move b a) ρ = (.ok .done, ρ') ∧ (a ≠ b → ρ' b = ρ a) ∧
      ∀ w, w ≠ a → w ≠ b → ρ' w = ρ w) ∧
    ∃ ρ', objLibrary α V c (.swap a b) ρ = (.ok .done, ρ') ∧ ρ' a = ρ b ∧ ρ' b = ρ a ∧
      ∀ w, w ≠ a → w ≠ b → ρ' w = ρ w := by
  refine ⟨⟨_, rfl, fun hab => ?_, fun w h1 h2 => ?_⟩, _, rfl, ?_, ?_, fun w h1 h2 => ?_⟩
  · simp [Store.moveTo, Store.set, hab.symm]
  · simp [Store.moveTo, Store.set, h1, h2]
  · rw [swap_eq]
    by_cases hab : a = b <;> simp [hab]
  · rw [swap_eq]
    simp
  · rw [swap_eq]
    simp [h1, h2]

/-- **C76, violated for objects that were moved from.**  A dynamic jet that was moved from still reports
its old size, so it passes the size check of `+` — which then reads storage that is gone — and `f()` is
undefined behaviour as well. -/
theorem C76_violated_moved (hv : c.Valid) (hd : c.tsize = -1) (h : ObjSizes c sz ρ) {a b : V} {n : Nat}
    (hab : a ≠ b) (ha : sz a = some n) :
    ∃ ρ', objLibrary α V c (.move b a) ρ = (.ok .done, ρ') ∧
      objLibrary α V c (.ask (.size a)) ρ' = (.ok (.int n), ρ') ∧
      (∃ u, objLibrary α V c (.ask (.f a)) ρ' = (.ub u, ρ')) ∧
      ∃ u, (objLibrary α V c (.make b (.bin .add b a)) ρ').1 = .ub u := by
  have hdd : c.isDynamic = true := by simp [Cfg.isDynamic, hd]
  obtain ⟨hf, x, e⟩ := h.obj hv ha
  have ea : ρ.moveTo c b a a = (obj c n x).hollow c := by simp [Store.moveTo, Store.set, e]
  have eb : ρ.moveTo c b a b = obj c n x := by simp [Store.moveTo, Store.set, e, hab.symm]
  have hs : ((obj c n x).hollow c).size c = n := by simp [DD.hollow, DD.size, hdd, obj]
  have hf0 : ((obj c n x).hollow c).f = .ub .outOfBounds := by simp [DD.hollow, hdd, DD.f, rd]
  refine ⟨_, rfl, ?_, ⟨.outOfBounds, ?_⟩, .outOfBounds, ?_⟩
  · simp only [objLibrary, Query.run, ea, hs, Reply.catch]
  · simp only [objLibrary, Query.run, ea, hf0, Reply.catch]
    rfl
  · have hr : Bin.run c .add (obj c n x) ((obj c n x).hollow c) = .ub .outOfBounds := by
      obtain ⟨r, hr⟩ := empty_ok (α := α) hf
      simp only [Bin.run, DD.add, hs, size_obj hf, hr, f_obj, hf0, Res.ok_bind]
      simp [checkEqualSize, hdd, assertB]
    simp only [objLibrary, Maker.run, ea, eb, hr, Store.put]
    rfl

/-- **C76, setters with invalid indices.**  In builds with assertions `set_h` with any invalid index and
`set_g(i, …)` with `i ≥ n` end in a failed assertion, and `set_g(i, …)` with `i < -1`, which the assertion
lets pass, is undefined behaviour; none of them counts as success.  `set_g(-1, s)` passes as well and writes
the value. -/
theorem C76_bad_setters (hv : c.Valid) (hd : c.dbg = true) (h : ObjSizes c sz ρ) {v : V} {n : Nat}
    (hn : sz v = some n) (s : α) :
    (∀ i : Int, n ≤ i → objLibrary α V c (.change v (.setG i s)) ρ = (.abort, ρ)) ∧
    (∀ i : Int, i < -1 → ∃ u, objLibrary α V c (.change v (.setG i s)) ρ = (.ub u, ρ)) ∧
    (∀ i j : Int, ¬ (0 ≤ i ∧ i < n ∧ 0 ≤ j ∧ j < n) →
      objLibrary α V c (.change v (.setH i j s)) ρ = (.abort, ρ)) ∧
    ∃ ρ', objLibrary α V c (.change v (.setG (-1) s)) ρ = (.ok .done, ρ') ∧ (ρ' v).f = .ok s := by
  have hs : (ρ v).size c = n := by
    obtain ⟨hf, x, e⟩ := h.obj hv hn
    rw [e]; exact size_obj hf _
  have same : ρ.set v (ρ v) = ρ := by
    funext w
    unfold Store.set
    split_ifs with hw
    · rw [hw]
    · rfl
  refine ⟨fun i hi => ?_, fun i hi => ⟨.outOfBounds, ?_⟩, fun i j hij => ?_, ?_⟩
  · have e : (ρ v).setG c i s = .abort := by
      simp [DD.setG, assertB, hd, hs, not_lt.2 hi]
    simp only [objLibrary, Change.run, e, DD.setter, same]
    rfl
  · have e : (ρ v).setG c i s = .ub .outOfBounds := by
      have h1 : i < n := by omega
      have h2 : 1 + i < 0 := by omega
      simp [DD.setG, assertB, hs, wr, h1, h2]
    simp only [objLibrary, Change.run, e, DD.setter, same]
    rfl
  · have e : (ρ v).setH c i j s = .abort := by
      by_cases h1 : 0 ≤ i ∧ i < n
      · have h2 : ¬ (0 ≤ j ∧ j < n) := fun h2 => hij ⟨h1.1, h1.2, h2⟩
        have h3 : (decide (0 ≤ j) && decide (j < (n : Int))) = false := by simpa using h2
        simp [DD.setH, assertB, hd, hs, h1.1, h1.2, h3]
      · have h3 : (decide (0 ≤ i) && decide (i < (n : Int))) = false := by simpa using h1
        simp [DD.setH, assertB, hd, hs, h3]
    simp only [objLibrary, Change.run, e, DD.setter, same]
    rfl
  · obtain ⟨y, h1, h2⟩ : ∃ y, (ρ v).setG c (-1) s = .ok y ∧ y.f = .ok s := by
      obtain ⟨hf, x, e⟩ := h.obj hv hn
      have h1 : (-1 : Int) < n := by omega
      have h2 := setF_obj (c := c) (n := n) x s
      refine ⟨_, ?_, f_obj (c := c) (n := n) (fun m => if m = 0 then s else x m)⟩
      rw [← e] at h2
      simp only [DD.setF] at h2
      simp only [DD.setG, assertB, hs, h1, decide_true, Bool.not_true, Bool.and_false]
      exact h2
    refine ⟨_, by simp only [objLibrary, Change.run, h1, DD.setter]; rfl, ?_⟩
    simpa [Store.set] using h2

end clients

/-! ### Example -/

section examples

/-- `try { r = a + b; } catch (...) { r = a.pad_right(b.size()); a = std::move(r); r = a + b; }`
(names: `a` 0, `b` 1, `r` 2; here `b` has two variables). -/
def exPadded (α : Type) : Caller (ObjCall α (Fin 3)) (Reply α) Nat where
  next
    | 0 => none
    | 1 => some (.make 2 (.bin .add 0 1))
    | 2 => some (.move 0 2)
    | 3 => some (.make 2 (.padRight 0 2))
    | _ => some (.make 2 (.bin .add 0 1))
  after
    | 4, .threw _ => 3
    | 4, _ => 0
    | 3, _ => 2
    | 2, _ => 1
    | _, _ => 0

/-- What holds at each point. -/
def exPaddedInv (q : Nat) (sz : Fin 3 → Option Nat) : Prop :=
  match q with
  | 0 => sz 2 = some 2
  | 1 => sz 0 = some 2 ∧ sz 1 = some 2
  | 2 => sz 1 = some 2 ∧ sz 2 = some 2
  | 3 => sz 0 = some 1 ∧ sz 1 = some 2
  | 4 => sz 0 = some 1 ∧ sz 1 = some 2
  | _ => False

theorem exPadded_careful (α : Type) : (exPadded α).Careful exDyn2 exPaddedInv := by
  intro q sz k hq hk
  match q, hq with
  | 0, _ => cases hk
  | 1, hq =>
    cases hk
    obtain ⟨h0, h1⟩ := hq
    simp only [ObjCall.fate, Maker.fate, h0, h1, Fate.live, if_true, Fate.map]
    intro r _
    simp [exPadded, exPaddedInv, setSize]
  | 2, hq =>
    cases hk
    obtain ⟨h1, h2⟩ := hq
    simp only [ObjCall.fate, h2, Fate.live]
    intro r _
    simp [exPadded, exPaddedInv, setSize, h1]
  | 3, hq =>
    cases hk
    obtain ⟨h0, h1⟩ := hq
    simp only [ObjCall.fate, Maker.fate, h0, Fate.live]
    rw [if_pos ⟨rfl, by decide⟩]
    intro r _
    simp [exPadded, exPaddedInv, setSize, h1]
  | 4, hq =>
    cases hk
    obtain ⟨h0, h1⟩ := hq
    simp only [ObjCall.fate, Maker.fate, h0, h1, Fate.live]
    exact ⟨h0, h1⟩
  | _ + 5, hq => exact hq.elim

/-- It ends, with a sum of two variables, from any jets of one and two variables in any arithmetic, and
it could copy instead of move. -/
example [CMath α] (ρ : Store α (Fin 3)) (h0 : WF exDyn2 1 (ρ 0)) (h1 : WF exDyn2 2 (ρ 1)) :
    ∃ ρ₁ ρ₂, (exPadded α).run (objLibrary α (Fin 3) exDyn2) 5 4 ρ = some (.ok 0, ρ₁) ∧
      (exPadded α).run (fun k => objLibrary α (Fin 3) exDyn2 k.copying) 5 4 ρ = some (.ok 0, ρ₂) ∧
      WF exDyn2 2 (ρ₁ 2) ∧ ρ₁ 2 = ρ₂ 2 := by
  have hT : ObjSizes exDyn2 ![some 1, some 2, none] ρ := by
    intro v n hn
    fin_cases v
    · cases hn; exact h0
    · cases hn; exact h1
    · cases hn
  obtain ⟨q', sz', ρ', e1, e2, e3, -⟩ := C76_ends exDyn2_valid rfl (exPadded α) (exPadded_careful α) id
    (by
      intro q k r hk
      match q, r with
      | 0, _ => cases hk
      | 1, _ => exact Nat.lt_succ_self 0
      | 2, _ => exact Nat.lt_succ_self 1
      | 3, _ => exact Nat.lt_succ_self 2
      | 4, r => cases r <;> simp [exPadded]
      | _ + 5, _ => exact Nat.succ_pos _) 4 (sz := ![some 1, some 2, none]) ⟨rfl, rfl⟩ hT 5 (by decide)
  obtain ⟨h, -⟩ | ⟨q, sz, ρ₁, ρ₂, h1, h2, h3, h4⟩ := C76_moves exDyn2_valid rfl (exPadded α)
    (exPadded_careful α) 4 (sz := ![some 1, some 2, none]) ⟨rfl, rfl⟩ hT 5
  · rw [h] at e1; cases e1
  · rw [h1] at e1
    obtain ⟨hq, -⟩ : q = q' ∧ ρ₁ = ρ' := by simpa using e1
    have h0' : q = 0 := by
      subst hq
      match q, e2, h3 with
      | 0, _, _ => rfl
      | _ + 5, _, h3 => exact h3.elim
    subst h0'
    exact ⟨ρ₁, ρ₂, h1, h2, h4 2 2 h3⟩

/-- A jet that was moved from. -/
example [CMath α] (ρ : Store α (Fin 2)) (h0 : WF exDyn1 3 (ρ 0)) :
    ∃ ρ', objLibrary α (Fin 2) exDyn1 (.move 1 0) ρ = (.ok .done, ρ') ∧
      objLibrary α (Fin 2) exDyn1 (.ask (.size 0)) ρ' = (.ok (.int 3), ρ') ∧
      ∃ u, (objLibrary α (Fin 2) exDyn1 (.make 1 (.bin .add 1 0)) ρ').1 = .ub u := by
  obtain ⟨ρ', h1, h2, -, h3⟩ := C76_violated_moved exDyn1_valid rfl (sz := ![some 3, none]) (ρ := ρ)
    (by
      intro v n hn
      fin_cases v
      · cases hn; exact h0
      · cases hn) (a := 0) (b := 1) (by decide) rfl
  exact ⟨ρ', h1, h2, h3⟩

/-- `v.set_h(0, 3, s)` for a jet of three variables, with assertions. -/
example [CMath α] (ρ : Store α Unit) (h0 : WF exDyn2 3 (ρ ())) (s : α) :
    objLibrary α Unit exDyn2 (.change () (.setH 0 3 s)) ρ = (.abort, ρ) :=
  (C76_bad_setters exDyn2_valid rfl (sz := fun _ => some 3) (v := ()) (fun _ _ hn => by cases hn; exact h0) rfl
    s).2.2.1 0 3 (by decide)

end examples

end HJ
