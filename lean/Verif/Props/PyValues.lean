import Verif.Proofs.PyValues
import Verif.Props.Names

/-!
# C59: what every Python call computes
-/

namespace HJ

open DD

variable {c : Cfg} {sz : Nat → Nat} {st : ApiSt XReal}

/-! ### Outcomes at the level of states -/

theorem make_heap {x : DD XReal} :
    (st.make (.ok x)).1 = .ok (.objs [st.next]) ∧ (st.make (.ok x)).2.heap st.next = x := by
  constructor
  · rfl
  · simp [ApiSt.make, ApiSt.makeAll, ApiSt.alloc]

theorem made {r : Res (DD XReal)} {x : DD XReal} {n : Nat} {J : Jet XReal} (hr : r = .ok x)
    (h : Shows c n x J) : Made c st (st.make r) n J := by
  subst hr
  exact ⟨make_heap.1, by rw [make_heap.2]; exact h⟩

theorem madeAt {r : Res (DD XReal)} {n : Nat} {F : (Fin n → ℝ) → ℝ} {x : Fin n → ℝ}
    (hr : ∃ y, r = .ok y ∧ JetAt c n y F x) : MadeAt c st (st.make r) n F x := by
  obtain ⟨y, rfl, h⟩ := hr
  exact ⟨make_heap.1, by rw [make_heap.2]; exact h⟩

theorem became {a n : Nat} {r : Res (DD XReal)} {x : DD XReal} {J : Jet XReal} (hr : r = .ok x)
    (h : Shows c n x J) : Became c (st.put a r) a n J := by
  subst hr
  exact ⟨rfl, by simpa [ApiSt.put, ApiSt.set] using h⟩

theorem becameAt {a n : Nat} {r : Res Unit × DD XReal} {F : (Fin n → ℝ) → ℝ} {x : Fin n → ℝ}
    (hr : ∃ y, r = (.ok (), y) ∧ JetAt c n y F x) : BecameAt c (st.inplace a r) a n F x := by
  obtain ⟨y, rfl, h⟩ := hr
  exact ⟨rfl, by simpa [ApiSt.inplace, ApiSt.set] using h⟩

/-! ### Factories -/

theorem shows_plain (hv : c.Valid) {n : Nat} (hf : Fits c n) (f : XReal) :
    Shows c n (obj c n (constC f)) (plainJet f) := by
  apply shows_of_obj hv.order hf
  · simp [constC, plainJet]
  · intro i _; simp [constC, plainJet]
  · intro _ i j _ _
    have := pos_gt n i j
    simp [constC, plainJet, show pos n i j ≠ 0 by omega]
  · intros; rfl

theorem sized_fine {size : Int} {k : Nat → Verdict} (hv : c.Valid)
    (h : (sizedFactory c size k).Fine) :
    ∃ n : Nat, size = n ∧ Fits c n ∧ (k n).Fine := by
  unfold sizedFactory at h
  by_cases hd : c.tsize = -1
  · rw [if_pos hd] at h
    by_cases hs : 0 ≤ size
    · rw [if_pos hs] at h
      exact ⟨size.toNat, by omega, Or.inl hd, h⟩
    · rw [if_neg hs] at h
      split_ifs at h <;> exact h.elim
  · rw [if_neg hd] at h
    by_cases hs : size = c.tsize
    · rw [if_pos hs] at h
      obtain ⟨hf, hN⟩ := static_size hv hd
      rw [hs] at h ⊢
      exact ⟨c.tsize.toNat, hN, hf, h⟩
    · rw [if_neg hs] at h
      exact h.elim

theorem zero0_plain (hv : c.Valid) :
    Fits c (freeSize c) ∧ (DD.zero0 c : DD XReal) = obj c (freeSize c) (constC (.num 0)) := by
  unfold freeSize
  by_cases hd : c.tsize = -1
  · rw [if_pos hd]
    refine ⟨Or.inl hd, ?_⟩
    have hdd := (isDynamic_iff c).2 hd
    have hl : dlen c 0 = 1 := by
      rcases hv.order with h | h
      · rw [dlen_one h]
      · rw [dlen_two h]; rfl
    unfold DD.zero0 obj
    simp only [hdd, if_true, hl]
    simp [mk, fl, constC]
  · rw [if_neg hd]
    obtain ⟨hf, hN⟩ := static_size hv hd
    refine ⟨hf, ?_⟩
    rw [zero0_obj hf (by simp [Cfg.isDynamic, hd])]
    apply obj_ext
    intro k _
    simp [constC]

theorem made_seeded (hv : c.Valid) (hb : c.dbg = false) {n : Nat} (hf : Fits c n) {i : Int}
    {f : XReal} {r : Res (DD XReal)} (hr : r = (obj c n (constC f)).setG c i (Arith.lit 1))
    (h : (seeded c i n).Fine) :
    Made c st (st.make r) n ((plainJet f).put n (1 + i).toNat (.num 1)) := by
  unfold seeded at h
  rw [storedLen_eq hv.order] at h
  split_ifs at h with hi
  · refine made (hr.trans (obj_setG hb _ _ hi)) ?_
    have := put_obj hv.order (shows_plain hv hf f) (1 + i).toNat (.num 1)
    simpa using this
  · exact h.elim

theorem made_fromData (hv : c.Valid) (he : c.exc = true) (xs : List XReal) {r : Res (DD XReal)}
    (hdyn : c.tsize = -1 → r = (do
      let s ← sizeFromDataLength c xs.length
      .ok ⟨s, xs.map some⟩))
    (hsta : c.tsize ≠ -1 → r = if xs.length = storedLen c.order c.tsize.toNat then
      .ok ⟨0, xs.map some⟩ else .throw .typeError)
    (h : (fromData c xs.length).Fine) : FromData c st (st.make r) xs := by
  have key : ∃ n, storedLen c.order n = xs.length ∧ Fits c n ∧
      r = .ok ⟨if c.tsize = -1 then (n : Int) else 0, xs.map some⟩ := by
    unfold fromData at h
    by_cases hd : c.tsize = -1
    · rw [if_pos hd] at h
      by_cases h0 : xs.length = 0
      · rw [if_pos h0] at h; exact h.elim
      · rw [if_neg h0] at h
        cases hl : decodeLen c.order xs.length with
        | none => rw [hl] at h; exact h.elim
        | some n =>
          have hn := decodeLen_some hl
          refine ⟨n, hn.symm, Or.inl hd, ?_⟩
          rw [hdyn hd, ((C05_length_decoding hv he xs.length).1 n).2 hn, if_pos hd]
          rfl
    · rw [if_neg hd] at h
      split_ifs at h with hl
      · refine ⟨c.tsize.toNat, hl.symm, (static_size hv hd).1, ?_⟩
        rw [hsta hd, if_pos hl, if_neg hd]
      · exact h.elim
  obtain ⟨n, hn, hf, hr⟩ := key
  obtain ⟨J, hJ⟩ := (wf_list (c := c) hf hn.symm).shows hv.order
  refine ⟨n, J, hn, made hr hJ, ?_⟩
  intro k v hk
  exact cell_data hv.order hJ (by simp [hk])

theorem rd_cmp {x : DD XReal} {n : Nat} {J : Jet XReal} {u : ℝ} (h : Shows c n x J)
    (hu : J.f = .num u) : x.f = .ok (.num u) := by rw [h.f, hu]

theorem cmp_rel (o : DD.CmpOp) (u v : ℝ) : o.scalar (XReal.num u) (XReal.num v) = true ↔ o.rel u v := by
  have e1 : (XReal.num u).eq (.num v) ↔ u = v := Iff.rfl
  have e2 : (XReal.num u).lt (.num v) ↔ u < v := Iff.rfl
  have e3 : (XReal.num v).lt (.num u) ↔ v < u := Iff.rfl
  cases o <;>
    simp [DD.CmpOp.scalar, DD.CmpOp.rel, Cmp.eqB, Cmp.neB, Cmp.ltB, Cmp.gtB, Cmp.leB, Cmp.geB,
      e1, e2, e3, le_iff_lt_or_eq, eq_comm (a := v)]

/-- **C59.** Every call that the table lets return computes what it should, for all objects of all
sizes: factories make the jets with the given numbers; operators and functions applied to jets of
functions at a point, inside their domains, make or leave the jet of the composed function; setters
replace exactly the addressed component; accessors report components and change nothing; arrays have
as many elements as there are stored numbers (`data`) or variables (`g`). -/
theorem C59_values (hv : c.Valid) (he : c.exc = true) (hb : c.dbg = false)
    (fmt : XReal → String) (h : st.Sized c sz) (k : ApiCall XReal) (hk : k.Held st)
    (hf : (k.verdict c sz st).Fine) : k.Means c fmt sz st (k.run c fmt st) := by
  have hsize : ∀ a < st.next, (st.heap a).size c = sz a := by
    intro a ha
    obtain ⟨hf, b, e⟩ := (h.objs a ha).eq_obj hv.order
    rw [e]; exact size_obj hf b
  cases k with
  | const2 f size =>
    simp only [ApiCall.verdict] at hf
    obtain ⟨n, rfl, hn, _⟩ := sized_fine hv hf
    exact made (constant_obj hn f) (shows_plain hv hn f)
  | zeroN size =>
    simp only [ApiCall.verdict] at hf
    obtain ⟨n, rfl, hn, _⟩ := sized_fine hv hf
    refine made (zero_obj hn) ?_
    have := shows_plain hv hn (.num 0)
    rwa [show constC (XReal.num 0) = fun _ => Arith.lit 0 from by
      funext k; simp [constC]] at this
  | emptyN size =>
    simp only [ApiCall.verdict] at hf
    obtain ⟨n, rfl, hn, h1⟩ := sized_fine hv hf
    split_ifs at h1 with hd
    · refine made (x := obj c n fun _ => Arith.lit 0) ?_ ?_
      · rw [empty_dyn hd]; exact zero_obj hn
      · have := shows_plain hv hn (.num 0)
        rwa [show constC (XReal.num 0) = fun _ => Arith.lit 0 from by
          funext k; simp [constC]] at this
    · exact h1.elim
  | vari i f size =>
    simp only [ApiCall.verdict] at hf
    obtain ⟨n, rfl, hn, h1⟩ := sized_fine hv hf
    exact made_seeded hv hb hn (var_any hn i f) h1
  | const1 f =>
    obtain ⟨hn, e⟩ := zero0_plain hv
    refine made (x := obj c (freeSize c) (constC f)) ?_ (shows_plain hv hn f)
    unfold DD.constant0
    rw [e, setF_obj]
    congr 1
    apply obj_ext
    intro k _
    simp only [constC]
    split_ifs <;> simp
  | zero0 =>
    obtain ⟨hn, e⟩ := zero0_plain hv
    exact made (congrArg Res.ok e) (shows_plain hv hn _)
  | empty0 =>
    simp only [ApiCall.verdict] at hf
    split_ifs at hf with hd
    · obtain ⟨hn, e⟩ := zero0_plain hv
      have hz : freeSize c = 0 := if_pos hd
      rw [hz] at hn e
      refine made (x := obj c 0 (constC (.num 0))) ?_ (shows_plain hv hn _)
      rw [← e]
      simp [DD.empty0, DD.zero0, (isDynamic_iff c).2 hd]
    · exact hf.elim
  | vari2 i f =>
    simp only [ApiCall.verdict] at hf
    split_ifs at hf with hd
    · exact hf.elim
    · obtain ⟨hn, e⟩ := zero0_plain hv
      have hz : freeSize c = c.tsize.toNat := if_neg hd
      have hdd : c.isDynamic = false := by simp [Cfg.isDynamic, hd]
      refine made_seeded hv hb hn (f := f) ?_ (hz ▸ hf)
      simp only [hdd, Bool.false_eq_true, if_false]
      unfold DD.variable0
      rw [e, setF_obj, Res.ok_bind]
      congr 1
      apply obj_ext
      intro k _
      simp only [constC]
      split_ifs <;> simp
  | create xs =>
    refine made_fromData hv he xs ?_ ?_ hf
    · intro hd
      have hdd := (isDynamic_iff c).2 hd
      simp [castLen, DD.create, hdd]
    · intro hd
      have hdd : c.isDynamic = false := by simp [Cfg.isDynamic, hd]
      simp only [castLen, hdd, Bool.false_eq_true, if_false, staticDataSize_nat hv hd, Nat.cast_inj]
      obtain ⟨hf, hN⟩ := static_size hv hd
      split_ifs with hl
      · obtain ⟨d1, _, _⟩ := C05_length_decoding hv he (xs.map some).length
        simp only [Res.ok_bind, DD.create, hdd, Bool.false_eq_true, if_false]
        rw [(d1 c.tsize.toNat).2 (by simpa using hl)]
        simp only [Res.ok_bind, checkValidSize_fits hf]
      · rfl
  | setState t =>
    match t with
    | [.seq xs] =>
      refine made_fromData hv he xs ?_ ?_ hf
      · intro hd
        have hdd := (isDynamic_iff c).2 hd
        simp [pickleSet, hdd]
      · intro hd
        have hdd : c.isDynamic = false := by simp [Cfg.isDynamic, hd]
        simp only [pickleSet, hdd, Bool.false_eq_true, if_false, staticDataSize_nat hv hd,
          Nat.cast_inj]
    | [.other] => exact hf.elim
    | [] => exact hf.elim
    | .seq _ :: _ :: _ => exact hf.elim
    | .other :: _ :: _ => exact hf.elim
  | «variables» vs =>
    simp only [ApiCall.verdict] at hf
    split_ifs at hf with hl
    · have hn := fits_of_lenOk hl
      simp only [ApiCall.run, castLen_size, hl, if_true, Res.ok_bind, variables_obj hn]
      refine ⟨by simp [ApiSt.makeAll], ?_⟩
      intro i v hi
      have hi' : i < vs.length := (List.getElem?_eq_some_iff.1 hi).1
      have e : (vs.zipIdx.map fun p => obj c vs.length (varC p.2 p.1))[i]? =
          some (obj c vs.length (varC i v)) := by
        simp [hi]
      simp only [ApiSt.makeAll, ApiSt.alloc, Nat.le_add_right, if_true, Nat.add_sub_cancel_left, e,
        Option.getD_some]
      apply shows_of_obj hv.order hn
      · simp [varC]
      · intro p _
        simp only [varC, show ¬ 1 + p = 0 by omega, if_false]
        by_cases e : p = i
        · simp [e]
        · simp [e]
      · intro _ p q _ _
        have := pos_gt vs.length p q
        simp [varC, show ¬ pos vs.length p q = 0 by omega, show ¬ pos vs.length p q = 1 + i by omega]
      · intros; rfl
    · exact hf.elim
  | fromGradient f g =>
    simp only [ApiCall.verdict] at hf
    split_ifs at hf with hl
    · have hn := fits_of_lenOk hl.2
      refine ⟨⟨f, fun p => g.getD p f, fun _ _ => .num 0⟩,
        made (x := obj c g.length fun k => if k = 0 then f else g.getD (k - 1) f) ?_ ?_, rfl, ?_⟩
      · simp only [hl.1, if_true, castLen_size, hl.2, Res.ok_bind]
        exact fromGradient_obj hl.1 hn f f
      · refine shows_of_obj hv.order hn rfl ?_ ?_ (fun _ _ _ _ _ => rfl)
        · intro i _; simp
        · intro h2; omega
      · intro p v hp
        simp [List.getD, hp]
    · exact hf.elim
  | fromArrays f g M =>
    simp only [ApiCall.verdict] at hf
    by_cases hok : c.order = 2 ∧ lenOk c g.length ∧ shapeOk c M
    · obtain ⟨h2, hl, hM⟩ := hok
      simp only [h2, hl, hM, and_self, not_true_eq_false, if_false] at hf
      have hn := fits_of_lenOk hl
      have hs : (g.length ≤ M.rows ∧ g.length ≤ M.cols) ∨ g.length = 0 := by
        split_ifs at hf with h3 h4
        · exact Or.inl h3
        · exact Or.inr h4
        · exact hf.elim
      obtain ⟨x, hx, hS⟩ := fromArrays_shows h2 hb hn f (M := M) hs
      refine ⟨_, made (x := x) ?_ hS, rfl, ?_, ?_⟩
      · simp only [h2, if_true, castLen_size, castMat_shape, hl, hM, Res.ok_bind, hx]
      · intro p v hp
        simp [List.getD, hp]
      · intro p q hpq _
        rcases Nat.eq_or_lt_of_le hpq with rfl | hlt
        · simp [mirror]
        · simp [mirror, hpq, show ¬ q ≤ p by omega]
    · simp only [hok, not_false_eq_true, if_true] at hf
      exact hf.elim
  | neg a =>
    intro F x hF
    obtain ⟨r, h1, h2⟩ := node hv (h.objs a hk).fits (U := Unit) (.neg (.var ())) (fun _ => F) x
      (fun _ => st.heap a) (fun _ => hF) trivial trivial
    exact madeAt ⟨r, h1, h2⟩
  | abs a =>
    intro F x hF h0
    obtain ⟨r, h1, h2⟩ := node hv (h.objs a hk).fits (U := Unit) (.abs (.var ())) (fun _ => F) x
      (fun _ => st.heap a) (fun _ => hF) trivial ⟨trivial, h0⟩
    exact madeAt ⟨r, h1, h2⟩
  | fn φ a =>
    intro F x ψ hF hφ hD
    subst hφ
    obtain ⟨r, h1, h2⟩ := node hv (h.objs a hk).fits (U := Unit) (.fn ψ (.var ())) (fun _ => F) x
      (fun _ => st.heap a) (fun _ => hF) ⟨trivial, hD⟩ trivial
    exact madeAt ⟨r, h1, h2⟩
  | copy a => intro J hJ; exact made rfl hJ
  | sbin o a s =>
    intro F x t hF hs hD
    subst hs
    obtain ⟨r, h1, h2⟩ := node hv (h.objs a hk).fits (U := Unit) (.sbin o (.var ()) t) (fun _ => F) x
      (fun _ => st.heap a) (fun _ => hF) ⟨trivial, hD⟩ trivial
    exact madeAt ⟨r, h1, h2⟩
  | bin o a b =>
    intro F G x hF hG hD hR
    obtain ⟨r, h1, h2⟩ := node hv (h.objs a hk.1).fits (U := Bool) (.bin o (.var true) (.var false))
      (fun b => if b then F else G) x (fun t => if t then st.heap a else st.heap b)
      (fun b => by cases b; exacts [hG, hF]) ⟨trivial, trivial, hD⟩ ⟨trivial, trivial, hR⟩
    exact madeAt ⟨r, h1, h2⟩
  | hypot3 a b e =>
    intro F G H x hF hG hH hD
    obtain ⟨r, h1, h2⟩ := node hv (h.objs a hk.1).fits (U := Fin 3)
      (.hypot3 (.var 0) (.var 1) (.var 2)) ![F, G, H] x ![st.heap a, st.heap b, st.heap e]
      (fun i => by fin_cases i; exacts [hF, hG, hH])
      ⟨trivial, trivial, trivial, fun q => by rcases hD with q' | q' | q'; exacts [q' q.1, q' q.2.1, q' q.2.2]⟩
      ⟨trivial, trivial, trivial⟩
    exact madeAt ⟨r, h1, h2⟩
  | padRight a m =>
    intro J hJ
    simp only [ApiCall.verdict, padded] at hf
    split_ifs at hf with hd hm
    · exact hf.elim
    · rw [not_not] at hd
      obtain ⟨m, rfl⟩ := Int.eq_ofNat_of_zero_le (show 0 ≤ m by omega)
      obtain ⟨y, hy, hS⟩ := (C12_pad_right hv hd hJ m).1 (by exact_mod_cast hm)
      have e : J.padR (sz a) = ⟨J.f, fun p => if p < sz a then J.g p else .num 0,
          fun p q => if p < sz a ∧ q < sz a then J.h p q else .num 0⟩ := by
        simp [Jet.padR]
      rw [e] at hS
      refine made (x := y) ?_ hS
      rw [onlyDynamic_ok hd]
      exact hy
    all_goals exact hf.elim
  | padLeft a m =>
    intro J hJ
    simp only [ApiCall.verdict, padded] at hf
    split_ifs at hf with hd hm
    · exact hf.elim
    · rw [not_not] at hd
      obtain ⟨m, rfl⟩ := Int.eq_ofNat_of_zero_le (show 0 ≤ m by omega)
      obtain ⟨y, hy, hS⟩ := (C13_pad_left hv hd hJ m).1 (by exact_mod_cast hm)
      have e : J.padL (m - sz a) = ⟨J.f,
          fun p => if m - sz a ≤ p then J.g (p - (m - sz a)) else .num 0,
          fun p q => if m - sz a ≤ p ∧ m - sz a ≤ q then
            J.h (p - (m - sz a)) (q - (m - sz a)) else .num 0⟩ := by
        simp [Jet.padL]
      rw [e] at hS
      refine made (x := y) ?_ hS
      rw [onlyDynamic_ok hd]
      exact hy
    all_goals exact hf.elim
  | asg o a b =>
    intro F G x hF hG h0 hself
    simp only [ApiCall.verdict] at hf
    split_ifs at hf with hs hz
    · exact hf.elim
    · exact hf.elim
    · refine becameAt (asg_exact hv o (fun ho h2 => ?_) hF hG h0 _ ?_)
      · by_contra h3
        exact hz ⟨ho, h2, by omega⟩
      · by_cases e : b = a
        · exact Or.inr ⟨if_pos e, by rw [e], fun q => hself ⟨q.1, q.2, e.symm⟩⟩
        · exact Or.inl (if_neg e)
  | mulS a s =>
    intro F x t hF hs
    subst hs
    obtain ⟨r, k1, k2⟩ := (C22_scalar_assign hv (h.objs a hk) (.num t)).2.2.1
    obtain ⟨r', h1, h2⟩ := node hv (h.objs a hk).fits (U := Unit) (.sbin .mulS (.var ()) t)
      (fun _ => F) x (fun _ => st.heap a) (fun _ => hF) ⟨trivial, trivial⟩ trivial
    cases k1.symm.trans h1
    exact becameAt ⟨r, k2, h2⟩
  | divS a s =>
    intro F x t hF hs h0
    subst hs
    obtain ⟨r, k1, k2⟩ := (C22_scalar_assign hv (h.objs a hk) (.num t)).2.2.2
    obtain ⟨r', h1, h2⟩ := node hv (h.objs a hk).fits (U := Unit) (.sbin .divS (.var ()) t)
      (fun _ => F) x (fun _ => st.heap a) (fun _ => hF) ⟨trivial, h0⟩ trivial
    cases k1.symm.trans h1
    exact becameAt ⟨r, k2, h2⟩
  | setF a s =>
    intro J hJ
    obtain ⟨y, hy, hS⟩ := (C03_framed_writes hv hJ s).1
    exact became hy hS
  | setH a i j s =>
    intro J hJ
    simp only [ApiCall.verdict] at hf
    split_ifs at hf with hi
    · obtain ⟨d, hd, hS⟩ := put_wr hv.order hJ (k := (hCell (sz a) i j).toNat) (by omega) s
      refine became (x := { st.heap a with mData := d }) ?_ hS
      unfold DD.setH assertB
      simp only [hb, Bool.false_and, Bool.false_eq_true, if_false, Res.ok_bind, hsize a hk,
        hIndex_hCell]
      rw [show hCell (sz a) i j = ((hCell (sz a) i j).toNat : Int) by omega, hd]
      rfl
    · exact hf.elim
  | setHm a M =>
    intro J hJ
    simp only [ApiCall.verdict] at hf
    split_ifs at hf with hM h0 hs
    · refine ⟨J, became (x := st.heap a) ?_ hJ, rfl, fun _ _ => rfl, fun p q _ hq => by omega⟩
      simp only [castMat_shape, hM, if_true, Res.ok_bind]
      exact setHm_order1_zero (h0 ▸ h.objs a hk) hv.order M
    · obtain ⟨y, h1, h3⟩ := C11_set_hm hs.1 hJ (M := M.toMat) (H := fun i j => M.val i j)
        (fun i j hij hj => M.rd_in (by omega) (by omega))
      refine ⟨_, became (x := y) ?_ h3, rfl, fun _ _ => rfl, ?_⟩
      · simp only [castMat_shape, hM, if_true, Res.ok_bind]
        exact h1
      · intro p q hpq _
        rcases Nat.eq_or_lt_of_le hpq with rfl | hlt
        · simp [mirror]
        · simp [mirror, hpq, show ¬ q ≤ p by omega]
    all_goals exact hf.elim
  | resize a m =>
    intro J hJ
    simp only [ApiCall.verdict] at hf
    split_ifs at hf with hd hm
    · exact hf.elim
    · rw [not_not] at hd
      obtain ⟨m, rfl⟩ := Int.eq_ofNat_of_zero_le hm
      obtain ⟨hfit, b, e⟩ := (h.objs a hk).eq_obj hv.order
      have er : (st.heap a).resize c m = (.ok (), obj c m (resizeC c (sz a) b)) := by
        rw [e]; exact resize_obj hd b
      have hS := shows_obj hv.order (Or.inl hd : Fits c m) (resizeC c (sz a) b)
      rw [e] at hJ
      have hrun : (ApiCall.resize a (m : Int)).run c fmt st = (.ok .none,
          { st.set a (obj c m (resizeC c (sz a) b)) with
            gen := fun b' => if b' = a ∧ dlen c (sz a) < dlen c m then st.gen a + 1
              else st.gen b' }) := by
        simp only [ApiCall.run, (isDynamic_iff c).2 hd, if_true, er]
        rw [e]
        simp only [data_obj, mk_length]
        rfl
      rw [hrun]
      refine ⟨_, ⟨rfl, by simpa [ApiSt.set] using hS⟩, ?_, ?_⟩
      · intro k hk'
        have hc := cell_obj hv.order hS (k := k)
        simp only [Int.toNat_natCast]
        refine ⟨fun v hl hv' => ?_, fun hl => ?_⟩
        · have := cell_unique hv.order hl hv' (cell_obj hv.order hJ)
          rw [storedLen_eq hv.order] at hl
          rw [this]
          simpa [resizeC, hl] using hc
        · rw [storedLen_eq hv.order] at hl
          simpa [resizeC, show ¬ k < dlen c (sz a) by omega] using hc
      · simp only [Int.toNat_natCast, true_and]
        by_cases hlt : sz a < m
        · rw [if_pos hlt, if_pos (dlen_lt hv.order hlt)]
        · rw [if_neg hlt, if_neg]
          rcases Nat.lt_or_eq_of_le (Nat.le_of_not_lt hlt) with h' | h'
          · have := dlen_lt hv.order h'; omega
          · rw [h']; omega
    · exact hf.elim
  | getF a =>
    intro J hJ
    simp only [ApiCall.run, ApiSt.tell, hJ.f, Res.ok_bind]
  | getSize a =>
    simp only [ApiCall.Means, ApiCall.run, ApiSt.tell, hsize a hk]
  | getH a i j =>
    obtain ⟨J, hJ⟩ := (h.objs a hk).shows hv.order
    simp only [ApiCall.verdict] at hf
    split_ifs at hf with hi
    · obtain ⟨v, hr, -⟩ := cell_rd hv.order hJ (k := (hCell (sz a) i j).toNat) (by omega)
      refine ⟨v, ?_, ?_⟩
      · simp only [ApiCall.run, ApiSt.tell]
        unfold DD.h assertB
        simp only [hb, Bool.false_and, Bool.false_eq_true, if_false, Res.ok_bind, hsize a hk,
          hIndex_hCell]
        rw [show hCell (sz a) i j = ((hCell (sz a) i j).toNat : Int) by omega, hr]
        rfl
      · intro J' hJ'
        obtain ⟨v', hr', h'⟩ := cell_rd hv.order hJ' (k := (hCell (sz a) i j).toNat) (by omega)
        rw [hr] at hr'
        exact Res.ok.inj hr' ▸ h'
    · exact hf.elim
  | getHm a mode =>
    have hx := h.objs a hk
    simp only [ApiCall.verdict] at hf
    split_ifs at hf with h1 hmode
    · exact hf.elim
    · by_cases h0 : sz a = 0
      · have hz := h.objs a hk
        rw [h0] at hz
        obtain ⟨M, hM, hr, hc⟩ := hm_empty hz hv.order hmode
        refine ⟨M, by simp only [ApiCall.run, ApiSt.tell, hM, Res.ok_bind], by rw [hr, h0]; rfl,
          by rw [hc, h0]; rfl, fun _ _ p q hp => by omega⟩
      · have h2 : c.order = 2 := by have := hv.order; omega
        obtain ⟨J, hJ⟩ := hx.shows hv.order
        rcases hmode with rfl | rfl
        · obtain ⟨M, hM, hI⟩ := C11_hm_zeros h2 hJ
          refine ⟨M, by simp only [ApiCall.run, ApiSt.tell, hM, Res.ok_bind], hI.rows, hI.cols, ?_⟩
          intro J' hJ' p q hp hq
          rw [hI.entry p q hp hq, (hJ.unique hJ').2.2 h2 p q hp hq]
          simp
        · obtain ⟨M, hM, hI⟩ := C11_hm_full h2 hJ
          refine ⟨M, by simp only [ApiCall.run, ApiSt.tell, hM, Res.ok_bind], hI.rows, hI.cols, ?_⟩
          intro J' hJ' p q hp hq
          rw [hI.entry p q hp hq, (hJ.unique hJ').2.2 h2 p q hp hq]
          simp
    · exact hf.elim
  | eval a d =>
    intro J e hJ hd
    subst hd
    simp only [ApiCall.verdict] at hf
    split_ifs at hf with hl hs
    · simp only [ApiCall.run, ApiSt.tell, castLen_size, hl, if_true, Res.ok_bind]
      rw [eval_exact hv hJ (by simpa using hs)]
      rfl
    all_goals exact hf.elim
  | cmp o a b =>
    obtain ⟨J, hJ⟩ := (h.objs a hk.1).shows hv.order
    obtain ⟨K, hK⟩ := (h.objs b hk.2).shows hv.order
    refine ⟨o.scalar J.f K.f, ?_, ?_⟩
    · simp only [ApiCall.run, ApiSt.tell, (C32_comparisons hJ hK o (.num 0)).1, Res.ok_bind]
    · intro J' K' u v hJ' hK' hu hw
      rw [(hJ.unique hJ').1, (hK.unique hK').1, hu, hw]
      exact cmp_rel o u v
  | cmpS o a s =>
    obtain ⟨J, hJ⟩ := (h.objs a hk).shows hv.order
    refine ⟨o.scalar J.f s, ?_, ?_⟩
    · simp only [ApiCall.run, ApiSt.tell, (C32_comparisons hJ hJ o s).2.1, Res.ok_bind]
    · intro J' u v hJ' hu hw
      rw [(hJ.unique hJ').1, hu, hw]
      exact cmp_rel o u v
  | sCmp o s a =>
    obtain ⟨J, hJ⟩ := (h.objs a hk).shows hv.order
    refine ⟨o.scalar s J.f, ?_, ?_⟩
    · simp only [ApiCall.run, ApiSt.tell, C32_scalar_left hJ o s, Res.ok_bind]
    · intro J' u v hJ' hu hw
      rw [(hJ.unique hJ').1, hu, hw]
      exact cmp_rel o v u
  | repr a =>
    intro J hJ
    simp only [ApiCall.run, ApiSt.tell, DD.toStr, hJ.f, Res.ok_bind]
  | getState a =>
    have hx := h.objs a hk
    obtain ⟨xs, h1, h2⟩ := adata_ok hx.init
    refine ⟨xs, ?_, ?_, ?_⟩
    · simp only [ApiCall.run, ApiSt.tell, pickleGet, h1, Res.ok_bind]
    · rw [← hx.len, ← h2, List.length_map]
    · intro J hJ k v hv'
      exact cell_data hv.order hJ (by rw [← h2]; simp [hv'])
  | data a =>
    refine ⟨rfl, ?_⟩
    simp [ApiCall.run, ApiSt.look, (h.objs a hk).len]
  | grad a =>
    refine ⟨rfl, ?_⟩
    simp [ApiCall.run, ApiSt.look, hsize a hk]
  | peek w i =>
    have hw := h.arrays w hk
    obtain ⟨J, hJ⟩ := (h.objs _ hw).shows hv.order
    simp only [ApiCall.verdict] at hf
    split_ifs at hf with hi hg
    · exact hf.elim
    · obtain ⟨v, hr, -⟩ := cell_rd hv.order hJ hg.2
      refine ⟨v, ?_, ?_⟩
      · simp only [ApiCall.run, ApiSt.tell, ApiSt.access, hi, if_false, hg.1, ne_eq,
          not_true_eq_false, Res.ok_bind]
        push_cast at hr
        rw [hr]; rfl
      · intro J' hJ'
        obtain ⟨v', hr', h'⟩ := cell_rd hv.order hJ' hg.2
        rw [hr] at hr'
        exact Res.ok.inj hr' ▸ h'
    · exact hf.elim
  | poke w i s =>
    intro J hJ
    simp only [ApiCall.verdict] at hf
    split_ifs at hf with hi hg
    · exact hf.elim
    · obtain ⟨d, hd, hS⟩ := put_wr hv.order hJ hg.2 s
      refine became (x := { st.heap (st.views w).obj with mData := d }) ?_ hS
      simp only [ApiSt.access, hi, if_false, hg.1, ne_eq, not_true_eq_false, Res.ok_bind]
      push_cast at hd
      rw [hd]; rfl
    · exact hf.elim

/-! ### Arrays -/

section arrays

variable {α : Type} [CMath α] {st : ApiSt α}

/-- **C59, arrays.** No call changes an existing array: which object it looks into, where, and how
many elements it has.  Only `a.data` and `a.g` make one, and only `resize` can move the storage of
an object, of the one it is called on. -/
theorem C59_arrays (c : Cfg) (fmt : α → String) (st : ApiSt α) (k : ApiCall α) :
    (∀ w < st.nviews, (k.run c fmt st).2.views w = st.views w) ∧
    (k.run c fmt st).2.nviews = st.nviews + (match k with | .data _ | .grad _ => 1 | _ => 0) ∧
    ∀ b, st.gen b ≤ (k.run c fmt st).2.gen b ∧
      ((k.run c fmt st).2.gen b ≠ st.gen b → ∃ m, k = .resize b m) := by
  have hmake : ∀ r : Res (DD α), (st.make r).2.views = st.views ∧
      (st.make r).2.nviews = st.nviews ∧ (st.make r).2.gen = st.gen := by
    intro r; cases r <;> exact ⟨rfl, rfl, rfl⟩
  have hput : ∀ (a : Nat) (r : Res (DD α)), (st.put a r).2.views = st.views ∧
      (st.put a r).2.nviews = st.nviews ∧ (st.put a r).2.gen = st.gen := by
    intro a r; cases r <;> exact ⟨rfl, rfl, rfl⟩
  have key : ∀ s : ApiSt α, s.views = st.views ∧ s.nviews = st.nviews ∧ s.gen = st.gen →
      (∀ w < st.nviews, s.views w = st.views w) ∧ s.nviews = st.nviews + 0 ∧
      ∀ b, st.gen b ≤ s.gen b ∧ (s.gen b ≠ st.gen b → ∃ m, k = .resize b m) := by
    rintro s ⟨h1, h2, h3⟩
    exact ⟨fun w _ => by rw [h1], h2, fun b => by rw [h3]; exact ⟨le_refl _, fun h => absurd rfl h⟩⟩
  cases k with
  | «variables» vs =>
    apply key
    simp only [ApiCall.run]
    generalize (do castLen c c.tsize vs; DD.variables c vs) = r
    cases r <;> exact ⟨rfl, rfl, rfl⟩
  | asg => exact key _ ⟨rfl, rfl, rfl⟩
  | mulS => exact key _ ⟨rfl, rfl, rfl⟩
  | divS => exact key _ ⟨rfl, rfl, rfl⟩
  | setF => exact key _ (hput _ _)
  | setH => exact key _ (hput _ _)
  | setHm => exact key _ (hput _ _)
  | poke => exact key _ (hput _ _)
  | resize a m =>
    simp only [ApiCall.run]
    split_ifs
    · refine ⟨fun _ _ => rfl, rfl, fun b => ?_⟩
      simp only
      split_ifs with h
      · exact ⟨by rw [h.1]; omega, fun _ => ⟨m, by rw [h.1]⟩⟩
      · exact ⟨le_refl _, fun h => absurd rfl h⟩
    · exact ⟨fun _ _ => rfl, rfl, fun b => ⟨le_refl _, fun h => absurd rfl h⟩⟩
  | getF | getSize | getH | getHm | eval | cmp | cmpS | sCmp | repr | getState | peek =>
    exact key _ ⟨rfl, rfl, rfl⟩
  | data a | grad a =>
    refine ⟨fun w hw => ?_, rfl, fun b => ⟨le_refl _, fun h => absurd rfl h⟩⟩
    simp only [ApiCall.run, ApiSt.look]
    rw [if_neg (by omega)]
  | _ => exact key _ (hmake _)

theorem reaches_arrays {c : Cfg} {fmt : α → String} {sz₀ sz : Nat → Nat} {st₀ st : ApiSt α}
    (hr : Reaches c fmt sz₀ st₀ sz st) :
    (∀ w < st₀.nviews, st.views w = st₀.views w) ∧ st₀.nviews ≤ st.nviews ∧
      ∀ b, st₀.gen b ≤ st.gen b := by
  have step : ∀ (st : ApiSt α) (k : ApiCall α),
      ((∀ w < st₀.nviews, st.views w = st₀.views w) ∧ st₀.nviews ≤ st.nviews ∧
        ∀ b, st₀.gen b ≤ st.gen b) →
      ((∀ w < st₀.nviews, (k.run c fmt st).2.views w = st₀.views w) ∧
        st₀.nviews ≤ (k.run c fmt st).2.nviews ∧ ∀ b, st₀.gen b ≤ (k.run c fmt st).2.gen b) := by
    rintro st k ⟨h1, h2, h3⟩
    obtain ⟨a1, a2, a3⟩ := C59_arrays c fmt st k
    exact ⟨fun w hw => (a1 w (by omega)).trans (h1 w hw), by omega,
      fun b => (h3 b).trans (a3 b).1⟩
  induction hr with
  | start => exact ⟨fun _ _ => rfl, le_refl _, fun _ => le_refl _⟩
  | returns _ _ _ ih => exact step _ _ ih
  | resizes _ _ _ ih => exact step _ _ ih
  | raises _ _ _ ih => exact step _ _ ih

/-- **C59, stale arrays.** An array taken before its object was resized to more variables stays
unusable for ever: whatever safe calls follow, in any order, every access inside its bounds is to
storage that no longer belongs to the object, and the object is never read or written through it.
(Access outside its bounds still raises `IndexError`.) -/
theorem C59_stale {c : Cfg} (hv : c.Valid) (hd : c.tsize = -1) (fmt : α → String)
    {sz₀ sz : Nat → Nat} {st₀ st : ApiSt α} (h₀ : st₀.Sized c sz₀) {w : Nat} (hw : w < st₀.nviews)
    (hgen : (st₀.views w).gen ≤ st₀.gen (st₀.views w).obj) {m : Int}
    (hm : (sz₀ (st₀.views w).obj : Int) < m)
    {sz₁ : Nat → Nat}
    (hr : Reaches c fmt sz₁ ((ApiCall.resize (st₀.views w).obj m).run c fmt st₀).2 sz st)
    {i : Nat} (hi : i < (st₀.views w).len) (s : α) :
    (ApiCall.peek w i).run c fmt st = (.ub .dangling, st) ∧
      (ApiCall.poke w i s).run c fmt st = (.ub .dangling, st) := by
  obtain ⟨m, rfl⟩ := Int.eq_ofNat_of_zero_le (show 0 ≤ m by omega)
  have hm' : sz₀ (st₀.views w).obj < m := by exact_mod_cast hm
  set a := (st₀.views w).obj with ha
  obtain ⟨hfit, b, e⟩ := (h₀.objs a (h₀.arrays w hw)).eq_obj hv.order
  have hg : ((ApiCall.resize a (m : Int)).run c fmt st₀).2.gen a = st₀.gen a + 1 := by
    simp only [ApiCall.run, (isDynamic_iff c).2 hd, if_true]
    rw [if_pos]
    rw [e, resize_obj hd b]
    simp only [data_obj, mk_length, true_and]
    exact dlen_lt hv.order hm'
  obtain ⟨a1, a2, a3⟩ := C59_arrays c fmt st₀ (ApiCall.resize a (m : Int))
  obtain ⟨b1, b2, b3⟩ := reaches_arrays hr
  have hview : st.views w = st₀.views w :=
    (b1 w (by rw [a2]; exact Nat.lt_add_right _ hw)).trans (a1 w hw)
  have hgt : st.gen (st.views w).obj ≠ (st.views w).gen := by
    rw [hview, ← ha]
    have := b3 a
    omega
  have hacc : st.access w i = .ub .dangling := by
    unfold ApiSt.access
    rw [hview] at hgt ⊢
    rw [if_neg (by omega), if_pos hgt]
  constructor
  · simp only [ApiCall.run, hacc, ApiSt.tell]; rfl
  · simp only [ApiCall.run, hacc]; rfl

/-- Arrays taken from objects are at most as old as their storage, in every state reached from one
without arrays: the hypothesis of `C59_stale`. -/
theorem reaches_gen {c : Cfg} {fmt : α → String} {sz₀ sz : Nat → Nat} {st₀ st : ApiSt α}
    (h0 : st₀.nviews = 0) (hr : Reaches c fmt sz₀ st₀ sz st) :
    ∀ w < st.nviews, (st.views w).gen ≤ st.gen (st.views w).obj := by
  have step : ∀ (st : ApiSt α) (k : ApiCall α),
      (∀ w < st.nviews, (st.views w).gen ≤ st.gen (st.views w).obj) →
      ∀ w < (k.run c fmt st).2.nviews, ((k.run c fmt st).2.views w).gen ≤
        (k.run c fmt st).2.gen ((k.run c fmt st).2.views w).obj := by
    intro st k ih w hw
    obtain ⟨a1, a2, a3⟩ := C59_arrays c fmt st k
    by_cases hlt : w < st.nviews
    · rw [a1 w hlt]
      exact (ih w hlt).trans (a3 _).1
    · cases k with
      | data a | grad a =>
        simp only at a2
        have : w = st.nviews := by omega
        subst this
        simp [ApiCall.run, ApiSt.look]
      | _ => simp only [Nat.add_zero] at a2; omega
  induction hr with
  | start => intro w hw; omega
  | returns _ _ _ ih => exact step _ _ ih
  | resizes _ _ _ ih => exact step _ _ ih
  | raises _ _ _ ih => exact step _ _ ih

end arrays

/-! ### Concrete cases -/

/-- Objects 0 and 1 are the variables `x = 3`, `y = 2`; array 0 is `x.g`. -/
noncomputable def exVal : ApiSt XReal where
  heap a := obj exShip 2 (varC a (.num (if a = 0 then 3 else 2)))
  next := 2
  views _ := ⟨0, 0, 1, 2⟩
  nviews := 1
  gen _ := 0

theorem exVal_sized : exVal.Sized exShip fun _ => 2 where
  objs := fun _ _ => wf_obj exShip_valid.order (Or.inl rfl) _
  arrays := fun _ _ => Nat.zero_lt_two

theorem exVal_at (i : Fin 2) : JetAt exShip 2 (exVal.heap i) (fun y => y i) ![3, 2] := by
  have e : exVal.heap i = obj exShip 2 (varC i (.num (![3, 2] i))) := by
    fin_cases i <;> simp [exVal]
  rw [e]
  exact ⟨varJet i _, (good_var (n := 2) i.isLt _).shows exShip_valid.order (Or.inl rfl),
    isJet_var 2 ![3, 2] i⟩

/-- `z = x * y` is the jet of `x y` at `(3, 2)`. -/
example : MadeAt exShip exVal ((ApiCall.bin .mul 0 1).run exShip (fun _ => "") exVal) 2
    (fun y => y 0 * y 1) ![3, 2] :=
  C59_values exShip_valid rfl rfl (fun _ => "") exVal_sized (.bin .mul 0 1)
    ⟨Nat.zero_lt_two, Nat.one_lt_two⟩ trivial _ _ _ (exVal_at 0) (exVal_at 1) trivial trivial

/-- `x /= x` leaves the jet of `x / x` in `x`. -/
example : BecameAt exShip ((ApiCall.asg .div 0 0).run exShip (fun _ => "") exVal) 0 2
    (fun y => y 0 / y 0) ![3, 2] :=
  C59_values exShip_valid rfl rfl (fun _ => "") exVal_sized (.asg .div 0 0)
    ⟨Nat.zero_lt_two, Nat.zero_lt_two⟩ trivial _ _ _ (exVal_at 0) (exVal_at 0)
    (fun _ => by norm_num) (by decide)

/-- `x.g[1] = 5` sets the second derivative component and nothing else. -/
example : ∃ J, Shows exShip 2 (((ApiCall.poke 0 1 (.num 5)).run exShip (fun _ => "") exVal).2.heap 0) J ∧
    J.f = .num 3 ∧ J.g 0 = .num 1 ∧ J.g 1 = .num 5 := by
  obtain ⟨K, hK, hj⟩ := exVal_at 0
  have := C59_values exShip_valid rfl rfl (fun _ => "") exVal_sized (.poke 0 1 (.num 5))
    Nat.zero_lt_one trivial _ hK
  refine ⟨_, this.2, ?_, ?_, ?_⟩
  · have h1 := hK.f
    rw [show exVal.heap (0 : Fin 2) = obj exShip 2 (varC 0 (.num 3)) by simp [exVal], f_obj] at h1
    simpa [Jet.put, exVal, varC] using (Res.ok.inj h1).symm
  · have h1 := hK.g 0 (by decide)
    rw [show exVal.heap (0 : Fin 2) = obj exShip 2 (varC 0 (.num 3)) by simp [exVal],
      g_obj (Or.inl rfl) _ (by decide)] at h1
    simpa [Jet.put, exVal, varC] using (Res.ok.inj h1).symm
  · simp [Jet.put, exVal]

/-- `x.g` taken before `x.resize(3)` is unusable afterwards. -/
example (sz : Nat → Nat) (st : ApiSt XReal) (sz₁ : Nat → Nat)
    (hr : Reaches exShip (fun _ => "") sz₁
      ((ApiCall.resize 0 3).run exShip (fun _ => "") exVal).2 sz st) :
    (ApiCall.peek 0 1).run exShip (fun _ => "") st = (.ub .dangling, st) :=
  (C59_stale exShip_valid rfl _ exVal_sized (w := 0) Nat.zero_lt_one (le_refl 0) (by decide) hr
    (i := 1) Nat.one_lt_two (.num 0)).1

end HJ
