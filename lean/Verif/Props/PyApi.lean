import Verif.Proofs.PyApi

/-!
# C55: every Python call, by the sizes of the objects
-/

namespace HJ

open DD

variable {α : Type} {c : Cfg} {sz : Nat → Nat} {st : ApiSt α}

/-! ### Outcomes at the level of states -/

theorem Sized.alloc (h : st.Sized c sz) {xs : List (DD α)} {news : List Nat}
    (hl : xs.length = news.length)
    (hx : ∀ i x, xs[i]? = some x → WF c (news.getD i 0) x) :
    (st.alloc xs).Sized c (addSizes sz st.next news) where
  objs := by
    intro a ha
    simp only [ApiSt.alloc] at ha ⊢
    unfold addSizes
    by_cases hn : st.next ≤ a
    · rw [if_pos hn, if_pos hn]
      have : a - st.next < xs.length := by omega
      rw [List.getElem?_eq_getElem this]
      exact hx _ _ (List.getElem?_eq_getElem this)
    · rw [if_neg hn, if_neg hn]
      exact h.objs a (by omega)
  arrays := by
    intro w hw
    have := h.arrays w hw
    simp only [ApiSt.alloc] at *
    omega

theorem holds_make (h : st.Sized c sz) {r : Res (DD α)} {x : DD α} {n : Nat} (hr : r = .ok x)
    (hx : WF c n x) : Verdict.Holds c sz st (st.make r) (.returns [n]) := by
  subst hr
  refine ⟨⟨_, rfl⟩, rfl, Sized.alloc h rfl ?_⟩
  intro i y hy
  cases i with
  | zero => simpa using (by simpa using hy : x = y) ▸ hx
  | succ i => simp at hy

theorem holds_make_throw {r : Res (DD α)} {e : Err} (hr : r = .throw e) :
    Verdict.Holds c sz st (st.make r) (.raises e) := by
  subst hr; rfl

theorem holds_make_broken {r : Res (DD α)} (hr : Broken c r) :
    Verdict.Holds c sz st (st.make r) .danger := by
  rcases hr with ⟨u, rfl⟩ | ⟨x, rfl, hx⟩
  · exact Or.inl ⟨u, rfl⟩
  · refine Or.inr fun sz' h => hx (sz' st.next) ?_
    have := h.objs st.next (by simp [ApiSt.make, ApiSt.makeAll, ApiSt.alloc])
    simpa [ApiSt.make, ApiSt.makeAll, ApiSt.alloc] using this

theorem addSizes_nil_of_lt {a : Nat} (ha : a < st.next) : addSizes sz st.next [] a = sz a := by
  unfold addSizes; rw [if_neg (by omega)]

theorem Sized.set (h : st.Sized c sz) {a : Nat} {x : DD α} (hx : WF c (sz a) x) :
    (st.set a x).Sized c (addSizes sz st.next []) where
  objs := by
    intro b hb
    have hb' : b < st.next := hb
    rw [addSizes_nil_of_lt hb']
    simp only [ApiSt.set]
    split_ifs with e
    · rw [e]; exact hx
    · exact h.objs b hb'
  arrays := h.arrays

theorem Sized.nil (h : st.Sized c sz) : st.Sized c (addSizes sz st.next []) where
  objs := fun a ha => by rw [addSizes_nil_of_lt ha]; exact h.objs a ha
  arrays := h.arrays

theorem holds_tell (h : st.Sized c sz) {r : Res (ApiOut α)} (hr : ∃ out, r = .ok out) :
    Verdict.Holds c sz st (st.tell r) (.returns []) := by
  obtain ⟨out, rfl⟩ := hr
  exact ⟨⟨out, rfl⟩, rfl, Sized.nil h⟩

theorem holds_tell_ub {r : Res (ApiOut α)} {u : UB} (hr : r = .ub u) :
    Verdict.Holds c sz st (st.tell r) .danger := by
  subst hr; exact Or.inl ⟨u, rfl⟩

theorem holds_tell_throw {r : Res (ApiOut α)} {e : Err} (hr : r = .throw e) :
    Verdict.Holds c sz st (st.tell r) (.raises e) := by
  subst hr; rfl

theorem holds_put (h : st.Sized c sz) {a : Nat} {r : Res (DD α)} {x : DD α} (hr : r = .ok x)
    (hx : WF c (sz a) x) : Verdict.Holds c sz st (st.put a r) (.returns []) := by
  subst hr
  exact ⟨⟨_, rfl⟩, rfl, Sized.set h hx⟩

theorem holds_put_ub {a : Nat} {r : Res (DD α)} {u : UB} (hr : r = .ub u) :
    Verdict.Holds c sz st (st.put a r) .danger := by
  subst hr; exact Or.inl ⟨u, rfl⟩

theorem holds_put_throw {a : Nat} {r : Res (DD α)} {e : Err} (hr : r = .throw e) :
    Verdict.Holds c sz st (st.put a r) (.raises e) := by
  subst hr; rfl

theorem holds_inplace (h : st.Sized c sz) {a : Nat} {r : Res Unit × DD α} {x : DD α}
    (hr : r = (.ok (), x)) (hx : WF c (sz a) x) :
    Verdict.Holds c sz st (st.inplace a r) (.returns []) := by
  subst hr
  exact ⟨⟨_, rfl⟩, rfl, Sized.set h hx⟩

theorem set_self (a : Nat) : st.set a (st.heap a) = st := by
  unfold ApiSt.set
  congr 1
  funext b
  split_ifs with h
  · rw [h]
  · rfl

/-! ### Factories -/

theorem holds_sized [Arith α] (hv : c.Valid) (size : Int)
    {make : Int → Res (DD α)} {k : Nat → Verdict}
    (hneg : c.tsize = -1 → ∀ s : Int, s < 0 → (∀ e, DD.zero c s = (.throw e : Res (DD α)) →
      make s = .throw e) ∧ (∀ x : DD α, DD.zero c s = .ok x → SizeIs x.mSize (make s)))
    (hstat : c.tsize ≠ -1 → ∀ s, s ≠ c.tsize → make s = .throw .invalidSize)
    (hok : ∀ n : Nat, Fits c n → Verdict.Holds c sz st (st.make (make n)) (k n)) :
    Verdict.Holds c sz st (st.make (make size)) (sizedFactory c size k) := by
  unfold sizedFactory
  by_cases hd : c.tsize = -1
  · rw [if_pos hd]
    by_cases hs : 0 ≤ size
    · rw [if_pos hs]
      obtain ⟨n, rfl⟩ := Int.eq_ofNat_of_zero_le hs
      exact hok n (Or.inl hd)
    · rw [if_neg hs]
      obtain ⟨h1, h2⟩ := hneg hd size (by omega)
      rcases zero_neg (α := α) hv hd (show size < 0 by omega) with ⟨a1, a2, a3⟩ | ⟨a1, x, a2, a3⟩
      · rw [if_pos ⟨a1, a2⟩]
        exact holds_make_throw (h1 _ a3)
      · rw [if_neg a1]
        refine holds_make_broken ((h2 x a2).broken hd (by omega))
  · rw [if_neg hd]
    by_cases hs : size = c.tsize
    · rw [if_pos hs]
      obtain ⟨hf, hN⟩ := static_size hv hd
      subst hs
      have := hok _ hf
      rwa [← hN] at this
    · rw [if_neg hs]
      exact holds_make_throw (hstat hd size hs)

theorem holds_const2 [CMath α] (hv : c.Valid) (he : c.exc = true) (h : st.Sized c sz) (f : α)
    (size : Int) : Verdict.Holds c sz st (st.make (DD.constant c f size))
      (sizedFactory c size fun n => .returns [n]) := by
  refine holds_sized hv size ?_ ?_ ?_
  · intro hd s _
    have hdd := (isDynamic_iff c).2 hd
    unfold DD.constant
    simp only [hdd, if_true]
    refine ⟨fun e he => by rw [he]; rfl, fun x hx => ?_⟩
    rw [hx]
    exact sizeIs_setF f
  · intro hd s hs
    have hdd : c.isDynamic = false := by simp [Cfg.isDynamic, hd]
    unfold DD.constant
    simp only [hdd, Bool.false_eq_true, if_false, checkValidSize_static he hd hs]
    rfl
  · intro n hf
    exact holds_make h (constant_obj hf f) (wf_obj hv.order hf _)

theorem holds_zeroN [CMath α] (hv : c.Valid) (he : c.exc = true) (h : st.Sized c sz)
    (size : Int) : Verdict.Holds c sz st (st.make (DD.zero c size))
      (sizedFactory c size fun n => .returns [n]) := by
  refine holds_sized hv size ?_ ?_ ?_
  · intro hd s _
    exact ⟨fun e he => he, fun x hx => Or.inl ⟨x, hx, rfl⟩⟩
  · intro hd s hs
    have hdd : c.isDynamic = false := by simp [Cfg.isDynamic, hd]
    unfold DD.zero
    simp only [hdd, Bool.false_eq_true, if_false, checkValidSize_static he hd hs]
    rfl
  · intro n hf
    exact holds_make h (zero_obj hf) (wf_obj hv.order hf _)

theorem broken_uninit [CMath α] (hv : c.Valid) (hd : c.tsize ≠ -1) :
    Broken c (.ok (DD.empty0 c : DD α)) := by
  refine Or.inr ⟨_, rfl, fun n hx => ?_⟩
  have hdd : c.isDynamic = false := by simp [Cfg.isDynamic, hd]
  obtain ⟨hf, hN⟩ := static_size hv hd
  have h1 := hx.len
  have h2 := storedLen_pos c hv n
  have h3 := hx.init
  simp only [DD.empty0, hdd, Bool.false_eq_true, if_false, staticUninit] at h1 h3
  refine h3 none ?_ rfl
  rw [List.mem_replicate]
  simp only [List.length_replicate] at h1
  exact ⟨by omega, rfl⟩

theorem holds_emptyN [CMath α] (hv : c.Valid) (he : c.exc = true) (h : st.Sized c sz)
    (size : Int) : Verdict.Holds c sz st (st.make (DD.empty c size))
      (sizedFactory c size fun n => if c.tsize = -1 then .returns [n] else .danger) := by
  refine holds_sized hv size ?_ ?_ ?_
  · intro hd s _
    rw [empty_dyn hd]
    exact ⟨fun e he => he, fun x hx => Or.inl ⟨x, hx, rfl⟩⟩
  · intro hd s hs
    have hdd : c.isDynamic = false := by simp [Cfg.isDynamic, hd]
    unfold DD.empty
    simp only [hdd, Bool.false_eq_true, if_false, checkValidSize_static he hd hs]
    rfl
  · intro n hf
    by_cases hd : c.tsize = -1
    · rw [if_pos hd, empty_dyn hd]
      exact holds_make h (zero_obj hf) (wf_obj hv.order hf _)
    · rw [if_neg hd]
      have hdd : c.isDynamic = false := by simp [Cfg.isDynamic, hd]
      have e : (DD.empty c n : Res (DD α)) = .ok (DD.empty0 c) := by
        unfold DD.empty
        simp only [hdd, Bool.false_eq_true, if_false, checkValidSize_fits hf, Res.ok_bind]
      rw [e]
      exact holds_make_broken (broken_uninit hv hd)

theorem holds_seeded [CMath α] (hv : c.Valid) (hb : c.dbg = false) (h : st.Sized c sz) {n : Nat}
    (hf : Fits c n) (i : Int) (a : Nat → α) (v : α) :
    Verdict.Holds c sz st (st.make ((obj c n a).setG c i v)) (seeded c i n) := by
  obtain ⟨h1, h2⟩ := setG_any (c := c) (n := n) hb a i v
  unfold seeded
  rw [storedLen_eq hv.order]
  split_ifs with hi
  · obtain ⟨a', ha⟩ := h1 hi
    exact holds_make h ha (wf_obj hv.order hf _)
  · exact holds_make_broken (Or.inl ⟨_, h2 hi⟩)

theorem holds_vari [CMath α] (hv : c.Valid) (he : c.exc = true) (hb : c.dbg = false)
    (h : st.Sized c sz) (i : Int) (f : α) (size : Int) :
    Verdict.Holds c sz st (st.make (DD.var c i f size))
      (sizedFactory c size fun n => seeded c i n) := by
  refine holds_sized hv size ?_ ?_ ?_
  · intro hd s _
    have hdd := (isDynamic_iff c).2 hd
    unfold DD.var
    simp only [hdd, if_true]
    refine ⟨fun e he => by rw [he]; rfl, fun x hx => ?_⟩
    rw [hx]
    simp only [Res.ok_bind]
    rcases sizeIs_setF (x := x) f with ⟨y, hy, hs⟩ | ⟨u, hu⟩
    · rw [hy, ← hs]
      exact sizeIs_setG hb i _
    · rw [hu]
      exact Or.inr ⟨u, rfl⟩
  · intro hd s hs
    have hdd : c.isDynamic = false := by simp [Cfg.isDynamic, hd]
    unfold DD.var
    simp only [hdd, Bool.false_eq_true, if_false, checkValidSize_static he hd hs]
    rfl
  · intro n hf
    rw [var_any hf]
    exact holds_seeded hv hb h hf i _ _

theorem zero0_wf [CMath α] (hv : c.Valid) :
    ∃ a, (DD.zero0 c : DD α) = obj c (if c.tsize = -1 then 0 else c.tsize.toNat) a ∧
      Fits c (if c.tsize = -1 then 0 else c.tsize.toNat) := by
  by_cases hd : c.tsize = -1
  · rw [if_pos hd]
    refine ⟨fun _ => Arith.lit 0, ?_, Or.inl hd⟩
    have hdd := (isDynamic_iff c).2 hd
    have hl : dlen c 0 = 1 := by
      rcases hv.order with h | h
      · rw [dlen_one h]
      · rw [dlen_two h]; rfl
    unfold DD.zero0 obj
    simp only [hdd, if_true, hl]
    rfl
  · rw [if_neg hd]
    obtain ⟨hf, hN⟩ := static_size hv hd
    exact ⟨_, zero0_obj hf (by simp [Cfg.isDynamic, hd]), hf⟩

/-! ### Data lists -/

theorem holds_fromData [CMath α] (hv : c.Valid) (he : c.exc = true) (h : st.Sized c sz)
    (xs : List α) {r : Res (DD α)}
    (hdyn : c.tsize = -1 → r = (do
      let s ← sizeFromDataLength c xs.length
      .ok ⟨s, xs.map some⟩))
    (hsta : c.tsize ≠ -1 → r = if xs.length = storedLen c.order c.tsize.toNat then
      .ok ⟨0, xs.map some⟩ else .throw .typeError) :
    Verdict.Holds c sz st (st.make r) (fromData c xs.length) := by
  unfold fromData
  obtain ⟨d1, d2, d3⟩ := C05_length_decoding hv he xs.length
  by_cases hd : c.tsize = -1
  · rw [if_pos hd, hdyn hd]
    by_cases h0 : xs.length = 0
    · rw [if_pos h0, d3 h0]
      exact holds_make_broken (Or.inr ⟨_, rfl, not_wf_neg hd (by simp)⟩)
    · rw [if_neg h0]
      cases hl : decodeLen c.order xs.length with
      | none =>
        rw [d2 h0 (decodeLen_none hl)]
        exact holds_make_throw rfl
      | some n =>
        have hn := decodeLen_some hl
        rw [(d1 n).2 hn]
        refine holds_make h rfl ?_
        have := wf_list (c := c) (Or.inl hd) hn
        rwa [if_pos hd] at this
  · rw [if_neg hd, hsta hd]
    obtain ⟨hf, hN⟩ := static_size hv hd
    by_cases hl : xs.length = storedLen c.order c.tsize.toNat
    · rw [if_pos hl, if_pos hl]
      refine holds_make h rfl ?_
      have := wf_list (c := c) hf hl
      rwa [if_neg hd] at this
    · rw [if_neg hl, if_neg hl]
      exact holds_make_throw rfl

theorem staticDataSize_nat (hv : c.Valid) (hd : c.tsize ≠ -1) :
    c.staticDataSize = (storedLen c.order c.tsize.toNat : Int) := by
  obtain ⟨hf, hN⟩ := static_size hv hd
  rw [storedLen_eq hv.order, staticDataSize_eq hN]

/-! ### Conversions, padding, arrays -/

theorem castLen_size (xs : List α) :
    castLen c c.tsize xs = if lenOk c xs.length then .ok () else .throw .typeError := by
  unfold castLen
  by_cases hd : c.tsize = -1
  · rw [if_pos ((isDynamic_iff c).2 hd), if_pos (show lenOk c xs.length from Or.inl hd)]
  · rw [if_neg (by simp [Cfg.isDynamic, hd])]
    have : lenOk c xs.length ↔ _ := or_iff_right hd
    simp only [this]

theorem castMat_shape (M : NpMat α) :
    castMat c M = if shapeOk c M then .ok () else .throw .typeError := by
  unfold castMat
  by_cases hd : c.tsize = -1
  · rw [if_pos ((isDynamic_iff c).2 hd), if_pos (show shapeOk c M from Or.inl hd)]
  · rw [if_neg (by simp [Cfg.isDynamic, hd])]
    have : shapeOk c M ↔ _ := or_iff_right hd
    simp only [this]

theorem fits_of_lenOk {m : Nat} (h : lenOk c m) : Fits c m := by
  rcases h with h | h
  · exact Or.inl h
  · exact Or.inr h.symm

theorem dyn_of_ne {n m : Nat} {x y : DD α} (hx : WF c n x) (hy : WF c m y) (h : n ≠ m) :
    c.tsize = -1 := by
  rcases hx.fits with h1 | h1
  · exact h1
  · rcases hy.fits with h2 | h2
    · exact h2
    · omega

theorem onlyDynamic_ok (hd : c.tsize = -1) : onlyDynamic c = .ok () :=
  if_pos ((isDynamic_iff c).2 hd)

theorem holds_padded [Arith α] (hv : c.Valid) (h : st.Sized c sz) {n : Nat} {m : Int}
    {r : Res (DD α)}
    (hstat : c.tsize ≠ -1 → r = .throw .attributeError)
    (hok : c.tsize = -1 → ∀ p : Nat, n ≤ p → (m : Int) = p → ∃ x, r = .ok x ∧ WF c p x)
    (hshrink : c.tsize = -1 → ∀ p : Nat, p < n → (m : Int) = p → ∃ u, r = .ub u)
    (hthrow : c.tsize = -1 → (DD.empty c m : Res (DD α)) = .throw .lengthError →
      r = .throw .lengthError)
    (hneg : c.tsize = -1 → ∀ x : DD α, DD.empty c m = .ok x → x.mSize = m → SizeIs m r) :
    Verdict.Holds c sz st (st.make r) (padded c n m) := by
  unfold padded
  by_cases hd : c.tsize = -1
  · rw [if_neg (by simpa using hd)]
    by_cases hm : 0 ≤ m
    · obtain ⟨p, rfl⟩ := Int.eq_ofNat_of_zero_le hm
      by_cases hnp : n ≤ p
      · rw [if_pos (by exact_mod_cast hnp)]
        obtain ⟨x, hx, hw⟩ := hok hd p hnp rfl
        exact holds_make h hx hw
      · rw [if_neg (by exact_mod_cast hnp), if_neg (by omega)]
        exact holds_make_broken (Or.inl (hshrink hd p (by omega) rfl))
    · rw [if_neg (by omega)]
      rcases zero_neg (α := α) hv hd (show m < 0 by omega) with ⟨a1, a2, a3⟩ | ⟨a1, x, a2, a3⟩
      · rw [if_pos ⟨a1, a2⟩]
        exact holds_make_throw (hthrow hd (by rw [empty_dyn hd]; exact a3))
      · rw [if_neg a1]
        exact holds_make_broken ((hneg hd x (by rw [empty_dyn hd]; exact a2) a3).broken hd (by omega))
  · rw [if_pos hd]
    exact holds_make_throw (hstat hd)

theorem holds_look (h : st.Sized c sz) {a : Nat} (ha : a < st.next) (off len : Nat) :
    Verdict.Holds c sz st (st.look a off len) (.returns []) := by
  refine ⟨⟨_, rfl⟩, rfl, (Sized.nil h).objs, ?_⟩
  intro w hw
  simp only [ApiSt.look] at hw ⊢
  split_ifs with e
  · exact ha
  · exact h.arrays w (by omega)

theorem mul_size0 [Arith α] (hv : c.Valid) (h2 : c.order = 2) {x : DD α} (hx : WF c 0 x)
    (b : DD.Operand α) (hb : ∀ y, b = .obj y → WF c 0 y) :
    ∃ u, (AOp.mul.run c x b).1 = .ub u := by
  obtain ⟨hf, a, rfl⟩ := hx.eq_obj hv.order
  cases b with
  | obj y =>
    obtain ⟨u, z, h⟩ := (C22_violated_mul_assign_size0 h2 (wf_obj hv.order hf a) (hb y rfl)).2
    exact ⟨u, by simp only [AOp.run, h]⟩
  | self =>
    have hl : dlen c 0 = 1 := by rw [dlen_two h2]; rfl
    refine ⟨.outOfBounds, ?_⟩
    simp only [AOp.run]
    unfold DD.mulAssign DD.checked
    simp only [DD.Operand.size, checkEqualSize_self]
    simp only [DD.Operand.src, Src.get]
    rw [rd_obj0]
    simp only [Res.ok_bind, data_obj]
    rw [wr_mk0 (ψ := fl fun k => if k = 0 then a 0 *ₛ a 0 else a k)]
    · simp only [Res.ok_bind, mk_length, hl]
      rw [forUp_empty (by simp)]
      simp only [Res.ok_bind, h2, show ¬ (2 : Nat) = 1 by decide, if_false, size_obj hf]
      rfl
    · intro m _; by_cases h : m = 0 <;> simp [fl, h]

/-! ### The table -/

/-- **C55.** The table is right: in the shipped build (exceptions on, assertions off), for objects
of any sizes, every call returns, raises or is unsafe exactly as `verdict` says.  Returning calls
give well-formed jets of the stated sizes and leave the sizes of the other objects alone; raising
calls change nothing; unsafe calls are undefined behaviour or leave an object that is no jet. -/
theorem C55_table [CMath α] (hv : c.Valid) (he : c.exc = true) (hb : c.dbg = false)
    (fmt : α → String) (h : st.Sized c sz) (k : ApiCall α) (hk : k.Held st) :
    (k.verdict c sz st).Holds c sz st (k.run c fmt st) := by
  have hsize : ∀ a < st.next, (st.heap a).size c = sz a := by
    intro a ha
    obtain ⟨hf, b, e⟩ := (h.objs a ha).eq_obj hv.order
    rw [e]; exact size_obj hf b
  cases k with
  | const2 f size => exact holds_const2 hv he h f size
  | zeroN size => exact holds_zeroN hv he h size
  | emptyN size => exact holds_emptyN hv he h size
  | vari i f size => exact holds_vari hv he hb h i f size
  | const1 f =>
    obtain ⟨a, ha, hf⟩ := zero0_wf (α := α) hv
    refine holds_make h ?_ (wf_obj hv.order hf (fun k => if k = 0 then f else a k))
    unfold DD.constant0
    rw [ha, setF_obj]
  | zero0 =>
    obtain ⟨a, ha, hf⟩ := zero0_wf (α := α) hv
    exact holds_make h (congrArg Res.ok ha) (wf_obj hv.order hf a)
  | empty0 =>
    simp only [ApiCall.verdict, ApiCall.run]
    by_cases hd : c.tsize = -1
    · rw [if_pos hd]
      have hdd := (isDynamic_iff c).2 hd
      obtain ⟨a, ha, hf⟩ := zero0_wf (α := α) hv
      rw [if_pos hd] at ha hf
      refine holds_make h (x := obj c 0 a) ?_ (wf_obj hv.order hf a)
      rw [← ha]
      simp [DD.empty0, DD.zero0, hdd]
    · rw [if_neg hd]
      exact holds_make_broken (broken_uninit hv hd)
  | vari2 i f =>
    simp only [ApiCall.verdict, ApiCall.run]
    by_cases hd : c.tsize = -1
    · rw [if_pos hd, if_pos ((isDynamic_iff c).2 hd)]
      exact holds_make_throw rfl
    · have hdd : c.isDynamic = false := by simp [Cfg.isDynamic, hd]
      obtain ⟨a, ha, hf⟩ := zero0_wf (α := α) hv
      rw [if_neg hd] at ha hf
      rw [if_neg hd, hdd]
      simp only [Bool.false_eq_true, if_false]
      unfold DD.variable0
      rw [ha, setF_obj, Res.ok_bind]
      exact holds_seeded hv hb h hf i _ _
  | create xs =>
    refine holds_fromData hv he h xs ?_ ?_
    · intro hd
      have hdd := (isDynamic_iff c).2 hd
      simp [castLen, DD.create, hdd]
    · intro hd
      have hdd : c.isDynamic = false := by simp [Cfg.isDynamic, hd]
      simp only [castLen, hdd, Bool.false_eq_true, if_false, staticDataSize_nat hv hd, Nat.cast_inj]
      obtain ⟨hf, hN⟩ := static_size hv hd
      split_ifs with hl
      · obtain ⟨d1, _, _⟩ := C05_length_decoding hv he (xs.map some).length
        simp only [Res.ok_bind, DD.create, hdd, Bool.false_eq_true, if_false]
        rw [(d1 c.tsize.toNat).2 (by simpa using hl)]
        simp only [Res.ok_bind, checkValidSize_fits hf]
      · rfl
  | setState t =>
    match t with
    | [.seq xs] =>
      refine holds_fromData hv he h xs ?_ ?_
      · intro hd
        have hdd := (isDynamic_iff c).2 hd
        simp [pickleSet, hdd]
      · intro hd
        have hdd : c.isDynamic = false := by simp [Cfg.isDynamic, hd]
        simp only [pickleSet, hdd, Bool.false_eq_true, if_false, staticDataSize_nat hv hd,
          Nat.cast_inj]
    | [.other] => exact holds_make_throw rfl
    | [] => exact holds_make_throw rfl
    | .seq _ :: _ :: _ => exact holds_make_throw rfl
    | .other :: _ :: _ => exact holds_make_throw rfl
  | «variables» vs =>
    simp only [ApiCall.verdict, ApiCall.run]
    rw [castLen_size]
    split_ifs with hl
    · rw [Res.ok_bind, variables_obj (fits_of_lenOk hl)]
      refine ⟨⟨_, rfl⟩, by simp [ApiSt.makeAll, ApiSt.alloc], Sized.alloc h (by simp) ?_⟩
      intro i x hx
      simp only [List.getElem?_map, Option.map_eq_some_iff] at hx
      obtain ⟨p, hp, rfl⟩ := hx
      have hi : i < vs.length := by
        have := (List.getElem?_eq_some_iff.1 hp).1
        simpa using this
      have e : (List.replicate vs.length vs.length).getD i 0 = vs.length := by
        simp [List.getD, hi]
      rw [e]
      exact wf_obj hv.order (fits_of_lenOk hl) _
    · rfl
  | fromGradient f g =>
    simp only [ApiCall.verdict, ApiCall.run]
    by_cases h1 : c.order = 1
    · rw [castLen_size]
      by_cases hl : lenOk c g.length
      · simp only [h1, hl, if_true, Res.ok_bind, true_and]
        exact holds_make h (fromGradient_obj h1 (fits_of_lenOk hl) f f)
          (wf_obj hv.order (fits_of_lenOk hl) _)
      · simp only [h1, hl, if_true, if_false, true_and]
        exact holds_make_throw rfl
    · simp only [h1, if_false, false_and]
      exact holds_make_throw rfl
  | fromArrays f g M =>
    simp only [ApiCall.verdict, ApiCall.run]
    rw [castLen_size, castMat_shape]
    by_cases hok : c.order = 2 ∧ lenOk c g.length ∧ shapeOk c M
    · obtain ⟨h2, hl, hM⟩ := hok
      simp only [h2, hl, hM, and_self, not_true_eq_false, if_true, if_false, Res.ok_bind]
      have hf := fits_of_lenOk hl
      by_cases hs : g.length ≤ M.rows ∧ g.length ≤ M.cols
      · rw [if_pos hs]
        obtain ⟨x, hx, hw⟩ := fromArrays_big h2 hb hf f (Or.inl hs)
        exact holds_make h hx hw
      · rw [if_neg hs]
        by_cases h0 : g.length = 0
        · rw [if_pos h0]
          obtain ⟨x, hx, hw⟩ := fromArrays_big h2 hb hf f (Or.inr h0 : _ ∨ _) (M := M)
          rw [h0] at hw
          exact holds_make h hx hw
        · rw [if_neg h0]
          refine holds_make_broken (Or.inl ⟨.outOfBounds, ?_⟩)
          refine (C11_wrong_dimensions h2 hf f (M := M.toMat) ?_).2 hb ?_ ?_ ?_
            (fun i j => M.rd_any i j)
          all_goals simp only [NpMat.toMat]; omega
    · simp only [hok, not_false_eq_true, if_true]
      refine holds_make_throw ?_
      split_ifs with h2 hl hM
      · exact absurd ⟨h2, hl, hM⟩ hok
      all_goals rfl
  | neg a =>
    obtain ⟨hf, b, e⟩ := (h.objs a hk).eq_obj hv.order
    exact holds_make h (by rw [e]; exact neg_obj hf b) (wf_obj hv.order hf _)
  | abs a =>
    obtain ⟨hf, b, e⟩ := (h.objs a hk).eq_obj hv.order
    exact holds_make h (by rw [e]; exact abs_obj hf b) (wf_obj hv.order hf _)
  | fn φ a =>
    obtain ⟨hf, b, e⟩ := (h.objs a hk).eq_obj hv.order
    exact holds_make h (by rw [e]; exact un_obj hv.order hf _ b) (wf_obj hv.order hf _)
  | copy a => exact holds_make h rfl (h.objs a hk)
  | sbin o a s =>
    obtain ⟨hf, b, e⟩ := (h.objs a hk).eq_obj hv.order
    exact holds_make h (by rw [e]; exact SBin.run_obj hv.order hf o b s) (wf_obj hv.order hf _)
  | bin o a b =>
    have hx := h.objs a hk.1
    have hy := h.objs b hk.2
    have hsame : sz a = sz b → Verdict.Holds c sz st
        (st.make (o.run c (st.heap a) (st.heap b))) (.returns [sz a]) := by
      intro e
      rw [← e] at hy
      obtain ⟨hf, p, ep⟩ := hx.eq_obj hv.order
      obtain ⟨_, q, eq⟩ := hy.eq_obj hv.order
      exact holds_make h (by rw [ep, eq]; exact Bin.run_obj hv.order hf o p q)
        (wf_obj hv.order hf _)
    have hdiff : sz a ≠ sz b → o ≠ .atan2 → Verdict.Holds c sz st
        (st.make (o.run c (st.heap a) (st.heap b))) (.raises .incompatibleSize) := by
      intro hne ho
      have hd := dyn_of_ne hx hy hne
      obtain ⟨m1, m2, m3, m4, m5, _⟩ := C15_size_mismatch hd he (x := st.heap a) (y := st.heap b)
        (by rw [hsize a hk.1, hsize b hk.2]; exact_mod_cast hne) (st.heap a)
      refine holds_make_throw ?_
      cases o with
      | add => exact m1
      | sub => exact m2
      | mul => exact m3
      | div => exact m4
      | hypot => exact m5
      | atan2 => exact absurd rfl ho
    by_cases e : sz a = sz b
    · cases o <;> simp only [ApiCall.verdict, e, le_refl, if_true] <;> rw [← e] <;> exact hsame e
    · cases o with
      | atan2 =>
        simp only [ApiCall.verdict]
        obtain ⟨a1, a2⟩ := C15_violated_atan2 hv hx hy
        split_ifs with hle
        · obtain ⟨r, hr, hw⟩ := a2 (by omega)
          exact holds_make h hr hw
        · exact holds_make_broken (Or.inl ⟨_, a1 (by omega)⟩)
      | _ => simp only [ApiCall.verdict, e, if_false]; exact hdiff e (by simp)
  | hypot3 a b e =>
    have hx := h.objs a hk.1
    have hy := h.objs b hk.2.1
    have hz := h.objs e hk.2.2
    simp only [ApiCall.verdict, ApiCall.run]
    by_cases hab : sz a = sz b
    · rw [if_neg (by simpa using hab)]
      rw [← hab] at hy
      obtain ⟨a1, a2⟩ := C15_violated_hypot3 hv hx hy hz
      split_ifs with hle
      · rcases Nat.lt_or_ge (sz a) (sz e) with hlt | hge
        · obtain ⟨r, hr, hw⟩ := a2 hlt
          exact holds_make h hr hw
        · have e1 : sz a = sz e := by omega
          rw [← e1] at hz
          obtain ⟨hf, p, ep⟩ := hx.eq_obj hv.order
          obtain ⟨_, q, eq⟩ := hy.eq_obj hv.order
          obtain ⟨_, r, er⟩ := hz.eq_obj hv.order
          exact holds_make h (by rw [ep, eq, er]; exact hypot3_obj hv.order hf p q r)
            (wf_obj hv.order hf _)
      · exact holds_make_broken (Or.inl ⟨_, a1 (by omega)⟩)
    · rw [if_pos hab]
      have hd := dyn_of_ne hx hy hab
      exact holds_make_throw (C15_size_mismatch hd he (x := st.heap a) (y := st.heap b)
        (by rw [hsize a hk.1, hsize b hk.2.1]; exact_mod_cast hab) (st.heap e)).2.2.2.2.2.1
  | padRight a m =>
    obtain ⟨hf, b, e⟩ := (h.objs a hk).eq_obj hv.order
    simp only [ApiCall.verdict, ApiCall.run]
    refine holds_padded hv h ?_ ?_ ?_ ?_ ?_
    · intro hd; simp [onlyDynamic, Cfg.isDynamic, hd]
    · intro hd p hp hm
      rw [onlyDynamic_ok hd, e, hm]
      exact ⟨_, padRight_obj hv.order hd hp b, wf_obj hv.order (Or.inl hd) _⟩
    · intro hd p hp hm
      rw [onlyDynamic_ok hd, e, hm]
      exact (pad_shrink hv.order hd hp b).1
    · intro hd hz
      rw [onlyDynamic_ok hd]
      simp only [DD.padRight, hz, Res.ok_bind]
      rfl
    · intro hd r hr hs
      rw [onlyDynamic_ok hd]
      exact padRight_sizeIs _ hr hs
  | padLeft a m =>
    obtain ⟨hf, b, e⟩ := (h.objs a hk).eq_obj hv.order
    simp only [ApiCall.verdict, ApiCall.run]
    refine holds_padded hv h ?_ ?_ ?_ ?_ ?_
    · intro hd; simp [onlyDynamic, Cfg.isDynamic, hd]
    · intro hd p hp hm
      rw [onlyDynamic_ok hd, e, hm]
      exact ⟨_, padLeft_obj hv.order hd hp b, wf_obj hv.order (Or.inl hd) _⟩
    · intro hd p hp hm
      rw [onlyDynamic_ok hd, e, hm]
      exact (pad_shrink hv.order hd hp b).2
    · intro hd hz
      rw [onlyDynamic_ok hd]
      simp only [DD.padLeft, hz, Res.ok_bind]
      rfl
    · intro hd r hr hs
      rw [onlyDynamic_ok hd]
      exact padLeft_sizeIs _ hr hs
  | asg o a b =>
    have hx := h.objs a hk.1
    have hy := h.objs b hk.2
    simp only [ApiCall.verdict, ApiCall.run]
    by_cases hab : sz a = sz b
    · rw [if_neg (not_not.2 hab)]
      rw [← hab] at hy
      have hrun := run_wf hv hx o (if b = a then .self else .obj (st.heap b)) (by
        intro y hy'
        split_ifs at hy' with e
        rw [← DD.Operand.obj.inj hy']; exact hy)
      by_cases hdz : o = .mul ∧ c.order = 2 ∧ sz a = 0
      · rw [if_pos hdz]
        rcases hrun with ⟨x', hr, _⟩ | ⟨_, _, _, u, hu⟩
        · exfalso
          obtain ⟨ho, h2, h0⟩ := hdz
          obtain ⟨u, hu⟩ := mul_size0 hv h2 (h0 ▸ hx)
            (if b = a then .self else .obj (st.heap b)) (by
              intro y hy'
              split_ifs at hy' with e
              rw [← DD.Operand.obj.inj hy']; exact h0 ▸ hy)
          rw [ho] at hr
          rw [hr] at hu
          simp at hu
        · exact Or.inl ⟨u, by simp only [ApiSt.inplace, hu]; rfl⟩
      · rw [if_neg hdz]
        rcases hrun with ⟨x', hr, hw⟩ | ⟨p, q, r, _⟩
        · exact holds_inplace h hr hw
        · exact absurd ⟨p, q, r⟩ hdz
    · rw [if_pos hab]
      have hd := dyn_of_ne hx hy hab
      obtain ⟨_, _, _, _, _, _, m1, m2, m3, m4⟩ := C15_size_mismatch hd he (x := st.heap a)
        (y := st.heap b) (by rw [hsize a hk.1, hsize b hk.2]; exact_mod_cast hab) (st.heap a)
      have hba : b ≠ a := fun e => hab (by rw [e])
      rw [if_neg hba]
      have : o.run c (st.heap a) (.obj (st.heap b)) = (.throw .incompatibleSize, st.heap a) := by
        cases o
        exacts [m1, m2, m3, m4]
      rw [this]
      simp only [ApiSt.inplace, set_self]
      rfl
  | mulS a s =>
    obtain ⟨hf, b, e⟩ := (h.objs a hk).eq_obj hv.order
    exact holds_inplace h (by rw [e]; exact mulAssignS_obj b s) (wf_obj hv.order hf _)
  | divS a s =>
    obtain ⟨hf, b, e⟩ := (h.objs a hk).eq_obj hv.order
    exact holds_inplace h (by rw [e]; exact divAssignS_obj b s) (wf_obj hv.order hf _)
  | setF a s =>
    obtain ⟨hf, b, e⟩ := (h.objs a hk).eq_obj hv.order
    exact holds_put h (by rw [e]; exact setF_obj c _ b s) (wf_obj hv.order hf _)
  | setH a i j s =>
    obtain ⟨p1, p2⟩ := setH_any hv.order hb (h.objs a hk) i j s
    simp only [ApiCall.verdict, ApiCall.run]
    split_ifs with hc
    · obtain ⟨y, hy, hw⟩ := p1 hc
      exact holds_put h hy hw
    · exact holds_put_ub (p2 hc)
  | setHm a M =>
    have hx := h.objs a hk
    simp only [ApiCall.verdict, ApiCall.run]
    rw [castMat_shape]
    by_cases hM : shapeOk c M
    · simp only [hM, not_true_eq_false, if_true, if_false, Res.ok_bind]
      by_cases h0 : sz a = 0
      · rw [if_pos h0]
        exact holds_put h (setHm_order1_zero (h0 ▸ hx) hv.order M) hx
      · rw [if_neg h0]
        by_cases hs : c.order = 2 ∧ sz a ≤ M.rows ∧ sz a ≤ M.cols
        · rw [if_pos hs]
          obtain ⟨y, hy, hw⟩ := setHm_wf hs.1 hx (Or.inl hs.2)
          exact holds_put h hy hw
        · rw [if_neg hs]
          rcases hv.order with h1 | h2
          · exact holds_put_ub (setHm_order1 h1 hb hx (by omega) M)
          · obtain ⟨hf, b, e⟩ := hx.eq_obj hv.order
            refine holds_put_ub (u := .outOfBounds) ?_
            rw [e]
            refine setHm_small h2 hf hb ?_ ?_ ?_ (fun i j => M.rd_any i j)
            all_goals simp only [NpMat.toMat]; omega
    · simp only [hM, not_false_eq_true, if_true, if_false]
      exact holds_put_throw rfl
  | resize a m =>
    simp only [ApiCall.verdict, ApiCall.run]
    by_cases hd : c.tsize = -1
    · rw [if_neg (not_not.2 hd), if_pos ((isDynamic_iff c).2 hd)]
      have hx := h.objs a hk
      by_cases hm : 0 ≤ m
      · rw [if_pos hm]
        obtain ⟨m, rfl⟩ := Int.eq_ofNat_of_zero_le hm
        obtain ⟨hf, b, e⟩ := hx.eq_obj hv.order
        have er : (st.heap a).resize c m = (.ok (), obj c m (resizeC c (sz a) b)) := by
          rw [e]; exact resize_obj hd b
        refine ⟨⟨.none, by rw [er]; rfl⟩, rfl, ?_, h.arrays⟩
        intro b' hb'
        have hb'' : b' < st.next := hb'
        simp only [ApiSt.set, er, Int.toNat_natCast]
        split_ifs with e'
        · exact wf_obj hv.order (Or.inl hd) _
        · exact h.objs b' hb''
      · rw [if_neg hm]
        refine Or.inr fun sz' hs => ?_
        have := hs.objs a hk
        simp only [ApiSt.set, if_true] at this
        refine not_wf_neg hd ?_ _ this
        unfold DD.resize
        simp only
        split_ifs <;> simp only <;> omega
    · rw [if_pos hd, if_neg (by simp [Cfg.isDynamic, hd])]
      rfl
  | getF a =>
    obtain ⟨hf, b, e⟩ := (h.objs a hk).eq_obj hv.order
    exact holds_tell h ⟨.num (b 0), by rw [e, f_obj]; rfl⟩
  | getSize a => exact holds_tell h ⟨_, rfl⟩
  | getH a i j =>
    obtain ⟨p1, p2⟩ := h_any hv.order hb (h.objs a hk) i j
    simp only [ApiCall.verdict, ApiCall.run]
    split_ifs with hc
    · obtain ⟨v, hr⟩ := p1 hc
      exact holds_tell h ⟨.num v, by rw [hr]; rfl⟩
    · exact holds_tell_ub (by rw [p2 hc]; rfl)
  | getHm a mode =>
    have hx := h.objs a hk
    simp only [ApiCall.verdict, ApiCall.run]
    by_cases h0 : sz a = 0
    · obtain ⟨p1, p2⟩ := hm_zero (h0 ▸ hx) hv.order mode
      rw [if_neg (by simp [h0])]
      split_ifs with hmode
      · obtain ⟨M, hM⟩ := p1 hmode
        exact holds_tell h ⟨.mat M, by rw [hM]; rfl⟩
      · exact holds_tell_throw (by rw [p2 hmode]; rfl)
    · rcases hv.order with h1 | h2
      · rw [if_pos ⟨h1, h0⟩]
        exact holds_tell_ub (by rw [C11_hm_order1_violated h1 (by omega) hx mode]; rfl)
      · rw [if_neg (by omega)]
        obtain ⟨J, hJ⟩ := hx.shows hv.order
        split_ifs with hmode
        · rcases hmode with rfl | rfl
          · obtain ⟨M, hM, _⟩ := C11_hm_zeros h2 hJ
            exact holds_tell h ⟨.mat M, by rw [hM]; rfl⟩
          · obtain ⟨M, hM, _⟩ := C11_hm_full h2 hJ
            exact holds_tell h ⟨.mat M, by rw [hM]; rfl⟩
        · exact holds_tell_throw (by
            rw [C11_hm_other_mode h2 hx (fun e => hmode (Or.inl e)) fun e => hmode (Or.inr e)]; rfl)
  | eval a d =>
    have hx := h.objs a hk
    simp only [ApiCall.verdict, ApiCall.run]
    rw [castLen_size]
    by_cases hl : lenOk c d.length
    · simp only [hl, not_true_eq_false, if_true, if_false, Res.ok_bind]
      split_ifs with hle
      · obtain ⟨v, hr⟩ := eval_ok hv.order hx hle
        exact holds_tell h ⟨.num v, by rw [hr]; rfl⟩
      · exact holds_tell_ub (by rw [eval_short hv.order hx (by omega)]; rfl)
    · simp only [hl, not_false_eq_true, if_true, if_false]
      exact holds_tell_throw rfl
  | cmp o a b =>
    obtain ⟨_, p, ep⟩ := (h.objs a hk.1).eq_obj hv.order
    obtain ⟨_, q, eq⟩ := (h.objs b hk.2).eq_obj hv.order
    exact holds_tell h ⟨.bool (o.scalar (p 0) (q 0)), by
      unfold DD.cmp; rw [ep, eq, f_obj, f_obj]; rfl⟩
  | cmpS o a s =>
    obtain ⟨_, p, ep⟩ := (h.objs a hk).eq_obj hv.order
    exact holds_tell h ⟨.bool (o.scalar (p 0) s), by unfold DD.cmpS; rw [ep, f_obj]; rfl⟩
  | sCmp o s a =>
    obtain ⟨_, p, ep⟩ := (h.objs a hk).eq_obj hv.order
    exact holds_tell h ⟨.bool (o.mirror.scalar (p 0) s), by
      unfold DD.sCmp DD.cmpS; rw [ep, f_obj]; rfl⟩
  | repr a =>
    obtain ⟨_, p, ep⟩ := (h.objs a hk).eq_obj hv.order
    exact holds_tell h ⟨.str (fmt (p 0) ++ "hj"), by unfold DD.toStr; rw [ep, f_obj]; rfl⟩
  | getState a =>
    obtain ⟨xs, hxs, _⟩ := adata_ok (h.objs a hk).init
    exact holds_tell h ⟨.state [.seq xs], by unfold pickleGet; rw [hxs]; rfl⟩
  | data a => exact holds_look h hk _ _
  | grad a => exact holds_look h hk _ _
  | peek w i =>
    have hx := h.objs _ (h.arrays w hk)
    simp only [ApiCall.verdict, ApiCall.run]
    unfold ApiSt.access
    split_ifs with h1 h3 h2 h2
    · exact holds_tell_throw rfl
    · exact absurd h2.1 h3
    · exact holds_tell_ub rfl
    · obtain ⟨v, hr, _⟩ := rd_wf hx h2.2
      exact holds_tell h ⟨.num v, by
        rw [Res.ok_bind]
        rw [show (((st.views w).off : Int) + (i : Int)) = (((st.views w).off + i : Nat) : Int) by simp,
          hr]
        rfl⟩
    · refine holds_tell_ub (u := .outOfBounds) ?_
      rw [Res.ok_bind, rd_oob]
      · rfl
      · right
        rw [hx.len]
        have : ¬ ((st.views w).off + i < storedLen c.order (sz (st.views w).obj)) := fun h =>
          h2 ⟨not_not.1 h3, h⟩
        omega
  | poke w i s =>
    have hx := h.objs _ (h.arrays w hk)
    simp only [ApiCall.verdict, ApiCall.run]
    unfold ApiSt.access
    split_ifs with h1 h3 h2 h2
    · exact holds_put_throw rfl
    · exact absurd h2.1 h3
    · exact holds_put_ub rfl
    · obtain ⟨d, hr, hw⟩ := wr_wf hx h2.2 s
      refine holds_put h ?_ hw
      rw [Res.ok_bind,
        show (((st.views w).off : Int) + (i : Int)) = (((st.views w).off + i : Nat) : Int) by simp, hr]
      rfl
    · refine holds_put_ub (u := .outOfBounds) ?_
      rw [Res.ok_bind, wr_oob]
      · rfl
      · right
        rw [hx.len]
        have : ¬ ((st.views w).off + i < storedLen c.order (sz (st.views w).obj)) := fun h =>
          h2 ⟨not_not.1 h3, h⟩
        omega

/-! ### Frame -/

theorem make_frame (r : Res (DD α)) {b : Nat} (hb : b < st.next) :
    (st.make r).2.heap b = st.heap b ∧ st.next ≤ (st.make r).2.next := by
  cases r with
  | ok x =>
    refine ⟨?_, by simp [ApiSt.make, ApiSt.makeAll, ApiSt.alloc]⟩
    show (if st.next ≤ b then _ else st.heap b) = _
    rw [if_neg (by omega)]
  | _ => exact ⟨rfl, le_refl _⟩

theorem put_frame {a : Nat} (r : Res (DD α)) {b : Nat} (hb : b ≠ a) :
    (st.put a r).2.heap b = st.heap b ∧ st.next ≤ (st.put a r).2.next := by
  cases r with
  | ok x => exact ⟨if_neg hb, le_refl _⟩
  | _ => exact ⟨rfl, le_refl _⟩

theorem inplace_frame {a : Nat} (r : Res Unit × DD α) {b : Nat} (hb : b ≠ a) :
    (st.inplace a r).2.heap b = st.heap b ∧ st.next ≤ (st.inplace a r).2.next :=
  ⟨if_neg hb, le_refl _⟩

/-- **C55, frame.** Whatever a call does, it leaves every existing object other than the one it
writes to exactly as it was.  Only `+=`, `-=`, `*=`, `/=`, the setters, `resize` and array
assignment write to an existing object. -/
theorem C55_frame [CMath α] (c : Cfg) (fmt : α → String) (st : ApiSt α) (k : ApiCall α) {b : Nat}
    (hb : b < st.next) (ht : k.target st ≠ some b) :
    (k.run c fmt st).2.heap b = st.heap b ∧ st.next ≤ (k.run c fmt st).2.next := by
  have ht' : ∀ a, k.target st = some a → b ≠ a := fun a h e => ht (e ▸ h)
  cases k with
  | «variables» vs =>
    simp only [ApiCall.run]
    generalize (do castLen c c.tsize vs; DD.variables c vs) = r
    cases r with
    | ok x =>
      refine ⟨?_, by simp [ApiSt.makeAll, ApiSt.alloc]⟩
      show (if st.next ≤ b then _ else st.heap b) = _
      rw [if_neg (by omega)]
    | _ => exact ⟨rfl, le_refl _⟩
  | asg => exact inplace_frame _ (ht' _ rfl)
  | mulS => exact inplace_frame _ (ht' _ rfl)
  | divS => exact inplace_frame _ (ht' _ rfl)
  | setF => exact put_frame _ (ht' _ rfl)
  | setH => exact put_frame _ (ht' _ rfl)
  | setHm => exact put_frame _ (ht' _ rfl)
  | poke => exact put_frame _ (ht' _ rfl)
  | resize a m =>
    simp only [ApiCall.run]
    split_ifs
    · exact ⟨if_neg (ht' _ rfl), le_refl _⟩
    · exact ⟨rfl, le_refl _⟩
  | getF | getSize | getH | getHm | eval | cmp | cmpS | sCmp | repr | getState | data | grad
  | peek => exact ⟨rfl, le_refl _⟩
  | _ => exact make_frame _ hb

/-! ### Programs -/

/-- **C55, programs.** After any sequence of calls that the table calls safe, in any order and
continuing after exceptions, all objects are well-formed jets of the sizes that the table predicts,
and the table tells exactly which calls are unsafe next: every other call returns or raises. -/
theorem C55_programs [CMath α] (hv : c.Valid) (he : c.exc = true) (hb : c.dbg = false)
    (fmt : α → String) {sz₀ : Nat → Nat} {st₀ : ApiSt α} (h₀ : st₀.Sized c sz₀)
    (hr : Reaches c fmt sz₀ st₀ sz st) :
    st.Sized c sz ∧ ∀ k : ApiCall α, k.Held st →
      (k.verdict c sz st = .danger ↔ (∃ u, (k.run c fmt st).1 = .ub u) ∨
        ∀ sz', ¬ (k.run c fmt st).2.Sized c sz') ∧
      (k.verdict c sz st ≠ .danger →
        (∃ out, (k.run c fmt st).1 = .ok out) ∨ ∃ e, k.run c fmt st = (.throw e, st)) := by
  have hs : st.Sized c sz := by
    induction hr with
    | start => exact h₀
    | returns _ hk hw ih =>
      have := C55_table hv he hb fmt ih _ hk
      rw [hw] at this
      exact this.2.2
    | resizes _ hk hw ih =>
      have := C55_table hv he hb fmt ih _ hk
      rw [hw] at this
      exact this.2.2
    | raises _ hk hw ih =>
      have := C55_table hv he hb fmt ih _ hk
      rw [hw] at this
      rw [this]
      exact ih
  refine ⟨hs, fun k hk => ?_⟩
  have ht := C55_table hv he hb fmt hs k hk
  generalize k.verdict c sz st = v at ht
  cases v with
  | danger => exact ⟨⟨fun _ => ht, fun _ => rfl⟩, fun h => absurd rfl h⟩
  | returns news =>
    obtain ⟨⟨out, ho⟩, _, h'⟩ := ht
    refine ⟨⟨fun h => (Verdict.noConfusion h), ?_⟩, fun _ => Or.inl ⟨out, ho⟩⟩
    rintro (⟨u, hu⟩ | hn)
    · rw [ho] at hu; cases hu
    · exact absurd h' (hn _)
  | resizes a m =>
    obtain ⟨⟨out, ho⟩, _, h'⟩ := ht
    refine ⟨⟨fun h => (Verdict.noConfusion h), ?_⟩, fun _ => Or.inl ⟨out, ho⟩⟩
    rintro (⟨u, hu⟩ | hn)
    · rw [ho] at hu; cases hu
    · exact absurd h' (hn _)
  | raises e =>
    have ht' : k.run c fmt st = (.throw e, st) := ht
    refine ⟨⟨fun h => (Verdict.noConfusion h), ?_⟩, fun _ => Or.inr ⟨e, ht'⟩⟩
    rw [ht']
    rintro (⟨u, hu⟩ | hn)
    · cases hu
    · exact absurd hs (hn _)

/-! ### Concrete cases -/

/-- The shipped build of the dynamic second-order class. -/
abbrev exShip : Cfg := { exDyn2 with dbg := false }

theorem exShip_valid : exShip.Valid := ⟨Or.inr rfl, Or.inl rfl, exRoot⟩

/-- Nothing made yet. -/
noncomputable def exApi0 : ApiSt ℝ := ⟨fun _ => ⟨0, []⟩, 0, fun _ => ⟨0, 0, 0, 0⟩, 0, fun _ => 0⟩

theorem exApi0_sized (c : Cfg) (sz : Nat → Nat) : exApi0.Sized c sz :=
  ⟨fun a ha => absurd ha (Nat.not_lt_zero a), fun w hw => absurd hw (Nat.not_lt_zero w)⟩

/-- Sizes 2 and 3. -/
def exApiSz (a : Nat) : Nat := if a = 0 then 2 else 3

/-- Objects 0 and 1: second-order jets of 2 and of 3 variables; array 0 is `data` of object 0. -/
noncomputable def exApi : ApiSt ℝ where
  heap a := if a = 0 then ⟨2, [some 1, some 2, some 3, some 4, some 5, some 6]⟩
    else ⟨3, [some 1, some 2, some 3, some 4, some 5, some 6, some 7, some 8, some 9, some 10]⟩
  next := 2
  views _ := ⟨0, 0, 0, 6⟩
  nviews := 1
  gen _ := 0

theorem exApi_sized : exApi.Sized exShip exApiSz where
  objs := by
    intro a ha
    have : a = 0 ∨ a = 1 := by have : a < 2 := ha; omega
    rcases this with rfl | rfl
    · exact ⟨Or.inl rfl, rfl, rfl, by simp [exApi]⟩
    · exact ⟨Or.inl rfl, rfl, rfl, by simp [exApi]⟩
  arrays := by intro w _; exact Nat.zero_lt_two

/-- `z = x + y` with jets of 2 and 3 variables raises and changes nothing. -/
example : (ApiCall.bin .add 0 1).run exShip (fun _ => "") exApi =
    (.throw .incompatibleSize, exApi) :=
  C55_table exShip_valid rfl rfl _ exApi_sized (.bin .add 0 1) ⟨Nat.zero_lt_two, Nat.one_lt_two⟩

/-- `z = x.atan2(y)` returns a jet of 2 variables. -/
example : ((ApiCall.bin .atan2 0 1).run exShip (fun _ => "") exApi).2.Sized exShip
    (addSizes exApiSz 2 [2]) :=
  (C55_table exShip_valid rfl rfl (fun _ => "") exApi_sized (.bin .atan2 0 1)
    ⟨Nat.zero_lt_two, Nat.one_lt_two⟩).2.2

/-- `z = y.atan2(x)` is unsafe. -/
example : (ApiCall.bin .atan2 1 0 : ApiCall ℝ).verdict exShip exApiSz exApi = .danger := rfl

/-- `w[5] = 7`, `w` being `x.data`, is safe. -/
example : (ApiCall.poke 0 5 7 : ApiCall ℝ).verdict exShip exApiSz exApi = .returns [] := rfl

/-- `x.resize(3)` is safe, then `w[5] = 7` is unsafe: the storage has moved. -/
example : ∃ sz st, Reaches exShip (fun _ => "") exApiSz exApi sz st ∧ st.Sized exShip sz ∧
    sz 0 = 3 ∧ (ApiCall.poke 0 5 7 : ApiCall ℝ).verdict exShip sz st = .danger := by
  have h : Reaches exShip (fun _ => "") exApiSz exApi _ _ :=
    .resizes (k := .resize 0 3) (a := 0) (m := 3) .start (show 0 < 2 by decide) rfl
  refine ⟨_, _, h, (C55_programs exShip_valid rfl rfl _ exApi_sized h).1, rfl, ?_⟩
  have : ((ApiCall.resize 0 3 : ApiCall ℝ).run exShip (fun _ => "") exApi).2.gen 0 = 1 := rfl
  simp only [ApiCall.verdict]
  rw [if_neg (by decide), if_neg]
  rintro ⟨h1, _⟩
  exact absurd (h1 : 1 = 0) (by decide)

/-- `x.resize(1)` keeps the storage; `w[5]` is then past the end. -/
example : ∃ sz st, Reaches exShip (fun _ => "") exApiSz exApi sz st ∧ sz 0 = 1 ∧
    (ApiCall.peek 0 2 : ApiCall ℝ).verdict exShip sz st = .returns [] ∧
    (ApiCall.peek 0 5 : ApiCall ℝ).verdict exShip sz st = .danger ∧
    (ApiCall.peek 0 6 : ApiCall ℝ).verdict exShip sz st = .raises .indexError := by
  have h : Reaches exShip (fun _ => "") exApiSz exApi _ _ :=
    .resizes (k := .resize 0 1) (a := 0) (m := 1) .start (show 0 < 2 by decide) rfl
  exact ⟨_, _, h, rfl, rfl, rfl, rfl⟩

/-- From nothing: `x, y = DDScalar.variables([1, 2])`, then `x += y`. -/
example : ∃ sz st, Reaches exShip (fun _ => "") (fun _ => 0) exApi0 sz st ∧ st.Sized exShip sz ∧
    sz 0 = 2 ∧ sz 1 = 2 ∧ st.next = 2 := by
  have h : Reaches exShip (fun _ => "") (fun _ => 0) exApi0 _ _ :=
    .returns (k := .variables [1, 2]) (news := [2, 2]) .start trivial rfl
  have h1 : Reaches exShip (fun _ => "") (fun _ => 0) exApi0 _ _ :=
    .returns (k := .asg .add 0 1) (news := []) h (by
      have := (C55_table exShip_valid rfl rfl (fun _ => "") (exApi0_sized exShip (fun _ => 0))
        (.variables [1, 2]) trivial).2.1
      refine ⟨?_, ?_⟩ <;> rw [this] <;> decide) rfl
  exact ⟨_, _, h1, (C55_programs exShip_valid rfl rfl _ (exApi0_sized _ _) h1).1, rfl, rfl, rfl⟩

/-- `x += y` leaves `y` alone. -/
example : ((ApiCall.asg .add 0 0).run exShip (fun _ => "") exApi).2.heap 1 = exApi.heap 1 :=
  (C55_frame exShip (fun _ => "") exApi (.asg .add 0 0) (b := 1) Nat.one_lt_two (by decide)).1

end HJ
