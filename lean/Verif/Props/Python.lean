import Verif.Model.Python
import Verif.Props.Construct
import Verif.Props.Matrix

/-!
# C06, C10, C48: pickling, `hj.variables`, `hj.f`/`hj.d`/`hj.dd`
-/

namespace HJ

open DD

variable {α : Type} {c : Cfg} {n : Nat}

theorem mapM_ok {A B : Type} {f : A → Res B} {g : A → B} {l : List A}
    (h : ∀ a ∈ l, f a = .ok (g a)) : l.mapM f = .ok (l.map g) := by
  induction l with
  | nil => rfl
  | cons a l ih =>
    rw [List.mapM_cons, h a (by simp), ih (fun b hb => h b (by simp [hb]))]
    rfl

theorem mapM_forall₂ {A B : Type} {f : A → Res B} {l : List A} {m : List B}
    (h : List.Forall₂ (fun a b => f a = .ok b) l m) : l.mapM f = .ok m := by
  induction h with
  | nil => rfl
  | cons h1 _ ih => rw [List.mapM_cons, h1, ih]; rfl

/-! ### C06 -/

/-- All stored values of an initialised jet, in storage order. -/
theorem adata_ok {x : DD α} (hi : ∀ cell ∈ x.mData, cell ≠ none) :
    ∃ xs, x.adata = .ok xs ∧ xs.map some = x.mData := by
  have hv : ∀ k < x.mData.length, ∃ v, x.mData[k]? = some (some v) := by
    intro k hk
    have hm := List.getElem_mem hk
    cases hc : x.mData[k] with
    | none => exact absurd hc (hi _ hm)
    | some v => exact ⟨v, by rw [List.getElem?_eq_getElem hk, hc]⟩
  have key : ∀ m ≤ x.mData.length, ∃ xs : List α, xs.map some = x.mData.take m := by
    intro m hm
    induction m with
    | zero => exact ⟨[], by simp⟩
    | succ m ih =>
      obtain ⟨xs, h⟩ := ih (by omega)
      obtain ⟨v, h'⟩ := hv m (by omega)
      exact ⟨xs ++ [v], by rw [List.take_add_one, h']; simp [h]⟩
  choose! st hst using key
  refine ⟨st x.mData.length, ?_, by rw [hst _ (Nat.le_refl _)]; simp⟩
  have inj : ∀ {l m : List α}, l.map some = m.map some → l = m := by
    intro l m h
    simpa [List.filterMap_map] using congrArg (List.filterMap id) h
  unfold DD.adata DD.len
  refine forUp_eq' (lo := 0) (hi := x.mData.length) st (zlo := 0) rfl rfl ?_ (Nat.zero_le _) ?_
  · apply inj; rw [hst 0 (Nat.zero_le _)]; simp
  · intro i _ hilt
    obtain ⟨v, h'⟩ := hv i hilt
    have hr : rd x.mData (i : Int) = .ok v := by
      unfold rd
      rw [if_neg (by omega), Int.toNat_natCast, h']
    simp only [hr, Res.ok_bind]
    congr 1
    apply inj
    rw [hst (i + 1) (by omega), List.take_add_one, h', List.map_append, hst i (by omega)]
    simp

/-- **C06, round trip.** Unpickling the pickled state gives back the jet, with the same size and the
same data (the decoding of the length of a dynamic jet is only faithful where `assert` is off or
exceptions are on, see C47). -/
theorem C06_round_trip (hv : c.Valid) (hb : c.exc = true ∨ c.dbg = false) {x : DD α}
    (hx : WF c n x) : ∃ st, pickleGet x = .ok st ∧ pickleSet c st = .ok x := by
  obtain ⟨xs, h1, h2⟩ := adata_ok hx.init
  refine ⟨[.seq xs], by unfold pickleGet; rw [h1]; rfl, ?_⟩
  have hlen : xs.length = storedLen c.order n := by rw [← hx.len, ← h2, List.length_map]
  have hs : sizeFromDataLength c (xs.length : Nat) = .ok (n : Int) := by
    cases he : c.exc with
    | true => exact ((C05_length_decoding hv he xs.length).1 n).2 hlen
    | false =>
      have hd : c.dbg = false := by simpa [he] using hb
      exact (C47_release_accepts hv he hd xs.length).2 n hlen
  obtain ⟨s, d⟩ := x
  have hms := hx.msize
  simp only at h2 hms
  unfold pickleSet
  by_cases hd : c.tsize = -1
  · rw [if_pos hd] at hms
    simp [(isDynamic_iff c).2 hd, hs, h2, hms]
  · rw [if_neg hd] at hms
    have hdyn : c.isDynamic = false := by simp [Cfg.isDynamic, hd]
    have ht : c.tsize = n := hx.fits.resolve_left hd
    have : (xs.length : Int) = c.staticDataSize := by
      rw [show c.staticDataSize = dataLengthFromSize c c.tsize from rfl, ht, hlen,
        dataLength_stored hv]
    simp [hdyn, h2, hms, this]

/-- **C06, rejection.** A state tuple that does not have exactly one entry, or whose entry is not a
sequence of numbers, is rejected. -/
theorem C06_rejects_shape (c : Cfg) (st : List (PyVal α)) (h : ∀ xs, st ≠ [.seq xs]) :
    (st.length ≠ 1 → pickleSet c st = .throw .invalidState) ∧
    (st.length = 1 → pickleSet c st = .throw .typeError) := by
  match st, h with
  | [], _ => simp [pickleSet]
  | [.seq xs], h => exact absurd rfl (h xs)
  | [.other], _ => simp [pickleSet]
  | _ :: _ :: _, _ => simp [pickleSet]

/-- **C06, rejection of data of invalid length.** A non-empty data sequence is accepted exactly if
its length is that of a jet of the class, and then gives the jet with these data. -/
theorem C06_accepts_iff_length (hv : c.Valid) (he : c.exc = true) (xs : List α) (hne : xs ≠ []) :
    (∀ x, pickleSet c [.seq xs] = .ok x →
      ∃ n, xs.length = storedLen c.order n ∧ WF c n x ∧ x.mData = xs.map some) ∧
    ((∃ n : Nat, (c.tsize = -1 ∨ c.tsize = n) ∧ xs.length = storedLen c.order n) →
      ∃ x, pickleSet c [.seq xs] = .ok x) ∧
    ((¬ ∃ n : Nat, (c.tsize = -1 ∨ c.tsize = n) ∧ xs.length = storedLen c.order n) →
      ∃ err, pickleSet c [.seq xs] = .throw err) := by
  obtain ⟨d1, d2, _⟩ := C05_length_decoding hv he xs.length
  have h0 : xs.length ≠ 0 := by simpa using hne
  have hinit : ∀ cell ∈ xs.map some, cell ≠ none := by
    intro cell hcell; rw [List.mem_map] at hcell
    obtain ⟨v, _, rfl⟩ := hcell; simp
  by_cases hd : c.tsize = -1
  · have hdyn := (isDynamic_iff c).2 hd
    by_cases hn : ∃ n, xs.length = storedLen c.order n
    · obtain ⟨n, hn⟩ := hn
      have e : pickleSet c [.seq xs] = .ok ⟨n, xs.map some⟩ := by
        simp [pickleSet, hdyn, (d1 n).2 hn]
      refine ⟨?_, fun _ => ⟨_, e⟩, fun h => absurd ⟨n, Or.inl hd, hn⟩ h⟩
      intro x hx
      rw [e] at hx
      cases hx
      exact ⟨n, hn, ⟨Or.inl hd, by simp [hd], by simp [hn], hinit⟩, rfl⟩
    · have e : pickleSet c [.seq xs] = .throw .invalidLength := by
        simp [pickleSet, hdyn, d2 h0 hn]
      exact ⟨fun x hx => by simp [e] at hx, fun ⟨n, _, h⟩ => absurd ⟨n, h⟩ hn, fun _ => ⟨_, e⟩⟩
  · have hdyn : c.isDynamic = false := by simp [Cfg.isDynamic, hd]
    obtain ⟨N, hN⟩ : ∃ N : Nat, c.tsize = N := by
      rcases hv.tsize with h | h
      · exact absurd h hd
      · exact ⟨c.tsize.toNat, by omega⟩
    have hsd : c.staticDataSize = storedLen c.order N := by
      rw [show c.staticDataSize = dataLengthFromSize c c.tsize from rfl, hN, dataLength_stored hv]
    by_cases hn : xs.length = storedLen c.order N
    · have e : pickleSet c [.seq xs] = .ok ⟨0, xs.map some⟩ := by
        simp [pickleSet, hdyn, hsd, hn]
      refine ⟨?_, fun _ => ⟨_, e⟩, fun h => absurd ⟨N, Or.inr hN, hn⟩ h⟩
      intro x hx
      rw [e] at hx
      cases hx
      exact ⟨N, hn, ⟨Or.inr hN, by simp [hd], by simp [hn], hinit⟩, rfl⟩
    · have e : pickleSet c [.seq xs] = .throw .typeError := by
        simp [pickleSet, hdyn, hsd]; exact_mod_cast hn
      refine ⟨fun x hx => by simp [e] at hx, fun ⟨n, h1, h⟩ => ?_, fun _ => ⟨_, e⟩⟩
      have : n = N := by
        have := h1.resolve_left hd; omega
      rw [this] at h; exact absurd h hn

/-- **C06 does not hold for empty data.** A dynamic class accepts the empty sequence, whose length
is that of no jet, and builds an object of size `-1`. -/
theorem C06_violated_empty (hv : c.Valid) (he : c.exc = true) (hd : c.tsize = -1) :
    ∃ x, pickleSet c [.seq ([] : List α)] = .ok x ∧ x.size c = -1 ∧ ∀ n, ¬ WF c n x := by
  have hdyn : c.isDynamic = true := (isDynamic_iff c).2 hd
  obtain ⟨_, _, h3⟩ := C05_length_decoding hv he 0
  refine ⟨⟨-1, []⟩, ?_, by simp [DD.size, hdyn], ?_⟩
  · have := h3 rfl
    simp only [Nat.cast_zero] at this
    simp [pickleSet, hdyn, this]
  · intro n hx
    have := hx.msize
    simp only [hd, if_true] at this
    omega

/-- **C06, no pickled state of another object is confused.** Equal states come from equal jets. -/
theorem C06_injective {x y : DD α} (hx : WF c n x) {m : Nat} (hy : WF c m y) (hv : c.Valid)
    (h : pickleGet x = pickleGet y) : x = y := by
  obtain ⟨xs, h1, h2⟩ := adata_ok hx.init
  obtain ⟨ys, h3, h4⟩ := adata_ok hy.init
  unfold pickleGet at h
  rw [h1, h3] at h
  simp only [Res.ok_bind, Res.ok.injEq, List.cons.injEq, and_true, PyVal.seq.injEq] at h
  have hd : x.mData = y.mData := by rw [← h2, ← h4, h]
  have hm : n = m := storedLen_inj hv (by rw [← hx.len, ← hy.len, hd])
  obtain ⟨s, d⟩ := x
  obtain ⟨s', d'⟩ := y
  have h5 := hx.msize
  have h6 := hy.msize
  simp only at h5 h6 hd
  subst hm
  rw [h5, h6, hd]

example : ∃ st, pickleGet exJet = .ok st ∧ pickleSet exDyn2 st = .ok exJet :=
  C06_round_trip exDyn2_valid (Or.inl rfl) exJet_wf
example : ∃ st, pickleGet exJetS = .ok st ∧ pickleSet exSta2 st = .ok exJetS :=
  C06_round_trip exSta2_valid (Or.inl rfl) exJetS_wf
example : pickleSet exDyn2 ([.other, .seq [1]] : List (PyVal ℚ)) = .throw .invalidState :=
  (C06_rejects_shape exDyn2 _ (by simp)).1 (by simp)
example : ∃ x, pickleSet exDyn1 [.seq ([5, 7] : List ℚ)] = .ok x :=
  (C06_accepts_iff_length exDyn1_valid rfl _ (by simp)).2.1 ⟨1, Or.inl rfl, rfl⟩
example : ∃ err, pickleSet exSta2 [.seq ([1, 2, 3] : List ℚ)] = .throw err := by
  refine (C06_accepts_iff_length exSta2_valid rfl _ (by simp)).2.2 ?_
  rintro ⟨n, h, h'⟩
  have : n = 2 := by rcases h with h | h <;> simp [exCfg] at h; omega
  subst this
  simp [storedLen, exCfg] at h'

/-! ### C10 -/

theorem dispatchSize_spec (k : Nat) : dispatchSize k = if k = 0 then none
    else if k ≤ 15 then some (k : Int) else some (-1) := by
  by_cases h : k ≤ 15
  · interval_cases k <;> rfl
  · rw [if_neg (by omega), if_neg h]
    unfold dispatchSize
    split <;> first | rfl | omega

/-- The element is a jet of `n` variables of the given order showing `J`. -/
def ElemShows (order n : Nat) (J : Jet α) (e : PyElem α) : Prop :=
  ∃ c x, e = .jet c x ∧ c.order = order ∧ Shows c n x J

/-- **C10, orders 1 and 2.** `n` values give `n` jets of `n` variables, the `i`-th with value
`values[i]`, gradient `e_i` and zero Hessian; up to 15 values they are of the fixed-size class of
that size, beyond of the dynamic class. -/
theorem C10_variables [Arith α] (hv : c.Valid) (values : List α) {order : Nat}
    (ho : order = 1 ∨ order = 2) :
    ∃ es, hjVariables c values order = .ok es ∧ es.length = values.length ∧
      ∀ (i : Nat) (w : α), values[i]? = some w → ∃ e, es[i]? = some e ∧
        ElemShows order values.length (unitJet i w) e ∧
        ∃ cx x, e = .jet cx x ∧
          cx.tsize = if values.length ≤ 15 then (values.length : Int) else -1 := by
  have e1 : hjVariables c values order = hjVariablesOf c values order := by
    unfold hjVariables
    rcases ho with rfl | rfl <;> simp
  rw [e1]
  unfold hjVariablesOf
  rw [dispatchSize_spec]
  by_cases h0 : values.length = 0
  · rw [if_pos h0]
    refine ⟨[], rfl, by simp [h0], ?_⟩
    intro i w h
    have : values = [] := List.length_eq_zero_iff.1 h0
    simp [this] at h
  rw [if_neg h0]
  have main : ∀ t : Int, (t = -1 ∨ t = values.length) → 
      t = (if values.length ≤ 15 then (values.length : Int) else -1) →
      ∃ es, (do
        let vars ← DD.variables { c with order := order, tsize := t } values
        Res.ok (vars.map (PyElem.jet { c with order := order, tsize := t }))) = .ok es ∧
        es.length = values.length ∧
        ∀ (i : Nat) (w : α), values[i]? = some w → ∃ e, es[i]? = some e ∧
          ElemShows order values.length (unitJet i w) e ∧
          ∃ cx x, e = .jet cx x ∧
            cx.tsize = if values.length ≤ 15 then (values.length : Int) else -1 := by
    intro t ht ht'
    have hv' : ({ c with order := order, tsize := t } : Cfg).Valid :=
      ⟨ho, by rcases ht with h | h
              · exact Or.inl h
              · exact Or.inr (by simp only; omega), hv.root⟩
    obtain ⟨xs, hxs, hl, hi⟩ := (C08_factory_contents (c := { c with order := order, tsize := t })
      hv' ht (Arith.lit 0 : α)).2.2.2 values rfl
    refine ⟨_, by rw [hxs]; rfl, by simp [hl], ?_⟩
    intro i w hw
    obtain ⟨x, h1, _, h2⟩ := hi i w hw
    exact ⟨_, by rw [List.getElem?_map, h1]; rfl, ⟨_, x, rfl, rfl, h2⟩, _, x, rfl, ht'⟩
  by_cases h15 : values.length ≤ 15
  · rw [if_pos h15]
    exact main _ (Or.inr rfl) (by rw [if_pos h15])
  · rw [if_neg h15]
    exact main _ (Or.inl rfl) (by rw [if_neg h15])

/-- **C10, order 0 and invalid orders.** Order 0 gives the values themselves, any order other than
0, 1, 2 raises. -/
theorem C10_other_orders [Arith α] (c : Cfg) (values : List α) :
    hjVariables c values 0 = .ok (values.map .float) ∧
    ∀ order : Int, order ≠ 0 → order ≠ 1 → order ≠ 2 →
      hjVariables c values order = .throw .invalidOrder := by
  refine ⟨by simp [hjVariables], fun order h0 h1 h2 => ?_⟩
  unfold hjVariables
  rw [if_pos (by omega)]

example : ∃ es, hjVariables exDyn2 (List.replicate 20 (3 : ℚ)) ((2 : Nat) : Int) = .ok es ∧
    es.length = 20 := by
  obtain ⟨es, h1, h2, _⟩ := C10_variables exDyn2_valid (List.replicate 20 (3 : ℚ)) (order := 2)
    (Or.inr rfl)
  exact ⟨es, h1, by simpa using h2⟩

/-! ### C48 -/

/-- What a user understands an array element to be: a number, a jet of some order and size, or a
sparse jet with some value and derivatives. -/
inductive Content (α : Type) where
  | int (z : Int)
  | float (v : α)
  | jet (order n : Nat) (J : Jet α)
  | sparse (f : α)

/-- The element has this content. -/
def Content.Is : PyElem α → Content α → Prop
  | .int z, .int z' => z = z'
  | .float v, .float v' => v = v'
  | .jet c x, .jet order n J => c.order = order ∧ (order = 1 ∨ order = 2) ∧ Shows c n x J
  | .sjet x, .sparse f => x.f = .ok f
  | _, _ => False

/-- Value of the content. -/
def Content.val : Content α → PyNum α
  | .int z => .int z
  | .float v => .float v
  | .jet _ _ J => .float J.f
  | .sparse f => .float f

theorem elemF_ok {e : PyElem α} {k : Content α} (h : Content.Is e k) : elemF e = .ok k.val := by
  cases e <;> cases k <;> simp only [Content.Is] at h
  · simp [elemF, Content.val, h]
  · simp [elemF, Content.val, h]
  · simp [elemF, Content.val, h.2.2.f]
  · simp [elemF, Content.val, h]

theorem outF_ok {xs : List (PyElem α)} {ks : List (Content α)}
    (h : List.Forall₂ Content.Is xs ks) : xs.mapM elemF = .ok (ks.map Content.val) := by
  apply mapM_forall₂
  induction h with
  | nil => exact .nil
  | cons h1 _ ih => exact .cons (elemF_ok h1) ih

/-- **C48, `hj.f`.** If the first element is not an integer, the result is the array of the values;
numbers are unchanged (integers become the equal floating point number). -/
theorem C48_f [Arith α] (trunc : α → Option Int) {e : PyElem α} {es : List (PyElem α)}
    {ks : List (Content α)} (h : List.Forall₂ Content.Is (e :: es) ks) (h0 : ∀ z, e ≠ .int z) :
    hjF trunc (e :: es) = .ok (.floats (ks.map fun
      | .int z => Arith.lit z
      | .float v => v
      | .jet _ _ J => J.f
      | .sparse f => f)) := by
  unfold hjF
  rw [outF_ok h, Res.ok_bind]
  cases h with
  | cons h1 h2 =>
    rename_i k ks
    have : ∃ v, k.val = .float v := by
      cases e <;> cases k <;> simp only [Content.Is] at h1
      · exact absurd rfl (h0 _)
      · exact ⟨_, rfl⟩
      · exact ⟨_, rfl⟩
      · exact ⟨_, rfl⟩
    obtain ⟨v, hv⟩ := this
    simp only [List.map_cons, hv]
    simp only [Res.ok.injEq, PyArr.floats.injEq, List.cons.injEq, List.map_map]
    refine ⟨?_, List.map_congr_left fun k' _ => by cases k' <;> rfl⟩
    cases k <;> simp only [Content.val, PyNum.float.injEq] at hv
    · cases hv
    · rw [← hv]; rfl
    · rw [← hv]; rfl
    · rw [← hv]; rfl

/-- **C48 does not hold for `hj.f` when the first element is an integer:** the result is an integer
array, the value of a later jet is truncated (or, if it has no integer value, an error is
raised). -/
theorem C48_f_violated_integer_first [Arith α] (trunc : α → Option Int) (z : Int) {cx : Cfg}
    {x : DD α} {J : Jet α} (hx : Shows cx n x J) :
    hjF trunc [.int z, .jet cx x] =
      match trunc J.f with
      | some t => .ok (.ints [z, t])
      | none => .throw .valueError := by
  simp only [hjF, List.mapM_cons, List.mapM_nil, elemF, hx.f, Res.ok_bind, Res.pure_eq,
    PyNum.toInt]
  cases trunc J.f <;> rfl

theorem assign1_self (r : List α) : assign1 r.length r = .ok r := by
  unfold assign1
  split
  · rfl
  · simp

theorem elemD_ok {e : PyElem α} {o n : Nat} {J : Jet α} (h : Content.Is e (.jet o n J)) :
    elemD e = .ok ((List.range n).map J.g) := by
  cases e <;> simp only [Content.Is] at h
  obtain ⟨h1, h2, h3⟩ := h
  exact C11_ag (by rw [h1]; exact h2) h3

/-- **C48, `hj.d` of jets.** Jets of the same number of variables (of any classes and orders) give
the array of their gradients. -/
theorem C48_d {e : PyElem α} {es : List (PyElem α)} {k : Nat × Jet α} {ks : List (Nat × Jet α)}
    (h : List.Forall₂ (fun e k => Content.Is e (.jet k.1 n k.2)) (e :: es) (k :: ks)) :
    hjD (e :: es) = .ok ((k :: ks).map fun k => (List.range n).map k.2.g) := by
  obtain ⟨h1, h2⟩ := List.forall₂_cons.1 h
  simp only [hjD]
  rw [elemD_ok h1, Res.ok_bind]
  rw [mapM_forall₂ (m := ks.map fun k => (List.range n).map k.2.g)]
  · rfl
  · clear h
    induction h2 with
    | nil => exact .nil
    | @cons e' k' _ _ h1' _ ih =>
      refine .cons ?_ ih
      rw [elemD_ok h1', Res.ok_bind]
      have := assign1_self ((List.range n).map k'.2.g)
      simpa using this

/-- **C48, `hj.d` of numbers.** Numbers have empty gradients; so have all elements that are not dense
jets. -/
theorem C48_d_numbers {xs : List (PyElem α)} (hne : xs ≠ [])
    (h : ∀ e ∈ xs, ∀ c x, e ≠ .jet c x) : hjD xs = .ok (List.replicate xs.length []) := by
  have hE : ∀ e : PyElem α, (∀ c x, e ≠ .jet c x) → elemD e = .ok [] := by
    intro e he; cases e with
    | jet c x => exact absurd rfl (he c x)
    | _ => rfl
  cases xs with
  | nil => exact absurd rfl hne
  | cons e es =>
    simp only [hjD]
    rw [hE e (h e (by simp)), Res.ok_bind, mapM_ok (g := fun _ => ([] : List α))]
    · rw [List.map_const']; rfl
    · intro a ha
      rw [hE a (h a (by simp [ha]))]
      rfl

theorem elemD_float (v : α) : elemD (.float v) = .ok [] := rfl

/-- **C48 does not hold for arrays mixing numbers and jets.** Behind a number, `hj.d` drops the
gradient of a jet of one variable and raises on a jet of two or more; behind a jet of `n ≥ 1`
variables it raises on a number. -/
theorem C48_d_violated_mixed (v : α) {e : PyElem α} {o n : Nat} {J : Jet α}
    (h : Content.Is e (.jet o n J)) :
    (n = 1 → hjD [.float v, e] = .ok [[], []]) ∧
    (2 ≤ n → hjD [.float v, e] = .throw .valueError) ∧
    (1 ≤ n → hjD [e, .float v] = .throw .valueError) := by
  refine ⟨?_, ?_, ?_⟩
  · rintro rfl
    simp [hjD, List.mapM_cons, List.mapM_nil, elemD_ok h, elemD_float, assign1, List.range_succ]
  · intro hn
    have hl : ((List.range n).map J.g).length = n := by simp
    have : assign1 0 ((List.range n).map J.g) = .throw .valueError := by
      unfold assign1
      split
      · rename_i w hw; rw [hw] at hl; simp at hl; omega
      · rw [if_neg (by omega)]
    simp [hjD, List.mapM_cons, List.mapM_nil, elemD_ok h, elemD_float, this]
  · intro hn
    have : n ≠ 0 := by omega
    simp [hjD, List.mapM_cons, List.mapM_nil, elemD_ok h, elemD_float, assign1, Ne.symm this]

theorem elemDD_ok [Arith α] {e : PyElem α} {n : Nat} {J : Jet α}
    (h : Content.Is e (.jet 2 n J)) : ∃ M, elemDD e = .ok M ∧ IsMat n M J.h := by
  cases e <;> simp only [Content.Is] at h
  exact C11_hm_full h.1 h.2.2

/-- **C48, `hj.dd` of jets.** Second-order jets of the same number of variables give the array of
their Hessian matrices. -/
theorem C48_dd [Arith α] {e : PyElem α} {es : List (PyElem α)} {J : Jet α} {Js : List (Jet α)}
    (h : List.Forall₂ (fun e J => Content.Is e (.jet 2 n J)) (e :: es) (J :: Js)) :
    ∃ Ms, hjDD (e :: es) = .ok Ms ∧ List.Forall₂ (fun M J => IsMat n M J.h) Ms (J :: Js) := by
  obtain ⟨h1, h2⟩ := List.forall₂_cons.1 h
  obtain ⟨M, hM, hM'⟩ := elemDD_ok h1
  have key : ∃ Ms, (es.mapM fun e => do
      let r' ← elemDD e
      assign2 M.rows M.cols r') = .ok Ms ∧ List.Forall₂ (fun M J => IsMat n M J.h) Ms Js := by
    clear h
    induction h2 with
    | nil => exact ⟨[], rfl, .nil⟩
    | @cons e' J' _ _ h1' _ ih =>
      obtain ⟨Ms, ih1, ih2⟩ := ih
      obtain ⟨M', hm, hm'⟩ := elemDD_ok h1'
      have ha : assign2 M.rows M.cols M' = .ok M' := by
        unfold assign2
        rw [if_pos ⟨Or.inl (by rw [hm'.rows, hM'.rows]), Or.inl (by rw [hm'.cols, hM'.cols])⟩]
        simp [hm'.rows, hM'.rows, hm'.cols, hM'.cols]
        obtain ⟨_, _, _⟩ := M'
        simp only [Mat.mk.injEq, and_true]
        exact ⟨hm'.rows.symm, hm'.cols.symm⟩
      refine ⟨M' :: Ms, ?_, .cons hm' ih2⟩
      rw [List.mapM_cons, hm, Res.ok_bind, ha, ih1]
      rfl
  obtain ⟨Ms, h3, h4⟩ := key
  refine ⟨M :: Ms, ?_, .cons hM' h4⟩
  simp only [hjDD]
  rw [hM, Res.ok_bind, h3]
  rfl

theorem elemDD_number [Arith α] {e : PyElem α} (h : ∀ c x, e ≠ .jet c x) :
    elemDD e = .ok ⟨0, 0, fun _ _ => none⟩ := by
  cases e with
  | jet c x => exact absurd rfl (h c x)
  | _ => rfl

/-- **C48, `hj.dd` of numbers.** Numbers have `0 × 0` Hessians; so have all elements that are not
dense jets. -/
theorem C48_dd_numbers [Arith α] {xs : List (PyElem α)} (hne : xs ≠ [])
    (h : ∀ e ∈ xs, ∀ c x, e ≠ .jet c x) :
    ∃ Ms, hjDD xs = .ok Ms ∧ Ms.length = xs.length ∧ ∀ M ∈ Ms, M.rows = 0 ∧ M.cols = 0 := by
  cases xs with
  | nil => exact absurd rfl hne
  | cons e es =>
    simp only [hjDD]
    rw [elemDD_number (h e (by simp)), Res.ok_bind,
      mapM_ok (g := fun _ => (⟨0, 0, fun _ _ => none⟩ : Mat α))]
    · refine ⟨_, rfl, by simp, ?_⟩
      intro M hM
      simp only [List.mem_cons, List.mem_map] at hM
      rcases hM with rfl | ⟨_, _, rfl⟩ <;> exact ⟨rfl, rfl⟩
    · intro a ha
      rw [elemDD_number (h a (by simp [ha])), Res.ok_bind]
      simp [assign2]

/-- **C48 does not hold for arrays mixing numbers and jets.** Next to a number, `hj.dd` raises on a
second-order jet of two or more variables, and drops the Hessian of a jet of one variable behind a
number. -/
theorem C48_dd_violated_mixed [Arith α] (v : α) {e : PyElem α} {J : Jet α}
    (h : Content.Is e (.jet 2 n J)) :
    (n = 1 → ∃ M M', hjDD [.float v, e] = .ok [M, M'] ∧ M'.rows = 0 ∧ M'.cols = 0) ∧
    (2 ≤ n → hjDD [.float v, e] = .throw .valueError) ∧
    (1 ≤ n → hjDD [e, .float v] = .throw .valueError) := by
  obtain ⟨M, h1, h2⟩ := elemDD_ok h
  have h3 : elemDD (.float v) = .ok ⟨0, 0, fun _ _ => none⟩ := rfl
  refine ⟨?_, ?_, ?_⟩
  · rintro rfl
    have h4 : ∃ M', assign2 0 0 M = .ok M' ∧ M'.rows = 0 ∧ M'.cols = 0 := by
      unfold assign2
      rw [if_pos (by rw [h2.rows, h2.cols]; simp)]
      exact ⟨_, rfl, rfl, rfl⟩
    obtain ⟨M', h4, h5⟩ := h4
    refine ⟨⟨0, 0, fun _ _ => none⟩, M', ?_, h5⟩
    simp only [hjDD, List.mapM_cons, List.mapM_nil, h1, h3, Res.ok_bind, h4]
    rfl
  · intro hn
    simp only [hjDD, List.mapM_cons, List.mapM_nil, h1, h3, Res.ok_bind, assign2, h2.rows, h2.cols]
    rw [if_neg (by omega)]
    rfl
  · intro hn
    simp only [hjDD, List.mapM_cons, List.mapM_nil, h1, h3, Res.ok_bind, assign2, h2.rows, h2.cols]
    rw [if_neg (by omega)]
    rfl

/-- **C48 does not hold for first-order jets.** With at least one variable `hj.dd` reads outside the
storage of the first one it meets. -/
theorem C48_dd_violated_order1 [Arith α] (hn : 0 < n) {e : PyElem α} {J : Jet α}
    (h : Content.Is e (.jet 1 n J)) (es : List (PyElem α)) :
    hjDD (e :: es) = .ub .outOfBounds := by
  cases e <;> simp only [Content.Is] at h
  simp only [hjDD, elemDD]
  rw [C11_hm_order1_violated h.1 hn h.2.2.wf]
  rfl

/-- **C48 does not hold for sparse scalars:** whatever derivatives they hold, `hj.d` gives empty
gradients and `hj.dd` empty matrices, without an error. -/
theorem C48_violated_sparse [Arith α] {xs : List (PyElem α)} (hne : xs ≠ [])
    (h : ∀ e ∈ xs, ∃ x, e = .sjet x) :
    hjD xs = .ok (List.replicate xs.length []) ∧
    ∃ Ms, hjDD xs = .ok Ms ∧ Ms.length = xs.length ∧ ∀ M ∈ Ms, M.rows = 0 ∧ M.cols = 0 := by
  have h' : ∀ e ∈ xs, ∀ c x, e ≠ .jet c x := by
    intro e he c x hc
    obtain ⟨y, rfl⟩ := h e he
    cases hc
  exact ⟨C48_d_numbers hne h', C48_dd_numbers hne h'⟩

/-- **C48, empty arrays raise.** -/
theorem C48_empty [Arith α] (trunc : α → Option Int) :
    hjF trunc ([] : List (PyElem α)) = .throw .valueError ∧
    hjD ([] : List (PyElem α)) = .throw .valueError ∧
    hjDD ([] : List (PyElem α)) = .throw .valueError := ⟨rfl, rfl, rfl⟩

/-- **C11, flat data.** `set_adata` replaces value, gradient and Hessian by the given numbers in
storage order, which `adata` then returns; a list of the wrong length aborts with assertions on. -/
theorem C11_set_data {x : DD α} (hx : WF c n x) (value : List α) :
    (value.length = storedLen c.order n → ∃ y, x.setAdata c value = .ok y ∧ WF c n y ∧
      y.adata = .ok value) ∧
    (value.length ≠ storedLen c.order n → c.dbg = true → x.setAdata c value = .abort) := by
  constructor
  · intro hl
    have hlen : x.mData.length = value.length := by rw [hx.len, hl]
    have hloop := forUp_eq' (lo := 0) (hi := x.mData.length)
      (st := fun m => (value.take m).map some ++ x.mData.drop m)
      (body := fun i d => do
        let v ← DD.rdVal value i
        wr d i v) (zlo := 0) (zhi := x.len) (s := x.mData) rfl rfl (by simp) (Nat.zero_le _) (by
        intro i _ hi
        have hr : DD.rdVal value (i : Int) = .ok value[i] := by
          unfold DD.rdVal
          rw [if_neg (by omega), Int.toNat_natCast, List.getElem?_eq_getElem (by omega)]
        simp only [hr, Res.ok_bind]
        unfold wr
        rw [if_neg (by simp; omega)]
        congr 1
        simp only [Int.toNat_natCast]
        rw [List.set_append_right _ _ (by simp)]
        have e : i - ((value.take i).map some).length = 0 := by simp; omega
        rw [e, List.drop_eq_getElem_cons hi, List.set_cons_zero, List.take_add_one,
          List.getElem?_eq_getElem (by omega), List.map_append]
        simp)
    have hz : x.setAdata c value = .ok { x with mData := value.map some } := by
      unfold DD.setAdata
      have ha : assertB c ((value.length : Int) == x.len) = .ok () := by
        unfold assertB DD.len
        simp [hlen]
      rw [ha]
      simp only [Res.ok_bind]
      rw [hloop]
      simp only [Res.ok_bind, hlen]
      rw [List.take_length, List.drop_eq_nil_of_le (by omega), List.append_nil]
    refine ⟨_, hz, ⟨hx.fits, hx.msize, by simp [hl], by simp⟩, ?_⟩
    obtain ⟨xs, h1, h2⟩ := adata_ok (x := { x with mData := value.map some }) (by simp)
    rw [h1]
    have inj : ∀ l m : List α, l.map some = m.map some → l = m := by
      intro l m h
      simpa [List.filterMap_map] using congrArg (List.filterMap id) h
    rw [inj _ _ h2]
  · intro hl hd
    unfold DD.setAdata assertB DD.len
    have : (value.length : Int) ≠ x.mData.length := by
      rw [hx.len]; exact_mod_cast hl
    simp [hd, this]

example : ∃ y, exJet.setAdata exDyn2 [1, 2, 3, 4, 5, (6 : ℚ)] = .ok y ∧ WF exDyn2 2 y ∧
    y.adata = .ok [1, 2, 3, 4, 5, 6] :=
  (C11_set_data exJet_wf [1, 2, 3, 4, 5, 6]).1 rfl
example : exJet.setAdata exDyn2 [1, 2, (3 : ℚ)] = .abort :=
  (C11_set_data exJet_wf [1, 2, 3]).2 (by decide) rfl

theorem exJet_content : Content.Is (.jet exDyn2 exJet) (.jet 2 2 ⟨10,
    fun i => if i = 0 then 20 else 30,
    fun i j => if i + j = 0 then 40 else if i + j = 1 then 50 else 60⟩) :=
  ⟨rfl, Or.inr rfl, exJet_shows⟩

example : hjF (fun _ => none) [.jet exDyn2 exJet, .int 3, .float (1 / 2)] =
    .ok (.floats [10, 3, (1 / 2 : ℚ)]) := by
  have := C48_f (fun _ => none) (e := .jet exDyn2 exJet) (es := [.int 3, .float (1 / 2 : ℚ)])
    (ks := [_, .int 3, .float (1 / 2)]) (.cons exJet_content (.cons rfl (.cons rfl .nil)))
    (by simp)
  simpa [Arith.lit] using this
example : hjD [.jet exDyn2 exJet, .jet exDyn2 exJet] = .ok [[20, 30], [(20 : ℚ), 30]] :=
  C48_d (k := (2, _)) (ks := [(2, _)]) (.cons exJet_content (.cons exJet_content .nil))
example : hjD [.float (1 : ℚ), .jet exDyn2 exJet] = .throw .valueError :=
  (C48_d_violated_mixed (1 : ℚ) exJet_content).2.1 (by omega)
/-- `hj.d([SScalar.variable("a", 3)])` is one empty row, although the derivative by `a` is 1. -/
example : hjD [.sjet (SS.var (fun _ m => m) "a" (3 : ℚ))] = .ok [[]] ∧
    (SS.var (fun _ m => m) "a" (3 : ℚ)).d "a" = 1 :=
  ⟨(C48_violated_sparse (by simp) (by simp)).1, by simp [SS.var, SS.make, SS.d, SMap.find, Arith.lit]⟩
example : ∃ Ms, hjDD [.jet exDyn2 exJet] = .ok Ms := by
  obtain ⟨Ms, h, _⟩ := C48_dd (.cons exJet_content .nil)
  exact ⟨Ms, h⟩

end HJ
