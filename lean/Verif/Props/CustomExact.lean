import Verif.Props.Access
import Verif.Props.SCustom

/-!
# C88, exact results: functions that user code adds with getters and setters, in every arithmetic
-/

namespace HJ

section
variable {C R T : Type} {L : Library C R T}

/-- The calls succeed one after the other and lead from `st` to `st'`. -/
inductive Works (L : Library C R T) : List C → T → T → Prop
  | nil (st : T) : Works L [] st st
  | cons {k : C} {l : List C} {q : R} {st st₁ st' : T} (h : L k st = (.ok q, st₁))
    (hl : Works L l st₁ st') :
      Works L (k :: l) st st'

theorem Works.append {l l' : List C} {st st₁ st' : T} (h : Works L l st st₁) (h' : Works L l' st₁ st') :
    Works L (l ++ l') st st' := by
  induction h with
  | nil _ => exact h'
  | cons h _ ih => exact .cons h (ih h')

theorem Works.run {l : List C} {st st' : T} (h : Works L l st st') (j : Nat) (hj : l.length < j) :
    (script C R).run L j l st = some (.ok [], st') := by
  induction h generalizing j with
  | nil _ =>
    obtain ⟨j, rfl⟩ : ∃ i, j = i + 1 := ⟨j - 1, by simp at hj; omega⟩
    rfl
  | @cons k l q _ _ _ h _ ih =>
    obtain ⟨j, rfl⟩ : ∃ i, j = i + 1 := ⟨j - 1, by simp at hj; omega⟩
    simp only [Caller.run, script, h, List.tail_cons]
    exact ih j (by simp at hj; omega)

theorem works_flatMap {ι : Type} (f : ι → List C) (P : (ι → Prop) → T → Prop) (l : List ι)
    (step : ∀ D st, ∀ i ∈ l, P D st → ∃ st', Works L (f i) st st' ∧ P (fun k => k = i ∨ D k) st')
    (D : ι → Prop) (st : T) (h : P D st) :
    ∃ st', Works L (l.flatMap f) st st' ∧ P (fun k => k ∈ l ∨ D k) st' := by
  induction l generalizing D st with
  | nil => exact ⟨st, .nil st, by simpa using h⟩
  | cons i l ih =>
    obtain ⟨st₁, h1, h2⟩ := step D st i (by simp) h
    obtain ⟨st', h3, h4⟩ := ih (fun D st i hi => step D st i (by simp [hi])) _ st₁ h2
    refine ⟨st', h1.append h3, ?_⟩
    convert h4 using 2 with k
    simp only [List.mem_cons, eq_iff_iff]
    tauto

end

section
variable {α V : Type} [CMath α] [DecidableEq V] {c : Cfg} {n : Nat} {a r : V} {ρ₀ : Store α V}
  {z : CustomVar → α} {J T : Jet α} {S : CustomVar → Prop} {G : Nat → Prop} {H : Nat → Nat → Prop}
  {st : Store α V × (CustomVar → α)}

/-- What holds while `custom` runs: all jets but `r` are unchanged, the numbers in `S` are those of `z`, and
`r` shows the value of `T`, and its derivatives where `G` and `H` hold. -/
structure BitsInv (c : Cfg) (n : Nat) (r : V) (ρ₀ : Store α V) (z : CustomVar → α) (T : Jet α)
    (S : CustomVar → Prop) (G : Nat → Prop) (H : Nat → Nat → Prop) (st : Store α V × (CustomVar → α)) :
    Prop where
  keep : ∀ v ≠ r, st.1 v = ρ₀ v
  nums : ∀ t, S t → st.2 t = z t
  jet : ∃ K : Jet α, Shows c n (st.1 r) K ∧ K.f = T.f ∧ (∀ i < n, G i → K.g i = T.g i) ∧
    (c.order = 2 → ∀ i j, i ≤ j → j < n → H i j → K.h i j = T.h i j)

theorem works_value (hv : c.Valid) {φ φ₁ : Expr α Unit} {K : Jet α} {ν : CustomVar → α}
    (ha : Shows c n (ρ₀ a) J) (hr : Shows c n (ρ₀ r) K) (hx : z .x = J.f)
    (hd : z .d = φ₁.plain (· ÷ₛ ·) fun _ => J.f) (hT : T.f = φ.plain (· ÷ₛ ·) fun _ => J.f) :
    ∃ st', Works (mixLibrary α V CustomVar c n) (customValue φ φ₁ a r) (ρ₀, ν) st' ∧
      BitsInv c n r ρ₀ z T (fun t => t = .x ∨ t = .d) (fun _ => False) (fun _ _ => False) st' := by
  obtain ⟨y, h1, h2⟩ := (C03_framed_writes hv hr (φ.plain (· ÷ₛ ·) fun _ => J.f)).1
  refine ⟨(ρ₀.set r y, setNum (setNum (setNum ν .x J.f) .y (φ.plain (· ÷ₛ ·) fun _ => J.f)) .d
    (φ₁.plain (· ÷ₛ ·) fun _ => J.f)), .cons (q := .done) (st₁ := (ρ₀, setNum ν .x J.f)) ?_
      (.cons (q := .done) (st₁ := (ρ₀, setNum (setNum ν .x J.f) .y (φ.plain (· ÷ₛ ·) fun _ => J.f))) ?_
      (.cons (q := .done) (st₁ := (ρ₀, setNum (setNum (setNum ν .x J.f) .y
        (φ.plain (· ÷ₛ ·) fun _ => J.f)) .d (φ₁.plain (· ÷ₛ ·) fun _ => J.f))) ?_
      (.cons (q := .done) ?_ (.nil _)))), fun v hv => ?_, ?_, ?_⟩
  · simp [mixLibrary, ha.f, readNum]
  · simp [mixLibrary, Expr.at_plain, setNum]
  · simp [mixLibrary, Expr.at_plain, setNum]
  · simp [mixLibrary, Stmt.map, Stmt.run, scalarOf, setNum, h1, Store.put, Answer.of]
  · simp [Store.set, hv]
  · rintro t (rfl | rfl)
    · simp [setNum, hx]
    · simp [setNum, hd]
  · exact ⟨_, by simpa [Store.set] using h2, hT.symm, fun _ _ h => h.elim, fun _ _ _ _ _ h => h.elim⟩

theorem works_grad (hv : c.Valid) (har : a ≠ r) (ha : Shows c n (ρ₀ a) J)
    (hS : ∀ t, S t → t = .x ∨ t = .d) (hSd : S .d) (hT : ∀ i < n, T.g i = z .d *ₛ J.g i) {i : Nat}
    (hi : i < n) (h : BitsInv c n r ρ₀ z T S G H st) :
    ∃ st', Works (mixLibrary α V CustomVar c n) (customGrad a r i) st st' ∧
      BitsInv c n r ρ₀ z T S (fun k => k = i ∨ G k) H st' := by
  obtain ⟨ρ, ν⟩ := st
  obtain ⟨K, hK, hf, hg, hh⟩ := h.jet
  have hρ : ρ a = ρ₀ a := h.keep a har
  have e : ν .d = z .d := h.nums .d hSd
  obtain ⟨y, h1, h2⟩ := (C03_framed_writes hv hK (z .d *ₛ J.g i)).2.1 i hi
  refine ⟨(ρ.set r y, setNum (setNum ν .p (J.g i)) .p (z .d *ₛ J.g i)),
    .cons (q := .done) (st₁ := (ρ, setNum ν .p (J.g i))) ?_
      (.cons (q := .done) (st₁ := (ρ, setNum (setNum ν .p (J.g i)) .p (z .d *ₛ J.g i))) ?_
      (.cons (q := .done) ?_ (.nil _))), fun v hv => ?_, fun t ht => ?_, ?_⟩
  · simp [mixLibrary, hρ, ha.g i hi, readNum]
  · simp [mixLibrary, Expr.plain, Bin.plain, setNum, e]
  · have h1' : (ρ r).setG c i (z .d *ₛ J.g i) = .ok y := h1
    simp [mixLibrary, Stmt.map, Stmt.run, scalarOf, setNum, h1', Store.put, Answer.of]
  · simpa [Store.set, hv] using h.keep v hv
  · have := h.nums t ht
    rcases hS t ht with rfl | rfl <;> simpa [setNum] using this
  · refine ⟨{ K with g := fun p => if p = i then z .d *ₛ J.g i else K.g p },
      by simpa [Store.set] using h2, hf, fun k hk hG => ?_, hh⟩
    by_cases hki : k = i
    · simp [hki, hT i hi]
    · simpa [hki] using hg k hk (by tauto)

theorem works_hess (hv : c.Valid) (h2 : c.order = 2) (har : a ≠ r) (ha : Shows c n (ρ₀ a) J)
    (hS : ∀ t, S t ↔ t = .x ∨ t = .d ∨ t = .dd)
    (hT : ∀ i j, i ≤ j → j < n → T.h i j = z .d *ₛ J.h i j +ₛ z .dd *ₛ J.g i *ₛ J.g j) {i j : Nat}
    (hij : i ≤ j) (hj : j < n) (h : BitsInv c n r ρ₀ z T S G H st) :
    ∃ st', Works (mixLibrary α V CustomVar c n) (customHess a r i j) st st' ∧
      BitsInv c n r ρ₀ z T S G (fun k l => k = i ∧ l = j ∨ H k l) st' := by
  obtain ⟨ρ, ν⟩ := st
  obtain ⟨K, hK, hf, hg, hh⟩ := h.jet
  have hi : i < n := by omega
  have hρ : ρ a = ρ₀ a := h.keep a har
  have e1 : ν .d = z .d := h.nums .d ((hS _).2 (by simp))
  have e2 : ν .dd = z .dd := h.nums .dd ((hS _).2 (by simp))
  obtain ⟨y, k1, k2⟩ := (C03_framed_writes hv hK (T.h i j)).2.2.1 h2 i j hi hj
  let ν₁ := setNum ν .p (J.g i)
  let ν₂ := setNum ν₁ .q (J.g j)
  let ν₃ := setNum ν₂ .s (J.h i j)
  let ν₄ := setNum ν₃ .s (T.h i j)
  refine ⟨(ρ.set r y, ν₄), .cons (q := .done) (st₁ := (ρ, ν₁)) ?_ (.cons (q := .done) (st₁ := (ρ, ν₂)) ?_
    (.cons (q := .done) (st₁ := (ρ, ν₃)) ?_ (.cons (q := .done) (st₁ := (ρ, ν₄)) ?_
      (.cons (q := .done) ?_ (.nil _))))), fun v hv => ?_, fun t ht => ?_, ?_⟩
  · simp [mixLibrary, hρ, ha.g i hi, readNum, ν₁]
  · simp [mixLibrary, hρ, ha.g j hj, readNum, ν₂]
  · simp [mixLibrary, hρ, ha.h h2 i j hi hj, readNum, ν₃]
  · simp [mixLibrary, Expr.plain, Bin.plain, setNum, e1, e2, ν₁, ν₂, ν₃, ν₄, hT i j hij hj]
  · have k1' : (ρ r).setH c i j (T.h i j) = .ok y := k1
    simp [mixLibrary, Stmt.map, Stmt.run, scalarOf, setNum, k1', Store.put, Answer.of, ν₄]
  · simpa [Store.set, hv] using h.keep v hv
  · have := h.nums t ht
    rcases (hS t).1 ht with rfl | rfl | rfl <;> simpa [setNum, ν₁, ν₂, ν₃, ν₄] using this
  · refine
    ⟨{ K with h := hUpdate K.h i j (T.h i j) }, by simpa
      [Store.set] using k2, hf, hg, fun _ k l hkl hl hH => ?_⟩
    by_cases he : k = i ∧ l = j ∨ k = j ∧ l = i
    · simp only [hUpdate, if_pos he]
      rcases he with ⟨rfl, rfl⟩ | ⟨rfl, rfl⟩
      · rfl
      · obtain rfl : k = l := by omega
        rfl
    · simp only [hUpdate, if_neg he]
      exact hh h2 k l hkl hl (by tauto)

/-- **C88, exact results.**  In every arithmetic, for jets of every size, static or dynamic, of both orders and
with any components: all calls succeed; afterwards the value of `r` is `φ(x)`, as computed, its gradient is
`φ'(x) * a.g(i)`, and its Hessian `φ'(x) * a.h(i, j) + φ''(x) * a.g(i) * a.g(j)` for `i ≤ j`, with exactly these
roundings, in both triangles; no other jet changes. -/
theorem C88_exact (hv : c.Valid) {K : Jet α} (har : a ≠ r) (φ φ₁ φ₂ : Expr α Unit) (ν : CustomVar → α)
    (ha : Shows c n (ρ₀ a) J) (hr : Shows c n (ρ₀ r) K) :
    ∃ ρ' ν', (∀ j > (custom c.order n φ φ₁ φ₂ a r).length, (script _ _).run
        (mixLibrary α V CustomVar c n) j (custom c.order n φ φ₁ φ₂ a r) (ρ₀, ν) = some
          (.ok [], ρ', ν')) ∧
      Shows c n (ρ' r) ⟨φ.plain (· ÷ₛ ·) fun _ => J.f,
        fun i => (φ₁.plain (· ÷ₛ ·) fun _ => J.f) *ₛ J.g i,
        fun i j => (φ₁.plain (· ÷ₛ ·) fun _ => J.f) *ₛ J.h i j +ₛ
          (φ₂.plain (· ÷ₛ ·) fun _ => J.f) *ₛ J.g (min i j) *ₛ J.g (max i j)⟩ ∧
      ∀ v ≠ r, ρ' v = ρ₀ v := by
  let z : CustomVar → α := fun
    | .x => J.f
    | .d => φ₁.plain (· ÷ₛ ·) fun _ => J.f
    | .dd => φ₂.plain (· ÷ₛ ·) fun _ => J.f
    | _ => J.f
  let T : Jet α := ⟨φ.plain (· ÷ₛ ·) fun _ => J.f, fun i => z .d *ₛ J.g i,
    fun i j => z .d *ₛ J.h i j +ₛ z .dd *ₛ J.g (min i j) *ₛ J.g (max i j)⟩
  have hTh : ∀ i j, i ≤ j → j < n → T.h i j = z .d *ₛ J.h i j +ₛ z .dd *ₛ J.g i *ₛ J.g j :=
    fun i j hij _ => by simp [T, hij]
  obtain ⟨st₁, l1, i1⟩ := works_value (c := c) (n := n) (a := a) (r := r) (ρ₀ := ρ₀) (z := z) (T := T)
    (φ := φ) (φ₁ := φ₁) (ν := ν) hv ha hr rfl rfl rfl
  obtain ⟨st₂, l2, i2⟩ := works_flatMap (L := mixLibrary α V CustomVar c n) (customGrad a r)
    (fun D => BitsInv c n r ρ₀ z T (fun t => t = .x ∨ t = .d) D fun _ _ => False) (List.range n)
    (fun D σ i hi h => works_grad hv har ha (fun _ h => h) (Or.inr rfl) (fun _ _ => rfl)
      (List.mem_range.1 hi) h) _ st₁ i1
  rcases hv.order with ho | ho
  · obtain ⟨L, k1, k2, k3, -⟩ := i2.jet
    refine ⟨st₂.1, st₂.2, fun j hj => ?_, ⟨k1.wf, k1.size, by rw [k1.f, k2], fun i hi => ?_,
      fun h => by rw [h] at ho; norm_num at ho⟩, i2.keep⟩
    · refine Works.run ?_ j hj
      simpa [custom, ho] using l1.append l2
    · rw [k1.g i hi, k3 i hi (by simp [hi])]
  · let st₃ : Store α V × (CustomVar → α) := (st₂.1, setNum st₂.2 .dd (z .dd))
    have c3 : mixLibrary α V CustomVar c n (.compute .dd (φ₂.at .x)) st₂ = (.ok .done, st₃) := by
      have hx : st₂.2 .x = J.f := i2.nums .x (Or.inl rfl)
      simp [mixLibrary, Expr.at_plain, hx, st₃, z]
    have i3 : BitsInv c n r ρ₀ z T (fun t => t = .x ∨ t = .d ∨ t = .dd)
        (fun k => k ∈ List.range n ∨ False) (fun _ _ => False) st₃ :=
      ⟨i2.keep, by
        rintro t (rfl | rfl | rfl)
        · simpa [st₃, setNum] using i2.nums .x (Or.inl rfl)
        · simpa [st₃, setNum] using i2.nums .d (Or.inr rfl)
        · simp [st₃, setNum], i2.jet⟩
    obtain ⟨st₄, l4, i4⟩ := works_flatMap (L := mixLibrary α V CustomVar c n)
      (fun i => (List.range' i (n - i)).flatMap (customHess a r i))
      (fun D => BitsInv c n r ρ₀ z T (fun t => t = .x ∨ t = .d ∨ t = .dd)
        (fun k => k ∈ List.range n ∨ False) fun i j => D i ∧ i ≤ j) (List.range n)
      (fun D σ i hi h => by
        obtain ⟨σ', l5, i5⟩ := works_flatMap (L := mixLibrary α V CustomVar c n) (customHess a r i)
          (fun D' => BitsInv c n r ρ₀ z T (fun t => t = .x ∨ t = .d ∨ t = .dd)
            (fun k => k ∈ List.range n ∨ False) fun k l => k = i ∧ D' l ∨ D k ∧ k ≤ l)
          (List.range' i (n - i)) (fun D' σ j hj h => by
            have hin := List.mem_range.1 hi
            rw [List.mem_range'_1] at hj
            obtain ⟨σ', l6, i6⟩ := works_hess hv ho har ha (fun _ => Iff.rfl) hTh
              (i := i) (j := j) (by omega) (by omega) h
            refine ⟨σ', l6, ?_⟩
            convert i6 using 3 with k l
            simp only [eq_iff_iff]
            tauto) (fun _ => False) σ (by
              convert h using 3 with k l
              simp)
        refine ⟨σ', l5, i5.keep, i5.nums, ?_⟩
        obtain ⟨L, k1, k2, k3, k4⟩ := i5.jet
        refine ⟨L, k1, k2, k3, fun h2 k l hkl hl hH => k4 h2 k l hkl hl ?_⟩
        rcases hH with ⟨rfl | hD, hle⟩
        · refine Or.inl ⟨rfl, Or.inl ?_⟩
          rw [List.mem_range'_1]
          omega
        · exact Or.inr ⟨hD, hle⟩) (fun _ => False) st₃ (by
          convert i3 using 3 with k l
          simp)
    obtain ⟨L, k1, k2, k3, k4⟩ := i4.jet
    have key : ∀ i j, i ≤ j → j < n → L.h i j = T.h i j := fun i j hij hj =>
      k4 ho i j hij hj ⟨by simp; omega, hij⟩
    refine ⟨st₄.1, st₄.2, fun j hj => ?_, ⟨k1.wf, k1.size, by rw [k1.f, k2], fun i hi => ?_,
      fun _ i j hi hj => ?_⟩, i4.keep⟩
    · refine Works.run ?_ j hj
      simpa [custom, ho] using (l1.append l2).append (Works.cons c3 l4)
    · rw [k1.g i hi, k3 i hi (by simp [hi])]
    · rw [k1.h ho i j hi hj]
      rcases le_total i j with hij | hij
      · rw [key i j hij hj]
      · rw [k1.sym ho hi hj, key j i hij hi]
        simp only [T, z, min_comm j i, max_comm j i, ha.sym ho hj hi]

theorem Fn.coef_slopeD (ψ : Fn α) (x : α) :
    (ψ.coef x).f = ψ.plain x ∧ (ψ.coef x).da = ψ.slopeD.plain (· ÷ₛ ·) fun _ => x := by
  cases ψ <;> exact ⟨rfl, rfl⟩

theorem Fn.coef_bend (ψ : Fn α) (hψ : ψ = .atanh → ∀ y : α, Arith.powN y 2 = y *ₛ y) (x : α) :
    (ψ.coef x).daa = ψ.bend.plain (· ÷ₛ ·) fun _ => x := by
  cases ψ
  case atanh =>
    show Arith.lit 2 *ₛ x ÷ₛ Arith.powN (x *ₛ x -ₛ Arith.lit 1) 2 = _
    rw [hψ rfl]
    rfl
  all_goals rfl

/-- **C88, the library's own functions.**  If user code writes one of the library's functions `ψ` in this way,
with the formulas for its derivatives, it gets the object `ψ(a)`, bit for bit, in every arithmetic, for all
jets `a` with any components.  (The library squares with `std::pow` in `atanh`; there squaring and
multiplying must agree.) -/
theorem C88_library (hv : c.Valid) {K : Jet α} (har : a ≠ r) (ψ : Fn α)
    (hψ : ψ = .atanh → c.order = 2 → ∀ y : α, Arith.powN y 2 = y *ₛ y) (ν : CustomVar → α)
    (ha : Shows c n (ρ₀ a) J) (hr : Shows c n (ρ₀ r) K) :
    ∃ ρ' ν' s, (∀ j > (custom c.order n (.fn ψ (.var ())) ψ.slopeD ψ.bend a r).length, (script _ _).run
        (mixLibrary α V CustomVar c n) j (custom c.order n (.fn ψ (.var ())) ψ.slopeD ψ.bend a r)
          (ρ₀, ν) =
          some (.ok [], ρ', ν')) ∧
      (Expr.fn ψ (.var a)).evalDD c n ρ₀ = .ok s ∧ ρ' r = s := by
  obtain ⟨ρ', ν', h1, h2, -⟩ := C88_exact (ρ₀ := ρ₀) hv har (.fn ψ (.var ())) ψ.slopeD ψ.bend ν ha hr
  obtain ⟨hf, b, hb⟩ := ha.wf.eq_obj hv.order
  have hJ := ha.unique (hb ▸ shows_obj hv.order hf b)
  refine ⟨ρ', ν', _, h1, by
    simp only [Expr.evalDD, hb, Res.ok_bind]
    exact un_obj hv.order hf ψ.coef b, ?_⟩
  have e0 : b 0 = J.f := hJ.1.symm
  have eg : ∀ i < n, b (1 + i) = J.g i := fun i hi => (hJ.2.1 i hi).symm
  refine h2.ext hv.order (shows_of_obj hv.order hf ?_ (fun i hi => ?_) (fun ho i j hij hj => ?_)
    fun ho i j hi hj => ?_) ⟨rfl, fun _ _ => rfl, fun _ _ _ _ _ => rfl⟩
  · rw [uFin_zero, e0]
    exact (ψ.coef_slopeD J.f).1
  · rw [uFin_succ _ _ _ _ hi, e0, eg i hi, (ψ.coef_slopeD J.f).2]
  · have eh : b (pos n i j) = J.h i j := by
      have := hJ.2.2 ho i j (by omega) hj
      simp only [jetOf, if_pos hij] at this
      exact this.symm
    rw [uFin_pos ho _ _ _ _ hij hj, e0, eg i (by omega), eg j hj, eh, (ψ.coef_slopeD J.f).2,
      ψ.coef_bend (fun h => hψ h ho)]
    simp only [min_eq_left hij, max_eq_right hij]
  · dsimp only
    rw [ha.sym ho hi hj, min_comm, max_comm]

end

/-- The product of two jets of two variables as custom function: `φ(x) = x * x`, `φ'(x) = x + x`, `φ'' = 2` in
`double`: `r.h(1, 0) = (x + x) * h + 2 * g₀ * g₁`, for all components of `a`. -/
example (J K : Jet (IEEE 53 1023)) (ρ : Store (IEEE 53 1023) Bool) (ν : CustomVar → IEEE 53 1023)
    (ha : Shows exDyn2 2 (ρ false) J) (hr : Shows exDyn2 2 (ρ true) K) :
    ∃ ρ' ν', (∀ j > 26, (script _ _).run (mixLibrary _ Bool CustomVar exDyn2 2) j
        (custom 2 2 (.bin .mul (.var ()) (.var ())) (.bin .add (.var ()) (.var ()))
          (.const (Arith.lit 2))
          false true) (ρ, ν) = some (.ok [], ρ', ν')) ∧
      (ρ' true).f = .ok (J.f *ₛ J.f) ∧ (ρ' true).g exDyn2 1 = .ok ((J.f +ₛ J.f) *ₛ J.g 1) ∧
      (ρ' true).h exDyn2 1 0 = .ok ((J.f +ₛ J.f) *ₛ J.h 1 0 +ₛ Arith.lit 2 *ₛ J.g 0 *ₛ J.g 1) := by
  obtain ⟨ρ', ν', h1, h2, -⟩ := C88_exact exDyn2_valid (a := false) (r := true) (by simp)
    (.bin .mul (.var ()) (.var ())) (.bin .add (.var ()) (.var ())) (.const (Arith.lit 2)) ν ha hr
  exact
    ⟨ρ', ν', fun j hj => h1 j hj, h2.f, h2.g 1 (by norm_num), h2.h rfl 1 0 (by norm_num) (by norm_num)⟩

/-- `tan` with `φ' = tan² + 1` and `φ'' = φ' * 2 * tan` in `double`, for every jet `a` of two variables, also with
infinite components. -/
example (J K : Jet (IEEE 53 1023)) (ρ : Store (IEEE 53 1023) Bool) (ν : CustomVar → IEEE 53 1023)
    (ha : Shows exDyn2 2 (ρ false) J) (hr : Shows exDyn2 2 (ρ true) K) :
    ∃ ρ' ν' s, (∀ j > 26, (script _ _).run (mixLibrary _ Bool CustomVar exDyn2 2) j
        (custom 2 2 (.fn .tan (.var ())) (Fn.tan).slopeD (Fn.tan).bend false true) (ρ, ν) =
          some (.ok [], ρ', ν')) ∧
      (Expr.fn .tan (.var false)).evalDD exDyn2 2 ρ = .ok s ∧ ρ' true = s := by
  obtain ⟨ρ', ν', s, h1, h2, h3⟩ := C88_library exDyn2_valid (a := false) (r := true) (by simp) .tan
    (fun h => by cases h) ν ha hr
  exact ⟨ρ', ν', s, fun j hj => h1 j hj, h2, h3⟩

/-- In the formats squaring and multiplying agree. -/
theorem IEEE.square {p emax : Nat} (y : IEEE p emax) : Arith.powN y 2 = y *ₛ y := by
  obtain ⟨y⟩ := y
  show (⟨toFmt p emax (XReal.powN y 2)⟩ : IEEE p emax) = ⟨toFmt p emax (XReal.mul y y)⟩
  cases y with
  | num x => simp [XReal.powN, XReal.mul, sq]
  | inf s => simp [XReal.powN, XReal.mul]
  | nan => simp [XReal.powN, XReal.mul]

/-- `atanh` in `double`. -/
example (J K : Jet (IEEE 53 1023)) (ρ : Store (IEEE 53 1023) Bool) (ν : CustomVar → IEEE 53 1023)
    (ha : Shows exDyn2 2 (ρ false) J) (hr : Shows exDyn2 2 (ρ true) K) :
    ∃ ρ' ν' s, (∀ j > 26, (script _ _).run (mixLibrary _ Bool CustomVar exDyn2 2) j
        (custom 2 2 (.fn .atanh (.var ())) (Fn.atanh).slopeD (Fn.atanh).bend false true) (ρ, ν) =
          some (.ok [], ρ', ν')) ∧
      (Expr.fn .atanh (.var false)).evalDD exDyn2 2 ρ = .ok s ∧ ρ' true = s := by
  obtain ⟨ρ', ν', s, h1, h2, h3⟩ := C88_library exDyn2_valid (a := false) (r := true) (by simp) .atanh
    (fun _ _ => IEEE.square) ν ha hr
  exact ⟨ρ', ν', s, fun j hj => h1 j hj, h2, h3⟩

end HJ
