import Verif.Proofs.Ops
import Verif.Spec.Jet

/-!
# Well-formed objects are the canonical ones (helper lemmas)
-/

namespace HJ

variable {α : Type}

theorem storedLen_eq {c : Cfg} (hc : c.order = 1 ∨ c.order = 2) (n : Nat) :
    storedLen c.order n = dlen c n := by
  unfold storedLen
  rcases hc with h | h
  · rw [if_pos h, dlen_one h]
  · rw [if_neg (by omega), dlen_two h]
    have := two_tri_self n
    have e : (n + 1) * (n + 2) = 2 * (1 + n + tri n n) := by linarith
    omega

theorem isDynamic_iff (c : Cfg) : c.isDynamic = true ↔ c.tsize = -1 := by
  simp [Cfg.isDynamic]

theorem wf_obj {c : Cfg} (hc : c.order = 1 ∨ c.order = 2) {n : Nat} (hf : Fits c n) (a : Nat → α) :
    WF c n (obj c n a) where
  fits := hf
  msize := by simp only [obj, isDynamic_iff]
  len := by rw [storedLen_eq hc]; simp [obj]
  init := by
    intro cell hcell
    simp only [obj, mk, List.mem_map] at hcell
    obtain ⟨k, _, rfl⟩ := hcell
    simp [fl]

theorem WF.eq_obj {c : Cfg} (hc : c.order = 1 ∨ c.order = 2) {n : Nat} {x : DD α} (h : WF c n x) :
    Fits c n ∧ ∃ a, x = obj c n a := by
  refine ⟨h.fits, ?_⟩
  have hlen : x.mData.length = dlen c n := by rw [h.len, storedLen_eq hc]
  have hpos := dlen_pos c n
  have hinit : ∀ k < dlen c n, ∃ v, x.mData[k]? = some (some v) := by
    intro k hk
    have hk' : k < x.mData.length := by omega
    have hm := List.getElem_mem hk'
    have := h.init _ hm
    obtain ⟨v, hv⟩ := Option.ne_none_iff_exists'.mp this
    exact ⟨v, by rw [List.getElem?_eq_getElem hk', hv]⟩
  obtain ⟨v0, _⟩ := hinit 0 hpos
  refine ⟨fun k => ((x.mData[k]?).join).getD v0, ?_⟩
  have hd : x.mData = HJ.mk (dlen c n) (fl fun k => ((x.mData[k]?).join).getD v0) := by
    refine (eq_mk x.mData).trans ?_
    rw [hlen]
    apply mk_ext
    intro k hk
    obtain ⟨v, hv⟩ := hinit k hk
    simp [fl, hv]
  have hm := h.msize
  unfold obj
  rw [← hd]
  simp only [isDynamic_iff]
  rw [← hm]

/-- The jet read off contents `a`. -/
def jetOf (n : Nat) (a : Nat → α) : Jet α :=
  ⟨a 0, fun i => a (1 + i), fun i j => if i ≤ j then a (pos n i j) else a (pos n j i)⟩

theorem shows_obj {c : Cfg} (hc : c.order = 1 ∨ c.order = 2) {n : Nat} (hf : Fits c n)
    (a : Nat → α) : Shows c n (obj c n a) (jetOf n a) where
  wf := wf_obj hc hf a
  size := size_obj hf a
  f := f_obj c n a
  g := fun _ hi => g_obj hf a hi
  h := by
    intro h2 i j hi hj
    unfold jetOf
    by_cases hij : i ≤ j
    · simp only [if_pos hij]; exact h_obj h2 hf a hij hj
    · simp only [if_neg hij]; exact h_obj_swap h2 hf a (by omega) hi

/-- Every well-formed object shows exactly one jet. -/
theorem WF.shows {c : Cfg} (hc : c.order = 1 ∨ c.order = 2) {n : Nat} {x : DD α} (h : WF c n x) :
    ∃ J, Shows c n x J := by
  obtain ⟨hf, a, rfl⟩ := h.eq_obj hc
  exact ⟨_, shows_obj hc hf a⟩

theorem Shows.unique {c : Cfg} {n : Nat} {x : DD α} {J K : Jet α} (h : Shows c n x J)
    (h' : Shows c n x K) : J.Eqv c.order n K := by
  refine ⟨?_, ?_, ?_⟩
  · have := h.f.symm.trans h'.f; simpa using this
  · intro i hi; have := (h.g i hi).symm.trans (h'.g i hi); simpa using this
  · intro h2 i j hi hj; have := (h.h h2 i j hi hj).symm.trans (h'.h h2 i j hi hj); simpa using this

/-- An object is determined by the jet it shows. -/
theorem Shows.ext {c : Cfg} (hc : c.order = 1 ∨ c.order = 2) {n : Nat} {x y : DD α} {J K : Jet α}
    (h : Shows c n x J) (h' : Shows c n y K) (hJK : J.Eqv c.order n K) : x = y := by
  obtain ⟨hf, a, rfl⟩ := h.wf.eq_obj hc
  obtain ⟨_, b, rfl⟩ := h'.wf.eq_obj hc
  have ha := h.unique (shows_obj hc hf a)
  have hb := h'.unique (shows_obj hc hf b)
  apply obj_ext' hc
  · have h1 := ha.1; have h2 := hb.1; simp only [jetOf] at h1 h2
    rw [← h1, ← h2, hJK.1]
  · intro i hi
    have h1 := ha.2.1 i hi; have h2 := hb.2.1 i hi; simp only [jetOf] at h1 h2
    rw [← h1, ← h2, hJK.2.1 i hi]
  · intro ho i j hij hj
    have h1 := ha.2.2 ho i j (by omega) hj
    have h2 := hb.2.2 ho i j (by omega) hj
    simp only [jetOf, if_pos hij] at h1 h2
    rw [← h1, ← h2, hJK.2.2 ho i j (by omega) hj]

theorem Shows.sym {c : Cfg} {n : Nat} {x : DD α} {J : Jet α} (h : Shows c n x J)
    (h2 : c.order = 2) {i j : Nat} (hi : i < n) (hj : j < n) : J.h i j = J.h j i := by
  obtain ⟨hf, a, rfl⟩ := h.wf.eq_obj (Or.inr h2)
  have hu := (h.unique (shows_obj (Or.inr h2) hf a)).2.2 h2
  rw [hu i j hi hj, hu j i hj hi]
  unfold jetOf
  by_cases hij : i ≤ j
  · by_cases hji : j ≤ i
    · have : i = j := by omega
      subst this; rfl
    · simp [hij, hji]
  · simp [hij, show j ≤ i by omega]

theorem shows_of_obj {c : Cfg} (hc : c.order = 1 ∨ c.order = 2) {n : Nat} (hf : Fits c n)
    {a : Nat → α} {J : Jet α} (h0 : a 0 = J.f) (hg : ∀ i < n, a (1 + i) = J.g i)
    (hh : c.order = 2 → ∀ i j, i ≤ j → j < n → a (pos n i j) = J.h i j)
    (hs : c.order = 2 → ∀ i j, i < n → j < n → J.h i j = J.h j i) : Shows c n (obj c n a) J where
  wf := wf_obj hc hf a
  size := size_obj hf a
  f := by rw [f_obj, h0]
  g := fun i hi => by rw [g_obj hf a hi, hg i hi]
  h := by
    intro h2 i j hi hj
    by_cases hij : i ≤ j
    · rw [h_obj h2 hf a hij hj, hh h2 i j hij hj]
    · rw [h_obj_swap h2 hf a (by omega) hi, hh h2 j i (by omega) hi, hs h2 j i hj hi]

end HJ
