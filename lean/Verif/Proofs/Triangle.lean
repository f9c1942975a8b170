import Verif.Proofs.Loop
import Verif.Spec.Triangle

/-!
# The packed order is the row-major order of the upper triangle (helper lemmas)
-/

namespace HJ

theorem rows_length (n i : Nat) :
    ((List.range i).flatMap fun i => (List.range' i (n - i)).map fun j => (i, j)).length =
      tri n i := by
  induction i with
  | zero => simp [tri]
  | succ i ih => rw [List.range_succ]; simp [ih, tri_succ]

theorem rows_getElem? {n i j : Nat} (hij : i ≤ j) (hj : j < n) (m : Nat) (hm : i < m) :
    ((List.range m).flatMap fun i => (List.range' i (n - i)).map fun j => (i, j))[tri n i + (j - i)]?
      = some (i, j) := by
  induction m with
  | zero => omega
  | succ m ih =>
    rw [List.range_succ, List.flatMap_append, List.flatMap_singleton]
    have hl := rows_length n m
    by_cases h : i < m
    · have h1 : tri n (i + 1) ≤ tri n m := tri_mono (by omega)
      rw [tri_succ] at h1
      rw [List.getElem?_append_left (by omega)]
      exact ih h
    · have : i = m := by omega
      subst this
      rw [List.getElem?_append_right (by omega), hl]
      have e : tri n i + (j - i) - tri n i = j - i := by omega
      rw [e, List.getElem?_map, List.getElem?_range' (by omega)]
      simp; omega

theorem upperPairs_length (n : Nat) : (upperPairs n).length = tri n n := rows_length n n

theorem upperPairs_getElem? {n i j : Nat} (hij : i ≤ j) (hj : j < n) :
    (upperPairs n)[tri n i + (j - i)]? = some (i, j) := rows_getElem? hij hj n (by omega)

theorem upperPairs_dec {n k : Nat} (hk : k < tri n n) : (upperPairs n)[k]? = some (dec n k) := by
  obtain ⟨h1, h2, h3⟩ := tri_dec hk
  have := upperPairs_getElem? h1 h2
  rwa [h3] at this

end HJ
