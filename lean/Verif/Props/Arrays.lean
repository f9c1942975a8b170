import Verif.Model.Arrays
import Verif.Props.Construct
import Verif.Spec.Samples

/-!
# C08, continued: `variables` with a `std::array`
-/

namespace HJ

variable {α : Type}

/-- **C08, arrays.**  `variables(std::array)`, wherever it compiles, gives for every position the jet of a
variable, as many as there are values: the same objects as the overload for `std::vector`. -/
theorem C08_array [Arith α] {c : Cfg} (hv : c.Valid) (vals : List α)
    (hf : c.tsize = -1 ∨ c.tsize = vals.length) :
    ∃ xs, DD.variablesArr c vals = .ok xs ∧ DD.variables c vals = .ok xs ∧ xs.length = vals.length ∧
      ∀ (i : Nat) (w : α), vals[i]? = some w → ∃ x, xs[i]? = some x ∧
        Shows c vals.length x (unitJet i w) := by
  obtain ⟨-, -, -, h⟩ := C08_factory_contents hv hf (Arith.lit 0 : α)
  obtain ⟨xs, h1, h2, h3⟩ := h vals rfl
  have e : DD.variables c vals = DD.variablesArr c vals := by
    unfold DD.variables DD.variablesArr
    rcases hf with hd | hd
    · have : c.isDynamic = true := (isDynamic_iff c).2 hd
      simp [this]
    · by_cases hdyn : c.isDynamic = true
      · simp [hdyn]
      · simp [hdyn, assertB, hd]
  refine ⟨xs, e ▸ h1, h1, h2, fun i w hw => ?_⟩
  obtain ⟨x, k1, -, k2⟩ := h3 i w hw
  exact ⟨x, k1, k2⟩

/-- `DDScalar<2, double, 3>::variables(std::array{1, 2, 3})`, in any arithmetic. -/
example [Arith α] (a b c : α) : ∃ xs, DD.variablesArr (exCfg 2 3) [a, b, c] = .ok xs ∧
    xs.length = 3 := by
  obtain ⟨xs, h1, -, h2, -⟩ := C08_array (c := exCfg 2 3) ⟨.inr rfl, .inr (by decide), exRoot⟩
    [a, b, c] (.inr rfl)
  exact ⟨xs, h1, h2⟩

end HJ
