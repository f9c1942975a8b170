import Verif.Spec.Jet
import Mathlib.Data.Nat.Sqrt
import Mathlib.Algebra.Field.Rat
import Mathlib.Tactic.NormNum
import Mathlib.Tactic.Ring
import Mathlib.Tactic.IntervalCases

/-!
# Concrete configurations and scalars for the examples beside the theorems
-/

namespace HJ

/-- A build with exceptions and assertions, `sqrt` rounded down to an integer. -/
def exCfg (order : Nat) (tsize : Int) : Cfg :=
  ⟨order, tsize, true, true, fun z => (Nat.sqrt z.toNat : ℚ)⟩

theorem exRoot (k : Nat) : (Nat.sqrt ((2 * (k : Int) + 1) * (2 * k + 1)).toNat : ℚ) = 2 * k + 1 := by
  have e : ((2 * (k : Int) + 1) * (2 * k + 1)).toNat = (2 * k + 1) * (2 * k + 1) := by
    have : ((2 * (k : Int) + 1) * (2 * k + 1)) = (((2 * k + 1) * (2 * k + 1) : Nat) : Int) := by
      push_cast; ring
    rw [this, Int.toNat_natCast]
  rw [e, Nat.sqrt_eq]
  push_cast; rfl

/-- Dynamic second-order type. -/
abbrev exDyn2 : Cfg := exCfg 2 (-1)
/-- Dynamic first-order type. -/
abbrev exDyn1 : Cfg := exCfg 1 (-1)
/-- Static second-order type with 2 variables. -/
abbrev exSta2 : Cfg := exCfg 2 2

theorem exDyn2_valid : exDyn2.Valid := ⟨Or.inr rfl, Or.inl rfl, exRoot⟩
theorem exDyn1_valid : exDyn1.Valid := ⟨Or.inl rfl, Or.inl rfl, exRoot⟩
theorem exSta2_valid : exSta2.Valid := ⟨Or.inr rfl, Or.inr (by decide), exRoot⟩

/-- Exact arithmetic of a field. -/
@[reducible] def fieldArith (K : Type) [Field K] : Arith K where
  add := (· + ·)
  sub := (· - ·)
  mul := (· * ·)
  div := (· / ·)
  neg := (- ·)
  lit := fun z => (z : K)
  half := 1 / 2
  powN := (· ^ ·)

/-- Rational scalars for the examples. -/
instance : Arith ℚ := fieldArith ℚ

instance : Cmp ℚ where
  eqB a b := decide (a = b)
  neB a b := decide (a ≠ b)
  ltB a b := decide (a < b)
  gtB a b := decide (a > b)
  leB a b := decide (a ≤ b)
  geB a b := decide (a ≥ b)

/-- A dynamic second-order jet of 2 variables: value 10, gradient (20, 30), Hessian
((40, 50), (50, 60)). -/
def exJet : DD ℚ := ⟨2, [some 10, some 20, some 30, some 40, some 50, some 60]⟩
/-- Another one. -/
def exJet' : DD ℚ := ⟨2, [some 7, some 1, some (-2), some 3, some 5, some 0]⟩
/-- The same contents in the static type. -/
def exJetS : DD ℚ := ⟨0, [some 10, some 20, some 30, some 40, some 50, some 60]⟩
/-- A dynamic first-order jet of 2 variables. -/
def exJet1 : DD ℚ := ⟨2, [some 10, some 20, some 30]⟩

theorem exJet_wf : WF exDyn2 2 exJet := ⟨Or.inl rfl, rfl, rfl, by decide⟩
theorem exJet'_wf : WF exDyn2 2 exJet' := ⟨Or.inl rfl, rfl, rfl, by decide⟩
theorem exJetS_wf : WF exSta2 2 exJetS := ⟨Or.inr rfl, rfl, rfl, by decide⟩
theorem exJet1_wf : WF exDyn1 2 exJet1 := ⟨Or.inl rfl, rfl, rfl, by decide⟩

/-- `exJet` is a jet of 2 variables with non-zero components. -/
theorem exJet_shows : Shows exDyn2 2 exJet
    ⟨10, fun i => if i = 0 then 20 else 30,
      fun i j => if i + j = 0 then 40 else if i + j = 1 then 50 else 60⟩ where
  wf := exJet_wf
  size := rfl
  f := rfl
  g := by intro i hi; interval_cases i <;> rfl
  h := by intro _ i j hi hj; interval_cases i <;> interval_cases j <;> rfl

end HJ
