import Verif.Model.XReal

/-!
# Arithmetic of `XReal` (helper lemmas)
-/

namespace HJ

namespace XReal

@[simp] theorem add_num (x y : ℝ) : num x +ₛ num y = num (x + y) := rfl
@[simp] theorem mul_num (x y : ℝ) : num x *ₛ num y = num (x * y) := rfl
@[simp] theorem neg_num (x : ℝ) : -ₛ (num x) = num (-x) := rfl
@[simp] theorem sub_num (x y : ℝ) : num x -ₛ num y = num (x - y) := by
  rw [sub_eq_add_neg]; rfl
@[simp] theorem lit_num (z : ℤ) : (Arith.lit z : XReal) = num z := rfl
@[simp] theorem half_num : (Arith.half : XReal) = num (1 / 2) := rfl
@[simp] theorem powN_num (x : ℝ) (n : Nat) : Arith.powN (num x) n = num (x ^ n) := rfl
theorem div_num {x y : ℝ} (h : y ≠ 0) : num x ÷ₛ num y = num (x / y) := if_neg h

@[simp] theorem num_inj {x y : ℝ} : num x = num y ↔ x = y := by
  constructor
  · intro h; cases h; rfl
  · rintro rfl; rfl

@[simp] theorem fin_num (x : ℝ) : (num x).Fin := trivial
@[simp] theorem not_fin_inf (s : Bool) : ¬ (inf s).Fin := id
@[simp] theorem not_fin_nan : ¬ nan.Fin := id

theorem Fin.eq_num {x : XReal} (h : x.Fin) : ∃ r, x = num r := by
  cases x with
  | num r => exact ⟨r, rfl⟩
  | inf s => exact h.elim
  | nan => exact h.elim

theorem not_fin_mulInf (x : ℝ) (s : Bool) : ¬ (mulInf x s).Fin := by
  unfold mulInf
  split_ifs <;> simp

theorem fin_add {x y : XReal} (h : (x +ₛ y).Fin) : x.Fin ∧ y.Fin := by
  cases x <;> cases y <;> simp_all [Arith.add, XReal.add]
  rename_i s t
  split_ifs at h <;> exact h

theorem fin_mul {x y : XReal} (h : (x *ₛ y).Fin) : x.Fin ∧ y.Fin := by
  cases x <;> cases y <;> simp_all [Arith.mul, XReal.mul, not_fin_mulInf]

theorem fin_neg {x : XReal} (h : (-ₛ x).Fin) : x.Fin := by
  cases x <;> simp_all [Arith.neg, XReal.neg]

theorem fin_sub {x y : XReal} (h : (x -ₛ y).Fin) : x.Fin ∧ y.Fin := by
  have h' := fin_add (x := x) (y := -ₛ y) h
  exact ⟨h'.1, fin_neg h'.2⟩

theorem fin_div_left {x y : XReal} (h : (x ÷ₛ y).Fin) : x.Fin := by
  cases x <;> cases y <;> simp_all [Arith.div, XReal.div]
  rename_i s t
  split_ifs at h <;> exact h

theorem not_fin_div_zero (x : XReal) : ¬ (x ÷ₛ num 0).Fin := by
  cases x <;> simp [Arith.div, XReal.div]
  split_ifs <;> simp

@[simp] theorem nan_add (x : XReal) : nan +ₛ x = nan := by cases x <;> rfl
@[simp] theorem add_nan (x : XReal) : x +ₛ nan = nan := by cases x <;> rfl
@[simp] theorem nan_mul (x : XReal) : nan *ₛ x = nan := by cases x <;> rfl
@[simp] theorem mul_nan (x : XReal) : x *ₛ nan = nan := by cases x <;> rfl
@[simp] theorem neg_nan : -ₛ nan = nan := rfl
@[simp] theorem nan_sub (x : XReal) : nan -ₛ x = nan := nan_add _
@[simp] theorem sub_nan (x : XReal) : x -ₛ nan = nan := add_nan _
@[simp] theorem nan_div (x : XReal) : nan ÷ₛ x = nan := by cases x <;> rfl
@[simp] theorem div_nan (x : XReal) : x ÷ₛ nan = nan := by cases x <;> rfl
@[simp] theorem powN_nan (n : Nat) : Arith.powN nan (n + 1) = nan := rfl
@[simp] theorem lift_nan (D : ℝ → Prop) (f : ℝ → ℝ) (a b : XReal) : lift D f a b nan = nan := rfl
@[simp] theorem lg_nan (f : ℝ → ℝ) : lg f nan = nan := rfl

end XReal

end HJ
