import Verif.Spec.SProgram
import Verif.Spec.Sparse
import Verif.Spec.Plain
import Verif.Spec.FinErr

/-!
# Sparse and dense derivatives in floating-point arithmetic

What both kinds of scalars may be used for in the same code, what "the same derivative unless NaN" means,
and the few rules of floating-point arithmetic this rests on.
-/

namespace HJ

variable {α V : Type}

/-- Statements that exist for both kinds of scalars and mean the same: no `*=` and `/=` with the same object
on both sides, and no new variables. -/
def SStmt.Common : SStmt α V → Prop
  | .assign _ _ => True
  | .upd o t e => e = .var t → o = .add ∨ o = .sub
  | .updS _ _ _ => True
  | _ => False

/-- Calls that exist for both kinds of scalars; derivatives are not looked at. -/
def SCall.Common : SCall α V → Prop
  | .act s => s.Common
  | .ask _ => True
  | .f _ => True
  | _ => False

/-- Rules for NaN and for the neutral elements.  `nan` says which scalars are NaN and `num` which can be the
result of an operation (numbers of the format, infinities, NaN).  Zeros have no sign here. -/
structure NanLaws (α : Type) [CMath α] (nan num : α → Prop) : Prop where
  comm : CommLaws α
  cmp : CmpLaws α
  nan_add : ∀ x y : α, nan x ∨ nan y → nan (x +ₛ y)
  nan_sub : ∀ x y : α, nan x ∨ nan y → nan (x -ₛ y)
  nan_mul : ∀ x y : α, nan x ∨ nan y → nan (x *ₛ y)
  nan_neg : ∀ x : α, nan x → nan (-ₛ x)
  /-- `inf * 0` is NaN -/
  mul_zero : ∀ x : α, nan (x *ₛ Arith.lit 0) ∨ x *ₛ Arith.lit 0 = Arith.lit 0
  neg_zero : -ₛ (Arith.lit 0 : α) = Arith.lit 0
  num_zero : num (Arith.lit 0)
  num_one : num (Arith.lit 1)
  num_add : ∀ x y : α, num (x +ₛ y)
  num_sub : ∀ x y : α, num (x -ₛ y)
  num_mul : ∀ x y : α, num (x *ₛ y)
  num_neg : ∀ x : α, num x → num (-ₛ x)
  add_zero : ∀ x : α, num x → x +ₛ Arith.lit 0 = x
  sub_zero : ∀ x : α, num x → x -ₛ Arith.lit 0 = x
  mul_one : ∀ x : α, num x → x *ₛ Arith.lit 1 = x
  minus_one : ∀ x : α, num x → Arith.lit (-1) *ₛ x = -ₛ x
  lit_minus_one : (Arith.lit (-1) : α) = -ₛ Arith.lit 1

/-- The sparse scalar `x` and the dense jet `y` have the same value, and for each of the variables, which are
called `name 0, name 1, ...` in `x`, the same derivative - unless the one of `y` is NaN. -/
structure SameUnlessNan [Arith α] (nan num : α → Prop) (c : Cfg) (n : Nat) (name : Nat → String) (x : SS α)
    (y : DD α) : Prop where
  wf : SWF x
  wf' : WF c n y
  f : x.f = y.f
  g : ∀ i : Nat, i < n → ∃ u, y.g c i = .ok u ∧ (nan u ∨ x.d (name i) = u)
  /-- stored derivatives are numbers of the format -/
  num : ∀ i : Nat, i < n → num (x.d (name i))

/-- NaN of a format. -/
def IEEE.IsNan {p emax : Nat} (x : IEEE p emax) : Prop := x.val = .nan

/-- Numbers of a format, infinities and NaN: rounding does not change them. -/
def IEEE.InFormat {p emax : Nat} (x : IEEE p emax) : Prop := toFmt p emax x.val = x.val

end HJ
