import Verif.Spec.Samples

/-!
# Specification: exact scalar arithmetic

`Exact K` says that the scalar operations used by the code are the operations of the field `K`.
-/

namespace HJ

/-- The scalar operations on `K` are the field operations. -/
class Exact (K : Type) [Field K] [Arith K] : Prop where
  add : ∀ a b : K, a +ₛ b = a + b
  sub : ∀ a b : K, a -ₛ b = a - b
  mul : ∀ a b : K, a *ₛ b = a * b
  div : ∀ a b : K, a ÷ₛ b = a / b
  neg : ∀ a : K, -ₛ a = -a
  lit : ∀ z : Int, (Arith.lit z : K) = z
  half : (Arith.half : K) = 1 / 2
  powN : ∀ (a : K) (n : Nat), Arith.powN a n = a ^ n

instance (K : Type) [Field K] : @Exact K _ (fieldArith K) :=
  @Exact.mk K _ (fieldArith K) (fun _ _ => rfl) (fun _ _ => rfl) (fun _ _ => rfl) (fun _ _ => rfl)
    (fun _ => rfl) (fun _ => rfl) rfl (fun _ _ => rfl)

instance : Exact ℚ := inferInstanceAs (@Exact ℚ _ (fieldArith ℚ))

end HJ
