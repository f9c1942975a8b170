import Verif.Spec.Plain
import Verif.Model.Caller

/-!
# Rewriting that does not change a bit

The rules of floating-point arithmetic that have to do with signs and the order of two operands, and the
rewritings of expressions and programs that follow from them.  There is no associativity, no distributivity
and nothing about `x / -y` (whose sign at `y = 0` depends on the sign of the zero).
-/

namespace HJ

/-- Rules of an arithmetic. -/
structure SignLaws (α : Type) [CMath α] : Prop where
  comm : CommLaws α
  neg_neg : ∀ x : α, -ₛ -ₛ x = x
  neg_add : ∀ x y : α, -ₛ x +ₛ -ₛ y = -ₛ (x +ₛ y)
  neg_mul : ∀ x y : α, -ₛ x *ₛ y = -ₛ (x *ₛ y)
  neg_div : ∀ x y : α, -ₛ x ÷ₛ y = -ₛ (x ÷ₛ y)
  hypot_comm : ∀ x y : α, CMath.hypot x y = CMath.hypot y x
  hypot_neg : ∀ x y : α, CMath.hypot (-ₛ x) y = CMath.hypot x y
  hypot3_comm : ∀ x y z : α, CMath.hypot3 x y z = CMath.hypot3 y x z
  cos : ∀ x : α, CMath.cos (-ₛ x) = CMath.cos x
  cosh : ∀ x : α, CMath.cosh (-ₛ x) = CMath.cosh x
  sin : ∀ x : α, CMath.sin (-ₛ x) = -ₛ CMath.sin x
  asin : ∀ x : α, CMath.asin (-ₛ x) = -ₛ CMath.asin x
  atan : ∀ x : α, CMath.atan (-ₛ x) = -ₛ CMath.atan x
  sinh : ∀ x : α, CMath.sinh (-ₛ x) = -ₛ CMath.sinh x
  tanh : ∀ x : α, CMath.tanh (-ₛ x) = -ₛ CMath.tanh x
  asinh : ∀ x : α, CMath.asinh (-ₛ x) = -ₛ CMath.asinh x
  atanh : ∀ x : α, CMath.atanh (-ₛ x) = -ₛ CMath.atanh x

/-- Odd functions. -/
inductive Fn.Odd {α : Type} : Fn α → Prop
  | sin : Fn.Odd .sin
  | asin : Fn.Odd .asin
  | atan : Fn.Odd .atan
  | sinh : Fn.Odd .sinh
  | tanh : Fn.Odd .tanh
  | asinh : Fn.Odd .asinh
  | atanh : Fn.Odd .atanh

/-- Even functions. -/
inductive Fn.Even {α : Type} : Fn α → Prop
  | cos : Fn.Even .cos
  | cosh : Fn.Even .cosh

/-- Expressions that can be rewritten into each other, at any place and in any number of steps. -/
inductive Expr.SameBits {α V : Type} [Arith α] : Expr α V → Expr α V → Prop
  | refl (a) : SameBits a a
  | symm {a b} : SameBits a b → SameBits b a
  | trans {a b d} : SameBits a b → SameBits b d → SameBits a d
  -- inside
  | neg {a a'} : SameBits a a' → SameBits (.neg a) (.neg a')
  | abs {a a'} : SameBits a a' → SameBits (.abs a) (.abs a')
  | fn (φ) {a a'} : SameBits a a' → SameBits (.fn φ a) (.fn φ a')
  | bin (o) {a a' b b'} : SameBits a a' → SameBits b b' → SameBits (.bin o a b) (.bin o a' b')
  | sbin (o s) {a a'} : SameBits a a' → SameBits (.sbin o a s) (.sbin o a' s)
  | hypot3 {a a' b b' d d'} : SameBits a a' → SameBits b b' → SameBits d d' →
      SameBits (.hypot3 a b d) (.hypot3 a' b' d')
  -- order of operands
  | add_comm (a b) : SameBits (.bin .add a b) (.bin .add b a)
  | mul_comm (a b) : SameBits (.bin .mul a b) (.bin .mul b a)
  | hypot_comm (a b) : SameBits (.bin .hypot a b) (.bin .hypot b a)
  | hypot3_comm (a b d) : SameBits (.hypot3 a b d) (.hypot3 b a d)
  -- signs
  | sub_eq (a b) : SameBits (.bin .sub a b) (.bin .add a (.neg b))
  | neg_neg (a) : SameBits (.neg (.neg a)) a
  | neg_add (a b) : SameBits (.bin .add (.neg a) (.neg b)) (.neg (.bin .add a b))
  | neg_mul (a b) : SameBits (.bin .mul (.neg a) b) (.neg (.bin .mul a b))
  | neg_div (a b) : SameBits (.bin .div (.neg a) b) (.neg (.bin .div a b))
  | hypot_neg (a b) : SameBits (.bin .hypot (.neg a) b) (.bin .hypot a b)
  | odd {φ} (a) : φ.Odd → SameBits (.fn φ (.neg a)) (.neg (.fn φ a))
  | even {φ} (a) : φ.Even → SameBits (.fn φ (.neg a)) (.fn φ a)
  -- scalars
  | s_add (a s) : SameBits (.sbin .sAdd a s) (.sbin .addS a s)
  | s_mul (a s) : SameBits (.sbin .sMul a s) (.sbin .mulS a s)
  | sub_s (a s) : SameBits (.sbin .subS a s) (.sbin .addS a (-ₛ s))
  | s_sub (a s) : SameBits (.sbin .sSub a s) (.sbin .addS (.neg a) s)
  | div_s (a s) : SameBits (.sbin .divS a s) (.sbin .mulS a (Arith.lit 1 ÷ₛ s))
  | neg_add_s (a s) : SameBits (.sbin .addS (.neg a) (-ₛ s)) (.neg (.sbin .addS a s))
  | neg_mul_s (a s) : SameBits (.sbin .mulS (.neg a) s) (.neg (.sbin .mulS a s))
  | mul_s_neg (a s) : SameBits (.sbin .mulS a (-ₛ s)) (.neg (.sbin .mulS a s))
  | s_div_neg (a s) : SameBits (.sbin .sDiv a (-ₛ s)) (.neg (.sbin .sDiv a s))

/-- The operator of an in-place operator; `/=` is not rewritten because its value is rounded differently
(C22). -/
inductive AOp.Of : AOp → Bin → Prop
  | add : AOp.Of .add .add
  | sub : AOp.Of .sub .sub
  | mul : AOp.Of .mul .mul

/-- Calls that can be exchanged. -/
inductive Call.SameBits {α V : Type} [Arith α] : Call α V → Call α V → Prop
  | refl (k) : SameBits k k
  | symm {k k'} : SameBits k k' → SameBits k' k
  | trans {k k' k''} : SameBits k k' → SameBits k' k'' → SameBits k k''
  | assign (t) {e e'} : e.SameBits e' → SameBits (.act (.assign t e)) (.act (.assign t e'))
  /-- if the operand is an object it stays that object, because it may be the target itself -/
  | upd (o t) {e e'} : e.SameBits e' → (∀ v, e ≠ .var v) → (∀ v, e' ≠ .var v) →
      SameBits (.act (.upd o t e)) (.act (.upd o t e'))
  | inplace {o b} (t) {e} : AOp.Of o b → e ≠ .var t →
      SameBits (.act (.upd o t e)) (.act (.assign t (.bin b (.var t) e)))
  | cmp (op) {a a' b b'} : a.SameBits a' → b.SameBits b' →
      SameBits (.ask (.cmp op a b)) (.ask (.cmp op a' b'))
  | cmpS (op s) {a a'} : a.SameBits a' → SameBits (.ask (.cmpS op a s)) (.ask (.cmpS op a' s))
  | sCmp (op s) {a a'} : a.SameBits a' → SameBits (.ask (.sCmp op s a)) (.ask (.sCmp op s a'))

/-- Client code that differs in rewritten calls only. -/
structure Caller.SameBits {α V Q : Type} [Arith α] (cl cl' : Caller (Call α V) (Answer α) Q) : Prop where
  next : ∀ q, (cl.next q = none ∧ cl'.next q = none) ∨
    ∃ k k', cl.next q = some k ∧ cl'.next q = some k' ∧ k.SameBits k'
  after : ∀ q r, cl'.after q r = cl.after q r

end HJ
