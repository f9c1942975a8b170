import Verif.Spec.Rewrite
import Verif.Spec.SProgram

/-!
# Rewriting of code on sparse scalars

Two more rules of the arithmetic: adding a product to zero, as the hash table does for a name that was not
there, gives the product; and the constant `-1` is the negative of `1`.
-/

namespace HJ

/-- Rules of an arithmetic. -/
structure SparseLaws (α : Type) [CMath α] : Prop where
  sign : SignLaws α
  zero_add : ∀ x y : α, Arith.lit 0 +ₛ x *ₛ y = x *ₛ y
  minus_one : (Arith.lit (-1) : α) = -ₛ Arith.lit 1

/-- Calls on sparse scalars that can be exchanged. -/
inductive SCall.SameBits {α V : Type} [Arith α] : SCall α V → SCall α V → Prop
  | refl {k} : k.DictOk → SameBits k k
  | symm {k k'} : SameBits k k' → SameBits k' k
  | trans {k k' k''} : SameBits k k' → SameBits k' k'' → SameBits k k''
  | assign (t) {e e'} : e.SameBits e' → SameBits (.act (.assign t e)) (.act (.assign t e'))
  /-- if the operand is an object it stays that object, because it may be the target itself -/
  | upd (o t) {e e'} : e.SameBits e' → (∀ v, e ≠ .var v) → (∀ v, e' ≠ .var v) →
      SameBits (.act (.upd o t e)) (.act (.upd o t e'))
  | inplace (t) {e} : e ≠ .var t →
      SameBits (.act (.upd .mul t e)) (.act (.assign t (.bin .mul (.var t) e)))
  | cmp (op) {a a' b b'} : a.SameBits a' → b.SameBits b' →
      SameBits (.ask (.cmp op a b)) (.ask (.cmp op a' b'))
  | cmpS (op s) {a a'} : a.SameBits a' → SameBits (.ask (.cmpS op a s)) (.ask (.cmpS op a' s))
  | sCmp (op s) {a a'} : a.SameBits a' → SameBits (.ask (.sCmp op s a)) (.ask (.sCmp op s a'))

/-- Client code that differs in rewritten calls only. -/
structure Caller.SSameBits {α V Q : Type} [Arith α] (cl cl' : Caller (SCall α V) (Answer α) Q) :
    Prop where
  next : ∀ q, (cl.next q = none ∧ cl'.next q = none) ∨
    ∃ k k', cl.next q = some k ∧ cl'.next q = some k' ∧ k.SameBits k'
  after : ∀ q r, cl'.after q r = cl.after q r

end HJ
