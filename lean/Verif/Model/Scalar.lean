import Verif.Model.Res

/-!
# Scalars

`TScalar` of the C++ templates.  The classes carry operations and no laws, so everything proved
generically holds for any scalar arithmetic, in particular for IEEE doubles.
-/

namespace HJ

/-- Arithmetic operators used by `hyperjet.h`.  `lit n` is the integer literal `n` converted to
the scalar type, `half` the literal `0.5`, `powN x n` the call `pow(x, n)` with an integer
literal `n` (`hyperjet.h` lines 1192-1195, 1571). -/
class Arith (α : Type) where
  add : α → α → α
  sub : α → α → α
  mul : α → α → α
  div : α → α → α
  neg : α → α
  lit : Int → α
  half : α
  powN : α → Nat → α

/-- The six comparison operators; six functions because for NaN none is determined by the
others by negation. (Used in `hyperjet.h` lines 1661-1724.) -/
class Cmp (α : Type) where
  eqB : α → α → Bool
  neB : α → α → Bool
  ltB : α → α → Bool
  gtB : α → α → Bool
  leB : α → α → Bool
  geB : α → α → Bool

/-- The `<cmath>` functions used by `hyperjet.h` (include comment on line 5). -/
class CMath (α : Type) extends Arith α, Cmp α where
  pow : α → α → α
  sqrt : α → α
  cbrt : α → α
  cos : α → α
  sin : α → α
  tan : α → α
  acos : α → α
  asin : α → α
  atan : α → α
  atan2 : α → α → α
  hypot : α → α → α
  hypot3 : α → α → α → α
  cosh : α → α
  sinh : α → α
  tanh : α → α
  acosh : α → α
  asinh : α → α
  atanh : α → α
  exp : α → α
  log : α → α
  log2 : α → α
  log10 : α → α

scoped infixl:65 " +ₛ " => Arith.add
scoped infixl:65 " -ₛ " => Arith.sub
scoped infixl:70 " *ₛ " => Arith.mul
scoped infixl:70 " ÷ₛ " => Arith.div
scoped prefix:75 "-ₛ" => Arith.neg

/-- A derivative coefficient: a scalar, or one of the compile-time tag types `Zero`, `One`,
`MinusOne`.  Models `hyperjet.h` lines 136-175. -/
inductive Coef (α : Type) where
  | zero | one | minusOne
  | val (a : α)

variable {α : Type} [Arith α]

/-- `std::is_same_v<T, Zero>` (`hyperjet.h` lines 184, 201, 226, 245, 273, 292). -/
def Coef.isZero : Coef α → Bool
  | .zero => true
  | _ => false

/-- `coef * scalar`.  `none` is a value of the tag type `Zero` (`hyperjet.h` lines 138-141,
158-161, 171-174; the last case is ordinary multiplication). -/
def Coef.app : Coef α → α → Option α
  | .zero, _ => none
  | .one, b => some b
  | .minusOne, b => some (-ₛ b)
  | .val a, b => some (a *ₛ b)

/-- `Zero * scalar = Zero`, otherwise multiplication (`hyperjet.h` lines 138-141): used for
`ca * a[1 + j]` where `ca` may have type `Zero`. -/
def mulZ : Option α → α → Option α
  | none, _ => none
  | some a, b => some (a *ₛ b)

/-- `Zero + x = x`, `x + Zero = x` (`hyperjet.h` lines 143-153), otherwise addition. -/
def addZ : Option α → Option α → Option α
  | none, y => y
  | some x, none => some x
  | some x, some y => some (x +ₛ y)

/-- Use of a term in a place that needs a scalar; a `Zero` there would not compile.
(`hyperjet.h` lines 178-312.) -/
def needScalar : Option α → Res α
  | some v => .ok v
  | none => .ub .illFormed

end HJ
