import Verif.Model.SCustom

/-!
# Functions of two arguments that user code adds to `SScalar`

The recipe of `Model/SCustom.lean` with the tangent plane.
-/

namespace HJ

variable {α V W : Type}

/-- The formula with other names for its variables. User code, no line of `hyperjet.h`. -/
def Expr.ren (f : V → W) : Expr α V → Expr α W
  | .var v => .var (f v)
  | .const s => .const s
  | .neg e => .neg (e.ren f)
  | .abs e => .abs (e.ren f)
  | .fn φ e => .fn φ (e.ren f)
  | .bin o e₁ e₂ => .bin o (e₁.ren f) (e₂.ren f)
  | .sbin o e s => .sbin o (e.ren f) s
  | .hypot3 e₁ e₂ e₃ => .hypot3 (e₁.ren f) (e₂.ren f) (e₃.ren f)

/-- The number variables of `scustom2`. User code, no line of `hyperjet.h`. -/
inductive Custom2Var
  | x | z | y | d | e
  deriving DecidableEq

/-- The values of the two arguments. User code, no line of `hyperjet.h`. -/
def Custom2Var.arg : Bool → Custom2Var
  | false => .x
  | true => .z

/-- `x = a.f(); z = b.f(); y = φ(x, z); d = φ₁(x, z); e = φ₂(x, z); r = (a - x) * d + (b - z) * e + y;`
(User code calling `hyperjet.h` lines 2071-2074, 2143-2159, 2194-2197, 2236-2246.) -/
def scustom2 (φ φ₁ φ₂ : Expr α Bool) (a b r : V) : List (SMCall α V Custom2Var) :=
  [.f .x a, .f .z b, .compute .y (φ.ren .arg), .compute .d (φ₁.ren .arg), .compute .e (φ₂.ren .arg),
    .act (.assign r (.sbin .addS (.bin .add (.sbin .mulS (.sbin .subS (.var a) (.inr .x)) (.inr .d))
      (.sbin .mulS (.sbin .subS (.var b) (.inr .z)) (.inr .e))) (.inr .y)))]

end HJ
