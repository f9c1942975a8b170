import Verif.Model.Custom
import Verif.Model.SMixed

/-!
# Functions that user code adds to `SScalar`

`SScalar` has no setters.  C++ user code applies a function the library does not have by its tangent at the
value: it reads the value, computes the function and its derivative with numbers, and builds the result with
three operations between a sparse scalar and a number.
-/

namespace HJ

variable {α V : Type}

/-- `x = a.f(); y = φ(x); d = φ'(x); r = (a - x) * d + y;`
(User code calling `hyperjet.h` lines 2071-2074, 2152-2159, 2194-2197, 2236-2246.) -/
def scustom (φ φ₁ : Expr α Unit) (a r : V) : List (SMCall α V CustomVar) :=
  [.f .x a, .compute .y (φ.at .x), .compute .d (φ₁.at .x),
    .act (.assign r (.sbin .addS (.sbin .mulS (.sbin .subS (.var a) (.inr .x)) (.inr .d)) (.inr .y)))]

end HJ
