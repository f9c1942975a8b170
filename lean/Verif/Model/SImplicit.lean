import Verif.Model.SCustom

/-!
# User code that differentiates a solution of an equation

C++ user code with a value of the variable `k` that solves `y = 0`: one Newton step on the sparse scalar `y`
gives the solution as a function of the other variables.
-/

namespace HJ

variable {V : Type}

/-- `x = v.f(); d = y.d(k); d = -1 / d; r = y * d + x;`
(User code calling `hyperjet.h` lines 2071-2084, 2152-2159, 2236-2246.) -/
def simplicit (v y r : V) (k : String) : List (SMCall ℝ V CustomVar) :=
  [.f .x v, .d .d y k, .compute .d (.sbin .sDiv (.var .d) (-1)),
    .act (.assign r (.sbin .addS (.sbin .mulS (.var y) (.inr .d)) (.inr .x)))]

end HJ
