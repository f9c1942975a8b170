import Verif.Spec.Plain

/-!
# Specification: derivatives of the library's functions, as user code writes them
-/

namespace HJ

variable {α : Type} [CMath α]

/-- The derivative of the library function as a formula with numbers, e.g. `1 / (2 * sqrt(x))`. -/
def Fn.slope : Fn α → Expr α Unit
  | .sqrt => .sbin .sDiv (.sbin .sMul (.fn .sqrt (.var ())) (Arith.lit 2)) (Arith.lit 1)
  | .cbrt => .sbin .sDiv
    (.bin .mul (.sbin .sMul (.fn .cbrt (.var ())) (Arith.lit 3)) (.fn .cbrt (.var ())))
      (Arith.lit 1)
  | .reciprocal => .bin .mul (.neg (.fn .reciprocal (.var ()))) (.fn .reciprocal (.var ()))
  | .cos => .neg (.fn .sin (.var ()))
  | .sin => .fn .cos (.var ())
  | .tan => .sbin .addS (.bin .mul (.fn .tan (.var ())) (.fn .tan (.var ()))) (Arith.lit 1)
  | .acos => .sbin .sDiv (.fn .sqrt (.sbin .sSub (.bin .mul (.var ()) (.var ())) (Arith.lit 1)))
      (-ₛ Arith.lit 1)
  | .asin => .sbin .sDiv (.fn .sqrt (.sbin .sSub (.bin .mul (.var ()) (.var ())) (Arith.lit 1)))
      (Arith.lit 1)
  | .atan => .sbin .sDiv (.sbin .addS (.bin .mul (.var ()) (.var ())) (Arith.lit 1)) (Arith.lit 1)
  | .cosh => .fn .sinh (.var ())
  | .sinh => .fn .cosh (.var ())
  | .tanh => .sbin .sSub (.bin .mul (.fn .tanh (.var ())) (.fn .tanh (.var ()))) (Arith.lit 1)
  | .acosh => .sbin .sDiv (.bin .mul (.fn .sqrt (.sbin .subS (.var ()) (Arith.lit 1)))
      (.fn .sqrt (.sbin .addS (.var ()) (Arith.lit 1)))) (Arith.lit 1)
  | .asinh => .sbin .sDiv (.fn .sqrt (.sbin .sAdd (.bin .mul (.var ()) (.var ())) (Arith.lit 1)))
      (Arith.lit 1)
  | .atanh => .sbin .sDiv (.sbin .sSub (.bin .mul (.var ()) (.var ())) (Arith.lit 1)) (Arith.lit 1)
  | .exp => .fn .exp (.var ())
  | .log => .sbin .sDiv (.var ()) (Arith.lit 1)
  | .log2 => .sbin .sDiv (.sbin .mulS (.var ()) (CMath.log (Arith.lit 2))) (Arith.lit 1)
  | .log10 => .sbin .sDiv (.sbin .mulS (.var ()) (CMath.log (Arith.lit 10))) (Arith.lit 1)
  | .pow b => .sbin .sMul (.fn (.pow (b -ₛ Arith.lit 1)) (.var ())) b
  | .logB base => .sbin .sDiv (.sbin .mulS (.var ()) (CMath.log base)) (Arith.lit 1)

/-- The same for dense jets, which write `-1 / sqrt(1 - x * x)` for `acos` with a negative literal. -/
def Fn.slopeD : Fn α → Expr α Unit
  | .acos => .sbin .sDiv (.fn .sqrt (.sbin .sSub (.bin .mul (.var ()) (.var ())) (Arith.lit 1)))
      (Arith.lit (-1))
  | ψ => ψ.slope

/-- The second derivative of the library function as a formula with numbers, in which the first derivative
occurs where that is usual. -/
def Fn.bend : Fn α → Expr α Unit
  | .sqrt => .bin .div (.neg (Fn.sqrt).slopeD) (.sbin .sMul (.var ()) (Arith.lit 2))
  | .cbrt => .bin .div (.sbin .mulS (.neg (Fn.cbrt).slopeD) (Arith.lit 2))
    (.sbin .sMul (.var ()) (Arith.lit 3))
  | .reciprocal => .bin .mul (.sbin .sMul (.fn .reciprocal (.var ())) (Arith.lit (-2)))
    (Fn.reciprocal).slopeD
  | .cos => .neg (.fn .cos (.var ()))
  | .sin => .neg (.fn .sin (.var ()))
  | .tan => .bin .mul (.sbin .mulS (Fn.tan).slopeD (Arith.lit 2)) (.fn .tan (.var ()))
  | .acos => .bin .div (.bin .mul (Fn.acos).slopeD (.var ()))
      (.sbin .sSub (.bin .mul (.var ()) (.var ())) (Arith.lit 1))
  | .asin => .bin .div (.bin .mul (Fn.asin).slopeD (.var ()))
      (.sbin .sSub (.bin .mul (.var ()) (.var ())) (Arith.lit 1))
  | .atan => .bin .mul
    (.sbin .mulS (.bin .mul (.neg (Fn.atan).slopeD) (Fn.atan).slopeD) (Arith.lit 2)) (.var ())
  | .cosh => .fn .cosh (.var ())
  | .sinh => .fn .sinh (.var ())
  | .tanh => .bin .mul (.sbin .sMul (.fn .tanh (.var ())) (Arith.lit (-2))) (Fn.tanh).slopeD
  | .acosh => .bin .div (.bin .mul (.neg (Fn.acosh).slopeD) (.var ()))
      (.bin .mul (.sbin .subS (.var ()) (Arith.lit 1)) (.sbin .addS (.var ()) (Arith.lit 1)))
  | .asinh => .bin .div (.bin .mul (.neg (Fn.asinh).slopeD) (.var ()))
      (.sbin .sAdd (.bin .mul (.var ()) (.var ())) (Arith.lit 1))
  | .atanh => .bin .div (.sbin .sMul (.var ()) (Arith.lit 2))
      (.bin .mul (.sbin .subS (.bin .mul (.var ()) (.var ())) (Arith.lit 1))
        (.sbin .subS (.bin .mul (.var ()) (.var ())) (Arith.lit 1)))
  | .exp => .fn .exp (.var ())
  | .log => .bin .mul (.neg (Fn.log).slopeD) (Fn.log).slopeD
  | .log2 => .bin .div (.neg (Fn.log2).slopeD) (.var ())
  | .log10 => .bin .div (.neg (Fn.log10).slopeD) (.var ())
  | .pow b => .sbin .sMul (.fn (.pow (b -ₛ Arith.lit 2)) (.var ())) ((b -ₛ Arith.lit 1) *ₛ b)
  | .logB base => .bin .div (.neg (Fn.logB base).slopeD) (.var ())

end HJ
