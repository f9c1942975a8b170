import Verif.Model.DD

/-!
# `variables` with a `std::array`

The overload the Python classes of static size call (`/repo/python/src/common.h` lines 81-84).
-/

namespace HJ

/-- `variables<T>(const std::array<Scalar, T>&)` (`hyperjet.h` lines 677-705).  `T` is the length of the
list; for a static type the `static_assert` of line 682 admits only `T = TSize`, so other lengths are
programs that do not compile and the function has no meaning for them.  The result is a
`std::vector` of default-constructed objects (line 689) or a `std::array` of them (line 698), both a list
here, filled by the same loop. -/
def DD.variablesArr {α : Type} [Arith α] (c : Cfg) (values : List α) : Res (List (DD α)) := do
  let s : Int := values.length
  forUp 0 s (List.replicate s.toNat (DD.default c)) fun i vars => do
    let v ← DD.rdVal values i
    let x ← DD.var c i v s
    DD.wrObj vars i x

end HJ
