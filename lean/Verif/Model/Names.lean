import Verif.Model.PyHeap
import Verif.Model.PySparse

/-!
# Which name calls which member function

The methods bound in `/repo/python/src/common.h` lines 87-145 and
`/repo/python/src/bind_sscalar.cpp` lines 26-69, the module function `hj.hypot` (`common.h` lines
219-220), and the free functions of `/repo/include/hyperjet/hyperjet.h` lines 1756-1984 and
2708-2894, each as the list of its definitions in source order.
-/

namespace HJ

variable {α J : Type}

/-- An argument of a call from Python or C++: a number or a jet (no line of `/repo` of its own; see
`common.h` lines 87-145). -/
inductive CArg (α J : Type) where
  | num (s : α)
  | jet (x : J)

/-- What a name can be bound to: a member function without further argument, one with a number, or
one of the functions on several jets (`common.h` lines 88-145, `hyperjet.h` lines 1759-1987). -/
inductive Member (α : Type) where
  | plain (φ : Fn α)
  | withNum (φ : α → Fn α)
  | abs
  | atan2
  | hypot
  | hypot3

/-- The member functions of one class (`common.h` line 21, `bind_sscalar.cpp` line 5). -/
structure Members (α J : Type) where
  un : Fn α → J → Res J
  abs : J → Res J
  atan2 : J → J → Res J
  hypot : J → J → Res J
  hypot3 : J → J → J → Res J

/-- The member functions of `DDScalar` (`hyperjet.h` lines 1253-1662). -/
def ddMembers [CMath α] (c : Cfg) : Members α (DD α) where
  un φ x := DD.un c x φ.coef
  abs x := x.abs c
  atan2 x y := x.atan2 c y
  hypot x y := x.hypot c y
  hypot3 x y z := DD.hypot3 c x y z

/-- The member functions of `SScalar` (`hyperjet.h` lines 2336-2613). -/
def ssMembers [CMath α] (ord : Order α) : Members α (SS α) where
  un φ x := SS.un ord x φ.coefS
  abs x := x.abs ord
  atan2 x y := x.atan2 ord y
  hypot x y := x.hypot ord y
  hypot3 x y z := SS.hypot3 ord x y z

/-- Call a member function, `none` if the arguments do not fit its parameters (pybind11's overload
resolution for `common.h` lines 88-145; the C++ compiler for `hyperjet.h` lines 1759-1987). -/
def Member.call (M : Members α J) (x : J) : Member α → List (CArg α J) → Option (Res J)
  | .plain φ, [] => some (M.un φ x)
  | .withNum φ, [.num b] => some (M.un (φ b) x)
  | .abs, [] => some (M.abs x)
  | .atan2, [.jet y] => some (M.atan2 x y)
  | .hypot, [.jet y] => some (M.hypot x y)
  | .hypot3, [.jet y, .jet z] => some (M.hypot3 x y z)
  | _, _ => none

/-- All definitions of `name`, and the first one that accepts the arguments (pybind11 tries the
overloads of `common.h` lines 88-145 in the order of their definition). -/
def overload (defs : List (String × Member α)) (M : Members α J) (x : J) (name : String)
    (args : List (CArg α J)) : Option (Res J) :=
  (defs.filter fun d => d.1 == name).findSome? fun d => d.2.call M x args

/-- `x.name(args)` in Python: `AttributeError` if the name is not bound, `TypeError` if no overload
accepts the arguments (`common.h` lines 88-145). -/
def callMethod (defs : List (String × Member α)) (M : Members α J) (x : J) (name : String)
    (args : List (CArg α J)) : Res J :=
  if defs.any fun d => d.1 == name then (overload defs M x name args).getD (.throw .typeError)
  else .throw .attributeError

/-- Methods of the dense classes that compute a new jet (`common.h` lines 89, 91, 93, 110-145). -/
def ddDefs : List (String × Member α) := [
  ("__abs__", .abs),
  ("__pow__", .withNum .pow),
  ("abs", .abs),
  ("reciprocal", .plain .reciprocal),
  ("sqrt", .plain .sqrt),
  ("cbrt", .plain .cbrt),
  ("cos", .plain .cos),
  ("sin", .plain .sin),
  ("tan", .plain .tan),
  ("acos", .plain .acos),
  ("asin", .plain .asin),
  ("atan", .plain .atan),
  ("atan2", .atan2),
  ("arccos", .plain .acos),
  ("arcsin", .plain .asin),
  ("arctan", .plain .atan),
  ("arctan2", .atan2),
  ("hypot", .hypot),
  ("hypot", .hypot3),
  ("cosh", .plain .cosh),
  ("sinh", .plain .sinh),
  ("tanh", .plain .tanh),
  ("acosh", .plain .acosh),
  ("arccosh", .plain .acosh),
  ("asinh", .plain .asinh),
  ("arcsinh", .plain .asinh),
  ("atanh", .plain .atanh),
  ("arctanh", .plain .atanh),
  ("exp", .plain .exp),
  ("log", .plain .log),
  ("log", .withNum .logB),
  ("log2", .plain .log2),
  ("log10", .plain .log10)]

/-- Methods of `SScalar` that compute a new jet (`bind_sscalar.cpp` lines 27, 29, 31, 37-72). -/
def ssDefs : List (String × Member α) := [
  ("__abs__", .abs),
  ("__pow__", .withNum .pow),
  ("abs", .abs),
  ("reciprocal", .plain .reciprocal),
  ("sqrt", .plain .sqrt),
  ("cbrt", .plain .cbrt),
  ("cos", .plain .cos),
  ("sin", .plain .sin),
  ("tan", .plain .tan),
  ("acos", .plain .acos),
  ("asin", .plain .asin),
  ("atan", .plain .atan),
  ("atan2", .atan2),
  ("arccos", .plain .acos),
  ("arcsin", .plain .asin),
  ("arctan", .plain .atan),
  ("arctan2", .atan2),
  ("hypot", .hypot),
  ("hypot", .hypot3),
  ("cosh", .plain .cosh),
  ("sinh", .plain .sinh),
  ("tanh", .plain .tanh),
  ("acosh", .plain .acosh),
  ("arccosh", .plain .acosh),
  ("asinh", .plain .asinh),
  ("arcsinh", .plain .asinh),
  ("atanh", .plain .atanh),
  ("arctanh", .plain .atanh),
  ("exp", .plain .exp),
  ("log", .plain .log),
  ("log", .withNum .logB),
  ("log2", .plain .log2),
  ("log10", .plain .log10)]

/-- Functions of the Python module that compute a new jet (`common.h` lines 219-220). -/
def moduleDefs : List (String × Member α) := [
  ("hypot", .hypot),
  ("hypot", .hypot3)]

/-- C++ free functions on `DDScalar` (`hyperjet.h` lines 1760-1984).  The first `pow` takes an
integer, which is converted to the scalar type. -/
def ddFree : List (String × Member α) := [
  ("abs", .abs),
  ("pow", .withNum .pow),
  ("pow", .withNum .pow),
  ("sqrt", .plain .sqrt),
  ("cbrt", .plain .cbrt),
  ("cos", .plain .cos),
  ("sin", .plain .sin),
  ("tan", .plain .tan),
  ("acos", .plain .acos),
  ("asin", .plain .asin),
  ("atan", .plain .atan),
  ("atan2", .atan2),
  ("hypot", .hypot),
  ("hypot", .hypot3),
  ("cosh", .plain .cosh),
  ("sinh", .plain .sinh),
  ("tanh", .plain .tanh),
  ("acosh", .plain .acosh),
  ("asinh", .plain .asinh),
  ("atanh", .plain .atanh),
  ("exp", .plain .exp),
  ("log", .plain .log),
  ("log2", .plain .log2),
  ("log10", .plain .log10)]

/-- C++ free functions on `SScalar` (`hyperjet.h` lines 2708-2894); the first `pow` as above. -/
def ssFree : List (String × Member α) := [
  ("abs", .abs),
  ("pow", .withNum .pow),
  ("pow", .withNum .pow),
  ("sqrt", .plain .sqrt),
  ("cbrt", .plain .cbrt),
  ("cos", .plain .cos),
  ("sin", .plain .sin),
  ("tan", .plain .tan),
  ("acos", .plain .acos),
  ("asin", .plain .asin),
  ("atan", .plain .atan),
  ("atan2", .atan2),
  ("hypot", .hypot),
  ("hypot", .hypot3),
  ("cosh", .plain .cosh),
  ("sinh", .plain .sinh),
  ("tanh", .plain .tanh),
  ("acosh", .plain .acosh),
  ("asinh", .plain .asinh),
  ("atanh", .plain .atanh),
  ("exp", .plain .exp),
  ("log", .plain .log),
  ("log2", .plain .log2),
  ("log10", .plain .log10)]

end HJ
