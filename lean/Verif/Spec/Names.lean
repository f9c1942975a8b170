import Verif.Spec.Real
import Verif.Model.Names

/-!
# Specification: the functions that names stand for

`X` is the type of points, `x` the point at which derivatives are asked for.
-/

namespace HJ

variable {J X : Type}

/-- A further argument of a call: a real number or a real function. -/
inductive CMathArg (X : Type) where
  | num (r : ℝ)
  | fn (F : X → ℝ)

/-- The argument given is the argument meant. -/
def CArg.IsAt (R : J → (X → ℝ) → Prop) : CArg XReal J → CMathArg X → Prop
  | .num a, .num r => a = XReal.num r
  | .jet y, .fn F => R y F
  | _, _ => False

/-- `NameDen order x name F args R`: the call of `name` on `F` with further arguments `args` is the
function `R`, and near `x` it has derivatives up to `order`. -/
inductive NameDen (order : Nat) (x : X) : String → (X → ℝ) → List (CMathArg X) → (X → ℝ) → Prop
  | abs {s F} (hs : s ∈ ["__abs__", "abs"]) (h : F x ≠ 0) : NameDen order x s F [] fun y => |F y|
  | pow {s F} {b : ℝ} (hs : s ∈ ["__pow__", "pow"])
      (h : 0 < F x ∨ (F x < 0 ∧ ∃ k : ℤ, b = k) ∨ (F x = 0 ∧ (order : ℝ) ≤ b)) :
      NameDen order x s F [.num b] fun y => F y ^ b
  | reciprocal {F} (h : F x ≠ 0) : NameDen order x "reciprocal" F [] fun y => 1 / F y
  | sqrt {F} (h : 0 < F x) : NameDen order x "sqrt" F [] fun y => √(F y)
  /-- the real number whose third power is the argument -/
  | cbrt {F R} (h : F x ≠ 0) (hR : ∀ y, R y ^ 3 = F y) : NameDen order x "cbrt" F [] R
  | cos {F} : NameDen order x "cos" F [] fun y => Real.cos (F y)
  | sin {F} : NameDen order x "sin" F [] fun y => Real.sin (F y)
  | tan {F} (h : Real.cos (F x) ≠ 0) : NameDen order x "tan" F [] fun y => Real.tan (F y)
  | acos {s F} (hs : s ∈ ["acos", "arccos"]) (h : -1 < F x ∧ F x < 1) :
      NameDen order x s F [] fun y => Real.arccos (F y)
  | asin {s F} (hs : s ∈ ["asin", "arcsin"]) (h : -1 < F x ∧ F x < 1) :
      NameDen order x s F [] fun y => Real.arcsin (F y)
  | atan {s F} (hs : s ∈ ["atan", "arctan"]) : NameDen order x s F [] fun y => Real.arctan (F y)
  /-- the angle of the point with abscissa `G` and ordinate `F` -/
  | atan2 {s F G} (hs : s ∈ ["atan2", "arctan2"]) (h : F x ≠ 0 ∨ 0 < G x) :
      NameDen order x s F [.fn G] fun y => Complex.arg ⟨G y, F y⟩
  | hypot {F G} (h : F x ≠ 0 ∨ G x ≠ 0) :
      NameDen order x "hypot" F [.fn G] fun y => √(F y ^ 2 + G y ^ 2)
  | hypot3 {F G H} (h : F x ≠ 0 ∨ G x ≠ 0 ∨ H x ≠ 0) :
      NameDen order x "hypot" F [.fn G, .fn H] fun y => √(F y ^ 2 + G y ^ 2 + H y ^ 2)
  | cosh {F} : NameDen order x "cosh" F [] fun y => Real.cosh (F y)
  | sinh {F} : NameDen order x "sinh" F [] fun y => Real.sinh (F y)
  | tanh {F} : NameDen order x "tanh" F [] fun y => Real.tanh (F y)
  | acosh {s F} (hs : s ∈ ["acosh", "arccosh"]) (h : 1 < F x) :
      NameDen order x s F [] fun y => Real.arcosh (F y)
  | asinh {s F} (hs : s ∈ ["asinh", "arcsinh"]) : NameDen order x s F [] fun y => Real.arsinh (F y)
  | atanh {s F} (hs : s ∈ ["atanh", "arctanh"]) (h : -1 < F x ∧ F x < 1) :
      NameDen order x s F [] fun y => Real.artanh (F y)
  | exp {F} : NameDen order x "exp" F [] fun y => Real.exp (F y)
  | log {F} (h : 0 < F x) : NameDen order x "log" F [] fun y => Real.log (F y)
  | logB {F} {b : ℝ} (h : 0 < F x) (hb : 0 < b ∧ b ≠ 1) :
      NameDen order x "log" F [.num b] fun y => Real.log (F y) / Real.log b
  | log2 {F} (h : 0 < F x) : NameDen order x "log2" F [] fun y => Real.log (F y) / Real.log 2
  | log10 {F} (h : 0 < F x) : NameDen order x "log10" F [] fun y => Real.log (F y) / Real.log 10

/-- The methods a Python user can call on a jet, among them the names that numpy's functions look
up on objects (`np.arcsin` calls `arcsin`). -/
def pyNames : List String :=
  ["__abs__", "__pow__", "abs", "reciprocal", "sqrt", "cbrt", "cos", "sin", "tan", "acos", "asin",
    "atan", "atan2", "arccos", "arcsin", "arctan", "arctan2", "hypot", "cosh", "sinh", "tanh", "acosh",
    "asinh", "atanh", "arccosh", "arcsinh", "arctanh", "exp", "log", "log2", "log10"]

/-- The functions of `<cmath>` that a C++ user can call on a jet. -/
def cppNames : List String :=
  ["abs", "pow", "sqrt", "cbrt", "cos", "sin", "tan", "acos", "asin", "atan", "atan2", "hypot",
    "cosh", "sinh", "tanh", "acosh", "asinh", "atanh", "exp", "log", "log2", "log10"]

/-- The further arguments a method takes: `true` for a jet, `false` for a number. -/
def pyTakes (name : String) : List (List Bool) :=
  if name = "__pow__" then [[false]]
  else if name = "log" then [[], [false]]
  else if name = "atan2" ∨ name = "arctan2" then [[true]]
  else if name = "hypot" then [[true], [true, true]]
  else [[]]

/-- Whether an argument is a jet. -/
def CArg.isJet {α : Type} : CArg α J → Bool
  | .num _ => false
  | .jet _ => true

end HJ
