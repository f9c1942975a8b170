import Verif.Model.Scalar
import Mathlib.Analysis.SpecialFunctions.Pow.Real
import Mathlib.Analysis.SpecialFunctions.Log.Base
import Mathlib.Analysis.SpecialFunctions.Trigonometric.Inverse
import Mathlib.Analysis.SpecialFunctions.Trigonometric.Arctan
import Mathlib.Analysis.SpecialFunctions.Arsinh
import Mathlib.Analysis.SpecialFunctions.Arcosh
import Mathlib.Analysis.SpecialFunctions.Artanh
import Mathlib.Analysis.SpecialFunctions.Complex.Arg

/-!
# Exact reals with infinities and NaN

The scalar type used for the statements in exact arithmetic: `double` (`hyperjet.h` lines 5
and 43) with the IEEE 754 / C99 Annex F rules for infinities and NaN, but without
rounding, overflow, underflow and signed zeros.  Where the sign of an infinity would depend on the
sign of a zero or on rounding (`x / 0`, the poles of `tan` and of `pow`) one sign is chosen.
-/

namespace HJ

open Classical

/-- A number, an infinity (`neg = true` is `-∞`) or NaN.  Stands for `double`, the `TScalar` of the
instantiations in `python/src` (`hyperjet.h` line 43). -/
inductive XReal where
  | num (x : ℝ)
  | inf (neg : Bool)
  | nan

namespace XReal

/-- Finite values. (`std::isfinite`; used in statements only, no line of `hyperjet.h`.) -/
def Fin : XReal → Prop
  | num _ => True
  | _ => False

noncomputable section

/-- Unary minus of `double`, as used in `hyperjet.h` (line 978). -/
protected def neg : XReal → XReal
  | num x => num (-x)
  | inf s => inf !s
  | nan => nan

/-- `+` of `double`, as used in `hyperjet.h` (line 992). -/
protected def add : XReal → XReal → XReal
  | num x, num y => num (x + y)
  | num _, inf s => inf s
  | inf s, num _ => inf s
  | inf s, inf t => if s = t then inf s else nan
  | _, _ => nan

/-- `-` of `double`, as used in `hyperjet.h` (line 1047). -/
protected def sub (x y : XReal) : XReal := x.add y.neg

/-- `number * infinity`. (Part of `*`, `hyperjet.h` line 1107.) -/
def mulInf (x : ℝ) (s : Bool) : XReal := if x = 0 then nan else if x < 0 then inf !s else inf s

/-- `*` of `double`, as used in `hyperjet.h` (line 1107). -/
protected def mul : XReal → XReal → XReal
  | num x, num y => num (x * y)
  | num x, inf s => mulInf x s
  | inf s, num x => mulInf x s
  | inf s, inf t => inf (s != t)
  | _, _ => nan

/-- `/` of `double`, as used in `hyperjet.h` (line 1192). -/
protected def div : XReal → XReal → XReal
  | num x, num y => if y = 0 then (if x = 0 then nan else if x < 0 then inf true else inf false)
      else num (x / y)
  | num _, inf _ => num 0
  | inf s, num y => if y < 0 then inf !s else inf s
  | _, _ => nan

/-- `pow(x, n)` with an integer literal `n` (`hyperjet.h` lines 1193-1195, 1571). -/
protected def powN : XReal → Nat → XReal
  | num x, n => num (x ^ n)
  | inf s, n => if n = 0 then num 1 else if n % 2 = 0 then inf false else inf s
  | nan, n => if n = 0 then num 1 else nan

/-- Operators of `double`, `hyperjet.h` line 43. -/
instance : Arith XReal where
  add := XReal.add
  sub := XReal.sub
  mul := XReal.mul
  div := XReal.div
  neg := XReal.neg
  lit z := num z
  half := num (1 / 2)
  powN := XReal.powN

/-- `<` of `double`, as used in `hyperjet.h` (line 1661). -/
protected def lt : XReal → XReal → Prop
  | num x, num y => x < y
  | num _, inf s => s = false
  | inf s, num _ => s = true
  | inf s, inf t => s = true ∧ t = false
  | _, _ => False

/-- `==` of `double`, as used in `hyperjet.h` (line 1668). -/
protected def eq : XReal → XReal → Prop
  | num x, num y => x = y
  | inf s, inf t => s = t
  | _, _ => False

/-- Comparisons of `double`, `hyperjet.h` lines 1661-1724. -/
instance : Cmp XReal where
  eqB x y := decide (x.eq y)
  neB x y := decide (¬ x.eq y)
  ltB x y := decide (x.lt y)
  gtB x y := decide (y.lt x)
  leB x y := decide (x.lt y ∨ x.eq y)
  geB x y := decide (y.lt x ∨ x.eq y)

/-- Real cube root. (`std::cbrt`, `hyperjet.h` line 1290.) -/
def cbrtR (x : ℝ) : ℝ := if x < 0 then -((-x) ^ (1 / 3 : ℝ)) else x ^ (1 / 3 : ℝ)

/-- `std::pow` (C99 F.9.4.4), used in `hyperjet.h` lines 1259-1261. -/
protected def pow : XReal → XReal → XReal
  | num x, num b =>
      if b = 0 then num 1
      else if 0 < x then num (x ^ b)
      else if x = 0 then (if 0 < b then num 0 else inf false)
      else if ∃ k : ℤ, b = k then num (x ^ b) else nan
  | num x, inf s =>
      if |x| = 1 then num 1
      else if |x| < 1 then (if s then inf false else num 0)
      else (if s then num 0 else inf false)
  | num x, nan => if x = 1 then num 1 else nan
  | inf s, num b =>
      if b = 0 then num 1
      else if b < 0 then num 0
      else if s = true ∧ ∃ k : ℤ, b = 2 * k + 1 then inf true else inf false
  | inf _, inf t => if t then num 0 else inf false
  | inf _, nan => nan
  | nan, num b => if b = 0 then num 1 else nan
  | nan, _ => nan

/-- A function that is undefined (NaN) outside `D`, with given values at the infinities.
(`<cmath>`, `hyperjet.h` line 5.) -/
def lift (D : ℝ → Prop) (f : ℝ → ℝ) (ninf pinf : XReal) : XReal → XReal
  | num x => if D x then num (f x) else nan
  | inf s => if s then ninf else pinf
  | nan => nan

/-- A logarithm: `-∞` at zero, NaN below. (`std::log` and alike, `hyperjet.h` lines 1595-1655.) -/
def lg (f : ℝ → ℝ) : XReal → XReal
  | num x => if 0 < x then num (f x) else if x = 0 then inf true else nan
  | inf s => if s then nan else inf false
  | nan => nan

/-- `std::tan`, used in `hyperjet.h` line 1352. -/
protected def tan : XReal → XReal
  | num x => if Real.cos x = 0 then inf false else num (Real.tan x)
  | _ => nan

/-- `std::atanh`, used in `hyperjet.h` line 1569. -/
protected def atanh : XReal → XReal
  | num x => if |x| < 1 then num (Real.artanh x) else if x = 1 then inf false
      else if x = -1 then inf true else nan
  | _ => nan

/-- `std::atan2(y, x)`, used in `hyperjet.h` line 1420: the argument of `x + iy`. -/
protected def atan2 : XReal → XReal → XReal
  | num y, num x => num (Complex.arg ⟨x, y⟩)
  | num y, inf s => if s then (if y < 0 then num (-Real.pi) else num Real.pi) else num 0
  | inf s, num _ => if s then num (-(Real.pi / 2)) else num (Real.pi / 2)
  | inf s, inf t =>
      let q : ℝ := if t then 3 * Real.pi / 4 else Real.pi / 4
      if s then num (-q) else num q
  | _, _ => nan

/-- `std::hypot(a, b)`, used in `hyperjet.h` line 1440: an infinity wins over NaN. -/
protected def hypot : XReal → XReal → XReal
  | num a, num b => num (√(a ^ 2 + b ^ 2))
  | inf _, _ => inf false
  | _, inf _ => inf false
  | _, _ => nan

/-- `std::hypot(a, b, c)`, used in `hyperjet.h` line 1461. -/
protected def hypot3 : XReal → XReal → XReal → XReal
  | num a, num b, num c => num (√(a ^ 2 + b ^ 2 + c ^ 2))
  | inf _, _, _ => inf false
  | _, inf _, _ => inf false
  | _, _, inf _ => inf false
  | _, _, _ => nan

/-- `<cmath>` for `double`, `hyperjet.h` line 5. -/
instance : CMath XReal where
  pow := XReal.pow
  sqrt := lift (0 ≤ ·) Real.sqrt nan (inf false)
  cbrt := lift (fun _ => True) cbrtR (inf true) (inf false)
  cos := lift (fun _ => True) Real.cos nan nan
  sin := lift (fun _ => True) Real.sin nan nan
  tan := XReal.tan
  acos := lift (fun x => -1 ≤ x ∧ x ≤ 1) Real.arccos nan nan
  asin := lift (fun x => -1 ≤ x ∧ x ≤ 1) Real.arcsin nan nan
  atan := lift (fun _ => True) Real.arctan (num (-(Real.pi / 2))) (num (Real.pi / 2))
  atan2 := XReal.atan2
  hypot := XReal.hypot
  hypot3 := XReal.hypot3
  cosh := lift (fun _ => True) Real.cosh (inf false) (inf false)
  sinh := lift (fun _ => True) Real.sinh (inf true) (inf false)
  tanh := lift (fun _ => True) Real.tanh (num (-1)) (num 1)
  acosh := lift (1 ≤ ·) Real.arcosh nan (inf false)
  asinh := lift (fun _ => True) Real.arsinh (inf true) (inf false)
  atanh := XReal.atanh
  exp := lift (fun _ => True) Real.exp (num 0) (inf false)
  log := lg Real.log
  log2 := lg (Real.logb 2)
  log10 := lg (Real.logb 10)

end

end XReal

end HJ
