import Verif.Model.DD

/-!
# Expressions over jets

User code that combines jets by the public operators and functions.  An expression is the call
tree; `evalDD` runs the calls.
-/

namespace HJ

/-- Unary functions, with their scalar parameter where they have one.  Methods of
`hyperjet.h` lines 1253-1410 and 1483-1655; the free functions of lines 1757-1987 forward to
them. -/
inductive Fn (α : Type) where
  | sqrt | cbrt | reciprocal | cos | sin | tan | acos | asin | atan
  | cosh | sinh | tanh | acosh | asinh | atanh | exp | log | log2 | log10
  | pow (b : α)
  | logB (base : α)

/-- The coefficients computed by the method (see the definitions `DD.k…` for line numbers). -/
def Fn.coef {α : Type} [CMath α] : Fn α → α → DD.U α
  | .sqrt => DD.kSqrt
  | .cbrt => DD.kCbrt
  | .reciprocal => DD.kReciprocal
  | .cos => DD.kCos
  | .sin => DD.kSin
  | .tan => DD.kTan
  | .acos => DD.kAcos
  | .asin => DD.kAsin
  | .atan => DD.kAtan
  | .cosh => DD.kCosh
  | .sinh => DD.kSinh
  | .tanh => DD.kTanh
  | .acosh => DD.kAcosh
  | .asinh => DD.kAsinh
  | .atanh => DD.kAtanh
  | .exp => DD.kExp
  | .log => DD.kLog
  | .log2 => DD.kLog2
  | .log10 => DD.kLog10
  | .pow b => DD.kPow b
  | .logB base => DD.kLogB base

/-- Two-operand operations on jets (`hyperjet.h` lines 986, 1041, 1101, 1182, 1412, 1432). -/
inductive Bin where
  | add | sub | mul | div | atan2 | hypot
  deriving DecidableEq

/-- Run a two-operand operation (`hyperjet.h` lines 986, 1041, 1101, 1182, 1412, 1432). -/
def Bin.run {α : Type} [CMath α] (c : Cfg) : Bin → DD α → DD α → Res (DD α)
  | .add => DD.add c
  | .sub => DD.sub c
  | .mul => DD.mul c
  | .div => DD.div c
  | .atan2 => DD.atan2 c
  | .hypot => DD.hypot c

/-- Operators with one scalar operand (`hyperjet.h` lines 1006, 1015, 1061, 1066, 1121, 1133,
1204, 1209); `addS` is `jet + scalar`, `sAdd` is `scalar + jet`, and so on. -/
inductive SBin where
  | addS | sAdd | subS | sSub | mulS | sMul | divS | sDiv
  deriving DecidableEq

/-- Run an operator with one scalar operand
(`hyperjet.h` lines 1006, 1015, 1061, 1066, 1121, 1133, 1204, 1209). -/
def SBin.run {α : Type} [Arith α] (c : Cfg) : SBin → DD α → α → Res (DD α)
  | .addS => fun x s => x.addS s
  | .sAdd => fun x s => DD.sAdd s x
  | .subS => fun x s => x.subS s
  | .sSub => fun x s => DD.sSub c s x
  | .mulS => fun x s => x.mulS c s
  | .sMul => fun x s => DD.sMul c s x
  | .divS => fun x s => x.divS c s
  | .sDiv => fun x s => DD.sDiv c s x

/-- Expressions with scalars in `α` and operand names in `V`.
User code calling `hyperjet.h` lines 970-1655. -/
inductive Expr (α V : Type) where
  | var (v : V)
  /-- `constant(s, n)` -/
  | const (s : α)
  | neg (e : Expr α V)
  | abs (e : Expr α V)
  | fn (φ : Fn α) (e : Expr α V)
  | bin (o : Bin) (e₁ e₂ : Expr α V)
  | sbin (o : SBin) (e : Expr α V) (s : α)
  | hypot3 (e₁ e₂ e₃ : Expr α V)

/-- Evaluate an expression on jets of `n` variables.
Calls `hyperjet.h` lines 970-1655.  Arguments are evaluated from left to right; no result depends
on that order. -/
def Expr.evalDD {α V : Type} [CMath α] (c : Cfg) (n : Nat) (ρ : V → DD α) :
    Expr α V → Res (DD α)
  | .var v => .ok (ρ v)
  | .const s => DD.constant c s n
  | .neg e => do
      let x ← e.evalDD c n ρ
      x.neg c
  | .abs e => do
      let x ← e.evalDD c n ρ
      x.abs c
  | .fn φ e => do
      let x ← e.evalDD c n ρ
      DD.un c x φ.coef
  | .bin o e₁ e₂ => do
      let x ← e₁.evalDD c n ρ
      let y ← e₂.evalDD c n ρ
      o.run c x y
  | .sbin o e s => do
      let x ← e.evalDD c n ρ
      o.run c x s
  | .hypot3 e₁ e₂ e₃ => do
      let x ← e₁.evalDD c n ρ
      let y ← e₂.evalDD c n ρ
      let z ← e₃.evalDD c n ρ
      DD.hypot3 c x y z

end HJ
