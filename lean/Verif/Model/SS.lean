import Verif.Model.Expr

/-!
# Model of `SScalar<TScalar>`

`/repo/include/hyperjet/hyperjet.h` lines 1989-2894.  Line numbers below refer to that file.

`std::unordered_map<std::string, TScalar>` is a list of entries in iteration order.  The order is
unspecified and may be a different one after every copy and every insertion, so each function takes
an oracle (`Order`) that is asked for the order at each of these places.
-/

namespace HJ

variable {α : Type}

/-- `Data` (line 1995): entries in iteration order. -/
abbrev SMap (α : Type) := List (String × α)

/-- The orders chosen by the hash table: an order for every place in the execution, places being
addressed by paths in the call tree
(iteration over `Data`, line 1995, in lines 2007-2038, 2170, 2212, 2263, 2320). -/
abbrev Order (α : Type) := List Nat → SMap α → SMap α

/-- The places below branch `i`. (Bookkeeping of places; no line.) -/
def Order.sub (ord : Order α) (i : Nat) : Order α := fun p => ord (i :: p)

/-- The oracle really permutes (all that the C++ standard says about the iteration order of
`Data`, line 1995). -/
def Order.Ok (ord : Order α) : Prop := ∀ p m, (ord p m).Perm m

namespace SMap

/-- Names, in iteration order. (the `d.first` of the loops in lines 2021-2038, 2170) -/
def keys (m : SMap α) : List String := m.map Prod.fst

/-- `m.find(k)` (used in lines 2078, 2092). -/
def find (m : SMap α) (k : String) : Option α := (m.find? fun e => e.1 == k).map Prod.snd

/-- `m[k] = g(m[k])` for a stored name (lines 2022, 2170, 2212, 2264, 2274, 2321). -/
def modify (m : SMap α) (k : String) (g : α → α) : SMap α :=
  m.map fun e => if e.1 == k then (e.1, g e.2) else e

/-- `m[k] = g(m[k])`: a name that is not stored is first inserted with the value `TScalar()`
(lines 2022, 2170, 2212, 2264, 2321). -/
def update [Arith α] (reorder : SMap α → SMap α) (m : SMap α) (k : String) (g : α → α) : SMap α :=
  if (m.keys.contains k) then m.modify k g else reorder ((k, g (Arith.lit 0)) :: m)

/-- `for (auto &d : m) d.second *= s` (lines 2007, 2018, 2032, 2242, 2260, 2317). -/
def scale [Arith α] (m : SMap α) (s : α) : SMap α := m.map fun e => (e.1, e.2 *ₛ s)

/-- `for (auto &d : b) r[d.first] = g(d.second, r[d.first])` with `r` another map (lines 2021, 2035,
2038, 2170, 2212, 2263, 2320). -/
def accum [Arith α] (ord : Order α) (g : α → α → α) (r : SMap α) : SMap α → SMap α
  | [] => r
  | e :: b => accum (ord.sub 1) g (update (ord [0]) r e.1 (g e.2)) b

/-- The same loop with `b` and `r` the same map: every name is stored, nothing is inserted, and the
value read is the current one (lines 2170, 2212, 2263, 2320 with `&b == this`). -/
def accumSelf (g : α → α → α) (m : SMap α) : SMap α :=
  m.keys.foldl (fun m k => m.modify k fun w => g w w) m

end SMap

/-- `SScalar` (lines 1997-1999).  `none`: `m_f` has not been initialised. -/
structure SS (α : Type) where
  mF : Option α
  mD : SMap α

namespace SS

open SMap

/-- `unary` (lines 2002-2011). -/
def unary [Arith α] (ord : Order α) (a : SMap α) (da : α) : SMap α := scale (ord [0] a) da

/-- `binary` (lines 2013-2025). -/
def binary [Arith α] (ord : Order α) (a b : SMap α) (da db : α) : SMap α :=
  accum (ord.sub 1) (fun v w => w +ₛ db *ₛ v) (scale (ord [0] a) da) b

/-- `ternary` (lines 2027-2042). -/
def ternary [Arith α] (ord : Order α) (a b c : SMap α) (da db dc : α) : SMap α :=
  accum (ord.sub 2) (fun v w => w +ₛ dc *ₛ v)
    (accum (ord.sub 1) (fun v w => w +ₛ db *ₛ v) (scale (ord [0] a) da) b) c

/-- `SScalar()` (line 2045): default initialisation leaves `m_f` without a value. -/
def default : SS α := ⟨none, []⟩

/-- `SScalar(f)` (lines 2047-2049). -/
def ofScalar (f : α) : SS α := ⟨some f, []⟩

/-- `SScalar(f, d)` (lines 2051-2053); `d` is copied. -/
def make (ord : Order α) (f : α) (d : SMap α) : SS α := ⟨some f, ord [0] d⟩

/-- `constant(value)` (lines 2055-2058). -/
def constant (ord : Order α) (value : α) : SS α := make ord value []

/-- `variable(name, value)` (lines 2060-2063). -/
def var [Arith α] (ord : Order α) (name : String) (value : α) : SS α :=
  make ord value [(name, Arith.lit 1)]

/-- `size()` (lines 2066-2069). -/
def size (x : SS α) : Int := x.mD.length

/-- `f()` (lines 2071-2074). -/
def f (x : SS α) : Res α :=
  match x.mF with
  | some v => .ok v
  | none => .ub .uninitialised

/-- `d(variable)` (lines 2076-2084). -/
def d [Arith α] (x : SS α) (name : String) : α :=
  match x.mD.find name with
  | none => Arith.lit 0
  | some v => v

/-- `eval(d)` (lines 2086-2101).  The test for a missing name compares an iterator of `d` with
`m_d.end()`.  `strict = true`: the C++ standard, by which this is undefined.  `strict = false`:
implementations where all end iterators are equal (and different from all others). -/
def eval [Arith α] (strict : Bool) (x : SS α) (d : SMap α) : Res α :=
  x.mD.foldlM (fun r coef =>
    if strict then .ub .foreignIterator else
    match d.find coef.1 with
    | none => .ok r
    | some v => .ok (r +ₛ coef.2 *ₛ v)) (Arith.lit 0)

/-- `operator<<` and `to_string()` (lines 2103-2125); `fmt` is the output of a scalar. -/
def toText [Arith α] [Cmp α] (fmt : α → String) (x : SS α) : Res String := do
  let v ← x.f
  .ok (x.mD.foldl (fun out e =>
    if Cmp.ltB e.2 (Arith.lit 0) then out ++ " " ++ fmt e.2 ++ "*d" ++ e.1
    else out ++ " +" ++ fmt e.2 ++ "*d" ++ e.1) (fmt v))

section ops

variable [Arith α]

/-- `operator-()` (lines 2129-2139). -/
def neg (ord : Order α) (x : SS α) : Res (SS α) := do
  let v ← x.f
  .ok ⟨some (-ₛ v), (ord [0] x.mD).map fun e => (e.1, -ₛ e.2)⟩

/-- `operator+(const Type&)` (lines 2143-2150). -/
def add (ord : Order α) (a b : SS α) : Res (SS α) := do
  let fa ← a.f
  let fb ← b.f
  .ok (make (ord.sub 0) (fa +ₛ fb) (binary (ord.sub 1) a.mD b.mD (Arith.lit 1) (Arith.lit 1)))

/-- `operator+(const Scalar)` (lines 2152-2159). -/
def addS (ord : Order α) (a : SS α) (b : α) : Res (SS α) := do
  let fa ← a.f
  .ok ⟨some (fa +ₛ b), ord [0] a.mD⟩

/-- `operator+(const Scalar, const Type&)` (lines 2161-2164). -/
def sAdd (ord : Order α) (a : α) (b : SS α) : Res (SS α) := b.addS ord a

/-- `operator-(const Type&)` (lines 2185-2192). -/
def sub (ord : Order α) (a b : SS α) : Res (SS α) := do
  let fa ← a.f
  let fb ← b.f
  .ok (make (ord.sub 0) (fa -ₛ fb) (binary (ord.sub 1) a.mD b.mD (Arith.lit 1) (Arith.lit (-1))))

/-- `operator-(const Scalar)` (lines 2194-2197): `-b + *this`. -/
def subS (ord : Order α) (a : SS α) (b : α) : Res (SS α) := sAdd ord (-ₛ b) a

/-- `operator-(const Scalar, const Type&)` (lines 2199-2206). -/
def sSub (ord : Order α) (a : α) (b : SS α) : Res (SS α) := do
  let result ← b.neg ord
  let v ← result.f
  .ok { result with mF := some (v +ₛ a) }

/-- `operator*(const Type&)` (lines 2227-2234). -/
def mul (ord : Order α) (a b : SS α) : Res (SS α) := do
  let fa ← a.f
  let fb ← b.f
  .ok (make (ord.sub 0) (fa *ₛ fb) (binary (ord.sub 1) a.mD b.mD fb fa))

/-- `operator*(const Scalar)` (lines 2236-2246). -/
def mulS (ord : Order α) (a : SS α) (b : α) : Res (SS α) := do
  let fa ← a.f
  .ok ⟨some (fa *ₛ b), scale (ord [0] a.mD) b⟩

/-- `operator*(const Scalar, const Type&)` (lines 2248-2251). -/
def sMul (ord : Order α) (a : α) (b : SS α) : Res (SS α) := b.mulS ord a

/-- `operator/(const Type&)` (lines 2281-2292). -/
def div (ord : Order α) (a b : SS α) : Res (SS α) := do
  let fa ← a.f
  let fb ← b.f
  let tmp := Arith.lit 1 ÷ₛ fb
  .ok (make (ord.sub 0) (fa *ₛ tmp) (binary (ord.sub 1) a.mD b.mD tmp (-ₛ fa ÷ₛ Arith.powN fb 2)))

/-- `operator/(const Scalar)` (lines 2294-2297): `Scalar(1) / b * (*this)`. -/
def divS (ord : Order α) (a : SS α) (b : α) : Res (SS α) := sMul ord (Arith.lit 1 ÷ₛ b) a

/-- `operator/(const Scalar, const Type&)` (lines 2299-2307). -/
def sDiv (ord : Order α) (a : α) (b : SS α) : Res (SS α) := do
  let fb ← b.f
  .ok (make (ord.sub 0) (a ÷ₛ fb) (unary (ord.sub 1) b.mD (-ₛ a ÷ₛ Arith.powN fb 2)))

/-! ### Compound assignment -/

/-- The right operand of a compound assignment: the object itself or another one
(parameter `b` in lines 2166, 2208, 2253, 2309). -/
inductive Operand (α : Type) where
  | self
  | obj (y : SS α)

/-- The object meant by the operand (argument `b` in lines 2166, 2208, 2253, 2309). -/
def Operand.get (b : Operand α) (x : SS α) : SS α :=
  match b with
  | .self => x
  | .obj y => y

/-- `for (auto &d : b.m_d) m_d[d.first] = g(d.second, m_d[d.first])` (lines 2170, 2212, 2263,
2320), with `m_d` as it is at that moment. -/
def accumInto (ord : Order α) (g : α → α → α) (m : SMap α) : Operand α → SMap α
  | .self => accumSelf g m
  | .obj y => accum ord g m y.mD

/-- `operator+=(const Type&)` (lines 2166-2174). -/
def addAssign (ord : Order α) (x : SS α) (b : Operand α) : Res (SS α) := do
  let v ← x.f
  let w ← (b.get x).f
  .ok ⟨some (v +ₛ w), accumInto ord (fun v w => w +ₛ v) x.mD b⟩

/-- `operator+=(const Scalar&)` (lines 2176-2181). -/
def addAssignS (x : SS α) (b : α) : Res (SS α) := do
  let v ← x.f
  .ok { x with mF := some (v +ₛ b) }

/-- `operator-=(const Type&)` (lines 2208-2216). -/
def subAssign (ord : Order α) (x : SS α) (b : Operand α) : Res (SS α) := do
  let v ← x.f
  let w ← (b.get x).f
  .ok ⟨some (v -ₛ w), accumInto ord (fun v w => w -ₛ v) x.mD b⟩

/-- `operator-=(const Scalar&)` (lines 2218-2223). -/
def subAssignS (x : SS α) (b : α) : Res (SS α) := do
  let v ← x.f
  .ok { x with mF := some (v -ₛ b) }

/-- `operator*=(const Type&)` (lines 2253-2267). -/
def mulAssign (ord : Order α) (x : SS α) (b : Operand α) : Res (SS α) := do
  let da ← (b.get x).f
  let db ← x.f
  .ok ⟨some (db *ₛ da), accumInto ord (fun v w => w +ₛ db *ₛ v) (scale x.mD da) b⟩

/-- `operator*=(const Scalar&)` (lines 2269-2277): `for (auto &d : m_d) m_d[d.first] *= b`. -/
def mulAssignS (x : SS α) (b : α) : Res (SS α) := do
  let v ← x.f
  .ok ⟨some (v *ₛ b), accumSelf (fun _ w => w *ₛ b) x.mD⟩

/-- `operator/=(const Type&)` (lines 2309-2325). -/
def divAssign (ord : Order α) (x : SS α) (b : Operand α) : Res (SS α) := do
  let fb ← (b.get x).f
  let fa ← x.f
  let da := Arith.lit 1 ÷ₛ fb
  let db := -ₛ fa ÷ₛ Arith.powN fb 2
  .ok ⟨some (fa ÷ₛ fb), accumInto ord (fun v w => w +ₛ db *ₛ v) (scale x.mD da) b⟩

/-- `operator/=(const Scalar&)` (lines 2327-2332). -/
def divAssignS (x : SS α) (b : α) : Res (SS α) := mulAssignS x (Arith.lit 1 ÷ₛ b)

end ops

/-! ### Elementary functions -/

/-- The frame shared by the unary methods (lines 2336-2606): value and derivative coefficient are
computed from `m_f`, then `return Type(f, unary(m_d, da))`. -/
def un [Arith α] (ord : Order α) (x : SS α) (k : α → α × α) : Res (SS α) := do
  let v ← x.f
  .ok (make (ord.sub 0) (k v).1 (unary (ord.sub 1) x.mD (k v).2))

section fns

open Arith CMath

variable [CMath α]

/-- `pow(b)` (lines 2336-2344). -/
def kPow (b x : α) : α × α := (pow x b, b *ₛ pow x (b -ₛ lit 1))

/-- `sqrt()` (lines 2346-2354). -/
def kSqrt (x : α) : α × α :=
  let f := CMath.sqrt x
  (f, lit 1 ÷ₛ (lit 2 *ₛ f))

/-- `cbrt()` (lines 2356-2364). -/
def kCbrt (x : α) : α × α :=
  let f := CMath.cbrt x
  (f, lit 1 ÷ₛ (lit 3 *ₛ f *ₛ f))

/-- `reciprocal()` (lines 2366-2372). -/
def kReciprocal (x : α) : α × α :=
  let f := lit 1 ÷ₛ x
  (f, -ₛ f *ₛ f)

/-- `cos()` (lines 2376-2385). -/
def kCos (x : α) : α × α := (CMath.cos x, -ₛ CMath.sin x)

/-- `sin()` (lines 2387-2396). -/
def kSin (x : α) : α × α := (CMath.sin x, CMath.cos x)

/-- `tan()` (lines 2398-2406). -/
def kTan (x : α) : α × α :=
  let f := CMath.tan x
  (f, f *ₛ f +ₛ lit 1)

/-- `acos()` (lines 2408-2419). -/
def kAcos (x : α) : α × α :=
  let tmp := lit 1 -ₛ x *ₛ x
  (CMath.acos x, -ₛ lit 1 ÷ₛ CMath.sqrt tmp)

/-- `asin()` (lines 2421-2432). -/
def kAsin (x : α) : α × α :=
  let tmp := lit 1 -ₛ x *ₛ x
  (CMath.asin x, lit 1 ÷ₛ CMath.sqrt tmp)

/-- `atan()` (lines 2434-2442). -/
def kAtan (x : α) : α × α := (CMath.atan x, lit 1 ÷ₛ (x *ₛ x +ₛ lit 1))

/-- `cosh()` (lines 2489-2498). -/
def kCosh (x : α) : α × α := (CMath.cosh x, CMath.sinh x)

/-- `sinh()` (lines 2500-2509). -/
def kSinh (x : α) : α × α := (CMath.sinh x, CMath.cosh x)

/-- `tanh()` (lines 2511-2519). -/
def kTanh (x : α) : α × α :=
  let f := CMath.tanh x
  (f, lit 1 -ₛ f *ₛ f)

/-- `acosh()` (lines 2521-2530). -/
def kAcosh (x : α) : α × α :=
  (CMath.acosh x, lit 1 ÷ₛ (CMath.sqrt (x -ₛ lit 1) *ₛ CMath.sqrt (x +ₛ lit 1)))

/-- `asinh()` (lines 2532-2541). -/
def kAsinh (x : α) : α × α := (CMath.asinh x, lit 1 ÷ₛ CMath.sqrt (lit 1 +ₛ x *ₛ x))

/-- `atanh()` (lines 2543-2552). -/
def kAtanh (x : α) : α × α := (CMath.atanh x, lit 1 ÷ₛ (lit 1 -ₛ x *ₛ x))

/-- `exp()` (lines 2556-2564). -/
def kExp (x : α) : α × α :=
  let f := CMath.exp x
  (f, f)

/-- `log()` (lines 2566-2574). -/
def kLog (x : α) : α × α := (CMath.log x, lit 1 ÷ₛ x)

/-- `log(base)` (lines 2576-2584). -/
def kLogB (base x : α) : α × α :=
  (CMath.log x ÷ₛ CMath.log base, lit 1 ÷ₛ (x *ₛ CMath.log base))

/-- `log2()` (lines 2586-2595). -/
def kLog2 (x : α) : α × α := (CMath.log2 x, lit 1 ÷ₛ (x *ₛ CMath.log (lit 2)))

/-- `log10()` (lines 2597-2606). -/
def kLog10 (x : α) : α × α := (CMath.log10 x, lit 1 ÷ₛ (x *ₛ CMath.log (lit 10)))

/-- `atan2(b)` (lines 2444-2455). -/
def atan2 (ord : Order α) (a b : SS α) : Res (SS α) := do
  let fa ← a.f
  let fb ← b.f
  let tmp := fa *ₛ fa +ₛ fb *ₛ fb
  .ok (make (ord.sub 0) (CMath.atan2 fa fb)
    (binary (ord.sub 1) a.mD b.mD (fb ÷ₛ tmp) (-ₛ fa ÷ₛ tmp)))

/-- `hypot(a, b)` (lines 2457-2467). -/
def hypot (ord : Order α) (a b : SS α) : Res (SS α) := do
  let fa ← a.f
  let fb ← b.f
  let f := CMath.hypot fa fb
  .ok (make (ord.sub 0) f (binary (ord.sub 1) a.mD b.mD (fa ÷ₛ f) (fb ÷ₛ f)))

/-- `hypot(a, b, c)` (lines 2469-2485). -/
def hypot3 (ord : Order α) (a b c : SS α) : Res (SS α) := do
  let fa ← a.f
  let fb ← b.f
  let fc ← c.f
  let f := CMath.hypot3 fa fb fc
  .ok (make (ord.sub 0) f (ternary (ord.sub 1) a.mD b.mD c.mD (fa ÷ₛ f) (fb ÷ₛ f) (fc ÷ₛ f)))

/-- `abs()` (lines 2610-2613): `m_f < 0 ? -(*this) : *this`, both results are copies. -/
def abs (ord : Order α) (x : SS α) : Res (SS α) := do
  let v ← x.f
  if Cmp.ltB v (lit 0) then x.neg ord else .ok { x with mD := ord [0] x.mD }

end fns

section cmp

variable [Cmp α]

/-- The six operators between sparse scalars (lines 2617-2645). -/
def cmp (op : DD.CmpOp) (a b : SS α) : Res Bool := do
  let fa ← a.f
  let fb ← b.f
  .ok (op.scalar fa fb)

/-- Scalar on the right (lines 2647-2675). -/
def cmpS (op : DD.CmpOp) (a : SS α) (b : α) : Res Bool := do
  let fa ← a.f
  .ok (op.scalar fa b)

/-- The operator called by the friend overload with the scalar on the left (lines 2677-2705). -/
def mirror : DD.CmpOp → DD.CmpOp
  | .eq => .eq
  | .ne => .ne
  | .lt => .gt
  | .gt => .lt
  | .le => .ge
  | .ge => .le

/-- Scalar on the left (lines 2677-2705). -/
def sCmp (op : DD.CmpOp) (a : α) (b : SS α) : Res Bool := b.cmpS (mirror op) a

end cmp

end SS

/-! ### Expressions -/

/-- The coefficients computed by the method (see the definitions `SS.k…` for line numbers). -/
def Fn.coefS [CMath α] : Fn α → α → α × α
  | .sqrt => SS.kSqrt
  | .cbrt => SS.kCbrt
  | .reciprocal => SS.kReciprocal
  | .cos => SS.kCos
  | .sin => SS.kSin
  | .tan => SS.kTan
  | .acos => SS.kAcos
  | .asin => SS.kAsin
  | .atan => SS.kAtan
  | .cosh => SS.kCosh
  | .sinh => SS.kSinh
  | .tanh => SS.kTanh
  | .acosh => SS.kAcosh
  | .asinh => SS.kAsinh
  | .atanh => SS.kAtanh
  | .exp => SS.kExp
  | .log => SS.kLog
  | .log2 => SS.kLog2
  | .log10 => SS.kLog10
  | .pow b => SS.kPow b
  | .logB base => SS.kLogB base

/-- Run a two-operand operation (lines 2143, 2185, 2227, 2281, 2444, 2457). -/
def Bin.runS [CMath α] (ord : Order α) : Bin → SS α → SS α → Res (SS α)
  | .add => SS.add ord
  | .sub => SS.sub ord
  | .mul => SS.mul ord
  | .div => SS.div ord
  | .atan2 => SS.atan2 ord
  | .hypot => SS.hypot ord

/-- Run an operator with one scalar operand (lines 2152, 2161, 2194, 2199, 2236, 2248, 2294,
2299). -/
def SBin.runS [Arith α] (ord : Order α) : SBin → SS α → α → Res (SS α)
  | .addS => fun x s => x.addS ord s
  | .sAdd => fun x s => SS.sAdd ord s x
  | .subS => fun x s => x.subS ord s
  | .sSub => fun x s => SS.sSub ord s x
  | .mulS => fun x s => x.mulS ord s
  | .sMul => fun x s => SS.sMul ord s x
  | .divS => fun x s => x.divS ord s
  | .sDiv => fun x s => SS.sDiv ord s x

/-- Evaluate an expression on sparse scalars (the methods above; the free functions of lines
2708-2894 forward to them). -/
def Expr.evalSS {V : Type} [CMath α] (ord : Order α) (ρ : V → SS α) : Expr α V → Res (SS α)
  | .var v => .ok (ρ v)
  | .const s => .ok (SS.constant ord s)
  | .neg e => do
      let x ← e.evalSS (ord.sub 1) ρ
      x.neg (ord.sub 0)
  | .abs e => do
      let x ← e.evalSS (ord.sub 1) ρ
      x.abs (ord.sub 0)
  | .fn φ e => do
      let x ← e.evalSS (ord.sub 1) ρ
      x.un (ord.sub 0) φ.coefS
  | .bin o e₁ e₂ => do
      let x ← e₁.evalSS (ord.sub 1) ρ
      let y ← e₂.evalSS (ord.sub 2) ρ
      o.runS (ord.sub 0) x y
  | .sbin o e s => do
      let x ← e.evalSS (ord.sub 1) ρ
      o.runS (ord.sub 0) x s
  | .hypot3 e₁ e₂ e₃ => do
      let x ← e₁.evalSS (ord.sub 1) ρ
      let y ← e₂.evalSS (ord.sub 2) ρ
      let z ← e₃.evalSS (ord.sub 3) ρ
      SS.hypot3 (ord.sub 0) x y z

end HJ
