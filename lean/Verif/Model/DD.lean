import Verif.Model.Scalar

/-!
# Model of `hyperjet::DDScalar<TOrder, TScalar, TSize>`

Line numbers refer to `/repo/include/hyperjet/hyperjet.h`.
-/

namespace HJ

/-- Template parameters and build mode.
`order` = `TOrder`, `tsize` = `TSize` (`-1` = `Dynamic`, lines 26, 43).
`exc` = `throw_exceptions()` (lines 34-41), `dbg` = assertions compiled in (`NDEBUG` not set).
`root` = `std::sqrt` on integers as used on line 68; a double is a rational number. -/
structure Cfg where
  order : Nat
  tsize : Int
  exc : Bool
  dbg : Bool
  root : Int → Rat

/-- What the `static_assert`s of the constructors demand (lines 317, 326, 332, 341, 349-363):
`0 < order() <= 2` and `TSize >= 0` unless dynamic; plus the one fact about `std::sqrt` that is
used: it is exact on squares of odd integers (true of correctly rounded binary `sqrt`). -/
structure Cfg.Valid (c : Cfg) : Prop where
  order : c.order = 1 ∨ c.order = 2
  tsize : c.tsize = -1 ∨ 0 ≤ c.tsize
  root : ∀ k : Nat, c.root ((2 * k + 1) * (2 * k + 1)) = 2 * k + 1

/-- The object: `m_size` and `m_data` (lines 57-58).  For static types `m_size` is never read
(`size()` returns `TSize`); the model keeps the dummy value 0 there. -/
structure DD (α : Type) where
  mSize : Int
  mData : Data α

variable {α : Type}

/-- `is_dynamic()` (lines 527-530). -/
def Cfg.isDynamic (c : Cfg) : Bool := c.tsize == -1

/-- `data_length_from_size` (lines 61-64). -/
def dataLengthFromSize (c : Cfg) (size : Int) : Int :=
  if c.order = 1 then 1 + size else ((size + 1) * (size + 2)).tdiv 2

/-- `StaticDataSize` (line 46). -/
def Cfg.staticDataSize (c : Cfg) : Int :=
  if c.order = 1 then 1 + c.tsize else ((c.tsize + 1) * (c.tsize + 2)).tdiv 2

/-- `assert(cond)`: aborts in debug builds, nothing in release builds
(`assert` in lines 79, 99, 113, 131, 666, 724, 731, 743, 750, 762-763, 777-778, 896). -/
def assertB (c : Cfg) (cond : Bool) : Res Unit :=
  if c.dbg && !cond then .abort else .ok ()

/-- `static_cast<index>(x)` for a floating point value: truncation towards zero (line 68). -/
def truncRat (x : Rat) : Int := x.num.tdiv x.den

/-- `size_from_data_length` (lines 66-83).  The assertion of line 79 parses as
`(data_length_from_size(s) == n) == 0`. -/
def sizeFromDataLength (c : Cfg) (n : Int) : Res Int := do
  let s := if c.order = 1 then n - 1 else (truncRat (c.root (1 + 8 * n) - 3)).tdiv 2
  if c.exc then
    if dataLengthFromSize c s != n then .throw .invalidLength else .ok s
  else do
    assertB c ((dataLengthFromSize c s == n) == false)
    .ok s

/-- `check_valid_size` (lines 86-116). -/
def checkValidSize (c : Cfg) (size : Int) : Res Unit :=
  if c.isDynamic then
    if c.exc then
      if size < 0 then .throw .negativeSize else .ok ()
    else assertB c (decide (size ≥ 0))
  else
    if c.exc then
      if size != c.tsize then .throw .invalidSize else .ok ()
    else assertB c (size == c.tsize)

/-- `check_equal_size` (lines 118-134). -/
def checkEqualSize (c : Cfg) (sa sb : Int) : Res Unit :=
  if c.isDynamic then
    if c.exc then
      if sa != sb then .throw .incompatibleSize else .ok ()
    else assertB c (sa == sb)
  else .ok ()

/-- `size()` (lines 398-408). -/
def DD.size (c : Cfg) (x : DD α) : Int := if c.isDynamic then x.mSize else c.tsize

/-- `length(m_data)` (lines 28-32). -/
def DD.len (x : DD α) : Int := x.mData.length

/-- `data_length()` (lines 410-420). -/
def DD.dataLength (c : Cfg) (x : DD α) : Int := if c.isDynamic then x.len else c.staticDataSize

/-- A right-hand operand that may be the very object being written (aliasing)
(parameter `b` of `binary`, line 220, called with `*this` and `b` in line 1239). -/
inductive Src (α : Type) where
  | data (d : Data α)
  /-- the storage that is being written -/
  | self

/-- The operand's storage, given the current contents of the storage being written
(reads `b[...]` in lines 220-262). -/
def Src.get (s : Src α) (r : Data α) : Data α :=
  match s with
  | .data d => d
  | .self => r

section kernels

variable [Arith α]

/-- `unary<TIncrement>` (lines 177-217); `self` supplies `data_length()` and `size()`. -/
def unary (c : Cfg) (inc : Bool) (self : DD α) (a : Data α) (f : α) (da daa : Coef α)
    (r : Data α) : Res (Data α) := do
  let n := self.dataLength c
  let r ← wr r 0 f
  if c.order < 1 || da.isZero then .ok r else
  let r ← forUp 1 n r fun i r => do
    let ai ← rd a i
    let t ← needScalar (da.app ai)
    if inc then
      let old ← rd r i
      wr r i (old +ₛ t)
    else
      wr r i t
  if c.order < 2 || daa.isZero then .ok r else
  let s := self.size c
  let (_, r) ← forUp 0 s (1 + s, r) fun i (k, r) => do
    let ai ← rd a (1 + i)
    let ca := daa.app ai
    forUp i s (k, r) fun j (k, r) => do
      let aj ← rd a (1 + j)
      let t ← needScalar (mulZ ca aj)
      let old ← rd r k
      let r ← wr r k (old +ₛ t)
      .ok (k + 1, r)
  .ok r

/-- `binary<TIncrement>` (lines 219-264).  `b` may alias the result storage `r` (as in
`a /= a`, line 1239). -/
def binary (c : Cfg) (inc : Bool) (self : DD α) (a : Data α) (b : Src α) (f : α)
    (da db daa dab dbb : Coef α) (r : Data α) : Res (Data α) := do
  let n := self.dataLength c
  let r ← wr r 0 f
  if c.order < 1 || (da.isZero && db.isZero) then .ok r else
  let r ← forUp 1 n r fun i r => do
    let ai ← rd a i
    let bi ← rd (b.get r) i
    let t ← needScalar (addZ (da.app ai) (db.app bi))
    if inc then
      let old ← rd r i
      wr r i (old +ₛ t)
    else
      wr r i t
  if c.order < 2 || (daa.isZero && dab.isZero && dbb.isZero) then .ok r else
  let s := self.size c
  let (_, r) ← forUp 0 s (1 + s, r) fun i (k, r) => do
    let ai ← rd a (1 + i)
    let bi ← rd (b.get r) (1 + i)
    let ca := addZ (daa.app ai) (dab.app bi)
    let cb := addZ (dab.app ai) (dbb.app bi)
    forUp i s (k, r) fun j (k, r) => do
      let aj ← rd a (1 + j)
      let bj ← rd (b.get r) (1 + j)
      let t ← needScalar (addZ (mulZ ca aj) (mulZ cb bj))
      let old ← rd r k
      let r ← wr r k (old +ₛ t)
      .ok (k + 1, r)
  .ok r

/-- `ternary<TIncrement>` (lines 266-312). -/
def ternary (c : Cfg) (inc : Bool) (self : DD α) (a b d : Data α) (f : α)
    (da db dc daa dab dac dbb dbc dcc : Coef α) (r : Data α) : Res (Data α) := do
  let n := self.dataLength c
  let r ← wr r 0 f
  if c.order < 1 || (da.isZero && db.isZero && dc.isZero) then .ok r else
  let r ← forUp 1 n r fun i r => do
    let ai ← rd a i
    let bi ← rd b i
    let ci ← rd d i
    let t ← needScalar (addZ (addZ (da.app ai) (db.app bi)) (dc.app ci))
    if inc then
      let old ← rd r i
      wr r i (old +ₛ t)
    else
      wr r i t
  if c.order < 2 || (daa.isZero && dab.isZero && dac.isZero && dbb.isZero && dbc.isZero
      && dcc.isZero) then .ok r else
  let s := self.size c
  let (_, r) ← forUp 0 s (1 + s, r) fun i (k, r) => do
    let ai ← rd a (1 + i)
    let bi ← rd b (1 + i)
    let ci ← rd d (1 + i)
    let ca := addZ (addZ (daa.app ai) (dab.app bi)) (dac.app ci)
    let cb := addZ (addZ (dab.app ai) (dbb.app bi)) (dbc.app ci)
    let cc := addZ (addZ (dac.app ai) (dbc.app bi)) (dcc.app ci)
    forUp i s (k, r) fun j (k, r) => do
      let aj ← rd a (1 + j)
      let bj ← rd b (1 + j)
      let cj ← rd d (1 + j)
      let t ← needScalar (addZ (addZ (mulZ ca aj) (mulZ cb bj)) (mulZ cc cj))
      let old ← rd r k
      let r ← wr r k (old +ₛ t)
      .ok (k + 1, r)
  .ok r

end kernels

namespace DD

/-! ### Construction (lines 315-371, 527-705) -/

/-- `std::vector<T>(n)` / `m_data.resize(n)` with a negative `n` (converted to a huge
`size_t`) throws `std::length_error` (lines 427, 570, 602). -/
def vectorZeros [Arith α] (n : Int) : Res (Data α) :=
  if n < 0 then .throw .lengthError else .ok (List.replicate n.toNat (some (Arith.lit 0)))

/-- `Data data;` for `std::array`: uninitialised cells (lines 559, 591). -/
def staticUninit (α : Type) (c : Cfg) : Data α := List.replicate c.staticDataSize.toNat none

/-- Default constructor `DDScalar()` (lines 315-328). -/
def default [Arith α] (c : Cfg) : DD α :=
  if c.isDynamic then ⟨1, [some (Arith.lit 0)]⟩ else ⟨0, staticUninit α c⟩

/-- `DDScalar(const TScalar f)` (lines 330-345): `f()` is set, the rest filled with 0. -/
def ofScalar [Arith α] (c : Cfg) (f : α) : Res (DD α) := do
  let x : DD α := DD.default c
  let d ← wr x.mData 0 f
  let d ← forUp 1 d.length d fun i d => wr d i (Arith.lit 0)
  .ok ⟨x.mSize, d⟩

/-- `DDScalar(std::initializer_list<TScalar>)` (lines 361-366): `m_data` is default-initialised
(empty vector, or uninitialised array) and the list is copied element by element. -/
def ofInitList (c : Cfg) (data : List α) : Res (DD α) := do
  let s ← sizeFromDataLength c data.length
  let d : Data α := if c.isDynamic then [] else staticUninit α c
  let (_, d) ← data.foldlM (init := ((0 : Int), d)) fun (i, d) v => do
    let d ← wr d i v
    .ok (i + 1, d)
  .ok ⟨if c.isDynamic then s else 0, d⟩

/-- `create` (lines 532-547).  For static types the argument is a `std::array` of length
`StaticDataSize`, which is the caller's obligation here. -/
def create (c : Cfg) (data : Data α) : Res (DD α) := do
  if c.isDynamic then
    let s ← sizeFromDataLength c data.length
    .ok ⟨s, data⟩
  else
    let s ← sizeFromDataLength c data.length
    checkValidSize c s
    .ok ⟨0, data⟩

/-- `empty()` (lines 549-563). -/
def empty0 [Arith α] (c : Cfg) : DD α :=
  if c.isDynamic then ⟨0, [some (Arith.lit 0)]⟩ else ⟨0, staticUninit α c⟩

/-- `empty(size)` (lines 565-579). -/
def empty [Arith α] (c : Cfg) (size : Int) : Res (DD α) := do
  if c.isDynamic then
    let d ← vectorZeros (dataLengthFromSize c size)
    .ok ⟨size, d⟩
  else
    checkValidSize c size
    .ok (empty0 c)

/-- `zero()` (lines 581-596). -/
def zero0 [Arith α] (c : Cfg) : DD α :=
  if c.isDynamic then ⟨0, [some (Arith.lit 0)]⟩
  else ⟨0, List.replicate c.staticDataSize.toNat (some (Arith.lit 0))⟩

/-- `zero(size)` (lines 598-611). -/
def zero [Arith α] (c : Cfg) (size : Int) : Res (DD α) := do
  if c.isDynamic then
    let d ← vectorZeros (dataLengthFromSize c size)
    .ok ⟨size, d⟩
  else
    checkValidSize c size
    .ok (zero0 c)

/-! ### Components (lines 707-793) -/

/-- `f() const` (lines 712-715). -/
def f (x : DD α) : Res α := rd x.mData 0

/-- `set_f(value)` (lines 717-720), also `f() = value`. -/
def setF (x : DD α) (v : α) : Res (DD α) := do
  let d ← wr x.mData 0 v
  .ok { x with mData := d }

/-- `g(i) const` (lines 729-734). -/
def g (c : Cfg) (x : DD α) (i : Int) : Res α := do
  assertB c (decide (0 ≤ i) && decide (i < x.size c))
  rd x.mData (1 + i)

/-- `set_g(i, value)` (lines 736-739) through the non-const `g(i)` (lines 722-727), whose
assertion has no lower bound. -/
def setG (c : Cfg) (x : DD α) (i : Int) (v : α) : Res (DD α) := do
  assertB c (decide (i < x.size c))
  let d ← wr x.mData (1 + i) v
  .ok { x with mData := d }

/-- `h(i) const` (lines 748-753). -/
def hFlat (c : Cfg) (x : DD α) (i : Int) : Res α := do
  assertB c (decide (0 ≤ i) && decide (i < (x.size c * (x.size c + 1)).tdiv 2))
  rd x.mData (1 + x.size c + i)

/-- `set_h(i, value)` (lines 755-758, 741-746). -/
def setHFlat (c : Cfg) (x : DD α) (i : Int) (v : α) : Res (DD α) := do
  assertB c (decide (0 ≤ i) && decide (i < (x.size c * (x.size c + 1)).tdiv 2))
  let d ← wr x.mData (1 + x.size c + i) v
  .ok { x with mData := d }

/-- The cell addressed by `h(i, j)` (lines 765-772 and 780-787). -/
def hIndex (s i j : Int) : Int :=
  if i < j then 1 + s + ((2 * s - 1 - i) * i).tdiv 2 + j
  else 1 + s + ((2 * s - 1 - j) * j).tdiv 2 + i

/-- `h(i, j) const` (lines 775-788). -/
def h (c : Cfg) (x : DD α) (i j : Int) : Res α := do
  assertB c (decide (0 ≤ i) && decide (i < x.size c))
  assertB c (decide (0 ≤ j) && decide (j < x.size c))
  rd x.mData (hIndex (x.size c) i j)

/-- `set_h(i, j, value)` (lines 790-793, 760-773). -/
def setH (c : Cfg) (x : DD α) (i j : Int) (v : α) : Res (DD α) := do
  assertB c (decide (0 ≤ i) && decide (i < x.size c))
  assertB c (decide (0 ≤ j) && decide (j < x.size c))
  let d ← wr x.mData (hIndex (x.size c) i j) v
  .ok { x with mData := d }

/-- `set_zero()` (lines 950-953). -/
def setZero [Arith α] (x : DD α) : DD α :=
  { x with mData := x.mData.map fun _ => some (Arith.lit 0) }

/-! ### Factories using components (lines 613-705) -/

/-- `constant(f)` (lines 613-618). -/
def constant0 [Arith α] (c : Cfg) (v : α) : Res (DD α) := (zero0 c).setF v

/-- `constant(f, size)` (lines 620-633). -/
def constant [Arith α] (c : Cfg) (v : α) (size : Int) : Res (DD α) := do
  if c.isDynamic then
    let r ← zero c size
    r.setF v
  else
    checkValidSize c size
    constant0 c v

/-- `variable(i, f)` (lines 635-642), static types only. -/
def variable0 [Arith α] (c : Cfg) (i : Int) (v : α) : Res (DD α) := do
  let r ← (zero0 c).setF v
  r.setG c i (Arith.lit 1)

/-- `variable(i, f, size)` (lines 644-658). -/
def var [Arith α] (c : Cfg) (i : Int) (v : α) (size : Int) : Res (DD α) := do
  if c.isDynamic then
    let r ← zero c size
    let r ← r.setF v
    r.setG c i (Arith.lit 1)
  else
    checkValidSize c size
    variable0 c i v

/-- `vars[i] = value` on a `std::vector<Type>` / `std::array<Type, N>` (lines 672, 692, 701). -/
def wrObj (v : List (DD α)) (i : Int) (x : DD α) : Res (List (DD α)) :=
  if i < 0 ∨ (v.length : Int) ≤ i then .ub .outOfBounds else .ok (v.set i.toNat x)

/-- `values[i]` on a plain list of scalars (lines 672, 692, 701). -/
def rdVal (v : List α) (i : Int) : Res α :=
  if i < 0 then .ub .outOfBounds else
  match v[i.toNat]? with
  | none => .ub .outOfBounds
  | some x => .ok x

/-- `variables(const std::vector<Scalar>&)` (lines 660-675). -/
def variables [Arith α] (c : Cfg) (values : List α) : Res (List (DD α)) := do
  let s : Int := values.length
  if !c.isDynamic then assertB c (s == c.tsize)
  forUp 0 s (List.replicate s.toNat (DD.default c)) fun i vars => do
    let v ← rdVal values i
    let x ← var c i v s
    wrObj vars i x

/-! ### Resizing and padding (lines 422-525), dynamic types only -/

/-- `resize(size)` (lines 422-428).  `m_size` is assigned before `m_data.resize` may throw, so
the object state after an exception is part of the result. -/
def resize [Arith α] (c : Cfg) (x : DD α) (size : Int) : Res Unit × DD α :=
  let n := dataLengthFromSize c size
  if n < 0 then (.throw .lengthError, { x with mSize := size })
  else (.ok (), ⟨size, (x.mData.take n.toNat) ++
    List.replicate (n.toNat - x.mData.length) (some (Arith.lit 0))⟩)

/-- State of the pointer walks in `pad_left`/`pad_right`: `source`, `target` and the result's
storage (lines 438-439, 485-486). -/
structure Walk (α : Type) where
  src : Int
  tgt : Int
  out : Data α

/-- `*target++ = *source++` (lines 441, 450, 470, 490, 507). -/
def Walk.copy (data : Data α) (w : Walk α) : Res (Walk α) := do
  let v ← rd data w.src
  let d ← wr w.out w.tgt v
  .ok ⟨w.src + 1, w.tgt + 1, d⟩

/-- `*target++ = Scalar(0)` (lines 445, 462, 495, 512, 520). -/
def Walk.fill0 [Arith α] (w : Walk α) : Res (Walk α) := do
  let d ← wr w.out w.tgt (Arith.lit 0)
  .ok ⟨w.src, w.tgt + 1, d⟩

/-- `pad_left(new_size)` (lines 430-475). -/
def padLeft [Arith α] (c : Cfg) (x : DD α) (newSize : Int) : Res (DD α) := do
  let result : DD α ← empty c newSize
  let head := newSize - x.size c
  let w : Walk α := ⟨0, 0, result.mData⟩
  let w ← w.copy x.mData
  let w ← forUp 0 head w fun _ w => w.fill0
  let w ← forUp 0 (x.size c) w fun _ w => w.copy x.mData
  if c.order = 1 then .ok { result with mData := w.out } else
  let w ← forUp 0 head w fun i w => forUp i newSize w fun _ w => w.fill0
  let w ← forUp 0 (x.size c) w fun i w => forUp i (x.size c) w fun _ w => w.copy x.mData
  .ok { result with mData := w.out }

/-- `pad_right(new_size)` (lines 477-525). -/
def padRight [Arith α] (c : Cfg) (x : DD α) (newSize : Int) : Res (DD α) := do
  let result : DD α ← empty c newSize
  let tail := newSize - x.size c
  let w : Walk α := ⟨0, 0, result.mData⟩
  let w ← forUp 0 (x.size c + 1) w fun _ w => w.copy x.mData
  let w ← forUp 0 tail w fun _ w => w.fill0
  if c.order = 1 then .ok { result with mData := w.out } else
  let w ← forUp 0 (x.size c) w fun i w => do
    let w ← forUp i (x.size c) w fun _ w => w.copy x.mData
    forUp 0 tail w fun _ w => w.fill0
  let w ← forUp 0 tail w fun i w => forUp i tail w fun _ w => w.fill0
  .ok { result with mData := w.out }

/-! ### Operators returning a new object (lines 970-1222) -/

section ops

variable [Arith α]

/-- `operator-()` (lines 972-982). -/
def neg (c : Cfg) (x : DD α) : Res (DD α) := do
  let result : DD α ← empty c (x.size c)
  let d ← forUp 0 (x.dataLength c) result.mData fun i d => do
    let v ← rd x.mData i
    wr d i (-ₛ v)
  .ok { result with mData := d }

/-- `operator+(const Type&)` (lines 986-1004). -/
def add (c : Cfg) (a b : DD α) : Res (DD α) := do
  checkEqualSize c (a.size c) (b.size c)
  let result : DD α ← empty c (a.size c)
  let fa ← a.f
  let fb ← b.f
  let d ← binary c false a a.mData (.data b.mData) (fa +ₛ fb) .one .one .zero .zero .zero
    result.mData
  .ok { result with mData := d }

/-- `operator+(const Scalar)` (lines 1006-1013). -/
def addS (a : DD α) (b : α) : Res (DD α) := do
  let fa ← a.f
  a.setF (fa +ₛ b)

/-- `operator+(const Scalar, const Type&)` (lines 1015-1018). -/
def sAdd (a : α) (b : DD α) : Res (DD α) := b.addS a

/-- `operator-(const Type&)` (lines 1041-1059). -/
def sub (c : Cfg) (a b : DD α) : Res (DD α) := do
  checkEqualSize c (a.size c) (b.size c)
  let result : DD α ← empty c (a.size c)
  let fa ← a.f
  let fb ← b.f
  let d ← binary c false a a.mData (.data b.mData) (fa -ₛ fb) .one .minusOne .zero .zero .zero
    result.mData
  .ok { result with mData := d }

/-- `operator-(const Scalar)` (lines 1061-1064): `-b + *this`. -/
def subS (a : DD α) (b : α) : Res (DD α) := sAdd (-ₛ b) a

/-- `operator-(const Scalar, const Type&)` (lines 1066-1078). -/
def sSub (c : Cfg) (a : α) (b : DD α) : Res (DD α) := do
  let result : DD α ← empty c (b.size c)
  let d ← forUp 0 (result.dataLength c) result.mData fun i d => do
    let v ← rd b.mData i
    wr d i (-ₛ v)
  let v ← rd d 0
  let d ← wr d 0 (v +ₛ a)
  .ok { result with mData := d }

/-- `operator*(const Type&)` (lines 1101-1119). -/
def mul (c : Cfg) (a b : DD α) : Res (DD α) := do
  checkEqualSize c (a.size c) (b.size c)
  let result : DD α ← empty c (a.size c)
  let fa ← a.f
  let fb ← b.f
  let d ← binary c false a a.mData (.data b.mData) (fa *ₛ fb) (.val fb) (.val fa)
    .zero .one .zero result.mData
  .ok { result with mData := d }

/-- `operator*(const Scalar)` (lines 1121-1131). -/
def mulS (c : Cfg) (a : DD α) (b : α) : Res (DD α) := do
  let result : DD α ← empty c (a.size c)
  let d ← forUp 0 (a.dataLength c) result.mData fun i d => do
    let v ← rd a.mData i
    wr d i (v *ₛ b)
  .ok { result with mData := d }

/-- `operator*(const Scalar, const Type&)` (lines 1133-1136). -/
def sMul (c : Cfg) (a : α) (b : DD α) : Res (DD α) := b.mulS c a

/-- `operator/(const Type&)` (lines 1182-1202). -/
def div (c : Cfg) (a b : DD α) : Res (DD α) := do
  checkEqualSize c (a.size c) (b.size c)
  let fa ← a.f
  let fb ← b.f
  let tmp := Arith.lit 1 ÷ₛ fb
  let f := fa *ₛ tmp
  let da := tmp
  let db := -ₛ fa ÷ₛ Arith.powN fb 2
  let dab := Arith.lit (-1) ÷ₛ Arith.powN fb 2
  let dbb := Arith.lit 2 *ₛ fa ÷ₛ Arith.powN fb 3
  let result : DD α ← empty c (a.size c)
  let d ← binary c false a a.mData (.data b.mData) f (.val da) (.val db)
    .zero (.val dab) (.val dbb) result.mData
  .ok { result with mData := d }

/-- `operator/(const Scalar)` (lines 1204-1207): `Scalar(1) / b * (*this)`. -/
def divS (c : Cfg) (a : DD α) (b : α) : Res (DD α) := sMul c (Arith.lit 1 ÷ₛ b) a

/-- `operator/(const Scalar, const Type&)` (lines 1209-1222). -/
def sDiv (c : Cfg) (a : α) (b : DD α) : Res (DD α) := do
  let result : DD α ← empty c (b.size c)
  let fb ← b.f
  let f := a ÷ₛ fb
  let db := -ₛ a ÷ₛ Arith.powN fb 2
  let dbb := Arith.lit 2 *ₛ a ÷ₛ Arith.powN fb 3
  let d ← unary c false b b.mData f (.val db) (.val dbb) result.mData
  .ok { result with mData := d }

/-! ### Compound assignment (lines 1020-1037, 1080-1097, 1138-1178, 1224-1249)

Result: the outcome and the object afterwards.  The loops never throw; when an outcome is `ub`
or `abort` the object afterwards is meaningless (the model returns the old one). -/

/-- The right operand of a compound assignment: the object itself or another one
(parameter `b` in lines 1020, 1080, 1138, 1224). -/
inductive Operand (α : Type) where
  | self
  | obj (y : DD α)

/-- `b.size()`, `this` being `x` (lines 1022, 1082, 1140, 1228). -/
def Operand.size (c : Cfg) (x : DD α) : Operand α → Int
  | .self => x.size c
  | .obj y => y.size c

/-- `b.m_data` as an operand that follows the writes when it is the written object
(lines 1026, 1086, 1138-1165, 1239). -/
def Operand.src : Operand α → Src α
  | .self => .self
  | .obj y => .data y.mData

/-- Store the new contents of `m_data` (lines 1026, 1086, 1145-1165, 1239). -/
def finish (x : DD α) : Res (Data α) → Res Unit × DD α
  | .ok d => (.ok (), { x with mData := d })
  | .throw e => (.throw e, x)
  | .abort => (.abort, x)
  | .ub u => (.ub u, x)

/-- Run `check_equal_size` and, if it passes, the body (lines 1022, 1082, 1140, 1228). -/
def checked (c : Cfg) (x : DD α) (b : Operand α) (body : Res (Data α)) : Res Unit × DD α :=
  match checkEqualSize c (x.size c) (b.size c x) with
  | .ok () => finish x body
  | .throw e => (.throw e, x)
  | .abort => (.abort, x)
  | .ub u => (.ub u, x)

/-- `operator+=(const Type&)` (lines 1020-1030). -/
def addAssign (c : Cfg) (x : DD α) (b : Operand α) : Res Unit × DD α :=
  checked c x b <|
    forUp 0 x.len x.mData fun i d => do
      let v ← rd d i
      let w ← rd (b.src.get d) i
      wr d i (v +ₛ w)

/-- `operator-=(const Type&)` (lines 1080-1090). -/
def subAssign (c : Cfg) (x : DD α) (b : Operand α) : Res Unit × DD α :=
  checked c x b <|
    forUp 0 x.len x.mData fun i d => do
      let v ← rd d i
      let w ← rd (b.src.get d) i
      wr d i (v -ₛ w)

/-- `operator*=(const Type&)` (lines 1138-1168).  `a` is the copy `a_m_data`; `b.m_data` is
read while `m_data` is being written. -/
def mulAssign (c : Cfg) (x : DD α) (b : Operand α) : Res Unit × DD α :=
  checked c x b <| do
    let a := x.mData
    let da ← rd (b.src.get x.mData) 0
    let db ← rd x.mData 0
    let v ← rd x.mData 0
    let w ← rd (b.src.get x.mData) 0
    let d ← wr x.mData 0 (v *ₛ w)
    let d ← forUp 1 d.length d fun i d => do
      let v ← rd d i
      let w ← rd (b.src.get d) i
      wr d i (da *ₛ v +ₛ db *ₛ w)
    if c.order = 1 then .ok d else
    let s := x.size c
    let it ← addrOf d (1 + s)
    let (_, d) ← forUp 0 s (it, d) fun i (it, d) =>
      forUp i s (it, d) fun j (it, d) => do
        let ai ← rd a (1 + i)
        let bj ← rd (b.src.get d) (1 + j)
        let aj ← rd a (1 + j)
        let bi ← rd (b.src.get d) (1 + i)
        let old ← rd d it
        let d ← wr d it (old +ₛ (ai *ₛ bj +ₛ aj *ₛ bi))
        .ok (it + 1, d)
    .ok d

/-- `operator/=(const Type&)` (lines 1224-1242). -/
def divAssign (c : Cfg) (x : DD α) (b : Operand α) : Res Unit × DD α :=
  checked c x b <| do
    let a := x.mData
    let fb ← rd (b.src.get x.mData) 0
    let fa ← rd a 0
    let f := fa ÷ₛ fb
    let da := Arith.lit 1 ÷ₛ fb
    let db := -ₛ fa ÷ₛ Arith.powN fb 2
    let dab := Arith.lit (-1) ÷ₛ Arith.powN fb 2
    let dbb := Arith.lit 2 *ₛ fa ÷ₛ Arith.powN fb 3
    binary c false x a b.src f (.val da) (.val db) .zero (.val dab) (.val dbb) x.mData

/-- A `const Scalar &` argument: an independent scalar, or a reference to cell `k` of the
object's own storage (as in `a *= a.f()`, where the non-const `f()` of line 707 returns a
reference). -/
inductive SRef (α : Type) where
  | val (v : α)
  | cell (k : Int)

/-- Read through the reference (lines 1034, 1094, 1174, 1246). -/
def SRef.get (s : SRef α) (d : Data α) : Res α :=
  match s with
  | .val v => .ok v
  | .cell k => rd d k

/-- `operator+=(const Scalar&)` (lines 1032-1037). -/
def addAssignS (x : DD α) (b : SRef α) : Res Unit × DD α :=
  finish x do
    let v ← rd x.mData 0
    let w ← b.get x.mData
    wr x.mData 0 (v +ₛ w)

/-- `operator-=(const Scalar&)` (lines 1092-1097). -/
def subAssignS (x : DD α) (b : SRef α) : Res Unit × DD α :=
  finish x do
    let v ← rd x.mData 0
    let w ← b.get x.mData
    wr x.mData 0 (v -ₛ w)

/-- `operator*=(const Scalar&)` (lines 1170-1178); `b` is read again in every round. -/
def mulAssignS (x : DD α) (b : SRef α) : Res Unit × DD α :=
  finish x <|
    forUp 0 x.len x.mData fun i d => do
      let v ← rd d i
      let w ← b.get d
      wr d i (v *ₛ w)

/-- `operator/=(const Scalar&)` (lines 1244-1249): `operator*=(1 / b)` with a temporary. -/
def divAssignS (x : DD α) (b : SRef α) : Res Unit × DD α :=
  match b.get x.mData with
  | .ok w => mulAssignS x (.val (Arith.lit 1 ÷ₛ w))
  | .throw e => (.throw e, x)
  | .abort => (.abort, x)
  | .ub u => (.ub u, x)

end ops

/-! ### Elementary functions (lines 1253-1655)

`un c x k` is the common shape of these methods: `Type result = Type::empty(size())`, compute
`f`, `da`, `daa` from the value, `unary<false>(...)`, `return result`. -/

section fns

/-- Value, first and second derivative coefficient computed by a unary method
(locals `f`, `da`, `daa`, lines 1259-1261 and alike). -/
structure U (α : Type) where
  f : α
  da : α
  daa : α

/-- The frame shared by the unary methods (lines 1257, 1263-1265 and alike). -/
def un [Arith α] (c : Cfg) (x : DD α) (k : α → U α) : Res (DD α) := do
  let result : DD α ← empty c (x.size c)
  let v ← x.f
  let d ← unary c false x x.mData (k v).f (.val (k v).da) (.val (k v).daa) result.mData
  .ok { result with mData := d }

open Arith CMath

variable [CMath α]

/-- `pow(b)` coefficients (lines 1253-1266). -/
def kPow (b x : α) : U α :=
  { f := pow x b
    da := b *ₛ pow x (b -ₛ lit 1)
    daa := (b -ₛ lit 1) *ₛ b *ₛ pow x (b -ₛ lit 2) }

/-- `sqrt()` (lines 1268-1282). -/
def kSqrt (x : α) : U α :=
  let f := CMath.sqrt x
  let da := lit 1 ÷ₛ (lit 2 *ₛ f)
  { f := f, da := da, daa := -ₛ da ÷ₛ (lit 2 *ₛ x) }

/-- `cbrt()` (lines 1284-1297). -/
def kCbrt (x : α) : U α :=
  let f := CMath.cbrt x
  let da := lit 1 ÷ₛ (lit 3 *ₛ f *ₛ f)
  { f := f, da := da, daa := -ₛ da *ₛ lit 2 ÷ₛ (lit 3 *ₛ x) }

/-- `reciprocal()` (lines 1299-1310). -/
def kReciprocal (x : α) : U α :=
  let f := lit 1 ÷ₛ x
  let da := -ₛ f *ₛ f
  { f := f, da := da, daa := lit (-2) *ₛ f *ₛ da }

/-- `cos()` (lines 1314-1328). -/
def kCos (x : α) : U α :=
  { f := CMath.cos x, da := -ₛ CMath.sin x, daa := -ₛ CMath.cos x }

/-- `sin()` (lines 1330-1344). -/
def kSin (x : α) : U α :=
  { f := CMath.sin x, da := CMath.cos x, daa := -ₛ CMath.sin x }

/-- `tan()` (lines 1346-1359). -/
def kTan (x : α) : U α :=
  let f := CMath.tan x
  let da := f *ₛ f +ₛ lit 1
  { f := f, da := da, daa := da *ₛ lit 2 *ₛ f }

/-- `acos()` (lines 1361-1377). -/
def kAcos (x : α) : U α :=
  let tmp := lit 1 -ₛ x *ₛ x
  let da := lit (-1) ÷ₛ CMath.sqrt tmp
  { f := CMath.acos x, da := da, daa := da *ₛ x ÷ₛ tmp }

/-- `asin()` (lines 1379-1395). -/
def kAsin (x : α) : U α :=
  let tmp := lit 1 -ₛ x *ₛ x
  let da := lit 1 ÷ₛ CMath.sqrt tmp
  { f := CMath.asin x, da := da, daa := da *ₛ x ÷ₛ tmp }

/-- `atan()` (lines 1397-1410). -/
def kAtan (x : α) : U α :=
  let da := lit 1 ÷ₛ (x *ₛ x +ₛ lit 1)
  { f := CMath.atan x, da := da, daa := -ₛ da *ₛ da *ₛ lit 2 *ₛ x }

/-- `cosh()` (lines 1483-1497). -/
def kCosh (x : α) : U α :=
  { f := CMath.cosh x, da := CMath.sinh x, daa := CMath.cosh x }

/-- `sinh()` (lines 1499-1513). -/
def kSinh (x : α) : U α :=
  { f := CMath.sinh x, da := CMath.cosh x, daa := CMath.sinh x }

/-- `tanh()` (lines 1515-1528). -/
def kTanh (x : α) : U α :=
  let f := CMath.tanh x
  let da := lit 1 -ₛ f *ₛ f
  { f := f, da := da, daa := lit (-2) *ₛ f *ₛ da }

/-- `acosh()` (lines 1530-1544). -/
def kAcosh (x : α) : U α :=
  let da := lit 1 ÷ₛ (CMath.sqrt (x -ₛ lit 1) *ₛ CMath.sqrt (x +ₛ lit 1))
  { f := CMath.acosh x, da := da, daa := -ₛ da *ₛ x ÷ₛ ((x -ₛ lit 1) *ₛ (x +ₛ lit 1)) }

/-- `asinh()` (lines 1546-1560). -/
def kAsinh (x : α) : U α :=
  let da := lit 1 ÷ₛ CMath.sqrt (lit 1 +ₛ x *ₛ x)
  { f := CMath.asinh x, da := da, daa := -ₛ da *ₛ x ÷ₛ (lit 1 +ₛ x *ₛ x) }

/-- `atanh()` (lines 1562-1576). -/
def kAtanh (x : α) : U α :=
  { f := CMath.atanh x
    da := lit 1 ÷ₛ (lit 1 -ₛ x *ₛ x)
    daa := lit 2 *ₛ x ÷ₛ powN (x *ₛ x -ₛ lit 1) 2 }

/-- `exp()` (lines 1580-1593). -/
def kExp (x : α) : U α :=
  let f := CMath.exp x
  { f := f, da := f, daa := f }

/-- `log()` (lines 1595-1608). -/
def kLog (x : α) : U α :=
  let da := lit 1 ÷ₛ x
  { f := CMath.log x, da := da, daa := -ₛ da *ₛ da }

/-- `log(base)` (lines 1610-1623). -/
def kLogB (base x : α) : U α :=
  let da := lit 1 ÷ₛ (x *ₛ CMath.log base)
  { f := CMath.log x ÷ₛ CMath.log base, da := da, daa := -ₛ da ÷ₛ x }

/-- `log2()` (lines 1625-1639). -/
def kLog2 (x : α) : U α :=
  let da := lit 1 ÷ₛ (x *ₛ CMath.log (lit 2))
  { f := CMath.log2 x, da := da, daa := -ₛ da ÷ₛ x }

/-- `log10()` (lines 1641-1655). -/
def kLog10 (x : α) : U α :=
  let da := lit 1 ÷ₛ (x *ₛ CMath.log (lit 10))
  { f := CMath.log10 x, da := da, daa := -ₛ da ÷ₛ x }

/-- `atan2(b)` (lines 1412-1430).  No size check. -/
def atan2 (c : Cfg) (a b : DD α) : Res (DD α) := do
  let result : DD α ← empty c (a.size c)
  let fa ← a.f
  let fb ← b.f
  let tmp := fa *ₛ fa +ₛ fb *ₛ fb
  let f := CMath.atan2 fa fb
  let da := fb ÷ₛ tmp
  let db := -ₛ fa ÷ₛ tmp
  let daa := db *ₛ da *ₛ lit 2
  let dab := db *ₛ db -ₛ da *ₛ da
  let dbb := -ₛ daa
  let d ← binary c false a a.mData (.data b.mData) f (.val da) (.val db) (.val daa) (.val dab)
    (.val dbb) result.mData
  .ok { result with mData := d }

/-- `hypot(a, b)` (lines 1432-1451). -/
def hypot (c : Cfg) (a b : DD α) : Res (DD α) := do
  checkEqualSize c (a.size c) (b.size c)
  let result : DD α ← empty c (a.size c)
  let fa ← a.f
  let fb ← b.f
  let f := CMath.hypot fa fb
  let f3 := f *ₛ f *ₛ f
  let da := fa ÷ₛ f
  let db := fb ÷ₛ f
  let daa := fb *ₛ fb ÷ₛ f3
  let dab := -ₛ fa *ₛ fb ÷ₛ f3
  let dbb := fa *ₛ fa ÷ₛ f3
  let d ← binary c false a a.mData (.data b.mData) f (.val da) (.val db) (.val daa) (.val dab)
    (.val dbb) result.mData
  .ok { result with mData := d }

/-- `hypot(a, b, c)` (lines 1453-1479).  Only `a` and `b` are checked for equal size. -/
def hypot3 (c : Cfg) (a b e : DD α) : Res (DD α) := do
  checkEqualSize c (a.size c) (b.size c)
  let result : DD α ← empty c (a.size c)
  let fa ← a.f
  let fb ← b.f
  let fc ← e.f
  let f := CMath.hypot3 fa fb fc
  let f3 := f *ₛ f *ₛ f
  let a2 := fa *ₛ fa
  let b2 := fb *ₛ fb
  let c2 := fc *ₛ fc
  let da := fa ÷ₛ f
  let db := fb ÷ₛ f
  let dc := fc ÷ₛ f
  let daa := (b2 +ₛ c2) ÷ₛ f3
  let dab := -ₛ (fa *ₛ fb) ÷ₛ f3
  let dac := -ₛ (fa *ₛ fc) ÷ₛ f3
  let dbb := (a2 +ₛ c2) ÷ₛ f3
  let dbc := -ₛ (fb *ₛ fc) ÷ₛ f3
  let dcc := (a2 +ₛ b2) ÷ₛ f3
  let d ← ternary c false a a.mData b.mData e.mData f (.val da) (.val db) (.val dc)
    (.val daa) (.val dab) (.val dac) (.val dbb) (.val dbc) (.val dcc) result.mData
  .ok { result with mData := d }

/-- `abs()` (lines 1659-1662). -/
def abs (c : Cfg) (x : DD α) : Res (DD α) := do
  let v ← x.f
  if Cmp.ltB v (lit 0) then x.neg c else .ok x

end fns

/-! ### Comparison (lines 1666-1754) -/

section cmp

variable [Cmp α]

/-- The six comparison operators (lines 1664-1754). -/
inductive CmpOp where
  | eq | ne | lt | gt | le | ge
  deriving DecidableEq

/-- Comparison of two scalars (lines 1668-1724). -/
def CmpOp.scalar : CmpOp → α → α → Bool
  | .eq => Cmp.eqB
  | .ne => Cmp.neB
  | .lt => Cmp.ltB
  | .gt => Cmp.gtB
  | .le => Cmp.leB
  | .ge => Cmp.geB

/-- `operator==` ... `operator>=` between jets (lines 1666-1694). -/
def cmp (op : CmpOp) (a b : DD α) : Res Bool := do
  let fa ← a.f
  let fb ← b.f
  .ok (op.scalar fa fb)

/-- Jet on the left, scalar on the right (lines 1696-1724). -/
def cmpS (op : CmpOp) (a : DD α) (b : α) : Res Bool := do
  let fa ← a.f
  .ok (op.scalar fa b)

/-- The operator called by the friend overload with the scalar on the left (lines 1726-1754):
`==` and `!=` as they are, the others mirrored. -/
def CmpOp.mirror : CmpOp → CmpOp
  | .eq => .eq
  | .ne => .ne
  | .lt => .gt
  | .gt => .lt
  | .le => .ge
  | .ge => .le

/-- Scalar on the left (lines 1726-1754). -/
def sCmp (op : CmpOp) (a : α) (b : DD α) : Res Bool := b.cmpS op.mirror a

end cmp

/-! ### Matrix views, evaluation, text (lines 795-968) -/

/-- A dense matrix of cells (`Eigen::Matrix`), `none` = uninitialised (lines 795-868, 886-911). -/
structure Mat (α : Type) where
  rows : Int
  cols : Int
  at' : Int → Int → Option α

/-- Coefficient access `m(i, j)` (lines 795-868, 886-911). -/
def Mat.rd (m : Mat α) (i j : Int) : Res α :=
  if 0 ≤ i ∧ i < m.rows ∧ 0 ≤ j ∧ j < m.cols then
    match m.at' i j with
    | none => .ub .uninitialised
    | some v => .ok v
  else .ub .outOfBounds

/-- Coefficient assignment `m(i, j) = v` (lines 795-868). -/
def Mat.wr (m : Mat α) (i j : Int) (v : α) : Res (Mat α) :=
  if 0 ≤ i ∧ i < m.rows ∧ 0 ≤ j ∧ j < m.cols then
    .ok { m with at' := fun p q => if p = i ∧ q = j then some v else m.at' p q }
  else .ub .outOfBounds

/-- `hm(mode, out)` (lines 819-855). -/
def hmInto [Arith α] (c : Cfg) (x : DD α) (mode : String) (out : Mat α) : Res (Mat α) := do
  let s := x.size c
  let (_, out) ← forUp 0 s ((0 : Int), out) fun i (it, out) =>
    forUp i s (it, out) fun j (it, out) => do
      let v ← x.hFlat c it
      let out ← out.wr i j v
      .ok (it + 1, out)
  if mode = "zeros" then
    forUp 0 s out fun i out => forUp 0 i out fun j out => out.wr i j (Arith.lit 0)
  else if mode = "full" then
    forUp 0 s out fun i out => forUp 0 i out fun j out => do
      let v ← out.rd j i
      out.wr i j v
  else .throw .invalidMode

/-- `hm(mode)` (lines 810-817). -/
def hm [Arith α] (c : Cfg) (x : DD α) (mode : String) : Res (Mat α) :=
  x.hmInto c mode ⟨x.size c, x.size c, fun _ _ => none⟩

/-- `set_hm(value)` (lines 857-868). -/
def setHm (c : Cfg) (x : DD α) (value : Mat α) : Res (DD α) := do
  let s := x.size c
  let (_, x) ← forUp 0 s ((0 : Int), x) fun i (it, x) =>
    forUp i s (it, x) fun j (it, x) => do
      let v ← value.rd i j
      let x ← x.setHFlat c it v
      .ok (it + 1, x)
  .ok x

/-- `ag()` as a list of values (lines 800-808): `Eigen::Map(ptr() + 1, size())`. -/
def ag (c : Cfg) (x : DD α) : Res (List α) :=
  forUp 0 (x.size c) [] fun i l => do
    let v ← rd x.mData (1 + i)
    .ok (l ++ [v])

/-- `result.ag() = g` (lines 887, 901). -/
def setAg (c : Cfg) (x : DD α) (g : List α) : Res (DD α) := do
  let d ← forUp 0 (x.size c) x.mData fun i d => do
    let v ← rdVal g i
    wr d (1 + i) v
  .ok { x with mData := d }

/-- `from_gradient(f, g)` (lines 880-890), order 1. -/
def fromGradient [Arith α] (c : Cfg) (v : α) (g : List α) : Res (DD α) := do
  let r : DD α ← empty c g.length
  let r ← r.setF v
  r.setAg c g

/-- `from_arrays(f, g, hm)` (lines 892-905), order 2. -/
def fromArrays [Arith α] (c : Cfg) (v : α) (g : List α) (hm : Mat α) : Res (DD α) := do
  assertB c (((g.length : Int) == hm.rows) && ((g.length : Int) == hm.cols))
  let r : DD α ← empty c g.length
  let r ← r.setF v
  let r ← r.setAg c g
  r.setHm c hm

/-- `eval(d)` (lines 907-946). -/
def eval [Arith α] (c : Cfg) (x : DD α) (d : List α) : Res α := do
  let s := x.size c
  let f ← x.f
  let result ← forUp 0 s f fun i acc => do
    let di ← rdVal d i
    let gi ← x.g c i
    .ok (acc +ₛ di *ₛ gi)
  if c.order = 1 then .ok result else
  let t ← forUp 0 s (Arith.lit 0 : α) fun i t => do
    let (k, a) ← forUp 0 i (1 + s + i, (Arith.lit 0 : α)) fun j (k, a) => do
      let dj ← rdVal d j
      let v ← rd x.mData k
      .ok (k + (s - j - 1), a +ₛ dj *ₛ v)
    let (_, a) ← forUp i s (k, a) fun j (k, a) => do
      let dj ← rdVal d j
      let v ← rd x.mData k
      .ok (k + 1, a +ₛ dj *ₛ v)
    let di ← rdVal d i
    .ok (t +ₛ di *ₛ a)
  .ok (result +ₛ Arith.half *ₛ t)

/-- `operator<<` / `to_string()` (lines 955-968); `fmt` is `ostream << scalar`. -/
def toStr (fmt : α → String) (x : DD α) : Res String := do
  let v ← x.f
  .ok (fmt v ++ "hj")

end DD

end HJ
