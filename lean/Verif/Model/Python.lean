import Verif.Model.DD
import Verif.Model.SS

/-!
# Model of the Python layer around the dense type

`/repo/python/src/common.h` (pickling) and `/repo/python/src/main.cpp` (`hj.variables`, `hj.f`,
`hj.d`, `hj.dd`), and the flat data view of `/repo/include/hyperjet/hyperjet.h`.
-/

namespace HJ

open DD

variable {α : Type}

/-- `adata()` (`hyperjet.h` lines 870-873): all stored values. -/
def DD.adata (x : DD α) : Res (List α) :=
  forUp 0 x.len [] fun i l => do
    let v ← rd x.mData i
    .ok (l ++ [v])

/-- `set_adata(value)` (`hyperjet.h` lines 875-878).  Eigen asserts that both sides have the same
length (at compile time for static types). -/
def DD.setAdata (c : Cfg) (x : DD α) (value : List α) : Res (DD α) := do
  assertB c ((value.length : Int) == x.len)
  let d ← forUp 0 x.len x.mData fun i d => do
    let v ← rdVal value i
    wr d i v
  .ok { x with mData := d }

/-! ### Pickling (`common.h` lines 188-211) -/

/-- A Python object in a state tuple, as far as `cast<T::Data>()` distinguishes: a sequence of
numbers, or anything else (`common.h` line 201). -/
inductive PyVal (α : Type) where
  | seq (xs : List α)
  | other

/-- `__getstate__` (`common.h` lines 190-193): `make_tuple(self.m_data)`. -/
def pickleGet (x : DD α) : Res (List (PyVal α)) := do
  let xs ← x.adata
  .ok [.seq xs]

/-- `__setstate__` (`common.h` lines 194-211).  The cast to `std::array` needs exactly
`StaticDataSize` elements; the constructors are those of `hyperjet.h` lines 347-359, which just
store their arguments. -/
def pickleSet (c : Cfg) (state : List (PyVal α)) : Res (DD α) :=
  match state with
  | [.seq xs] =>
    if c.isDynamic then do
      let s ← sizeFromDataLength c xs.length
      .ok ⟨s, xs.map some⟩
    else if (xs.length : Int) = c.staticDataSize then .ok ⟨0, xs.map some⟩
    else .throw .typeError
  | [.other] => .throw .typeError
  | _ => .throw .invalidState

/-! ### `hj.variables` (`main.cpp` lines 69-199) -/

/-- Template argument `TSize` chosen by the `switch` on the number of values (`main.cpp` lines
87-139 and 142-194); `none` is the case that does nothing. -/
def dispatchSize : Nat → Option Int
  | 0 => none
  | 1 => some 1
  | 2 => some 2
  | 3 => some 3
  | 4 => some 4
  | 5 => some 5
  | 6 => some 6
  | 7 => some 7
  | 8 => some 8
  | 9 => some 9
  | 10 => some 10
  | 11 => some 11
  | 12 => some 12
  | 13 => some 13
  | 14 => some 14
  | 15 => some 15
  | _ => some (-1)

/-- An element of a Python list: a number, a jet of the class described by `c`, or an `SScalar`
(`main.cpp` lines 65-67, 78). -/
inductive PyElem (α : Type) where
  | int (z : Int)
  | float (v : α)
  | jet (c : Cfg) (x : DD α)
  | sjet (x : SS α)

/-- The jets of one order (`main.cpp` lines 86-140 and 141-195); `c` supplies the build mode. -/
def hjVariablesOf [Arith α] (c : Cfg) (values : List α) (order : Nat) : Res (List (PyElem α)) :=
  match dispatchSize values.length with
  | none => .ok []
  | some t => do
    let vars ← DD.variables { c with order := order, tsize := t } values
    .ok (vars.map (.jet { c with order := order, tsize := t }))

/-- `hj.variables(values, order)` (`main.cpp` lines 69-199). -/
def hjVariables [Arith α] (c : Cfg) (values : List α) (order : Int) : Res (List (PyElem α)) :=
  if order < 0 ∨ 2 < order then .throw .invalidOrder
  else if order = 0 then .ok (values.map .float)
  else if order = 1 then hjVariablesOf c values 1
  else hjVariablesOf c values 2

/-! ### `hj.f`, `hj.d`, `hj.dd` (`main.cpp` lines 65-67)

`numpy.vectorize` applied to an object array, given as the list of its elements.  Rules of numpy
used here: an array without elements is rejected; without `signature` the type of the result is
that of the first output, the other outputs are converted to it; with `signature` the shape of the
first output fixes the core shape and the other outputs are assigned to it with broadcasting. -/

/-- Result of `hj.f`: an integer array or a floating point array (`main.cpp` line 65). -/
inductive PyArr (α : Type) where
  | ints (l : List Int)
  | floats (l : List α)

/-- A Python number (`main.cpp` line 65). -/
inductive PyNum (α : Type) where
  | int (z : Int)
  | float (v : α)

/-- `lambda v: v.f if hasattr(v, 'f') else v` (`main.cpp` line 65); `SScalar` has the property `f`
(`bind_sscalar.cpp` line 21). -/
def elemF : PyElem α → Res (PyNum α)
  | .int z => .ok (.int z)
  | .float v => .ok (.float v)
  | .jet _ x => do
    let v ← x.f
    .ok (.float v)
  | .sjet x => do
    let v ← x.f
    .ok (.float v)

/-- Conversion to the integer type; `trunc` is the scalar's conversion towards zero, `none` when
it has no integer value (`np.vectorize` in `main.cpp` line 65). -/
def PyNum.toInt (trunc : α → Option Int) : PyNum α → Res Int
  | .int z => .ok z
  | .float v =>
    match trunc v with
    | some z => .ok z
    | none => .throw .valueError

/-- Conversion to the floating point type (`np.vectorize` in `main.cpp` line 65). -/
def PyNum.toFloat [Arith α] : PyNum α → α
  | .int z => Arith.lit z
  | .float v => v

/-- `hj.f` (`main.cpp` line 65). -/
def hjF [Arith α] (trunc : α → Option Int) (xs : List (PyElem α)) : Res (PyArr α) := do
  let out ← xs.mapM elemF
  match out with
  | [] => .throw .valueError
  | .int _ :: _ => do
    let l ← out.mapM (PyNum.toInt trunc)
    .ok (.ints l)
  | .float _ :: _ => .ok (.floats (out.map PyNum.toFloat))

/-- `lambda v: v.g if hasattr(v, 'g') else np.zeros((0))` (`main.cpp` line 66); `SScalar`
has no attribute `g` (`bind_sscalar.cpp`). -/
def elemD : PyElem α → Res (List α)
  | .int _ => .ok []
  | .float _ => .ok []
  | .jet c x => x.ag c
  | .sjet _ => .ok []

/-- Assignment of a vector to a slot of length `n`, with broadcasting
(`np.vectorize` in `main.cpp` line 66). -/
def assign1 (n : Nat) (r : List α) : Res (List α) :=
  match r with
  | [v] => .ok (List.replicate n v)
  | r => if r.length = n then .ok r else .throw .valueError

/-- `hj.d` (`main.cpp` line 66), signature `()->(n)`. -/
def hjD (xs : List (PyElem α)) : Res (List (List α)) :=
  match xs with
  | [] => .throw .valueError
  | e :: es => do
    let r ← elemD e
    let rs ← es.mapM fun e => do
      let r' ← elemD e
      assign1 r.length r'
    .ok (r :: rs)

/-- `lambda v: v.hm() if hasattr(v, 'hm') else np.zeros((0, 0))` (`main.cpp` line 67); the default
mode is `"full"` (`common.h` line 97); `SScalar` has no attribute `hm` (`bind_sscalar.cpp`). -/
def elemDD [Arith α] : PyElem α → Res (Mat α)
  | .int _ => .ok ⟨0, 0, fun _ _ => none⟩
  | .float _ => .ok ⟨0, 0, fun _ _ => none⟩
  | .jet c x => x.hm c "full"
  | .sjet _ => .ok ⟨0, 0, fun _ _ => none⟩

/-- Assignment of a matrix to a slot of shape `(n, m)`, with broadcasting
(`np.vectorize` in `main.cpp` line 67). -/
def assign2 (n m : Int) (r : Mat α) : Res (Mat α) :=
  if (r.rows = n ∨ r.rows = 1) ∧ (r.cols = m ∨ r.cols = 1) then
    .ok ⟨n, m, fun i j => r.at' (if r.rows = n then i else 0) (if r.cols = m then j else 0)⟩
  else .throw .valueError

/-- `hj.dd` (`main.cpp` line 67), signature `()->(n,m)`. -/
def hjDD [Arith α] (xs : List (PyElem α)) : Res (List (Mat α)) :=
  match xs with
  | [] => .throw .valueError
  | e :: es => do
    let r ← elemDD e
    let rs ← es.mapM fun e => do
      let r' ← elemDD e
      assign2 r.rows r.cols r'
    .ok (r :: rs)

end HJ
