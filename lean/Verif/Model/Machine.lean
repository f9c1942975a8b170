import Verif.Model.DD

/-!
# Index arithmetic in machine integers

Elsewhere the model computes sizes and indices with unlimited integers and takes `std::sqrt` on
line 68 as exact on squares.  Here the same expressions are written down operation by operation
with 64-bit integers (`none` = signed overflow, undefined behaviour) and with the floating point
operations as they are.  `index` is `std::ptrdiff_t` (line 24).

Line numbers refer to `/repo/include/hyperjet/hyperjet.h`.
-/

namespace HJ

/-- The result of an operation on `index` (line 24): 64 bits, signed. -/
def i64 (z : Int) : Option Int := if -2 ^ 63 ≤ z ∧ z < 2 ^ 63 then some z else none

/-- The floating point operations of line 68: conversion of the `index` argument of `std::sqrt` to
double, the square root, and the subtraction. -/
structure Fpu where
  conv : Int → Rat
  sqrt : Rat → Rat
  sub : Rat → Rat → Rat

/-- `data_length_from_size` (lines 61-64). -/
def dataLength64 (c : Cfg) (size : Int) : Option Int :=
  if c.order = 1 then i64 (1 + size) else do
    let a ← i64 (size + 1)
    let b ← i64 (size + 2)
    let p ← i64 (a * b)
    i64 (p.tdiv 2)

/-- The constant `s` of `size_from_data_length` (line 68).  A cast of a floating point value that
does not fit is undefined as well. -/
def decodeSize64 (c : Cfg) (u : Fpu) (n : Int) : Option Int :=
  if c.order = 1 then i64 (n - 1) else do
    let t ← i64 (8 * n)
    let t ← i64 (1 + t)
    let q ← i64 (truncRat (u.sub (u.sqrt (u.conv t)) 3))
    some (q.tdiv 2)

/-- `size_from_data_length` in a build with exceptions (lines 66-83). -/
def decode64 (c : Cfg) (u : Fpu) (n : Int) : Option (Res Int) := do
  let s ← decodeSize64 c u n
  let m ← dataLength64 c s
  if m != n then some (.throw .invalidLength) else some (.ok s)

/-- The subscript in `g(i)` (lines 726, 733). -/
def gAt64 (i : Int) : Option Int := i64 (1 + i)

/-- The subscript in `h(i)` (lines 745, 752). -/
def hFlat64 (n i : Int) : Option Int := do
  let a ← i64 (1 + n)
  i64 (a + i)

/-- The subscript in `h(i, j)` (lines 767 and 782). -/
def hRow64 (n i j : Int) : Option Int := do
  let a ← i64 (1 + n)
  let t ← i64 (2 * n)
  let t ← i64 (t - 1)
  let t ← i64 (t - i)
  let t ← i64 (t * i)
  let t ← i64 (t.tdiv 2)
  let a ← i64 (a + t)
  i64 (a + j)

/-- The subscript in `h(i, j)` (lines 765-772 and 780-787). -/
def hAt64 (n i j : Int) : Option Int := if i < j then hRow64 n i j else hRow64 n j i

/-- The variable `k` of `eval` (lines 922-937) after `j` rounds of its first inner loop. -/
def evalK64 (n i : Int) : Nat → Option Int
  | 0 => do
    let a ← i64 (1 + n)
    i64 (a + i)
  | j + 1 => do
    let k ← evalK64 n i j
    let d ← i64 (n - j)
    let d ← i64 (d - 1)
    i64 (k + d)

/-- Two's complement: what a processor computes when an addition or multiplication overflows
(used on lines 61-64; the C++ standard does not promise it). -/
def wrap64 (z : Int) : Int := (z + 2 ^ 63) % 2 ^ 64 - 2 ^ 63

/-- `data_length_from_size` for order 2 (lines 61-64) on a processor that wraps around. -/
def dataLengthWrapped (size : Int) : Int :=
  (wrap64 (wrap64 (size + 1) * wrap64 (size + 2))).tdiv 2

end HJ
