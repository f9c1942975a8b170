import Verif.Model.Control
import Verif.Model.PyHeap
import Verif.Model.PySparse

/-!
# Python programs with branches and loops

`if`, `while`, `not`, `and`, `or` over Python statements and comparisons.  A comparison with a number
on the left asks the number first, which does not know jets, and then the mirrored operator of the jet
(Python language; `common.h` lines 150-167, `bind_sscalar.cpp` lines 77-94).
-/

namespace HJ

variable {α V W : Type} [CMath α]

/-- Compare two values (`common.h` lines 150-167; numbers: Python language). -/
def PVal.cmp (o : DD.CmpOp) : PVal α → PVal α → Res Bool
  | .num x, .num y => .ok (o.scalar x y)
  | .jet x, .jet y => DD.cmp o x y
  | .jet x, .num y => DD.cmpS o x y
  | .num x, .jet y => DD.cmpS o.mirror y x

/-- `e₁ o e₂` in Python (`common.h` lines 150-167). -/
structure PyCond (α V : Type) where
  op : DD.CmpOp
  left : PyE α V
  right : PyE α V

/-- Evaluate a comparison (`common.h` lines 150-167). -/
def PyCond.run (c : Cfg) (n : Nat) (σ : V → PVal α) (b : PyCond α V) : Res Bool := do
  let x ← b.left.eval c n σ
  let y ← b.right.eval c n σ
  PVal.cmp b.op x y

/-- Python programs on the dense classes (`common.h` lines 26-220). -/
def pyMachine (α V W : Type) [CMath α] [DecidableEq V] [DecidableEq W] (c : Cfg) (n : Nat) :
    Machine (PyStmt α V W) (PyCond α V) (PySt α V W) where
  step s st := s.run c n st
  test b st := b.run c n st.val

/-- Compare two values (`bind_sscalar.cpp` lines 77-94; numbers: Python language). -/
def SPVal.cmp (o : DD.CmpOp) : SPVal α → SPVal α → Res Bool
  | .num x, .num y => .ok (o.scalar x y)
  | .jet x, .jet y => SS.cmp o x y
  | .jet x, .num y => SS.cmpS o x y
  | .num x, .jet y => SS.cmpS o.mirror y x

/-- `e₁ o e₂` in Python (`bind_sscalar.cpp` lines 77-94). -/
structure SPyCond (α V : Type) where
  op : DD.CmpOp
  left : SPyE α V
  right : SPyE α V

/-- Evaluate a comparison (`bind_sscalar.cpp` lines 77-94). -/
def SPyCond.run (ord : Order α) (σ : V → SPVal α) (b : SPyCond α V) : Res Bool := do
  let x ← b.left.eval (ord.sub 0) σ
  let y ← b.right.eval (ord.sub 1) σ
  SPVal.cmp b.op x y

/-- Python programs on `SScalar` (`bind_sscalar.cpp` lines 7-112).  The state contains the oracle for
the iteration orders; every statement and the comparisons between two statements use a new part of
it. -/
def spyMachine (α V : Type) [CMath α] [DecidableEq V] :
    Machine (SPyStmt α V) (SPyCond α V) (Order α × SPySt α V) where
  step s st :=
    let r := s.run (st.1.sub 0) st.2
    (r.1, (st.1.sub 1, r.2))
  test b st := b.run (st.1.sub 2) st.2.val

end HJ
