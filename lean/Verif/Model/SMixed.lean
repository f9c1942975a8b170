import Verif.Model.Mixed
import Verif.Spec.SProgram

/-!
# Client code that computes with sparse scalars and with numbers

The same kind of C++ user code as in `Model/Mixed.lean`, with `SScalar` instead of dense jets.
-/

namespace HJ

variable {α V W : Type}

/-- Calls of client code with sparse scalars `V` and number variables `W`.  A scalar operand `α ⊕ W` is a
constant or a number variable. (User code calling `hyperjet.h` lines 2044-2101, 2129-2705.) -/
inductive SMCall (α V W : Type) where
  /-- a statement on sparse scalars, also `t = SScalar::variable(k, s);` -/
  | act (s : SStmt (α ⊕ W) V)
  /-- a comparison of sparse scalars -/
  | ask (b : Cond (α ⊕ W) V)
  /-- `t = e;` with numbers only -/
  | compute (t : W) (e : Expr α W)
  /-- a comparison of numbers -/
  | test (op : DD.CmpOp) (e₁ e₂ : Expr α W)
  /-- `t = v.f();` -/
  | f (t : W) (v : V)
  /-- `t = v.d(k);` -/
  | d (t : W) (v : V) (k : String)
  /-- `t = v.eval({{k₀, d₀}, {k₁, d₁}, …});` -/
  | eval (t : W) (v : V) (d : List (String × W))

/-- Outcome of reading a number into `t`; the sparse scalars are not changed.
(User code calling `hyperjet.h` lines 2071-2101.) -/
def sreadNum [DecidableEq W] (st : Order α × SStore α V) (ν : W → α) (t : W) : Res α →
    Res (Answer α) × ((Order α × SStore α V) × (W → α))
  | .ok s => (.ok .done, st, setNum ν t s)
  | .throw e => (.ok (.threw e), st, ν)
  | .abort => (.abort, st, ν)
  | .ub u => (.ub u, st, ν)

/-- The library of sparse scalars with number variables (`hyperjet.h` lines 2044-2101, 2129-2705; the
arithmetic on numbers is that of C++).  `eval` as in implementations where all end iterators are equal. -/
def smixLibrary (α V W : Type) [CMath α] [DecidableEq V] [DecidableEq W] :
    Library (SMCall α V W) (Answer α) ((Order α × SStore α V) × (W → α))
  | .act s, (st, ν) =>
    let r := ssLibrary α V (.act (s.map (scalarOf ν))) st
    (r.1, r.2, ν)
  | .ask b, (st, ν) =>
    let r := ssLibrary α V (.ask (b.map (scalarOf ν))) st
    (r.1, r.2, ν)
  | .compute t e, (st, ν) => (.ok .done, st, setNum ν t (e.plain (· ÷ₛ ·) ν))
  | .test op e₁ e₂, (st, ν) =>
    (.ok (.truth (op.scalar (e₁.plain (· ÷ₛ ·) ν) (e₂.plain (· ÷ₛ ·) ν))), st, ν)
  | .f t v, (st, ν) => sreadNum st ν t (st.2 v).f
  | .d t v k, (st, ν) => sreadNum st ν t (.ok ((st.2 v).d k))
  | .eval t v d, (st, ν) => sreadNum st ν t ((st.2 v).eval false (d.map fun e => (e.1, ν e.2)))

end HJ
