import Verif.Model.Caller
import Verif.Spec.Control

/-!
# Client code that computes with jets and with numbers

C++ user code such as Newton's method: values and derivatives are read from jets into number variables,
the code computes with the numbers, and the numbers enter jets again as constants, as scalar operands and as
the values of new variables.
-/

namespace HJ

variable {α V W : Type}

/-- Calls of client code with jets `V` and number variables `W`.  A scalar operand `α ⊕ W` is a constant or a
number variable. (User code calling `hyperjet.h` lines 644-658, 707-792, 907-946, 970-1754.) -/
inductive MCall (α V W : Type) where
  /-- a statement on jets -/
  | act (s : Stmt (α ⊕ W) V)
  /-- a comparison of jets -/
  | ask (b : Cond (α ⊕ W) V)
  /-- `t = DDScalar::variable(i, s, n);` -/
  | vari (t : V) (i : Int) (s : α ⊕ W)
  /-- `t = e;` with numbers only -/
  | compute (t : W) (e : Expr α W)
  /-- a comparison of numbers -/
  | test (op : DD.CmpOp) (e₁ e₂ : Expr α W)
  /-- `t = v.f();` -/
  | f (t : W) (v : V)
  /-- `t = v.g(i);` -/
  | g (t : W) (v : V) (i : Int)
  /-- `t = v.h(i, j);` -/
  | h (t : W) (v : V) (i j : Int)
  /-- `t = v.eval({d₀, d₁, …});` -/
  | eval (t : W) (v : V) (d : List W)

/-- The value of a scalar operand. User code, no line of `hyperjet.h`. -/
def scalarOf (ν : W → α) : α ⊕ W → α := Sum.elim id ν

/-- Assign to a number variable. User code, no line of `hyperjet.h`. -/
def setNum [DecidableEq W] (ν : W → α) (t : W) (s : α) : W → α := fun w => if w = t then s else ν w

/-- Outcome of reading a number into `t`; the store of the jets is not changed.
(User code calling `hyperjet.h` lines 707-792.) -/
def readNum [DecidableEq W] (ρ : Store α V) (ν : W → α) (t : W) : Res α →
    Res (Answer α) × (Store α V × (W → α))
  | .ok s => (.ok .done, ρ, setNum ν t s)
  | .throw e => (.ok (.threw e), ρ, ν)
  | .abort => (.abort, ρ, ν)
  | .ub u => (.ub u, ρ, ν)

/-- The library of dense jets of `n` variables with number variables
(`hyperjet.h` lines 644-658, 707-792, 907-946, 970-1754; the arithmetic on numbers is that of C++). -/
def mixLibrary (α V W : Type) [CMath α] [DecidableEq V] [DecidableEq W] (c : Cfg) (n : Nat) :
    Library (MCall α V W) (Answer α) (Store α V × (W → α))
  | .act s, (ρ, ν) =>
    let r := (s.map (scalarOf ν)).run c n ρ
    (Answer.of (fun _ => .done) r.1, r.2, ν)
  | .ask b, (ρ, ν) => (Answer.of .truth ((b.map (scalarOf ν)).run c n ρ), ρ, ν)
  | .vari t i s, (ρ, ν) =>
    let r := ρ.put t (DD.var c i (scalarOf ν s) n)
    (Answer.of (fun _ => .done) r.1, r.2, ν)
  | .compute t e, (ρ, ν) => (.ok .done, ρ, setNum ν t (e.plain (· ÷ₛ ·) ν))
  | .test op e₁ e₂, (ρ, ν) =>
    (.ok (.truth (op.scalar (e₁.plain (· ÷ₛ ·) ν) (e₂.plain (· ÷ₛ ·) ν))), ρ, ν)
  | .f t v, (ρ, ν) => readNum ρ ν t (ρ v).f
  | .g t v i, (ρ, ν) => readNum ρ ν t ((ρ v).g c i)
  | .h t v i j, (ρ, ν) => readNum ρ ν t ((ρ v).h c i j)
  | .eval t v d, (ρ, ν) => readNum ρ ν t ((ρ v).eval c (d.map ν))

end HJ
