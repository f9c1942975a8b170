import Verif.Spec.SProgram
import Verif.Spec.Sparse

/-!
# Some of the names only, and other names

`SAgreeOn` says that two sparse scalars have the same value and the same entries under the names in `P`;
`SRenamed` that one is the other with different names.
-/

namespace HJ

variable {α V : Type}

/-- Two sparse scalars have the same value; every name in `P` is stored in both or in none, with the same
derivative.  About the other names nothing is said. -/
structure SAgreeOn [Arith α] (P : String → Prop) (x x' : SS α) : Prop where
  wf : SWF x
  wf' : SWF x'
  f : x'.f = x.f
  names : ∀ k, P k → (k ∈ x'.names ↔ k ∈ x.names)
  d : ∀ k, P k → x'.d k = x.d k

/-- A call that reads derivatives, if at all, with respect to the variables in `P`, and not their number. -/
def SCall.ReadsOnly (P : String → Prop) : SCall α V → Prop
  | .act s => s.DictOk
  | .ask _ => True
  | .f _ => True
  | .d _ k => P k
  | .size _ _ => False

/-- The sparse scalar `x'` is `x` with the variables renamed by `σ`. -/
structure SRenamed [Arith α] (σ : String ≃ String) (x x' : SS α) : Prop where
  wf : SWF x
  wf' : SWF x'
  f : x'.f = x.f
  size : x'.size = x.size
  names : ∀ k, σ k ∈ x'.names ↔ k ∈ x.names
  d : ∀ k, x'.d (σ k) = x.d k

/-- Rename the variables in a statement. -/
def SStmt.rename (σ : String → String) : SStmt α V → SStmt α V
  | .assign t e => .assign t e
  | .vari t k s => .vari t (σ k) s
  | .make t s d => .make t s (d.map fun e => (σ e.1, e.2))
  | .upd o t e => .upd o t e
  | .updS o t s => .updS o t s

/-- Rename the variables in a call. -/
def SCall.rename (σ : String → String) : SCall α V → SCall α V
  | .act s => .act (s.rename σ)
  | .ask b => .ask b
  | .f v => .f v
  | .d v k => .d v (σ k)
  | .size v m => .size v m

/-- The client code with renamed variables: it does the same with the answers. -/
def Caller.rename {Q : Type} (σ : String → String) (cl : Caller (SCall α V) (Answer α) Q) :
    Caller (SCall α V) (Answer α) Q where
  next q := (cl.next q).map (SCall.rename σ)
  after := cl.after

end HJ
