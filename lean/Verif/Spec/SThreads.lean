import Verif.Model.SProgram
import Verif.Spec.Threads

/-!
# Specification: which sparse scalars a thread may use
-/

namespace HJ

variable {α V I : Type}

/-- The object the statement changes. -/
def SStmt.target : SStmt α V → V
  | .assign t _ => t
  | .vari t _ _ => t
  | .make t _ _ => t
  | .upd _ t _ => t
  | .updS _ t _ => t

/-- The statement reads the object `v` (other than its target). -/
def SStmt.Reads (v : V) : SStmt α V → Prop
  | .assign _ e => e.Mentions v
  | .upd _ _ e => e.Mentions v
  | _ => False

/-- The call writes an object of thread `t` only and reads what `t` sees. -/
def SCall.Stays (own : V → Option I) (t : I) : SCall α V → Prop
  | .act s => own s.target = some t ∧ ∀ v, s.Reads v → Sees own t v
  | .ask b => ∀ v, b.Reads v → Sees own t v
  | .f v => Sees own t v
  | .d v _ => Sees own t v
  | .size v _ => Sees own t v

end HJ
