import Verif.Model.Threads
import Verif.Spec.Real

/-!
# Specification: which objects a thread may use

Every object belongs to one thread or is shared and only read.
-/

namespace HJ

variable {α V I : Type}

/-- The statement reads the object `v` (other than its target). -/
def Stmt.Reads (v : V) : Stmt α V → Prop
  | .assign _ e => e.Mentions v
  | .upd _ _ e => e.Mentions v
  | _ => False

/-- The comparison reads the object `v`. -/
def Cond.Reads (v : V) : Cond α V → Prop
  | .cmp _ e₁ e₂ => e₁.Mentions v ∨ e₂.Mentions v
  | .cmpS _ e _ => e.Mentions v
  | .sCmp _ _ e => e.Mentions v

/-- Thread `t` sees `v`: it is its own or it is shared (`none`). -/
def Sees (own : V → Option I) (t : I) (v : V) : Prop := own v = some t ∨ own v = none

/-- The call writes an object of thread `t` only and reads what `t` sees. -/
def Call.Stays (own : V → Option I) (t : I) : Call α V → Prop
  | .act s => own s.target = some t ∧ ∀ v, s.Reads v → Sees own t v
  | .ask b => ∀ v, b.Reads v → Sees own t v
  | .f v => Sees own t v
  | .g v _ => Sees own t v
  | .h v _ _ => Sees own t v

/-- Normal end or the kind of failure. -/
def Res.outcome {A : Type} : Res A → Res Unit
  | .ok _ => .ok ()
  | .throw e => .throw e
  | .abort => .abort
  | .ub u => .ub u

end HJ
