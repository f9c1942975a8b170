import Verif.Model.Mixed

/-!
# Functions that user code adds to the library

C++ user code that applies a function the library does not have: it reads value and derivatives of a jet,
computes the function and its derivatives with numbers, and writes the components of the result with
`set_f`, `set_g` and `set_h`.
-/

namespace HJ

variable {α V W : Type}

/-- Calls one after the other; the state is the list of the calls still to be made.
User code, no line of `hyperjet.h`. -/
def script (C R : Type) : Caller C R (List C) where
  next
    | [] => none
    | k :: _ => some k
  after q _ := q.tail

/-- The formula with `w` for its variable. User code, no line of `hyperjet.h`. -/
def Expr.at (w : W) : Expr α Unit → Expr α W
  | .var _ => .var w
  | .const s => .const s
  | .neg e => .neg (e.at w)
  | .abs e => .abs (e.at w)
  | .fn φ e => .fn φ (e.at w)
  | .bin o e₁ e₂ => .bin o (e₁.at w) (e₂.at w)
  | .sbin o e s => .sbin o (e.at w) s
  | .hypot3 e₁ e₂ e₃ => .hypot3 (e₁.at w) (e₂.at w) (e₃.at w)

/-- The number variables of `custom`. User code, no line of `hyperjet.h`. -/
inductive CustomVar
  | x | y | d | dd | p | q | s
  deriving DecidableEq

/-- `x = a.f(); y = φ(x); d = φ'(x); r.set_f(y);`
(User code calling `hyperjet.h` lines 707-720.) -/
def customValue (φ φ₁ : Expr α Unit) (a r : V) : List (MCall α V CustomVar) :=
  [.f .x a, .compute .y (φ.at .x), .compute .d (φ₁.at .x), .act (.setF r (.inr .y))]

/-- `p = a.g(i); p = d * p; r.set_g(i, p);`
(User code calling `hyperjet.h` lines 722-746.) -/
def customGrad (a r : V) (i : Nat) : List (MCall α V CustomVar) :=
  [.g .p a i, .compute .p (.bin .mul (.var .d) (.var .p)), .act (.setG r i (.inr .p))]

/-- `p = a.g(i); q = a.g(j); s = a.h(i, j); s = d * s + dd * p * q; r.set_h(i, j, s);`
(User code calling `hyperjet.h` lines 722-792.) -/
def customHess (a r : V) (i j : Nat) : List (MCall α V CustomVar) :=
  [.g .p a i, .g .q a j, .h .s a i j,
    .compute .s (.bin .add (.bin .mul (.var .d) (.var .s))
      (.bin .mul (.bin .mul (.var .dd) (.var .p)) (.var .q))), .act (.setH r i j (.inr .s))]

/-- `r = φ(a)` for jets of `n` variables, with the derivatives `φ₁` and `φ₂` of `φ`: the value, the gradient
and, for second order, `dd = φ''(x)` and the upper triangle of the Hessian row by row.
(User code calling `hyperjet.h` lines 707-792.) -/
def custom (order n : Nat) (φ φ₁ φ₂ : Expr α Unit) (a r : V) : List (MCall α V CustomVar) :=
  customValue φ φ₁ a r ++ (List.range n).flatMap (customGrad a r) ++
    if order = 2 then .compute .dd (φ₂.at .x) ::
      (List.range n).flatMap fun i => (List.range' i (n - i)).flatMap (customHess a r i)
    else []

end HJ
