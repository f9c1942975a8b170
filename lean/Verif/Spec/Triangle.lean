/-!
# Specification: the upper triangle in row-major order
-/

namespace HJ

/-- `(0,0), (0,1), …, (0,n-1), (1,1), …`: all pairs `i ≤ j < n`, row by row. -/
def upperPairs (n : Nat) : List (Nat × Nat) :=
  (List.range n).flatMap fun i => (List.range' i (n - i)).map fun j => (i, j)

end HJ
