/-!
# Outcomes, storage cells and `for` loops

The vocabulary in which the C++ functions are written down.  Nothing in this file models a
particular function of `/repo`; it fixes what a C++ statement can do.
-/

namespace HJ

/-- Reasons for undefined behaviour that the model distinguishes.
(C++ language, no particular line.) -/
inductive UB where
  /-- array/vector access outside `[0, length)` -/
  | outOfBounds
  /-- an uninitialised scalar is read -/
  | uninitialised
  /-- comparison of iterators of two different containers -/
  | foreignIterator
  /-- use of memory that a `std::vector` may have released -/
  | dangling
  /-- the C++ template would not compile (never reached by the code in `/repo`) -/
  | illFormed
  deriving DecidableEq, Repr

/-- Exceptions.  The `std::runtime_error`s of `hyperjet.h` (lines 74, 94, 108, 126, 853), of
`python/src/common.h` line 198 and `python/src/main.cpp` line 74; `lengthError` is
`std::length_error` of `std::vector`, `typeError` is pybind11's cast error (`TypeError` or
`RuntimeError`), `valueError` is numpy's `ValueError`; the last three are Python's
`ZeroDivisionError`, `AttributeError` and `IndexError`. -/
inductive Err where
  | invalidLength | negativeSize | invalidSize | incompatibleSize | invalidMode
  | invalidState | invalidOrder | lengthError | typeError | valueError
  | zeroDivision | attributeError | indexError
  deriving DecidableEq, Repr

/-- Outcome of running a C++ function.
(C++ language; `throw` as in `hyperjet.h` line 74, `assert` as in line 79.) -/
inductive Res (A : Type) where
  | ok (a : A)
  | throw (e : Err)
  /-- a failed `assert` -/
  | abort
  | ub (u : UB)
  deriving DecidableEq, Repr

namespace Res

/-- Sequencing: anything but `ok` ends the computation. (C++ language: `;`.) -/
def bind {A B : Type} (x : Res A) (k : A → Res B) : Res B :=
  match x with
  | ok a => k a
  | throw e => throw e
  | abort => abort
  | ub u => ub u

instance : Monad Res where
  pure := ok
  bind := bind

@[simp] theorem pure_eq {A : Type} (a : A) : (pure a : Res A) = ok a := rfl
@[simp] theorem ok_bind {A B : Type} (a : A) (k : A → Res B) : (ok a >>= k) = k a := rfl
@[simp] theorem throw_bind {A B : Type} (e : Err) (k : A → Res B) :
    ((throw e : Res A) >>= k) = throw e := rfl
@[simp] theorem abort_bind {A B : Type} (k : A → Res B) : ((abort : Res A) >>= k) = abort := rfl
@[simp] theorem ub_bind {A B : Type} (u : UB) (k : A → Res B) :
    ((ub u : Res A) >>= k) = ub u := rfl

theorem bind_eq_ok {A B : Type} {x : Res A} {k : A → Res B} {b : B} :
    (x >>= k) = ok b ↔ ∃ a, x = ok a ∧ k a = ok b := by
  cases x <;> simp

instance : LawfulMonad Res := LawfulMonad.mk'
  (id_map := by intro A x; cases x <;> rfl)
  (pure_bind := by intros; rfl)
  (bind_assoc := by intro A B C x f g; cases x <;> rfl)

end Res

/-- Storage of scalars; `none` is a cell that has not been initialised. (`hyperjet.h` lines 49-55.) -/
abbrev Data (α : Type) := List (Option α)

/-- Read `d[i]`. (`hyperjet.h` line 709 and every other `m_data[i]`.) -/
def rd {α : Type} (d : Data α) (i : Int) : Res α :=
  if i < 0 then .ub .outOfBounds else
  match d[i.toNat]? with
  | none => .ub .outOfBounds
  | some none => .ub .uninitialised
  | some (some v) => .ok v

/-- Write `d[i] = v`; the result is the new storage.
(`hyperjet.h` line 978 and every other `m_data[i] = ...`.) -/
def wr {α : Type} (d : Data α) (i : Int) (v : α) : Res (Data α) :=
  if i < 0 ∨ (d.length : Int) ≤ i then .ub .outOfBounds else .ok (d.set i.toNat (some v))

/-- Form the address `&d[i]` (as `operator[]` of `std::vector`/`std::array` does: the index must
be a valid element index). (`hyperjet.h` lines 741-793.) -/
def addrOf {α : Type} (d : Data α) (i : Int) : Res Int :=
  if i < 0 ∨ (d.length : Int) ≤ i then .ub .outOfBounds else .ok i

/-- `n` rounds of a loop body, the loop variable starting at `i`. (C++ language: `for`.) -/
def iter {σ : Type} (body : Int → σ → Res σ) : Nat → Int → σ → Res σ
  | 0, _, s => .ok s
  | n + 1, i, s => do
      let s ← body i s
      iter body n (i + 1) s

/-- `for (index i = lo; i < hi; i++) body`. (`hyperjet.h` line 976 and every other loop.) -/
def forUp {σ : Type} (lo hi : Int) (s : σ) (body : Int → σ → Res σ) : Res σ :=
  iter body (hi - lo).toNat lo s

end HJ
