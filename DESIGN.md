# Design of the Lean model of HyperJet

Subject: `/repo/include/hyperjet/hyperjet.h` and the hand-written logic of the Python bindings in
`/repo/python/src` (`common.h`, `main.cpp`, `bind_sscalar.cpp`).  The code was read, never run.

## 1. Layout

| directory | contents |
|-----------|----------|
| `Verif/Model` | the code, function by function; each definition cites file and lines |
| `Verif/Spec` | what correct means, without using the model's helpers |
| `Verif/Proofs` | lemmas |
| `Verif/Props` | the property theorems (`Cnn_...`), each followed by an `example` with concrete data there or in `Props/Instances.lean` |

Property identifiers are those of `properties.jsonl`; `MANIFEST.json` maps them to theorem names.
A theorem named `Cnn_violated_...` proves that the code does *not* have the property as an API user
would state it, and says exactly what the code does instead.

## 2. Modelling approach

* **Outcomes.** A C++ function becomes a total Lean function into
  `Res A = ok a | throw e | abort | ub why`: `throw` is a C++ exception, `abort` a failed `assert`,
  `ub` undefined behaviour (out-of-bounds access, reading an indeterminate cell, pointers outside the
  array, using a coefficient of a tag type as a number, a map iterator used wrongly).  Preconditions
  are therefore never assumed; where needed they are hypotheses of theorems.
  Functions that modify an object return `Res Unit × object`: the state is visible also after a
  throw.  The state after `ub` and `abort` means nothing.
* **Storage.** `m_data` is a `List (Option α)`; `none` is an indeterminate cell.  Indices are `Int`;
  all reads and writes are bounds-checked and give `ub` outside.
* **Loops** are the C++ loops, index by index, with their running `k++` and pointer walks.
* **Configuration `Cfg`**: template parameters (`TOrder`, `TSize`, -1 = dynamic), build mode
  (exceptions on/off, assertions on/off) and the `std::sqrt` used to decode lengths.  Theorems
  quantify over all of them.  `Cfg.Valid` asks: order 1 or 2, size -1 or ≥ 0, and that `sqrt` is exact
  on odd squares (C60_root proves this of every correctly rounded `sqrt` on doubles, for all squares below 2^63).
* **Scalars.** The model is generic in the scalar type through a class of operations without laws
  (`Arith`, `Cmp`, `CMath`).  Theorems that need no algebra hold for any arithmetic, in particular
  for IEEE doubles bit for bit (without FMA contraction).  Others name the laws they use as
  hypotheses (commutativity, `x - y = x + (-y)`), again true of doubles.  Algebraic identities are
  stated in a field (`Spec/Exact.lean`).  Statements about derivatives use `XReal`: exact reals with
  ±∞ and NaN following IEEE 754 and C99 Annex F, without rounding, overflow, underflow and signed
  zeros; where the sign of an infinity would come from a signed zero or from rounding, one sign is
  chosen.  Infinities and NaN are values, so `x / 0 = 0` cannot make a theorem true.
  `Rounded rnd` (`Spec/Round.lean`) is 53-bit arithmetic with any rounding to nearest and unlimited
  exponents; it is used for the theorems about rounding (C22, C51, C58).
  `RelErr` (`Spec/Error.lean`) only assumes that every operator has a relative error of at most `u`;
  `Rounded rnd` is an instance (C58).  `LibErr` (`Spec/LibErr.lean`) assumes the same of every
  library function, too; `Flt rnd` is an instance for every rounding of the exact results, for
  example to `p` bits with unlimited exponents (`rndBits p`, C66).  C67 bounds the error of one
  operation in such an arithmetic; the exact result is the chain rule with Mathlib's partial derivatives
  (`Spec/Local.lean`), and C67_exact shows that this is the jet of the composed function.
  C68 is C66 for programs with in-place operators, branches and loops; what such a program does on
  real numbers is `PreciseRun` (`Spec/PreciseRun.lean`): an ending run without ties.
  C69 strengthens C66 and C68: the errors are at most a constant times `u`.  C70 is C69 with one
  constant for all points of a compact set; the proofs follow the program in the given arithmetic and
  in exact arithmetic side by side (`Proofs/Converge*.lean`).
  C71 is C70 with overflow and underflow: `FinErr` (`Spec/FinErr.lean`) asks for small errors only of
  operations on finite numbers whose exact result is in range, and for nothing else.  `IEEE p emax` is
  the binary format with `p` bits and exponents up to `emax` (`double` is `IEEE 53 1023`), with
  gradual underflow, infinities and NaN but one zero; its library functions are correctly rounded, which
  those of a C library need not be (they fall under `FinErr` if their error is bounded).
  C72 needs no enough range: `Watched p emax` (`Spec/Watch.lean`) has unlimited exponents and records
  whether overflow, underflow, division by zero or an invalid operation happened on the way to a number;
  every component of a jet without such an event is the same in `IEEE p emax`, and finite, whatever
  happened in the other components.
* **Coefficient tags** `Zero`, `One`, `MinusOne` are the datatype `Coef`; the `if constexpr` logic is
  kept.
* **Aliasing.** In-place operators take `Operand = obj y | self`; with `self` the loop reads the
  cells being written.  A scalar right operand may be a reference into the object (`SRef`).
* **Programs** (`Model/Program.lean`) are lists of assignments, in-place updates and setters over a
  store of named objects; naming the target on the right selects `self`.
* **Branches and loops** (`Model/Control.lean`): `if`, `while`, `!`, `&&`, `||` over the statements of
  programs and over comparisons of jets and scalars.  A run has a bound on the rounds of every loop
  and gives `none` when that is not enough; the theorems hold for all bounds.
* **Client code** (`Model/Caller.lean`): any deterministic program, as a state type of its own with a
  function to the next call and a function from the answer to the next state; the calls are the
  statements and comparisons above and reads of `f`, `g`, `h`.  So loops over integers, arrays, recursion
  and data structures of the client need no language of ours.  Exceptions reach the client as answers.
* **Threads** (`Model/Threads.lean`): several clients over one store, a step is one call, a schedule is
  any list of turns.  That a call is one step is a simplification; C74 assumes that no object is
  written by one thread and used by another, and then the accesses inside of calls cannot meet.
  C81 is the same for `SScalar`.
* **Newton's method** (`newtonStep` in `Props/Newton.lean`) is client code, `y -= F / D;`, run with the
  modelled operators.  C75 takes existence and smoothness of the implicit function from Mathlib's implicit
  function theorem; `Proofs/Smooth.lean` shows that expressions are smooth inside their domains.
* **C++ client code on `SScalar`** (`Model/SProgram.lean`): statements (assignment with the implicit copy,
  `SScalar::variable`, construction from a table, the in-place operators with `*this` as operand),
  comparisons, and reading `f`, `d`, `size`; client code of any kind calls these. The iteration orders of
  the hash tables are drawn anew for every statement.  Not among the calls: `eval` (C44) and printing
  (C49).  C80 bounds the rounding errors of such code (`Proofs/SPrecise.lean`), and C86 those of `eval`
  afterwards where all end iterators are equal (`Props/SEvalErr.lean`, `changeAt` in `Spec/SEvalErr.lean`).
* **Python client code of any kind** (`Model/PyCaller.lean`): client code as above over the Python
  statements and comparisons, and `float(v)`; exceptions are answers, so `try`/`except` is covered.
  Names stand for anything that holds a reference (variables, list elements, attributes).
  C84 bounds the rounding errors of C++ client code on dense jets in finite formats, with one constant for
  all points of a compact set (`Props/CallerFinite.lean`), and C85 those of `eval` afterwards
  (`Props/EvalErr.lean`, `taylorAt` in `Spec/EvalErr.lean`);
  C82 and C83 bound the rounding errors of Python code on the dense classes (`Proofs/PyPrecise.lean`) and on
  `SScalar` (`Proofs/SPyPrecise.lean`).
* **Code that mixes jets and numbers** (`Model/Mixed.lean`): C++ client code that also reads values and
  derivatives of jets into number variables, calls `eval`, computes with the numbers, and uses them as scalar operands and as
  values of new variables and of components (setters).  The semantics (`Spec/Mixed.lean`) is on functions
  and real numbers; a setter replaces the function of a jet by one that differs from it at the point in that
  component only.  C87 bounds the rounding errors, with Newton's method as the main case; C88 is about user
  code that adds a function to the library (`Model/Custom.lean`), with the exact roundings in every arithmetic.  C94 is C87 for `SScalar`
  (`Model/SMixed.lean`, `Spec/SMixed.lean`), for every iteration order of the hash tables; `eval` there is
  the first-order change, in implementations where all end iterators are equal (see C44).  C95 is about
  functions that user code adds to `SScalar` by their tangents (`Model/SCustom.lean`, `Spec/SCustom.lean`): in every format this
  changes no bit of the computed value and rounds every derivative once (formats here have no signed zeros); C97
  is the same recipe with the tangent plane for functions of two arguments (`Model/SCustom2.lean`, `Spec/SCustom2.lean`).  C96
  (`Model/SImplicit.lean`) is one Newton step of user code on a sparse scalar: the derivatives of the solution
  of an equation.  The solution is assumed to be known as numbers before rounding to the format.
* **Some of the variables only** (`Spec/Block.lean`): C89 relates runs of the same client code on jets of
  `n` variables and of some of them, in the same order (`Selects`), component by component through the
  accessors (`Picks`), and runs on jets that agree for some variables only (`AgreeOn`).  It holds in every
  arithmetic since it is about equal results, not about exact ones.
* **Some of the names only, other names** (`Spec/SBlock.lean`): C90 is the same for sparse scalars: code that
  does not count the stored derivatives and does not read the other ones does not depend on them
  (`SAgreeOn`), and renaming the variables throughout renames the derivatives (`SRenamed`).
* **Sparse against dense in floating point** (`Spec/SDense.lean`): C91 compares the same client code on
  `SScalar` and `DDScalar` bit by bit.  It rests on `NanLaws` (NaN propagates, `inf * 0` is NaN, 0 and 1 are
  neutral, ...), proved for `XReal` and for `IEEE p emax`; zeros have no sign there, so the sign of a zero
  derivative is not compared.
* **Units of the variables** (`Spec/Scale.lean`): `Scales` says that a change of units is exact in an
  arithmetic; C92 is proved from it alone and the three instances (real factors, signs in every format,
  powers of two without underflow) are theorems.
* **Rewriting** (`Spec/Rewrite.lean`): `Expr.SameBits` and `Call.SameBits` list the rewritings of C93,
  `SignLaws` the rules of the arithmetic they need.  Zeros have no sign in the model; with signed zeros
  `(-a) + (-b)` and `-(a + b)` can differ in the sign of a zero.  `Spec/SRewrite.lean` has the calls on
  sparse scalars and two more rules, `SparseLaws`.
* **Objects of different sizes** (`Model/Objects.lean`): client code as above over objects with sizes of
  their own: factories, padding, resizing, setters, operators, queries, copy, move, `std::swap`.  The
  implicit move leaves `m_size` and empties a `std::vector` (unspecified by the standard for assignment,
  but what all common libraries do); `Spec/Objects.lean` says what each call does from the sizes alone.
* **Expressions** (`Model/Expr.lean`) are the client's formulas: every operator and function of the
  header on jets, scalars and constants.
* **SScalar** (`Model/SS.lean`): the `unordered_map` is a list of entries; every place where an
  iteration order can matter consults an oracle of which only `Order.Ok` (it permutes) is assumed,
  so the theorems hold for all hash functions, bucket counts and rehashings.
* **Python layer** (`Model/Python.lean`): pickling, `hj.variables`, `hj.f/d/dd`, data array access.
  `numpy.vectorize` is modelled by its documented rules for one-dimensional object arrays (dtype and
  core shape of the first output, broadcasting of the others).
* **Python programs** (`Model/PyHeap.lean`): names refer to numbers or objects, arrays refer into
  the storage of objects.  Assumed of pybind11, whose source is not at hand: an in-place operator that
  returns `*this` yields the same Python object; without a matching in-place overload Python uses the
  binary operator and makes a new object; `x.g` and `x.data` are writable views that keep the object
  alive.  Growing by `resize` is treated as always moving the storage (it may, depending on
  capacity).
* **Python calls** (`Model/PyApi.lean`): one constructor per bound function.  Assumed of pybind11: a
  list of the wrong length for `std::array`, an array of the wrong shape for a fixed-size
  `Eigen::Ref` and a missing overload are `TypeError`; a missing method is `AttributeError`; numpy
  checks indices against the length the array was made with; negative indices are left out.
  Converting wrong element types is not modelled.
* **Python programs on SScalar** (`Model/PySparse.lean`): as for the dense classes, with the hash
  table orders of `Model/SS.lean`.  `SScalar()` (which pybind11 makes by `new T()`, so that the value
  is zero) is the same as `SScalar(0)`.
* **Python programs with branches and loops** (`Model/PyControl.lean`): the statements of
  `Model/PyHeap.lean` and `Model/PySparse.lean` under `if` and `while`.  `1.0 < x` asks the number
  first and then `x.__gt__(1.0)` (Python language).
* **Names** (`Model/Names.lean`): the free functions and the bound methods as tables from names to
  member functions.  Assumed of pybind11: overloads are tried in order of definition, a number is not
  converted to a jet.  C++ overload resolution among the free functions is by the kinds of the
  arguments only; that `pow(x, 2)` with a literal of type `int` is ambiguous between `index` and
  `double` and does not compile is not a matter of the model.
* **Eigen**: matrices are a size and cells; failed Eigen assertions and wrong dimensions are `ub`.

## 3. What is and what is not modelled

| code | state |
|------|-------|
| `hyperjet.h` 45-330 kernel loops, constructors, factories, length arithmetic | modelled |
| accessors, setters, `ag/hm/set_hm/from_*`, `eval`, `resize`, `pad_*`, text | modelled |
| operators, in-place operators, functions 970-1655, comparisons 1661-1724 | modelled |
| `SScalar` 1990-2700 | modelled |
| free functions 1757-1987, 2708-2894; names of bound methods `common.h` 88-145, 219-220, `bind_sscalar.cpp` 26-72 | modelled as tables of names (`Model/Names.lean`) |
| `Eigen::NumTraits`, `ScalarBinaryOpTraits` 2896-2939 | not modelled (types and cost constants) |
| `common.h`: pickling, data views, size/length | modelled; docstrings and pybind11 signatures not |
| `main.cpp`: `variables`, `f`, `d`, `dd` | modelled |
| `common.h` 54-57, 147-185: Python operators, in-place operators, `data`/`g` views | modelled (`Model/PyHeap.lean`) |
| `common.h` 26-220: every bound function with its argument checks | modelled (`Model/PyApi.lean`) |
| `bind_sscalar.cpp` 7-112: constructors, methods, operators; not `eval` (C44), `__repr__` | modelled (`Model/PySparse.lean`; comparisons `Model/PyControl.lean`) |
| lines 24, 61-83, 724-788, 926-937: the same in 64-bit integers and doubles | modelled (`Model/Machine.lean`) |
| `variables(std::array)` and the array-returning factories 677-705 | `Model/Arrays.lean` |
| pybind11 overload resolution and conversions | not modelled, except where a section says so |
| tests, benchmarks, `setup.py` | not modelled |

Simplifications: no wrap-around of `ptrdiff_t` except in `Model/Machine.lean` (C60 proves that there is
none for jets that fit into memory); no allocation failure (a negative length given to
`std::vector` throws `length_error`, as required); copying an object with indeterminate cells copies
the cells (that copying indeterminate doubles is itself undefined is ignored, which can only hide
undefined behaviour of `empty()`-made static objects); arguments are evaluated left to right (no
result depends on it); a call of one thread is a single step for the others.

## 4. Specification

* `Spec/Jet.lean`: the jet an object shows (value, gradient, Hessian as functions), shape.
* `Spec/Real.lean`, `RealMath.lean`: expressions as real functions with Mathlib's functions
  (`Real.sin`, `Real.arctan`, `Complex.arg` for atan2, …) and the domain of each operation.
* `Spec/Calculus.lean`: gradient and Hessian by `HasFDerivAt`.
* `Spec/Program.lean`: what a program computes if assignments are mathematical.
* `Spec/Control.lean`: big-step semantics of branches and loops on real values, on functions near a
  point, and on plain scalars.
* `Spec/Sparse.lean`: sparse gradients by name.
* `Spec/PyHeap.lean`: Python programs with value semantics, sound states.
* `Spec/PyMath.lean`: the numbers and real functions the names of a Python program stand for.
* `Spec/PySparse.lean`: the numbers and functions of named variables that names and objects of a
  Python program on SScalar stand for.
* `Spec/PyControl.lean`, `Spec/SPyControl.lean`: functions that objects shared between names stand for;
  the same program on plain mutable numbers.
* `Spec/PyCells.lean`: Python programs with one number in place of every jet, with exceptions; programs
  on SScalar rewritten for a dense class.
* `Spec/PyApi.lean`: the table of Python calls by sizes.
* `Spec/PyValues.lean`: what every Python call returns and leaves behind, in components and functions.
* `Spec/Names.lean`: the functions that names stand for.
* `Spec/Plain.lean`, `Spec/Round.lean`: formulas on plain scalars, rounding.
* `Spec/Error.lean`, `Spec/SError.lean`: bounded relative errors, polynomials and their majorants.

## 5. Findings

What the proofs show the code to do against expectation (theorem in brackets):

1. `a *= a` on second-order jets gives a wrong Hessian (C23_violated_mul_self), also from Python and
   through a second name (C54_violated_mul_self); the same for
   `SScalar` `*=`, `/=` with itself (C43_violated_self_*, from Python C56_violated_*).
2. `a *= a.f()` and relatives change the factor midway (C24_violated_*).
3. A dynamic jet constructed from a scalar, or by default, says size 1 but stores one number; it then
   makes `+` read out of bounds or drop the other operand's derivatives (C38).  Brace construction of
   a dynamic jet writes out of bounds (C39).
4. Length 0 is decoded as size -1 (C05_violated_empty), so pickles of empty data are accepted
   (C06_violated_empty).
5. The assertion in `size_from_data_length` is inverted: builds without exceptions but with
   assertions abort on every valid length (C47).
6. Negative sizes are accepted (C50).
7. `resize` at order 2 moves Hessian entries to other variables (C14_violated_order2_*), and a
   failing resize has already changed `size()`.
8. `pad_right`, `pad_left` to fewer variables write out of bounds (C12, C13).
9. `atan2` and three-argument `hypot` miss size checks (C15_violated_*).
10. `variable(i)` does not check `i` (C09).
11. `h`, `hm` on first-order jets read out of bounds (C11_hm_order1_violated,
    C48_dd_violated_order1); `set_hm`, `from_arrays` read the upper triangle only (C11).
12. `*=` on second-order jets without variables is undefined (C22_violated_mul_assign_size0).
13. `SScalar::eval` compares an iterator of one map with the end of another, and leaves out the value
    (C44).
14. `pow` at 0 gives non-finite derivatives for exponents 0 and (second order) 1 (C46).
15. `log` to base 0 and jets without variables hide singular points (C20).
16. `hj.f` truncates if the first element is an integer; `hj.d`, `hj.dd` fail or drop derivatives on
    mixed arrays (C48).
17. Sparse constants hide singular points (C40_violated_constants), sparse text depends on the hash
    order (C42_violated_text).
18. `a / b` is `a * (1 / b)`: 49 / 49 is `1 - 2^-53`, and differs from `a /= b` (C22, C51).
19. In Python `x += 1.0` and `x -= 1.0` make a new object while `x *= 2.0`, `x += y` change the old
    one, so a second name of `x` follows some in-place operators and not others (C52).
20. In Python, an array `x.g` or `x.data` used after `x.resize` to a larger size refers to released
    memory (C53).
21. The complete list of Python calls that are undefined behaviour or leave a broken object is the
    `danger` part of `ApiCall.verdict` (C55_table proves that it is complete and exact).
22. `hj.d` and `hj.dd` on `SScalar` return empty arrays instead of derivatives or an error
    (C48_violated_sparse).
23. Asking a dynamic order-2 class for 3037000499 or more variables (`empty`, `zero`, `resize`, ...)
    overflows in `data_length_from_size`: undefined behaviour instead of an error.  With wrap-around,
    size 4814665733036938099 gets storage for two numbers (C60_violated_size, C60_violated_wrapped).
24. Branches on jets: at a tie the derivatives are those of the branch taken at the point, which may be
    wrong although the program computes a smooth function there (C61_violated_tie).
25. The derivatives of `asin`, `acos`, `atanh` near ±1 and of `tanh` for large arguments are computed
    from `1 - x*x` and `1 - f*f`, which cancels.  With 53 bits the derivative of `tanh` at 20 comes out
    as exactly 0, and that of `asin` at `1 - 2^-29` has a relative error above `2^-32`
    (C67_violated_tanh, C67_violated_asin).  `(1 - x) * (1 + x)` and `1 / cosh²` would not.
26. A comparison of two values that are equal in exact arithmetic at every point may come out as
    different in every precision; the result is then the derivative of the wrong branch, however many
    bits are used (C68_violated_tie).
27. `a / b` computes the value as `a * (1 / b)` and the derivative for `b` as `-a / (b * b)`.  Both
    overflow or divide by an underflowed zero although the result is of ordinary size: the value is `inf`
    where the quotient of the scalars is 1, and the derivative is `-inf` where the true one is a number
    of the format (C72_violated_value, C72_violated_divide; in double for `b` near `2^-1022`).
28. The second derivatives of `hypot` and the first ones of `atan2` square or multiply the operands:
    NaN for large or small operands although value and derivatives are ordinary numbers
    (C72_violated_hypot, C72_violated_atan2).  `std::hypot` itself exists to avoid this.
29. A dynamic jet that was moved from keeps its `m_size` but has no storage: `size()` gives the old size,
    operators accept it and then read released or missing memory (C76_violated_moved).
30. Second derivatives are computed as `(phi'' * g_i) * g_j` with `i <= j`: whether the product overflows on
    the way depends on the numbering of the variables.  `1 / x` with gradient `(2^1023, 1/2)` has an
    infinite mixed derivative in double, with the variables exchanged it is exact (C89_violated_order).
31. In a sparse scalar a stored zero and a missing derivative read the same but behave differently: times
    infinity the first becomes NaN, the second stays 0 (C90_violated_missing).  This is why a dense
    derivative can be NaN where the sparse one is a number; it is the only way they differ (C91).
32. `abs(x)` at `x = 0` returns the derivatives of `x`, so `abs(-x)` and `abs(x)`, the same function, have
    derivatives of opposite sign there (C93_violated_abs).

## 6. Tests of the theorems against wrong programs

`seeded/LOG.jsonl` records edits of the model made in a scratch copy.  Fields: `definition`, `edit`,
`claim` (the property that the edit makes false), `proofs_that_failed` (declarations whose proof
broke), `theorems_failed` (property theorems that depend on one of these and so lost their proof; an
over-approximation of the false ones), `theorems_tightened`.  After each attempt the list of
property theorems that still proved was read, looking for a claim that the edit makes false.

## 7. Trusted base

* The Lean 4.33 kernel, and Mathlib's definitions of the functions used in `Spec`.
* The reading of the C++ source recorded in the comments of `Verif/Model`, and the simplifications
  above.  The model is not extracted from the code.
* No axioms are added; no `sorry`, `native_decide`, `bv_decide`.  Axioms per property theorem:

* `propext` (8): C37_only_target, C37_program, C37_throws_before_writing, C48_empty, C49_text,
  C52_alias, C57_unbound, C76_contents
* `Quot.sound`, `propext` (13): C07_static_size_argument, C10_other_orders, C15_size_mismatch,
  C15_size_mismatch_noexc, C32_comparisons, C37_throw_changes_nothing, C48_d_numbers, C48_f,
  C48_f_violated_integer_first, C50_order1, C74_ends, C74_schedules, C74_threads
* `Classical.choice`, `Quot.sound`, `propext` (340): C01_expressions, C01_factories, C01_imports,
  C01_programs, C02_hessian_cells, C03_framed_writes, C04_flat_index, C05_create_dynamic,
  C05_create_static, C05_length_decoding, C05_violated_empty, C06_accepts_iff_length, C06_injective,
  C06_rejects_shape, C06_round_trip, C06_violated_empty, C07_static_size_argument_noexc, C08_array,
  C08_factories_without_size, C08_factory_contents, C09_violated_bad_index, C10_variables, C11_ag,
  C11_from_arrays, C11_from_gradient, C11_hm_full, C11_hm_into, C11_hm_order1_violated,
  C11_hm_other_mode, C11_hm_zeros, C11_reports_iff_symmetric, C11_round_trip, C11_set_data,
  C11_set_hm, C11_wrong_dimensions, C12_pad_right, C13_pad_left, C14_resize_order1,
  C14_resize_order2, C14_violated_failed_resize, C14_violated_negative_size,
  C14_violated_order2_grow, C14_violated_order2_shrink, C15_violated_atan2, C15_violated_hypot3,
  C16_gradient_exact, C17_hessian_exact, C18_chain_rule, C19_no_undefined_behaviour, C19_programs,
  C20_finite_iff_domain, C20_log_base_zero, C20_no_variable, C21_programs, C22_add_assign,
  C22_div_assign, C22_mul_assign, C22_scalar_assign, C22_sub_assign, C22_violated_div_rounding,
  C22_violated_mul_assign_size0, C23_add_sub_self, C23_div_self, C23_mul_self_order1,
  C23_violated_mul_self, C23_violated_mul_self_differs, C24_own_component,
  C24_violated_mul_own_component, C24_violated_mul_own_value, C25_commutative_ring, C26_division,
  C27_scalar_is_constant, C28_orders_agree, C29_static_dynamic_agree, C30_equal_functions,
  C30_exp_log, C30_hypot, C30_pow_two, C30_sin_cos, C31_eval_is_taylor, C31_short_argument,
  C31_taylor, C32_scalar_left, C32_sparse, C33_abs, C33_abs_jet, C34_pad_left_commutes,
  C34_pad_right_commutes, C35_renumbering, C36_unused_variable, C38_static, C38_violated_default,
  C38_violated_dynamic, C39_static, C39_violated_dynamic, C40_chain_rule, C40_finite_iff_domain,
  C40_gradient_exact, C40_violated_constants, C41_names, C41_support, C42_assign,
  C42_order_independent, C42_violated_text, C43_assign_exact, C43_mul_assign, C43_scalar_assign,
  C43_self_add_sub, C43_violated_self_div, C43_violated_self_mul, C44_eval, C44_violated_undefined,
  C44_violated_value, C45_agree, C45_variables_agree, C45_violated_outside, C46_pow,
  C46_pow_at_zero, C47_release_accepts, C47_violated_assert_inverted, C47_violated_create_aborts,
  C48_d, C48_d_violated_mixed, C48_dd, C48_dd_numbers, C48_dd_violated_mixed,
  C48_dd_violated_order1, C48_violated_sparse, C50_violated_order2, C50_violated_pickle,
  C51_dense_sparse, C51_exact, C51_sparse, C51_value, C51_value_no_division, C51_violated_division,
  C52_functional, C52_in_place, C52_violated_number, C53_data_array, C53_gradient_array,
  C53_memory_safe, C53_violated_resize, C54_expressions, C54_programs, C54_violated_mul_self,
  C55_frame, C55_programs, C55_table, C56_expressions, C56_order_independent, C56_programs,
  C56_safe, C56_violated_div_self, C56_violated_mul_self, C57_dense_cpp, C57_dense_python,
  C57_module, C57_refused, C57_sparse_cpp, C57_sparse_python, C58_cancellation, C58_double,
  C58_polynomial, C58_positive, C58_sparse, C58_sparse_double, C58_variables, C59_arrays, C59_stale,
  C59_values, C60_agrees, C60_decode, C60_length, C60_root, C60_subscripts, C60_violated_size,
  C60_violated_wrapped, C60_wrapped, C61_exact, C61_no_ties, C61_path, C61_violated_tie, C62_exact,
  C62_no_ties, C62_sharing, C63_exact, C63_no_ties, C63_sharing, C64_memory_safe, C64_path,
  C65_dense_agrees, C65_order_independent, C65_path, C65_safe, C66_bits, C66_limit, C66_precision,
  C66_sparse, C67_double, C67_exact, C67_operation, C67_relative, C67_roundings, C67_sparse,
  C67_violated_asin, C67_violated_tanh, C68_bits, C68_limit, C68_precision, C68_violated_tie,
  C69_bits, C69_program_bits, C69_programs, C69_rate, C69_relative, C69_sharp, C69_sparse, C70_bits,
  C70_program_bits, C70_programs, C70_rate, C70_sparse, C70_violated_unbounded, C71_formats,
  C71_program_formats, C71_programs, C71_rate, C71_sparse, C71_sparse_formats,
  C71_violated_overflow, C72_operands, C72_operation, C72_polynomial, C72_quiet, C72_rate,
  C72_sparse, C72_violated_atan2, C72_violated_divide, C72_violated_hypot, C72_violated_value,
  C73_exact, C73_no_ties, C73_path, C73_precision, C73_safe, C73_types, C74_safe, C75_formats,
  C75_implicit, C75_newton, C76_bad_setters, C76_call, C76_ends, C76_moves, C76_safe,
  C76_violated_moved, C77_dense_exact, C77_dense_no_ties, C77_dense_path, C77_dense_safe,
  C77_sparse_dense, C77_sparse_exact, C77_sparse_no_ties, C77_sparse_safe, C78_client, C78_program,
  C78_sparse, C78_statement, C79_dense, C79_exact, C79_no_ties, C79_path, C79_safe, C80_formats,
  C80_rate, C81_ends, C81_schedules, C81_threads, C82_formats, C82_functions, C82_rate, C83_formats,
  C83_functions, C83_rate, C84_formats, C84_rate, C85_client, C85_rate, C85_taylor, C86_client,
  C86_rate, C87_formats, C87_newton, C87_rate, C88_exact, C88_formats, C88_library, C88_rate,
  C89_blocks, C89_expressions, C89_local, C89_variables, C89_violated_order, C90_local, C90_names,
  C90_violated_missing, C91_formats, C91_same, C91_start, C92_expressions, C92_scaled, C92_seeds,
  C92_sparse, C92_violated_underflow, C93_expressions, C93_programs, C93_sparse_expressions,
  C93_sparse_programs, C93_violated_abs, C94_formats, C94_newton, C94_rate, C95_exact, C95_formats,
  C95_library, C95_rate, C96_formats, C97_exact, C97_formats, C97_library, nanLaws_ieee,
  nanLaws_xreal, scales_ieee, scales_real, scales_units, signLaws_ieee, signLaws_xreal,
  sparseLaws_ieee, sparseLaws_xreal
