{"id": "C01", "title": "Storage shape invariant", "statement": "Every jet obtained from zero/constant/variable/variables/create/from_gradient/from_arrays and from any sequence of operators and functions on jets of n variables reports size n, stores exactly 1+n values (order 1) or (n+1)(n+2)/2 values (order 2), and every stored value is initialised.", "quantifier": "all orders 1 and 2, static and dynamic sizes, all n >= 0, all operation sequences, all input values", "why_tests_cant": "n and the operation sequence are unbounded; tests use n = 2 or 3 and one operation", "anchors": ["include/hyperjet/hyperjet.h: data_length_from_size, empty, unary, binary, ternary, all operators"]}
{"id": "C02", "title": "Hessian accessor addresses exactly the packed triangle", "statement": "For an order-2 jet of n variables, h(i,j) for 0 <= i,j < n reads an in-bounds cell of the Hessian block, h(i,j) and h(j,i) are the same cell, two different unordered pairs are different cells, and every cell of the block is some h(i,j).", "quantifier": "all n, all i,j < n, all stored values, both index orders", "why_tests_cant": "index arithmetic (2n-1-i)i/2+j is quantified over all n, i, j; tests check n = 2, 3", "anchors": ["include/hyperjet/hyperjet.h: DDScalar::h(i,j), DDScalar::data_length_from_size"]}
{"id": "C03", "title": "Component writes are framed", "statement": "set_f, set_g(i), set_h(i,j), h(k)= and set_zero change exactly the addressed component: afterwards the getter returns the written value and every other component is unchanged (h(j,i) changes together with h(i,j)).", "quantifier": "all n, all indices in range, all values", "why_tests_cant": "independence between every pair of components for every n", "anchors": ["include/hyperjet/hyperjet.h: set_f, set_g, set_h, f(), g(), h(), set_zero"]}
{"id": "C04", "title": "Flat Hessian index enumerates the upper triangle row by row", "statement": "h(k) for 0 <= k < n(n+1)/2 enumerates h(0,0), h(0,1), ..., h(0,n-1), h(1,1), ...: the k-th flat entry equals h(i,j) for the k-th pair i <= j in row-major order.", "quantifier": "all n, all k", "why_tests_cant": "unbounded n", "anchors": ["include/hyperjet/hyperjet.h: h(i), h(i,j)"]}
{"id": "C05", "title": "Data length decoding", "statement": "Constructing from a flat data sequence of length L succeeds exactly when L = 1+n (order 1) or (n+1)(n+2)/2 (order 2) for some n >= 0 and then size() = n; any other length is rejected with an exception. (The unchanged code violates this for L = 0: it is accepted with size -1.)", "quantifier": "all lengths L >= 0, both orders, static and dynamic", "why_tests_cant": "every length, and the square-root based decoding must be exact for all of them", "anchors": ["include/hyperjet/hyperjet.h: size_from_data_length, create, check_valid_size"]}
{"id": "C06", "title": "Pickle round trip", "statement": "Unpickling the pickled state of a jet gives back a jet with identical size and data; a state tuple of the wrong arity or a non-empty data sequence of an invalid length is rejected. Known exception: a dynamic class accepts the empty data sequence and builds an object of size -1.", "quantifier": "all jets (any n, any stored values), all state tuples", "why_tests_cant": "all sizes and values", "anchors": ["python/src/common.h: py::pickle", "include/hyperjet/hyperjet.h: size_from_data_length"]}
{"id": "C07", "title": "Static size arguments are checked", "statement": "For a static type of N variables, empty/zero/constant/variable with an explicit size argument throw exactly when size != N, and otherwise give the same object as without the argument.", "quantifier": "all N, all size arguments (including negative), all values", "why_tests_cant": "all pairs (N, size)", "anchors": ["include/hyperjet/hyperjet.h: check_valid_size, empty, zero, constant, variable"]}
{"id": "C08", "title": "Factory contents", "statement": "zero is all zero; constant(c) has value c and zero derivatives; variable(i,c,n) with 0 <= i < n has value c, gradient e_i and zero Hessian; variables(values)[i] is variable(i, values[i], n).", "quantifier": "all n, i < n, values, orders, static and dynamic", "why_tests_cant": "all n and i", "anchors": ["include/hyperjet/hyperjet.h: zero, constant, variable, variables"]}
{"id": "C09", "title": "variable() index validation", "statement": "variable(i, c, n) is only ever produced for 0 <= i < n; other indices are rejected. (The unchanged code does not reject: i = -1 silently overwrites the value by 1, i = n on order 2 silently writes a Hessian entry, larger indices are out-of-bounds writes.)", "quantifier": "all n, all i outside 0..n-1, release and debug builds", "why_tests_cant": "all out-of-range indices; the wrong ones are not all visible as crashes", "anchors": ["include/hyperjet/hyperjet.h: variable, g(i)"]}
{"id": "C10", "title": "hj.variables dispatch", "statement": "hj.variables(values, order) returns, for order 1 and 2 and any number n of values, n jets of size n with value values[i], gradient e_i and zero Hessian, whichever of the fixed-size classes or the dynamic class it dispatches to; for order 0 it returns the values; any other order raises.", "quantifier": "all value lists of any length, all orders", "why_tests_cant": "the dispatch table has 34 branches and an unbounded default", "anchors": ["python/src/main.cpp: m.def(\"variables\")"]}
{"id": "C11", "title": "Hessian matrix import and export", "statement": "hm('full') is the symmetric matrix of h(i,j); hm('zeros') has h(i,j) on and above the diagonal and 0 below; another mode throws. set_hm/from_arrays read only the upper triangle, so from_arrays(f,g,H) reports f, g and H exactly when H is symmetric, and hm('full') followed by from_arrays is the identity. set_adata replaces all components by the given list, which adata then returns; a list of the wrong length aborts with assertions on.", "quantifier": "all n, all matrices, all mode strings", "why_tests_cant": "all n and matrices", "anchors": ["include/hyperjet/hyperjet.h: hm, set_hm, from_arrays, from_gradient, ag"]}
{"id": "C12", "title": "pad_right embeds into more variables", "statement": "a.pad_right(m) for m >= size has size m, the same value, g(i) and h(i,j) for i,j < size, and zero for every index >= size; for m < size the behaviour is undefined (out-of-bounds write).", "quantifier": "all n <= m, all stored values, both orders", "why_tests_cant": "flat pointer walk must agree with the index formula for every n and m", "anchors": ["include/hyperjet/hyperjet.h: pad_right"]}
{"id": "C13", "title": "pad_left embeds shifted into more variables", "statement": "a.pad_left(m) for m >= size has size m, the same value, g(i+m-n) = a.g(i), h(i+m-n, j+m-n) = a.h(i,j) and zero for every index < m-n; for m < size the behaviour is undefined (out-of-bounds write).", "quantifier": "all n <= m, all stored values, both orders", "why_tests_cant": "flat pointer walk for every n and m", "anchors": ["include/hyperjet/hyperjet.h: pad_left"]}
{"id": "C14", "title": "resize keeps derivatives", "statement": "resize(m) keeps the value and the derivatives of the variables that remain and sets new ones to zero. (True for order 1. The unchanged code violates it for order 2: Hessian entries slide into gradient positions.) A failing resize leaves the object unchanged. (Violated: size() changes although the storage does not.)", "quantifier": "all n, m, stored values, both orders", "why_tests_cant": "all pairs n, m", "anchors": ["include/hyperjet/hyperjet.h: resize"]}
{"id": "C15", "title": "Size mismatch is rejected before any change", "statement": "With exceptions enabled, combining two dynamic jets of different sizes by +,-,*,/,+=,-=,*=,/=, hypot throws and modifies nothing. (The unchanged code does not check in atan2 nor for the third argument of hypot.)", "quantifier": "all pairs of sizes, all values", "why_tests_cant": "all pairs of sizes and both sides' contents", "anchors": ["include/hyperjet/hyperjet.h: check_equal_size, operator+ - * / += -= *= /=, hypot, atan2"]}
{"id": "C16", "title": "Gradient exactness", "statement": "For every expression built from the supported operators and functions, evaluated on variables(x), if no component is non-finite (n >= 1, no logarithm to base 0) or every operation is inside its domain, and every abs argument is non-zero and no atan2 sits on its branch cut, the function is differentiable at x and the result's value and gradient are exactly f(x) and its partial derivatives (in exact arithmetic).", "quantifier": "all expressions of any depth, all n, all points x, order 1 and 2, static and dynamic", "why_tests_cant": "the space of expressions and points is infinite; tests check single operations at one point", "anchors": ["include/hyperjet/hyperjet.h: all operators and functions"]}
{"id": "C17", "title": "Hessian exactness", "statement": "Under the same conditions an order-2 result's h(i,j) is exactly the second partial derivative, the function being differentiable near x with differentiable gradient at x.", "quantifier": "all expressions, n, points x, i, j", "why_tests_cant": "infinite space of expressions and points; each second-derivative coefficient must be right everywhere", "anchors": ["include/hyperjet/hyperjet.h: unary, binary, ternary and every function's daa/dab/dbb"]}
{"id": "C18", "title": "Chain rule with arbitrary seeds", "statement": "If the inputs are jets of arbitrary inner functions u_k at x (not just independent variables), the result is the jet of the composed function at x.", "quantifier": "all expressions, all inner functions, all points", "why_tests_cant": "quantifies over functions", "anchors": ["include/hyperjet/hyperjet.h: unary, binary, ternary"]}
{"id": "C19", "title": "No undefined behaviour, no exception on well-formed operands", "statement": "Evaluating any expression on well-formed jets of equal size never reads or writes out of bounds, never reads an uninitialised cell, never throws and never fails an assertion, in debug and release builds and with or without HYPERJET_NO_EXCEPTIONS.", "quantifier": "all expressions, n, stored values (including non-finite), build modes", "why_tests_cant": "absence of UB over all inputs is not observable by tests", "anchors": ["include/hyperjet/hyperjet.h: all methods"]}
{"id": "C20", "title": "Singular points are reported, not silently wrong", "statement": "With n >= 1 variables and no logarithm to base 0, the result has only finite components exactly when every sub-expression is inside the open smoothness domain of its operation (for abs and atan2: inside the domain where the formula is finite); outside, some component is non-finite. (The exceptions are real: log(base = 0) of a positive jet gives finite zeros, and with no variables a later function can hide a division by zero.)", "quantifier": "all expressions and points", "why_tests_cant": "all points including boundary points such as pow at 0, sqrt at 0, asin at 1", "anchors": ["include/hyperjet/hyperjet.h: all functions"]}
{"id": "C21", "title": "Straight-line programs with in-place updates", "statement": "Running any sequence of assignments and in-place updates (+=,-=,*=,/= with jets and scalars) over named jets, where no *= has the same object on both sides, leaves every jet equal to the exact jet of the real function the program computes.", "quantifier": "all statement sequences, all register files, all points", "why_tests_cant": "unbounded histories", "anchors": ["include/hyperjet/hyperjet.h: operator+= -= *= /="]}
{"id": "C22", "title": "Compound assignment agrees with the binary operator", "statement": "For two distinct objects a and b, a op= b leaves in a exactly the object a op b would return, for op in +,-,*,/, and for scalar right-hand sides. Known exceptions: *= at order 2 without variables is undefined behaviour; in floating point the values of a / b and a /= b can differ in the last bit.", "quantifier": "all n, stored values, orders; += and -= bit for bit (any scalar type with x - y = x + (-y)), *= for every scalar type whose addition and multiplication commute, so bit for bit for IEEE doubles; /= in exact arithmetic (the value is computed as a/b in one and a*(1/b) in the other); the rounding exception for every rounding to nearest", "why_tests_cant": "all values including special ones", "anchors": ["include/hyperjet/hyperjet.h: operator+= -= *= /= and operator+ - * /"]}
{"id": "C23", "title": "Self-assignment forms", "statement": "a += a, a -= a, a *= a, a /= a give the same as a + a, a - a, a * a, a / a. (True for += and -=, true for /= in exact arithmetic. The unchanged code violates it for *= at order 2: the Hessian is wrong.)", "quantifier": "all n, stored values", "why_tests_cant": "aliasing: the written object is also read", "anchors": ["include/hyperjet/hyperjet.h: operator*=(const Type&), operator/=(const Type&)"]}
{"id": "C24", "title": "Scalar operand taken from the object itself", "statement": "a *= s gives s*a also when s is a reference to one of a's own components, as in a *= a.f(). (The unchanged code violates it; += , -= and /= are fine.)", "quantifier": "all n, stored values, referenced component", "why_tests_cant": "aliasing between a scalar reference and the written storage", "anchors": ["include/hyperjet/hyperjet.h: operator*=(const Scalar&), operator/=(const Scalar&), f()"]}
{"id": "C25", "title": "Jets form a commutative ring", "statement": "+ and * on jets of equal size are associative and commutative, * distributes over +, zero and constant(1) are neutral, -a is the additive inverse, a - b = a + (-b), in exact arithmetic and on all components including the Hessian.", "quantifier": "all n, orders, jets", "why_tests_cant": "algebraic laws over all jets", "anchors": ["include/hyperjet/hyperjet.h: operator+ - *"]}
{"id": "C26", "title": "Division and reciprocal", "statement": "For b.f != 0: (a / b) * b = a, a / b = a * b.reciprocal(), 1.0 / b = b.reciprocal(), b.reciprocal().reciprocal() = b, on all components, in exact arithmetic.", "quantifier": "all n, orders, jets with b.f != 0", "why_tests_cant": "algebraic laws over all jets", "anchors": ["include/hyperjet/hyperjet.h: operator/, reciprocal"]}
{"id": "C27", "title": "Mixed scalar operators lift the scalar to a constant", "statement": "a op s and s op a for a scalar s equal the same operation with constant(s, n), for +,-,*,/, in exact arithmetic.", "quantifier": "all n, jets, scalars", "why_tests_cant": "all values", "anchors": ["include/hyperjet/hyperjet.h: operator+(Scalar), operator-(Scalar), operator*(Scalar), operator/(Scalar) and the friend overloads"]}
{"id": "C28", "title": "First- and second-order types agree exactly", "statement": "Evaluating the same expression with the first-order and the second-order type gives identical values and gradients for any scalar arithmetic, hence bit for bit in floating point.", "quantifier": "all expressions, n, stored values, any scalar operations", "why_tests_cant": "all expressions and values", "anchors": ["include/hyperjet/hyperjet.h: unary, binary, ternary, all functions"]}
{"id": "C29", "title": "Static and dynamic types agree exactly", "statement": "Evaluating the same expression with the fixed-size and the dynamic type gives identical data for any scalar arithmetic.", "quantifier": "all expressions, n, stored values, any scalar operations", "why_tests_cant": "all expressions and values", "anchors": ["include/hyperjet/hyperjet.h: DDScalar<TOrder,TScalar,TSize>"]}
{"id": "C30", "title": "Equal functions give equal jets", "statement": "Two expressions that denote the same function near x produce identical data whenever both results are finite (so sin^2+cos^2 = 1, exp(log a) = a, hypot(a,b,c) = hypot(hypot(a,b),c), pow(a,2) = a*a hold on all components).", "quantifier": "all pairs of expressions, all points", "why_tests_cant": "all pairs of expressions", "anchors": ["include/hyperjet/hyperjet.h: all operators and functions"]}
{"id": "C31", "title": "eval is the Taylor polynomial", "statement": "a.eval(d) = f + sum g_i d_i (+ 1/2 sum h_ij d_i d_j for order 2); for the jet of F at x it differs from F(x+d) by o(|d|) (order 1) or o(|d|^2) (order 2, F twice differentiable).", "quantifier": "all n, jets, displacements d of length >= n; shorter d is undefined behaviour", "why_tests_cant": "the packed-index walk must be right for all n", "anchors": ["include/hyperjet/hyperjet.h: eval"]}
{"id": "C32", "title": "Comparisons look only at the value", "statement": "==,!=,<,>,<=,>= between jets and between jets and scalars in either order return exactly the comparison of the values; derivatives do not matter, even for jets of different sizes. The same holds for sparse scalars.", "quantifier": "all jets, all scalars including NaN", "why_tests_cant": "all values", "anchors": ["include/hyperjet/hyperjet.h: operator== != < > <= >= and friend overloads"]}
{"id": "C33", "title": "abs", "statement": "abs returns the operand when its value is >= 0 (or NaN) and its negation when the value is < 0, and for a non-zero value is the jet of |.|.", "quantifier": "all jets", "why_tests_cant": "all values", "anchors": ["include/hyperjet/hyperjet.h: abs"]}
{"id": "C34", "title": "Padding commutes with computation", "statement": "Padding the operands of any expression with unused variables and evaluating gives the padded result: extra variables never change existing components and have zero derivatives.", "quantifier": "all expressions, n <= m, jets, in any field", "why_tests_cant": "all expressions and sizes", "anchors": ["include/hyperjet/hyperjet.h: pad_right, pad_left with all operators"]}
{"id": "C35", "title": "Variable numbering is immaterial", "statement": "Renumbering the variables of the operands by a permutation renumbers gradient and Hessian of the result by the same permutation and changes nothing else.", "quantifier": "all expressions, n, permutations, jets, in exact arithmetic", "why_tests_cant": "all permutations", "anchors": ["include/hyperjet/hyperjet.h: unary, binary, ternary"]}
{"id": "C36", "title": "Unused variables have zero derivatives", "statement": "If an expression does not mention variable i then g(i) = 0 and h(i,j) = h(j,i) = 0 for all j whenever the result is finite.", "quantifier": "all expressions, n, i, points", "why_tests_cant": "all expressions", "anchors": ["include/hyperjet/hyperjet.h: unary, binary, ternary"]}
{"id": "C37", "title": "Only the target changes", "statement": "An assignment or in-place update changes the target object only; every other object keeps its size and data, and a throwing update changes nothing.", "quantifier": "all object stores and statement sequences", "why_tests_cant": "all histories", "anchors": ["include/hyperjet/hyperjet.h: all const methods and compound assignments"]}
{"id": "C38", "title": "A jet constructed from a bare scalar is a constant", "statement": "The dynamic type's default constructor and its implicit conversion from a scalar give a well-formed constant usable in any expression. (The unchanged code violates it: size() is 1 with a single stored value; adding it on the right to a 1-variable jet is undefined behaviour, adding it on the left drops the gradient.)", "quantifier": "all scalars, all partners of size 1", "why_tests_cant": "which side it is used on and which operation follows", "anchors": ["include/hyperjet/hyperjet.h: DDScalar(), DDScalar(const TScalar)"]}
{"id": "C39", "title": "Brace construction from a value list", "statement": "DDScalar{...} accepts exactly a full list of components. (Violated: for static types a shorter valid length leaves components uninitialised and a longer one writes out of bounds; for dynamic types every non-empty list writes out of bounds.)", "quantifier": "all list lengths, all N", "why_tests_cant": "all pairs of list length and N", "anchors": ["include/hyperjet/hyperjet.h: DDScalar(std::initializer_list)"]}
{"id": "C40", "title": "Sparse scalar gradient exactness", "statement": "For every expression over named variables evaluated with SScalar, if every operation stays inside its domain (and abs/atan2 are regular), f() is exactly the value and d(name) exactly the partial derivative with respect to name, for every name. The same holds whenever all numbers of the result are finite, provided operations among constants only stay inside their domain and no logarithm has base 0; finite results then characterise the domain. (Violated without the condition on constants: with c = SScalar::constant(0), x*atan(1/c) is finite although 1/c is not defined.)", "quantifier": "all expressions, all names, all environments", "why_tests_cant": "infinite space of expressions", "anchors": ["include/hyperjet/hyperjet.h: SScalar::*"]}
{"id": "C41", "title": "Sparse scalar support", "statement": "The set of names stored by an SScalar result is exactly the set of variable names occurring in the expression, size() is their number, and d(name) is 0 for any other name.", "quantifier": "all expressions, all names", "why_tests_cant": "all expressions", "anchors": ["include/hyperjet/hyperjet.h: SScalar::size, d, unary, binary, ternary"]}
{"id": "C42", "title": "Sparse scalar results do not depend on hash order", "statement": "f(), size(), d(name) and the set of stored names of any SScalar expression and of any compound assignment (also of an object to itself) do not depend on the iteration order of the underlying hash maps, for any scalar arithmetic. (to_string() and operator<< do depend on it: two indistinguishable objects can print differently.)", "quantifier": "all expressions, all iteration orders", "why_tests_cant": "iteration order is unspecified by the standard library", "anchors": ["include/hyperjet/hyperjet.h: SScalar::binary, ternary, operator+= -= *= /="]}
{"id": "C43", "title": "Sparse compound assignment", "statement": "For distinct objects a op= b equals a op b; for the same object a += a and a -= a are right. (The unchanged code violates it for a *= a and a /= a.)", "quantifier": "all maps, all values", "why_tests_cant": "aliasing and iteration while updating", "anchors": ["include/hyperjet/hyperjet.h: SScalar::operator+= -= *= /="]}
{"id": "C44", "title": "Sparse eval", "statement": "a.eval(d) returns the first-order Taylor value f + sum_k a.d(k) d[k] like the dense type. (Violated: the constant term f is omitted, and the missing-key test compares iterators of two different maps, which is undefined behaviour by the C++ standard.) With the common implementation it returns sum over stored names present in d.", "quantifier": "all maps, all displacement maps", "why_tests_cant": "all maps", "anchors": ["include/hyperjet/hyperjet.h: SScalar::eval"]}
{"id": "C45", "title": "Sparse and dense types agree", "statement": "Evaluating the same expression with SScalar and with first-order DDScalar gives the same value and, name by name, the same derivatives, when the operations stay inside their domains, hence when the dense result is finite or the sparse one is (conditions of C16 and C40). (Outside the domain they differ: x + sqrt(y) at y = 0 has dense derivative NaN and sparse derivative 1 with respect to x.)", "quantifier": "all expressions, all n, points", "why_tests_cant": "all expressions", "anchors": ["include/hyperjet/hyperjet.h: SScalar, DDScalar<1>"]}
{"id": "C46", "title": "pow at special points", "statement": "a.pow(b) is exact for positive values with any b and for negative values with integer b; at value 0 it is exact for b >= 2 (order 2) or b >= 1 (order 1) and otherwise yields a non-finite component, including b = 0 and, at order 2, b = 1, where the true derivative exists.", "quantifier": "all b, all values including 0 and negative", "why_tests_cant": "all real exponents", "anchors": ["include/hyperjet/hyperjet.h: pow(const double), pow(a, index), pow(a, double)"]}
{"id": "C47", "title": "Build mode does not change accepted inputs", "statement": "With HYPERJET_NO_EXCEPTIONS and assertions enabled, constructing from a valid data length works and an invalid one fails. (The unchanged code violates it: the assertion condition is inverted by operator chaining, so it aborts exactly on valid lengths.)", "quantifier": "all lengths, both orders", "why_tests_cant": "all lengths", "anchors": ["include/hyperjet/hyperjet.h: size_from_data_length (assert branch), throw_exceptions"]}
{"id": "C48", "title": "hj.f, hj.d, hj.dd utilities", "statement": "For a non-empty array of jets of the same number of variables hj.d gives the gradients and, for second-order jets, hj.dd the full Hessian matrices; arrays of plain numbers give empty gradients and Hessians; hj.f gives the values, numbers unchanged, if the first element is not an integer. Known exceptions: an integer in front makes hj.f truncate the values of jets; mixed arrays make hj.d/hj.dd raise or, for a one-variable jet behind a number, drop its derivatives; hj.dd on a first-order jet with a variable reads out of bounds; hj.d and hj.dd of SScalar objects are empty without an error; empty arrays raise.", "quantifier": "all arrays, all n", "why_tests_cant": "all array contents", "anchors": ["python/src/main.cpp: utilities", "include/hyperjet/hyperjet.h: hm, h"]}
{"id": "C49", "title": "Textual form", "statement": "str/repr of a dense jet is the value followed by hj and depends on nothing else.", "quantifier": "all jets", "why_tests_cant": "all jets", "anchors": ["include/hyperjet/hyperjet.h: operator<<, to_string"]}
{"id": "C50", "title": "Negative sizes", "statement": "The dynamic factories zero, empty, constant and variable reject negative sizes. Holds at order 1 for sizes below -1 (the storage throws length_error). Known exceptions: size -1 at order 1 gives an object without a value; at order 2 every negative size is accepted, size -3-m storing as many numbers as a jet of m variables, size() then reports the negative number and pickling turns it into m.", "quantifier": "all negative sizes, orders 1 and 2", "why_tests_cant": "all sizes", "anchors": ["include/hyperjet/hyperjet.h: zero, empty, constant, variable, static_data_length_from_size", "python/src: pickle"]}
{"id": "C51", "title": "The value of a jet is the value of the formula", "statement": "The value component of any formula on jets (any order, size and derivatives) or on sparse scalars equals the formula on plain scalars, where x / y is x * (1 / y); so it is bit for bit the plain value for formulas without division by a jet or number, and for all formulas in exact arithmetic; jets and sparse scalars agree bit for bit. Known exception: in floating point division can differ from plain division in the last bit (49 / 49 gives 1 - 2^-53).", "quantifier": "all formulas, sizes, orders, stored values; every arithmetic with commutative + and * and x + (-y) = x - y (IEEE doubles); the exception for every rounding to nearest", "why_tests_cant": "all formulas and all values", "anchors": ["include/hyperjet/hyperjet.h: all operators and functions 970-1655, 2239-2700"]}
{"id": "C52", "title": "In-place operators and shared names in Python", "statement": "In a Python program on jets of one class, as long as no statement makes a second name for an object (t = s) and no object is multiplied or divided in place by itself, the program behaves as if every name had its own value and 't o= e' were 't = t o e' (for /= this needs x / y = x * (1 / y), which holds in exact arithmetic and not in rounded arithmetic). With shared objects, t o= e with a jet, and t *= s, t /= s with a number, change the object: all its names show t o e and all other names are unchanged. t += s and t -= s with a number behave differently: they rebind t to a new object and leave the other names of the old object as they were (violation of uniformity: the operators for numbers are not bound in place).", "quantifier": "for all programs, states, expressions, operators, sizes and scalar types satisfying the stated laws", "why_tests_cant": "tests run a few expressions and never look at a second name of an object; the set of programs and aliasing patterns is unbounded", "anchors": ["python/src/common.h:147-185", "include/hyperjet/hyperjet.h:1020-1249"]}
{"id": "C53", "title": "Arrays that refer to the memory of a jet", "statement": "In Python, x.g and x.data are arrays that refer to the storage of the object. A program without resize never has undefined behaviour and never fails an assertion, however names and arrays share objects (given in-range indices for variable and set_h): it ends normally or with ZeroDivisionError, AttributeError, TypeError or IndexError. An array stays valid and reads the current g(i) (f, g, h for data); writing an element changes exactly that component; an index outside raises IndexError. Violation: after a resize that enlarges the object, using an array made before is undefined behaviour (released memory).", "quantifier": "for all programs, all states, all indices, all sizes", "why_tests_cant": "a test reads freed memory without noticing; the interleavings of views, in-place operators and rebinding are unbounded", "anchors": ["python/src/common.h:44-57", "include/hyperjet/hyperjet.h:422-428", "include/hyperjet/hyperjet.h:805-808", "include/hyperjet/hyperjet.h:870-873"]}
{"id": "C54", "title": "Python programs compute exact derivatives", "statement": "A Python program on one bound jet class (assignments of expressions built from names, float literals, T.constant, T.variable, unary minus, abs, the methods, **, the four operators between jets and floats in either order, atan2, hypot and e.f; in-place operators; x.f = s) whose names hold jets of real functions at a point, or floats, ends without an exception whenever every operation is applied inside its domain; afterwards every name holds exactly the float, or exactly the value, gradient and (order 2) Hessian, of the function the program text stands for when t o= e is read as t = t o e. Exceptions: x *= y where x and y name the same second-order object gives a wrong Hessian (2 f h + 4 f g g^T instead of 2 f h + 2 g g^T).", "quantifier": "all valid types (order 1 or 2, static or dynamic), all numbers of variables, all points, all program texts of the fragment, all initial states without shared names", "why_tests_cant": "tests run a few programs at a few points; mixing up the operands of a reflected operator, or a method bound to the wrong function, shows only for particular expressions, and the self-multiplication defect only in second derivatives", "anchors": ["python/src/common.h:44-185", "include/hyperjet/hyperjet.h:970-1655"]}
{"id": "C55", "title": "Every Python call, from the sizes alone", "statement": "In the shipped Python module (exceptions on, assertions off), for any collection of well-formed jets of one bound class, of equal or different numbers of variables, with shared objects and live arrays: what a call does is decided by the sizes, indices and lengths involved, never by the stored numbers, and is exactly this. (1) It returns, the new jets are well-formed with the number of variables stated in the table, all sizes are kept (resize: only the size of its object changes); or (2) it raises the stated exception and changes nothing; or (3) it is unsafe: undefined behaviour, or it leaves an object that is not a jet. Unsafe are exactly: a negative size for a dynamic class where it is not a length_error; empty data for create and __setstate__; static empty(); variable with an index outside the storage; from_arrays and set_hm with a matrix that is too small, set_hm and hm on first-order jets; h and set_h outside the storage; atan2 with a longer first operand; three-argument hypot with a shorter third; padding to fewer variables; eval with a short list; resize to a negative size; *= between second-order jets without variables; array elements after the storage moved or shrank. So any program that keeps to the safe calls, in any order and going on after exceptions, never has undefined behaviour. No call changes an existing object other than the one it writes to.", "quantifier": "all valid classes (order 1 or 2, static or dynamic), all states, all calls with all arguments, all program texts and lengths", "why_tests_cant": "the table has one row for each function and each relation between sizes; tests cover a few rows with a few sizes, and an out-of-bounds read usually goes unnoticed", "anchors": ["python/src/common.h:26-220", "include/hyperjet/hyperjet.h:330-968", "include/hyperjet/hyperjet.h:1020-1249"]}
{"id": "C56", "title": "Python programs on SScalar compute exact partial derivatives, with any sharing of objects", "statement": "A Python program on SScalar (assignments of expressions built from names, float literals, SScalar(s), SScalar(s, dict), SScalar.constant, SScalar.variable, unary minus, abs, the methods, **, the four operators between jets and floats in either order, atan2, hypot, e.f and e.d(name); second names for objects; the in-place operators) ends without an exception whenever every operation is applied inside its domain; afterwards every name holds exactly the float, or an object with exactly the value and, for every variable name, exactly the partial derivative of the function the program assigns. In-place operators with an SScalar, and *= and /= with a float, change the object for all its names; += and -= with a float make a new object. In any arithmetic such a program ends normally or raises ZeroDivisionError, AttributeError or TypeError, is never undefined behaviour, and its outcome does not depend on the iteration order of the hash tables. Exceptions: x *= y and x /= y where x and y name the same object leave wrong derivatives (f d + f f d, and d/f - d/f^2).", "quantifier": "all program texts of the fragment, all points, all sets of variable names, all sharing of objects between names, all iteration orders at every place, all arithmetics (safety and order independence)", "why_tests_cant": "the iteration order of unordered_map is fixed on one platform; a test cannot vary it, nor try all sharing patterns; the self-operation defect keeps the value right", "anchors": ["python/src/bind_sscalar.cpp:7-112", "include/hyperjet/hyperjet.h:1989-2470"]}
{"id": "C57", "title": "Every function name computes the function of that name", "statement": "Calling a method by its name from Python (all 31 names, including numpy's arc... aliases, __abs__, __pow__, log with and without base, hypot with two and three jets) on a dense jet of any class or on an SScalar, and calling the C++ free function of that name (all 22 names) on either, gives value and derivatives of the mathematical function of that name: cbrt the real number whose cube is the argument, atan2(y, x) the angle of the point (x, y), log(b) and log2, log10 the quotients of natural logarithms, and so on, at every point where the function has derivatives of the order of the class. hj.hypot is the method. Any other name is an AttributeError; arguments of another kind or number (a float for a jet, a jet as exponent or base) are a TypeError.", "quantifier": "all names, all classes (order 1 or 2, static or dynamic, sparse), all numbers of variables, all points in the domain, all operand functions", "why_tests_cant": "tests call each name at one point; an alias bound to the wrong function or swapped arguments at an untested combination goes unnoticed", "anchors": ["python/src/common.h:88-145", "python/src/common.h:219-220", "python/src/bind_sscalar.cpp:26-72", "include/hyperjet/hyperjet.h:1757-1987", "include/hyperjet/hyperjet.h:2708-2894"]}
{"id": "C58", "title": "Rounding errors of polynomial expressions are bounded by the majorant", "statement": "Let every scalar operation have a relative error of at most u (doubles rounded to nearest without overflow or underflow: u = 2^-53). Evaluating any expression of sums, differences, products, negation, scalar operands and scalar divisors on jets succeeds, and value, every gradient entry and every Hessian entry differ from the exact derivatives by at most ((1+u)^k - 1) times the same derivative of the majorant polynomial (minus replaced by plus, constants and operands by their absolute values), where k counts the roundings: 1 per sum, 3 per product, 1 per scalar operand, 2 per scalar divisor. With non-negative data and no subtraction this is a relative error bound for all derivatives. Without it none can hold: (x + 1) - x at 2^53 is computed as 0 or 2 under every rounding to nearest. The same holds for sparse scalars with variables of different names: the value and the derivative by every name, however the hash tables are iterated, where k counts a sum or difference as two roundings (its derivatives are multiplied by the constant 1) and a product as two.", "quantifier": "all scalar types with bounded relative error, all rounding-to-nearest functions, all polynomial expressions, all numbers of variables, all points, orders 1 and 2, static and dynamic types", "why_tests_cant": "tests compare a few numbers with a tolerance; an algebraically equivalent but unstable formula or a lost term below the tolerance passes", "anchors": ["include/hyperjet/hyperjet.h:972-1136", "include/hyperjet/hyperjet.h:1204-1207", "include/hyperjet/hyperjet.h:178-316", "include/hyperjet/hyperjet.h:2129-2300"]}
{"id": "C59", "title": "Every Python call computes what its name says", "statement": "In the shipped build, every call on a dense class that does not raise and is not unsafe has its intended effect. Factories make jets with the given numbers. Operators and named functions applied to objects that hold value and derivatives of functions at a point, inside their domains, return an object (in place: leave in the object) with value and derivatives of the composed function; this includes a /= a, a += a, a -= a and, at order 1, a *= a. Setters and array assignments replace exactly the addressed number. Accessors, comparisons, repr, pickling and eval report the stored numbers, the sign of the comparison of values, and the Taylor polynomial, and change nothing. a.data has as many elements as there are stored numbers and a.g as many as there are variables. Existing arrays keep their object, offset and length; only resize moves storage, and after a growing resize an older array stays unusable in every later state.", "quantifier": "all calls with all arguments, all objects of all sizes in one program, all states reachable by calls in any order, orders 1 and 2, static and dynamic classes", "why_tests_cant": "a test fixes the calls, sizes and the order of calls; wrong strides, a wrong array length or a stale view show only for some sizes and histories", "anchors": ["python/src/common.h:24-220", "include/hyperjet/hyperjet.h:640-968", "include/hyperjet/hyperjet.h:1020-1249"]}
{"id": "C60", "title": "Index arithmetic in 64 bits and square root in doubles", "statement": "For every jet whose data fits into the address space of a 64-bit machine, the length of its data and the subscripts used by g, h and eval are computed without signed overflow and are the documented cells; for every storable non-empty length, size_from_data_length in double arithmetic (conversion, square root and subtraction each correctly rounded) neither overflows nor misjudges: it returns n exactly for the lengths of jets of n variables and throws otherwise, also where 8L+1 is not representable as a double. (The unchanged code violates the wish that larger requests be rejected: asking for 3037000499 or more variables overflows, which is undefined behaviour.)", "quantifier": "all storable sizes, indices and lengths; all correctly rounded square roots, any tie breaking", "why_tests_cant": "the sizes at which rounding of 8L+1 sets in have 5*10^14 components and cannot be allocated in a test", "anchors": ["include/hyperjet/hyperjet.h: data_length_from_size, size_from_data_length, g, h, eval"]}
{"id": "C61", "title": "Branches and loops: the path of the values, the derivatives of the path", "statement": "A program that branches and loops on comparisons of jets (with each other, and with scalars on either side) takes exactly the path the same program takes on plain scalars: same branches, same number of rounds, equal values bit for bit, no undefined behaviour and no exception; it ends iff the plain program ends. If moreover every executed operation is inside its domain and no executed comparison is between equal values (or, more generally, every executed comparison gives the same result at all points near x), the jets at the end are value, gradient and Hessian of the function that the program computes on real numbers near x. (At a tie this fails: if (a == 0) r = 0; else r = a; has gradient 0 at 0 although it computes the identity.)", "quantifier": "all programs of assignments, in-place updates, setters, if and while with conditions built by !, && and ||; all numbers of rounds; all orders, sizes and scalar arithmetics with commuting + and *", "why_tests_cant": "tests run fixed iterations such as a Newton loop at sample points and cannot show that no comparison ever looks at a derivative, nor that the derivative of an iteration is that of the composed function", "anchors": ["include/hyperjet/hyperjet.h:1666-1754", "include/hyperjet/hyperjet.h:1020-1249"]}
{"id": "C62", "title": "Python programs on dense jets: shared objects, branches and loops", "statement": "A Python program of assignments, in-place operators and 't.f = s' on jets and numbers, with if and while on comparisons of jets and numbers, and with any sharing of objects between names (t = s makes a second name; t += e with a jet and t *= e change the object under all its names, while t += 1.0 makes a new object): if every executed operation is inside its domain (and no t *= e at order 2 where e names the same object), the program ends normally on the path given by the values, and every name then holds exactly the number, or value, gradient and Hessian of the function, that the program assigns to it. If no executed comparison is between equal values (or every one is steady near x) and the statements do not use e.f and t.f = s, these functions are those computed by the same program on plain mutable numbers at the points near x.", "quantifier": "all programs, names, sharing patterns, numbers of rounds, orders 1 and 2, sizes, points x", "why_tests_cant": "sharing patterns and control flow combine in infinitely many ways; tests use fixed programs, never in-place operators on shared names inside loops", "anchors": ["python/src/common.h:147-185", "include/hyperjet/hyperjet.h:1020-1249", "include/hyperjet/hyperjet.h:1661-1724"]}
{"id": "C63", "title": "Python programs on SScalar: shared objects, branches and loops", "statement": "A Python program of assignments and in-place operators on sparse scalars and numbers, with if and while on comparisons, and any sharing of objects between names: if every executed statement and comparison has a meaning (operations inside their domains; no t *= e or t /= e where e names the same object), the program ends normally for every iteration order of the hash tables, on the path given by the values, and every name then holds exactly the number, or value and partial derivatives of the function, that the program assigns to it. If no executed comparison is between equal values (or every one is steady near x on the coordinate lines) and the statements do not use e.f and e.d(k), these functions are those computed by the same program on plain mutable numbers at the points near x on the coordinate lines.", "quantifier": "all programs, names, sharing patterns, numbers of rounds, hash table orders, points x", "why_tests_cant": "needs all sharing patterns, all paths and all hash orders; tests have none of these", "anchors": ["python/src/bind_sscalar.cpp:75-112", "include/hyperjet/hyperjet.h:2166-2332", "include/hyperjet/hyperjet.h:2617-2705"]}
{"id": "C64", "title": "Python programs on dense jets in any arithmetic: memory safety and path of the values", "statement": "A Python program of assignments, in-place operators, element access, set_h and array views (t.data, t.g) on dense jets, with if, while, not, and, or: (a) without resize and with valid variable indices, whatever the arithmetic does (infinities, nan, rounding) and however often loops run, it has no undefined behaviour and fails no assertion; if it ends, it ends normally or with ZeroDivisionError, AttributeError, TypeError or IndexError, all objects are well formed, and every array view lies inside its object's storage. (b) If it does not read or write arrays, the same program with one plain number in place of every jet (jet divided by jet or number means multiplication with the reciprocal) takes the same branches and rounds or neither ends, raises the same exception at the same place, binds names to the same objects and gives the same values, bit for bit.", "quantifier": "all programs, names, sharing patterns, numbers of rounds, arithmetics (with commutative + and * and consistent comparisons for (b)), orders 1 and 2, sizes", "why_tests_cant": "tests run fixed straight-line programs on well-behaved numbers; loops, exceptions and nan combine without bound", "anchors": ["python/src/common.h:26-220", "include/hyperjet/hyperjet.h:1020-1249", "include/hyperjet/hyperjet.h:1661-1724"]}
{"id": "C65", "title": "Python programs on SScalar in any arithmetic: safety, hash order independence, path of the values, agreement with dense jets", "statement": "A Python program of assignments and in-place operators on sparse scalars with if, while, not, and, or, in any arithmetic: (a) it has no undefined behaviour and does not abort; if it ends, it ends normally or with ZeroDivisionError, AttributeError or TypeError and all objects are proper; (b) the iteration orders of the hash tables influence neither the path, nor termination, nor the outcome, nor anything that can be read from the objects; (c) without e.d(k), the same program with one plain number in place of every sparse scalar takes the same path, raises the same exception and gives the same values bit for bit; (d) so does the same program written for a dense class with numbered variables, for orders 1 and 2 and any size.", "quantifier": "all programs, names, sharing patterns, numbers of rounds, hash table orders, arithmetics (commutative + and * and consistent comparisons for (c) and (d))", "why_tests_cant": "hash iteration order is fixed by the standard library in a test run; tests have no loops and no comparison of the two classes on programs", "anchors": ["python/src/bind_sscalar.cpp:7-112", "include/hyperjet/hyperjet.h:2166-2332", "include/hyperjet/hyperjet.h:2617-2705"]}
{"id": "C66", "title": "With enough precision every expression and all its derivatives are as accurate as wanted", "statement": "For every expression (all operators, all functions including asin, atanh, tanh, pow, abs, atan2, hypot) inside its domain at x (abs and atan2 regular, pow of positive numbers) and every tolerance, there is a precision u0 > 0 such that in every arithmetic whose operators and library functions have a relative error of at most u0, with x and all constants rounded too, evaluation on variables(x) ends normally and value, gradient and Hessian are within the tolerance of the exact ones; so is the result of SScalar, for every name and every hash order. In particular with p-bit rounding for all large enough p. More generally the results converge whenever the arithmetics, inputs and constants do.", "quantifier": "all expressions, points in the domain, tolerances, arithmetics, orders 1 and 2, sizes, hash orders", "why_tests_cant": "tests compare with a tolerance at single points in one precision; a formula that is right in exact arithmetic but unstable in the limit (or a wrong branch near a boundary) needs all precisions", "anchors": ["include/hyperjet/hyperjet.h:970-1655", "include/hyperjet/hyperjet.h:2143-2613"]}
{"id": "C67", "title": "Every single operation is computed accurately", "statement": "In an arithmetic whose operators and library functions have relative error at most u <= 1/10: every operation (unary minus, abs, all functions, all operators with jets and numbers, atan2, hypot with two and three arguments) applied to jets with arbitrary contents at a point of its domain ends normally, and every component of the result (value, gradient, Hessian) differs from the one of the chain rule by at most (1/(1-u))^16 - 1 (17*2^-53 with 53 bits) times the same sum with absolute values; value, and gradient of operations with one operand, have that relative error. Needed: |x|^2 <= 1/2 for asin, acos, atanh, tanh(x)^2 <= 1/2 for tanh, and for pow(x, b) x != 0 and exactly computed b-1, b-2; for asin and tanh the claim is false otherwise. The same holds for SScalar for every name and every hash order.", "quantifier": "all operations, contents of the operands, arithmetics, orders 1 and 2, sizes, hash orders", "why_tests_cant": "tests use a few operands and a fixed tolerance; that no choice of formula loses accuracy for any operand needs a bound over all of them", "anchors": ["include/hyperjet/hyperjet.h:970-1655", "include/hyperjet/hyperjet.h:2143-2613"]}
{"id": "C68", "title": "Programs with branches and loops in every precision", "statement": "Take a program of assignments, in-place operators, if and while on jets that on real numbers ends at x with every executed statement inside its domain, every executed comparison between different values and pow of positive numbers only. For every tolerance there are a precision w0 > 0 and a number of rounds m such that in every arithmetic whose operators and library functions have a relative error of at most w0 and whose comparisons are exact, with all constants and all jets at the start rounded too, the program ends normally with at most m rounds per loop, takes the path of the real program, and value, gradient and Hessian of every jet are within the tolerance of those of the function the program computes near x. In particular with p-bit rounding for all large enough p. At ties this fails in every precision: two sides that are mathematically equal at every point may compare as different, and the derivative of the wrong branch results.", "quantifier": "all programs, points, tolerances, arithmetics, start jets, orders 1 and 2, sizes", "why_tests_cant": "tests run one program in double precision; that the path and all derivatives are right in the limit for every program, and that only ties are an exception, needs all programs and all precisions", "anchors": ["include/hyperjet/hyperjet.h:970-1754"]}
{"id": "C69", "title": "The error is proportional to the precision", "statement": "For every expression inside its domain at x there are a constant K and a precision u0 > 0 such that in every arithmetic whose operators and library functions have a relative error u of at most u0, with all inputs and constants rounded too, value, gradient and Hessian of the jet computed on variables(x) differ by at most K * u from the exact ones: every further bit halves the error bound. Where a derivative is not zero its relative error is at most a constant times u. The same holds for SScalar in every iteration order of its hash maps, and for programs with in-place operators, branches and loops that compare no equal values, whose number of rounds does not depend on the arithmetic either.", "quantifier": "all expressions and programs, points, arithmetics, orders 1 and 2, sizes", "why_tests_cant": "a test sees one error in one precision; that no formula used by the library loses more than a constant factor, in all precisions, is a statement about infinitely many arithmetics", "anchors": ["include/hyperjet/hyperjet.h:970-1754", "include/hyperjet/hyperjet.h:2143-2613"]}
{"id": "C70", "title": "Error bounds hold on whole regions", "statement": "For every expression inside its domain at all points of a compact set S there are a constant K and a precision u0 > 0 such that at every point x of S and in every arithmetic with a relative error u of at most u0, inputs and constants rounded too, value, gradient and Hessian computed on variables(x) differ by at most K * u from the exact ones. The same holds for SScalar, and for programs with in-place operators, branches and loops that compare no equal values anywhere on S, with one bound on the number of rounds for all points and arithmetics, even if different points take different paths. Compactness is needed: x * x on the whole line has no common constant.", "quantifier": "all expressions and programs, compact sets, all their points, arithmetics, orders 1 and 2, sizes", "why_tests_cant": "a test sees finitely many points of a region; a hidden loss of accuracy at some point between them, in some precision, is exactly what it misses", "anchors": ["include/hyperjet/hyperjet.h:970-1754", "include/hyperjet/hyperjet.h:2143-2613"]}
{"id": "C71", "title": "No spurious infinities or NaN in floating-point formats", "statement": "For every expression inside its domain at all points of a compact set S there are a constant K and a number N such that in every binary floating-point format with at least N significant bits p and exponents up to at least N (rounding, overflow to infinity, gradual underflow, NaN), inputs and constants rounded too, value, gradient and Hessian computed on variables(x) at any point x of S are finite and differ by at most K / 2^p from the exact ones. The same holds for SScalar in every iteration order of its hash maps and for programs with in-place operators, branches and loops that compare no equal values, with one bound on the number of rounds; and in every arithmetic, not only these formats, whose operations on finite numbers have small relative and absolute errors as long as the exact result is in a large enough range. Enough range is needed: in every format x * x overflows at a point the format represents exactly.", "quantifier": "all expressions and programs, compact sets, all their points, all formats with enough bits, all such arithmetics, orders 1 and 2, sizes", "why_tests_cant": "an intermediate result of some derivative formula that overflows, underflows into a division by zero, or is inf - inf = NaN, although the derivative is harmless, shows only at particular points and formats", "anchors": ["include/hyperjet/hyperjet.h:970-1754", "include/hyperjet/hyperjet.h:2143-2613"]}
{"id": "C72", "title": "Overflow and underflow are the only way a finite format adds to the rounding errors", "statement": "In every binary floating-point format, a component of a result - value, gradient entry or Hessian entry of any expression of jets - on whose way no operation overflowed, underflowed, divided by zero or was invalid is a finite number and equals the one computed with the same number of bits and unlimited exponents. This holds per component: an overflow in a Hessian entry does not affect value and gradient (for expressions with abs, which looks at the value, provided the value is unaffected). The same holds for SScalar in every iteration order. So the error bounds for unlimited exponents hold in the format for all unaffected components: for polynomials, for a single operation and, at the rate 2^-p, for expressions on compact sets. The formulas for the derivatives can overflow although value and derivative do not: division, hypot and atan2 do in every format with enough exponents, and so does the value of a division.", "quantifier": "all formats, expressions, points, jets as operands, orders 1 and 2, sizes, iteration orders", "why_tests_cant": "whether some intermediate result leaves the exponent range depends on the point and on every factor of every derivative formula; tests use operands of ordinary size", "anchors": ["include/hyperjet/hyperjet.h:970-1754", "include/hyperjet/hyperjet.h:2143-2613"]}
{"id": "C73", "title": "Derivatives are right and calls are safe in arbitrary client code", "statement": "For client code of any kind - whatever its own state, loops, recursion, data structures and decisions on the answers of the library - that reaches jets through statements, comparisons and reads with valid indices: every run is free of failed assertions, exceptions and undefined behaviour; without reads of derivatives it takes the path it takes on plain scalars and shows the same values; in all classes (order 1 or 2, static or dynamic size) it makes the same decisions and gets the same common components. At a point inside the domains the jets hold value, gradient and Hessian of the functions that the calls made build, also if the code reads derivatives; if no comparison ties, they hold those of the function that the code computes around the point, and in arithmetic of precision w it takes the same path and the errors are at most K*w.", "quantifier": "all deterministic client programs (any state type, any transition function), points, jets, orders 1 and 2, sizes, arithmetics", "why_tests_cant": "client code is not known to the library's tests; every way to combine loops, data structures and decisions is a different program", "anchors": ["include/hyperjet/hyperjet.h:34-1754"]}
{"id": "C74", "title": "Threads with objects of their own do not influence each other", "statement": "If several threads of arbitrary client code run at the same time, each writing only its own jets and reading only its own and shared ones, then under every schedule every thread is, after as many calls as it had turns, in the state and with the objects it would have alone; shared objects stay unchanged; a failure occurs only if a thread fails in the same way alone, and with valid calls there is none. If all threads end alone, they end under every schedule with enough turns, with the same results; two complete schedules give the same objects. So all theorems about client code hold for threads: the library has no hidden shared state.", "quantifier": "all client programs, numbers of threads, schedules, assignments of objects to threads, arithmetics, orders and sizes", "why_tests_cant": "schedules are not under the control of a test; a hidden shared buffer shows only in rare interleavings", "anchors": ["include/hyperjet/hyperjet.h:34-1754"]}
{"id": "C75", "title": "Newton's method on jets gives the derivatives of implicit functions", "statement": "Let F(x, y) = 0 hold at a point and let D = dF/dy be nonzero there, F and D written with the library's operations inside their domains. Then F = 0 defines y = Y(x) near the point, and running the step y -= F / D on jets, started with the right value and any derivatives at all (for example a plain number found by another solver), gives the exact gradient of Y after one step and the exact Hessian after two; further steps keep them. With exact numbers this holds exactly. If the parameters, the root as a number without derivatives, and the constants are rounded to a binary floating-point format with enough significant bits p and exponent range, as many steps as the order, or more, give a finite value, gradient and Hessian within K / 2^p of those of Y, with one constant K for all formats, depending on the number of steps (pow of positive numbers only).", "quantifier": "all equations and derivative expressions, parameter numbers, points, starting derivatives, step counts, orders and storage sizes, formats", "why_tests_cant": "the derivatives of an implicitly defined function are known in closed form only in special cases, and a test with one equation does not show that the number of steps always suffices", "anchors": ["include/hyperjet/hyperjet.h:1080-1091", "include/hyperjet/hyperjet.h:1182-1202"]}
{"id": "C76", "title": "Objects of different sizes: copying, moving, swapping, resizing", "statement": "For client code of any kind that creates, copies, moves, swaps, resizes, pads, changes and combines jets with different numbers of variables, the sizes alone decide what each call does: it returns and the sizes afterwards are known, or it throws a known exception and changes nothing, or it is one of the listed misuses (invalid index or size, use of an object without value). A setter with an invalid index is never reported as success in builds with assertions, except set_g(-1, s), which writes the value. Code without misuse never reaches undefined behaviour or a failed assertion; in it every std::move could be a copy without any change of the result; std::swap exchanges objects of any sizes, also an object with itself. A dynamic jet that was moved from is not safe to use: it still reports its old size, passes the size check of operators and then reads storage that is gone.", "quantifier": "all client programs, object names, sizes, values, arithmetics, orders, dynamic and static types, with exceptions on", "why_tests_cant": "size errors and moved-from objects show up only for particular orders of calls; a moved-from vector often still reads plausible numbers in a test", "anchors": ["include/hyperjet/hyperjet.h:44-58", "include/hyperjet/hyperjet.h:315-366", "include/hyperjet/hyperjet.h:422-525", "include/hyperjet/hyperjet.h:555-563"]}
{"id": "C77", "title": "Python client code of any kind", "statement": "Python code of any kind (functions, lists, recursion, try/except, numbers read and used again) on the dense classes and on SScalar never reaches undefined behaviour or a failed assertion if it does not resize and uses valid variable indices; objects stay well formed and array views inside their storage. It takes the path it would take with one number in place of every jet, with the same answers, exceptions, shared names and values bit for bit; on SScalar the result does not depend on the iteration order of the hash tables, and the dense class gives the same values. In exact arithmetic every name ends up with exactly the value and derivatives of the function it stands for; without ties and without throwing derivatives away these are the derivatives of what the code computes on numbers near the point.", "quantifier": "all client programs and their states, names and objects, aliasing, arithmetics (safety, path, order), points inside the domains (exactness), orders, sizes, iteration orders", "why_tests_cant": "client code is unlimited; a test has fixed control flow, a few objects and one iteration order of the hash tables", "anchors": ["python/src/common.h:26-220", "python/src/bind_sscalar.cpp:7-112"]}
{"id": "C78", "title": "What raises an exception in Python changes nothing", "statement": "A Python statement on dense jets (no resize, valid variable indices) or on SScalar that raises an exception leaves all objects, names and array views exactly as they were; in particular in-place operators do not fail half way. A program that raises an exception leaves exactly the state after the statements before the one that raised it. Client code that catches exceptions gets the very exception the statement or comparison raises, and none if it ends normally.", "quantifier": "all statements, programs, comparisons, states with any sharing of objects and arrays, arithmetics, orders, sizes, iteration orders", "why_tests_cant": "a partially updated object shows only if the test catches the exception and then inspects all components of all objects", "anchors": ["python/src/common.h:26-220", "python/src/bind_sscalar.cpp:7-112", "include/hyperjet/hyperjet.h:1020-1249"]}
{"id": "C79", "title": "C++ client code of any kind on SScalar", "statement": "C++ client code of any kind on SScalar (arrays, recursion, integer variables, values and derivatives read and used again) has no undefined behaviour, fails no assertion and gets no exception, and what it does and all objects it leaves do not depend on the iteration order of the hash tables, in any arithmetic. Code that does not look at derivatives takes the path and gets the values of plain numbers, and of the dense classes of any order and size, bit for bit. In exact arithmetic every object ends up with value and partial derivatives of the function it stands for, also if values and derivatives are read on the way, provided no object is multiplied or divided in place by itself; without ties these are the derivatives of what the code computes on numbers near the point.", "quantifier": "all client programs and their states, all objects, iteration orders, arithmetics (safety, path), points inside the domains (exactness), all names of variables", "why_tests_cant": "client code is unlimited and the iteration order of a hash table is fixed on one machine", "anchors": ["include/hyperjet/hyperjet.h:1990-2705"]}
{"id": "C80", "title": "Rounding errors of C++ client code on SScalar", "statement": "For C++ client code of any kind on SScalar that reads no numbers and that on real numbers ends at a point with all statements inside their domains and no comparison of equal values, there are a constant K, a number N and a number of calls such that in every binary floating-point format with at least N significant bits p and exponents up to at least N (rounding, overflow, gradual underflow, NaN), and for every iteration order of the hash tables, the code ends in the same state within that many calls, and values and derivatives of all objects, for any finite set of names, are finite and differ by at most K / 2^p from values and partial derivatives of the functions the code computes. The same holds in every arithmetic whose operations on finite numbers have small relative and absolute errors as long as the exact result is in a large enough range, started with any objects that hold rounded values and derivatives.", "quantifier": "all client programs and their states, points, sets of names, formats with enough bits, all such arithmetics, iteration orders", "why_tests_cant": "which rounding errors occur depends on the order of the hash table, which is fixed on one machine, and a comparison near its threshold takes the other path only in particular formats", "anchors": ["include/hyperjet/hyperjet.h:1990-2705"]}
{"id": "C81", "title": "Threads on sparse scalars", "statement": "If several threads of arbitrary client code on SScalar run at the same time, each writing only its own objects and reading only its own and shared ones, then under every schedule and for every iteration order of the hash tables nothing fails, and every thread is, after as many calls as it had turns, in the state it would have alone with any other iteration orders; its objects have the same value, size, names and derivatives as alone, and shared objects stay unchanged. If all threads end alone, they end under every schedule with enough turns; two complete schedules, with different iteration orders, give objects that cannot be told apart.", "quantifier": "all client programs, numbers of threads, schedules, assignments of objects to threads, iteration orders, arithmetics", "why_tests_cant": "schedules and the growth of hash tables are not under the control of a test; a read that inserts an entry in a shared hash table (operator[] instead of find) shows only in rare interleavings", "anchors": ["include/hyperjet/hyperjet.h:1990-2705"]}
{"id": "C82", "title": "Rounding errors of Python client code on dense jets", "statement": "For Python client code of any kind on the dense classes (functions, methods, operators, in-place operators, shared references, comparisons, f, t.f = s) that does not use float(v) and that on functions ends at a point with all statements inside their domains, no comparison of equal values and ** of positive numbers only, there are a constant K, a number N and a number of calls such that in every binary floating-point format with at least N significant bits p and exponents up to at least N (rounding, overflow, gradual underflow, NaN) the code ends in the same state within that many calls, every name refers to the same object as in exact arithmetic or to a number, and all numbers, values, gradients and Hessians are finite and differ by at most K / 2^p from the exact ones. The exact ones are, for code that throws no derivatives away, the derivatives of the functions the code computes on plain numbers near the point. The same holds in every arithmetic whose operations on finite numbers have small relative and absolute errors, started with any objects that hold rounded derivatives.", "quantifier": "all client programs and their states, points, formats with enough bits, all such arithmetics, all starting objects and references between them", "why_tests_cant": "a comparison near its threshold takes the other path only in particular formats, and an in-place operator that forgets a rounding-critical case or breaks the sharing of an object shows only for particular programs", "anchors": ["include/hyperjet/hyperjet.h:40-1990", "python/src/common.h:30-190"]}
{"id": "C83", "title": "Rounding errors of Python client code on SScalar", "statement": "For Python client code of any kind on SScalar (functions, methods, operators, in-place operators, shared references, comparisons, f, d(k)) that does not use float(v) and that on functions of named variables ends at a point with all statements inside their domains, no comparison of equal values and ** of positive numbers only, and for every finite set of names, there are a constant K, a number N and a number of calls such that in every binary floating-point format with at least N significant bits p and exponents up to at least N, and for every iteration order of the hash tables, the code ends in the same state within that many calls, every name refers to the same object as in exact arithmetic or to a number, and all numbers, values and derivatives for those names are finite and differ by at most K / 2^p from the exact ones; the derivative for a name an object does not hold differs by at most this from 0. The exact ones are, for code that throws no derivatives away, the partial derivatives of what the code computes on plain numbers. The same holds in every arithmetic whose operations on finite numbers have small relative and absolute errors, started with any objects that hold rounded derivatives.", "quantifier": "all client programs and their states, points, sets of names, iteration orders, formats with enough bits, all such arithmetics, all starting objects and references between them", "why_tests_cant": "the iteration order of the hash tables depends on the platform, and a comparison near its threshold or a lost entry shows only for particular programs and formats", "anchors": ["python/src/bind_sscalar.cpp:7-112", "include/hyperjet/hyperjet.h:1989-2705"]}
{"id": "C84", "title": "C++ client code of any kind on dense jets in finite formats, on whole regions", "statement": "For client code of any kind on dense jets that does not read numbers (statements, in-place operators and comparisons chosen by any strategy with any state) and that on real numbers ends at every point of a compact set with all statements inside their domains, no comparison between equal values and pow of positive numbers only, possibly on different paths at different points, there are a constant K, a number N and a number of calls such that at every point x of the set and in every binary floating-point format with at least N significant bits p and exponents up to at least N the code started with variables(x) and rounded constants ends within that many calls in the state in which it ends on real numbers, nothing overflows, and value, gradient and Hessian of every jet differ by at most K / 2^p from those of the function the code computes. The same holds in every arithmetic whose operations on finite numbers have small relative and absolute errors, started with any rounded jets that depend continuously on the point.", "quantifier": "all client programs and their states, compact sets, points in them, formats with enough bits, all such arithmetics, static and dynamic sizes, orders 1 and 2", "why_tests_cant": "tests see finitely many points and formats; one constant for all points, formats and paths is a statement about all of them", "anchors": ["include/hyperjet/hyperjet.h:34-1754"]}
{"id": "C85", "title": "Rounding errors of eval", "statement": "In every binary floating-point format with enough significant bits p and a large enough exponent range, after client code of any kind as in C84 at any point x of a compact set, y.eval(d) on every jet y and for every vector d up to a fixed size (rounded to the format) is finite and differs from the Taylor polynomial of the computed function at x (degree 1 or 2 by the order) by at most K / 2^p with one constant K for all points, vectors and formats; hence eval(d) is the value of the computed function at x + d up to K / 2^p plus a remainder o(|d|) at order 1 and o(|d|^2) at order 2. More generally, in every arithmetic whose operations on finite numbers have small relative and absolute errors, eval of any jet and vector within K errors of one operation of derivatives and direction bounded by R is within K' errors of one operation of the Taylor polynomial, K' depending on K, R and the number of variables only.", "quantifier": "all jets close to those of a function, all directions up to a bound, all such arithmetics and formats with enough bits, all client programs, compact sets and points", "why_tests_cant": "tests evaluate a few polynomials in double; the bound is for all jets, directions and formats at once", "anchors": ["include/hyperjet/hyperjet.h:907-946"]}
{"id": "C86", "title": "Rounding errors of SScalar::eval", "statement": "On implementations where all end iterators compare equal (elsewhere eval is undefined, C44): in every binary floating-point format with enough significant bits p and a large enough exponent range, after client code of any kind as in C80, for every sparse scalar y and every displacement d of a given finite set of names with entries up to a fixed size (rounded to the format), y.eval(d) is finite and differs from the first-order change of the computed function, the sum of partial derivative times displacement over these names, by at most K / 2^p, with one constant K for all formats, displacements and iteration orders of the hash tables; names the object does not store and names missing in d do no harm. More generally, in every arithmetic whose operations on finite numbers have small relative and absolute errors, eval of any object and displacement within K errors of one operation of derivatives and displacements bounded by R is within K' errors of one operation of the first-order change, K' depending on K, R and the number of names only.", "quantifier": "all sparse scalars close to a function, all displacements up to a bound, all iteration orders, all such arithmetics and formats with enough bits, all client programs", "why_tests_cant": "tests evaluate a few displacements in double with one hash table; the bound is for all objects, displacements, orders and formats at once", "anchors": ["include/hyperjet/hyperjet.h:2086-2101"]}
{"id": "C87", "title": "Rounding errors of code that mixes jets and numbers, such as Newton's method", "statement": "In every binary floating-point format with enough significant bits p and a large enough exponent range, C++ client code of any kind that computes with dense jets and with numbers - it reads values, gradients and Hessian entries of jets, calls eval, computes with these numbers, compares them, uses the results as scalar operands and as values of new variables, and writes them into jets with set_f, set_g, set_h and set_zero - ends in the same state as with exact derivatives and real numbers, and all its numbers and all components of its jets are finite and within K / 2^p of the exact ones, with one constant K for all formats. In particular Newton's method for F(z) = 0 with the derivative read from a jet stops after exactly as many steps as the exact iteration and returns an approximation within K / 2^p of the exact iterate. Conditions: all operations inside their domains, no comparison of equal numbers, pow of positive numbers only, no in-place product with itself.", "quantifier": "all client programs with any decisions, all start values, all such arithmetics and formats with enough bits; for Newton's method all expressions F, tolerances, starts and numbers of steps", "why_tests_cant": "tests run a few iterations in double; that derivatives read back into the computation stay accurate through any number of steps and decisions, in all formats, is a statement about all programs", "anchors": ["include/hyperjet/hyperjet.h:644-658", "include/hyperjet/hyperjet.h:707-792", "include/hyperjet/hyperjet.h:907-946", "include/hyperjet/hyperjet.h:970-1754"]}
{"id": "C88", "title": "Functions that user code adds with the getters and setters", "statement": "User code can extend the library by a function phi it does not have: for jets a and r, two different objects of the same size, it reads a.f(), a.g(i) and a.h(i, j), computes phi, phi' and phi'' of a.f() with numbers, and writes r.set_f(phi), r.set_g(i, phi' * g_i) and, for second order, r.set_h(i, j, phi' * h_ij + phi'' * g_i * g_j) for the upper triangle i <= j. In every arithmetic, for jets with any components, all calls succeed, r has exactly the computed value phi, the gradient phi' * g_i and the Hessian phi' * h_ij + phi'' * g_i * g_j in both triangles, with these roundings and no others, and no other jet changes; if phi is one of the library's own functions, written with the usual formulas for its derivatives, r is the object the library computes, bit for bit. Hence in every binary floating-point format with enough significant bits p and a large enough exponent range all calls succeed, and value, all gradient components and all Hessian entries - of both triangles - of r are finite and within K / 2^p of those of phi(a), with one constant K for all formats; all other jets keep value and derivatives. Conditions: phi has the derivatives phi' near a.f() and, for second order, phi'' there, all given by formulas inside their domains.", "quantifier": "all functions phi given by formulas with their derivatives, all jets a with any value and derivatives, all sizes, static and dynamic, both orders, all such arithmetics and formats with enough bits", "why_tests_cant": "tests call each setter once; that a loop over the upper triangle with the setters gives the complete derivatives of any composed function, for all sizes and formats, is a statement about all functions and programs", "anchors": ["include/hyperjet/hyperjet.h:707-792"]}
{"id": "C89", "title": "Derivatives with respect to different variables do not influence each other", "statement": "Value and derivatives with respect to some of the variables do not depend on the other variables, bit for bit. (a) Blocks: run any client code - expressions, in-place operators also with the same object on both sides, comparisons, reading of values; no derivative read, no variable named by its index - on jets of n variables, and again on jets of m >= 1 of these variables in the same order, possibly of another class (static or dynamic, first or second order). Both runs go through the same states, and in the end the jets of the second run have the values, gradient components and (if both classes have them) Hessian entries of the first run for the selected variables. Variable number s(j) becomes variable number j, a variable that is not selected becomes a constant. (b) Locality: if two runs start with jets that agree in the values and in the derivatives with respect to the variables in a set P, whatever the other derivatives are (NaN included), and the code reads no derivatives with respect to other variables (setters with any valid index are allowed), then both runs go through the same states and the results agree in the values and in the derivatives with respect to the variables in P. All this holds in every arithmetic. (c) The order of the variables has to be kept: in double, 1/x with gradient (2^1023, 1/2) has an infinite mixed second derivative, but the exact one, 2^1023, with the two variables exchanged.", "quantifier": "all client code, all selections of variables in increasing order, all sets of variables, all jets, all pairs of classes, all arithmetics (NaN and infinities included)", "why_tests_cant": "tests look at a few results of single operations; that no loop of the kernels mixes components of other variables into a result - for all sizes, programs and bit patterns - is a statement about all executions", "anchors": ["include/hyperjet/hyperjet.h:181-339", "include/hyperjet/hyperjet.h:644-658", "include/hyperjet/hyperjet.h:970-1655"]}
{"id": "C90", "title": "Derivatives of sparse scalars are local, and the names of the variables do not matter", "statement": "(a) Run any client code on SScalar - expressions, assignments, in-place operators also with the same object on both sides, new variables, comparisons, reading of values and derivatives - on two families of objects that have the same values and, under the names in a set P, the same entries (stored in both or in none, with the same derivative). Under other names there may be other derivatives (NaN included), more of them or fewer. If the code reads derivatives with respect to names in P only, and not the number of derivatives, then nothing fails, both runs go through the same states, and the results have the same values and the same entries under the names in P. (b) Rename the variables by a bijection in the code and in the objects it starts from: nothing fails, the renamed code goes through the same states with the same answers - also to questions about the number of derivatives -, and its results are the original results with renamed variables. Both hold in every arithmetic, bit for bit, and whatever the iteration orders of the hash tables in the two runs are. (c) That a name in P is stored in both or in none is needed: 2 with a stored derivative 0 and 2 without one read the same, but multiplied by infinity the first has the derivative NaN and the second 0.", "quantifier": "all client code, all sets of names, all bijections of names, all proper objects, all iteration orders, all arithmetics (NaN and infinities included)", "why_tests_cant": "tests use two or three fixed names; that no entry leaks into another one through the hash tables, and that the results do not depend on how names compare or hash, is a statement about all programs, names and iteration orders", "anchors": ["include/hyperjet/hyperjet.h:1995-2063", "include/hyperjet/hyperjet.h:2129-2609"]}
{"id": "C91", "title": "Sparse and dense derivatives agree in floating point", "statement": "Client code that works for both kinds of scalars (expressions, assignments, in-place operators with different objects, comparisons, reading of values, loops and branches) is run on SScalar objects and on DDScalar objects that start with the same values and derivatives. Nothing fails, the same branches are taken, all values are the same floating-point numbers, and every first derivative is the same floating-point number unless the dense one is NaN. So a sparse derivative is NaN only where the dense one is.", "quantifier": "All client code, all orders and sizes of the dense type, all numbers of variables and names, all values including infinities and NaN, all binary formats (no bound on precision or exponents) and all iteration orders of the hash table.", "why_tests_cant": "Needs all programs and all floating-point inputs; rounding, overflow and NaN make sampled agreement meaningless, and the hash order differs between libraries.", "anchors": ["include/hyperjet/hyperjet.h:181-339", "include/hyperjet/hyperjet.h:970-1655", "include/hyperjet/hyperjet.h:1995-2063", "include/hyperjet/hyperjet.h:2129-2609"]}
{"id": "C92", "title": "Scaled seeds give scaled derivatives, bit for bit", "statement": "The same client code is run twice on DDScalar objects, the second time with every variable's derivatives measured in other units: gradient entry i multiplied by s_i and Hessian entry (i,j) by s_i s_j. If the change of units is exact in the arithmetic, then nothing fails, the same branches are taken, all values are the same numbers, and at every step every derivative of the second run is exactly the changed derivative of the first. The change of units is exact for arbitrary factors in exact arithmetic, for changes of sign in every binary floating-point format (with infinities, NaN, overflow and underflow), and for powers of two in rounding to nearest with p bits as long as nothing leaves the exponent range. The same holds for SScalar with one factor per name, where the code may also look at the number of stored derivatives and the two runs may use different hash orders. With underflow powers of two are not exact: halving a derivative equal to the smallest subnormal number gives 0.", "quantifier": "All client code that does not read or write derivatives directly (all expressions, assignments, in-place operators including x op= x, comparisons, loops and branches), all types, orders, sizes, all sets of factors, all values, all precisions and exponent ranges.", "why_tests_cant": "Any kernel that adds an inhomogeneous term, mixes first and second order, forgets a gradient factor or branches on a derivative breaks this only for some operator, size, and component; exact equality for all programs and all floating-point inputs cannot be sampled.", "anchors": ["include/hyperjet/hyperjet.h:181-339", "include/hyperjet/hyperjet.h:644-658", "include/hyperjet/hyperjet.h:970-1655", "include/hyperjet/hyperjet.h:2129-2609"]}
{"id": "C93", "title": "Rewriting that does not change a bit", "statement": "In floating point two expressions on dense jets give the same object - value, gradient and Hessian bit for bit - if one is obtained from the other by any number of these rewritings, at any place: a + b and b + a, a * b and b * a, hypot(a, b) and hypot(b, a), hypot(a, b, c) and hypot(b, a, c), a - b and a + (-b), -(-a) and a, (-a) + (-b) and -(a + b), (-a) * b and -(a * b), (-a) / b and -(a / b), hypot(-a, b) and hypot(a, b), phi(-a) and -phi(a) for sin, asin, atan, sinh, tanh, asinh, atanh, phi(-a) and phi(a) for cos and cosh, s + a and a + s, s * a and a * s, a - s and a + (-s), s - a and (-a) + s, a / s and a * (1 / s), and the same sign rules for scalar operands. Client code in which expressions and operands of comparisons are rewritten this way, or in which x += y, x -= y, x *= y on different objects are replaced by x = x + y and so on, takes the same path, gets the same answers and leaves the same objects. The same rewritings of expressions on sparse scalars give objects with the same value, the same names and the same derivatives bit for bit, however the hash tables are iterated, and so does client code on sparse scalars (with x *= y and x = x * y among the in-place operators). abs is not among them: abs(-x) and abs(x) have derivatives of opposite sign where the value is 0.", "quantifier": "All expressions and client code, all chains of rewritings, all types, orders and sizes, all values and derivatives including infinities and NaN, all binary formats (no bound on precision or exponents), with <cmath> functions that are symmetric.", "why_tests_cant": "Bitwise equality over all floating-point operands of all derivatives depends on the order of every sum in every kernel; a kernel that adds its terms in an unsymmetric order is wrong only in the last bit for a few operands.", "anchors": ["include/hyperjet/hyperjet.h:181-339", "include/hyperjet/hyperjet.h:970-1250", "include/hyperjet/hyperjet.h:1314-1576", "include/hyperjet/hyperjet.h:2129-2609"]}
{"id": "C94", "title": "Rounding errors of code that mixes sparse scalars and numbers, such as Newton's method", "statement": "In every binary floating-point format with enough significant bits p and a large enough exponent range, and with every iteration order of the hash tables, C++ client code of any kind that computes with sparse scalars and with numbers - it reads f() and d(name), calls eval with a dictionary of numbers, computes with these numbers, compares them, and uses the results as scalar operands, as values of new variables and as values and derivatives of new objects SScalar(s, {{name, d}, ...}) - ends in the same state as with exact derivatives and real numbers, and all its numbers, the values of all objects and their derivatives for any finite set of names, stored or not, are finite and within K / 2^p of the exact ones, with one constant K for all formats and orders. eval gives the sum of partial derivative times number over the names of the dictionary; this is for implementations where all end iterators are equal (otherwise it is undefined, C44). In particular Newton's method for F(z) = 0 with the derivative read by d(name) stops after exactly as many steps as the exact iteration and returns an approximation within K / 2^p of the exact iterate. Conditions: all operations inside their domains, no comparison of equal numbers, pow of positive numbers only, no in-place product or quotient of an object with itself.", "quantifier": "all client programs with any decisions, all start values, all names and iteration orders, all such arithmetics and formats with enough bits; for Newton's method all expressions F, tolerances, starts and numbers of steps", "why_tests_cant": "tests read single derivatives of single results in double; that derivatives read back into the computation stay accurate through any number of steps and decisions, for all hash orders and formats, is a statement about all programs", "anchors": ["include/hyperjet/hyperjet.h:2044-2101", "include/hyperjet/hyperjet.h:2129-2705"]}
{"id": "C95", "title": "Functions that user code adds to SScalar", "statement": "User code can apply a function phi that the library does not have to a sparse scalar a, although SScalar has no setters: x = a.f(); y = phi(x); d = phi'(x); r = (a - x) * d + y; where r may be a itself. In every binary floating-point format and with every iteration order of the hash tables, if x is finite and phi'(x) as computed is finite, the value of r is exactly phi(x) as computed, also if that is infinite or NaN, every derivative of r, stored or not, is the single rounded product a.d(name) * phi'(x), r has exactly the names of a, and no other object changes. If phi is one of the library's own functions, written with the usual formula for its derivative, the result cannot be told apart from that of the library. Hence, after any other straight-line code, in formats with enough significant bits p and exponent range the value and the derivatives of r for any finite set of names are finite and within K / 2^p of those of phi(a), with one constant K for all formats and orders. Conditions of the second part: phi has the derivative phi' at the exact value of a, both given by formulas inside their domains.", "quantifier": "all formulas phi and phi', all sparse scalars, names, iteration orders, formats, all straight-line code before", "why_tests_cant": "tests have no user-defined functions; that the tangent recipe costs no accuracy at all in the value, and one rounding per derivative, for all inputs and orders is a statement about all objects and formats", "anchors": ["include/hyperjet/hyperjet.h:2071-2074", "include/hyperjet/hyperjet.h:2152-2159", "include/hyperjet/hyperjet.h:2194-2197", "include/hyperjet/hyperjet.h:2236-2246"]}
{"id": "C96", "title": "Derivatives of solutions of equations with sparse scalars", "statement": "Let any straight-line code compute a sparse scalar y that stands for a function F of the named variables, with F = 0 and dF/dk nonzero at the point, and let v have the value of the variable k. The user code x = v.f(); d = y.d(k); d = -1 / d; r = y * d + x; then gives in r the value and, for any finite set of names other than k, the derivatives of the solution psi of F = 0 for k as a function of the other variables. In formats with enough significant bits p and exponent range the run ends, and the value and these derivatives are finite and within K / 2^p of the exact ones, with one constant K for all formats and all iteration orders of the hash tables. Conditions: the numbers in the code solve the equation exactly before rounding to the format, F is differentiable in k and each name together, and psi is differentiable for each name.", "quantifier": "all straight-line code before, functions F and psi, points, names, formats, iteration orders", "why_tests_cant": "tests have no code that differentiates the solution of an equation; that psi, which no object represents, gets its derivatives right up to the rounding rate for all equations is a statement about all programs and formats", "anchors": ["include/hyperjet/hyperjet.h:2071-2084", "include/hyperjet/hyperjet.h:2152-2159", "include/hyperjet/hyperjet.h:2236-2246"]}
{"id": "C97", "title": "Functions of two arguments that user code adds to SScalar", "statement": "Let any straight-line code compute sparse scalars a and b. User code can apply a function phi of two arguments that the library does not have to them by its tangent plane: x = a.f(); z = b.f(); y = phi(x, z); d = phi_1(x, z); e = phi_2(x, z); r = (a - x) * d + (b - z) * e + y; where phi_1 and phi_2 are the partial derivatives and any of a, b and r may be the same object. In every binary floating-point format and with every iteration order of the hash tables, if x, z and both partial derivatives as computed are finite, the value of r is exactly phi(x, z) as computed, every derivative of r is a.d(name) * phi_1(x, z) + b.d(name) * phi_2(x, z) with these three roundings, r has exactly the names of a and b, and no other object changes. Hence in formats with enough significant bits p and exponent range all calls succeed, and the value of r and its derivatives for any finite set of names are finite and within K / 2^p of those of phi(a, b), with one constant K for all formats and all iteration orders of the hash tables; all other objects keep value and derivatives, up to the same bound. Conditions of the last part: phi is differentiable at the exact values of a and b, with the given partial derivatives, all given by formulas inside their domains; a and b are differentiable for these names. If phi is one of the library's own operations +, -, *, /, atan2 and hypot, written with the formulas for value and partial derivatives that the library uses (a quotient is the product with the reciprocal), then in every format and under the same finiteness conditions r cannot be told apart from the library's result.", "quantifier": "all functions phi of two arguments given by formulas with their partial derivatives, all straight-line code before, points, names, formats, iteration orders", "why_tests_cant": "tests have no user-defined functions; that the recipe is right when the two operands share some, all or no names, or are the same object, for all formulas and formats is a statement about all programs", "anchors": ["include/hyperjet/hyperjet.h:2071-2074", "include/hyperjet/hyperjet.h:2143-2159", "include/hyperjet/hyperjet.h:2194-2197", "include/hyperjet/hyperjet.h:2236-2246", "include/hyperjet/hyperjet.h:2012-2024", "include/hyperjet/hyperjet.h:2281-2292"]}
