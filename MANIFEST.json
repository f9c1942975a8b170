{"claims": [
 {"property": "C01", "status": "proved", "theorems": ["HJ.C01_factories", "HJ.C01_imports", "HJ.C01_expressions", "HJ.C01_programs"], "note": "Factories, imports, all expressions, and all programs with in-place updates and setters."},
 {"property": "C02", "status": "proved", "theorems": ["HJ.C02_hessian_cells"], "note": ""},
 {"property": "C03", "status": "proved", "theorems": ["HJ.C03_framed_writes"], "note": ""},
 {"property": "C04", "status": "proved", "theorems": ["HJ.C04_flat_index"], "note": ""},
 {"property": "C05", "status": "proved", "theorems": ["HJ.C05_length_decoding", "HJ.C05_create_dynamic", "HJ.C05_create_static", "HJ.C05_violated_empty"], "note": "Exact decoding for every length L ≥ 1 and both orders, rejection of all other lengths ≥ 1; the code accepts L = 0 (size -1), proved as the violation C05_violated_empty."},
 {"property": "C06", "status": "proved", "theorems": ["HJ.C06_round_trip", "HJ.C06_rejects_shape", "HJ.C06_accepts_iff_length", "HJ.C06_violated_empty", "HJ.C06_injective"], "note": "All jets and states; the empty sequence is a proved exception; without exceptions and with assertions the inverted assertion of C47 aborts."},
 {"property": "C07", "status": "proved", "theorems": ["HJ.C07_static_size_argument", "HJ.C07_static_size_argument_noexc"], "note": ""},
 {"property": "C08", "status": "proved", "theorems": ["HJ.C08_factory_contents", "HJ.C08_factories_without_size", "HJ.C08_array"], "note": ""},
 {"property": "C09", "status": "proved", "theorems": ["HJ.C09_violated_bad_index"], "note": "The documented rejection does not exist in the code: every out-of-range index is undefined behaviour or silently writes elsewhere; proved as stated in the property."},
 {"property": "C10", "status": "proved", "theorems": ["HJ.C10_variables", "HJ.C10_other_orders"], "note": "The 34-branch dispatch is modelled branch by branch."},
 {"property": "C11", "status": "proved", "theorems": ["HJ.C11_hm_full", "HJ.C11_hm_zeros", "HJ.C11_hm_other_mode", "HJ.C11_hm_into", "HJ.C11_hm_order1_violated", "HJ.C11_ag", "HJ.C11_set_hm", "HJ.C11_from_gradient", "HJ.C11_from_arrays", "HJ.C11_reports_iff_symmetric", "HJ.C11_round_trip", "HJ.C11_wrong_dimensions", "HJ.C11_set_data"], "note": "Includes the out-of-bounds read of hm on first-order jets and of from_arrays with too small a matrix in release builds."},
 {"property": "C12", "status": "proved", "theorems": ["HJ.C12_pad_right"], "note": "Also shrinking with pad_right is proved to be undefined behaviour."},
 {"property": "C13", "status": "proved", "theorems": ["HJ.C13_pad_left"], "note": "Also shrinking with pad_left is proved to be undefined behaviour."},
 {"property": "C14", "status": "proved", "theorems": ["HJ.C14_resize_order1", "HJ.C14_resize_order2", "HJ.C14_violated_order2_grow", "HJ.C14_violated_order2_shrink", "HJ.C14_violated_failed_resize", "HJ.C14_violated_negative_size"], "note": "Order 1 holds; at order 2 the code violates the property (proved: which components slide where); a failing resize changes size()."},
 {"property": "C15", "status": "proved", "theorems": ["HJ.C15_size_mismatch", "HJ.C15_size_mismatch_noexc", "HJ.C15_violated_atan2", "HJ.C15_violated_hypot3"], "note": "Size mismatches of the checked operators throw (or are undefined behaviour without exceptions); atan2 and the three-argument hypot miss checks, proved as violations."},
 {"property": "C16", "status": "proved", "theorems": ["HJ.C16_gradient_exact"], "note": "Exact arithmetic (XReal). Accepted = every operation inside its domain, or n>=1, no log base 0 and all components finite."},
 {"property": "C17", "status": "proved", "theorems": ["HJ.C17_hessian_exact"], "note": "Exact arithmetic (XReal)."},
 {"property": "C18", "status": "proved", "theorems": ["HJ.C18_chain_rule"], "note": "Exact arithmetic (XReal)."},
 {"property": "C19", "status": "proved", "theorems": ["HJ.C19_no_undefined_behaviour", "HJ.C19_programs"], "note": "Expressions, and programs of assignments, in-place updates and in-range setters; the one exception (*= on second-order jets without variables) is C22_violated_mul_assign_size0."},
 {"property": "C20", "status": "proved", "theorems": ["HJ.C20_finite_iff_domain", "HJ.C20_log_base_zero", "HJ.C20_no_variable"], "note": "Two exceptions proved separately: log to base 0 and n = 0."},
 {"property": "C21", "status": "proved", "theorems": ["HJ.C21_programs"], "note": ""},
 {"property": "C22", "status": "proved", "theorems": ["HJ.C22_add_assign", "HJ.C22_sub_assign", "HJ.C22_mul_assign", "HJ.C22_div_assign", "HJ.C22_scalar_assign", "HJ.C22_violated_mul_assign_size0", "HJ.C22_violated_div_rounding"], "note": "At order 2 with no variables *= is undefined behaviour (proved). / and /= differ in floating point (proved for every rounding to nearest)."},
 {"property": "C23", "status": "proved", "theorems": ["HJ.C23_add_sub_self", "HJ.C23_mul_self_order1", "HJ.C23_div_self", "HJ.C23_violated_mul_self", "HJ.C23_violated_mul_self_differs"], "note": "a *= a at order 2 is wrong; the Hessian the code leaves is proved."},
 {"property": "C24", "status": "proved", "theorems": ["HJ.C24_own_component", "HJ.C24_violated_mul_own_component", "HJ.C24_violated_mul_own_value"], "note": "a *= a.f() is wrong; what the code leaves is proved for every referenced component."},
 {"property": "C25", "status": "proved", "theorems": ["HJ.C25_commutative_ring"], "note": ""},
 {"property": "C26", "status": "proved", "theorems": ["HJ.C26_division"], "note": ""},
 {"property": "C27", "status": "proved", "theorems": ["HJ.C27_scalar_is_constant"], "note": ""},
 {"property": "C28", "status": "proved", "theorems": ["HJ.C28_orders_agree"], "note": ""},
 {"property": "C29", "status": "proved", "theorems": ["HJ.C29_static_dynamic_agree"], "note": ""},
 {"property": "C30", "status": "proved", "theorems": ["HJ.C30_equal_functions", "HJ.C30_sin_cos", "HJ.C30_exp_log", "HJ.C30_hypot", "HJ.C30_pow_two"], "note": ""},
 {"property": "C31", "status": "proved", "theorems": ["HJ.C31_eval_is_taylor", "HJ.C31_short_argument", "HJ.C31_taylor"], "note": "eval is the Taylor polynomial (also for a too short argument), and approximates the function up to o(|d|^order)"},
 {"property": "C32", "status": "proved", "theorems": ["HJ.C32_comparisons", "HJ.C32_scalar_left", "HJ.C32_sparse"], "note": ""},
 {"property": "C33", "status": "proved", "theorems": ["HJ.C33_abs", "HJ.C33_abs_jet"], "note": ""},
 {"property": "C34", "status": "proved", "theorems": ["HJ.C34_pad_right_commutes", "HJ.C34_pad_left_commutes"], "note": ""},
 {"property": "C35", "status": "proved", "theorems": ["HJ.C35_renumbering"], "note": ""},
 {"property": "C36", "status": "proved", "theorems": ["HJ.C36_unused_variable"], "note": ""},
 {"property": "C37", "status": "proved", "theorems": ["HJ.C37_only_target", "HJ.C37_program", "HJ.C37_throws_before_writing", "HJ.C37_throw_changes_nothing"], "note": ""},
 {"property": "C38", "status": "proved", "theorems": ["HJ.C38_violated_dynamic", "HJ.C38_violated_default", "HJ.C38_static"], "note": "Violations proved for dynamic objects, correct behaviour for static ones."},
 {"property": "C39", "status": "proved", "theorems": ["HJ.C39_violated_dynamic", "HJ.C39_static"], "note": "Violation proved for dynamic objects, correct behaviour for static ones."},
 {"property": "C40", "status": "proved", "theorems": ["HJ.C40_chain_rule", "HJ.C40_gradient_exact", "HJ.C40_finite_iff_domain", "HJ.C40_violated_constants"], "note": "XReal arithmetic; AcceptedSS: inside the domain, or finite under the stated side conditions; C40_violated_constants shows they are needed"},
 {"property": "C41", "status": "proved", "theorems": ["HJ.C41_names", "HJ.C41_support"], "note": "any scalar arithmetic"},
 {"property": "C42", "status": "proved", "theorems": ["HJ.C42_order_independent", "HJ.C42_assign", "HJ.C42_violated_text"], "note": "any scalar arithmetic, any permuting order oracle; C42_violated_text: printing depends on the order"},
 {"property": "C43", "status": "proved", "theorems": ["HJ.C43_mul_assign", "HJ.C43_scalar_assign", "HJ.C43_assign_exact", "HJ.C43_self_add_sub", "HJ.C43_violated_self_mul", "HJ.C43_violated_self_div"], "note": "*= and the scalar forms in any arithmetic, the others in exact arithmetic; the code violates the property for a *= a and a /= a, which is proved with the exact condition"},
 {"property": "C44", "status": "proved", "theorems": ["HJ.C44_violated_undefined", "HJ.C44_eval", "HJ.C44_violated_value"], "note": "the property is violated by the code: undefined by the standard, and without the value f otherwise"},
 {"property": "C45", "status": "proved", "theorems": ["HJ.C45_agree", "HJ.C45_variables_agree", "HJ.C45_violated_outside"], "note": "XReal arithmetic"},
 {"property": "C46", "status": "proved", "theorems": ["HJ.C46_pow", "HJ.C46_pow_at_zero"], "note": ""},
 {"property": "C47", "status": "proved", "theorems": ["HJ.C47_violated_assert_inverted", "HJ.C47_violated_create_aborts", "HJ.C47_release_accepts"], "note": "The assertion is inverted: violations proved, and what the release build does."},
 {"property": "C48", "status": "proved", "theorems": ["HJ.C48_f", "HJ.C48_f_violated_integer_first", "HJ.C48_d", "HJ.C48_d_numbers", "HJ.C48_d_violated_mixed", "HJ.C48_dd", "HJ.C48_dd_numbers", "HJ.C48_dd_violated_mixed", "HJ.C48_dd_violated_order1", "HJ.C48_violated_sparse", "HJ.C48_empty"], "note": "numpy.vectorize modelled for one-dimensional object arrays (dtype of the first output, core shape of the first output, broadcasting). Exceptions are proved as C48_*violated*."},
 {"property": "C49", "status": "proved", "theorems": ["HJ.C49_text"], "note": ""},
 {"property": "C50", "status": "proved", "theorems": ["HJ.C50_order1", "HJ.C50_violated_order2", "HJ.C50_violated_pickle"], "note": "Order 1 below -1 throws; size -1 and all negative sizes at order 2 are accepted (proved as violations)."},
 {"property": "C51", "status": "proved", "theorems": ["HJ.C51_value", "HJ.C51_value_no_division", "HJ.C51_sparse", "HJ.C51_dense_sparse", "HJ.C51_exact", "HJ.C51_violated_division"], "note": "Division by a jet or number is x * (1 / y), which differs from x / y in floating point (proved for every rounding to nearest)."},
 {"property": "C52", "status": "proved", "theorems": ["HJ.C52_functional", "HJ.C52_in_place", "HJ.C52_alias", "HJ.C52_violated_number"], "note": "Value semantics for unshared programs by simulation; exact effect of in-place operators in any sharing state; += and -= with numbers proved to rebind."},
 {"property": "C53", "status": "proved", "theorems": ["HJ.C53_memory_safe", "HJ.C53_gradient_array", "HJ.C53_data_array", "HJ.C53_violated_resize"], "note": "No UB for programs without resize (any sharing); arrays track their object; growth by resize leaves them dangling."},
 {"property": "C54", "status": "proved", "theorems": ["HJ.C54_expressions", "HJ.C54_programs", "HJ.C54_violated_mul_self"], "note": "exact real arithmetic; the exception is proved as C54_violated_mul_self; t /= t and second names for an object are excluded from C54_programs (aliasing is C52)"},
 {"property": "C55", "status": "proved", "theorems": ["HJ.C55_table", "HJ.C55_programs", "HJ.C55_frame"], "note": "Table (verdict) proved right for every call and state; safe programs stay safe; frame. pybind11 conversions as stated in DESIGN."},
 {"property": "C56", "status": "proved", "theorems": ["HJ.C56_expressions", "HJ.C56_programs", "HJ.C56_order_independent", "HJ.C56_safe", "HJ.C56_violated_mul_self", "HJ.C56_violated_div_self"], "note": "exact real arithmetic for C56_expressions and C56_programs; any arithmetic for C56_safe and C56_order_independent; the exceptions are proved as C56_violated_*"},
 {"property": "C57", "status": "proved", "theorems": ["HJ.C57_dense_python", "HJ.C57_dense_cpp", "HJ.C57_sparse_python", "HJ.C57_sparse_cpp", "HJ.C57_module", "HJ.C57_unbound", "HJ.C57_refused"], "note": "exact real arithmetic; pybind11's overload resolution as stated in DESIGN"},
 {"property": "C58", "status": "proved", "theorems": ["HJ.C58_polynomial", "HJ.C58_variables", "HJ.C58_positive", "HJ.C58_double", "HJ.C58_cancellation", "HJ.C58_sparse", "HJ.C58_sparse_double"], "note": "Dense jets: C58_polynomial, C58_variables, C58_positive, C58_double, C58_cancellation; sparse scalars: C58_sparse and C58_sparse_double. Overflow, underflow, infinities and NaN are outside the error model; division by a jet and the transcendental functions are not covered."},
 {"property": "C59", "status": "proved", "theorems": ["HJ.C59_values", "HJ.C59_arrays", "HJ.C59_stale"], "note": "values of every call of the dense Python classes; *= of a second-order object with itself and atan2, hypot(x,y,z) with different sizes are excluded (C23, C15 violations)"},
 {"property": "C60", "status": "proved", "theorems": ["HJ.C60_length", "HJ.C60_subscripts", "HJ.C60_root", "HJ.C60_decode", "HJ.C60_agrees", "HJ.C60_wrapped", "HJ.C60_violated_size", "HJ.C60_violated_wrapped"], "note": "64-bit index arithmetic and double square root; violation (oversized requests) proved separately"},
 {"property": "C61", "status": "proved", "theorems": ["HJ.C61_path", "HJ.C61_exact", "HJ.C61_no_ties", "HJ.C61_violated_tie"], "note": "Paths in any arithmetic; exact derivatives when no executed comparison is a tie (or ties are steady); counterexample at ties."},
 {"property": "C62", "status": "proved", "theorems": ["HJ.C62_sharing", "HJ.C62_exact", "HJ.C62_no_ties"], "note": "Straight-line and branching Python programs with arbitrary aliasing; exact real arithmetic (XReal). Excluded and proved wrong elsewhere: order-2 t *= t (C54_violated_mul_self), ties (C61_violated_tie)."},
 {"property": "C63", "status": "proved", "theorems": ["HJ.C63_sharing", "HJ.C63_exact", "HJ.C63_no_ties"], "note": "As C62 for SScalar, for all hash orders; nearness along coordinate lines because a sparse scalar has partial derivatives only. Excluded and proved wrong elsewhere: t *= t, t /= t (C56_violated_*)."},
 {"property": "C64", "status": "proved", "theorems": ["HJ.C64_memory_safe", "HJ.C64_path"], "note": "Any arithmetic. C64_path excludes reading and writing elements through array views (which may change values at offsets the program on numbers does not have)."},
 {"property": "C65", "status": "proved", "theorems": ["HJ.C65_safe", "HJ.C65_order_independent", "HJ.C65_path", "HJ.C65_dense_agrees"], "note": "Any arithmetic. C65_path and C65_dense_agrees exclude e.d(k)."},
 {"property": "C66", "status": "proved", "theorems": ["HJ.C66_limit", "HJ.C66_precision", "HJ.C66_bits", "HJ.C66_sparse"], "note": "for arithmetics with relative error bounds on all operators and library functions (no overflow or underflow)"},
 {"property": "C67", "status": "proved", "theorems": ["HJ.C67_operation", "HJ.C67_exact", "HJ.C67_relative", "HJ.C67_roundings", "HJ.C67_double", "HJ.C67_sparse", "HJ.C67_violated_tanh", "HJ.C67_violated_asin"], "note": "relative error bounds on all operators and library functions (no overflow or underflow); asin, acos, atanh, tanh, pow under the conditions of the statement; C67_violated_* show that those of asin and tanh are needed; in-place operators are not covered"},
 {"property": "C68", "status": "proved", "theorems": ["HJ.C68_limit", "HJ.C68_precision", "HJ.C68_bits", "HJ.C68_violated_tie"], "note": "C68_limit: the number of rounds is chosen before the arithmetics. The hypotheses on the run speak of real numbers only. That there is a function U computed near x is C61_no_ties. C68_violated_tie shows that the condition on comparisons is needed."},
 {"property": "C69", "status": "proved", "theorems": ["HJ.C69_rate", "HJ.C69_bits", "HJ.C69_relative", "HJ.C69_programs", "HJ.C69_program_bits", "HJ.C69_sparse", "HJ.C69_sharp"], "note": "K and u0 are chosen before the arithmetic. C69_bits and C69_program_bits: p-bit rounding. Same hypotheses as C66 and C68. C69_sharp: the order cannot be improved."},
 {"property": "C70", "status": "proved", "theorems": ["HJ.C70_rate", "HJ.C70_bits", "HJ.C70_programs", "HJ.C70_program_bits", "HJ.C70_sparse", "HJ.C70_violated_unbounded"], "note": "K, u0 and the number of rounds are chosen before the point and the arithmetic. C70_violated_unbounded shows that compactness cannot be dropped. Programs start with jets whose components are continuous on S; C70_program_bits: variables and constants."},
 {"property": "C71", "status": "proved", "theorems": ["HJ.C71_formats", "HJ.C71_program_formats", "HJ.C71_sparse_formats", "HJ.C71_rate", "HJ.C71_programs", "HJ.C71_sparse", "HJ.C71_violated_overflow"], "note": "IEEE p emax has p bits, exponents up to emax, gradual underflow, infinities and NaN, one zero, and correctly rounded library functions; C71_rate, C71_programs and C71_sparse are for every arithmetic whose operations on finite numbers are accurate while in range (FinErr). K, N and the number of rounds are chosen before point and format. C71_violated_overflow: the range cannot be dropped."},
 {"property": "C72", "status": "proved", "theorems": ["HJ.C72_operands", "HJ.C72_quiet", "HJ.C72_sparse", "HJ.C72_polynomial", "HJ.C72_operation", "HJ.C72_rate", "HJ.C72_violated_divide", "HJ.C72_violated_value", "HJ.C72_violated_hypot", "HJ.C72_violated_atan2"], "note": "the format is IEEE p emax with correctly rounded library functions and one zero; whether a component is unaffected is what Watched p emax records; division, hypot and atan2 overflow or underflow on ordinary results (violated theorems)"},
 {"property": "C73", "status": "proved", "theorems": ["HJ.C73_safe", "HJ.C73_path", "HJ.C73_types", "HJ.C73_exact", "HJ.C73_no_ties", "HJ.C73_precision"], "note": "any client: a state type, a function to the next call and a function of the answer to the next state; the calls are statements, comparisons and reads of f, g, h"},
 {"property": "C74", "status": "proved", "theorems": ["HJ.C74_threads", "HJ.C74_safe", "HJ.C74_ends", "HJ.C74_schedules"], "note": "calls of the library are the steps of a thread; the memory is that of the objects, as the header has no static or global variables"},
 {"property": "C75", "status": "proved", "theorems": ["HJ.C75_newton", "HJ.C75_implicit", "HJ.C75_formats"], "note": "exact arithmetic and formats; the start value is the exact root, in the formats the root rounded to the format; K may depend on the number of steps"},
 {"property": "C76", "status": "proved", "theorems": ["HJ.C76_call", "HJ.C76_safe", "HJ.C76_ends", "HJ.C76_moves", "HJ.C76_contents", "HJ.C76_violated_moved", "HJ.C76_bad_setters"], "note": "Any client code as in C73, objects with sizes of their own (sz), library calls of Model/Objects.lean. C76_call: the table ObjCall.fate is right for every call. C76_safe/C76_ends: careful client code. C76_moves: run with moves and run with copies in lockstep. C76_contents: move and swap. C76_violated_moved: moved-from dynamic jets. C76_bad_setters: invalid indices of setters with assertions. Careful is a hypothesis on the client, met by exPadded (catches the size exception, pads, moves, adds)."},
 {"property": "C77", "status": "proved", "theorems": ["HJ.C77_dense_safe", "HJ.C77_dense_path", "HJ.C77_dense_exact", "HJ.C77_dense_no_ties", "HJ.C77_sparse_safe", "HJ.C77_sparse_dense", "HJ.C77_sparse_exact", "HJ.C77_sparse_no_ties"], "note": "Any client code as in C73, over the Python machines of C62-C65: Machine.library makes exceptions answers. Caller.Within: the states the client can reach with possible answers. C77_dense_safe/C77_dense_path: no undefined behaviour, lockstep with numbers. C77_dense_exact/C77_dense_no_ties: derivatives. C77_sparse_safe: safety and independence of iteration orders. C77_sparse_dense: sparse against dense. C77_sparse_exact/C77_sparse_no_ties: partial derivatives."},
 {"property": "C78", "status": "proved", "theorems": ["HJ.C78_statement", "HJ.C78_program", "HJ.C78_client", "HJ.C78_sparse"], "note": "C78_statement: frame for dense statements. C78_program: the failing statement and the state before it. C78_client: answers of the library of C77 against one-statement programs. C78_sparse: SScalar (there the in-place operators of the model compute the new object before it is stored, so the frame part is about expressions and exceptions only)."},
 {"property": "C79", "status": "proved", "theorems": ["HJ.C79_safe", "HJ.C79_path", "HJ.C79_dense", "HJ.C79_exact", "HJ.C79_no_ties"], "note": "C79_exact and C79_no_ties exclude v *= v and v /= v on the same object, where the code is wrong (C43); C79_safe includes them."},
 {"property": "C80", "status": "proved", "theorems": ["HJ.C80_rate", "HJ.C80_formats"], "note": "Sums and products are accumulated in place in the hash tables; the oracle for the iteration order is universally quantified. The in-place product and quotient of an object with itself are excluded as in C79, where they give wrong derivatives."},
 {"property": "C81", "status": "proved", "theorems": ["HJ.C81_threads", "HJ.C81_ends", "HJ.C81_schedules"], "note": ""},
 {"property": "C82", "status": "proved", "theorems": ["HJ.C82_rate", "HJ.C82_formats", "HJ.C82_functions"], "note": "C82_rate: any arithmetic of enough precision and range; C82_formats: binary formats, started with numbers only (the code creates its variables); C82_functions identifies the exact functions with those of the code on plain numbers. In-place t *= e with e a name of the object t at order 2 is excluded as in C62, where it gives wrong Hessians; ** of nonpositive numbers is excluded because the error model of pow asks for positive arguments."},
 {"property": "C83", "status": "proved", "theorems": ["HJ.C83_rate", "HJ.C83_formats", "HJ.C83_functions"], "note": "C83_rate: any arithmetic of enough precision and range, any iteration order; C83_formats: binary formats, started with numbers only (the code creates its variables); C83_functions identifies the exact functions with those of the code on plain numbers on the coordinate lines, for code started with numbers only. In-place t *= e and t /= e with e a name of the object t are excluded as in C56; ** of nonpositive numbers is excluded because the error model of pow asks for positive arguments."},
 {"property": "C84", "status": "proved", "theorems": ["HJ.C84_rate", "HJ.C84_formats"], "note": "C84_rate: any arithmetic of enough precision and range; C84_formats: binary formats. Strengthens C73_precision (no overflow there, one point only). Code that reads numbers and pow of nonpositive numbers are excluded, the latter because the error model of pow asks for positive arguments."},
 {"property": "C85", "status": "proved", "theorems": ["HJ.C85_rate", "HJ.C85_client", "HJ.C85_taylor"], "note": "C85_rate: any arithmetic in which 0.5 is exact; C85_client: formats, after client code as in C84, against the Taylor polynomial; C85_taylor: against the computed function at the displaced point. The direction may be longer than the number of variables in C85_rate; a shorter one is undefined behaviour (C31_short_argument)."},
 {"property": "C86", "status": "proved", "theorems": ["HJ.C86_rate", "HJ.C86_client"], "note": "For implementations with equal end iterators only (see C44); first-order change without the value, as the code computes it."},
 {"property": "C87", "status": "proved", "theorems": ["HJ.C87_rate", "HJ.C87_formats", "HJ.C87_newton"], "note": "C87_rate: any arithmetic of enough precision and range in which 0.5 is exact; C87_formats: binary formats; C87_newton: Newton's method with one unknown, the state counts the steps. Numbers are computed with the operators and std functions of the same arithmetic. Unlike C84, code may read numbers and use them. A setter replaces the exact function of the jet by one that differs at x in that derivative only."},
 {"property": "C88", "status": "proved", "theorems": ["HJ.C88_exact", "HJ.C88_library", "HJ.C88_rate", "HJ.C88_formats"], "note": "C88_exact: every arithmetic, the exact sequence of roundings. C88_library: in every arithmetic the objects of the library's own functions (for atanh of second order where squaring agrees with multiplying, as in the formats). C88_rate: any arithmetic of enough precision and range in which 0.5 is exact, any jet a; C88_formats: binary formats, a computed by a formula of the variables. The derivatives of phi are hypotheses (HasDerivAt); the user code is custom in Model/Custom.lean. a and r must differ, since writing the gradient of a in place would destroy what the Hessian loop reads."},
 {"property": "C89", "status": "proved", "theorems": ["HJ.C89_blocks", "HJ.C89_expressions", "HJ.C89_local", "HJ.C89_variables", "HJ.C89_violated_order"], "note": "for every arithmetic; client code with statements without indices (blocks) or all plain statements (locality)"},
 {"property": "C90", "status": "proved", "theorems": ["HJ.C90_local", "HJ.C90_names", "HJ.C90_violated_missing"], "note": "for every arithmetic and every pair of iteration orders; client code on ssLibrary (no eval, no text output)"},
 {"property": "C91", "status": "proved", "theorems": ["HJ.C91_same", "HJ.C91_start", "HJ.C91_formats", "HJ.nanLaws_ieee", "HJ.nanLaws_xreal"], "note": "Zeros have no sign in the model of formats. *= and /= with the same object on both sides are excluded (C43). C45_violated_outside (see C45) shows that the exception for NaN is needed."},
 {"property": "C92", "status": "proved", "theorems": ["HJ.C92_expressions", "HJ.C92_scaled", "HJ.C92_seeds", "HJ.scales_real", "HJ.scales_ieee", "HJ.scales_units", "HJ.C92_sparse", "HJ.C92_violated_underflow"], "note": "C92_scaled is for all client code, C92_expressions for single expressions, C92_seeds gives starting objects (factories against the same object with scaled seeds). scales_real, scales_ieee and scales_units prove the hypothesis Scales for factors in exact arithmetic, for signs in every format, and for powers of two with unbounded exponents. C92_sparse is the version for SScalar. C92_violated_underflow shows why powers of two are not claimed for formats with a smallest number."},
 {"property": "C93", "status": "proved", "theorems": ["HJ.C93_expressions", "HJ.C93_programs", "HJ.C93_sparse_expressions", "HJ.C93_sparse_programs", "HJ.signLaws_xreal", "HJ.signLaws_ieee", "HJ.sparseLaws_xreal", "HJ.sparseLaws_ieee", "HJ.C93_violated_abs"], "note": "C93_expressions for expressions, C93_programs for client code, C93_sparse_expressions and C93_sparse_programs for sparse scalars; from the rules SignLaws and SparseLaws, which signLaws_xreal and sparseLaws_xreal prove for exact arithmetic with infinities and NaN and signLaws_ieee and sparseLaws_ieee for every binary format (zeros without sign; <cmath> correctly rounded). C93_violated_abs shows why abs is left out. x / (-y), tan, cbrt and reciprocal are left out because at 0 or at a pole the sign of the infinity depends on the sign of a zero. For sparse scalars += and -= are not rewritten as in-place operators, because x + y multiplies the derivatives by the constant 1, which changes numbers outside the format."},
 {"property": "C94", "status": "proved", "theorems": ["HJ.C94_rate", "HJ.C94_formats", "HJ.C94_newton"], "note": "C94_rate: any arithmetic of enough precision and range, any seeds; C94_formats: binary formats, started with constants; C94_newton: Newton's method with one unknown, the state counts the steps. Counterpart of C87 for SScalar; sparse scalars have no setters. eval is the model with strict = false (end iterators of different tables equal)."},
 {"property": "C95", "status": "proved", "theorems": ["HJ.C95_exact", "HJ.C95_library", "HJ.C95_rate", "HJ.C95_formats"], "note": "C95_exact: every format, value unchanged and one rounding per derivative (formats of the model have no signed zeros). C95_library: the same bits as the library's own functions. C95_rate, C95_formats: distance from the derivatives of phi(a), for any arithmetic and any code before."},
 {"property": "C96", "status": "proved", "theorems": ["HJ.C96_formats"], "note": "Sparse counterpart of C75, with rounding errors, after any straight-line code and with the derivative taken from the library."},
 {"property": "C97", "status": "proved", "theorems": ["HJ.C97_formats", "HJ.C97_exact", "HJ.C97_library"], "note": "Two-argument version of C95. In C97_library the quotient is written as the product with the reciprocal, which is what the library computes."}
]}
