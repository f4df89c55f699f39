{
 "claims": [
  {
   "property": "C01",
   "status": "partial",
   "theorems": [
    "Gal.Rat32.C01_add",
    "Gal.Rat32.C01_sub",
    "Gal.Rat32.C01_mul",
    "Gal.Rat32.C01_imul",
    "Gal.Rat32.C01_neg",
    "Gal.Rat32.C01_divInt",
    "Gal.Rat32.C01_div",
    "Gal.Rat32.C01_mulAssign",
    "Gal.Rat32.C01_addAssign",
    "Gal.Rat32.C01_divAssign_partial",
    "Gal.Rat32.C01_divAssign_negative"
   ],
   "note": "Every operator is exact whenever the rounding gate does not act; `/=` by a negative rational yields a negative denominator, proved as C01_divAssign_negative, so only a partial statement holds for it."
  },
  {
   "property": "C02",
   "status": "partial",
   "theorems": [
    "Gal.Rat32.C02_gate_error",
    "Gal.Rat32.C02_advertised_bound_fails",
    "Gal.Rat32.C02_unit_fractions_flushed",
    "Gal.Rat32.C02_even_partial"
   ],
   "note": "The advertised bound of the source comment is false (witness proved); the bound that does hold for all inputs is proved."
  },
  {
   "property": "C03",
   "status": "partial",
   "theorems": [
    "Gal.Rat32.C03_eq_characterisation",
    "Gal.Rat32.C03_eq_partial",
    "Gal.Rat32.C03_eq_not_reflexive",
    "Gal.Rat32.C03_eq_confuses",
    "Gal.Rat32.C03_eq_fails",
    "Gal.Rat32.C03_ne",
    "Gal.Rat32.C03_ne_needs_lowest",
    "Gal.Rat32.C03_neInt",
    "Gal.Rat32.C03_eq_ne_inconsistent"
   ],
   "note": "== is wrong in general (proved: not reflexive, confuses distinct values); the exact characterisation and the correct sub-case are proved."
  },
  {
   "property": "C04",
   "status": "proved",
   "theorems": [
    "Gal.Rat32.C04_lt",
    "Gal.Rat32.C04_gt",
    "Gal.Rat32.C04_trichotomy",
    "Gal.Rat32.C04_lt_overflow"
   ],
   "note": "Positive denominators and cross products within 32 bits; overflow outside that range is shown by a witness."
  },
  {
   "property": "C05",
   "status": "partial",
   "theorems": [
    "Gal.C05_pow_partial",
    "Gal.C05_zero",
    "Gal.C05_fails"
   ],
   "note": "pow is b^n for n>=1; exponent 0 falls into the wrong branch, proved by witness."
  },
  {
   "property": "C06",
   "status": "proved",
   "theorems": [
    "Gal.C06_nextPow2_32",
    "Gal.C06_nextPow2_64",
    "Gal.C06_nextPow2_zero"
   ],
   "note": ""
  },
  {
   "property": "C07",
   "status": "proved",
   "theorems": [
    "Gal.C07_crc32_8",
    "Gal.C07_crc32",
    "Gal.C07_crc32_injective",
    "Gal.C07_crc32_range",
    "Gal.C07_crc32_surjective"
   ],
   "note": ""
  },
  {
   "property": "C08",
   "status": "proved",
   "theorems": [
    "Gal.C08_rot32",
    "Gal.C08_rot32_four",
    "Gal.C08_rot32_injective",
    "Gal.C08_leadingSetIndex",
    "Gal.C08_msvc_always_wrong",
    "Gal.C08_popCount",
    "Gal.C08_nextEven"
   ],
   "note": ""
  },
  {
   "property": "C09",
   "status": "proved",
   "theorems": [
    "Gal.C09_sort",
    "Gal.C09_sortAll"
   ],
   "note": ""
  },
  {
   "property": "C10",
   "status": "proved",
   "theorems": [
    "Gal.C10_geometric",
    "Gal.C10_geometric_range",
    "Gal.C10_geometric_unique"
   ],
   "note": "Against Mathlib's CliffordAlgebra."
  },
  {
   "property": "C11",
   "status": "proved",
   "theorems": [
    "Gal.C11_unit",
    "Gal.C11_assoc",
    "Gal.C11_square",
    "Gal.C11_anticommute"
   ],
   "note": ""
  },
  {
   "property": "C12",
   "status": "proved",
   "theorems": [
    "Gal.C12_exterior",
    "Gal.C12_exterior_zero_iff",
    "Gal.C12_exterior_of_geometric",
    "Gal.C12_assoc"
   ],
   "note": "Against Mathlib's ExteriorAlgebra."
  },
  {
   "property": "C13",
   "status": "proved",
   "theorems": [
    "Gal.C13_contraction",
    "Gal.C13_contraction_grade"
   ],
   "note": "Against Mathlib's CliffordAlgebra.contractLeft."
  },
  {
   "property": "C14",
   "status": "proved",
   "theorems": [
    "Gal.C14_inner",
    "Gal.C14_swap",
    "Gal.C14_not_symmetric"
   ],
   "note": ""
  },
  {
   "property": "C15",
   "status": "proved",
   "theorems": [
    "Gal.C15_reverse",
    "Gal.C15_involution",
    "Gal.C15_antiautomorphism"
   ],
   "note": "Sign on k-blades at value level against the Clifford algebra; involution and anti-automorphism as equality of results."
  },
  {
   "property": "C16",
   "status": "proved",
   "theorems": [
    "Gal.C16_complement",
    "Gal.C16_dual",
    "Gal.C16_twice",
    "Gal.C16_involution_odd"
   ],
   "note": "Against Mathlib's ExteriorAlgebra."
  },
  {
   "property": "C17",
   "status": "proved",
   "theorems": [
    "Gal.C17_pseudoscalar",
    "Gal.C17_inverse",
    "Gal.C17_clifford",
    "Gal.C17_degenerate",
    "Gal.C17_no_inverse"
   ],
   "note": "All signatures of dimension at most 8 (elements are stored in 8 bits)."
  },
  {
   "property": "C18",
   "status": "partial",
   "theorems": [
    "Gal.C18_even",
    "Gal.C18_bivector_partial",
    "Gal.C18_bivector_false"
   ],
   "note": "even_mv proved; bivector_mv is right up to dimension 4 and wrong in every dimension from 5 to 8 (proved)."
  },
  {
   "property": "C19",
   "status": "partial",
   "theorems": [
    "Gal.C19_sum",
    "Gal.C19_sum_value",
    "Gal.C19_sum_fractional_false"
   ],
   "note": "Proved for integer degrees; with fractional degrees the merge loses exponents (witness)."
  },
  {
   "property": "C20",
   "status": "proved",
   "theorems": [
    "Gal.C20_product",
    "Gal.C20_geometric",
    "Gal.C20_exterior",
    "Gal.C20_contraction",
    "Gal.C20_inner"
   ],
   "note": "Against Mathlib's Clifford and exterior algebras."
  },
  {
   "property": "C21",
   "status": "partial",
   "theorems": [
    "Gal.C21_scale",
    "Gal.C21_negate",
    "Gal.C21_shift",
    "Gal.C21_shift_zero_not_canonical",
    "Gal.C21_component",
    "Gal.C21_select_grade_partial",
    "Gal.C21_select_scalar",
    "Gal.C21_select_grade_false",
    "Gal.C21_extract",
    "Gal.C21_extract_unsorted_false"
   ],
   "note": "select_grade stops at the first larger grade (witness); extract needs ascending elements (witness); shift by zero leaves a non-canonical term (witness)."
  },
  {
   "property": "C22",
   "status": "proved",
   "theorems": [
    "Gal.C22_collate"
   ],
   "note": ""
  },
  {
   "property": "C23",
   "status": "proved",
   "theorems": [
    "Gal.C23_unique",
    "Gal.C23_zero_empty",
    "Gal.C23_clifford"
   ],
   "note": ""
  },
  {
   "property": "C24",
   "status": "partial",
   "theorems": [
    "Gal.C24_constant",
    "Gal.C24_power_partial",
    "Gal.C24_power_false",
    "Gal.C24_degree_false"
   ],
   "note": "Constant divisors proved; for a power of an indeterminate the value is right only if that indeterminate is absent from the dividend (witness), and the stored degree has the wrong sign (witness)."
  },
  {
   "property": "C25",
   "status": "proved",
   "theorems": [
    "Gal.C25_null_vectors",
    "Gal.C25_to_natural",
    "Gal.C25_to_null",
    "Gal.C25_round_trip",
    "Gal.C25_round_trip'"
   ],
   "note": ""
  },
  {
   "property": "C26",
   "status": "proved",
   "theorems": [
    "Gal.C26_sum",
    "Gal.C26_product",
    "Gal.C26_shift",
    "Gal.C26_component",
    "Gal.C26_select_grade",
    "Gal.C26_extract",
    "Gal.C26_extract_unsorted_false",
    "Gal.C26_dual",
    "Gal.C26_in_place",
    "Gal.C26_divide_const",
    "Gal.C26_null_basis",
    "Gal.C26_resize"
   ],
   "note": "extract overruns when the element list is not ascending (witness)."
  },
  {
   "property": "C27",
   "status": "partial",
   "theorems": [
    "Gal.Stk.C27_fresh",
    "Gal.Stk.C27_push",
    "Gal.Stk.C27_peek",
    "Gal.Stk.C27_popN",
    "Gal.Stk.C27_push_popN",
    "Gal.Stk.C27_pop_partial",
    "Gal.Stk.C27_pop_false",
    "Gal.Stk.C27_pop_full"
   ],
   "note": "pop() reads the slot above the top (witness); pop(n), peek and push are last-in first-out."
  },
  {
   "property": "C28",
   "status": "partial",
   "theorems": [
    "Gal.Tup.C28_push",
    "Gal.Tup.C28_append",
    "Gal.Tup.C28_pop",
    "Gal.Tup.C28_push_pop",
    "Gal.Tup.C28_split_partial",
    "Gal.Tup.C28_split_zero",
    "Gal.Tup.C28_split_drop_false",
    "Gal.Tup.C28_split_drop_partial",
    "Gal.Tup.C28_find",
    "Gal.Tup.C28_apply",
    "Gal.Tup.C28_apply_reverse",
    "Gal.Tup.C28_split_at_type_false",
    "Gal.Tup.C28_set_get",
    "Gal.Tup.C28_mutate"
   ],
   "note": "split<0> loses the tuple, split_drop drops from the wrong place, and split_at_type, which calls it, keeps the element it should omit and loses the last one (all refuted); the rest is proved."
  },
  {
   "property": "C29",
   "status": "proved",
   "theorems": [
    "Gal.C29_select_listed",
    "Gal.C29_select_absent",
    "Gal.C29_select_range",
    "Gal.C29_select_many",
    "Gal.C29_select_many_zero_false",
    "Gal.C29_select_write",
    "Gal.C29_select_null",
    "Gal.C29_ie",
    "Gal.C29_ie_select",
    "Gal.C29_scalar"
   ],
   "note": "selecting several elements of the zero entity returns a single zero (witness)."
  },
  {
   "property": "C30",
   "status": "partial",
   "theorems": [
    "Gal.C30_vga_vector",
    "Gal.C30_vga_rotor",
    "Gal.C30_vga_point",
    "Gal.C30_pga_plane",
    "Gal.C30_pga_motor",
    "Gal.C30_pga_line",
    "Gal.C30_cga_point",
    "Gal.C30_vga_vector_round_trip",
    "Gal.C30_vga_point_round_trip",
    "Gal.C30_vga_point_conversion",
    "Gal.C30_vga_point_same",
    "Gal.C30_pga_plane_round_trip",
    "Gal.C30_pga_motor_round_trip",
    "Gal.C30_pga_line_round_trip",
    "Gal.C30_pga2_line_round_trip",
    "Gal.C30_cga_point_round_trip",
    "Gal.C30_pga_rotor_false",
    "Gal.C30_pga_rotor_order_false",
    "Gal.C30_pga_translator_false",
    "Gal.C30_pga_vector_false",
    "Gal.C30_pga2_vector_false",
    "Gal.C30_pga2_point_false",
    "Gal.C30_pga2_point_of_false"
   ],
   "note": "Proved for the VGA, CGA and most PGA entities; the tables of pga::rotor, pga::translator, pga::vector, pga2::vector and pga2::point are wrong (witnesses)."
  },
  {
   "property": "C31",
   "status": "partial",
   "theorems": [
    "Gal.C31_monomial_partial",
    "Gal.C31_function",
    "Gal.C31_term",
    "Gal.C31_canonical",
    "Gal.C31_function_zero_false",
    "Gal.C31_degree_zero_false",
    "Gal.C31_negative_denominator_false"
   ],
   "note": "Proved for non-zero degrees and positive denominators; degree 0, denominator -1 and functions of a zero coefficient are evaluated wrongly (witnesses)."
  },
  {
   "property": "C32",
   "status": "partial",
   "theorems": [
    "Gal.C32_entity_partial",
    "Gal.C32_results",
    "Gal.C32_zero_false",
    "Gal.C32_negative_denominator_false"
   ],
   "note": "Every factor with non-zero numerator and positive denominator is honoured; factor 0 and denominator -1 are ignored (witnesses)."
  },
  {
   "property": "C33",
   "status": "partial",
   "theorems": [
    "Gal.C33_argument",
    "Gal.C33_constant",
    "Gal.C33_pi",
    "Gal.C33_element",
    "Gal.C33_scale",
    "Gal.C33_neg",
    "Gal.C33_divInt_partial",
    "Gal.C33_rev_partial",
    "Gal.C33_dual_partial",
    "Gal.C33_component",
    "Gal.C33_grade",
    "Gal.C33_function",
    "Gal.C33_gp_partial",
    "Gal.C33_lc_partial",
    "Gal.C33_sip_partial",
    "Gal.C33_div",
    "Gal.C33_intDiv_partial",
    "Gal.C33_ep_partial",
    "Gal.C33_join_partial",
    "Gal.C33_sandwich_partial",
    "Gal.C33_scalarProduct_partial",
    "Gal.C33_rev_false",
    "Gal.C33_dual_false",
    "Gal.C33_zero_plus_false",
    "Gal.C33_zero_times_false",
    "Gal.C33_zero_contract_false",
    "Gal.C33_zero_inner_false",
    "Gal.C33_ep_false",
    "Gal.C33_intDiv_false",
    "Gal.C33_constant_e_false",
    "Gal.C33_zero_constant_false"
   ],
   "note": "Each operator is proved for all operands outside the listed defects: ~ and ! lose the factor, + * >> | with a zero operand return the other operand without its factor, ^ loses factors when flattening, integer/expression loses the integer, E means pi, 0 + a means 1 + a (all refuted by witnesses)."
  },
  {
   "property": "C34",
   "status": "partial",
   "theorems": [
    "Gal.C34_sum_partial",
    "Gal.C34_like_partial",
    "Gal.C34_difference_partial",
    "Gal.C34_add_integer_partial",
    "Gal.C34_integer_sub_partial",
    "Gal.C34_sub_integer_partial",
    "Gal.C34_quotient_false",
    "Gal.C34_difference_false",
    "Gal.C34_cancel_false"
   ],
   "note": "Merging is proved for operands whose nodes carry no hidden factors; factors are not compared when summands are matched, and left-over summands get the factor of the wrong side (witnesses)."
  },
  {
   "property": "C35",
   "status": "proved",
   "theorems": [
    "Gal.C35_postfix",
    "Gal.C35_reading",
    "Gal.C35_value"
   ],
   "note": "C35_value is stated for any operations that compute those of an algebra; undefined behaviour is a result of its own, so underflow is excluded by the equality."
  },
  {
   "property": "C37",
   "status": "proved",
   "theorems": [
    "Gal.C37_distance",
    "Gal.C37_null",
    "Gal.C37_compute",
    "Gal.C37_compute_self"
   ],
   "note": "C37_compute goes through compute."
  },
  {
   "property": "C38",
   "status": "partial",
   "theorems": [
    "Gal.C38_line",
    "Gal.C38_plane",
    "Gal.C38_incidence",
    "Gal.C38_meet",
    "Gal.C38_compute_line",
    "Gal.C38_compute_plane",
    "Gal.C38_compute_meet",
    "Gal.C38_compute_line_plane",
    "Gal.C38_line_constructor_false"
   ],
   "note": "Joins, incidence and meet are proved; the pga::line constructor does not return the Pluecker coordinates of the joined line (refuted)."
  },
  {
   "property": "C39",
   "status": "proved",
   "theorems": [
    "Gal.C39_rotate",
    "Gal.C39_isometry",
    "Gal.C39_reflect",
    "Gal.C39_rodrigues",
    "Gal.C39_inputs",
    "Gal.C39_compose",
    "Gal.C39_compute"
   ],
   "note": "C39_compute goes through compute. Rotations and reflections in VGA; composition in every algebra."
  },
  {
   "property": "C40",
   "status": "proved",
   "theorems": [
    "Gal.C40_geometric_assoc",
    "Gal.C40_exterior_assoc",
    "Gal.C40_distrib_left",
    "Gal.C40_distrib_right",
    "Gal.C40_sum_comm",
    "Gal.C40_sum_assoc",
    "Gal.C40_sum_negate"
   ],
   "note": ""
  },
  {
   "property": "C41",
   "status": "proved",
   "theorems": [
    "Gal.C41_fill",
    "Gal.C41_position"
   ],
   "note": ""
  },
  {
   "property": "C42",
   "status": "proved",
   "theorems": [
    "Gal.C42_temp",
    "Gal.C42_reference"
   ],
   "note": "Algebras that do not use the null basis."
  },
  {
   "property": "C43",
   "status": "partial",
   "theorems": [
    "Gal.C43_function_partial",
    "Gal.C43_null_basis_false"
   ],
   "note": "Proved outside null-basis algebras for one monomial; in null-basis algebras the function is forgotten (witness)."
  },
  {
   "property": "C44",
   "status": "proved",
   "theorems": [
    "Gal.C44_sum",
    "Gal.C44_scale",
    "Gal.C44_difference",
    "Gal.C44_unary",
    "Gal.C44_binary",
    "Gal.C44_scalar_product",
    "Gal.C44_int_quotient",
    "Gal.C44_wedge",
    "Gal.C44_concat",
    "Gal.C44_lambda"
   ],
   "note": ""
  },
  {
   "property": "C36",
   "status": "partial",
   "theorems": [
    "Gal.C36_reshape_partial",
    "Gal.C36_distinct",
    "Gal.C36_value",
    "Gal.C36_distinct_value",
    "Gal.C36_false",
    "Gal.C36_factors_false"
   ],
   "note": "Proved without condition when no operation occurs twice (temporaries for divisors and functions included), and for repeated operations when the reference counts are right and like nodes carry like factors; both conditions are necessary (witnesses compute a wrong number)."
  },
  {
   "property": "C45",
   "status": "partial",
   "theorems": [
    "Gal.C45_compute_partial",
    "Gal.C45_distinct_partial",
    "Gal.C45_shared_partial",
    "Gal.C45_product",
    "Gal.C45_entity",
    "Gal.C45_select",
    "Gal.C45_false"
   ],
   "note": "Proved end to end for expressions of products, sums, duals, reversions, selections and constants in algebras without null basis, whenever the extraction of common subexpressions is right; refuted otherwise (witness returns 640 instead of 1360). Quotients and functions are in C48, null bases in C47."
  },
  {
   "property": "C46",
   "status": "partial",
   "theorems": [
    "Gal.C46_tuple_partial",
    "Gal.C46_false",
    "Gal.C46_shared_false",
    "Gal.C46_quotient_false",
    "Gal.C46_quotient_last_false",
    "Gal.C46_function_false"
   ],
   "note": "Proved when no product, sum, dual or reversion occurs twice in the tuple and no component is the zero expression. With shared subexpressions the recorded lengths of the components are stale: tuple{aa(aa), b, c, d} returns two results, tuple{ab, ab} does not compile (witnesses). The same happens with quotients and functions: tuple{a / b, c} returns c alone, tuple{c, a / b} and tuples with sqrt do not compile (refuted for all numbers a, b, c). Null bases are in C47."
  },
  {
   "property": "C47",
   "status": "partial",
   "theorems": [
    "Gal.C47_compute_partial",
    "Gal.C47_shared_partial",
    "Gal.C47_tuple_partial",
    "Gal.C47_entity",
    "Gal.C47_select",
    "Gal.C47_constant_false",
    "Gal.C47_select_false",
    "Gal.C47_shared_false"
   ],
   "note": "Proved when the common subexpressions, if any, have only elements that contain both null generators or neither, in arrays without spare room (SafeTemp), constants and selected elements involve neither or both null generators, and the conversion of the result is exact. Refuted for the constants 1_no and 1_ni, for selection of a null generator, and for other common subexpressions (witnesses). Quotients and functions are in C64."
  },
  {
   "property": "C48",
   "status": "partial",
   "theorems": [
    "Gal.C48_compute_partial",
    "Gal.C48_distinct_partial",
    "Gal.C48_tree_partial",
    "Gal.C48_normalize",
    "Gal.C48_occurs_false",
    "Gal.C48_accident_false"
   ],
   "note": "Proved in terms of the expression when no operation occurs twice: every divisor and every argument of a function is a scalar, that is a scalar argument or constant, or an operation whose value is a scalar for all coefficients, or a function, selection or quotient; a divisor that is an argument does not occur in the dividend (QuotFine). Also proved, with or without common subexpressions, whenever the program written by rpn_reshape passes ProgramFine. C48_normalize applies it to a / sqrt(a * a). Refuted when the divisor occurs in the dividend (a * a / a) and when the id of an input equals the position of the quotient (witnesses). Null bases are in C64, tuples in C46 (refuted)."
  },
  {
   "property": "C49",
   "status": "partial",
   "theorems": [
    "Gal.C49_sparse_partial",
    "Gal.C49_tuple_partial",
    "Gal.C49_null_partial",
    "Gal.C49_null_tuple_partial",
    "Gal.C49_lambda_partial",
    "Gal.C49_lambda_tuple_partial",
    "Gal.C49_lambda_null_partial",
    "Gal.C49_lambda_null_tuple_partial",
    "Gal.C49_product",
    "Gal.C49_shared_false",
    "Gal.C49_quotient_false",
    "Gal.C49_function_false"
   ],
   "note": "Proved for expressions of products, sums, duals, reversions, selections and constants in which no operation occurs twice. Refuted for common subexpressions: (ab)(ab) - (ba)(ba) with scalars is always zero but has a component (witness). Refuted for quotients and functions: a / b * b - a and sqrt(a) * sqrt(a) - a are always zero but have a component. Tuples: C49_tuple_partial, where C46 holds. Null bases: C49_null_partial and C49_null_tuple_partial, where C47 holds. The theorems with lambda in their name are the same for the lambdas of C53."
  },
  {
   "property": "C50",
   "status": "proved",
   "theorems": [
    "Gal.C50_vector",
    "Gal.C50_rotor",
    "Gal.C50_motor",
    "Gal.C50_motor_unit"
   ],
   "note": "pga::rotor and pga::translator normalise their axis in the same way (C50_vector), but what they denote is wrong (C30)."
  },
  {
   "property": "C51",
   "status": "proved",
   "theorems": [
    "Gal.C51_exp_biv",
    "Gal.C51_exp_line"
   ],
   "note": "Over the real numbers with the mathematical sqrt, sin and cos. A line with direction zero divides by zero in the code."
  },
  {
   "property": "C52",
   "status": "partial",
   "theorems": [
    "Gal.C52_log",
    "Gal.C52_log_exp",
    "Gal.C52_log_small_partial",
    "Gal.C52_log_false"
   ],
   "note": "Proved when the scalar part is at least 1e-6 in absolute value. Below that the exponential of the result is M, -M or 1 according to the sign of the coefficient of e0123; in particular the logarithm of a half turn is zero (refuted). Pure translations divide by zero in the code."
  },
  {
   "property": "C53",
   "status": "partial",
   "theorems": [
    "Gal.C53_value_partial",
    "Gal.C53_compute_partial",
    "Gal.C53_quot_partial",
    "Gal.C53_null_partial",
    "Gal.C53_null_shared_partial",
    "Gal.C53_null_rotor",
    "Gal.C53_tuple_partial",
    "Gal.C53_null_tuple_partial",
    "Gal.C53_steps_partial",
    "Gal.C53_quot_steps_partial",
    "Gal.C53_null_steps_partial",
    "Gal.C53_tuple_parts_partial",
    "Gal.C53_null_tuple_parts_partial",
    "Gal.C53_projection",
    "Gal.C53_unit",
    "Gal.C53_inner_false"
   ],
   "note": "Every lambda that passes the check for its argument types: without quotients (Lam.check), with quotients and functions for all coefficients for which no divisor in the lambda is zero (Lam.checkQuot), in null bases (Lam.checkNull, with common subexpressions Lam.checkNullShared) and with tuples as results (Lam.checkTuple). The inner product of the code puts its operands in the order of their checksums, so v | B may be computed as B | v (refuted); the operands must be in that order or commute. Not covered: E, exp. Quotients in tuples and in null bases do not work (C46, C64)."
  },
  {
   "property": "C54",
   "status": "proved",
   "theorems": [
    "Gal.C54_motor",
    "Gal.C54_mirror",
    "Gal.C54_product",
    "Gal.C54_product_one",
    "Gal.C54_incidence"
   ],
   "note": "Over any field of characteristic zero; the weight of the returned point, a sum of four (motor) or three (plane) squares, must not be zero."
  },
  {
   "property": "C55",
   "status": "proved",
   "theorems": [
    "Gal.C55_bivector",
    "Gal.C55_line",
    "Gal.C55_join",
    "Gal.C55_exp_join",
    "Gal.C55_exp_join_move",
    "Gal.C55_exp_join_swap",
    "Gal.C55_exp_move",
    "Gal.C55_exp_move_line",
    "Gal.C55_axis"
   ],
   "note": "C55_join computes the line and its exponential in two programs; C55_exp_join and C55_exp_join_swap are about the single lambdas exp(a & b) and exp(b & a), which are compiled to different programs with common subexpressions, and hold over any field of characteristic zero and for any functions; C55_exp_move says the same of p % exp(l). The rest is over the real numbers with the mathematical sqrt, sin and cos."
  },
  {
   "property": "C56",
   "status": "partial",
   "theorems": [
    "Gal.C56_sphere",
    "Gal.C56_plane",
    "Gal.C56_distance",
    "Gal.C56_translate",
    "Gal.C56_point_partial",
    "Gal.C56_translate_point",
    "Gal.C56_rotate",
    "Gal.C56_dilate",
    "Gal.C56_invert",
    "Gal.C56_mirror",
    "Gal.C56_line",
    "Gal.C56_coplanar",
    "Gal.C56_point_false",
    "Gal.C56_infinity_false"
   ],
   "note": "Incidence, translation, rotation, dilation, inversion, mirroring, collinearity and coplanarity are proved. Refuted: the constructor cga::point{r} returns the coordinates only if the weight of r is 1; the product with the literal 1_ni."
  },
  {
   "property": "C57",
   "status": "partial",
   "theorems": [
    "Gal.C57_exact",
    "Gal.C57_exact_tuple",
    "Gal.C57_coefficient",
    "Gal.C57_lambda",
    "Gal.C57_binary",
    "Gal.C57_square",
    "Gal.C57_dot",
    "Gal.C57_rotate",
    "Gal.C57_move",
    "Gal.C57_distance",
    "Gal.C57_normalize",
    "Gal.C57_temps",
    "Gal.C57_unit",
    "Gal.C57_unit_length",
    "Gal.C57_unit_binary",
    "Gal.C57_project",
    "Gal.C57_exp_space",
    "Gal.C57_exp_biv",
    "Gal.C57_ieee_same",
    "Gal.C57_ieee",
    "Gal.C57_float_square",
    "Gal.C57_double_rotate",
    "Gal.C57_float_distance",
    "Gal.C57_ieee_factor",
    "Gal.C57_ieee_normalize",
    "Gal.C57_ieee_move",
    "Gal.C57_float_normalize",
    "Gal.C57_float_move",
    "Gal.C57_range_false",
    "Gal.C57_relative_false"
   ],
   "note": "The run-time part of compute is modelled a second time with the arithmetic as a parameter (Rounded.lean); with exact arithmetic it is the compute of the other properties (C57_exact), and rounding to p digits meets the assumption (C57_binary). For lambdas with temporaries (quotients, square roots, sines, cosines, common subexpressions) the bound is C57_temps, in terms of the same program with absolute values, if divisors are products and sums without cancellation and square roots are of single numbers that are at least zero; C57_exp_space and C57_exp_biv are the bounds for exp. The functions are assumed to have a relative error of at most u. Missing: cancelling divisors, tan, null bases and tuples with temporaries (for these see C65). For formats of IEEE 754 with underflow and overflow (C57_ieee) the bounds hold if the numbers given are zero or between 2^-a and 2^a, where a depends on the degrees; a division of a result after cancellation, as by a factor that is not an integer (C57_ieee_factor) or by the weight of a moved point (C57_ieee_move), may add the smallest positive number of the format. A relative error bound is refuted: in single precision the conformal distance of (997, 2001, 1/2) from itself is not zero."
  },
  {
   "property": "C58",
   "status": "proved",
   "theorems": [
    "Gal.C58_number",
    "Gal.C58_modular",
    "Gal.C58_vga",
    "Gal.C58_pga",
    "Gal.C58_pga2",
    "Gal.C58_cga",
    "Gal.C58_null",
    "Gal.C58_pseudo",
    "Gal.C58_pseudo_null",
    "Gal.C58_inverse",
    "Gal.C58_inverse_cga",
    "Gal.C58_number_false"
   ],
   "note": "Literals with the number 0 are excluded (they are zero expressions with a node, see C33). Numbers from 2^31 on are reduced modulo 2^32 (C58_number_false). What compute makes of the literals _no and _ni is in C47."
  },
  {
   "property": "C59",
   "status": "partial",
   "theorems": [
    "Gal.C59_text_partial",
    "Gal.C59_value",
    "Gal.C59_names",
    "Gal.C59_zero_false",
    "Gal.C59_names_false"
   ],
   "note": "Proved: the text determines the value, and the elements unless one entity has none. The names agree with the literals in VGA, PGA and PGA2; in CGA they do not (refuted: 1_e1 is written 1e0)."
  },
  {
   "property": "C60",
   "status": "proved",
   "theorems": [
    "Gal.C60_foot_plane",
    "Gal.C60_distance",
    "Gal.C60_distance_least",
    "Gal.C60_planes",
    "Gal.C60_perpendicular_line",
    "Gal.C60_parallel",
    "Gal.C60_meet_join",
    "Gal.C60_perpendicular_plane",
    "Gal.C60_foot_line",
    "Gal.C60_lines_dot",
    "Gal.C60_lines_join",
    "Gal.C60_lines_coplanar",
    "Gal.C60_lines_distance",
    "Gal.C60_upright",
    "Gal.C60_shadow",
    "Gal.C60_points",
    "Gal.C60_reflections",
    "Gal.C60_reflections_one",
    "Gal.C60_volume",
    "Gal.C60_cross",
    "Gal.C60_dot",
    "Gal.C60_determinant",
    "Gal.C60_reflect_vector",
    "Gal.C60_turn_vector"
   ],
   "note": "Over any field of characteristic zero; C60_distance_least and C60_lines_distance over the real numbers. The products of planes, of points and of vectors are computed first and passed on, as r in p % r. For the stored moment of a line see C38."
  },
  {
   "property": "C61",
   "status": "partial",
   "theorems": [
    "Gal.C61_compute_partial",
    "Gal.C61_quot_partial",
    "Gal.C61_tuple_partial",
    "Gal.C61_null_partial",
    "Gal.C61_null_tuple_partial",
    "Gal.C61_vga_vector",
    "Gal.C61_vga_rotor",
    "Gal.C61_vga_point",
    "Gal.C61_pga_plane",
    "Gal.C61_pga_motor",
    "Gal.C61_pga_line",
    "Gal.C61_cga_point",
    "Gal.C61_plane_point",
    "Gal.C61_conformal_points",
    "Gal.C61_conformal_tuple"
   ],
   "note": "Partial where C53 is partial: the operands of | have to be in the order of their checksums, quotients do not work in tuples and null bases (C46, C64). pga::rotor, pga::translator, pga::vector and pga2::point do not stand for what they should (C30)."
  },
  {
   "property": "C62",
   "status": "proved",
   "theorems": [
    "Gal.C62_point",
    "Gal.C62_plane",
    "Gal.C62_line",
    "Gal.C62_motor",
    "Gal.C62_motor_false"
   ],
   "note": "Moves lists the three statements for points, planes and lines. C62_motor_false: if m * ~m has a pseudoscalar part, points and planes still move rigidly (C54) but lines do not."
  },
  {
   "property": "C63",
   "status": "partial",
   "theorems": [
    "Gal.C63_meet",
    "Gal.C63_join",
    "Gal.C63_incidence",
    "Gal.C63_area",
    "Gal.C63_lines",
    "Gal.C63_perpendicular",
    "Gal.C63_parallel",
    "Gal.C63_foot",
    "Gal.C63_mirror",
    "Gal.C63_point",
    "Gal.C63_motor",
    "Gal.C63_reflections",
    "Gal.C63_product",
    "Gal.C63_point_type_false",
    "Gal.C63_point_of_false"
   ],
   "note": "Points are the entities that compute returns (pointData2). pga2::point, as an argument and as the type of a result, does not hold the coordinates (refuted)."
  },
  {
   "property": "C64",
   "status": "partial",
   "theorems": [
    "Gal.C64_functions_ignored",
    "Gal.C64_lambda_ignored",
    "Gal.C64_functions_false",
    "Gal.C64_divisor_false",
    "Gal.C64_scale_false",
    "Gal.C64_inverse_false",
    "Gal.C64_quotient_false"
   ],
   "note": "Refuted. The functions are never applied: the result does not depend on them, for all lambdas. Division by an argument does not compile, x / (x * x) reads outside the data, and (s * x) / (x * x) has a wrong value (witnesses). What remains true is division by an integer literal, which is in C53_null_partial."
  },
  {
   "property": "C65",
   "status": "partial",
   "theorems": [
    "Gal.C65_limit",
    "Gal.C65_rate",
    "Gal.C65_quot_partial",
    "Gal.C65_quot_rate_partial",
    "Gal.C65_exp",
    "Gal.C65_exp_rate",
    "Gal.C65_exp_binary",
    "Gal.C65_projection",
    "Gal.C65_projection_rate",
    "Gal.C65_projection_binary",
    "Gal.C65_unit",
    "Gal.C65_unit_binary",
    "Gal.C65_ieee",
    "Gal.C65_exp_ieee",
    "Gal.C65_ieee_nearest",
    "Gal.C65_ieee_exact",
    "Gal.C65_ieee_overflow",
    "Gal.C65_null_partial",
    "Gal.C65_null_rate_partial",
    "Gal.C65_tuple_partial",
    "Gal.C65_tuple_rate_partial",
    "Gal.C65_null_tuple_partial",
    "Gal.C65_null_tuple_rate_partial"
   ],
   "note": "C65_limit and C65_rate are for any compiled expression that divides by zero nowhere (FineRun); C65_quot_partial and C65_quot_rate_partial derive that from the lambda. The functions have to converge only at the values they are applied to (Lam.Applies); C65_unit applies this to a / sqrt(a >> a). C65_null_partial, C65_tuple_partial and C65_null_tuple_partial are for lambdas in null bases and for lambdas that return tuples. Partial where C53 is partial. The factor of 2^-p is shown to exist and not computed. The assumption on the arithmetics (Improving) bounds the error of an operation only while its exact result stays in a bounded range; C65_ieee shows it for the formats of IEEE 754 with gradual underflow, where an overflow may return anything. C65_ieee_nearest, C65_ieee_exact and C65_ieee_overflow check that roundIeee is the rounding of the standard."
  },
  {
   "property": "C66",
   "status": "partial",
   "theorems": [
    "Gal.C66_space",
    "Gal.C66_rotate",
    "Gal.C66_plane",
    "Gal.C66_turn",
    "Gal.C66_four_partial",
    "Gal.C66_four_false",
    "Gal.C66_null_false",
    "Gal.C66_null_exp_false"
   ],
   "note": "Proved in VGA and PGA2 over the real numbers with the mathematical sqrt, sin and cos (PGA is C51 and C55). In four-dimensional space it is proved for bivectors whose outer product with themselves is zero and refuted for e01 + e23. In CGA it is refuted: no function is applied, and exp(b) for a bivector b of space is |b|^2 + b. A bivector with square zero divides by zero in the code."
  },
  {
   "property": "C67",
   "status": "partial",
   "theorems": [
    "Gal.C67_translate",
    "Gal.C67_translate_false",
    "Gal.C67_rotate",
    "Gal.C67_rotate_false",
    "Gal.C67_half_turn",
    "Gal.C67_rotate_partial"
   ],
   "note": "Refuted. p % t moves p by d x (1, 1, 1), which is right exactly if d (x, y, z) has equal coordinates. p % r is a rotation about (y, z, 1) whatever x is; for every unit axis and every angle that is not a multiple of pi it is not the rotation by the angle about the axis, counted either way round. It is right for multiples of the full turn. For half turns it is right exactly if the unit axis has the form (z^3, z^2, z). The functions cos and sin are those of the real numbers."
  },
  {
   "property": "C68",
   "status": "partial",
   "theorems": [
    "Gal.C68_pair",
    "Gal.C68_circle",
    "Gal.C68_onCircle",
    "Gal.C68_sphere",
    "Gal.C68_line",
    "Gal.C68_plane",
    "Gal.C68_literal_false"
   ],
   "note": "Proved for infinity passed as an entity, and refuted for the literal 1_ni: joined to p ^ q ^ 1_ni, a point of the line through p and q gives zero only if it is p or q or the line passes through the origin. Each product is a program of its own whose result is the argument of the next; a single program with four or five points is not evaluated by the kernel. Rounding is not modelled here: in floating point the result is near zero (C65), not zero."
  }
 ]
}