{
 "claims": [
  {
   "property": "C01",
   "status": "proved",
   "theorems": [
    "Abstalg.C01_integer_division",
    "Abstalg.C01_integer_division_by_zero"
   ],
   "note": ""
  },
  {
   "property": "C02",
   "status": "proved",
   "theorems": [
    "Abstalg.C02_integers_ring",
    "Abstalg.C02_integers_associates",
    "Abstalg.C02_integers_times"
   ],
   "note": ""
  },
  {
   "property": "C03",
   "status": "proved",
   "theorems": [
    "Abstalg.C03_fields",
    "Abstalg.C03_polynomials",
    "Abstalg.C03_gcd",
    "Abstalg.C03_integers_gcd"
   ],
   "note": ""
  },
  {
   "property": "C04",
   "status": "proved",
   "theorems": [
    "Abstalg.C04_extended_gcd",
    "Abstalg.C04_integers_extended_gcd",
    "Abstalg.C04_field_gcd",
    "Abstalg.C03_fields",
    "Abstalg.C03_polynomials"
   ],
   "note": ""
  },
  {
   "property": "C05",
   "status": "proved",
   "theorems": [
    "Abstalg.C05_lcm",
    "Abstalg.C05_integers_lcm",
    "Abstalg.C03_fields",
    "Abstalg.C03_polynomials"
   ],
   "note": ""
  },
  {
   "property": "C06",
   "status": "proved",
   "theorems": [
    "Abstalg.C06_relative_primes",
    "Abstalg.C06_integers_relative_primes",
    "Abstalg.C03_fields",
    "Abstalg.C03_polynomials"
   ],
   "note": ""
  },
  {
   "property": "C07",
   "status": "proved",
   "theorems": [
    "Abstalg.C07_integers",
    "Abstalg.C07_polynomials",
    "Abstalg.C07_divisible",
    "Abstalg.C07_associates",
    "Abstalg.C52_field_values",
    "Abstalg.C52_field_euclidean"
   ],
   "note": ""
  },
  {
   "property": "C08",
   "status": "proved",
   "theorems": [
    "Abstalg.C08_permutations",
    "Abstalg.C08_additive_group",
    "Abstalg.C08_multiplicative_group",
    "Abstalg.C08_vectors",
    "Abstalg.C08_group_inv",
    "Abstalg.C08_power"
   ],
   "note": ""
  },
  {
   "property": "C09",
   "status": "proved",
   "theorems": [
    "Abstalg.C09_field_power_min_checked",
    "Abstalg.C09_field_power_min_unchecked",
    "Abstalg.C09_times_min_checked",
    "Abstalg.C09_times_min_unchecked",
    "Abstalg.C09_power_min_checked",
    "Abstalg.C09_power_min_unchecked"
   ],
   "note": ""
  },
  {
   "property": "C10",
   "status": "proved",
   "theorems": [
    "Abstalg.C10_overrides",
    "Abstalg.C10_modular",
    "Abstalg.C10_vectors",
    "Abstalg.C10_matrices",
    "Abstalg.C10_polynomials",
    "Abstalg.C10_monoid_times",
    "Abstalg.C10_group_times",
    "Abstalg.C10_group_sub",
    "Abstalg.C10_int"
   ],
   "note": ""
  },
  {
   "property": "C11",
   "status": "proved",
   "theorems": [
    "Abstalg.C11_checked_ints_never_wrong",
    "Abstalg.C11_checked_ints_contract"
   ],
   "note": ""
  },
  {
   "property": "C12",
   "status": "proved",
   "theorems": [
    "Abstalg.C12_checked_ring",
    "Abstalg.C12_checked_quo_rem"
   ],
   "note": ""
  },
  {
   "property": "C13",
   "status": "proved",
   "theorems": [
    "Abstalg.C13_checked_min",
    "Abstalg.C13_checked_divisible"
   ],
   "note": ""
  },
  {
   "property": "C14",
   "status": "proved",
   "theorems": [
    "Abstalg.C14_checked_times",
    "Abstalg.C14_times_panics_on_zero",
    "Abstalg.C14_checked_int"
   ],
   "note": ""
  },
  {
   "property": "C15",
   "status": "proved",
   "theorems": [
    "Abstalg.C15_checked_monoid_times",
    "Abstalg.C15_unsigned_monoid_times",
    "Abstalg.C15_panics_on_representable"
   ],
   "note": ""
  },
  {
   "property": "C16",
   "status": "proved",
   "theorems": [
    "Abstalg.C16_checked_uints_exact",
    "Abstalg.C16_checked_uints_units",
    "Abstalg.C16_checked_uints_contract",
    "Abstalg.C50_lattices",
    "Abstalg.C50_linear"
   ],
   "note": ""
  },
  {
   "property": "C17",
   "status": "proved",
   "theorems": [
    "Abstalg.C17_checked_extended_gcd",
    "Abstalg.C17_checked_extended_gcd_min"
   ],
   "note": ""
  },
  {
   "property": "C18",
   "status": "proved",
   "theorems": [
    "Abstalg.C18_quotient_ring",
    "Abstalg.C18_quotient_ring_any",
    "Abstalg.C18_unique_member",
    "Abstalg.C18_integers"
   ],
   "note": ""
  },
  {
   "property": "C19",
   "status": "proved",
   "theorems": [
    "Abstalg.C19_quotient_try_inv",
    "Abstalg.C19_integers"
   ],
   "note": ""
  },
  {
   "property": "C20",
   "status": "proved",
   "theorems": [
    "Abstalg.C20_zero_modulus",
    "Abstalg.C20_unit_modulus",
    "Abstalg.C20_checks"
   ],
   "note": ""
  },
  {
   "property": "C21",
   "status": "proved",
   "theorems": [
    "Abstalg.C21_quotient_field",
    "Abstalg.C21_quotient_euclidean",
    "Abstalg.C21_quotient_field_any",
    "Abstalg.C21_integers"
   ],
   "note": ""
  },
  {
   "property": "C22",
   "status": "proved",
   "theorems": [
    "Abstalg.C22_checks",
    "Abstalg.C22_new_accepts_everything",
    "Abstalg.C22_unit_modulus"
   ],
   "note": ""
  },
  {
   "property": "C23",
   "status": "proved",
   "theorems": [
    "Abstalg.C23_contains_exact",
    "Abstalg.C23_accepts_nonmember"
   ],
   "note": ""
  },
  {
   "property": "C24",
   "status": "proved",
   "theorems": [
    "Abstalg.C24_prime_field",
    "Abstalg.C24_residue_ring",
    "Abstalg.C24_contains",
    "Abstalg.C24_GF2",
    "Abstalg.C24_GF3"
   ],
   "note": ""
  },
  {
   "property": "C25",
   "status": "proved",
   "theorems": [
    "Abstalg.C25_extension_field",
    "Abstalg.C25_finite_field",
    "Abstalg.C25_finite_field_checked"
   ],
   "note": ""
  },
  {
   "property": "C26",
   "status": "proved",
   "theorems": [
    "Abstalg.C26_fraction_field",
    "Abstalg.C26_checks",
    "Abstalg.C26_surjective",
    "Abstalg.C26_rationals"
   ],
   "note": ""
  },
  {
   "property": "C27",
   "status": "proved",
   "theorems": [
    "Abstalg.C27_reduce",
    "Abstalg.C27_zero_denominator",
    "Abstalg.C27_cross_equal"
   ],
   "note": ""
  },
  {
   "property": "C28",
   "status": "proved",
   "theorems": [
    "Abstalg.C28_contains",
    "Abstalg.C28_zero_denominator",
    "Abstalg.C28_zero_denominator_unit",
    "Abstalg.C28_rationals"
   ],
   "note": ""
  },
  {
   "property": "C29",
   "status": "proved",
   "theorems": [
    "Abstalg.C29_polynomial_group"
   ],
   "note": ""
  },
  {
   "property": "C30",
   "status": "proved",
   "theorems": [
    "Abstalg.C30_polynomial_ring",
    "Abstalg.C30_degree"
   ],
   "note": ""
  },
  {
   "property": "C31",
   "status": "proved",
   "theorems": [
    "Abstalg.C31_coefficients",
    "Abstalg.C31_canonical",
    "Abstalg.C31_noncanonical"
   ],
   "note": ""
  },
  {
   "property": "C32",
   "status": "proved",
   "theorems": [
    "Abstalg.C32_try_inv",
    "Abstalg.C32_some_sound",
    "Abstalg.C32_incomplete"
   ],
   "note": ""
  },
  {
   "property": "C33",
   "status": "proved",
   "theorems": [
    "Abstalg.C33_try_div",
    "Abstalg.C33_polynomial_domain"
   ],
   "note": ""
  },
  {
   "property": "C34",
   "status": "proved",
   "theorems": [
    "Abstalg.C34_quo_rem",
    "Abstalg.C34_polynomial_euclidean",
    "Abstalg.C03_polynomials"
   ],
   "note": ""
  },
  {
   "property": "C35",
   "status": "proved",
   "theorems": [
    "Abstalg.C35_contains",
    "Abstalg.C35_surjective",
    "Abstalg.C35_unique",
    "Abstalg.C35_degree",
    "Abstalg.C35_leading_coef",
    "Abstalg.C35_equals"
   ],
   "note": ""
  },
  {
   "property": "C36",
   "status": "proved",
   "theorems": [
    "Abstalg.C36_monoid",
    "Abstalg.C36_group",
    "Abstalg.C36_abelian_group",
    "Abstalg.C36_unitary_ring",
    "Abstalg.C36_semi_ring",
    "Abstalg.C36_contains",
    "Abstalg.C36_surjective",
    "Abstalg.C36_try_inv",
    "Abstalg.C36_diagonal"
   ],
   "note": ""
  },
  {
   "property": "C37",
   "status": "proved",
   "theorems": [
    "Abstalg.C37_lattice",
    "Abstalg.C37_bounded_order",
    "Abstalg.C37_boolean_algebra",
    "Abstalg.C37_sets_bijective",
    "Abstalg.C37_sets",
    "Abstalg.C37_laws"
   ],
   "note": ""
  },
  {
   "property": "C38",
   "status": "proved",
   "theorems": [
    "Abstalg.C38_matrix_contains",
    "Abstalg.C38_matrix_binary",
    "Abstalg.C38_matrix_unary",
    "Abstalg.C38_matrix_multiples",
    "Abstalg.C38_contains",
    "Abstalg.C38_binary",
    "Abstalg.C38_unary",
    "Abstalg.C38_multiples"
   ],
   "note": ""
  },
  {
   "property": "C39",
   "status": "proved",
   "theorems": [
    "Abstalg.C39_matrix_ring",
    "Abstalg.C39_contains",
    "Abstalg.C39_surjective",
    "Abstalg.C39_transpose",
    "Abstalg.C39_new"
   ],
   "note": ""
  },
  {
   "property": "C40",
   "status": "proved",
   "theorems": [
    "Abstalg.C40_try_inv",
    "Abstalg.C40_invertible",
    "Abstalg.C40_agree"
   ],
   "note": ""
  },
  {
   "property": "C41",
   "status": "proved",
   "theorems": [
    "Abstalg.C41_up_to_sign",
    "Abstalg.C41_zero_iff",
    "Abstalg.C41_no_swap",
    "Abstalg.C41_char_two",
    "Abstalg.C41_one_swap",
    "Abstalg.C41_two_by_two",
    "Abstalg.C41_exact",
    "Abstalg.C41_pivot_order_unique",
    "Abstalg.C41_exact_sign",
    "Abstalg.C41_right_iff",
    "Abstalg.C41_full_claim_false",
    "Abstalg.C41_rationals"
   ],
   "note": ""
  },
  {
   "property": "C42",
   "status": "proved",
   "theorems": [
    "Abstalg.C42_group",
    "Abstalg.C42_bijective",
    "Abstalg.C42_members",
    "Abstalg.C42_mul_entries",
    "Abstalg.C42_inv_entries"
   ],
   "note": ""
  },
  {
   "property": "C43",
   "status": "proved",
   "theorems": [
    "Abstalg.C43_contains",
    "Abstalg.C43_length",
    "Abstalg.C43_out_of_range",
    "Abstalg.C43_repetition",
    "Abstalg.C43_true_iff",
    "Abstalg.C43_cases"
   ],
   "note": ""
  },
  {
   "property": "C44",
   "status": "proved",
   "theorems": [
    "Abstalg.C44_multiplicative_group",
    "Abstalg.C44_contains",
    "Abstalg.C44_inv_panics",
    "Abstalg.C44_integers",
    "Abstalg.C44_accepts_nonmember"
   ],
   "note": ""
  },
  {
   "property": "C45",
   "status": "proved",
   "theorems": [
    "Abstalg.C45_additive_group",
    "Abstalg.C45_additive_notation"
   ],
   "note": ""
  },
  {
   "property": "C46",
   "status": "proved",
   "theorems": [
    "Abstalg.C46_two_field",
    "Abstalg.C46_two_euclidean",
    "Abstalg.C46_two_members",
    "Abstalg.C46_two_boolean"
   ],
   "note": ""
  },
  {
   "property": "C47",
   "status": "proved",
   "theorems": [
    "Abstalg.C47_two_power",
    "Abstalg.C47_field_power",
    "Abstalg.C47_field_power_zero",
    "Abstalg.C47_zero_to_the_zero"
   ],
   "note": ""
  },
  {
   "property": "C48",
   "status": "proved",
   "theorems": [
    "Abstalg.C48_lattice",
    "Abstalg.C48_gcd_lcm",
    "Abstalg.C48_meet_distributes",
    "Abstalg.C48_join_distributes",
    "Abstalg.C48_bounded_order",
    "Abstalg.C48_bounds",
    "Abstalg.C48_integers"
   ],
   "note": ""
  },
  {
   "property": "C49",
   "status": "proved",
   "theorems": [
    "Abstalg.C49_contains",
    "Abstalg.C49_exact",
    "Abstalg.C49_unique_member",
    "Abstalg.C49_antisymmetric"
   ],
   "note": ""
  },
  {
   "property": "C50",
   "status": "proved",
   "theorems": [
    "Abstalg.C50_lattices",
    "Abstalg.C50_linear"
   ],
   "note": ""
  },
  {
   "property": "C51",
   "status": "proved",
   "theorems": [
    "Abstalg.C51_naturals_semiring",
    "Abstalg.C51_naturals_units"
   ],
   "note": ""
  },
  {
   "property": "C52",
   "status": "proved",
   "theorems": [
    "Abstalg.C52_field_div",
    "Abstalg.C52_field_euclidean",
    "Abstalg.C52_field_values"
   ],
   "note": ""
  },
  {
   "property": "C53",
   "status": "proved",
   "theorems": [
    "Abstalg.C53_integers",
    "Abstalg.C53_naturals",
    "Abstalg.C53_checked_uints",
    "Abstalg.C53_checked_ints",
    "Abstalg.C53_checked_ints_sub",
    "Abstalg.C53_two_element",
    "Abstalg.C53_quotient_ring",
    "Abstalg.C53_quotient_field",
    "Abstalg.C53_fractions",
    "Abstalg.C53_checked_fractions",
    "Abstalg.C53_rationals",
    "Abstalg.C53_polynomials",
    "Abstalg.C53_vectors_mul",
    "Abstalg.C53_vectors_add",
    "Abstalg.C53_vectors_neg",
    "Abstalg.C53_matrices",
    "Abstalg.C53_additive_group",
    "Abstalg.C53_multiplicative_group",
    "Abstalg.C53_floats",
    "Abstalg.C53_permutations"
   ],
   "note": ""
  },
  {
   "property": "C54",
   "status": "proved",
   "theorems": [
    "Abstalg.C54_two",
    "Abstalg.C54_less_than_comparable"
   ],
   "note": ""
  },
  {
   "property": "C55",
   "status": "proved",
   "theorems": [
    "Abstalg.C55_f32",
    "Abstalg.C55_f64",
    "Abstalg.C55_contains",
    "Abstalg.C55_members",
    "Abstalg.C55_equals",
    "Abstalg.C55_constants",
    "Abstalg.C55_add",
    "Abstalg.C55_sub",
    "Abstalg.C55_neg",
    "Abstalg.C55_mul",
    "Abstalg.C55_div",
    "Abstalg.C55_inv",
    "Abstalg.C55_try_inv",
    "Abstalg.C55_closed",
    "Abstalg.C55_rounding",
    "Abstalg.C55_exact_sum",
    "Abstalg.C55_exact_product",
    "Abstalg.C55_neutral",
    "Abstalg.C55_sub_zero",
    "Abstalg.C55_commutative",
    "Abstalg.C55_monotone",
    "Abstalg.C55_monotone_ops",
    "Abstalg.C55_lattice",
    "Abstalg.C55_not_associative",
    "Abstalg.C55_zero_divisors"
   ],
   "note": ""
  },
  {
   "property": "C56",
   "status": "proved",
   "theorems": [
    "Abstalg.C56_times",
    "Abstalg.C56_times_overflow",
    "Abstalg.C56_int",
    "Abstalg.C56_utimes_one",
    "Abstalg.C56_witness"
   ],
   "note": ""
  },
  {
   "property": "C57",
   "status": "proved",
   "theorems": [
    "Abstalg.C57_checked_divisibility",
    "Abstalg.C57_checked_fractions",
    "Abstalg.C57_checked_matrices",
    "Abstalg.C57_checked_fraction_vectors",
    "Abstalg.C57_checked_determinant",
    "Abstalg.C57_checked_polynomials",
    "Abstalg.C57_checked_vectors"
   ],
   "note": ""
  },
  {
   "property": "C58",
   "status": "proved",
   "theorems": [
    "Abstalg.C58_determinant",
    "Abstalg.C58_invertible",
    "Abstalg.C58_multiplicative_group",
    "Abstalg.C58_try_inv"
   ],
   "note": ""
  },
  {
   "property": "C59",
   "status": "proved",
   "theorems": [
    "Abstalg.C59_constructors",
    "Abstalg.C59_field_256",
    "Abstalg.C59_card",
    "Abstalg.C59_members",
    "Abstalg.C59_primitive",
    "Abstalg.C59_field_1721"
   ],
   "note": ""
  },
  {
   "property": "C60",
   "status": "proved",
   "theorems": [
    "Abstalg.C60_quotient_ring",
    "Abstalg.C60_quotient_equals",
    "Abstalg.C60_quotient_field",
    "Abstalg.C60_fractions",
    "Abstalg.C60_fractions_equals",
    "Abstalg.C60_integers",
    "Abstalg.C60_rationals"
   ],
   "note": ""
  },
  {
   "property": "C61",
   "status": "proved",
   "theorems": [
    "Abstalg.C61_residues",
    "Abstalg.C61_residues_checked",
    "Abstalg.C61_matrices",
    "Abstalg.C61_permutations",
    "Abstalg.C61_booleans"
   ],
   "note": ""
  },
  {
   "property": "C62",
   "status": "proved",
   "theorems": [
    "Abstalg.C62_gcd_limit",
    "Abstalg.C62_extended_gcd_limit",
    "Abstalg.C62_integers",
    "Abstalg.C62_sharp",
    "Abstalg.C62_checked",
    "Abstalg.C62_checked_sizes",
    "Abstalg.C62_polynomials",
    "Abstalg.C62_fields"
   ],
   "note": ""
  },
  {
   "property": "C63",
   "status": "proved",
   "theorems": [
    "Abstalg.C63_times",
    "Abstalg.C63_power",
    "Abstalg.C63_pointer",
    "Abstalg.C63_power_default"
   ],
   "note": ""
  },
  {
   "property": "C64",
   "status": "proved",
   "theorems": [
    "Abstalg.C64_integers",
    "Abstalg.C64_checked",
    "Abstalg.C64_two_element",
    "Abstalg.C64_laws_iff_contract",
    "Abstalg.C64_order_laws_iff_contract",
    "Abstalg.C64_vectors",
    "Abstalg.C64_vectors_order",
    "Abstalg.C64_matrices",
    "Abstalg.C64_fields",
    "Abstalg.C64_groups",
    "Abstalg.C64_polynomials",
    "Abstalg.C64_quotient_ring",
    "Abstalg.C64_quotient_field",
    "Abstalg.C64_fractions",
    "Abstalg.C64_divisibility",
    "Abstalg.C64_field_extensions",
    "Abstalg.C64_rational_functions",
    "Abstalg.C64_members",
    "Abstalg.C64_rationals",
    "Abstalg.C64_residues",
    "Abstalg.C64_residues_checked",
    "Abstalg.C64_permutations",
    "Abstalg.C64_floats",
    "Abstalg.C64_checked_towers"
   ],
   "note": ""
  },
  {
   "property": "C65",
   "status": "proved",
   "theorems": [
    "Abstalg.C65_determinant",
    "Abstalg.C65_invertible",
    "Abstalg.C65_try_inv",
    "Abstalg.C65_determinant_bound",
    "Abstalg.C65_poly_try_div",
    "Abstalg.C65_poly_try_div_constant",
    "Abstalg.C65_poly_try_div_bound",
    "Abstalg.C65_poly_divisible",
    "Abstalg.C65_poly_associate_repr",
    "Abstalg.C65_fractions_div",
    "Abstalg.C65_fractions_quo",
    "Abstalg.C65_matrix_mul",
    "Abstalg.C65_matrix_mul_integers",
    "Abstalg.C65_vectors_fractions",
    "Abstalg.C65_matrices_fractions",
    "Abstalg.C65_poly_add",
    "Abstalg.C65_poly_neg",
    "Abstalg.C65_poly_sub",
    "Abstalg.C65_poly_times",
    "Abstalg.C65_poly_mul",
    "Abstalg.C65_poly_mul_bound",
    "Abstalg.C65_vectors",
    "Abstalg.C65_fractions_mul",
    "Abstalg.C65_fractions_add",
    "Abstalg.C65_fractions_neg",
    "Abstalg.C65_fractions_sub",
    "Abstalg.C65_fractions_times",
    "Abstalg.C65_fractions_inv",
    "Abstalg.C65_fractions_try_inv",
    "Abstalg.C65_fractions_bound",
    "Abstalg.C65_poly_fractions_add",
    "Abstalg.C65_poly_fractions_neg",
    "Abstalg.C65_poly_fractions_sub",
    "Abstalg.C65_poly_fractions_times",
    "Abstalg.C65_poly_fractions_mul"
   ],
   "note": ""
  },
  {
   "property": "C66",
   "status": "proved",
   "theorems": [
    "Abstalg.C66_mul",
    "Abstalg.C66_mul_assign",
    "Abstalg.C66_is_one",
    "Abstalg.C66_try_inv",
    "Abstalg.C66_inv",
    "Abstalg.C66_debug_lengths",
    "Abstalg.C66_equals",
    "Abstalg.C66_maps",
    "Abstalg.C66_false_inverse"
   ],
   "note": ""
  },
  {
   "property": "C67",
   "status": "proved",
   "theorems": [
    "Abstalg.C67_vectors",
    "Abstalg.C67_vectors_semiring",
    "Abstalg.C67_vectors_group",
    "Abstalg.C67_vectors_abelian_group",
    "Abstalg.C67_vectors_lattice",
    "Abstalg.C67_vectors_bounded_order",
    "Abstalg.C67_vectors_boolean_algebra",
    "Abstalg.C67_matrices",
    "Abstalg.C67_matrices_new",
    "Abstalg.C67_determinant",
    "Abstalg.C67_transpose",
    "Abstalg.C67_polynomials_group",
    "Abstalg.C67_polynomials",
    "Abstalg.C67_polynomials_domain",
    "Abstalg.C67_polynomials_euclidean",
    "Abstalg.C67_quotient_ring",
    "Abstalg.C67_quotient_ring_new",
    "Abstalg.C67_quotient_field",
    "Abstalg.C67_quotient_field_new",
    "Abstalg.C67_fractions",
    "Abstalg.C67_fractions_new",
    "Abstalg.C67_additive_group",
    "Abstalg.C67_multiplicative_group",
    "Abstalg.C67_divisibility_order",
    "Abstalg.C67_divisibility_lattice",
    "Abstalg.C67_field_euclidean"
   ],
   "note": ""
  },
  {
   "property": "C68",
   "status": "proved",
   "theorems": [
    "Abstalg.C68_integers",
    "Abstalg.C68_integers_lattice",
    "Abstalg.C68_uints",
    "Abstalg.C68_fractions",
    "Abstalg.C68_matrices_of_fractions",
    "Abstalg.C68_determinant",
    "Abstalg.C68_polynomials",
    "Abstalg.C68_vectors",
    "Abstalg.C68_quotient_ring",
    "Abstalg.C68_quotient_field",
    "Abstalg.C68_extension_field",
    "Abstalg.C68_groups",
    "Abstalg.C68_divisibility"
   ],
   "note": ""
  },
  {
   "property": "C69",
   "status": "proved",
   "theorems": [
    "Abstalg.C69_integers",
    "Abstalg.C69_two_element",
    "Abstalg.C69_checked_ints",
    "Abstalg.C69_floats",
    "Abstalg.C69_permutations",
    "Abstalg.C69_rationals",
    "Abstalg.C69_extension_field"
   ],
   "note": ""
  },
  {
   "property": "C70",
   "status": "proved",
   "theorems": [
    "Abstalg.C70_integers",
    "Abstalg.C70_integers_lattice",
    "Abstalg.C70_uints",
    "Abstalg.C70_gcd",
    "Abstalg.C70_fractions",
    "Abstalg.C70_polynomials",
    "Abstalg.C70_quotient_field"
   ],
   "note": ""
  },
  {
   "property": "C71",
   "status": "proved",
   "theorems": [
    "Abstalg.C71_gcd",
    "Abstalg.C71_gcd_sign",
    "Abstalg.C71_lcm",
    "Abstalg.C71_lcm_abs",
    "Abstalg.C71_extended_gcd",
    "Abstalg.C71_bezout_bounds",
    "Abstalg.C71_bezout_minimal"
   ],
   "note": ""
  },
  {
   "property": "C72",
   "status": "proved",
   "theorems": [
    "Abstalg.C72_gcd",
    "Abstalg.C72_extended_gcd",
    "Abstalg.C72_lcm",
    "Abstalg.C72_tests",
    "Abstalg.C72_divisibility_order",
    "Abstalg.C72_divisibility_members",
    "Abstalg.C72_quotient_ops",
    "Abstalg.C72_quotient_sub",
    "Abstalg.C72_quotient_try_inv",
    "Abstalg.C72_quotient_inv",
    "Abstalg.C72_quotient_additive",
    "Abstalg.C72_quotient_mul_sharp"
   ],
   "note": ""
  },
  {
   "property": "C73",
   "status": "proved",
   "theorems": [
    "Abstalg.C73_contains",
    "Abstalg.C73_add",
    "Abstalg.C73_neg",
    "Abstalg.C73_sub",
    "Abstalg.C73_times",
    "Abstalg.C73_utimes",
    "Abstalg.C73_mul",
    "Abstalg.C73_equals",
    "Abstalg.C73_constants",
    "Abstalg.C73_try_inv",
    "Abstalg.C73_try_div",
    "Abstalg.C73_try_div_short",
    "Abstalg.C73_try_div_panics",
    "Abstalg.C73_associates_panic",
    "Abstalg.C73_quo_rem",
    "Abstalg.C73_quo_rem_cases",
    "Abstalg.C73_gcd"
   ],
   "note": ""
  },
  {
   "property": "C74",
   "status": "proved",
   "theorems": [
    "Abstalg.C74_product",
    "Abstalg.C74_sum",
    "Abstalg.C74_exact_difference",
    "Abstalg.C74_double",
    "Abstalg.C74_div_self",
    "Abstalg.C74_signs",
    "Abstalg.C74_matrix_mul",
    "Abstalg.C74_polynomial_mul",
    "Abstalg.C74_power",
    "Abstalg.C74_failing_laws"
   ],
   "note": ""
  },
  {
   "property": "C75",
   "status": "proved",
   "theorems": [
    "Abstalg.C75_basic",
    "Abstalg.C75_vectors",
    "Abstalg.C75_matrices",
    "Abstalg.C75_polynomials",
    "Abstalg.C75_polynomial_steps",
    "Abstalg.C75_quotients",
    "Abstalg.C75_wrappers",
    "Abstalg.C75_blanket",
    "Abstalg.C75_constants",
    "Abstalg.C75_constants_kept",
    "Abstalg.C75_blanket_diverges"
   ],
   "note": ""
  },
  {
   "property": "C76",
   "status": "proved",
   "theorems": [
    "Abstalg.C76_domain",
    "Abstalg.C76_ring",
    "Abstalg.C76_unary",
    "Abstalg.C76_div",
    "Abstalg.C76_inv",
    "Abstalg.C76_times",
    "Abstalg.C76_utimes",
    "Abstalg.C76_power",
    "Abstalg.C76_blanket",
    "Abstalg.C76_order",
    "Abstalg.C76_nan"
   ],
   "note": ""
  },
  {
   "property": "C77",
   "status": "proved",
   "theorems": [
    "Abstalg.C77_exact",
    "Abstalg.C77_rationals",
    "Abstalg.C77_determinant",
    "Abstalg.C77_try_inv",
    "Abstalg.C77_polynomials",
    "Abstalg.C77_matrix_mul",
    "Abstalg.C77_matrix_mul_fixed",
    "Abstalg.C77_polynomial_mul_fixed",
    "Abstalg.C77_one_by_one",
    "Abstalg.C77_debug_panic",
    "Abstalg.C77_determinant_panics"
   ],
   "note": ""
  },
  {
   "property": "C78",
   "status": "proved",
   "theorems": [
    "Abstalg.C78_gcd",
    "Abstalg.C78_gcd_cases",
    "Abstalg.C78_extended_gcd",
    "Abstalg.C78_unique",
    "Abstalg.C78_lengths",
    "Abstalg.C78_lcm",
    "Abstalg.C78_lcm_multiple"
   ],
   "note": ""
  },
  {
   "property": "C79",
   "status": "proved",
   "theorems": [
    "Abstalg.C79_group",
    "Abstalg.C79_group_order",
    "Abstalg.C79_permutations",
    "Abstalg.C79_euler",
    "Abstalg.C79_euler_inv",
    "Abstalg.C79_fermat",
    "Abstalg.C79_fermat_inv",
    "Abstalg.C79_fermat_checked",
    "Abstalg.C79_field_card",
    "Abstalg.C79_field_neg_one",
    "Abstalg.C79_frobenius"
   ],
   "note": ""
  },
  {
   "property": "C80",
   "status": "proved",
   "theorems": [
    "Abstalg.C80_matrix_mul",
    "Abstalg.C80_determinant",
    "Abstalg.C80_try_inv",
    "Abstalg.C80_try_inv_none",
    "Abstalg.C80_poly_mul",
    "Abstalg.C80_quo_rem",
    "Abstalg.C80_try_div",
    "Abstalg.C80_times",
    "Abstalg.C80_power"
   ],
   "note": ""
  },
  {
   "property": "C81",
   "status": "proved",
   "theorems": [
    "Abstalg.C81_vector_domain",
    "Abstalg.C81_vector_semigroup",
    "Abstalg.C81_vector_monoid",
    "Abstalg.C81_vector_group",
    "Abstalg.C81_vector_additive",
    "Abstalg.C81_vector_int",
    "Abstalg.C81_vector_order",
    "Abstalg.C81_matrix",
    "Abstalg.C81_poly_domain",
    "Abstalg.C81_poly_neg",
    "Abstalg.C81_poly_add_longer",
    "Abstalg.C81_poly_add_same",
    "Abstalg.C81_poly_sub",
    "Abstalg.C81_poly_times",
    "Abstalg.C81_associate_repr",
    "Abstalg.C81_gcd",
    "Abstalg.C81_extended_gcd",
    "Abstalg.C81_poly_gcd",
    "Abstalg.C81_poly_extended_gcd"
   ],
   "note": ""
  },
  {
   "property": "C82",
   "status": "proved",
   "theorems": [
    "Abstalg.C82_rational_functions",
    "Abstalg.C82_rational_reduce",
    "Abstalg.C82_simple_extension",
    "Abstalg.C82_chinese_remainder",
    "Abstalg.C82_integer_residues",
    "Abstalg.C82_remainder",
    "Abstalg.C82_interpolation",
    "Abstalg.C82_interpolation_inverse"
   ],
   "note": ""
  },
  {
   "property": "C83",
   "status": "proved",
   "theorems": [
    "Abstalg.C83_naturals",
    "Abstalg.C83_checked_uints",
    "Abstalg.C83_two_element_order",
    "Abstalg.C83_integers",
    "Abstalg.C83_integers_times",
    "Abstalg.C83_group_contract",
    "Abstalg.C83_semiring_contract",
    "Abstalg.C83_abelian_group_contract",
    "Abstalg.C83_unitary_ring_contract",
    "Abstalg.C83_euclidean_contract",
    "Abstalg.C83_field_contract",
    "Abstalg.C83_group_members",
    "Abstalg.C83_semiring_members",
    "Abstalg.C83_abelian_group_members",
    "Abstalg.C83_unitary_ring_members",
    "Abstalg.C83_field_members",
    "Abstalg.C83_euclidean_members",
    "Abstalg.C83_two_element_field",
    "Abstalg.C83_checked_ints",
    "Abstalg.C83_checked_ints_sub",
    "Abstalg.C83_checked_ints_reduced",
    "Abstalg.C83_checked_ints_times",
    "Abstalg.C83_checked_ints_extended_gcd",
    "Abstalg.C83_floats",
    "Abstalg.C83_multiplicative_group"
   ],
   "note": ""
  },
  {
   "property": "C84",
   "status": "proved",
   "theorems": [
    "Abstalg.C84_monoid",
    "Abstalg.C84_group",
    "Abstalg.C84_commutative_monoid",
    "Abstalg.C84_abelian_group",
    "Abstalg.C84_field",
    "Abstalg.C84_euclidean",
    "Abstalg.C84_quotient",
    "Abstalg.C84_quotient_inverse",
    "Abstalg.C84_vector_additive_group",
    "Abstalg.C84_vector_multiplicative_group",
    "Abstalg.C84_vector_one",
    "Abstalg.C84_vector_nested",
    "Abstalg.C84_transpose_mul",
    "Abstalg.C84_transpose_inv",
    "Abstalg.C84_permutation_matrices",
    "Abstalg.C84_divisibility_field",
    "Abstalg.C84_divisibility_bits",
    "Abstalg.C84_fractions_field",
    "Abstalg.C84_matrix_one"
   ],
   "note": ""
  },
  {
   "property": "C85",
   "status": "proved",
   "theorems": [
    "Abstalg.C85_value",
    "Abstalg.C85_chain",
    "Abstalg.C85_neg",
    "Abstalg.C85_equals",
    "Abstalg.C85_field",
    "Abstalg.C85_lattice",
    "Abstalg.C85_constructions",
    "Abstalg.C85_group",
    "Abstalg.C85_signs",
    "Abstalg.C85_order",
    "Abstalg.C85_matrix_mul",
    "Abstalg.C85_determinant",
    "Abstalg.C85_determinant_neg",
    "Abstalg.C85_try_inv",
    "Abstalg.C85_transpose_mul",
    "Abstalg.C85_poly_mul",
    "Abstalg.C85_quo_rem",
    "Abstalg.C85_gcd"
   ],
   "note": ""
  },
  {
   "property": "C86",
   "status": "proved",
   "theorems": [
    "Abstalg.C86_floats",
    "Abstalg.C86_floats_nonneg",
    "Abstalg.C86_float_div",
    "Abstalg.C86_float_times",
    "Abstalg.C86_float_power",
    "Abstalg.C86_checked_ints",
    "Abstalg.C86_checked_ints_nonneg",
    "Abstalg.C86_checked_times",
    "Abstalg.C86_checked_uints",
    "Abstalg.C86_vectors",
    "Abstalg.C86_vector_rings",
    "Abstalg.C86_matrices",
    "Abstalg.C86_poly_mul",
    "Abstalg.C86_power",
    "Abstalg.C86_float_matrix_mul"
   ],
   "note": ""
  },
  {
   "property": "C87",
   "status": "proved",
   "theorems": [
    "Abstalg.C87_sub_near",
    "Abstalg.C87_double",
    "Abstalg.C87_add_error",
    "Abstalg.C87_mul_error",
    "Abstalg.C87_two_sum",
    "Abstalg.C87_integers",
    "Abstalg.C87_integers_mul",
    "Abstalg.C87_integers_poly",
    "Abstalg.C87_integers_order"
   ],
   "note": ""
  },
  {
   "property": "C88",
   "status": "proved",
   "theorems": [
    "Abstalg.C88_monoid",
    "Abstalg.C88_group",
    "Abstalg.C88_abelian_group",
    "Abstalg.C88_ring",
    "Abstalg.C88_field",
    "Abstalg.C88_constant_vectors",
    "Abstalg.C88_constant_polynomials",
    "Abstalg.C88_polynomials_expand",
    "Abstalg.C88_constant_residues",
    "Abstalg.C88_integers",
    "Abstalg.C88_diagonal_matrices",
    "Abstalg.C88_scalar_matrices",
    "Abstalg.C88_extension_matrices",
    "Abstalg.C88_triangular_determinant",
    "Abstalg.C88_triangular_inverse",
    "Abstalg.C88_triangular_ring",
    "Abstalg.C88_block_determinant",
    "Abstalg.C88_cayley"
   ],
   "note": ""
  },
  {
   "property": "C89",
   "status": "proved",
   "theorems": [
    "Abstalg.C89_division",
    "Abstalg.C89_divisible",
    "Abstalg.C89_associates",
    "Abstalg.C89_associate",
    "Abstalg.C89_gcd",
    "Abstalg.C89_extended_gcd",
    "Abstalg.C89_order_contains",
    "Abstalg.C89_order",
    "Abstalg.C89_reduce",
    "Abstalg.C89_fraction_contains",
    "Abstalg.C89_fraction_ops",
    "Abstalg.C89_fraction_times",
    "Abstalg.C89_fraction_inv",
    "Abstalg.C89_fraction_inv_not_closed"
   ],
   "note": ""
  },
  {
   "property": "C90",
   "status": "proved",
   "theorems": [
    "Abstalg.C90_dominant_rows",
    "Abstalg.C90_dominant_columns",
    "Abstalg.C90_dominant_inverse",
    "Abstalg.C90_anisotropic",
    "Abstalg.C90_positive",
    "Abstalg.C90_lower_upper",
    "Abstalg.C90_vandermonde",
    "Abstalg.C90_polynomial_entries",
    "Abstalg.C90_characteristic_polynomial",
    "Abstalg.C90_resolvent"
   ],
   "note": ""
  },
  {
   "property": "C91",
   "status": "proved",
   "theorems": [
    "Abstalg.C91_image",
    "Abstalg.C91_series",
    "Abstalg.C91_series_inverse",
    "Abstalg.C91_dual_numbers",
    "Abstalg.C91_dual_inverse",
    "Abstalg.C91_taylor",
    "Abstalg.C91_tangent",
    "Abstalg.C91_generated",
    "Abstalg.C91_minimal_polynomial"
   ],
   "note": ""
  },
  {
   "property": "C92",
   "status": "proved",
   "theorems": [
    "Abstalg.C92_default_agrees",
    "Abstalg.C92_agrees_default",
    "Abstalg.C92_agrees_own",
    "Abstalg.C92_agrees_vectors",
    "Abstalg.C92_default_unchanged",
    "Abstalg.C92_own_unchanged",
    "Abstalg.C92_vector_binary",
    "Abstalg.C92_vector_unary",
    "Abstalg.C92_matrices",
    "Abstalg.C92_vector_ints",
    "Abstalg.C92_permutations",
    "Abstalg.C92_unchanged_members",
    "Abstalg.C92_vector_members",
    "Abstalg.C92_permutations_not_members"
   ],
   "note": ""
  },
  {
   "property": "C93",
   "status": "proved",
   "theorems": [
    "Abstalg.C93_outcomes",
    "Abstalg.C93_outcomes_matrices",
    "Abstalg.C93_outcomes_polynomials",
    "Abstalg.C93_times",
    "Abstalg.C93_power",
    "Abstalg.C93_vectors",
    "Abstalg.C93_vectors_panic",
    "Abstalg.C93_matrix_mul",
    "Abstalg.C93_determinant",
    "Abstalg.C93_matrix_try_inv",
    "Abstalg.C93_poly_add",
    "Abstalg.C93_poly_mul",
    "Abstalg.C93_poly_quo_rem",
    "Abstalg.C93_poly_try_div",
    "Abstalg.C93_poly_gcd"
   ],
   "note": ""
  },
  {
   "property": "C94",
   "status": "proved",
   "theorems": [
    "Abstalg.C94_new",
    "Abstalg.C94_matrices",
    "Abstalg.C94_matrix_constants",
    "Abstalg.C94_vectors",
    "Abstalg.C94_polynomials",
    "Abstalg.C94_poly_capacity",
    "Abstalg.C94_permutations",
    "Abstalg.C94_try_div_capacity",
    "Abstalg.C94_arithmetic"
   ],
   "note": ""
  },
  {
   "property": "C95",
   "status": "proved",
   "theorems": [
    "Abstalg.C95_provided_semigroup",
    "Abstalg.C95_provided_monoid",
    "Abstalg.C95_provided_group",
    "Abstalg.C95_provided_commutative_monoid",
    "Abstalg.C95_provided_abelian_group",
    "Abstalg.C95_provided_unitary_ring",
    "Abstalg.C95_provided_integral_domain",
    "Abstalg.C95_provided_euclidean_domain",
    "Abstalg.C95_provided_field",
    "Abstalg.C95_provided_partial_order",
    "Abstalg.C95_vector_domain",
    "Abstalg.C95_vector_semigroup",
    "Abstalg.C95_vector_monoid",
    "Abstalg.C95_vector_group",
    "Abstalg.C95_vector_commutative_monoid",
    "Abstalg.C95_vector_abelian_group",
    "Abstalg.C95_vector_semi_ring",
    "Abstalg.C95_vector_unitary_ring",
    "Abstalg.C95_vector_partial_order",
    "Abstalg.C95_vector_bounded_order",
    "Abstalg.C95_vector_lattice",
    "Abstalg.C95_vector_boolean_algebra",
    "Abstalg.C95_field",
    "Abstalg.C95_matrices",
    "Abstalg.C95_determinant",
    "Abstalg.C95_poly_abelian_group",
    "Abstalg.C95_poly_unitary_ring",
    "Abstalg.C95_poly_integral_domain",
    "Abstalg.C95_poly_euclidean",
    "Abstalg.C95_quotients",
    "Abstalg.C95_fractions",
    "Abstalg.C95_additive_group",
    "Abstalg.C95_multiplicative_group",
    "Abstalg.C95_divisibility",
    "Abstalg.C95_constructors",
    "Abstalg.C95_outcome",
    "Abstalg.C95_state_independent",
    "Abstalg.C95_preorder"
   ],
   "note": ""
  },
  {
   "property": "C96",
   "status": "proved",
   "theorems": [
    "Abstalg.C96_provided_semigroup",
    "Abstalg.C96_provided_monoid",
    "Abstalg.C96_provided_group",
    "Abstalg.C96_provided_commutative_monoid",
    "Abstalg.C96_provided_abelian_group",
    "Abstalg.C96_provided_integral_domain",
    "Abstalg.C96_provided_euclidean_domain",
    "Abstalg.C96_provided_field",
    "Abstalg.C96_provided_partial_order",
    "Abstalg.C96_vector_domain",
    "Abstalg.C96_vector_semigroup",
    "Abstalg.C96_vector_monoid",
    "Abstalg.C96_vector_group",
    "Abstalg.C96_vector_commutative_monoid",
    "Abstalg.C96_vector_abelian_group",
    "Abstalg.C96_vector_semi_ring",
    "Abstalg.C96_vector_unitary_ring",
    "Abstalg.C96_vector_partial_order",
    "Abstalg.C96_vector_bounded_order",
    "Abstalg.C96_vector_lattice",
    "Abstalg.C96_vector_boolean_algebra",
    "Abstalg.C96_vector_length",
    "Abstalg.C96_matrices",
    "Abstalg.C96_matrix_methods",
    "Abstalg.C96_determinant",
    "Abstalg.C96_poly_abelian_group",
    "Abstalg.C96_poly_sum_length",
    "Abstalg.C96_poly_unitary_ring",
    "Abstalg.C96_poly_mul",
    "Abstalg.C96_poly_try_div",
    "Abstalg.C96_poly_quo_rem",
    "Abstalg.C96_poly_empty_divisor",
    "Abstalg.C96_poly_zero_divisor",
    "Abstalg.C96_poly_associates",
    "Abstalg.C96_poly_integral_domain",
    "Abstalg.C96_poly_euclidean",
    "Abstalg.C96_field_integral_domain",
    "Abstalg.C96_field_euclidean",
    "Abstalg.C96_quotient_ring",
    "Abstalg.C96_quotient_field",
    "Abstalg.C96_fractions",
    "Abstalg.C96_additive_group",
    "Abstalg.C96_multiplicative_group",
    "Abstalg.C96_divisibility",
    "Abstalg.C96_constructors",
    "Abstalg.C96_panic_of_the_base"
   ],
   "note": ""
  },
  {
   "property": "C97",
   "status": "proved",
   "theorems": [
    "Abstalg.C97_caught",
    "Abstalg.C97_uncaught",
    "Abstalg.C97_indistinguishable",
    "Abstalg.C97_rings",
    "Abstalg.C97_fields",
    "Abstalg.C97_groups",
    "Abstalg.C97_boolean_algebras",
    "Abstalg.C97_follows_rings",
    "Abstalg.C97_follows_fields",
    "Abstalg.C97_follows_euclidean",
    "Abstalg.C97_follows_groups",
    "Abstalg.C97_follows_boolean_algebras",
    "Abstalg.C97_states_rings",
    "Abstalg.C97_states_fields",
    "Abstalg.C97_states_euclidean",
    "Abstalg.C97_states_groups",
    "Abstalg.C97_states_boolean_algebras",
    "Abstalg.C97_two_elements",
    "Abstalg.C97_residues",
    "Abstalg.C97_machine_integers",
    "Abstalg.C97_same_field",
    "Abstalg.C97_builds"
   ],
   "note": ""
  },
  {
   "property": "C98",
   "status": "proved",
   "theorems": [
    "Abstalg.C98_metered_monoid",
    "Abstalg.C98_metered_group",
    "Abstalg.C98_metered_abelian_group",
    "Abstalg.C98_metered_ring",
    "Abstalg.C98_metered_domain",
    "Abstalg.C98_metered_field",
    "Abstalg.C98_observed_multiples",
    "Abstalg.C98_observed_vectors",
    "Abstalg.C98_observed_matrices",
    "Abstalg.C98_observed_polynomials",
    "Abstalg.C98_observed_residues",
    "Abstalg.C98_extended_gcd",
    "Abstalg.C98_residues",
    "Abstalg.C98_outcomes_residues",
    "Abstalg.C98_time_matrices",
    "Abstalg.C98_time_polynomials",
    "Abstalg.C98_clock_of_counters",
    "Abstalg.C98_clock_field",
    "Abstalg.C98_tower",
    "Abstalg.C98_matrices_over_residues",
    "Abstalg.C98_matrix_product_of_residues",
    "Abstalg.C98_two_extensions",
    "Abstalg.C98_determinant_over_two_extensions"
   ],
   "note": ""
  },
  {
   "property": "C99",
   "status": "proved",
   "theorems": [
    "Abstalg.C99_gcd",
    "Abstalg.C99_lcm",
    "Abstalg.C99_extended_gcd",
    "Abstalg.C99_agreement",
    "Abstalg.C99_euclidean",
    "Abstalg.C99_provided",
    "Abstalg.C99_fields",
    "Abstalg.C99_integers",
    "Abstalg.C99_polynomials",
    "Abstalg.C99_machine_integers"
   ],
   "note": ""
  },
  {
   "property": "C100",
   "status": "proved",
   "theorems": [
    "Abstalg.C100_factors",
    "Abstalg.C100_fields",
    "Abstalg.C100_floats",
    "Abstalg.C100_determinant"
   ],
   "note": ""
  },
  {
   "property": "C101",
   "status": "proved",
   "theorems": [
    "Abstalg.C101_quo_rem",
    "Abstalg.C101_try_div"
   ],
   "note": ""
  },
  {
   "property": "C102",
   "status": "proved",
   "theorems": [
    "Abstalg.C102_call",
    "Abstalg.C102_calls_of_others",
    "Abstalg.C102_multiplicative",
    "Abstalg.C102_rings",
    "Abstalg.C102_orders",
    "Abstalg.C102_provided_euclidean",
    "Abstalg.C102_extensions_of_fields",
    "Abstalg.C102_extensions_of_domains",
    "Abstalg.C102_schedule_independent"
   ],
   "note": ""
  },
  {
   "property": "C103",
   "status": "proved",
   "theorems": [
    "Abstalg.C103_integers",
    "Abstalg.C103_fractions",
    "Abstalg.C103_matrices",
    "Abstalg.C103_determinant",
    "Abstalg.C103_polynomials",
    "Abstalg.C103_polynomials_of_fractions",
    "Abstalg.C103_vectors",
    "Abstalg.C103_quotient_ring",
    "Abstalg.C103_quotient_field",
    "Abstalg.C103_extension_field",
    "Abstalg.C103_groups",
    "Abstalg.C103_divisibility",
    "Abstalg.C103_guarded_follows_integers",
    "Abstalg.C103_programs",
    "Abstalg.C103_programs_of_fractions",
    "Abstalg.C103_uints",
    "Abstalg.C103_vectors_of_uints",
    "Abstalg.C103_stops",
    "Abstalg.C103_stops_naturals",
    "Abstalg.C103_rings",
    "Abstalg.C103_fields",
    "Abstalg.C103_euclidean_domains",
    "Abstalg.C103_all_groups",
    "Abstalg.C103_caught",
    "Abstalg.C103_caught_fractions",
    "Abstalg.C103_caught_matrices",
    "Abstalg.C103_determinant_panics",
    "Abstalg.C103_caught_polynomials_of_fractions",
    "Abstalg.C103_caught_polynomials",
    "Abstalg.C103_try_div_panics",
    "Abstalg.C103_caught_vectors",
    "Abstalg.C103_caught_residues",
    "Abstalg.C103_caught_extension_field",
    "Abstalg.C103_caught_groups",
    "Abstalg.C103_uints_alike"
   ],
   "note": ""
  },
  {
   "property": "C104",
   "status": "proved",
   "theorems": [
    "Abstalg.Stateful.C104_fractions",
    "Abstalg.Stateful.C104_residues",
    "Abstalg.Stateful.C104_counting",
    "Abstalg.Stateful.C104_machine",
    "Abstalg.Stateful.C104_machine_fractions",
    "Abstalg.Stateful.C104_machine_residues"
   ],
   "note": ""
  },
  {
   "property": "C105",
   "status": "proved",
   "theorems": [
    "Abstalg.C105_follows",
    "Abstalg.C105_alike",
    "Abstalg.C105_states",
    "Abstalg.C105_indistinguishable",
    "Abstalg.C105_exact",
    "Abstalg.C105_faithful",
    "Abstalg.C105_two_elements",
    "Abstalg.C105_machine_fractions",
    "Abstalg.C105_builds",
    "Abstalg.C105_same_field"
   ],
   "note": ""
  },
  {
   "property": "C106",
   "status": "proved",
   "theorems": [
    "Abstalg.C106_follows",
    "Abstalg.C106_alike",
    "Abstalg.C106_states",
    "Abstalg.C106_machine_integers",
    "Abstalg.C106_integers",
    "Abstalg.C106_builds",
    "Abstalg.C106_polynomials",
    "Abstalg.C106_same_domain"
   ],
   "note": ""
  },
  {
   "property": "C107",
   "status": "proved",
   "theorems": [
    "Abstalg.C107_threads",
    "Abstalg.C107_schedules",
    "Abstalg.C107_fields",
    "Abstalg.C107_domains",
    "Abstalg.C107_interleaved_fields",
    "Abstalg.C107_interleaved_domains"
   ],
   "note": ""
  },
  {
   "property": "C108",
   "status": "proved",
   "theorems": [
    "Abstalg.C108_copies",
    "Abstalg.C108_copies_default",
    "Abstalg.C108_copies_own",
    "Abstalg.C108_copies_vectors",
    "Abstalg.C108_copies_matrices",
    "Abstalg.C108_vectors_differ",
    "Abstalg.C108_exact",
    "Abstalg.C108_exact_rings",
    "Abstalg.C108_exact_groups",
    "Abstalg.C108_exact_permutations",
    "Abstalg.C108_exact_vectors",
    "Abstalg.C108_exact_matrices",
    "Abstalg.C108_default",
    "Abstalg.C108_vectors",
    "Abstalg.C108_matrices",
    "Abstalg.C108_programs",
    "Abstalg.C108_rings",
    "Abstalg.C108_machine_vectors",
    "Abstalg.C108_machine_matrices"
   ],
   "note": ""
  },
  {
   "property": "C109",
   "status": "proved",
   "theorems": [
    "Abstalg.C109_triangular",
    "Abstalg.C109_triangular_returns",
    "Abstalg.C109_diagonal",
    "Abstalg.C109_triangular_singular",
    "Abstalg.C109_diagonal_singular",
    "Abstalg.C109_diagonal_panics",
    "Abstalg.C109_triangular_panics",
    "Abstalg.C109_floats_determinant",
    "Abstalg.C109_floats_inverse",
    "Abstalg.C109_floats_stops"
   ],
   "note": ""
  }
 ]
}