{
 "claims": [
  {
   "property": "C01",
   "status": "proved",
   "theorems": [
    "Eprem.Symbolic.c01_reduce_value"
   ],
   "note": ""
  },
  {
   "property": "C02",
   "status": "proved",
   "theorems": [
    "Eprem.Symbolic.c02_reduce_canonical",
    "Eprem.Symbolic.c02_canonical_unique"
   ],
   "note": "the canonical form is also shown to be a normal form"
  },
  {
   "property": "C03",
   "status": "proved",
   "theorems": [
    "Eprem.Symbolic.c03_reduce_perm",
    "Eprem.Symbolic.c03_reduce_groups",
    "Eprem.Symbolic.c03_reduce_idempotent",
    "Eprem.Symbolic.c03_eq_iff",
    "Eprem.Symbolic.c03_same_factors_equal"
   ],
   "note": ""
  },
  {
   "property": "C04",
   "status": "partial",
   "theorems": [
    "Eprem.Symbolic.c04_mul_comm",
    "Eprem.Symbolic.c04_div_self",
    "Eprem.Symbolic.c04_mul_assoc_partial",
    "Eprem.Symbolic.c04_mul_div_cancel_partial",
    "Eprem.Symbolic.c04_pow_mul_partial",
    "Eprem.Symbolic.c04_names_mul",
    "Eprem.Symbolic.c04_names_div",
    "Eprem.Symbolic.c04_names_pow",
    "Eprem.Symbolic.c04_names_laws",
    "Eprem.Symbolic.c04_mul_inexact",
    "Eprem.Symbolic.c04_pow_inexact"
   ],
   "note": "The code violates the full claim (c04_mul_inexact, c04_pow_inexact: results are printed and re-read, which loses multi-digit denominators). Proved unconditionally for coefficient-free integer powers (units), commutativity and a/a for all expressions, and in general whenever the intermediate results are printable."
  },
  {
   "property": "C05",
   "status": "proved",
   "theorems": [
    "Eprem.Symbolic.c05_parse_denotes",
    "Eprem.Symbolic.c05_expression_denotes",
    "Eprem.Symbolic.c05_parse_total",
    "Eprem.Symbolic.c05_strict_agrees",
    "Eprem.Symbolic.c05_multidigit_denominator",
    "Eprem.Symbolic.c05_multidigit_exponent",
    "Eprem.Symbolic.c05_signed_exponent",
    "Eprem.Symbolic.c05_zero",
    "Eprem.Symbolic.c05_zero_exponent",
    "Eprem.Symbolic.c05_empty"
   ],
   "note": "c05_multidigit_denominator to c05_zero_exponent are concrete strings outside the grammar that the code misreads"
  },
  {
   "property": "C06",
   "status": "partial",
   "theorems": [
    "Eprem.Symbolic.c06_print_parse_partial",
    "Eprem.Symbolic.c06_print_parse_symbol_partial",
    "Eprem.Symbolic.c06_print_parse_number_partial",
    "Eprem.Symbolic.c06_terms_round_trip_partial",
    "Eprem.Symbolic.c06_expression_partial",
    "Eprem.Symbolic.c06_print_bad_denominator",
    "Eprem.Symbolic.c06_print_inexact"
   ],
   "note": "The code violates the claim for denominators of two or more digits and for coefficients that are not doubles; proved for all Printable terms."
  },
  {
   "property": "C07",
   "status": "partial",
   "theorems": [
    "Eprem.Symbolic.c07_find_bounds_partial",
    "Eprem.Symbolic.c07_find_bounds_leading",
    "Eprem.Symbolic.c07_early_close"
   ],
   "note": "The code violates the claim when a ) precedes the first ( ; proved otherwise, and unconditionally for strings starting with (."
  },
  {
   "property": "C08",
   "status": "proved",
   "theorems": [
    "Eprem.Container.c08_unique",
    "Eprem.Container.c08_unique_idempotent",
    "Eprem.Container.c08_unique_determined"
   ],
   "note": ""
  },
  {
   "property": "C09",
   "status": "proved",
   "theorems": [
    "Eprem.Container.c09_merge_fails_iff",
    "Eprem.Container.c09_merge_ok",
    "Eprem.Container.c09_merge_self"
   ],
   "note": ""
  },
  {
   "property": "C10",
   "status": "proved",
   "theorems": [
    "Eprem.Container.c10_bijection_iff",
    "Eprem.Container.c10_bijection_invert",
    "Eprem.Container.c10_bijection_find"
   ],
   "note": ""
  },
  {
   "property": "C11",
   "status": "proved",
   "theorems": [
    "Eprem.Container.c11_nearest",
    "Eprem.Container.c11_nearest_lower",
    "Eprem.Container.c11_nearest_upper"
   ],
   "note": "over any linearly ordered commutative group (no floating-point rounding)"
  },
  {
   "property": "C12",
   "status": "proved",
   "theorems": [
    "Eprem.Container.c12_graph_reciprocal",
    "Eprem.Container.c12_graph_present",
    "Eprem.Container.c12_graph_never_overwritten",
    "Eprem.Container.c12_graph_adjacencies",
    "Eprem.Container.c12_self_loop_not_reciprocal"
   ],
   "note": "reciprocity for two different nodes; a self-loop is shown not to be reciprocal"
  },
  {
   "property": "C13",
   "status": "proved",
   "theorems": [
    "Eprem.Container.c13_find",
    "Eprem.Container.c13_find_unique",
    "Eprem.Container.c13_call_strict",
    "Eprem.Container.c13_call_iterative",
    "Eprem.Container.c13_call_single"
   ],
   "note": ""
  },
  {
   "property": "C14",
   "status": "partial",
   "theorems": [
    "Eprem.Container.c14_register_keeps_partial",
    "Eprem.Container.c14_register_can_lose",
    "Eprem.Container.c14_reset"
   ],
   "note": "The code violates the claim for names like f_1 (c14_register_can_lose); proved for all histories of names that do not end in an underscore and a number."
  },
  {
   "property": "C15",
   "status": "proved",
   "theorems": [
    "Eprem.Aliased.c15_lookup",
    "Eprem.Aliased.c15_lookup_interior",
    "Eprem.Aliased.c15_lookup_groups",
    "Eprem.Aliased.c15_lookup_repeated",
    "Eprem.Aliased.c15_or"
   ],
   "note": ""
  },
  {
   "property": "C16",
   "status": "proved",
   "theorems": [
    "Eprem.Aliased.c16_groups_disjoint",
    "Eprem.Aliased.c16_set",
    "Eprem.Aliased.c16_del",
    "Eprem.Aliased.c16_alias",
    "Eprem.Aliased.c16_alias_many"
   ],
   "note": "over all reachable states"
  },
  {
   "property": "C17",
   "status": "partial",
   "theorems": [
    "Eprem.Aliased.c17_merge_groups_partial",
    "Eprem.Aliased.c17_merge_raises",
    "Eprem.Aliased.c17_merge_loses_partner",
    "Eprem.Aliased.c17_add_discard"
   ],
   "note": "The code violates the claim when a group overlaps two groups of the other collection; proved otherwise, for every iteration order of sets."
  },
  {
   "property": "C18",
   "status": "proved",
   "theorems": [
    "Eprem.Aliased.c18_name_map",
    "Eprem.Aliased.c18_name_map_iterable"
   ],
   "note": ""
  },
  {
   "property": "C63",
   "status": "partial",
   "theorems": [
    "Eprem.Container.c63_iterative_rejects_unique_row",
    "Eprem.Container.c13_call_single"
   ],
   "note": "The code violates the claim; it holds for single-pair requests (c13_call_single)."
  },
  {
   "property": "C64",
   "status": "proved",
   "theorems": [
    "Eprem.Container.c64_distribute"
   ],
   "note": ""
  },
  {
   "property": "C65",
   "status": "partial",
   "theorems": [
    "Eprem.Aliased.c65_group_hides_key",
    "Eprem.Aliased.c65_read_plain_partial"
   ],
   "note": "The code violates the claim; it holds for keys that are not names of key groups."
  },
  {
   "property": "C66",
   "status": "partial",
   "theorems": [
    "Eprem.Aliased.c66_tuple_assignment_splits",
    "Eprem.Aliased.c66_tuple_fresh_partial"
   ],
   "note": "The code violates the claim; it holds for tuples of new names."
  },
  {
   "property": "C46",
   "status": "partial",
   "theorems": [
    "Eprem.Project.c46_logged_runs_exist",
    "Eprem.Project.c46_log_is_listing",
    "Eprem.Project.c46_run_effect",
    "Eprem.Project.c46_nested_name_dangles",
    "Eprem.Project.c46_recursive_pattern_dangles"
   ],
   "note": "Proved for every history of commands whose run names are single path components and whose rm patterns match only entries of the run directories; the code violates the claim for nested names and for the pattern **."
  },
  {
   "property": "C47",
   "status": "partial",
   "theorems": [
    "Eprem.Project.c47_run_keeps",
    "Eprem.Project.c47_mv_frame",
    "Eprem.Project.c47_mv_moves",
    "Eprem.Project.c47_rm_frame",
    "Eprem.Project.c47_rm_removes",
    "Eprem.Project.c47_mv_effect",
    "Eprem.Project.c47_selection",
    "Eprem.Project.c47_other_branches",
    "Eprem.Project.c47_rm_empty_removes_all"
   ],
   "note": "run, mv and rm with a non-empty pattern proved, at every crash point; the code violates the claim for rm with an empty name (removes every run)."
  },
  {
   "property": "C48",
   "status": "partial",
   "theorems": [
    "Eprem.Project.c48_crash_partial",
    "Eprem.Project.c48_mv_crash_dangling"
   ],
   "note": "The code violates the claim: every rename of a logged run has a crash point with a dangling log entry and one with an unreadable log. Proved: at every crash point at most one logged run is missing, none for run."
  },
  {
   "property": "C49",
   "status": "partial",
   "theorems": [
    "Eprem.Project.c49_rename_moves_partial",
    "Eprem.Project.c49_rename_refused",
    "Eprem.Project.c49_rename_leaves_log",
    "Eprem.Project.c49_mv_after_rename_raises",
    "Eprem.Project.c49_not_name"
   ],
   "note": "The code violates the claim: no rename updates the log, and the name of the project stays the old one if it has been read (c49_not_name). Proved: the disk is moved as a whole, and an existing target is refused."
  },
  {
   "property": "C51",
   "status": "proved",
   "theorems": [
    "Eprem.Project.c51_reset"
   ],
   "note": "over all reachable states"
  },
  {
   "property": "C50",
   "status": "partial",
   "theorems": [
    "Eprem.Attrs.c50_reopen",
    "Eprem.Attrs.c50_open_existing",
    "Eprem.Attrs.c50_reopen_renamed",
    "Eprem.Attrs.c50_inputs_dot",
    "Eprem.Attrs.c50_copy_ignores_source",
    "Eprem.Attrs.c50_copy_loses_branches"
   ],
   "note": "Reopening restores all attributes (also after a rename) unless the input directory is the root itself (c50_inputs_dot); the code violates the claim for copies."
  },
  {
   "property": "C19",
   "status": "proved",
   "theorems": [
    "Eprem.Metric.c19_quotient",
    "Eprem.Metric.c19_sizes",
    "Eprem.Metric.c19_round_trip",
    "Eprem.Metric.c19_route_independent",
    "Eprem.Metric.c19_routes_agree",
    "Eprem.Metric.c19_connected",
    "Eprem.Metric.c19_prefix",
    "Eprem.Metric.c19_order_independent"
   ],
   "note": "String conversions in exact rational arithmetic: every factor found is a quotient of sizes, for every order in which the graph is visited."
  },
  {
   "property": "C20",
   "status": "proved",
   "theorems": [
    "Eprem.Metric.c20_compose",
    "Eprem.Metric.c20_identity"
   ],
   "note": ""
  },
  {
   "property": "C21",
   "status": "proved",
   "theorems": [
    "Eprem.Metric.c21_ratio",
    "Eprem.Metric.c21_reciprocal",
    "Eprem.Metric.c21_compose"
   ],
   "note": ""
  },
  {
   "property": "C22",
   "status": "proved",
   "theorems": [
    "Eprem.Metric.c22_lookup",
    "Eprem.Metric.c22_spelling",
    "Eprem.Metric.c22_unique",
    "Eprem.Metric.c22_sound",
    "Eprem.Metric.c22_collision"
   ],
   "note": "All spellings but 'cd' are unambiguous; 'cd' is shared by candela and centiday."
  },
  {
   "property": "C23",
   "status": "partial",
   "theorems": [
    "Eprem.Metric.c23_stored",
    "Eprem.Metric.c23_transparent",
    "Eprem.Metric.c23_repeat",
    "Eprem.Metric.c23_named",
    "Eprem.Metric.c23_history_matters",
    "Eprem.Metric.c23_registry",
    "Eprem.Metric.c23_not_cd",
    "Eprem.Metric.c23_units_partial",
    "Eprem.Metric.c23_not_units"
   ],
   "note": "Conversions found by name and named units other than 'cd' are independent of every history; units are, up to the order of their factors, for products of distinct symbols. The code violates the rest (c23_history_matters, c23_not_cd, c23_not_units)."
  },
  {
   "property": "C24",
   "status": "partial",
   "theorems": [
    "Eprem.Metric.c24_matching",
    "Eprem.Metric.c24_speed",
    "Eprem.Metric.c24_resolved",
    "Eprem.Metric.c24_not_dimensionless",
    "Eprem.Metric.c24_not_by_dimensions",
    "Eprem.Metric.c24_refused"
   ],
   "note": "Proved for compounds that differ by swapping units, and whenever terms can be paired off; the code violates the claim for dimensionless units and for conversion through base dimensions."
  },
  {
   "property": "C25",
   "status": "partial",
   "theorems": [
    "Eprem.Metric.c25_dimension_partial",
    "Eprem.Metric.c25_no_dimension",
    "Eprem.Metric.c25_rows_partial",
    "Eprem.Metric.c25_wrong_rows",
    "Eprem.Metric.c25_ohm",
    "Eprem.Metric.c25_lux",
    "Eprem.Metric.c25_symmetric"
   ],
   "note": "Proved for every product of integer powers of named units other than ohm and lux, every row of the table but four, and every listed conversion. The code violates the claim on the four rows (c25_wrong_rows), for ohm (c25_ohm) and for lux (c25_lux)."
  },
  {
   "property": "C26",
   "status": "partial",
   "theorems": [
    "Eprem.Numeric.c26_ellipsis_partial",
    "Eprem.Numeric.c26_no_ellipsis",
    "Eprem.Numeric.c26_single",
    "Eprem.Numeric.c26_two_ellipses",
    "Eprem.Numeric.c26_too_many_partial",
    "Eprem.Numeric.c26_not_too_many",
    "Eprem.Numeric.c26_empty_ellipsis"
   ],
   "note": "Proved for at most one ellipsis standing for at least one dimension or coming last; the code violates the claim for too many indices before an ellipsis and for an empty ellipsis that is not last."
  },
  {
   "property": "C27",
   "status": "partial",
   "theorems": [
    "Eprem.Numeric.c27_product_partial",
    "Eprem.Numeric.c27_single",
    "Eprem.Numeric.c27_slice_ignored",
    "Eprem.Numeric.c27_list",
    "Eprem.Numeric.c27_empty"
   ],
   "note": "Proved when every slice takes its whole axis; the code ignores the bounds of other slices, reads a bare list as a tuple and an empty array as everything."
  },
  {
   "property": "C28",
   "status": "partial",
   "theorems": [
    "Eprem.Numeric.c28_brackets",
    "Eprem.Numeric.c28_no_target",
    "Eprem.Numeric.c28_repeated",
    "Eprem.Numeric.c28_outside",
    "Eprem.Numeric.c28_rows",
    "Eprem.Numeric.c28_columns"
   ],
   "note": "Proved for one dimension and for the last axis of two; the code violates the claim along the first axis of two dimensions and around repeated values."
  },
  {
   "property": "C29",
   "status": "proved",
   "theorems": [
    "Eprem.Numeric.c29_value",
    "Eprem.Numeric.c29_sequence",
    "Eprem.Numeric.c29_in_range"
   ],
   "note": ""
  },
  {
   "property": "C33",
   "status": "proved",
   "theorems": [
    "Eprem.Numeric.c33_transparent"
   ],
   "note": "Over all histories of reads; the object's own subscription is assumed to agree with numpy's where it does not raise TypeError or IndexError."
  },
  {
   "property": "C40",
   "status": "partial",
   "theorems": [
    "Eprem.Numeric.c40_positions_partial",
    "Eprem.Numeric.c40_beyond",
    "Eprem.Numeric.c40_negative"
   ],
   "note": "Proved for bounds on the axis; the code violates the claim for bounds beyond it."
  },
  {
   "property": "C67",
   "status": "partial",
   "theorems": [
    "Eprem.Numeric.c67_basic_partial",
    "Eprem.Numeric.c67_integer",
    "Eprem.Numeric.c67_slices",
    "Eprem.Numeric.c67_step",
    "Eprem.Numeric.c67_short",
    "Eprem.Numeric.c67_scrambled"
   ],
   "note": "Proved for slices only, and for integers with plain slices; the code violates the claim for other mixtures."
  },
  {
   "property": "C68",
   "status": "partial",
   "theorems": [
    "Eprem.Metric.c68_mechanical",
    "Eprem.Metric.c68_listed_partial",
    "Eprem.Metric.c68_wrong",
    "Eprem.Metric.c68_permeability"
   ],
   "note": "Proved for all mechanical units with all prefixes (exactly) and for every listed conversion but seven (to one part in 500); the code violates the claim on seven: C, A, V, S, ohm, H, H/m."
  },
  {
   "property": "C30",
   "status": "partial",
   "theorems": [
    "Eprem.Numeric.c30_unique",
    "Eprem.Numeric.c30_intersection",
    "Eprem.Numeric.c30_difference",
    "Eprem.Numeric.c30_union",
    "Eprem.Numeric.c30_replace",
    "Eprem.Numeric.c30_replace_existing",
    "Eprem.Numeric.c30_insert",
    "Eprem.Numeric.c30_xor",
    "Eprem.Numeric.c30_permute",
    "Eprem.Numeric.c30_permute_repeated"
   ],
   "note": "uniqueness, order and membership proved for union, intersection, difference, insertion, permutation and replacement by a new name; false of the code: symmetric difference always raises, replacing a name by an existing one loses a dimension, superfluous axes of a permutation are ignored"
  },
  {
   "property": "C31",
   "status": "partial",
   "theorems": [
    "Eprem.Numeric.c31_aligned",
    "Eprem.Numeric.c31_computed",
    "Eprem.Numeric.c31_storage_order",
    "Eprem.Numeric.c31_length_one",
    "Eprem.Numeric.c31_default_names",
    "Eprem.Numeric.c31_additive",
    "Eprem.Numeric.c31_scalar"
   ],
   "note": "alignment by name and independence of the storage order proved for all arrays; refused where numpy would broadcast a length-one axis; arrays with default names cannot be combined"
  },
  {
   "property": "C32",
   "status": "partial",
   "theorems": [
    "Eprem.Numeric.c32_names_partial",
    "Eprem.Numeric.c32_names_computed",
    "Eprem.Numeric.c32_axes_partial",
    "Eprem.Numeric.c32_numpy",
    "Eprem.Numeric.c32_twice",
    "Eprem.Numeric.c32_single_axis",
    "Eprem.Numeric.c32_numpy_axes"
   ],
   "note": "proved for transpose by names, by two or more axes and numpy.transpose without axes; false for numpy.transpose(axes=...), a single integer and a second transposition by names"
  },
  {
   "property": "C69",
   "status": "partial",
   "theorems": [
    "Eprem.Numeric.c69_reduce_partial",
    "Eprem.Numeric.c69_sum_keepdims",
    "Eprem.Numeric.c69_keepdims",
    "Eprem.Numeric.c69_cumsum",
    "Eprem.Numeric.c69_squeeze",
    "Eprem.Numeric.c69_squeeze_axis"
   ],
   "note": "proved without keepdims; false of the code: sum(keepdims=False), mean(keepdims=True) and squeeze(axis=...) with another length-one dimension raise"
  },
  {
   "property": "C70",
   "status": "partial",
   "theorems": [
    "Eprem.Numeric.c70_second_ignored",
    "Eprem.Numeric.c70_maximum"
   ],
   "note": "false of the code: the second array is ignored"
  },
  {
   "property": "C71",
   "status": "partial",
   "theorems": [
    "Eprem.Metric.c71_mul_partial",
    "Eprem.Metric.c71_div_partial",
    "Eprem.Metric.c71_inv_partial",
    "Eprem.Metric.c71_pow_partial",
    "Eprem.Metric.c71_pow_zero",
    "Eprem.Metric.c71_lux"
   ],
   "note": "proved for exponents that are multiples of 1/4 (results: of 1/8) and doubles can hold, in either order of the systems; false of the code: a ** 0 is a, and products with a lux raise RecursionError"
  },
  {
   "property": "C34",
   "status": "partial",
   "theorems": [
    "Eprem.Measured.c34_named",
    "Eprem.Measured.c34_data",
    "Eprem.Measured.c34_chain",
    "Eprem.Measured.c34_chain_direct",
    "Eprem.Measured.c34_round_trip",
    "Eprem.Measured.c34_compound",
    "Eprem.Measured.c34_not_compound",
    "Eprem.Measured.c34_not_dimensionless"
   ],
   "note": "proved for all values, histories and chains of units converted by name, and for compound units that differ by such units; false of the code for derived units with a prefix against base units (kJ) and for compounds with angles"
  },
  {
   "property": "C35",
   "status": "partial",
   "theorems": [
    "Eprem.Measured.c35_once_partial",
    "Eprem.Measured.c35_not_chain",
    "Eprem.Measured.c35_not_back"
   ],
   "note": "false of the code: the second conversion forgets the first; only the first conversion of an array is right, and the chain is right exactly for zero data or units of equal size"
  },
  {
   "property": "C72",
   "status": "partial",
   "theorems": [
    "Eprem.Measured.c72_unscaled_partial",
    "Eprem.Measured.c72_scaled",
    "Eprem.Measured.c72_not"
   ],
   "note": "false of the code after a conversion: transposing divides the elements by the last conversion factor; proved for arrays that were not converted"
  },
  {
   "property": "C38",
   "status": "partial",
   "theorems": [
    "Eprem.Axis.c38_points",
    "Eprem.Axis.c38_points_missing",
    "Eprem.Axis.c38_points_not",
    "Eprem.Axis.c38_points_all_not",
    "Eprem.Axis.c38_symbols",
    "Eprem.Axis.c38_symbols_missing",
    "Eprem.Axis.c38_symbols_type",
    "Eprem.Axis.c38_symbols_all",
    "Eprem.Axis.c38_compute_sound",
    "Eprem.Axis.c38_compute_exact",
    "Eprem.Axis.c38_compute_found",
    "Eprem.Axis.c38_compute_missing",
    "Eprem.Axis.c38_beyond",
    "Eprem.Axis.c38_lower",
    "Eprem.Axis.c38_upper",
    "Eprem.Axis.c38_coordinates",
    "Eprem.Axis.c38_coordinates_found",
    "Eprem.Axis.c38_coordinates_missing",
    "Eprem.Axis.c38_coordinates_all"
   ],
   "note": "proved for points held in arrays, symbols and coordinates with units; false of the code: points that axes_factory makes from a shape, list or range raise IndexError, and a target just beyond either end of an axis is refused although it is within the tolerance"
  },
  {
   "property": "C73",
   "status": "partial",
   "theorems": [
    "Eprem.Axis.c73_subscript_partial",
    "Eprem.Axis.c73_points_partial",
    "Eprem.Axis.c73_not_negative",
    "Eprem.Axis.c73_not_beyond",
    "Eprem.Axis.c73_not_symbols",
    "Eprem.Axis.c73_not_points",
    "Eprem.Axis.c73_nested"
   ],
   "note": "proved for integers, lists and slices with bounds on the axis; false of the code for negative and too large bounds of slices, lists of symbols and the full slice of points"
  },
  {
   "property": "C39",
   "status": "partial",
   "theorems": [
    "Eprem.Axes.c39_without",
    "Eprem.Axes.c39_without_strict",
    "Eprem.Axes.c39_extract",
    "Eprem.Axes.c39_extract_errors",
    "Eprem.Axes.c39_replace",
    "Eprem.Axes.c39_replace_missing",
    "Eprem.Axes.c39_replace_pair_partial",
    "Eprem.Axes.c39_replace_pair_clash",
    "Eprem.Axes.c39_union",
    "Eprem.Axes.c39_union_conflict",
    "Eprem.Axes.c39_insert_last",
    "Eprem.Axes.c39_insert_existing",
    "Eprem.Axes.c39_insert_index",
    "Eprem.Axes.c39_insert_index_not",
    "Eprem.Axes.c39_insert_swapped",
    "Eprem.Axes.c39_insert_missing",
    "Eprem.Axes.c39_permute_names",
    "Eprem.Axes.c39_permute_names_sound",
    "Eprem.Axes.c39_permute_axes"
   ],
   "note": "proved for all operations; false of the code: insert exchanges before and after, and drops the new axis if the location does not exist; replacing a name by one that exists loses an axis"
  },
  {
   "property": "C74",
   "status": "partial",
   "theorems": [
    "Eprem.Axes.c74_compare",
    "Eprem.Axes.c74_eq",
    "Eprem.Axes.c74_add",
    "Eprem.Axes.c74_add_ok",
    "Eprem.Axes.c74_add_not"
   ],
   "note": "proved for all collections; false of the code: + of collections with different names raises UnboundLocalError, not ValueError"
  },
  {
   "property": "C36",
   "status": "partial",
   "theorems": [
    "Eprem.Physical.c36_sum",
    "Eprem.Physical.c36_sum_units",
    "Eprem.Physical.c36_sum_shape",
    "Eprem.Physical.c36_product",
    "Eprem.Physical.c36_product_shape",
    "Eprem.Physical.c36_product_arrays",
    "Eprem.Physical.c36_power",
    "Eprem.Physical.c36_exponent_unit",
    "Eprem.Physical.c36_sqrt",
    "Eprem.Physical.c36_unary",
    "Eprem.Physical.c36_unary_functions",
    "Eprem.Physical.c36_trig",
    "Eprem.Physical.c36_trig_units",
    "Eprem.Physical.c36_trig_deg_not",
    "Eprem.Physical.c36_log",
    "Eprem.Physical.c36_reduce_all",
    "Eprem.Physical.c36_reductions",
    "Eprem.Physical.c36_reduce_axis",
    "Eprem.Physical.c36_cumsum",
    "Eprem.Physical.c36_power_zero",
    "Eprem.Physical.c36_floordiv_not",
    "Eprem.Physical.c36_numpy_power_not",
    "Eprem.Physical.c36_power_axes"
   ],
   "note": "Sums, products, quotients, powers, roots, signs, reductions and functions act on amounts (number times size of unit), over the reals. Violated by: the exponent 0 (keeps the unit), // and % (applied to the numbers whatever the units), trigonometric functions of degrees, numpy.power (drops the unit), powers of arrays by arrays (combined by position, axes of the exponent lost). Not modelled: numpy arrays as operands."
  },
  {
   "property": "C37",
   "status": "partial",
   "theorems": [
    "Eprem.Derived.c37_derived",
    "Eprem.Derived.c37_unordered",
    "Eprem.Physical.c37_scalars",
    "Eprem.Physical.c37_units_not",
    "Eprem.Physical.c37_number_not",
    "Eprem.Physical.c37_sub"
   ],
   "note": "Proved for the derived operators over a linear order and for scalars with equal units. Violated by unordered values, by different units of the same dimension (unequal, and order comparisons raise) and by comparisons with numbers (unit ignored, never equal)."
  },
  {
   "property": "C41",
   "status": "partial",
   "theorems": [
    "Eprem.Measurable.c41_parse",
    "Eprem.Measurable.c41_distribute",
    "Eprem.Measurable.c41_enclosed",
    "Eprem.Measurable.parse_unwrap",
    "Eprem.Measurable.c41_conflict",
    "Eprem.Measurable.c41_sound_partial",
    "Eprem.Measurable.c41_rejected",
    "Eprem.Measurable.c41_two_units",
    "Eprem.Measurable.c41_not_values",
    "Eprem.Measurable.c41_not_numbers",
    "Eprem.Measurable.c41_not_distributed",
    "Eprem.Measurable.c41_not_unit_object",
    "Eprem.Measurable.c41_not_one"
   ],
   "note": "Every documented form of input, with any nesting, gives its numbers and unit, and nothing else is accepted (for input where a list of values beside a unit holds only numbers and stands alone). Violations proved: values beside a list of values are dropped; values that are no numbers are accepted; numbers given as text are not distributed; a unit object after them raises TypeError; a final text 1 is read as a number. Not modelled: numpy arrays, dictionaries and other iterables."
  },
  {
   "property": "C42",
   "status": "partial",
   "theorems": [
    "Eprem.Config.c42_parse",
    "Eprem.Config.c42_markers",
    "Eprem.Config.c42_accepted",
    "Eprem.Config.c42_not_blank",
    "Eprem.Config.c42_not_indented"
   ],
   "note": "Every well-formed file gives exactly the mapping of its last values. Violated by lines of white space only and by indented comments (ValueError)."
  },
  {
   "property": "C43",
   "status": "proved",
   "theorems": [
    "Eprem.Config.c43_values",
    "Eprem.Config.c43_conversion",
    "Eprem.Config.c43_total",
    "Eprem.Config.c43_unknown",
    "Eprem.Config.c43_lookup",
    "Eprem.Config.c43_package_total",
    "Eprem.Config.c43_package_lookup"
   ],
   "note": "User, default and local values for every file and table; look-up by name and alias; total for the tables of the package."
  },
  {
   "property": "C44",
   "status": "partial",
   "theorems": [
    "Eprem.Config.c44_sum_partial",
    "Eprem.Config.c44_difference_partial",
    "Eprem.Config.c44_member",
    "Eprem.Config.c44_list",
    "Eprem.Config.c44_not_zero",
    "Eprem.Config.c44_not_three",
    "Eprem.Config.c44_not_zero_term"
   ],
   "note": "Proved unless the result is zero (TypeError, c44_not_zero), a term is the number 0 (c44_not_zero_term) or there are more than two terms (the others are ignored, c44_not_three)."
  },
  {
   "property": "C45",
   "status": "partial",
   "theorems": [
    "Eprem.Config.c45_list",
    "Eprem.Config.c45_integers",
    "Eprem.Config.c45_empty",
    "Eprem.Config.c45_not_spaces"
   ],
   "note": "Proved for all lists of integers with any blanks around the members. Violated by blanks inside the brackets of an empty list."
  },
  {
   "property": "C75",
   "status": "partial",
   "theorems": [
    "Eprem.Config.c75_not_followed",
    "Eprem.Config.c75_not_package"
   ],
   "note": "Violated: defaults are computed from defaults only; with simStartTime = 10 the simulation stops at 0.0104."
  },
  {
   "property": "C76",
   "status": "partial",
   "theorems": [
    "Eprem.Config.c76_number",
    "Eprem.Config.c76_expression",
    "Eprem.Config.c76_package_numbers",
    "Eprem.Config.c76_package_constants",
    "Eprem.Config.c76_package_total",
    "Eprem.Config.c76_not_undefined",
    "Eprem.Config.c76_not_small"
   ],
   "note": "Proved for numbers, for expressions of the grammar of C05 with defined names, and for every constant of the package. Violated by names that are not defined (left out silently) and by numbers with negative decimal exponents inside expressions."
  },
  {
   "property": "C77",
   "status": "partial",
   "theorems": [
    "Eprem.Config.c77_product",
    "Eprem.Config.c77_package"
   ],
   "note": "Products with integral numbers and positive values of parameters; decimal points and negative signs in the expression are left out of the general theorem. Proved for all 119 parameters of the package."
  },
  {
   "property": "C61",
   "status": "partial",
   "theorems": [
    "Eprem.Exceptions.c61_result",
    "Eprem.Exceptions.c61_substitute",
    "Eprem.Exceptions.c61_arguments",
    "Eprem.Exceptions.c61_other",
    "Eprem.Exceptions.c61_not_subclass",
    "Eprem.Exceptions.c61_convert"
   ],
   "note": "Proved when exceptions are matched by their exact class. A subclass of a registered exception is caught by the except clause but looked up by its own class and therefore fails with another error (c61_not_subclass)."
  },
  {
   "property": "C59",
   "status": "partial",
   "theorems": [
    "Eprem.Atomic.c59_symbol",
    "Eprem.Atomic.c59_mass",
    "Eprem.Atomic.c59_elements",
    "Eprem.Atomic.c59_rejected",
    "Eprem.Atomic.c59_species",
    "Eprem.Atomic.c59_unknown",
    "Eprem.Atomic.c59_not_all",
    "Eprem.Atomic.c59_not_fraction"
   ],
   "note": "Proved for all masses and all integral charges. The element itself is not found again from its own mass for Ca, Co, Po, Cm, Db (c59_not_all: exactly these); fractional charges are truncated."
  },
  {
   "property": "C60",
   "status": "partial",
   "theorems": [
    "Eprem.Universal.c60_agree_partial",
    "Eprem.Universal.c60_electric",
    "Eprem.Universal.c60_not_c1",
    "Eprem.Universal.c60_unknown",
    "Eprem.Universal.metric_sizes"
   ],
   "note": "All 23 constants: 19 agree exactly, e, epsilon0 and mu0 through the Gaussian factors to the printed precision. Violated for c1, whose cgs value is too small by 10^11."
  },
  {
   "property": "C78",
   "status": "proved",
   "theorems": [
    "Eprem.Universal.c78_dimension"
   ],
   "note": "All constants in both systems."
  },
  {
   "property": "C52",
   "status": "proved",
   "theorems": [
    "Eprem.Observable.c52_coordinates",
    "Eprem.Observable.observable_units"
   ],
   "note": "Every grid without empty axes, both metric systems, real arithmetic."
  },
  {
   "property": "C53",
   "status": "proved",
   "theorems": [
    "Eprem.Observable.c53_components",
    "Eprem.Observable.c53_angle"
   ],
   "note": "Every grid, both metric systems, real arithmetic, where neither vector vanishes."
  },
  {
   "property": "C54",
   "status": "proved",
   "theorems": [
    "Eprem.Observable.c54_rigidity",
    "Eprem.Observable.rigidity_products"
   ],
   "note": "Every grid, both metric systems, real arithmetic, the products of units the package computes."
  },
  {
   "property": "C55",
   "status": "proved",
   "theorems": [
    "Eprem.Observable.c55_fluence",
    "Eprem.Observable.fluence_units"
   ],
   "note": "Every grid and every time axis, both metric systems, real arithmetic."
  },
  {
   "property": "C56",
   "status": "proved",
   "theorems": [
    "Eprem.Interpolate.c56_power_law",
    "Eprem.Interpolate.onPowerLaw_unique",
    "Eprem.Interpolate.c56_below",
    "Eprem.Interpolate.c56_above"
   ],
   "note": "All positive spectra and all bounds inside the grid, real arithmetic. A bound below the grid leaves the spectrum as it is; one at or above the last energy is rejected."
  },
  {
   "property": "C57",
   "status": "partial",
   "theorems": [
    "Eprem.Interpolate.c57_axis",
    "Eprem.Interpolate.c57_radius",
    "Eprem.Interpolate.c57_not_radius",
    "Eprem.Interpolate.c57_radius_outside",
    "Eprem.Interpolate.OnPolygon.between",
    "Eprem.Interpolate.OnPolygon.unique"
   ],
   "note": "Proved for axes, and for radii that no shell has at any stored time. Interpolation to a radius that some shell has always raises an exception (c57_not_radius)."
  },
  {
   "property": "C58",
   "status": "partial",
   "theorems": [
    "Eprem.Interpolate.c58_rows",
    "Eprem.Interpolate.c58_partial",
    "Eprem.Interpolate.c58_not"
   ],
   "note": "c58_rows says what is computed in general: the radii of the k-th stored time are used for the k-th target time. This is the claim where the radii do not depend on the time (c58_partial), and violates it otherwise (c58_not)."
  },
  {
   "property": "C62",
   "status": "partial",
   "theorems": [
    "Eprem.Observer.c62_stream_text",
    "Eprem.Observer.c62_stream_found",
    "Eprem.Observer.c62_stream_single",
    "Eprem.Observer.c62_stream_none",
    "Eprem.Observer.c62_stream_distinct",
    "Eprem.Observer.c62_point_found",
    "Eprem.Observer.c62_point_single",
    "Eprem.Observer.c62_point_distinct",
    "Eprem.Observer.c62_point_name",
    "Eprem.Observer.c62_stream_id",
    "Eprem.Observer.c62_point_id",
    "Eprem.Observer.c62_dataset_streams",
    "Eprem.Observer.c62_observer_found",
    "Eprem.Observer.c62_observer_single",
    "Eprem.Observer.c62_observer_stream",
    "Eprem.Observer.c62_observer_point",
    "Eprem.Observer.c62_observer_name",
    "Eprem.Observer.c62_not_observer",
    "Eprem.Observer.c62_not_single",
    "Eprem.Observer.c62_not_stream_id",
    "Eprem.Observer.c62_not_point_id",
    "Eprem.Observer.c62_not_stray",
    "Eprem.Observer.c62_not_point_key"
   ],
   "note": "Look-up by number or name is proved for every directory in which only one file has the number. Violated where two prefixes carry the same number (the answer depends on the order of a set, and a dataset loses one of the files), for points whose names begin with letters of the prefix, and where another data file has the prefix of a stream."
  },
  {
   "property": "C79",
   "status": "partial",
   "theorems": [
    "Eprem.Observer.c79_guess",
    "Eprem.Observer.c79_none",
    "Eprem.Observer.c79_single",
    "Eprem.Observer.c79_name",
    "Eprem.Observer.c79_path",
    "Eprem.Observer.c79_not_order"
   ],
   "note": "Every directory. Violated where two files have the best pattern: the choice then depends on the listing order (c79_not_order)."
  },
  {
   "property": "C80",
   "status": "partial",
   "theorems": [
    "Eprem.Datafile.c80_view",
    "Eprem.Datafile.c80_consistent",
    "Eprem.Datafile.c80_missing",
    "Eprem.Datafile.c80_not_replaced",
    "Eprem.Datafile.c80_not_hint"
   ],
   "note": "Every history without replacements of the file: exactly its content. Violated after a file was replaced (the view goes on showing the old content, c80_not_replaced) and for a hint given after the first request (c80_not_hint)."
  },
  {
   "property": "C81",
   "status": "partial",
   "theorems": [
    "Eprem.Datafile.c81_access",
    "Eprem.Datafile.c81_exclusive",
    "Eprem.Datafile.c81_own",
    "Eprem.Datafile.c81_covers",
    "Eprem.Datafile.c81_known",
    "Eprem.Datafile.c81_not_hasdist"
   ],
   "note": "Every history. Violated in that hasdist may be true although the distribution is not given (files with both arrays, c81_not_hasdist)."
  },
  {
   "property": "C82",
   "status": "partial",
   "theorems": [
    "Eprem.Datafile.c82_axes",
    "Eprem.Datafile.c82_not_keys",
    "Eprem.Datafile.c82_not_missing"
   ],
   "note": "Proved for complete files and for the names of axes; violated for other attributes of the object (axes[\"view\"] succeeds) and for files without one of the variables."
  },
  {
   "property": "C83",
   "status": "partial",
   "theorems": [
    "Eprem.Metric.c83_target_partial",
    "Eprem.Metric.c83_ambiguous",
    "Eprem.Metric.c83_mass_number",
    "Eprem.Metric.c83_factor",
    "Eprem.Metric.c83_compound",
    "Eprem.Metric.c83_not_shared",
    "Eprem.Metric.c83_not_per_nucleon",
    "Eprem.Metric.c83_not_mass_number",
    "Eprem.Metric.c83_not_ratio"
   ],
   "note": "The unit of the system is proved for all products of integral powers, in terms of values; the factor where the units are converted by name or can be paired off. Violated: seconds and centimetres cannot be converted to mks (and C / m^2 not to cgs, because of a wrong row of the table), energies per nucleon lose the nucleon, a mass per count is read as a mass number, ratios end in a RecursionError."
  },
  {
   "property": "C84",
   "status": "partial",
   "theorems": [
    "Eprem.Metric.c84_text",
    "Eprem.Metric.c84_denominator",
    "Eprem.Metric.c84_unchanged",
    "Eprem.Metric.c84_twice",
    "Eprem.Metric.c84_special",
    "Eprem.Metric.c84_not_two_slashes"
   ],
   "note": "Proved for all numerators without a slash and all denominators. Units with two slashes, which everywhere else are read from left to right, are given another meaning (J/m^2/s becomes J s/m^2)."
  },
  {
   "property": "C85",
   "status": "partial",
   "theorems": [
    "Eprem.Metric.c85_sound_partial",
    "Eprem.Metric.c85_complete_partial",
    "Eprem.Metric.c85_reflexive",
    "Eprem.Metric.c85_consistent",
    "Eprem.Metric.c85_same_dimension",
    "Eprem.Metric.c85_convertible",
    "Eprem.Metric.c85_documented",
    "Eprem.Metric.c85_degrees",
    "Eprem.Metric.c85_dimensionless",
    "Eprem.Metric.c85_volt_ampere",
    "Eprem.Metric.c85_not_symmetric",
    "Eprem.Metric.c85_not_convertible"
   ],
   "note": "Proved: a positive answer means equal sizes or the conversion factor one (exponents multiples of a half), and units of equal size with a dimension are found equivalent (integral exponents). Violated: degrees per second are equivalent to radians per second, and steradians to radians; V A / W is not equivalent to 1; MeV / nuc & J / kg raises ValueError while J / kg & MeV / nuc is False; km and Mau are consistent but do not convert."
  },
  {
   "property": "C86",
   "status": "partial",
   "theorems": [
    "Eprem.Observable.c86_observed",
    "Eprem.Observable.c86_sum_accepted",
    "Eprem.Observable.c86_product_accepted",
    "Eprem.Observable.c86_converted",
    "Eprem.Observable.c86_operator_partial",
    "Eprem.Observable.c86_converted_sum",
    "Eprem.Observable.c86_power",
    "Eprem.Observable.c86_compound_name"
   ],
   "note": "Proved for sums, differences, products and quotients of any depth, and for one conversion at the end. Violated: a sum of quantities after conversion to a common unit is accepted but subscription raises; q ** x is accepted but every subscription raises TypeError; hence so does every compound name with more than one term or a power."
  },
  {
   "property": "C87",
   "status": "partial",
   "theorems": [
    "Eprem.Observable.c87_subscript_partial",
    "Eprem.Observable.c87_observed",
    "Eprem.Observable.c87_conversion_partial",
    "Eprem.Observable.c87_product",
    "Eprem.Observable.c87_sum",
    "Eprem.Observable.c87_single",
    "Eprem.Observable.c87_not_list",
    "Eprem.Observable.c87_not_short",
    "Eprem.Observable.c87_not_slices"
   ],
   "note": "Proved for tuples with one index for each dimension where subscription of the data selects a product (C27, C67), for one index that is not a list, and for all indices of observers. Violated: a sequence of positions beside a slice that does not take its whole axis keeps the whole dimension in the data but not in the axis; a tuple with fewer indices than dimensions is always refused; a list is read as a tuple."
  },
  {
   "property": "C88",
   "status": "partial",
   "theorems": [
    "Eprem.Observable.c88_coordinates",
    "Eprem.Observable.c88_flow",
    "Eprem.Observable.c88_not_angle"
   ],
   "note": "Proved for x, y, z, bmag, umag, udotb, upara and uperp. Violated by the angle: its axes are always those of the whole dataset, whatever part is requested. Not covered: the other derived quantities."
  },
  {
   "property": "C89",
   "status": "partial",
   "theorems": [
    "Eprem.Observable.c89_gradient_partial",
    "Eprem.Observable.c89_unique",
    "Eprem.Observable.c89_default",
    "Eprem.Observable.c89_short",
    "Eprem.Observable.c89_not_measurement"
   ],
   "note": "Proved for arrays along one axis, with coordinates that are an array, a vector, a scalar, a number, or absent; c89_unique shows that the slopes are well defined. Violated for coordinates that are a measurement: their unit is ignored. numpy.gradient itself is modelled after its documentation. Not covered: gradients along several axes at once, of vectors and tensors."
  },
  {
   "property": "C90",
   "status": "proved",
   "theorems": [
    "Eprem.Observable.c90_divu",
    "Eprem.Observable.c90_scale",
    "Eprem.Observable.density_units"
   ],
   "note": "About the array of the whole dataset; _observe takes a part of it (C87) or interpolates (C56-C58). Real numbers instead of floating-point numbers."
  },
  {
   "property": "C91",
   "status": "proved",
   "theorems": [
    "Eprem.Observable.c91_isotropic",
    "Eprem.Observable.c91_energy_density",
    "Eprem.Observable.c91_linear",
    "Eprem.Observable.c91_average_energy",
    "Eprem.Observable.c91_scale"
   ],
   "note": "Proved for arrays of real numbers that are obtained in full; subscription of the result is C87, interpolation C56-C58. Not covered: datasets with one energy, where numpy.gradient raises ValueError."
  },
  {
   "property": "C92",
   "status": "proved",
   "theorems": [
    "Eprem.Observable.c92_flux",
    "Eprem.Observable.c92_fiso",
    "Eprem.Observable.c92_inverse"
   ],
   "note": "Proved for arrays of real numbers that are obtained in full; subscription of the result is C87, interpolation C56-C58."
  },
  {
   "property": "C93",
   "status": "partial",
   "theorems": [
    "Eprem.Observable.c93_select",
    "Eprem.Observable.c93_not_shell",
    "Eprem.Observable.c93_not_empty",
    "Eprem.Observable.c93_not_negative",
    "Eprem.Observable.c93_not_unit"
   ],
   "note": "The first sentence is c93_select, in full. The second is violated by the code: a number of a shell that does not exist gives all shells (c93_not_shell), an empty slice gives the whole dimension (c93_not_empty), a negative number of a shell is a TypeError although negative integers count from the end elsewhere (c93_not_negative), and durations for the shells are read as numbers of shells without their fractions (c93_not_unit)."
  },
  {
   "property": "C94",
   "status": "partial",
   "theorems": [
    "Eprem.Observable.c94_interpolated",
    "Eprem.Observable.c94_refused",
    "Eprem.Observable.c94_not_plain"
   ],
   "note": "c94_interpolated and c94_refused are the first two sentences; the interpolation is along one axis after the other in the order of iteration of a Python set, which is arbitrary in the model. The ends of an axis are refused too when they are requested together with values between others (also c94_refused). The last sentence is violated: numbers without a unit that are not on the axis raise an error in the conversion of units (c94_not_plain). Interpolation in radius is C57."
  },
  {
   "property": "C95",
   "status": "partial",
   "theorems": [
    "Eprem.Observable.c95_radius_partial",
    "Eprem.Observable.c95_not_time",
    "Eprem.Observable.c95_not_time_sample",
    "Eprem.Observable.c95_not_shell",
    "Eprem.Observable.c95_not_outside",
    "Eprem.Observable.c95_not_cm"
   ],
   "note": "c95_radius_partial is the claim for radii strictly between the first and the last shell at each stored time that no shell has, at stored times. The code violates the rest: a radius that a shell has at any stored time raises an exception (c95_not_shell); so does one that is beyond the shells at a stored time that is not requested (c95_not_outside, which also is the last sentence of the claim); at times between the stored times the radii of the first stored times are used instead of those at the requested times (c95_not_time, c95_not_time_sample); centimetres are refused in mks (c95_not_cm)."
  },
  {
   "property": "C96",
   "status": "partial",
   "theorems": [
    "Eprem.Project.c96_views",
    "Eprem.Project.c96_views_single",
    "Eprem.Project.c96_show",
    "Eprem.Project.c96_logged",
    "Eprem.Project.c96_not_file"
   ],
   "note": "c96_views and c96_views_single describe the listing on any disk; c96_show and c96_logged are the claim for all histories of commands. The code violates the claim if something else put a file in a run directory: it is listed as a run without branches, and `show` prints a path that does not exist (c96_not_file)."
  },
  {
   "property": "C97",
   "status": "partial",
   "theorems": [
    "Eprem.RunLog.c97_log_partial",
    "Eprem.RunLog.c97_reopen",
    "Eprem.RunLog.c97_not_load",
    "Eprem.RunLog.c97_not_path"
   ],
   "note": "c97_log_partial is the claim for metadata without paths that are given directly. The code violates the rest: metadata that are read from a file are stored together with a copy of the whole log (c97_not_load); metadata with a path in them raise an exception after the log file has been emptied, which loses the log (c97_not_path)."
  },
  {
   "property": "C98",
   "status": "partial",
   "theorems": [
    "Eprem.Observable.c98_mfp_partial",
    "Eprem.Observable.c98_not_species",
    "Eprem.Observable.c98_not_energies"
   ],
   "note": "c98_mfp_partial is the claim for datasets with one species or one energy. The code violates the rest: with several species and several energies an IndexError is raised (c98_not_species), and if the energies depend on the species, as they may in a dataset, a ValueError is raised even for one species (c98_not_energies)."
  },
  {
   "property": "C99",
   "status": "partial",
   "theorems": [
    "Eprem.Observable.c99_rate_partial",
    "Eprem.Observable.c99_uniform",
    "Eprem.Observable.c99_nonneg",
    "Eprem.Observable.single_shell_request",
    "Eprem.Observable.c99_not_single"
   ],
   "note": "c99_rate_partial is the claim for one species or one energy, and for all shells or a sequence of shells; c99_uniform and c99_nonneg say that the rate is zero in a uniform flow and never negative. The code violates the rest: more than one species and energy (C98), and the request of a single shell (single_shell_request) gives the rates of all shells (c99_not_single)."
  },
  {
   "property": "C100",
   "status": "partial",
   "theorems": [
    "Eprem.Observable.c100_above_partial",
    "Eprem.Observable.c100_independent",
    "Eprem.Observable.c100_refused",
    "Eprem.Observable.c100_not_slice",
    "Eprem.Observable.c100_not_bin",
    "Eprem.Observable.integral_units"
   ],
   "note": "The code violates the claim for slices, which are the default for the minimum energy: the result then is the integral from the lowest energy up to each energy, along the axis 'energy' (c100_not_slice), and a slice of one energy weights the fluxes at all energies with the width of that one (c100_not_bin). scipy's Simpson rule is a parameter of the theorems (any function of the values and the energies)."
  },
  {
   "property": "C101",
   "status": "partial",
   "theorems": [
    "Eprem.Observable.c101_name",
    "Eprem.Observable.c101_listing",
    "Eprem.Observable.c101_listed_partial",
    "Eprem.Observable.c101_listed_violation",
    "Eprem.Observable.c101_unknown",
    "Eprem.Observable.c101_unknown_violation"
   ],
   "note": "The code violates two parts: 'ubmag' and 'udotb' are listed, but looking them up, and even testing membership, raises AttributeError (c101_listed_violation); membership tests of strings that can not be parsed raise the exception of the parser, or IndexError for the empty string, instead of being false (c101_unknown_violation)."
  },
  {
   "property": "C102",
   "status": "partial",
   "theorems": [
    "Eprem.Observable.c102_terms",
    "Eprem.Observable.c102_compound_partial",
    "Eprem.Observable.c102_unnamed",
    "Eprem.Observable.c102_cancelled",
    "Eprem.Observable.c102_subscription",
    "Eprem.Observable.c102_misread"
   ],
   "note": "The code violates the claim: every subscription of a quantity that was looked up with a compound name raises an exception (c102_subscription), and a compound name whose powers all cancel, such as 'r/r', raises KeyError (c102_cancelled). The token '**' becomes the regular expression 'zero or more asterisks': 'r*2' and 'r-1' are read as powers, 'r ** 2' is refused, and aliases such as 'J(E)' or '|B|' are not names inside compound names (c102_misread)."
  },
  {
   "property": "C103",
   "status": "partial",
   "theorems": [
    "Eprem.Observable.c103_stored",
    "Eprem.Observable.c103_stored_speed",
    "Eprem.Observable.c103_values_partial",
    "Eprem.Observable.c103_not_axis",
    "Eprem.Observable.c103_not_several",
    "Eprem.Observable.c103_speed_partial"
   ],
   "note": "The code violates the claim: for values that are not on the axis the result keeps the whole stored axis, whose length and values are not those of the result (c103_not_axis), and for energies of several species the subscription raises (c103_not_several)."
  },
  {
   "property": "C104",
   "status": "partial",
   "theorems": [
    "Eprem.Observable.c104_declared",
    "Eprem.Observable.c104_checked",
    "Eprem.Observable.c104_stored",
    "Eprem.Observable.c104_rigidity",
    "Eprem.Observable.c104_fluence",
    "Eprem.Observable.c104_not_distribution",
    "Eprem.Observable.c104_not_species"
   ],
   "note": "The code violates the claim: for a dataset with fluxes in place of distributions, subscribing f raises AttributeError (c104_not_distribution); for several species the declared dimensions of the average energy and energy density lack the species (c104_not_species)."
  },
  {
   "property": "C105",
   "status": "partial",
   "theorems": [
    "Eprem.Physical.c105_lengths_partial",
    "Eprem.Physical.c105_not_one",
    "Eprem.Physical.c105_values",
    "Eprem.Physical.c105_errors",
    "Eprem.Physical.c105_not_axis",
    "Eprem.Physical.c105_not_precedence",
    "Eprem.Physical.c105_not_twice"
   ],
   "note": "The code violates the claim: a single length raises TypeError (c105_not_one), a mapping overrides pairs although the documentation says the opposite (c105_not_precedence), repeated names silently merge axes (c105_not_twice)."
  },
  {
   "property": "C106",
   "status": "partial",
   "theorems": [
    "Eprem.Physical.c106_scalar_partial",
    "Eprem.Physical.c106_vector_partial",
    "Eprem.Physical.c106_tensor_partial",
    "Eprem.Physical.c106_not_scalar",
    "Eprem.Physical.c106_not_tensor",
    "Eprem.Physical.c106_not_sequence",
    "Eprem.Physical.c106_explicit",
    "Eprem.Physical.c106_array",
    "Eprem.Physical.c106_named",
    "Eprem.Physical.c106_mapping_partial",
    "Eprem.Physical.c106_number",
    "Eprem.Physical.c106_not_lengths",
    "Eprem.Physical.c106_not_empty",
    "Eprem.Physical.c106_copy",
    "Eprem.Physical.c106_round_trip"
   ],
   "note": "The code violates the claim: scalars made from vectors or measurements and tensors made from vectors lose the unit (c106_not_scalar, c106_not_tensor, c106_not_sequence), the lengths of given axes are not checked (c106_not_lengths), and an empty mapping gives an array without axes (c106_not_empty)."
  },
  {
   "property": "C107",
   "status": "partial",
   "theorems": [
    "Eprem.Physical.c107_length",
    "Eprem.Physical.c107_item",
    "Eprem.Physical.c107_outside",
    "Eprem.Physical.c107_iterate",
    "Eprem.Physical.c107_part_partial",
    "Eprem.Physical.c107_part_one",
    "Eprem.Physical.c107_not_slice",
    "Eprem.Physical.c107_row",
    "Eprem.Physical.c107_members",
    "Eprem.Physical.c107_not_members"
   ],
   "note": "Violated by the code in two places: a slice or list that selects exactly one value gives a scalar instead of a sequence (c107_part_one, c107_not_slice), and iteration over a tensor with several dimensions gives its single values instead of its rows, so that there are not len(t) of them (c107_members, c107_not_members). Tuples with lists or ellipses as subscripts are not modelled."
  },
  {
   "property": "C108",
   "status": "partial",
   "theorems": [
    "Eprem.Physical.c108_cast_partial",
    "Eprem.Physical.c108_only",
    "Eprem.Physical.c108_error",
    "Eprem.Physical.c108_converted",
    "Eprem.Physical.c108_not_complex",
    "Eprem.Physical.c108_not_vector"
   ],
   "note": "Violated by the code: complex(x) of every scalar raises TypeError, because its operator is registered under the type and looked up under the name 'complex'; vectors and tensors have no casts even if they have a single value."
  },
  {
   "property": "C109",
   "status": "partial",
   "theorems": [
    "Eprem.Numeric.c109_values",
    "Eprem.Numeric.c109_undefined",
    "Eprem.Numeric.c109_elementwise_partial",
    "Eprem.Numeric.c109_negate",
    "Eprem.Numeric.c109_commutes",
    "Eprem.Numeric.c109_compare",
    "Eprem.Numeric.c109_compare_elementwise_partial",
    "Eprem.Numeric.c109_equal",
    "Eprem.Numeric.c109_unequal",
    "Eprem.Numeric.c109_item",
    "Eprem.Numeric.c109_sequence",
    "Eprem.Numeric.c109_value_partial",
    "Eprem.Numeric.c109_not_length",
    "Eprem.Numeric.c109_not_power",
    "Eprem.Numeric.c109_not_zero",
    "Eprem.Numeric.c109_not_equal",
    "Eprem.Numeric.c109_not_value"
   ],
   "note": "Violated by the code: sequences of different lengths are cut to the shorter one, in arithmetic and in comparisons, so that a sequence equals each of its extensions; a power whose exponent is a sequence of several members always raises ValueError; division of a sequence by zero gives zeros; value([i, j, ...]) silently takes the first integer. 64-bit overflow and measurable arguments are not modelled."
  },
  {
   "property": "C110",
   "status": "partial",
   "theorems": [
    "Eprem.Config.c110_call",
    "Eprem.Config.c110_variable",
    "Eprem.Config.c110_constant",
    "Eprem.Config.c110_extract",
    "Eprem.Config.c110_arguments_partial",
    "Eprem.Config.c110_argument",
    "Eprem.Config.c110_load",
    "Eprem.Config.c110_not_comma",
    "Eprem.Config.c110_not_comment",
    "Eprem.Config.c110_not_followed",
    "Eprem.Config.c110_not_arrays"
   ],
   "note": "Violated by the code: a comma within a string default cuts it; a comment after a #define value is read as part of the value; a call followed by a comment is not found at all, and the parameter has then no default; arrays of several numbers, negative numbers and numbers with exponents are not found. White space, digits and word characters are restricted to ASCII."
  },
  {
   "property": "C111",
   "status": "partial",
   "theorems": [
    "Eprem.Config.c111_generate",
    "Eprem.Config.c111_roundtrip_partial",
    "Eprem.Config.c111_not_lists",
    "Eprem.Config.c111_not_none",
    "Eprem.Config.c111_package",
    "Eprem.Config.c111_package_total",
    "Eprem.Config.c111_compare",
    "Eprem.Config.c111_differences_partial",
    "Eprem.Config.c111_total",
    "Eprem.Config.c111_not_same",
    "Eprem.Config.c111_not_once",
    "Eprem.Config.c111_not_default",
    "Eprem.Config.c111_not_empty",
    "Eprem.Config.c111_not_source",
    "Eprem.Config.c111_print_partial",
    "Eprem.Config.c111_not_separated",
    "Eprem.Config.c111_objects_partial",
    "Eprem.Config.c111_not_paths"
   ],
   "note": "Violated by the code: lists with a unit (all seven list parameters of the package) are written without brackets and read back as text; an unknown default is written as 'None' and read as text; comparing equal files for differences fails with StopIteration; without the restriction each parameter appears twice, once without values; a file that sets a parameter to its default counts as different from one that does not mention it; an empty value shows as '(default)'; the given source is used for names only; values of 78 characters or more run into the label; file objects cannot be compared to paths given as text. How numbers and arrays are printed is a parameter; paths are not modelled."
  },
  {
   "property": "C112",
   "status": "partial",
   "theorems": [
    "Eprem.Metric.c112_unit_partial",
    "Eprem.Metric.c112_again",
    "Eprem.Metric.c112_quantity_partial",
    "Eprem.Metric.c112_quantities",
    "Eprem.Metric.c112_dimension_partial",
    "Eprem.Metric.c112_fallback",
    "Eprem.Metric.c112_nothing",
    "Eprem.Metric.c112_one",
    "Eprem.Metric.c112_not_spelling",
    "Eprem.Metric.c112_not_gauss",
    "Eprem.Metric.c112_not_ohm",
    "Eprem.Metric.c112_not_unknown",
    "Eprem.Metric.c112_not_ratio",
    "Eprem.Metric.c112_not_named"
   ],
   "note": "Violated by the code: a dimension given as text is found only in the spelling of the table (an energy not as 'M L^2 T^-2'); the dimension of a magnetic field in cgs gives 'statC m^-2', with a unit of the other system; quantities in ohms raise ValueError; an unknown quantity, and a unit whose quantities cancel, recurse without end; normalize with a quantity ignores the unit and misreads names of two words. The listed dimension of permittivity is wrong (C25)."
  },
  {
   "property": "C113",
   "status": "partial",
   "theorems": [
    "Eprem.Physical.c113_plain",
    "Eprem.Physical.c113_object",
    "Eprem.Physical.c113_item",
    "Eprem.Physical.c113_outside_partial",
    "Eprem.Physical.c113_not_outside",
    "Eprem.Physical.c113_part_partial",
    "Eprem.Physical.c113_not_empty",
    "Eprem.Physical.c113_not_list",
    "Eprem.Physical.c113_not_array",
    "Eprem.Physical.c113_single_partial",
    "Eprem.Physical.c113_not_single",
    "Eprem.Physical.c113_not_none"
   ],
   "note": "Violated by the code: positions from -2 len(v) to -len(v) - 1 wrap around a second time instead of raising IndexError; empty parts raise TypeError; a list of one position gives a scalar; a numpy array of positions raises ValueError; a variable of several values is converted and rounded as if its first value were the only one, and one without values raises IndexError."
  },
  {
   "property": "C114",
   "status": "partial",
   "theorems": [
    "Eprem.Measurable.c114_forms",
    "Eprem.Measurable.c114_sound_partial",
    "Eprem.Measurable.c114_rejected",
    "Eprem.Measurable.c114_not_empty",
    "Eprem.Measurable.c114_not_blank",
    "Eprem.Measurable.c114_not_unit",
    "Eprem.Measurable.c114_not_same",
    "Eprem.Measurable.c114_not_strings"
   ],
   "note": "Violated by the code: an empty list in a list, an empty string with a unit, any string as a unit, and parts with different units are measurable but cannot be measured; numbers given as strings can be measured but are not measurable."
  },
  {
   "property": "C115",
   "status": "partial",
   "theorems": [
    "Eprem.Symbolic.c115_create",
    "Eprem.Symbolic.c115_forms",
    "Eprem.Symbolic.c115_exponent_text",
    "Eprem.Symbolic.c115_refused",
    "Eprem.Symbolic.c115_caret",
    "Eprem.Symbolic.c115_symbol",
    "Eprem.Symbolic.c115_bad_base",
    "Eprem.Symbolic.c115_arity",
    "Eprem.Symbolic.c115_not_keeps"
   ],
   "note": "Violated by the code: a symbol directly in front of a parenthesis is dropped, create('a(b)') is the term b."
  },
  {
   "property": "C116",
   "status": "partial",
   "theorems": [
    "Eprem.Symbolic.c116_call_partial",
    "Eprem.Symbolic.c116_zero",
    "Eprem.Symbolic.c116_not_call",
    "Eprem.Symbolic.c116_call_error",
    "Eprem.Symbolic.c116_cast",
    "Eprem.Symbolic.c116_number",
    "Eprem.Symbolic.c116_number_raises",
    "Eprem.Symbolic.c116_not_compares",
    "Eprem.Symbolic.c116_own_text_partial",
    "Eprem.Symbolic.c116_fraction",
    "Eprem.Symbolic.c116_not_own_text",
    "Eprem.Symbolic.c116_format",
    "Eprem.Symbolic.c116_style"
   ],
   "note": "Violated by the code: a term evaluated at zero is 1; comparing a term that has a symbol with a number raises TypeError; a term with a fractional coefficient does not equal its own text. Powers of numbers at fractional exponents (C library pow) are outside the model."
  },
  {
   "property": "C117",
   "status": "partial",
   "theorems": [
    "Eprem.Paths.c117_fullpath",
    "Eprem.Paths.c117_search_partial",
    "Eprem.Paths.c117_search_none",
    "Eprem.Paths.c117_search_sound",
    "Eprem.Paths.c117_missing",
    "Eprem.Paths.c117_not_search",
    "Eprem.Paths.c117_template",
    "Eprem.Paths.c117_locate",
    "Eprem.Paths.c117_skips_own",
    "Eprem.Paths.c117_nowhere",
    "Eprem.Paths.c117_not_locate",
    "Eprem.Paths.c117_not_own",
    "Eprem.Paths.c117_config",
    "Eprem.Paths.c117_run",
    "Eprem.Paths.c117_leaves",
    "Eprem.Paths.c117_not_leaves"
   ],
   "note": "Violated by the code: a directory that does not exist makes search raise although a later one holds the file; an environment entry that does not exist hides the branch's own program; a program found nowhere raises TypeError instead of being left to the system; the copied configuration stays behind when a program is not found."
  },
  {
   "property": "C118",
   "status": "partial",
   "theorems": [
    "Eprem.Metric.c118_fundamental_partial",
    "Eprem.Metric.c118_defined_partial",
    "Eprem.Metric.c118_allowed_partial",
    "Eprem.Metric.c118_order",
    "Eprem.Metric.c118_somewhere",
    "Eprem.Metric.c118_prefix",
    "Eprem.Metric.c118_unique",
    "Eprem.Metric.c118_systems_partial",
    "Eprem.Metric.c118_not_light",
    "Eprem.Metric.c118_norm_partial",
    "Eprem.Metric.c118_not_norm",
    "Eprem.Metric.c118_equal",
    "Eprem.Metric.c118_equal_text",
    "Eprem.Metric.c118_shift",
    "Eprem.Metric.c118_shift_unknown"
   ],
   "note": "Violated by the code: the lumen is defined in no system; for the lux every question raises RecursionError (misspelt quantity); norm raises an exception for ten units (Oe, P, Pa, W, ohm, S, H, lm, Gy, lx) because the canonical unit of their quantity in one system is compound."
  },
  {
   "property": "C119",
   "status": "partial",
   "theorems": [
    "Eprem.Observable.c119_transpose",
    "Eprem.Observable.c119_squeeze",
    "Eprem.Observable.c119_squeeze_single",
    "Eprem.Observable.c119_squeeze_object",
    "Eprem.Observable.c119_transpose_scalar",
    "Eprem.Observable.c119_trapz_partial",
    "Eprem.Observable.c119_trapz_last",
    "Eprem.Observable.c119_trapz_step",
    "Eprem.Observable.c119_trapz_position",
    "Eprem.Observable.c119_trapz_axes",
    "Eprem.Observable.c119_transpose_axes"
   ],
   "note": "Violated by the code: numpy.transpose(x, axes=...) reverses the data whatever the axes are, while names and axes are permuted as asked (c119_transpose_axes); an axis given to numpy.trapz by position is used for the data, but the name and axis of the last dimension are dropped (c119_trapz_position, c119_trapz_axes). Spacings that are physical arrays are not modelled."
  },
  {
   "property": "C120",
   "status": "partial",
   "theorems": [
    "Eprem.Symbolic.c120_item_partial",
    "Eprem.Symbolic.c120_item_wraps",
    "Eprem.Symbolic.c120_contains",
    "Eprem.Symbolic.c120_count",
    "Eprem.Symbolic.c120_index",
    "Eprem.Symbolic.c120_difference_partial",
    "Eprem.Symbolic.c120_difference_equal",
    "Eprem.Symbolic.c120_hash_partial",
    "Eprem.Symbolic.c120_difference_inexact",
    "Eprem.Symbolic.c120_apply_partial",
    "Eprem.Symbolic.c120_apply_coefficient"
   ],
   "note": "Violated by the code: e[i] with -2 len(e) <= i < -len(e) gives a term instead of IndexError (c120_item_wraps, for every expression); equal expressions whose exponents differ below double precision, such as a^1/3 and a^0.3333333333333333, have different hashes and a non-empty difference (c120_difference_inexact); apply loses numerical coefficients (c120_apply_coefficient). Slices are those of lists and are not modelled. apply is proved for products of integer powers."
  },
  {
   "property": "C121",
   "status": "partial",
   "theorems": [
    "Eprem.Helpers.c121_wrap",
    "Eprem.Helpers.c121_wrap_again",
    "Eprem.Helpers.c121_unwrap",
    "Eprem.Helpers.c121_unwrap_again",
    "Eprem.Helpers.c121_newtype",
    "Eprem.Helpers.c121_newtype_none",
    "Eprem.Helpers.c121_separable",
    "Eprem.Helpers.c121_wrapper_partial",
    "Eprem.Helpers.c121_wrapper_not",
    "Eprem.Helpers.c121_equal",
    "Eprem.Helpers.c121_equal_mixed",
    "Eprem.Helpers.c121_hastype",
    "Eprem.Helpers.c121_hastype_order",
    "Eprem.Helpers.c121_hastype_empty",
    "Eprem.Helpers.c121_first",
    "Eprem.Helpers.c121_size",
    "Eprem.Helpers.c121_size_texts",
    "Eprem.Helpers.c121_shape",
    "Eprem.Helpers.c121_length"
   ],
   "note": "Violated by the code: wrappers around bytes and None, which are not separable, hold integers and nothing (c121_wrapper_not); wrappers of a text and an integer cannot be compared even with themselves (c121_equal_mixed); unwrap([None], newtype=list) loses the member (c121_newtype_none); size refuses a list of texts although it is separable (c121_size_texts). Equality of wrappers is proved for members that are all integers or all texts."
  },
  {
   "property": "C122",
   "status": "partial",
   "theorems": [
    "Eprem.Helpers.c122_join",
    "Eprem.Helpers.c122_join_holds",
    "Eprem.Helpers.c122_all",
    "Eprem.Helpers.c122_widest_partial",
    "Eprem.Helpers.c122_widest_not",
    "Eprem.Helpers.c122_widest_base",
    "Eprem.Helpers.c122_sentinel",
    "Eprem.Helpers.c122_sentinel_twice",
    "Eprem.Helpers.c122_sentinel_value",
    "Eprem.Helpers.c122_sentinel_empty",
    "Eprem.Helpers.c122_not_transitive"
   ],
   "note": "Violated by the code: widest gives the narrower of two related types (c122_widest_partial, c122_widest_not); sentinels are looked up by value but stored by name, so the same name and value give two different, unequal objects (c122_sentinel_twice), a value that is the name of an earlier sentinel gives that sentinel (c122_sentinel), and equality is not transitive (c122_not_transitive); a sentinel of an empty text is true (c122_sentinel_empty)."
  },
  {
   "property": "C123",
   "status": "partial",
   "theorems": [
    "Eprem.Metric.c123_listed_partial",
    "Eprem.Metric.c123_equivalent_partial",
    "Eprem.Metric.c123_energy",
    "Eprem.Metric.c123_equivalence",
    "Eprem.Metric.c123_ohmic",
    "Eprem.Metric.c123_missing",
    "Eprem.Metric.c123_keys_partial",
    "Eprem.Metric.c123_single"
   ],
   "note": "Violated by the code: the quantities measured in ohms (impedance, resistance, resistivity) have no unit in mks, so asking for their properties or comparing them with themselves raises ValueError (c123_ohmic); asking whether an unknown name is in a system ends in RecursionError instead of False (c123_missing, on three names)."
  },
  {
   "property": "C124",
   "status": "partial",
   "theorems": [
    "Eprem.Config.c124_definitions",
    "Eprem.Config.c124_raw",
    "Eprem.Config.c124_full",
    "Eprem.Config.c124_formats",
    "Eprem.Config.c124_dict",
    "Eprem.Config.c124_lines",
    "Eprem.Config.c124_text",
    "Eprem.Config.c124_type_names",
    "Eprem.Config.c124_history",
    "Eprem.Config.c124_constants"
   ],
   "note": "Violated by the code: with format='full' and a key that is not defined, ConfigurationC.get does not give the default None but raises TypeError (c124_full). The raw dictionary is proved to have the same items; its order is different (mode comes first). The text given by tostring is proved line by line; that Python reads it back is not."
  },
  {
   "property": "C125",
   "status": "partial",
   "theorems": [
    "Eprem.Numeric.c125_equal",
    "Eprem.Numeric.c125_equal_letters",
    "Eprem.Numeric.c125_not_transitive",
    "Eprem.Numeric.c125_hash_partial",
    "Eprem.Numeric.c125_compare",
    "Eprem.Numeric.c125_order",
    "Eprem.Numeric.c125_compare_letters",
    "Eprem.Numeric.c125_operands",
    "Eprem.Numeric.c125_results",
    "Eprem.Numeric.c125_refused",
    "Eprem.Numeric.c125_not_reflected",
    "Eprem.Numeric.c125_iterator",
    "Eprem.Numeric.c125_permute",
    "Eprem.Numeric.c125_permute_lists",
    "Eprem.Numeric.c125_minus_reflected"
   ],
   "note": "Violated by the code: several dimensions are equal to the text of their letters, so that equality is not transitive (c125_equal_letters, c125_not_transitive); a text equal to a dimension has another hash (c125_hash_partial) and is compared by its letters (c125_compare_letters); other - dimensions and other ^ dimensions are always TypeError unless other is Dimensions (c125_not_reflected); an iterator counts as no names (c125_iterator); permute with a single index is ValueError (c125_permute)."
  },
  {
   "property": "C126",
   "status": "partial",
   "theorems": [
    "Eprem.Observable.c126_equal",
    "Eprem.Observable.c126_equivalence",
    "Eprem.Observable.c126_same_object",
    "Eprem.Observable.c126_alias",
    "Eprem.Observable.c126_withunit",
    "Eprem.Observable.c126_not_again"
   ],
   "note": "Violated by the code: p + q == p + q is always False, because the functions that _apply defines are compared by identity (c126_not_again); the same holds for two spellings of a compound name, and for every result of an operator."
  },
  {
   "property": "C127",
   "status": "partial",
   "theorems": [
    "Eprem.Arguments.c127_indices",
    "Eprem.Arguments.c127_axes",
    "Eprem.Arguments.c127_default_replaces_index",
    "Eprem.Arguments.c127_assumptions",
    "Eprem.Arguments.c127_independent"
   ],
   "note": "Violated by the code: a default for an axis replaces the index that was given, because only assumptions are looked up (c127_default_replaces_index). Assumptions must have unambiguous names (no two aliases of one another)."
  },
  {
   "property": "C128",
   "status": "partial",
   "theorems": [
    "Eprem.Observer.c128_kinds",
    "Eprem.Observer.c128_stable",
    "Eprem.Observer.c128_observers",
    "Eprem.Observer.c128_first",
    "Eprem.Observer.c128_not_one_time"
   ],
   "note": "Violated by the code: streams and points listed at different times are combined, so that observers may be those of no state of the directory (c128_not_one_time)."
  },
  {
   "property": "C129",
   "status": "partial",
   "theorems": [
    "Eprem.Reductions.c129_create",
    "Eprem.Reductions.c129_mul_partial",
    "Eprem.Reductions.c129_div_partial",
    "Eprem.Reductions.c129_pow_partial",
    "Eprem.Reductions.c129_mul_coefficient",
    "Eprem.Reductions.c129_reduction_partial",
    "Eprem.Reductions.c129_units_lost"
   ],
   "note": "Violated by the code: after an operation the coefficient of the expression contains the new scale two more times, because the constructor multiplies by the scale again (c129_mul_partial, c129_mul_coefficient); reduction(unit) multiplies by the scales of the later units only and loses their units (c129_reduction_partial, c129_units_lost)."
  },
  {
   "property": "C130",
   "status": "partial",
   "theorems": [
    "Eprem.Aliased.c130_keys",
    "Eprem.Aliased.c130_fresh",
    "Eprem.Aliased.c130_by_group",
    "Eprem.Aliased.c130_by_name_partial",
    "Eprem.Aliased.c130_stale",
    "Eprem.Aliased.c130_eq",
    "Eprem.Aliased.c130_eq_ignores_aliases",
    "Eprem.Aliased.c130_or_plain",
    "Eprem.Aliased.c130_flat",
    "Eprem.Aliased.c130_freeze",
    "Eprem.Aliased.c130_freeze_groups_partial",
    "Eprem.Aliased.c130_freeze_groups_loses_aliases"
   ],
   "note": "Violated by the code: a view over the names keeps the list of names of the time it was created while `in` and the values are live, so after a deletion iterating over values raises KeyError and after an assignment a new name is missing (c130_by_name_partial, c130_stale); freeze(groups=True) keeps the values and loses every alias (c130_freeze_groups_partial, c130_freeze_groups_loses_aliases)."
  },
  {
   "property": "C131",
   "status": "partial",
   "theorems": [
    "Eprem.TableShow.c131_layout_partial",
    "Eprem.TableShow.c131_object",
    "Eprem.TableShow.c131_nothing"
   ],
   "note": "Violated by the code: None, lists and other values without a format of their own are a TypeError (c131_object), a truth value is printed as a digit (Cell.shown in c131_layout_partial), and without names nothing at all is printed (c131_nothing)."
  },
  {
   "property": "C132",
   "status": "partial",
   "theorems": [
    "Eprem.Etc.c132_same",
    "Eprem.Etc.c132_own_class_partial",
    "Eprem.Etc.c132_base_first",
    "Eprem.Etc.c132_autostr",
    "Eprem.Etc.c132_str2repr_partial",
    "Eprem.Etc.c132_apply",
    "Eprem.Etc.c132_summary",
    "Eprem.Etc.c132_phrase_partial",
    "Eprem.Etc.c132_help_witnesses",
    "Eprem.Etc.c132_full"
   ],
   "note": "Violated by the code: once a singleton class has its instance, a class below it gives that instance (c132_base_first); str2repr shows only the name for a class below that inherits __str__ (c132_str2repr_partial); a phrase keeps capital letters after the first, the phrase of an empty docstring is IndexError, and an object without a docstring has the help text 'None' (c132_help_witnesses)."
  },
  {
   "property": "C133",
   "status": "partial",
   "theorems": [
    "Eprem.Implement.c133_operator",
    "Eprem.Implement.c133_methods",
    "Eprem.Implement.c133_ufunc",
    "Eprem.Implement.c133_register",
    "Eprem.Implement.c133_independent_partial",
    "Eprem.Implement.c133_independent_violated",
    "Eprem.Implement.c133_object_operator_violated"
   ],
   "note": "Violated by the code: a class without dictionaries of its own registers for its base and for all classes below it (c133_independent_violated), and __object_operator__ gives KeyError for an implemented function that is no operator (c133_object_operator_violated). The groups of operators and __array_function__ are not modelled here; real.Array._get_arg_data is in C-properties on numeric arrays."
  }
 ]
}