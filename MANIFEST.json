{
 "claims": [
  {
   "property": "C01",
   "status": "proved",
   "theorems": [
    "Verif.Iterables.c01_unique"
   ],
   "note": "Counts, order of first appearance and idempotence for every list."
  },
  {
   "property": "C02",
   "status": "proved",
   "theorems": [
    "Verif.Iterables.c02_unwrap"
   ],
   "note": "Nested lists/tuples over None, strings and scalars; other iterables are not modelled."
  },
  {
   "property": "C03",
   "status": "proved",
   "theorems": [
    "Verif.Iterables.c03_transpose",
    "Verif.Iterables.c03_transpose_ragged"
   ],
   "note": "Rectangular tables and tables with a row shorter than the first."
  },
  {
   "property": "C04",
   "status": "partial",
   "theorems": [
    "Verif.Iterables.c04_slice_to_range_partial",
    "Verif.Iterables.c04_slice_to_range_counterexample"
   ],
   "note": "Fails in the code for an explicit stop of 0 (falsy); proved for every other bound."
  },
  {
   "property": "C05",
   "status": "partial",
   "theorems": [
    "Verif.Iterables.c05_show_at_most_partial",
    "Verif.Iterables.c05_show_at_most_counterexample"
   ],
   "note": "Fails in the code for n = 0; proved for n >= 1."
  },
  {
   "property": "C06",
   "status": "proved",
   "theorems": [
    "Verif.Iterables.c06_bijection"
   ],
   "note": ""
  },
  {
   "property": "C07",
   "status": "partial",
   "theorems": [
    "Verif.Iterables.c07_registry_partial",
    "Verif.Iterables.c07_registry_counterexample"
   ],
   "note": "Fails in the code when a chosen name has the shape of a generated key; proved when none has."
  },
  {
   "property": "C08",
   "status": "proved",
   "theorems": [
    "Verif.Iterables.c08_strict",
    "Verif.Iterables.c08_strict_unknown_key",
    "Verif.Iterables.c08_find"
   ],
   "note": ""
  },
  {
   "property": "C09",
   "status": "partial",
   "theorems": [
    "Verif.Iterables.c09_progressive_partial",
    "Verif.Iterables.c09_progressive_complete_partial",
    "Verif.Iterables.c09_progressive_counterexample",
    "Verif.Iterables.c09_progressive_ignores_later_counterexample"
   ],
   "note": "Soundness proved; the code violates completeness (spurious AmbiguousRequestError) and ignores later pairs."
  },
  {
   "property": "C10",
   "status": "proved",
   "theorems": [
    "Verif.Iterables.c10_connections"
   ],
   "note": "Weights as rationals."
  },
  {
   "property": "C11",
   "status": "partial",
   "theorems": [
    "Verif.Iterables.c11_guard_partial",
    "Verif.Iterables.c11_guard_counterexample",
    "Verif.Iterables.c11_guard_catch"
   ],
   "note": "Fails in the code for proper subclasses of a registered class (KeyError), proved otherwise."
  },
  {
   "property": "C12",
   "status": "proved",
   "theorems": [
    "Verif.Iterables.c12_distribute"
   ],
   "note": ""
  },
  {
   "property": "C13",
   "status": "partial",
   "theorems": [
    "Verif.Aliased.c13_groups_partial",
    "Verif.Aliased.c13_find",
    "Verif.Aliased.c13_without",
    "Verif.Aliased.c13_groups_bridge_counterexample",
    "Verif.Aliased.c13_groups_double_merge_counterexample",
    "Verif.Aliased.c13_groups_string_counterexample"
   ],
   "note": "Proved for every history whose updates do not bridge existing groups; the code violates it for bridging updates and for adding a bare string."
  },
  {
   "property": "C14",
   "status": "proved",
   "theorems": [
    "Verif.Aliased.c14_mutable",
    "Verif.Aliased.c14_tuple_key_counterexample"
   ],
   "note": "Every history of set/del/alias with single names as keys. Assigning through a tuple of names (outside the documented use) breaks it: counterexample given."
  },
  {
   "property": "C15",
   "status": "proved",
   "theorems": [
    "Verif.Aliased.c15_build_from_aliases",
    "Verif.Aliased.c15_build_from_key",
    "Verif.Aliased.c15_build_from_groups",
    "Verif.Aliased.c15_overlap_counterexample"
   ],
   "note": "All three construction routes; the counterexample shows that disjointness is needed."
  },
  {
   "property": "C16",
   "status": "proved",
   "theorems": [
    "Verif.Aliased.c16_name_map",
    "Verif.Aliased.c16_name_map_succeeds"
   ],
   "note": ""
  },
  {
   "property": "C17",
   "status": "proved",
   "theorems": [
    "Verif.Symbolic.c17_reduce",
    "Verif.Symbolic.c17_constructor",
    "Verif.Symbolic.c17_unique"
   ],
   "note": ""
  },
  {
   "property": "C18",
   "status": "proved",
   "theorems": [
    "Verif.Symbolic.c18_reduce_value"
   ],
   "note": ""
  },
  {
   "property": "C19",
   "status": "partial",
   "theorems": [
    "Verif.Symbolic.c19_mul_comm",
    "Verif.Symbolic.c19_div_self",
    "Verif.Symbolic.c19_units",
    "Verif.Symbolic.c19_mul_value_partial",
    "Verif.Symbolic.c19_mul_assoc_partial",
    "Verif.Symbolic.c19_mul_div_partial",
    "Verif.Symbolic.c19_mul_pow_partial",
    "Verif.Symbolic.c19_group_counterexample"
   ],
   "note": "The code formats and re-parses every result, so exponents with a denominator of two digits are corrupted (counterexample). Commutativity and a/a = 1 hold always; all laws hold unconditionally for integer exponents with coefficient 1 (units), and otherwise whenever the results have denominators below 10 and are floats. For powers, exponents are bounded by 2^52."
  },
  {
   "property": "C20",
   "status": "partial",
   "theorems": [
    "Verif.Symbolic.c20_eq",
    "Verif.Symbolic.c20_float_partial",
    "Verif.Symbolic.c20_float_counterexample"
   ],
   "note": "The comparison is proved right for exact numbers, and the code agrees with it when all coefficients and exponents are floats; since it converts numbers to floats, expressions with different exponents, such as 1/3 and its nearest float, are equal (counterexample)."
  },
  {
   "property": "C21",
   "status": "partial",
   "theorems": [
    "Verif.Symbolic.c21_zero_counterexample",
    "Verif.Symbolic.c21_zero_general",
    "Verif.Symbolic.c21_nonzero_partial"
   ],
   "note": "The code violates it for every term (falsy zero); proved for non-zero factors and integer powers."
  },
  {
   "property": "C22",
   "status": "partial",
   "theorems": [
    "Verif.Symbolic.c22_round_trip_partial",
    "Verif.Symbolic.c22_integers_partial",
    "Verif.Symbolic.c22_sqrt_counterexample",
    "Verif.Symbolic.c22_float_counterexample"
   ],
   "note": "Fails in the code for names that start with sqrt, and for coefficients that are not floats, such as 1/3; proved for every other name, integers up to 2^53, and all floats and exponents with denominators below 10."
  },
  {
   "property": "C23",
   "status": "partial",
   "theorems": [
    "Verif.Symbolic.c23_parse_total_partial",
    "Verif.Symbolic.c23_progress",
    "Verif.Symbolic.c23_parse_counterexample"
   ],
   "note": "Termination proved for every string; besides the documented errors, arithmetic errors (ZeroDivisionError, TypeError, OverflowError) escape, with counterexamples."
  },
  {
   "property": "C24",
   "status": "proved",
   "theorems": [
    "Verif.Symbolic.c24_operator_order",
    "Verif.Symbolic.c24_which_error",
    "Verif.Symbolic.c24_blank_resets"
   ],
   "note": "Numbers and exponents with one-digit denominators (see C26), names not starting with sqrt; fractional powers of numbers are excluded."
  },
  {
   "property": "C25",
   "status": "proved",
   "theorems": [
    "Verif.Symbolic.c25_find_bounds",
    "Verif.Symbolic.c25_no_bracket",
    "Verif.Symbolic.c25_closing_first_counterexample"
   ],
   "note": "The last theorem shows that the quantifier cannot be widened."
  },
  {
   "property": "C26",
   "status": "partial",
   "theorems": [
    "Verif.Symbolic.c26_exponent_partial",
    "Verif.Symbolic.c26_exponent_counterexample"
   ],
   "note": "Fails in the code for denominators of two or more digits; proved for one digit and any numerator."
  },
  {
   "property": "C27",
   "status": "partial",
   "theorems": [
    "Verif.Metric.c27_counterexample",
    "Verif.Metric.c27_partial",
    "Verif.Metric.c27_names"
   ],
   "note": "The code violates it for one string, cd (candela and centiday); proved for every other string, and for all names."
  },
  {
   "property": "C28",
   "status": "proved",
   "theorems": [
    "Verif.Metric.c28_ratio",
    "Verif.Metric.c28_zero"
   ],
   "note": ""
  },
  {
   "property": "C29",
   "status": "proved",
   "theorems": [
    "Verif.Metric.c29_search",
    "Verif.Metric.c29_magnitude"
   ],
   "note": ""
  },
  {
   "property": "C30",
   "status": "proved",
   "theorems": [
    "Verif.Metric.c30_complete"
   ],
   "note": ""
  },
  {
   "property": "C31",
   "status": "partial",
   "theorems": [
    "Verif.Metric.c31_counterexample",
    "Verif.Metric.c31_partial"
   ],
   "note": "Dimensions are multiplicative whenever all three are defined and exponents are at most 2^40 (exact floats); the code gives a dimension to J erg in CGS though J has none (counterexample)."
  },
  {
   "property": "C32",
   "status": "proved",
   "theorems": [
    "Verif.Metadata.c32_merge",
    "Verif.Metadata.c32_names"
   ],
   "note": ""
  },
  {
   "property": "C33",
   "status": "partial",
   "theorems": [
    "Verif.Metadata.c33_partial",
    "Verif.Metadata.c33_counterexample"
   ],
   "note": "Proved for every history whose declarations all have the same number of types; the code truncates the comparison otherwise, so that suppressing one type suppresses every combination that starts with it (counterexample)."
  },
  {
   "property": "C34",
   "status": "partial",
   "theorems": [
    "Verif.Measurable.c34_partial",
    "Verif.Measurable.c34_counterexample"
   ],
   "note": "Proved with equality of units as the code computes it; since that equality is wrong (C79) ohm and volt can be added (counterexample)."
  },
  {
   "property": "C35",
   "status": "proved",
   "theorems": [
    "Verif.Numerical.c35_nearest",
    "Verif.Numerical.c35_empty"
   ],
   "note": ""
  },
  {
   "property": "C36",
   "status": "proved",
   "theorems": [
    "Verif.Numerical.c36_bounded"
   ],
   "note": ""
  },
  {
   "property": "C37",
   "status": "partial",
   "theorems": [
    "Verif.Numerical.c37_partial",
    "Verif.Numerical.c37_counterexample"
   ],
   "note": "The exact relation of the bounds to the number of occurrences is proved for every ascending array; the code inverts the bounds for values that occur more than once (counterexample)."
  },
  {
   "property": "C38",
   "status": "partial",
   "theorems": [
    "Verif.Numerical.c38_partial",
    "Verif.Numerical.c38_encloses_partial",
    "Verif.Numerical.c38_columns_partial",
    "Verif.Numerical.c38_counterexample"
   ],
   "note": "Proved along the last axis for ascending rows in which the target occurs at most once, and along the first axis for columns with the same bounds; the code uses two columns only along the first axis, and gives an empty range for repeated values (counterexamples)."
  },
  {
   "property": "C39",
   "status": "partial",
   "theorems": [
    "Verif.Arrays.c39_partial",
    "Verif.Arrays.c39_exact_partial",
    "Verif.Arrays.c39_counterexample"
   ],
   "note": "Proved that an ellipsis is right exactly if nothing follows it or it stands for exactly one axis; the code drops explicit entries otherwise (counterexample)."
  },
  {
   "property": "C40",
   "status": "partial",
   "theorems": [
    "Verif.Arrays.c40_partial",
    "Verif.Arrays.c40_exact_partial",
    "Verif.Arrays.c40_counterexample",
    "Verif.Arrays.c40_silent_counterexample"
   ],
   "note": "Proved for slices only and for single entries; with one entry per axis the shape is right exactly if the bounds of all slices, taken literally, give the sizes, or all but one do and the other gives a negative number; otherwise the code raises ValueError or exchanges sizes silently (counterexamples)."
  },
  {
   "property": "C41",
   "status": "proved",
   "theorems": [
    "Verif.Arrays.c41_read"
   ],
   "note": ""
  },
  {
   "property": "C42",
   "status": "partial",
   "theorems": [
    "Verif.Arrays.c42_partial",
    "Verif.Arrays.c42_named_partial",
    "Verif.Arrays.c42_counterexample"
   ],
   "note": "Proved whenever factors are ratios of magnitudes, in particular for the conversions that the string-level search finds in the tables of the module; fails in the code when compound units are reduced to base units (counterexample)."
  },
  {
   "property": "C43",
   "status": "partial",
   "theorems": [
    "Verif.Arrays.c43_partial",
    "Verif.Arrays.c43_counterexample"
   ],
   "note": "Same unit and values always; later conversions agree if the scale factor is one. The code forgets the scale factor of converted quantities (counterexample)."
  },
  {
   "property": "C44",
   "status": "proved",
   "theorems": [
    "Verif.Arrays.c44_product"
   ],
   "note": "For arrays without repeated axis names."
  },
  {
   "property": "C45",
   "status": "partial",
   "theorems": [
    "Verif.Arrays.c45_partial",
    "Verif.Arrays.c45_counterexample"
   ],
   "note": "Proved for non-negative axis numbers and for squeezing all singular axes; fails in the code otherwise (counterexamples)."
  },
  {
   "property": "C46",
   "status": "proved",
   "theorems": [
    "Verif.Arrays.c46_shift"
   ],
   "note": ""
  },
  {
   "property": "C47",
   "status": "partial",
   "theorems": [
    "Verif.Arrays.c47_partial",
    "Verif.Arrays.c47_counterexample"
   ],
   "note": "Proved for integer targets; the code truncates other numbers, so that -1/2 is accepted (counterexample)."
  },
  {
   "property": "C48",
   "status": "partial",
   "theorems": [
    "Verif.Runtime.c48_partial",
    "Verif.Runtime.c48_rejects",
    "Verif.Runtime.c48_counterexample"
   ],
   "note": "Proved for every file of empty lines, comment lines and settings without \"=\" in values and inline comments, and the rejected files are characterised exactly; the code rejects white lines and \"=\" in inline comments, and reads indented comments as settings (counterexample)."
  },
  {
   "property": "C49",
   "status": "proved",
   "theorems": [
    "Verif.Runtime.c49_strip_comments"
   ],
   "note": ""
  },
  {
   "property": "C50",
   "status": "partial",
   "theorems": [
    "Verif.Runtime.c50_partial",
    "Verif.Runtime.c50_counterexample"
   ],
   "note": "Proved for non-empty entries; the code uses the default for an empty entry (counterexample)."
  },
  {
   "property": "C51",
   "status": "partial",
   "theorems": [
    "Verif.Runtime.c51_partial",
    "Verif.Runtime.c51_counterexample"
   ],
   "note": "Proved for acyclic definitions made of numerals, names, struct members, sums of two definitions and products, with non-zero sums and integers; the code fails for zero sums and for more than two terms (counterexample)."
  },
  {
   "property": "C52",
   "status": "partial",
   "theorems": [
    "Verif.Runtime.c52_partial",
    "Verif.Runtime.c52_counterexample"
   ],
   "note": "Values are always those of a fresh object; the list of parameter names is stale after a change of the source path (counterexample)."
  },
  {
   "property": "C53",
   "status": "proved",
   "theorems": [
    "Verif.Runtime.c53_compare"
   ],
   "note": ""
  },
  {
   "property": "C54",
   "status": "partial",
   "theorems": [
    "Verif.Eprem.c54_partial",
    "Verif.Eprem.c54_counterexample"
   ],
   "note": "Proved for every quotient whose numerator contains no slash; a slash within an exponent is taken for a division (counterexample)."
  },
  {
   "property": "C55",
   "status": "proved",
   "theorems": [
    "Verif.Eprem.c55_resolve"
   ],
   "note": ""
  },
  {
   "property": "C56",
   "status": "proved",
   "theorems": [
    "Verif.Eprem.c56_dimensions"
   ],
   "note": ""
  },
  {
   "property": "C57",
   "status": "proved",
   "theorems": [
    "Verif.Observing.c57_own_constraints"
   ],
   "note": ""
  },
  {
   "property": "C58",
   "status": "partial",
   "theorems": [
    "Verif.Observing.c58_partial",
    "Verif.Observing.c58_counterexample"
   ],
   "note": "Proved when the constraints do not change after names were asked for; otherwise the names are those of the first query (proved), and the claim fails (counterexample)."
  },
  {
   "property": "C59",
   "status": "proved",
   "theorems": [
    "Verif.Observing.c59_precedence"
   ],
   "note": ""
  },
  {
   "property": "C60",
   "status": "partial",
   "theorems": [
    "Verif.Observing.c60_partial",
    "Verif.Observing.c60_counterexample"
   ],
   "note": "Proved for names that do not cancel, without numbers and blanks; otherwise the code violates it (counterexample)."
  },
  {
   "property": "C61",
   "status": "partial",
   "theorems": [
    "Verif.Spelling.c61_partial",
    "Verif.Spelling.c61_counterexample",
    "Verif.Spelling.check_modes"
   ],
   "note": "Everything except suggestions for the empty word, which gets none (counterexample)."
  },
  {
   "property": "C62",
   "status": "partial",
   "theorems": [
    "Verif.Observing.c62_partial",
    "Verif.Observing.c62_counterexample"
   ],
   "note": "Proved for the first unknown name; every later one raises TypeError (proved, counterexample)."
  },
  {
   "property": "C63",
   "status": "partial",
   "theorems": [
    "Verif.Operational.c63_partial",
    "Verif.Operational.c63_counterexample"
   ],
   "note": "Length and members always agree; truth proved for single values and for options with several values; physical arguments with several values raise ValueError (counterexample)."
  },
  {
   "property": "C64",
   "status": "partial",
   "theorems": [
    "Verif.Fundamental.c64_partial",
    "Verif.Fundamental.c64_counterexample"
   ],
   "note": "Charge and mass from the symbol proved for all elements and charges; the symbol from the mass for all but five elements, for which the code gives another element (counterexample)."
  },
  {
   "property": "C65",
   "status": "partial",
   "theorems": [
    "Verif.Fundamental.c65_partial",
    "Verif.Fundamental.c65_counterexample"
   ],
   "note": "Proved for all constants except c1, by the SI; by the library's own conversion for all but six, which are wrong or fail (counterexample)."
  },
  {
   "property": "C66",
   "status": "partial",
   "theorems": [
    "Verif.Files.c66_partial",
    "Verif.Files.c66_counterexample"
   ],
   "note": "Proved when all paths before the match exist; otherwise the code raises NonExistentPathError (proved, counterexample)."
  },
  {
   "property": "C67",
   "status": "partial",
   "theorems": [
    "Verif.Files.c67_partial",
    "Verif.Files.c67_counterexample"
   ],
   "note": "Proved for one class; the cache is shared between classes (counterexample)."
  },
  {
   "property": "C68",
   "status": "partial",
   "theorems": [
    "Verif.Files.c68_partial",
    "Verif.Files.c68_counterexample"
   ],
   "note": "Proved across file types; datasets of the same type share their viewers (counterexample)."
  },
  {
   "property": "C69",
   "status": "partial",
   "theorems": [
    "Verif.Measurable.c69_partial",
    "Verif.Measurable.c69_counterexample"
   ],
   "note": "Proved for well-formed objects of any nesting; values are silently dropped from some malformed ones (counterexamples)."
  },
  {
   "property": "C70",
   "status": "partial",
   "theorems": [
    "Verif.Measurable.c70_partial",
    "Verif.Measurable.c70_counterexample"
   ],
   "note": "The code never succeeds and always leaves the new data with the old unit (proved for all operands); rejected operations leave the quantity unchanged."
  },
  {
   "property": "C71",
   "status": "partial",
   "theorems": [
    "Verif.Symbolic.c71_parse_meaning_partial",
    "Verif.Symbolic.c71_counterexample"
   ],
   "note": "Proved for numbers and exponents with one-digit denominators (larger ones fail: C26), names not starting with sqrt (C22), positive numbers, canonical spacing, numbers that are floats, and no fractional power of a number other than 1."
  },
  {
   "property": "C72",
   "status": "partial",
   "theorems": [
    "Verif.Metric.c72_counterexample",
    "Verif.Metric.c72_partial"
   ],
   "note": "The code violates it for cd only; proved for every other string and all histories."
  },
  {
   "property": "C73",
   "status": "partial",
   "theorems": [
    "Verif.Metric.c73_counterexample",
    "Verif.Metric.c73_partial"
   ],
   "note": "The code violates it for prefixes on both sides of a declared conversion (nT to mG); proved for one prefixed side, on every graph."
  },
  {
   "property": "C74",
   "status": "proved",
   "theorems": [
    "Verif.Metric.c74_factors"
   ],
   "note": "For the string-level search with the tables of the module; symbolic pi, every iteration order."
  },
  {
   "property": "C75",
   "status": "partial",
   "theorems": [
    "Verif.Metric.c75_counterexample",
    "Verif.Metric.c75_partial"
   ],
   "note": "The code violates it for products; the factors are reciprocal whenever both directions succeed on strings."
  },
  {
   "property": "C76",
   "status": "partial",
   "theorems": [
    "Verif.Metric.c76_counterexample",
    "Verif.Metric.c76_partial"
   ],
   "note": "The code violates it (au to eV = 1); the string-level search respects quantities up to three coincidences."
  },
  {
   "property": "C77",
   "status": "partial",
   "theorems": [
    "Verif.Metric.c77_counterexample",
    "Verif.Metric.c77_partial",
    "Verif.Metric.c77_products_partial"
   ],
   "note": "The code violates it for eV m to erg cm. Proved for powers of one unit, and for products of any number of powers of units, each of which is paired with one that differs in the prefix or is the other end of a declared conversion, if the pairing is unique."
  },
  {
   "property": "C78",
   "status": "partial",
   "theorems": [
    "Verif.Metric.c78_counterexample",
    "Verif.Metric.c78_partial"
   ],
   "note": "Four quantities disagree in the code; all others proved."
  },
  {
   "property": "C79",
   "status": "partial",
   "theorems": [
    "Verif.Metric.c79_counterexample",
    "Verif.Metric.c79_partial"
   ],
   "note": "The code violates it (ohm == V); characterisation of equality proved for all tables."
  },
  {
   "property": "C80",
   "status": "partial",
   "theorems": [
    "Verif.Metric.c80_counterexample",
    "Verif.Metric.c80_partial"
   ],
   "note": "Fails in the code for lx only."
  },
  {
   "property": "C81",
   "status": "partial",
   "theorems": [
    "Verif.Metric.c81_counterexample",
    "Verif.Metric.c81_partial"
   ],
   "note": "Unknown quantities give RecursionError for every limit; known ones succeed for every limit from 8."
  },
  {
   "property": "C82",
   "status": "partial",
   "theorems": [
    "Verif.Metric.c82_counterexample",
    "Verif.Metric.c82_partial"
   ],
   "note": "Fails in the code for symbols that are not ASCII letters; proved for names made of letters."
  },
  {
   "property": "C83",
   "status": "partial",
   "theorems": [
    "Verif.Metric.c83_counterexample",
    "Verif.Metric.c83_partial"
   ],
   "note": "Fails in the code when prefixed units are reduced to base units; proved for factors found by search or by pairing terms."
  },
  {
   "property": "C84",
   "status": "partial",
   "theorems": [
    "Verif.Metric.c84_counterexample",
    "Verif.Metric.c84_partial"
   ],
   "note": "The code violates it (A / m and A m^-1); proved when the string-level search fails for both spellings."
  },
  {
   "property": "C85",
   "status": "partial",
   "theorems": [
    "Verif.Metric.c85_counterexample",
    "Verif.Metric.c85_partial"
   ],
   "note": "The farad and H / m violate it in the code; the other relations proved for symbolic pi."
  },
  {
   "property": "C86",
   "status": "partial",
   "theorems": [
    "Verif.Metric.c86_counterexample",
    "Verif.Metric.c86_partial"
   ],
   "note": "The ohm violates it in the code; the other derived units proved."
  },
  {
   "property": "C87",
   "status": "partial",
   "theorems": [
    "Verif.Metadata.c87_partial",
    "Verif.Metadata.c87_counterexample"
   ],
   "note": "The code ignores order and duplicates and equates axes with strings (counterexample); for axes without duplicates it is an equivalence, namely equality up to order."
  },
  {
   "property": "C88",
   "status": "partial",
   "theorems": [
    "Verif.Metadata.c88_partial",
    "Verif.Metadata.c88_counterexample"
   ],
   "note": "The code accepts transposed axes (counterexample); proved up to order."
  },
  {
   "property": "C89",
   "status": "partial",
   "theorems": [
    "Verif.Metadata.c89_partial",
    "Verif.Metadata.c89_equal",
    "Verif.Metadata.c89_counterexample"
   ],
   "note": "The copy drops all declarations; it equals the operation exactly if there are none."
  },
  {
   "property": "C90",
   "status": "partial",
   "theorems": [
    "Verif.Metadata.c90_partial",
    "Verif.Metadata.c90_exact_partial",
    "Verif.Metadata.c90_strict",
    "Verif.Metadata.c90_counterexample"
   ],
   "note": "Proved when all operands have all attributes, and for single attributes; otherwise exactly the operands with all attributes are compared, and there is an exception without such operands. In strict mode, an operand without the attribute raises AttributeError (c90_strict)."
  },
  {
   "property": "C91",
   "status": "partial",
   "theorems": [
    "Verif.Metadata.c91_partial",
    "Verif.Metadata.c91_counterexample"
   ],
   "note": "The code does not bracket the second operand (counterexample); proved when its aliases are names, powers or bracketed expressions."
  },
  {
   "property": "C92",
   "status": "partial",
   "theorems": [
    "Verif.Numerical.c92_partial",
    "Verif.Numerical.c92_counterexample"
   ],
   "note": "Proved for strictly ascending references of one dimension and, for targets between the values of every row, of two; the code returns a single value if a two-dimensional reference contains the target (counterexample)."
  },
  {
   "property": "C93",
   "status": "partial",
   "theorems": [
    "Verif.Arrays.c93_partial",
    "Verif.Arrays.c93_axes_partial",
    "Verif.Arrays.c93_counterexample"
   ],
   "note": "Proved for a first operand that is shorter along any common axis, with any axes; the code truncates a longer first operand silently (counterexample)."
  },
  {
   "property": "C94",
   "status": "partial",
   "theorems": [
    "Verif.Arrays.c94_partial",
    "Verif.Arrays.c94_counterexample"
   ],
   "note": "Proved for lists and full slices; the code ignores other slices and rejects integers (counterexample)."
  },
  {
   "property": "C95",
   "status": "partial",
   "theorems": [
    "Verif.Runtime.c95_partial",
    "Verif.Runtime.c95_counterexample"
   ],
   "note": "Proved for white space after the equals sign; white space before it becomes part of the key (counterexample)."
  },
  {
   "property": "C96",
   "status": "partial",
   "theorems": [
    "Verif.Runtime.c96_partial",
    "Verif.Runtime.c96_counterexample"
   ],
   "note": "Proved for the marker \"#\"; other markers are not passed on (counterexample)."
  },
  {
   "property": "C97",
   "status": "partial",
   "theorems": [
    "Verif.Eprem.c97_partial",
    "Verif.Eprem.c97_partial_missing",
    "Verif.Eprem.c97_counterexample"
   ],
   "note": "Proved when array arguments come first, then scalars; the code changes the order otherwise, and drops dependencies of other types (counterexample)."
  },
  {
   "property": "C98",
   "status": "partial",
   "theorems": [
    "Verif.Eprem.c98_partial",
    "Verif.Eprem.c98_counterexample"
   ],
   "note": "The code changes the label only (counterexample); the cases in which this is right are characterised."
  },
  {
   "property": "C99",
   "status": "partial",
   "theorems": [
    "Verif.Observing.c99_partial",
    "Verif.Observing.c99_counterexample"
   ],
   "note": "Proved for a spell checker that is given single names; the observer gives it groups, and never raises SpellingError (proved, counterexample)."
  },
  {
   "property": "C100",
   "status": "partial",
   "theorems": [
    "Verif.Observing.c100_partial",
    "Verif.Observing.c100_counterexample"
   ],
   "note": "A constraint acts under the name under which it was given, and under no other (proved, counterexample)."
  },
  {
   "property": "C101",
   "status": "partial",
   "theorems": [
    "Verif.Observing.c101_partial",
    "Verif.Observing.c101_counterexample"
   ],
   "note": "Proved when no name enters with an exponent above one; the error is characterised exactly otherwise (counterexample)."
  },
  {
   "property": "C102",
   "status": "partial",
   "theorems": [
    "Verif.Eprem.c102_partial",
    "Verif.Eprem.c102_counterexample"
   ],
   "note": "Proved for MKS; updates of other observers return to MKS (counterexample)."
  },
  {
   "property": "C103",
   "status": "partial",
   "theorems": [
    "Verif.Eprem.c103_partial",
    "Verif.Eprem.c103_counterexample"
   ],
   "note": "Proved unless only the source changes while the configuration is a bare file name, and for sources with data; otherwise the code violates it (counterexample)."
  },
  {
   "property": "C104",
   "status": "partial",
   "theorems": [
    "Verif.Observing.c104_composition_partial",
    "Verif.Observing.c104_counterexample"
   ],
   "note": "Proved for compositions without numbers in which not all names cancel; multiples raise TypeError (counterexample)."
  },
  {
   "property": "C105",
   "status": "partial",
   "theorems": [
    "Verif.Files.c105_partial",
    "Verif.Files.c105_counterexample"
   ],
   "note": "The methods of the class refuse, but creating a read-only path gives an object of another class (counterexample)."
  },
  {
   "property": "C106",
   "status": "partial",
   "theorems": [
    "Verif.Files.c106_partial",
    "Verif.Files.c106_counterexample"
   ],
   "note": "Creation succeeds (counterexample); every use of such a dataset raises TypeError (proved)."
  },
  {
   "property": "C107",
   "status": "partial",
   "theorems": [
    "Verif.Metric.c107_partial",
    "Verif.Metric.c107_counterexample"
   ],
   "note": "Proved for the farad and the magnetic units; the others are off by powers of 100, as proved (counterexample)."
  },
  {
   "property": "C108",
   "status": "partial",
   "theorems": [
    "Verif.Operational.c108_partial",
    "Verif.Operational.c108_counterexample"
   ],
   "note": "Proved for numbers and Booleans; strings of digits are rejected when longer than one character (counterexample)."
  },
  {
   "property": "C109",
   "status": "partial",
   "theorems": [
    "Verif.Operational.c109_partial",
    "Verif.Operational.c109_counterexample"
   ],
   "note": "Proved for arguments with items, except indices between once and twice the length before the start; the code accepts some indices before the start and rejects index 0 of single values (counterexample)."
  },
  {
   "property": "C110",
   "status": "partial",
   "theorems": [
    "Verif.Operational.c110_partial",
    "Verif.Operational.c110_counterexample"
   ],
   "note": "Proved when both or none of the operands have units; otherwise the answer depends on the order (counterexample)."
  },
  {
   "property": "C111",
   "status": "partial",
   "theorems": [
    "Verif.Operational.c111_partial",
    "Verif.Operational.c111_counterexample"
   ],
   "note": "Proved for single values; sequences are rejected (counterexample)."
  },
  {
   "property": "C112",
   "status": "proved",
   "theorems": [
    "Verif.Physics.c112_components"
   ],
   "note": "Over the real numbers."
  },
  {
   "property": "C113",
   "status": "partial",
   "theorems": [
    "Verif.Physics.c113_partial",
    "Verif.Physics.c113_counterexample"
   ],
   "note": "The code divides by the speed twice (counterexample); the result is right for speed 1, and always distinguishes acute, right and obtuse angles."
  },
  {
   "property": "C114",
   "status": "partial",
   "theorems": [
    "Verif.Physics.c114_partial",
    "Verif.Physics.c114_partial_polar",
    "Verif.Physics.c114_counterexample"
   ],
   "note": "Proved for arrays of points with coordinates that are 0 or not below the rounding threshold; plain numbers raise TypeError (counterexample)."
  },
  {
   "property": "C115",
   "status": "partial",
   "theorems": [
    "Verif.Physics.c115_partial",
    "Verif.Physics.c115_counterexample"
   ],
   "note": "Proved except for points with x = 0 and y < 0, where the code gives -pi/2, and points on the z axis, where it gives pi/2 (counterexample)."
  },
  {
   "property": "C116",
   "status": "proved",
   "theorems": [
    "Verif.Physics.c116_exponential",
    "Verif.Physics.c116_scale",
    "Verif.Physics.c116_sign"
   ],
   "note": "Over the real numbers."
  },
  {
   "property": "C117",
   "status": "proved",
   "theorems": [
    "Verif.Physics.c117_relativistic",
    "Verif.Physics.c117_monotone"
   ],
   "note": "With the tabulated speed of light."
  },
  {
   "property": "C118",
   "status": "proved",
   "theorems": [
    "Verif.Physics.c118_reference",
    "Verif.Physics.c118_scaling"
   ],
   "note": "With the tabulated astronomical unit and electron volt."
  },
  {
   "property": "C119",
   "status": "proved",
   "theorems": [
    "Verif.Physics.c119_average_energy"
   ],
   "note": "Over any ordered field."
  },
  {
   "property": "C120",
   "status": "proved",
   "theorems": [
    "Verif.Physics.c120_isotropic",
    "Verif.Physics.c120_linear"
   ],
   "note": "Over any ordered field."
  },
  {
   "property": "C121",
   "status": "partial",
   "theorems": [
    "Verif.Physics.c121_partial",
    "Verif.Physics.c121_counterexample"
   ],
   "note": "Proved if neighbouring intervals differ by a factor of two at most; otherwise the result can be negative (counterexample)."
  },
  {
   "property": "C122",
   "status": "proved",
   "theorems": [
    "Verif.Physics.c122_exact",
    "Verif.Physics.c122_affine",
    "Verif.Physics.c122_steady",
    "Verif.Physics.c122_linear"
   ],
   "note": "The rule of scipy 1.9.3, which poetry.lock pins, for odd and even numbers of times."
  },
  {
   "property": "C123",
   "status": "partial",
   "theorems": [
    "Verif.Physics.c123_partial",
    "Verif.Physics.c123_partial_integral",
    "Verif.Physics.c123_partial_none",
    "Verif.Physics.c123_counterexample"
   ],
   "note": "Proved from the least energy to below the greatest; from the greatest on the code always raises IndexError (counterexample)."
  },
  {
   "property": "C124",
   "status": "proved",
   "theorems": [
    "Verif.Physics.c124_power_law",
    "Verif.Physics.c124_on_grid"
   ],
   "note": "Over the real numbers."
  },
  {
   "property": "C125",
   "status": "proved",
   "theorems": [
    "Verif.Physics.c125_rate",
    "Verif.Physics.c125_jump"
   ],
   "note": "Over the real numbers."
  },
  {
   "property": "C126",
   "status": "proved",
   "theorems": [
    "Verif.Physics.c126_flux"
   ],
   "note": "With the tabulated proton mass."
  },
  {
   "property": "C127",
   "status": "proved",
   "theorems": [
    "Verif.Defaults.c127_defaults",
    "Verif.Defaults.c127_total"
   ],
   "note": "For the shipped table; users' entries are plain values of their types. simStopTime has no value if it is zero (C51)."
  },
  {
   "property": "C128",
   "status": "partial",
   "theorems": [
    "Verif.Defaults.c128_partial",
    "Verif.Defaults.c128_counterexample"
   ],
   "note": "Proved for angles and energies; every default speed exceeds the speed of light in its declared unit, and the unit of the solar rotation is wrong (counterexample)."
  },
  {
   "property": "C129",
   "status": "proved",
   "theorems": [
    "Verif.Defaults.c129_constants"
   ],
   "note": "Literals are the nearest floats, and arithmetic is exact; the solution assumed is shown to exist (shipped_solution)."
  },
  {
   "property": "C130",
   "status": "partial",
   "theorems": [
    "Verif.Defaults.c130_partial",
    "Verif.Defaults.c130_layout_partial",
    "Verif.Defaults.c130_unknown_counterexample",
    "Verif.Defaults.c130_zero_counterexample",
    "Verif.Defaults.c130_untyped_counterexample"
   ],
   "note": "Proved for nonzero constants with metadata, whatever the layout of the definitions, also with square roots; unknown names are skipped, zeros are taken as one, and constants without metadata raise TypeError (counterexamples)."
  },
  {
   "property": "C131",
   "status": "partial",
   "theorems": [
    "Verif.Defaults.c131_partial",
    "Verif.Defaults.c131_digit_counterexample",
    "Verif.Defaults.c131_comment_counterexample"
   ],
   "note": "Proved for names in capitals without digits and definitions without comments; otherwise the code violates it (counterexamples)."
  },
  {
   "property": "C132",
   "status": "partial",
   "theorems": [
    "Verif.Defaults.c132_partial",
    "Verif.Defaults.c132_comma_counterexample",
    "Verif.Defaults.c132_layout_counterexample"
   ],
   "note": "Proved for calls on one line without trailing comment and arguments without commas; otherwise the code violates it (counterexamples)."
  },
  {
   "property": "C133",
   "status": "partial",
   "theorems": [
    "Verif.Defaults.c133_partial",
    "Verif.Defaults.c133_array_counterexample",
    "Verif.Defaults.c133_label_counterexample"
   ],
   "note": "Proved for arrays of one plain number; longer arrays are not read, and the label is lost (counterexamples)."
  },
  {
   "property": "C134",
   "status": "proved",
   "theorems": [
    "Verif.Defaults.c134_round_trip",
    "Verif.Defaults.c134_source"
   ],
   "note": "JSON encoding itself is trusted to be a bijection on texts."
  },
  {
   "property": "C135",
   "status": "partial",
   "theorems": [
    "Verif.Defaults.c135_partial",
    "Verif.Defaults.c135_counterexample",
    "Verif.Defaults.c135_append_counterexample"
   ],
   "note": "Writing replaces; appending keeps the old sections, so that changed or new parameters are not recorded (counterexamples)."
  },
  {
   "property": "C136",
   "status": "proved",
   "theorems": [
    "Verif.Defaults.c136_unambiguous"
   ],
   "note": "For the shipped tables and every order of enumeration."
  },
  {
   "property": "C137",
   "status": "partial",
   "theorems": [
    "Verif.Defaults.c137_partial",
    "Verif.Defaults.c137_counterexample"
   ],
   "note": "Proved except for RSAU, which is the inverse of its description (counterexample)."
  },
  {
   "property": "C138",
   "status": "partial",
   "theorems": [
    "Verif.Defaults.c138_partial",
    "Verif.Defaults.c138_counterexample",
    "Verif.Defaults.c138_wrong_file"
   ],
   "note": "Proved when started in the deepest common directory of several files; single files, other directories and equal files in mode diff fail (counterexamples), and files of the same name elsewhere are read instead."
  },
  {
   "property": "C139",
   "status": "partial",
   "theorems": [
    "Verif.Defaults.c139_partial",
    "Verif.Defaults.c139_counterexample"
   ],
   "note": "Proved for defaults; values of the user are not checked (counterexample)."
  },
  {
   "property": "C140",
   "status": "partial",
   "theorems": [
    "Verif.Axes.c140_partial",
    "Verif.Axes.c140_counterexample"
   ],
   "note": "Proved for whole axes and measured targets; for integer positions all axis values are reported, which is right only if the positions are those of the whole axis in order."
  },
  {
   "property": "C141",
   "status": "partial",
   "theorems": [
    "Verif.Axes.c141_partial",
    "Verif.Axes.c141_ignored",
    "Verif.Axes.c141_counterexample"
   ],
   "note": "Proved for units of the right kind; for other units the numbers are used as if they were in the unit of the axis (proved for all), and empty slices select everything (counterexample)."
  },
  {
   "property": "C142",
   "status": "partial",
   "theorems": [
    "Verif.Axes.c142_partial",
    "Verif.Axes.c142_counterexample"
   ],
   "note": "Proved if the species has the energies of the first one; otherwise the energies of the first species are used (counterexample)."
  },
  {
   "property": "C143",
   "status": "proved",
   "theorems": [
    "Verif.Axes.c143_species"
   ],
   "note": "Numbers with a fraction are truncated."
  },
  {
   "property": "C144",
   "status": "partial",
   "theorems": [
    "Verif.Axes.c144_partial",
    "Verif.Axes.c144_counterexample"
   ],
   "note": "Proved for angles on the grid; all others raise AxisError (proved for all)."
  },
  {
   "property": "C145",
   "status": "partial",
   "theorems": [
    "Verif.Axes.c145_partial",
    "Verif.Axes.c145_counterexample"
   ],
   "note": "Proved for times on the grid, and for grids that do not move; on moving grids the result is wrong (counterexample). The radius must be off the grid (C92)."
  },
  {
   "property": "C146",
   "status": "partial",
   "theorems": [
    "Verif.Axes.c146_partial",
    "Verif.Axes.c146_counterexample"
   ],
   "note": "Proved unless both time and place are interpolated; then quantities without further axes cannot be observed (proved for all), and for others there are at most as many rows as the dataset has times (counterexample)."
  },
  {
   "property": "C147",
   "status": "partial",
   "theorems": [
    "Verif.Axes.c147_partial",
    "Verif.Axes.c147_counterexample"
   ],
   "note": "Proved for single lengths; other units are accepted and several radii rejected (counterexample)."
  },
  {
   "property": "C148",
   "status": "partial",
   "theorems": [
    "Verif.Axes.c148_partial",
    "Verif.Axes.c148_counterexample"
   ],
   "note": "Radii are rejected, if there are several times; times are replaced by the nearest end (proved for all times after the last)."
  },
  {
   "property": "C149",
   "status": "proved",
   "theorems": [
    "Verif.Shapes.c149_flux",
    "Verif.Shapes.c149_positions",
    "Verif.Shapes.c149_fields",
    "Verif.Shapes.c149_density_ratio",
    "Verif.Shapes.c149_divergence",
    "Verif.Shapes.c149_fluence",
    "Verif.Shapes.c149_isotropic",
    "Verif.Shapes.c149_energy",
    "Verif.Shapes.c149_single_energy",
    "Verif.Shapes.c149_acceleration",
    "Verif.Shapes.c149_integral"
   ],
   "note": "numpy broadcasting is part of the model. Quantities with mass and charge are the subject of C150. The entries refer to the pointwise functions about which C112-C126 are proved."
  },
  {
   "property": "C150",
   "status": "partial",
   "theorems": [
    "Verif.Shapes.c150_partial",
    "Verif.Shapes.c150_error",
    "Verif.Shapes.c150_counterexample"
   ],
   "note": "Proved for one species; for several species the masses are aligned with the energies: ValueError (proved for all sizes that differ) or the mass at the position of the energy (counterexample)."
  },
  {
   "property": "C151",
   "status": "partial",
   "theorems": [
    "Verif.Shapes.c151_partial",
    "Verif.Shapes.c151_counterexample"
   ],
   "note": "Proved for minimum energies that are below the energies of all species or not below those of the species; otherwise the code violates it (counterexample)."
  },
  {
   "property": "C152",
   "status": "partial",
   "theorems": [
    "Verif.Shapes.c152_partial",
    "Verif.Shapes.c152_wrong",
    "Verif.Shapes.c152_counterexample"
   ],
   "note": "Proved for the quantities without physical constants; constants are always in MKS units, so that flux, energy density, average energy, rigidity and mean free path are wrong in CGS (proved for all inputs), as is the flow angle."
  },
  {
   "property": "C153",
   "status": "partial",
   "theorems": [
    "Verif.Shapes.c153_partial",
    "Verif.Shapes.c153_counterexample"
   ],
   "note": "Proved for one species and the usual order of dimensions; for another order the labels are exchanged (counterexample)."
  },
  {
   "property": "C154",
   "status": "partial",
   "theorems": [
    "Verif.Shapes.c154_partial",
    "Verif.Shapes.c154_counterexample"
   ],
   "note": "The whole table is checked. The factor for charge is wrong by 100, see C107 (counterexample); those of the magnetic quantities are not compared with a specification."
  },
  {
   "property": "C155",
   "status": "partial",
   "theorems": [
    "Verif.Systems.c155_norm_partial",
    "Verif.Systems.c155_norm_counterexample"
   ],
   "note": "Proved unless all quantities of the unit cancel; then, as for m / cm, computing the norm exceeds every recursion limit (proved for all such units). Units of illuminance are left out (C80), as are exponents that are not integers or, for a quantity in total, exceed 2^48."
  },
  {
   "property": "C156",
   "status": "partial",
   "theorems": [
    "Verif.Systems.c156_idempotent_partial",
    "Verif.Systems.c156_idempotent_counterexample"
   ],
   "note": "Proved for all units with exponents up to 2^40 in total, other than those about light, where cd is read as the centiday (counterexample)."
  },
  {
   "property": "C157",
   "status": "partial",
   "theorems": [
    "Verif.Systems.c157_between_partial",
    "Verif.Systems.c157_between_counterexample"
   ],
   "note": "Proved for quantities whose canonical units are single names that occur for no other quantity; capacitance and others violate it (counterexample)."
  },
  {
   "property": "C158",
   "status": "partial",
   "theorems": [
    "Verif.Systems.c158_product_partial",
    "Verif.Systems.c158_product_counterexample"
   ],
   "note": "Proved whenever the three norms exist (C155)."
  },
  {
   "property": "C159",
   "status": "partial",
   "theorems": [
    "Verif.Systems.c159_unit",
    "Verif.Systems.c159_nothing",
    "Verif.Systems.c159_dimension_partial",
    "Verif.Systems.c159_identity",
    "Verif.Systems.c159_quantity",
    "Verif.Systems.c159_text_counterexample"
   ],
   "note": "Dimensions given as strings are compared as text (counterexample)."
  },
  {
   "property": "C160",
   "status": "partial",
   "theorems": [
    "Verif.Systems.c160_has_dimension_partial",
    "Verif.Systems.c160_has_dimension_counterexample"
   ],
   "note": "Proved unless the quantity found is one of the four listed with a wrong dimension (C78)."
  },
  {
   "property": "C161",
   "status": "partial",
   "theorems": [
    "Verif.Systems.c161_consistent_partial",
    "Verif.Systems.c161_reflexive",
    "Verif.Systems.c161_symmetric_partial",
    "Verif.Systems.c161_symmetric_counterexample"
   ],
   "note": "Exactly characterized; not symmetric, since a unit that is undefined in a system counts as dimensionless there, and true without a factor (counterexample). Also true for equal quantities and for dimensions in different systems."
  },
  {
   "property": "C162",
   "status": "partial",
   "theorems": [
    "Verif.Systems.c162_change",
    "Verif.Systems.c162_refused_partial",
    "Verif.Systems.c162_counterexample"
   ],
   "note": "What is applied is the factor, and what is refused is not consistent; but volts may be given the unit ohm, and consistent units may have no factor (counterexample)."
  },
  {
   "property": "C163",
   "status": "proved",
   "theorems": [
    "Verif.Systems.c163_equivalent",
    "Verif.Systems.c163_equivalence"
   ],
   "note": "A missing dimension counts as 1."
  },
  {
   "property": "C164",
   "status": "partial",
   "theorems": [
    "Verif.Systems.c164_systems",
    "Verif.Systems.c164_round_trip",
    "Verif.Systems.c164_quantity_counterexample"
   ],
   "note": "Proved but for the rejection of units of other quantities, which are accepted (counterexample)."
  },
  {
   "property": "C165",
   "status": "partial",
   "theorems": [
    "Verif.Systems.c165_system_partial",
    "Verif.Systems.c165_system_counterexample"
   ],
   "note": "Proved for lower case; all other spellings raise KeyError (proved for all)."
  },
  {
   "property": "C166",
   "status": "partial",
   "theorems": [
    "Verif.Systems.c166_agree_partial",
    "Verif.Systems.c166_refused_partial",
    "Verif.Systems.c166_refused_counterexample"
   ],
   "note": "Proved for consistent units and arrays; arrays of axis values raise another exception, and observable quantities accept every unit (counterexample)."
  },
  {
   "property": "C167",
   "status": "partial",
   "theorems": [
    "Verif.Systems.c167_partial",
    "Verif.Systems.c167_counterexample"
   ],
   "note": "Proved for all histories whose expressions can be read again, and all arguments but the confusable names; cd, names with blanks and symbols that cannot be parsed depend on the history (counterexample)."
  },
  {
   "property": "C168",
   "status": "partial",
   "theorems": [
    "Verif.Systems.c168_partial",
    "Verif.Systems.c168_counterexample"
   ],
   "note": "Proved for regular arguments; each call with u for micro gives a new object (counterexample)."
  },
  {
   "property": "C169",
   "status": "partial",
   "theorems": [
    "Verif.Systems.c169_partial",
    "Verif.Systems.c169_counterexample"
   ],
   "note": "At most twice for regular arguments; \"(m)\" is parsed twice and \"um\" by every call (counterexample)."
  },
  {
   "property": "C170",
   "status": "partial",
   "theorems": [
    "Verif.Aliased.c170_lookup",
    "Verif.Aliased.c170_groups_partial",
    "Verif.Aliased.c170_overlap_counterexample"
   ],
   "note": "The lookups are proved for all mappings; the result is well-formed if each two groups are equal or disjoint; overlapping groups are not merged (counterexample)."
  },
  {
   "property": "C171",
   "status": "proved",
   "theorems": [
    "Verif.Aliased.c171_equal",
    "Verif.Aliased.c171_equal_dict"
   ],
   "note": ""
  },
  {
   "property": "C172",
   "status": "partial",
   "theorems": [
    "Verif.Aliased.c172_partial",
    "Verif.Aliased.c172_counterexample"
   ],
   "note": "Proved if the mappings also have the same aliases, which equality does not compare (counterexample)."
  },
  {
   "property": "C173",
   "status": "partial",
   "theorems": [
    "Verif.Aliased.c173_squeeze",
    "Verif.Aliased.c173_strict_partial",
    "Verif.Aliased.c173_counterexample"
   ],
   "note": "Proved, but a strict squeeze of an empty mapping raises IndexError (counterexample)."
  },
  {
   "property": "C174",
   "status": "proved",
   "theorems": [
    "Verif.Aliased.c174_copy",
    "Verif.Aliased.c174_copy_equal",
    "Verif.Aliased.c174_fromkeys",
    "Verif.Aliased.c174_other_names"
   ],
   "note": "Names of different entries of fromkeys are assumed disjoint."
  },
  {
   "property": "C175",
   "status": "partial",
   "theorems": [
    "Verif.Aliased.c175_invert",
    "Verif.Aliased.c175_iter_partial",
    "Verif.Aliased.c175_counterexample"
   ],
   "note": "Lookups after inversion are proved; iteration and copies of an inverted map use the map before inversion (counterexample)."
  },
  {
   "property": "C176",
   "status": "partial",
   "theorems": [
    "Verif.Quantities.c176_partial",
    "Verif.Quantities.c176_units",
    "Verif.Quantities.c176_equal",
    "Verif.Quantities.c176_vectors",
    "Verif.Quantities.c176_counterexample",
    "Verif.Quantities.c176_transitive_counterexample"
   ],
   "note": "Proved for quantities that do not have different names; others cannot be ordered, and equality is not transitive (counterexamples)."
  },
  {
   "property": "C177",
   "status": "partial",
   "theorems": [
    "Verif.Quantities.c177_partial",
    "Verif.Quantities.c177_vector_partial",
    "Verif.Quantities.c177_counterexample",
    "Verif.Quantities.c177_vector_counterexample"
   ],
   "note": "Proved for measurable.Quantity, physical.Quantity, and vectors of scalars; a scalar of a quantity and a vector of a vector lose unit and name (proved for all)."
  },
  {
   "property": "C178",
   "status": "partial",
   "theorems": [
    "Verif.Quantities.c178_value",
    "Verif.Quantities.c178_name_partial",
    "Verif.Quantities.c178_counterexample"
   ],
   "note": "Class and physical value are kept; the name is lost with every change of unit (proved for all)."
  },
  {
   "property": "C179",
   "status": "partial",
   "theorems": [
    "Verif.Quantities.c179_partial",
    "Verif.Quantities.c179_counterexample"
   ],
   "note": "Proved for i >= -n; for -2n <= i < -n the code gives the member at 2n + i (proved for all)."
  },
  {
   "property": "C180",
   "status": "proved",
   "theorems": [
    "Verif.Quantities.c180_single"
   ],
   "note": "The vector is assumed to have a value where it is turned into a scalar."
  },
  {
   "property": "C181",
   "status": "proved",
   "theorems": [
    "Verif.Quantities.c181_scale",
    "Verif.Quantities.c181_refused",
    "Verif.Quantities.c181_unary"
   ],
   "note": "Powers of the data are a parameter."
  },
  {
   "property": "C182",
   "status": "partial",
   "theorems": [
    "Verif.Quantities.c182_value",
    "Verif.Quantities.c182_value_reverse",
    "Verif.Quantities.c182_name",
    "Verif.Quantities.c182_counterexample"
   ],
   "note": "Physical values are proved for every assignment of magnitudes that the operations on units respect (C34); named results differ from equal quantities by their names (counterexample)."
  },
  {
   "property": "C183",
   "status": "partial",
   "theorems": [
    "Verif.Results.c183_equal_partial",
    "Verif.Results.c183_string",
    "Verif.Results.c183_counterexample"
   ],
   "note": "Proved for parameters and for lists without repetitions; lists with repetitions and strings of letters are equal to other parameters, and no parameters can be hashed (counterexample)."
  },
  {
   "property": "C184",
   "status": "proved",
   "theorems": [
    "Verif.Results.c184_merge",
    "Verif.Results.c184_sum"
   ],
   "note": ""
  },
  {
   "property": "C185",
   "status": "partial",
   "theorems": [
    "Verif.Results.c185_lookup",
    "Verif.Results.c185_unit",
    "Verif.Results.c185_counterexample"
   ],
   "note": "Proved for observations with assumptions; without, every other name raises TypeError; observed.Quantity ignores the unit (counterexample)."
  },
  {
   "property": "C186",
   "status": "partial",
   "theorems": [
    "Verif.Results.c186_partial",
    "Verif.Results.c186_counterexample",
    "Verif.Results.c186_observed_counterexample"
   ],
   "note": "The property fails: equal observations are unequal unless identical, and comparing equal observed.Quantity objects raises AttributeError (proved for all); what remains is proved."
  },
  {
   "property": "C187",
   "status": "partial",
   "theorems": [
    "Verif.Results.c187_partial",
    "Verif.Results.c187_counterexample",
    "Verif.Results.c187_product_counterexample"
   ],
   "note": "Proved for the three attributes that are compared, where they can be determined; different quantities are equal, and products raise TypeError (counterexamples)."
  },
  {
   "property": "C188",
   "status": "partial",
   "theorems": [
    "Verif.Results.c188_partial",
    "Verif.Results.c188_product",
    "Verif.Results.c188_counterexample"
   ],
   "note": "Every listed parameter is one on which the value depends, and products list those of all factors; parameters of quantities from which a function is computed are missing (counterexample)."
  },
  {
   "property": "C189",
   "status": "partial",
   "theorems": [
    "Verif.Ufunc.c189_partial",
    "Verif.Ufunc.c189_counterexample",
    "Verif.Ufunc.c189_number_counterexample",
    "Verif.Ufunc.c189_not_equal_counterexample"
   ],
   "note": "Proved for units of equal magnitude; units are ignored otherwise, and a != b is always refused (counterexamples for all pairs of units of different magnitude)."
  },
  {
   "property": "C190",
   "status": "partial",
   "theorems": [
    "Verif.Ufunc.c190_partial",
    "Verif.Ufunc.c190_counterexample"
   ],
   "note": "Proved for functions that scale with their argument and for sqrt; all other powers, such as numpy.square, keep the unit and have a wrong value (counterexample)."
  },
  {
   "property": "C191",
   "status": "proved",
   "theorems": [
    "Verif.Ufunc.c191_value",
    "Verif.Ufunc.c191_accepted",
    "Verif.Ufunc.c191_other"
   ],
   "note": "Over the real numbers; magnitudes as in C34. Powers: for data that are not negative."
  },
  {
   "property": "C192",
   "status": "partial",
   "theorems": [
    "Verif.Ufunc.c192_partial",
    "Verif.Ufunc.c192_counterexample"
   ],
   "note": "Proved for squeeze, and mean with an axis; all other functions give plain numbers (counterexample for all units of different magnitude)."
  },
  {
   "property": "C193",
   "status": "partial",
   "theorems": [
    "Verif.Ufunc.c193_inplace",
    "Verif.Ufunc.c193_counterexample"
   ],
   "note": "In-place operators are proved; out=c never changes c (proved for all)."
  },
  {
   "property": "C194",
   "status": "partial",
   "theorems": [
    "Verif.Datasets.c194_variables_partial",
    "Verif.Datasets.c194_axes_partial",
    "Verif.Datasets.c194_view_partial",
    "Verif.Datasets.reference_disjoint",
    "Verif.Datasets.c194_counterexample"
   ],
   "note": "Proved for datasets in which no two names belong to the same group of aliases; otherwise the first of two variables is lost (counterexample for all pairs)."
  },
  {
   "property": "C195",
   "status": "partial",
   "theorems": [
    "Verif.Datasets.c195_partial",
    "Verif.Datasets.c195_counterexample"
   ],
   "note": "As C194; for two variables in one group, the unit of the other is listed (counterexample)."
  },
  {
   "property": "C196",
   "status": "partial",
   "theorems": [
    "Verif.Datasets.c196_partial",
    "Verif.Datasets.c196_axes_partial",
    "Verif.Datasets.c196_counterexample"
   ],
   "note": "As C194; for two variables in one group, names are listed twice (counterexample)."
  },
  {
   "property": "C197",
   "status": "partial",
   "theorems": [
    "Verif.Datasets.c197_partial",
    "Verif.Datasets.c197_counterexample"
   ],
   "note": "Proved if the variables were not used before; afterwards another viewer has no effect on them (proved for all)."
  },
  {
   "property": "C198",
   "status": "partial",
   "theorems": [
    "Verif.Datasets.c198_history",
    "Verif.Datasets.c198_quantity_partial",
    "Verif.Datasets.c198_counterexample"
   ],
   "note": "Lookups do not depend on earlier ones; the exact condition for success is proved. Variables without a unit, without axes, or with an empty axis are not available (counterexample)."
  },
  {
   "property": "C199",
   "status": "partial",
   "theorems": [
    "Verif.Datasets.c199_partial",
    "Verif.Datasets.c199_counterexample"
   ],
   "note": "The property fails for every variable: AttributeError (proved for all). Unknown names are reported correctly."
  },
  {
   "property": "C200",
   "status": "partial",
   "theorems": [
    "Verif.Terms.c200_create_partial",
    "Verif.Terms.c200_group_partial",
    "Verif.Terms.c200_zero_counterexample"
   ],
   "note": "Proved for integral exponents of groups and numbers that are not zero; an explicit zero counts as 1 (proved for all), and a string after a coefficient is always read as a base (counterexample)."
  },
  {
   "property": "C201",
   "status": "partial",
   "theorems": [
    "Verif.Terms.c201_text_partial",
    "Verif.Terms.c201_number_partial",
    "Verif.Terms.c201_text_counterexample"
   ],
   "note": "Proved for constants and for variables with integral coefficients; other terms differ from their own text, and variables cannot be compared with numbers (counterexamples)."
  },
  {
   "property": "C202",
   "status": "partial",
   "theorems": [
    "Verif.Terms.c202_hash_partial",
    "Verif.Terms.c202_hash_counterexample"
   ],
   "note": "Proved for numbers that are exact in floating point; every other number gives a counterexample."
  },
  {
   "property": "C203",
   "status": "proved",
   "theorems": [
    "Verif.Terms.c203_difference"
   ],
   "note": "For terms whose numbers are exact in floating point (C202)."
  },
  {
   "property": "C204",
   "status": "partial",
   "theorems": [
    "Verif.Terms.c204_apply_partial",
    "Verif.Terms.c204_apply_counterexample"
   ],
   "note": "The result lacks the coefficient (proved for all); proved otherwise."
  },
  {
   "property": "C205",
   "status": "partial",
   "theorems": [
    "Verif.Terms.c205_number_partial",
    "Verif.Terms.c205_number_counterexample"
   ],
   "note": "Proved for numbers other than zero, with number and result floats with denominators of one digit; zero counts as 1 (proved for all), and other denominators are misread (counterexample)."
  },
  {
   "property": "C206",
   "status": "partial",
   "theorems": [
    "Verif.Terms.c206_eval_partial",
    "Verif.Terms.c206_eval_counterexample",
    "Verif.Terms.c206_cast",
    "Verif.Terms.c206_item_partial",
    "Verif.Terms.c206_item_counterexample"
   ],
   "note": "Evaluation is proved for integral exponents and numbers other than zero, where it gives 1 (proved for all); casts are proved; indices down to -2n wrap around twice (proved for all)."
  },
  {
   "property": "C207",
   "status": "partial",
   "theorems": [
    "Verif.Layout.c207_meaning_partial",
    "Verif.Layout.c207_counterexample"
   ],
   "note": "Proved for positive numbers that are floats, raised to integral powers, with denominators of one digit (C26), exponents of numbers without a sign (C209) and sqrt not after an operator (C210), which fail otherwise."
  },
  {
   "property": "C208",
   "status": "partial",
   "theorems": [
    "Verif.Layout.c208_layout_partial",
    "Verif.Layout.c208_equal_partial",
    "Verif.Layout.c208_counterexample"
   ],
   "note": "As C207; a slash between a number and a digit is the bar of a fraction if there is no white space around it (counterexample)."
  },
  {
   "property": "C209",
   "status": "partial",
   "theorems": [
    "Verif.Layout.c209_number_partial",
    "Verif.Layout.c209_counterexample"
   ],
   "note": "Proved for floats other than zero without a sign in the exponent; 1e-5 is read as -5 times a variable e, and 0 as 1 (counterexamples)."
  },
  {
   "property": "C210",
   "status": "partial",
   "theorems": [
    "Verif.Layout.c210_root_partial",
    "Verif.Layout.c210_counterexample"
   ],
   "note": "Proved at the start and after white space or brackets; after * or / sqrt is read as a variable (counterexample)."
  },
  {
   "property": "C211",
   "status": "partial",
   "theorems": [
    "Verif.Reductions.c211_init",
    "Verif.Reductions.c211_mul_partial",
    "Verif.Reductions.c211_div_partial",
    "Verif.Reductions.c211_pow_partial",
    "Verif.Reductions.c211_counterexample"
   ],
   "note": "Proved for the scale and the units; the number that is printed has the square of the new scale as a factor, which is right only in exceptional cases (proved for all). Numbers are floats with denominators of one digit (C26)."
  },
  {
   "property": "C212",
   "status": "partial",
   "theorems": [
    "Verif.Reductions.c212_reduce_partial",
    "Verif.Reductions.c212_defined_partial",
    "Verif.Reductions.c212_counterexample"
   ],
   "note": "Proved if the scale is a power of ten from 1 to 10^15, except for the ohm, hertz, becquerel, curie and candela; micrometres reduce to units with an elementary charge, and the ohm to those of the volt (counterexamples)."
  },
  {
   "property": "C213",
   "status": "partial",
   "theorems": [
    "Verif.Reductions.c213_partial",
    "Verif.Reductions.c213_named_partial",
    "Verif.Reductions.c213_counterexample",
    "Verif.Reductions.c213_dropped_counterexample"
   ],
   "note": "The scale is proved for positive whole powers and printed numbers up to 10^22; the units are those of the first term only (proved for all), and terms that cannot be reduced are left out silently (proved for all)."
  },
  {
   "property": "C214",
   "status": "proved",
   "theorems": [
    "Verif.Reductions.c214_generic",
    "Verif.Reductions.c214_quantities",
    "Verif.Reductions.c214_own"
   ],
   "note": ""
  },
  {
   "property": "C215",
   "status": "partial",
   "theorems": [
    "Verif.Reductions.c215_partial",
    "Verif.Reductions.c215_counterexample"
   ],
   "note": "Proved for systems named in the call; the common dimension is not used for other systems, and alone is refused (proved for all)."
  },
  {
   "property": "C216",
   "status": "partial",
   "theorems": [
    "Verif.Reductions.c216_name",
    "Verif.Reductions.c216_same",
    "Verif.Reductions.c216_equal",
    "Verif.Reductions.c216_counterexample"
   ],
   "note": "Proved, except that systems do not compare equal to their name (proved for all)."
  },
  {
   "property": "C217",
   "status": "proved",
   "theorems": [
    "Verif.Helpers.c217_restrict",
    "Verif.Helpers.c217_refused"
   ],
   "note": ""
  },
  {
   "property": "C218",
   "status": "partial",
   "theorems": [
    "Verif.Helpers.c218_partial",
    "Verif.Helpers.c218_counterexample"
   ],
   "note": "Proved for different single characters whose texts do not contain later keys; characters cannot be exchanged, and a blank as a key puts its text everywhere (counterexamples)."
  },
  {
   "property": "C219",
   "status": "partial",
   "theorems": [
    "Verif.Helpers.c219_set",
    "Verif.Helpers.c219_method",
    "Verif.Helpers.c219_self_partial",
    "Verif.Helpers.c219_equal",
    "Verif.Helpers.c219_order",
    "Verif.Helpers.c219_counterexample"
   ],
   "note": "Proved, except that callable objects without the attribute are called (proved for all)."
  },
  {
   "property": "C220",
   "status": "partial",
   "theorems": [
    "Verif.Helpers.c220_same_partial",
    "Verif.Helpers.c220_class_partial",
    "Verif.Helpers.c220_distinct",
    "Verif.Helpers.c220_counterexample",
    "Verif.Helpers.c220_bases_counterexample"
   ],
   "note": "Proved for single inheritance, if no base class has an instance; otherwise the instance of the base is shared (proved for all), and with several bases it can change (counterexample)."
  },
  {
   "property": "C221",
   "status": "partial",
   "theorems": [
    "Verif.Helpers.c221_partial",
    "Verif.Helpers.c221_counterexample"
   ],
   "note": "Proved if the items are exactly the parameters; otherwise defaults are replaced by None and other items are ignored (proved for all)."
  },
  {
   "property": "C222",
   "status": "partial",
   "theorems": [
    "Verif.Helpers.c222_partial",
    "Verif.Helpers.c222_counterexample"
   ],
   "note": "Proved if all classes below one with the attribute define it; otherwise inherited values are repeated (proved for all)."
  },
  {
   "property": "C223",
   "status": "partial",
   "theorems": [
    "Verif.Helpers.c223_apply",
    "Verif.Helpers.c223_counterexample"
   ],
   "note": "Proved for true results; results that are false, such as 0, are skipped (proved for all)."
  },
  {
   "property": "C224",
   "status": "partial",
   "theorems": [
    "Verif.Layout.c224_mul_partial",
    "Verif.Layout.c224_div_partial",
    "Verif.Layout.c224_pow_partial",
    "Verif.Layout.c224_counterexample"
   ],
   "note": "As C207, and proved if the numbers of the result are floats with denominators of one digit; otherwise the result is formatted and misread, e.g. 0.1 a times b (counterexamples)."
  },
  {
   "property": "C225",
   "status": "partial",
   "theorems": [
    "Verif.Subscripts.c225_partial",
    "Verif.Subscripts.c225_counterexample"
   ],
   "note": "Proved for all subscripts other than None on its own, which gives the whole array (proved for all arrays)."
  },
  {
   "property": "C226",
   "status": "partial",
   "theorems": [
    "Verif.Subscripts.c226_partial",
    "Verif.Subscripts.c226_ellipsis_partial",
    "Verif.Subscripts.c226_counterexample",
    "Verif.Subscripts.c226_ellipsis_counterexample"
   ],
   "note": "Proved for tuples of lists and full slices, and with an ellipsis that comes last or stands for one axis; a list on its own is refused or loses its axis, lists behind an ellipsis of an array with three axes or more are ignored (both proved for all such arrays), other slices are ignored or misplaced (C39, C94)."
  },
  {
   "property": "C227",
   "status": "partial",
   "theorems": [
    "Verif.Subscripts.c227_partial",
    "Verif.Subscripts.c227_counterexample"
   ],
   "note": "Proved for one entry per axis, for slices only and for a single integer; otherwise the shape cannot be computed (C40)."
  },
  {
   "property": "C228",
   "status": "proved",
   "theorems": [
    "Verif.Subscripts.c228_commute"
   ],
   "note": ""
  },
  {
   "property": "C229",
   "status": "partial",
   "theorems": [
    "Verif.Aliased.c229_partial",
    "Verif.Aliased.c229_counterexample"
   ],
   "note": "Proved for groups that share no name; of groups with the same reference name only the last is used."
  },
  {
   "property": "C230",
   "status": "partial",
   "theorems": [
    "Verif.Axes.c230_partial",
    "Verif.Axes.c230_counterexample"
   ],
   "note": "Proved except that positions outside the axis are accepted and an empty selection raises IndexError."
  },
  {
   "property": "C231",
   "status": "proved",
   "theorems": [
    "Verif.Observing.c231_withheld"
   ],
   "note": ""
  },
  {
   "property": "C232",
   "status": "partial",
   "theorems": [
    "Verif.Terms.c232_hash_partial",
    "Verif.Terms.c232_counterexample"
   ],
   "note": "Proved for expressions whose numbers are floats; other numbers are compared as floats but hashed exactly."
  },
  {
   "property": "C233",
   "status": "partial",
   "theorems": [
    "Verif.Measurable.c233_partial",
    "Verif.Measurable.c233_counterexample"
   ],
   "note": "Proved for everything that C69 specifies as measurable, for None and for flat collections of at least two numbers and strings; otherwise the two disagree (counterexamples)."
  },
  {
   "property": "C234",
   "status": "partial",
   "theorems": [
    "Verif.Metric.c234_partial",
    "Verif.Metric.c234_counterexample"
   ],
   "note": "Proved for all spellings of units; text that is not a unit raises UnitParsingError, and a unit and its equal text differ in their hashes."
  },
  {
   "property": "C235",
   "status": "partial",
   "theorems": [
    "Verif.Metric.c235_partial",
    "Verif.Metric.c235_counterexample"
   ],
   "note": "Proved that UnitConversionError becomes no result unless strict; other exceptions (unknown or ambiguous units, the lux) are passed on."
  },
  {
   "property": "C236",
   "status": "partial",
   "theorems": [
    "Verif.Metric.c236_partial",
    "Verif.Metric.c236_counterexample"
   ],
   "note": "The code violates it. Proved instead: numbers have no effect at all, for all tables, if the ratio can be printed."
  },
  {
   "property": "C237",
   "status": "proved",
   "theorems": [
    "Verif.Metric.c237_ratio"
   ],
   "note": ""
  },
  {
   "property": "C238",
   "status": "partial",
   "theorems": [
    "Verif.Axes.c238_partial",
    "Verif.Axes.c238_counterexample"
   ],
   "note": "Proved for times of the grid, and for names that are not those of coordinates; the values of coordinates at other times are those at the nearest time (counterexample)."
  },
  {
   "property": "C239",
   "status": "partial",
   "theorems": [
    "Verif.Axes.c239_partial",
    "Verif.Axes.c239_counterexample"
   ],
   "note": "Proved if no target is an energy of any species; targets that are energies of one species only are not interpolated for the others, and mixtures raise ValueError (counterexample)."
  },
  {
   "property": "C240",
   "status": "partial",
   "theorems": [
    "Verif.Arrays.c240_partial",
    "Verif.Arrays.c240_values_partial",
    "Verif.Arrays.c240_counterexample"
   ],
   "note": "What equality compares is proved exactly; equal quantities have the same values if their axes are in the same order. Transposed axes, plain arrays and names give counterexamples."
  },
  {
   "property": "C241",
   "status": "partial",
   "theorems": [
    "Verif.Display.c241_template_partial",
    "Verif.Display.c241_partial",
    "Verif.Display.c241_unnamed_partial",
    "Verif.Display.c241_counterexample"
   ],
   "note": "Proved for quantities that were given a name, also if it changes later, and for format strings in general; a first name that is given later is not shown, names are quoted twice, and options without a name show an empty one (counterexample)."
  },
  {
   "property": "C242",
   "status": "partial",
   "theorems": [
    "Verif.Display.c242_partial",
    "Verif.Display.c242_text_partial",
    "Verif.Display.c242_counterexample"
   ],
   "note": "Proved for separators that do not begin within a part; a new display counts as one empty part (counterexample)."
  },
  {
   "property": "C243",
   "status": "partial",
   "theorems": [
    "Verif.Files.c243_partial",
    "Verif.Files.c243_counterexample"
   ],
   "note": "Proved for directories with both files, for no source and for sources that do not exist; files that are missing are replaced by the package silently, and a file as source is read as both (counterexample)."
  },
  {
   "property": "C244",
   "status": "partial",
   "theorems": [
    "Verif.Physics.c244_exact_partial",
    "Verif.Physics.c244_step_partial",
    "Verif.Physics.c244_counterexample"
   ],
   "note": "Proved for constant fluxes and fluxes proportional to energy, at every minimum energy among or between the energies, and for steps of two energies of the series if the number of energies above is odd and intervals are balanced; otherwise it can rise (counterexample with equal spacing)."
  },
  {
   "property": "C245",
   "status": "proved",
   "theorems": [
    "Verif.Physics.c245_fields",
    "Verif.Physics.c245_acceleration"
   ],
   "note": "For every map of vectors that preserves products."
  },
  {
   "property": "C246",
   "status": "partial",
   "theorems": [
    "Verif.Shapes.c246_single",
    "Verif.Shapes.c246_partial",
    "Verif.Shapes.c246_counterexample"
   ],
   "note": "Proved without species and for the first species; all other species get zero, whatever their flux (counterexample)."
  },
  {
   "property": "C247",
   "status": "partial",
   "theorems": [
    "Verif.Axes.c247_partial",
    "Verif.Axes.c247_labels_partial",
    "Verif.Axes.c247_energy_partial",
    "Verif.Axes.c247_counterexample"
   ],
   "note": "Proved for numpy arrays and numbers of values, for shells also by position; by position and in a loop times are positions, and only energies of the first species are shown (counterexample)."
  },
  {
   "property": "C248",
   "status": "partial",
   "theorems": [
    "Verif.Fundamental.c248_order_partial",
    "Verif.Fundamental.c248_symbol_partial",
    "Verif.Fundamental.c248_numbers_partial",
    "Verif.Fundamental.c248_counterexample"
   ],
   "note": "Order of access proved for all species; symbol, mass and charge proved for species created from a symbol, or from mass and charge. Given masses and charges stay plain numbers, and a symbol may contradict them (counterexample)."
  },
  {
   "property": "C249",
   "status": "partial",
   "theorems": [
    "Verif.Aliased.c249_compare_partial",
    "Verif.Aliased.c249_disjoint_partial",
    "Verif.Aliased.c249_clear_partial",
    "Verif.Aliased.c249_remove_partial",
    "Verif.Aliased.c249_counterexample"
   ],
   "note": "Comparison, removal and clearing proved for collections without shared names and empty groups; unions, intersections and differences have a single group, and clearing never ends if the first group is empty (counterexample)."
  },
  {
   "property": "C250",
   "status": "proved",
   "theorems": [
    "Verif.Metadata.c250",
    "Verif.Metadata.c250_lists"
   ],
   "note": "For every series of registrations and uses. The list of attributes may repeat names, which the results do not show."
  },
  {
   "property": "C251",
   "status": "partial",
   "theorems": [
    "Verif.Aliased.Operators.c251_made_partial",
    "Verif.Aliased.Operators.c251_partial",
    "Verif.Aliased.Operators.c251_compare_partial",
    "Verif.Aliased.Operators.c251_order_partial",
    "Verif.Aliased.Operators.c251_reflected_partial",
    "Verif.Aliased.Operators.c251_counterexample"
   ],
   "note": "Proved with the group on the left, and for differences on both sides. With a name on the left of | or & its characters are taken, other objects on the left give plain sets, and equal groups may have different hashes (counterexample)."
  },
  {
   "property": "C252",
   "status": "partial",
   "theorems": [
    "Verif.Physics.c252_units",
    "Verif.Physics.c252_reverse",
    "Verif.Physics.c252_periods_partial",
    "Verif.Physics.c252_periods_affine_partial",
    "Verif.Physics.c252_monotone_partial",
    "Verif.Physics.c252_counterexample"
   ],
   "note": "Origin, unit and direction of time proved for all times; consecutive periods for odd numbers of times and for fluxes affine in time; greater fluxes if neighbouring intervals differ by a factor of two at most. Otherwise fluences do not add up and may be negative (counterexample)."
  },
  {
   "property": "C253",
   "status": "partial",
   "theorems": [
    "Verif.Shapes.c253_protons_partial",
    "Verif.Shapes.c253_heavy",
    "Verif.Shapes.c253_flux_partial",
    "Verif.Shapes.c253_flux_mass"
   ],
   "note": "Proved for protons, and for the flux also for energies per nucleon. The mass of protons is used for all species: the flux is wrong for every other mass, and the average energy is below all kinetic energies of particles heavy enough (c253_flux_mass, c253_heavy, for all data)."
  },
  {
   "property": "C254",
   "status": "partial",
   "theorems": [
    "Verif.Axes.c254_partial",
    "Verif.Axes.c254_values_partial",
    "Verif.Axes.c254_indices_partial",
    "Verif.Axes.c254_shown",
    "Verif.Axes.c254_counterexample"
   ],
   "note": "Proved for requests by value and by position, for any number of axes. The axes that the observer shows cannot be used as constraints unless their values are integers (c254_shown, for all arrays; counterexample)."
  },
  {
   "property": "C255",
   "status": "partial",
   "theorems": [
    "Verif.Dispatch.c255_exact",
    "Verif.Dispatch.c255_partial",
    "Verif.Dispatch.c255_other",
    "Verif.Dispatch.c255_counterexample"
   ],
   "note": "Proved for all hierarchies when functions are implemented for classes with a dictionary of their own. Functions implemented for variable.Quantity are used for variable.Array as well, where they raise AttributeError (counterexample); c255_exact says what happens in general."
  },
  {
   "property": "C256",
   "status": "partial",
   "theorems": [
    "Verif.Dispatch.c256_partial",
    "Verif.Dispatch.c256_names",
    "Verif.Dispatch.c256_counterexample"
   ],
   "note": "Proved for quantities with distinct names, and no axis or a non-negative one by keyword without keepdims. An axis by position, keepdims and negative axes raise errors, for every quantity of two axes or more (counterexample)."
  },
  {
   "property": "C257",
   "status": "partial",
   "theorems": [
    "Verif.Dispatch.c257_partial",
    "Verif.Dispatch.c257_counterexample"
   ],
   "note": "Proved for arrays of numpy and of one of the modules variable and physical, any number and order. Every mixture of both modules raises TypeError (counterexample, for all functions)."
  },
  {
   "property": "C258",
   "status": "partial",
   "theorems": [
    "Verif.Iterables.c258_whole_partial",
    "Verif.Iterables.c258_whole_error",
    "Verif.Iterables.c258_operands_partial",
    "Verif.Iterables.c258_counterexample"
   ],
   "note": "Proved for members that can be compared, and for operands without repetition. TypeError exactly if members cannot be compared; operands with repetitions compare differently from left and right (counterexample)."
  },
  {
   "property": "C259",
   "status": "partial",
   "theorems": [
    "Verif.Defaults.c259_exact",
    "Verif.Defaults.c259_partial",
    "Verif.Defaults.c259_counterexample"
   ],
   "note": "Proved for own names of parameters, all files and values. Under an alias, config gives a value exactly if the alias itself is in the file, and then one that does not depend on the file (c259_exact, counterexample)."
  },
  {
   "property": "C260",
   "status": "proved",
   "theorems": [
    "Verif.Shapes.c260_proportional",
    "Verif.Shapes.c260_isotropic",
    "Verif.Shapes.c260_flux",
    "Verif.Shapes.c260_fluence",
    "Verif.Shapes.c260_energy_density",
    "Verif.Shapes.c260_integral",
    "Verif.Shapes.c260_average_energy"
   ],
   "note": "Over real numbers; whole arrays of any shape and exceptions are compared."
  },
  {
   "property": "C261",
   "status": "partial",
   "theorems": [
    "Verif.Shapes.c261_partial",
    "Verif.Shapes.c261_counterexample"
   ],
   "note": "Proved for minimum energies below the energies of all species and for those on the grid; between two energies the code fits a power law to the sum, which is not the sum of the fits (counterexample)."
  },
  {
   "property": "C262",
   "status": "partial",
   "theorems": [
    "Verif.Physics.c262_partial",
    "Verif.Physics.c262_counterexample"
   ],
   "note": "Over real numbers. Proved for lists of positions whose coordinates are zero or not cut off to zero and whose azimuth is not three quarters of a turn; at that azimuth every position comes back with minus a quarter of a turn (counterexample)."
  },
  {
   "property": "C263",
   "status": "proved",
   "theorems": [
    "Verif.Shapes.c263_integral"
   ],
   "note": "Over real numbers; whole arrays of any shape and exceptions are compared."
  },
  {
   "property": "C264",
   "status": "proved",
   "theorems": [
    "Verif.Numerical.c264_one",
    "Verif.Numerical.c264_two"
   ],
   "note": "In any ordered field; the array has one entry for each reference value."
  },
  {
   "property": "C265",
   "status": "proved",
   "theorems": [
    "Verif.Numerical.c265_sum"
   ],
   "note": "In any ordered field; exceptions are compared as well."
  },
  {
   "property": "C266",
   "status": "proved",
   "theorems": [
    "Verif.Numerical.c266_bounds",
    "Verif.Numerical.c266_order"
   ],
   "note": "In any ordered field."
  },
  {
   "property": "C267",
   "status": "proved",
   "theorems": [
    "Verif.Axes.c267_units"
   ],
   "note": "Exact rational arithmetic; quantities over time and shells, for one position along further axes."
  },
  {
   "property": "C268",
   "status": "proved",
   "theorems": [
    "Verif.Axes.c268_bounds"
   ],
   "note": "Exact rational arithmetic; quantities over time and shells, for one position along further axes."
  },
  {
   "property": "C269",
   "status": "proved",
   "theorems": [
    "Verif.Axes.c269_sum"
   ],
   "note": "Exact rational arithmetic; quantities over time and shells, for one position along further axes."
  },
  {
   "property": "C270",
   "status": "partial",
   "theorems": [
    "Verif.Axes.c270_partial_stored",
    "Verif.Axes.c270_partial_between",
    "Verif.Axes.c270_counterexample"
   ],
   "note": "Proved for stored times with any shells and radius, and, without a radius, for all lists of times that are stored or farther from stored times than the tolerance. A time within the tolerance of a stored one has another value if another time of the list has to be interpolated, and with a radius the radii of other times are used (counterexample)."
  },
  {
   "property": "C271",
   "status": "proved",
   "theorems": [
    "Verif.Runtime.c271_order",
    "Verif.Runtime.c271_comments",
    "Verif.Runtime.c271_parts"
   ],
   "note": "For all texts, accepted or not."
  },
  {
   "property": "C272",
   "status": "partial",
   "theorems": [
    "Verif.Axes.c272_partial",
    "Verif.Axes.c272_counterexample"
   ],
   "note": "Proved for datasets of two shells or more, all times and all lists of shells, whether or not the dataset has them. In a dataset of one shell others exist only in company (counterexample)."
  },
  {
   "property": "C273",
   "status": "partial",
   "theorems": [
    "Verif.Symbolic.c273_partial",
    "Verif.Symbolic.c273_partial_quotient",
    "Verif.Symbolic.c273_counterexample"
   ],
   "note": "Proved for all units (coefficient 1, integral exponents within the integers that floats represent) and powers other than 0. The power 0 raises TypeError for every expression (counterexample)."
  },
  {
   "property": "C274",
   "status": "proved",
   "theorems": [
    "Verif.Arrays.c274_commutative",
    "Verif.Arrays.c274_associative",
    "Verif.Arrays.c274_inverse"
   ],
   "note": "For all numbers of axes and all commutative, associative or invertible operations on numbers."
  },
  {
   "property": "C275",
   "status": "proved",
   "theorems": [
    "Verif.Numerical.c275_units",
    "Verif.Numerical.c275_order",
    "Verif.Numerical.c275_member"
   ],
   "note": "For all collections of one dimension, over any ordered field."
  },
  {
   "property": "C276",
   "status": "proved",
   "theorems": [
    "Verif.Axes.c276_order"
   ],
   "note": "Exact rational arithmetic; quantities over time and shells, for one position along further axes."
  },
  {
   "property": "C277",
   "status": "proved",
   "theorems": [
    "Verif.Physics.c277_units",
    "Verif.Physics.c277_reverse",
    "Verif.Physics.c277_product"
   ],
   "note": "Exact real arithmetic, one position in space."
  },
  {
   "property": "C278",
   "status": "proved",
   "theorems": [
    "Verif.Physics.c278_strength",
    "Verif.Physics.c278_polarity"
   ],
   "note": "Exact real arithmetic."
  },
  {
   "property": "C279",
   "status": "proved",
   "theorems": [
    "Verif.Physics.c279_rigidity",
    "Verif.Physics.c279_path"
   ],
   "note": "Exact real arithmetic."
  },
  {
   "property": "C280",
   "status": "proved",
   "theorems": [
    "Verif.Physics.c280_acceleration"
   ],
   "note": "Exact real arithmetic; one time, species and energy."
  },
  {
   "property": "C281",
   "status": "proved",
   "theorems": [
    "Verif.Observing.c281_others",
    "Verif.Observing.c281_order",
    "Verif.Observing.c281_parts",
    "Verif.Observing.c281_exchange"
   ],
   "note": "Complete for the model of the context."
  },
  {
   "property": "C282",
   "status": "proved",
   "theorems": [
    "Verif.Symbolic.c282_names"
   ],
   "note": "Complete for the model of the parser."
  },
  {
   "property": "C283",
   "status": "proved",
   "theorems": [
    "Verif.Runtime.c283_frame",
    "Verif.Runtime.c283_one"
   ],
   "note": "Complete for the model of the evaluation; assumes that the text 1 is read as the number 1."
  },
  {
   "property": "C284",
   "status": "proved",
   "theorems": [
    "Verif.Numerical.c284_neighbours",
    "Verif.Numerical.c284_refine"
   ],
   "note": "Exact arithmetic; references of one dimension."
  },
  {
   "property": "C285",
   "status": "proved",
   "theorems": [
    "Verif.Iterables.c285_order",
    "Verif.Iterables.c285_further",
    "Verif.Iterables.c285_entries"
   ],
   "note": "Complete for the model of the table."
  },
  {
   "property": "C286",
   "status": "proved",
   "theorems": [
    "Verif.Metric.c286_more",
    "Verif.Metric.c286_chain"
   ],
   "note": "Units joined by declared conversions, as stated; units that are joined by changes of prefix only are the subject of C73."
  },
  {
   "property": "C287",
   "status": "proved",
   "theorems": [
    "Verif.Symbolic.c287_reduce",
    "Verif.Symbolic.c287_equal"
   ],
   "note": "Complete for the reduction of terms and the comparison of exact numbers."
  },
  {
   "property": "C288",
   "status": "proved",
   "theorems": [
    "Verif.Numerical.c288_farther",
    "Verif.Numerical.c288_distance"
   ],
   "note": "Exact arithmetic; collections of one dimension, without a bound."
  },
  {
   "property": "C289",
   "status": "proved",
   "theorems": [
    "Verif.Spelling.c289_order",
    "Verif.Spelling.c289_more"
   ],
   "note": "Complete for the model of the spell checker."
  },
  {
   "property": "C290",
   "status": "partial",
   "theorems": [
    "Verif.Shapes.c290_ends",
    "Verif.Shapes.c290_partial",
    "Verif.Shapes.c290_partial_all",
    "Verif.Shapes.c290_numbers",
    "Verif.Shapes.c290_counterexample"
   ],
   "note": "Termination proved for all datasets. The rest proved for datasets with all variables and the particle distribution; without the distribution, the isotropic distribution and what depends on it are listed, but their functions lack an argument."
  },
  {
   "property": "C291",
   "status": "partial",
   "theorems": [
    "Verif.Subscripts.c291_partial",
    "Verif.Subscripts.c291_slice",
    "Verif.Subscripts.c291_counterexample"
   ],
   "note": "Holds for all subscripts but None on its own: a[i][None] is a[i], without a new axis, unlike a[i, None]."
  },
  {
   "property": "C292",
   "status": "proved",
   "theorems": [
    "Verif.Physics.c292_order",
    "Verif.Physics.c292_mixture",
    "Verif.Physics.c292_units",
    "Verif.Physics.c292_reverse",
    "Verif.Physics.c292_descending"
   ],
   "note": "Real numbers without rounding (any ordered field)."
  },
  {
   "property": "C293",
   "status": "proved",
   "theorems": [
    "Verif.Aliased.c293_set_set",
    "Verif.Aliased.c293_overwrite",
    "Verif.Aliased.c293_del_del",
    "Verif.Aliased.c293_set_del",
    "Verif.Aliased.c293_undo",
    "Verif.Aliased.c293_alias"
   ],
   "note": "Keys are single names, as documented; the order of iteration may differ."
  },
  {
   "property": "C294",
   "status": "partial",
   "theorems": [
    "Verif.Runtime.c294_partial",
    "Verif.Runtime.c294_integers",
    "Verif.Runtime.c294_rejected",
    "Verif.Runtime.c294_counterexample"
   ],
   "note": "Holds but for brackets with blanks alone: '[ ]' raises TypeError."
  },
  {
   "property": "C295",
   "status": "partial",
   "theorems": [
    "Verif.Helpers.c295_partial",
    "Verif.Helpers.c295_lines",
    "Verif.Helpers.c295_refused",
    "Verif.Helpers.c295_counterexample"
   ],
   "note": "Holds for lines that ascend and have the target at most once; on a descending line the indices are the ends of the line in the wrong order."
  },
  {
   "property": "C296",
   "status": "proved",
   "theorems": [
    "Verif.Helpers.c296_exchange",
    "Verif.Helpers.c296_twice",
    "Verif.Helpers.c296_all",
    "Verif.Helpers.c296_bounds"
   ],
   "note": "Restrictions given by their lists of indices; bounding indices for arrays without empty axes."
  }
 ]
}
