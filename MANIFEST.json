{
 "claims": [
  {
   "property": "C01",
   "status": "partial",
   "theorems": [
    "RE.folding_preserves_partial",
    "RE.folding_preserves_regular_partial",
    "RE.folding_observable"
   ],
   "note": "Proved for every tree for which folding cannot be observed (Raw.Foldable; syntactic condition Raw.Regular) and resolvers/defaults that give literal-like attributes of constants; the general statement is false, witnesses in folding_observable"
  },
  {
   "property": "C02",
   "status": "partial",
   "theorems": [
    "RE.thread_context_irrelevant_partial",
    "RE.thread_context_unused_partial",
    "RE.thread_context_false"
   ],
   "note": "Proved when arithmetic on constants is the same in both contexts, in particular when there is none; false in general, witnesses in thread_context_false"
  },
  {
   "property": "C03",
   "status": "proved",
   "theorems": [
    "RE.and_skips_right",
    "RE.and_evaluates_right",
    "RE.or_skips_right",
    "RE.or_evaluates_right",
    "RE.logic_left_raises",
    "RE.ternary_evaluates_one",
    "RE.construction_evaluates_constants"
   ],
   "note": "about evaluation; construction_evaluates_constants records that construction does evaluate constant operands"
  },
  {
   "property": "C04",
   "status": "proved",
   "theorems": [
    "RE.boolean_operators",
    "RE.contains_boolean",
    "RE.not_boolean",
    "RE.boolean_rules",
    "RE.matches_iff"
   ],
   "note": ""
  },
  {
   "property": "C05",
   "status": "proved",
   "theorems": [
    "RE.eq_ne_opposite",
    "RE.different_types_unequal"
   ],
   "note": ""
  },
  {
   "property": "C06",
   "status": "proved",
   "theorems": [
    "RE.eq_symmetric",
    "RE.eq_reflexive",
    "RE.eq_transitive",
    "RE.eval_bin_strict"
   ],
   "note": "well-formed values (Python's own set/dict invariants), consistent time zones; transitivity is extra"
  },
  {
   "property": "C07",
   "status": "proved",
   "theorems": [
    "RE.ordering_coherent",
    "RE.lt_iff_gt",
    "RE.le_iff_not_gt",
    "RE.le_trans_lt",
    "RE.ordering_mismatch",
    "RE.float_lt_iff",
    "RE.string_lt_iff",
    "RE.datetime_lt_iff",
    "RE.array_lt_iff",
    "RE.eval_bin_strict"
   ],
   "note": "aware datetimes compared between zones must not lie in a DST gap or fold (PEP 495: Python then says neither <, == nor >)"
  },
  {
   "property": "C08",
   "status": "partial",
   "theorems": [
    "RE.type_soundness_partial",
    "RE.type_soundness_dict_partial",
    "RE.type_soundness_false",
    "RE.text_type_soundness_partial"
   ],
   "note": "Holds for every rule without a comprehension variable named like an accessed attribute, in every honest embedding (default value absent or null; partly checked declared types truthful; no foreign objects under builtin attribute names; no complex numbers). Missing: nothing provable, the full statement is false without these hypotheses (type_soundness_false gives five concrete counterexamples)."
  },
  {
   "property": "C09",
   "status": "partial",
   "theorems": [
    "RE.symbol_declared_type",
    "RE.symbol_declared_mapping_partial",
    "RE.symbol_type_error",
    "RE.symbol_rule_declared_type",
    "RE.mapping_symbol_unchecked",
    "RE.empty_array_rejected"
   ],
   "note": "Full for scalars, functions, arrays and sets (symbol_declared_type, symbol_type_error). For MAPPING types only the values are checked: the key type and value_type_nullable are not enforced by the code (mapping_symbol_unchecked is a machine-checked counterexample)."
  },
  {
   "property": "C10",
   "status": "proved",
   "theorems": [
    "RE.dataType_eq_iff",
    "RE.dataType_eq_equivalence",
    "RE.dataType_compat_symm",
    "RE.dataType_compat_undefined",
    "RE.dataType_compat_of_eq",
    "RE.dataType_compat_refl",
    "RE.dataType_compat_kind",
    "RE.dataType_compat_members",
    "RE.dataType_compat_not_trans"
   ],
   "note": "structural induction over data types"
  },
  {
   "property": "C11",
   "status": "partial",
   "theorems": [
    "RE.coerce_normal",
    "RE.coerce_idem",
    "RE.coerce_type_partial",
    "RE.coerce_type_false",
    "RE.coerceVerify_iff"
   ],
   "note": "idempotence and normal form are proved in full; type preservation is proved for values whose mapping keys stay distinct under coercion, and coerce_type_false shows it fails otherwise"
  },
  {
   "property": "C12",
   "status": "proved",
   "theorems": [
    "RE.fromValue_ne_undefined",
    "RE.fromValue_array_precise",
    "RE.fromValue_set_precise",
    "RE.fromValue_mapping_precise",
    "RE.fromValue_total",
    "RE.fromValue_kindOf",
    "RE.fromValue_of_scalar",
    "RE.fromValue_foreign"
   ],
   "note": ""
  },
  {
   "property": "C13",
   "status": "proved",
   "theorems": [
    "RE.unresolved_symbol_raises",
    "RE.unresolved_symbol_default",
    "RE.default_is_conservative",
    "RE.default_resolver_ok",
    "RE.default_resolver_error",
    "RE.default_resolver_sample"
   ],
   "note": ""
  },
  {
   "property": "C14",
   "status": "proved",
   "theorems": [
    "RE.symbols_cover_lookups",
    "RE.symbols_cover_lookups_no_attributes",
    "RE.text_symbols_cover_lookups"
   ],
   "note": "attribute names are looked up on the object they are applied to, so the lookups in the log are covered by symbols plus attribute names; without attribute nodes by symbols alone"
  },
  {
   "property": "C15",
   "status": "proved",
   "theorems": [
    "RE.eval_restores_variables",
    "RE.construct_restores_variables",
    "RE.comprehension_iff",
    "RE.comprehension_filter_map"
   ],
   "note": ""
  },
  {
   "property": "C16",
   "status": "partial",
   "theorems": [
    "RE.lexical_scoping_partial",
    "RE.lexical_type_partial",
    "RE.scoping_not_lexical"
   ],
   "note": "Proved for rules in which no comprehension reuses the name of an enclosing comprehension's variable: result, exception and effects are those of an evaluator with a lexical environment. Without that hypothesis the property is false of the code (scopes are searched oldest first): scoping_not_lexical."
  },
  {
   "property": "C17",
   "status": "proved",
   "theorems": [
    "RE.ruleEval_state_independent",
    "RE.evaluation_independent_of_history",
    "RE.no_variables_between_operations",
    "RE.construction_independent_of_history",
    "RE.rule_independent_of_history",
    "RE.is_valid_independent_of_history",
    "RE.rule_and_evaluation_independent_of_history"
   ],
   "note": "induction over arbitrary histories of constructions and evaluations"
  },
  {
   "property": "C18",
   "status": "proved",
   "theorems": [
    "RE.concurrent_evaluations_isolated",
    "RE.concurrent_evaluations_finish",
    "RE.threads_isolated",
    "RE.threads_finish",
    "RE.evaluation_is_program",
    "RE.construction_is_program",
    "RE.job_implementable"
   ],
   "note": "Every schedule of atomic accesses to the Context's thread-local storage and symbols; resolver and functions are oracles (thread-safe, without hidden state)."
  },
  {
   "property": "C19",
   "status": "proved",
   "theorems": [
    "RE.re_groups_is_last_match",
    "RE.rule_re_groups",
    "RE.re_groups_symbol",
    "RE.regex_records_groups",
    "RE.re_groups_of_constant_match_false"
   ],
   "note": "about evaluation of the constructed rule; the witness shows that a match folded at construction leaves no groups"
  },
  {
   "property": "C20",
   "status": "proved",
   "theorems": [
    "RE.safe_navigation_null",
    "RE.safe_item_lookup",
    "RE.safe_extends_unsafe",
    "RE.unsafe_null_raises"
   ],
   "note": ""
  },
  {
   "property": "C21",
   "status": "proved",
   "theorems": [
    "RE.index_sequence",
    "RE.index_not_whole",
    "RE.slice_string",
    "RE.slice_bytes",
    "RE.slice_array",
    "RE.slice_split_string",
    "RE.slice_split_bytes",
    "RE.slice_split_array",
    "RE.slice_not_whole",
    "RE.index_witness"
   ],
   "note": "all sequences, indexes and slice bounds; non-whole index raises EvaluationError"
  },
  {
   "property": "C22",
   "status": "partial",
   "theorems": [
    "RE.in_string",
    "RE.in_bytes",
    "RE.in_text_mismatch",
    "RE.in_collection",
    "RE.in_iff_engine_eq_partial",
    "RE.not_in_negates",
    "RE.true_in_numbers",
    "RE.eval_contains_values",
    "RE.membership_types"
   ],
   "note": "equality is Python's: true in [1] is true although true == 1 is false (witness true_in_numbers); otherwise the engine's =="
  },
  {
   "property": "C23",
   "status": "proved",
   "theorems": [
    "RE.bitwise_exact",
    "RE.bitwise_too_long",
    "RE.bitwise_rejects",
    "RE.bitwise_witness",
    "RE.set_algebra",
    "RE.set_algebra_witness"
   ],
   "note": "naturals below 2^1024-2^970 (math.isfinite converts to a double); everything else is rejected with EvaluationError; a << result of more digits than sys.get_int_max_str_digits() raises ValueError (bitwise_too_long)"
  },
  {
   "property": "C24",
   "status": "proved",
   "theorems": [
    "RE.add_rounded",
    "RE.sub_rounded",
    "RE.mul_rounded",
    "RE.div_rounded",
    "RE.add_commutative",
    "RE.mul_commutative",
    "RE.add_witness"
   ],
   "note": "for every decimal context and every rounding mode; also proved for /"
  },
  {
   "property": "C25",
   "status": "proved",
   "theorems": [
    "RE.division_by_zero",
    "RE.quotient_remainder",
    "RE.floordiv_returns",
    "RE.floordiv_witness"
   ],
   "note": "for finite operands; // truncates and % takes the dividend's sign"
  },
  {
   "property": "C26",
   "status": "proved",
   "theorems": [
    "RE.datetime_add_sub",
    "RE.datetime_sub_add",
    "RE.datetime_add_comm",
    "RE.timedelta_add",
    "RE.timedelta_neg",
    "RE.datetime_diff",
    "RE.datetime_diff_zones",
    "RE.datetime_diff_zones_false",
    "RE.datetime_arithmetic_types",
    "RE.datetime_arithmetic_witness"
   ],
   "note": "datetime_diff_zones_false shows the hypothesis on the offset is needed for different zones (a DST change)"
  },
  {
   "property": "C27",
   "status": "proved",
   "theorems": [
    "RE.newValue_datetime",
    "RE.lookups_are_aware",
    "RE.rule_datetimes_are_aware",
    "RE.array_members_stay_naive",
    "RE.text_datetimes_are_aware"
   ],
   "note": "also at the level of whole rules; array_members_stay_naive records that members of arrays are localised only when they are looked up"
  },
  {
   "property": "C28",
   "status": "proved",
   "theorems": [
    "RE.disallowed_call_raises",
    "RE.uncallable_raises",
    "RE.function_errors_wrapped",
    "RE.incompatible_result_raises",
    "RE.call_returns",
    "RE.construction_checks_arity"
   ],
   "note": "CallAllowed is the specification"
  },
  {
   "property": "C29",
   "status": "partial",
   "theorems": [
    "RE.escape_origin_partial",
    "RE.typed_escape_partial",
    "RE.typed_contained_partial",
    "RE.escape_false",
    "RE.add_leaks_iff",
    "RE.sub_leaks_iff",
    "RE.arith_no_leak",
    "RE.in_leaks",
    "RE.inLeak_leaks",
    "RE.opCmp_leaks",
    "RE.text_escape_origin_partial"
   ],
   "note": "The claim is false (escape_false: ten rules that leak TypeError, InvalidOperation, OverflowError, ... with a resolver that raises only EngineErrors). Proved instead for every rule: a leak always originates from an operation applied to operand values in explicit tables (Fault), unevaluated branches excluded; the + and - tables are exact; multiplication, division, remainder and power never leak. With known operand types and clean data only the cases of LocalFault remain (typed_escape_partial), and rules without those operations raise only EngineErrors (typed_contained_partial)."
  },
  {
   "property": "C30",
   "status": "proved",
   "theorems": [
    "RE.filter_yields_matching",
    "RE.filter_terminates",
    "RE.ruleFilter_run",
    "RE.filter_witness"
   ],
   "note": "filter as an iterator whose next() calls may be interleaved with anything in the thread; the run is related to matches() evaluated alone."
  },
  {
   "property": "C31",
   "status": "partial",
   "theorems": [
    "RE.is_valid_partial",
    "RE.is_valid_false",
    "RE.is_valid_witness",
    "RE.text_is_valid_partial"
   ],
   "note": "is_valid is True iff construction succeeds and False iff it raises an EngineError. Missing: construction can raise a non-EngineError (e.g. 1 in {{1}}, 1 << 20000, \"a\" =~ \"x{4294967296}\", d\"9999-12-31T24:00\") and then is_valid raises it as well (is_valid_false)."
  },
  {
   "property": "C32",
   "status": "proved",
   "theorems": [
    "RE.mapping_literal",
    "RE.mapping_literal_bad_key"
   ],
   "note": "keys are well-formed, hashable and contain no NaN"
  },
  {
   "property": "C33",
   "status": "proved",
   "theorems": [
    "RE.unknown_symbol_rejected",
    "RE.unknown_symbol_error",
    "RE.unknown_symbol_witness",
    "RE.text_unknown_symbol_rejected"
   ],
   "note": "Any rule text that references an unbound name missing from the dictionary cannot be constructed, whatever happened before in the thread."
  },
  {
   "property": "C34",
   "status": "partial",
   "theorems": [
    "RE.starts_with_string",
    "RE.starts_with_bytes",
    "RE.starts_with_array",
    "RE.ends_with_string_partial",
    "RE.ends_with_bytes_partial",
    "RE.ends_with_array_partial",
    "RE.ends_with_empty",
    "RE.starts_with_witness"
   ],
   "note": "starts_with in full; ends_with for every non-empty suffix. Missing: an empty suffix, for which the code answers false unless the value is empty (ends_with_empty proves this)."
  },
  {
   "property": "C35",
   "status": "partial",
   "theorems": [
    "RE.range_one",
    "RE.range_two_partial",
    "RE.range_three_partial",
    "RE.range_zero_stop",
    "RE.range_zero_step",
    "RE.range_not_whole",
    "RE.range_witness",
    "RE.split_separator",
    "RE.split_limit",
    "RE.split_empty_separator",
    "RE.split_words",
    "RE.split_witness"
   ],
   "note": "Split in full. Range for every stop and step other than 0: the code treats a stop or step of 0 as absent (range_zero_stop, range_zero_step)."
  },
  {
   "property": "C36",
   "status": "proved",
   "theorems": [
    "RE.hex_roundtrips",
    "RE.base64_roundtrips",
    "RE.transcoding_witness"
   ],
   "note": ""
  },
  {
   "property": "C37",
   "status": "proved",
   "theorems": [
    "RE.timedelta_attributes",
    "RE.datetime_attributes",
    "RE.datetime_calendar",
    "RE.daysBeforeYear_succ",
    "RE.datetime_attributes_witness"
   ],
   "note": "with an independent Gregorian-calendar specification"
  },
  {
   "property": "C38",
   "status": "proved",
   "theorems": [
    "RE.decimal_literal_exact",
    "RE.leading_zero_rejected",
    "RE.prefixed_literal_exact",
    "RE.literal_witness",
    "RE.decimal_text_exact",
    "RE.leading_zero_text_rejected",
    "RE.prefixed_text_exact"
   ],
   "note": "Literals whose exponent no Decimal can represent (beyond about 10^18) raise FloatSyntaxError."
  },
  {
   "property": "C39",
   "status": "proved",
   "theorems": [
    "RE.not_a_duration",
    "RE.duration_sum",
    "RE.duration_exact",
    "RE.duration_close",
    "RE.duration_witness",
    "RE.fraction_witness",
    "RE.duration_text",
    "RE.duration_exact_text",
    "RE.duration_close_text",
    "RE.not_a_duration_text",
    "RE.fl64_nearest",
    "RE.fl64_binary",
    "RE.fl64_even",
    "RE.fl64_even_witness"
   ],
   "note": "The grammar is exact (iff). Fractions are computed by CPython in binary64, which is modelled (Model/Float64, compared with CPython on 4000 random durations). A trailing newline and 'PT' are accepted; a sum out of range raises OverflowError at construction."
  },
  {
   "property": "C40",
   "status": "proved",
   "theorems": [
    "RE.parse_as_written",
    "RE.parse_with_comment",
    "RE.parse_only_written",
    "RE.written_unambiguous",
    "RE.parse_parens",
    "RE.parens_ok",
    "RE.parens_raw",
    "RE.parens_id",
    "RE.parse_text",
    "RE.parse_text_only",
    "RE.print_parse",
    "RE.not_in_precedence",
    "RE.lexical_classes"
   ],
   "note": "The lexer, the shipped LALR tables and the PLY driver: every tree, written with the parentheses the precedence table requires and laid out in any way, parses back to that tree (parse_text, print_parse: such a text exists); conversely every accepted text is the layout of such a tree (parse_text_only), and the tokens determine the tree. The table is the declared one except that 'not in' binds on its left like 'not' (not_in_precedence). Decoding of string and bytes literals is a parameter here (C51, C52 are about it)."
  },
  {
   "property": "C41",
   "status": "proved",
   "theorems": [
    "RE.lex_laid",
    "RE.lex_complete",
    "RE.insert_gap",
    "RE.change_gaps",
    "RE.append_comment",
    "RE.parse_spacing",
    "RE.parse_insert_gap",
    "RE.parse_change_gaps",
    "RE.parse_append_comment",
    "RE.lexical_classes"
   ],
   "note": "Any two layouts of the same tokens parse to the same tree, or fail with the same error at another place; a blank, tab or newline may be put between any two tokens except before/after an attribute dot and before '&['; a comment may be added at the end."
  },
  {
   "property": "C42",
   "status": "proved",
   "theorems": [
    "RE.nodes_bound_to_own_context",
    "RE.one_thread_parses",
    "RE.construction_result"
   ],
   "note": ""
  },
  {
   "property": "C43",
   "status": "proved",
   "theorems": [
    "RE.similarity_bounds",
    "RE.suggestion_valid",
    "RE.suggestion_exact",
    "RE.suggestion_newline",
    "RE.matchesSymbol_iff"
   ],
   "note": "Floating point is modelled as exact rationals with an arbitrary rounding of each result that is monotone, exact on small dyadic numbers and on Sterbenz differences (met by exact arithmetic and by a fixed-point rounding). Words of at most 2^53 characters."
  },
  {
   "property": "C44",
   "status": "proved",
   "theorems": [
    "RE.builtin_scope_separate",
    "RE.plain_name_uses_resolver",
    "RE.types_of_names_separate"
   ],
   "note": ""
  },
  {
   "property": "C45",
   "status": "partial",
   "theorems": [
    "RE.attribute_of_kind",
    "RE.attribute_of_object",
    "RE.attribute_captures_variable"
   ],
   "note": "missing: independence of unrelated variables for names that are not attributes of the kind; attribute_captures_variable shows it is false in the code (the lookup on the object goes through the comprehension variables)"
  },
  {
   "property": "C46",
   "status": "partial",
   "theorems": [
    "RE.types_irrelevant_partial",
    "RE.untyping_keeps_value_partial",
    "RE.untyping_can_invalidate"
   ],
   "note": "Values never differ between typings when the rule evaluates under both (all Raw.Regular trees); existence without types is proved without calls and typed comprehension variables; in general false, witness untyping_can_invalidate"
  },
  {
   "property": "C47",
   "status": "proved",
   "theorems": [
    "RE.any_all",
    "RE.sum_is_addition",
    "RE.sum_empty",
    "RE.min_lower_bound",
    "RE.max_upper_bound",
    "RE.min_max_empty",
    "RE.map_in_order",
    "RE.filter_subsequence",
    "RE.aggregate_witness"
   ],
   "note": "min/max for arrays of FLOATs other than NaN (with a NaN the comparison raises)."
  },
  {
   "property": "C48",
   "status": "partial",
   "theorems": [
    "RE.error_places",
    "RE.parse_shift",
    "RE.parse_after_history",
    "RE.error_line_after_history_partial",
    "RE.error_line_exact_partial",
    "RE.counter_after_rules",
    "RE.error_line_depends_on_history"
   ],
   "note": "The offset is right, and the line is right plus the newlines counted in texts parsed before (the shared lexer's counter is never reset); exact when the texts before had no newline. The full property is false: error_line_depends_on_history."
  },
  {
   "property": "C49",
   "status": "proved",
   "theorems": [
    "RE.parse_total",
    "RE.parse_never_stuck",
    "RE.prun_total",
    "RE.lexText_proper",
    "RE.text_tree_or_syntax_error"
   ],
   "note": "For every text: a bound on the driver's rounds linear in the tokens (prun_total), and no missing goto, stack underflow or mismatched grammar action (parse_never_stuck, from a stack invariant over the shipped tables)."
  },
  {
   "property": "C50",
   "status": "proved",
   "theorems": [
    "RE.result_normal",
    "RE.eval_normal",
    "RE.built_normal",
    "RE.text_result_normal"
   ],
   "note": "Value.Normal is a recursive predicate on the result; sets are excepted as in the statement (the engine does not look into sets)."
  },
  {
   "property": "C51",
   "status": "proved",
   "theorems": [
    "RE.string_literal_exact",
    "RE.string_literal_malformed",
    "RE.string_literal_cases",
    "RE.every_string_written"
   ],
   "note": "The three codec steps of the grammar action are modelled character by character. Escapes of names (\\N{...}) and surrogates, and a backslash before a character that is not printable ASCII, are outside the property (string_literal_cases); the last is a bug of the code: \"\\\u00e9\" denotes the four characters \\xe9."
  },
  {
   "property": "C52",
   "status": "proved",
   "theorems": [
    "RE.bytes_literal_exact",
    "RE.every_bytes_written"
   ],
   "note": "An exact characterisation: the bytes spelled, or BytesSyntaxError if the text spells none."
  },
  {
   "property": "C53",
   "status": "proved",
   "theorems": [
    "RE.total_seconds_exact",
    "RE.to_epoch_exact",
    "RE.millisecond_exact",
    "RE.total_seconds_inexact",
    "RE.floor_exact",
    "RE.ceiling_exact",
    "RE.floor_ceiling_too_long",
    "RE.floor_too_long_witness",
    "RE.number_attributes",
    "RE.to_int_exact",
    "RE.to_flt_exact",
    "RE.to_flt_bad_digits",
    "RE.to_flt_prefixed",
    "RE.to_flt_other",
    "RE.text_to_int",
    "RE.fl64_nearest",
    "RE.fl64_binary",
    "RE.fl64_even",
    "RE.fl64_even_witness"
   ],
   "note": "Binary64 division, float() of a text and repr are modelled exactly (Float64), not as oracles; total_seconds_inexact shows that the bound on the size is needed."
  },
  {
   "property": "C54",
   "status": "proved",
   "theorems": [
    "RE.parse_float_literal",
    "RE.parse_timedelta_literal",
    "RE.parse_datetime_literal",
    "RE.to_str_parse_float",
    "RE.to_str_injective",
    "RE.to_str_rule",
    "RE.to_str_to_flt",
    "RE.negative_to_str_to_flt"
   ],
   "note": "Representable: the numbers decimal.Decimal can hold at all. ISO-8601 parsing itself is an oracle, the same for the literal and for $parse_datetime."
  },
  {
   "property": "C55",
   "status": "proved",
   "theorems": [
    "RE.hint_accepts",
    "RE.hint_defined",
    "RE.hint_supported",
    "RE.hint_symbol",
    "RE.hint_symbol_members"
   ],
   "note": "Hints are trees of classes with arguments (of which from_type reads the first two); classes are exact, an int may stand for a float and a datetime for a date."
  },
  {
   "property": "C56",
   "status": "proved",
   "theorems": [
    "RE.means_par",
    "RE.means_bin",
    "RE.means_in",
    "RE.means_not_in",
    "RE.means_not",
    "RE.means_neg",
    "RE.means_tern",
    "RE.means_attr",
    "RE.means_item",
    "RE.means_slice",
    "RE.means_comp",
    "RE.means_comp_if",
    "RE.means_array",
    "RE.means_set",
    "RE.means_call",
    "RE.means_sym",
    "RE.means_number",
    "RE.means_slice_from",
    "RE.means_slice_to",
    "RE.means_slice_all",
    "RE.means_mapping",
    "RE.means_value_words"
   ],
   "note": "Means codec text raw: the parser returns exactly that tree. Left out: parts with a comment (a comment would swallow the closing parenthesis)."
  },
  {
   "property": "C57",
   "status": "proved",
   "theorems": [
    "RE.de_morgan_and",
    "RE.de_morgan_or",
    "RE.logic_assoc",
    "RE.ternary_swap",
    "RE.double_negation",
    "RE.ne_negates_eq",
    "RE.regex_negates"
   ],
   "note": "Agree: whenever both texts are accepted; one side may be refused where the other is not (BYTES and FUNCTION operands of and/or, constants that raise when folded)."
  },
  {
   "property": "C58",
   "status": "proved",
   "theorems": [
    "RE.depends_on_free_names",
    "RE.depends_on_symbols_only",
    "RE.symbols_exact",
    "RE.name_error_origin",
    "RE.provided_names_resolve",
    "RE.names_witness"
   ],
   "note": "names_witness: a rule with all four kinds of names meets the hypotheses. PlainArith: Python's own int/float arithmetic, an oracle of the model, raises no engine errors."
  },
  {
   "property": "C59",
   "status": "proved",
   "theorems": [
    "RE.operator_types",
    "RE.membership_types",
    "RE.item_types",
    "RE.slice_types",
    "RE.attribute_types",
    "RE.comprehension_types",
    "RE.call_types",
    "RE.any_types",
    "RE.part_symbol",
    "RE.declared_accepted_or_refused"
   ],
   "note": "operands are any accepted texts; operands that are both constant are folded at construction, so acceptance there also needs the folding to raise nothing"
  },
  {
   "property": "C60",
   "status": "proved",
   "theorems": [
    "RE.typeObj_eq_iff",
    "RE.typeObj_equivalence",
    "RE.equal_types_equal_hashes",
    "RE.hashable_iff",
    "RE.hash_witness",
    "RE.toDataType_eq",
    "RE.function_type",
    "RE.mapping_type",
    "RE.from_name_iff",
    "RE.type_container",
    "RE.from_name_sample"
   ],
   "note": "hash is any function of the tuples handed to it"
  },
  {
   "property": "C61",
   "status": "proved",
   "theorems": [
    "RE.builtins_override",
    "RE.builtins_types",
    "RE.builtins_keys",
    "RE.builtins_unknown",
    "RE.builtins_known",
    "RE.namespace_items",
    "RE.namespace_attribute",
    "RE.context_builtins",
    "RE.builtins_sample",
    "RE.dictUpdate_lookup"
   ],
   "note": "a generator is a function of the namespace and timezone of its instance"
  },
  {
   "property": "C62",
   "status": "proved",
   "theorems": [
    "RE.context_timezone",
    "RE.context_arguments",
    "RE.context_refused",
    "RE.example_accepted",
    "RE.example_sample"
   ],
   "note": "example_accepted excludes mappings with a float key and a Decimal key that become equal when normalised (see C11)"
  },
  {
   "property": "C63",
   "status": "proved",
   "theorems": [
    "RE.regex_operator",
    "RE.RegexGives.unique",
    "RE.invalid_pattern_refused",
    "RE.means_string"
   ],
   "note": "the regular expression engine is a parameter of the model; $re_groups is C19"
  },
  {
   "property": "C64",
   "status": "proved",
   "theorems": [
    "RE.map_is_comprehension",
    "RE.filter_is_comprehension",
    "RE.identity_comprehension",
    "RE.map_naive_differs"
   ],
   "note": "map_naive_differs shows the condition on timezones is needed"
  },
  {
   "property": "C65",
   "status": "proved",
   "theorems": [
    "RE.attribute_of_rule",
    "RE.length_of_rule",
    "RE.to_ary_of_rule",
    "RE.to_set_of_rule",
    "RE.keys_values_of_rule"
   ],
   "note": "to_set of BYTES is left out: a folded one holds Decimals, an unfolded one ints (see folding_observable)"
  },
  {
   "property": "C66",
   "status": "proved",
   "theorems": [
    "RE.evaluate_errors",
    "RE.rule_errors",
    "RE.evaluate_error_classes",
    "RE.lookup_error_origin",
    "RE.call_error_origin",
    "RE.regex_error_origin",
    "RE.simple_rules_return",
    "RE.evaluate_errors_witness",
    "RE.rule_errors_witness",
    "RE.simple_rules_witness"
   ],
   "note": "Construct lists what is written in a rule, Raises and Refused are the tables of the errors of each construct at evaluation and at construction; every row is met by a concrete rule. A plain EngineError (a mapping keyed by sets or mappings, whose type cannot be determined) is not attributed to a construct."
  },
  {
   "property": "C67",
   "status": "proved",
   "theorems": [
    "RE.steps_in_order",
    "RE.lookups_at_most_written",
    "RE.order_witness"
   ],
   "note": "Raw.order is the specification (a regular language over steps); the log of the model is a ghost variable written exactly where the code calls the resolver, a function, or records a match"
  },
  {
   "property": "C68",
   "status": "proved",
   "theorems": [
    "RE.operator_of_rules",
    "RE.in_of_rules",
    "RE.item_of_rules",
    "RE.slice_of_rules",
    "RE.not_of_rule",
    "RE.neg_of_rule",
    "RE.tern_of_rules",
    "RE.array_of_rules",
    "RE.replace_parts",
    "RE.set_of_rules",
    "RE.mapping_of_rules",
    "RE.call_of_rules",
    "RE.attr_of_rule",
    "RE.slice_from_of_rules",
    "RE.slice_to_of_rules",
    "RE.slice_all_of_rule"
   ],
   "note": "Outcome of a composite text from the outcomes of its parts as rules. Later-evaluated parts must not use $re_groups (groups_matter shows it is needed); item_of_rules leaves out the safe item whose key type can never be in the mapping (staticMiss, answered null when the rule is made); tern_of_rules asks that a constant condition gives a value when evaluated (the code reads the stored literal instead of evaluating it, so a constant collection whose evaluation would raise still picks a branch). call_of_rules: with a constant function and constant arguments the function has to be a method (no other constant is callable). attr_of_rule: for an object that is not a constant; the documented attributes of constants are C65."
  },
  {
   "property": "C69",
   "status": "proved",
   "theorems": [
    "RE.compare_exchanged",
    "RE.one_of_three",
    "RE.le_not_lt",
    "RE.le_transitive",
    "RE.operands_exchanged",
    "RE.join_assoc",
    "RE.in_combined",
    "RE.sets_exchanged",
    "RE.in_to_set",
    "RE.in_keys"
   ],
   "note": "Parts that are evaluated second in one of the two rules must not use $re_groups. Sets and mappings are assumed to be what Python guarantees (distinct hashable members, Value.WF); sets_exchanged excludes NaN members (not equal to themselves); time zones as in C06 (TzOk)."
  },
  {
   "property": "C70",
   "status": "proved",
   "theorems": [
    "RE.comprehension_accepted",
    "RE.comprehension_accepted_plain",
    "RE.comprehension_of_rules",
    "RE.comprehension_of_rules_plain"
   ],
   "note": "Clear: the parts use x neither as attribute nor as a variable of their own (both would change its meaning: findings under C16) and no $re_groups (left by earlier members)."
  },
  {
   "property": "C71",
   "status": "proved",
   "theorems": [
    "RE.swap_same"
   ],
   "note": "Conditions that are constants must be evaluable (ConstGives) and constant callees methods (ConstMethod): both are decided at construction otherwise. groups_matter (C68) shows why $re_groups is left out."
  },
  {
   "property": "C72",
   "status": "proved",
   "theorems": [
    "RE.nested_harmless",
    "RE.nested_same_or_index_error",
    "RE.nested_in_comprehension",
    "RE.nested_call_in_comprehension",
    "RE.nested_replaces_groups",
    "RE.quiet_evaluation"
   ],
   "note": "Nested effects are specified inductively (Effect): any sequence of constructions and evaluations of rules of the context. quiet_evaluation ties the second evaluator to the first."
  },
  {
   "property": "C73",
   "status": "proved",
   "theorems": [
    "RE.Outcome.builtin",
    "RE.any_all_of_rules",
    "RE.any_is_or",
    "RE.quantifiers",
    "RE.any_not_all",
    "RE.sum_is_plus",
    "RE.min_max_of_rules",
    "RE.min_is_choice",
    "RE.abs_of_rule",
    "RE.abs_is_neg",
    "RE.in_range_of_rules",
    "RE.builtin_rules_witness",
    "RE.quantifiers_witness"
   ],
   "note": "Rule-level laws of the builtin functions $any, $all, $sum, $min, $max, $abs and $range, for argument rules of any size; the last two theorems are concrete cases that meet the hypotheses."
  },
  {
   "property": "C74",
   "status": "proved",
   "theorems": [
    "RE.result_wf",
    "RE.result_set",
    "RE.result_mapping",
    "RE.sides_exchanged",
    "RE.equal_itself",
    "RE.equal_in_equality",
    "RE.equal_in_collection",
    "RE.equal_items",
    "RE.in_combination"
   ],
   "note": "for every rule text and well-formed data (Env.DataOk: what the resolver gives for well-formed objects and what functions return for well-formed arguments is well-formed)"
  },
  {
   "property": "C75",
   "status": "proved",
   "theorems": [
    "RE.diagram_nodes",
    "RE.diagram_edges",
    "RE.diagram_once",
    "RE.diagram_tree",
    "RE.diagram_faithful"
   ],
   "note": "drawRule models Rule.to_graphviz as the list of node and edge commands; the specification (shownParts, label, ShownAt, shown) is separate from it"
  },
  {
   "property": "C76",
   "status": "proved",
   "theorems": [
    "RE.same_answers",
    "RE.snapshot",
    "RE.still_world",
    "RE.steps_in_order_world",
    "RE.lookups_at_most_written_world",
    "RE.asked_once",
    "RE.changing_witness"
   ],
   "note": "worlds answer as functions of the whole history of the evaluation; asked_once changes the resolver only; the codec and regex engine remain functions"
  },
  {
   "property": "C77",
   "status": "proved",
   "theorems": [
    "RE.resolver_exchanged",
    "RE.resolve_attribute_gives",
    "RE.object_as_dict",
    "RE.object_path",
    "RE.still_objects",
    "RE.reads_at_most",
    "RE.second_reading",
    "RE.objects_witness",
    "RE.fading_witness"
   ],
   "note": "objects are an oracle for readings of attributes after earlier readings; dir(thing) in suggestions is assumed not to raise"
  },
  {
   "property": "C78",
   "status": "proved",
   "theorems": [
    "RE.classes_agree",
    "RE.classes_evaluate_alike",
    "RE.debug_error_exact",
    "RE.debug_leaves_no_trace",
    "RE.debug_is_valid",
    "RE.remade_from_str",
    "RE.debug_line_witness"
   ],
   "note": "Model/RuleClass, Props/RuleClass. Not modelled: files and logs PLY writes in debug mode."
  },
  {
   "property": "C79",
   "status": "proved",
   "theorems": [
    "RE.types_only_refuse",
    "RE.types_never_change_values",
    "RE.fewer_types_refuse_less",
    "RE.uneven_comparison",
    "RE.uneven_branches",
    "RE.uneven_members",
    "RE.uneven_safe_item",
    "RE.uneven_variable"
   ],
   "note": "Proved for all even rules on texts; the uneven_* theorems show that each condition of evenness is needed."
  },
  {
   "property": "C80",
   "status": "proved",
   "theorems": [
    "RE.each_itself",
    "RE.each_length",
    "RE.select_twice",
    "RE.each_of_selected",
    "RE.selected_split",
    "RE.any_is_selected",
    "RE.all_is_selected",
    "RE.in_is_any",
    "RE.in_is_not_any",
    "RE.each_laws_witness"
   ],
   "note": "Comprehension laws between whole rules: identity, length, selecting twice, running over a selection, a condition splits the members, quantifiers as selections, membership as a quantifier; the type condition of the last is needed (in_is_not_any). Hypotheses met: each_laws_witness."
  },
  {
   "property": "C81",
   "status": "proved",
   "theorems": [
    "RE.repl_answers",
    "RE.repl_replies",
    "RE.debugging_changes_nothing",
    "RE.commands_are_no_rules",
    "RE.rules_get_their_result",
    "RE.debug_commands",
    "RE.repl_witness"
   ],
   "note": "Lines without newline (input() reads one line); messages are the exception class and place. The debug command's \\w is a parameter."
  },
  {
   "property": "C82",
   "status": "proved",
   "theorems": [
    "RE.suggested_key",
    "RE.follow_key",
    "RE.suggested_declaration",
    "RE.follow_declaration",
    "RE.suggested_attribute",
    "RE.follow_attribute",
    "RE.suggested_member",
    "RE.unhelpful_advice"
   ],
   "note": "The default resolve_item and type_resolver_from_dict; resolve_attribute's suggestions (dir(thing)) are not modelled. Names of at most 2^53 characters (as in C43)."
  },
  {
   "property": "C83",
   "status": "proved",
   "theorems": [
    "RE.settings_matter_where_used",
    "RE.regex_flags_matter_in_regexes",
    "RE.timezone_matters",
    "RE.decimals_matter",
    "RE.regexes_matter"
   ],
   "note": "Env.exchange takes the exchanged settings from another context; Value.Free/Raw.Free/Env.FreeData say what depends on them. An example shows the hypotheses met with all settings exchanged."
  },
  {
   "property": "C84",
   "status": "proved",
   "theorems": [
    "RE.variable_names_do_not_matter",
    "RE.renamed_variables",
    "RE.attribute_name_matters",
    "RE.hidden_variable_matters"
   ],
   "note": "Any two rule texts related by Raw.Alpha in any process; renaming by any injective function as an instance. The names recorded in Context.symbols are not compared (they are the names of the variables)."
  },
  {
   "property": "C85",
   "status": "proved",
   "theorems": [
    "RE.sets_without_order",
    "RE.sets_without_order_matches",
    "RE.sets_without_order_filter",
    "RE.sets_without_order_text",
    "RE.sets_in_any_order",
    "RE.sets_in_any_order_matches",
    "RE.sets_in_any_order_text",
    "RE.order_of_sets_seen",
    "RE.map_sees_order",
    "RE.eval_tandem",
    "RE.evalAny_tandem",
    "RE.evalAny_id",
    "RE.backwards_reorders",
    "RE.shuffled_fromValue",
    "RE.callBuiltin_shuffled"
   ],
   "note": "For every rule, history, environment and pair of things that differ in the order of sets, and for every order in which sets are listed while the rule is evaluated (sets_in_any_order*; evalAny_id: the order of insertion of Model/Eval is one of them). Builtin functions other than $map and $filter may be called; the other conditions are needed (order_of_sets_seen, map_sees_order). The tree-level theorems also allow comprehensions over names declared ARRAY or MAPPING. Constant sub-expressions folded at construction are listed in the order of insertion."
  }
 ]
}