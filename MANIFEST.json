{
 "claims": [
  {
   "property": "C01",
   "status": "proved",
   "theorems": [
    "Coil.C01_roundtrip",
    "Coil.C01_roundtrip_cfg",
    "Coil.C01_render",
    "Coil.C01_render_injective"
   ],
   "note": "Every legal spelling parses to the command it denotes; also for every sensible delimiter configuration, and as a render function with injectivity."
  },
  {
   "property": "C02",
   "status": "partial",
   "theorems": [
    "Coil.C02_false",
    "Coil.C02_partial",
    "Coil.C02_even_quotes_partial"
   ],
   "note": "False as stated: C02_false gives the input f (\") whose view has length 2^64-1. C02_partial is the exact condition (no compound value has a part that is one lone quote), C02_even_quotes_partial a condition on the input."
  },
  {
   "property": "C03",
   "status": "proved",
   "theorems": [
    "Coil.C03_no_internal_error",
    "Coil.C03_not_internal"
   ],
   "note": "Any input, any configuration (even overlapping delimiter sets): terminates, no undefined behaviour, documented errors only."
  },
  {
   "property": "C04",
   "status": "proved",
   "theorems": [
    "Coil.C04_leading",
    "Coil.C04_trailing",
    "Coil.C04_between",
    "Coil.C04_around_delimiters"
   ],
   "note": "Leading, trailing, between tokens, and around delimiters; for commands and for errors."
  },
  {
   "property": "C05",
   "status": "proved",
   "theorems": [
    "Coil.C05_positional",
    "Coil.C05_named",
    "Coil.C05_name",
    "Coil.C05_context"
   ],
   "note": "Positional, named, name position, and any token context."
  },
  {
   "property": "C06",
   "status": "proved",
   "theorems": [
    "Coil.C06_accept_iff",
    "Coil.C06_reject_iff",
    "Coil.C06_reject_otherwise",
    "Coil.C06_grammar"
   ],
   "note": "Iff with the token grammar; exact error of every rejected sequence."
  },
  {
   "property": "C07",
   "status": "proved",
   "theorems": [
    "Coil.C07_quote",
    "Coil.C07_paren",
    "Coil.C07_balanced",
    "Coil.C07_balanced_no_error"
   ],
   "note": "openAtEnd is an independent three-state scan; exact error in both cases, no such error when balanced."
  },
  {
   "property": "C08",
   "status": "partial",
   "theorems": [
    "Coil.C08_exact",
    "Coil.C08_false_high",
    "Coil.C08_false_assign",
    "Coil.C08_partial"
   ],
   "note": "False for bytes above 127 with signed char and for '='; C08_partial for configurations with disjoint ASCII sets without '='; C08_exact says for every configuration which characters delimit where, and gives the outcome exactly."
  },
  {
   "property": "C09",
   "status": "partial",
   "theorems": [
    "Coil.C09_false",
    "Coil.C09_partial"
   ],
   "note": "False for a leading separator; C09_partial for every other bare word."
  },
  {
   "property": "C10",
   "status": "proved",
   "theorems": [
    "Coil.C10_group_iff",
    "Coil.C10_group_pieces",
    "Coil.C10_account",
    "Coil.C10_unique"
   ],
   "note": "Iff with the splitting specification, the simple form without quotes, accounting for the whole text, uniqueness."
  },
  {
   "property": "C11",
   "status": "proved",
   "theorems": [
    "Coil.C11_int_roundtrip",
    "Coil.C11_int_print_injective"
   ],
   "note": "All integer types, all platforms; also injectivity of printing."
  },
  {
   "property": "C12",
   "status": "proved",
   "theorems": [
    "Coil.C12_signed_iff",
    "Coil.C12_signed_reject",
    "Coil.C12_numeral_unique",
    "Coil.C12_out_of_range"
   ],
   "note": "Iff with an independent numeral grammar; exact error for every other text."
  },
  {
   "property": "C13",
   "status": "partial",
   "theorems": [
    "Coil.C13_false",
    "Coil.C13_false_uint",
    "Coil.C13_unsigned_iff",
    "Coil.C13_unsigned_partial",
    "Coil.C13_no_leading_space_partial",
    "Coil.C13_result_in_range"
   ],
   "note": "False as stated (' -1' is accepted): C13_false, C13_false_uint. C13_unsigned_iff is the exact characterisation; the partial theorems cover texts without a minus sign and texts without leading white space."
  },
  {
   "property": "C14",
   "status": "partial",
   "theorems": [
    "Coil.C14_false",
    "Coil.C14_bool_iff_partial",
    "Coil.C14_bool_reject_partial",
    "Coil.C14_bool_accept_iff",
    "Coil.C14_bool_ub_iff",
    "Coil.C14_bool_roundtrip"
   ],
   "note": "False as stated: undefined behaviour for some non-ASCII texts with signed char (C14_false; exact condition in C14_bool_ub_iff). Partial theorems for ASCII texts or unsigned char; round trip in full. C14_bool_accept_iff: the exact set of accepted texts on every platform."
  },
  {
   "property": "C15",
   "status": "proved",
   "theorems": [
    "Coil.C15_int",
    "Coil.C15_float",
    "Coil.C15_bool",
    "Coil.C15_string"
   ],
   "note": "Integers, floating-point types, bool, strings."
  },
  {
   "property": "C16",
   "status": "proved",
   "theorems": [
    "Coil.C16_string_in",
    "Coil.C16_string_out"
   ],
   "note": "Any bytes, including NUL and non-ASCII."
  },
  {
   "property": "C17",
   "status": "proved",
   "theorems": [
    "Coil.C17_vector_ok_iff",
    "Coil.C17_vector_error_iff",
    "Coil.C17_vector_length"
   ],
   "note": "Any element type that converts by value (all but coil::Value, see C58); iff for success and for failure."
  },
  {
   "property": "C18",
   "status": "partial",
   "theorems": [
    "Coil.C18_false",
    "Coil.C18_false_any",
    "Coil.C18_optional_partial",
    "Coil.C18_optional_error"
   ],
   "note": "False as stated (C18_false, C18_false_any: extra sub-values are ignored). C18_optional_partial for at most one sub-value. For element type coil::Value see C58."
  },
  {
   "property": "C19",
   "status": "proved",
   "theorems": [
    "Coil.C19_float_iff",
    "Coil.C19_float_reject",
    "Coil.C19_nul_rejected"
   ],
   "note": "strtof/strtod/strtold are an arbitrary function."
  },
  {
   "property": "C20",
   "status": "proved",
   "theorems": [
    "Coil.C20_sequence",
    "Coil.C20_undefined_iff",
    "Coil.C20_blocks"
   ],
   "note": "For all programs of Vector statements on any number of vectors; the preconditions are live variables, non-empty for popBack, index in range for writes, and byte counts below 2^64 (see C49)."
  },
  {
   "property": "C21",
   "status": "proved",
   "theorems": [
    "Coil.C21_balance",
    "Coil.C21_all_destroyed"
   ],
   "note": "Same programs as C20. Elements destroyed twice or unconstructed would be undefined behaviour in the model, which C20 excludes."
  },
  {
   "property": "C22",
   "status": "proved",
   "theorems": [
    "Coil.C22_sequence",
    "Coil.C22_bytes",
    "Coil.C22_terminated",
    "Coil.C22_terminated_false",
    "Coil.C22_blocks",
    "Coil.C22_own_buffer"
   ],
   "note": "Programs over any number of strings, moves included. The terminator is claimed for programs without moves (C22_terminated); a moved-from string has a null cStr() (C22_terminated_false)."
  },
  {
   "property": "C23",
   "status": "partial",
   "theorems": [
    "Coil.C23_self_append_partial",
    "Coil.C23_realloc_false",
    "Coil.C23_plain_false"
   ],
   "note": "False: with reallocation the source is read from the released block (C23_realloc_false: always; C23_plain_false: for every freshly constructed string). Partial: when the capacity suffices."
  },
  {
   "property": "C24",
   "status": "partial",
   "theorems": [
    "Coil.C24_links_partial",
    "Coil.C24_stale_link",
    "Coil.C24_uncrowded_partial",
    "Coil.C24_links_general",
    "Coil.C24_dictionary_repaired_partial",
    "Coil.C24_dictionary_partial",
    "Coil.C24_dictionary_order_partial",
    "Coil.C24_dictionary_no_erase_partial",
    "Coil.C24_dictionary_false"
   ],
   "note": "False of the code: erase does not update the prev link of the moved node's successor (witness C24_dictionary_false). Proved: for all histories of the repaired erase; for every history of the code in which each removal reads a correct prev link (C24_links_partial, checkable from the map, implied by the other conditions: C24_links_general), in particular when every bucket holds at most one entry at removals or a new key or clear comes between two removals; only stale prev links ever differ from the repaired map (C24_stale_link)."
  },
  {
   "property": "C25",
   "status": "partial",
   "theorems": [
    "Coil.C25_links_partial",
    "Coil.C25_safe_repaired_partial",
    "Coil.C25_safe_partial",
    "Coil.C25_fuel_is_no_restriction",
    "Coil.C25_endless_lookup",
    "Coil.C25_out_of_bounds"
   ],
   "note": "False of the code: witnesses of an endless look-up and of an out-of-bounds write. Proved for histories whose removals read correct prev links (C25_links_partial), for spaced histories and, for all histories, of the repaired erase."
  },
  {
   "property": "C26",
   "status": "proved",
   "theorems": [
    "Coil.C26_one_call",
    "Coil.C26_call_happens",
    "Coil.C26_at_most_one"
   ],
   "note": "For any container, any bodies (including ones that execute, add and remove commands) and any nesting: which object is called and with what, that it does happen, and that nothing else is called at that level."
  },
  {
   "property": "C27",
   "status": "proved",
   "theorems": [
    "Coil.C27_wrong_count",
    "Coil.C27_wrong_count_any_name"
   ],
   "note": "The program is unchanged; exact message, also for names with NUL bytes."
  },
  {
   "property": "C28",
   "status": "proved",
   "theorems": [
    "Coil.C28_conversion_failure"
   ],
   "note": "The program is unchanged; the errors are exactly those of the arguments that do not convert, in order. Precondition: every conversion is defined (see C14 for bool)."
  },
  {
   "property": "C29",
   "status": "proved",
   "theorems": [
    "Coil.C29_exclusive",
    "Coil.C29_returned"
   ],
   "note": "For every execution that gives a result; and the exact return value of calls that end normally."
  },
  {
   "property": "C30",
   "status": "proved",
   "theorems": [
    "Coil.C30_unknown",
    "Coil.C30_empty",
    "Coil.C30_unknown_any_name"
   ],
   "note": "The program is unchanged; exact messages, also for names with NUL bytes."
  },
  {
   "property": "C31",
   "status": "proved",
   "theorems": [
    "Coil.C31_syntax_error",
    "Coil.C31_accepted"
   ],
   "note": "For every lexer; and only accepted lines make calls."
  },
  {
   "property": "C32",
   "status": "partial",
   "theorems": [
    "Coil.C32_links_partial",
    "Coil.C32_lookup_partial",
    "Coil.C32_lookup_spaced_partial",
    "Coil.C32_found_was_added",
    "Coil.C32_executed_partial",
    "Coil.C32_history",
    "Coil.C32_operations_defined_partial",
    "Coil.C32_lookup_false"
   ],
   "note": "False of the code as it is because of UnorderedMap::erase (witness C32_lookup_false). Proved for the repaired map and for safe histories of the code as it is; C32_found_was_added holds always. C32_links_partial: up to the stale links of the same map, lookups still answer by the last addition of the name."
  },
  {
   "property": "C33",
   "status": "proved",
   "theorems": [
    "Coil.C33_contained",
    "Coil.C33_caught",
    "Coil.C33_propagates"
   ],
   "note": "With catching nothing leaves execute, errors and output before the exception are kept; without catching the exception propagates. With exhausted memory see C94 (C94_catches_false)."
  },
  {
   "property": "C34",
   "status": "proved",
   "theorems": [
    "Coil.C34_store"
   ],
   "note": "For any number of variables of any types, any sequence of reads and writes, with the registry unchanged by the functions."
  },
  {
   "property": "C35",
   "status": "proved",
   "theorems": [
    "Coil.C35_variable",
    "Coil.C35_property",
    "Coil.C35_property_unchanged",
    "Coil.C35_bound_property",
    "Coil.C35_answers"
   ],
   "note": "const variables, getter-only properties and bound getter-only properties; the getter is arbitrary user code."
  },
  {
   "property": "C36",
   "status": "proved",
   "theorems": [
    "Coil.C36_read",
    "Coil.C36_write",
    "Coil.C36_reject"
   ],
   "note": "Reads, writes and rejected writes; getter and setter are arbitrary user code."
  },
  {
   "property": "C37",
   "status": "proved",
   "theorems": [
    "Coil.C37_dichotomy",
    "Coil.C37_found",
    "Coil.C37_missing",
    "Coil.C37_typed",
    "Coil.C37_typed_missing"
   ],
   "note": "Untyped and typed look-up."
  },
  {
   "property": "C38",
   "status": "proved",
   "theorems": [
    "Coil.C38_present",
    "Coil.C38_default",
    "Coil.C38_required",
    "Coil.C38_mismatch",
    "Coil.C38_untyped"
   ],
   "note": "All cases of getOrReport, untyped and typed."
  },
  {
   "property": "C39",
   "status": "proved",
   "theorems": [
    "Coil.C39_output"
   ],
   "note": "For every execution that gives a result, however the function ends."
  },
  {
   "property": "C40",
   "status": "proved",
   "theorems": [
    "Coil.C40_isolated"
   ],
   "note": "For the code as it is, in every reachable state, including undefined outcomes."
  },
  {
   "property": "C41",
   "status": "partial",
   "theorems": [
    "Coil.C41_echo_partial",
    "Coil.C41_echo_rest_partial",
    "Coil.C41_echo_false"
   ],
   "note": "False as stated: C41_echo_false (a function can assign to named arguments through the non-const iterators of NamedArgs). C41_echo_partial: exact input after such assignments, equal to the original without them; the rest is always echoed."
  },
  {
   "property": "C42",
   "status": "partial",
   "theorems": [
    "Coil.C42_found_is_alive",
    "Coil.C42_running_alive",
    "Coil.C42_self_removal_false"
   ],
   "note": "Proved as long as nothing is done to the running command's own name; false when the command removes itself (witness)."
  },
  {
   "property": "C43",
   "status": "partial",
   "theorems": [
    "Coil.C43_conversion_false",
    "Coil.C43_conversion_partial",
    "Coil.C43_command_partial",
    "Coil.C43_key_partial",
    "Coil.C43_command_false",
    "Coil.C43_key_false"
   ],
   "note": "False as stated for texts with NUL bytes. C43_conversion_partial for NUL-free texts in conversion errors."
  },
  {
   "property": "C44",
   "status": "proved",
   "theorems": [
    "Coil.C44_values",
    "Coil.C44_balance",
    "Coil.C44_all_destroyed",
    "Coil.C44_equality"
   ],
   "note": "Programs over any number of optionals, copies may throw at any point; moves do not throw. A moved-from optional still has a (moved-from) value."
  },
  {
   "property": "C45",
   "status": "partial",
   "theorems": [
    "Coil.C45_values_partial",
    "Coil.C45_balance_partial",
    "Coil.C45_throw_false"
   ],
   "note": "False when the copy in an assignment between a value and an error throws: the target is left without contained object (C45_throw_false, for all programs). Partial: all other histories."
  },
  {
   "property": "C46",
   "status": "proved",
   "theorems": [
    "Coil.C46_unique",
    "Coil.C46_deleted_once"
   ],
   "note": "Objects are handed to UniquePtr by makeUnique only. Assignment exchanges the objects."
  },
  {
   "property": "C47",
   "status": "partial",
   "theorems": [
    "Coil.C47_moved_from_false",
    "Coil.C47_moves_partial",
    "Coil.C47_recover_partial"
   ],
   "note": "False after move construction, for every registry. Move assignment is a swap; a new registry can be assigned."
  },
  {
   "property": "C48",
   "status": "partial",
   "theorems": [
    "Coil.C48_links_partial",
    "Coil.C48_metadata_partial",
    "Coil.C48_still_stored"
   ],
   "note": "As C32: the command may not be found in a damaged map; C48_still_stored holds always. C48_links_partial: a registered command that the links still reach keeps its metadata."
  },
  {
   "property": "C49",
   "status": "partial",
   "theorems": [
    "Coil.C49_room_partial",
    "Coil.C49_room_false"
   ],
   "note": "False of the code: the product wraps (witness). C49_room_partial gives the exact condition."
  },
  {
   "property": "C50",
   "status": "proved",
   "theorems": [
    "Coil.C50_str",
    "Coil.C50_quoted",
    "Coil.C50_value_param"
   ],
   "note": "Text form and quoting in errors."
  },
  {
   "property": "C51",
   "status": "proved",
   "theorems": [
    "Coil.C51_equality"
   ],
   "note": "Same programs as C20."
  },
  {
   "property": "C52",
   "status": "proved",
   "theorems": [
    "Coil.C52_equality"
   ],
   "note": "For strings all of whose bytes were determined; comparing unwritten bytes is reading indeterminate values."
  },
  {
   "property": "C53",
   "status": "proved",
   "theorems": [
    "Coil.C53_typed_call",
    "Coil.C53_typed_call_happens",
    "Coil.C53_meaning_unique",
    "Coil.C53_argument",
    "Coil.C53_spellable"
   ],
   "note": "Composition of lexer, conversion and execution. Floating-point parameters are in C19. Reads gives the meaning; unsigned texts must have no minus (see C13)."
  },
  {
   "property": "C54",
   "status": "proved",
   "theorems": [
    "Coil.C54_result_reads",
    "Coil.C54_pass_on",
    "Coil.C54_vector_text"
   ],
   "note": "C54_vector_text shows that the restriction to scalar types is needed."
  },
  {
   "property": "C55",
   "status": "proved",
   "theorems": [
    "Coil.C55_replay",
    "Coil.C55_replay_line",
    "Coil.C55_normal_form",
    "Coil.C55_quote_limit"
   ],
   "note": "C55_quote_limit shows that the condition on quotes is needed."
  },
  {
   "property": "C56",
   "status": "proved",
   "theorems": [
    "Coil.C56_bound_independent",
    "Coil.C56_deterministic",
    "Coil.C56_flat",
    "Coil.C56_self_execution"
   ],
   "note": "About the bound used in the model of execute. C56_self_execution: unbounded recursion is not guarded against."
  },
  {
   "property": "C57",
   "status": "partial",
   "theorems": [
    "Coil.C57_sprintf",
    "Coil.C57_plain",
    "Coil.C57_no_function",
    "Coil.C57_exception",
    "Coil.C57_count",
    "Coil.C57_missing",
    "Coil.C57_convert",
    "Coil.C57_subvalues",
    "Coil.C57_delimiters",
    "Coil.C57_unexpected",
    "Coil.C57_numbers",
    "Coil.C57_long_false",
    "Coil.C57_long_exception_false",
    "Coil.C57_long_view_false"
   ],
   "note": "False for texts of 2^31 bytes and more (C57_long_false, C57_long_exception_false, C57_long_view_false). Proved below that size for every format string of the library except the floating-point ones."
  },
  {
   "property": "C58",
   "status": "partial",
   "theorems": [
    "Coil.C58_vector_false",
    "Coil.C58_optional_false",
    "Coil.C58_partial",
    "Coil.C58_exact"
   ],
   "note": "False: the element conversion returns a reference to a destroyed temporary (C58_vector_false, C58_optional_false). C58_partial: arguments without content; C58_exact: which parameter types are affected."
  },
  {
   "property": "C59",
   "status": "proved",
   "theorems": [
    "Coil.C59_classes",
    "Coil.C59_plain",
    "Coil.C59_simple"
   ],
   "note": "The specification is a function on texts, apart from the lexical grammar."
  },
  {
   "property": "C60",
   "status": "partial",
   "theorems": [
    "Coil.C60_load_partial",
    "Coil.C60_load_ratio_partial",
    "Coil.C60_small_false"
   ],
   "note": "Proved for load factors of at least 1 (the default is 1) and every history that is not cut short by the undefined behaviour of C25. False for smaller factors: C60_small_false (rehash(0) and a division by zero at the first insertion)."
  },
  {
   "property": "C61",
   "status": "proved",
   "theorems": [
    "Coil.C61_calls",
    "Coil.C61_one_holder",
    "Coil.C61_deleted_once",
    "Coil.C61_no_leak",
    "Coil.C61_moved_from"
   ],
   "note": "Includes that calling a moved-from holder dereferences null (C61_moved_from). Moves of callables do not throw."
  },
  {
   "property": "C62",
   "status": "proved",
   "theorems": [
    "Coil.C62_names",
    "Coil.C62_texts"
   ],
   "note": "The positions found by look-ups are arbitrary, so this also holds for tables damaged by C24."
  },
  {
   "property": "C63",
   "status": "partial",
   "theorems": [
    "Coil.C63_references_partial",
    "Coil.C63_reference_add_false",
    "Coil.C63_reference_remove_false"
   ],
   "note": "False: adding a command can invalidate all references (C63_reference_add_false), removing another command can (C63_reference_remove_false). C63_references_partial gives the exact effect of every call."
  },
  {
   "property": "C64",
   "status": "proved",
   "theorems": [
    "Coil.C64_names",
    "Coil.C64_serializer_name",
    "Coil.C64_signature"
   ],
   "note": "Covers the built-in names; users can give two of their own types the same name."
  },
  {
   "property": "C65",
   "status": "partial",
   "theorems": [
    "Coil.C65_pointer_partial",
    "Coil.C65_cstr_partial",
    "Coil.C65_cstr_null_false",
    "Coil.C65_null_text_false",
    "Coil.C65_return_type_false"
   ],
   "note": "False: printing a null char const* is undefined (C65_cstr_null_false); char const* is reported as char and other pointers as what they point to (C65_return_type_false); the text null is ambiguous for texts (C65_null_text_false). Proved for pointers other than char const* and for non-null char const*."
  },
  {
   "property": "C66",
   "status": "proved",
   "theorems": [
    "Coil.C66_vector_text",
    "Coil.C66_optional_text",
    "Coil.C66_determined",
    "Coil.C66_strings_false"
   ],
   "note": "For strings and optionals the texts do not determine the value (C66_strings_false); the property does not claim it."
  },
  {
   "property": "C67",
   "status": "partial",
   "theorems": [
    "Coil.C67_vector_partial",
    "Coil.C67_vector_reserved",
    "Coil.C67_string_reserved",
    "Coil.C67_string_false"
   ],
   "note": "Proved for vectors (C67_vector_partial, C67_vector_reserved) and for strings with reserved room (C67_string_reserved). False for strings without reserve: every append is an allocation (C67_string_false)."
  },
  {
   "property": "C68",
   "status": "partial",
   "theorems": [
    "Coil.Floats.C68_nearest",
    "Coil.Floats.C68_accept",
    "Coil.Floats.C68_special",
    "Coil.Floats.C68_overflow",
    "Coil.Floats.C68_sound",
    "Coil.Floats.C68_iff",
    "Coil.Floats.C68_reject",
    "Coil.Floats.C68_whole",
    "Coil.Floats.C68_tiny_false"
   ],
   "note": "Proved in full where the C library does not report underflow (C68_iff), and on all libraries for normal numbers, exact numbers, infinities, NaNs, overflow and other texts. False with glibc: subnormal numbers such as 1e-310 set errno and are rejected (C68_tiny_false)."
  },
  {
   "property": "C69",
   "status": "proved",
   "theorems": [
    "Coil.Floats.C69_accuracy",
    "Coil.Floats.C69_special",
    "Coil.Floats.C69_roundtrip",
    "Coil.Floats.C69_exact_false"
   ],
   "note": "The value itself is not kept (C69_exact_false); the property does not claim it."
  },
  {
   "property": "C70",
   "status": "partial",
   "theorems": [
    "Coil.Floats.C70_stable",
    "Coil.Floats.C70_single_partial",
    "Coil.Floats.C70_single_false"
   ],
   "note": "Proved for double and long double (C70_stable) and for all values of float but those with the text 1e-06 (C70_single_partial). False for these: 1e-06 reads as a float below one millionth, which prints as 0 (C70_single_false)."
  },
  {
   "property": "C71",
   "status": "partial",
   "theorems": [
    "Coil.C71_transparent",
    "Coil.C71_find_transparent",
    "Coil.C71_contained",
    "Coil.C71_find_contained",
    "Coil.C71_hold_repaired",
    "Coil.C71_hold_partial",
    "Coil.C71_stops_false",
    "Coil.C71_undetected_false",
    "Coil.C71_endless_false"
   ],
   "note": "The first two parts are proved for every history (C71_transparent, C71_contained). That no assertion fails is proved for the repaired map and, for the code as it is, for histories whose removals read no stale link; false otherwise (C71_stops_false). The assertions also miss lost entries and endless look-ups (C71_undetected_false, C71_endless_false)."
  },
  {
   "property": "C72",
   "status": "proved",
   "theorems": [
    "Coil.C72_transparent",
    "Coil.C72_inside",
    "Coil.C72_outside_iff",
    "Coil.C72_stops_iff",
    "Coil.C72_accepts",
    "Coil.C72_rejects",
    "Coil.C72_error_lost"
   ],
   "note": "Simulation up to stopping, containment, and the exact set of texts that stop the parser. C72_error_lost: a syntax error can be hidden by the stop."
  },
  {
   "property": "C73",
   "status": "proved",
   "theorems": [
    "Coil.C73_transparent",
    "Coil.C73_hold",
    "Coil.C73_stops_iff",
    "Coil.C73_contained",
    "Coil.C73_access",
    "Coil.C73_overflow_false"
   ],
   "note": "Simulation up to stopping for all programs; exact characterisation of the programs that stop. C73_overflow_false: beyond size_t the assertions do not prevent a write out of bounds."
  },
  {
   "property": "C74",
   "status": "proved",
   "theorems": [
    "Coil.C74_hold",
    "Coil.C74_stops_iff",
    "Coil.C74_contained",
    "Coil.C74_moved_from_false",
    "Coil.C74_self_append_false",
    "Coil.C74_part",
    "Coil.C74_equality",
    "Coil.C74_back"
   ],
   "note": "Exact characterisation of the legal programs that stop. C74_moved_from_false: copying a moved-from string is harmless without assertions and stops with them. C74_self_append_false: assertions do not notice the use after free of C23."
  },
  {
   "property": "C75",
   "status": "proved",
   "theorems": [
    "Coil.C75_call_iff",
    "Coil.C75_conversion_throws",
    "Coil.C75_conversion_fails",
    "Coil.C75_print_throws",
    "Coil.C75_contained",
    "Coil.C75_exclusive",
    "Coil.C75_at_most_one",
    "Coil.C75_removing_serializer_false"
   ],
   "note": "Exact characterisation of a call (C75_call_iff). C75_removing_serializer_false: a serializer that removes the command being executed makes the call undefined, as a function that removes itself (C42)."
  },
  {
   "property": "C76",
   "status": "proved",
   "theorems": [
    "Coil.C76_pure",
    "Coil.C76_errors",
    "Coil.C76_order_false"
   ],
   "note": "Also for the messages with any serializers. C76_order_false: with effects, the order shows in the program state and in the executed commands."
  },
  {
   "property": "C77",
   "status": "proved",
   "theorems": [
    "Coil.C77_function_iff",
    "Coil.C77_functor_iff",
    "Coil.C77_functor_one",
    "Coil.C77_callable",
    "Coil.C77_bind_iff",
    "Coil.C77_arity",
    "Coil.C77_same_values",
    "Coil.C77_qualifiers",
    "Coil.C77_variable",
    "Coil.C77_property",
    "Coil.C77_isFunc_false"
   ],
   "note": "Exact characterisation of what compiles and of the signature. C77_isFunc_false: the traits call functions usable that do not compile when registered (&&-qualified ones and ones with non-const reference parameters)."
  },
  {
   "property": "C78",
   "status": "proved",
   "theorems": [
    "Coil.C78_lexer_transparent",
    "Coil.C78_transparent",
    "Coil.C78_program_transparent",
    "Coil.C78_hold_repaired",
    "Coil.C78_execute_repaired",
    "Coil.C78_no_lexer",
    "Coil.C78_contained",
    "Coil.C78_lexer_contained",
    "Coil.C78_stops_false",
    "Coil.C78_line_false"
   ],
   "note": "Transparency, containment and the repaired map in full. The code as it is does fail assertions in legal programs: C78_stops_false (map), C78_line_false (lexer), C78_no_lexer."
  },
  {
   "property": "C79",
   "status": "partial",
   "theorems": [
    "Coil.C79_optional",
    "Coil.C79_expected",
    "Coil.C79_owner",
    "Coil.C79_expected_equality",
    "Coil.C79_optional_stops_partial",
    "Coil.C79_arrow_false",
    "Coil.C79_expected_stops",
    "Coil.C79_owner_stops"
   ],
   "note": "Proper programs, equality, and the assertions of Expected and UniquePtr in full. Optional::operator-> has no assertion (C79_arrow_false), so reading an empty optional through it is undefined behaviour in every build; C79_optional_stops_partial covers the other accessors."
  },
  {
   "property": "C80",
   "status": "partial",
   "theorems": [
    "Coil.C80_no_fault",
    "Coil.C80_course",
    "Coil.C80_objects_partial",
    "Coil.C80_strong",
    "Coil.C80_first",
    "Coil.C80_growth_false"
   ],
   "note": "Complete for elements whose move constructor does not throw. If it may throw, an interrupted growth loses the elements already moved to the new storage and leaves them moved-from in the old one (C80_growth_false, for every vector and every position); C80_course states exactly what can be lost."
  },
  {
   "property": "C81",
   "status": "proved",
   "theorems": [
    "Coil.C81_parse",
    "Coil.C81_parse_default",
    "Coil.C81_other_delimiters",
    "Coil.C81_serializers",
    "Coil.C81_execute",
    "Coil.C81_executeAll",
    "Coil.C81_named",
    "Coil.C81_variable",
    "Coil.C81_property"
   ],
   "note": "C81_other_delimiters shows that ASCII delimiters are needed. For floating-point results the C library is the one of Model/Float.lean."
  },
  {
   "property": "C82",
   "status": "partial",
   "theorems": [
    "Coil.C82_maps_partial",
    "Coil.C82_misuse_partial",
    "Coil.C82_refines",
    "Coil.C82_accounting",
    "Coil.C82_all_destroyed_partial",
    "Coil.C82_false"
   ],
   "note": "False of the code for removals that are not allowed (C82_false, the fault of C24). Proved for the repaired erase and, for the code as it is, for allowed removals; C82_refines and C82_accounting hold for all programs."
  },
  {
   "property": "C83",
   "status": "partial",
   "theorems": [
    "Coil.C83_references_partial",
    "Coil.C83_find_partial",
    "Coil.C83_dangling_forever_partial",
    "Coil.C83_moves",
    "Coil.C83_other_maps_partial",
    "Coil.C83_put_keeps_partial",
    "Coil.C83_put_moves_all_partial"
   ],
   "note": "Proved for the repaired erase and, for the code as it is, for programs with allowed removals, because of C82_false."
  },
  {
   "property": "C84",
   "status": "partial",
   "theorems": [
    "Coil.C84_maps_partial",
    "Coil.C84_step_partial",
    "Coil.C84_put_references",
    "Coil.C84_never",
    "Coil.C84_assign_leaves",
    "Coil.C84_assign_repair",
    "Coil.C84_false"
   ],
   "note": "False of the code for copy assignment (C84_false): the implicit operator= assigns the buckets first, and when copying the nodes throws the target has the buckets of the source with its own nodes, so that look-ups are out of bounds. Proved for all other statements; C84_assign_leaves and C84_assign_repair say what a failed assignment leaves and how to go on. Removals as in C82."
  },
  {
   "property": "C85",
   "status": "partial",
   "theorems": [
    "Coil.C85_accepts_iff",
    "Coil.C85_rejects",
    "Coil.C85_ub_iff",
    "Coil.C85_defined_partial",
    "Coil.C85_defined_false",
    "Coil.C85_names_partial",
    "Coil.C85_names_false",
    "Coil.C85_print",
    "Coil.C85_roundtrip_partial",
    "Coil.C85_roundtrip_false"
   ],
   "note": "Which texts are accepted, rejected (with which error) and undefined is proved exactly. False of the code: a number outside an enumeration without fixed underlying type is undefined (C85_defined_false); second names of a value, constants beyond -128..128 and names that differ by case only are not accepted as themselves (C85_names_false); values without a name are written as an empty text (C85_roundtrip_false). The partial theorems have exactly these conditions."
  },
  {
   "property": "C86",
   "status": "partial",
   "theorems": [
    "Coil.C86_get",
    "Coil.C86_set",
    "Coil.C86_reject",
    "Coil.C86_order",
    "Coil.C86_restore_partial",
    "Coil.C86_restore_false"
   ],
   "note": "Setting, showing and rejecting are proved in full. False of the code: the text of a flag above 128 is rejected, and the empty set and sets with nameless bits are shown as an empty text (C86_restore_false). C86_restore_partial is the round trip for all other sets."
  },
  {
   "property": "C87",
   "status": "partial",
   "theorems": [
    "Coil.C87_map_is_list",
    "Coil.C87_hash_unseen",
    "Coil.C87_as_is_partial",
    "Coil.C87_heap_partial",
    "Coil.C87_as_is_false"
   ],
   "note": "Proved in full for the repaired erase (C87_map_is_list, C87_hash_unseen). False of the code, because of C24 (C87_as_is_false). C87_as_is_partial and C87_heap_partial: the code as it is, on lists and on heaps, for all programs whose changes of the registry are handled by erase as it is (SafeHistory); on heaps sizes must be representable."
  },
  {
   "property": "C88",
   "status": "proved",
   "theorems": [
    "Coil.Props.C88_objects",
    "Coil.Props.C88_called",
    "Coil.Props.C88_rejected"
   ],
   "note": "Arguments are converted and parameters initialised from left to right; C++ leaves the order open."
  },
  {
   "property": "C89",
   "status": "partial",
   "theorems": [
    "Coil.C89_sound",
    "Coil.C89_complete",
    "Coil.C89_undefined",
    "Coil.C89_one_meaning",
    "Coil.C89_as_is_partial",
    "Coil.C89_heap_partial",
    "Coil.C89_as_is_false"
   ],
   "note": "Proved in both directions with the repaired erase (C89_sound, C89_complete), with the consequences C89_undefined and C89_one_meaning. For the code as it is the full claim is false because of C24 (C89_as_is_false); proved for histories that erase handles (C89_as_is_partial) and on heaps (C89_heap_partial)."
  },
  {
   "property": "C90",
   "status": "partial",
   "theorems": [
    "Coil.C90_session",
    "Coil.C90_defined",
    "Coil.C90_exit_partial",
    "Coil.C90_end_of_input_false",
    "Coil.C90_lone_quote_false"
   ],
   "note": "Proved for every input that has a transcript (C90_session); every list of lines without a lone quote has one (C90_defined); the program ends exactly if some line asks for it (C90_exit_partial). The full claim is false: at the end of the input the program does not stop but complains for ever (C90_end_of_input_false), and a lone quote in a compound value is undefined behaviour, from C02 (C90_lone_quote_false)."
  },
  {
   "property": "C91",
   "status": "partial",
   "theorems": [
    "Coil.C91_no_dangling_partial",
    "Coil.C91_exclusive_partial",
    "Coil.C91_defined",
    "Coil.C91_shared_false",
    "Coil.C91_null_false",
    "Coil.C91_recreate_false",
    "Coil.C91_as_is_false"
   ],
   "note": "Every registered command is one that ought to be, so nothing dangles (C91_no_dangling_partial); with names that no two living scopes share the registered commands are exactly those that ought to be (C91_exclusive_partial); with the repaired map, undefined behaviour is characterised exactly (C91_defined). The full claim is false: the end of a scope removes commands of others with the same names (C91_shared_false), already when `create_subsystem` of the example is executed twice (C91_recreate_false); ending a scope after the registry dereferences null (C91_null_false); with the map as it is, C24 can lose commands of others (C91_as_is_false)."
  },
  {
   "property": "C92",
   "status": "partial",
   "theorems": [
    "Coil.C92_strings_partial",
    "Coil.C92_unchanged",
    "Coil.C92_exact",
    "Coil.C92_moved_false",
    "Coil.C92_no_throw"
   ],
   "note": "Proved for all programs that do not append a string to itself with += (undefined anyway, C23): C92_strings_partial. A statement other than + that throws leaves the state identical, in every state (C92_unchanged); exactly the statements that would allocate throw (C92_exact); moves never do (C92_no_throw). False for `std::move(a) + b`: when it throws, the text of a is lost (C92_moved_false)."
  },
  {
   "property": "C93",
   "status": "proved",
   "theorems": [
    "Coil.C93_texts",
    "Coil.C93_every_program",
    "Coil.C93_parameters",
    "Coil.C93_views",
    "Coil.C93_in_place",
    "Coil.C93_destroyed",
    "Coil.C93_own_command"
   ],
   "note": "C93_texts: programs on views that leave the texts of their callers alone (DefIs) are programs on texts; C93_every_program: every program on texts is such a program, so all theorems about `execute` hold at the level of views; C93_parameters: StringView and Value parameters. For arbitrary programs on views: C93_views, C93_in_place, C93_destroyed. C93_own_command: functions that destroy or overwrite the command they are called by. Forward only: nothing is said where executing the text is undefined."
  },
  {
   "property": "C94",
   "status": "partial",
   "theorems": [
    "Coil.C94_sound_partial",
    "Coil.C94_complete_partial",
    "Coil.C94_meaning_partial",
    "Coil.C94_plenty",
    "Coil.C94_map_calm",
    "Coil.C94_escapes",
    "Coil.C94_honest",
    "Coil.C94_nothing",
    "Coil.C94_catches_false",
    "Coil.C94_as_is_false"
   ],
   "note": "False of the code in two ways. C94_catches_false: `std::bad_alloc` leaves `execute` although exceptions are caught, when there is no memory for the tokens or for the report of an exception (C94_escapes: nothing else does). C94_as_is_false: `erase` loses commands (C24). C94_sound_partial, C94_complete_partial, C94_meaning_partial: the library goes exactly the ways of the semantics, with the repaired `erase` or for removals it handles, while sizes are representable. C94_honest, C94_nothing, C94_plenty (with memory it is the model without failures), C94_map_calm."
  },
  {
   "property": "C95",
   "status": "partial",
   "theorems": [
    "Coil.C95_in_place_partial",
    "Coil.C95_each_line_partial",
    "Coil.C95_nothing_kept",
    "Coil.C95_examples",
    "Coil.C95_create_partial",
    "Coil.C95_read",
    "Coil.C95_write",
    "Coil.C95_read_only",
    "Coil.C95_console_false",
    "Coil.C95_one_buffer_false",
    "Coil.C95_create_false"
   ],
   "note": "False of both examples with a console. C95_console_false: if each line is read into a string that is destroyed, as in main.cpp, both examples read a destroyed text. C95_one_buffer_false: with one buffer a variable silently shows and changes another entity. C95_create_false: null pointer for unknown ids, and a running function object that is destroyed. C95_in_place_partial: texts in place. C95_each_line_partial, C95_nothing_kept: lines destroyed, if nothing of them is kept. C95_examples: both examples are instances of C95_in_place_partial. C95_create_partial, C95_read, C95_write, C95_read_only: what the made variables do."
  },
  {
   "property": "C96",
   "status": "proved",
   "theorems": [
    "Coil.Props.C96_reads",
    "Coil.Props.C96_size",
    "Coil.Props.C96_six"
   ],
   "note": "C96_reads: which positions are read and how often; the result is that of `lexParse`. C96_size: the size of what is built. C96_six: six is reached."
  },
  {
   "property": "C97",
   "status": "partial",
   "theorems": [
    "Coil.C97_compares_partial",
    "Coil.C97_average_partial",
    "Coil.C97_collide",
    "Coil.C97_constant_false"
   ],
   "note": "The bound for a single look-up is false of the code: C97_constant_false gives, for every n, n names of 2n characters that all collide, whatever the number of buckets, so that registering them compares each with all before it (C97_collide: 2^n names of 2n characters with one hash). C97_compares_partial: which names are compared, for all histories of the repaired map and those that `erase` as it is performs correctly (C24). C97_average_partial: the average over the buckets."
  },
  {
   "property": "C98",
   "status": "partial",
   "theorems": [
    "Coil.C98_scale_partial",
    "Coil.C98_sum_partial",
    "Coil.C98_same_sign",
    "Coil.C98_reject",
    "Coil.C98_false"
   ],
   "note": "False of the code where a product or a partial sum is not a value of int: C98_false gives lines with undefined behaviour, one of which is defined in another order of the numbers. C98_scale_partial and C98_sum_partial say exactly when the answer is right and when the behaviour is undefined; C98_same_sign: for numbers of one sign only the sum matters; C98_reject: a part that is no number."
  },
  {
   "property": "C99",
   "status": "partial",
   "theorems": [
    "Coil.C99_sum",
    "Coil.C99_whole",
    "Coil.C99_add",
    "Coil.C99_commutes",
    "Coil.C99_order_false"
   ],
   "note": "The claim about the order is false of the code for `sum_all`: C99_order_false. Everything else is proved: C99_sum (accuracy), C99_whole (exactness), C99_add, C99_commutes."
  },
  {
   "property": "C100",
   "status": "partial",
   "theorems": [
    "Coil.C100_aspect_partial",
    "Coil.C100_undefined",
    "Coil.C100_false",
    "Coil.C100_diagonal_false"
   ],
   "note": "False of the code for numbers that are negative, too great, infinite or NaN: the conversion to std::size_t is undefined (C100_undefined, for all such texts; C100_false with concrete lines). `window.diagonal 0` and then `window.diagonal 5` is undefined too (C100_diagonal_false). C100_aspect_partial: the claim for 0 \u2264 q with a width below 2^24."
  },
  {
   "property": "C101",
   "status": "proved",
   "theorems": [
    "Coil.C101_print",
    "Coil.C101_resize",
    "Coil.C101_refused",
    "Coil.C101_injective"
   ],
   "note": ""
  },
  {
   "property": "C102",
   "status": "partial",
   "theorems": [
    "Coil.C102_rename",
    "Coil.C102_unknown",
    "Coil.C102_reachable_partial",
    "Coil.C102_false",
    "Coil.C102_list",
    "Coil.C102_add"
   ],
   "note": "The last claim is false of the code: an entity whose name reads as an id is not reached by its name, and another one may be renamed instead (C102_false). C102_reachable_partial says exactly which entities are reached. Everything else is proved: C102_rename, C102_unknown, C102_list, C102_add."
  },
  {
   "property": "C103",
   "status": "partial",
   "theorems": [
    "Coil.C103_read",
    "Coil.C103_degrees_partial",
    "Coil.C103_radians",
    "Coil.C103_refused",
    "Coil.C103_false"
   ],
   "note": "Two parts are false of the code (C103_false): a hexadecimal number that ends in d loses its last digit, and answers are no arguments. C103_degrees_partial has the first part for all other numbers. The rest is proved: C103_read, C103_radians, C103_refused."
  },
  {
   "property": "C104",
   "status": "proved",
   "theorems": [
    "Coil.C104_list",
    "Coil.C104_add"
   ],
   "note": "C104_list and C104_add, for items whose source and type are enumerators. C95 carries the result over to the version in which names are views into kept texts."
  },
  {
   "property": "C105",
   "status": "proved",
   "theorems": [
    "Coil.C105_args",
    "Coil.C105_floats",
    "Coil.C105_number",
    "Coil.C105_save",
    "Coil.C105_missing",
    "Coil.C105_both"
   ],
   "note": "C105_args, C105_floats with C105_number for what the lines say about the texts of numbers, C105_save, C105_missing, C105_both. A number without enumerator is a valid type for save_game and is printed as an empty name (saveName)."
  },
  {
   "property": "C106",
   "status": "proved",
   "theorems": [
    "Coil.C106_convert",
    "Coil.C106_floats",
    "Coil.C106_spawn",
    "Coil.C106_refused",
    "Coil.C106_position",
    "Coil.C106_read",
    "Coil.C106_write",
    "Coil.C106_again"
   ],
   "note": "C106_convert with C106_floats, C106_spawn, C106_refused, C106_position, C106_read, C106_write, C106_again."
  },
  {
   "property": "C107",
   "status": "proved",
   "theorems": [
    "Coil.C107_run",
    "Coil.C107_as_is",
    "Coil.C107_one_effect",
    "Coil.C107_one_story",
    "Coil.C107_leave",
    "Coil.C107_second_create"
   ],
   "note": "C107_run (repaired map), C107_as_is (map as it is), C107_one_effect, C107_one_story, C107_leave, with the witness C107_second_create."
  },
  {
   "property": "C108",
   "status": "proved",
   "theorems": [
    "Coil.C108_keys",
    "Coil.C108_stored",
    "Coil.C108_programs",
    "Coil.C108_safe"
   ],
   "note": "C108_keys, C108_stored, C108_programs, C108_safe."
  },
  {
   "property": "C109",
   "status": "proved",
   "theorems": [
    "Coil.C109_root",
    "Coil.C109_negative",
    "Coil.C109_throws",
    "Coil.C109_refused",
    "Coil.C109_float",
    "Coil.C109_type",
    "Coil.C109_named"
   ],
   "note": "C109_root, C109_negative, C109_throws, C109_refused, C109_float, C109_type, C109_named."
  },
  {
   "property": "C110",
   "status": "proved",
   "theorems": [
    "Coil.C110_run",
    "Coil.C110_commands",
    "Coil.C110_total",
    "Coil.C110_one"
   ],
   "note": "Exact in both directions (C110_run), for both maps; with C110_total for definedness and C110_one for determinism."
  },
  {
   "property": "C111",
   "status": "proved",
   "theorems": [
    "Coil.C111_run",
    "Coil.C111_one"
   ],
   "note": "C111_run for every defined run of the whole program of the example; C111_one says that the history determines the answer. The run is undefined only where `sum` overflows (C98)."
  },
  {
   "property": "C112",
   "status": "partial",
   "theorems": [
    "Coil.C112_position",
    "Coil.C112_id_partial",
    "Coil.C112_find_one",
    "Coil.C112_text_false",
    "Coil.C112_shift_false",
    "Coil.C112_find_false",
    "Coil.C112_focus_false"
   ],
   "note": "Ids are positions in a vector: C112_position is exact, C112_id_partial needs that no older entity is removed; C112_shift_false, C112_find_false, C112_focus_false and C112_text_false are the witnesses."
  },
  {
   "property": "C113",
   "status": "proved",
   "theorems": [
    "Coil.C113_run",
    "Coil.C113_total",
    "Coil.C113_iff",
    "Coil.C113_one"
   ],
   "note": "C113_run, C113_total and the exact criterion C113_iff for the whole program of the example, for both maps; C113_one says that the history determines the answers."
  },
  {
   "property": "C114",
   "status": "partial",
   "theorems": [
    "Coil.C114_found",
    "Coil.C114_whole",
    "Coil.C114_error_partial",
    "Coil.C114_split_false"
   ],
   "note": "C114_found and C114_whole are exact; C114_error_partial bounds the error for all finite numbers in range; C114_split_false is the witness that dividing the time differently changes the position."
  },
  {
   "property": "C115",
   "status": "proved",
   "theorems": [
    "Coil.C115_run",
    "Coil.C115_answers",
    "Coil.C115_total",
    "Coil.C115_stays",
    "Coil.C115_untouched",
    "Coil.C115_one"
   ],
   "note": "C115_run for every family of variables, both maps; C115_answers is the exact criterion for definedness; C115_total, C115_stays, C115_untouched, C115_one."
  },
  {
   "property": "C116",
   "status": "partial",
   "theorems": [
    "Coil.C116_run",
    "Coil.C116_line",
    "Coil.C116_toggles",
    "Coil.C116_total_partial",
    "Coil.C116_total_false"
   ],
   "note": "C116_run, C116_line and C116_toggles hold everywhere; C116_total_partial is the exact criterion, C116_total_false is the witness for signed `char` (the bool conversion passes negative values to `tolower`, as in C14)."
  },
  {
   "property": "C117",
   "status": "proved",
   "theorems": [
    "Coil.C117_iff",
    "Coil.C117_order",
    "Coil.C117_next",
    "Coil.C117_prefix",
    "Coil.C117_total"
   ],
   "note": "C117_iff, C117_total and C117_order; C117_next and C117_prefix without assumptions about the functions; on both maps."
  },
  {
   "property": "C118",
   "status": "partial",
   "theorems": [
    "Coil.C118_run",
    "Coil.C118_total_partial",
    "Coil.C118_anytime",
    "Coil.C118_formats",
    "Coil.C118_total_false",
    "Coil.C118_invert_false"
   ],
   "note": "C118_run, C118_anytime and C118_formats hold everywhere; C118_total_partial is the exact criterion; C118_total_false (overflow of `int`) and C118_invert_false (`tolower` of a negative value) are the witnesses against the full claim."
  },
  {
   "property": "C119",
   "status": "partial",
   "theorems": [
    "Coil.C119_run",
    "Coil.C119_total_partial",
    "Coil.C119_count",
    "Coil.C119_format",
    "Coil.C119_total_false"
   ],
   "note": "C119_run, C119_count and C119_format hold everywhere; C119_total_partial is the exact criterion; C119_total_false is the witness for signed `char`."
  },
  {
   "property": "C120",
   "status": "partial",
   "theorems": [
    "Coil.C120_accepts",
    "Coil.C120_shows",
    "Coil.C120_run",
    "Coil.C120_total_partial",
    "Coil.C120_one",
    "Coil.C120_declared",
    "Coil.C120_total_false"
   ],
   "note": "C120_accepts, C120_shows, C120_one for all plain enumerations (C120_declared: those of the example); C120_run holds everywhere; C120_total_partial is the exact criterion; C120_total_false (`abilities.set_ability SpeedBoost 100`) is the witness against the full claim."
  },
  {
   "property": "C121",
   "status": "proved",
   "theorems": [
    "Coil.C121_run",
    "Coil.C121_total",
    "Coil.C121_shown",
    "Coil.C121_order"
   ],
   "note": "C121_run, C121_total (exact criterion), C121_shown and C121_order."
  },
  {
   "property": "C122",
   "status": "proved",
   "theorems": [
    "Coil.C122_run",
    "Coil.C122_total",
    "Coil.C122_ids",
    "Coil.C122_same",
    "Coil.C122_kept"
   ],
   "note": "C122_run, C122_total (exact criterion), C122_ids, C122_same and C122_kept."
  },
  {
   "property": "C123",
   "status": "partial",
   "theorems": [
    "Coil.C123_run",
    "Coil.C123_total_partial",
    "Coil.C123_same",
    "Coil.C123_root",
    "Coil.C123_negative",
    "Coil.C123_throws",
    "Coil.C123_total_false"
   ],
   "note": "C123_run, C123_same, C123_root, C123_negative and C123_throws hold everywhere; C123_total_partial is the exact criterion; C123_total_false is the witness for signed `char`."
  },
  {
   "property": "C124",
   "status": "partial",
   "theorems": [
    "Coil.C124_run",
    "Coil.C124_next_partial",
    "Coil.C124_sides",
    "Coil.C124_data",
    "Coil.C124_kept",
    "Coil.C124_next_false"
   ],
   "note": "C124_run, C124_sides, C124_data and C124_kept hold everywhere; C124_next_partial is the exact criterion, step by step; C124_next_false are witnesses: `window.aspect -1`, and `window.diagonal 5` after `window.diagonal 0`."
  },
  {
   "property": "C125",
   "status": "partial",
   "theorems": [
    "Coil.C125_run",
    "Coil.C125_total_partial",
    "Coil.C125_words",
    "Coil.C125_items",
    "Coil.C125_same",
    "Coil.C125_list",
    "Coil.C125_listed",
    "Coil.C125_total_false"
   ],
   "note": "C125_run, C125_words, C125_items, C125_same, C125_list and C125_listed hold everywhere; C125_total_partial is the exact criterion; C125_total_false are witnesses: `required_and_optional required=tru` and the byte 0xC3."
  },
  {
   "property": "C126",
   "status": "partial",
   "theorems": [
    "Coil.C126_run",
    "Coil.C126_total_partial",
    "Coil.C126_where",
    "Coil.C126_apart",
    "Coil.C126_total_false"
   ],
   "note": "C126_run, C126_where and C126_apart hold everywhere; C126_total_partial is the exact criterion; C126_total_false are witnesses: `sum 2147483647,1` and `sum (2147483647 1 -1)`."
  },
  {
   "property": "C127",
   "status": "proved",
   "theorems": [
    "Coil.C127_sound",
    "Coil.C127_complete",
    "Coil.C127_next",
    "Coil.C127_one",
    "Coil.C127_stays",
    "Coil.C127_quiet"
   ],
   "note": ""
  },
  {
   "property": "C128",
   "status": "partial",
   "theorems": [
    "Coil.C128_run",
    "Coil.C128_total_partial",
    "Coil.C128_people",
    "Coil.C128_live",
    "Coil.C128_renamed",
    "Coil.C128_angle",
    "Coil.C128_total_false"
   ],
   "note": "C128_run, C128_people, C128_live, C128_renamed and C128_angle hold everywhere; C128_total_partial is the exact criterion for one more request; C128_total_false are witnesses: a variable for the id `nobody`, and a variable with the name of the command that makes variables."
  },
  {
   "property": "C129",
   "status": "proved",
   "theorems": [
    "Coil.C129_refused",
    "Coil.C129_skipped",
    "Coil.C129_either",
    "Coil.C129_one",
    "Coil.C129_basic",
    "Coil.C129_overloading",
    "Coil.C129_usertypes",
    "Coil.C129_errors",
    "Coil.C129_named",
    "Coil.C129_properties",
    "Coil.C129_variadic",
    "Coil.C129_compound",
    "Coil.C129_variables",
    "Coil.C129_enums",
    "Coil.C129_flags"
   ],
   "note": ""
  },
  {
   "property": "C130",
   "status": "proved",
   "theorems": [
    "Coil.C130_refused",
    "Coil.C130_skipped",
    "Coil.C130_either",
    "Coil.C130_advanced",
    "Coil.C130_anywhere"
   ],
   "note": ""
  },
  {
   "property": "C131",
   "status": "proved",
   "theorems": [
    "Coil.C131_run",
    "Coil.C131_as_is",
    "Coil.C131_one",
    "Coil.C131_either",
    "Coil.C131_skipped"
   ],
   "note": ""
  },
  {
   "property": "C132",
   "status": "proved",
   "theorems": [
    "Coil.C132_told",
    "Coil.C132_annals",
    "Coil.C132_variadic",
    "Coil.C132_errors",
    "Coil.C132_properties",
    "Coil.C132_named",
    "Coil.C132_usertypes",
    "Coil.C132_advanced",
    "Coil.C132_basic",
    "Coil.C132_overloading",
    "Coil.C132_compound",
    "Coil.C132_variables",
    "Coil.C132_enums",
    "Coil.C132_flags"
   ],
   "note": ""
  },
  {
   "property": "C133",
   "status": "proved",
   "theorems": [
    "Coil.C133_one",
    "Coil.C133_tells",
    "Coil.C133_variadic",
    "Coil.C133_compound",
    "Coil.C133_basic",
    "Coil.C133_enums",
    "Coil.C133_properties",
    "Coil.C133_flags"
   ],
   "note": ""
  }
 ]
}