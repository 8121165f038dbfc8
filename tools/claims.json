{
 "C01": [
  "proved",
  "Every legal spelling parses to the command it denotes; also for every sensible delimiter configuration, and as a render function with injectivity."
 ],
 "C02": [
  "partial",
  "False as stated: C02_false gives the input f (\") whose view has length 2^64-1. C02_partial is the exact condition (no compound value has a part that is one lone quote), C02_even_quotes_partial a condition on the input."
 ],
 "C03": [
  "proved",
  "Any input, any configuration (even overlapping delimiter sets): terminates, no undefined behaviour, documented errors only."
 ],
 "C04": [
  "proved",
  "Leading, trailing, between tokens, and around delimiters; for commands and for errors."
 ],
 "C05": [
  "proved",
  "Positional, named, name position, and any token context."
 ],
 "C06": [
  "proved",
  "Iff with the token grammar; exact error of every rejected sequence."
 ],
 "C07": [
  "proved",
  "openAtEnd is an independent three-state scan; exact error in both cases, no such error when balanced."
 ],
 "C08": [
  "partial",
  "False for bytes above 127 with signed char and for '='; C08_partial for configurations with disjoint ASCII sets without '='; C08_exact says for every configuration which characters delimit where, and gives the outcome exactly."
 ],
 "C09": [
  "partial",
  "False for a leading separator; C09_partial for every other bare word."
 ],
 "C10": [
  "proved",
  "Iff with the splitting specification, the simple form without quotes, accounting for the whole text, uniqueness."
 ],
 "C11": [
  "proved",
  "All integer types, all platforms; also injectivity of printing."
 ],
 "C12": [
  "proved",
  "Iff with an independent numeral grammar; exact error for every other text."
 ],
 "C13": [
  "partial",
  "False as stated (' -1' is accepted): C13_false, C13_false_uint. C13_unsigned_iff is the exact characterisation; the partial theorems cover texts without a minus sign and texts without leading white space."
 ],
 "C14": [
  "partial",
  "False as stated: undefined behaviour for some non-ASCII texts with signed char (C14_false; exact condition in C14_bool_ub_iff). Partial theorems for ASCII texts or unsigned char; round trip in full. C14_bool_accept_iff: the exact set of accepted texts on every platform."
 ],
 "C15": [
  "proved",
  "Integers, floating-point types, bool, strings."
 ],
 "C16": [
  "proved",
  "Any bytes, including NUL and non-ASCII."
 ],
 "C17": [
  "proved",
  "Any element type that converts by value (all but coil::Value, see C58); iff for success and for failure."
 ],
 "C18": [
  "partial",
  "False as stated (C18_false, C18_false_any: extra sub-values are ignored). C18_optional_partial for at most one sub-value. For element type coil::Value see C58."
 ],
 "C19": [
  "proved",
  "strtof/strtod/strtold are an arbitrary function."
 ],
 "C20": [
  "proved",
  "For all programs of Vector statements on any number of vectors; the preconditions are live variables, non-empty for popBack, index in range for writes, and byte counts below 2^64 (see C49)."
 ],
 "C21": [
  "proved",
  "Same programs as C20. Elements destroyed twice or unconstructed would be undefined behaviour in the model, which C20 excludes."
 ],
 "C24": [
  "partial",
  "False of the code: erase does not update the prev link of the moved node's successor (witness C24_dictionary_false). Proved: for all histories of the repaired erase; for every history of the code in which each removal reads a correct prev link (C24_links_partial, checkable from the map, implied by the other conditions: C24_links_general), in particular when every bucket holds at most one entry at removals or a new key or clear comes between two removals; only stale prev links ever differ from the repaired map (C24_stale_link)."
 ],
 "C25": [
  "partial",
  "False of the code: witnesses of an endless look-up and of an out-of-bounds write. Proved for histories whose removals read correct prev links (C25_links_partial), for spaced histories and, for all histories, of the repaired erase."
 ],
 "C26": [
  "proved",
  "For any container, any bodies (including ones that execute, add and remove commands) and any nesting: which object is called and with what, that it does happen, and that nothing else is called at that level."
 ],
 "C27": [
  "proved",
  "The program is unchanged; exact message, also for names with NUL bytes."
 ],
 "C28": [
  "proved",
  "The program is unchanged; the errors are exactly those of the arguments that do not convert, in order. Precondition: every conversion is defined (see C14 for bool)."
 ],
 "C29": [
  "proved",
  "For every execution that gives a result; and the exact return value of calls that end normally."
 ],
 "C30": [
  "proved",
  "The program is unchanged; exact messages, also for names with NUL bytes."
 ],
 "C31": [
  "proved",
  "For every lexer; and only accepted lines make calls."
 ],
 "C32": [
  "partial",
  "False of the code as it is because of UnorderedMap::erase (witness C32_lookup_false). Proved for the repaired map and for safe histories of the code as it is; C32_found_was_added holds always. C32_links_partial: up to the stale links of the same map, lookups still answer by the last addition of the name."
 ],
 "C33": [
  "proved",
  "With catching nothing leaves execute, errors and output before the exception are kept; without catching the exception propagates. With exhausted memory see C94 (C94_catches_false)."
 ],
 "C34": [
  "proved",
  "For any number of variables of any types, any sequence of reads and writes, with the registry unchanged by the functions."
 ],
 "C35": [
  "proved",
  "const variables, getter-only properties and bound getter-only properties; the getter is arbitrary user code."
 ],
 "C36": [
  "proved",
  "Reads, writes and rejected writes; getter and setter are arbitrary user code."
 ],
 "C37": [
  "proved",
  "Untyped and typed look-up."
 ],
 "C38": [
  "proved",
  "All cases of getOrReport, untyped and typed."
 ],
 "C39": [
  "proved",
  "For every execution that gives a result, however the function ends."
 ],
 "C40": [
  "proved",
  "For the code as it is, in every reachable state, including undefined outcomes."
 ],
 "C41": [
  "partial",
  "False as stated: C41_echo_false (a function can assign to named arguments through the non-const iterators of NamedArgs). C41_echo_partial: exact input after such assignments, equal to the original without them; the rest is always echoed."
 ],
 "C42": [
  "partial",
  "Proved as long as nothing is done to the running command's own name; false when the command removes itself (witness)."
 ],
 "C43": [
  "partial",
  "False as stated for texts with NUL bytes. C43_conversion_partial for NUL-free texts in conversion errors."
 ],
 "C47": [
  "partial",
  "False after move construction, for every registry. Move assignment is a swap; a new registry can be assigned."
 ],
 "C48": [
  "partial",
  "As C32: the command may not be found in a damaged map; C48_still_stored holds always. C48_links_partial: a registered command that the links still reach keeps its metadata."
 ],
 "C49": [
  "partial",
  "False of the code: the product wraps (witness). C49_room_partial gives the exact condition."
 ],
 "C50": [
  "proved",
  "Text form and quoting in errors."
 ],
 "C51": [
  "proved",
  "Same programs as C20."
 ],
 "C22": [
  "proved",
  "Programs over any number of strings, moves included. The terminator is claimed for programs without moves (C22_terminated); a moved-from string has a null cStr() (C22_terminated_false)."
 ],
 "C23": [
  "partial",
  "False: with reallocation the source is read from the released block (C23_realloc_false: always; C23_plain_false: for every freshly constructed string). Partial: when the capacity suffices."
 ],
 "C52": [
  "proved",
  "For strings all of whose bytes were determined; comparing unwritten bytes is reading indeterminate values."
 ],
 "C44": [
  "proved",
  "Programs over any number of optionals, copies may throw at any point; moves do not throw. A moved-from optional still has a (moved-from) value."
 ],
 "C45": [
  "partial",
  "False when the copy in an assignment between a value and an error throws: the target is left without contained object (C45_throw_false, for all programs). Partial: all other histories."
 ],
 "C46": [
  "proved",
  "Objects are handed to UniquePtr by makeUnique only. Assignment exchanges the objects."
 ],
 "C53": [
  "proved",
  "Composition of lexer, conversion and execution. Floating-point parameters are in C19. Reads gives the meaning; unsigned texts must have no minus (see C13)."
 ],
 "C54": [
  "proved",
  "C54_vector_text shows that the restriction to scalar types is needed."
 ],
 "C55": [
  "proved",
  "C55_quote_limit shows that the condition on quotes is needed."
 ],
 "C56": [
  "proved",
  "About the bound used in the model of execute. C56_self_execution: unbounded recursion is not guarded against."
 ],
 "C57": [
  "partial",
  "False for texts of 2^31 bytes and more (C57_long_false, C57_long_exception_false, C57_long_view_false). Proved below that size for every format string of the library except the floating-point ones."
 ],
 "C58": [
  "partial",
  "False: the element conversion returns a reference to a destroyed temporary (C58_vector_false, C58_optional_false). C58_partial: arguments without content; C58_exact: which parameter types are affected."
 ],
 "C59": [
  "proved",
  "The specification is a function on texts, apart from the lexical grammar."
 ],
 "C60": [
  "partial",
  "Proved for load factors of at least 1 (the default is 1) and every history that is not cut short by the undefined behaviour of C25. False for smaller factors: C60_small_false (rehash(0) and a division by zero at the first insertion)."
 ],
 "C61": [
  "proved",
  "Includes that calling a moved-from holder dereferences null (C61_moved_from). Moves of callables do not throw."
 ],
 "C62": [
  "proved",
  "The positions found by look-ups are arbitrary, so this also holds for tables damaged by C24."
 ],
 "C63": [
  "partial",
  "False: adding a command can invalidate all references (C63_reference_add_false), removing another command can (C63_reference_remove_false). C63_references_partial gives the exact effect of every call."
 ],
 "C64": [
  "proved",
  "Covers the built-in names; users can give two of their own types the same name."
 ],
 "C65": [
  "partial",
  "False: printing a null char const* is undefined (C65_cstr_null_false); char const* is reported as char and other pointers as what they point to (C65_return_type_false); the text null is ambiguous for texts (C65_null_text_false). Proved for pointers other than char const* and for non-null char const*."
 ],
 "C66": [
  "proved",
  "For strings and optionals the texts do not determine the value (C66_strings_false); the property does not claim it."
 ],
 "C67": [
  "partial",
  "Proved for vectors (C67_vector_partial, C67_vector_reserved) and for strings with reserved room (C67_string_reserved). False for strings without reserve: every append is an allocation (C67_string_false)."
 ],
 "C68": [
  "partial",
  "Proved in full where the C library does not report underflow (C68_iff), and on all libraries for normal numbers, exact numbers, infinities, NaNs, overflow and other texts. False with glibc: subnormal numbers such as 1e-310 set errno and are rejected (C68_tiny_false)."
 ],
 "C69": [
  "proved",
  "The value itself is not kept (C69_exact_false); the property does not claim it."
 ],
 "C70": [
  "partial",
  "Proved for double and long double (C70_stable) and for all values of float but those with the text 1e-06 (C70_single_partial). False for these: 1e-06 reads as a float below one millionth, which prints as 0 (C70_single_false)."
 ],
 "C71": [
  "partial",
  "The first two parts are proved for every history (C71_transparent, C71_contained). That no assertion fails is proved for the repaired map and, for the code as it is, for histories whose removals read no stale link; false otherwise (C71_stops_false). The assertions also miss lost entries and endless look-ups (C71_undetected_false, C71_endless_false)."
 ],
 "C72": [
  "proved",
  "Simulation up to stopping, containment, and the exact set of texts that stop the parser. C72_error_lost: a syntax error can be hidden by the stop."
 ],
 "C73": [
  "proved",
  "Simulation up to stopping for all programs; exact characterisation of the programs that stop. C73_overflow_false: beyond size_t the assertions do not prevent a write out of bounds."
 ],
 "C74": [
  "proved",
  "Exact characterisation of the legal programs that stop. C74_moved_from_false: copying a moved-from string is harmless without assertions and stops with them. C74_self_append_false: assertions do not notice the use after free of C23."
 ],
 "C75": [
  "proved",
  "Exact characterisation of a call (C75_call_iff). C75_removing_serializer_false: a serializer that removes the command being executed makes the call undefined, as a function that removes itself (C42)."
 ],
 "C76": [
  "proved",
  "Also for the messages with any serializers. C76_order_false: with effects, the order shows in the program state and in the executed commands."
 ],
 "C77": [
  "proved",
  "Exact characterisation of what compiles and of the signature. C77_isFunc_false: the traits call functions usable that do not compile when registered (&&-qualified ones and ones with non-const reference parameters)."
 ],
 "C78": [
  "proved",
  "Transparency, containment and the repaired map in full. The code as it is does fail assertions in legal programs: C78_stops_false (map), C78_line_false (lexer), C78_no_lexer."
 ],
 "C79": [
  "partial",
  "Proper programs, equality, and the assertions of Expected and UniquePtr in full. Optional::operator-> has no assertion (C79_arrow_false), so reading an empty optional through it is undefined behaviour in every build; C79_optional_stops_partial covers the other accessors."
 ],
 "C80": [
  "partial",
  "Complete for elements whose move constructor does not throw. If it may throw, an interrupted growth loses the elements already moved to the new storage and leaves them moved-from in the old one (C80_growth_false, for every vector and every position); C80_course states exactly what can be lost."
 ],
 "C81": [
  "proved",
  "C81_other_delimiters shows that ASCII delimiters are needed. For floating-point results the C library is the one of Model/Float.lean."
 ],
 "C82": [
  "partial",
  "False of the code for removals that are not allowed (C82_false, the fault of C24). Proved for the repaired erase and, for the code as it is, for allowed removals; C82_refines and C82_accounting hold for all programs."
 ],
 "C83": [
  "partial",
  "Proved for the repaired erase and, for the code as it is, for programs with allowed removals, because of C82_false."
 ],
 "C84": [
  "partial",
  "False of the code for copy assignment (C84_false): the implicit operator= assigns the buckets first, and when copying the nodes throws the target has the buckets of the source with its own nodes, so that look-ups are out of bounds. Proved for all other statements; C84_assign_leaves and C84_assign_repair say what a failed assignment leaves and how to go on. Removals as in C82."
 ],
 "C85": [
  "partial",
  "Which texts are accepted, rejected (with which error) and undefined is proved exactly. False of the code: a number outside an enumeration without fixed underlying type is undefined (C85_defined_false); second names of a value, constants beyond -128..128 and names that differ by case only are not accepted as themselves (C85_names_false); values without a name are written as an empty text (C85_roundtrip_false). The partial theorems have exactly these conditions."
 ],
 "C86": [
  "partial",
  "Setting, showing and rejecting are proved in full. False of the code: the text of a flag above 128 is rejected, and the empty set and sets with nameless bits are shown as an empty text (C86_restore_false). C86_restore_partial is the round trip for all other sets."
 ],
 "C87": [
  "partial",
  "Proved in full for the repaired erase (C87_map_is_list, C87_hash_unseen). False of the code, because of C24 (C87_as_is_false). C87_as_is_partial and C87_heap_partial: the code as it is, on lists and on heaps, for all programs whose changes of the registry are handled by erase as it is (SafeHistory); on heaps sizes must be representable."
 ],
 "C88": [
  "proved",
  "Arguments are converted and parameters initialised from left to right; C++ leaves the order open."
 ],
 "C89": [
  "partial",
  "Proved in both directions with the repaired erase (C89_sound, C89_complete), with the consequences C89_undefined and C89_one_meaning. For the code as it is the full claim is false because of C24 (C89_as_is_false); proved for histories that erase handles (C89_as_is_partial) and on heaps (C89_heap_partial)."
 ],
 "C90": [
  "partial",
  "Proved for every input that has a transcript (C90_session); every list of lines without a lone quote has one (C90_defined); the program ends exactly if some line asks for it (C90_exit_partial). The full claim is false: at the end of the input the program does not stop but complains for ever (C90_end_of_input_false), and a lone quote in a compound value is undefined behaviour, from C02 (C90_lone_quote_false)."
 ],
 "C91": [
  "partial",
  "Every registered command is one that ought to be, so nothing dangles (C91_no_dangling_partial); with names that no two living scopes share the registered commands are exactly those that ought to be (C91_exclusive_partial); with the repaired map, undefined behaviour is characterised exactly (C91_defined). The full claim is false: the end of a scope removes commands of others with the same names (C91_shared_false), already when `create_subsystem` of the example is executed twice (C91_recreate_false); ending a scope after the registry dereferences null (C91_null_false); with the map as it is, C24 can lose commands of others (C91_as_is_false)."
 ],
 "C92": [
  "partial",
  "Proved for all programs that do not append a string to itself with += (undefined anyway, C23): C92_strings_partial. A statement other than + that throws leaves the state identical, in every state (C92_unchanged); exactly the statements that would allocate throw (C92_exact); moves never do (C92_no_throw). False for `std::move(a) + b`: when it throws, the text of a is lost (C92_moved_false)."
 ],
 "C93": [
  "proved",
  "C93_texts: programs on views that leave the texts of their callers alone (DefIs) are programs on texts; C93_every_program: every program on texts is such a program, so all theorems about `execute` hold at the level of views; C93_parameters: StringView and Value parameters. For arbitrary programs on views: C93_views, C93_in_place, C93_destroyed. C93_own_command: functions that destroy or overwrite the command they are called by. Forward only: nothing is said where executing the text is undefined."
 ],
 "C94": [
  "partial",
  "False of the code in two ways. C94_catches_false: `std::bad_alloc` leaves `execute` although exceptions are caught, when there is no memory for the tokens or for the report of an exception (C94_escapes: nothing else does). C94_as_is_false: `erase` loses commands (C24). C94_sound_partial, C94_complete_partial, C94_meaning_partial: the library goes exactly the ways of the semantics, with the repaired `erase` or for removals it handles, while sizes are representable. C94_honest, C94_nothing, C94_plenty (with memory it is the model without failures), C94_map_calm."
 ],
 "C95": [
  "partial",
  "False of both examples with a console. C95_console_false: if each line is read into a string that is destroyed, as in main.cpp, both examples read a destroyed text. C95_one_buffer_false: with one buffer a variable silently shows and changes another entity. C95_create_false: null pointer for unknown ids, and a running function object that is destroyed. C95_in_place_partial: texts in place. C95_each_line_partial, C95_nothing_kept: lines destroyed, if nothing of them is kept. C95_examples: both examples are instances of C95_in_place_partial. C95_create_partial, C95_read, C95_write, C95_read_only: what the made variables do."
 ],
 "C96": [
  "proved",
  "C96_reads: which positions are read and how often; the result is that of `lexParse`. C96_size: the size of what is built. C96_six: six is reached."
 ],
 "C97": [
  "partial",
  "The bound for a single look-up is false of the code: C97_constant_false gives, for every n, n names of 2n characters that all collide, whatever the number of buckets, so that registering them compares each with all before it (C97_collide: 2^n names of 2n characters with one hash). C97_compares_partial: which names are compared, for all histories of the repaired map and those that `erase` as it is performs correctly (C24). C97_average_partial: the average over the buckets."
 ],
 "C98": [
  "partial",
  "False of the code where a product or a partial sum is not a value of int: C98_false gives lines with undefined behaviour, one of which is defined in another order of the numbers. C98_scale_partial and C98_sum_partial say exactly when the answer is right and when the behaviour is undefined; C98_same_sign: for numbers of one sign only the sum matters; C98_reject: a part that is no number."
 ],
 "C99": [
  "partial",
  "The claim about the order is false of the code for `sum_all`: C99_order_false. Everything else is proved: C99_sum (accuracy), C99_whole (exactness), C99_add, C99_commutes."
 ],
 "C100": [
  "partial",
  "False of the code for numbers that are negative, too great, infinite or NaN: the conversion to std::size_t is undefined (C100_undefined, for all such texts; C100_false with concrete lines). `window.diagonal 0` and then `window.diagonal 5` is undefined too (C100_diagonal_false). C100_aspect_partial: the claim for 0 ≤ q with a width below 2^24."
 ],
 "C101": [
  "proved",
  ""
 ],
 "C102": [
  "partial",
  "The last claim is false of the code: an entity whose name reads as an id is not reached by its name, and another one may be renamed instead (C102_false). C102_reachable_partial says exactly which entities are reached. Everything else is proved: C102_rename, C102_unknown, C102_list, C102_add."
 ],
 "C103": [
  "partial",
  "Two parts are false of the code (C103_false): a hexadecimal number that ends in d loses its last digit, and answers are no arguments. C103_degrees_partial has the first part for all other numbers. The rest is proved: C103_read, C103_radians, C103_refused."
 ],
 "C104": [
  "proved",
  "C104_list and C104_add, for items whose source and type are enumerators. C95 carries the result over to the version in which names are views into kept texts."
 ],
 "C105": [
  "proved",
  "C105_args, C105_floats with C105_number for what the lines say about the texts of numbers, C105_save, C105_missing, C105_both. A number without enumerator is a valid type for save_game and is printed as an empty name (saveName)."
 ],
 "C106": [
  "proved",
  "C106_convert with C106_floats, C106_spawn, C106_refused, C106_position, C106_read, C106_write, C106_again."
 ],
 "C107": [
  "proved",
  "C107_run (repaired map), C107_as_is (map as it is), C107_one_effect, C107_one_story, C107_leave, with the witness C107_second_create."
 ],
 "C108": [
  "proved",
  "C108_keys, C108_stored, C108_programs, C108_safe."
 ],
 "C109": [
  "proved",
  "C109_root, C109_negative, C109_throws, C109_refused, C109_float, C109_type, C109_named."
 ],
 "C110": [
  "proved",
  "Exact in both directions (C110_run), for both maps; with C110_total for definedness and C110_one for determinism."
 ],
 "C111": [
  "proved",
  "C111_run for every defined run of the whole program of the example; C111_one says that the history determines the answer. The run is undefined only where `sum` overflows (C98)."
 ],
 "C112": [
  "partial",
  "Ids are positions in a vector: C112_position is exact, C112_id_partial needs that no older entity is removed; C112_shift_false, C112_find_false, C112_focus_false and C112_text_false are the witnesses."
 ],
 "C113": [
  "proved",
  "C113_run, C113_total and the exact criterion C113_iff for the whole program of the example, for both maps; C113_one says that the history determines the answers."
 ],
 "C114": [
  "partial",
  "C114_found and C114_whole are exact; C114_error_partial bounds the error for all finite numbers in range; C114_split_false is the witness that dividing the time differently changes the position."
 ],
 "C115": [
  "proved",
  "C115_run for every family of variables, both maps; C115_answers is the exact criterion for definedness; C115_total, C115_stays, C115_untouched, C115_one."
 ],
 "C116": [
  "partial",
  "C116_run, C116_line and C116_toggles hold everywhere; C116_total_partial is the exact criterion, C116_total_false is the witness for signed `char` (the bool conversion passes negative values to `tolower`, as in C14)."
 ],
 "C117": [
  "proved",
  "C117_iff, C117_total and C117_order; C117_next and C117_prefix without assumptions about the functions; on both maps."
 ],
 "C118": [
  "partial",
  "C118_run, C118_anytime and C118_formats hold everywhere; C118_total_partial is the exact criterion; C118_total_false (overflow of `int`) and C118_invert_false (`tolower` of a negative value) are the witnesses against the full claim."
 ],
 "C119": [
  "partial",
  "C119_run, C119_count and C119_format hold everywhere; C119_total_partial is the exact criterion; C119_total_false is the witness for signed `char`."
 ],
 "C120": [
  "partial",
  "C120_accepts, C120_shows, C120_one for all plain enumerations (C120_declared: those of the example); C120_run holds everywhere; C120_total_partial is the exact criterion; C120_total_false (`abilities.set_ability SpeedBoost 100`) is the witness against the full claim."
 ],
 "C121": [
  "proved",
  "C121_run, C121_total (exact criterion), C121_shown and C121_order."
 ],
 "C122": [
  "proved",
  "C122_run, C122_total (exact criterion), C122_ids, C122_same and C122_kept."
 ],
 "C123": [
  "partial",
  "C123_run, C123_same, C123_root, C123_negative and C123_throws hold everywhere; C123_total_partial is the exact criterion; C123_total_false is the witness for signed `char`."
 ],
 "C124": [
  "partial",
  "C124_run, C124_sides, C124_data and C124_kept hold everywhere; C124_next_partial is the exact criterion, step by step; C124_next_false are witnesses: `window.aspect -1`, and `window.diagonal 5` after `window.diagonal 0`."
 ],
 "C125": [
  "partial",
  "C125_run, C125_words, C125_items, C125_same, C125_list and C125_listed hold everywhere; C125_total_partial is the exact criterion; C125_total_false are witnesses: `required_and_optional required=tru` and the byte 0xC3."
 ],
 "C126": [
  "partial",
  "C126_run, C126_where and C126_apart hold everywhere; C126_total_partial is the exact criterion; C126_total_false are witnesses: `sum 2147483647,1` and `sum (2147483647 1 -1)`."
 ],
 "C127": [
  "proved",
  ""
 ],
 "C128": [
  "partial",
  "C128_run, C128_people, C128_live, C128_renamed and C128_angle hold everywhere; C128_total_partial is the exact criterion for one more request; C128_total_false are witnesses: a variable for the id `nobody`, and a variable with the name of the command that makes variables."
 ],
 "C129": [
  "proved",
  ""
 ],
 "C130": [
  "proved",
  ""
 ],
 "C131": [
  "proved",
  ""
 ],
 "C132": [
  "proved",
  ""
 ],
 "C133": [
  "proved",
  ""
 ]
}