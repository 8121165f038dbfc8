# Formal model of coil in Lean 4

The subject is the C++ library in `/repo` (coil, "COmmand Interpreter Library"),
read as text. Nothing in `/repo` is built or run. This directory contains a
model of the library, written function by function, and machine-checked proofs
of the properties listed in `properties.jsonl`.

## Layout

* `lean/Verif/Model/*`  - the model. Every definition cites the file and lines it
  models and says what it leaves out.
* `lean/Verif/Spec/*`   - small specifications that do not use the model's helpers
  (grammars, numerals, plain dictionaries, plain sequences).
* `lean/Verif/Proofs/*` - helper lemmas and invariants.
* `lean/Verif/Props/*`  - the property theorems, named `C01_...`, `C02_...` and so on,
  with `example`s showing that hypotheses are met by non-trivial cases.
* `lean/Verif/Repo/*`   - the expectations of the library's own tests (`/repo/tests/runtime`), replayed on the model by
  evaluation. These are tests of the model; no property rests on them. Every expectation that can be stated in the
  model agrees with it.
* `MANIFEST.json` - property -> theorems. `seeded/LOG.jsonl` - mutation attempts.

## Modelling principles

* Bytes are `UInt8`, texts are `List UInt8`. All loops are total functions. Where the
  C++ loop could run forever the model has an explicit `diverge` outcome, and
  where the C++ has undefined behaviour (out-of-bounds access, division by zero, use after
  free, null dereference, `tolower` of a negative `char`) the model has an
  explicit `ub` outcome (`Res`). "No UB" is therefore a theorem and not an assumption.
* `COIL_ASSERT` is modelled as doing nothing: asserts are off by default
  (`Config.h`, README "COIL_ENABLE_ASSERTS (OFF by default)"). `Model/Checked.lean` models builds with assertions;
  a failed one is the outcome `ub .assertion`.
* `size_t` values are natural numbers; the places where the code's unsigned
  arithmetic really wraps (group splitting, buffer size, hashing,
  unsigned number parsing) are modelled with the wrap.
* Platform parameters: width of `long` (32 or 64) and signedness of `char`.
* The C library functions `strtol`, `strtoul`, `strtoll`, `strtoull`, `%d`, `%u`, `%s`, `%.*s`,
  `%c`, `%zu`, `tolower`, `isspace` are modelled from the C standard ("C" locale).
  `strtof/strtod/strtold` and `%g` are parameters (any function) in `Model/Conv.lean`; `Model/Float.lean` models them from the C
  standard for binary formats (correctly rounded, round to nearest), with the report of underflow left open.
* Memory allocation never fails, except in `Model/VectorThrow.lean`, `Model/StringThrow.lean`, `Model/ExecThrow.lean` and `Model/HeapMapThrow.lean` (in
  the last keys and values move without throwing, and a statement has one point of failure for each of the two vectors). In the lexer and execution models texts are shorter than 2^31 bytes (the casts to
  `int` in `%.*s` are then exact); C57 proves that the messages of these models are what `sprintf` makes, and what happens
  above that size.
* `Model/Enums.lean`: the compiler names a value of an enumeration after the first constant declared with it, as GCC and Clang do
  in `__PRETTY_FUNCTION__`; undefined conversions to an enumeration are the outcome `ub .badEnum`.
* `Model/Console.lean`: each example is a function on the state of the examples that prints a text and may throw; it does not touch the
  registry of the console. Printing to `std::cout` does not fail, reading from `std::cin` fails only at the end of the input.
* `Model/Scoped.lean`: a `std::vector` that was moved from is empty, also after it was moved to itself.
* `Model/Views.lean`: a buffer is an allocation whose address is not reused after it was destroyed; a serializer reads all texts of its
  argument unless it only passes on views; names in the registry and names of types are always valid; the lexer is not exchanged during an
  execution. It is without the simplification of `Model/Exec.lean` and `Model/Conv.lean` that texts are byte strings (C93 relates the two).
* `Model/ExecThrow.lean`: a step of the library (lexing a line, converting an argument, reporting an error, logging, storing the value) asks
  for memory once, whether or not the code asks several times or has enough, and has no effect if there is none (strings: C92, vectors:
  C80). A conversion that is undefined or never ends is so before it throws. Function objects that a failing `add` did not get to make
  count as made and destroyed. `what()` of `std::bad_alloc` is `std::bad_alloc`.
* `Model/Kept.lean`: of NamedExample `inventory.list` and `inventory.add`, of AdvancedExample the entities, with short states: the names of
  items and the captured ids are views, all other members are values. A pointer to an entity is the entity at that time. `size_t` is any
  integer type. `loglinef` with `%s` stops at the first NUL.
* `Model/LexCost.lean` lists the positions that `str[i]` reads. It does not count what `sprintf` reads to print the first token into an error message (DefaultLexer.cpp 204), nor the comparisons with the configured delimiters, whose number per read depends on the configuration only.
* `Model/FindCost.lean` lists the keys that `findNodeIndex` compares; the cost of comparing two keys and of walking a chain in `insertNode` is not counted.
* `Model/Arith.lean`: `int` has 32 bits; overflow of signed arithmetic is the outcome `ub .intOverflow` (C++17 [expr] p4).
* `Model/FloatArith.lean`: operations round to the nearest number of the type of their operands (`FLT_EVAL_METHOD` is 0) and are not
  fused; the sign of a NaN that they give is a parameter; a conversion to an integer type that does not hold the number is the outcome
  `ub .castRange`.
* `Model/Window.lean`: `std::size_t` has 64 bits, division by zero is that of IEEE 754, and `std::hypotf` is a parameter.
* `Model/Sized.lean`: which sizes a vector can be given is a parameter.
* `Model/Variadic.lean`: `std::size_t` is `unsigned long`.
* `Model/Angle.lean`: the constant `3.14159265358979f` is the nearest `float`; `std::stringstream` prints a `float` as `%g` does.
* `Model/NamedCommands.lean` prints `%f` rounded to nearest, ties to even, as glibc and musl do.
* `Model/Particles.lean` rounds every operation with `float` to `float`; C++ permits more precision in between.
* `Model/Encapsulation.lean`: `DEBUG_CONSOLE_ENABLED` is defined; objects are never moved; `overOne` is the growth rule of the map as it is.
* `Model/ErrorCommands.lean` takes `std::sqrt` of a `float` to be correctly rounded, as IEEE 754 demands; the root of a NaN is a parameter
  (only reached for NaN arguments, which no theorem speaks of). The commands of the example have no effect on memory.
* `Model/Pool.lean` takes `std::vector`, `std::find`, `std::remove` with `erase`, and `std::optional` as the standard describes them; `std::size_t` is one of the
  unsigned types with 64 bits, and `%zu` prints it in decimal.
* `Model/Swarm.lean`: `std::stringstream` prints a `float` as `%g` does; every `float` operation is rounded to `float`; the name that `typeid` gives to `Point` is a parameter.
* `Model/VarProgram.lean`: a variable is a place in the state of the program that can be read and written; that different variables do not overlap is the hypothesis `Apart` (it holds of distinct C++ objects and is proved for the example).
* `Model/BasicExample.lean`: `std::to_string` of an `int` gives its decimal digits, strings may have any length, and what is
  written to `std::cout` are bytes in the state of the program.
* `Model/Overloading.lean`: the two objects are their names in the state of the program; `%f` prints with six places, rounded as the platform does.
* `Model/EnumPrograms.lean`: `magic_enum` is as in `Model/Enums.lean`; the underlying type of the unscoped enumeration `ResetMode`, which C++ leaves to the
  implementation, is a parameter.
* `Model/EntityProgram.lean`, `Model/ErrorProgram.lean`: the programs of the two examples; the state of the first is the vector of entities, the second has none. Ids and names are values of unbounded length.
* `Model/NamedProgram.lean`: the state of the program is the vector of items, of any length; an enumeration is its number of type `int`.
* `Model/AdvancedProgram.lean`: the views that variables capture are texts (C95 relates the two for texts that stay in place; a console that destroys its lines
  would leave them dangling); the angle is a value of type `float` as in `Model/Angle.lean`.
* `Model/UMap.lean` treats the vectors of a map as lists; `Model/HeapMap.lean` has them on the heap (C82 relates the two). There
  all maps of a program have the same load factor, and nodes and buckets have separate heaps.

## Trusted base

* The Lean 4.33 kernel. Axioms: at most `propext`, `Classical.choice`, `Quot.sound`
  (checked by `vcheck`). No `sorry`, no added axioms, no `native_decide`/`bv_decide`.
* The reading of the C++ source that the model's comments record.

## Plan per property

| Id | What is modelled, how it is proved |
|----|-----|
| C01 | Lexer model; lexical grammar relation, soundness + completeness; round trip by building a derivation for the rendered text. |
| C02 | Views as (offset, length). False: `f (")` yields a view of length 2^64-1. Negation by witness; partial theorem with the exact condition. |
| C03 | Case analysis of the loops: the branch is unreachable, and the loops terminate within their fuel. |
| C04 | From the lexical grammar: congruence of the tokeniser under white space. |
| C05 | From the lexical grammar. |
| C06 | Item grammar as an inductive relation over tokens; parse = the relation. |
| C07 | Specification of the scan for unmatched delimiters; exact error. |
| C08 | False for bytes >= 0x80 with signed char, and for '='; partial for ASCII other than '='; exact for every configuration with two sets of delimiters, one for tokens and one for compound values (`Spec/LexCfg.lean`). |
| C09 | False for a leading separator (",a"); partial for words that start with an ordinary character. |
| C10 | Relation between group text and pieces, soundness + completeness. |
| C11 | Decimal printer and strtol/strtoul model; induction on digits. |
| C12 | Numeral grammar specification; iff. |
| C13 | False for " -1"; partial for texts that do not start with white space; exact characterisation of what is accepted. |
| C14 | Exact set for ASCII; UB for some texts with bytes >= 0x80 (negation by witness). |
| C15-C18 | Serializer model; C18 false for compound values (negation), partial for at most one sub-value. |
| C19 | strtod family as an arbitrary function; the wrapper logic. |
| C20-C23 | Vector/Buffer/String over raw memory slots; simulation with plain lists; C23 false (use after free), partial when capacity suffices. |
| C24-C25 | UnorderedMap node/bucket model; chain invariant; false after particular erasures (stale `prev` link in `erase`); partial under the condition that a fresh key was inserted between two erasures; full refinement for the repaired `erase`; simulation between the code and the repaired map up to `prev` links that the code leaves stale, so that the code is right as long as no removal reads a stale link. |
| C26-C41 | Execution model: registry (concrete map), overload selection, conversion, user functions as arbitrary interaction trees over the Context API. |
| C32, C48 | As C24: full for a dictionary registry, partial for the concrete map. |
| C42 | Heap-ownership model of commands and functors; false when the running command removes or rebinds itself. |
| C43 | False for texts with NUL bytes (`%s`); partial for NUL-free texts. |
| C44-C46 | Lifetime models of Optional, Expected, UniquePtr. C45: false when a copy throws. |
| C47 | False: division by zero. Partial: after assigning a fresh registry. |
| C49 | False for wrapping products; partial below 2^64. |
| C50 | Induction over the sub-values. |
| C51, C52 | Equality of vectors and strings, after any program. |
| C53, C54 | Composition of C01, C11-C18, C26 and C29 over a type of parameter types (`PTy`) and a relation `Reads` between written arguments and values. |
| C55 | Character analysis of the grammar: the lexer's results are spellable; then C01. |
| C56 | The model's `execute` is monotone in its recursion bound. |
| C57 | Model of the used part of `vsnprintf`, of `coil::vsprintf` over the heap model of strings and of the format strings with their arguments. |
| C58 | Conversions that return a reference (`Conv.byRef`); false, exact set of parameter types by induction over `PTy`. |
| C59 | Function that cuts plain lines into words (Spec/Plain), derived from the grammar. |
| C60 | Bucket and node counts of every operation; comparison with the load factor abstract, with exact rationals as instance; false for factors below 1. |
| C61 | Heaps of callables and storages, holder variables; simulation by a map from holders to functions, ownership by counting. |
| C62-C63 | Heap of key texts, views and node blocks with arbitrary look-up results; simulation by a list of names. |
| C64-C65 | Inductive type of shown types with an injective naming function; pointer results through the execution relation. |
| C66 | Texts as bracketed comma lists, separated at nesting depth zero. |
| C67 | Capacity after a growths is a fixed sequence; moves are its partial sums. |
| C68 | Correctly rounding model of strtod against a grammar of number texts; nearest numbers as rationals. |
| C69-C70 | Six significant digits of %g as an interval around the value; neighbours of the printed number. |
| C71 | The functions of the map once more with their assertions; simulation up to stopping, containment by a check before every access. |
| C72 | The functions of the lexer once more with their assertions; a joint induction with the plain parser, then the grammar of C01. |
| C73 | The vector of C20 once more with the members and assertions of debug builds; simulation up to stopping, then the invariant of C20 shows which assertions can fail. |
| C74 | The string of C22 once more with the assertions of String.cpp, Buffer.cpp and StringView.cpp; the invariant of C22 extended by the chunk size, and a bookkeeping of moved-from strings computed from the statements alone. |
| C75 | Conversions as an inductive relation that runs one serializer after the other; a call as a relation with one rule for each way it can end. Exact equivalence with the code for one call, then induction on the recursion depth for the calls made. |
| C76 | Equivalence of two models: serializers without effects in any order against the model of C26, by induction on the recursion depth and case analysis of one call. |
| C77 | The type traits as functions on a small grammar of types; a specification with value types; equivalence by case analysis, the table of qualifiers by cases on all of them. |
| C78 | The functions of registering and executing written again with their assertions. One simulation, parameterised by whether the left side may stop and by an invariant of the container, gives transparency and the repaired map; containment is a second induction over programs. |
| C79 | The lifetime model with accessor statements; each statement agrees with a verdict on plain values (proper, wrong alternative, dead variable), and agreement lifts to programs. |
| C80 | Vector operations with a fuse that makes the n-th throwing action throw, and explicit unwinding; the ownership invariant with a count of lost objects is preserved by every statement whichever way it ends. |
| C81 | Well-formed UTF-8 as an inductive predicate (table 3-7 of the standard); a text can be cut before every byte that continues no character; induction on the lexical grammar; predicate on user functions and induction on their bodies and on the nesting. |
| C82 | Simulation between the map on heap vectors and the map on lists, function by function; program-level specification of contents; the invariant of vector programs gives ownership and counting. |
| C83 | Specification of places (block, capacity) by recursion on the program; every function except insertion of a new key keeps the shape of the node heap; blocks are numbered and never reused. |
| C84 | A statement with failing allocations is the one without failures or throws at one of its allocations, where the simulation of C82 gives the state; contents are kept because growing keeps them; the torn target of a copy assignment is described exactly. |
| C85 | Declaration of an enumeration as data; the table of names is the sorted list of the first constants of the values in range; values of enumerations without fixed type as in C++17 [dcl.enum]. |
| C86 | Bits of integers and of bit vectors; the union by induction on the list, the text by induction on the named bits; the round trip uses C01 for the spelling `A\|B` and C85 for the names. |
| C87 | Two containers that follow the history like a dictionary (`Implements`); simulation of all user functions, calls and nested executions by induction on interaction trees and on the depth; instances for a list, the hash map and the hash map on heaps. |
| C88 | A log of constructions, moves, destructions and calls, checked by an independent machine (`Spec.Rules`); invariants of parameter binding, nested frames and conversion, by induction on the parameters. |
| C89 | Mutually inductive relations (`Spec.Does`, `Spec.Performs`) without bounds; simulation in both directions with a list as the container, by induction on the depth of recursion and on derivations, then transfer to the hash maps with C87. |
| C90 | Semantics of sessions (`Spec.Console.Session`); invariant `Ready` on the registry of the program, simulation of one line by the exec-level theorems, induction on the lines read and on the rounds after the end of the input. |
| C91 | Semantics with ownership as part of commands, without lists of names (`Spec.Scoped.Ideal`); simulation of the hash map by a dictionary, invariant that relates the names a scope remembers to its claims, by induction on the actions. |
| C92 | Courses of a program on rows of bytes (`Spec.StrCourse`): a throwing statement changes nothing; each function shown equal to the one without exceptions except for one allocation at its start; invariant of C22 kept through `operator+` and its unwinding. |
| C93 | Model on views with a memory of buffers; simulation `Sim` between bodies on views and on texts by induction on the body, then through conversion, call, selection and nesting (induction on fuel); lifting of every program on texts. |
| C94 | Supply of memory as a sequence of booleans; semantics with failures without maps and supplies; both directions by induction on the nesting and the bodies (`Proofs/ExecThrow.lean`, `Proofs/ExecThrowBack.lean`), the map by C84. |
| C95 | The simulation of C93 with a relation between the states that may depend on the memory; induction on the session (`Proofs/Kept.lean`); both examples on views and on texts (`Proofs/KeptExamples.lean`). |
| C96 | The lexer with the list of positions it reads; for each position the number of its reads in each loop; a group is split at most once and groups do not overlap (`Proofs/LexCost.lean`). |
| C97 | `findNodeIndex` with the list of compared keys; the chain of a bucket visits each of its nodes once (`Proofs/FindCost.lean`); djb2 has blocks of two characters that can be exchanged. |
| C98 | Signed arithmetic with overflow as the outcome `ub .intOverflow`; induction over the partial sums; the commands run through the whole execution (`Proofs/OneForm.lean`). |
| C99 | IEEE 754 addition of rationals, rounded (`Model/FloatArith.lean`); the error of a fold by induction; together with the errors of reading (C68) and printing (C69). |
| C100 | IEEE 754 multiplication, division and conversions (`Model/FloatArith.lean`), the errors of each step added up (`Proofs/Window.lean`), through the whole execution with C36. |
| C101 | The interaction tree of the loop, C36, and that decimal numbers followed by a space can be split uniquely. |
| C102 | A relation for what a text refers to, decided by the exact conversion to `unsigned long` (C13); the interaction tree of the function. |
| C103 | The rounding lemmas of C99 and C100 for reading and for one product; texts of numbers have no `r`; six digits are accurate (C69). |
| C104 | A lemma for a request of one named argument in front of any rest (C38), used once per argument; induction over the items for the listing. |
| C105 | Induction over the named arguments for the two loops; the lemma of C104 for the requests; `%f` is one rounded division, whose digits are a decimal numeral. |
| C106 | Error bounds of the three roundings of a coordinate; a number that is read again is at least as near to the text as the printed one, and two floats are never a millionth apart, so the text is the same; the grammar of the lexer for the line. |
| C107 | An invariant that ties objects, pointer, registry and history to the stage of the story; one step for each kind of command; for the map as it is, the program reaches only three shapes of the map between commands, so that every history is handled (C108). |
| C108 | All operations of the map commute with recasting the values; the keys are those of the history over the unit type. |
| C109 | The model of std::sqrt rounds an integer square root of the scaled mantissa; a root of an integer is never halfway between two integers, so it is the nearest member. The errors of reading, rooting and printing add up over the reals. |
| C110 | C108 in both directions: the history of a quiet program has only additions, for which the map as it is is right; a simulation between the scenes of C89 and the conversation. |
| C111 | C110 for the table of the example, with one lemma per function; the vector is the list of survivors of the history. |
| C112 | Survivors of a concatenation are the older survivors not removed later, then the younger ones; witnesses run on the map as it is. |
| C113 | C110 for the table of the example and a general passage from conversations to stories (`Telltale`); the vector of particles is a function of the history. |
| C114 | Induction on the steps with the error of one step from C106; whole numbers are exact in `float`. |
| C115 | A table built from a list of commands is told by C110 and `Telltale`; the state is compared variable by variable with the last assignments of the history. |
| C116 | Instance of C115; induction on the number of toggles; C14, C68, C85 and C117 for the exact criterion of definedness. |
| C117 | A command is answered in one good state exactly if it is in all; induction on the requests; the grammar gives each line one meaning. For `C117_next` a conversation has one course (`talk_unique`). |
| C118 | Instance of C110 with `Telltale` and of C117; conversions by C12, C13, C14 and C68; induction on the repetitions. |
| C119 | Instance of C110 with `Telltale` and of C117; the number of the parameters chooses the function. |
| C120 | C85 specialised to plain constants; instance of C110 with `Telltale` and of C117. |
| C121 | Instance of C110 with `Telltale` and of C117; bits of C86; the bits below 4 give the list of names. |
| C122 | Instance of C110 with `Accounts` (functions that report errors) and of C117; a body does one thing (`says_unique`), so it is enough to show one run. |
| C123 | Instance of C110 with `Accounts` and of C117; without state a request has one answer (`replies_unique`, `talk_same`); the rounding is that of C109. |
| C124 | Instance of C110 with `Accounts` (the history is the state) and of `C117_next`; conversions to integers by floor of the magnitude; invariants by `annals_kept`. |
| C125 | Instance of C110 with `Accounts` (the history is the state) and of C117; the functions by rewriting, the named arguments by `Asked`, which is single-valued; invariants by `annals_kept`. |
| C126 | Instance of C110 with `Accounts` (the history of C111 and the particle) and of C117; `annals_split`, `annals_last` and `annals_kept` for what stays between a spawn and a question. |
| C127 | Agreement of the scenes of C108 with a growing table (`Stands`, `Belongs`: every function object belongs to one command), by induction on bodies and on requests; `C108_programs` with `adds_safe`, since such programs remove nothing. |
| C128 | Instance of C127 with `GrowingAccounts` (a history of what names stand for, names, payloads and the angle); invariant `Rooted` for the names of the first commands; `annals_split`, `annals_last`, `annals_kept`. |
| C129 | `Suits` (a conversion reads what a kind takes and says of the rest what the kind says) for each conversion, by cases on the value, for lists `vecLoop_error_iff`, for enumerations C85; `judged_iff` by induction on the parameters; then C110 with `talk_split`, `talk_join` and `replies_unique`. |
| C130 | `declined_responds` as in C129 but for the functions that the name has in the growing table, then C127 with `growth_split`, `growth_join` and `growth_unique`; the signatures of the advanced example by cases on the meaning of the name (`advanced_offers`, from the invariant of C128). |
| C131 | `step_answer`: a refused command by `declined_replies` of C129 for the table of the stage, an understood one by the step of C107 (`understood_accepted`, by cases on the name); then induction on the requests, C89 and C108; uniqueness by `answer_one`. |
| C132 | `Accounts.ruling`, `GrowingAccounts.ruling`: a refused command by `declined_replies` of C129 and `declined_responds` of C130, an understood one by the step of the account, where the other case is excluded by what the function does; `Telltale.accounts` turns stories into accounts; then induction on the requests, C110 and C127. |
| C133 | `roster_one`, `basic_one`, `swarm_tells`, `enum_one`, `prop_one`, `flags_one`: by inversion and the name of the command, with the uniqueness of the readings of numbers, words and entities; `record_one`: induction on the record, with C129 for the refused commands; then C132 and the totality of C113 and C122. |

## Where the code and the claims disagree

Each item has a theorem with a concrete witness (names in brackets).

* C02: the group splitter counts down from 0 when a group ends in an opening quote (`f (")`): the sub-value has length 2^64-1
  [`C02_false`].
* C08: with signed `char`, bytes >= 0x80 never match a configured delimiter [`C08_false_high`]; '=' always is an
  assignment [`C08_false_assign`].
* C09: a word that starts with a separator is not split [`C09_false`].
* C13: white space followed by '-' passes the minus check of unsigned types; the value wraps [`C13_false`,
  `C13_false_uint`].
* C14: `tolower` of a negative `char` [`C14_false`].
* C18: the optional conversion ignores all sub-values but the first [`C18_false`].
* C43: `%s` stops at a NUL byte inside the quoted text [`C43_conversion_false`].

* C24, C25: `UnorderedMap::erase` moves the last node into the hole without updating the `prev` link of that node's
  successor (UnorderedMap.h 196-212). After a few `add`/`remove` calls a command that was added is not found
  [`C24_dictionary_false`], looking up an unknown name never ends [`C25_endless_lookup`], or a removal writes outside
  the node vector [`C25_out_of_bounds`]. All with the default map of `Bindings` and its hash.
* C49: `capacity * chunkSize` wraps; the buffer then reports a capacity it does not have [`C49_room_false`].
* C41: `NamedArgs::begin()` gives a non-const iterator into the input that is echoed (NamedArgs.h 15, 49-53): a
  function can change the named arguments of the result [`C41_echo_false`].
* C32, C48: consequence of C24 for `Bindings`: a registered command is not found [`C32_lookup_false`].
* C42: a command that removes itself destroys the function object that is running [`C42_self_removal_false`].
* C43: the same `%.*s` and `%s` in the messages about commands and keys [`C43_command_false`, `C43_key_false`].
* C47: a moved-from `UnorderedMap` has no buckets, and a moved-from `Bindings` no lexer [`C47_moved_from_false`].
* C22: a moved-from `String` has a null `cStr()`; copying a moved-from string after `reserve` copies no byte, not even the
  terminator [`C22_terminated_false`]. (With asserts on, copying a moved-from string also fails an assertion in
  `Buffer(size_t, size_t)` because its chunk size is 0.)
* C23: `s += s` reads freed memory whenever the buffer has to grow [`C23_realloc_false`], so always for a freshly
  constructed non-empty string [`C23_plain_false`].
* C45: `Expected::operator=(Expected const&)` between a value and an error destroys the old object and sets the flag before it
  copies; if the copy throws, the destructor destroys an object that does not exist [`C45_throw_false`].
* C57: if the formatted text has 2^31 bytes or more, `vsnprintf` returns -1, the string is resized to 2^64 - 1 bytes (the buffer
  size wraps to 0) and the second `vsnprintf` writes outside the buffer [`C57_long_false`, `C57_long_exception_false`]. The length of a
  view of 2^31 bytes or more becomes a negative precision, so `%.*s` reads on to the next NUL byte [`C57_long_view_false`].
* C58: `TypeSerializer<Value>::fromString` returns a reference to its argument; the conversions of `std::vector<Value>` and
  `std::optional<Value>` pass a temporary and use the reference after the temporary is gone [`C58_vector_false`,
  `C58_optional_false`].
* C60: with a maximal load factor below 1 / (number of buckets), e.g. one half and the default single bucket, the first
  insertion calls `rehash(0)` and then computes a remainder by zero [`C60_small_false`].
* C63: `Bindings::add` returns a reference to an element of a vector; the next `add` of a new name can move all elements
  [`C63_reference_add_false`], and `remove` of another command moves the last element [`C63_reference_remove_false`].
* C65: a function that returns a null `char const*` is undefined behaviour [`C65_cstr_null_false`], and its return type is
  reported as `char` [`C65_return_type_false`].
* C67: `String` grows to exactly the size it needs, so building a text byte by byte allocates and copies every time
  [`C67_string_false`].
* C68: with a C library that sets `errno` on underflow, a subnormal argument is rejected [`C68_tiny_false`].
* C70: the constant `1e-6` in `toString(float)` is a `double`, so the `float` nearest to one millionth is below it: the text `1e-06`
  reads as a value with the text `0` [`C70_single_false`].
* C71: with assertions on, a history of legal calls stops at one [`C71_stops_false`]; lost entries and endless look-ups pass all
  assertions [`C71_undetected_false`, `C71_endless_false`].
* C72: with assertions on, a lone quote in a compound value stops the program, also where the text is rejected without
  them [`C72_stops_iff`, `C72_error_lost`].
* C73: assertions do not notice a byte count that wrapped around; the write out of bounds of C20 stays
  [`C73_overflow_false`].
* C74: copying, comparing or viewing a string that was moved from is harmless without assertions and stops the program
  with them [`C74_stops_iff`, `C74_moved_from_false`]; the use after free of C23 is not noticed [`C74_self_append_false`].
* C75: a serializer that removes the command being executed destroys the function object before it is called
  [`C75_removing_serializer_false`].
* C76: the order of conversion is unspecified, and shows when serializers have effects [`C76_order_false`].
* C77: `FuncTraits::isFunc` holds of functions that do not compile when registered [`C77_isFunc_false`].
* C78: with assertions on, a program of legal calls stops at an assertion of the map [`C78_stops_false`] or of the lexer [`C78_line_false`].
* C79: `Optional::operator->` does not assert that there is a value, unlike `operator*` and the accessors of `Expected` and `UniquePtr` [`C79_arrow_false`].
* C80: when a move constructor throws in `Vector::grow`, the local `Buffer` releases its memory without destroying the elements already moved into it, and the vector keeps the moved-from elements [`C80_growth_false`]. In a build with assertions, `~Buffer` would stop the program.
* C84: the implicit copy assignment of `UnorderedMap` assigns `m_buckets` before `m_nodes`. When copying the nodes throws, the target has the buckets of the source and its own nodes, and looking up a key reads nodes that do not exist [`C84_false`]. Clearing, destroying or assigning to the target repairs it.
* C85: `static_cast<E>` of a number that is not a value of an enumeration without fixed underlying type is undefined: `abilities.set_ability SpeedBoost 100` of the example [`C85_defined_false`].
* C85: a second name of a value, a constant beyond -128..128 and, of two names that differ by case only, the one with the larger value are not accepted as themselves, though the program compiles [`C85_names_false`].
* C85: a value without a name, which can be entered as a number, is written as an empty text, which is rejected [`C85_roundtrip_false`].
* C86: flags above 128 are shown by name but not accepted by name; the empty set of flags and sets with nameless bits are shown as an empty text [`C86_restore_false`].
* C87: because of C24, a command that is registered can be unknown to `execute` [`C87_as_is_false`].
* C89: because of C24, a program can do something else than it means [`C89_as_is_false`].
* C90: at the end of the input, the console of the examples does not stop. `std::getline` fails and leaves the line empty, the state of the stream is not looked at, and the program prints `>>> Error: No function name is specified` for ever [`C90_end_of_input_false`]. A line with a lone quote in a compound value is undefined behaviour [`C90_lone_quote_false`].
* C91: `ScopedDebugCommands` (examples) removes commands by name, whoever has registered them. Executing `create_subsystem` twice leaves a living subsystem without commands, because the first subsystem is destroyed after the second one is made [`C91_shared_false`, `C91_recreate_false`]. Its destructor dereferences `g_globalBindings` without a check [`C91_null_false`].
* C92: `std::move(a) + b` takes its left operand by value; if memory for the sum is missing, the text of `a` is lost with the parameter [`C92_moved_false`]. Besides, `operator+` returns a copy of its parameter (`return lhs += rhs` returns a reference), so that even `std::move(a) + b` allocates.
* C94: with `COIL_CATCH_EXCEPTIONS` `std::bad_alloc` leaves `execute` if it is thrown outside the `try` block: while the line is lexed, while an error of `execute` itself is reported, while a caught exception is reported (Coil.cpp 260-316). In the last case the exception of the function is lost (`C94_catches_false`).
* C95: `Inventory::add` keeps a `std::string_view` of its argument (NamedExample.cpp 29-36, 86-98), and `entities.create_entity_variable` captures one (AdvancedExample.cpp 140-146). The examples execute string literals, so it does no harm there; but with a console that destroys each line, like that of main.cpp (115-122), listing the inventory reads a destroyed string (`C95_console_false`). The getters of members do not check the pointer (`C95_create_false`).
* C97: the hash of names is djb2 (StringView.cpp 76-86), in which `Ez` and `FY` can be exchanged. A program that lets its users choose names, like `entities.create_entity_variable` (AdvancedExample.cpp 140-146), can be made to spend a number of comparisons that is quadratic in the number of names (`C97_constant_false`).
* C98: `sum` and `scale` overflow `int` for numbers they accept, which is undefined behaviour (`C98_false`): `sum (2147483647 1 -1)` is undefined though `sum (2147483647 -1 1)` is not.
* C99: `sum_all` depends on the order of its numbers: `sum_all (16777216 1 -16777216)` answers 0, with 1 in the last place it answers 1; `sum_all (3e38 3e38 -3e38 -3e38)` answers `inf` (`C99_order_false`).
* C100: `window.aspect` and `window.diagonal` convert a `float` to `std::size_t` without checking its range: `window.aspect -1`, `window.aspect 1e20` and `window.aspect nan` are accepted and undefined (`C100_undefined`, `C100_false`); after `window.diagonal 0` no `window.diagonal q` with q > 0 is defined (`C100_diagonal_false`).
* C102: in the variadic example, an entity that is renamed to a number cannot be renamed again by its name (`C102_false`).
* C103: in the advanced example, `direction 0x1d` sets one degree instead of 29, and the answer `1 degrees` is refused as an argument (`C103_false`).
* C112: in the usertypes example, entity ids are positions in a vector, so `remove_some` silently renumbers younger entities (`C112_shift_false`), the focus may stand on an id without entity (`C112_focus_false`), and a printed id `EntityId{k}` is never accepted as an argument (`C112_text_false`).
* **C114** (examples/compound/CompoundExample.cpp 71-75): positions are accumulated in `float`, so the result depends on how the time is divided into steps (`C114_split_false`: 16777216 + 1 + 1 stays 16777216, 16777216 + 2 does not).
* **C116** (src/Coil.cpp 527-537; examples/variables/VariablesExample.cpp 53): `god_var` with four bytes such as `tru\x80` is undefined where `char` is signed (`C116_total_false`).
* **C118** (examples/basic/BasicExample.cpp 71-74): `scaler2.scale 300000000` overflows `int`, which is undefined (`C118_total_false`); `invert` with four bytes such as `tru\x80` is undefined where `char` is signed (`C118_invert_false`).
* **C119** (examples/overloading/OverloadingExample.cpp 35): the third argument of `mixed_func` is a `bool`, so four bytes such as `tru\x80` are undefined where `char` is signed (`C119_total_false`).
* **C120** (examples/enums/EnumsExample.cpp 26-36): a number that is no value of the unscoped enumeration, as in `abilities.set_ability SpeedBoost 100`, is cast to it, which is undefined (`C120_total_false`).
* **C123** (examples/errors/ErrorsExample.cpp 43): `get_type_name` first tries `bool`, so four bytes such as `tru\x80` are undefined where `char` is signed (`C123_total_false`).
* **C124** (examples/properties/PropertiesExample.cpp 22, 35-36): `window.aspect -1` is undefined, and so is `window.diagonal 5` after `window.diagonal 0` (`C124_next_false`).
* **C125** (examples/named/NamedExample.cpp 146-173): `required_and_optional required=tru` with the byte 0xC3 after `tru` is undefined where `char` is signed (`C125_total_false`).
* **C126** (examples/usertypes/UsertypesExample.cpp 219): `sum (2147483647 1 -1)` is undefined (`C126_total_false`).
* **C128** (examples/advanced/AdvancedExample.cpp 141-145): `entities.create_entity_variable x nobody` and then `x.id` dereferences a null pointer, and `entities.create_entity_variable entities.create_entity_variable player` destroys the function while it runs (`C128_total_false`).
