{"id": "C01", "title": "Command line round-trip", "statement": "Writing a command (name, positional arguments, named arguments; each argument a simple or a compound value) in the documented syntax, with any amount of white space at every place where white space is allowed, and parsing it with the default lexer gives back exactly that command: same name, same positional arguments in the same order, same named arguments in the same order, same sub-values.", "quantifier": "every command whose texts contain no quote character (and, inside a compound value, no parenthesis), every choice of white space runs, every legal choice of quoting", "why_tests_cant": "The repository's random test samples 10000 small commands with at most three arguments; the claim is about all commands of all sizes and all spacings.", "anchors": ["src/DefaultLexer.cpp: DefaultLexer::parse, tokenize, splitGroup, createValue", "include/coil/detail/DefaultLexer.h"]}
{"id": "C02", "title": "Parsing returns only views of the input", "statement": "For every input string, every string view that DefaultLexer::parse returns (command name, keys, sub-values) lies inside the input string, so that reading it touches only memory the caller passed in.", "quantifier": "every byte string given to parse", "why_tests_cant": "An out-of-range view is only visible for particular inputs; the property is about all byte strings, including malformed ones.", "anchors": ["src/DefaultLexer.cpp: splitGroup, tokenize, parse", "src/StringView.cpp: StringView::substr"]}
{"id": "C03", "title": "Lexer never reports an internal error", "statement": "DefaultLexer::parse never returns the error 'Internal error', whatever the input and whatever delimiter characters the lexer was constructed with; it always ends in a command or in one of the documented syntax errors.", "quantifier": "every byte string and every lexer configuration", "why_tests_cant": "The branch is unreachable only if no input and no configuration reaches it.", "anchors": ["src/DefaultLexer.cpp: tokenize (default branch), parse (Internal error branch)"]}
{"id": "C04", "title": "White space between tokens is insignificant", "statement": "Adding or removing white space before the first token, after the last token, or replacing a non-empty run of unquoted white space outside groups by another non-empty run does not change the result of parsing (command or error).", "quantifier": "every input prefix/suffix and every two non-empty runs of space characters", "why_tests_cant": "Tests check a handful of spacings.", "anchors": ["src/DefaultLexer.cpp: tokenize, isSpace"]}
{"id": "C05", "title": "Quoting is verbatim", "statement": "A quoted argument is delivered as one simple value whose text is exactly the text between the quotes, whatever characters other than quotes it contains (spaces, '=', parentheses, separators).", "quantifier": "every text without quote characters, every quote character, every context after a complete token", "why_tests_cant": "Needs to hold for every text.", "anchors": ["src/DefaultLexer.cpp: tokenize (CharType::Quote)"]}
{"id": "C06", "title": "Exact grammar of accepted commands", "statement": "After tokenisation, a command is accepted exactly when it is empty or is a simple word followed by a sequence of items, each either a value or 'value = value'; the items become the positional and the named arguments in the order they are written. Every other token sequence is rejected with an error.", "quantifier": "every token sequence", "why_tests_cant": "The accepted language is infinite.", "anchors": ["src/DefaultLexer.cpp: parse(Vector<Token>)"]}
{"id": "C07", "title": "Unbalanced quotes or parentheses are rejected", "statement": "If, when scanning the input left to right, a quote or parenthesis is opened and no further quote (respectively parenthesis) follows, parsing fails with the error that names the unmatched character; if every opened quote/parenthesis finds a closing one, tokenisation succeeds.", "quantifier": "every input string", "why_tests_cant": "Needs all inputs.", "anchors": ["src/DefaultLexer.cpp: tokenize"]}
{"id": "C08", "title": "Configured delimiters are honoured", "statement": "Every character passed to the DefaultLexer constructor as a parenthesis, quote, separator or space character is treated as such when it occurs in the input.", "quantifier": "every byte value and every configuration", "why_tests_cant": "Depends on all 256 byte values on platforms with signed char.", "anchors": ["src/DefaultLexer.cpp: isGroupChar, isQuote, isGroupSeparator, isSpace", "include/coil/detail/Algorithm.h: find"]}
{"id": "C09", "title": "Bare words with separators are compound", "statement": "An unquoted argument word that contains a group separator character (',', ';' or '|') is delivered as a compound value whose sub-values are the non-empty pieces between separators; a word without separators is delivered as a simple value.", "quantifier": "every word made of ordinary characters and separators", "why_tests_cant": "All words.", "anchors": ["src/DefaultLexer.cpp: tokenize (CharType::String), splitGroup"]}
{"id": "C10", "title": "Group splitting", "statement": "The sub-values of a compound value are the maximal separator-free pieces of the group text, in order, and quoted pieces are delivered without their quotes and may contain separators; the pieces together with the separators account for the whole group text.", "quantifier": "every group text", "why_tests_cant": "All texts.", "anchors": ["src/DefaultLexer.cpp: splitGroup"]}
{"id": "C11", "title": "Integer conversion round-trip", "statement": "For every integer type and every value v of that type, converting v to a string and back gives v, and converting the string succeeds.", "quantifier": "every value of char, signed char, unsigned char, short, unsigned short, int, unsigned, long, unsigned long, long long, unsigned long long, for 32-bit and 64-bit long and both signednesses of char", "why_tests_cant": "2^64 values per type.", "anchors": ["src/StringConv.cpp: toString, fromString", "src/Coil.cpp: arithmeticFromString"]}
{"id": "C12", "title": "Signed integer conversion accepts exactly the in-range numerals", "statement": "Conversion of a string to a signed integer type succeeds exactly when the string is optional leading white space, an optional sign and at least one decimal digit and nothing else, and the number it denotes fits the type; the result is that number. In particular out-of-range input is rejected, never wrapped or saturated.", "quantifier": "every byte string, every signed integer type", "why_tests_cant": "All byte strings.", "anchors": ["src/StringConv.cpp: signedIntegerFromString, signedAliasFromString"]}
{"id": "C13", "title": "Unsigned integer conversion never accepts a negative number", "statement": "Conversion of a string to an unsigned integer type succeeds only if the string denotes a non-negative number that fits the type, and the result is that number.", "quantifier": "every byte string, every unsigned integer type", "why_tests_cant": "The only failing inputs have a particular prefix.", "anchors": ["src/StringConv.cpp: unsignedIntegerFromString, unsignedAliasFromString"]}
{"id": "C14", "title": "Boolean conversion", "statement": "Conversion of a string to bool succeeds exactly for '1', '0' and the words 'true' and 'false' in any letter case, is well defined for every input, and bool -> string -> bool is the identity.", "quantifier": "every byte string", "why_tests_cant": "All byte strings, including bytes above 127.", "anchors": ["src/Coil.cpp: TypeSerializer<bool>"]}
{"id": "C15", "title": "Scalar parameters reject compound values", "statement": "Converting a value to an arithmetic type, bool, or a string type fails whenever the value does not have exactly one sub-value, and the error says how many sub-values were expected and how many were given.", "quantifier": "every value with zero or at least two sub-values, every scalar type", "why_tests_cant": "All values.", "anchors": ["src/Coil.cpp: arithmeticFromString, TypeSerializer<bool/String/StringView>, errors::createMismatchedSubvaluesError", "include/coil/StdLibCompat.h"]}
{"id": "C16", "title": "String parameters receive the text unchanged", "statement": "A string parameter receives exactly the bytes of the argument's single sub-value, and a returned string is reported unchanged.", "quantifier": "every byte string", "why_tests_cant": "All byte strings.", "anchors": ["src/Coil.cpp: TypeSerializer<String>, TypeSerializer<StringView>", "include/coil/StdLibCompat.h"]}
{"id": "C17", "title": "Vector conversion", "statement": "Converting a value to a vector type succeeds exactly when every sub-value converts to the element type; the result has one element per sub-value in order. On failure the error is that of the first sub-value which does not convert.", "quantifier": "every value and every element type whose conversion returns a value, including user-defined ones (coil::Value converts by reference, see C58)", "why_tests_cant": "All values and element types.", "anchors": ["include/coil/StdLibCompat.h: TypeSerializer<std::vector<T>>"]}
{"id": "C18", "title": "Optional conversion consumes the whole value", "statement": "Converting a value to an optional type gives the empty optional for an empty value, and otherwise either fails or uses every sub-value of the argument (no part of the argument is silently dropped).", "quantifier": "every value and every element type whose conversion returns a value", "why_tests_cant": "All values.", "anchors": ["include/coil/StdLibCompat.h: TypeSerializer<std::optional<T>>"]}
{"id": "C19", "title": "Floating-point conversion consumes the whole text", "statement": "Converting a string to a floating-point type succeeds only if the C library's strtod family consumes the entire string without reporting a range error, and then yields its result; the empty string is rejected.", "quantifier": "every byte string and every behaviour of strtof/strtod/strtold allowed by C", "why_tests_cant": "All strings.", "anchors": ["src/StringConv.cpp: floatFromString"]}
{"id": "C20", "title": "Vector behaves like a sequence", "statement": "Any sequence of Vector operations (construct, copy, move, assign, reserve, resize, pushBack, popBack, clear) leaves each vector with the elements a plain sequence would have, with capacity at least size, and touches only constructed elements of its own buffer.", "quantifier": "every operation history over any number of vectors", "why_tests_cant": "Histories are unbounded.", "anchors": ["include/coil/detail/Vector.h", "include/coil/detail/Buffer.h", "src/Buffer.cpp"]}
{"id": "C21", "title": "Vector elements are destroyed exactly once", "statement": "In any history of Vector operations that ends with the destruction of all vectors, the number of element constructions equals the number of element destructions, and no element is destroyed before it was constructed.", "quantifier": "every operation history", "why_tests_cant": "Histories are unbounded.", "anchors": ["include/coil/detail/Vector.h: grow, resize, clear, ~Vector", "include/coil/detail/Buffer.h: constructNext, destructLast"]}
{"id": "C22", "title": "String behaves like a byte sequence", "statement": "Any sequence of String operations (construct, copy, assign, append a text that is not part of the string itself, reserve, shrink) leaves the string with exactly the bytes a plain byte sequence would have, followed by a NUL terminator inside its buffer, and touches only its own buffer.", "quantifier": "every operation history, including embedded NUL bytes", "why_tests_cant": "Histories are unbounded.", "anchors": ["src/String.cpp", "src/Buffer.cpp"]}
{"id": "C23", "title": "A string can be appended to itself", "statement": "s += s (and appending any view of s to s) makes s its own text twice, without touching freed memory.", "quantifier": "every string and every capacity", "why_tests_cant": "Depends on whether the buffer is reallocated.", "anchors": ["src/String.cpp: String::append, operator+="]}
{"id": "C24", "title": "Map operations behave like a dictionary", "statement": "Any history of insertOrAssign, erase, clear and find on an UnorderedMap gives the lookups, the size and the set of entries of a plain dictionary.", "quantifier": "every history, every hash function, every number of collisions", "why_tests_cant": "The failing histories need several colliding keys and several erasures; tests use few collisions.", "anchors": ["include/coil/detail/UnorderedMap.h"]}
{"id": "C25", "title": "Map lookups terminate and stay in bounds", "statement": "After any history of insertOrAssign, erase and clear, every find and erase terminates and accesses only existing nodes and buckets.", "quantifier": "every history, every hash function", "why_tests_cant": "Non-termination appears only after particular erase orders.", "anchors": ["include/coil/detail/UnorderedMap.h: erase, findNodeIndex, insertNode"]}
{"id": "C26", "title": "Exactly one overload runs, chosen by argument count", "statement": "Executing a command whose arguments convert calls exactly one of its overloads, once: the first registered one whose number of parameters (not counting a leading Context) equals the number of positional arguments. Overloads with another number of parameters are never called.", "quantifier": "every registered command, every list of overloads, every input", "why_tests_cant": "All overload lists and inputs.", "anchors": ["src/Coil.cpp: Bindings::execute(CallContext&)", "include/coil/detail/AnyFunctor.h: arity", "include/coil/detail/Overloaded.h"]}
{"id": "C27", "title": "Wrong argument count runs nothing and is reported", "statement": "If no overload has as many parameters as positional arguments were given, no user function runs, the program state is unchanged, there is no return value, and the single error names the command (up to the first NUL byte of its name), lists all accepted counts in registration order and the given count.", "quantifier": "every list of overloads with any arities and every number of arguments", "why_tests_cant": "All lists.", "anchors": ["src/Coil.cpp: Bindings::execute(CallContext&)"]}
{"id": "C28", "title": "Conversion failure runs nothing and reports every bad argument", "statement": "If some argument does not convert to the parameter type, the user function is not called and the program state is unchanged; there is no return value, and the errors are exactly the conversion errors of all the arguments that do not convert, in argument order.", "quantifier": "every user function, every parameter list, every argument list", "why_tests_cant": "All combinations.", "anchors": ["include/coil/detail/FunctorCaller.h: invoke, reportError, unpackAndInvoke"]}
{"id": "C29", "title": "Return value and errors exclude each other", "statement": "An execution result never carries both a return value and an error; and a call of a non-void function that ends normally without reporting errors always carries its return value.", "quantifier": "every user function and every command line", "why_tests_cant": "All user functions.", "anchors": ["include/coil/detail/FunctorCaller.h: invoke", "src/Coil.cpp: Bindings::execute"]}
{"id": "C30", "title": "Unknown or missing command name", "statement": "Executing a name that is not registered gives exactly one error that quotes the name (up to its first NUL byte), and an empty command gives exactly one error 'No function name is specified'; in both cases nothing runs.", "quantifier": "every registry and every command line", "why_tests_cant": "All registries.", "anchors": ["src/Coil.cpp: Bindings::execute(CallContext&)"]}
{"id": "C31", "title": "Syntax errors execute nothing", "statement": "If the lexer (default or custom) rejects the command line, nothing runs, no state changes, and the result has exactly one error: 'Syntax error: ' followed by the lexer's message.", "quantifier": "every lexer and every command line", "why_tests_cant": "All lexers.", "anchors": ["src/Coil.cpp: Bindings::execute(StringView)"]}
{"id": "C32", "title": "The registry is a dictionary of commands", "statement": "After any history of add, remove, clear and execute, looking up or executing a name uses exactly the functors of the last add of that name that was not followed by a remove of it or a clear; other names are unaffected by changes to a name.", "quantifier": "every history of registry operations over any names", "why_tests_cant": "Histories are unbounded and hash collisions matter.", "anchors": ["src/Coil.cpp: Bindings::add, remove, get, clear, execute", "include/coil/detail/UnorderedMap.h"]}
{"id": "C33", "title": "Exceptions are contained when catching is enabled", "statement": "With COIL_CATCH_EXCEPTIONS, an exception thrown by a user function never leaves execute; it is reported as one error after the errors already reported, the output logged before it is kept, and there is no return value. Without the option the exception propagates.", "quantifier": "every user function and every point at which it throws", "why_tests_cant": "All throw points.", "anchors": ["src/Coil.cpp: Bindings::execute(CallContext&)"]}
{"id": "C34", "title": "Variables behave like a store", "statement": "A sequence of command lines that read or write bound variables behaves like reads and writes of a store: a write of text that converts sets exactly that variable and returns the new value, a read returns the last value, and a rejected write changes nothing.", "quantifier": "every sequence of reads and writes over any set of bound variables", "why_tests_cant": "Sequences are unbounded.", "anchors": ["include/coil/detail/Variable.h: variable(T*)", "include/coil/detail/FunctorCaller.h"]}
{"id": "C35", "title": "Read-only variables and properties never change", "statement": "Executing any command line against a read-only variable or property leaves it unchanged, and an attempt to set it with one argument yields at least one error and no return value.", "quantifier": "every command line", "why_tests_cant": "All inputs.", "anchors": ["include/coil/detail/Variable.h: variable(T const*)", "include/coil/detail/Property.h: property(G), bindProperty(G, C*)"]}
{"id": "C36", "title": "Properties go through getter and setter", "statement": "Reading a property calls only the getter; setting it calls the setter exactly once with the converted value and then reports what the getter returns; a rejected value calls neither.", "quantifier": "every getter and setter, every command line", "why_tests_cant": "All getters/setters.", "anchors": ["include/coil/detail/Property.h"]}
{"id": "C37", "title": "Named argument lookup", "statement": "NamedArgs::get returns the value of the first named argument with that key, and reports a missing key exactly when no named argument has it; conversion errors are distinguished from missing keys.", "quantifier": "every list of named arguments and every key", "why_tests_cant": "All lists.", "anchors": ["src/Coil.cpp: NamedArgs::get, find", "include/coil/detail/NamedArgs.h"]}
{"id": "C38", "title": "Named argument reporting", "statement": "getOrReport<T> returns the converted value when present and convertible; returns the default without reporting when an optional argument is missing; otherwise reports exactly one error and returns nothing. In particular a present but ill-typed optional argument is reported, not defaulted.", "quantifier": "every list of named arguments, key, requirement and default", "why_tests_cant": "All lists.", "anchors": ["include/coil/detail/NamedArgs.h: getOrReport<T>", "src/Coil.cpp: NamedArgs::getOrReport"]}
{"id": "C39", "title": "Log output is the concatenation of the log calls", "statement": "The output of an execution is the concatenation, in call order, of the texts logged by the user function (with a newline after each logline), whether or not errors are reported or an exception is caught.", "quantifier": "every user function", "why_tests_cant": "All user functions.", "anchors": ["src/Coil.cpp: Context::log, logline, logf, loglinef"]}
{"id": "C40", "title": "Executions are isolated from each other", "statement": "The result of executing a command line depends only on the registry, the lexer, the command line and the program state seen by the user functions, not on errors, output or results of earlier executions.", "quantifier": "every history of executions", "why_tests_cant": "Histories are unbounded.", "anchors": ["src/Coil.cpp: Bindings::execute", "include/coil/detail/CallContext.h"]}
{"id": "C41", "title": "The result echoes the parsed input", "statement": "Unless there is a syntax error, the result's input is the command that was executed: its name, positional and named arguments as parsed (or as given to execute(ExecutionInput)).", "quantifier": "every command line", "why_tests_cant": "All inputs.", "anchors": ["src/Coil.cpp: Bindings::execute(ExecutionInput)"]}
{"id": "C42", "title": "Commands may change the registry while they run", "statement": "While a command is running, registering or removing other commands does not invalidate the running command; the running command's stored function stays alive until it returns.", "quantifier": "every registry and every sequence of registry operations performed by the running command", "why_tests_cant": "Memory reuse is not visible in most runs.", "anchors": ["src/Coil.cpp: Bindings::execute, add, remove", "include/coil/detail/AnyFunctor.h", "include/coil/detail/Vector.h"]}
{"id": "C43", "title": "Error messages quote names and values in full", "statement": "Error messages that quote a command name, key or value contain its complete text.", "quantifier": "every name and value, including texts with NUL bytes", "why_tests_cant": "All texts.", "anchors": ["src/Coil.cpp: sprintf, createGenericError, Bindings::execute, NamedArgs::get"]}
{"id": "C44", "title": "Optional: assignment and lifetime", "statement": "After any history of Optional constructions, copies, moves and assignments, each optional is empty or holds exactly the value last assigned to it, and every contained object that was constructed is destroyed exactly once by the time all optionals are destroyed.", "quantifier": "every history over any number of optionals", "why_tests_cant": "Histories are unbounded.", "anchors": ["include/coil/detail/Optional.h"]}
{"id": "C45", "title": "Expected: assignment and lifetime", "statement": "After any history of Expected constructions, copies, moves and assignments between value and error states, each object holds exactly the alternative last assigned, and every contained object is destroyed exactly once, also when copying the contained object throws.", "quantifier": "every history over any number of objects, every point at which a copy may throw", "why_tests_cant": "Histories are unbounded.", "anchors": ["include/coil/detail/Expected.h", "include/coil/detail/Unexpected.h"]}
{"id": "C46", "title": "UniquePtr owns its object exactly once", "statement": "In any history of UniquePtr constructions, moves and assignments that ends with the destruction of all of them, every owned object is deleted exactly once and no two live UniquePtrs own the same object.", "quantifier": "every history over any number of pointers", "why_tests_cant": "Histories are unbounded.", "anchors": ["include/coil/detail/UniquePtr.h"]}
{"id": "C47", "title": "A moved-from registry is usable", "statement": "After moving from a Bindings object, the moved-from object can still be used: looking up and adding commands is well defined.", "quantifier": "every registry and both kinds of move", "why_tests_cant": "Division by zero is reached only on moved-from objects.", "anchors": ["include/coil/detail/Bindings.h: Bindings(Bindings&&), operator=", "include/coil/detail/UnorderedMap.h: computeBucketIndex", "src/Buffer.cpp: Buffer(Buffer&&)"]}
{"id": "C48", "title": "Command metadata", "statement": "The metadata of a registered command (its name, number of parameters, parameter type names) stays equal to what was registered under that name, after any later history of operations on other names.", "quantifier": "every history of registry operations", "why_tests_cant": "Histories are unbounded.", "anchors": ["src/Coil.cpp: Bindings::add, get", "include/coil/detail/AnyFunctor.h", "include/coil/detail/Types.h", "include/coil/detail/FunctionWrapper.h"]}
{"id": "C49", "title": "Buffer sizes do not overflow", "statement": "A buffer created for a given capacity has room for that many elements.", "quantifier": "every capacity and element size", "why_tests_cant": "Only enormous capacities fail.", "anchors": ["src/Buffer.cpp: Buffer(size_t, size_t)"]}
{"id": "C50", "title": "Value text form", "statement": "The text form of a value is its sub-values joined by single spaces, and it is what conversion errors quote.", "quantifier": "every value", "why_tests_cant": "All values.", "anchors": ["src/Coil.cpp: Value::str, errors::createGenericError"]}
{"id": "C51", "title": "Vector equality", "statement": "a == b holds for two vectors exactly when they have equally many elements and the elements are pairwise equal, and the comparison reads only constructed elements.", "quantifier": "every two vectors after any operation history, every element comparison", "why_tests_cant": "Histories are unbounded.", "anchors": ["include/coil/detail/Vector.h: operator=="]}
{"id": "C52", "title": "String equality", "statement": "After any history of operations on any number of strings, a == b holds exactly when both have the same bytes, embedded NUL bytes included.", "quantifier": "every operation history and every two strings", "why_tests_cant": "Histories are unbounded.", "anchors": ["src/String.cpp: operator==", "src/StringView.cpp: operator=="]}
{"id": "C53", "title": "Typed calls from any spelling", "statement": "For parameters of integer types, bool, strings, (nested) vectors and optionals of these, and coil::Value: any legal spelling of a command line whose arguments mean given values (numerals within range, truth words, texts) calls the selected function exactly once with exactly these values; the meaning is unique, and every list of values without quote characters (and, inside vectors, parentheses) has such a line.", "quantifier": "every registry, program state, spelling, parameter list of these types and every values", "why_tests_cant": "Spellings, values and parameter lists are unbounded.", "anchors": ["src/Coil.cpp: Bindings::execute", "include/coil/detail/FunctorCaller.h", "include/coil/detail/TypeSerializer.h", "src/DefaultLexer.cpp"]}
{"id": "C54", "title": "Results can be passed on", "statement": "What a function with an integer, bool or string result returns is reported as a text that, quoted and used as an argument of that type of another command, means exactly the value returned (strings without quote characters).", "quantifier": "every function, value within range, registry and state", "why_tests_cant": "All values and functions.", "anchors": ["include/coil/detail/FunctionWrapper.h: typedCall", "include/coil/detail/FunctorCaller.h", "include/coil/detail/TypeSerializer.h"]}
{"id": "C55", "title": "Parsed commands can be written down again", "statement": "A command that came out of the lexer and has no quote characters in keys and sub-values can be written with everything quoted; parsing this gives the same command, so the written form is a normal form of command lines.", "quantifier": "every accepted command line", "why_tests_cant": "All command lines.", "anchors": ["src/DefaultLexer.cpp"]}
{"id": "C56", "title": "Recursion", "statement": "Executing a command is deterministic and its result does not depend on a bound on the recursion depth; functions that execute no commands need one level; a command that executes itself with the same input never ends.", "quantifier": "every program, registry, state, request and bound", "why_tests_cant": "All programs and depths.", "anchors": ["src/Coil.cpp: Bindings::execute"]}
{"id": "C57", "title": "Messages are formatted as intended", "statement": "coil::sprintf gives a string that holds exactly the formatted text and a terminator; every format string of the library together with the arguments passed at its call site is well defined (matching types, enough arguments) and gives the message text, including the views passed as length and address and the numbers.", "quantifier": "every message argument, every memory content behind the views, every integer value", "why_tests_cant": "All texts, lengths and numbers; the failures need texts of 2 GiB.", "anchors": ["src/Coil.cpp: sprintf, vsprintf, createGenericError, reportError", "src/DefaultLexer.cpp: 173, 183, 204", "src/StringConv.cpp: 106-134", "src/StringView.cpp: slength"]}
{"id": "C58", "title": "Vectors and optionals of coil::Value", "statement": "A parameter of type std::vector<coil::Value> or std::optional<coil::Value> receives the sub-values of its argument.", "quantifier": "every argument; every parameter type built from integers, bool, strings, coil::Value, vectors and optionals", "why_tests_cant": "A read of a destroyed temporary usually goes unnoticed in a test.", "anchors": ["include/coil/detail/Value.h: TypeSerializer<Value>", "include/coil/StdLibCompat.h: 53-59, 96-105"]}
{"id": "C59", "title": "The default delimiters", "statement": "With the default lexer exactly space, tab, line feed and carriage return separate words, single and double quotes quote, ( and ) group, and , ; | split compound values. A line without quotes, parentheses and = is cut at blanks: the first word is the name, the others are the arguments, and a word with , ; or | behind its first character is the list of the parts between them (an error for the first word).", "quantifier": "every command line without quotes, parentheses and =, both kinds of char", "why_tests_cant": "All command lines.", "anchors": ["include/coil/detail/DefaultLexer.h: 22", "src/DefaultLexer.cpp"]}
{"id": "C60", "title": "The load factor of the map", "statement": "The map resizes its buckets so that after every operation the number of entries is at most the maximal load factor times the number of buckets, and there is at least one bucket.", "quantifier": "every hash function, initial number of buckets, maximal load factor and history of operations", "why_tests_cant": "Histories are unbounded and the load factor is a parameter that tests leave at its default.", "anchors": ["include/coil/detail/UnorderedMap.h: 118-121, 140-159, 299-306"]}
{"id": "C61", "title": "Functions are owned by one holder", "statement": "A function given to the library is held by exactly one FunctionWrapper or AnyFunctor, also when the holders are moved around; calls of a holder reach the function (and object) it was given, its parameter and return types are reported, and the function is deleted exactly once, when its holder is destroyed.", "quantifier": "every program of wrapping, moving, converting, calling and destroying any number of holders", "why_tests_cant": "Programs are unbounded; a double deletion or a leak does not change results.", "anchors": ["include/coil/detail/FunctionWrapper.h: 36-128", "include/coil/detail/AnyFunctor.h", "src/Coil.cpp: 147-191"]}
{"id": "C62", "title": "Names of commands stay readable", "statement": "The name of a registered command always reads as the name it was added with, and the texts of names are released exactly once.", "quantifier": "every history of add, remove and clear, whatever positions the look-ups find", "why_tests_cant": "A dangling view usually still shows the old text.", "anchors": ["src/Coil.cpp: 204-236", "include/coil/detail/UnorderedMap.h: 140-222", "include/coil/detail/Vector.h: pushBack, grow", "src/Buffer.cpp"]}
{"id": "C63", "title": "References to commands", "statement": "A command returned by add or get can be used as long as the command is registered.", "quantifier": "every history of add, remove and clear", "why_tests_cant": "Whether a dangling reference is noticed depends on the allocator.", "anchors": ["src/Coil.cpp: 204-231", "include/coil/detail/Vector.h: pushBack, grow, popBack"]}
{"id": "C64", "title": "Type names identify types", "statement": "Two different types never show the same name, so the parameter types reported for a function determine its parameter list.", "quantifier": "every two types built from integers, bool, texts, arguments, vectors and optionals; every platform and naming option", "why_tests_cant": "Types nest without bound, and which integer types coincide depends on the platform.", "anchors": ["src/Coil.cpp: 65-115, 624-646", "include/coil/StdLibCompat.h: 24-38, 82-90, 119-128", "include/coil/detail/FunctionWrapper.h: 36-48"]}
{"id": "C65", "title": "Pointer results", "statement": "The result of a function that returns a pointer is the text null for a null pointer and otherwise the text of what it points to; the reported return type tells pointers from values.", "quantifier": "every function that returns a pointer, every state and argument list", "why_tests_cant": "Functions are arbitrary; null results of character pointers crash only on some platforms.", "anchors": ["include/coil/detail/FunctionWrapper.h: 40, 66-87", "include/coil/detail/TypeSerializer.h: 73-76, 94-112", "src/Coil.cpp: 590-593"]}
{"id": "C66", "title": "Texts of composite results", "statement": "The result text of a vector is that of its elements in order, separated by a comma and a space, in brackets; an optional shows its value or nothing. The text of a number, truth value, or nested vector of these determines the value.", "quantifier": "every value of every type built from numbers and truth values by vectors, to any depth; every serializer for the layout", "why_tests_cant": "Values are unbounded; ambiguity of texts needs two values at once.", "anchors": ["include/coil/StdLibCompat.h: 43-128"]}
{"id": "C67", "title": "The cost of growing", "statement": "Appending n elements or bytes one at a time moves fewer than 4 n old ones over logarithmically many allocations, and none if room was reserved.", "quantifier": "every program of pushes and pops on a vector, every sequence of appends to a string", "why_tests_cant": "Costs are not observable in results, and the bound is about all lengths.", "anchors": ["include/coil/detail/Vector.h: 106-160, 254-278", "src/String.cpp: 39-55, 84-108", "src/Buffer.cpp"]}
{"id": "C68", "title": "Floating-point arguments are the nearest numbers", "statement": "A floating-point argument is accepted exactly if its whole text is a decimal or hexadecimal number within range, an infinity or a NaN, and its value is the number of the format nearest to the number written, ties to even.", "quantifier": "every text; every binary format with at least two bits of precision", "why_tests_cant": "Texts and formats are unbounded, and correct rounding is a statement about all neighbours of a value.", "anchors": ["src/StringConv.cpp: 12-18, 65-79", "src/Coil.cpp: 53-63, 499-524"]}
{"id": "C69", "title": "Accuracy of floating-point results", "statement": "The text of a finite floating-point result denotes a number within five millionths of the value, or is 0 for values below one millionth; given as an argument of the same type it is accepted and stays within six millionths.", "quantifier": "every finite value of float, double and long double", "why_tests_cant": "There are 2^64 doubles; the error bound holds for each.", "anchors": ["src/StringConv.cpp: 136-158"]}
{"id": "C70", "title": "Stability of floating-point texts", "statement": "The text of a floating-point result, given as an argument of the same type, gives a value with the same text.", "quantifier": "every value of float, double and long double", "why_tests_cant": "Failures sit at single values next to the bounds of the special cases.", "anchors": ["src/StringConv.cpp: 65-79, 136-158"]}
{"id": "C71", "title": "The map in a build with assertions", "statement": "With assertions enabled, a history of map operations ends as it does without them or stops at a failed assertion; it never has undefined behaviour; and no assertion fails.", "quantifier": "every key type and hash function, every history of insertions, removals and clears on a new map, every look-up afterwards", "why_tests_cant": "Histories are unbounded, and a test run sees only the outcome of the build it was compiled with.", "anchors": ["include/coil/detail/UnorderedMap.h: 162-326", "include/coil/detail/Vector.h: 219-245", "include/coil/detail/Assert.h: 1-9"]}
{"id": "C72", "title": "The lexer in a build with assertions", "statement": "With assertions enabled, a text is parsed or rejected as without them or the parser stops at a failed assertion; every parsed view lies inside the text; and the parser stops exactly if an argument value that is evaluated has a part consisting of one lone quote.", "quantifier": "every text shorter than 2^64 - 1 bytes; every configuration of the lexer for the first two parts, every configuration with proper delimiters for the last", "why_tests_cant": "Texts are unbounded and a test suite is compiled either with or without assertions, so no test compares the two builds.", "anchors": ["src/DefaultLexer.cpp: 45-52, 91-124, 126-294", "src/StringView.cpp: 35-41, 55-59", "include/coil/detail/Assert.h: 1-9"]}
{"id": "C73", "title": "Vectors in a build with assertions", "statement": "With assertions enabled every program over vectors ends as without them or stops at a failed assertion; no assertion fails while the preconditions hold; and as long as no destroyed vector is used and requested byte counts fit into size_t, the program stops exactly if an element is popped from an empty vector or an index is out of range, instead of having undefined behaviour.", "quantifier": "every finite sequence of vector operations, every element size and default element; for the last two parts those whose byte counts stay below 2^64", "why_tests_cant": "Sequences of operations and capacities are unbounded, and a test suite is compiled either with or without assertions.", "anchors": ["include/coil/detail/Vector.h: 67-278", "include/coil/detail/Buffer.h: 35-91", "src/Buffer.cpp: 5-44"]}
{"id": "C74", "title": "Strings in a build with assertions", "statement": "With assertions enabled, a program over strings that respects the preconditions of C22 ends in the same state as without them, or stops at an assertion; it stops exactly if it copies or views a string that was moved from and not given a text or a size since. Parts out of range, equality with such a string and the last byte of an empty text stop the program.", "quantifier": "every finite sequence of string operations whose sizes fit into size_t and which appends no string to itself", "why_tests_cant": "Sequences of operations and texts are unbounded, and a test suite is compiled either with or without assertions.", "anchors": ["src/String.cpp: 8-171", "src/Buffer.cpp: 5-96", "src/StringView.cpp: 9-41", "include/coil/detail/Buffer.h: 14, 83-91"]}
{"id": "C75", "title": "Serializers that are arbitrary code", "statement": "When fromString and toString are arbitrary code, a call consists of the conversions one after the other, then the function, then the text of its result. An exception of a conversion ends the call before the function and is handled like an exception of the function; failed conversions are all reported, in parameter order, and the function is not called; the text is made even if the function reported errors. With catching no exception leaves execute, a result never has both a value and an error, and at most one function is called.", "quantifier": "every set of functions and serializers, including ones that throw, change the state, use the registry and execute commands, every conversion order, every request and program state", "why_tests_cant": "Serializers are user code; a test has only the serializers it defines and the evaluation order of its compiler.", "anchors": ["include/coil/detail/FunctorCaller.h: 17-43", "include/coil/detail/FunctionWrapper.h: 60-100", "src/Coil.cpp: 240-316"]}
{"id": "C76", "title": "The order of converting arguments", "statement": "C++ leaves open in which order the arguments of a call are converted. If the serializers have no effects, every order gives the same result and the same program state. The messages of failed conversions are in the order of the parameters, whatever the order of conversion.", "quantifier": "every set of functions, every two orders of evaluation, every request and program state", "why_tests_cant": "A compiler evaluates in one order; the other orders are not exercised by tests compiled with it.", "anchors": ["include/coil/detail/FunctorCaller.h: 25-43"]}
{"id": "C77", "title": "The signature of a registered function", "statement": "A function registered with coil has as many arguments as it has parameters, without a Context in the first place; their types and the type of its result are its types without references and const and volatile, in order, and a pointer is shown as what it points to. It compiles exactly if every parameter takes a temporary (by value, by const& or by &&) and all types have names and conversions. This holds for function pointers, for objects with one operator(), with any qualifiers except &&, for bound member functions that can be called on their object, and for the functions of variables and properties.", "quantifier": "every function type over qualified object types, pointers and references, all qualifiers of member functions, every set of types with names and serializers", "why_tests_cant": "Templates are instantiated at compile time: a test instantiates a few signatures, and what does not compile cannot be in a test at all.", "anchors": ["include/coil/detail/TypeTraits.h: 5-113", "include/coil/detail/FuncTraits.h: 12-84", "include/coil/detail/FunctionWrapper.h: 17-100", "include/coil/detail/Types.h: 9-27", "include/coil/detail/Bind.h: 9-17", "include/coil/detail/Bindings.h: 36-42", "include/coil/detail/Variable.h: 9-31", "include/coil/detail/Property.h: 18-71"]}
{"id": "C78", "title": "Executing commands in a build with assertions", "statement": "Turning assertions on changes nothing in a program that registers and executes commands except that it may stop at a failed assertion: every request gives the same result and leaves the same program behind. With assertions, a program whose functions, serializers and lexers have no undefined behaviour of their own has none, except that a function which removes itself while it runs can use what it destroyed; this holds for the map as it is. With the repaired map only the lexer (or its absence) can fail an assertion.", "quantifier": "all programs that use a registry, all functions (changing the registry and executing commands while they run), all lexers, all requests, any recursion depth", "why_tests_cant": "The assertions are off in the tests' default configuration, and the statement compares two builds over all programs; the violations come from histories of additions and removals that no test contains.", "anchors": ["src/Coil.cpp: 190-316", "include/coil/detail/UniquePtr.h: 43-63", "include/coil/detail/FunctorCaller.h: 18-43", "include/coil/detail/Expected.h: 198-216", "include/coil/detail/UnorderedMap.h: 140-327", "include/coil/detail/Vector.h: 233-245", "src/DefaultLexer.cpp: 45-294"]}
{"id": "C79", "title": "Reading optionals, expecteds and owners", "statement": "A program that reads, compares and changes optionals, expecteds, unexpecteds and owners through their accessors, and reads only what is there, is shown exactly what plain values would show, with and without assertions: the flag, the value, the error, the payload after copying and moving conversions, equality (equal alternatives with equal content) and inequality. In a build with assertions, reading the alternative that is not there stops the program at an assertion.", "quantifier": "all programs on any number of variables, all contained types and their comparisons and conversions, all moved-from states, with and without assertions", "why_tests_cant": "The tests read a handful of freshly made objects; the statement ranges over all histories of copies, moves, throwing copies and accessor calls, and compares two builds.", "anchors": ["include/coil/detail/Optional.h: 133-201", "include/coil/detail/Expected.h: 142-253", "include/coil/detail/Unexpected.h: 33-83", "include/coil/detail/UniquePtr.h: 29-63"]}
{"id": "C80", "title": "Exceptions thrown inside vectors", "statement": "Wherever an allocation, a construction or an assignment of an element throws, a program on vectors that catches the exceptions and respects the preconditions has no undefined behaviour, and every heap block belongs to exactly one live vector. A constructor or copy assignment that throws leaves variables, heap blocks and the number of objects exactly as they were; any statement that fails at its first action, such as the allocation, leaves all sequences as they were; a failing resize leaves a prefix of the new elements. If moving an element cannot throw, constructions minus destructions is always the number of elements.", "quantifier": "all programs on any number of vectors that branch on exceptions, every position at which an action throws, all element types, all states of moved-from, spoilt and half-assigned elements, all sizes within size_t", "why_tests_cant": "The tests never make an element or an allocation throw; the statement covers every interleaving of failures with later use of the same vectors.", "anchors": ["include/coil/detail/Vector.h: 67-144", "include/coil/detail/Vector.h: 262-278", "include/coil/detail/Buffer.h: 35-50", "src/Buffer.cpp: 5-8", "src/Buffer.cpp: 22-29"]}
{"id": "C81", "title": "UTF-8 in, UTF-8 out", "statement": "If a command line is well-formed UTF-8 and the delimiters are ASCII characters, as the default ones are, then the parsed name, every argument, every part of a compound value, every key and every syntax error is well-formed UTF-8. If moreover the registered functions log, report, throw, return and execute only UTF-8 when they are given UTF-8, then every text of every result is UTF-8: the echoed command, all errors, the return value and the output. The serializers of the library and functions made for variables and properties satisfy this.", "quantifier": "all UTF-8 texts, all configurations of ASCII delimiters, all functions (with nested executions and changes of the registry), all sequences of requests, all containers of commands", "why_tests_cant": "The tests contain ASCII texts only. The claim is about cutting arbitrary texts at arbitrary places, including the places where messages are cut at a NUL.", "anchors": ["src/DefaultLexer.cpp: 45-294", "src/Coil.cpp: 240-316", "src/Coil.cpp: 446-496", "include/coil/StdLibCompat.h: 43-128"]}
{"id": "C82", "title": "Programs with several maps", "statement": "A program that creates, copies, moves, assigns, fills, empties and destroys any number of UnorderedMaps, whose nodes and buckets live in Vectors on a heap, runs without undefined behaviour if it uses live maps only and puts into and erases from maps with buckets only; every map then holds exactly the specified entries in the specified order, a moved-from map is empty, and misuse is undefined behaviour. No node and no block is leaked, shared or destroyed twice, and once all maps are destroyed everything is freed. The map on heaps behaves like the map on lists of C24 in every case, good or bad.", "quantifier": "all programs, all numbers of maps, all hash functions, load factors and sizes of objects that do not overflow size_t; for the code as it is, removals must be allowed in the sense of C24", "why_tests_cant": "The tests use one map at a time and no failing order of removals. Ownership over all interleavings of copying, moving, growing and erasing is a property of all histories.", "anchors": ["include/coil/detail/UnorderedMap.h: 118-330", "include/coil/detail/Vector.h: 33-245", "include/coil/detail/Buffer.h: 11-93"]}
{"id": "C83", "title": "References and iterators into maps", "statement": "Which references into UnorderedMaps are valid can be told from the program alone. A reference reads the entry with its index of the map that owns its block, and is undefined otherwise. find returns a reference to the entry with the key. Moving maps keeps all references, statements on other maps keep them, putting a present key or a key for which there is room keeps them, and putting a new key into a full block makes all references into the map dangle for ever, because blocks never come back.", "quantifier": "all programs on any number of maps, all references, all continuations; for the code as it is, removals must be allowed in the sense of C24", "why_tests_cant": "A dangling reference often reads the old value in a test. Validity depends on the whole history of the block.", "anchors": ["include/coil/detail/UnorderedMap.h: 50-116", "include/coil/detail/UnorderedMap.h: 226-248", "include/coil/detail/Vector.h: 148-170"]}
{"id": "C84", "title": "Maps when memory runs out", "statement": "When an allocation or the copy of a node throws in a statement on UnorderedMaps, whose keys and values move without throwing, the statement has no effect that can be seen: all maps keep their entries, their order and their answers to look-ups, references into them stay valid across a failed insertion, nothing leaks, and the program can go on. Statements that need no memory do not throw. After a copy assignment that failed, the target can be cleared, destroyed or assigned to.", "quantifier": "all programs that catch exceptions and go on depending on which statements threw, all points of failure, all numbers of maps", "why_tests_cant": "The tests never let an allocation fail. The guarantee quantifies over every point at which one may fail and over everything done afterwards.", "anchors": ["include/coil/detail/UnorderedMap.h: 118-159", "include/coil/detail/UnorderedMap.h: 299-306", "include/coil/detail/UnorderedMap.h: 332-336", "include/coil/detail/Vector.h: 82-144", "src/Buffer.cpp: 5-29"]}
{"id": "C85", "title": "Enumerations as arguments", "statement": "An argument of enumeration type may be given as a number or as the name of a constant in any mixture of cases; a value is written as its name, and what is written is read as the same value. Every other text is rejected with an error that lists the names that work, in the order of their values; the conversion has no undefined behaviour.", "quantifier": "all enumerations (any underlying integer type, fixed or not, any constants), all platforms, all texts and all numbers of sub-values, all values", "why_tests_cant": "The example has three small enumerations without aliases and tries six spellings. The rules for numbers outside the enumeration, for aliases, for large constants and for names that differ by case only show in no output of it.", "anchors": ["examples/common/EnumSupport.h: 18-54", "examples/common/Utils.h: 8-21", "examples/include/magic_enum.hpp: 361-466", "examples/include/magic_enum.hpp: 702-760", "examples/enums/EnumsExample.cpp: 12-85"]}
{"id": "C86", "title": "Flags", "statement": "The command of a flags variable sets the union of the flags given in its argument, whatever their order and number and however the list is spelled, and shows the flags that are set as their names with bars between them; an argument with an unknown flag changes nothing. What it shows can be given back to it and sets the same flags.", "quantifier": "all enumerations, all values, all lists of numbers and names, all programs with such a command", "why_tests_cant": "The example sets at most two of four flags. That the union has exactly the bits of its parts, also for negative values and for types of any width, and that the text always restores the value, are statements about all values.", "anchors": ["examples/flags/FlagsExample.cpp: 34-66", "examples/include/magic_enum.hpp: 923-947", "examples/common/EnumSupport.h: 18-54"]}
{"id": "C87", "title": "The hash map cannot be seen", "statement": "What a program sees of a registry (the results of execute, its own state, which function objects were called, which commands exist) does not depend on how the commands are stored: the hash map gives what a plain list of names and commands gives, on every platform, whatever the commands do to the registry while they run.", "quantifier": "all programs: all sets of commands (whose functions add, remove, clear and execute, nested to any depth), all sequences of actions, all lexers, both signednesses of char, all load factors, lists, hash maps on lists and hash maps on heaps", "why_tests_cant": "Hash collisions, rehashing and relinking depend on names and their order. A test compares a few programs on one platform; the claim compares all programs on all platforms.", "anchors": ["include/coil/detail/UnorderedMap.h: 118-330", "include/coil/detail/Bindings.h: 22-61", "src/Coil.cpp: 190-316", "src/StringView.cpp: 76-86"]}
{"id": "C88", "title": "Argument objects are moved and destroyed exactly once", "statement": "The objects that carry converted arguments to a user function are never copied: each value is made once, moved into its Expected, and moved three more times when the parameter is taken by value and not at all when it is taken by reference. No object is used after it was moved from or destroyed, and every constructed object is destroyed exactly once, also when a conversion fails or throws, a move constructor throws in the middle, or the user function throws. The user function runs at most once, with exactly the converted values.", "quantifier": "all numbers and kinds of parameters (T, T const&, T&&), all results of conversions, all schedules of throwing move constructors, all user functions (which parameters they move from, whether they throw)", "why_tests_cant": "Tests count constructions for one int-like type, one parameter and no exceptions. Each combination of parameter kinds, conversion results and places where a move constructor throws is another path.", "anchors": ["include/coil/detail/FunctorCaller.h: 25-43", "include/coil/detail/FunctionWrapper.h: 66-87, 124-128", "include/coil/detail/Expected.h: 72-75, 95-99, 211-216, 275-282", "include/coil/detail/Variable.h: 10-21", "tests/runtime/BindingsTests.cpp: 269-389"]}
{"id": "C89", "title": "The library means what the semantics says", "statement": "A program that uses the library means what a small big-step semantics says: a dictionary from names to functions, a grammar of command lines, the choice of the first function with the right number of parameters, the conversion of all arguments, the effects of the functions (which may log, report errors, throw, change the registry and execute commands themselves), and the text of every error. Whatever the library does is derivable, whatever is derivable is what the library does, nothing else is; each program has one meaning at most; function objects are destroyed exactly when they belong to no command any more.", "quantifier": "all programs: all sets of commands and their functions, nested to any depth, all sequences of actions, all texts that fit in memory, all delimiters that are disjoint, with and without exception handling, both signednesses of char, all load factors", "why_tests_cant": "An equivalence of two descriptions of the whole library over all programs; a test compares one result of one program.", "anchors": ["src/Coil.cpp: 123-425", "src/DefaultLexer.cpp: 1-294", "include/coil/detail/UnorderedMap.h: 118-330", "include/coil/detail/FunctorCaller.h: 18-43", "include/coil/detail/AnyFunctor.h: 16-85"]}
{"id": "C90", "title": "The console answers every line of its input", "statement": "The console of the examples answers every line that it reads as its help text promises: it prints the list of examples for `help`, runs an example by its name and prints what the example prints, runs all examples for `run_all`, stops for `exit`, reports every other line as an error, and stops when there is no more input. Whatever the input, the text it prints is the transcript that a small semantics of sessions gives, in that order, and lines after `exit` are not read.", "quantifier": "all inputs, all lists of examples whose names are different words, all behaviours of the examples (state, text, exceptions), any number of rounds, with and without exception handling, all delimiters that are disjoint, both signednesses of char, all load factors", "why_tests_cant": "Inputs are unbounded and so is the number of rounds; a test feeds one input and cannot tell that a program will never stop.", "anchors": ["examples/main.cpp: 24-125", "src/Coil.cpp: 123-425"]}
{"id": "C91", "title": "Scoped commands go when their scope ends", "statement": "A scope (`ScopedDebugCommands` of the examples) registers commands in a global registry. When the scope ends, the commands that were registered through it disappear, and no others; moving a scope hands its commands over. So the registered commands are always exactly those that the program or living scopes have registered last, and no function of a scope can be called after its end.", "quantifier": "all programs: all sequences of actions on the registry and on any number of scopes (adding, removing, clearing, moving, assigning, ending, making a new registry, dropping it), all names and functions, both signednesses of char, all load factors", "why_tests_cant": "A property of all histories of all scopes; the example runs one history with one scope.", "anchors": ["examples/encapsulation/EncapsulationExample.cpp: 17-95", "examples/encapsulation/EncapsulationExample.cpp: 99-156", "src/Coil.cpp: 206-238"]}
{"id": "C92", "title": "Strings when memory runs out", "statement": "If `new` throws in an operation of `String` (a constructor, copy, assignment, `reserve`, `resize`, `append`, `+`), the exception is passed on, all strings are as they were before the statement, no memory is leaked, and the program may go on. Operations that need no memory do not throw, and moving never throws.", "quantifier": "all programs: trees of statements on any number of strings with any texts, every choice of which allocation fails in each statement, and every way to go on after an exception; all sizes up to size_t", "why_tests_cant": "No test can make each allocation of each program fail; the strong guarantee is about the absence of any change in all states.", "anchors": ["src/String.cpp: 8-55", "src/String.cpp: 84-108", "src/String.cpp: 121-143", "src/String.cpp: 173-191", "src/Buffer.cpp: 5-44"]}
{"id": "C93", "title": "Commands are views of the caller's text", "statement": "The name, the arguments and the named arguments of a command, as functions and results see them, are ranges of the caller's text, not copies. A function that leaves its callers' texts alone behaves as if it were given the texts themselves. After `execute`, the command in the result reads as the grammar says in every later state in which the caller's text is in place, whatever the functions did in between, and reading its name is undefined once that text has been destroyed.", "quantifier": "all memories and places of the command, all lexer configurations, all registries, all programs of functions on views (making, overwriting, destroying and reading texts, nesting commands), all later memories", "why_tests_cant": "A dangling view often still reads as the old text, so a test passes; and no test can run every function in every memory.", "anchors": ["include/coil/detail/StringView.h: 9-30", "include/coil/detail/ExecutionInput.h: 9-14", "include/coil/detail/ExecutionResult.h: 10-16", "src/DefaultLexer.cpp: 91-132", "src/Coil.cpp: 240-316", "src/Coil.cpp: 460-463", "src/Coil.cpp: 577-583", "include/coil/detail/FunctorCaller.h: 18-43"]}
{"id": "C94", "title": "Executing commands when memory runs out", "statement": "Whatever requests for memory fail in adding, lexing, converting, calling, logging, reporting and printing, a program goes exactly one of the ways of a semantics in which each such step may throw `std::bad_alloc` without effect: adding a command that throws registers nothing and destroys its function objects, a command whose function was not called changes nothing, effects of a called function stay, and no node, block or function object is leaked or destroyed twice. A result without errors comes from a function that was called with all its arguments and returned. With `COIL_CATCH_EXCEPTIONS` no exception leaves `execute`.", "quantifier": "all programs of actions and functions (which may catch the exceptions), all sequences of requests that fail, all registries, lines, commands and depths of nesting, on the hash map with vectors on the heap", "why_tests_cant": "Each request for memory can fail or not, so the runs of one program are exponentially many, and tests cannot make a request fail without replacing the allocator.", "anchors": ["src/Coil.cpp: 190-236", "src/Coil.cpp: 240-316", "src/Coil.cpp: 325-372", "include/coil/detail/FunctorCaller.h: 18-43", "include/coil/detail/Bindings.h: 59-83", "include/coil/detail/UnorderedMap.h: 118-245"]}
{"id": "C95", "title": "Functions that keep views of their arguments", "statement": "A function may keep `StringView`s of its arguments. In a session whose texts stay in place, functions that keep views do what the same functions do that keep copies: same results, same errors, same output, corresponding states, and the commands in all results can still be read. If nothing of the console's lines is kept, the console may destroy each line after executing it and shows the same. The inventory of NamedExample and the entities of AdvancedExample, whose variables are made by a command and capture a view, are such functions: a made variable shows and changes the member of the first entity with the captured id, or reports that it is read-only.", "quantifier": "all pairs of functions on views and on texts whose bodies correspond (any state, nested calls, changes of the registry, exceptions), all relations between the states that survive while texts stay in place, all registries, lexers, lines, lengths of the session, memories", "why_tests_cant": "A view that outlives its text goes wrong depending on what happens to the memory later; the examples pass string literals, whose texts stay in place, so running them shows nothing.", "anchors": ["examples/named/NamedExample.cpp: 13-98", "examples/advanced/AdvancedExample.cpp: 18-53", "examples/advanced/AdvancedExample.cpp: 129-153", "examples/common/ExamplesCommon.cpp: 27-43", "examples/main.cpp: 99-122", "src/Coil.cpp: 240-316"]}
{"id": "C96", "title": "The cost of lexing", "statement": "For every text and every configuration the lexer reads exactly the characters of the text, each at least once and at most six times, so the number of reads is linear in the length of the text; and the name, the keys and the sub-values of all arguments together are not more than the characters of the text.", "quantifier": "all texts, all configurations of the lexer, all positions", "why_tests_cant": "A quadratic loop is only noticed on long texts of the right shape, and a character read too often or too seldom does not change a result.", "anchors": ["src/DefaultLexer.cpp: 45-52", "src/DefaultLexer.cpp: 91-294"]}
{"id": "C97", "title": "The cost of looking up a command", "statement": "A look-up compares the name only with stored names of its own bucket, each at most once: with all of them if the name is not stored, and with itself last if it is. With a maximal load factor p/q at least 1, look-ups of names of pairwise different buckets compare at most as many names as are stored, so at most p/q on average over the buckets; hence a look-up takes a bounded number of comparisons.", "quantifier": "all key types, hash functions, load factors at least 1, histories of insertions, removals and clearing, keys; for the negation all numbers of commands", "why_tests_cant": "Tests use few and short names; the worst case needs names that collide in the hash function, which look random.", "anchors": ["include/coil/detail/UnorderedMap.h: 250-327", "src/StringView.cpp: 76-86"]}
{"id": "C98", "title": "Commands that compute with integers", "statement": "For all numbers that the conversions accept, `scale x` answers the product of x and the member of the object, and `sum` of numbers answers their sum, whatever their order. A part that is not a number is reported and nothing is computed.", "quantifier": "all programs that register the two commands, states, request texts, numbers of parts, texts of the parts", "why_tests_cant": "Tests use small numbers; the failing inputs are those near the limits of int, and for the sum they depend on the order.", "anchors": ["examples/basic/BasicExample.cpp: 61-78, 109-110", "examples/usertypes/UsertypesExample.cpp: 14-60, 219"]}
{"id": "C99", "title": "Commands that compute with floating-point numbers", "statement": "`sum_all` of n texts of numbers answers a text of a number whose distance from the exact sum is at most ((1 + 5/10^6)(1 + 2^-24)^(n+1) - 1) times the sum of the magnitudes, plus 10^-6, as long as that sum stays within the range of float; `add` likewise for two numbers. Whole numbers whose magnitudes add up to at most 999999 are added exactly. `add` and `sum_all` do not depend on the order of the numbers.", "quantifier": "all programs that register the two commands, states, request texts, numbers of parts, texts of numbers that are 0, normal or exactly representable", "why_tests_cant": "The error bound is over all lists of numbers and accounts for reading, each of the additions and printing; order dependence shows only in rounding.", "anchors": ["examples/compound/CompoundExample.cpp: 146", "examples/basic/BasicExample.cpp: 46-49, 98"]}
{"id": "C100", "title": "Properties of a window", "statement": "For every number q that the conversion to float accepts, `window.aspect q` makes the width q times the height up to one pixel and a relative error of 2/10^7, keeps the height, and answers the text of a number that differs from q by at most 6q/10^6 + 1.00001/height + 10^-6. `window.diagonal q` is defined for every number.", "quantifier": "all programs that register the commands, windows of up to 2^24 by 2^24 pixels, request texts, texts of numbers; all versions of hypotf that give 0 for zeros", "why_tests_cant": "Tests set plausible sizes; the bound accounts for four roundings, and the failing inputs are conversions whose result does not fit.", "anchors": ["examples/properties/PropertiesExample.cpp: 10-47", "include/coil/detail/Property.h: 45-57"]}
{"id": "C101", "title": "Printing and resizing a vector", "statement": "`data` prints all elements, and its output determines them. `data.size n` keeps the first n elements or appends zeros up to n, and answers n. A size that cannot be had leaves the vector unchanged, and the exception is reported.", "quantifier": "all programs that register the commands, vectors, request texts, sizes, sets of sizes that are refused", "why_tests_cant": "The output is shown to be injective over all vectors, and the effect is stated for all sizes.", "anchors": ["examples/properties/PropertiesExample.cpp: 52-59", "include/coil/detail/Property.h: 18-30"]}
{"id": "C102", "title": "Renaming entities", "statement": "`entities.rename t new` gives the first entity whose id is the number t, or, if t is no number, the first whose name is t, the new name, and changes nothing else; if there is none, or t is not one text, that is reported and nothing changes. `entities.list` prints one line for each entity. Every entity with a name of its own can be reached by that name.", "quantifier": "all programs that register the commands, lists of entities, request texts, names, ids", "why_tests_cant": "The failing names are those that read as numbers; the claims are about all lists of entities and all texts.", "anchors": ["examples/variadic/VariadicExample.cpp: 12-76, 84-86", "include/coil/detail/Value.h: 9-34", "include/coil/detail/Context.h: 24-28"]}
{"id": "C103", "title": "Angles with units", "statement": "`direction` answers with the angle to six digits and ` degrees`. `direction t` where t is a number, or a number and `d`, sets the angle to that many degrees up to one rounding; where t is a number and `r`, to that many radians with a relative error of at most 2/10^7; the answer tells the new angle to six digits (whole numbers of up to six digits exactly). Any other text is refused with an error and the angle stays. The text of an answer can be given as an argument again.", "quantifier": "all programs that register the command, angles, request texts, numbers in the range of float", "why_tests_cant": "The errors are bounded for all numbers; the failing texts are hexadecimal numbers with a certain last digit.", "anchors": ["examples/advanced/AdvancedExample.cpp: 56-105, 155-156", "src/StringConv.cpp: 180-183"]}
{"id": "C104", "title": "The inventory commands", "statement": "`inventory.list` with the named arguments name, min_amount, source and type prints a table head and then one line for each item whose name contains the text, whose amount is at least the number and whose source and type are the given ones (an argument that is not given asks for nothing), in the order of the items; if arguments do not convert, it reports each of them, in the fixed order name, min_amount, source, type, and prints nothing. `inventory.add id name` appends one item with that id and name, source Debug, and the amount (1 if not given) and type (Weapon if not given) of the named arguments; if one of these does not convert, nothing is appended and each failure is reported. Listing changes no item.", "quantifier": "all programs that register the commands, lists of items, request texts, sets of named arguments in any order and number", "why_tests_cant": "Items, filters and malformed arguments combine without bound; the order of error messages and the absence of partial output matter only with several malformed arguments.", "anchors": ["examples/named/NamedExample.cpp: 12-111, 178-180"]}
{"id": "C105", "title": "Commands with named arguments", "statement": "`print_args` prints one line `key: value` for each named argument, in their order. `print_floats` prints such a line for exactly the named arguments that convert to float, in their order, with six digits after the point and an error of at most half of the last one, and reports no error. `save_game` requires type and takes delay (0 if not given): it prints one line with both, or reports each one that is wrong and prints nothing. `required_and_optional` reports a missing `required` and does nothing else; otherwise it shows `required` and then, if given, `optional`, each as a truth value if it is one (so 1 is `true`) and else as a whole number; for one that is neither it reports both conversion errors and goes on.", "quantifier": "all programs that register the commands, request texts, sets of named arguments, numbers in the range of float", "why_tests_cant": "Named arguments come in any number and order and with repeated keys; the rounding of printed numbers is bounded for all of them.", "anchors": ["examples/named/NamedExample.cpp: 113-171, 182-185", "src/Coil.cpp: 359-365, 394-402, 446-458", "include/coil/detail/NamedArgs.h: 75-86"]}
{"id": "C106", "title": "Positions and particles", "statement": "`particles.spawn (a, b) (c, d)` replaces the particle, each of the four numbers is read up to one rounding; an argument that is not two numbers is refused with an error that tells the first wrong part, both arguments with both errors, and then nothing changes. `particles.get_pos_at t` answers with the position after the time t, each coordinate with an error of at most 2^-22 times the sum of the magnitudes, plus 6/10^7, and exactly for whole numbers. `particles.last_particle_pos` answers with the position with six digits after the point, and with an argument it moves the particle. The text of its answer, entered behind the name of the command, is accepted, and the answer is the same text again, for every position including infinities and values that are not numbers.", "quantifier": "all programs that register the commands, states, request texts, positions, numbers in the range of float", "why_tests_cant": "Whether printed numbers survive being read again depends on ties and roundings that only some of the 2^32 values of float meet, for each coordinate.", "anchors": ["examples/usertypes/UsertypesExample.cpp: 21-35, 122-145, 180-187, 209-217", "src/Coil.cpp: 484-496"]}
{"id": "C107", "title": "The whole program of the encapsulation example", "statement": "Whatever the user enters, the program of the encapsulation example goes on without undefined behaviour, with the repaired hash map and also with the hash map as it is. It has at most one subsystem: create_subsystem replaces it by a new one, destroy_subsystem removes it, the variables of the subsystem can be read and set and do_some_work called, all on the living object; no destroyed object is ever used and none is leaked. The commands of the subsystem are registered exactly if there is a subsystem and create_subsystem was not called again since it was made from nothing; after such a second call they are missing until destroy_subsystem. All other commands are refused, with the reason, and change nothing. At the end of run, a subsystem that still lives dereferences a null pointer, and only then.", "quantifier": "all lists of lines and parsed inputs the user can enter, all platforms and lexer configurations with proper delimiters", "why_tests_cant": "The histories of creating, destroying and using are infinitely many, and the defects of the hash map show only for some of them.", "anchors": ["examples/encapsulation/EncapsulationExample.cpp: 25-64, 101-132, 135-161", "include/coil/detail/Variable.h: 9-20"]}
{"id": "C108", "title": "Only the names matter to the hash map", "statement": "Whether the hash map of the registry (as it is or repaired) handles a history of adding and removing depends only on the sequence of the kinds of change and of the keys, not on the values; if it handles all beginnings of the history, it stores exactly the dictionary, in lookup and in listing, and a program with such a history does exactly what the semantics of registries says. The histories that C24 and C89 allow are among them.", "quantifier": "all key and value types, hash functions, growth rules, histories, programs, states", "why_tests_cant": "It relates the behaviour on infinitely many value types and histories.", "anchors": ["include/coil/detail/UnorderedMap.h: 118-330", "src/Coil.cpp: 123-425"]}
{"id": "C109", "title": "The commands of the errors example", "statement": "sqrt_context and sqrt_except tell, for a text of a number q that is not negative and fits a float, a number that differs from the true square root of q by at most 6e-6 of it plus 1e-6, and exactly n for q = n*n with n up to 4096. For a negative number sqrt_context reports 'Value should be non-negative!' and returns nothing; sqrt_except throws, which is an error with the prefix 'Exception caught during execution: ' if exceptions are caught and otherwise leaves execute. An argument that is not a number is refused with the reason and nothing is called. get_float tells the number to six digits, exactly if it is a whole number up to 999999, or the reason why the argument is none. get_type_name tells the first of bool, int, float that the argument is a text of, and otherwise gives all three reasons and 'Unknown type'. test_named_args stops at the first argument that is missing or wrong and tells only that; otherwise it shows the arguments.", "quantifier": "all texts, values, lists of named arguments, registries, platforms, lexer configurations, with and without caught exceptions, at any depth of nesting", "why_tests_cant": "There are infinitely many texts of numbers, and the error bound involves the real square root.", "anchors": ["examples/errors/ErrorsExample.cpp: 12-21, 23-29, 31-39, 41-53, 55-81, 88-92", "include/coil/detail/Context.h: 12-36", "include/coil/detail/NamedArgs.h: 10-87"]}
{"id": "C110", "title": "Programs with fixed commands hold conversations", "statement": "A program that registers a table of commands whose bodies leave the registry alone, and then executes lines and inputs, behaves exactly as the table says: for every sequence of requests, the observable results and the final state of the user's objects are those of a conversation that is told without any registry, lexer or hash map (name lookup in a table, first function with the right number of arguments, conversion errors, body, return value). The commands stay those of the table. If the conversions are defined and the bodies end, every request is answered, and the conversation is determined by what is entered. This holds with the hash map as it is as well as with the repaired one.", "quantifier": "for all tables, quiet programs, states, proper lexer configurations and sequences of requests", "why_tests_cant": "Tests enter some lines into some programs; the statement is about all tables of commands and all sequences of requests, and about the hash map never getting in the way.", "anchors": ["src/Coil.cpp: 123-425", "include/coil/detail/UnorderedMap.h: 118-330"]}
{"id": "C111", "title": "The entity commands keep exactly the history", "statement": "In the program of the usertypes example, whatever is entered, as long as the run is defined: `entities.add` answers with the number of entities there are, `entities.find` with the position of the first entity with the name or with nothing, `entities.focused_entity` with the last id set (0 at first), `entities.remove_some` removes all entities with one of the names; malformed uses are errors that change nothing; all other commands leave the entities alone. At the end the entities are those that were added and not removed later, in the order of being added, and the answers are determined by the history.", "quantifier": "for all sequences of requests (lines and inputs), platforms with a 64-bit size type, and roundings of the platform", "why_tests_cant": "Tests of the example add three entities; the statement is about every history of additions, removals and focus changes, with repeated names and mixed with all other commands.", "anchors": ["examples/usertypes/UsertypesExample.cpp: 37-40, 63-92, 99-116, 203-219"]}
{"id": "C112", "title": "Entity ids name entities", "statement": "The id that `entities.add` tells stays the id of the entity as long as nothing removes it or an older entity; exactly, the entity stands behind those older entities that are still there. An id is told by `find` for at most one name. False of the code: that ids are for ever (removing an older entity shifts them), that `find` tells the id `add` told (repeated names), that the focus is on an entity (any index is accepted, removal leaves it), and that a printed id can be entered again (it never can).", "quantifier": "for all histories and names, and for all ids", "why_tests_cant": "The positions depend on the whole later history of removals, and the rejected texts are an infinite family.", "anchors": ["examples/usertypes/UsertypesExample.cpp: 37-40, 63-92, 99-116"]}
{"id": "C113", "title": "The particle system does what its history says", "statement": "In the program of the compound example, whatever lines and inputs are given: every request is answered without undefined behaviour and without an exception; `particles.add` adds a particle, `particles.get` answers with the first particle of the name (or null), `particles.update` moves every particle, `particles.list` writes the table of all particles in the order of being added, `pivot` answers with the last point set, `sum_all` with the sum from the left, `get_arg_or_pi` with its argument or 3.14; a point is a value with exactly two parts that read as numbers; anything else is an error that changes nothing. At the end every particle is where its first position, its velocity and the later steps of time put it, and the answers are determined by the history.", "quantifier": "for all sequences of requests, proper lexer configurations, hash functions of the platform's char, roundings of the platform, both versions of the hash map", "why_tests_cant": "The example enters 36 lines; the statement is about every sequence of lines and inputs, interleaving all commands, with any numbers, repeated ids and malformed values.", "anchors": ["examples/compound/CompoundExample.cpp: 13-84, 89-124, 131-148", "include/coil/detail/TypeSerializer.h: 99-112"]}
{"id": "C114", "title": "Particles are where they should be", "statement": "A particle that was added first with its name is found with all steps of time since then applied. With whole numbers whose sizes add up to less than a million, the printed position is exactly position plus velocity times the sum of the steps. For all finite numbers in range each printed coordinate differs from that value at most by an error bound that grows with the number of steps, plus six-digit printing. False of the code: that it does not matter how the time is divided into steps.", "quantifier": "for all histories, names, finite positions, velocities and steps in range", "why_tests_cant": "The error accumulates over arbitrarily many steps and depends on all numbers; tests can only compare a few sums.", "anchors": ["examples/compound/CompoundExample.cpp: 18-44, 57-75, 116-124"]}
{"id": "C115", "title": "Variables remember exactly what was assigned last", "statement": "A program binds any number of variables at different places with `coil::variable`, commands like the example's `toggle`, and commands that write a line about the variables, all under different names. Whatever is entered, every variable has the value that was assigned to it last (its first value if none was), the commands answer with the texts of these values, toggling commands assign the changed value, an assignment to one variable changes no other, and whatever is not understood changes nothing. If the conversions are defined for all values, every request is answered. In general they are answered exactly if every line fits and has no lone quote in a group and the conversion of every value that is assigned is defined. The answers are determined by the history.", "quantifier": "for all families of variables (any number, any types, conversions and places), tables of commands with different names, sequences of requests and proper lexer configurations", "why_tests_cant": "Tests assign a few values to a few variables of a few types; the statement is about all families of variables, all conversions and all interleavings of requests.", "anchors": ["include/coil/detail/Variable.h: 9-19", "examples/variables/VariablesExample.cpp: 25-38"]}
{"id": "C116", "title": "The variables example", "statement": "The program of the variables example is such a program: `time_scale`, `city`, `type` and `god_var` keep what was assigned last, `god_toggle` is about the same variable as `god_var` and n toggles turn it over n times and change nothing else, and `print_variables` writes the time scale with six places, the city up to a character 0 and the name of the type (an empty text for a number without name). The program answers exactly if every line fits and has no lone quote in a group and, where `char` is signed, no text like `tru\\x80` is given to `god_var`. False of the code: that every request is answered where `char` is signed.", "quantifier": "for all sequences of requests, platforms, and roundings of the platform", "why_tests_cant": "The example enters 16 lines; toggles, assignments and malformed requests can be interleaved in infinitely many ways, and the undefined case needs special bytes.", "anchors": ["examples/variables/VariablesExample.cpp: 12-38, 45-58", "src/Coil.cpp: 525-562"]}
{"id": "C117", "title": "When a program with fixed commands answers", "statement": "A program registers its commands once, with functions that leave the registry alone, and whether a function comes to an end does not depend on the state of the program. Then the program answers a sequence of requests without undefined behaviour exactly if every line fits and has no lone quote in a group, and every command that is entered is unknown, has the wrong number of arguments, or has arguments whose conversions are defined and, if all succeed, make the function come to an end. So the order of the requests and their repetition do not matter to whether they are answered. If a function may come to an end in one state and not in another, this criterion decides, for the state that the program is in, whether one more request is answered; and no request is answered after one that is not.", "quantifier": "for all programs with fixed commands and such functions, sequences of requests and proper lexer configurations", "why_tests_cant": "A test shows that some requests are answered; the criterion decides it for all sequences and all programs of the kind.", "anchors": ["src/Coil.cpp: 255-330", "include/coil/detail/FunctorCaller.h: 18-43"]}
{"id": "C118", "title": "The basic example", "statement": "Whatever is entered in the program of the basic example: `print_repeated` writes its text as often as its number says, `print_quoted` its text up to a character 0 in quotes, `invert` answers the other truth value, `add` the rounded sum, `concat` the texts one after the other, the four speakers introduce themselves with their number, the scalers answer twice and ten times their number, `hello_with_context` writes its four lines, `hello` adds one line to the console, and nothing else changes anything. The program answers exactly if every line fits and has no lone quote in a group, no product leaves `int`, and, where `char` is signed, no text like `tru\\x80` is given to `invert`. False of the code: that every request is answered.", "quantifier": "for all sequences of requests, platforms, and roundings of the platform", "why_tests_cant": "The example enters 23 lines; overflow and the special bytes need arguments no test would try, and the criterion is exact for all of them.", "anchors": ["examples/basic/BasicExample.cpp: 12-110", "src/Coil.cpp: 525-562, 596-621"]}
{"id": "C119", "title": "The overloading example", "statement": "Whatever is entered in the program of the overloading example, the number of the arguments decides which function answers, and what a command returns depends on its name and that number alone; the explosions are told with their name up to a character 0 and their radius; what is not understood is an error. Nothing changes. The program answers exactly if every line fits and has no lone quote in a group and, where `char` is signed, no odd word such as `tru\\x80` is given to `mixed_func` as the third argument. False of the code: that every request is answered.", "quantifier": "for all sequences of requests, platforms, and roundings of the platform", "why_tests_cant": "The example enters 11 lines; which overload answers is decided for every command and every number of arguments, and the criterion for definedness is exact.", "anchors": ["examples/overloading/OverloadingExample.cpp: 11-80", "include/coil/detail/FunctorCaller.h: 18-43"]}
{"id": "C120", "title": "The enums example", "statement": "An enumeration with plain constants (different small values, names that differ by more than the case) reads a number that is a value of it or one of its names in any mixture of cases, each text as one value, and shows the name of the value or nothing. In the program of the enums example the getters show what was chosen last, whatever is entered; what is not understood changes nothing. The program answers exactly if every line fits and has no lone quote in a group, and no number but 0, 1, 2 and 3 is given as the reset mode, whatever the ability and whatever integer type is underlying. False of the code: that every request is answered.", "quantifier": "for all sequences of requests, platforms, and underlying types of the unscoped enumeration", "why_tests_cant": "The example enters 8 lines with names; the numbers that make it undefined are those no example tries, and the criterion is exact for all of them.", "anchors": ["examples/enums/EnumsExample.cpp: 14-70", "examples/common/EnumSupport.h"]}
{"id": "C121", "title": "The flags example", "statement": "In the program of the flags example the variable always has exactly the bits of the flags given last, in any order and repetition; `entity.draw` writes a line for each of the four bits that is set, in order; `entity.flags` shows the names of exactly those bits, or nothing if any other bit is set; what is not understood changes nothing. The program answers exactly if every line fits and has no lone quote in a group.", "quantifier": "for all sequences of requests and platforms", "why_tests_cant": "The example enters 11 lines; sequences, orders, repetitions and numbers without a name are unbounded.", "anchors": ["examples/flags/FlagsExample.cpp: 10-86"]}
{"id": "C122", "title": "The variadic example", "statement": "Whatever is entered in the program of the variadic example, the entities are those that were added, in this order, each with the name it was last given; a new name goes to the first entity that the text refers to, and the text is taken as an id if it is one and as a name otherwise; a text that refers to nothing and a group are errors with the messages of the conversions. No entity is lost, moved or given another id, an id refers to the same entity for ever, and what is an error changes nothing. The program answers exactly if every line fits and has no lone quote in a group.", "quantifier": "for all sequences of requests and platforms", "why_tests_cant": "The example enters 8 lines; that ids keep their referents under every sequence of additions and renamings is an invariant over unbounded histories.", "anchors": ["examples/variadic/VariadicExample.cpp: 13-97"]}
{"id": "C123", "title": "The errors example", "statement": "Whatever is entered in the program of the errors example, the commands answer and report errors as told: roots of numbers that are not negative, an error or an exception for negative ones, the text of a number or why there is none, the first type a text can be read as or what is wrong for each type, and the first thing that is wrong with the named arguments or their texts. An exception becomes an error of the result if exceptions are caught and reaches the caller otherwise, and the program goes on after it. The same request has the same answer whenever it is entered. The program answers exactly if every line fits and has no lone quote in a group and, where `char` is signed, `get_type_name` is given no odd word such as `tru\\x80`. False of the code: that every request is answered.", "quantifier": "for all sequences of requests, platforms, and roundings of the platform, with and without catching", "why_tests_cant": "The example enters 19 lines with exceptions caught; texts, numbers and orders are unbounded, and the criterion for definedness is exact.", "anchors": ["examples/errors/ErrorsExample.cpp: 12-127"]}
{"id": "C124", "title": "The properties example", "statement": "Whatever is entered in the program of the properties example, the commands do what is told: the window has the sides of the last setting, rounded down; a property tells its value, and so does setting it; a read-only property refuses every value that is a number with the error that it is read-only, and changes nothing; the numbers are resized as told, or the exception of the vector is reported. The sides always fit std::size_t; `data` always holds a beginning of 3 1 4 followed by zeros; what is not set stays. One more request is answered exactly if its line fits and has no lone quote in a group and it does not set a side of the window to something that is negative, too great, infinite or no number. False of the code: that every request is answered.", "quantifier": "for all sequences of requests, platforms where long has 64 bits, roundings, functions std::hypotf and limits of the vector, with and without catching", "why_tests_cant": "The example enters 15 lines; numbers, texts and orders are unbounded, and the criterion for definedness depends on the state and is exact.", "anchors": ["examples/properties/PropertiesExample.cpp: 10-59", "include/coil/detail/Property.h: 18-71"]}
{"id": "C125", "title": "The named arguments example", "statement": "Whatever is entered in the program of the named arguments example, the commands do what is told: `inventory.list` shows the items that are asked for, and only them, in their order, or the errors of its named arguments in the order in which the function asks for them; `inventory.add` appends the item it is given or reports what is wrong and adds nothing; `print_args`, `print_floats`, `save_game` and `required_and_optional` show what they are given. Items never change and never go away: there are always the eight of the beginning and after them those that were added, from `Debug`, with numbers and amounts of type std::size_t; an item is in every list that asks for it, whatever was entered before. A source or type is a name in any mixture of cases or any number of type int; one without a name is shown as nothing. The program answers exactly if every line fits and has no lone quote in a group and, where char is signed, `required_and_optional` looks at no odd word. False of the code: that it always answers.", "quantifier": "for all sequences of requests, platforms where long has 64 bits and ways of telling tiny numbers, with and without catching", "why_tests_cant": "The example enters a fixed list of lines; names, texts, named arguments and orders are unbounded, and that an item stays listed is about all continuations.", "anchors": ["examples/named/NamedExample.cpp: 22-186", "include/coil/detail/NamedArgs.h: 12-87"]}
{"id": "C126", "title": "The usertypes example", "statement": "Whatever is entered in the program of the usertypes example, all its commands do what is told: those for entities as in C111; `particles.spawn` gives the particle its position and velocity; `particles.get_pos_at` tells the position plus the velocity times the given time, each operation rounded to float and printed with six places; `particles.last_particle_pos` tells and sets the position; `sum` tells the sum of its numbers. After a spawn, whatever is entered that does not move the particle, `particles.get_pos_at` starts from the spawned position and velocity. Commands for entities and for the particle do not interfere. The program answers exactly if every line fits and has no lone quote in a group and in no `sum` the sum of an initial part leaves the range of int. False of the code: that it always answers.", "quantifier": "for all sequences of requests, platforms where std::size_t has 64 bits, ways of telling tiny numbers and signs of NaNs, with and without catching", "why_tests_cant": "The example enters 16 lines; names, numbers, orders and what happens between a spawn and a question are unbounded, and overflow on the way depends on the order of the numbers.", "anchors": ["examples/usertypes/UsertypesExample.cpp: 19-242"]}
{"id": "C127", "title": "Programs whose commands make commands", "statement": "A program registers a table of commands and then executes what it is given; its functions may add commands or replace commands, their own command too, but remove none and execute none. What it does is a conversation with a growing table in which the last entry for a name counts, with the hash map as it is and with the repaired one, and every such conversation takes place; at the end the registry holds exactly the table. There are no function objects and no lifetimes in the conversation, except that a function whose command has been replaced while it runs may not look at what it has captured. The conversation is determined by what is entered; a command that is known stays known; one more request is answered exactly if the line fits, has no lone quote in a group, and the command can be answered as things stand. Without added commands this is the conversation of C110.", "quantifier": "for all programs with such functions, tables, states, sequences of requests, lexer configurations with distinct separators, load factor tests that do not reject one element, and both signednesses of char", "why_tests_cant": "Which commands there are depends on everything that has been entered before; tests replace a command while it runs in a few fixed ways only.", "anchors": ["src/Coil.cpp: 123-425", "include/coil/detail/UnorderedMap.h: 118-330", "include/coil/detail/Bindings.h: 25-83"]}
{"id": "C128", "title": "The advanced example", "statement": "Whatever is entered in the program of the advanced example (from texts that stay in place, as its string literals do, see C95), all its commands do what is told: `entities.rename` renames one of the three entities or reports that there is none of this id; `entities.list` lists them; `entities.create_entity_variable` makes four variables for an id, which may replace commands; `direction` tells and sets the angle in degrees, also from radians; the variables tell and change the entity of their id. There are always the same three entities. Variables are live: whatever is entered after they are made, except that variables are made, they show the entity as it is then. A renamed entity has its new name. Only `direction` turns. The program answers one more request exactly if the line fits and has no lone quote in a group, and the command does not use a variable for a member of an entity that there is not, and does not replace `entities.create_entity_variable` while it has variables to make. False of the code: that it always answers.", "quantifier": "for all sequences of requests, ways of telling tiny numbers and signs of NaNs, with and without catching, on the hash map as it is and on the repaired one", "why_tests_cant": "The example enters 14 lines; the names of variables, their ids, the order and the commands that variables replace are unbounded.", "anchors": ["examples/advanced/AdvancedExample.cpp: 18-177", "include/coil/detail/Property.h: 18-44"]}
{"id": "C129", "title": "What a program says to a command that it refuses", "statement": "A program registers commands once, with functions that leave the registry alone, and the kinds of their parameters are known (texts, numbers of type int, std::size_t or float, truth values, pairs of numbers, entities, enumerations, arrays, vectors and optional values of these, anything). Then what it says to a command that it does not carry out is determined by the command and the kinds alone: that no name is specified, that no function of the name is registered, that the number of arguments is wrong and which numbers are expected, or for each argument that is not taken, in order, that it cannot be converted to the type, with the reason. Such a request is always answered, with these errors, no return value and no output, whatever was entered before; it may be left out or put in anywhere without changing the other answers or the state. A command that is answered is either refused in this way or understood, not both. The signatures of the programs of the basic, overloading, usertypes, errors, named arguments, properties, variadic, compound, variables, enums and flags examples are given.", "quantifier": "for all programs of this sort, tables, states, sequences of requests, lexer configurations with distinct separators, load factor tests that do not reject one element, platforms, and both signednesses of char", "why_tests_cant": "Errors are a function of unboundedly many texts, nested reasons, numbers of arguments and overloads; the tests compare a few messages, mostly for single conversions, and never check that a refused command leaves the rest of the session alone.", "anchors": ["src/Coil.cpp: 50-66", "src/Coil.cpp: 259-316", "src/Coil.cpp: 470-590", "include/coil/detail/FunctorCaller.h: 18-44", "examples/usertypes/UsertypesExample.cpp: 95-219", "examples/compound/CompoundExample.cpp: 89-148", "examples/common/EnumSupport.h: 18-54", "include/coil/StdLibCompat.h: 43-128"]}
{"id": "C130", "title": "What a program whose commands make commands says to a command that it refuses", "statement": "A program registers commands, whose functions may register more commands and replace commands. What it says to a command that it does not carry out is determined by the command and the kinds of the parameters of the functions that the name has at that time: no name, no such function, a wrong number of arguments, or arguments that cannot be converted, in order and with the reasons. Such a request is answered with these errors, no return value and no output; it may be left out or put in at that place without changing the other answers or the state. A command that is answered is either refused in this way or understood, not both. For the advanced example the kinds follow from what the name means in the history of the session, so the same line may be refused first, understood after variables have been made, and refused with other words after a variable has taken the name of a command.", "quantifier": "for all programs of this sort, tables, states, sequences of requests before and after, requests, lexer configurations with distinct separators, load factor tests that do not reject one element, platforms, and both signednesses of char; for the advanced example, for all sessions", "why_tests_cant": "Whether a line is refused depends on an unbounded history of commands that made commands; the tests have no functions that bind functions and compare a few fixed messages.", "anchors": ["src/Coil.cpp: 50-66", "src/Coil.cpp: 259-316", "include/coil/detail/FunctorCaller.h: 18-44", "examples/advanced/AdvancedExample.cpp: 65-156"]}
{"id": "C131", "title": "All answers of the encapsulation example", "statement": "Whatever is entered, the program of the encapsulation example answers every command in one of two ways: it carries it out, with the return value and the effect on the subsystem that are told for it, or it refuses it with errors that are determined by the command and by the commands there are at that stage, naming each wrong argument in order with the reason, and changes nothing. A command is carried out exactly if there is a function for as many arguments that takes all of them, and refused otherwise. So the requests determine all answers. A command that is refused may be left out or put in anywhere without changing the other answers or the subsystem. The same line may be refused for different reasons at different stages, because the commands of the subsystem come and go with it.", "quantifier": "for all sequences of requests that fit in memory and have no lone quote in a group, lexer configurations with distinct separators, platforms, both signednesses of char; for the repaired hash map with any growth rule that does not reject one element, and for the hash map as it is with its growth rule", "why_tests_cant": "The answers depend on an unbounded history of creations and destructions and on unboundedly many texts; the example enters six lines, and no test removes commands from a function of a registry.", "anchors": ["src/Coil.cpp: 50-66", "src/Coil.cpp: 259-316", "include/coil/detail/FunctorCaller.h: 18-44", "examples/encapsulation/EncapsulationExample.cpp: 101-161"]}
{"id": "C132", "title": "All answers of the examples", "statement": "Whatever is entered, twelve of the example programs (basic, overloading, variables, enums, flags, compound, variadic, errors, properties, named arguments, usertypes, advanced) answer every command in one of two ways. If there is a function for as many arguments that takes all of them, the command is carried out with the result and the effect that are told for it. Otherwise nothing is told for it: it is refused with the errors that the kinds of the parameters determine, naming each wrong argument in order with the reason, and nothing changes. So a command that is answered is told exactly if it is understood. In the advanced example the kinds of the parameters are those of what the name means at the time.", "quantifier": "for all sequences of requests that the programs answer, lexer configurations with distinct separators, platforms (with 64-bit long where std::size_t matters), both signednesses of char, with and without catching of exceptions, and any growth rule of the repaired hash map that does not reject one element", "why_tests_cant": "The claim joins what is told for unboundedly many commands with what is said of unboundedly many others; the examples only enter a few lines each, and nothing checks that the two lists leave no gap and do not overlap.", "anchors": ["src/Coil.cpp: 259-316", "include/coil/detail/FunctorCaller.h: 18-44", "examples/advanced/AdvancedExample.cpp: 100-176", "examples/variadic/VariadicExample.cpp: 89-96"]}
{"id": "C133", "title": "One record of the basic, compound, enums, flags, properties and variadic examples", "statement": "What is told of the commands of the basic, compound, enums, flags, properties and variadic examples is one thing: after the same history the same command has one outcome and leads to one history. So the requests leave one record, with one list of answers (errors, return value and output, or an exception) and one history at the end. For the compound and the variadic example the converse of the record holds too: whenever the lines can be entered, the program answers, and it answers what any record of these requests says, and its state is the one of the record. The basic, the enums, the flags and the properties example answer what any record says where they answer.", "quantifier": "for all sequences of requests, all records of them, lexer configurations with distinct separators, platforms (with 64-bit long for the variadic and the properties example), both signednesses of char, with and without catching of exceptions, and any growth rule of the repaired hash map that does not reject one element", "why_tests_cant": "That a specification leaves no choice is a statement about all pairs of outcomes of all commands after all histories; a test compares one answer with one expectation.", "anchors": ["src/Coil.cpp: 259-316", "examples/variadic/VariadicExample.cpp: 89-96", "include/coil/detail/FunctorCaller.h: 18-44"]}
