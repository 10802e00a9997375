{"id": "C01", "title": "No errors exactly when the program is statically valid", "statement": "Analysing an AST with a fresh default analyzer reports no errors if and only if the program satisfies the static rules of cQASM 3.0 (version 3.0, every declaration well-formed and new, every instruction well-typed against the declarations before it); and then the semantic program is the one those rules determine.", "quantifier": "every annotation-free AST whose constant expressions do not hit C++ undefined behaviour", "why_tests_cant": "tests cover a few hundred programs; soundness and completeness of the checker range over all programs", "anchors": ["src/v3x/semantic_analyzer.cpp: visit_program, visit_block, visit_variable, visit_gate_instruction, visit_non_gate_instruction", "include/libqasm/v3x/semantic_analyzer.hpp: build_semantic_type, visit_block", "src/v3x/analyzer.cpp: Analyzer::analyze"]}
{"id": "C02", "title": "One error per failing statement, analysis continues", "statement": "The error list consists of at most one version error followed by exactly one error per rejected statement in source order; accepted instructions appear in the resulting block in source order, and nothing else does.", "quantifier": "every AST without annotations, every number and interleaving of failing and passing statements", "why_tests_cant": "error recovery must hold for each combination of failing and passing statements", "anchors": ["src/v3x/semantic_analyzer.cpp: visit_version, visit_variable, visit_gate_instruction, visit_non_gate_instruction, visit_asm_declaration", "include/libqasm/v3x/semantic_analyzer.hpp: visit_block"]}
{"id": "C03", "title": "A rejected instruction has no effect on the rest", "statement": "Deleting a rejected instruction (not a declaration) from a program changes the result only by removing its error: the block, the variables and all other errors stay the same.", "quantifier": "every program and every position of the rejected instruction", "why_tests_cant": "quantifies over all contexts of a failing statement", "anchors": ["src/v3x/semantic_analyzer.cpp: visit_gate_instruction, visit_non_gate_instruction", "include/libqasm/v3x/semantic_analyzer.hpp: visit_block"]}
{"id": "C04", "title": "Parse errors are passed through untouched", "statement": "If parsing failed, analyze returns exactly the parse errors and an empty root, and the analyzer is left unchanged.", "quantifier": "every parse result with errors and every analyzer state", "why_tests_cant": "must hold for every error list and every analyzer history", "anchors": ["src/v3x/analyzer.cpp: Analyzer::analyze(const ParseResult&)"]}
{"id": "C05", "title": "AST and error messages are never delivered together", "statement": "to_strings returns one string (the serialised AST) when there are no errors and otherwise an empty first string followed by one rendered message per error in order; to_json and unwrap make the same choice.", "quantifier": "every analysis result", "why_tests_cant": "ranges over all results and error counts", "anchors": ["include/libqasm/result.hpp: to_strings, to_json", "src/v3x/analysis_result.cpp: AnalysisResult::unwrap"]}
{"id": "C06", "title": "analyze does not change the analyzer", "statement": "As documented in analyzer.hpp, analysing a program does not change the analyzer: analysing the same program again gives the same result.", "quantifier": "every analyzer and every sequence of analysed programs", "why_tests_cant": "a property of histories: any earlier call could leak state into a later one", "anchors": ["include/libqasm/v3x/analyzer.hpp:42-43", "src/v3x/analyzer.cpp: add_statement_to_current_scope, add_variable_to_current_scope, register_variable"]}
{"id": "C07", "title": "Which version statements are accepted", "statement": "A program's version statement is accepted if and only if it denotes 3.0 up to trailing zero components; otherwise there is exactly one version error, the reported program version is the API version, and the statements are still analysed.", "quantifier": "every list of version components", "why_tests_cant": "infinitely many versions", "anchors": ["src/v3x/semantic_analyzer.cpp: visit_version", "src/version.cpp: Version::compare"]}
{"id": "C08", "title": "Version comparison is a total order up to trailing zeros", "statement": "==, <, > on versions form a total preorder in which two versions are equal exactly when they agree after padding with zeros, and comparison is lexicographic.", "quantifier": "all pairs and triples of versions of any length", "why_tests_cant": "order axioms quantify over triples of unbounded vectors", "anchors": ["src/version.cpp: Version::compare", "include/libqasm/version.hpp: operator==, operator<=>"]}
{"id": "C09", "title": "Version text round-trips", "statement": "Printing a version with components in 0..2^31-1 and constructing a Version from the text gives the same components; the constructor rejects text with a negative component.", "quantifier": "all non-empty versions with components in 0..2^31-1", "why_tests_cant": "unbounded number of components and digits", "anchors": ["src/version.cpp: Version::Version, operator<<"]}
{"id": "C10", "title": "Redeclaration is an error and the first declaration wins", "statement": "Declaring a name a second time in the same scope yields exactly the error \"trying to redeclare variable 'x'\" and the name keeps denoting the first declaration.", "quantifier": "every program and name", "why_tests_cant": "depends on arbitrary programs before, between and after the two declarations", "anchors": ["src/v3x/semantic_analyzer.cpp: visit_variable", "src/v3x/resolver.cpp: VariableTable::add"]}
{"id": "C11", "title": "Use requires an earlier declaration", "statement": "In an error-free result every variable reference denotes a variable declared by an earlier statement; using an undeclared name is an error.", "quantifier": "every program, every expression nested to any depth", "why_tests_cant": "references can occur at any depth of any expression", "anchors": ["src/v3x/semantic_analyzer.cpp: visit_identifier, visit_index", "src/v3x/analyzer.cpp: resolve_variable"]}
{"id": "C12", "title": "References denote the right declaration", "statement": "A reference to x carries the name and the type of the declaration of x, and the variable list holds one entry per accepted declaration in source order with the declared kind and size.", "quantifier": "every error-free program", "why_tests_cant": "ranges over programs", "anchors": ["src/v3x/semantic_analyzer.cpp: visit_variable, visit_identifier", "src/v3x/resolver.cpp: VariableTable"]}
{"id": "C13", "title": "Built-in constants cannot be redeclared", "statement": "pi, eu, tau, true and false denote their constants in every program analysed with the default analyzer and no program can redeclare them in the global scope.", "quantifier": "every program", "why_tests_cant": "quantifies over all programs", "anchors": ["src/v3x/analyzer.cpp: register_default_constants, register_variable"]}
{"id": "C14", "title": "Scopes shadow and restore", "statement": "push_scope followed by any registrations and then pop_scope leaves every name resolving as before; inside the pushed scope the innermost registration wins and outer names stay visible.", "quantifier": "every balanced sequence of push/pop/register operations on an analyzer", "why_tests_cant": "all operation histories", "anchors": ["src/v3x/analyzer.cpp: push_scope, pop_scope, resolve_variable, register_variable"]}
{"id": "C15", "title": "Promotion is the order bool <= int <= float", "statement": "A type can be promoted to another exactly when they are the same kind or go up the chain bool, int, float; the relation is a partial order and qubit/bit types promote only to their own kind.", "quantifier": "all pairs and triples of types of any size", "why_tests_cant": "order axioms", "anchors": ["src/v3x/values.cpp: check_promote", "src/v3x/types.cpp: type_check"]}
{"id": "C16", "title": "Promoting a value keeps its meaning and agrees with the type check", "statement": "promote(v, t) succeeds exactly when check_promote(type_of(v), t) says so, gives a value of kind t, and keeps the number denoted by a constant.", "quantifier": "every value and type", "why_tests_cant": "two separately written functions must agree on all values, including references registered through the API", "anchors": ["src/v3x/values.cpp: promote, check_promote"]}
{"id": "C17", "title": "Overload resolution picks the last applicable overload", "statement": "Resolving a call gives the most recently registered overload whose parameter count matches and whose parameters all accept the arguments, with the arguments promoted; it fails exactly when there is none.", "quantifier": "every sequence of registrations and every argument list", "why_tests_cant": "all registration histories", "anchors": ["include/libqasm/overload.hpp: OverloadResolver::resolve, OverloadedNameResolver", "src/v3x/resolver.cpp"]}
{"id": "C18", "title": "Default operators use the least general overload", "statement": "With the default functions, a call on constants is resolved to the overload that needs the fewest promotions: result kinds follow a fixed table (int op int is int, mixed with float is float, comparisons give bool).", "quantifier": "all operator names and all argument kinds", "why_tests_cant": "the registration order of overloads determines this for every operator and argument combination", "anchors": ["src/v3x/register_consteval_core_functions.cpp", "include/libqasm/overload.hpp: OverloadResolver::resolve"]}
{"id": "C19", "title": "Constant expressions are typed compositionally", "statement": "Whether a constant expression is accepted, and the kind of its value, depends only on the kinds of its parts, by rules that can be stated without the overload tables.", "quantifier": "all expressions of any depth", "why_tests_cant": "structural induction over expressions", "anchors": ["src/v3x/semantic_analyzer.cpp: visit_expression, visit_function_call, visit_*_expression", "src/v3x/register_consteval_core_functions.cpp"]}
{"id": "C20", "title": "Integer constant arithmetic is exact", "statement": "When the evaluation is defined, +, -, *, unary minus and abs give the mathematical result; / truncates towards zero and % has the sign of the dividend, with (a/b)*b + a%b = a.", "quantifier": "all 64-bit operands", "why_tests_cant": "2^128 operand pairs", "anchors": ["include/libqasm/v3x/register_consteval_core_functions.hpp: op_add_ii, op_sub_ii, op_mul_ii, op_div_ii, op_mod_ii, op_neg_i, fn_abs_i"]}
{"id": "C21", "title": "Constant folding never leaves defined behaviour", "statement": "Analysis of a constant expression never overflows, divides by zero or shifts out of range: it either gives a value or reports an error.", "quantifier": "all programs", "why_tests_cant": "each operator can be reached with every operand value", "anchors": ["include/libqasm/v3x/register_consteval_core_functions.hpp", "src/v3x/semantic_analyzer.cpp: visit_index_range"]}
{"id": "C22", "title": "Comparison and boolean operators have their usual meaning", "statement": "==, !=, <, <=, >, >= on ints and bools agree with the orders on Z and false<true, are mutually consistent, and !, &&, ||, ^^ are the boolean functions.", "quantifier": "all operand values", "why_tests_cant": "2^128 operand pairs", "anchors": ["include/libqasm/v3x/register_consteval_core_functions.hpp: op_eq_ii .. op_lt_bb, op_linv_b, op_land_bb, op_lxor_bb, op_lor_bb"]}
{"id": "C23", "title": "Bitwise and shift operators are two's complement", "statement": "~, &, |, ^ act bitwise on the two's complement representation; for 0<=s<64, a<<s is a*2^s modulo 2^64 and a>>s is floor(a / 2^s).", "quantifier": "all 64-bit operands", "why_tests_cant": "2^128 operand pairs", "anchors": ["include/libqasm/v3x/register_consteval_core_functions.hpp: op_binv_i, op_band_ii, op_bxor_ii, op_bor_ii, op_shl_ii, op_shr_ii"]}
{"id": "C24", "title": "The conditional operator selects, and both branches are checked", "statement": "c ? a : b denotes a or b according to c, promoted to the common kind; an error in the branch not selected is still reported.", "quantifier": "all conditions and branch expressions", "why_tests_cant": "any expression can be a branch", "anchors": ["src/v3x/semantic_analyzer.cpp: visit_ternary_conditional_expression", "include/libqasm/v3x/register_consteval_core_functions.hpp: tf_cp"]}
{"id": "C25", "title": "Quantum and bit references cannot occur inside constant expressions", "statement": "An operator or function applied to a qubit, bit or array reference is always an error.", "quantifier": "all operators, functions and references", "why_tests_cant": "all expression contexts", "anchors": ["src/v3x/semantic_analyzer.cpp: visit_function_call", "include/libqasm/overload.hpp: OverloadResolver::resolve"]}
{"id": "C26", "title": "Accepted index references are in range and non-empty", "statement": "Every index reference in a result has at least one index and every index i satisfies 0 <= i < the declared size of the array.", "quantifier": "every program, every index list", "why_tests_cant": "all index lists and sizes", "anchors": ["src/v3x/semantic_analyzer.cpp: check_out_of_range, visit_index, visit_index_list"]}
{"id": "C27", "title": "Index lists expand exactly as written", "statement": "An item i contributes i, a range a:b with a<=b contributes a, a+1, ..., b, in order; a range with a>b is an error.", "quantifier": "all index lists", "why_tests_cant": "unbounded ranges", "anchors": ["src/v3x/semantic_analyzer.cpp: visit_index_list, visit_index_range, visit_index_item, visit_const_int"]}
{"id": "C28", "title": "Indices of one reference do not repeat", "statement": "As stated in values.tree, the indices of an index reference are pairwise distinct.", "quantifier": "every accepted index reference", "why_tests_cant": "all index lists", "anchors": ["src/v3x/values.tree:45-46", "src/v3x/semantic_analyzer.cpp: visit_index_list"]}
{"id": "C29", "title": "Indexing something that is not an array is reported", "statement": "Indexing a name that is not an array variable gives an error and nothing else.", "quantifier": "every indexed expression", "why_tests_cant": "any name can be indexed, including constants", "anchors": ["src/v3x/semantic_analyzer.cpp: visit_index"]}
{"id": "C30", "title": "Which gate instructions are accepted", "statement": "A gate instruction without modifiers is accepted exactly when the gate is one of the 25 of the standard set, its parameters match in number and kind, the number of operands is the arity, all operands are qubit references and all denote the same number of qubits.", "quantifier": "all gate names, parameter lists and operand lists", "why_tests_cant": "unbounded operand and parameter lists, all names", "anchors": ["src/v3x/semantic_analyzer.cpp: visit_gate_instruction, visit_gate, resolve_parameters, check_qubit_operands_indices_have_same_size", "src/v3x/instruction_set.cpp", "src/v3x/register_instructions.cpp"]}
{"id": "C31", "title": "Which gate modifier chains are accepted", "statement": "A chain of modifiers over a named gate is accepted exactly when the named gate is single-qubit, ctrl occurs at most once and only outermost, every pow has one numeric constant exponent, and the operands fit 1 qubit (2 with ctrl).", "quantifier": "chains of any length", "why_tests_cant": "unbounded nesting", "anchors": ["src/v3x/semantic_analyzer.cpp: visit_gate, check_gate, get_gate_resolution_name, get_gate_terminal_name, is_two_qubit_gate", "src/v3x/register_instructions.cpp"]}
{"id": "C32", "title": "Gate parameters are delivered with the declared kind", "statement": "In an accepted instruction each parameter is a constant of exactly the kind the instruction declares (float for angles and exponents, int for CRk and wait), and equals the written value promoted.", "quantifier": "all accepted instructions", "why_tests_cant": "all parameter expressions", "anchors": ["src/v3x/semantic_analyzer.cpp: resolve_parameters", "src/v3x/instruction_set.cpp: get_instruction_param_types, get_non_gate_param_types_with_param_count"]}
{"id": "C33", "title": "Multi-operand gates act on equally many qubits", "statement": "In an accepted gate instruction all operands denote the same number of qubits, so pairing the i-th qubit of each operand is well defined.", "quantifier": "all accepted gate instructions", "why_tests_cant": "unbounded operand sizes", "anchors": ["src/v3x/semantic_analyzer.cpp: check_qubit_operands_indices_have_same_size"]}
{"id": "C34", "title": "Measure pairs qubits and bits one to one", "statement": "A measure is accepted exactly when the left operand is a bit reference, the right operand a qubit reference, both denote equally many elements, and there are 0 or 3 numeric parameters.", "quantifier": "all measure statements", "why_tests_cant": "all operands and parameters", "anchors": ["src/v3x/semantic_analyzer.cpp: check_qubit_and_bit_indices_have_same_size, visit_non_gate_instruction, resolve_parameters"]}
{"id": "C35", "title": "Which reset, init, barrier and wait instructions are accepted", "statement": "reset, init and barrier are accepted exactly with one qubit reference and no parameter; wait exactly with one qubit reference and one parameter that promotes to int.", "quantifier": "all operand and parameter lists", "why_tests_cant": "all lists", "anchors": ["src/v3x/semantic_analyzer.cpp: visit_non_gate_instruction, resolve_parameters", "src/v3x/instruction_set.cpp"]}
{"id": "C36", "title": "The instruction reference describes the operands", "statement": "The instruction recorded in an accepted instruction has the resolved name and one operand type per operand, of the same kind as the operand; the operands are passed through unchanged.", "quantifier": "all accepted instructions", "why_tests_cant": "all operand lists", "anchors": ["src/v3x/resolver.cpp: InstructionTable::resolve", "src/v3x/analyzer.cpp: resolve_instruction"]}
{"id": "C37", "title": "Registered custom instructions are usable", "statement": "After register_instruction(name, types) on an analyzer, a program using that gate with matching operands is accepted (analyzer.hpp: 'whenever you need to modify the default instruction set').", "quantifier": "all names and type specifications", "why_tests_cant": "all registrations", "anchors": ["include/libqasm/v3x/analyzer.hpp:32-34", "src/v3x/instruction_set.cpp: get_instruction_param_types", "src/v3x/semantic_analyzer.cpp: visit_gate"]}
{"id": "C38", "title": "The instruction set classification is consistent", "statement": "Every name in the instruction tables is exactly one of single-qubit gate, two-qubit gate, non-gate, modifier; parameter lookup is defined for exactly these names and does not depend on which overload entry is found.", "quantifier": "all names", "why_tests_cant": "all strings", "anchors": ["src/v3x/instruction_set.cpp"]}
{"id": "C39", "title": "The lexer is lossless and takes the longest match", "statement": "Tokens and skipped text partition the input in order; each is the longest match of any lexer rule of the current mode at its position, the first such rule on ties (shortest for the non-greedy rules); lexing fails exactly when no rule matches.", "quantifier": "every input text", "why_tests_cant": "all strings", "anchors": ["src/v3x/CqasmLexer.g4"]}
{"id": "C40", "title": "Keywords and identifiers are separated by whole words", "statement": "A maximal run of letters, digits and underscores not starting with a digit is a keyword token exactly when it equals a keyword, a boolean literal exactly when it is true or false, and otherwise an identifier with exactly that text; matching is case-sensitive.", "quantifier": "all words", "why_tests_cant": "all strings", "anchors": ["src/v3x/CqasmLexer.g4:50-76"]}
{"id": "C41", "title": "White space and comments between tokens do not matter", "statement": "Inserting or removing blanks, tabs and comments after a separating blank (or at the start of the text) never changes the tokens the parser sees, apart from their positions, as long as no /* or ''' before it is left unclosed.", "quantifier": "all inputs, all separating blanks in them and all inserted blanks, tabs and comments", "why_tests_cant": "all strings and insert positions", "anchors": ["src/v3x/CqasmLexer.g4:4-6"]}
{"id": "C42", "title": "Token positions are the positions in the text", "statement": "The line and column recorded for a token are the number of newlines before it plus one and its distance from the last newline plus one.", "quantifier": "all inputs", "why_tests_cant": "all strings", "anchors": ["src/v3x/syntactic_analyzer.cpp: setNodeAnnotation", "src/v3x/CqasmLexer.g4"]}
{"id": "C43", "title": "Integer literals denote their decimal value or are rejected", "statement": "An integer literal is accepted exactly when its decimal value is at most 2^63-1 and then denotes it; otherwise parsing gives one error.", "quantifier": "all digit strings", "why_tests_cant": "unbounded digits", "anchors": ["src/v3x/syntactic_analyzer.cpp: get_int_value"]}
{"id": "C44", "title": "Expressions parse by precedence, unambiguously", "statement": "The parser groups an expression by the 23-level precedence table, ** and ?: to the right and other binary operators to the left, prefix operators tighter than any infix one; no token sequence has two such groupings.", "quantifier": "all token sequences", "why_tests_cant": "all expressions", "anchors": ["src/v3x/CqasmParser.g4: expression"]}
{"id": "C45", "title": "The parser accepts exactly the grammar", "statement": "A token sequence is parsed if and only if the grammar derives it, and the tree returned is a derivation of exactly these tokens.", "quantifier": "all token sequences", "why_tests_cant": "all strings", "anchors": ["src/v3x/CqasmParser.g4"]}
{"id": "C46", "title": "Parentheses and unary plus leave no trace", "statement": "Putting a subexpression in parentheses, or a unary plus before an operand, builds the same AST up to positions: (e) and +e build the AST of e. The one exception is directly after a gate name or measure, where an opening parenthesis may be read as the start of a parameter list.", "quantifier": "all expressions, and all programs with any set of subexpressions so changed", "why_tests_cant": "all expressions", "anchors": ["src/v3x/syntactic_analyzer.cpp: visitParensExpression, visitUnaryPlusMinusExpression"]}
{"id": "C47", "title": "Statement separators are interchangeable and repeatable", "statement": "Any non-empty run of newlines and semicolons between statements, and any run before the version and at the end, gives the same AST up to positions.", "quantifier": "all programs and runs of separators", "why_tests_cant": "unbounded runs", "anchors": ["src/v3x/CqasmParser.g4: program, globalBlockSection, eofSection"]}
{"id": "C48", "title": "A failed parse has exactly one error and no AST", "statement": "Parsing either gives an AST and no errors, or no AST and exactly one error.", "quantifier": "all inputs", "why_tests_cant": "all strings", "anchors": ["src/v3x/parse_helper.cpp: ParseHelper::parse", "src/v3x/antlr_custom_error_listener.cpp"]}
{"id": "C49", "title": "Source ranges are ordered hulls", "statement": "Every source range has first <= last; expanding a location gives the smallest range containing the old range and the new point, so the order of expansions does not matter.", "quantifier": "all locations and sequences of expansions", "why_tests_cant": "all sequences", "anchors": ["src/annotations.cpp: Range::Range, SourceLocation::expand_to_include", "src/v3x/analyzer.cpp: add_statement_to_current_scope"]}
{"id": "C50", "title": "Errors point into the offending statement", "statement": "The location of an analysis error is the innermost located node around the failure, which lies in the rejected statement; adding context never overwrites a location.", "quantifier": "all failing statements", "why_tests_cant": "all nesting depths", "anchors": ["src/error.cpp: Error::context", "src/v3x/semantic_analyzer.cpp: visit_expression, visit_gate, visit_index"]}
{"id": "C51", "title": "URL encoding is injective and URL-safe", "statement": "url_encode output uses only unreserved characters and %XX escapes, and decoding gives back the input.", "quantifier": "all byte strings", "why_tests_cant": "all strings", "anchors": ["src/utils.cpp: url_encode"]}
{"id": "C52", "title": "JSON encoding gives a valid JSON string with the same content", "statement": "json_encode output, put between quotes, is a valid JSON string denoting the input.", "quantifier": "all byte strings", "why_tests_cant": "all strings", "anchors": ["src/utils.cpp: json_encode"]}
{"id": "C53", "title": "Assembly code is delivered verbatim", "statement": "The backend code of an asm declaration is exactly the text between the triple quotes, is never analysed and never causes an error.", "quantifier": "all raw texts", "why_tests_cant": "all strings", "anchors": ["src/utils.cpp: remove_triple_quotes", "src/v3x/syntactic_analyzer.cpp: visitAsmDeclaration", "src/v3x/semantic_analyzer.cpp: visit_asm_declaration"]}
{"id": "C54", "title": "Error rendering carries the location and the message", "statement": "what() is 'Error', then ' at ' and the location if known, then ': ' and the message (never empty); the JSON diagnostic carries the four range numbers (0 if unknown), the encoded message and severity 1.", "quantifier": "all errors", "why_tests_cant": "all messages and locations", "anchors": ["src/error.cpp: Error::what, Error::to_json", "src/annotations.cpp: operator<<"]}
{"id": "C55", "title": "Serialised primitives deserialise to themselves", "statement": "Deserialising the serialisation of a string, bool, int, float, axis, complex, version, instruction reference or function reference in C++ gives back an equal value.", "quantifier": "all values", "why_tests_cant": "all values", "anchors": ["src/v3x/primitives.cpp", "src/v3x/instruction.cpp", "src/v3x/core_function.cpp"]}
{"id": "C56", "title": "Python sees the instruction reference that C++ serialised", "statement": "Deserialising in Python an instruction reference serialised by C++ gives the same name and operand types.", "quantifier": "all instruction references", "why_tests_cant": "all references", "anchors": ["python/module/cqasm/v3x/primitives.py: deserialize", "src/v3x/instruction.cpp: serialize"]}
{"id": "C57", "title": "A returned result is not changed by later calls", "statement": "The semantic program returned by one analyze call is not changed by later analyze calls on the same analyzer.", "quantifier": "all histories of analyze calls", "why_tests_cant": "a property of histories and aliasing", "anchors": ["src/v3x/analyzer.cpp: current_block, add_statement_to_current_scope", "src/v3x/semantic_analyzer.cpp: visit_program, visit_global_block"]}
{"id": "C58", "title": "Declared sizes are positive and delivered exactly", "statement": "A declaration is accepted only with type qubit or bit and either no size (then size 1, simple type) or a positive size n (then an array of size n).", "quantifier": "all declarations", "why_tests_cant": "all sizes", "anchors": ["include/libqasm/v3x/semantic_analyzer.hpp: build_semantic_type"]}
{"id": "C59", "title": "Which API versions an analyzer can be built for", "statement": "Constructing an analyzer succeeds exactly for api versions equal to 3.0 (up to trailing zeros) and starts with one empty global scope.", "quantifier": "all version strings", "why_tests_cant": "all versions", "anchors": ["src/v3x/analyzer.cpp: Analyzer::Analyzer"]}
{"id": "C60", "title": "Escape sequences in built strings", "statement": "push_escape maps the six known escapes to their characters and passes anything else through; push_string appends verbatim; the built string is the concatenation in order.", "quantifier": "all sequences of pushes", "why_tests_cant": "all sequences", "anchors": ["src/string_builder.cpp"]}
{"id": "C61", "title": "Case folding helpers", "statement": "equal_case_insensitive is an equivalence relation, holds exactly when the lower-cased strings are equal, and to_lowercase is idempotent and length-preserving.", "quantifier": "all strings", "why_tests_cant": "all strings", "anchors": ["src/utils.cpp: to_lowercase, equal_case_insensitive"]}
{"id": "C62", "title": "Python sees the values that C++ serialised", "statement": "Deserialising in Python a boolean, integer, float, version or UTF-8 string serialised by C++ gives the same value; a string that is not UTF-8 raises an exception.", "quantifier": "all values", "why_tests_cant": "all values", "anchors": ["python/module/cqasm/v3x/primitives.py: deserialize", "src/v3x/primitives.cpp: serialize"]}
{"id": "C63", "title": "Python reads back what Python wrote", "statement": "Deserialising in Python what Python serialised gives back an equal value, for strings, booleans, integers, floats, versions and instruction references.", "quantifier": "all values", "why_tests_cant": "all values", "anchors": ["python/module/cqasm/v3x/primitives.py: serialize, deserialize"]}
{"id": "C64", "title": "The free analysis functions return exactly the valid programs", "statement": "analyze_string and analyze_file return a program exactly if the text is a valid program, and write nothing then; otherwise they write the messages to stderr, one per line, and throw AnalysisFailed. An API version that does not mean 3.0, or a missing file, throws.", "quantifier": "all texts, file names and API version strings", "why_tests_cant": "all texts and all version strings", "anchors": ["src/v3x/cqasm.cpp: analyze_string, analyze_file, default_analyzer", "src/v3x/analysis_result.cpp: AnalysisResult::unwrap"]}
{"id": "C65", "title": "The Python methods give a tree or messages, never both", "statement": "parse_* and analyze_* called from Python give a tree exactly if the text is (for parsing) of the language or (for a new default analyser) a valid program, and otherwise a non-empty list of the messages in order; the *_to_json variants give the dumped tree or an object with the diagnostics in order. The file variants do the same with the content of the file. An empty file name means none.", "quantifier": "all texts, file names and analysers", "why_tests_cant": "all texts and analysers", "anchors": ["src/v3x/cqasm_python.cpp: V3xAnalyzer", "python/module/cqasm/v3x/__init__.py: Analyzer"]}
{"id": "C66", "title": "An analyser without default instructions", "statement": "An analyser made without the default instructions gives constants and functions their usual meaning, treats programs without instructions like the default analyser, and reports an error for every program with a gate or another instruction, however long it has been used. Registering the standard instructions makes it the default analyser.", "quantifier": "all programs and all histories of analyses", "why_tests_cant": "all programs and histories", "anchors": ["src/v3x/cqasm_python.cpp: V3xAnalyzer::V3xAnalyzer, register_instruction", "src/v3x/analyzer.cpp: register_default_constants, register_default_functions, register_default_instructions"]}
{"id": "C67", "title": "Source positions and layout do not influence what a program means", "statement": "Programs that differ in source positions only are analysed alike by a default analyser, new or used: the same outcome, the same error messages in the same order and, up to positions, the same semantic program. So texts that differ in white space, comments, line breaks, statement separators, redundant parentheses or prefix plus, or are read under another file name, get the same verdict.", "quantifier": "all syntax trees and texts, all file names", "why_tests_cant": "all pairs of programs and layouts", "anchors": ["src/v3x/semantic_analyzer.cpp", "src/v3x/analyzer.cpp: analyze, analyze_string", "src/error.cpp: AnalysisError::context"]}
{"id": "C68", "title": "The size, type and constness of a value", "statement": "values::size_of gives 1 for a constant, the declared size for a variable and the number of indices for an index reference, and at least 1 for every value an expression denotes. values::type_of gives the class of a constant, the declared type of a variable, the element type for a reference to exactly one element and the array type for a reference to any other number; it never throws on a value an expression denotes. check_const passes exactly constants and otherwise reports the first value that is not one, at its position.", "quantifier": "all values; for totality all values denoted by expressions over valid declarations", "why_tests_cant": "the domain is infinite", "anchors": ["src/v3x/values.cpp: size_of, type_of, types_of, element_type_of, check_const"]}
{"id": "C69", "title": "The size of the type of a value is the size of the value", "statement": "types::size_of(values::type_of(v)) equals values::size_of(v).", "quantifier": "all values denoted by expressions", "why_tests_cant": "the domain is infinite", "anchors": ["src/v3x/values.cpp: size_of, type_of", "src/v3x/types.cpp: size_of"]}
{"id": "C70", "title": "Trees handed out are complete", "statement": "The completeness check of a syntax tree accepts exactly the trees without an empty index list anywhere, and that of a semantic tree exactly those in which every reference is to a variable of the tree and has an index if it is an index reference. Parsing and analysis without errors give complete trees only.", "quantifier": "all trees, at any depth of nesting", "why_tests_cant": "the domain is infinite", "anchors": ["src/v3x/syntactic.tree", "src/v3x/semantic.tree", "src/v3x/values.tree", "src/v3x/parse_helper.cpp: parse", "src/v3x/semantic_analyzer.cpp: analyze"]}
{"id": "C71", "title": "Instructions and functions: equality and printed form", "statement": "Instructions are equal exactly if their names and operand types (class and size, in order) are; functions likewise with the return type. The printed text of a reference determines whether it is resolved, the name, whatever bytes it has, and the classes of all types.", "quantifier": "all instructions, functions and references", "why_tests_cant": "the domain is infinite", "anchors": ["src/v3x/instruction.cpp: operator==, operator<<", "src/v3x/core_function.cpp: operator==, operator<<", "src/v3x/types.cpp: operator<<"]}
{"id": "C72", "title": "What is reported and where", "statement": "For a text that parses, the errors reported by analysis are exactly those of a specification that lists, for every way a version statement, declaration, gate, modifier, instruction, index, operator or function call can be wrong, the message and the position: one error per rejected statement, in order, the version first, each for the first problem from left to right, positioned at the innermost construct that has a position. Every program whose analysis is defined has exactly one such list, and analyze_string writes it to stderr one error per line. With variables and functions registered by the user, an index that is a variable is reported as not constant or not an integer, and a call means the registered function applied to the promoted arguments, reported when it gives no value.", "quantifier": "all texts that parse and all trees of the shape the parser makes, without annotations", "why_tests_cant": "the domain is infinite", "anchors": ["src/v3x/semantic_analyzer.cpp: visit* methods", "src/v3x/analyzer.cpp: resolve_*", "src/error.cpp: AnalysisError, ParseError", "src/v3x/cqasm.cpp: analyze_string"]}
{"id": "C73", "title": "The WebAssembly interface", "statement": "parse_string_to_json returns the dumped syntactic tree of a text of the language, otherwise an object with exactly one diagnostic. analyze_string_to_json analyses with language version 3.0 and the default tables: it returns the dump of the tree the rules of the language give for a valid program, otherwise an object whose only key is errors, with the diagnostics of the errors of the program in order; for a text that is not of the language the same diagnostic as parsing. It always returns unless constant folding has undefined behaviour.", "quantifier": "all texts and file names, all programs", "why_tests_cant": "the domain is infinite", "anchors": ["emscripten/emscripten_wrapper.cpp: EmscriptenWrapper", "src/v3x/cqasm_python.cpp: V3xAnalyzer"]}
{"id": "C74", "title": "Reading malformed serialised primitives", "statement": "Deserialising a primitive from a map without the entry it needs throws std::out_of_range, and from an entry of another class std::runtime_error; versions need an array of integers, axes and complex numbers all of their parts; a map without a name is an unresolved reference, and one with a name is read exactly if all other entries are there and readable. Further entries never matter. Python raises KeyError for missing entries.", "quantifier": "all CBOR maps with any entries", "why_tests_cant": "the domain is infinite", "anchors": ["src/v3x/primitives.cpp: deserialize", "src/v3x/instruction.cpp: deserialize", "src/v3x/core_function.cpp: deserialize", "python/module/cqasm/v3x/primitives.py: deserialize"]}
{"id": "C75", "title": "Python and C++ read the same versions", "statement": "The Python class Version accepts exactly the texts of dot-separated integers as Python writes them and raises ValueError for others; it reads every version C++ prints with the same components; and it agrees with the C++ class on every text.", "quantifier": "all texts, all versions", "why_tests_cant": "the domain is infinite", "anchors": ["python/module/cqasm/v3x/primitives.py: Version", "src/version.cpp: Version"]}
{"id": "C76", "title": "Python instructions hold the types they are given", "statement": "An Instruction built from a name and an iterable of types holds exactly these types, or raises TypeError if one of them is not a type node. An InstructionRef is unresolved without arguments or for None, refers to the instruction given, or to one made of the arguments; its text is unresolved or the name and the types.", "quantifier": "all names, sequences and iterators of objects", "why_tests_cant": "the domain is infinite", "anchors": ["python/module/cqasm/v3x/instruction.py: Instruction, InstructionRef"]}
{"id": "C77", "title": "Copies of an analyzer are independent", "statement": "A copy of an analyzer, constructed or assigned, answers as the original does. From then on neither is affected by what is done with the other: whatever is registered in, added to or analysed with one of them, whether the analysis returns or throws, the other accepts the same programs and gives the same results. Analyzers constructed separately never affect each other.", "quantifier": "all histories of calls on any number of analyzers, copies and scopes, all programs", "why_tests_cant": "it must hold for every history of calls", "anchors": ["include/libqasm/v3x/analyzer.hpp: Analyzer (implicit copy constructor and assignment)", "include/libqasm/v3x/scope.hpp: Scope", "src/v3x/resolver.cpp: copy operations", "src/v3x/semantic_analyzer.cpp: visit_program"]}
{"id": "C78", "title": "Type specification strings", "statement": "A specification string, as given when registering an instruction or function, stands for one type per letter: Q, B, b, i, f, V, W for qubit, bit, bool, int, float, qubit array, bit array. Any other character anywhere is an exception. Distinct strings stand for distinct signatures. Instructions and functions made or registered with a string are those with the types it stands for.", "quantifier": "all strings, names and analyzers", "why_tests_cant": "the domain is infinite", "anchors": ["src/v3x/types.cpp: from_spec", "src/v3x/instruction.cpp: Instruction", "src/v3x/core_function.cpp: CoreFunction", "src/v3x/analyzer.cpp: register_instruction, register_consteval_core_function"]}
{"id": "C79", "title": "Every tree of the language can be written, and no other tree is parsed", "statement": "The syntactic trees parsing can return are, up to source positions, exactly the trees with: versions of one or two non-negative components; names that are words and not reserved; non-negative integer literals; float literals some text denotes; only variables indexed, by at least one entry; at least one gate operand; assembly code that does not contain the closing quotes, even overlapping them. Any such tree, however deeply nested, has a text, and a default analyzer, new or used, reports the same messages and the same program, up to positions, for the text as for the tree.", "quantifier": "all syntactic trees, texts, file names", "why_tests_cant": "Trees are unbounded and there are infinitely many texts; that no text yields some tree cannot be tested at all.", "anchors": ["src/v3x/CqasmLexer.g4", "src/v3x/CqasmParser.g4", "src/v3x/syntactic_analyzer.cpp: SyntacticAnalyzer", "src/v3x/parse_helper.cpp: parse_string"]}
{"id": "C80", "title": "The names of variables carry no meaning", "statement": "Renaming variables, so that different variables keep different names and none is renamed from or to a built-in constant, renames them in the outcome of the analysis and changes nothing else: the same declarations in the same order with the same types, the same instructions with the same operands, the same errors in the same order and at the same places, where messages that name a variable give the new name. Replacing identifiers in a program text accordingly keeps it accepted or rejected by the parser and, up to positions, gives the renamed outcome.", "quantifier": "all programs (any size and nesting, valid or not), all injective renamings that fix the constants; all pairs of texts whose tokens differ in the names of variables", "why_tests_cant": "The variables' names reach overload resolution, constant folding, scope lookup and error messages; a dependence on a particular name or length would only show for programs that use it.", "anchors": ["src/v3x/semantic_analyzer.cpp: SemanticAnalyzer", "src/v3x/resolver.cpp: VariableTable", "src/v3x/analyzer.cpp: Analyzer::resolve_variable, Analyzer::register_variable", "src/v3x/syntactic_analyzer.cpp: SyntacticAnalyzer", "src/v3x/CqasmParser.g4"]}
{"id": "C81", "title": "Only the values of constants matter, not how they are written", "statement": "Replacing constant expressions anywhere in a program (gate parameters, indices, operands, annotations, arguments of functions) by other constant expressions of the same type and value, and lists of indices by other lists or ranges that stand for the same indices in the same order, leaves the outcome of the analysis as it is up to source positions: the same program, the same error messages in the same order. So `Rx(1 + 2) q[0:2]` means what `Rx(3) q[0, 1, 2]` means.", "quantifier": "all programs (any size and nesting, valid or not), all replacements of constant subexpressions, all analysers that a user gets from the default one by analysing programs", "why_tests_cant": "The visitors could look at the shape of an expression instead of its value in any of the places where expressions occur; no set of examples covers all shapes in all places.", "anchors": ["src/v3x/semantic_analyzer.cpp: SemanticAnalyzer::visit_expression, SemanticAnalyzer::visit_expression_list, SemanticAnalyzer::visit_index_list", "src/v3x/core_function.cpp"]}
{"id": "C82", "title": "Any bytes can be parsed", "statement": "Parsing a string or file gives an AST or exactly one error for every sequence of bytes; no other exception escapes. The text parsed is the one the bytes encode in UTF-8; a byte order mark at the start is not part of it. Analysing bytes is analysing that text.", "quantifier": "all sequences of bytes, all files, all file names", "why_tests_cant": "Every sequence of bytes is an input; the ill-formed ones are countless and of several kinds (overlong, surrogate, truncated, out of range).", "anchors": ["src/v3x/antlr_scanner.cpp: StringAntlrScanner::parse, FileAntlrScanner::parse", "src/v3x/parse_helper.cpp: ParseHelper::parse", "src/v3x/analyzer.cpp: Analyzer::analyze_string, Analyzer::analyze_file", "conanfile.py: antlr4-cppruntime/4.13.1"]}
{"id": "C83", "title": "What follows does not change what precedes", "statement": "Appending statements to a program only appends to the errors, the variables and the statements of its analysis result: everything already reported or produced for the original program is unchanged and comes first. If the analysis of a program is undefined, appending statements does not make it defined.", "quantifier": "all analysers with any registrations and history, all programs, all statements appended to them", "why_tests_cant": "Every program is a prefix of infinitely many others, and the analyser's state is shared by all statements.", "anchors": ["src/v3x/semantic_analyzer.cpp: SemanticAnalyzer::visit_program, SemanticAnalyzer::visit_global_block", "include/libqasm/v3x/semantic_analyzer.hpp: SemanticAnalyzer::visit_block", "src/v3x/analyzer.cpp: Analyzer::analyze"]}
{"id": "C84", "title": "Instructions do not influence one another", "statement": "Inserting an instruction (anything but a variable declaration) into a program inserts that instruction's errors and at most one statement, in its place, and changes nothing else in the result. Exchanging two neighbouring instructions exchanges their errors and statements, changes nothing else, and does not decide whether analysis returns. What any statements contribute depends, of the statements before them, on the declarations only.", "quantifier": "all analysers with any registrations and history, all programs, all instructions and positions", "why_tests_cant": "The number of contexts of an instruction is unbounded, and an influence could need any combination of preceding instructions.", "anchors": ["src/v3x/semantic_analyzer.cpp: SemanticAnalyzer::visit_gate_instruction, SemanticAnalyzer::visit_non_gate_instruction, SemanticAnalyzer::visit_asm_declaration", "src/v3x/analyzer.cpp: Analyzer::add_statement_to_current_scope"]}
{"id": "C85", "title": "Reported positions are positions in the text", "statement": "Every node of the tree of a text is located at the word of the text that makes it one: a literal, variable, indexing, call or gate at its own characters, an operation at its operator, an instruction at its keyword or gate name, a declaration at the variable's name, its type from the keyword to the bracket that closes the size. The location gives the line, first and last column of that word and the name of the file. Every analysis error is located at such a word, every literal out of range at its first character, every syntax error at a word of the text or where it ends or is no token. No line or column of them exceeds the length of the text by more than one, except the end of a syntax error, which is counted in bytes.", "quantifier": "all texts of any length and layout, all file names, all API versions", "why_tests_cant": "Positions depend on everything that precedes a word: any number of lines, comments and words.", "anchors": ["src/v3x/syntactic_analyzer.cpp: SyntacticAnalyzer::setNodeAnnotation, SyntacticAnalyzer::copyNodeAnnotation, SyntacticAnalyzer::get_int_value", "src/v3x/CqasmLexer.g4", "src/v3x/semantic_analyzer.cpp: SemanticAnalyzer::visit_expression"]}
{"id": "C86", "title": "Text can be appended on a new line", "statement": "If a text is accepted, its statements are the first statements of every accepted text that continues it on a new line, at the same positions. Whether a continuation is accepted, and the statements it adds, do not depend on the text it continues: the same lines are accepted after any other accepted text and give the same statements. What the analysis of the shorter text reports, and the variables and statements it finds, come first in the result for the longer one. Conversely, a program can be cut off at any new line outside comments and raw strings after its version statement.", "quantifier": "all texts and continuations of any length, all file names, all analysers in any state", "why_tests_cant": "The continuation is arbitrary text, and whether an earlier comment, raw string or version statement is left open depends on the whole text before it.", "anchors": ["src/v3x/CqasmLexer.g4", "src/v3x/CqasmParser.g4: program, globalBlock, statementSeparator", "src/v3x/syntactic_analyzer.cpp: SyntacticAnalyzer::visitGlobalBlock", "src/v3x/analyzer.cpp: Analyzer::analyze_string"]}
{"id": "C87", "title": "A declaration matters only to what mentions it", "statement": "Inserting a declaration whose name nothing after it mentions inserts its errors and at most one variable, in its place; every other error, statement and variable of the result stays the same, except that variables may have other identities, which never coincide with the new one. Exchanging a declaration and a neighbouring instruction that does not mention it exchanges their errors and leaves the result and the analyser the same. Exchanging two neighbouring declarations of different names that do not mention one another exchanges their errors and variables, and the rest stays the same under an exchange of identities. None of these changes decides whether analysis returns. In particular all declarations of an accepted program may be moved to the front without changing its result.", "quantifier": "all default analysers with any history of analyses, all programs, all declarations and positions", "why_tests_cant": "The number of programs around a declaration is unbounded, and an influence could need any combination of statements.", "anchors": ["src/v3x/semantic_analyzer.cpp: SemanticAnalyzer::visit_variable", "src/v3x/analyzer.cpp: Analyzer::add_variable_to_current_scope, Analyzer::register_variable, Analyzer::resolve_variable"]}
{"id": "C88", "title": "A registered name concerns only the programs that use it", "statement": "Registering a constant, a function or an instruction changes no result of analysing a program that does not use that name as one of that sort. In a whole history of registrations, scopes and analyses, leaving out all registrations of some names leaves all results the same if no analysed program uses them; and adding such registrations anywhere does no harm as long as a scope is left. Two neighbouring registrations of different names, or of the same name as different sorts, can be exchanged without changing any later result.", "quantifier": "all analysers, all histories of registrations, scope changes and analyses, all programs, all sets of names", "why_tests_cant": "Lookup runs through all scopes and tables; tests try a few names, while interference could come from any other name, any history and any nesting of scopes.", "anchors": ["src/v3x/analyzer.cpp: Analyzer::register_variable, Analyzer::register_instruction, Analyzer::register_consteval_core_function, Analyzer::resolve_variable, Analyzer::resolve_function, Analyzer::resolve_instruction", "include/libqasm/overload.hpp: OverloadedNameResolver::add_overload, OverloadedNameResolver::resolve", "src/v3x/resolver.cpp: VariableTable::add, ConstEvalCoreFunctionTable::add, InstructionTable::add"]}
{"id": "C89", "title": "Larger registers do no harm", "statement": "If a program is accepted, it is also accepted with any registers declared with more elements, and the result differs only in these sizes, unless an instruction compares the size of such a register with something else: an instruction may use such registers as whole operands only if all its operands are such registers with the same new size.", "quantifier": "all default analysers, all programs the parser can build, all sets of registers and new sizes", "why_tests_cant": "The sizes are unbounded, and a size can matter in any later expression, index or operand.", "anchors": ["src/v3x/semantic_analyzer.cpp: SemanticAnalyzer::visit_index, SemanticAnalyzer::visit_gate_instruction, SemanticAnalyzer::visit_non_gate_instruction", "src/v3x/semantic_analyzer.cpp: check_out_of_range"]}
{"id": "C90", "title": "A register stands for the list of all its elements", "statement": "Writing an operand that is a whole register as the list of all its elements in order, in any notation for indices, does not change whether the program is accepted, and in the result only that operand changes, from the register to the references to all its elements (and with it, for a register with one element, the operand kind recorded for the instruction).", "quantifier": "all default analysers, all programs the parser can build, all operands, all ways to write the indices", "why_tests_cant": "Sizes and index notations are unbounded; tests try a few sizes of a few instructions.", "anchors": ["src/v3x/semantic_analyzer.cpp: SemanticAnalyzer::visit_index, SemanticAnalyzer::visit_index_range", "src/v3x/semantic_analyzer.cpp: SemanticAnalyzer::visit_gate_instruction, SemanticAnalyzer::visit_non_gate_instruction", "src/v3x/values.cpp: type_of, size_of"]}
{"id": "C91", "title": "An instruction on several elements stands for one per element", "statement": "An instruction whose operands are lists of elements of registers, of the same length, is accepted if and only if the instructions on the first elements, the second elements and so on are accepted in its place. Then the result is the same except that the operands of these are the first, second and further elements of the operands of the single instruction. This holds for gates with any modifiers and parameters, and for measure, reset, init, barrier and wait.", "quantifier": "all default analysers, all programs the parser can build, all instructions, all lists of elements of any length", "why_tests_cant": "Lists of elements have any length, and the instruction can stand anywhere in any program.", "anchors": ["src/v3x/semantic_analyzer.cpp: SemanticAnalyzer::visit_index_list, SemanticAnalyzer::visit_gate_instruction, SemanticAnalyzer::visit_non_gate_instruction", "src/v3x/analyzer.cpp: Analyzer::resolve_instruction", "src/v3x/values.cpp: type_of, size_of"]}
{"id": "C92", "title": "Positions move with the text", "statement": "If blank lines, comments or indentation are inserted in front of a line of a text, the text is accepted by the lexer and the parser if and only if it was before. If it is not, the place of the syntax error moves with its line. If it is, then every position in the syntax tree, in the semantic program and in the errors reported after parsing (literals out of range and all errors of the analysis) moves with its line: down by the number of new lines inserted and, on the line itself, to the right by what was inserted after the last of them. Positions on earlier lines stay. Giving the file another name changes only the file name in positions. Nothing else changes: the trees, the messages and the order of the errors are the same.", "quantifier": "all texts, all places where a line starts outside comments and raw strings, all insertions of blank lines, comments and indentation of any length, all file names, all default analysers", "why_tests_cant": "An insertion of any length can be made in front of any line of any text, and every node and error of the result has to move correctly.", "anchors": ["src/v3x/syntactic_analyzer.cpp: SyntacticAnalyzer::setNodeAnnotation, SyntacticAnalyzer::expandNodeAnnotation, SyntacticAnalyzer::syntaxError", "src/annotations.cpp: SourceLocation::expand_to_include", "src/error.cpp: Error::context", "src/v3x/analyzer.cpp: Analyzer::add_statement_to_current_scope", "src/v3x/CqasmLexer.g4"]}
{"id": "C93", "title": "Which trees an analysis returns", "statement": "What a back end may rely on when it walks the result of an error-free analysis can be said about that tree alone. Variables are numbered from 0, have different names that are identifiers but not names of constants, have type qubit, bit or an array of a positive number of them. Every gate instruction is a gate of the language under modifiers, with one constant parameter of exactly the declared kind for each declared parameter, modifiers only on gates on one qubit, and as many operands as the gate has qubits; all operands are qubits of the program, refer to the same number of elements and every index is within the array. Each measure has as many bits as qubits; reset, init, barrier and wait have one qubit operand; an assembly declaration does not contain its terminator. The instruction reference names the gate and the kinds of its operands. Every text that is analysed without errors gives such a tree, and every such tree is, apart from positions, what some text gives. So nothing is missing from the description, and nothing allowed by it is impossible.", "quantifier": "all texts, all file names, all default analysers, all semantic trees of any size", "why_tests_cant": "Both directions range over infinitely many texts and trees, and the second asks for a text for each tree.", "anchors": ["src/v3x/semantic_analyzer.cpp: visit_program, visit_variable, visit_gate_instruction, visit_non_gate_instruction, visit_asm_declaration", "src/v3x/analyzer.cpp: Analyzer::analyze_string, Analyzer::resolve_instruction", "src/v3x/instruction_set.cpp: InstructionSet", "src/v3x/semantic.tree"]}
{"id": "C94", "title": "How lines end does not matter", "statement": "Two texts that differ only in whether lines end with a line feed or with a carriage return and a line feed, mixed in any way and also within comments, have the same tokens at the same lines and columns. One is accepted by the lexer and the parser if and only if the other is. If not, the syntax error is at the same place. If so, the syntax tree, the result of the analysis by any analyser and all errors are the same, positions included; only the code of assembly declarations keeps the line ends it was written with. If no assembly declaration goes over the end of a line there is no difference at all.", "quantifier": "all pairs of texts that differ only in line ends, all file names, all analysers", "why_tests_cant": "Each line end of a text of any length can be written in two ways, and the lexer has to cut the text before and after it alike.", "anchors": ["src/v3x/CqasmLexer.g4: NEW_LINE, SINGLE_LINE_COMMENT, MULTI_LINE_COMMENT, RAW_TEXT_STRING", "src/v3x/CqasmParser.g4: statementSeparator", "src/v3x/syntactic_analyzer.cpp: visitAsmDeclaration, setNodeAnnotation", "src/v3x/semantic_analyzer.cpp: visit_asm_declaration"]}
{"id": "C95", "title": "Results are no larger than the text", "statement": "A text has no more tokens than characters, its syntax tree has no more nodes below the root than the text has characters, an analysis reports no more errors than there are characters (one for the empty text), and the tree an analysis returns, with or without errors, has no more nodes than the text has characters.", "quantifier": "all texts, all file names, all supported API versions", "why_tests_cant": "Texts of any length and nesting are inputs; what bounds the size of a result is each rule of the grammar and each step of the analysis together.", "anchors": ["src/v3x/CqasmLexer.g4", "src/v3x/CqasmParser.g4", "src/v3x/syntactic_analyzer.cpp", "src/v3x/semantic_analyzer.cpp: visit_index_range, visit_index", "src/v3x/values.tree: index_ref"]}
{"id": "C96", "title": "Errors and instructions are in the order of the text", "statement": "The errors that the analysis of a text returns are in the order of the text: if there is more than one, each has a location, and the location of an earlier error has at least one character and ends before that of a later one begins, so no two errors are at overlapping places. The instructions of the returned tree (assembly declarations, which have no location, aside) are in the order of the text in the same sense, also if there are errors, and no error overlaps the location of an instruction that was kept. The same holds for the version and the statements of the syntax tree that parsing returns.", "quantifier": "All texts, all file names, any number of statements and errors, every default analyser", "why_tests_cant": "A test has a few errors on lines of their own; that errors are never out of order or on top of each other needs every statement, expression and layout, including several statements on a line and strings over several lines.", "anchors": ["src/v3x/semantic_analyzer.cpp: SemanticAnalyzer::visit_program, visit_block", "src/v3x/syntactic_analyzer.cpp: SyntacticAnalyzer::setNodeAnnotation", "include/libqasm/v3x/analysis_result.hpp: AnalysisResult", "include/libqasm/error.hpp: Error"]}
{"id": "C97", "title": "Only the number of elements of an operand matters", "statement": "If an instruction of an accepted program is given other operands, each denoting as many qubits (or bits) as the operand it replaces, the program is still accepted, and its result differs only in the operands of that instruction. In particular the operands of a gate may be swapped or repeated.", "quantifier": "All programs, all instructions with operands, all operands and ways to write them, any statements before and after, every default analyser", "why_tests_cant": "Whether a qubit is written by name, index, list of indices or range, and which of them, ranges over infinitely many expressions and registers in every context.", "anchors": ["src/v3x/semantic_analyzer.cpp: visit_gate_instruction, visit_non_gate_instruction, check_qubit_and_bit_indices_have_same_size, check_qubit_operands_indices_have_same_size", "src/v3x/instruction_set.cpp: InstructionSet::get_gate_map, get_non_gate_map"]}
{"id": "C98", "title": "No instruction has a qubit or bit for two operands at once", "statement": "An instruction whose operands have several elements stands for one instruction per element. In none of them do two operands name the same qubit or the same bit.", "quantifier": "All accepted programs, all instructions, every element of their operands, every default analyser", "why_tests_cant": "Operands can be written by name, by indices and by ranges of constant expressions; whether they coincide at some position ranges over all of these.", "anchors": ["src/v3x/semantic_analyzer.cpp: visit_gate_instruction", "src/v3x/values.tree: index_ref"]}
{"id": "C99", "title": "Programs on separate variables can be joined in any way", "statement": "If any number of programs that declare variables of different names are each accepted, every program made by interleaving their statements, keeping the order within each, is accepted, and its variables and instructions are those of the programs interleaved in the same way, with other identities of the variables. Conversely, if such an interleaving is accepted and none of the programs mentions a name that another one declares, each program is accepted on its own, with these results.", "quantifier": "Any number of programs, all interleavings, every default analyser", "why_tests_cant": "The interleavings of programs of any length are infinitely many, and each statement is analysed in a different state than in its own program.", "anchors": ["src/v3x/semantic_analyzer.cpp: SemanticAnalyzer::visit_block, visit_variable, visit_identifier", "src/v3x/analyzer.cpp: Analyzer::add_variable_to_current_scope, resolve_variable"]}
{"id": "C100", "title": "Other characters occur only in comments and assembly code", "statement": "Words, numbers, signs and blanks of the language are made of English letters, the underscore, decimal digits, a fixed set of signs, blanks, tabulators and line ends. In a text that parses as a program, every other character (a dollar sign, a quotation mark, a letter with an accent) is inside a comment or inside the quoted code of an assembly declaration; a text with such a character that contains none of `//`, `/*` and `'''` is reported as an error.", "quantifier": "All texts, all characters, any position", "why_tests_cant": "There are infinitely many texts, and more than a million characters that could occur at any place of them.", "anchors": ["src/v3x/CqasmLexer.g4: all rules", "src/v3x/parse_helper.cpp: ParseHelper::parse"]}
{"id": "C101", "title": "Each semantic error is one line of plain text", "statement": "The message of every error that the analysis of a parsed program reports is not empty and consists of visible ASCII characters and blanks only, whatever the program. What the throwing entry point prints for a program with errors is therefore one line per error, in order, each of the form `Error at <place>: <message>`, provided that the name of the file does not itself contain a line end.", "quantifier": "All texts that parse, all file names, every default analyser", "why_tests_cant": "Messages quote names, types, numbers and versions of the program, so there are infinitely many of them.", "anchors": ["src/v3x/semantic_analyzer.cpp", "src/v3x/analyzer.cpp", "src/error.cpp: Error::what", "src/annotations.cpp: operator<<", "include/libqasm/result.hpp: to_strings"]}
{"id": "C102", "title": "The order of statements matters only for declaration before use", "statement": "The statements of an accepted program, put in any other order, are accepted exactly if every variable is declared before the statements that use it. Each statement then has the same outcome as before, a variable or an instruction of the result, apart from the identities of the variables; different variables keep different identities.", "quantifier": "All accepted programs, all permutations of their statements, every default analyser", "why_tests_cant": "A program of n statements has n! orders, and programs can have any length.", "anchors": ["src/v3x/semantic_analyzer.cpp: SemanticAnalyzer::visit_block, visit_variable, visit_gate_instruction, visit_non_gate_instruction", "src/v3x/analyzer.cpp: Analyzer::add_variable_to_current_scope, resolve_variable"]}
{"id": "C103", "title": "What carries no meaning in a program carries none in a session", "statement": "Analysing several programs one after another with one default analyzer: if in each of them source positions change, or constant expressions are replaced by others of the same type and value, every analysis ends as before up to positions, with the same messages in the same order and the same program, although later analyses see the variables and statements of earlier ones. If variables are renamed in all programs by one renaming that keeps names distinct and leaves the built-in constants alone, every analysis ends with the variables renamed.", "quantifier": "all lists of programs of any length, valid or not, all analyzers got from the default one by analysing programs, all renamings", "why_tests_cant": "A test fixes one history of analyses; the claim ranges over all histories of unbounded length, in which errors of one program change what the next sees.", "anchors": ["src/v3x/semantic_analyzer.cpp: SemanticAnalyzer::analyze", "include/libqasm/v3x/analyzer.hpp: Analyzer::analyze"]}
{"id": "C104", "title": "The file name is only used for error messages", "statement": "Parsing or analysing one text under two file names, or under none, gives the same result: the same tree or program, the same number of errors with the same messages in the same order, and places with the same lines and columns; only the name in the places differs. A printed error differs only in the name that stands before the line number, and the JSON of an error only in the path of its related information. An empty name counts as none. Analysing a file through an analyzer names the file in errors.", "quantifier": "All texts, in the language or not, all pairs of file names, every default analyzer and every analyzer that has analysed programs before", "why_tests_cant": "Two runs are compared for every text and every pair of names; a test compares a few.", "anchors": ["src/v3x/antlr_scanner.cpp", "src/v3x/semantic_analyzer.cpp", "src/annotations.cpp: SourceLocation::SourceLocation, operator<<", "src/error.cpp: Error::what, to_json", "src/v3x/analyzer.cpp: Analyzer::analyze_file, analyze_string", "src/v3x/analyzer.cpp: Analyzer::analyze_string: 'The optional file_name argument will be used only for error messages.'"]}
{"id": "C105", "title": "Diagnostics have positions of the Language Server Protocol", "statement": "The JSON of an error, which is said to follow the Language Server Protocol, gives as range the place of the offending text in the sense of the protocol: lines counted from zero and ending with a line feed, a carriage return or both, and offsets in a line counted from zero in UTF-16 code units.", "quantifier": "All texts and all errors reported for them", "why_tests_cant": "The positions must be right for every text; the tests compare the JSON of a few errors with recorded output, which has the positions the code gives.", "anchors": ["src/error.cpp: Error::to_json: 'The JSON representation follows the Language Server Protocol (LSP) specification'", "src/v3x/cqasm_python.cpp: parse_string_to_json, analyze_string_to_json", "include/libqasm/v3x/emscripten_wrapper.hpp: analyze_string_to_json"]}
{"id": "C106", "title": "The documented default constants are available", "statement": "The default analyzer knows the constants that its documentation lists, pi, eu, tau and im, with their values, besides true and false, and no other name.", "quantifier": "All names, every default analyzer", "why_tests_cant": "That no other name is known is a claim about all names.", "anchors": ["include/libqasm/v3x/analyzer.hpp: register_default_constants: 'Registers constants for pi, eu (aka e, 2.718...), tau and im (imaginary unit).'", "src/v3x/analyzer.cpp: Analyzer::register_default_constants"]}
{"id": "C107", "title": "No version check", "statement": "As documented for the Python and JavaScript interfaces, neither parsing nor analysing performs a version check: a program that is accepted is accepted with the same statements when the number in its version statement is replaced by another one.", "quantifier": "All programs and all version numbers, every default analyzer", "why_tests_cant": "There are infinitely many version numbers and programs.", "anchors": ["include/libqasm/v3x/cqasm_python.hpp: V3xAnalyzer: 'None of the parsing or the analyzing methods perform any version check.'", "include/libqasm/v3x/emscripten_wrapper.hpp", "python/module/cqasm/v3x/__init__.py", "src/v3x/semantic_analyzer.cpp: SemanticAnalyzer::visit_version"]}
{"id": "C108", "title": "A syntax error is reported where the text goes wrong", "statement": "If a text is not in the language, the one error that is reported is at the first token that cannot continue a program: what comes before it can be completed to a program, and with it that is not possible, whatever follows. If some place of the text is no token at all, and what comes before it is the start of a program, the error is at that place.", "quantifier": "All texts that are not in the language, all file names", "why_tests_cant": "There are infinitely many wrong texts, and that no continuation is valid is a claim about all continuations.", "anchors": ["src/v3x/antlr_custom_error_listener.cpp: AntlrCustomErrorListener::syntaxError", "src/v3x/parse_helper.cpp: ParseHelper::parse", "src/v3x/antlr_scanner.cpp", "src/v3x/CqasmLexer.g4", "src/v3x/CqasmParser.g4"]}
{"id": "C109", "title": "The class of the exception says why a name does not resolve", "statement": "As documented, resolving a variable throws NameResolutionFailure exactly if no scope has a variable of that name; resolving a function or an instruction throws NameResolutionFailure if there is none of that name, OverloadResolutionFailure if there are some but none fits the arguments, and otherwise does not throw (a function may throw itself).", "quantifier": "All histories of pushing and popping scopes and registering variables, functions and instructions, all names, all arguments that have a type", "why_tests_cant": "There are unboundedly many histories of registrations and calls; the existing tests look at a few messages and never at the class.", "anchors": ["src/v3x/resolver.cpp: VariableTable::add, VariableTable::resolve, ConstEvalCoreFunctionTable::resolve, InstructionTable::resolve", "include/libqasm/v3x/resolver.hpp: NameResolutionFailure, OverloadResolutionFailure, ResolutionFailure, OverloadedNameResolver::resolve", "src/v3x/analyzer.cpp: Analyzer::resolve_variable, Analyzer::resolve_function, Analyzer::resolve_instruction", "include/libqasm/overload.hpp"]}
{"id": "C110", "title": "Source locations are ordered as in the text", "statement": "Of two source locations exactly one of a < b, a == b, b < a holds, < is transitive, and <= is < or ==. a < b holds exactly if a begins earlier in the text, or they begin together and a ends earlier. The errors of one analysis, and the instructions of its result, are in ascending order of their locations.", "quantifier": "All source locations; all texts, files and API versions", "why_tests_cant": "An order is a claim about all pairs and triples of locations; that errors are sorted is one about all texts.", "anchors": ["include/libqasm/annotations.hpp: Index::operator<=>, Range::operator<=>, SourceLocation::operator<=>, SourceLocation::operator==", "src/v3x/semantic_analyzer.cpp"]}
{"id": "C111", "title": "What an analyser with its own registrations accepts", "statement": "Whatever constants, functions and instructions the user registers, in whatever scopes: analyze reports no errors exactly if the version matches and every statement is valid given what is registered (names denote the innermost registration, a call is that of the last registered function that fits, an instruction the last registered one that fits in the innermost scope that has one), and the result is the one these rules determine. If a value of the result refers to a variable the program does not declare, the call throws std::runtime_error. For the default registrations these rules agree with those of the language (C01).", "quantifier": "All histories of pushing and popping scopes and registering variables, functions and instructions on a new analyser; all syntax trees of the shape the parser gives", "why_tests_cant": "There are infinitely many sets of registrations and programs; the tests use one or two overloads.", "anchors": ["include/libqasm/v3x/analyzer.hpp", "src/v3x/analyzer.cpp: Analyzer::register_variable, Analyzer::register_consteval_core_function, Analyzer::register_instruction, Analyzer::resolve_variable, Analyzer::resolve_function, Analyzer::resolve_instruction, Analyzer::analyze", "src/v3x/semantic_analyzer.cpp", "include/libqasm/overload.hpp"]}
{"id": "C112", "title": "Every accepted gate has the parameters its definition demands", "statement": "In a result without errors every gate, at any depth of modifiers, has exactly the parameters that the gate set lists for its name, each of the listed kind.", "quantifier": "All analysers (histories of registrations) and all programs they accept", "why_tests_cant": "A claim about all registrations and all programs.", "anchors": ["src/v3x/semantic_analyzer.cpp: SemanticAnalyzer::resolve_parameters", "src/v3x/values.cpp: promote, check_promote", "include/libqasm/tree.hpp: Any::add"]}
{"id": "C113", "title": "What analysers with their own registrations report and keep over a session", "statement": "Start with an analyser in which nothing is registered; register variables, functions and instructions, open and close scopes and analyse programs in any order. Every analysis that returns reports one error for a wrong version and exactly one per rejected statement, in the order of the program. The message of each is determined by what is registered; it is located at a node of that statement, unless a registered function threw it with a location of its own. The tree has what the programs analysed before in the same scope left there, followed by what this program adds. A rejected statement leaves nothing behind, except for the variable of a redeclaration. A scope that is closed takes its part of the tree along. Which programs are accepted next follows from what is kept.", "quantifier": "All histories of registrations, scopes and analyses (of programs without annotations, as the parser makes them)", "why_tests_cant": "A claim about all registrations, all programs and all orders of calls.", "anchors": ["src/v3x/analyzer.cpp: Analyzer::analyze, push_scope, pop_scope, add_variable_to_current_scope, add_statement_to_current_scope", "src/v3x/semantic_analyzer.cpp: SemanticAnalyzer::visit_program, visit_variable, visit_gate_instruction, visit_non_gate_instruction", "src/error.cpp: Error::context"]}
{"id": "C114", "title": "When an analysis ends without a result, for analysers with their own registrations", "statement": "Start with an analyser in which nothing is registered; register, open and close scopes and analyse programs in any order. The next analysis throws something that is not recorded as an error, or is undefined, exactly in these cases. An instruction is reached whose evaluation, from left to right and before any error in it, calls a registered function that throws something other than an analysis error or is undefined; or gives a known function or an instruction a value without a type (one element of something that is not an array), for which std::runtime_error is thrown; or indexes something that is not a variable; or has an index range up to the largest 64-bit integer. Or the program is valid and its tree refers to variables that are not in it, for which std::runtime_error is thrown. Or all scopes have been closed. In all other cases it returns. Hence programs that index only names of variables, with ranges that end with a literal, are analysed to the end if the registered functions return or throw analysis errors and values have types.", "quantifier": "All histories of registrations, scopes and analyses (of programs without annotations, as the parser makes them), all functions that can be registered", "why_tests_cant": "A claim about all functions a user can register and all programs, including that nothing else ends an analysis.", "anchors": ["src/v3x/analyzer.cpp: Analyzer::analyze, resolve_function, resolve_instruction", "src/v3x/semantic_analyzer.cpp: SemanticAnalyzer::visit_function_call, visit_index, visit_index_range, visit_const_int, resolve_parameters", "src/v3x/values.cpp: type_of, element_type_of, promote", "include/libqasm/overload.hpp: OverloadResolver::resolve"]}
{"id": "C115", "title": "Annotations do not change what they annotate", "statement": "Start with an analyser in which nothing is registered; register, open and close scopes and analyse programs with annotations in any order. Every operand of an annotation that is not valid gives exactly one error, located in the operand or else at the annotation (or as the registered function that threw it says), and is left out; the annotation, its other operands and the statement are kept. These errors are in the order of the program, those of inner gates before those of the outer gate, those of the gate before those of the instruction, and all before the error for the statement itself. If an analysis returns then that of the same program without its annotations returns with the same tree except for the annotations and with the same errors except for those of annotations; or, if there were errors only for annotations, it may find the tree not to be in order and throw.", "quantifier": "All histories of registrations, scopes and analyses, all programs with any annotations on declarations, gates and instructions", "why_tests_cant": "A relation between the analyses of all pairs of programs that differ in annotations. No text has annotations, so no test of the repository covers them.", "anchors": ["src/v3x/semantic_analyzer.cpp: SemanticAnalyzer::visit_annotated, visit_annotation_data, visit_variable, visit_gate, visit_gate_instruction, visit_non_gate_instruction, visit_asm_declaration", "src/v3x/semantic.tree: annotated", "src/v3x/syntactic.tree: annotated"]}
{"id": "C116", "title": "The exact errors of analysers with their own registrations", "statement": "Start with an analyser in which nothing is registered; register variables, functions and instructions, open and close scopes and analyse programs, with or without annotations, in any order. What is registered then determines for every expression and every instruction whether it is accepted, or rejected with exactly one error, or ends the analysis. The error has a fixed message: the first problem from left to right, with the name and the kinds of the values in question, or the message that the registered function throws. Its position is the one that it was thrown with, or else that of the nearest construct around it that adds one. The errors of an analysis that returns are exactly those, in the order of the program, after the one for the version.", "quantifier": "All histories of registrations, scopes and analyses, all programs of the shape that the parser makes, with any annotations", "why_tests_cant": "The messages depend on the registrations, which are functions of the user; tests can compare the messages of some programs with some registrations only.", "anchors": ["src/v3x/semantic_analyzer.cpp: SemanticAnalyzer::visit_program, visit_gate, visit_index, visit_function_call, visit_unary_operator, visit_binary_operator, visit_expression_list", "src/v3x/analyzer.cpp: Analyzer::resolve_variable, resolve_function, resolve_instruction", "include/libqasm/overload.hpp: OverloadResolver::resolve", "src/error.cpp: Error::context"]}
{"id": "C117", "title": "When the analysis of a program with annotations ends without a result", "statement": "Start with an analyser in which nothing is registered; register variables, functions and instructions, open and close scopes and analyse programs, with or without annotations, in any order. Then the analysis of a program either returns the tree and the errors that the rules of C115 and C116 say, or throws something that is not an analysis error, or is undefined, as the rules say; what is registered determines which. The operands of annotations are evaluated as well: those of a gate after the gate, its parameters and the gates inside, those of a statement after all else in it, and those of a declaration after its type; each only if what comes before in the same construct is valid. The first operand that ends the analysis does so, whatever the errors in those before it.", "quantifier": "All histories of registrations, scopes and analyses, all programs of the shape that the parser makes, with any annotations", "why_tests_cant": "Whether an analysis ends depends on functions of the user, and on the order in which everything is evaluated; tests can try some programs with some functions only.", "anchors": ["src/v3x/semantic_analyzer.cpp: SemanticAnalyzer::visit_program, visit_annotated, visit_variable, visit_gate_instruction, visit_gate, visit_non_gate_instruction, visit_asm_declaration", "src/v3x/analyzer.cpp: Analyzer::analyze"]}
{"id": "C118", "title": "Texts given to analysers with their own registrations, from the text to the answer", "statement": "Start with an analyser in which nothing is registered; register variables, functions and instructions, open and close scopes and analyse texts, in any order. A text that is not a program is answered with one error and no tree, and the analyser is as before. The answer for a text that is a program is the one that the rules of C113 say for its tree: which errors there are, with their messages and positions, and the tree with all that the analyser keeps. The analysis ends without a result exactly if the text is a program and the rules of C114 say so. Each error points to a word of the text, unless a function of the user threw it with a location of its own; and each message is a non-empty line of visible ASCII characters and blanks, unless a function of the user threw it.", "quantifier": "All histories of registrations, scopes and texts, all texts and file names, all functions that the user registers", "why_tests_cant": "The properties of C85 and C101 hold for the functions and instructions of the library; whether they hold for those of users, for any text in any session, cannot be tried out.", "anchors": ["src/v3x/analyzer.cpp: Analyzer::analyze_string, Analyzer::analyze, Analyzer::register_*", "src/v3x/semantic_analyzer.cpp: SemanticAnalyzer::visit_program", "src/v3x/syntactic_analyzer.cpp", "src/v3x/parse_helper.cpp"]}
{"id": "C119", "title": "What users register in addition to the language takes precedence where it fits, and changes nothing else", "statement": "Start with an analyser of the library, register more functions and instructions, open and close scopes and analyse texts, in any order, without closing the outermost scope. At first exactly the constants, functions and instructions of the language are registered, and all of them stay. A call whose arguments fit a function of the user calls the one of those that was registered last; any other call with constants and registers is the one of the language: the same value, the same undefined behaviour, and the error that no function fits in the same cases, whose message is the one for unknown names only if the user has no function with this name either. Likewise for instructions. The constants keep their values in the outermost scope. As long as nothing is added, the errors are those that the language reference gives (C72).", "quantifier": "All histories of registrations, scopes and texts, all functions that the user registers, all arguments and operands", "why_tests_cant": "A user's overload could capture calls that it does not fit, or lose calls of the language, depending on the order of registration and on the promotions of each argument; the combinations are unbounded.", "anchors": ["src/v3x/analyzer.cpp: Analyzer::register_function, Analyzer::register_instruction, Analyzer::resolve_function, Analyzer::resolve_instruction", "include/libqasm/overload.hpp: OverloadedNameResolver", "src/v3x/register_consteval_core_functions.cpp", "src/v3x/register_instructions.cpp"]}
{"id": "C120", "title": "The same program can be analysed again and again, with predictable results", "statement": "An analyser keeps the variables and instructions of the programs it has analysed. If the analysis of a text has no errors, and no variable that it declares also names something in a scope further out, then every further analysis of the text with the same analyser returns. Its errors are exactly one for each declaration, that the variable is redeclared, in the order of the text. Its tree has the instructions of the text once more, the same as before, and its variables once more, with new numbers. So a further analysis has no errors exactly if the text declares nothing. For the analysers of the library the condition on scopes holds as long as the user opens none, whatever the user registers and analyses before. The condition is necessary.", "quantifier": "All histories of registrations, scopes and texts, all texts, any number of repetitions", "why_tests_cant": "An analysis could depend on the number of analyses before it, on the number of a variable, or on names that the first analysis added; the histories are unbounded.", "anchors": ["src/v3x/semantic_analyzer.cpp: SemanticAnalyzer::visit_program, SemanticAnalyzer::visit_variable", "src/v3x/analyzer.cpp: Analyzer::analyze, Analyzer::add_variable_to_current_scope, Analyzer::add_statement_to_current_scope, Analyzer::register_variable", "src/v3x/resolver.cpp: VariableTable::add"]}
{"id": "C121", "title": "Whatever is registered, errors and instructions are in the order of the text", "statement": "At any time of a session with an analyser, whatever the user has registered and analysed before, the errors of the analysis of a text are reported in the order of the text, at places that do not overlap. The only exceptions are errors that registered functions throw with a location of their own. The instructions that the text adds to the tree are in the order of the text, with or without errors, after those of earlier texts, and no error is at the place of one of them.", "quantifier": "All histories of registrations, scopes and texts, all registrations, all texts", "why_tests_cant": "The order could depend on what is registered, on scopes, or on what was analysed before; the histories are unbounded.", "anchors": ["src/v3x/semantic_analyzer.cpp: SemanticAnalyzer::visit_program, SemanticAnalyzer::visit_block, SemanticAnalyzer::visit_variable, SemanticAnalyzer::visit_gate_instruction, SemanticAnalyzer::visit_non_gate_instruction", "src/v3x/analyzer.cpp: Analyzer::analyze, Analyzer::add_statement_to_current_scope", "src/error.cpp: Error::context"]}
{"id": "C122", "title": "What users register does not make analyses throw, unless it is out of order", "statement": "Over a whole session in which no scopes are opened, the values that the user registers refer to no variables and the functions return constants or what their arguments refer to, every tree, with or without errors, is in order: each value in it, also in parameters and annotations, refers to a variable of the tree and to at least one element. So the check of the tree never throws. If in addition the registered functions throw analysis errors only and values have types, analyses with an analyser of the library do not throw at all: they return, or their behaviour is undefined.", "quantifier": "All histories of registrations and texts of this kind, all texts", "why_tests_cant": "The tree keeps what all earlier texts have added, references have to be in order for any nesting of expressions, functions and modifiers, and the functions that users register are arbitrary.", "anchors": ["src/v3x/analyzer.cpp: Analyzer::analyze, Analyzer::register_variable, Analyzer::register_consteval_core_function, Analyzer::resolve_function", "src/v3x/semantic_analyzer.cpp: SemanticAnalyzer::visit_program, SemanticAnalyzer::visit_index", "src/v3x/values.cpp: type_of", "include/libqasm/v3x/register_consteval_core_functions.hpp"]}
{"id": "C123", "title": "A program can be analysed in pieces", "statement": "At any time of a session with an analyser, whatever is registered: if programs of an accepted version are analysed one after another, then analysing instead one program with all their statements returns, with the concatenation of their errors, the variables and instructions of the last tree, and an analyser that answers all further programs in the same way. For an analyser of the library, to which the user adds what keeps things in order, also the converse holds: if the whole program is analysed, so are its pieces. Where things are not in order the converse can fail.", "quantifier": "All histories, all registrations, all programs with the shape that the parser gives them, all ways to cut them into pieces", "why_tests_cant": "The pieces are arbitrary in number and content, and what an analyser keeps between analyses depends on the whole history.", "anchors": ["src/v3x/analyzer.cpp: Analyzer::analyze, Analyzer::add_variable_to_current_scope, Analyzer::add_statement_to_current_scope", "src/v3x/semantic_analyzer.cpp: SemanticAnalyzer::visit_program, SemanticAnalyzer::visit_block", "include/libqasm/v3x/scope.hpp"]}
{"id": "C124", "title": "Python gets the bytes and texts that C++ gives out", "statement": "The bytes of a tree serialised by C++ reach the deserialiser of the Python module unchanged, whatever bytes they are; messages arrive as they are, and different strings never look the same. A Python text reaches the parser as it is, without a byte order mark; a text or file name that contains surrogates is refused with a TypeError before, and parsing a text raises no other exception. A file is treated like the text in it; a missing file gives a RuntimeError and one that is not UTF-8 a SystemError. Making an analyser from Python succeeds exactly for the strings that mean 3.0 and otherwise raises ValueError or IndexError as the C++ constructor throws. The JSON of errors is ASCII, whatever the messages and file names are.", "quantifier": "All sequences of bytes, all Python strings, analysers, serialisers and deserialisers", "why_tests_cant": "Serialised trees are arbitrary bytes, with any ill-formed UTF-8 in them; tests see a few.", "anchors": ["python/module/cqasm/v3x/__init__.py: Analyzer", "python/libqasm.i", "include/libqasm/result.hpp: to_strings", "src/v3x/cqasm_python.cpp: V3xAnalyzer::V3xAnalyzer", "src/error.cpp: Error::to_json"]}
{"id": "C125", "title": "Instructions can be registered from Python", "statement": "As documented, register_instruction(name, param_types) of the Python class registers an instruction, so that an analyser made without defaults can be given an instruction set of one's own. Over a whole session with an analyser made in Python, calls raise exceptions only for what they are given (strings with surrogates, missing files, files that are not UTF-8); all others return what the analysis of the text gives.", "quantifier": "All sessions of calls from Python, with any strings and files, all analysers made in Python", "why_tests_cant": "All histories of calls; that no call at all can register an instruction.", "anchors": ["include/libqasm/v3x/cqasm_python.hpp: V3xAnalyzer::register_instruction", "python/libqasm.i", "python/module/cqasm/v3x/__init__.py: Analyzer", "src/v3x/cqasm_python.cpp: V3xAnalyzer"]}
{"id": "C126", "title": "The order of instructions between declarations decides only the order of the answer", "statement": "In any session with an analyser, whatever is registered, with annotations or without: if in the programs instructions that follow one another, valid or not, are put in another order, without moving across a declaration, then every analysis that returned still returns, with the same variables and version, and with the same instructions and the same errors in another order, and so do all later analyses. An analysis that ended without a result still does. Across a declaration the order does matter.", "quantifier": "All sessions of calls and analyses, all registrations including functions of users, all programs with the shape that the parser gives them, all reorderings of instructions between declarations", "why_tests_cant": "The reorderings, the programs and what users register are unbounded, and what one instruction leaves behind in the analyser could show only in a later statement or analysis.", "anchors": ["include/libqasm/v3x/semantic_analyzer.hpp: SemanticAnalyzer::visit_block", "src/v3x/semantic_analyzer.cpp: SemanticAnalyzer::visit_gate_instruction, SemanticAnalyzer::visit_non_gate_instruction", "src/v3x/analyzer.cpp: Analyzer::add_statement_to_current_scope, Analyzer::analyze", "include/libqasm/v3x/scope.hpp"]}
{"id": "C127", "title": "Leaving out instructions takes away only their own errors and results", "statement": "In any session with an analyser, whatever is registered, with annotations or without: if some instructions, valid or not, are left out of the programs, then the answers have the same variables and versions, and the same errors and instructions in the same order without those of the instructions left out; also all later answers. The one exception: where errors were reported together with a tree that refers to variables it does not have, the analysis can throw std::runtime_error instead, because trees without errors are checked. A session without errors stays one.", "quantifier": "All sessions of calls and analyses, all registrations including functions of users, all programs with the shape that the parser gives them, all choices of instructions to leave out", "why_tests_cant": "Programs, choices and registrations are unbounded; an effect of one instruction on others could show in any later statement or analysis.", "anchors": ["include/libqasm/v3x/semantic_analyzer.hpp: SemanticAnalyzer::visit_block", "src/v3x/semantic_analyzer.cpp: SemanticAnalyzer::visit_gate_instruction, SemanticAnalyzer::visit_non_gate_instruction, SemanticAnalyzer::visit_asm_declaration", "src/v3x/analyzer.cpp: Analyzer::analyze, Analyzer::add_statement_to_current_scope"]}
{"id": "C128", "title": "What is analysed in a scope of its own leaves no trace", "statement": "If push_scope is called, then programs are analysed, valid or not, variables and instructions are registered and further scopes are pushed and popped in any order, and then pop_scope is called, the analyser is as it was before, but for the identities that new variables will have. Every later program, in a scope of its own or not, gets the same answer, up to identities of variables, or ends in the same way. So do whole later sessions of programs, scopes, constants and instructions. Functions registered in between do stay.", "quantifier": "All sequences of analyses and registrations of variables and instructions in which pops match pushes, all programs, all analysers with a scope; for later answers, all analysers reached from a default one by analyses", "why_tests_cant": "Programs and histories are unbounded, and what one analysis leaves in the analyser could show in any later program.", "anchors": ["src/v3x/analyzer.cpp: Analyzer::push_scope, Analyzer::pop_scope, Analyzer::analyze, Analyzer::add_variable_to_current_scope, Analyzer::add_statement_to_current_scope", "src/v3x/semantic_analyzer.cpp: SemanticAnalyzer::visit_program, SemanticAnalyzer::visit_variable", "include/libqasm/v3x/scope.hpp"]}
