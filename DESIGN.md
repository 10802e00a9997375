# Formal model of libqasm (cQASM v3.0) in Lean 4

Code under study: `/repo` (QuTech-Delft/libqasm, C++ and the Python module), read as text.
Lean project: `/verif/lean`, library `Verif`. Properties: `/verif/properties.jsonl`. Theorem names per property:
`/verif/MANIFEST.json` (generated by `tools/manifest.py`). Wrong programs tried: `/verif/seeded/LOG.jsonl`.

## 1. Trusted base

* Lean 4.33.0's kernel. Every theorem depends at most on `propext`, `Classical.choice` and `Quot.sound`. No axiom is
  added, nothing is `sorry`, there is no `native_decide` or `bv_decide`. Mathlib is not used in the model; the proofs use
  Lean's core library.
* The correspondence between the C++ text and the Lean definitions. Every definition under `Verif/Model` cites the file
  and lines it models and names its simplifications. `tools/golden/compare.py` runs the model on the 175 integration tests
  of `/repo` and compares syntax trees with positions, semantic trees and error messages with the golden files the real
  program wrote: all agree (for the 74 syntax errors the place is compared, not the message). `Verif/Tests/Unit.lean` states
  the expectations of the unit tests of `/repo/test` as 216 examples about the model. No proof depends on either.
* The specifications under `Verif/Spec`, and the definitions that appear in the statements of the theorems.

### Modelled

All of `src/` and the matching headers: the string helpers, versions, locations, errors and their rendering, types, values,
promotion, overload resolution, the name tables and scopes, constant evaluation, the instruction tables, the semantic
analyser, the lexer and parser grammars, the syntactic analyser, the primitives of the serialisation, the entry points for
C++, Python and WebAssembly.

### Not modelled, or modelled as a parameter

* **ANTLR.** The lexer is modelled from the rules of `CqasmLexer.g4` by ANTLR's documented rule (longest match, then first
  rule; non-greedy loops stop as soon as they can; modes). The parser is a recursive-descent parser for
  `CqasmParser.g4` with ANTLR's treatment of left-recursive rules (precedence climbing). That ANTLR generates a recogniser
  of this kind is assumed. That it reports the first token that
  cannot continue the text is assumed as well (`Diagnose`). The message is a parameter (`Antlr.message`), and so is whether the
  lexer, when it looks ahead, meets a place that is no token before a wrong token that is earlier (`Antlr.ahead`).
* **`std::stod`** is a parameter (`Antlr.stod`): text to double, or out of range.
* **The order of evaluation of arguments**, which C++ leaves open, is a parameter (`Antlr.order`) where it can be observed: in
  the calls that build the nodes of operators, conditionals and ranges, it decides which of several literals that are out of
  range is reported. Every theorem holds for every order.
* **Floating point.** The model is parametric in `FloatOps`, the operations the code calls. Every theorem holds for every
  such structure, so nothing is assumed about floats, not even that `<` is an order.
* **SWIG and CPython.** `Model/PyText.lean` trusts that the generated wrappers decode with `surrogateescape`, encode strictly, and map
  standard exceptions as `SWIG_CATCH_STDEXCEPT` of SWIG's `std_except.i` does; and that for a reference to a class without typemap, such as
  `std::optional<std::string>`, they accept wrapped objects of this class only.
* **tree-gen.** The generated node classes are inductive types; `One`/`Maybe`/`Any`/`Many` with their emptiness checks are
  modelled where the code can violate them (`SProgram.wellFormed`, `wfProgram`). The generated CBOR codec of whole trees
  and the JSON dumper are parameters (`NodeCodec`, `ser`, `de`, `dump`); the hand-written CBOR of the primitives is modelled
  on the map the code writes and reads.
* **fmt, iostreams, `std::stoi`, `std::stoll`, `std::multimap`, `std::map`**: modelled by what they are documented to do.
* **Bytes and characters.** Source text is a list of characters; `Input` models how the ANTLR runtime gets them from bytes
  (strict UTF-8, byte order mark dropped, an exception otherwise), from knowledge of that runtime. Text that becomes bytes (JSON, URLs, CBOR) is encoded with a modelled UTF-8 encoder.
* **Limits.** Memory, stack depth, 32-bit line and column counters of ANTLR, and the conversion of 64-bit to 32-bit
  positions are not modelled (by `C85_fits` they do not matter for texts of fewer than 2^32 - 1 characters); the sums of sizes in the check of `measure` are not reduced modulo 2^64. The file system is modelled by "the content of the file, or none".
* **Undefined behaviour** of C++ (signed overflow, division by zero, bad shift, null dereference, `front()` of an empty
  list) is an outcome of its own, `Res.ub`, never a value or an error.
* Plain accessors, `get_version` and the WebAssembly wrapper's version string.

## 2. Structure

`Verif/Model/*` has definitions only, each citing the code. `Verif/Spec/*` has the independent notions used in statements.
`Verif/Props/*` has the property theorems, each named `Cxx_…`, with examples that their hypotheses can be met.
`Verif/Lemmas/*` has helper lemmas.

| Model module | Code |
|---|---|
| `Base` | outcomes of C++ calls (`Res`: value, thrown error, other exception, undefined behaviour), strings, bytes |
| `Text` | `src/utils.cpp`, `src/string_builder.cpp` |
| `Version` | `src/version.cpp`, `include/libqasm/version.hpp` |
| `Location`, `Err` | `src/annotations.cpp`, `src/error.cpp`, `include/libqasm/result.hpp`, `src/v3x/analysis_result.cpp` |
| `Types`, `Values` | `src/v3x/types.cpp`, `src/v3x/values.cpp` and the `.tree` files |
| `Overload` | `include/libqasm/overload.hpp`, `src/v3x/resolver.cpp` |
| `ConstEval` | `register_consteval_core_functions.{hpp,cpp}` |
| `InstructionSet` | `src/v3x/instruction_set.cpp`, `register_instructions.cpp` |
| `Syntax`, `Semantic` | `syntactic.tree`, `semantic.tree` |
| `Analyzer`, `SemanticAnalyzer` | `src/v3x/analyzer.cpp`, `scope.hpp`, `semantic_analyzer.{hpp,cpp}` |
| `Session` | an analyser used more than once: the block shared with earlier results |
| `World` | several analysers, copies of them, and kept results: which block nodes they share |
| `Regex`, `Lexer` | `CqasmLexer.g4` |
| `Parser` | `CqasmParser.g4` |
| `Diagnose` | `CqasmParser.g4`: where the recogniser stops; `antlr_custom_error_listener.cpp` |
| `Failure` | `resolver.hpp`, `resolver.cpp`, `analyzer.cpp`: name resolution once more, with the class of the thrown error |
| `Compare` | `annotations.hpp`: the comparison operators of locations |
| `SyntacticAnalyzer` | `syntactic_analyzer.{hpp,cpp}`, `antlr_scanner.cpp`, `antlr_custom_error_listener.cpp`, `parse_helper.cpp` |
| `Input` | `antlr_scanner.cpp`, `parse_helper.cpp` on bytes; the decoding of `antlr4::ANTLRInputStream` |
| `Cbor` | `src/v3x/primitives.cpp`, `instruction.cpp`, `core_function.cpp`, `python/module/cqasm/v3x/primitives.py` |
| `Printing` | equality and `operator<<` of `instruction.cpp`, `core_function.cpp` |
| `Api` | `src/v3x/cqasm.cpp`, `src/v3x/cqasm_python.cpp`, `python/module/cqasm/v3x/__init__.py` |
| `Wasm` | `emscripten/emscripten_wrapper.cpp` |
| `PyModule` | `python/module/cqasm/v3x/instruction.py`, the class `Version` of `primitives.py` |
| `PyText` | python/libqasm.i, python/module/cqasm/v3x/__init__.py: texts and bytes between Python and C++ |

## 3. Properties that are false of the code

For each there is a theorem proving the negation, and `_partial` theorems with what does hold.

| Id | What the code does |
|---|---|
| C06 | the analyser keeps the declarations and statements of earlier programs: the same program is rejected the second time (`C06_refuted`) |
| C14 | functions always go to the global scope and survive `pop_scope` (`C14_functions_refuted`); variables and instructions behave as stated |
| C16 | a reference of type `bool` (possible only through the API) passes `check_promote` to `int` but `promote` fails (`C16_refuted`) |
| C21 | constant folding overflows, divides by zero and shifts out of range (`C21_refuted`); `C21_exactly_partial` gives the exact condition |
| C28 | `q[0, 0]` is accepted (`C28_refuted`) |
| C29 | indexing a constant such as `pi[0]` dereferences a null pointer (`C29_refuted`) |
| C37 | a gate registered under a new name is always rejected (`C37_refuted`); so is a standard gate name registered with a qubit and a number as operands (`C37_mixed_refuted`) |
| C52 | `json_encode` sign-extends bytes above 0x7f, so the JSON does not denote the text (`C52_refuted`) |
| C56 | C++ writes the keys `name` and `operand_types`, Python reads `n` and `t` (`C56_refuted`) |
| C69 | the type of a constant and of a single element has size 0, that of several elements the size of the whole array (`C69_refuted`) |
| C57 | the returned program shares its block with the analyser and grows with later calls (`C57_refuted`) |
| C75 | C++ ignores what follows a number and rejects negative components, Python knows underscores and more white space (`C75_refuted`) |
| C76 | an instruction built from a one-shot iterator has no types, because the check uses it up (`C76_refuted`) |
| C77 | a copy shares the block of every scope: once the original has accepted a program that refers to a variable, the copy throws `std::runtime_error` for every valid program (`C77_refuted`), and never accepts one again (`C77_copy_stale`, `C77_stale`) |
| C82 | Bytes that are not UTF-8 make `antlr4::ANTLRInputStream` throw `antlr4::IllegalArgumentException`, which neither handler of `ParseHelper::parse` catches: it escapes from `parse_string` and `analyze_string` (`C82_refuted`, `C82_analysis_refuted`). Holds for all UTF-8 input (`C82_utf8_partial`). |
| C95 | An index range is expanded when it is analysed: a text of less than 70 characters has a result with more than 2^62 nodes (`C95_refuted`; a process runs out of memory first). Proved for tokens, syntax trees and errors, and for results without index ranges (`C95_result_partial`); in general the factor is the number of elements of the largest register (`C95_registers`). |
| C98 | Nothing compares the operands of a gate with each other: `CNOT q, q` is accepted for every qubit variable (`C98_refuted`). `C98_gate_partial` says exactly when a gate with two operands acts twice on a qubit; for all other instructions the property holds (`C98_others_partial`). |
| C109 | `resolve_instruction` throws `ResolutionFailure` where `NameResolutionFailure` or `OverloadResolutionFailure` is documented (`C109_instruction_refuted`) |
| C110 | `<` ignores the file name and `==` does not: equal ranges of different files are neither equal nor ordered (`C110_files_refuted`) |
| C112 | a registered variable of type `int` or `bool` as a parameter where a float is expected passes the check of types, has no promotion, and disappears from the gate (`C112_refuted`) |

Two corners are part of the statements of properties that hold otherwise: an unclosed `/*` or triple quote before the place
where white space is inserted (`C41_unclosed_refuted`), and a parenthesis directly after a gate name or `measure`
(`C46_first_operand_refuted`).

## 4. Properties: what is modelled and how it is proved

| Id | Model | Proof |
|---|---|---|
| C01 | `analyze` on an AST against the declarative judgement `Valid` | refinement both ways, induction on statements and expressions; `C01_text` composes it with the parser |
| C02, C03 | statement loop with error list | induction on statements; frame lemma per statement |
| C04, C05 | `analyzeParse`, `toStrings`, `toJson`, `unwrap` | case analysis against a small JSON type |
| C06, C57 | analyser state threaded through calls; results read in a later state | the witness programs are arbitrary, not fixed; the errors of a second analysis are characterised exactly (`C06_again_partial`) |
| C07 | `visitVersion` | arithmetic on padded lists |
| C08, C09 | `Version.cmp`, constructor, printing | induction on component lists; the specification is the pointwise comparison of zero-padded sequences |
| C10–C13 | variable table and statement loop | invariant over the statement loop |
| C14 | scope stack operations | induction on operation sequences |
| C15, C16 | `checkPromote`, `promote` | case analysis against the order bool ≤ int ≤ float |
| C17 | overload resolver | induction on the registration history |
| C18, C19 | default function table | complete finite table of kinds, induction on expressions |
| C20–C24 | constant functions with explicit undefined behaviour | `Int`, `Int64` and bit-vector lemmas |
| C25 | function resolution on reference types | table lemma |
| C26–C29 | index lists | induction on index lists |
| C30–C36 | gate and other instructions | refinement to a declarative gate table (`Spec/Instruction`) |
| C37, C66 | `registerInstruction`, analysers without defaults | frame lemmas: which statements depend on which tables |
| C38 | instruction tables | `decide` on the complete tables, and lemmas for all other names |
| C39–C42 | lexer from regular expressions, derivative matcher | matcher correct against an inductive `Matches`; partition, maximality and position theorems |
| C43 | literal conversion | induction on digits |
| C44, C45 | parser against derivation trees (`Spec/Grammar`) | soundness, completeness and unambiguity by induction |
| C46, C47 | trees with redundant parentheses and pluses; texts cut in pieces at separators | induction on dressed trees and on pieces |
| C48 | parsing, with `ProgramTree` relating derivation trees and ASTs | case analysis on the outcomes of lexer, parser and visitor |
| C49 | ranges | order lemmas |
| C50 | error contexts | induction on expressions |
| C51–C53, C60, C61 | string helpers | induction on bytes and characters |
| C54 | rendering of errors | stated against a separate rendering specification |
| C55, C56, C62, C63 | maps written and read by C++ and Python | round trips; UTF-8 encoder and decoder inverse to each other |
| C58, C59 | declared types, constructor | case analysis |
| C64, C65 | entry points | composition of C01, C05, C21, C48 |
| C67 | analysis of trees whose positions are erased | every model function commutes with erasing positions |
| C68, C69 | `Values` | case analysis; for values denoted by expressions by inversion of `Eval` |
| C70 | completeness checks against occurrence relations (`Spec/Complete`) | induction on trees |
| C71 | `Printing` | unique splitting of the printed text |
| C72 | error messages and positions (`Spec/Fails`) | every visit function fails exactly as the specification says, by mutual induction; the block by induction on statements |
| C73 | `Wasm` | composition of C01, C05, C48, C65 and C72 for a fresh analyser |
| C74 | `Cbor` readers on arbitrary maps | lookup lemmas; induction on arrays |
| C75 | `PyModule` against the grammar of Python integers (`Spec/PyModule`) | induction on texts |
| C76 | `PyModule` | case analysis; induction on the list of types |
| C77 | `World`: block nodes in a heap, analysers and results hold addresses; copies, assignments, and analyses that throw | frame lemmas for any number of scopes (`Lemmas/FrameScopes`); invariants over histories of calls; every call refines the call of `Model/Analyzer` |
| C78 | `Types`, `Printing`, `Analyzer` | induction on the string against a table of letters (`Spec/TypeSpec`) |
| C79 | `Lexer`, `Parser`, `SyntacticAnalyzer` | a text of segments separated by blanks is built by induction on the tree (operators in parentheses, `+` before operands) and lexed, parsed and visited back (C39, C45, C48); the converse by induction on derivations (`Spec/Written`) |
| C80 | tree traversal, scopes, overload resolution and all default functions commute with renaming; the parser commutes with any change of tokens that keeps their types | induction over trees, statements and the parser's fuel; the AST of the renamed tokens by induction over derivations |
| C81 | expression visitor, index lists, annotations, gates, statements, blocks | congruence by induction over the two trees, with the evaluation relation of Spec/Expr.lean at the leaves and the position-blind analysis of C67 |
| C82 | `Input`: strict UTF-8 decoding as in the ANTLR runtime, byte order mark, the handlers of `ParseHelper::parse` | decoding and encoding are inverse, by induction on bytes and characters with arithmetic on the payloads; then C48 |
| C83 | `Sem.analyze`, `Sem.visitBlock` | the block is visited left to right and each visit only adds to the current scope (`visitBlock_append`, `visitBlock_effect`) |
| C84 | `Sem.analyze`, `Sem.visitStatement` | an instruction leaves the tables as they are (`instr_adds`), and a visit depends on the tables only (`visitStatement_effect`) |
| C85 | `Lexer.lex`, `Parser.parse`, `Syn.program`, `Sem.analyze` | every token stands in the text where it says (`tokensOf_pos`); induction over the derivation (`located_of`); errors by C02, syntax errors by C108 |
| C86 | `Lexer.lex`, `Parser.parse`, `Syn.program`, `Sem.analyze` | the tokens of an accepted text leave nothing open (`program_scan`, induction over the derivation), so that the winner at each place stays the winner when a new line follows (`winner_feed`); statements are the pieces between separators; C83 for the analysis |
| C87 | `Sem.analyze`, `Sem.visitVariable` | two analysers that know the same under other identities (`Moved`) visit alike (`visitBlock_mov`); an analyser knows only variables it has made (`Fit`, `fit_block`) |
| C88 | `Analyzer.registerVariable/Function/Instruction`, `Sem.analyze` | analysers that agree on all names but some (`Same`) answer alike for programs that avoid them (`analyze_same`), and registering one of these names keeps them so (`call_other`) |
| C89 | `Sem.analyze` | induction over the static rules `Exec` (equivalent to the model by C01): every value and instruction has its counterpart with the new sizes (`eval_resize`, `instrOk_resize`) |
| C90 | `Sem.analyze` | induction over the static rules `Exec` in both directions (`exec_forth`, `exec_back`): the kinds of both operands belong to the same family and both have equally many elements (`rel_elements`) |
| C91 | `Sem.analyze` | the static rules `InstrOk` (equivalent to the model by C01) hold for the operands iff they hold for all their elements (`instr_nth`, `instr_all`) |
| C92 | `Lexer.lex`, `Parser.parse`, `Syn.parseString`, `Syn.analyzeString`, `Sem.analyze`, `Loc` | the text before the insertion is cut as before (`cut_follow`), the inserted text is cut into new lines only (`cut_blanks`), each token after it is the old one elsewhere (`tokens_after`); then every function from tokens to errors commutes with the change of positions (`program_place`, `analyze_place`), because the change is increasing; separators that follow a separator do not change what starts a program (`starts_seps`) |
| C93 | `Syn.analyzeString`, `Sem.analyze`, all of lexer, parser and analysis | the description is `LegalProgram` (Spec/Legal.lean). Forward: a text's syntax tree is writable (C79), an accepted tree executes (`accepts_valid`), and induction over the execution gives the description (`legal_exec`). Backward: for each part of the tree a piece of syntax is given that evaluates to it (`variables_written`, `statements_written`; a negative integer is written `~n`), the whole is valid (`valid_accepts`) and has a text (C79) |
| C94 | `Lexer.lex`, `Parser.parse`, `Syn.parseString`, `Sem.analyze` | candidates and hence winners at the start of two such texts correspond (`winner_lift`: no token ends in a carriage return, and lengths compare as without them), so the cuts correspond (`cut_lift`) with the same positions; the parser commutes with changing token texts (`parse_map`); only assembly declarations contain raw strings (`program_same`); the analysis commutes with changing assembly code (`analyze_code`); what starts a program depends on the kinds of tokens only (`starts_kinds`) |
| C95 | `Lexer.lex`, `Parser.parse`, `Syn.parseString`, `Sem.analyze` | every winner of the lexer is non-empty; induction on derivations: each node of the tree has a token of its own (`tree_size`); induction on `Analysis`: each value is one node except that a reference has one per index (`analysis_size`), a range having at most as many as its register has elements (`range_length`) |
| C96 | Lexer, parser, tree builder and analyser of the model | Every location of a statement is that of one of its own tokens, by induction on the derivation; tokens stand in the text in order (Lemmas/Located), and statements own consecutive runs of tokens. The rejected statements are a sublist of the statements (C02), and each error is at a node of its statement. |
| C97 | `Sem.analyze` and `Spec.Exec` | through `accepts_valid`/`valid_accepts`: the instruction is rebuilt with the new operands (`instr_with`), the rest of the derivation is unchanged since instructions declare nothing |
| C98 | `Sem.analyze` and `Spec.Exec` | refuted by appending `CNOT y, y` to any accepted program with a qubit variable; exact condition for two-operand gates by comparing the written elements position by position (`place_written`); kinds of the operands for the other instructions |
| C99 | `Sem.analyze` and `Spec.Exec` | validity does not depend on identities nor on names that are not mentioned (`eval_move`, `instrOk_move`, by mutual induction on denotations); then induction on the interleaving with one list of declarations and one map of identities per program (`exec_join`, `exec_split`) |
| C100 | `Lexer.lex` and `Parser`, with the specification of token texts (`Spec.Text`) | the cut of C39 covers the text; case analysis on the token type of the segment that the character is in |
| C101 | `Sem.analyze`, `Api.analyzeString`, `Err.what`, `Loc.print` | the errors are those of the specification of C72; mutual induction on failing expressions, using that the tree of a text is writable (C79), so that every quoted name is a word; then C85 and C54 for the places |
| C102 | `Sem.analyze` and `Spec.Exec` | each statement of a valid program is valid after all the declarations (`facts`); the permutation lifts to statements with outcomes; induction on the new order with the identities given by the new order of the names (`exec_items`) |
| C103 | `Sem.analyze` over `Spec.session` | simulation: erasing positions, or renaming, commutes with one analysis and relates the analyzers left behind; induction over the list of programs |
| C104 | `Syn.parseString`, `Syn.analyzeString`, `Loc.print`, `Err.toJson`, `Api` | C92 with nothing inserted, and the listener for texts that are not parsed; the shape of what is printed by unfolding |
| C105 | `Err.toJson`, locations | C85 gives the place of each error in the text; induction on the text compares it with the positions of the protocol (`line_eq`, `character_eq`); refuted for every error of a text of one line |
| C106 | `Analyzer.registerDefaultConstants` | the default table is evaluated; `im` is not in it |
| C107 | Lexer, parser, `Sem.visitVersion` | the tokens after the version number are the same (`lexed`), hence the statements (`blocks_same`); positions carry no meaning (C103) and the version is visited before and apart from the statements |
| C108 | `offending`, `Parser.stop`, `Lexer.scan`, `listenerError` | `stop` gives the place where the tokens before can be completed and with the next token cannot (`stop_first`); such a place is unique; tokens that complete it are written as text with blanks between (`render`), and no text after a wrong token changes the tokens before it |
| C109 | `OverloadTable.resolveThrown`, `Analyzer.resolve…Thrown` | the tables hold what the history registered (`holds_calls`); forgetting the class gives the model of resolution (`C109_same`); C17 says when nothing fits |
| C110 | `Loc.compare`, `Loc.same` | cases of the lexicographic comparison (`index_compare`); ascending by C96 |
| C111 | `analyze` after any `Calls` | the spec `ExecIn` over what is registered (`Level`s); every visitor returns `ok` without errors exactly if its rule holds (`visit_iff` … `visitBlock_iff`), given `HoldsLevel` between tables and levels; the consistency check of the tree is `ClosedProgram` (`closed_iff`) |
| C112 | `resolveParameters` | from C111 by induction on `GateHere`; constants always have the promotion that the check of types promises |
| C113 | `analyze` and `Calls` in any order (`Answers`) | the specs `AnalysisIn` (statements, with rejections) and `AnswersIn` (sessions over a `Memory`); locations of errors by the lemmas `visit_errAt` …, which generalise those of C50 to any registrations with the case that a function of the user throws; the rest is an invariant between scopes and frames |
| C114 | `analyze` and `Calls` in any order (`Answers`) | the spec `ProgramStops` over `StopsIn` (expressions), `GateStops`, `InstrStops`, `BlockStops`; every visitor ends with `o.as` iff the rule holds (`visit_stop` …), with `visit_iff` … of C111 for what was evaluated before; values without a type by `resolve_stop`, which shows that overload resolution throws for them whichever overload is tried |
| C115 | `analyze` and `Calls` in any order (`Answers`), programs with annotations | the spec `NotedIn` over `NotesIn` (annotations), `GateNoted`, `GateNotes`, `InstrNoted`; every visitor is compared with itself without annotations in the same state (`visitGate_noted`, `visitInstruction_noted`), and states that differ in trees only have the same effects (`visitBlock_effect`) |
| C116 | `analyze` and `Calls` in any order (`Answers`), programs with annotations | the specs `FailsIn` (expressions), `GateFailsIn`, `InstrFailsIn`, `TypeFails`: message and position; each visitor throws exactly that (`visit_failsIn` … `visitInstruction_failsIn`); with the lemmas of C111 and C114 every outcome is covered; the rules are deterministic because the model is a function, and the rest is induction over `NotedIn` |
| C117 | `analyze` and `Calls` in any order (`Answers`), programs with annotations | the spec `NotedProgramStops` over `NotesStop` (annotations), `NotedGateStops`, `StmtStops`, `NotedBlockStops`; each visitor is compared with what it does without annotations, for which C114 has the rules; by C116 the rules for answers and for other ends exclude each other |
| C118 | `Syn.analyzeString` and `Calls` in any order (`TextAnswers`) | the spec `AnswersTexts`: `HasAst` says which texts are programs, `AnalysedIn` and `ProgramStops` (C113, C114) say what happens with them; `ThrowsMessage` and `ThrownBy` say what can come from functions of the user; messages by induction over `InstrFailsIn` for trees that can be written as text (C101), positions by C85_tree |
| C119 | `TextAnswers` from `Analyzer.default`; `TextEvent.functions`, `TextEvent.instructions` say what the user adds, `TextEvent.Kept` that the outermost scope stays open | the spec `Standard` says what is registered at first, in terms of the language (`Applies`, `namedGates`, `builtin`); `standard_level` shows that the library's tables are that; `LastFitting` of an appended list is split (`lastFitting_append`); `C119_errors` compares the two sets of rules, by C72 and C113 |
| C120 | `TextAnswers` of `List.replicate n (.text t file)` after an analysis without errors | specs `redeclarations`, `numbered`, `Repeats` say what the answers are; the rules are monotone in variables whose names mean nothing further out (`Again.Grows`); the rules for the second analysis are built from those of the first, and `C114_analysed` (the rules exclude each other) shows that the analysis returns |
| C121 | `AnalysedIn` of the tree of a text (`HasAst`), and `TextAnswers` sessions | as C96: statements of a text are `Earlier` than later ones, and each error is at a place of its statement or `ThrownBy` a function (`bad_at`); induction over the rules `AnalysisIn` (`Order.analysisIn_order`) |
| C122 | `AnalysedIn` and `ProgramStops` where the scope is `Tidy`, and `TextAnswers` sessions of `TidyEvent`s and `MildEvent`s | evaluation keeps values closed (`Tidying.evalIn`, `shaped`; parameters need no shape as they are promoted to numbers); `AnalysisIn` keeps `TidyLevels`; by recursion over `StopsIn` only undefined behaviour is left (`Milding.stops`); the library's functions return constants and throw analysis errors only (`standard_functions`) |
| C123 | `AnswersIn` for a list of programs against `AnalysedIn` for the joined one; `Answers` of the model | the rules `AnalysisIn` compose (`C123_append`) and come apart (`C123_parts`) at any place between statements; the tree check of the last piece is that of the whole; for the converse C122 makes the checks of the other pieces succeed; transfer to the model by `C114_result` and `C113_determined` |
| C124 | Python strings as code points with surrogates; `surrogateescape` decoding and encoding; the calls through SWIG down to `Input.parseString` on bytes | decoding steps over a well-formed character, which encodes to the bytes it came from, or over one byte that is at least 0x80, which the escape gives back; texts by `decodeChar_encode`; the rest by C82 and C48 |
| C125 | `Py.Event.on`; sessions `PyRuns`, exceptions `PyRaises` | every call raises for what it is given or is an analysis of a text (`kinds`), so sessions are those of C118 and do not throw by C122; `C66_rejects` for analysers without instructions. Refuted: no argument can be passed for `std::optional` |
| C126 | `Shuffled` statements and sessions (`ShuffledEvent`); `Answers` of the model | a statement that is no declaration leaves the level of `NotedIn` as it is (`Shuffling.head`), so neighbours can be swapped; the check of the tree does not see the order (`closed`), so C117 gives that the other analysis returns; what the two analysers keep stays alike (`Alike`), also through calls |
| C127 | `Thinned` statements and sessions (`ThinnedEvent`); `Answers` of the model | as C126, with sublists for permutations (`C127_statements`); the other analysis returns by C117 unless its tree is not closed, and then the first one had errors (`Thinning.analysis`) |
| C128 | `Inside` sessions, `moveResult`; `Answers` of the model | induction on the session: an analysis changes only the current scope (`visitBlock_effect`), so do calls; later answers by `visitBlock_mov` with identities shifted, which also decides whether the tree is well formed (`Insides.wellFormed_mov`); for sessions the same relation for all scopes (`Insides.Twin`) |
