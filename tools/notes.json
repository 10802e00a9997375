{
 "C52": {
  "status": "partial",
  "note": "The property is false of the code for bytes >= 0x80 (C52_refuted, C52_json_encode_non_ascii); the ASCII case is proved."
 },
 "C16": {
  "status": "partial",
  "note": "False of the code for references registered through the API with a constant type (C16_refuted); proved for every other value."
 },
 "C28": {
  "status": "partial",
  "note": "False of the code: repeated indices are accepted (C28_refuted). C28_distinct_partial proves that the indices are distinct exactly if the indices and ranges do not overlap as they are written."
 },
 "C29": {
  "status": "partial",
  "note": "False of the code: indexing a constant is undefined behaviour (C29_refuted). Proved for declared non-array variables and undeclared names; for every expression that is not an array variable C29_exactly_partial says when the behaviour is undefined and that there is one error otherwise."
 },
 "C21": {
  "status": "partial",
  "note": "False of the code: integer overflow, division by zero and similar are undefined behaviour (C21_refuted). Proved: exactly which programs have undefined behaviour, and that programs in the total fragment have none."
 },
 "C06": {
  "status": "partial",
  "note": "False of the code (C06_refuted). Proved instead: a further program is analysed as the continuation of the earlier ones; tables and version are unchanged; programs without declarations give the same errors again; an accepted program analysed again reports exactly one redeclaration per declaration (C06_again_partial). C128: a program analysed in a scope of its own does not affect later ones."
 },
 "C14": {
  "status": "partial",
  "note": "Proved for variables and instructions; false for functions, which always go to the global scope (C14_functions_refuted). C128 extends it to analyses in the scope."
 },
 "C57": {
  "status": "partial",
  "note": "False of the code (C57_refuted): the block is shared with the analyser. Proved: everything else in the result is unchanged and statements are only appended. Over any history of calls on any number of analyzers: C57_history_partial; when nothing at all changes: C57_quiet_partial."
 },
 "C37": {
  "status": "partial",
  "note": "False of the code for new gate names (C37_refuted), and for standard gate names with a qubit and a number as operands (C37_mixed_refuted, from C37_uniform: all operands of a gate denote equally many qubits). Proved for additional overloads of existing gate names on qubits, after any statements whose declarations are accepted (C37_overload_partial, C37_anywhere_partial). What exactly is accepted after any registrations is C111."
 },
 "C56": {
  "status": "partial",
  "note": "False of the code: C++ writes the keys name and operand_types, Python reads n and t, so every resolved reference arrives unresolved (C56_refuted, and C56_reverse_refuted for the other direction). Holds for unresolved references (C56_unresolved_partial)."
 },
 "C69": {
  "status": "partial",
  "note": "False of the code for constants and for references to some elements of an array (C69_refuted). C69_size_of_type_partial gives the exact condition."
 },
 "C75": {
  "status": "partial",
  "note": "C++ and Python do not agree on every text (C75_refuted). Proved: exactly what Python accepts, that it reads what C++ prints, and exactly the texts on which both agree (C75_common_partial), among them all decimal numbers without underscores that fit into an int (C75_agree_partial)."
 },
 "C76": {
  "status": "partial",
  "note": "False of the code for one-shot iterators (C76_refuted); proved for sequences."
 },
 "C77": {
  "status": "partial",
  "note": "False of the code (C77_refuted): a copy shares the blocks of the scopes, and can become unusable for good (C77_copy_stale, C77_stale). Proved: a copy, or an analyzer assigned to, answers alike at first (C77_copy, C77_assign); errors, versions, variables and added statements are independent (C77_independent_partial); analyzers that were constructed and not copied are independent altogether (C77_created_alone, C77_stays_alone, C77_uncopied)."
 },
 "C82": {
  "status": "partial",
  "note": "False for bytes that are not UTF-8: an exception of the ANTLR runtime escapes (C82_refuted, C82_analysis_refuted, which also show that only such bytes do this). Proved for all UTF-8 input, with and without a byte order mark."
 },
 "C92": {
  "note": "The message that ANTLR gives for a text that is not parsed is a parameter of the model. For texts with a place that is no token the theorem on syntax errors supposes that the lexer meets that place before an earlier wrong token in both texts or in neither (Antlr.ahead)."
 },
 "C94": {
  "note": "The message that ANTLR gives for a text that is not parsed is a parameter of the model. For texts with a place that is no token the theorem on syntax errors supposes that the lexer meets that place before an earlier wrong token in both texts or in neither (Antlr.ahead)."
 },
 "C95": {
  "status": "partial",
  "note": "False for operands with index ranges, which are expanded (C95_refuted). Proved for tokens, syntax trees, errors, and results without index ranges; with them the bound is multiplied by the size of the largest register (C95_registers)."
 },
 "C98": {
  "status": "partial",
  "note": "False of the code: CNOT q, q is accepted for every qubit variable (C98_refuted). C98_gate_partial gives the exact condition on the written operands of two-operand gates, C98_others_partial proves the property for all other instructions."
 },
 "C104": {
  "note": "The message that ANTLR gives for a text that is not parsed is a parameter of the model."
 },
 "C105": {
  "status": "partial",
  "note": "False of the code: lines and offsets count from one (C105_refuted), offsets count characters, and a carriage return that stands alone ends no line. C105_diagnostics_partial, C105_literal_partial and C105_syntax_partial say for all texts exactly how the reported positions differ from those of the protocol."
 },
 "C106": {
  "status": "partial",
  "note": "False of the code: the name im is not registered (C106_refuted). C106_names_partial says exactly which names are known and with which values."
 },
 "C107": {
  "status": "partial",
  "note": "False of the code for the analysis (C107_refuted). Proved for parsing (C107_parse_partial); for the analysis, a version other than 3.0 adds exactly one error, the first, and changes nothing else (C107_analysis_partial)."
 },
 "C108": {
  "note": "That ANTLR reports the first token that cannot continue is an assumption of the model, compared with the 74 syntax errors among the integration tests. What is proved is that the grammar functions of the model find that token. Whether a place that is no token is met before a wrong token earlier in the text is a parameter (Antlr.ahead)."
 },
 "C109": {
  "status": "partial",
  "note": "Holds for variables, functions, and the tables of instructions. Refuted for Analyzer::resolve_instruction, which catches what its tables throw and always throws ResolutionFailure, a class that derives from neither documented one (C109_instruction_refuted); that it throws exactly when nothing fits is C109_instruction_partial. The analyser copies errors without their class, so this concerns direct callers of the API."
 },
 "C110": {
  "status": "partial",
  "note": "Holds for locations of the same file. Refuted for locations of different files: < compares only the ranges while == also compares the file names, so with equal ranges none of the three holds (C110_files_refuted)."
 },
 "C111": {
  "note": "For all registrations: C111_accepted, C111_accepts and C111_throws characterise acceptance, the result and the exception; C111_unique; C111_default relates the rules to those of C01."
 },
 "C112": {
  "status": "partial",
  "note": "False of the code: with a registered variable of type int, Rx(n) q is accepted and the gate has no parameter, since check_promote looks at the type only and promote returns an empty value that Any::add drops (C112_refuted). Proved for all analysers whose registered numbers are constants (C112_complete_partial) and for default analysers (C112_default_partial)."
 },
 "C113": {
  "status": "proved",
  "note": "For all histories of calls and analyses from an analyser without registrations (C113_session; the rules are AnalysisIn and AnswersIn, with the exact messages and positions; they determine everything but the location of the block, for which BlockPlace says what it is: C113_unique, C113_determined). Programs with annotations are left out: none can be written in the grammar."
 },
 "C114": {
  "status": "proved",
  "note": "For all histories (C114_stops: both directions, for every way of ending; C114_returns; the rules are deterministic: C114_unique). C114_calm is the consequence for functions and programs that cannot end an analysis. Programs with annotations are the subject of C117."
 },
 "C115": {
  "status": "proved",
  "note": "For all histories (C115_session: the tree and the errors are those of the rules; C115_same: the analysis with and without annotations; C115_unnoted: the same for the rules; C115_operands: every operand is kept or gives an error). The messages are those of C116, where it is also shown that the rules are deterministic."
 },
 "C116": {
  "status": "proved",
  "note": "C116_errors: after any session the errors of an analysis that returns are those of the rules and no others; C116_unique and C116_determined: the rules determine the errors, the tree with its annotations and what is kept; C116_expression and C116_instruction: the rules for what is accepted (C111), rejected (C116) and what ends the analysis (C114) exclude each other and leave nothing open."
 },
 "C117": {
  "status": "proved",
  "note": "C117_stops: both directions, for every way of ending, after all histories. C117_total: the analysis returns an answer according to the rules or ends as they say, and the rules never say both, nor two ways of ending. C117_exclusive and C117_either: the same for the rules about statements alone. C117_plain: for programs without annotations the rules are those of C114."
 },
 "C125": {
  "status": "partial",
  "note": "False of the code: param_types is a std::optional<std::string>, for which python/libqasm.i includes no SWIG conversion and wraps no constructor, so every call of register_instruction from Python raises TypeError or ValueError (C125_refuted), and an analyser made without defaults rejects every text with an instruction for ever (C125_without_defaults). Proved: sessions are those of analyses of texts (C125_session_partial), and exactly which calls raise which exceptions (C125_raises). This rests on how SWIG treats classes it has no typemap for (DESIGN.md)."
 },
 "C126": {
  "status": "proved",
  "note": "Sessions of calls and analyses in which only the order of instructions between declarations differs have the same answers up to the order (C126_session), by the rules for statements (C126_statements); ends without a result likewise (C126_ends). The place of the block in the tree is not compared."
 },
 "C127": {
  "status": "proved",
  "note": "C127_session has the exception as its second case: only where there were errors together with a tree that is not in order. An example shows that it occurs (a program in a scope of its own that uses a variable of an outer one). C127_valid: without errors it does not; C127_tidy: nor where things are in order in the sense of C122."
 },
 "C128": {
  "status": "proved",
  "note": "Functions are left out of the session because they always go to the outermost scope; an example shows that one stays. C06_refuted shows that without a scope of its own a program does affect later ones."
 }
}