{
 "claims": [
  {
   "property": "C01",
   "status": "proved",
   "theorems": [
    "Qasm.C01_valid_iff",
    "Qasm.C01_result",
    "Qasm.C01_unique",
    "Qasm.C01_version",
    "Qasm.C01_text"
   ],
   "note": ""
  },
  {
   "property": "C02",
   "status": "proved",
   "theorems": [
    "Qasm.C02_one_error_per_statement",
    "Qasm.C02_counts",
    "Qasm.C02_unique"
   ],
   "note": ""
  },
  {
   "property": "C03",
   "status": "proved",
   "theorems": [
    "Qasm.C03_rejected_has_no_effect"
   ],
   "note": ""
  },
  {
   "property": "C04",
   "status": "proved",
   "theorems": [
    "Qasm.C04_parse_errors",
    "Qasm.C04_no_parse_errors",
    "Qasm.C04_text"
   ],
   "note": ""
  },
  {
   "property": "C05",
   "status": "proved",
   "theorems": [
    "Qasm.C05_success",
    "Qasm.C05_failure",
    "Qasm.C05_failure_json",
    "Qasm.C05_unwrap_text"
   ],
   "note": ""
  },
  {
   "property": "C06",
   "status": "partial",
   "theorems": [
    "Qasm.C06_refuted",
    "Qasm.C06_continues_partial",
    "Qasm.C06_tables_partial",
    "Qasm.C06_no_declarations_partial"
   ],
   "note": "False of the code (C06_refuted). Proved instead: a further program is analysed as the continuation of the earlier ones; tables and version are unchanged; programs without declarations give the same errors again; an accepted program analysed again reports exactly one redeclaration per declaration (C06_again_partial). C128: a program analysed in a scope of its own does not affect later ones."
  },
  {
   "property": "C07",
   "status": "proved",
   "theorems": [
    "Qasm.C07_accepted",
    "Qasm.C07_rejected",
    "Qasm.C07_iff"
   ],
   "note": ""
  },
  {
   "property": "C08",
   "status": "proved",
   "theorems": [
    "Qasm.C08_eq",
    "Qasm.C08_lt",
    "Qasm.C08_gt_le_ge",
    "Qasm.C08_trichotomy",
    "Qasm.C08_order"
   ],
   "note": ""
  },
  {
   "property": "C09",
   "status": "proved",
   "theorems": [
    "Qasm.C09_ofString_iff",
    "Qasm.C09_print_roundtrip",
    "Qasm.C09_rejected",
    "Qasm.C09_negative_rejected"
   ],
   "note": ""
  },
  {
   "property": "C10",
   "status": "proved",
   "theorems": [
    "Qasm.C10_redeclaration",
    "Qasm.C10_first_wins",
    "Qasm.C10_anywhere"
   ],
   "note": ""
  },
  {
   "property": "C11",
   "status": "proved",
   "theorems": [
    "Qasm.C11_declared_before",
    "Qasm.C11_undeclared"
   ],
   "note": ""
  },
  {
   "property": "C12",
   "status": "proved",
   "theorems": [
    "Qasm.C12_variables",
    "Qasm.C12_operands"
   ],
   "note": ""
  },
  {
   "property": "C13",
   "status": "proved",
   "theorems": [
    "Qasm.C13_cannot_redeclare",
    "Qasm.C13_constants",
    "Qasm.C13_known"
   ],
   "note": ""
  },
  {
   "property": "C14",
   "status": "partial",
   "theorems": [
    "Qasm.C14_restores",
    "Qasm.C14_restores_all",
    "Qasm.C14_runs",
    "Qasm.C14_visible",
    "Qasm.C14_shadows",
    "Qasm.C14_shadowing_allowed",
    "Qasm.C14_shadows_instruction",
    "Qasm.C14_functions_refuted"
   ],
   "note": "Proved for variables and instructions; false for functions, which always go to the global scope (C14_functions_refuted). C128 extends it to analyses in the scope."
  },
  {
   "property": "C15",
   "status": "proved",
   "theorems": [
    "Qasm.C15_check_promote",
    "Qasm.C15_partial_order",
    "Qasm.C15_registers"
   ],
   "note": ""
  },
  {
   "property": "C16",
   "status": "partial",
   "theorems": [
    "Qasm.C16_constants",
    "Qasm.C16_references",
    "Qasm.C16_promote_implies_check_partial",
    "Qasm.C16_refuted"
   ],
   "note": "False of the code for references registered through the API with a constant type (C16_refuted); proved for every other value."
  },
  {
   "property": "C17",
   "status": "proved",
   "theorems": [
    "Qasm.C17_resolve",
    "Qasm.C17_fails"
   ],
   "note": ""
  },
  {
   "property": "C18",
   "status": "proved",
   "theorems": [
    "Qasm.C18_binary",
    "Qasm.C18_binary_rejected",
    "Qasm.C18_unary",
    "Qasm.C18_unary_rejected",
    "Qasm.C18_float_operators",
    "Qasm.C18_functions",
    "Qasm.C18_abs"
   ],
   "note": ""
  },
  {
   "property": "C19",
   "status": "proved",
   "theorems": [
    "Qasm.C19_typing"
   ],
   "note": ""
  },
  {
   "property": "C20",
   "status": "proved",
   "theorems": [
    "Qasm.C20_add",
    "Qasm.C20_sub",
    "Qasm.C20_mul",
    "Qasm.C20_neg",
    "Qasm.C20_abs",
    "Qasm.C20_div_mod"
   ],
   "note": ""
  },
  {
   "property": "C21",
   "status": "partial",
   "theorems": [
    "Qasm.C21_exactly_partial",
    "Qasm.C21_returns_partial",
    "Qasm.C21_refuted",
    "Qasm.C21_total_partial",
    "Qasm.C21_functions_partial"
   ],
   "note": "False of the code: integer overflow, division by zero and similar are undefined behaviour (C21_refuted). Proved: exactly which programs have undefined behaviour, and that programs in the total fragment have none."
  },
  {
   "property": "C22",
   "status": "proved",
   "theorems": [
    "Qasm.C22_ints",
    "Qasm.C22_bools",
    "Qasm.C22_floats"
   ],
   "note": ""
  },
  {
   "property": "C23",
   "status": "proved",
   "theorems": [
    "Qasm.C23_bitwise",
    "Qasm.C23_shift"
   ],
   "note": ""
  },
  {
   "property": "C24",
   "status": "proved",
   "theorems": [
    "Qasm.C24_selects",
    "Qasm.C24_condition",
    "Qasm.C24_branches"
   ],
   "note": ""
  },
  {
   "property": "C25",
   "status": "proved",
   "theorems": [
    "Qasm.C25_operators",
    "Qasm.C25_functions"
   ],
   "note": ""
  },
  {
   "property": "C26",
   "status": "proved",
   "theorems": [
    "Qasm.C26_in_range"
   ],
   "note": ""
  },
  {
   "property": "C27",
   "status": "proved",
   "theorems": [
    "Qasm.C27_expansion",
    "Qasm.C27_accepted",
    "Qasm.C27_error",
    "Qasm.C27_overflow"
   ],
   "note": ""
  },
  {
   "property": "C28",
   "status": "partial",
   "theorems": [
    "Qasm.C28_refuted",
    "Qasm.C28_distinct_partial"
   ],
   "note": "False of the code: repeated indices are accepted (C28_refuted). C28_distinct_partial proves that the indices are distinct exactly if the indices and ranges do not overlap as they are written."
  },
  {
   "property": "C29",
   "status": "partial",
   "theorems": [
    "Qasm.C29_refuted",
    "Qasm.C29_variables_partial",
    "Qasm.C29_exactly_partial"
   ],
   "note": "False of the code: indexing a constant is undefined behaviour (C29_refuted). Proved for declared non-array variables and undeclared names; for every expression that is not an array variable C29_exactly_partial says when the behaviour is undefined and that there is one error otherwise."
  },
  {
   "property": "C30",
   "status": "proved",
   "theorems": [
    "Qasm.C30_accepted",
    "Qasm.C30_result",
    "Qasm.C30_gate_set"
   ],
   "note": ""
  },
  {
   "property": "C31",
   "status": "proved",
   "theorems": [
    "Qasm.C31_accepted"
   ],
   "note": ""
  },
  {
   "property": "C32",
   "status": "proved",
   "theorems": [
    "Qasm.C32_kinds",
    "Qasm.C32_values"
   ],
   "note": ""
  },
  {
   "property": "C33",
   "status": "proved",
   "theorems": [
    "Qasm.C33_equal_counts"
   ],
   "note": ""
  },
  {
   "property": "C34",
   "status": "proved",
   "theorems": [
    "Qasm.C34_accepted"
   ],
   "note": ""
  },
  {
   "property": "C35",
   "status": "proved",
   "theorems": [
    "Qasm.C35_accepted",
    "Qasm.C35_wait"
   ],
   "note": ""
  },
  {
   "property": "C36",
   "status": "proved",
   "theorems": [
    "Qasm.C36_gate",
    "Qasm.C36_nonGate",
    "Qasm.C36_operands"
   ],
   "note": ""
  },
  {
   "property": "C37",
   "status": "partial",
   "theorems": [
    "Qasm.C37_refuted",
    "Qasm.C37_overload_partial",
    "Qasm.C37_uniform",
    "Qasm.C37_mixed_refuted",
    "Qasm.C37_anywhere_partial"
   ],
   "note": "False of the code for new gate names (C37_refuted), and for standard gate names with a qubit and a number as operands (C37_mixed_refuted, from C37_uniform: all operands of a gate denote equally many qubits). Proved for additional overloads of existing gate names on qubits, after any statements whose declarations are accepted (C37_overload_partial, C37_anywhere_partial). What exactly is accepted after any registrations is C111."
  },
  {
   "property": "C38",
   "status": "proved",
   "theorems": [
    "Qasm.C38_classification",
    "Qasm.C38_disjoint",
    "Qasm.C38_exactly_one",
    "Qasm.C38_compositions",
    "Qasm.C38_single_names",
    "Qasm.C38_gates",
    "Qasm.C38_param_types_agree",
    "Qasm.C38_param_types",
    "Qasm.C38_param_types_each",
    "Qasm.C38_param_types_each_unknown",
    "Qasm.C38_param_types_unknown",
    "Qasm.C38_non_gate_params",
    "Qasm.C38_registrations"
   ],
   "note": ""
  },
  {
   "property": "C39",
   "status": "proved",
   "theorems": [
    "Qasm.C39_tokens",
    "Qasm.C39_fails",
    "Qasm.C39_unique",
    "Qasm.C39_winner"
   ],
   "note": ""
  },
  {
   "property": "C40",
   "status": "proved",
   "theorems": [
    "Qasm.C40_words",
    "Qasm.C40_kinds",
    "Qasm.C40_alone"
   ],
   "note": ""
  },
  {
   "property": "C41",
   "status": "proved",
   "theorems": [
    "Qasm.C41_ast",
    "Qasm.C41_trivia",
    "Qasm.C41_start",
    "Qasm.C41_unclosed_refuted"
   ],
   "note": ""
  },
  {
   "property": "C42",
   "status": "proved",
   "theorems": [
    "Qasm.C42_positions"
   ],
   "note": ""
  },
  {
   "property": "C43",
   "status": "proved",
   "theorems": [
    "Qasm.C43_accepted",
    "Qasm.C43_rejected",
    "Qasm.C43_value",
    "Qasm.C43_token",
    "Qasm.C43_digits"
   ],
   "note": ""
  },
  {
   "property": "C44",
   "status": "proved",
   "theorems": [
    "Qasm.C44_grouped",
    "Qasm.C44_unique",
    "Qasm.C44_exists",
    "Qasm.C44_reads",
    "Qasm.C44_left",
    "Qasm.C44_right"
   ],
   "note": ""
  },
  {
   "property": "C45",
   "status": "proved",
   "theorems": [
    "Qasm.C45_accepts",
    "Qasm.C45_derivation",
    "Qasm.C45_tree",
    "Qasm.C45_unique",
    "Qasm.C45_exists"
   ],
   "note": ""
  },
  {
   "property": "C46",
   "status": "proved",
   "theorems": [
    "Qasm.C46_parens",
    "Qasm.C46_plus",
    "Qasm.C46_program",
    "Qasm.C46_text",
    "Qasm.C46_first_operand_refuted"
   ],
   "note": ""
  },
  {
   "property": "C47",
   "status": "proved",
   "theorems": [
    "Qasm.C47_same_statements",
    "Qasm.C47_between",
    "Qasm.C47_start",
    "Qasm.C47_end"
   ],
   "note": ""
  },
  {
   "property": "C48",
   "status": "proved",
   "theorems": [
    "Qasm.C48_outcome",
    "Qasm.C48_ast",
    "Qasm.C48_error",
    "Qasm.C48_file",
    "Qasm.C48_analyze_file",
    "Qasm.C48_shaped"
   ],
   "note": ""
  },
  {
   "property": "C49",
   "status": "proved",
   "theorems": [
    "Qasm.C49_range_ordered",
    "Qasm.C49_expand_hull",
    "Qasm.C49_expand_ordered",
    "Qasm.C49_expand_comm",
    "Qasm.C49_file_name"
   ],
   "note": ""
  },
  {
   "property": "C50",
   "status": "proved",
   "theorems": [
    "Qasm.C50_reported",
    "Qasm.C50_innermost",
    "Qasm.C50_argument",
    "Qasm.C50_own",
    "Qasm.C50_own_call",
    "Qasm.C50_context",
    "Qasm.C50_context_chain"
   ],
   "note": ""
  },
  {
   "property": "C51",
   "status": "proved",
   "theorems": [
    "Qasm.C51_url_decode_encode",
    "Qasm.C51_url_injective",
    "Qasm.C51_url_safe",
    "Qasm.C51_url_bytewise"
   ],
   "note": ""
  },
  {
   "property": "C52",
   "status": "partial",
   "theorems": [
    "Qasm.C52_json_encode_ascii_partial",
    "Qasm.C52_json_encode_non_ascii",
    "Qasm.C52_refuted"
   ],
   "note": "The property is false of the code for bytes >= 0x80 (C52_refuted, C52_json_encode_non_ascii); the ASCII case is proved."
  },
  {
   "property": "C53",
   "status": "proved",
   "theorems": [
    "Qasm.C53_token",
    "Qasm.C53_parsed",
    "Qasm.C53_delivered",
    "Qasm.C53_not_analysed",
    "Qasm.C53_text",
    "Qasm.C53_remove_triple_quotes",
    "Qasm.C53_short"
   ],
   "note": ""
  },
  {
   "property": "C54",
   "status": "proved",
   "theorems": [
    "Qasm.C54_message_nonempty",
    "Qasm.C54_what_unlocated",
    "Qasm.C54_what_located",
    "Qasm.C54_print_location",
    "Qasm.C54_print_location_partial_info",
    "Qasm.C54_to_json",
    "Qasm.C54_json_message_ascii"
   ],
   "note": ""
  },
  {
   "property": "C55",
   "status": "proved",
   "theorems": [
    "Qasm.C55_str",
    "Qasm.C55_bool",
    "Qasm.C55_int",
    "Qasm.C55_float",
    "Qasm.C55_axis",
    "Qasm.C55_complex",
    "Qasm.C55_version",
    "Qasm.C55_instruction",
    "Qasm.C55_function"
   ],
   "note": ""
  },
  {
   "property": "C56",
   "status": "partial",
   "theorems": [
    "Qasm.C56_refuted",
    "Qasm.C56_unresolved_partial",
    "Qasm.C56_reverse_refuted"
   ],
   "note": "False of the code: C++ writes the keys name and operand_types, Python reads n and t, so every resolved reference arrives unresolved (C56_refuted, and C56_reverse_refuted for the other direction). Holds for unresolved references (C56_unresolved_partial)."
  },
  {
   "property": "C57",
   "status": "partial",
   "theorems": [
    "Qasm.C57_returned",
    "Qasm.C57_refuted",
    "Qasm.C57_rest_partial",
    "Qasm.C57_history_partial",
    "Qasm.C57_quiet_partial"
   ],
   "note": "False of the code (C57_refuted): the block is shared with the analyser. Proved: everything else in the result is unchanged and statements are only appended. Over any history of calls on any number of analyzers: C57_history_partial; when nothing at all changes: C57_quiet_partial."
  },
  {
   "property": "C58",
   "status": "proved",
   "theorems": [
    "Qasm.C58_declaration_iff",
    "Qasm.C58_sizes"
   ],
   "note": ""
  },
  {
   "property": "C59",
   "status": "proved",
   "theorems": [
    "Qasm.C59_new",
    "Qasm.C59_default"
   ],
   "note": ""
  },
  {
   "property": "C60",
   "status": "proved",
   "theorems": [
    "Qasm.C60_builder"
   ],
   "note": ""
  },
  {
   "property": "C61",
   "status": "proved",
   "theorems": [
    "Qasm.C61_to_lowercase",
    "Qasm.C61_to_lowercase_idem",
    "Qasm.C61_equal_iff",
    "Qasm.C61_equal_equivalence"
   ],
   "note": ""
  },
  {
   "property": "C62",
   "status": "proved",
   "theorems": [
    "Qasm.C62_python",
    "Qasm.C62_not_utf8"
   ],
   "note": ""
  },
  {
   "property": "C63",
   "status": "proved",
   "theorems": [
    "Qasm.C63_python"
   ],
   "note": ""
  },
  {
   "property": "C64",
   "status": "proved",
   "theorems": [
    "Qasm.C64_api_version",
    "Qasm.C64_returns",
    "Qasm.C64_throws",
    "Qasm.C64_bad_version",
    "Qasm.C64_exception",
    "Qasm.C64_file"
   ],
   "note": ""
  },
  {
   "property": "C65",
   "status": "proved",
   "theorems": [
    "Qasm.C65_parse",
    "Qasm.C65_analyze",
    "Qasm.C65_valid",
    "Qasm.C65_file_name",
    "Qasm.C65_parse_json",
    "Qasm.C65_analyze_json",
    "Qasm.C65_files"
   ],
   "note": ""
  },
  {
   "property": "C66",
   "status": "proved",
   "theorems": [
    "Qasm.C66_versions",
    "Qasm.C66_exception",
    "Qasm.C66_names",
    "Qasm.C66_rejects",
    "Qasm.C66_same",
    "Qasm.C66_register_all"
   ],
   "note": ""
  },
  {
   "property": "C67",
   "status": "proved",
   "theorems": [
    "Qasm.C67_positions",
    "Qasm.C67_layout",
    "Qasm.C67_trivia",
    "Qasm.C67_parentheses"
   ],
   "note": ""
  },
  {
   "property": "C68",
   "status": "proved",
   "theorems": [
    "Qasm.C68_size_of",
    "Qasm.C68_size_of_pos",
    "Qasm.C68_type_of",
    "Qasm.C68_element_type",
    "Qasm.C68_check_const",
    "Qasm.C68_check_const_all",
    "Qasm.C68_types_of"
   ],
   "note": ""
  },
  {
   "property": "C69",
   "status": "partial",
   "theorems": [
    "Qasm.C69_size_of_type_partial",
    "Qasm.C69_refuted"
   ],
   "note": "False of the code for constants and for references to some elements of an array (C69_refuted). C69_size_of_type_partial gives the exact condition."
  },
  {
   "property": "C70",
   "status": "proved",
   "theorems": [
    "Qasm.C70_ast",
    "Qasm.C70_parse",
    "Qasm.C70_semantic",
    "Qasm.C70_analyze"
   ],
   "note": ""
  },
  {
   "property": "C71",
   "status": "proved",
   "theorems": [
    "Qasm.C71_types_equal",
    "Qasm.C71_instructions_equal",
    "Qasm.C71_functions_equal",
    "Qasm.C71_text",
    "Qasm.C71_instruction_text_injective",
    "Qasm.C71_function_text_injective"
   ],
   "note": ""
  },
  {
   "property": "C72",
   "status": "proved",
   "theorems": [
    "Qasm.C72_errors",
    "Qasm.C72_unique",
    "Qasm.C72_total",
    "Qasm.C72_text",
    "Qasm.C72_stderr",
    "Qasm.C72_dynamic_index",
    "Qasm.C72_registered_function"
   ],
   "note": ""
  },
  {
   "property": "C73",
   "status": "proved",
   "theorems": [
    "Qasm.C73_parse",
    "Qasm.C73_valid",
    "Qasm.C73_errors",
    "Qasm.C73_syntax",
    "Qasm.C73_total"
   ],
   "note": ""
  },
  {
   "property": "C74",
   "status": "proved",
   "theorems": [
    "Qasm.C74_missing",
    "Qasm.C74_class",
    "Qasm.C74_version",
    "Qasm.C74_parts",
    "Qasm.C74_unresolved",
    "Qasm.C74_instruction",
    "Qasm.C74_function",
    "Qasm.C74_python"
   ],
   "note": ""
  },
  {
   "property": "C75",
   "status": "partial",
   "theorems": [
    "Qasm.C75_accepts",
    "Qasm.C75_rejects",
    "Qasm.C75_printed",
    "Qasm.C75_refuted",
    "Qasm.C75_agree_partial",
    "Qasm.C75_common_partial"
   ],
   "note": "C++ and Python do not agree on every text (C75_refuted). Proved: exactly what Python accepts, that it reads what C++ prints, and exactly the texts on which both agree (C75_common_partial), among them all decimal numbers without underscores that fit into an int (C75_agree_partial)."
  },
  {
   "property": "C76",
   "status": "partial",
   "theorems": [
    "Qasm.C76_refuted",
    "Qasm.C76_sequence_partial",
    "Qasm.C76_iterator_partial",
    "Qasm.C76_reference",
    "Qasm.C76_text"
   ],
   "note": "False of the code for one-shot iterators (C76_refuted); proved for sequences."
  },
  {
   "property": "C77",
   "status": "partial",
   "theorems": [
    "Qasm.C77_copy",
    "Qasm.C77_assign",
    "Qasm.C77_independent_partial",
    "Qasm.C77_refuted",
    "Qasm.C77_created_alone",
    "Qasm.C77_stays_alone",
    "Qasm.C77_uncopied",
    "Qasm.C77_stale",
    "Qasm.C77_copy_stale",
    "Qasm.C77_refines",
    "Qasm.C77_create",
    "Qasm.C77_answer",
    "Qasm.C77_missing",
    "Qasm.C77_fails"
   ],
   "note": "False of the code (C77_refuted): a copy shares the blocks of the scopes, and can become unusable for good (C77_copy_stale, C77_stale). Proved: a copy, or an analyzer assigned to, answers alike at first (C77_copy, C77_assign); errors, versions, variables and added statements are independent (C77_independent_partial); analyzers that were constructed and not copied are independent altogether (C77_created_alone, C77_stays_alone, C77_uncopied)."
  },
  {
   "property": "C78",
   "status": "proved",
   "theorems": [
    "Qasm.C78_types",
    "Qasm.C78_rejected",
    "Qasm.C78_injective",
    "Qasm.C78_made",
    "Qasm.C78_registered"
   ],
   "note": ""
  },
  {
   "property": "C79",
   "status": "proved",
   "theorems": [
    "Qasm.C79_written",
    "Qasm.C79_analysis"
   ],
   "note": ""
  },
  {
   "property": "C80",
   "status": "proved",
   "theorems": [
    "Qasm.C80_renaming",
    "Qasm.C80_swap",
    "Qasm.C80_text",
    "Qasm.C80_text_analysis"
   ],
   "note": ""
  },
  {
   "property": "C81",
   "status": "proved",
   "theorems": [
    "Qasm.C81_alike",
    "Qasm.C81_text"
   ],
   "note": ""
  },
  {
   "property": "C82",
   "status": "partial",
   "theorems": [
    "Qasm.C82_load",
    "Qasm.C82_utf8_partial",
    "Qasm.C82_refuted",
    "Qasm.C82_bom",
    "Qasm.C82_entry_points",
    "Qasm.C82_analysis_refuted"
   ],
   "note": "False for bytes that are not UTF-8: an exception of the ANTLR runtime escapes (C82_refuted, C82_analysis_refuted, which also show that only such bytes do this). Proved for all UTF-8 input, with and without a byte order mark."
  },
  {
   "property": "C83",
   "status": "proved",
   "theorems": [
    "Qasm.C83_prefix",
    "Qasm.C83_undefined"
   ],
   "note": ""
  },
  {
   "property": "C84",
   "status": "proved",
   "theorems": [
    "Qasm.C84_remove",
    "Qasm.C84_swap",
    "Qasm.C84_returns",
    "Qasm.C84_context"
   ],
   "note": ""
  },
  {
   "property": "C85",
   "status": "proved",
   "theorems": [
    "Qasm.C85_tree",
    "Qasm.C85_errors",
    "Qasm.C85_literal",
    "Qasm.C85_fits",
    "Qasm.C85_syntax",
    "Qasm.C85_syntax_fits"
   ],
   "note": ""
  },
  {
   "property": "C86",
   "status": "proved",
   "theorems": [
    "Qasm.C86_text",
    "Qasm.C86_cut",
    "Qasm.C86_accepts",
    "Qasm.C86_analysis"
   ],
   "note": ""
  },
  {
   "property": "C87",
   "status": "proved",
   "theorems": [
    "Qasm.C87_first",
    "Qasm.C87_unused",
    "Qasm.C87_past",
    "Qasm.C87_order",
    "Qasm.C87_unused_returns",
    "Qasm.C87_past_returns",
    "Qasm.C87_order_returns"
   ],
   "note": ""
  },
  {
   "property": "C88",
   "status": "proved",
   "theorems": [
    "Qasm.C88_registration",
    "Qasm.C88_history",
    "Qasm.C88_harmless",
    "Qasm.C88_order"
   ],
   "note": ""
  },
  {
   "property": "C89",
   "status": "proved",
   "theorems": [
    "Qasm.C89_larger"
   ],
   "note": ""
  },
  {
   "property": "C90",
   "status": "proved",
   "theorems": [
    "Qasm.C90_elements"
   ],
   "note": ""
  },
  {
   "property": "C91",
   "status": "proved",
   "theorems": [
    "Qasm.C91_each"
   ],
   "note": ""
  },
  {
   "property": "C92",
   "status": "proved",
   "theorems": [
    "Qasm.C92_analysis",
    "Qasm.C92_parses",
    "Qasm.C92_parse",
    "Qasm.C92_text",
    "Qasm.C92_lines",
    "Qasm.C92_file",
    "Qasm.C92_syntax"
   ],
   "note": "The message that ANTLR gives for a text that is not parsed is a parameter of the model. For texts with a place that is no token the theorem on syntax errors supposes that the lexer meets that place before an earlier wrong token in both texts or in neither (Antlr.ahead)."
  },
  {
   "property": "C93",
   "status": "proved",
   "theorems": [
    "Qasm.C93_legal",
    "Qasm.C93_every",
    "Qasm.C93_exactly"
   ],
   "note": ""
  },
  {
   "property": "C94",
   "status": "proved",
   "theorems": [
    "Qasm.C94_tokens",
    "Qasm.C94_parses",
    "Qasm.C94_parse",
    "Qasm.C94_analysis",
    "Qasm.C94_same",
    "Qasm.C94_syntax"
   ],
   "note": "The message that ANTLR gives for a text that is not parsed is a parameter of the model. For texts with a place that is no token the theorem on syntax errors supposes that the lexer meets that place before an earlier wrong token in both texts or in neither (Antlr.ahead)."
  },
  {
   "property": "C95",
   "status": "partial",
   "theorems": [
    "Qasm.C95_tokens",
    "Qasm.C95_syntax",
    "Qasm.C95_errors",
    "Qasm.C95_registers",
    "Qasm.C95_result_partial",
    "Qasm.C95_refuted"
   ],
   "note": "False for operands with index ranges, which are expanded (C95_refuted). Proved for tokens, syntax trees, errors, and results without index ranges; with them the bound is multiplied by the size of the largest register (C95_registers)."
  },
  {
   "property": "C96",
   "status": "proved",
   "theorems": [
    "Qasm.C96_errors",
    "Qasm.C96_instructions",
    "Qasm.C96_statements"
   ],
   "note": ""
  },
  {
   "property": "C97",
   "status": "proved",
   "theorems": [
    "Qasm.C97_as_many",
    "Qasm.C97_gate"
   ],
   "note": ""
  },
  {
   "property": "C98",
   "status": "partial",
   "theorems": [
    "Qasm.C98_refuted",
    "Qasm.C98_gate_partial",
    "Qasm.C98_others_partial"
   ],
   "note": "False of the code: CNOT q, q is accepted for every qubit variable (C98_refuted). C98_gate_partial gives the exact condition on the written operands of two-operand gates, C98_others_partial proves the property for all other instructions."
  },
  {
   "property": "C99",
   "status": "proved",
   "theorems": [
    "Qasm.C99_join",
    "Qasm.C99_split"
   ],
   "note": ""
  },
  {
   "property": "C100",
   "status": "proved",
   "theorems": [
    "Qasm.C100_characters",
    "Qasm.C100_rejected"
   ],
   "note": ""
  },
  {
   "property": "C101",
   "status": "proved",
   "theorems": [
    "Qasm.C101_messages",
    "Qasm.C101_lines"
   ],
   "note": ""
  },
  {
   "property": "C102",
   "status": "proved",
   "theorems": [
    "Qasm.C102_outcomes",
    "Qasm.C102_order",
    "Qasm.C102_result"
   ],
   "note": ""
  },
  {
   "property": "C103",
   "status": "proved",
   "theorems": [
    "Qasm.C103_positions",
    "Qasm.C103_alike",
    "Qasm.C103_renaming"
   ],
   "note": ""
  },
  {
   "property": "C104",
   "status": "proved",
   "theorems": [
    "Qasm.C104_parse",
    "Qasm.C104_analysis",
    "Qasm.C104_used",
    "Qasm.C104_printed",
    "Qasm.C104_json",
    "Qasm.C104_files"
   ],
   "note": "The message that ANTLR gives for a text that is not parsed is a parameter of the model."
  },
  {
   "property": "C105",
   "status": "partial",
   "theorems": [
    "Qasm.C105_diagnostics_partial",
    "Qasm.C105_literal_partial",
    "Qasm.C105_refuted",
    "Qasm.C105_syntax_partial"
   ],
   "note": "False of the code: lines and offsets count from one (C105_refuted), offsets count characters, and a carriage return that stands alone ends no line. C105_diagnostics_partial, C105_literal_partial and C105_syntax_partial say for all texts exactly how the reported positions differ from those of the protocol."
  },
  {
   "property": "C106",
   "status": "partial",
   "theorems": [
    "Qasm.C106_names_partial",
    "Qasm.C106_refuted"
   ],
   "note": "False of the code: the name im is not registered (C106_refuted). C106_names_partial says exactly which names are known and with which values."
  },
  {
   "property": "C107",
   "status": "partial",
   "theorems": [
    "Qasm.C107_parse_partial",
    "Qasm.C107_analysis_partial",
    "Qasm.C107_refuted"
   ],
   "note": "False of the code for the analysis (C107_refuted). Proved for parsing (C107_parse_partial); for the analysis, a version other than 3.0 adds exactly one error, the first, and changes nothing else (C107_analysis_partial)."
  },
  {
   "property": "C108",
   "status": "proved",
   "theorems": [
    "Qasm.C108_token",
    "Qasm.C108_recognition",
    "Qasm.C108_text",
    "Qasm.C108_text_recognition"
   ],
   "note": "That ANTLR reports the first token that cannot continue is an assumption of the model, compared with the 74 syntax errors among the integration tests. What is proved is that the grammar functions of the model find that token. Whether a place that is no token is met before a wrong token earlier in the text is a parameter (Antlr.ahead)."
  },
  {
   "property": "C109",
   "status": "partial",
   "theorems": [
    "Qasm.C109_same",
    "Qasm.C109_thrown",
    "Qasm.C109_tables",
    "Qasm.C109_variable",
    "Qasm.C109_redeclare",
    "Qasm.C109_function",
    "Qasm.C109_instruction_partial",
    "Qasm.C109_instruction_refuted",
    "Qasm.C109_default"
   ],
   "note": "Holds for variables, functions, and the tables of instructions. Refuted for Analyzer::resolve_instruction, which catches what its tables throw and always throws ResolutionFailure, a class that derives from neither documented one (C109_instruction_refuted); that it throws exactly when nothing fits is C109_instruction_partial. The analyser copies errors without their class, so this concerns direct callers of the API."
  },
  {
   "property": "C110",
   "status": "partial",
   "theorems": [
    "Qasm.C110_equal",
    "Qasm.C110_less",
    "Qasm.C110_order",
    "Qasm.C110_files_refuted",
    "Qasm.C110_any_partial",
    "Qasm.C110_ascending"
   ],
   "note": "Holds for locations of the same file. Refuted for locations of different files: < compares only the ranges while == also compares the file names, so with equal ranges none of the three holds (C110_files_refuted)."
  },
  {
   "property": "C111",
   "status": "proved",
   "theorems": [
    "Qasm.C111_accepted",
    "Qasm.C111_accepts",
    "Qasm.C111_throws",
    "Qasm.C111_unique",
    "Qasm.C111_default"
   ],
   "note": "For all registrations: C111_accepted, C111_accepts and C111_throws characterise acceptance, the result and the exception; C111_unique; C111_default relates the rules to those of C01."
  },
  {
   "property": "C112",
   "status": "partial",
   "theorems": [
    "Qasm.C112_complete_partial",
    "Qasm.C112_default_partial",
    "Qasm.C112_refuted"
   ],
   "note": "False of the code: with a registered variable of type int, Rx(n) q is accepted and the gate has no parameter, since check_promote looks at the type only and promote returns an empty value that Any::add drops (C112_refuted). Proved for all analysers whose registered numbers are constants (C112_complete_partial) and for default analysers (C112_default_partial)."
  },
  {
   "property": "C113",
   "status": "proved",
   "theorems": [
    "Qasm.C113_session",
    "Qasm.C113_rejected",
    "Qasm.C113_valid",
    "Qasm.C113_unique",
    "Qasm.C113_determined"
   ],
   "note": "For all histories of calls and analyses from an analyser without registrations (C113_session; the rules are AnalysisIn and AnswersIn, with the exact messages and positions; they determine everything but the location of the block, for which BlockPlace says what it is: C113_unique, C113_determined). Programs with annotations are left out: none can be written in the grammar."
  },
  {
   "property": "C114",
   "status": "proved",
   "theorems": [
    "Qasm.C114_block",
    "Qasm.C114_exclusive",
    "Qasm.C114_either",
    "Qasm.C114_result",
    "Qasm.C114_analysed",
    "Qasm.C114_stops",
    "Qasm.C114_returns",
    "Qasm.C114_unique",
    "Qasm.C114_calm"
   ],
   "note": "For all histories (C114_stops: both directions, for every way of ending; C114_returns; the rules are deterministic: C114_unique). C114_calm is the consequence for functions and programs that cannot end an analysis. Programs with annotations are the subject of C117."
  },
  {
   "property": "C115",
   "status": "proved",
   "theorems": [
    "Qasm.C115_session",
    "Qasm.C115_unnoted",
    "Qasm.C115_same",
    "Qasm.C115_operands"
   ],
   "note": "For all histories (C115_session: the tree and the errors are those of the rules; C115_same: the analysis with and without annotations; C115_unnoted: the same for the rules; C115_operands: every operand is kept or gives an error). The messages are those of C116, where it is also shown that the rules are deterministic."
  },
  {
   "property": "C116",
   "status": "proved",
   "theorems": [
    "Qasm.C116_expression",
    "Qasm.C116_instruction",
    "Qasm.C116_unique",
    "Qasm.C116_determined",
    "Qasm.C116_errors"
   ],
   "note": "C116_errors: after any session the errors of an analysis that returns are those of the rules and no others; C116_unique and C116_determined: the rules determine the errors, the tree with its annotations and what is kept; C116_expression and C116_instruction: the rules for what is accepted (C111), rejected (C116) and what ends the analysis (C114) exclude each other and leave nothing open."
  },
  {
   "property": "C117",
   "status": "proved",
   "theorems": [
    "Qasm.C117_exclusive",
    "Qasm.C117_either",
    "Qasm.C117_stops",
    "Qasm.C117_total",
    "Qasm.C117_plain"
   ],
   "note": "C117_stops: both directions, for every way of ending, after all histories. C117_total: the analysis returns an answer according to the rules or ends as they say, and the rules never say both, nor two ways of ending. C117_exclusive and C117_either: the same for the rules about statements alone. C117_plain: for programs without annotations the rules are those of C114."
  },
  {
   "property": "C118",
   "status": "proved",
   "theorems": [
    "Qasm.C118_session",
    "Qasm.C118_returns",
    "Qasm.C118_messages",
    "Qasm.C118_places",
    "Qasm.C118_determined"
   ],
   "note": ""
  },
  {
   "property": "C119",
   "status": "proved",
   "theorems": [
    "Qasm.C119_session",
    "Qasm.C119_kept",
    "Qasm.C119_own",
    "Qasm.C119_language",
    "Qasm.C119_instructions",
    "Qasm.C119_constants",
    "Qasm.C119_errors"
   ],
   "note": ""
  },
  {
   "property": "C120",
   "status": "proved",
   "theorems": [
    "Qasm.C120_statements",
    "Qasm.C120_session",
    "Qasm.C120_library",
    "Qasm.C120_first",
    "Qasm.C120_clean"
   ],
   "note": ""
  },
  {
   "property": "C121",
   "status": "proved",
   "theorems": [
    "Qasm.C121_order",
    "Qasm.C121_quiet",
    "Qasm.C121_session",
    "Qasm.C121_library"
   ],
   "note": ""
  },
  {
   "property": "C122",
   "status": "proved",
   "theorems": [
    "Qasm.C122_tree",
    "Qasm.C122_stops",
    "Qasm.C122_session",
    "Qasm.C122_library",
    "Qasm.C122_mild",
    "Qasm.C122_returns"
   ],
   "note": ""
  },
  {
   "property": "C123",
   "status": "proved",
   "theorems": [
    "Qasm.C123_append",
    "Qasm.C123_parts",
    "Qasm.C123_join",
    "Qasm.C123_split",
    "Qasm.C123_session",
    "Qasm.C123_library",
    "Qasm.C123_iff"
   ],
   "note": ""
  },
  {
   "property": "C124",
   "status": "proved",
   "theorems": [
    "Qasm.C124_bytes",
    "Qasm.C124_injective",
    "Qasm.C124_text",
    "Qasm.C124_surrogates",
    "Qasm.C124_parse",
    "Qasm.C124_analyze",
    "Qasm.C124_refused",
    "Qasm.C124_analyze_refused",
    "Qasm.C124_thrown",
    "Qasm.C124_file",
    "Qasm.C124_json",
    "Qasm.C124_ascii",
    "Qasm.C124_new"
   ],
   "note": ""
  },
  {
   "property": "C125",
   "status": "partial",
   "theorems": [
    "Qasm.C125_refuted",
    "Qasm.C125_session_partial",
    "Qasm.C125_raises",
    "Qasm.C125_without_defaults"
   ],
   "note": "False of the code: param_types is a std::optional<std::string>, for which python/libqasm.i includes no SWIG conversion and wraps no constructor, so every call of register_instruction from Python raises TypeError or ValueError (C125_refuted), and an analyser made without defaults rejects every text with an instruction for ever (C125_without_defaults). Proved: sessions are those of analyses of texts (C125_session_partial), and exactly which calls raise which exceptions (C125_raises). This rests on how SWIG treats classes it has no typemap for (DESIGN.md)."
  },
  {
   "property": "C126",
   "status": "proved",
   "theorems": [
    "Qasm.C126_statements",
    "Qasm.C126_session",
    "Qasm.C126_ends"
   ],
   "note": "Sessions of calls and analyses in which only the order of instructions between declarations differs have the same answers up to the order (C126_session), by the rules for statements (C126_statements); ends without a result likewise (C126_ends). The place of the block in the tree is not compared."
  },
  {
   "property": "C127",
   "status": "proved",
   "theorems": [
    "Qasm.C127_statements",
    "Qasm.C127_session",
    "Qasm.C127_valid",
    "Qasm.C127_tidy"
   ],
   "note": "C127_session has the exception as its second case: only where there were errors together with a tree that is not in order. An example shows that it occurs (a program in a scope of its own that uses a variable of an outer one). C127_valid: without errors it does not; C127_tidy: nor where things are in order in the sense of C122."
  },
  {
   "property": "C128",
   "status": "proved",
   "theorems": [
    "Qasm.C128_outer",
    "Qasm.C128_scope",
    "Qasm.C128_later",
    "Qasm.C128_bytes",
    "Qasm.C128_session"
   ],
   "note": "Functions are left out of the session because they always go to the outermost scope; an example shows that one stays. C06_refuted shows that without a scope of its own a program does affect later ones."
  }
 ]
}