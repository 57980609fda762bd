{
 "claims": [
  {
   "property": "C01",
   "status": "proved",
   "theorems": [
    "PP.Props.C01_line_exact",
    "PP.Props.C01_line_of_character",
    "PP.Props.C01_column_of_character",
    "PP.Props.C01_invalid_text_panics",
    "PP.Props.C01_nul_stops_counting"
   ],
   "note": "For text of valid UTF-8 without NUL; invalid text panics and NUL stops the count (both proved)."
  },
  {
   "property": "C02",
   "status": "proved",
   "theorems": [
    "PP.Props.C02_locations_increase"
   ],
   "note": "Strict lexicographic monotonicity of (line, column) on character offsets."
  },
  {
   "property": "C03",
   "status": "proved",
   "theorems": [
    "PP.Props.C03_shape",
    "PP.Props.C03_content",
    "PP.Props.C03_unique",
    "PP.Props.C03_invalid_bytes_are_lost"
   ],
   "note": "For valid UTF-8; loss of information on invalid bytes is proved by a witness."
  },
  {
   "property": "C04",
   "status": "proved",
   "theorems": [
    "PP.Props.C04_text_unambiguous",
    "PP.Props.C04_text_delimited",
    "PP.Props.C04_blank_in_name"
   ],
   "note": "Floats excluded (their formatting is a parameter); call names and keys without delimiters, the need for which is proved by a witness."
  },
  {
   "property": "C05",
   "status": "proved",
   "theorems": [
    "PP.Props.C05_data_rebuilds",
    "PP.Props.C05_data_injective",
    "PP.Props.C05_data_shape"
   ],
   "note": ""
  },
  {
   "property": "C06",
   "status": "proved",
   "theorems": [
    "PP.Props.C06_asCall_is_call",
    "PP.Props.C06_asParameters_asCall",
    "PP.Props.C06_asCall_asCall",
    "PP.Props.C06_call_inverse",
    "PP.Props.C06_single_argument"
   ],
   "note": ""
  },
  {
   "property": "C07",
   "status": "proved",
   "theorems": [
    "PP.Props.C07_parsed_toPN",
    "PP.Props.C07_toPN_ok_iff"
   ],
   "note": "For every tree (C07_toPN_ok_iff) and for every parse result (C07_parsed_toPN)."
  },
  {
   "property": "C08",
   "status": "proved",
   "theorems": [
    "PP.Props.C08_validated_program_renders",
    "PP.Props.C08_accepted_names_render"
   ],
   "note": "C08_validated_program_renders: for every parse result; C08_accepted_names_render for every tree."
  },
  {
   "property": "C09",
   "status": "proved",
   "theorems": [
    "PP.Props.C09_allContents_visits_each_descendant_once",
    "PP.Props.C09_enumeration_unique"
   ],
   "note": ""
  },
  {
   "property": "C10",
   "status": "proved",
   "theorems": [
    "PP.Props.C10_contents_is_one_level",
    "PP.Props.C10_contents_is_filtered_allContents"
   ],
   "note": ""
  },
  {
   "property": "C11",
   "status": "proved",
   "theorems": [
    "PP.Props.C11_ok_iff",
    "PP.Props.C11_hash_last_entry_wins",
    "PP.Props.C11_panics_iff_composite_key",
    "PP.Props.C11_ok_iff_shape",
    "PP.Props.C11_panic_only_with_composite_key",
    "PP.Props.C11_list_key_panics"
   ],
   "note": "Float key equality is a parameter (symmetric and transitive)."
  },
  {
   "property": "C12",
   "status": "proved",
   "theorems": [
    "PP.Props.C12_severity"
   ],
   "note": ""
  },
  {
   "property": "C13",
   "status": "proved",
   "theorems": [
    "PP.Props.C13_off_is_filter",
    "PP.Props.C13_warning_same_as_error",
    "PP.Props.C13_panic_independent"
   ],
   "note": ""
  },
  {
   "property": "C14",
   "status": "proved",
   "theorems": [
    "PP.Props.C14_reuse"
   ],
   "note": ""
  },
  {
   "property": "C15",
   "status": "proved",
   "theorems": [
    "PP.Props.C15_located_in_tree"
   ],
   "note": ""
  },
  {
   "property": "C16",
   "status": "proved",
   "theorems": [
    "PP.Props.C16_tasks_rejects_catalog_operations",
    "PP.Props.C16_rejected_iff",
    "PP.Props.C16_puppet_never"
   ],
   "note": ""
  },
  {
   "property": "C17",
   "status": "proved",
   "theorems": [
    "PP.Props.C17_steps_rejected",
    "PP.Props.C17_workflow_accepts_steps"
   ],
   "note": ""
  },
  {
   "property": "C18",
   "status": "proved",
   "theorems": [
    "PP.Props.C18_duplicate_parameters",
    "PP.Props.C18_plan_duplicates_not_reported"
   ],
   "note": "Exact list of reported parameters for every checker; plans and lambdas are proved to be skipped."
  },
  {
   "property": "C19",
   "status": "proved",
   "theorems": [
    "PP.Props.C19_duplicate_defaults"
   ],
   "note": ""
  },
  {
   "property": "C20",
   "status": "proved",
   "theorems": [
    "PP.Props.C20_duplicate_keys",
    "PP.Props.C20_string_and_regexp_conflated"
   ],
   "note": "Literal keys compared as the code does (F16: a regexp and a string of the same text are conflated, proved)."
  },
  {
   "property": "C21",
   "status": "proved",
   "theorems": [
    "PP.Props.C21_reported_at",
    "PP.Props.C21_reported_iff",
    "PP.Props.C21_no_effect",
    "PP.Props.C21_effect_reported_as_forgotten"
   ],
   "note": "Exact places of the reports; a statement is reported iff nothing evaluated as a statement or test in it has an effect. The unrestricted claim is false, shown by a witness."
  },
  {
   "property": "C22",
   "status": "proved",
   "theorems": [
    "PP.Props.C22_not_top_level",
    "PP.Props.C22_not_absolute_top_level"
   ],
   "note": ""
  },
  {
   "property": "C23",
   "status": "proved",
   "theorems": [
    "PP.Props.C23_captures_rest_not_last",
    "PP.Props.C23_captures_rest_not_supported"
   ],
   "note": ""
  },
  {
   "property": "C24",
   "status": "proved",
   "theorems": [
    "PP.Props.C24_panics_only_on_hash_keys",
    "PP.Props.C24_validation_returns",
    "PP.Props.C24_nested_composite_key_panics",
    "PP.Props.C24_panics_occur"
   ],
   "note": "Panics only for the two kinds of hash keys named, both of which occur; the first always panics."
  },
  {
   "property": "C25",
   "status": "proved",
   "theorems": [
    "PP.Props.C25_index_targets",
    "PP.Props.C25_qualified_targets",
    "PP.Props.C25_numeric_targets"
   ],
   "note": ""
  },
  {
   "property": "C26",
   "status": "proved",
   "theorems": [
    "PP.Props.C26_parse_terminates",
    "PP.Props.C26_depth_irrelevant"
   ],
   "note": "For every source, options and previous state of the parser."
  },
  {
   "property": "C27",
   "status": "proved",
   "theorems": [
    "PP.Props.C27_panics",
    "PP.Props.C27_value_or_error",
    "PP.Props.C27_panics_occur"
   ],
   "note": "The English property is false at exactly three places: proved that no other panic exists and that each of the three occurs."
  },
  {
   "property": "C28",
   "status": "proved",
   "theorems": [
    "PP.Props.C28_nothing_left",
    "PP.Props.C28_programs",
    "PP.Props.C28_expressions",
    "PP.Props.C28_violated"
   ],
   "note": "positive part for the grammar of C51; C28_violated shows the unrestricted claim to be false"
  },
  {
   "property": "C29",
   "status": "proved",
   "theorems": [
    "PP.Props.C29_ranges",
    "PP.Props.C29_definitions",
    "PP.Props.C29_string_is_in_bounds",
    "PP.Props.C29_starts_before_parts",
    "PP.Props.C29_ends_after_parts",
    "PP.Props.C29_program",
    "PP.Props.C29_offsets",
    "PP.Props.C29_violated_by_heredoc",
    "PP.Props.C29_violated_by_workflow",
    "PP.Props.C29_block_starts_late",
    "PP.Props.C29_block_starts_after_statement",
    "PP.Props.C29_mapping_starts_late",
    "PP.Props.C29_entry_starts_late",
    "PP.Props.C29_option_starts_late",
    "PP.Props.C29_interpolation"
   ],
   "note": "ranges outside of the stated limits are shown to be wrong by evaluated witnesses"
  },
  {
   "property": "C30",
   "status": "proved",
   "theorems": [
    "PP.Props.C30_error_location"
   ],
   "note": "For every previous state of the parser."
  },
  {
   "property": "C31",
   "status": "proved",
   "theorems": [
    "PP.Props.C31_options_gate",
    "PP.Props.C31_options_gate_definitions"
   ],
   "note": "For the program and for its definitions."
  },
  {
   "property": "C32",
   "status": "proved",
   "theorems": [
    "PP.Props.C32_definitions_complete",
    "PP.Props.C32_definitions_complete_puppet",
    "PP.Props.C32_definitions_listed_twice"
   ],
   "note": "The activities of workflow steps are the one exception; the converse is refuted by a witness."
  },
  {
   "property": "C33",
   "status": "proved",
   "theorems": [
    "PP.Props.C33_names",
    "PP.Props.C33_listed_names",
    "PP.Props.C33_classes_in_classes",
    "PP.Props.C33_example",
    "PP.Props.C33_violated_in_string",
    "PP.Props.C33_names_balanced"
   ],
   "note": "Names of the whole tree and of the listed definitions (Spec/Names.lean), with the exception for interpolated strings shown by a witness."
  },
  {
   "property": "C34",
   "status": "proved",
   "theorems": [
    "PP.Props.C34_whole_source",
    "PP.Props.C34_single_whole_source"
   ],
   "note": "Exceptions: NUL byte, templates parsed with workflow support (both with witnesses)."
  },
  {
   "property": "C35",
   "status": "proved",
   "theorems": [
    "PP.Props.C35_operators"
   ],
   "note": "Spec/Operators.lean gives the written forms; leaves are literals, names, variables"
  },
  {
   "property": "C36",
   "status": "proved",
   "theorems": [
    "PP.Props.C36_decimal_token",
    "PP.Props.C36_hexadecimal_token",
    "PP.Props.C36_octal_token",
    "PP.Props.C36_decimal_literal",
    "PP.Props.C36_hexadecimal_literal",
    "PP.Props.C36_octal_literal",
    "PP.Props.C36_printed_number",
    "PP.Props.C36_sign_swallowed",
    "PP.Props.C36_sign_after_digit"
   ],
   "note": "Token level for any context, Parse level for a literal alone, exception proved in general and by witnesses. Floats keep their text; strconv.ParseFloat is not modelled."
  },
  {
   "property": "C37",
   "status": "proved",
   "theorems": [
    "PP.Props.C37_token",
    "PP.Props.C37_literal",
    "PP.Props.C37_round_trip"
   ],
   "note": "Token level for any context, Parse level for a literal alone, round trip for every text."
  },
  {
   "property": "C38",
   "status": "proved",
   "theorems": [
    "PP.Props.C38_token",
    "PP.Props.C38_literal",
    "PP.Props.C38_round_trip"
   ],
   "note": "Token level for any context, Parse level for a literal alone, round trip for every text."
  },
  {
   "property": "C39",
   "status": "proved",
   "theorems": [
    "PP.Props.C39_text",
    "PP.Props.C39_after",
    "PP.Props.C39_verbatim"
   ],
   "note": "consumeEPP for all texts of the specification Rendered; comments whose text contains '%' are not in the specification"
  },
  {
   "property": "C40",
   "status": "proved",
   "theorems": [
    "PP.Props.C40_skip_white",
    "PP.Props.C40_bracket",
    "PP.Props.C40_paren"
   ],
   "note": "For lexers without a pending heredoc."
  },
  {
   "property": "C41",
   "status": "proved",
   "theorems": [
    "PP.Props.C41_one_line",
    "PP.Props.C41_first_line",
    "PP.Props.C41_violated"
   ],
   "note": "C41_one_line, C41_first_line: positive part; C41_violated: the restart at offset 0, for every source"
  },
  {
   "property": "C42",
   "status": "proved",
   "theorems": [
    "PP.Props.C42_heredoc",
    "PP.Props.C42_verbatim",
    "PP.Props.C42_violated_dash",
    "PP.Props.C42_violated_bar",
    "PP.Props.C42_violated_slash",
    "PP.Props.C42_violated_divide",
    "PP.Props.C42_violated_pipe",
    "PP.Props.C42_interpolated",
    "PP.Props.C42_interpolated_programs"
   ],
   "note": "C42_heredoc (one token, at every point of every source), C42_verbatim (text means itself without quotes, flags, margin); programs with heredocs are layouts (Spec/Layout.lean), so C51_programs covers them. C42_violated_*: concrete sources where the unchanged code deviates outside of the stated conditions. C42_interpolated: a heredoc with interpolation as the first token of a source is one token whose value lists the parts of its text (Spec/HeredocText.lean); C42_interpolated_programs: a program that begins with such a heredoc, alone on its line, means what the grammar says; heredocs with interpolation further on in a source are not covered by this theorem."
  },
  {
   "property": "C43",
   "status": "proved",
   "theorems": [
    "PP.Props.C43_well_formed",
    "PP.Props.C43_definitions_well_formed"
   ],
   "note": "Complete local grammar of the tree."
  },
  {
   "property": "C44",
   "status": "proved",
   "theorems": [
    "PP.Props.C44_gathered",
    "PP.Props.C44_only",
    "PP.Props.C44_no_pair"
   ],
   "note": "on the function for every list; API level: no pair is left (C44_no_pair), C51 for whole sources"
  },
  {
   "property": "C45",
   "status": "proved",
   "theorems": [
    "PP.Props.C45_statements",
    "PP.Props.C45_accepts",
    "PP.Props.C45_rejects",
    "PP.Props.C45_blocks"
   ],
   "note": "for every list of expressions; C45_blocks for every block of every parse result"
  },
  {
   "property": "C46",
   "status": "proved",
   "theorems": [
    "PP.Props.C46_exit_status",
    "PP.Props.C46_ast_printed",
    "PP.Props.C46_issues_shown"
   ],
   "note": "the JSON output is the subject of C60; panics are listed separately in the model"
  },
  {
   "property": "C47",
   "status": "proved",
   "theorems": [
    "PP.Props.C47_progress",
    "PP.Props.C47_bounds",
    "PP.Props.C47_finite",
    "PP.Props.C47_outcome"
   ],
   "note": ""
  },
  {
   "property": "C48",
   "status": "proved",
   "theorems": [
    "PP.Props.C48_word",
    "PP.Props.C48_type_name",
    "PP.Props.C48_variable",
    "PP.Props.C48_bad_segment",
    "PP.Props.C48_qualified_not_keyword"
   ],
   "note": "For every word of the grammar, in any context."
  },
  {
   "property": "C49",
   "status": "proved",
   "theorems": [
    "PP.Props.C49_round_trip",
    "PP.Props.C49_strict_iff",
    "PP.Props.C49_panics_iff"
   ],
   "note": ""
  },
  {
   "property": "C50",
   "status": "proved",
   "theorems": [
    "PP.Props.C50_left_operand"
   ],
   "note": ""
  },
  {
   "property": "C51",
   "status": "proved",
   "theorems": [
    "PP.Props.C51_programs",
    "PP.Props.C51_expressions",
    "PP.Props.C51_unambiguous"
   ],
   "note": "language and its layout are specified in Spec/Grammar.lean, Spec/Lexemes.lean and Spec/Layout.lean. Not in that language: EPP templates, workflow mode, interpolated heredocs, empty interpolations `${}`, an expression in a string whose meaning depends on the enclosing class, a call without parentheses whose argument starts with a brace"
  },
  {
   "property": "C52",
   "status": "proved",
   "theorems": [
    "PP.Props.C52_layout"
   ],
   "note": "for the language of C51"
  },
  {
   "property": "C53",
   "status": "proved",
   "theorems": [
    "PP.Props.C53_parts",
    "PP.Props.C53_text"
   ],
   "note": "EPP and workflow mode excluded; `${}` is finding F42"
  },
  {
   "property": "C54",
   "status": "proved",
   "theorems": [
    "PP.Props.C54_heredoc_text",
    "PP.Props.C54_heredoc_text_source",
    "PP.Props.C54_heredoc",
    "PP.Props.C54_heredoc_source",
    "PP.Props.C54_rejected",
    "PP.Props.C54_accepted",
    "PP.Props.C54_only",
    "PP.Props.C54_every_text",
    "PP.Props.C54_source",
    "PP.Props.C54_character_classes"
   ],
   "note": "Errors inside interpolations and EPP are outside this property; for heredocs that nothing else is an error is not part of it, and the text in front of a malformed escape or `$` in a heredoc contains no interpolation; the letter class of unicode.IsLetter beyond ASCII is a parameter."
  },
  {
   "property": "C55",
   "status": "proved",
   "theorems": [
    "PP.Props.C55_programs",
    "PP.Props.C55_expressions",
    "PP.Props.C55_after_expression",
    "PP.Props.C55_not_a_program",
    "PP.Props.C55_one_error",
    "PP.Props.C55_title_is_dropped"
   ],
   "note": "Rules for files without EPP and workflow keywords. Positions of parseResourceWithoutTitle, parseInvalidResource and parseExpectedTitle are not specified. Not every rejected text is covered (no completeness of the rules is claimed)."
  },
  {
   "property": "C56",
   "status": "proved",
   "theorems": [
    "PP.Props.C56_step",
    "PP.Props.C56_workflow",
    "PP.Props.C56_style_word_repeats",
    "PP.Props.C56_dropped_parameters",
    "PP.Props.C56_deferred_loses"
   ],
   "note": "All rules for steps are part of the grammar G of C51, which holds for both values of the option; C52, C53 and C55 too."
  },
  {
   "property": "C57",
   "status": "proved",
   "theorems": [
    "PP.Props.C57_templates",
    "PP.Props.C57_single",
    "PP.Props.C57_unambiguous",
    "PP.Props.C57_layout",
    "PP.Props.C57_no_assignment",
    "PP.Props.C57_text_as_comment",
    "PP.Props.C57_text_is_operand",
    "PP.Props.C57_heredoc_twice",
    "PP.Props.C57_nested_tag"
   ],
   "note": "Grammar in Spec/Template.lean on top of Spec/Grammar.lean and Spec/Layout.lean. Not included: texts at the beginning that look like an unfinished comment or white space before '(', heredocs together with a header that looks like comments over several lines, heredocs whose tag is closed on the declaring line (their text is rendered twice: C57_heredoc_twice)."
  },
  {
   "property": "C58",
   "status": "proved",
   "theorems": [
    "PP.Props.C58_starts",
    "PP.Props.C58_definitions"
   ],
   "note": "Exceptions are listed in Spec/Start.lean; blocks, hashes, arrays, case options, selector entries, parameters and capability mappings have no claim there (F40; C32/C50 bound them)."
  },
  {
   "property": "C59",
   "status": "proved",
   "theorems": [
    "PP.Props.C59_values",
    "PP.Props.C59_keys",
    "PP.Props.C59_complete",
    "PP.Props.C59_captures_rest_lacks_its_name",
    "PP.Props.C59_labels",
    "PP.Props.C59_formats",
    "PP.Props.C59_label_words"
   ],
   "note": "The issue library that fills the texts is outside the repository: the way it prints an argument is a parameter; the syntax of placeholders is that of its use in issues.go."
  },
  {
   "property": "C60",
   "status": "proved",
   "theorems": [
    "PP.Props.C60_pn_roundtrip",
    "PP.Props.C60_pn_fails_iff",
    "PP.Props.C60_pn_lossless",
    "PP.Props.C60_output",
    "PP.Props.C60_panics_iff",
    "PP.Props.C60_codes",
    "PP.Props.C60_ast_lossless"
   ],
   "note": "encoding/json of Go's standard library is modelled for the values that ToData builds; how it prints a finite float is a parameter (any JSON number), as are the texts of the issue library. Reading the file and writing are assumed to succeed."
  },
  {
   "property": "C61",
   "status": "proved",
   "theorems": [
    "PP.Props.C61_printed_ast",
    "PP.Props.C61_printed_tree",
    "PP.Props.C61_printed_text",
    "PP.Props.C61_text_conditions",
    "PP.Props.C61_text"
   ],
   "note": "full statement; the converse is proved too (the AST depends on nothing else)"
  },
  {
   "property": "C62",
   "status": "proved",
   "theorems": [
    "PP.Props.C62_utf8",
    "PP.Props.C62_again",
    "PP.Props.C62_new",
    "PP.Props.C62_hex_escape"
   ],
   "note": "hexadecimal escapes are excluded, as the statement says; the counterexample is proved (C62_hex_escape)"
  },
  {
   "property": "C63",
   "status": "proved",
   "theorems": [
    "PP.Props.C63_more_unfolds",
    "PP.Props.C63_no_value",
    "PP.Props.C63_reserved_words",
    "PP.Props.C63_appends_deletes",
    "PP.Props.C63_queries",
    "PP.Props.C63_virtual",
    "PP.Props.C63_appended_attributes",
    "PP.Props.C63_misplaced_unfolds",
    "PP.Props.C63_numeric_parameters",
    "PP.Props.C63_parameter_names",
    "PP.Props.C63_assigning_defaults",
    "PP.Props.C63_unmappable",
    "PP.Props.C63_single_mappings",
    "PP.Props.C63_pattern_mappings",
    "PP.Props.C63_definition_names",
    "PP.Props.C63_type_names",
    "PP.Props.C63_future_words",
    "PP.Props.C63_value_last",
    "PP.Props.C63_reserved_parameters",
    "PP.Props.C63_host_names",
    "PP.Props.C63_computed_hosts",
    "PP.Props.C63_capabilities",
    "PP.Props.C63_wrong_kind"
   ],
   "note": "parts of the model: regular expressions of names are automata, proved equal to their description (segments_spec); the comparison of float literals (host names) is a parameter"
  },
  {
   "property": "C64",
   "status": "proved",
   "theorems": [
    "PP.Props.C64_gravity",
    "PP.Props.C64_issues",
    "PP.Props.C64_issue_iff",
    "PP.Props.C64_accepted_iff",
    "PP.Props.C64_rejected_iff",
    "PP.Props.C64_tool"
   ],
   "note": "a value of float literals (as keys, host names) is compared by a parameter assumed symmetric and transitive, as == on float64 is"
  }
 ]
}