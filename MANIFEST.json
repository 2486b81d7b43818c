{
 "claims": [
  {
   "property": "C01",
   "status": "proved",
   "theorems": [
    "Verif.C01_accepted_documents_match",
    "Verif.Ex.redeclared_ok",
    "Verif.Ex.leaking_not_tame"
   ],
   "note": "For schemas satisfying SchemaOK (RELAX NG section 7 restrictions) and documents whose XML layer the code treats faithfully (Tame: prefixes may be redeclared as long as none is used after a different declaration in an element already closed, see Ex.redeclared_ok and Ex.leaking_not_tame)."
  },
  {
   "property": "C02",
   "status": "proved",
   "theorems": [
    "Verif.C02_matching_documents_accepted",
    "Verif.C02_matching_documents_accepted_total"
   ],
   "note": "Needs SchemaOK with c=true (incl. Fresh: no recursive nullable definition referenced inside a repetition)."
  },
  {
   "property": "C03",
   "status": "proved",
   "theorems": [
    "Verif.C03_rejection_is_final"
   ],
   "note": "Error on any token prefix of a document implies the document does not match."
  },
  {
   "property": "C04",
   "status": "proved",
   "theorems": [
    "Verif.C04_identities_stable",
    "Verif.C04_identities_canonical",
    "Verif.C04_identities_distinct"
   ],
   "note": "for every reachable validator state (any schema, any history of tokens, tokenizer errors included)"
  },
  {
   "property": "C05",
   "status": "proved",
   "theorems": [
    "Verif.C05_pattern_limit",
    "Verif.C05_full_table_aborts"
   ],
   "note": "the capacity test precedes the memo lookup, so a full table also refuses patterns it already holds"
  },
  {
   "property": "C06",
   "status": "proved",
   "theorems": [
    "Verif.C06_no_internal_panic",
    "Verif.C06_alias_recursion_aborts",
    "Verif.C06_unframed_tokens_abort"
   ],
   "note": "For every well-formed schema (SchemaOK) without alias recursion (NoAlias) and every framed sequence of tokenizer items; the two other theorems show that NoAlias and Framed are needed: the code aborts on start=m; m=element x{n?}; n=m."
  },
  {
   "property": "C07",
   "status": "proved",
   "theorems": [
    "Verif.C07_building_terminates",
    "Verif.C07_validation_terminates",
    "Verif.C07_unguarded_recursion_diverges"
   ],
   "note": "Building terminates for every schema; validation of any framed item sequence terminates for SchemaOK schemas; without the guardedness in SchemaOK (a=b|empty; b=a|empty) the derivative recursion diverges."
  },
  {
   "property": "C08",
   "status": "proved",
   "theorems": [
    "Verif.C08_attribute_order"
   ],
   "note": "documents equal up to the order of attributes (elements at any depth) get the same verdict"
  },
  {
   "property": "C09",
   "status": "proved",
   "theorems": [
    "Verif.C09_whitespace_insignificant",
    "Verif.C09_inserting_whitespace"
   ],
   "note": "iff for schemas without data/value/list in element content; insertion half for every schema"
  },
  {
   "property": "C10",
   "status": "proved",
   "theorems": [
    "Verif.C10_contentless_tokens_do_nothing",
    "Verif.C10_removing_contentless_tokens"
   ],
   "note": "literally the same result and state"
  },
  {
   "property": "C11",
   "status": "proved",
   "theorems": [
    "Verif.C11_empty_element_tags"
   ],
   "note": "same abort/error/success and same state; the error's payload token differs, as it must"
  },
  {
   "property": "C12",
   "status": "proved",
   "theorems": [
    "Verif.C12_error_keeps_state"
   ],
   "note": ""
  },
  {
   "property": "C13",
   "status": "proved",
   "theorems": [
    "Verif.C13_name_classes_are_sets",
    "Verif.C13_element_names",
    "Verif.C13_attribute_names"
   ],
   "note": "contains agrees with the set reading for every name class; element/attribute patterns accept exactly those names"
  },
  {
   "property": "C14",
   "status": "partial",
   "theorems": [
    "Verif.C14_element_prefix_partial",
    "Verif.C14_attribute_prefix_partial",
    "Verif.C14_declaration_leaks_to_siblings",
    "Verif.C14_default_namespace_ignored",
    "Verif.C14_xml_prefix_undeclared"
   ],
   "note": "Proved: prefixes resolve to the latest declaration among those the code keeps. The full claim is false of the code: witnesses proved for declarations leaking to siblings, default xmlns ignored, xml: prefix undeclared."
  },
  {
   "property": "C15",
   "status": "proved",
   "theorems": [
    "Verif.C15_namespaces_come_from_declarations",
    "Verif.C15_undeclared_element_prefix",
    "Verif.C15_undeclared_attribute_prefix"
   ],
   "note": ""
  },
  {
   "property": "C16",
   "status": "proved",
   "theorems": [
    "Verif.C16_references_replaced",
    "Verif.C16_declared_entities_partial",
    "Verif.C16_same_length_entity_not_replaced"
   ],
   "note": "Predefined entities and character references: every text. DTD-declared entities: partial, the code leaves the text alone when the replacement has the same length (witness proved)."
  },
  {
   "property": "C17",
   "status": "partial",
   "theorems": [
    "Verif.C17_malformed_references_partial",
    "Verif.C17_malformed_references_predefined_partial",
    "Verif.C17_final_ampersand_dropped"
   ],
   "note": "All malformed references except a text whose only fault is a bare final ampersand, which the code silently drops (witness proved)."
  },
  {
   "property": "C18",
   "status": "proved",
   "theorems": [
    "Verif.C18_decimal",
    "Verif.C18_hexadecimal",
    "Verif.C18_others_are_errors",
    "Verif.C18_numerals_exist",
    "Verif.C18_plus_sign_accepted"
   ],
   "note": "Exact characterisation; the code additionally accepts one leading plus sign (proved)."
  },
  {
   "property": "C19",
   "status": "proved",
   "theorems": [
    "Verif.C19_cdata_same_as_text",
    "Verif.C19_plain_text",
    "Verif.C19_no_decoding"
   ],
   "note": ""
  },
  {
   "property": "C20",
   "status": "proved",
   "theorems": [
    "Verif.C20_cache_does_not_change_results",
    "Verif.C20_cache_does_not_change_start_tags"
   ],
   "note": "cached and uncached derivative agree on result and table, for one attribute and for all attributes of a start tag, below the 2^16 limit"
  },
  {
   "property": "C21",
   "status": "proved",
   "theorems": [
    "Verif.C21_no_extra_attributes",
    "Verif.C21_required_attributes_present",
    "Verif.C21_attributes_used_once",
    "Verif.C21_attribute_count"
   ],
   "note": ""
  },
  {
   "property": "C22",
   "status": "proved",
   "theorems": [
    "Verif.C22_laws",
    "Verif.C22_congruence",
    "Verif.C22_equivalent_schemas_same_verdict"
   ],
   "note": "laws of the declarative matching relation transferred to validator verdicts through C01/C02"
  },
  {
   "property": "C23",
   "status": "proved",
   "theorems": [
    "Verif.C23_references_mean_definitions",
    "Verif.C23_start_reference"
   ],
   "note": "replacing references by their definitions any number of times"
  },
  {
   "property": "C24",
   "status": "proved",
   "theorems": [
    "Verif.C24_words_joined",
    "Verif.C24_words_exist",
    "Verif.C24_words_unique",
    "Verif.C24_idempotent",
    "Verif.C24_keeps_characters",
    "Verif.C24_result_is_tidy"
   ],
   "note": "normalisation = maximal words joined by single spaces"
  },
  {
   "property": "C25",
   "status": "proved",
   "theorems": [
    "Verif.C25_token_values",
    "Verif.C25_string_values",
    "Verif.C25_builtin_types",
    "Verif.C25_xsd_string"
   ],
   "note": "token compares words, string compares characters"
  },
  {
   "property": "C26",
   "status": "proved",
   "theorems": [
    "Verif.C26_integer_types",
    "Verif.C26_value_unique",
    "Verif.C26_integer_accepts_underscores",
    "Verif.C26_positiveInteger_accepts_zero",
    "Verif.C26_byte_unsupported"
   ],
   "note": "eight integer types; std and num-bigint parsing modelled from their documentation"
  },
  {
   "property": "C27",
   "status": "proved",
   "theorems": [
    "Verif.C27_integer_range_facets",
    "Verif.C27_integer_bounds_consistent",
    "Verif.C27_integer_satisfiable_accepted",
    "Verif.C27_integer_no_panic",
    "Verif.C27_decimal_range_facets",
    "Verif.C27_decimal_bounds_consistent",
    "Verif.C27_decimal_satisfiable_accepted",
    "Verif.C27_decimal_no_panic",
    "Verif.C27_order_dependent",
    "Verif.C27_repeated_facet_panics",
    "Verif.C27_double_ignores_range"
   ],
   "note": "decimal parsing is an external function"
  },
  {
   "property": "C28",
   "status": "proved",
   "theorems": [
    "Verif.C28_accepted_iff",
    "Verif.C28_string_lengths",
    "Verif.C28_normalizedString_lengths",
    "Verif.C28_contradiction_rejected",
    "Verif.C28_maxLength_first_panics"
   ],
   "note": "exact characterisation"
  },
  {
   "property": "C29",
   "status": "proved",
   "theorems": [
    "Verif.C29_boolean",
    "Verif.C29_ncname",
    "Verif.C29_ncname_without_colon"
   ],
   "note": ""
  },
  {
   "property": "C30",
   "status": "proved",
   "theorems": [
    "Verif.C30_duration_accepts",
    "Verif.C30_accepts_junk",
    "Verif.C30_rejects_negative"
   ],
   "note": "exact characterisation; refutes the expected ISO form"
  },
  {
   "property": "C31",
   "status": "proved",
   "theorems": [
    "Verif.C31_same_characters",
    "Verif.C31_same_names",
    "Verif.C31_xml_trims"
   ],
   "note": ""
  },
  {
   "property": "C32",
   "status": "proved",
   "theorems": [
    "Verif.C32_definition_order_irrelevant",
    "Verif.C32_definitions_accepted_iff",
    "Verif.C32_combined_meaning"
   ],
   "note": "for every list of definitions of one name and every permutation of it"
  },
  {
   "property": "C33",
   "status": "proved",
   "theorems": [
    "Verif.C33_no_dangling_references"
   ],
   "note": "Every definition in use is present and the validator build cannot fail on a missing definition or an empty vector. Concrete case: Ex.compiled."
  },
  {
   "property": "C34",
   "status": "proved",
   "theorems": [
    "Verif.C34_check_terminates",
    "Verif.C34_final_checks",
    "Verif.Ex.C34_case"
   ],
   "note": ""
  },
  {
   "property": "C35",
   "status": "proved",
   "theorems": [
    "Verif.C35_overrides_replace",
    "Verif.C35_override_must_exist",
    "Verif.C35_documents",
    "Verif.Ex.C35_case",
    "Verif.Ex.C35_missing_case"
   ],
   "note": "Model of the schema compiler's include handling; overrides replace exactly the overridden names, each must exist in the included file. Combine methods of the overriding definition: see C32/C53."
  },
  {
   "property": "C36",
   "status": "proved",
   "theorems": [
    "Verif.C36_self_reference_rejected",
    "Verif.C36_self_reference_in_override_rejected",
    "Verif.C36_error",
    "Verif.Ex.C36_case",
    "Verif.Ex.C36_longer_cycles_accepted"
   ],
   "note": "for every place of the schema (Spec/Places.lean); longer cycles are accepted: negative theorem"
  },
  {
   "property": "C37",
   "status": "proved",
   "theorems": [
    "Verif.C37_element_in_attribute_rejected",
    "Verif.C37_element_in_attribute_rejected_anywhere",
    "Verif.Ex.C37_case",
    "Verif.Ex.C37_through_reference_accepted"
   ],
   "note": "behind a reference it is not detected: negative theorem"
  },
  {
   "property": "C38",
   "status": "proved",
   "theorems": [
    "Verif.C38_recursive_include_rejected",
    "Verif.C38_recursive_external_rejected",
    "Verif.C38_error",
    "Verif.C38_compilation_terminates",
    "Verif.Ex.C38_case",
    "Verif.Ex.C38_terminates_case",
    "Verif.Ex.C38_external_grammar_cycle_diverges",
    "Verif.Ex.C38_unboundedly_many_names_diverge",
    "Verif.C38_terminates_unless_endless",
    "Verif.C38_endless_schemas_never_compile",
    "Verif.C38_endless_ways_use_grammars",
    "Verif.C38_finite_schemas_are_not_endless",
    "Verif.Ex.C38_case_endless",
    "Verif.Ex.C38_case_external"
   ],
   "note": "terminates exactly when there is no endless way into the schema (Spec/Places Endless); endless ways are shown to exist only through external grammars or endlessly many file names, each with a diverging schema"
  },
  {
   "property": "C39",
   "status": "proved",
   "theorems": [
    "Verif.C39_prefixes_declared",
    "Verif.C39_datatype_prefixes_once",
    "Verif.C39_duplicate_datatype_prefix",
    "Verif.C39_first_namespace_declaration_wins",
    "Verif.Ex.C39_case",
    "Verif.Ex.C39_errors",
    "Verif.C39_prefixes_known",
    "Verif.Ex.C39_override_prefixes",
    "Verif.C39_predeclared_prefixes"
   ],
   "note": ""
  },
  {
   "property": "C40",
   "status": "proved",
   "theorems": [
    "Verif.C40_default_namespace_ignored",
    "Verif.Ex.C40_unprefixed_names",
    "Verif.Ex.C40_case"
   ],
   "note": "negative result (defect): for every set of files"
  },
  {
   "property": "C41",
   "status": "proved",
   "theorems": [
    "Verif.C41_flattening"
   ],
   "note": "all three kinds of flattening, for every schema environment and library"
  },
  {
   "property": "C42",
   "status": "proved",
   "theorems": [
    "Verif.C42_literals_are_read",
    "Verif.C42_what_is_read_is_a_literal",
    "Verif.C42_every_string_has_a_literal",
    "Verif.C42_value_pattern",
    "Verif.Ex.C42_case",
    "Verif.Ex.C42_case_read",
    "Verif.Ex.C42_case_quote"
   ],
   "note": "Literals are specified by Rnc.Literal (Spec/Compact). Both directions, for all literals; the text after a literal must not continue it."
  },
  {
   "property": "C43",
   "status": "proved",
   "theorems": [
    "Verif.C43_identifiers_are_read",
    "Verif.C43_what_is_read_is_an_identifier",
    "Verif.C43_keywords_are_no_identifiers",
    "Verif.C43_element_names",
    "Verif.C43_quoted_names_keep_the_backslash",
    "Verif.C43_no_reference_begins_with_string",
    "Verif.Ex.C43_case"
   ],
   "note": "Deviations, as theorems: a quoted keyword keeps its backslash as part of the name; a name that begins with string or token can be defined but not referred to."
  },
  {
   "property": "C44",
   "status": "proved",
   "theorems": [
    "Verif.C44_href",
    "Verif.C44_relative_path",
    "Verif.C44_absolute_path",
    "Verif.C44_plain_reference",
    "Verif.Ex.C44_case",
    "Verif.Ex.C44_base_dot",
    "Verif.Ex.C44_url"
   ],
   "note": "paths as in std::path on Unix; bases whose segments are empty or '.' are outside Href (negative case given)"
  },
  {
   "property": "C45",
   "status": "proved",
   "theorems": [
    "Verif.C45_exit_codes",
    "Verif.C45_exit_zero_iff",
    "Verif.C45_exit_one_iff",
    "Verif.C45_exit_two_iff",
    "Verif.C45_exit_code_and_schema_faults",
    "Verif.C45_refused_document_exits_two",
    "Verif.C45_exit_zero_documents_match",
    "Verif.C45_exit_two_some_document_does_not_match",
    "Verif.C45_tool_terminates",
    "Verif.C45_panics_explained",
    "Verif.Ex.C45_case_documents",
    "Verif.Ex.C45_case_schema",
    "Verif.Ex.C45_case_schema_panics",
    "Verif.Ex.C45_case_document_panics",
    "Verif.Ex.C45_case_match",
    "Verif.Ex.C45_case_no_match",
    "Verif.Ex.C45_case_terminates",
    "Verif.Ex.C45_case_panic_explained",
    "Verif.Ex.C45_case_refused"
   ],
   "note": "Documents are token sequences (the tokenizer is not modelled). Termination if the schema is not endless (C38). Negative: a datatype prefix declared twice, a facet given twice, unreadable files and syntax errors in the last line make the tool panic instead of exiting with 1 or 2. Positions and messages: C67, C68, C70, C72."
  },
  {
   "property": "C46",
   "status": "partial",
   "theorems": [
    "Verif.C46_expected_elements_found",
    "Verif.C46_name_refused_exactly",
    "Verif.C46_accepted_names_are_listed_partial",
    "Verif.C46_listed_names_are_accepted_partial",
    "Verif.Ex.C46_names_missing",
    "Verif.Ex.C46_names_wrong",
    "Verif.Ex.C46_names_counted",
    "Verif.Ex.C46_complete_case",
    "Verif.Ex.C46_sound_case"
   ],
   "note": "The full claim is false of the code: witnesses Ex.C46_names_missing and Ex.C46_names_wrong. Proved: exactly which elements are listed, exactly when a name is refused, and conditions under which the list is complete or sound."
  },
  {
   "property": "C47",
   "status": "partial",
   "theorems": [
    "Verif.C47_truncated_documents_accepted",
    "Verif.C47_end_tag_names_ignored"
   ],
   "note": "The full claim is false of the code: witnesses proved. For complete documents see C01."
  },
  {
   "property": "C48",
   "status": "proved",
   "theorems": [
    "Verif.C48_words_exist_unique",
    "Verif.C48_list_in_element",
    "Verif.C48_list_in_attribute"
   ],
   "note": ""
  },
  {
   "property": "C49",
   "status": "proved",
   "theorems": [
    "Verif.C49_except_in_element",
    "Verif.C49_except_in_attribute"
   ],
   "note": ""
  },
  {
   "property": "C50",
   "status": "proved",
   "theorems": [
    "Verif.C50_language"
   ],
   "note": ""
  },
  {
   "property": "C51",
   "status": "proved",
   "theorems": [
    "Verif.C51_dateTime"
   ],
   "note": "digit class is an external predicate"
  },
  {
   "property": "C52",
   "status": "proved",
   "theorems": [
    "Verif.C52_data_panics_iff",
    "Verif.C52_value_panics_iff",
    "Verif.C52_compile_value_panics_iff",
    "Verif.C52_integer_value_panics"
   ],
   "note": ""
  },
  {
   "property": "C53",
   "status": "proved",
   "theorems": [
    "Verif.C53_compiled_schema_means_its_source",
    "Verif.C53_accepted_documents_match_source",
    "Verif.C53_matching_documents_accepted",
    "Verif.Ex.compiled",
    "Verif.Ex.C53_wellFormed",
    "Verif.Ex.C53_case"
   ],
   "note": "Against an independent semantics of the syntax tree (Spec/Source.lean); starts from the parsed syntax tree, files are arbitrary."
  },
  {
   "property": "C54",
   "status": "proved",
   "theorems": [
    "Verif.C54_errors_are_explained",
    "Verif.C54_faultless_schema_compiles",
    "Verif.C54_panics",
    "Verif.C54_internal_panics_unreachable",
    "Verif.C54_undefined_prefix",
    "Verif.C54_recursive_reference",
    "Verif.C54_recursive_include",
    "Verif.Ex.C54_cases"
   ],
   "note": "Faults are specified in Spec/Faults.lean without contexts or states. 'in include' wrappers are stripped by e.core. Positions and messages: C67, C68, C70, C72, C73."
  },
  {
   "property": "C55",
   "status": "proved",
   "theorems": [
    "Verif.Ex.C55_external_declarations_ignored",
    "Verif.Ex.C55_external_grammar_uses_callers_prefixes",
    "Verif.Ex.C55_nested_grammar_start_unusable",
    "Verif.Ex.C55_override_prefixes_unknown"
   ],
   "note": "four witness schemas; which environment applies where is in C53's specification (Spec/Source.lean)"
  },
  {
   "property": "C56",
   "status": "proved",
   "theorems": [
    "Verif.C56_cache_has_no_effect",
    "Verif.C56_only_contents_matter",
    "Verif.Ex.C56_case"
   ],
   "note": ""
  },
  {
   "property": "C57",
   "status": "proved",
   "theorems": [
    "Verif.C57_compiled_schemas_are_faultless",
    "Verif.C57_compiles_iff_faultless",
    "Verif.C57_outcome_is_the_fault",
    "Verif.C57_only_fault_is_reported",
    "Verif.Ex.C57_case_good",
    "Verif.Ex.C57_case_unused",
    "Verif.C57_endless_schemas_diverge",
    "Verif.Ex.C57_case_not_endless"
   ],
   "note": "the list of faults is Spec/Faults.lean; a schema compiles exactly if it has no fault and no endless way into it (Spec/Places Endless). Positions and messages: C67, C68, C70, C72."
  },
  {
   "property": "C58",
   "status": "proved",
   "theorems": [
    "Verif.C58_every_spelling_is_read",
    "Verif.C58_what_is_read_is_a_spelling",
    "Verif.C58_unambiguous",
    "Verif.C58_parser_terminates",
    "Verif.C58_budget_is_irrelevant",
    "Verif.C58_no_panic",
    "Verif.C58_texts_compile_as_schemas",
    "Verif.C58_compiled_texts_mean_what_they_say",
    "Verif.Ex.C58_case",
    "Verif.Ex.C58_case_read",
    "Verif.Ex.C58_case_no_panic",
    "Verif.Ex.C58_case_comment_at_end",
    "Verif.Ex.C58_case_follow_annotation",
    "Verif.Ex.C58_case_reference",
    "Verif.Ex.C58_case_string_minus",
    "Verif.Ex.C58_case_operators",
    "Verif.Ex.C58_case_except",
    "Verif.Ex.C58_case_empty_file",
    "Verif.Ex.C58_case_annotated_definition",
    "Verif.Ex.C58_case_annotated_name",
    "Verif.Ex.C58_case_missing_space",
    "Verif.Ex.C58_case_loose"
   ],
   "note": "Completeness is for the strict grammar, soundness for the one that also allows the three kinds of text strict excludes (Spec/Compact, header)."
  },
  {
   "property": "C59",
   "status": "proved",
   "theorems": [
    "Verif.C59_every_spelling_is_read",
    "Verif.C59_what_is_read_is_a_spelling",
    "Verif.C59_unambiguous",
    "Verif.C59_documents_compile_as_schemas",
    "Verif.C59_compiled_documents_mean_what_they_say",
    "Verif.Ex.C59_case",
    "Verif.Ex.C59_case_read"
   ],
   "note": "begins at the tree built by roxmltree; the check of library URIs is a parameter"
  },
  {
   "property": "C60",
   "status": "proved",
   "theorems": [
    "Verif.C60_noise_is_ignored",
    "Verif.Ex.C60_case",
    "Verif.Ex.C60_case_read"
   ],
   "note": ""
  },
  {
   "property": "C61",
   "status": "proved",
   "theorems": [
    "Verif.C61_alike_files_compile_alike",
    "Verif.C61_alike_files_agree",
    "Verif.C61_both_syntaxes_agree",
    "Verif.C61_translation_says_the_same",
    "Verif.C61_texts_compile_like_their_translation",
    "Verif.Ex.C61_case",
    "Verif.Ex.C61_case_alike",
    "Verif.Ex.C61_case_agree",
    "Verif.Ex.C61_grammar_keyword",
    "Verif.Ex.C61_grammar_keyword_parent"
   ],
   "note": "AlikeFiles (Spec/Alike) is the specification of saying the same; no external references and no inherit clauses in it. The translation (Spec/Translate) also excludes: a compact file that is grammar { } as a whole (negative theorems show the difference), anyName in exceptions, xsd:token in data and empty parameters (the XML reader cannot express them, C63), names that begin or end with U+1680."
  },
  {
   "property": "C62",
   "status": "proved",
   "theorems": [
    "Verif.C62_ill_formed_schema_panics",
    "Verif.C62_well_formed_schema",
    "Verif.Ex.C62_case"
   ],
   "note": "roxmltree reports columns from one; codemap's subspan asserts begin <= end"
  },
  {
   "property": "C63",
   "status": "proved",
   "theorems": [
    "Verif.Ex.C63_name_element_prefix",
    "Verif.Ex.C63_name_element_prefix_refused",
    "Verif.Ex.C63_attribute_inherits_namespace",
    "Verif.Ex.C63_comment_in_value",
    "Verif.Ex.C63_comment_splits_value",
    "Verif.Ex.C63_token_ignores_library",
    "Verif.Ex.C63_common_attributes_refused",
    "Verif.Ex.C63_empty_parameter_refused",
    "Verif.Ex.C63_wrong_attributes_accepted",
    "Verif.Ex.C63_nested_except"
   ],
   "note": "negative findings on concrete documents"
  },
  {
   "property": "C64",
   "status": "proved",
   "theorems": [
    "Verif.C64_positions_change_nothing",
    "Verif.C64_errors_are_about_their_item",
    "Verif.C64_ranges_show_the_fault",
    "Verif.C64_ranges_lie_in_the_text",
    "Verif.C64_character_references_misplaced",
    "Verif.Ex.C64_case",
    "Verif.Ex.C64_number_case"
   ],
   "note": "TokensIn: the tokens are parts of the text at the positions they claim (the tokenizer is not modelled)."
  },
  {
   "property": "C65",
   "status": "proved",
   "theorems": [
    "Verif.C65_errors_are_diagnosed",
    "Verif.Ex.C65_case"
   ],
   "note": "Message texts are left out; codemap's assertions are modelled."
  },
  {
   "property": "C66",
   "status": "proved",
   "theorems": [
    "Verif.C66_syntax_errors",
    "Verif.Ex.C66_case"
   ],
   "note": "negative; rows of xmlparser errors count from one"
  },
  {
   "property": "C67",
   "status": "proved",
   "theorems": [
    "Verif.At.C67_positions_change_nothing",
    "Verif.At.C67_compiles_iff",
    "Verif.At.C67_positions_do_not_matter",
    "Verif.At.C67_no_position_panics",
    "Verif.At.C67_external_grammar_panics",
    "Verif.At.Ex.C67_case_external_grammar",
    "Verif.At.Ex.C67_case_panics",
    "Verif.At.Ex.C67_case_own"
   ],
   "note": "The model without positions leaves out the name in one kind of undefined reference; see the theorem."
  },
  {
   "property": "C68",
   "status": "proved",
   "theorems": [
    "Verif.At.C68_errors_point_at_the_fault",
    "Verif.At.Ex.C68_case_prefix",
    "Verif.At.Ex.C68_case_blames",
    "Verif.At.Ex.C68_case_duplicate_swapped",
    "Verif.At.Ex.C68_case_undefined"
   ],
   "note": "The deviations are part of the specification Blames and marked there."
  },
  {
   "property": "C69",
   "status": "proved",
   "theorems": [
    "Verif.At.C69_same_tree",
    "Verif.At.C69_positions_show_the_source",
    "Verif.At.C69_marks_are_read",
    "Verif.At.C69_positions_lie_in_their_file",
    "Verif.At.C69_texts_compile",
    "Verif.At.C69_no_position_panics",
    "Verif.At.C69_shown_is_read",
    "Verif.At.C69_undefined_prefix_is_quoted",
    "Verif.At.C69_included_prefix_is_quoted",
    "Verif.At.C69_recursion_is_quoted",
    "Verif.At.C69_element_in_attribute_is_quoted",
    "Verif.At.Ex.C69_case_positions",
    "Verif.At.Ex.C69_case_reads",
    "Verif.At.Ex.C69_case_wrong_file",
    "Verif.At.Ex.C69_case_quoted",
    "Verif.At.Ex.C69_case_recursion"
   ],
   "note": "Positions that nothing reads are left out of the model."
  },
  {
   "property": "C70",
   "status": "proved",
   "theorems": [
    "Verif.At.C70_panics_iff",
    "Verif.At.C70_one_primary",
    "Verif.At.C70_include_labels",
    "Verif.At.C70_diagnostics_point_at_the_fault",
    "Verif.At.Explains.quotes",
    "Verif.At.C70_tool_agrees",
    "Verif.At.C70_tool_exact",
    "Verif.At.Ex.C70_case_prefix",
    "Verif.At.Ex.C70_case_facet",
    "Verif.At.Ex.C70_case_unreadable",
    "Verif.At.Ex.C70_case_override",
    "Verif.At.Ex.C70_case_duplicate",
    "Verif.At.Ex.C70_case_speechless",
    "Verif.At.Ex.C70_case_panics",
    "Verif.At.Ex.C70_case_broken_character",
    "Verif.At.Ex.C70_case_explains",
    "Verif.At.Ex.C70_case_tool"
   ],
   "note": "Messages are format strings, names of datatypes left out. The offset of a syntax error and the emitter are parameters with stated assumptions (GivesUpInside, PrintsSchema). GivesUpInside is discharged for the parser of the compact syntax by C72."
  },
  {
   "property": "C71",
   "status": "proved",
   "theorems": [
    "Verif.RngAt.C71_same_tree",
    "Verif.RngAt.C71_errors_name_faults",
    "Verif.RngAt.C71_read_iff_no_fault",
    "Verif.RngAt.C71_schemas_have_no_fault",
    "Verif.RngAt.C71_faultless_is_schema",
    "Verif.RngAt.C71_positions_stand",
    "Verif.RngAt.C71_positions_show_the_source",
    "Verif.RngAt.C71_error_positions_in_file",
    "Verif.RngAt.C71_well_formed_never_panics",
    "Verif.RngAt.C71_ill_formed_panics",
    "Verif.RngAt.C71_errors_show_a_piece",
    "Verif.RngAt.C71_wrong_character_is_shown",
    "Verif.RngAt.C71_unknown_prefix_is_shown",
    "Verif.RngAt.C71_marks_stand",
    "Verif.RngAt.C71_positions_lie_in_their_file",
    "Verif.RngAt.C71_documents_compile",
    "Verif.RngAt.C71_no_position_panics",
    "Verif.RngAt.C71_undefined_prefix_is_misplaced",
    "Verif.RngAt.C71_marks_are_shown",
    "Verif.RngAt.C71_recursion_is_quoted",
    "Verif.RngAt.C71_element_in_attribute_is_quoted",
    "Verif.RngAt.C71_prefixed_tag_is_not_shown",
    "Verif.RngAt.Ex.C71_case_positions",
    "Verif.RngAt.Ex.C71_case_stands",
    "Verif.RngAt.Ex.C71_case_shows",
    "Verif.RngAt.Ex.C71_case_faults",
    "Verif.RngAt.Ex.C71_case_fault",
    "Verif.RngAt.Ex.C71_case_wide",
    "Verif.RngAt.Ex.C71_case_piece",
    "Verif.RngAt.Ex.C71_case_failures",
    "Verif.RngAt.Ex.C71_case_misplaced",
    "Verif.RngAt.Ex.C71_case_recursion",
    "Verif.RngAt.Ex.C71_case_in_attribute",
    "Verif.RngAt.Ex.C71_case_tagged"
   ],
   "note": "The tree of roxmltree with its ranges is given; Depicts says its ranges are those of the text (hypothesis, met by ten concrete documents). Negative parts are theorems: C71_undefined_prefix_is_misplaced, C71_prefixed_tag_is_not_shown, second half of C71_wrong_character_is_shown, C71_case_faults."
  },
  {
   "property": "C72",
   "status": "proved",
   "theorems": [
    "Verif.ECompact.C72_same_outcome",
    "Verif.ECompact.C72_right_up_to_the_error",
    "Verif.ECompact.C72_fault_is_not_before",
    "Verif.ECompact.C72_gives_up_iff",
    "Verif.ECompact.C72_gives_up_inside",
    "Verif.ECompact.C72_syntax_diagnostic",
    "Verif.ECompact.C72_tool_exact",
    "Verif.ECompact.Ex.C72_case_places",
    "Verif.ECompact.Ex.C72_case_earlier",
    "Verif.ECompact.Ex.C72_case_right",
    "Verif.ECompact.Ex.C72_case_fault",
    "Verif.ECompact.Ex.C72_case_diagnostic",
    "Verif.ECompact.Ex.C72_case_syntax_diagnostic"
   ],
   "note": "The grammar is that of Spec/Compact without strictness (every text the parser accepts is derived by it). That the place can be before the fault is shown by C72_case_earlier."
  },
  {
   "property": "C73",
   "status": "proved",
   "theorems": [
    "Verif.RngAt.C73_panics_iff",
    "Verif.RngAt.C73_one_primary",
    "Verif.RngAt.C73_include_labels",
    "Verif.RngAt.C73_diagnostics_point_at_the_fault",
    "Verif.RngAt.XExplains.quotes",
    "Verif.RngAt.C73_errors_are_printed",
    "Verif.RngAt.C71_ill_formed_panics",
    "Verif.RngAt.Ex.C73_case_refused",
    "Verif.RngAt.Ex.C73_case_explains",
    "Verif.RngAt.Ex.C73_case_messages"
   ],
   "note": "Hypotheses: the ranges of roxmltree are those of the text (Depicted), tags are unprefixed, no externalRef to a grammar, references to a parent grammar stay in their file, reported columns are at least 1. The emitter is a parameter that prints labels of whole characters (PrintsSchema)."
  },
  {
   "property": "C74",
   "status": "proved",
   "theorems": [
    "Verif.C74_parameters",
    "Verif.C74_supported_types",
    "Verif.C74_supported_iff",
    "Verif.C74_one_outcome",
    "Verif.C74_double_bounds_are_finite",
    "Verif.C74_other_libraries"
   ],
   "note": "for every type and every list of parameters; reading of numbers as in C26/C28, decimals and floats by the external libraries"
  },
  {
   "property": "C75",
   "status": "proved",
   "theorems": [
    "Verif.C75_integer_min",
    "Verif.C75_integer_max",
    "Verif.C75_integer_reports",
    "Verif.C75_integer_range",
    "Verif.C75_strings",
    "Verif.C75_string_lengths",
    "Verif.C75_decimals",
    "Verif.C75_decimal_exclusive_misreported"
   ],
   "note": "overflow modelled as the panic of a build with overflow checks; cases C75_case_*; the decimal theorem is a finding (exclusive decimal bounds are reported wrongly)"
  },
  {
   "property": "C76",
   "status": "proved",
   "theorems": [
    "Verif.C76_loaded_files",
    "Verif.C76_new_compiler",
    "Verif.C76_used_files_load",
    "Verif.C76_again_loads_nothing",
    "Verif.C76_with_positions"
   ],
   "note": "successful compilations; case Ex.C76_case_loaded/uses"
  },
  {
   "property": "C77",
   "status": "proved",
   "theorems": [
    "Verif.C77_accepted_beginnings_can_be_completed",
    "Verif.C77_error_iff_not_completable",
    "Verif.ExV.C77_repeated_attributes_fail",
    "Verif.ExV.C77_void_element_fails"
   ],
   "note": "Accepted beginnings of documents that end in a tag can be completed to a matching document; with C03, errors at tags are reported exactly when no completion exists. The last two theorems show that the condition on the schema (SchemaUsable) is needed."
  },
  {
   "property": "C78",
   "status": "proved",
   "theorems": [
    "Verif.C78_reading_again_keeps_no_more_patterns",
    "Verif.C78_repetitions_keep_no_more_patterns",
    "Verif.C78_every_start_tag_is_kept",
    "Verif.C78_long_documents_exceed_the_limit"
   ],
   "note": "Props/Memory; spec Spec/Memory; the two negative results are exact"
  },
  {
   "property": "C79",
   "status": "proved",
   "theorems": [
    "Verif.Held.C79_equal_datatypes_accept_the_same",
    "Verif.Held.C79_equality_as_modelled",
    "Verif.Held.C79_equality_is_an_equivalence",
    "Verif.Held.C79_equal_datatypes_hash_alike",
    "Verif.Held.C79_held_accepts_as_modelled",
    "Verif.Held.C79_compiled_datatypes_are_held",
    "Verif.Held.C79_table_as_modelled",
    "Verif.Held.C79_equality_is_finer_than_acceptance"
   ],
   "note": "decimals (crate bigdecimal) are compared and ordered by value; that they hash accordingly is a hypothesis of C79_equal_datatypes_hash_alike"
  },
  {
   "property": "C80",
   "status": "proved",
   "theorems": [
    "Verif.Refac.C80_refactored_schemas_mean_the_same",
    "Verif.Refac.C80_validators_agree",
    "Verif.Refac.C80_moving_and_renaming_refactors",
    "Verif.Refac.C80_moving_and_renaming",
    "Verif.Refac.C80_reordering",
    "Verif.Refac.C80_moving_to_an_included_file",
    "Verif.Refac.Ex.C80_refactored",
    "Verif.Refac.Ex.C80_case",
    "Verif.Refac.Ex.C80_wellFormed",
    "Verif.Refac.Ex.C80_cases"
   ],
   "note": "Refac (Spec/Refactor) lists the steps; both versions are assumed to compile for the statement about validators"
  },
  {
   "property": "C81",
   "status": "proved",
   "theorems": [
    "Verif.Order.C81_compiles_in_any_order",
    "Verif.Order.C81_same_meaning_in_any_order",
    "Verif.Order.C81_validators_agree",
    "Verif.Order.C81_endless_in_any_order",
    "Verif.Order.C81_same_faults",
    "Verif.Order.Ex.C81_reported_fault_depends_on_order",
    "Verif.Order.Ex.C81_parenthesized_grammar_not_included"
   ],
   "note": "Spec/Order defines the rearrangements; concrete case C81_case"
  },
  {
   "property": "C82",
   "status": "proved",
   "theorems": [
    "Verif.C82_accepted_documents_match",
    "Verif.C82_matching_documents_accepted",
    "Verif.C82_rejection_is_final",
    "Verif.C82_breaks_make_no_difference",
    "Verif.SplitEx.C82_condition_needed"
   ],
   "note": "The documents of C01-C03 are included (XDoc.Tame.breaks)."
  },
  {
   "property": "C83",
   "status": "proved",
   "theorems": [
    "Verif.C83_accepted_iff",
    "Verif.C83_accepted_documents_match",
    "Verif.C83_documents_matching_as_read_accepted",
    "Verif.C83_read_in_one_way",
    "Verif.C83_accepted_documents_can_be_read",
    "Verif.C83_rejection_is_final",
    "Verif.C83_usual_documents_read_as_they_mean",
    "Verif.C83_usual_documents_break_alike",
    "Verif.SeenEx.C83_differences_matter",
    "Verif.SeenEx.C83_undeclared_prefix_never_accepted"
   ],
   "note": "exact, for every document: accepted iff it can be read (Spec/Seen) and matches as read; Proper only says that elements written <a/> have no content; interrupted character data as in C82; C83_differences_matter shows that the reading differs from the meaning"
  },
  {
   "property": "C84",
   "status": "proved",
   "theorems": [
    "Verif.C84_exit_zero_means",
    "Verif.C84_exit_two_means",
    "Verif.C84_exit_status",
    "Verif.C84_exit_status_texts",
    "Verif.SeenToolEx.C84_case",
    "Verif.SeenToolEx.C84_case_both"
   ],
   "note": "no condition on namespaces, references or entities in the documents (they are read as in C83); Covered: the schema, if it compiles, is well-formed, and interrupted character data as in C82"
  },
  {
   "property": "C85",
   "status": "proved",
   "theorems": [
    "Verif.C85_stops_at_the_first_hopeless_token",
    "Verif.EarliestEx.C85_case"
   ],
   "note": "SchemaUsable (from C77): every element and attribute pattern of the schema can be satisfied; documents as in C01 (Tame, Means)"
  },
  {
   "property": "C86",
   "status": "proved",
   "theorems": [
    "Verif.C86_accepted_iff",
    "Verif.C86_accepted_iff_compact",
    "Verif.C86_accepted_iff_xml",
    "Verif.SeenSourceEx.C86_case",
    "Verif.SeenSourceEx.C86_case_both"
   ],
   "note": "no condition on namespaces, references or entities in the document (read as in C83); the compiled schema is well-formed; interrupted character data as in C82"
  },
  {
   "property": "C87",
   "status": "proved",
   "theorems": [
    "Verif.Needed.C87_start_no_choice_of_elements",
    "Verif.Needed.C87_start_only",
    "Verif.Needed.C87_attribute_in_repeated_group",
    "Verif.Needed.C87_repeated_only",
    "Verif.Needed.C87_interleaved_list",
    "Verif.Needed.C87_list_in_list",
    "Verif.Needed.C87_recursive_repetition",
    "Verif.Needed.C87_recursive_repetition_is_legal"
   ],
   "note": "existence statements; Misjudges says that the verdict is the opposite of whether the document matches the schema as written"
  },
  {
   "property": "C88",
   "status": "proved",
   "theorems": [
    "Verif.C88_checked_schemas_are_well_formed",
    "Verif.C88_test_decides",
    "Verif.C88_alias_test_decides",
    "Verif.C88_no_need_to_look_further",
    "Verif.C88_checked_schemas_never_panic",
    "Verif.C88_accepted_iff",
    "Verif.C88_accepted_iff_compact",
    "Verif.C88_accepted_iff_xml",
    "Verif.CheckEx.C88_case",
    "Verif.CheckEx.C88_case_decided",
    "Verif.CheckEx.C88_misjudged_schemas_refused",
    "Verif.CheckEx.C88_case_applied",
    "Verif.C88_text_test_decides",
    "Verif.CheckEx.C88_case_text"
   ],
   "note": "The test decides the conditions of C01 and C02; schemas that fail it may still be judged rightly."
  },
  {
   "property": "C89",
   "status": "proved",
   "theorems": [
    "Verif.C89_only_the_limit_aborts",
    "Verif.C89_ends",
    "Verif.C89_answers_iff",
    "Verif.C89_test_decides",
    "Verif.C89_checked_schemas_never_panic",
    "Verif.C89_every_document_is_judged",
    "Verif.C89_every_document_is_judged_compact",
    "Verif.C89_every_document_is_judged_xml",
    "Verif.SureEx.C89_case",
    "Verif.SureEx.C89_case_refused",
    "Verif.SureEx.C89_unanswered_aborts",
    "Verif.SureEx.C89_case_applied"
   ],
   "note": "Total correctness of validation for schemas that pass the tests: ends for every document, the only abort is the pattern limit, otherwise the verdict is right. C89_unanswered_aborts shows what the condition on datatypes is for."
  },
  {
   "property": "C90",
   "status": "proved",
   "theorems": [
    "Verif.C90_tool_judges",
    "Verif.C90_tool_judges_texts",
    "Verif.ToolJudgesEx.C90_case"
   ],
   "note": "All outcomes of the tool for schemas that pass the tests, with what each means. The emitter of diagnostics is assumed to print ranges of whole characters (Prints)."
  },
  {
   "property": "C91",
   "status": "proved",
   "theorems": [
    "Verif.C91_small_schemas_fit",
    "Verif.C91_small_schemas_have_validators",
    "Verif.C91_small_schemas_judge",
    "Verif.C91_tool_not_hindered",
    "Verif.C91_names_are_kept",
    "Verif.C91_large_schemas_abort",
    "Verif.SizeEx.C91_case",
    "Verif.SizeEx.C91_case_applied",
    "Verif.SizeEx.C91_case_close",
    "Verif.SizeEx.C91_case_large",
    "Verif.SizeEx.C91_case_large_aborts"
   ],
   "note": "number of patterns kept bounded from above by the patterns written and from below by the different names, for any environment"
  },
  {
   "property": "C92",
   "status": "proved",
   "theorems": [
    "Verif.C92_loosened_schemas_match",
    "Verif.C92_accepted_stays_accepted",
    "Verif.C92_refused_was_refused",
    "Verif.C92_checked"
   ],
   "note": "case: LoosenEx (Ex's schema loosened in six ways; C92_case_stricter shows that the converse fails)"
  },
  {
   "property": "C93",
   "status": "proved",
   "theorems": [
    "Verif.C93_alternatives_well_formed",
    "Verif.C93_accepted_iff_accepted_by_one",
    "Verif.C93_order_and_repetition"
   ],
   "note": "case: UnionEx"
  },
  {
   "property": "C94",
   "status": "proved",
   "theorems": [
    "Verif.C94_replacing_elements",
    "Verif.C94_accepted_stays_accepted",
    "Verif.C94_exchanging_elements"
   ],
   "note": "case: SwapEx"
  },
  {
   "property": "C95",
   "status": "proved",
   "theorems": [
    "Verif.C95_same_matches",
    "Verif.C95_well_formed_alike",
    "Verif.C95_read_alike",
    "Verif.C95_same_verdict",
    "Verif.C95_checked"
   ],
   "note": "case: OpaqueEx (Ex's schema and document with two namespaces and two local names exchanged)"
  },
  {
   "property": "C96",
   "status": "proved",
   "theorems": [
    "Verif.C96_read_the_same",
    "Verif.C96_same_verdict"
   ],
   "note": "case: PrefixEx (Ex's document with another prefix)"
  },
  {
   "property": "C97",
   "status": "proved",
   "theorems": [
    "Verif.C97_rewording_keeps_matching",
    "Verif.C97_reworded_match_alike",
    "Verif.C97_same_verdict"
   ],
   "note": "case: RewordEx (token values with white space around them; C97_case_apart: not for values compared literally)"
  },
  {
   "property": "C98",
   "status": "proved",
   "theorems": [
    "Verif.C98_only_elements_count",
    "Verif.C98_edited_documents_match",
    "Verif.C98_accepted_stays_accepted"
   ],
   "note": "case: MixedEx (Ex's schema and document)"
  },
  {
   "property": "C99",
   "status": "proved",
   "theorems": [
    "Verif.C99_matching_documents_described",
    "Verif.C99_accepted_documents_described",
    "Verif.C99_unknown_elements_refused",
    "Verif.C99_unknown_attributes_refused"
   ],
   "note": "every element, attribute and character data of an accepted document is described where it stands; documents with unknown elements or attributes are refused; cases: DescribedEx.C99_case_element, C99_case_attribute, C99_case_described"
  },
  {
   "property": "C100",
   "status": "proved",
   "theorems": [
    "Verif.C100_required_attributes",
    "Verif.C100_required_elements",
    "Verif.C100_missing_attribute_refused",
    "Verif.C100_missing_element_refused"
   ],
   "note": "whatever the schema requires of an element is there wherever the element occurs; cases: RequiredEx.C100_case_attribute, C100_case_element"
  },
  {
   "property": "C101",
   "status": "proved",
   "theorems": [
    "Verif.C101_judged_record_by_record",
    "Verif.C101_split_filtered_merged",
    "Verif.C101_one_is_to_blame"
   ],
   "note": "matching is record by record; accepted lists can be split, filtered, merged and reordered; case: RecordsEx.C101_case, C101_case_accepted"
  },
  {
   "property": "C102",
   "status": "proved",
   "theorems": [
    "Verif.C102_any_order",
    "Verif.C102_permuted_documents_match",
    "Verif.C102_accepted_stays_accepted"
   ],
   "note": "child nodes in unordered content may be permuted at any depth (the nodes themselves unchanged; white space between them: C09, character data in mixed content: C98); case: AnyOrderEx.C102_case, C102_case_accepted"
  },
  {
   "property": "C103",
   "status": "proved",
   "theorems": [
    "Verif.C103_anything_matches",
    "Verif.C103_changed_documents_match",
    "Verif.C103_accepted_stays_accepted",
    "Verif.WildEx.C103_open_schema_accepts_everything"
   ],
   "note": "the usual definition of anything matches everything; the open schema accepts every document that can be read; case: WildEx.C103_case, C103_case_accepted (decided by the kernel on the document of Props/Example)"
  }
 ]
}