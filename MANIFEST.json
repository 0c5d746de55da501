{
 "claims": [
  {
   "property": "C01",
   "status": "proved",
   "theorems": [
    "Kajiki.Props.C01_escaped_is_inert",
    "Kajiki.Props.C01_rendered_with_blanks",
    "Kajiki.Props.C01_markup_of_the_template",
    "Kajiki.Props.C78_documents_keep_values_out",
    "Kajiki.Props.C78_no_markup_from_values"
   ],
   "note": "C01_escaped_is_inert is about the escaping function; the other theorems about rendered documents (C66)."
  },
  {
   "property": "C02",
   "status": "proved",
   "theorems": [
    "Kajiki.Props.C02_escape_lossless",
    "Kajiki.Props.C02_escape_injective",
    "Kajiki.Props.C02_escape_append",
    "Kajiki.Props.C02_rendered_value_is_recovered"
   ],
   "note": ""
  },
  {
   "property": "C03",
   "status": "proved",
   "theorems": [
    "Kajiki.Props.C03_escape_cases",
    "Kajiki.Props.C66_values_in_documents"
   ],
   "note": ""
  },
  {
   "property": "C04",
   "status": "proved",
   "theorems": [
    "Kajiki.Props.C04_attr_contained",
    "Kajiki.Props.C66_values_in_documents",
    "Kajiki.Props.C01_rendered_with_blanks"
   ],
   "note": ""
  },
  {
   "property": "C05",
   "status": "proved",
   "theorems": [
    "Kajiki.Props.C05_attr_omitted_iff",
    "Kajiki.Props.C66_values_in_documents"
   ],
   "note": ""
  },
  {
   "property": "C06",
   "status": "proved",
   "theorems": [
    "Kajiki.Props.C06_none_absent",
    "Kajiki.Props.C06_boolean_attr",
    "Kajiki.Props.C06_other_attr",
    "Kajiki.Props.C06_zero_is_false"
   ],
   "note": ""
  },
  {
   "property": "C07",
   "status": "proved",
   "theorems": [
    "Kajiki.Props.C07_attrs_order_irrelevant",
    "Kajiki.Props.C07_attrs_sorted"
   ],
   "note": ""
  },
  {
   "property": "C08",
   "status": "partial",
   "theorems": [
    "Kajiki.Props.C08_iter",
    "Kajiki.Props.C08_render",
    "Kajiki.Props.C08_accumulate_partial",
    "Kajiki.Props.C08_accumulate_rejects_other",
    "Kajiki.Props.C08_collect"
   ],
   "note": "accumulate_str does not apply str(): C08_accumulate_rejects_other is the witness that the full claim is false; iteration, render and collect are proved in full."
  },
  {
   "property": "C09",
   "status": "partial",
   "theorems": [
    "Kajiki.Props.C09_literal_renders_once",
    "Kajiki.Props.C09_distinct_partial",
    "Kajiki.Props.C09_never_again",
    "Kajiki.Props.C09_first_partial"
   ],
   "note": "False in full: C09_literal_renders_once shows a literal yields its content only once. C09_never_again shows the same for running templates, whatever runs in between. C09_distinct_partial and C09_first_partial prove it for distinct, unused flatteners."
  },
  {
   "property": "C10",
   "status": "proved",
   "theorems": [
    "Kajiki.Props.C10_merging_preserves_rendering",
    "Kajiki.Props.C10_needs_steady_guards"
   ],
   "note": "For guards without side effects; C10_needs_steady_guards shows that this is needed."
  },
  {
   "property": "C11",
   "status": "proved",
   "theorems": [
    "Kajiki.Props.C11_block_structure",
    "Kajiki.Props.C11_siblings_stay_outside",
    "Kajiki.Props.C11_empty_body_rejected",
    "Kajiki.Props.C11_misplaced_else_rejected"
   ],
   "note": ""
  },
  {
   "property": "C12",
   "status": "proved",
   "theorems": [
    "Kajiki.Props.C12_rendering_is_meaning",
    "Kajiki.Props.C12_rendering_is_meaning_unmerged",
    "Kajiki.Props.C12_if_else",
    "Kajiki.Props.C12_if_alone",
    "Kajiki.Props.C67_template_shows",
    "Kajiki.Props.C67_source_shows"
   ],
   "note": ""
  },
  {
   "property": "C13",
   "status": "proved",
   "theorems": [
    "Kajiki.Props.C13_for",
    "Kajiki.Props.C13_output_is_concatenation",
    "Kajiki.Props.C13_loop_variable",
    "Kajiki.Props.C12_rendering_is_meaning",
    "Kajiki.Props.C67_template_shows"
   ],
   "note": ""
  },
  {
   "property": "C14",
   "status": "proved",
   "theorems": [
    "Kajiki.Props.C14_switch",
    "Kajiki.Props.C14_first_equal_case",
    "Kajiki.Props.C14_no_equal_case",
    "Kajiki.Props.C12_rendering_is_meaning",
    "Kajiki.Props.C67_template_shows"
   ],
   "note": ""
  },
  {
   "property": "C15",
   "status": "partial",
   "theorems": [
    "Kajiki.Props.C15_assignments_in_order",
    "Kajiki.Props.C15_after_block",
    "Kajiki.Props.C15_local_values_restored_partial",
    "Kajiki.Props.C15_context_variable_lost",
    "Kajiki.Props.C12_rendering_is_meaning",
    "Kajiki.Props.C67_template_shows"
   ],
   "note": "False in full: C15_context_variable_lost is the witness (a context variable is () after the block). C15_local_values_restored_partial proves it for local variables."
  },
  {
   "property": "C16",
   "status": "proved",
   "theorems": [
    "Kajiki.Props.C16_stacks_balanced",
    "Kajiki.Props.C16_leftovers_harmless",
    "Kajiki.Props.C16_failure_only_adds"
   ],
   "note": ""
  },
  {
   "property": "C17",
   "status": "proved",
   "theorems": [
    "Kajiki.Props.C17_only_tags_are_guarded",
    "Kajiki.Props.C17_rendering",
    "Kajiki.Props.C17_in_context",
    "Kajiki.Props.C67_template_shows"
   ],
   "note": "The guards are Python expressions; C17_rendering assumes the evaluator knows not and False (PyNot)."
  },
  {
   "property": "C18",
   "status": "proved",
   "theorems": [
    "Kajiki.Props.C18_content",
    "Kajiki.Props.C18_replace",
    "Kajiki.Props.C18_meaning"
   ],
   "note": ""
  },
  {
   "property": "C19",
   "status": "proved",
   "theorems": [
    "Kajiki.Props.C19_scopes_exist",
    "Kajiki.Props.C19_scopes_exist_inside",
    "Kajiki.Props.C19_call_runs_body",
    "Kajiki.Props.C19_body_sees_definition_scope",
    "Kajiki.Props.C19_py_call",
    "Kajiki.Props.C12_rendering_is_meaning"
   ],
   "note": ""
  },
  {
   "property": "C20",
   "status": "partial",
   "theorems": [
    "Kajiki.Props.C20_forms_agree_partial",
    "Kajiki.Props.C20_extends_differs"
   ],
   "note": "False for py:extends (C20_extends_differs). C20_forms_agree_partial proves it for all other directives, any number of them anywhere in the document; left out are py:else combined with another directive, py:call with args, and rewriting a directive that is not the outermost one of its element."
  },
  {
   "property": "C21",
   "status": "proved",
   "theorems": [
    "Kajiki.Props.C21_fixed_order",
    "Kajiki.Props.C21_directive_element",
    "Kajiki.Props.C21_order_of_writing_irrelevant"
   ],
   "note": ""
  },
  {
   "property": "C22",
   "status": "partial",
   "theorems": [
    "Kajiki.Props.C22_no_directive_left_partial",
    "Kajiki.Props.C22_leading_comment"
   ],
   "note": "False in full: C22_leading_comment shows that nothing is expanded when a comment precedes the root element (only doc.firstChild is expanded). C22_no_directive_left_partial proves it otherwise."
  },
  {
   "property": "C23",
   "status": "partial",
   "theorems": [
    "Kajiki.Props.C23_wellformed_partial",
    "Kajiki.Props.C23_strip_can_unbalance",
    "Kajiki.Props.C23_attrs_can_repeat"
   ],
   "note": "False in full: C23_strip_can_unbalance (a py:strip whose condition changes during the content) and C23_attrs_can_repeat (py:attrs repeating an attribute). C23_wellformed_partial proves it for the composed pipeline from events to output when the names a py:strip depends on are not bound inside the element and py:attrs gives other names; left out are CDATA sections and scripts in CDATA."
  },
  {
   "property": "C24",
   "status": "partial",
   "theorems": [
    "Kajiki.Props.C24_empty_element_partial",
    "Kajiki.Props.C24_full_element_partial",
    "Kajiki.Props.C24_content_on_void_element",
    "Kajiki.Props.C24_unlisted_void_element"
   ],
   "note": "False in full: C24_content_on_void_element (py:content on a void element emits an end tag) and C24_unlisted_void_element (the list of void elements lacks some). The partial theorems prove the closing rules for ordinary and empty elements with the list of the code."
  },
  {
   "property": "C25",
   "status": "partial",
   "theorems": [
    "Kajiki.Props.C25_chunking_irrelevant_partial",
    "Kajiki.Props.C25_leading_comment",
    "Kajiki.Props.C25_text_is_character_data"
   ],
   "note": "False in full: C25_leading_comment is the witness (text nodes are only merged below doc.firstChild). C25_chunking_irrelevant_partial proves it for documents starting with the root element."
  },
  {
   "property": "C26",
   "status": "proved",
   "theorems": [
    "Kajiki.Props.C26_merging_preserves_text",
    "Kajiki.Props.C26_splitting_preserves_text",
    "Kajiki.Props.C26_pieces_blank_or_trimmed",
    "Kajiki.Props.C26_transform_preserves_text"
   ],
   "note": ""
  },
  {
   "property": "C27",
   "status": "proved",
   "theorems": [
    "Kajiki.Props.C27_strip_text"
   ],
   "note": ""
  },
  {
   "property": "C28",
   "status": "proved",
   "theorems": [
    "Kajiki.Props.C28_pieces_read_back",
    "Kajiki.Props.C28_accepted_cut_as_documented",
    "Kajiki.Props.C28_doubling_is_literal"
   ],
   "note": ""
  },
  {
   "property": "C29",
   "status": "partial",
   "theorems": [
    "Kajiki.Props.C29_accepted",
    "Kajiki.Props.C29_rejected_partial",
    "Kajiki.Props.C29_unterminated_index_error",
    "Kajiki.Props.C29_dollar_in_expression"
   ],
   "note": "Acceptance is proved in full (C29_accepted); rejection raises IndexError instead of a compile error when the text ends right after the brace (C29_unterminated_index_error), and a dollar name inside an expression is replaced (C29_dollar_in_expression). C29_rejected_partial proves the rest."
  },
  {
   "property": "C30",
   "status": "proved",
   "theorems": [
    "Kajiki.Props.C30_unescape_undoes_escape",
    "Kajiki.Props.C30_scripts_verbatim"
   ],
   "note": ""
  },
  {
   "property": "C31",
   "status": "partial",
   "theorems": [
    "Kajiki.Props.C31_comments_partial",
    "Kajiki.Props.C31_beside_root_dropped",
    "Kajiki.Props.C31_in_script_fails"
   ],
   "note": "False in full: comments beside the root element are dropped (C31_beside_root_dropped) and a comment in a script is an error (C31_in_script_fails). C31_comments_partial proves the rest."
  },
  {
   "property": "C32",
   "status": "proved",
   "theorems": [
    "Kajiki.Props.C32_extract_some",
    "Kajiki.Props.C32_extract_none",
    "Kajiki.Props.C32_extract_empty"
   ],
   "note": ""
  },
  {
   "property": "C33",
   "status": "proved",
   "theorems": [
    "Kajiki.Props.C33_recognised",
    "Kajiki.Props.C33_mode_from_doctype",
    "Kajiki.Props.C33_explicit_mode_wins",
    "Kajiki.Props.C33_mode_range",
    "Kajiki.Props.C33_unknown_is_xml",
    "Kajiki.Props.C33_rdfa_not_recognised"
   ],
   "note": ""
  },
  {
   "property": "C34",
   "status": "proved",
   "theorems": [
    "Kajiki.Props.C34_rendered",
    "Kajiki.Props.C34_doctype",
    "Kajiki.Props.C34_output_starts_with_it"
   ],
   "note": ""
  },
  {
   "property": "C35",
   "status": "proved",
   "theorems": [
    "Kajiki.Props.C35_code_and_extraction_agree",
    "Kajiki.Props.C35_only_extracted_are_asked",
    "Kajiki.Props.C35_extract_whatever_mode",
    "Kajiki.Props.C35_needs_cdata_scripts"
   ],
   "note": "extract cannot be told cdata_scripts or autoblocks: C35_needs_cdata_scripts is the witness that C35_extract_whatever_mode needs the defaults."
  },
  {
   "property": "C36",
   "status": "proved",
   "theorems": [
    "Kajiki.Props.C36_origin_of_messages"
   ],
   "note": ""
  },
  {
   "property": "C37",
   "status": "partial",
   "theorems": [
    "Kajiki.Props.C37_tokens_cover_source_partial",
    "Kajiki.Props.C37_pieces_partial",
    "Kajiki.Props.C37_overlap",
    "Kajiki.Props.C37_any_closing_character",
    "Kajiki.Props.C37_dollar_in_tag"
   ],
   "note": "False in full: C37_overlap shows that a dollar sign inside a braced expression belongs to two tokens. C37_tokens_cover_source_partial proves it when Python finds the error of a braced expression at a closing brace or at the end of the text."
  },
  {
   "property": "C38",
   "status": "proved",
   "theorems": [
    "Kajiki.Props.C38_escaped_text",
    "Kajiki.Props.C38_doubling",
    "Kajiki.Props.C38_every_text",
    "Kajiki.Props.C38_backslash_at_end"
   ],
   "note": "The text may not contain tags (NoDirective) nor end in a lone backslash (C38_backslash_at_end)."
  },
  {
   "property": "C39",
   "status": "partial",
   "theorems": [
    "Kajiki.Props.C39_parse_reconstructs_partial",
    "Kajiki.Props.C39_body_partial",
    "Kajiki.Props.C39_nested_else",
    "Kajiki.Props.C39_nested_else_in_for",
    "Kajiki.Props.C39_switch_else"
   ],
   "note": "False in full: C39_nested_else (an else inside a nested if closes the outer if) and C39_switch_else (the end of a switch with an else closes only the else). C39_parse_reconstructs_partial proves it for all other trees, with one more end for the else of a switch."
  },
  {
   "property": "C40",
   "status": "proved",
   "theorems": [
    "Kajiki.Props.C40_compiled_well_formed",
    "Kajiki.Props.C40_override_wins"
   ],
   "note": ""
  },
  {
   "property": "C41",
   "status": "proved",
   "theorems": [
    "Kajiki.Props.C41_chain_names",
    "Kajiki.Props.C41_alone"
   ],
   "note": ""
  },
  {
   "property": "C42",
   "status": "partial",
   "theorems": [
    "Kajiki.Props.C42_parent_function_partial",
    "Kajiki.Props.C42_self_reaches_parent_partial",
    "Kajiki.Props.C42_trampoline",
    "Kajiki.Props.C42_grandparent_function_missing"
   ],
   "note": "False in full: C42_grandparent_function_missing shows that a function of a grandparent is not visible in the grandchild. The partial theorems prove it for the direct parent and through self."
  },
  {
   "property": "C43",
   "status": "proved",
   "theorems": [
    "Kajiki.Props.C43_context_kept",
    "Kajiki.Props.C43_name_precedence",
    "Kajiki.Props.C43_underscore_and_value_of"
   ],
   "note": ""
  },
  {
   "property": "C44",
   "status": "partial",
   "theorems": [
    "Kajiki.Props.C44_importer_names_win",
    "Kajiki.Props.C44_own_functions_partial"
   ],
   "note": "False in full: C44_importer_names_win shows that every name of the importing namespace replaces the imported function. C44_own_functions_partial proves it for names the importer does not have."
  },
  {
   "property": "C45",
   "status": "proved",
   "theorems": [
    "Kajiki.Props.C45_cached_while_unchanged",
    "Kajiki.Props.C45_cached_without_reload"
   ],
   "note": ""
  },
  {
   "property": "C46",
   "status": "proved",
   "theorems": [
    "Kajiki.Props.C46_fresh",
    "Kajiki.Props.C46_current",
    "Kajiki.Props.C46_same_mtime_is_stale",
    "Kajiki.Props.C46_shadowing_is_stale"
   ],
   "note": "Under the modification time discipline; the two C46 limit theorems show it is needed."
  },
  {
   "property": "C47",
   "status": "partial",
   "theorems": [
    "Kajiki.Props.C47_failure_partial",
    "Kajiki.Props.C47_failure_then_retry",
    "Kajiki.Props.C47_deleted_file_keeps_entry"
   ],
   "note": "False in full: C47_deleted_file_keeps_entry is the witness (a vanished file keeps its old entry). C47_failure_partial and C47_failure_then_retry prove the rest."
  },
  {
   "property": "C48",
   "status": "proved",
   "theorems": [
    "Kajiki.Props.C48_first_directory",
    "Kajiki.Props.C48_not_found",
    "Kajiki.Props.C48_path_string",
    "Kajiki.Props.C48_package_preference",
    "Kajiki.Props.C48_extension_choice",
    "Kajiki.Props.C48_forced_mode",
    "Kajiki.Props.C48_default_alias"
   ],
   "note": ""
  },
  {
   "property": "C49",
   "status": "proved",
   "theorems": [
    "Kajiki.Props.C49_lookup_faithful",
    "Kajiki.Props.C49_decode_encode",
    "Kajiki.Props.C49_decode_encode_repeats",
    "Kajiki.Props.C49_signed_reader_disagrees"
   ],
   "note": ""
  },
  {
   "property": "C50",
   "status": "proved",
   "theorems": [
    "Kajiki.Props.C50_annotate_maps_lines"
   ],
   "note": ""
  },
  {
   "property": "C51",
   "status": "partial",
   "theorems": [
    "Kajiki.Props.C51_line_map_partial",
    "Kajiki.Props.C51_line_map_wrong_after_decrease"
   ],
   "note": "The full claim is false for the code: C51_line_map_wrong_after_decrease is the witness. C51_line_map_partial proves it for generated lines whose template lines never decrease."
  },
  {
   "property": "C52",
   "status": "proved",
   "theorems": [
    "Kajiki.Props.C52_split_lines",
    "Kajiki.Props.C52_strip_lines"
   ],
   "note": ""
  },
  {
   "property": "C53",
   "status": "proved",
   "theorems": [
    "Kajiki.Props.C53_snippet_lines",
    "Kajiki.Props.C53_error_text"
   ],
   "note": ""
  },
  {
   "property": "C54",
   "status": "proved",
   "theorems": [
    "Kajiki.Props.C54_names_distinct",
    "Kajiki.Props.C54_few_taken",
    "Kajiki.Props.C54_free_name_exists"
   ],
   "note": ""
  },
  {
   "property": "C55",
   "status": "proved",
   "theorems": [
    "Kajiki.Props.C55_split_correct",
    "Kajiki.Props.C55_no_assignment_rejected",
    "Kajiki.Props.C55_string_with_assignment_is_cut"
   ],
   "note": ""
  },
  {
   "property": "C56",
   "status": "proved",
   "theorems": [
    "Kajiki.Props.C56_dedent_uniform",
    "Kajiki.Props.C56_module_level",
    "Kajiki.Props.C56_blank_line_rejected"
   ],
   "note": ""
  },
  {
   "property": "C57",
   "status": "proved",
   "theorems": [
    "Kajiki.Props.C57_no_interference",
    "Kajiki.Props.C57_no_delay",
    "Kajiki.Props.C57_one_instance_interferes"
   ],
   "note": "For distinct instances; C57_one_instance_interferes shows that two generators over one instance do interfere."
  },
  {
   "property": "C58",
   "status": "proved",
   "theorems": [
    "Kajiki.Props.C58_known_entity",
    "Kajiki.Props.C58_unknown_entity"
   ],
   "note": ""
  },
  {
   "property": "C59",
   "status": "proved",
   "theorems": [
    "Kajiki.Props.C59_auto_reload_is_fresh",
    "Kajiki.Props.C59_cached_without_reload",
    "Kajiki.Props.C59_auto_reload_never_caches"
   ],
   "note": ""
  },
  {
   "property": "C60",
   "status": "proved",
   "theorems": [
    "Kajiki.Props.C60_start",
    "Kajiki.Props.C60_call",
    "Kajiki.Props.C60_call_seen",
    "Kajiki.Props.C60_statement"
   ],
   "note": ""
  },
  {
   "property": "C61",
   "status": "proved",
   "theorems": [
    "Kajiki.Props.C61_rendering_is_document",
    "Kajiki.Props.C61_rendering_is_source"
   ],
   "note": "Documents with the directives in the right places (placed), conditions of generated tag guards steady; CDATA scripts and i18n wrapping are included. The document is the one after directive expansion (C20, C22)."
  },
  {
   "property": "C62",
   "status": "proved",
   "theorems": [
    "Kajiki.Props.C62_compiles_iff",
    "Kajiki.Props.C62_loads_iff",
    "Kajiki.Props.C62_empty_is_syntax_error",
    "Kajiki.Props.C62_source_compiles_iff",
    "Kajiki.Props.C62_complete_templates_render",
    "Kajiki.Props.C62_else_of_loop"
   ],
   "note": "Documents without elements of unknown directives (known); the second half also needs the directives in the right places (placed), C62_else_of_loop shows what else is accepted. Whether a single expression is valid Python is not part of the model, except where it ends."
  },
  {
   "property": "C63",
   "status": "proved",
   "theorems": [
    "Kajiki.Props.C63_static_document",
    "Kajiki.Props.C63_translated_document",
    "Kajiki.Props.C63_local_cannot_be_used"
   ],
   "note": "No element is an automatic block, no element has an attribute twice, scripts contain only text, stripping of text is off. C63_translated_document needs text in one piece (expat buffers it). C63_local_cannot_be_used shows why the context has no variable local."
  },
  {
   "property": "C64",
   "status": "proved",
   "theorems": [
    "Kajiki.Props.C64_scanned",
    "Kajiki.Props.C64_source_is_tree",
    "Kajiki.Props.C64_rendering_is_tree",
    "Kajiki.Props.C64_rendering_is_source"
   ],
   "note": "Sources as in Spec/TextSource (nothing special inside tags and expressions: C37_overlap, C37_dollar_in_tag), trees as in Written true (C39_nested_else, C39_switch_else), choices first in a switch (tidy). The set of templates is all text templates."
  },
  {
   "property": "C65",
   "status": "partial",
   "theorems": [
    "Kajiki.Props.C65_no_yield_fails",
    "Kajiki.Props.C65_text_declarations_partial",
    "Kajiki.Props.C65_text_never_shows",
    "Kajiki.Props.C65_xml_declarations_partial",
    "Kajiki.Props.C65_xml_never_shows",
    "Kajiki.Props.C65_text_blank_block",
    "Kajiki.Props.C65_xml_blank_block"
   ],
   "note": "False in full: content that runs something but never shows anything is a TypeError (C65_no_yield_fails, C65_text_never_shows, C65_xml_never_shows, C65_text_blank_block). The partial theorems prove it for content that only declares something."
  },
  {
   "property": "C66",
   "status": "proved",
   "theorems": [
    "Kajiki.Props.C66_values_in_documents"
   ],
   "note": "As C63, and: Python finds the error in what follows an expression at the closing brace, no dollar sign in expressions, and no &, < and > in those outside of CDATA sections and attributes. Values are not flatteners (template functions, literals). Messages are not translated."
  },
  {
   "property": "C67",
   "status": "proved",
   "theorems": [
    "Kajiki.Props.C67_template_shows",
    "Kajiki.Props.C67_source_shows"
   ],
   "note": "Documents without functions and other templates, with the directives in the right places (placed). Expressions have no side effects and their values are not flatteners (Evals); variables that are not local are looked up among the globals, also when the function assigns them elsewhere. After a py:with a variable that was not local is () (C15_context_variable_lost). py:attrs is rendered as in C06 and C07."
  },
  {
   "property": "C68",
   "status": "partial",
   "theorems": [
    "Kajiki.Props.C68_options_of_some_import",
    "Kajiki.Props.C68_first_import_partial",
    "Kajiki.Props.C68_later_options_ignored",
    "Kajiki.Props.C68_pyramid_reload",
    "Kajiki.Props.C68_page_stays_page"
   ],
   "note": "False in full: C68_later_options_ignored (the cache goes by name alone) and C68_page_stays_page (so in Pyramid a fragment is rendered as the page it was before). C68_first_import_partial proves it for the first successful import of a name, C68_pyramid_reload for Pyramid with auto_reload."
  },
  {
   "property": "C69",
   "status": "proved",
   "theorems": [
    "Kajiki.Props.C69_view_is_rendered",
    "Kajiki.Props.C69_no_dictionary"
   ],
   "note": "Loading and rendering are parameters; loading is C59 and C68."
  },
  {
   "property": "C70",
   "status": "proved",
   "theorems": [
    "Kajiki.Props.C70_page_shows"
   ],
   "note": "For templates without functions other than blocks. Expressions have no side effects, and the names of blocks have no blanks and parentheses."
  },
  {
   "property": "C71",
   "status": "proved",
   "theorems": [
    "Kajiki.Props.C71_functions_show"
   ],
   "note": "Functions are called in expressions of texts, py:content and py:replace; blocks only where they are or as parent_block(); there are no blocks in functions, no py:call, and no other templates than the extended ones. Expressions have no side effects. No variable has the name of a function. What a name means that two templates use, one for a variable and one for a function, is left open here (C40)."
  },
  {
   "property": "C72",
   "status": "proved",
   "theorems": [
    "Kajiki.Props.C72_read_as_document",
    "Kajiki.Props.C72_values_add_no_elements",
    "Kajiki.Props.C72_section_can_end_early"
   ],
   "note": "C72_section_can_end_early: in a CDATA section in which a value stands before >, the value ]] ends the section."
  },
  {
   "property": "C73",
   "status": "proved",
   "theorems": [
    "Kajiki.Props.C73_read_as_document",
    "Kajiki.Props.C73_values_add_no_tags",
    "Kajiki.Props.C73_section_is_comment"
   ],
   "note": "Reading up to tokens: the tree an HTML parser makes of them (implied tags) is not part of the claim. C73_section_is_comment: CDATA sections in html mode are read as comments."
  },
  {
   "property": "C74",
   "status": "proved",
   "theorems": [
    "Kajiki.Props.C74_read_as_tree",
    "Kajiki.Props.C74_read_as_tree_html",
    "Kajiki.Props.C74_functions_read",
    "Kajiki.Props.C74_functions_read_html",
    "Kajiki.Props.C74_only_elements_of_template",
    "Kajiki.Props.C74_only_elements_of_templates",
    "Kajiki.Props.C74_only_tags_of_templates"
   ],
   "note": "Documents without a tree (see Spec/TreeSem) are not part of the claim. In html modes reading is up to tokens (see C73)."
  },
  {
   "property": "C75",
   "status": "proved",
   "theorems": [
    "Kajiki.Props.C75_text_template_shows",
    "Kajiki.Props.C75_text_source_shows"
   ],
   "note": "No %call, no function in a function, and no other templates. Functions are called in expressions that are shown; other expressions have no side effects and their values are not flatteners (Evals). No variable has the name of a function, and none is called local (C63)."
  },
  {
   "property": "C76",
   "status": "proved",
   "theorems": [
    "Kajiki.Props.C76_included_templates_show",
    "Kajiki.Props.C76_included_sources_show",
    "Kajiki.Props.C76_file_name_hides_variable",
    "Kajiki.Props.C76_included_text_templates_show",
    "Kajiki.Props.C76_included_text_sources_show"
   ],
   "note": "No functions, blocks and extended templates. Expressions have no side effects and depend neither on value_of nor on names of included files (Own); C76_file_name_hides_variable says why. Names of files are not local, self and gettext. For text templates: no functions and blocks either, and a template is empty or can show something (C65)."
  },
  {
   "property": "C77",
   "status": "proved",
   "theorems": [
    "Kajiki.Props.C77_exceptions_end_rendering",
    "Kajiki.Props.C77_beginning_is_shown",
    "Kajiki.Props.C77_limit_changes_nothing"
   ],
   "note": "Exceptions are values of Err; StopIteration, which ends the generator it is raised in, is not among them. Iterables are read to their end before the first round of a loop."
  },
  {
   "property": "C78",
   "status": "proved",
   "theorems": [
    "Kajiki.Props.C78_no_markup_from_values",
    "Kajiki.Props.C78_only_calls_are_raw",
    "Kajiki.Props.C78_documents_keep_values_out"
   ],
   "note": "Holds for any behaviour of Python with any side effects that makes no markup from values that are none. Results of py:call are not escaped (C78_call_is_not_escaped), so its functions must be functions of templates; keys of py:attrs are not escaped, and what a function shows would appear there as the description of an object, so these are excluded."
  },
  {
   "property": "C79",
   "status": "proved",
   "theorems": [
    "Kajiki.Props.C79_parts_may_be_exchanged",
    "Kajiki.Props.C79_sources_with_exchanged_parts",
    "Kajiki.Props.C79_parts_of_included_templates",
    "Kajiki.Props.C79_nop_is_content",
    "Kajiki.Props.C79_stripped_is_content",
    "Kajiki.Props.C79_replace_is_expression",
    "Kajiki.Props.C79_content_is_expression",
    "Kajiki.Props.C79_if_not_swaps",
    "Kajiki.Props.C79_if_true_is_content",
    "Kajiki.Props.C79_switch_is_if",
    "Kajiki.Props.C79_remark_is_nothing",
    "Kajiki.Props.C79_parts_of_all_templates",
    "Kajiki.Props.C79_parts_in_order",
    "Kajiki.Props.C79_nop_everywhere",
    "Kajiki.Props.C79_stripped_everywhere",
    "Kajiki.Props.C79_replace_everywhere",
    "Kajiki.Props.C79_content_everywhere",
    "Kajiki.Props.C79_if_not_everywhere",
    "Kajiki.Props.C79_texts_everywhere",
    "Kajiki.Props.C79_remark_everywhere"
   ],
   "note": "For templates as in C67 and C76 (parts are compared in the semantics of C67), and for all templates with any Python (C79_parts_of_all_templates, parts are compared in the semantics of C61). Laws give examples of such parts for both; in the second, a py:if can be turned round if its contents define no functions, and a py:switch is no py:if because it needs the variable local. A py:nop or py:strip cannot be taken away around a CDATA section or in a script (there is an example), and a part is not followed by a py:else of its own."
  },
  {
   "property": "C80",
   "status": "proved",
   "theorems": [
    "Kajiki.Props.C80_unused_variables_of_included_text_templates",
    "Kajiki.Props.C80_unused_variables_have_no_influence",
    "Kajiki.Props.C80_unused_variables_of_included_templates",
    "Kajiki.Props.C80_unused_variables_of_text_templates"
   ],
   "note": "For templates as in C67, C76 and C75. The variable gettext is used by every template with texts to translate, so it must be the same; local, self and the names of the generated code must not be variables of the context."
  },
  {
   "property": "C81",
   "status": "proved",
   "theorems": [
    "Kajiki.Props.C81_arguments",
    "Kajiki.Props.C81_page",
    "Kajiki.Props.C81_text",
    "Kajiki.Props.C81_encoding_of_load_ignored",
    "Kajiki.Props.C81_autoblocks_need_mode",
    "Kajiki.Props.C81_text_rejects_other_options",
    "Kajiki.Props.C81_pyramid"
   ],
   "note": "For options given by name. Reading files and expat are arbitrary functions; arguments of wrong types are not modelled."
  },
  {
   "property": "C82",
   "status": "proved",
   "theorems": [
    "Kajiki.Props.C82_exceptions_of_included_text_templates",
    "Kajiki.Props.C82_no_circles_of_text_templates",
    "Kajiki.Props.C82_exceptions_are_from_python",
    "Kajiki.Props.C82_exceptions_of_included_templates",
    "Kajiki.Props.C82_no_circles_no_recursion",
    "Kajiki.Props.C82_exceptions_of_functions",
    "Kajiki.Props.C82_exceptions_of_text_templates"
   ],
   "note": "For templates as in C67, C76, C71 and C75, whose conditions include that messages are translated without exceptions. The theorems say that Python raises the exception for some expression, not which expression of the template it is."
  },
  {
   "property": "C83",
   "status": "proved",
   "theorems": [
    "Kajiki.Props.C83_including_is_pasting",
    "Kajiki.Props.C83_without_local_variables",
    "Kajiki.Props.C83_including_text_is_pasting",
    "Kajiki.Props.C83_text_without_local_variables"
   ],
   "note": "For templates as in C76. The pasted root must be an ordinary element, and both templates have the same options and the same names in their modules. An example beside the theorem shows that local variables do matter. For text templates (C83_including_text_is_pasting) the included one must not be empty, as a %switch reads its cases up to the first other directive."
  },
  {
   "property": "C84",
   "status": "proved",
   "theorems": [
    "Kajiki.Props.C84_local_variables_hide",
    "Kajiki.Props.C84_local_variables_of_included_templates",
    "Kajiki.Props.C84_local_variables_of_text_templates",
    "Kajiki.Props.C84_local_variables_of_included_text_templates"
   ],
   "note": "For templates as in C67 and C76. The variable gettext must be the same in both contexts, unless it is one the template does not use at all (C80)."
  },
  {
   "property": "C85",
   "status": "proved",
   "theorems": [
    "Kajiki.Props.C85_texts_and_expressions",
    "Kajiki.Props.C85_exactly_the_texts",
    "Kajiki.Props.C85_without_python",
    "Kajiki.Props.C85_with_python",
    "Kajiki.Props.C85_unreadable_expression",
    "Kajiki.Props.C85_directives_not_read"
   ],
   "note": "Babel's extract_python is an arbitrary function. Lines of messages are in the model but not part of the claim. C85_directives_not_read: expressions of other directives than py:content and py:replace are not looked at."
  },
  {
   "property": "C86",
   "status": "proved",
   "theorems": [
    "Kajiki.Props.C86_words",
    "Kajiki.Props.C86_first_include",
    "Kajiki.Props.C86_unreadable_setting",
    "Kajiki.Props.C86_settings_stay",
    "Kajiki.Props.C86_include_again",
    "Kajiki.Props.C86_views"
   ],
   "note": "Paste's asbool, abspath_from_resource_spec and the compiler are arbitrary functions; settings are strings. How Pyramid chooses a renderer by its extension is not modelled."
  },
  {
   "property": "C87",
   "status": "proved",
   "theorems": [
    "Kajiki.Props.C87_names",
    "Kajiki.Props.C87_no_function",
    "Kajiki.Props.C87_python3",
    "Kajiki.Props.C87_kind",
    "Kajiki.Props.C87_txt_is_xml"
   ],
   "note": "Python 2 and 3 differ by whether basestring is known. Other loaders (kajiki.loader_class) are not modelled."
  },
  {
   "property": "C88",
   "status": "proved",
   "theorems": [
    "Kajiki.Props.C88_translation_is_substitution",
    "Kajiki.Props.C88_included_templates",
    "Kajiki.Props.C88_literal_text",
    "Kajiki.Props.C88_untranslated_text"
   ],
   "note": "For templates without functions and blocks, and those that include each other (as in C67 and C76). The translation of a document is a relation: its texts are read as what gettext gives for the texts of the original, with the same expressions."
  },
  {
   "property": "C89",
   "status": "proved",
   "theorems": [
    "Kajiki.Props.C89_parts_of_text_templates",
    "Kajiki.Props.C89_sources_of_text_templates",
    "Kajiki.Props.C89_parts_in_order",
    "Kajiki.Props.C89_texts",
    "Kajiki.Props.C89_if_not",
    "Kajiki.Props.C89_if_true",
    "Kajiki.Props.C89_constant_expression"
   ],
   "note": "For all text templates whose %switch has its choices first (as in C64). A pair of templates is compared where both are accepted by Python."
  },
  {
   "property": "C90",
   "status": "partial",
   "theorems": [
    "Kajiki.Props.C90_lines_of_messages_partial",
    "Kajiki.Props.C90_never_too_late",
    "Kajiki.Props.C90_lines_in_source_partial",
    "Kajiki.Props.C90_line_break_after_brace_not_counted"
   ],
   "note": "False in full: C90_line_break_after_brace_not_counted. C90_lines_of_messages_partial gives the line for all documents in which no expression contains a dollar sign (C29): exactly the line breaks between ${ and an expression are not counted. C90_lines_in_source_partial is the claim for the texts as the parser reports them, exact without such line breaks and never too late with them."
  },
  {
   "property": "C91",
   "status": "partial",
   "theorems": [
    "Kajiki.Props.C91_lines_of_expressions_partial",
    "Kajiki.Props.C91_lines_of_tokens_partial",
    "Kajiki.Props.C91_blank_lines_not_counted"
   ],
   "note": "False in full: C91_blank_lines_not_counted. C91_lines_of_expressions_partial: the line is never too large, and exact if there are no blank lines before directives that remove them. For sources as in C64."
  },
  {
   "property": "C92",
   "status": "partial",
   "theorems": [
    "Kajiki.Props.C92_lines_of_expressions_partial",
    "Kajiki.Props.C92_exact_line",
    "Kajiki.Props.C92_never_too_late",
    "Kajiki.Props.C92_line_break_after_brace_not_counted"
   ],
   "note": "False in full: C92_line_break_after_brace_not_counted. C92_lines_of_expressions_partial gives the line for all documents in which no expression contains a dollar sign (C29): exactly the line breaks between ${ and an expression are not counted; C92_exact_line: without these the line is exact. Relative to the tree that is compiled."
  },
  {
   "property": "C93",
   "status": "partial",
   "theorems": [
    "Kajiki.Props.C93_reported_line_partial",
    "Kajiki.Props.C93_lines_are_of_expressions",
    "Kajiki.Props.C93_reported_line_of_source_partial",
    "Kajiki.Props.C93_never_too_early",
    "Kajiki.Props.C93_reported_is_maximum",
    "Kajiki.Props.C93_line_breaks_in_expressions_shift"
   ],
   "note": "False in full: C93_line_breaks_in_expressions_shift, and after the main function C51_line_map_wrong_after_decrease. C93_reported_line_partial: exact in the main function, for everything but literal text, if no expression before contains a line break; expressions contain no dollar sign and attributes no line break. C93_never_too_early: for all templates, functions and line breaks the reported line is not before the right one. C93_reported_is_maximum: for all of them, without line breaks in expressions, it is exactly the largest so far. C93_lines_are_of_expressions links the generated lines to C91 and C92, C93_reported_line_of_source_partial puts C92 and this together."
  },
  {
   "property": "C94",
   "status": "partial",
   "theorems": [
    "Kajiki.Props.C94_reported_line_partial",
    "Kajiki.Props.C94_reported_line_of_source_partial",
    "Kajiki.Props.C94_line_breaks_in_expressions_shift",
    "Kajiki.Props.C94_directives_have_no_line"
   ],
   "note": "False in full: C94_line_breaks_in_expressions_shift. C94_reported_line_partial: for every accepted source, exact in the main function, for everything but literal text, if no expression before contains a line break. Directives have no line (C94_directives_have_no_line). C94_reported_line_of_source_partial puts C91 and this together."
  }
 ]
}