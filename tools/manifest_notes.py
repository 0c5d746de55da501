STATUS = {
 'C68': 'partial',
 'C37': 'partial',
 'C39': 'partial',
 'C20': 'partial',
 'C24': 'partial',
 'C31': 'partial',
 'C42': 'partial',
 'C44': 'partial',
 'C15': 'partial',
 'C08': 'partial',
 'C09': 'partial',
 'C47': 'partial',
 'C51': 'partial',
 'C65': 'partial',
 'C22': 'partial',
 'C25': 'partial',
 'C29': 'partial',
 'C23': 'partial',
 'C90': 'partial',
 'C91': 'partial',
 'C92': 'partial',
 'C93': 'partial',
 'C94': 'partial',
}
NOTES = {
 'C68': 'False in full: C68_later_options_ignored (the cache goes by name alone) and C68_page_stays_page (so in Pyramid '
        'a fragment is rendered as the page it was before). C68_first_import_partial proves it for the first successful '
        'import of a name, C68_pyramid_reload for Pyramid with auto_reload.',
 'C70': 'For templates without functions other than blocks. Expressions have no side effects, and the names of blocks '
        'have no blanks and parentheses.',
 'C72': 'C72_section_can_end_early: in a CDATA section in which a value stands before >, the value ]] ends the section.',
 'C94': 'False in full: C94_line_breaks_in_expressions_shift. C94_reported_line_partial: for every accepted source, exact '
        'in the main function, for everything but literal text, if no expression before contains a line break. Directives '
        'have no line (C94_directives_have_no_line). C94_reported_line_of_source_partial puts C91 and this together.',
 'C93': 'False in full: C93_line_breaks_in_expressions_shift, and after the main function C51_line_map_wrong_after_decrease. '
        'C93_reported_line_partial: exact in the main function, for everything but literal text, if no expression before '
        'contains a line break; expressions contain no dollar sign and attributes no line break. '
        'C93_never_too_early: for all templates, functions and line breaks the reported line is not before the right one. '
        'C93_reported_is_maximum: for all of them, without line breaks in expressions, it is exactly the largest so far. '
        'C93_lines_are_of_expressions links the generated lines to C91 and C92, C93_reported_line_of_source_partial puts C92 '
        'and this together.',
 'C92': 'False in full: C92_line_break_after_brace_not_counted. C92_lines_of_expressions_partial gives the line for all '
        'documents in which no expression contains a dollar sign (C29): exactly the line breaks between ${ and an expression '
        'are not counted; C92_exact_line: without these the line is exact. Relative to the tree that is compiled.',
 'C91': 'False in full: C91_blank_lines_not_counted. C91_lines_of_expressions_partial: the line is never too large, and exact '
        'if there are no blank lines before directives that remove them. For sources as in C64.',
 'C90': 'False in full: C90_line_break_after_brace_not_counted. C90_lines_of_messages_partial gives the line for all documents '
        'in which no expression contains a dollar sign (C29): exactly the line breaks between ${ and an expression are not '
        'counted. C90_lines_in_source_partial is the claim for the texts as the parser reports them, exact without such line '
        'breaks and never too late with them.',
 'C89': 'For all text templates whose %switch has its choices first (as in C64). A pair of templates is compared where both '
        'are accepted by Python.',
 'C88': 'For templates without functions and blocks, and those that include each other (as in C67 and C76). The translation of a '
        'document is a relation: its texts are read as what gettext gives for the texts of the original, with the same expressions.',
 'C86': 'Paste\'s asbool, abspath_from_resource_spec and the compiler are arbitrary functions; settings are strings. How Pyramid '
        'chooses a renderer by its extension is not modelled.',
 'C87': 'Python 2 and 3 differ by whether basestring is known. Other loaders (kajiki.loader_class) are not modelled.',
 'C85': 'Babel\'s extract_python is an arbitrary function. Lines of messages are in the model but not part of the claim. '
        'C85_directives_not_read: expressions of other directives than py:content and py:replace are not looked at.',
 'C84': 'For templates as in C67 and C76. The variable gettext must be the same in both contexts, unless it is one the '
        'template does not use at all (C80).',
 'C83': 'For templates as in C76. The pasted root must be an ordinary element, and both templates have the same options and '
        'the same names in their modules. An example beside the theorem shows that local variables do matter. '
        'For text templates (C83_including_text_is_pasting) the included one must not be empty, as a %switch reads its cases up '
        'to the first other directive.',
 'C82': 'For templates as in C67, C76, C71 and C75, whose conditions include that messages are translated without exceptions. The '
        'theorems say that Python raises the exception for some expression, not which expression of the template it is.',
 'C81': 'For options given by name. Reading files and expat are arbitrary functions; arguments of wrong types are not modelled.',
 'C80': 'For templates as in C67, C76 and C75. The variable gettext is used by every template with texts to translate, so it must '
        'be the same; local, self and the names of the generated code must not be variables of the context.',
 'C79': 'For templates as in C67 and C76 (parts are compared in the semantics of C67), and for all templates with any Python '
        '(C79_parts_of_all_templates, parts are compared in the semantics of C61). Laws give examples of such parts for both; in '
        'the second, a py:if can be turned round if its contents define no functions, and a py:switch is no py:if because it '
        'needs the variable local. A py:nop or py:strip cannot be taken away around a '
        'CDATA section or in a script (there is an example), and a part is not followed by a py:else of its own.',
 'C78': 'Holds for any behaviour of Python with any side effects that makes no markup from values that are none. Results of '
        'py:call are not escaped (C78_call_is_not_escaped), so its functions must be functions of templates; keys of py:attrs '
        'are not escaped, and what a function shows would appear there as the description of an object, so these are excluded.',
 'C77': 'Exceptions are values of Err; StopIteration, which ends the generator it is raised in, is not among them. Iterables '
        'are read to their end before the first round of a loop.',
 'C76': 'No functions, blocks and extended templates. Expressions have no side effects and depend neither on value_of nor on '
        'names of included files (Own); C76_file_name_hides_variable says why. Names of files are not local, self and gettext. '
        'For text templates: no functions and blocks either, and a template is empty or can show something (C65).',
 'C75': 'No %call, no function in a function, and no other templates. Functions are called in expressions that are shown; '
        'other expressions have no side effects and their values are not flatteners (Evals). No variable has the name of a '
        'function, and none is called local (C63).',
 'C74': 'Documents without a tree (see Spec/TreeSem) are not part of the claim. In html modes reading is up to tokens (see C73).',
 'C73': 'Reading up to tokens: the tree an HTML parser makes of them (implied tags) is not part of the claim. C73_section_is_comment: CDATA sections in html mode are read as comments.',
 'C71': 'Functions are called in expressions of texts, py:content and py:replace; blocks only where they are or as '
        'parent_block(); there are no blocks in functions, no py:call, and no other templates than the extended ones. '
        'Expressions have no side effects. No variable has the name of a function. What a name means that two templates '
        'use, one for a variable and one for a function, is left open here (C40).',
 'C69': 'Loading and rendering are parameters; loading is C59 and C68.',
 'C67': 'Documents without functions and other templates, with the directives in the right places (placed). Expressions '
        'have no side effects and their values are not flatteners (Evals); variables that are not local are looked up '
        'among the globals, also when the function assigns them elsewhere. After a py:with a variable that was not local '
        'is () (C15_context_variable_lost). py:attrs is rendered as in C06 and C07.',
 'C66': 'As C63, and: Python finds the error in what follows an expression at the closing brace, no dollar sign in '
        'expressions, and no &, < and > in those outside of CDATA sections and attributes. Values are not flatteners '
        '(template functions, literals). Messages are not translated.',
 'C01': 'C01_escaped_is_inert is about the escaping function; the other theorems about rendered documents (C66).',
 'C64': 'Sources as in Spec/TextSource (nothing special inside tags and expressions: C37_overlap, C37_dollar_in_tag), '
        'trees as in Written true (C39_nested_else, C39_switch_else), choices first in a switch (tidy). The set of '
        'templates is all text templates.',
 'C63': 'No element is an automatic block, no element has an attribute twice, scripts contain only text, stripping of '
        'text is off. C63_translated_document needs text in one piece (expat buffers it). '
        'C63_local_cannot_be_used shows why the context has no variable local.',
 'C62': 'Documents without elements of unknown directives (known); the second half also needs the directives in the '
        'right places (placed), C62_else_of_loop shows what else is accepted. Whether a single expression is valid '
        'Python is not part of the model, except where it ends.',
 'C61': 'Documents with the directives in the right places (placed), conditions of generated tag guards steady; CDATA '
        'scripts and i18n wrapping are included. The document is the one after directive expansion (C20, C22).',
 'C23': 'False in full: C23_strip_can_unbalance (a py:strip whose condition changes during the content) and '
        'C23_attrs_can_repeat (py:attrs repeating an attribute). C23_wellformed_partial proves it for the composed '
        'pipeline from events to output when the names a py:strip depends on are not bound inside the element and '
        'py:attrs gives other names; left out are CDATA sections and scripts in CDATA.',
 'C37': 'False in full: C37_overlap shows that a dollar sign inside a braced expression belongs to two tokens. '
        'C37_tokens_cover_source_partial proves it when Python finds the error of a braced expression at a closing '
        'brace or at the end of the text.',
 'C38': 'The text may not contain tags (NoDirective) nor end in a lone backslash (C38_backslash_at_end).',
 'C39': 'False in full: C39_nested_else (an else inside a nested if closes the outer if) and C39_switch_else (the end '
        'of a switch with an else closes only the else). C39_parse_reconstructs_partial proves it for all other '
        'trees, with one more end for the else of a switch.',
 'C17': 'The guards are Python expressions; C17_rendering assumes the evaluator knows not and False (PyNot).',
 'C20': 'False for py:extends (C20_extends_differs). C20_forms_agree_partial proves it for all other directives, any '
        'number of them anywhere in the document; left out are py:else combined with another directive, py:call '
        'with args, and rewriting a directive that is not the outermost one of its element.',
 'C24': 'False in full: C24_content_on_void_element (py:content on a void element emits an end tag) and '
        'C24_unlisted_void_element (the list of void elements lacks some). The partial theorems prove the '
        'closing rules for ordinary and empty elements with the list of the code.',
 'C31': 'False in full: comments beside the root element are dropped (C31_beside_root_dropped) and a comment '
        'in a script is an error (C31_in_script_fails). C31_comments_partial proves the rest.',
 'C35': 'extract cannot be told cdata_scripts or autoblocks: C35_needs_cdata_scripts is the witness that '
        'C35_extract_whatever_mode needs the defaults.',
 'C22': 'False in full: C22_leading_comment shows that nothing is expanded when a comment precedes the root '
        'element (only doc.firstChild is expanded). C22_no_directive_left_partial proves it otherwise.',
 'C25': 'False in full: C25_leading_comment is the witness (text nodes are only merged below doc.firstChild). '
        'C25_chunking_irrelevant_partial proves it for documents starting with the root element.',
 'C29': 'Acceptance is proved in full (C29_accepted); rejection raises IndexError instead of a compile error '
        'when the text ends right after the brace (C29_unterminated_index_error), and a dollar name inside an '
        'expression is replaced (C29_dollar_in_expression). C29_rejected_partial proves the rest.',
 'C42': 'False in full: C42_grandparent_function_missing shows that a function of a grandparent is not visible '
        'in the grandchild. The partial theorems prove it for the direct parent and through self.',
 'C44': 'False in full: C44_importer_names_win shows that every name of the importing namespace replaces the '
        'imported function. C44_own_functions_partial proves it for names the importer does not have.',
 'C57': 'For distinct instances; C57_one_instance_interferes shows that two generators over one instance do interfere.',
 'C10': 'For guards without side effects; C10_needs_steady_guards shows that this is needed.',
 'C15': 'False in full: C15_context_variable_lost is the witness (a context variable is () after the block). '
        'C15_local_values_restored_partial proves it for local variables.',
 'C08': 'accumulate_str does not apply str(): C08_accumulate_rejects_other is the witness that the full '
        'claim is false; iteration, render and collect are proved in full.',
 'C09': 'False in full: C09_literal_renders_once shows a literal yields its content only once. '
        'C09_never_again shows the same for running templates, whatever runs in between. '
        'C09_distinct_partial and C09_first_partial prove it for distinct, unused flatteners.',
 'C47': 'False in full: C47_deleted_file_keeps_entry is the witness (a vanished file keeps its old entry). '
        'C47_failure_partial and C47_failure_then_retry prove the rest.',
 'C65': 'False in full: content that runs something but never shows anything is a TypeError (C65_no_yield_fails, '
        'C65_text_never_shows, C65_xml_never_shows, C65_text_blank_block). The partial theorems prove it for content '
        'that only declares something.',
 'C46': 'Under the modification time discipline; the two C46 limit theorems show it is needed.',
 'C51': 'The full claim is false for the code: C51_line_map_wrong_after_decrease is the witness. '
        'C51_line_map_partial proves it for generated lines whose template lines never decrease.',
}

# theorems that also belong to other properties
EXTRA = {
 'C01': ['Kajiki.Props.C78_documents_keep_values_out', 'Kajiki.Props.C78_no_markup_from_values'],
 'C03': ['Kajiki.Props.C66_values_in_documents'],
 'C04': ['Kajiki.Props.C66_values_in_documents', 'Kajiki.Props.C01_rendered_with_blanks'],
 'C05': ['Kajiki.Props.C66_values_in_documents'],
 'C13': ['Kajiki.Props.C12_rendering_is_meaning', 'Kajiki.Props.C67_template_shows'],
 'C14': ['Kajiki.Props.C12_rendering_is_meaning', 'Kajiki.Props.C67_template_shows'],
 'C15': ['Kajiki.Props.C12_rendering_is_meaning', 'Kajiki.Props.C67_template_shows'],
 'C12': ['Kajiki.Props.C67_template_shows', 'Kajiki.Props.C67_source_shows'],
 'C17': ['Kajiki.Props.C67_template_shows'],
 'C19': ['Kajiki.Props.C12_rendering_is_meaning'],
}
