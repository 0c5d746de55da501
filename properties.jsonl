{"id": "C01", "title": "Interpolated values cannot inject markup", "statement": "In an XML template, whatever a `$x` / `${...}` expression in element text evaluates to, the text it adds to the rendered output contains no raw '<', '>' or '\"', and every '&' in it starts one of &amp; &lt; &gt; &quot;. The only exceptions are None (adds nothing), results of template functions / literal() / Markup(), and objects with __html__.", "quantifier": "every value and every string, of any length, over all of Unicode", "why_tests_cant": "tests try a handful of strings; an XSS hole is the one string nobody tried", "anchors": ["kajiki/template.py:_Template._escape", "kajiki/ir.py:ExprNode.py"]}
{"id": "C02", "title": "Escaping is lossless", "statement": "Decoding the four entities in the escaped text gives back exactly str(value), so two different strings never render alike; escaping also distributes over concatenation.", "quantifier": "every string", "why_tests_cant": "an inverse law must hold for every string, including strings already containing entities", "anchors": ["kajiki/template.py:_Template._escape"]}
{"id": "C03", "title": "Exempt values pass through exactly as documented", "statement": "None adds nothing; a literal()/Markup()/template-function result is emitted unescaped; an object with __html__ contributes exactly what __html__ returns; every other value contributes its escaped str().", "quantifier": "every runtime value", "why_tests_cant": "value classes are open-ended", "anchors": ["kajiki/template.py:_Template._escape", "kajiki/util.py:literal", "kajiki/util.py:flattener"]}
{"id": "C04", "title": "Attribute values cannot break out of their quotes", "statement": "A tag attribute written in the template (static text, `$x`, `${f(x)}`, literal()) is rendered as ` name=\"V\"` where V contains no raw '\"', '<' or '>' and decodes to the concatenation of the str() of the parts, whatever the expressions evaluate to - including literal() and template-function results.", "quantifier": "every attribute template, every value of its expressions", "why_tests_cant": "attribute injection depends on unanticipated values", "anchors": ["kajiki/ir.py:AttrNode", "kajiki/template.py:_Template._collect", "kajiki/template.py:_Template._render_attrs"]}
{"id": "C05", "title": "Attribute omission", "statement": "A template attribute disappears from the output if and only if it has at least one part and every part evaluates to None; an attribute with an empty static value is kept as name=\"\".", "quantifier": "every list of attribute parts and values", "why_tests_cant": "mixtures of None and non-None parts are unbounded", "anchors": ["kajiki/ir.py:AttrNode", "kajiki/template.py:_Template._collect", "kajiki/template.py:_Template._render_attrs"]}
{"id": "C06", "title": "Boolean attributes and modes in py:attrs", "statement": "For the HTML boolean attributes, True/False (and ints equal to them) mean present (name=\"name\" in xml mode, bare lower-case name in html modes) or absent; None is always absent; for all other names the value is rendered escaped.", "quantifier": "every attribute name, value and mode", "why_tests_cant": "product of names, values and modes", "anchors": ["kajiki/template.py:_Template._render_attrs", "kajiki/html_utils.py:HTML_EMPTY_ATTRS"]}
{"id": "C07", "title": "py:attrs output does not depend on mapping order", "statement": "Rendering the same mapping with its items in any order gives the same output, with attributes in ascending name order, one per non-None entry.", "quantifier": "every mapping and every permutation of its items", "why_tests_cant": "dict order is a schedule-like input; n! permutations", "anchors": ["kajiki/template.py:_Template._render_attrs"]}
{"id": "C08", "title": "Rendering flattens nested streams in document order", "statement": "render() is the concatenation, in order, of the chunks produced by iterating the template; nested template-function results are spliced in place at any depth, Nones vanish, and the string accumulated for an attribute from the same stream is the same concatenation.", "quantifier": "every nesting of generator results, any depth", "why_tests_cant": "nesting depth is unbounded", "anchors": ["kajiki/util.py:flattener", "kajiki/template.py:_Template.render", "kajiki/template.py:_Template.__iter__"]}
{"id": "C09", "title": "A literal()/Markup() value can be rendered more than once", "statement": "Interpolating the same literal()/Markup() value twice (e.g. a context variable used in two places) renders its text both times.", "quantifier": "every text and every number of uses", "why_tests_cant": "histories of uses of one value", "anchors": ["kajiki/util.py:literal", "kajiki/util.py:flattener.accumulate_str"]}
{"id": "C10", "title": "Merging adjacent text never changes the output", "statement": "The peephole optimisation that merges adjacent static text pieces never changes what a template renders, for any template body and any guard expressions whose value is stable.", "quantifier": "every sequence of IR nodes and every guard/environment", "why_tests_cant": "needs all sequences and all environments", "anchors": ["kajiki/ir.py:optimize", "kajiki/ir.py:HierNode.body_iter"]}
{"id": "C11", "title": "Generated Python has exactly the template's block structure", "statement": "For every intermediate-representation tree the generated lines, read with Python's indentation rules, parse to the block structure of that tree: every directive's body is exactly its own block, whatever the nesting; and the code is rejected when a directive body is empty or an else is misplaced.", "quantifier": "every IR tree, any depth", "why_tests_cant": "indentation errors only show at particular nestings", "anchors": ["kajiki/ir.py:generate_python", "kajiki/ir.py:HierNode.__iter__", "kajiki/ir.py:DefNode.__iter__", "kajiki/ir.py:WithNode", "kajiki/ir.py:SwitchNode", "kajiki/ir.py:CallNode", "kajiki/ir.py:AttrNode"]}
{"id": "C12", "title": "py:if / py:else", "statement": "The content is rendered iff the test is truthy, and otherwise the directly following py:else content (or nothing) is rendered; exactly one evaluation of the test; nothing else in the template is affected.", "quantifier": "every test value, every body, every position", "why_tests_cant": "all templates and all values", "anchors": ["kajiki/xml_template.py:_Compiler._compile_if", "kajiki/xml_template.py:_Compiler._compile_else", "kajiki/ir.py:IfNode", "kajiki/ir.py:ElseNode"]}
{"id": "C13", "title": "py:for", "statement": "The content is rendered once per item, in order, with the loop variables bound to that item, and the output is the concatenation of the iterations.", "quantifier": "every iterable length, every body", "why_tests_cant": "unbounded iteration counts and bodies", "anchors": ["kajiki/xml_template.py:_Compiler._compile_for", "kajiki/ir.py:ForNode"]}
{"id": "C14", "title": "py:switch picks the first equal case", "statement": "py:switch evaluates its test once and renders exactly the first py:case whose value equals it, or py:else, or nothing; nesting switches (directly or through function calls inside case bodies) never makes a case compare against the wrong switch value.", "quantifier": "every number of cases, every nesting and call pattern", "why_tests_cant": "the switch value lives on a runtime stack; corruption needs deep nesting", "anchors": ["kajiki/template.py:_Template._push_switch", "kajiki/template.py:_Template._pop_switch", "kajiki/template.py:_Template._case", "kajiki/ir.py:SwitchNode", "kajiki/xml_template.py:_Compiler._compile_switch"]}
{"id": "C15", "title": "py:with scoping", "statement": "Variables assigned by py:with have the new values inside the block (later assignments see earlier ones) and, when the block ends, every variable that had a value in the enclosing scope has that value again.", "quantifier": "every body, every nesting of py:with, every prior binding", "why_tests_cant": "restoration must hold for all bodies and nestings", "anchors": ["kajiki/template.py:_Template._push_with", "kajiki/template.py:_Template._pop_with", "kajiki/ir.py:WithNode"]}
{"id": "C16", "title": "Runtime stacks are balanced and leftovers are harmless", "statement": "Rendering any template body leaves the instance's switch and with stacks exactly as it found them when it completes, and what it outputs does not depend on stale entries left by an earlier failed rendering, so an instance can be rendered again after an exception.", "quantifier": "every template body, every starting stack content", "why_tests_cant": "crash points: the exception may occur at any statement", "anchors": ["kajiki/template.py:_Template._push_with", "kajiki/template.py:_Template._push_switch", "kajiki/ir.py:WithNode", "kajiki/ir.py:SwitchNode"]}
{"id": "C17", "title": "py:strip", "statement": "A true py:strip expression (or an empty one) removes exactly the start tag (with its attributes) and the end tag, keeping the content; a false one changes nothing.", "quantifier": "every element, content and guard value", "why_tests_cant": "all elements and contents", "anchors": ["kajiki/xml_template.py:_Compiler._compile_xml", "kajiki/ir.py:TextNode.py", "kajiki/ir.py:AttrNode.__iter__"]}
{"id": "C18", "title": "py:content and py:replace", "statement": "py:content renders the element with the escaped expression value instead of its children; py:replace renders only the escaped value.", "quantifier": "every element, children and value", "why_tests_cant": "all elements and values", "anchors": ["kajiki/xml_template.py:_Compiler._compile_xml", "kajiki/xml_template.py:_Compiler._compile_replace"]}
{"id": "C19", "title": "Functions: py:def and py:call", "statement": "Calling a template function renders its body with the parameters bound to the arguments, and py:call passes its content as a function evaluated in the scope where it was written.", "quantifier": "every body and every argument values", "why_tests_cant": "all bodies and arguments", "anchors": ["kajiki/ir.py:DefNode", "kajiki/ir.py:InnerDefNode", "kajiki/ir.py:CallNode", "kajiki/xml_template.py:_Compiler._compile_def", "kajiki/xml_template.py:_Compiler._compile_call"]}
{"id": "C20", "title": "Attribute form and element form of a directive are equivalent", "statement": "`<tag py:if=\"e\">...</tag>` is compiled exactly like `<py:if test=\"e\"><tag>...</tag></py:if>` (and likewise for every directive).", "quantifier": "every element, every directive, every content", "why_tests_cant": "all documents", "anchors": ["kajiki/xml_template.py:_DomTransformer._expand_directives", "kajiki/markup_template.py:DIRECTIVES"]}
{"id": "C21", "title": "Several directives on one element nest in the fixed documented order", "statement": "Whatever the order in which directive attributes are written, the outermost is the first in the order def, call, case, else, for, if, switch, with, replace, block, extends.", "quantifier": "every set of directives and every attribute order", "why_tests_cant": "2^11 subsets times orders times documents", "anchors": ["kajiki/xml_template.py:_DomTransformer._expand_directives", "kajiki/markup_template.py:DIRECTIVES"]}
{"id": "C22", "title": "No directive attribute survives expansion", "statement": "After expansion no element anywhere in the document still carries a directive attribute, so directives are never rendered as ordinary attributes.", "quantifier": "every document", "why_tests_cant": "every position of every directive in a document of any size", "anchors": ["kajiki/xml_template.py:_DomTransformer._expand_directives"]}
{"id": "C23", "title": "Output is well-formed", "statement": "In xml mode every rendered template is well-formed: each start tag has its matching end tag in the right place, attributes are quoted, text is escaped - whatever the template and whatever the context values (as long as no unescaped markup is injected deliberately).", "quantifier": "every template document, every context", "why_tests_cant": "the headline guarantee quantifies over all templates and all data", "anchors": ["kajiki/xml_template.py:_Compiler._compile_xml", "kajiki/ir.py", "README.rst"]}
{"id": "C24", "title": "Tag closing per mode", "statement": "xml mode self-closes empty elements except script; html modes never self-close, omit the end tag exactly for void elements and always close script.", "quantifier": "every element name, mode and content", "why_tests_cant": "all names x modes x contents", "anchors": ["kajiki/xml_template.py:_Compiler._compile_xml", "kajiki/html_utils.py"]}
{"id": "C25", "title": "Parsing does not depend on how the XML parser chunks text", "statement": "However the XML parser splits character data into events, the transformed document is the same, and its text is exactly the character data (escaped outside CDATA).", "quantifier": "every event stream and every chunking", "why_tests_cant": "chunk boundaries depend on buffer positions - a schedule-like nondeterminism", "anchors": ["kajiki/xml_template.py:_Parser.characters", "kajiki/xml_template.py:_DomTransformer._merge_text_nodes"]}
{"id": "C26", "title": "Whitespace extraction preserves text", "statement": "Merging text nodes and splitting off leading/trailing whitespace never changes the document's text: concatenating the text pieces of every element gives the same string, and the split pieces are either all-whitespace or free of surrounding whitespace.", "quantifier": "every document and every text", "why_tests_cant": "all texts, all Unicode whitespace", "anchors": ["kajiki/xml_template.py:_DomTransformer._merge_text_nodes", "kajiki/xml_template.py:_DomTransformer._extract_nodes_leading_and_trailing_spaces"]}
{"id": "C27", "title": "strip_text only removes surrounding whitespace", "statement": "With strip_text=True every text piece is exactly its whitespace-trimmed version, markup and non-whitespace text are untouched, and stripping twice is the same as once.", "quantifier": "every document", "why_tests_cant": "all documents", "anchors": ["kajiki/xml_template.py:_DomTransformer._strip_text_nodes"]}
{"id": "C28", "title": "Dollar handling in XML templates", "statement": "Any text can be produced literally by doubling every '$'; `$name` and `${expr}` are recognised exactly where documented and every other source character is preserved in order.", "quantifier": "every text, every interleaving of expressions and literals", "why_tests_cant": "all strings", "anchors": ["kajiki/xml_template.py:_TextCompiler.__iter__", "kajiki/xml_template.py:_TextCompiler._get_braced_expr"]}
{"id": "C29", "title": "Braced expressions end at their own brace or are rejected", "statement": "When `${` is accepted in an XML template, the expression text handed to Python is a valid expression, is immediately followed by '}' in the source, and scanning resumes right after that brace; otherwise a compile error is raised.", "quantifier": "every source text and every behaviour of Python's compile()", "why_tests_cant": "all sources x all syntax-error positions", "anchors": ["kajiki/xml_template.py:_TextCompiler._get_braced_expr"]}
{"id": "C30", "title": "script/style content is passed through verbatim", "statement": "Text inside <script>/<style> comes out exactly as the author's decoded text (XML escaping applied by the parser step is undone exactly), wrapped in a CDATA comment pair in xml mode only.", "quantifier": "every script text", "why_tests_cant": "the escape/unescape pair must be inverse on every string", "anchors": ["kajiki/entities.py:unescape", "kajiki/xml_template.py:_Compiler._compile_xml", "kajiki/xml_template.py:_Parser.characters"]}
{"id": "C31", "title": "Comments", "statement": "Comments starting with '!' never reach the output; all others are emitted with their text.", "quantifier": "every comment text", "why_tests_cant": "all comments", "anchors": ["kajiki/xml_template.py:_Compiler._compile_comment"]}
{"id": "C32", "title": "DOCTYPE extraction is exact", "statement": "extract_dtd returns the first DOCTYPE declaration, its position and the markup with just that declaration removed, so re-inserting it at the position restores the markup; when there is none nothing is changed.", "quantifier": "every markup string", "why_tests_cant": "all strings", "anchors": ["kajiki/doctype.py:extract_dtd"]}
{"id": "C33", "title": "Mode detection from the DOCTYPE", "statement": "Every DOCTYPE known to Kajiki, written with any letter case and any whitespace between its parts, is recognised and selects its rendering mode; an explicit mode always wins; unknown doctypes mean xml.", "quantifier": "every registered doctype and every case/whitespace variant of it", "why_tests_cant": "infinitely many spellings", "anchors": ["kajiki/doctype.py:DocumentTypeDeclaration.matching", "kajiki/doctype.py:DocumentTypeDeclaration.regex", "kajiki/xml_template.py:_Compiler.__init__"]}
{"id": "C34", "title": "DOCTYPE emission", "statement": "The output starts with the template's DOCTYPE (or the html5 one in html5 mode) exactly when the template is neither a fragment nor a child that extends another template; otherwise compiling adds none.", "quantifier": "every template and option combination", "why_tests_cant": "all templates x options", "anchors": ["kajiki/xml_template.py:_Compiler.compile"]}
{"id": "C35", "title": "Every translated message was extracted", "statement": "Every string that rendering passes to gettext for template text is in the list produced by i18n.extract on the same source and options, and every extracted text message is a string that the compiled code passes to gettext.", "quantifier": "every template, every execution", "why_tests_cant": "missing catalog entries only show for the template text nobody tried", "anchors": ["kajiki/i18n.py:extract", "kajiki/ir.py:TranslatableTextNode", "kajiki/xml_template.py:make_text_node"]}
{"id": "C36", "title": "Scripts, styles, attributes and blanks are never translated", "statement": "No text directly inside script/style, no attribute text and no all-whitespace text is ever passed to gettext or extracted.", "quantifier": "every template", "why_tests_cant": "all templates", "anchors": ["kajiki/xml_template.py:_Compiler._compile_text", "kajiki/xml_template.py:make_text_node"]}
{"id": "C37", "title": "Text scanner loses nothing", "statement": "The tokens produced for a text template cover its source left to right without gaps or overlaps: every source character belongs to exactly one token, and plain text reaches the output unchanged.", "quantifier": "every source text", "why_tests_cant": "all strings", "anchors": ["kajiki/text.py:_Scanner.__iter__"]}
{"id": "C38", "title": "Text template literal round trip", "statement": "Any text without directive lines can be produced by doubling '$' and '\\\\'; backslash-newline joins lines and a backslash protects the next character.", "quantifier": "every text", "why_tests_cant": "all strings", "anchors": ["kajiki/text.py:_unescape_newlines", "kajiki/text.py:_Scanner"]}
{"id": "C39", "title": "Text template block structure", "statement": "Parsing the token stream written out for any properly nested directive tree reconstructs exactly that tree (if/else, for, switch/case/else, def, call, block, py).", "quantifier": "every directive tree, any depth", "why_tests_cant": "all nestings", "anchors": ["kajiki/text.py:_Parser._parse_body", "kajiki/text.py:_Parser._parse_if", "kajiki/text.py:_Parser._parse_case"]}
{"id": "C40", "title": "Overrides win in the whole inheritance chain", "statement": "When templates extend one another, a plain call f() in any template of the chain runs the child-most definition of f among that template and its descendants.", "quantifier": "every chain length, every assignment of functions to templates", "why_tests_cant": "all chain lengths and override patterns", "anchors": ["kajiki/template.py:_Template._extend"]}
{"id": "C41", "title": "self, local, parent and child", "statement": "In every template of a chain, `local` is that template, `self` is the child-most template, `parent` is the template it extends and `child` the one extending it.", "quantifier": "every chain length", "why_tests_cant": "all chain lengths", "anchors": ["kajiki/template.py:_Template._extend"]}
{"id": "C42", "title": "Inherited functions are available in descendants", "statement": "A function defined only in an ancestor can be called from every descendant template and through `self`.", "quantifier": "every chain length", "why_tests_cant": "all chain lengths", "anchors": ["kajiki/template.py:_Template._extend"]}
{"id": "C43", "title": "Name precedence in a template instance", "statement": "Names resolve as: caller's context first, then the template's functions, then base_globals, then kajiki's built-ins; `_` is always the effective gettext and value_of always reads the final namespace; the caller's context dict is never modified.", "quantifier": "every context, function set and globals", "why_tests_cant": "all dictionaries", "anchors": ["kajiki/template.py:_Template.__init__"]}
{"id": "C44", "title": "Imported and included templates use their own functions", "statement": "A function of an imported/included template that calls another function of the same template reaches that template's own definition, whatever names the importing template uses.", "quantifier": "every pair of templates", "why_tests_cant": "name clashes between arbitrary templates", "anchors": ["kajiki/template.py:_Template._import", "kajiki/template.py:_Template.__init__"]}
{"id": "C45", "title": "Loader caching", "statement": "While nothing changes on disk, repeated imports of a name return the same compiled template and compile it exactly once, for every sequence of imports of any names.", "quantifier": "every sequence of loader operations", "why_tests_cant": "histories are unbounded", "anchors": ["kajiki/loader.py:Loader.import_", "kajiki/loader.py:FileLoader.import_"]}
{"id": "C46", "title": "Reload freshness", "statement": "With reload on, after a template file changes with a newer modification time, the next import returns a template compiled from the new content, also when the change happens between the loader's stat and its read.", "quantifier": "every interleaving of file modifications and imports", "why_tests_cant": "the race window is a schedule", "anchors": ["kajiki/loader.py:FileLoader.import_", "kajiki/loader.py:FileLoader._load"]}
{"id": "C47", "title": "Failed loads leave no stale entry", "statement": "If compiling or finding a template fails, the loader does not cache anything for it and a later import tries again; other entries are untouched.", "quantifier": "every history and failure point", "why_tests_cant": "crash points", "anchors": ["kajiki/loader.py:Loader.import_", "kajiki/loader.py:FileLoader.import_"]}
{"id": "C48", "title": "Search path and extension choice", "statement": "FileLoader uses the first directory of the path that contains the name; PackageLoader prefers .xml, then .html, .html5, .txt.", "quantifier": "every path list and directory content", "why_tests_cant": "all directory contents", "anchors": ["kajiki/loader.py:FileLoader._filename", "kajiki/loader.py:PackageLoader._filename"]}
{"id": "C49", "title": "Line tables are encoded faithfully", "statement": "The byte string built from (offset, line) pairs, read with the documented lookup algorithm, gives for every bytecode address the line of the last pair at or before it; it consists of an even number of bytes <= 255 for any jump sizes; decoding it returns the pairs.", "quantifier": "every monotone list of pairs, any jump sizes", "why_tests_cant": "multi-byte encodings only matter at 255 boundaries", "anchors": ["kajiki/lnotab.py:lnotab", "kajiki/lnotab.py:lnotab_numbers"]}
{"id": "C50", "title": "Traceback lines are mapped through the template", "statement": "After annotation, looking up any bytecode address yields the template line recorded for the Python line the original table gave, and annotation never fails an internal assertion.", "quantifier": "every function line table and every generated-line map", "why_tests_cant": "all tables", "anchors": ["kajiki/template.py:TplFunc.annotate_lnotab", "kajiki/template.py:from_ir"]}
{"id": "C51", "title": "Template line of generated code", "statement": "Every generated line is reported at the template line of the node that produced it.", "quantifier": "every template", "why_tests_cant": "all templates", "anchors": ["kajiki/template.py:from_ir", "kajiki/xml_template.py:_Compiler.compile"]}
{"id": "C52", "title": "Text line numbers survive whitespace extraction", "statement": "Each text piece created when splitting/stripping whitespace carries the line on which its first character really is in the original text.", "quantifier": "every text", "why_tests_cant": "all texts", "anchors": ["kajiki/xml_template.py:_DomTransformer._extract_nodes_leading_and_trailing_spaces", "kajiki/xml_template.py:_DomTransformer._strip_text_nodes", "kajiki/xml_template.py:_TextCompiler"]}
{"id": "C53", "title": "Error snippets", "statement": "Building an error report never fails for any source and line number, marks the reported line with --> and shows the two lines before and after.", "quantifier": "every source text and line number", "why_tests_cant": "all line numbers including out of range", "anchors": ["kajiki/template.py:KajikiSyntaxError._get_source_snippet", "kajiki/xml_template.py:XMLTemplateError._get_source_snippet"]}
{"id": "C54", "title": "Generated names never clash", "statement": "All names handed out by gen_name in a thread are pairwise distinct, whatever the random numbers and however many names were generated before, and a free name always exists.", "quantifier": "every history of requests and every random sequence", "why_tests_cant": "random choices and unbounded history", "anchors": ["kajiki/util.py:NameGen", "kajiki/util.py:gen_name"]}
{"id": "C55", "title": "py:with assignment lists are split correctly", "statement": "A `a = e1; b = e2; ...` list is split into exactly those assignments, in order, also when expressions contain ==, quotes with semicolons not followed by an assignment, and surrounding whitespace.", "quantifier": "every list of assignments", "why_tests_cant": "all lists", "anchors": ["kajiki/ir.py:WithNode.__init__", "kajiki/util.py:window"]}
{"id": "C56", "title": "Python blocks are dedented uniformly", "statement": "A <?py ?> / %py block's lines are emitted with exactly the first line's indentation removed from every line (or the block is rejected), so relative indentation is preserved.", "quantifier": "every block text", "why_tests_cant": "all blocks", "anchors": ["kajiki/ir.py:PythonNode._normalize"]}
{"id": "C57", "title": "Instances do not interfere", "statement": "Rendering any number of template instances in one process, in any interleaving of their steps, gives each the output, exception and effects it has alone: at every moment a beginning of that output, and all of it when it is finished. No rendering is held up by others.", "quantifier": "every program, every family of instances and contexts, every schedule of steps (finite sequence of turns), every initial state of the process, all Python code that depends only on what it sees", "why_tests_cant": "schedules: a test runs a few interleavings of a few templates", "anchors": ["kajiki/template.py:_Template", "kajiki/util.py:flattener"]}
{"id": "C58", "title": "Named entities resolve to their characters", "statement": "A reference `&name;` to any HTML5 entity in kajiki's table is replaced in the template by exactly that entity's characters; a reference to an unknown entity is an error, never silently dropped.", "quantifier": "every entity name and every unknown name", "why_tests_cant": "2231 names and all unknown names", "anchors": ["kajiki/xml_template.py:_Parser.skippedEntity", "kajiki/entities.py:html5"]}
{"id": "C59", "title": "Pyramid loader freshness and caching", "statement": "The Pyramid loader with auto_reload off compiles a path once and keeps returning that template; with auto_reload on, an import always returns a template compiled from the file's content during that import.", "quantifier": "every history of imports and file modifications", "why_tests_cant": "histories are unbounded", "anchors": ["kajiki/integration/pyramid.py:PyramidKajikiLoader.import_"]}
{"id": "C60", "title": "Template functions have their own variables", "statement": "Calling a template function - directly, through py:call, or by including, importing or extending a template - never changes a local variable of the caller or of any other function that is running: after the call every name the caller could see in its own scopes has the value it had before, even if the callee uses the same names or fails.", "quantifier": "every program, store, function, arguments and variable name", "why_tests_cant": "Callees nest without bound and may bind any name in any construct; tests try a few names in a few constructs.", "anchors": ["kajiki/template.py:_Template.__init__", "kajiki/ir.py:DefNode", "kajiki/ir.py:WithNode", "kajiki/ir.py:ForNode"]}
{"id": "C61", "title": "A rendered template is what its document says", "statement": "Rendering an XML template produces exactly the output, exception and side effects that its document means when read directly: elements with their attributes, text, expressions, directives, blocks, functions, includes and inheritance, for any set of templates that use each other. Neither the intermediate representation, the generated Python code nor the runtime's bookkeeping can be noticed.", "quantifier": "every set of documents with the directives in the right places, every context and every behaviour of the expressions", "why_tests_cant": "Documents nest directives without bound and in any combination, and templates refer to each other; tests try a few combinations.", "anchors": ["kajiki/xml_template.py:_Compiler", "kajiki/xml_template.py:_DomTransformer", "kajiki/ir.py", "kajiki/template.py:from_ir", "kajiki/template.py:_Template"]}
{"id": "C62", "title": "Which templates are accepted", "statement": "An XML template without unknown directives is compiled without an exception exactly when its directives and expressions are complete: one root element, expressions that end, py:else where one is allowed, only py:case, py:else and blank text in py:switch, an element first in py:call, assignments in py:with, valid references in scripts, valid py:autoblock values. If its directives are in the right places, the generated Python code is valid exactly when no py:if, py:else, py:for, py:case or py:call is without content. Such templates can be loaded, and rendering them gives what they mean.", "quantifier": "every document, of any depth, with every combination of directives, options and place of function and block definitions", "why_tests_cant": "Whether a directive is accepted depends on its parents, siblings and options in unbounded combinations; tests try a few wrong templates.", "anchors": ["kajiki/xml_template.py:_Compiler", "kajiki/ir.py:generate_python", "kajiki/template.py:from_ir"]}
{"id": "C63", "title": "Documents without directives are reproduced", "statement": "A template that is an XML document without directives and expressions is accepted, and rendering it with any context that has no variable called `local` gives the document itself: the same elements, attributes in alphabetical order, text, CDATA sections and comments in the same order, with special characters as references, `$$` as a dollar sign, and empty elements, boolean attributes, scripts and DOCTYPE in the form of the output mode. With a translation function exactly the texts outside of scripts are translated, without the whitespace around them.", "quantifier": "every document tree of any size and depth, every text and attribute value, all options, DOCTYPEs, contexts and translations", "why_tests_cant": "Documents nest without bound and texts contain any characters; tests compare a few documents.", "anchors": ["kajiki/xml_template.py:_Parser", "kajiki/xml_template.py:_DomTransformer", "kajiki/xml_template.py:_Compiler", "kajiki/ir.py:TranslatableTextNode", "kajiki/template.py:_Template.render"]}
{"id": "C64", "title": "A rendered text template is what its source says", "statement": "A text template written from the documented parts (text, $$, $name, ${expr}, lines %tag, tags {%tag%} with or without minus signs) is compiled without an exception, and rendering it with any context gives what its tree of directives means, read directly from the tree: text as it is, values of expressions escaped if autoescape is on, the branches, loops, choices, functions, calls, blocks, inheritance, imports and includes in source order, with the same output, exception and side effects.", "quantifier": "every source and tree of directives of any size and depth, every set of text templates that extend, import and include one another, every behaviour of the Python expressions, every context", "why_tests_cant": "Directives nest and combine without bound, tags may stand anywhere in a line, and templates refer to one another; tests render a few templates.", "anchors": ["kajiki/text.py:_Scanner", "kajiki/text.py:_Parser", "kajiki/ir.py:generate_python", "kajiki/template.py:_Template.render"]}
{"id": "C65", "title": "Content that shows nothing is shown as nothing", "statement": "A template, function or block whose content shows nothing - it is empty, only declares functions, or only runs code - is rendered as the empty text. In particular a block can be replaced by an empty one.", "quantifier": "every template, text or XML, of any size, every context and every behaviour of the Python code", "why_tests_cant": "Which content yields something depends on all directives in it, nested without bound; tests try an empty template.", "anchors": ["kajiki/ir.py:PassNode", "kajiki/ir.py:DefNode", "kajiki/text.py:_Parser._parse_block", "kajiki/xml_template.py:_Compiler._compile_block", "kajiki/util.py:flattener"]}
{"id": "C66", "title": "Documents with expressions show the values in their places", "statement": "A template that is an XML document with `$name` and `${...}` expressions in texts, CDATA sections, scripts and attributes, and without directives, is accepted. Rendering it gives the document with each expression replaced by its value: in text its string with special characters as references, the markup of a literal or of an object with __html__, nothing for None; in attributes its string with special characters as references; an attribute whose parts are all None is left out. Everything else is the same for all values.", "quantifier": "every document tree of any size and depth, every text, every expression Python accepts, every value, all options, DOCTYPEs and contexts", "why_tests_cant": "Documents nest without bound, expressions stand anywhere between any characters, and values are arbitrary; tests try a few values in a few places.", "anchors": ["kajiki/xml_template.py:_Parser", "kajiki/xml_template.py:_Compiler", "kajiki/ir.py:ExprNode", "kajiki/ir.py:AttrNode", "kajiki/template.py:_Template._escape", "kajiki/template.py:_Template._collect", "kajiki/template.py:_Template._render_attrs"]}
{"id": "C67", "title": "A template is a function of its variables", "statement": "What a template with expressions, py:if, py:else, py:for, py:switch, py:case, py:with, py:replace, py:content, py:attrs, py:strip and Python blocks shows is a function of the values of the variables, given by recursion on the document: a condition shows its content or the py:else after it, a loop shows its content once for every item with the loop variables bound, a switch shows the first equal case or the py:else, and everything else is shown in its place. Rendering gives exactly this text, and raises exactly the exception an expression raises, after the text before it. Nothing else - earlier renderings, other templates, the runtime stacks - has an influence.", "quantifier": "every document tree of any size and nesting, all contexts and values, every Python whose expressions have no side effects, any set of other templates", "why_tests_cant": "Directives nest without bound, and loops run over lists of any length; tests render a few templates with a few contexts.", "anchors": ["kajiki/xml_template.py:_Compiler", "kajiki/ir.py:ForNode", "kajiki/ir.py:IfNode", "kajiki/ir.py:ElseNode", "kajiki/ir.py:SwitchNode", "kajiki/ir.py:CaseNode", "kajiki/ir.py:WithNode", "kajiki/ir.py:AttrNode", "kajiki/template.py:_Template.__iter__", "kajiki/template.py:_Template._push_switch", "kajiki/template.py:_Template._push_with"]}
{"id": "C68", "title": "Options of a load apply to the template it gives", "statement": "A template obtained from a loader with options (is_fragment and so on) was compiled with these options, whatever was loaded before.", "quantifier": "every sequence of loads of any names with any options, any changes of the file system in between, all loader configurations", "why_tests_cant": "Whether the options count depends on the whole history of the loader; tests load a template once.", "anchors": ["kajiki/loader.py:Loader.import_", "kajiki/loader.py:FileLoader._load", "kajiki/integration/pyramid.py:PyramidKajikiLoader.import_"]}
{"id": "C69", "title": "The Pyramid renderer shows the values of the view", "statement": "The Pyramid renderer renders the template named by renderer_name, or else by renderer_info. The names the view returned have the values it returned, also if Pyramid has such a name, and all other names are those of Pyramid. A view that returns no dictionary is a ValueError.", "quantifier": "every loader state, view result and set of names from Pyramid, pages and fragments", "why_tests_cant": "Any name may come from both sides; there are no tests of the integration.", "anchors": ["kajiki/integration/pyramid.py:PyramidKajikiLoader.__call__", "kajiki/integration/pyramid.py:PyramidKajikiLoader.fragment"]}
{"id": "C70", "title": "A page is its layout with the blocks replaced", "statement": "A template that extends a layout, directly or through other templates, shows the layout in which every block shows the content of the block of this name in the first of these templates that has one, starting with the one that is rendered, and its own content if none has one. Blocks inside a block can be replaced on their own. The content of a replacing block sees the variables of its own template; blocks see no local variables of the place where they are. Everything else in the extending templates follows after the layout. If an expression raises an exception, exactly the text before it was shown.", "quantifier": "chains of templates of any length, layouts and templates of any size and nesting with any number of blocks, all contexts and values, every Python whose expressions have no side effects, any set of other templates", "why_tests_cant": "Tests check a few pairs of templates; which block is shown depends on all templates of the chain, and each kind of content can be in a block.", "anchors": ["kajiki/template.py:_Template._extend", "kajiki/xml_template.py:_Compiler._compile_extends", "kajiki/xml_template.py:_Compiler._compile_block", "kajiki/ir.py:ExtendNode"]}
{"id": "C71", "title": "Functions of templates mean what they say, through any chain of templates", "statement": "Rendering a template with functions (py:def) and blocks, alone or extending other templates, gives exactly the text that calling the functions by value gives: a call shows the content of the function with its parameters bound to the arguments, and it sees no local variables of the place of the call. A name of a function means, in each template, the function of the first template of the chain that has one, starting with the one that is rendered, but a template sees only the functions of templates that extend it, its own, and those of the template it extends. Functions may call each other and themselves. parent_block() in a block shows the block of this name of the next template that has one, which may in turn call its parent_block(). If an expression raises an exception, or calls are nested too deep, exactly the text before it was shown.", "quantifier": "chains of templates of any length without py:call, py:include and py:import, any number of functions and blocks with contents of any size and nesting that are called in texts, py:content and py:replace, recursion of any depth, all contexts, arguments and values, every Python whose expressions have no side effects, every limit of the depth of calls", "why_tests_cant": "Which function a call means depends on all templates of the chain, and recursion can go to any depth; tests check a few pairs of templates and single calls.", "anchors": ["kajiki/template.py:_Template._extend", "kajiki/template.py:_Template.__init__", "kajiki/xml_template.py:_Compiler._compile_def", "kajiki/xml_template.py:_Compiler._compile_block", "kajiki/ir.py:DefNode"]}
{"id": "C72", "title": "Rendered XML is read as the document with the values as text", "statement": "What a template without directives renders in xml mode can be read by an XML reader, and is read as the template's own document: the same elements, attributes and comments, with the string of each value as text in the place of its expression (with whitespace in attributes read as spaces, and values in CDATA sections and scripts read in their escaped form). Whatever the strings of the values are, the reader finds exactly the elements and attributes of the template.", "quantifier": "every document tree of any size and depth with expressions in texts, attributes, CDATA sections and scripts, every value that is not markup, all contexts; what is rendered consists of characters that XML allows other than CR, and no CDATA section or script contains ]]>", "why_tests_cant": "Whether text can be mistaken for markup depends on all strings and all places; tests read back a few outputs with a few values.", "anchors": ["kajiki/template.py:_Template._escape", "kajiki/xml_template.py:_Compiler._compile_xml", "kajiki/xml_template.py:_Parser.startCDATA", "kajiki/ir.py:AttrNode"]}
{"id": "C73", "title": "Rendered HTML is read as the document with the values as text", "statement": "What a template without directives renders in an html mode can be read by an HTML reader, and is read as the template's own document: the same tags, attributes and comments in the same order, with the string of each value as text in the place of its expression (values in scripts and style sheets are read in their escaped form, boolean attributes have no value, void elements no end tag). Whatever the strings of the values are, the reader finds exactly the tags and attributes of the template.", "quantifier": "every document tree of any size and depth with expressions in texts, attributes, scripts and style sheets, every value that is not markup, all contexts, every html mode, any DOCTYPE; no CDATA sections outside of scripts, only text in title and textarea, names without capital letters, no </ in scripts, none of the elements whose content is not HTML (iframe, noscript, xmp, ...); what is rendered consists of ordinary characters other than CR", "why_tests_cant": "Whether text can be mistaken for markup depends on all strings and all places, and scripts, titles and attributes each have rules of their own; tests compare a few outputs with a few values.", "anchors": ["kajiki/template.py:_Template._escape", "kajiki/xml_template.py:_Compiler._compile_xml", "kajiki/ir.py:AttrNode", "kajiki/html_utils.py:HTML_CDATA_TAGS", "kajiki/html_utils.py:HTML_OPTIONAL_END_TAGS"]}
{"id": "C74", "title": "A template with directives is read as its tree", "statement": "What a template with directives, functions and blocks renders, also one that extends other templates, can be read by an XML reader (in html modes by an HTML reader), and is read as the tree of the template: directives choose, repeat, replace and leave out whole elements and texts, attributes are filled in or left out, the string of each value is text in the place of its expression. No value and no combination of directives can open, close or change an element; and rendering ends with an exception exactly if evaluating the tree does, with the same one.", "quantifier": "every template of any size and depth with any nesting of py:if, py:else, py:for, py:switch, py:with, py:strip, py:attrs, py:content, py:replace, py:def, py:block, py:extends, all contexts and values, every number of extended templates; the template has a tree: names of elements are names, attributes are not given twice, py:strip has the same value after the content as before, no CDATA sections outside of scripts, markup values are well-formed (XML) or not used (HTML); what is rendered consists of ordinary characters other than CR", "why_tests_cant": "That text put together from start tags, end tags and pieces by loops, branches and function calls is always balanced and means what the tree means is a statement about all templates and all values; tests compare a few outputs as strings.", "anchors": ["kajiki/xml_template.py:_Compiler._compile_xml", "kajiki/template.py:_Template._escape", "kajiki/template.py:_Template.__iter__", "kajiki/ir.py:AttrNode"]}
{"id": "C75", "title": "A text template is a function of its variables", "statement": "What a rendered text template shows, and whether rendering ends with an exception, is a function of the values of the variables: texts are shown as they are, each expression shows the (escaped, if autoescape is on) string of its value, conditions, loops and choices show what they choose, blocks show their content where they are, and a function of a %def shows, wherever it is called, its content with the parameters bound to the arguments; nothing depends on scopes, instances, generators or on anything rendered before.", "quantifier": "all text templates of any size and depth with expressions, %if, %else, %for, %switch, %case, %py, %block and %def, in any set of templates; all contexts, all values, all pure behaviours of Python expressions, recursion of any depth; no %call, no %def in a %def, no %extends, %import, %include; no variable has the name of a function", "why_tests_cant": "Rendering goes through a generated Python class with methods, closures, flatteners and generators; that all this amounts to a pure function of the variables, for all nestings and all recursive calls, is a statement about all templates and executions, of which tests can only sample a few.", "anchors": ["kajiki/text.py:_Parser.parse", "kajiki/text.py:_Parser._parse_def", "kajiki/text.py:_Parser._parse_block", "kajiki/template.py:_Template.__iter__", "kajiki/ir.py:DefNode"]}
{"id": "C76", "title": "Including a template shows it with the page's variables", "statement": "A py:include, and an %include in a text template, shows what the included template shows with the values its variables have in the including page's namespace: those of the context, and, for names the context does not have, the including template's own ones; variables of loops and py:with of the including template are not seen, and the included template can change nothing of what is shown after it. Included templates may include others, also themselves, to any depth; then the text and the exception rendering ends with are a function of the values of the variables. Only the name of the included file changes its meaning.", "quantifier": "all sets of XML templates, and all sets of text templates, that include each other in any way, at any place, under any directives, also recursively; all contexts, all values, all pure behaviours of Python expressions, any bound on the depth of calls; no functions, blocks and py:extends, and expressions do not use value_of or the names of included files", "why_tests_cant": "An include loads a class, makes an instance from the including template's globals, binds it under a name there, and runs its generator inside of the running one; that none of this shows in the output, for all sets of templates and all recursions, is a statement about all executions. Tests include one file once.", "anchors": ["kajiki/template.py:_Template._import", "kajiki/template.py:_Template.__init__", "kajiki/ir.py:IncludeNode", "kajiki/xml_template.py:_Compiler._compile_include", "kajiki/text.py:_Parser._parse_include"]}
{"id": "C77", "title": "Exceptions end rendering and are not swallowed", "statement": "If anything in a template raises an exception while it is rendered - an expression, the header of a loop, a Python block, binding arguments, the translation - then rendering ends with this very exception, wherever it was raised: in functions, blocks, included and extended templates, attributes; and what was shown before is the beginning of what would have been shown without it. In the same way a higher recursion limit changes nothing unless the lower one was reached.", "quantifier": "all programs (all XML and text templates, any sets of them), all contexts, all behaviours of Python with any side effects, all exceptions other than StopIteration, which generators treat in a way of their own, all places where they are raised, all recursion limits", "why_tests_cant": "Generated code runs through generators, flatteners, trampolines and collected attributes, each of which could drop or replace an exception; that none does, for any template and any place, is a statement about all executions.", "anchors": ["kajiki/template.py:_Template.__iter__", "kajiki/template.py:_Template._collect", "kajiki/util.py:flattener", "kajiki/ir.py:AttrNode", "kajiki/template.py:_Template._extend"]}
{"id": "C78", "title": "Values bring no markup into a page", "statement": "Whatever templates do, their output is made of their own texts, translated messages, attribute names and quotes, and of pieces that contain no <, > or \" and & only as part of a reference: a value that is not marked as markup (literal() or an object with __html__) can show nothing else. In templates compiled from documents the only expressions whose results are not escaped are the functions of py:call.", "quantifier": "all sets of templates with all directives - functions, blocks, inheritance, includes, imports, attributes, py:attrs, Python blocks -, all contexts without markup, all behaviours of Python with any side effects and exceptions that make no markup from values that are none, any depth of calls", "why_tests_cant": "Every path by which a value can get into the output - attributes, functions, callers, blocks, translated messages, included templates - must escape it exactly where needed; a test shows one path with one string, while one forgotten path is an injection.", "anchors": ["kajiki/template.py:_Template._escape", "kajiki/template.py:_Template._render_attrs", "kajiki/ir.py:ExprNode", "kajiki/ir.py:CallNode", "kajiki/xml_template.py:_Compiler._compile_call"]}
{"id": "C79", "title": "Parts of a template may be exchanged for others that show the same", "statement": "If a template is changed in some places, and in each of them the new part shows what the old one showed and leaves the same variables (whatever the variables are), then the whole template renders to the same text and raises the same exception, wherever the places are: in loops, conditions, cases, elements, functions, blocks, extended, imported and included templates, however deep. The same holds if Python has side effects, for parts that do the same in every state and define the same functions; then the side effects are the same too. In particular one may take away a py:nop or an element with py:strip=\"\" and keep its content, write ${e} for <py:replace value=\"e\"/> and <t>${e}</t> for <t py:content=\"e\"/>, turn a condition round with its py:else, write a py:switch with one py:case as a py:if, and remove <!--! comments -->.", "quantifier": "all templates without functions, sets of templates that include each other, and, with any Python, all sets of templates (functions, blocks, py:call, py:extends, py:import, py:include); any number of changed places at any depth, all contexts and values; the laws for all contents, attributes and surrounding elements", "why_tests_cant": "A test compares two given templates; that a change is safe in every surrounding - under any nesting of directives, with any values and exceptions - is a statement about all templates.", "anchors": ["kajiki/xml_template.py:_Compiler", "kajiki/xml_template.py:_Compiler._compile_nop", "kajiki/xml_template.py:_Compiler._compile_replace", "kajiki/xml_template.py:_Compiler._compile_xml", "kajiki/ir.py:IfNode", "kajiki/ir.py:SwitchNode"]}
{"id": "C80", "title": "Variables that are not used have no influence", "statement": "If two contexts differ only in variables that the expressions, loops and Python blocks of a template do not look at, the template renders to the same text from both, and raises the same exception. Adding further variables to the context, taking away unused ones or changing their values is safe. The same holds for templates that include each other with py:include, for text templates that do with %include, and for text templates with functions.", "quantifier": "all documents without functions, all sets of documents that include each other, all text templates with functions and blocks, all sets of text templates without functions that include each other; any two contexts that agree on the variables used; every Python whose expressions have no side effects and that does not look at the variables in question", "why_tests_cant": "There are infinitely many other variables and values; a test fixes the two contexts. Names the generated code uses itself (local variables, functions of the template, aliases of included ones) could collide with a variable, and the property says which do.", "anchors": ["kajiki/template.py:_Template.__init__", "kajiki/template.py:_Template._push_switch", "kajiki/template.py:_Template._import", "kajiki/ir.py:TemplateNode", "kajiki/xml_template.py:_Compiler"]}
{"id": "C81", "title": "Which options reach a template", "statement": "When a FileLoader makes a template from a file, each parameter of XMLTemplate or TextTemplate is what the loader gives by itself (file name, mode, autoescape, with a forced mode also autoblocks), else the option given to this load, else the option given to the loader, else the default value; the file is read in that encoding and compiled with these options. The encoding given to load itself has no effect, and xml_autoblocks has none unless a mode is forced. An option the constructor does not know, or that the loader gives itself, is a TypeError, and a file of unknown extension a KeyError. In Pyramid, pages and fragments are read as UTF-8 and compiled in the mode of the application.", "quantifier": "all configurations of the loader, all file names, all options given to load and to the loader with any values, any behaviour of the file system and the XML parser", "why_tests_cant": "Options come from three places and their combinations, with any names and values, are unlimited; which of them wins, which are dropped silently and which are errors can only be settled for all of them by proof.", "anchors": ["kajiki/loader.py:FileLoader.__init__", "kajiki/loader.py:FileLoader._load", "kajiki/xml_template.py:XMLTemplate", "kajiki/text.py:TextTemplate", "kajiki/integration/pyramid.py:PyramidKajikiLoader._load"]}
{"id": "C82", "title": "Rendering raises only what Python raises", "statement": "If rendering a template ends with an exception, the exception comes from Python: an expression, the header of a loop or a Python block raised it, or computing the arguments of a call did, or they did not fit the parameters, or py:attrs was given something that is neither a mapping nor a list of pairs. Otherwise a template that is included is missing, or calls and inclusions were nested deeper than the recursion limit. Templates that do not include each other in circles never reach a limit that is at least the depth of inclusions, and any higher limit gives exactly the same result. In particular the machinery of rendering - scopes, switches, with statements, flatteners, inheritance, attributes - never fails by itself.", "quantifier": "all documents without functions, all sets of documents that include each other, all chains of documents that extend each other with functions and blocks, all text templates with functions and blocks, and all sets of text templates without functions that include each other; all contexts, every Python whose expressions have no side effects, all recursion limits", "why_tests_cant": "A failure of the generated code itself (a stack popped when empty, a name that is not there, a generator that is not iterable) may need a particular nesting of directives with particular values; a test shows one rendering without failure, the property excludes all of them.", "anchors": ["kajiki/template.py:_Template.__iter__", "kajiki/template.py:_Template._push_with", "kajiki/template.py:_Template._pop_switch", "kajiki/template.py:_Template._import", "kajiki/template.py:_Template._extend", "kajiki/ir.py:generate_python"]}
{"id": "C83", "title": "Including a template is pasting it", "statement": "Replacing py:include elements, in any templates and at any depth, by the root element of the template they include does not change what is rendered: the text and the exception, if there is one, are the same. It needs that the included template does not look at local variables (those of py:for, py:with and Python blocks) of the place where it is before it sets them, and that the including one does not look at those the included one leaves; templates that set no local variables can always be pasted. The same holds for replacing %include in text templates by the content of the included text template. Rendering that fails only because inclusions are nested too deep is excepted; the templates with others pasted in never need a higher limit.", "quantifier": "all sets of documents, and all sets of text templates, that include each other, also in circles, all choices of inclusions to replace, all contexts, every Python whose expressions have no side effects, all recursion limits", "why_tests_cant": "Whether the generated code of an included template behaves the same inside the including one depends on every variable and every directive around it; tests show pairs of templates that agree, not that splitting a page into files never changes it.", "anchors": ["kajiki/template.py:_Template._import", "kajiki/ir.py:IncludeNode", "kajiki/xml_template.py:_Compiler._compile_include", "kajiki/text.py:_Parser._parse_include"]}
{"id": "C84", "title": "Local variables hide those of the context", "statement": "A template that looks at the variables it sets with py:for and py:with only inside of these renders to the same text, and raises the same exception, whether the context has variables of the same names or not, and whatever their values are. The same holds for templates that include each other, if each of them does so. It also holds for text templates, where the parameters of functions and what a Python block sets before count as well. Text templates that include each other are covered as well, if each sets its variables with %for before it looks at them.", "quantifier": "all documents without functions, all sets of documents that include each other, all text templates without %call and other templates, all sets of text templates without functions that include each other, any two contexts that agree on the other variables, every Python whose expressions have no side effects, all recursion limits", "why_tests_cant": "Context variables are global variables of the generated module and local ones are variables of its functions; whether a loop or a py:with can let a global value through depends on every nesting of directives, on what is restored at their ends and on the values in question.", "anchors": ["kajiki/ir.py:ForNode", "kajiki/ir.py:WithNode", "kajiki/template.py:_Template.__init__", "kajiki/xml_template.py:_Compiler._compile_with", "kajiki/text.py:_Parser._parse_for"]}
{"id": "C85", "title": "Extraction finds every text and every shown expression", "statement": "i18n.extract yields exactly the texts of a document that are to be translated: all non-blank literal text outside of scripts and style sheets, at any depth and inside of any directives, except content that py:content or py:replace replaces. With the option extract_python it also yields everything Babel finds in the expressions that are shown (in text, in attributes, in py:content and py:replace), and nothing else but what it finds in calls of blocks. The functions and blocks of the template must have different names. An expression Babel cannot read ends the extraction with an error at its line after everything before was yielded; without the option expressions are ignored.", "quantifier": "all documents, all options of extract, every behaviour of Babel's extract_python", "why_tests_cant": "A message that is missing from the catalogue is only noticed in the translated page; whether some nesting of directives, blocks and functions hides a text from extraction is a question about all documents.", "anchors": ["kajiki/i18n.py:extract", "kajiki/ir.py:ExprNode", "kajiki/ir.py:AttrNode", "kajiki/ir.py:TranslatableTextNode"]}
{"id": "C86", "title": "Kajiki is configured once in a Pyramid application, and its settings hold ever after", "statement": "Including kajiki.integration.pyramid registers exactly the white-space separated words of kajiki.extensions (.kajiki by default) and makes a loader with the mode kajiki.mode (html5 by default). Including it again at any time, with any settings, changes nothing: neither what is shown, nor the extensions, nor what the loader remembers. In any history, a view that is shown is shown by a template compiled in that mode from the file of its name, with the names of the view before those of Pyramid; if pyramid.reload_templates is on, it is compiled from what the file holds at that moment. If that setting cannot be read, the exception is raised, and until Kajiki is included again everything that is to be shown is an AttributeError.", "quantifier": "all settings, all histories of inclusions, views and fragments, all changes of files in between (with positive modification times for reloading), every behaviour of asbool, the compiler and rendering", "why_tests_cant": "A configuration is included by several parts of an application in any order and between requests; that none of these orders can lose the cache, change the mode or serve an old page is a statement about all histories.", "anchors": ["kajiki/integration/pyramid.py:includeme", "kajiki/integration/pyramid.py:renderer_factory", "kajiki/integration/pyramid.py:PyramidKajikiLoader"]}
{"id": "C87", "title": "What the TurboGears plugin renders", "statement": "The plugin renders a template of a dotted name with the variables TurboGears gives before those of the controller. Without a function for these variables rendering is a TypeError, and in Python 3 it is a NameError. The kind of a template is that of kajiki.force_mode if it is given, and otherwise that of the file; the only mode that makes text templates is text, not the documented txt.", "quantifier": "all contexts, all options, all packages and files, every behaviour of the compiler and rendering", "why_tests_cant": "The precedence of names and the kind of each file concern all contexts and all file names, and the plugin runs inside a framework that is not available to tests.", "anchors": ["kajiki/integration/turbogears1.py:XMLTemplateEnginePlugin.transform", "kajiki/integration/turbogears1.py:XMLTemplateEnginePlugin.__init__", "kajiki/loader.py:PackageLoader"]}
{"id": "C88", "title": "Rendering with a translation is rendering the translated template", "statement": "Let a template be the translation of another one: the same document, but each non-blank literal text outside of scripts says what gettext gives for it, with the same expressions in the same order. Rendering the original with that gettext and the translated template with a gettext that changes nothing gives the same text, or the same exception. The same holds for templates that include each other. For a text without expressions, the translation with each $ doubled is such a text.", "quantifier": "all documents without functions, all sets of documents that include each other, all translations, all contexts, every Python whose expressions have no side effects, all recursion limits", "why_tests_cant": "Whether translation can reach an attribute, a script, an expression or a directive, or miss a text, depends on every nesting of directives; the claim is about all documents and all catalogues.", "anchors": ["kajiki/ir.py:TranslatableTextNode", "kajiki/xml_template.py:_Compiler._compile_text", "kajiki/template.py:_Template.__init__"]}
{"id": "C89", "title": "Parts of a text template may be exchanged for others that do the same", "statement": "If text templates are changed in some places, at any depth and also in functions, blocks and choices, and in each place the new part does the same in every state and defines the same functions, then rendering any of the templates gives the same text, the same exception and the same side effects. A text may be cut in two, a condition may be negated with its two branches swapped, a condition that always holds may be left out, and an expression that is always the same string is its text (escaped if autoescape is set).", "quantifier": "all sets of text templates (with functions, blocks, %call, %extends, %import, %include), all contexts, every Python (with side effects), all recursion limits", "why_tests_cant": "Whether a change in one place can be noticed elsewhere depends on everything around it - line structure, functions, generated names, layouts; a test compares one pair of templates.", "anchors": ["kajiki/text.py:_Parser", "kajiki/ir.py:DefNode", "kajiki/ir.py:optimize", "kajiki/template.py:_Template"]}
{"id": "C90", "title": "Extracted messages carry their lines", "statement": "Every message that extraction reports for an XML template is a piece of a text or CDATA section of the document, and the reported line is the line it begins on: the line of the text plus the line breaks before the message in the text. This holds through directives, blocks, functions, switches and autoblocks, whatever the elements around the text.", "quantifier": "all event streams and documents accepted by the compiler, all modes, all Python compilers, with and without stripping of text", "why_tests_cant": "Lines are counted in several places (parser, joining and splitting of texts, cutting into expressions) and later filled in for nodes without a line; a test looks at one text in one element.", "anchors": ["kajiki/i18n.py:extract", "kajiki/xml_template.py:_TextCompiler", "kajiki/xml_template.py:annotate"]}
{"id": "C91", "title": "Expressions of text templates carry their lines", "statement": "In the code compiled from a text template every expression carries the line of the source on which it ends, so that an exception in it is reported there; whatever text, expressions, directives with and without minus signs, multi-line tags, functions and blocks come before it.", "quantifier": "all sources of text templates written from the documented parts (as in C64), at any nesting, with and without autoescape", "why_tests_cant": "The scanner counts lines piece by piece, differently for each kind of piece; one piece counted wrongly shifts everything after it, and a test covers one sequence of pieces.", "anchors": ["kajiki/text.py:_Scanner", "kajiki/text.py:_Parser"]}
{"id": "C92", "title": "Expressions of XML templates carry their lines", "statement": "In the code compiled from an XML template every expression carries the line of the source on which it is written, so that an exception in it is reported there: expressions in text and in CDATA sections, in attributes, and those of directives and blocks; whatever comes before it in the same text.", "quantifier": "all documents, at any nesting, with all directives, scripts and blocks; all texts and attribute values in which no expression contains a dollar sign; all modes and options", "why_tests_cant": "Lines are counted within a text and handed down from elements to nodes without a line; a directive that forgets to do so, or a piece counted wrongly, shows only for certain nestings, and tests compare output, not lines.", "anchors": ["kajiki/xml_template.py:annotate", "kajiki/xml_template.py:_Compiler", "kajiki/xml_template.py:_TextCompiler"]}
{"id": "C93", "title": "Exceptions in XML templates are reported on the right line", "statement": "When rendering an XML template fails in an expression, a directive, an include or a Python block, the line of the generated Python at fault is mapped to the line of the template that it was generated from, also after end tags, merged texts, loops, nested functions, attributes and the code that closes py:with and py:switch.", "quantifier": "all documents whose lines do not decrease, at any nesting, with all directives; every line of the generated main function; all modes and options", "why_tests_cant": "The mapping takes the maximum of all lines so far, so one line recorded too late spoils the rest; whether this happens depends on the whole sequence of nodes, and on line breaks inside of expressions before.", "anchors": ["kajiki/template.py:from_ir", "kajiki/ir.py:generate_python", "kajiki/ir.py:PyLine", "kajiki/xml_template.py:annotate"]}
{"id": "C94", "title": "Exceptions in text templates are reported on the right line", "statement": "When rendering a text template fails in an expression, the line of the generated Python at fault is mapped to the line of the template that the scanner recorded for the expression, also after tags, escapes, continued lines, merged texts and nested bodies.", "quantifier": "all text template sources that are accepted, with any nesting of tags; every line of the generated main function that has a line; any Python compiler and any generator of names", "why_tests_cant": "The mapping takes the maximum of all lines so far, so a scanner line that ever decreased, or a node moved by the parser, would spoil all that follows; whether this happens depends on the whole sequence of tokens, and on line breaks inside of expressions before.", "anchors": ["kajiki/template.py:from_ir", "kajiki/text.py:_Scanner", "kajiki/text.py:_Parser", "kajiki/ir.py:generate_python"]}
