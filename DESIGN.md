# Formal model of kajiki — design

Subject: `nandoflorestan/kajiki` (read-only in `/repo`), a Python templating engine.  The model is in
Lean 4 under `lean/Verif/`.  Nothing of the repo is executed.

* `properties.jsonl` — the properties, in terms of the API
* `lean/Verif/Model/*` — the code, function by function; every definition cites file and lines
* `lean/Verif/Spec/*` — the small specifications the theorems are stated with
* `lean/Verif/Lemmas/*` — proofs only
* `lean/Verif/Props/*` — the theorems (`C01_…` belongs to property C01), each with an `example`
* `lean/Verif/Audit.lean` — fails to build if a theorem depends on another axiom than the three below
* `MANIFEST.json` — which theorems settle which property (generated by `tools/gen_manifest.py`)
* `seeded/` — wrong programs the theorems were tested against, and the log

## Shape of the model

Text is `Str := List Char`.  Exceptions are values (`Except Err`, or the `val` of a `Res`).  Every
function is total.  Python loops that search or consume became structural recursions; where a bound on
the number of steps is needed it is either proved sufficient (`parseBody_enough`) or it is Python's own
recursion limit (`callN`), and the theorems hold for every value of it.

| layer | Lean modules | repo code |
|---|---|---|
| Python `str`, `dict`, `shlex` | `PyStr`, `Dict`, `Shlex` | methods used by kajiki (trusted transcription) |
| values | `Value` | `str()`, `bool()`, `==` on the objects a template meets |
| escaping, attributes | `Runtime` | `template.py` `_escape`, `_render_attrs`, `_collect`; `html_utils.py` |
| streams | `Flattener` | `util.py` `flattener`, `literal`; `template.py` `__iter__`, `render`, `_collect` |
| names, windows, `py:with` lists, dedenting | `Util` | `util.py`; `ir.py` `WithNode`, `PythonNode` |
| IR and code generation | `Ir` | `ir.py` |
| reading the generated code | `PyCode` | Python's indentation and statement grammar |
| running it | `Interp` | `template.py` `_Template` (instances, inheritance, imports, stacks, `TplFunc`) |
| renderings that take turns | `Sched` | the same code, cut into steps |
| classes, programs, processes | `Program` | `template.py` `Template`, `from_ir` |
| XML documents | `Dom` | `xml_template.py` `_Parser`, `_DomTransformer` |
| expressions in XML text | `XmlText` | `xml_template.py` `_TextCompiler` |
| XML compiler | `XmlCompile` | `xml_template.py` `_Compiler` |
| message extraction | `I18n` | `i18n.py` |
| text templates | `Text` | `text.py` `_Scanner`, `_Parser` |
| doctype, entities | `Doctype`, `Entities`, `EntityTable` | `doctype.py`, `entities.py` |
| loaders | `Loader` | `loader.py`, `integration/pyramid.py` |
| options of loaders and templates | `Settings` | `loader.py` `FileLoader._load`, `xml_template.py` `XMLTemplate`, `text.py` `TextTemplate` |
| applications | `Integration` | `integration/pyramid.py` `includeme`, `renderer_factory`; `integration/turbogears1.py` |
| line tables, error reports | `Lnotab`, `Errors` | `lnotab.py`; `template.py`, `xml_template.py` |

How the pieces fit: `xmlTemplate` (events of expat) and `textTemplate` (source text) give a `Tmpl`;
`generatePython` turns it into indented lines; `compilePy` reads these the way Python does;
`fromIr` makes the class; `newInst`, `renderInst` and `history` run a process.

The generated program is a list of structured lines, not text: a `PLine` says which statement the text
spells.  What Python reads is decided by the indentation numbers alone, as in the tokenizer of the
language reference, so mistakes in indentation, missing bodies and misplaced `else` are in the model.

Python expressions are opaque.  Their results come from an `Oracle` (`eval`, `iter`, `py`, `args`,
`gettext`) that may read everything visible and change an arbitrary world; nothing is assumed about it
unless a theorem says so.  `compile(…, 'eval')` is an oracle too (`PyCompile`).

## Trusted base

* Lean 4.33 kernel; axioms at most `propext`, `Classical.choice`, `Quot.sound` (`Verif/Audit.lean`
  checks every theorem of `Kajiki.Props` when it is built).  No `sorry`, no axioms of our own, no
  `native_decide`, no `bv_decide`.  `decide +kernel` is used for finite tables and for concrete witnesses.
* The transcription of the repo's functions into Lean.
* Python facts: `PyStr` (whitespace set, line boundaries, `str` methods), insertion-ordered `dict`,
  `shlex.split`, the meaning of the regular expressions in the code, the indentation grammar, and that
  `%r` of a `str` is a literal denoting that `str`.
* The entity table `EntityTable.lean` is generated by `tools/gen_entities.py` from `/repo`.

Not modelled: expat/SAX tokenisation of XML (the model starts at the SAX event stream), Python's own
expression syntax and evaluation (oracles), byte code and `types.CodeType`, file encodings, Babel
(its `extract_python` is a parameter of `extract`), `asbool` and `abspath_from_resource_spec` (parameters), Pyramid's choice of a
renderer, `kajiki.loader_class` of TurboGears, `setup.py` and other scripts,
Python 2 branches.

Simplifications, also stated at the definitions:

* a flattener in the stream is read to its end before the generator continues (true of `render()`);
* the iterable of a `for` is read before its first iteration; default values of parameters do not
  depend on the scope of the definition;
* `local` is looked up when a function starts; `self`, which generated code uses for escaping and attributes
  (`self.__kj__`), is taken to be the instance, while a variable of that name is an `AttributeError` in Python there;
* a name that a function binds somewhere (`py:with`, `py:for`, an inner `py:def`, a Python block) is local in all of it in
  Python, so reading it before is an `UnboundLocalError`; here expressions see the global variable of that name, if there is
  one.  The model is exact for functions that do not bind names of global variables or do so before they read them (for
  the latter C84 proves that the global variable does not matter);
* `==` on objects is identity, on mappings it compares their text; `sorted` on three or more entries of
  one key is taken to perform every comparison;
* the loader used by a running program gives the same class for the same name (the loader itself is
  modelled apart, with a file system that may change between any two accesses);
* targets of `py:with` are single names in the interpreter (splitting the list is modelled on text);
* the code of a function without `yield` runs when its result is shown, not already when it is called (showing it is
  then a `TypeError`, as in Python); Python blocks contain no `yield`;
* when a template has several mistakes, Python may report another one;
* in `Sched`, evaluating one expression, making an instance, `_extend` and `_import` are one step each;
* `str()` of instances, functions and flatteners leaves out the address;
* surrogates are not represented.

## Specifications

* `Spec/Code`: the statements a tree stands for, by recursion on the tree (C11).
* `Spec/Sem`: the meaning of a template without generated code and without runtime stacks: `if`, `for`,
  `switch`, `with`, functions by recursion on the tree.  `C12_rendering_is_meaning` proves that the
  generated code, read by Python and run on the stacks, does exactly this, for every oracle.
* `Spec/Chain`: the namespaces of a chain of templates extending one another (C40–C43).
* `Spec/Dom`, `Spec/XmlText`, `Spec/XmlCompile`, `Spec/Forms`, `Spec/Gettext`: text of a document, the
  cutting of text at dollars, tag closing, the two forms of directives, messages.
* `Spec/WellFormed`: a grammar of well-formed content, values that cannot inject markup (C23).
* `Spec/Scope`: which names an expression depends on and which a tree binds (C23, C60).
* `Spec/DocSem`: the meaning of a document after expansion of its directives, without compiler, tree,
  code or stacks (C61), and `placed`: where directives may stand.
* `Spec/Accept`: which documents the compiler accepts, and which directives have content (C62).
* `Spec/Static`: documents without directives, how they are written and how they are shown, with and without a
  translation (C63).
* `Spec/Fill`: the same with expressions, and how they are shown when the expressions have given values (C66, and
  C01, C02 for rendered documents).
* `Spec/Pure`: what a document with directives shows as a function of the values of variables, without state and
  scopes (C67).  Expressions are functions of the visible variables; what functions of templates show is a parameter.
* `Spec/Layout`: what a template shows that extends a layout through any number of templates: the layout with its blocks
  replaced, again as a function of the values of variables (C70).
* `Spec/Funs`: what a template shows that has functions (`py:def`) and blocks and extends any number of templates
  (C71).  Functions have parameters and may be recursive; the depth of calls is bounded as in Python, by any number.
* `Spec/Reader`: a reader of XML, one character at a time, that knows nothing of Kajiki, and the tree a document with
  expressions should be read as (C72).
* `Spec/HtmlReader`: the same for HTML: a tokenizer with raw text in scripts and text in titles (C73).
* `Spec/TreeSem`, `Spec/TreeFuns`: the tree of a template with directives, and with functions, blocks and extended
  templates; like `Spec/Pure` and `Spec/Funs`, but with trees in the place of text, so no markup and no escaping (C74).
* `Spec/TreeOrigin`: when all elements, attributes and comments of a tree are those of a template (C74).
* `Spec/Share`: the same values up to the numbering of objects, and Python code that depends only on what it
  sees and touches only its own part of the world (C57).
* `Spec/Text`, `Spec/TextTree`: tokens covering a source, directive trees and their token sequences.
* `Spec/TextSource`: how a source is written as tokens, going forward; `Spec/TextSem`: the meaning of a directive
  tree without compiler, code or stacks (C64).
* `Spec/PureText`: what a text template with functions and blocks shows, as a function of the values of variables (C75);
  like `Spec/Funs`, but for text templates.
* `Spec/Include`, `Spec/IncludeText`: what a template (XML or text) shows that includes others, any of which may include any
  other again (C76).
* `Spec/Ends`: executions that end earlier than others with an exception, and worlds that record exceptions (C77).
* `Spec/Woven`: what the code of templates consists of, values that are no markup, and text put together from the templates'
  own texts and escaped ones (C78).
* `Spec/Settings`: the arguments a template is made with (C81).
* `Spec/Raises`: which exceptions Python and calls can raise, which templates a document includes, and when they include
  each other in circles (C82); `Spec/RaisesText` for text templates.
* `Spec/Swap`: parts of documents that show the same, and documents that differ in such parts only (C79).
* `Spec/SwapDoc`: the same for all templates, with functions, blocks, inheritance and side effects (C79).
* `Spec/Paste`: replacing `py:include`s by the root elements of the templates they include, and which local variables
  nodes look at and set (C83, C84).
* `Spec/PasteText`: the same for `%include` in text templates (C83, C84).
* `Spec/Translated`: when a document is the translation of another one (C88).
* `Spec/HideText`: text templates that set variables before they look at them (C84).
* `Spec/SwapText`: parts of text templates that are alike, and templates with exchanged parts (C89).
* `Spec/Integration`: the words of a setting, the events that include Kajiki (C86).
* `Spec/Extract`: the texts to translate and the shown expressions of a document (C85).
* `Spec/Lines`: the texts and CDATA sections of a document with their lines, texts next to each other, and line breaks after `${` (C90); elements with their lines, where an expression is written (C92).
* `Spec/LinesGen`: documents with lines in order, the lines of generated Python and what is reported for them (C93, C94).
* `Spec/LinesText`: blank lines before directives of text templates, and how expressions are written (C91).

## Findings (where the code does not do what its documentation or a user expects)

Properties found to be false stay in the list; the negation is proved with a witness, with a `_partial`
theorem for what holds.

| finding | theorem |
|---|---|
| A directive with nothing in it (`<py:if test="x"/>`, or only a `py:def`) is a Python syntax error | `C62_empty_is_syntax_error` |
| In a `py:nop`, `py:else` after a `py:for` is accepted, becomes the `else` of the Python loop and is shown although there were rounds | `C62_else_of_loop` |
| A template, function or block that runs something but never shows anything is no generator: showing it is a `TypeError`.  A block of a text template cannot be replaced by an empty one | `C65_text_never_shows`, `C65_xml_never_shows`, `C65_text_blank_block` |
| Two generators over one instance share its switch stack and disturb each other | `C57_one_instance_interferes` |
| a `literal()`/`Markup()` value renders only once: it wraps a one-shot iterator | `C09_literal_renders_once`, `C09_never_again` |
| in attributes, a nested stream yielding a non-string raises `TypeError` (`accumulate_str` does not apply `str`) | `C08_accumulate_rejects_other` |
| merging texts with the same guard changes the output when the guard changes its value | `C10_needs_steady_guards` |
| after `py:with` on a context variable that variable is `()` | `C15_context_variable_lost` |
| `py:extends` as attribute and as element differ | `C20_extends_differs` |
| a comment or processing instruction before the root element: no directive is expanded, text nodes are not merged | `C22_leading_comment`, `C25_leading_comment` |
| a `py:strip` whose condition changes during the content leaves the element open or closes it twice | `C23_strip_can_unbalance` |
| `py:attrs` repeats an attribute that the element has already | `C23_attrs_can_repeat` |
| `py:content` on a void element in html mode emits an end tag; `wbr`, `source`, … are not in the list of void elements | `C24_content_on_void_element`, `C24_unlisted_void_element` |
| `${` at the end of a text may raise `IndexError`; `$name` inside a `${…}` string is cut | `C29_unterminated_index_error`, `C29_dollar_in_expression` |
| comments beside the root element are dropped; a comment in a script is an `AssertionError` | `C31_beside_root_dropped`, `C31_in_script_fails` |
| the RDFa doctype is not recognised: its `+` is a quantifier in the pattern | `C33_rdfa_not_recognised` |
| line breaks between `${` and its expression are not counted: texts after it in the same text node are reported (and compiled) with a line that is too small | `C90_line_break_after_brace_not_counted` |
| the same for expressions, so exceptions are reported on an earlier line | `C92_line_break_after_brace_not_counted` |
| `from_ir` numbers `PyLine` objects, but an expression with line breaks is one `PyLine` of several lines: exceptions after it are reported on later lines | `C93_line_breaks_in_expressions_shift`, `C94_line_breaks_in_expressions_shift` |
| directives of text templates have no line: an exception in a test is reported on the line of the last text or expression before, or on line 0 | `C94_directives_have_no_line` |
| in text templates, blank lines before a `%directive` or `{%-directive` are not counted: expressions after it carry a line that is too small | `C91_blank_lines_not_counted` |
| with `extract_python`, messages in `py:if`, `py:with`, `py:for`, `py:attrs`, `py:call` and Python blocks are not extracted | `C85_directives_not_read` |
| `i18n.extract` cannot be told `cdata_scripts` and then misses messages | `C35_needs_cdata_scripts` |
| text scanner: `${x$y}` is tokenised twice, `${x]` is accepted, a `$` in a tag body is an `AssertionError` | `C37_overlap`, `C37_any_closing_character`, `C37_dollar_in_tag` |
| a text ending in a backslash is an `IndexError` | `C38_backslash_at_end` |
| text parser: `%else` of an `%if` nested directly in an `%if` or `%case` closes the outer one; `%switch` with `%else` needs another `%end` | `C39_nested_else`, `C39_nested_else_in_for`, `C39_switch_else` |
| functions of a grandparent are not visible in the grandchild | `C42_grandparent_function_missing` |
| names of the importing namespace, `local` and `self` included, replace those of an imported template | `C44_importer_names_win` |
| including `item.html` replaces the page's variable `item` by the included template | `C76_file_name_hides_variable` |
| the result of a `py:call` is not escaped: if its function gives an ordinary string, this is markup | `C78_call_is_not_escaped` |
| reloading misses a change with the same time stamp and a file newly shadowing another | `C46_same_mtime_is_stale`, `C46_shadowing_is_stale` |
| a deleted file keeps its old entry | `C47_deleted_file_keeps_entry` |
| line tables use signed deltas in newer Pythons; this reader disagrees from 128 on | `C49_signed_reader_disagrees` |
| template lines are reported through a running maximum, and `__main__` comes first: later lines are wrong | `C51_line_map_wrong_after_decrease` |
| `x=` inside a string of a `py:with` list cuts it | `C55_string_with_assignment_is_cut` |
| a blank line in an indented Python block is an `AssertionError` | `C56_blank_line_rejected` |
| a context variable called `local` breaks every template with text: the generated code looks up its runtime under that name | `C63_local_cannot_be_used` |
| loaders cache by name alone: the options of a later load are ignored; in Pyramid a fragment is rendered as the page it was before | `C68_later_options_ignored`, `C68_page_stays_page` |
| the `encoding` given to `load` is ignored, although documented; only `FileLoader(…, encoding=…)` works | `C81_encoding_of_load_ignored` |
| `FileLoader` ignores `xml_autoblocks` unless `force_mode` is set | `C81_autoblocks_need_mode` |
| a `FileLoader` with an option only XML templates have (`strip_text=True`) can load no text template | `C81_text_rejects_other_options` |
| in Pyramid a wrong `pyramid.reload_templates` leaves the extensions registered without a loader | `C86_unreadable_setting` |
| TurboGears: in Python 3 nothing can be rendered; the documented `kajiki.force_mode = txt` compiles all files as XML | `C87_python3`, `C87_txt_is_xml` |
| the Pyramid loader with `auto_reload` never caches | `C59_auto_reload_never_caches` |
| a value can end a CDATA section, so that what follows is markup: `<![CDATA[$x><b/>]]>` with `]]` | `C72_section_can_end_early` |
| CDATA sections are kept in html mode, where they are comments: their text is not shown | `C73_section_is_comment` |

Seen while transcribing, not stated as theorems: the text around `$$` is translated as separate messages, the
`$` being one of them (`Spec.Static.messages`); what a function shows is escaped again in an attribute; `0`/`1` count as booleans in boolean attributes, keys
of `py:attrs` are not escaped; a function named
`render` overrides the method; `<div py:switch>` is always
a compile error (the whitespace and tags inside are not cases); a stray `py:case` compiles to `elif`;
CDATA markers inside a directive element become translatable text; an autoblock drops its own tag;
script text containing `]]>` breaks the CDATA pair in xml mode; values in CDATA sections are escaped although references are not resolved there
(`Spec.Fill.rawShown`); the DOCTYPE of an included template is rendered in the middle of the page; expressions with `<`, `>` or `&` in XML
text are escaped before they are extracted and then rejected; `py:strip` does not guard the CDATA
markers of a script; any processing instruction is compiled as Python; `<py:node>` recurses forever;
`strip` drops no-break spaces; in text
templates blank lines before a bare tag are swallowed and not counted in line numbers, an `%if` between the
cases of a `%switch` takes over the following cases, `{%elif%}` is not supported, missing `%end` is
accepted for some tags and an `AttributeError` for `%if`, backslashes in `%py` blocks are eaten.

## Testing the theorems

`tools/mutate.py seeded/bugs.py` edits one definition of the model in a scratch copy, rebuilds, and
reports which theorems of the claims concerned no longer check.  `seeded/LOG.jsonl` has one line per
attempt.
