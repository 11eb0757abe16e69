{"id": "C01", "title": "Attaching then stripping user data is lossless", "statement": "For every document d and every value x, strip_data(with_data(d, x)) equals d; likewise for every block and inline.", "quantifier": "all documents/blocks/inlines, all data types and values", "why_tests_cant": "ASTs nest without bound and every node kind can contain every other; tests only exercise a few shapes.", "anchors": ["src/ast/convert.rs: WithData, StripData"]}
{"id": "C02", "title": "to_generic/from_generic are mutually inverse", "statement": "from_generic(to_generic(d)) = d for every document and to_generic(from_generic(g)) = g for every generic document with unit data.", "quantifier": "all documents", "why_tests_cant": "ASTs nest without bound and every node kind can contain every other; tests only exercise a few shapes.", "anchors": ["src/ast/convert.rs: to_generic, from_generic"]}
{"id": "C03", "title": "with_data puts the value on the root only", "statement": "with_data(d, x) carries x on the root node and T::default() on every descendant.", "quantifier": "all documents, blocks and inlines; all data types with a default", "why_tests_cant": "ASTs nest without bound and every node kind can contain every other; tests only exercise a few shapes.", "anchors": ["src/ast/convert.rs: WithData"]}
{"id": "C04", "title": "map_user_data never changes content", "statement": "For every generic document and every (stateful) closure, stripping the mapped document equals stripping the original.", "quantifier": "all generic documents, all FnMut closures (arbitrary state)", "why_tests_cant": "ASTs nest without bound and every node kind can contain every other; tests only exercise a few shapes.", "anchors": ["src/ast/map_data_visitor.rs: MapDataVisitor, map_user_data"]}
{"id": "C05", "title": "map_user_data calls the closure exactly once per node, children before parent", "statement": "The closure is called on each node's data exactly once, in document order with every node after its children (document last); node i of that order receives the i-th result, whatever state the closure keeps.", "quantifier": "all generic documents, all stateful closures", "why_tests_cant": "ASTs nest without bound and every node kind can contain every other; tests only exercise a few shapes. Evaluation order only shows with stateful closures.", "anchors": ["src/ast/map_data_visitor.rs: MapDataVisitor::visit_*"]}
{"id": "C06", "title": "map_user_data is functorial for pure closures", "statement": "Mapping the identity changes nothing and mapping f then g equals mapping g after f.", "quantifier": "all generic documents, all pure functions", "why_tests_cant": "ASTs nest without bound and every node kind can contain every other; tests only exercise a few shapes.", "anchors": ["src/ast/map_data_visitor.rs: map_user_data"]}
{"id": "C07", "title": "Element ids are unique, consecutive and start where asked", "statement": "add_ids_from(doc, n) assigns to the N nodes of doc exactly n, n+1, ..., n+N-1 (each once, the document last and largest) and leaves content unchanged; add_ids_to_document is the case n = 1; add_ids_to_generic_document ignores the old data.", "quantifier": "all documents, all start values with n+N < 2^64", "why_tests_cant": "ASTs nest without bound and every node kind can contain every other; tests only exercise a few shapes. Uniqueness is a statement about all pairs of nodes.", "anchors": ["src/ast_specialized/utilities.rs: id_utils", "src/ast_specialized/element_id.rs: IdGenerator"]}
{"id": "C08", "title": "Id generator behaves as a counter over any call history", "statement": "For every sequence of generate/peek/reset calls: peek never changes state and returns what generate would, ids between resets are strictly increasing by 1, reset restarts at 1, and u64 exhaustion is the only way to fail.", "quantifier": "all operation sequences", "why_tests_cant": "Histories are unbounded.", "anchors": ["src/ast_specialized/element_id.rs: IdGenerator"]}
{"id": "C09", "title": "find_all_inlines is sound, complete and in document order", "statement": "find_all_inlines(p) returns exactly the inlines occurring anywhere in the document (at any depth, including list items, tables, definitions' labels, footnotes, alerts, link text) that satisfy p, in pre-order, each occurrence once.", "quantifier": "all documents, all predicates", "why_tests_cant": "ASTs nest without bound and every node kind can contain every other; tests only exercise a few shapes.", "anchors": ["src/ast_transform/query.rs: collect_inlines_from_block, collect_inlines_from_inline"]}
{"id": "C10", "title": "find_all_blocks is sound, complete and in document order", "statement": "find_all_blocks(p) returns exactly the blocks occurring anywhere in the document satisfying p, in pre-order, each occurrence once.", "quantifier": "all documents, all predicates", "why_tests_cant": "ASTs nest without bound and every node kind can contain every other; tests only exercise a few shapes.", "anchors": ["src/ast_transform/query.rs: collect_blocks_from_block"]}
{"id": "C11", "title": "find_first / any / count agree with find_all", "statement": "find_first_x(p) is the first element of find_all_x(p) (None iff empty), any_x(p) iff it is non-empty, count_x(p) its length; typed finders (links, images, headings, autolinks, text, code spans, code blocks, tables, lists) return exactly the matching payloads.", "quantifier": "all documents, all predicates", "why_tests_cant": "Two independently written recursions must agree on every tree.", "anchors": ["src/ast_transform/query.rs: find_first_inline_in_block, find_first_block_in_block, Query defaults"]}
{"id": "C12", "title": "A default visitor sees every node exactly once in document order", "statement": "A visitor that records in visit_block / visit_inline and then walks sees precisely the pre-order sequence of all blocks / inlines, the same nodes Query enumerates.", "quantifier": "all documents, all visitor states", "why_tests_cant": "ASTs nest without bound and every node kind can contain every other; tests only exercise a few shapes.", "anchors": ["src/ast_transform/visitor.rs: Visitor::walk_*"]}
{"id": "C13", "title": "A transformer that overrides nothing is the identity", "statement": "Any Transformer (and GenericTransformer) whose methods are all the defaults returns every document unchanged, and its expand form returns exactly one unchanged document.", "quantifier": "all documents; all method tables satisfying the trait defaults", "why_tests_cant": "ASTs nest without bound and every node kind can contain every other; tests only exercise a few shapes.", "anchors": ["src/ast_transform/transformer.rs: Transformer", "src/ast_transform/generic_transformer.rs: GenericTransformer"]}
{"id": "C14", "title": "transform_text rewrites every text node and nothing else", "statement": "transform_text(f) applies f to exactly the Text nodes (at every depth), leaves the tree shape and every other field unchanged, preserves identity and composition of f.", "quantifier": "all documents, all functions", "why_tests_cant": "ASTs nest without bound and every node kind can contain every other; tests only exercise a few shapes.", "anchors": ["src/ast_transform/convenience.rs: TextTransformer", "src/ast_transform/transformer.rs: walk_transform_*"]}
{"id": "C15", "title": "URL, code and HTML transforms touch exactly their target", "statement": "transform_image_urls/link_urls/autolink_urls/code/html each apply f to exactly the image destinations / inline-link destinations / autolinks / code spans / raw HTML inlines and blocks, and change nothing else; transforms of different targets commute.", "quantifier": "all documents, all functions", "why_tests_cant": "ASTs nest without bound and every node kind can contain every other; tests only exercise a few shapes.", "anchors": ["src/ast_transform/convenience.rs: ImageUrlTransformer, LinkUrlTransformer, AutolinkTransformer, CodeTransformer, HtmlTransformer"]}
{"id": "C16", "title": "Pipelines and composite transformers run steps in order", "statement": "TransformPipeline.apply is the left-to-right composition of its steps, concatenation of pipelines composes, an empty pipeline is the identity, when(false) adds nothing, when(true)/when_doc splice the sub-pipeline; CompositeTransformer applies its members in insertion order.", "quantifier": "all pipelines, all documents", "why_tests_cant": "Step lists are unbounded.", "anchors": ["src/ast_transform/pipeline.rs: TransformPipeline", "src/ast_transform/transformer.rs: CompositeTransformer"]}
{"id": "C17", "title": "normalize_whitespace is idempotent and canonical", "statement": "After normalize_whitespace every text node has no leading/trailing whitespace, no whitespace other than single U+0020 between words, the same words in order, and a second application changes nothing.", "quantifier": "all documents", "why_tests_cant": "Strings range over an infinite set; the failing ones are rare special-character combinations.", "anchors": ["src/ast_transform/convenience.rs: normalize_whitespace"]}
{"id": "C18", "title": "remove_empty_text leaves no blank text", "statement": "After remove_empty_text no text node anywhere is blank; every blank text has become an Empty inline, nothing else changed; idempotent.", "quantifier": "all documents", "why_tests_cant": "ASTs nest without bound and every node kind can contain every other; tests only exercise a few shapes.", "anchors": ["src/ast_transform/convenience.rs: EmptyTextRemover"]}
{"id": "C19", "title": "filter_blocks and remove_empty_paragraphs filter the top level only", "statement": "filter_blocks(p) keeps exactly the top-level blocks satisfying p, in order, unmodified; remove_empty_paragraphs removes exactly the empty top-level paragraphs; both idempotent; nested blocks are not filtered.", "quantifier": "all documents, all predicates", "why_tests_cant": "ASTs nest without bound and every node kind can contain every other; tests only exercise a few shapes.", "anchors": ["src/ast_transform/convenience.rs: FilterTransform"]}
{"id": "C20", "title": "HTML escaping is exact", "statement": "Escaped text contains no <, >, \" or ' and every & in it starts one of five entities; decoding entities gives the original text back, so escaping is injective.", "quantifier": "all strings", "why_tests_cant": "Strings range over an infinite set; the failing ones are rare special-character combinations.", "anchors": ["src/html_printer/util.rs: escape"]}
{"id": "C21", "title": "User text cannot create markup", "statement": "For every document without raw HTML nodes (and with alert names free of markup characters), render_html emits a properly nested sequence of elements: every < and > belongs to a tag of the renderer's fixed vocabulary and tags balance.", "quantifier": "all documents", "why_tests_cant": "ASTs nest without bound and every node kind can contain every other; tests only exercise a few shapes. Strings range over an infinite set; the failing ones are rare special-character combinations.", "anchors": ["src/html_printer/block.rs", "src/html_printer/inline.rs", "src/html_printer/util.rs: tag", "src/html_printer/github_alert.rs"]}
{"id": "C22", "title": "HTML attribute values decode to the AST value", "statement": "A link's href (image's src/alt, title) attribute, HTML-decoded once, is the destination in the AST.", "quantifier": "all links and images", "why_tests_cant": "Strings range over an infinite set; the failing ones are rare special-character combinations.", "anchors": ["src/html_printer/inline.rs", "src/html_printer/util.rs: tag, escape"]}
{"id": "C23", "title": "HTML output does not depend on the width setting", "statement": "render_html(doc, width w1) = render_html(doc, width w2).", "quantifier": "all documents, all widths", "why_tests_cant": "ASTs nest without bound and every node kind can contain every other; tests only exercise a few shapes.", "anchors": ["src/html_printer/mod.rs: render_html"]}
{"id": "C24", "title": "HTML footnote numbers are a bijection onto 1..n in first-use order", "statement": "Every label referenced directly in a block's inline list gets a number; numbers are 1..n without gaps, distinct labels get distinct numbers, in order of first reference, and reference and definition show the same number.", "quantifier": "all documents", "why_tests_cant": "ASTs nest without bound and every node kind can contain every other; tests only exercise a few shapes.", "anchors": ["src/html_printer/index.rs: get_indicies, Index", "src/html_printer/inline.rs", "src/html_printer/block.rs: FootnoteDefinition"]}
{"id": "C25", "title": "Every footnote reference is rendered", "statement": "Every FootnoteReference inside the document produces a footnote link in the HTML.", "quantifier": "all documents", "why_tests_cant": "ASTs nest without bound and every node kind can contain every other; tests only exercise a few shapes.", "anchors": ["src/html_printer/index.rs: get_inline_indicies"]}
{"id": "C26", "title": "Reference links resolve by exact label, last definition wins", "statement": "A LinkReference renders with the destination/title of the last Definition in document order having an equal label, from anywhere in the document; without one it renders to nothing in HTML.", "quantifier": "all documents", "why_tests_cant": "ASTs nest without bound and every node kind can contain every other; tests only exercise a few shapes.", "anchors": ["src/html_printer/index.rs", "src/html_printer/inline.rs: LinkReference"]}
{"id": "C27", "title": "render_html panics only on an empty table", "statement": "render_html terminates without panic for every document whose tables all have at least one row; a rendered table without rows panics.", "quantifier": "all documents", "why_tests_cant": "ASTs nest without bound and every node kind can contain every other; tests only exercise a few shapes.", "anchors": ["src/html_printer/block.rs: impl ToDoc for Table"]}
{"id": "C28", "title": "LaTeX escaping is exact", "statement": "escape_latex is injective with an explicit decoder, and every special character of the output belongs to one of the fixed escape sequences.", "quantifier": "all strings", "why_tests_cant": "Strings range over an infinite set; the failing ones are rare special-character combinations.", "anchors": ["src/latex_printer/util.rs: escape_latex"]}
{"id": "C29", "title": "LaTeX output has balanced groups", "statement": "For every document without code blocks (and with brace-free alert names), every table and width style, the { } of render_latex output nest properly (escaped braces not counted).", "quantifier": "all documents, all configurations and layouts", "why_tests_cant": "ASTs nest without bound and every node kind can contain every other; tests only exercise a few shapes. Strings range over an infinite set; the failing ones are rare special-character combinations.", "anchors": ["src/latex_printer/block.rs", "src/latex_printer/inline.rs", "src/latex_printer/table.rs", "src/latex_printer/util.rs"]}
{"id": "C30", "title": "LaTeX width only moves whitespace", "statement": "Changing the width only replaces single spaces by newlines (and back) in render_latex output.", "quantifier": "all documents, all widths", "why_tests_cant": "ASTs nest without bound and every node kind can contain every other; tests only exercise a few shapes.", "anchors": ["src/latex_printer/inline.rs", "src/latex_printer/mod.rs: render_latex"]}
{"id": "C31", "title": "LaTeX footnote and link indices", "statement": "Footnote definitions outside other footnotes are numbered 1..k in document order (a repeated label keeps its last number); a reference shows its label's number or falls back to text; link references resolve to the last definition or fall back to showing both text and label.", "quantifier": "all documents", "why_tests_cant": "ASTs nest without bound and every node kind can contain every other; tests only exercise a few shapes.", "anchors": ["src/latex_printer/mod.rs: get_indices", "src/latex_printer/inline.rs"]}
{"id": "C32", "title": "Parsing is total", "statement": "parse_markdown with the default configuration returns Ok for every input string.", "quantifier": "all input strings", "why_tests_cant": "Strings range over an infinite set; the failing ones are rare special-character combinations.", "anchors": ["src/parser/mod.rs: parse_markdown", "src/parser/blocks/mod.rs: block", "src/parser/inline/mod.rs: inline"]}
{"id": "C33", "title": "Parsing terminates with nesting bounded by the input length", "statement": "Recursion depth of block and inline parsing never exceeds the input length: giving the parser more depth never changes its answer.", "quantifier": "all input strings, all configurations without custom parsers", "why_tests_cant": "Strings range over an infinite set; the failing ones are rare special-character combinations.", "anchors": ["src/parser/blocks/*", "src/parser/inline/*"]}
{"id": "C34", "title": "Parsed tables are rectangular", "statement": "In every parsed document each table has at least a header row, alignments.len() equals the header length and every row has exactly that many cells.", "quantifier": "all input strings", "why_tests_cant": "Strings range over an infinite set; the failing ones are rare special-character combinations.", "anchors": ["src/parser/blocks/table.rs"]}
{"id": "C35", "title": "Parsed headings have level 1-6", "statement": "Every ATX heading in a parsed document has level between 1 and 6.", "quantifier": "all input strings", "why_tests_cant": "Strings range over an infinite set; the failing ones are rare special-character combinations.", "anchors": ["src/parser/blocks/heading.rs"]}
{"id": "C36", "title": "Adjacent text is merged", "statement": "No inline list in a parsed document contains two consecutive Text nodes; merging preserves the concatenated text and all other nodes.", "quantifier": "all input strings", "why_tests_cant": "Strings range over an infinite set; the failing ones are rare special-character combinations.", "anchors": ["src/parser/inline/mod.rs: merge_consecutive_text_elements"]}
{"id": "C37", "title": "Default parse produces no placeholders and no inline HTML", "statement": "Under the default configuration parsed documents contain no Empty block or inline and no Html inline; lists and alerts/quotes obey their shape invariants (lists non-empty).", "quantifier": "all input strings", "why_tests_cant": "Strings range over an infinite set; the failing ones are rare special-character combinations.", "anchors": ["src/parser/util.rs: conditional", "src/parser/blocks/list.rs"]}
{"id": "C38", "title": "Ignore and Skip remove the element kind", "statement": "If a block kind's behaviour is Ignore (or Skip), no block of that kind occurs anywhere in the parsed document; with Ignore the input is still parsed by the other alternatives.", "quantifier": "all input strings, all configurations of that form", "why_tests_cant": "Strings range over an infinite set; the failing ones are rare special-character combinations.", "anchors": ["src/parser/util.rs: conditional_block", "src/parser/blocks/mod.rs: block"]}
{"id": "C39", "title": "Blank input parses to the empty document", "statement": "An input of spaces, tabs and line endings parses to a document with no blocks; blank lines before a document do not change it.", "quantifier": "all blank strings", "why_tests_cant": "Strings range over an infinite set; the failing ones are rare special-character combinations.", "anchors": ["src/parser/mod.rs: parse_markdown"]}
{"id": "C40", "title": "Parsed alerts have safe names", "statement": "Custom alert names in parsed documents consist of ASCII letters, digits and underscores and start with a letter.", "quantifier": "all input strings", "why_tests_cant": "Strings range over an infinite set; the failing ones are rare special-character combinations.", "anchors": ["src/parser/blocks/github_alert.rs"]}
{"id": "C41", "title": "Any alert marker name [!NAME] is recognised", "statement": "A blockquote whose first line is [!NAME] with NAME a letter followed by letters/digits/underscores parses as an alert of that type.", "quantifier": "all names", "why_tests_cant": "Strings range over an infinite set; the failing ones are rare special-character combinations.", "anchors": ["src/parser/blocks/github_alert.rs: parse_alert_marker"]}
{"id": "C42", "title": "Parse-then-render-HTML is safe for every input", "statement": "For every input, with HTML blocks not parsed, render_html(parse_markdown(input)) does not panic and is well-formed HTML; with the default configuration it does not panic.", "quantifier": "all input strings", "why_tests_cant": "Strings range over an infinite set; the failing ones are rare special-character combinations.", "anchors": ["src/parser/mod.rs", "src/html_printer/mod.rs"]}
{"id": "C43", "title": "Code spans and code blocks keep their content", "statement": "A fenced block's literal is exactly the lines between the fences (each with up to the fence's indentation removed); an indented block's literal is the lines without their 4-space/tab prefix; a code span's content is the text between equal backtick runs with newlines as spaces and one pair of padding spaces stripped.", "quantifier": "all inputs of these forms", "why_tests_cant": "Strings range over an infinite set; the failing ones are rare special-character combinations.", "anchors": ["src/parser/blocks/code_block.rs", "src/parser/inline/code_span.rs"]}
{"id": "C44", "title": "Wrapping preserves words", "statement": "Rendering a paragraph at any width keeps the same words in the same order; only whitespace differs.", "quantifier": "all inline sequences, all widths", "why_tests_cant": "Strings range over an infinite set; the failing ones are rare special-character combinations.", "anchors": ["src/printer/inline.rs: split_with_spaces, safe_text_layout"]}
{"id": "C45", "title": "Wrapping never introduces block syntax", "statement": "A line break inserted by wrapping a text never puts a word at line start that the parser reads as block syntax.", "quantifier": "all texts, all widths", "why_tests_cant": "Strings range over an infinite set; the failing ones are rare special-character combinations.", "anchors": ["src/printer/markdown_syntax_detector.rs", "src/printer/inline.rs: safe_text_layout"]}
{"id": "C46", "title": "Printed tables are aligned", "statement": "All lines of a printed rectangular table have the same display length (in chars), columns padded to the column width, cell text unchanged and the separator encodes the alignment; no panic for rectangular tables.", "quantifier": "all rectangular tables", "why_tests_cant": "ASTs nest without bound and every node kind can contain every other; tests only exercise a few shapes.", "anchors": ["src/printer/table.rs"]}
{"id": "C47", "title": "render_markdown does not panic on parsed documents", "statement": "render_markdown(parse_markdown(input), default config) does not panic.", "quantifier": "all input strings", "why_tests_cant": "Strings range over an infinite set; the failing ones are rare special-character combinations.", "anchors": ["src/printer/list.rs", "src/printer/blockquote.rs", "src/printer/table.rs"]}
{"id": "C48", "title": "Ordered lists print consecutive numbers", "statement": "The printed markers of an ordered list are start, start+1, ... and task boxes are printed as [X]/[ ].", "quantifier": "all lists", "why_tests_cant": "ASTs nest without bound and every node kind can contain every other; tests only exercise a few shapes.", "anchors": ["src/printer/list.rs"]}
{"id": "C49", "title": "Parse-print-parse is stable", "statement": "parse(render(parse(input))) = parse(input).", "quantifier": "all input strings", "why_tests_cant": "Strings range over an infinite set; the failing ones are rare special-character combinations.", "anchors": ["src/printer/mod.rs: render_markdown", "src/parser/mod.rs: parse_markdown"]}
{"id": "C50", "title": "HTML entity decoding yields valid characters", "statement": "A numeric character reference decodes to the denoted Unicode scalar value or is left as text when out of range; a named one to its table entry.", "quantifier": "all digit strings", "why_tests_cant": "Strings range over an infinite set; the failing ones are rare special-character combinations.", "anchors": ["src/parser/inline/html_entity.rs"]}
{"id": "C51", "title": "Backslash escapes yield the literal character", "statement": "A backslash followed by ASCII punctuation in text parses to that character as plain text; other backslashes are kept.", "quantifier": "all strings", "why_tests_cant": "Strings range over an infinite set; the failing ones are rare special-character combinations.", "anchors": ["src/parser/inline/text.rs: escaped_char, text"]}
{"id": "C52", "title": "Visible HTML text is the document's text", "statement": "For every document without raw HTML nodes (and with alert names free of <, >, &), removing the tags from render_html output and decoding entities gives exactly the document's text in order: text, code, autolinks, task markers, alert titles, footnote numbers; nothing is lost, duplicated or reordered.", "quantifier": "all documents", "why_tests_cant": "ASTs nest without bound and every node kind can contain every other; tests only exercise a few shapes.", "anchors": ["src/html_printer/block.rs", "src/html_printer/inline.rs"]}
{"id": "C53", "title": "Parse-then-render-LaTeX is balanced for every input", "statement": "For every input, with code blocks not parsed, render_latex(parse_markdown(input)) has balanced braces. With code blocks parsed, the output of every input that does not contain \\end{ is well-formed LaTeX with each code block inside its environment (custom alert names without underscore, languages without special characters).", "quantifier": "all input strings; all configurations without user code in which code blocks are not parsed, and all default-like ones for inputs without \\end{", "why_tests_cant": "Strings range over an infinite set; the failing ones are rare special-character combinations.", "anchors": ["src/parser/mod.rs", "src/latex_printer/mod.rs"]}
{"id": "C54", "title": "HTML blocks are kept verbatim", "statement": "A document without blank lines that starts (after at most three spaces) with an opening or closing tag of one of the block-level HTML names, in any letter case, followed by a space, a line ending, > or />, is one HTML block whose content is the source text; so are comments, processing instructions, declarations and CDATA sections up to their end marker.", "quantifier": "all such inputs", "why_tests_cant": "Strings range over an infinite set; the failing ones are rare special-character combinations.", "anchors": ["src/parser/blocks/html_block.rs: html_block2, html_block3, html_block4, html_block5, html_block6"]}
{"id": "C55", "title": "Quoting a document gives a block quote of it", "statement": "If a text parses to blocks B and every line is prefixed with > (and does not itself change meaning), the quoted text parses to one block quote containing exactly B.", "quantifier": "all texts", "why_tests_cant": "Strings range over an infinite set; the failing ones are rare special-character combinations.", "anchors": ["src/parser/blocks/blockquote.rs"]}
{"id": "C56", "title": "Unambiguous inline markup parses to the inlines it denotes", "statement": "A paragraph built from plain text, identifiers with underscores, character references, escapes at the start of a text, code spans, autolinks, hard line breaks (backslash or spaces), emphasis and strong in one to three stars or underscores, strikethrough, links, images, footnote references and reference links (shortcut, collapsed, full), nested arbitrarily as long as no delimiter occurs in its own content, parses to one paragraph with exactly these inlines, in order.", "quantifier": "all texts generated by that grammar, any nesting and length, any number of lines", "why_tests_cant": "Strings range over an infinite set; the failing ones are rare special-character combinations.", "anchors": ["src/parser/inline/mod.rs: inline", "src/parser/inline/emphasis.rs", "src/parser/inline/inline_link.rs", "src/parser/inline/reference_link.rs", "src/parser/inline/code_span.rs", "src/parser/blocks/paragraph.rs"]}
{"id": "C57", "title": "Headings parse to their level and inlines", "statement": "One to six # and blanks before a line of unambiguous inline text parse to an ATX heading of that level with exactly these inlines; lines of text underlined with = or - to a Setext heading of level 1 or 2.", "quantifier": "all such inputs, any level, any content", "why_tests_cant": "Strings range over an infinite set; the failing ones are rare special-character combinations.", "anchors": ["src/parser/blocks/heading.rs: heading_v1, heading_v2_or_paragraph, heading_v2_level"]}
{"id": "C58", "title": "HTML output is the tree of the document", "statement": "render_html output, read as HTML, is exactly the element tree of the document: headings with their level, emphasis kinds, lists with their kind, start and bullet class, table cells with their alignment, links with their resolved destination, footnotes with their number, all text decoded; for documents without raw HTML it can be read in no other way.", "quantifier": "all documents, all configurations", "why_tests_cant": "ASTs nest without bound and every node kind can contain every other; tests only exercise a few shapes.", "anchors": ["src/html_printer/block.rs", "src/html_printer/inline.rs"]}
{"id": "C59", "title": "LaTeX output is the LaTeX text of the document", "statement": "render_latex output is exactly the LaTeX text denoted by the document (sectioning command of the heading level, emphasis commands, resolved links and footnote numbers, list environments, tables with their column letters, code verbatim, blocks separated by blank lines); the width only decides which blanks of running text are line breaks.", "quantifier": "all documents, all configurations", "why_tests_cant": "ASTs nest without bound and every node kind can contain every other; tests only exercise a few shapes.", "anchors": ["src/latex_printer/block.rs", "src/latex_printer/inline.rs", "src/latex_printer/table.rs"]}
{"id": "C60", "title": "Markdown output is a Markdown text of the document", "statement": "render_markdown output is exactly a Markdown text of the document: headings with their marks, every inline with its delimiters, quotes and alerts with a marker on each line of their content, lists with indentation, markers and indented content, code and HTML verbatim, tables with their rows, blocks separated by a blank line (lists as configured); the only freedom is which blanks of running text are line breaks, and none precedes a word that could start a block.", "quantifier": "all documents, all configurations", "why_tests_cant": "ASTs nest without bound and every node kind can contain every other; tests only exercise a few shapes.", "anchors": ["src/printer/block.rs", "src/printer/inline.rs", "src/printer/list.rs", "src/printer/blockquote.rs", "src/printer/github_alert.rs", "src/printer/heading.rs"]}
{"id": "C61", "title": "Paragraphs are filled greedily to the width", "statement": "A printed paragraph of ASCII text goes on with a line exactly when the next unbreakable piece still ends within the width; so every line fits in the width or is one unbreakable piece.", "quantifier": "all paragraphs of ASCII text, any inline nesting, all widths", "why_tests_cant": "ASTs nest without bound and every node kind can contain every other; tests only exercise a few shapes.", "anchors": ["src/printer/inline.rs", "src/printer/mod.rs: render_markdown"]}
{"id": "C62", "title": "Thematic breaks are recognised", "statement": "A line of at most three spaces, at least three times the same one of -, _ and *, and trailing blanks, where a block can start, is a thematic break; what follows is parsed on its own.", "quantifier": "all such lines, all continuations", "why_tests_cant": "Strings range over an infinite set; the failing ones are rare special-character combinations.", "anchors": ["src/parser/blocks/thematic_break.rs"]}
{"id": "C63", "title": "Tables parse to their cells and alignments", "statement": "A header row, a delimiter row with as many cells and data rows, with any indentation up to three spaces, blanks around cells, escaped bars and an optional last bar, parse to a table whose rows are the inlines of the cells in order (data rows fitted to the header's width) and whose alignments are those of the delimiter row.", "quantifier": "all such texts, any number of rows and columns", "why_tests_cant": "Strings range over an infinite set; the failing ones are rare special-character combinations.", "anchors": ["src/parser/blocks/table.rs"]}
{"id": "C64", "title": "Link definitions parse to label, destination and title", "statement": "[label]: destination \"title\" (bare or angle-bracketed destination, title in double or single quotes or parentheses, escapes, line ends before destination and title) parses to a definition with the label's inlines, the destination and the title; what follows is parsed on its own.", "quantifier": "all such texts", "why_tests_cant": "Strings range over an infinite set; the failing ones are rare special-character combinations.", "anchors": ["src/parser/blocks/link_definition.rs", "src/parser/link_util.rs"]}
{"id": "C65", "title": "Footnote definitions contain the document of their lines", "statement": "[^label]: first line, followed by lines indented by three spaces, parses to a footnote definition whose content is what the first line and the unindented other lines parse to as a document.", "quantifier": "all such texts", "why_tests_cant": "Strings range over an infinite set; the failing ones are rare special-character combinations.", "anchors": ["src/parser/blocks/footnote_definition.rs"]}
{"id": "C66", "title": "Lists parse to their kind, items, task states and contents", "statement": "List items (marker, one to four spaces or nothing, optional task box, text, further lines and blank lines in front of lines indented as the content), at the beginning of a block, are one list with the kind of the first marker, one item per marker line, its task state, and the blocks its unindented content parses to; what follows is parsed on its own.", "quantifier": "all lists: numbers of items and lines, markers, indentations, contents", "why_tests_cant": "Strings range over an infinite set; the failing ones are rare special-character combinations.", "anchors": ["src/parser/blocks/list.rs: list, list_item, list_item_rest_line, list_marker_with_span_size"]}
{"id": "C67", "title": "Formatting is idempotent", "statement": "render_markdown(parse_markdown(render_markdown(d))) = render_markdown(d), and formatting the printed text at another width gives what formatting the original document at that width gives.", "quantifier": "all documents, all widths", "why_tests_cant": "ASTs nest without bound and every node kind can contain every other; tests only exercise a few shapes.", "anchors": ["src/printer/mod.rs: render_markdown", "src/printer/inline.rs", "src/parser/mod.rs: parse_markdown"]}
{"id": "C68", "title": "Raw-text elements and complete tags are HTML blocks", "statement": "A line starting with <script, <pre or <style (any letter case) and a space, > or line ending begins an HTML block that ends exactly with the first closing tag of such an element; a line starting with any other complete opening or closing tag, followed by a space or line ending, begins an HTML block up to the next blank line (included) or the end of input; the content is the source text and what follows is parsed on its own.", "quantifier": "all such inputs: any names, attributes, bodies, continuations", "why_tests_cant": "Strings range over an infinite set; the failing ones are rare special-character combinations.", "anchors": ["src/parser/blocks/html_block.rs: html_block1, html_block7, complete_open_html_tag, complete_closing_html_tag"]}
{"id": "C69", "title": "Skip, Map and FlatMap replace what Parse would give", "statement": "Parsing with Skip, Map or FlatMap behaviours gives the document parsed with Parse instead, in which every element of a kind with such a behaviour is replaced, innermost first, by Empty, by the function's result or by the elements the function returns; recognition of the input, and everything else in the document, is unaffected. (Kinds with exceptions: paragraphs go through the heading_v2 behaviour, alerts obey only Skip, texts and emphasis are called on other pieces than the final ones.)", "quantifier": "all inputs, all pure functions, all configurations without custom parsers and without such behaviours on texts and emphasis", "why_tests_cant": "Strings range over an infinite set; the failing ones are rare special-character combinations.", "anchors": ["src/parser/util.rs: conditional_block, conditional_inline", "src/parser/config.rs: ElementBehavior", "src/parser/blocks/mod.rs: block"]}
{"id": "C70", "title": "No text of the input is lost, invented, repeated or moved", "statement": "Reading a parsed document off in order (texts, codes, destinations, titles, labels, alternative texts, literals, the number of the first item of a list, task marks, alert markers) gives the input without some of its white space and ASCII punctuation: every other character of the input is there, once, in its place, and nothing else is. The only exceptions are the number of an item that is not the first, and the surplus cells of a table row; character references stand for what they denote and line endings in code spans for spaces.", "quantifier": "all inputs, all configurations in which each element is parsed or ignored (texts and paragraphs parsed) and without custom parsers", "why_tests_cant": "Strings range over an infinite set; the failing ones are rare special-character combinations.", "anchors": ["src/parser/mod.rs: parse_markdown", "src/parser/blocks: all block parsers", "src/parser/inline: all inline parsers"]}
{"id": "C71", "title": "Every parsed document is a reading of its input by the dialect's grammar", "statement": "Nothing is recognised that is not written: the input of a successful parse can be cut, in order and without remainder, into the texts of the blocks of the document and blank lines between them, and the text of each block and inline is one its construct allows: a thematic break has three equal marks, a heading one to six number signs and a blank, a code block its fences, quotes and lists a marker on the right lines, links and images their brackets and destinations, emphasis its delimiters in matching numbers and at admissible places, tables a delimiter row with as many cells as the header, HTML blocks their start and end conditions; the content of containers is read by the same grammar.", "quantifier": "all inputs, all configurations in which each element is parsed or ignored (texts and paragraphs parsed) and without custom parsers", "why_tests_cant": "Strings range over an infinite set; the failing ones are rare special-character combinations.", "anchors": ["src/parser/mod.rs: parse_markdown", "src/parser/blocks: all block parsers", "src/parser/inline: all inline parsers"]}
{"id": "C72", "title": "Overridden transformer methods are called on every node in document order", "statement": "With transform_block, transform_inline and transform_text overridden by any stateful code that takes over some nodes and leaves the others to the walk_transform_* defaults, transform_with returns the tree in which each node taken over is the code's result and every other node is kept with its children transformed, all calls being made in document order (label before text of a reference) and each seeing the state the previous one left. The same for GenericTransformer, user data included.", "quantifier": "all documents, all stateful overrides, all states", "why_tests_cant": "ASTs nest without bound and every node kind can contain every other; tests only exercise a few shapes.", "anchors": ["src/ast_transform/transformer.rs: Transformer, transform_with", "src/ast_transform/generic_transformer.rs: GenericTransformer"]}
{"id": "C73", "title": "Expansion replaces nodes by lists of nodes in place", "statement": "With walk_expand_block, walk_expand_inline (and expand_block, which is called for the blocks of list items) overridden by any stateful code, expand_with returns exactly one document in which each node taken over is replaced, in its place, by the nodes the code returns, in order, and every other node is kept with its children expanded; state is passed along in document order. (Findings: a Transformer's expansion does not reach into inlines, tables and nested blocks of list items; a GenericTransformer's does not reach into headings, links, lists, tables, footnote definitions and alerts.)", "quantifier": "all documents, all stateful overrides, all states", "why_tests_cant": "ASTs nest without bound and every node kind can contain every other; tests only exercise a few shapes.", "anchors": ["src/ast_transform/transformer.rs: walk_expand_document, walk_expand_block, expand_with", "src/ast_transform/generic_transformer.rs: walk_expand_block, walk_expand_inline"]}
{"id": "C74", "title": "A quote is an alert exactly when its first line is a marker", "statement": "A block quote (lines of > with up to three spaces before it) is a GitHub alert of type t exactly when its first line, trimmed, is [!TYPE] with a name (a letter, then letters, digits, _ or -; predefined types in any letter case, others become custom types in upper case) and the lines after it are none or not all blank; the alert contains what those lines parse to. Every other quote is a block quote that contains what all its lines parse to.", "quantifier": "all quotes: any number of lines, any contents, any continuation", "why_tests_cant": "Strings range over an infinite set; the failing ones are rare special-character combinations.", "anchors": ["src/parser/blocks/github_alert.rs", "src/parser/blocks/blockquote.rs"]}
{"id": "C75", "title": "Exactly which footnote references become links", "statement": "The footnote links of the HTML of a document, in order, are the footnote references in the shown parts of the document, in order, without those whose label is never used directly in a paragraph, heading, table cell or definition label; each links to the anchor numbered with its label and shows that number.", "quantifier": "all documents whose literals contain no raw HTML", "why_tests_cant": "ASTs nest without bound and every node kind can contain every other; tests only exercise a few shapes.", "anchors": ["src/html_printer/index.rs", "src/html_printer/inline.rs", "src/html_printer/block.rs"]}
{"id": "C76", "title": "Line ending style does not matter", "statement": "Parsing a text with Windows line endings (carriage return and line feed), or with both kinds mixed, gives the document its Unix version gives; the only difference is in literally copied text (HTML blocks, titles and labels of definitions), which keeps the carriage returns. (Exceptions, each with a witness: a definition line that ends in a backslash or whose label spans lines, an attribute value that consists of a line ending.)", "quantifier": "all inputs in which every carriage return ends a line and no exception applies, all configurations without custom parsers", "why_tests_cant": "Strings range over an infinite set; the failing ones are rare special-character combinations.", "anchors": ["src/parser/util.rs: line_terminated, not_eof_or_eol1, eol_or_eof", "src/parser/mod.rs: parse_markdown"]}
{"id": "C77", "title": "Configuring a construct has no effect on inputs without its characters", "statement": "Two configurations that differ only in what they do with constructs (Ignore, Skip, Map, FlatMap, the entity table, the heading option, custom parsers) that cannot be written with the characters of the input parse it to the same document. (Exception by design of the parser: headings with underlines, paragraphs, texts, code blocks and hard line breaks need no character of their own and are not covered.)", "quantifier": "all inputs, all pairs of configurations, including custom parsers", "why_tests_cant": "Strings range over an infinite set; the failing ones are rare special-character combinations.", "anchors": ["src/parser/config.rs: MarkdownParserConfig", "src/parser/blocks/mod.rs: block", "src/parser/inline/mod.rs: inline", "src/parser/blocks/paragraph.rs: is_paragraph_line_start"]}
{"id": "C78", "title": "Custom parsers are asked where nothing else can begin", "statement": "Where a block can begin and no built-in construct can, a custom block parser that accepts is taken, what it returns is part of the document and the rest is parsed on its own; it also interrupts a paragraph. A custom inline parser is taken at the beginning of inline text and after other inline elements. (Finding: it is never asked in the middle of a text, so that it cannot find its construct after a word.)", "quantifier": "all custom parsers that consume something and leave a suffix of their input, all inputs", "why_tests_cant": "Strings range over an infinite set; the failing ones are rare special-character combinations.", "anchors": ["src/parser/blocks/mod.rs: block, custom_parser", "src/parser/inline/mod.rs: inline, custom_parser", "src/parser/inline/text.rs: not_a_text", "src/parser/blocks/paragraph.rs: is_paragraph_line_start"]}
{"id": "C79", "title": "Exactly which backslash escapes are recognised", "statement": "A line of text in which nothing but backslashes and character references can mean something stands for exactly one text: references are replaced everywhere; a backslash before ASCII punctuation is removed exactly when it stands at the beginning of the text or directly after an escape or a reference; every other backslash is kept. (The exact form of the claim about escapes, which fails after other text.)", "quantifier": "all such lines, all entity tables", "why_tests_cant": "Strings range over an infinite set; the failing ones are rare special-character combinations.", "anchors": ["src/parser/inline/text.rs: escaped_char, text, not_a_text", "src/parser/inline/html_entity.rs"]}
{"id": "C80", "title": "Which block a text begins with", "statement": "A document whose first line is not blank has a first block, and its kind is decided by the text alone, exactly one of: indented code (four spaces or a tab), fenced code (a fence that is closed), ATX heading, thematic break, alert, quote (not all lines blank), list (of the kind of the marker), HTML block, footnote definition, link definition, table, or else a paragraph or underlined heading.", "quantifier": "all inputs whose first line is not blank, all configurations that parse every block", "why_tests_cant": "Strings range over an infinite set; the failing ones are rare special-character combinations.", "anchors": ["src/parser/blocks/mod.rs: block", "src/parser/blocks: all block parsers"]}
{"id": "C81", "title": "How far a paragraph goes", "statement": "A text that begins with no other block begins with a paragraph of the longest run of lines (each without up to three leading spaces) in front of which no blank line, heading, underline, thematic break, quote, list item, fence, HTML block, definition, footnote definition or table begins; its inlines are a reading of those lines; if an underline follows it is a heading of that level instead; what follows is parsed on its own. (Indented code does not interrupt; a text that begins with an underline is a paragraph of that line.)", "quantifier": "all inputs, all configurations that parse every block", "why_tests_cant": "Strings range over an infinite set; the failing ones are rare special-character combinations.", "anchors": ["src/parser/blocks/paragraph.rs: paragraph, is_paragraph_line_start", "src/parser/blocks/heading.rs: heading_v2_or_paragraph"]}
{"id": "C82", "title": "A blank line separates documents", "statement": "A text that ends with a line end and leaves nothing open (no unclosed fence, bracket or title of a definition, no HTML block that a blank line ends), a blank line, and a text that does not begin with white space are parsed to the blocks of the first and then the blocks of the second, whatever lists, quotes, tables or paragraphs the first ends with. So documents can be put together with blank lines; closed fenced code and comments are documents of their own too.", "quantifier": "all such pairs and sequences of texts, all configurations that parse every block", "why_tests_cant": "Strings range over an infinite set; the failing ones are rare special-character combinations.", "anchors": ["src/parser/blocks/mod.rs: block", "src/parser/blocks/paragraph.rs", "src/parser/blocks/list.rs", "src/parser/blocks/footnote_definition.rs", "src/parser/mod.rs: parse_markdown"]}
{"id": "C83", "title": "A final newline does not matter", "statement": "Newlines at the end of a text, none or any number, make no difference to the document it is parsed to, whatever construct the text ends with; provided that the text in front of them does not end with a backslash (which a link destination would take together with the newline) or a carriage return, and no HTML block begins at a line of it (HTML blocks keep the newline).", "quantifier": "all such texts, all configurations without a custom block parser, any behaviours", "why_tests_cant": "Strings range over an infinite set; the failing ones are rare special-character combinations.", "anchors": ["src/parser/util.rs: line_terminated, eof_or_eol, many_empty_lines0", "src/parser/blocks: all block parsers", "src/parser/mod.rs: parse_markdown"]}
{"id": "C84", "title": "Exactly how a text is read as inlines", "statement": "The text of a paragraph, heading or table cell is read, from the left, as exactly one list of inlines, which the characters determine: autolink before link, link before footnote reference, that before full, collapsed and shortcut reference, then hard break, image, code span, identifier with underscores, emphasis (three marks before two before one), strikethrough, and otherwise text (escape, character reference, or the longest run of characters at which none of these can begin); what is between the marks is read in the same way, and adjacent texts are one. Every text has such a reading.", "quantifier": "all texts, all entity tables and character classes, all configurations that parse every inline", "why_tests_cant": "Strings range over an infinite set; the failing ones are rare special-character combinations.", "anchors": ["src/parser/inline/mod.rs: inline, inline_many0, inline_many1, merge_consecutive_text_elements", "src/parser/inline/text.rs", "src/parser/inline: all inline parsers"]}
{"id": "C85", "title": "Exactly how a text is read as blocks", "statement": "A text is read as exactly one list of blocks, which its lines determine: where each block begins (C80), which lines belong to it and where it ends (code up to the closing fence or the last indented line, HTML up to its end condition, quotes as long as lines are quoted, items with their lazy, indented and blank-line continuations, lists as long as items follow whatever their markers, footnotes with their indented lines, tables with rows fitted to the header, paragraphs up to a line that interrupts them or an underline), and what its contents are: the lines without their marks, read in the same way, and inlines as in C84. Every text has such a reading. Configurations that read everything, know the same entities and agree on headings without a space give the same document.", "quantifier": "all texts, all configurations that parse every construct, all entity tables and character classes", "why_tests_cant": "Strings range over an infinite set; the failing ones are rare special-character combinations.", "anchors": ["src/parser/mod.rs: parse_markdown", "src/parser/blocks: all block parsers", "src/parser/util.rs"]}
{"id": "C86", "title": "The exact Markdown output", "statement": "render_markdown of any document with any width and list settings gives exactly one text, or panics, as follows: running text is filled greedily (the line goes on at a blank exactly when everything up to the next possible break still ends within the width), except that no line is broken in front of a word that could start a block; headings are not broken; every line of an item's content is indented as its marker; the text of a quote is filled to the width that is left in the column in which the quote begins, that of an alert to eighty columns; tables, ragged ones too, are padded to the widths of their columns; blocks are separated by a blank line (lists as configured). It panics exactly if a quote begins less than two columns before the width, a list number overflows or a cell outside the header's columns has more than three characters. (Finding: nested quotes are not narrowed, so their lines are longer than the width.)", "quantifier": "all documents, all widths and configurations, every display width function", "why_tests_cant": "ASTs nest without bound and every node kind can contain every other; tests only exercise a few shapes.", "anchors": ["src/printer/mod.rs: render_markdown", "src/printer/block.rs", "src/printer/inline.rs", "src/printer/list.rs", "src/printer/table.rs", "src/printer/blockquote.rs", "src/printer/github_alert.rs"]}
{"id": "C87", "title": "The exact LaTeX output", "statement": "render_latex of any document with any configuration gives exactly one text: the words, commands and environments the document denotes, literal text and special characters as specified, filled greedily: at a blank of running text the line goes on exactly when everything up to the next possible break still ends within the width.", "quantifier": "all documents, all widths and styles, every display width function for which a blank is one column wide", "why_tests_cant": "ASTs nest without bound and every node kind can contain every other; tests only exercise a few shapes.", "anchors": ["src/latex_printer/mod.rs: render_latex", "src/latex_printer/block.rs", "src/latex_printer/inline.rs", "src/latex_printer/table.rs", "src/latex_printer/util.rs"]}
{"id": "C88", "title": "Exactly how a text is read when constructs are switched off", "statement": "With any constructs ignored and any custom parsers, a text is still read as exactly one document: what is ignored is neither read nor interrupts a paragraph or a text, and what remains is read as when everything is on, in the same order; a custom block parser is asked before a paragraph is read and interrupts one, a custom inline parser is asked before text, but not behind text. (Findings: with underlined headings ignored every line is a paragraph of its own; with quotes ignored, alerts are read only if underlined headings are ignored too.) With Skip, Map and FlatMap the document is that reading with each element replaced by what its behaviour makes of it.", "quantifier": "all texts, all configurations in which every construct is parsed or ignored (texts and paragraphs parsed) with or without custom parsers that take something and leave the rest, or in which constructs are replaced as in C69", "why_tests_cant": "Strings range over an infinite set; the failing ones are rare special-character combinations.", "anchors": ["src/parser/config.rs: MarkdownParserConfig", "src/parser/blocks/mod.rs: block", "src/parser/inline/mod.rs: inline", "src/parser/blocks/paragraph.rs: is_paragraph_line_start", "src/parser/inline/text.rs: not_a_text"]}
{"id": "C89", "title": "The exact HTML output", "statement": "render_html of any document with any configuration gives exactly one text, the tree of the document written without any layout: every element with its opening and closing tag (also br, hr and img), attributes in a fixed order, special characters as references in texts (and in values, twice for URLs and titles), raw HTML and custom alert names as they are; or panics exactly if a table without rows would be shown.", "quantifier": "all documents, all configurations, every display width function", "why_tests_cant": "ASTs nest without bound and every node kind can contain every other; tests only exercise a few shapes.", "anchors": ["src/html_printer/mod.rs: render_html", "src/html_printer/block.rs", "src/html_printer/inline.rs", "src/html_printer/util.rs: tag, escape", "src/html_printer/github_alert.rs"]}
{"id": "C90", "title": "A text is converted to exactly one text", "statement": "Parsing a text and rendering the document as HTML gives, for every text, exactly one HTML text and never an error or a panic: the text specified in C89 of the document specified in C85/C88. The same for LaTeX (C87), and for formatting as Markdown (C86), which panics exactly if the document is not printable.", "quantifier": "all texts, all configurations in which every construct is parsed or ignored (texts and paragraphs parsed), all renderer configurations", "why_tests_cant": "Strings range over an infinite set; the failing ones are rare special-character combinations.", "anchors": ["src/parser/mod.rs: parse_markdown", "src/html_printer/mod.rs: render_html", "src/latex_printer/mod.rs: render_latex", "src/printer/mod.rs: render_markdown"]}
{"id": "C91", "title": "What closures do besides returning has no influence on the document", "statement": "Map, FlatMap and custom-parser closures may have side effects (they are FnMut). Whether a text is accepted never depends on what they return or do; if what they return does not depend on earlier calls, the document is the one that the functions they compute give, however often and in which order they are called; closures that return their element unchanged (counters, loggers) change nothing.", "quantifier": "all texts, all closures over all types of state, all configurations", "why_tests_cant": "Strings range over an infinite set; the failing ones are rare special-character combinations.", "anchors": ["src/parser/util.rs: conditional, conditional_block, conditional_inline", "src/parser/config.rs: ElementBehavior", "src/parser/blocks/mod.rs: block, custom_parser", "src/parser/inline/mod.rs: inline, custom_parser"]}
{"id": "C92", "title": "How often closures are called: twice as often for each level of nesting", "statement": "The content of a quote, and that of the first item of a list, is parsed twice, each time with all effects of closures, and the result of the first time is dropped: a text behind n quote marks or in n nested items is parsed 2 to the n times, so that a counting closure counts one paragraph 2 to the n times and parsing takes exponential time. (Finding.)", "quantifier": "all texts, all numbers of levels, all closures and states, all configurations that parse quotes, lists and underlined headings and have no custom parsers", "why_tests_cant": "Strings range over an infinite set; the failing ones are rare special-character combinations.", "anchors": ["src/parser/blocks/mod.rs: block", "src/parser/blocks/heading.rs: heading_v2_or_paragraph", "src/parser/blocks/paragraph.rs: is_paragraph_line_start", "src/parser/blocks/blockquote.rs", "src/parser/blocks/list.rs"]}
{"id": "C93", "title": "Every element of a document has been passed to its closure, in document order", "statement": "With closures that write down their calls and return their element, parsing gives the document it gives without closures, and the log contains, in this order, for every element of the document a call of the closure of its kind with this very element, after those for what it contains and before those for what follows (there are more calls, from attempts that are dropped, C92). The log of one parse is continued by the next. (No calls: for alerts, whose closure is never called, and for texts, which are merged after the call; strong text between three marks has one call with the emphasis inside it.)", "quantifier": "all texts, all entity tables and character classes, both heading options", "why_tests_cant": "Strings range over an infinite set; the failing ones are rare special-character combinations.", "anchors": ["src/parser/util.rs: conditional_block, conditional_inline", "src/parser/blocks/mod.rs: block", "src/parser/inline/mod.rs: inline"]}
{"id": "C94", "title": "Links do not nest", "statement": "In the document of a text without an escaped closing bracket (backslash and ]), no link, inline or by reference, contains a link, a reference, an image or a footnote reference at any depth, and neither does the label of a definition. (Findings: with escaped brackets links do nest, as deep as there are backslashes; autolinks are read inside links, so anchors nest in the HTML; an image in a link is not read as one.)", "quantifier": "all texts without an escaped closing bracket, all configurations in which each element is parsed or ignored (texts and paragraphs parsed) and without custom parsers", "why_tests_cant": "Strings range over an infinite set; the failing ones are rare special-character combinations.", "anchors": ["src/parser/link_util.rs: link_label, link_label_inner", "src/parser/inline/inline_link.rs", "src/parser/inline/reference_link.rs", "src/parser/inline/image.rs"]}
{"id": "C95", "title": "How large a document is", "statement": "The document of a text of n characters has fewer than 2^(n+1) blocks and inlines; at most 3n² if the text has no escaped closing bracket (backslash and ]); and at most 3n if it has no bar either. (Findings: the bounds are of the right order. A table of a few characters per row is padded to the width of its header, so that documents are quadratically large; and with escaped brackets shortcut references contain their text twice at each level of nesting, so that a heading of about a thousand characters stands for more than 10^13 inlines.)", "quantifier": "all texts, all configurations in which each element is parsed or ignored (texts and paragraphs parsed) and without custom parsers", "why_tests_cant": "Strings range over an infinite set; the failing ones are rare special-character combinations.", "anchors": ["src/parser/mod.rs: parse_markdown", "src/parser/inline/reference_link.rs", "src/parser/link_util.rs: link_label", "src/parser/blocks/table.rs"]}
{"id": "C96", "title": "Configurations are what the last calls of their setters say", "statement": "After any chain of calls of the setters on a parser configuration, each of its 26 settings is the value of the last call of its own setter, or what it was before; so calls of different setters can be made in any order, a call is forgotten when its setter is called again, and two chains with the same last call of each setter parse every text to the same document. The same for the configurations of the Markdown, HTML and LaTeX renderers. The map of entities made from a table has for each name the last entry of that name.", "quantifier": "all initial configurations, all chains of calls with all arguments, all tables, all texts", "why_tests_cant": "Strings range over an infinite set; the failing ones are rare special-character combinations.", "anchors": ["src/parser/config.rs: MarkdownParserConfig", "src/printer/config.rs: Config", "src/html_printer/config.rs: Config", "src/latex_printer/config.rs: Config"]}
{"id": "C97", "title": "Documents can be rendered in parts", "statement": "If only one of two documents has footnotes and neither defines a label to which the other refers, the HTML of the two together is the HTML of the one followed by that of the other, and the LaTeX text is that of the one, a blank line and that of the other. The Markdown text of two documents together is that of the one, a blank line (before a list only a line end, if configured so) and that of the other, if the first does not end with a blank. So the HTML of texts that stand on their own (C82), separated by blank lines, can be made text by text. (Finding: a list item whose text ends with a blank that does not fit leaves an indented empty line at the end.)", "quantifier": "all pairs of such documents, all renderer configurations and widths; for texts, all parser configurations", "why_tests_cant": "ASTs nest without bound and every node kind can contain every other; tests only exercise a few shapes.", "anchors": ["src/html_printer/mod.rs: render_html", "src/html_printer/index.rs", "src/latex_printer/mod.rs: render_latex", "src/printer/mod.rs: render_markdown", "src/printer/block.rs"]}
{"id": "C98", "title": "How long the HTML of a text is", "statement": "The HTML of a document has at most 1000 characters for each block, inline, list item, table row and empty cell, 16 for each character of its strings, and for each reference and footnote again as many for each of these characters (which definition is repeated where), 20 for each reference and footnote and 10 for each character of the anchor prefix. The strings of the document of a text without an escaped closing bracket, with its references, items, rows and empty cells, are at most three times as many as its n characters; so its HTML has at most 7000 n^2 characters (and 30 n for each character of the anchor prefix), and at most 7000 n if there is no bar and no reference. (Finding: quadratic it can be, by tables of a few characters per row.)", "quantifier": "all documents, all renderer configurations; all texts without an escaped closing bracket, all configurations in which each element is parsed or ignored (texts and paragraphs parsed) and without custom parsers, all entity tables in which no value is longer than its name", "why_tests_cant": "Strings range over an infinite set; the failing ones are rare special-character combinations.", "anchors": ["src/parser/mod.rs: parse_markdown", "src/html_printer/mod.rs: render_html", "src/html_printer/inline.rs", "src/html_printer/block.rs"]}
{"id": "C99", "title": "HTML elements are nested as HTML demands", "statement": "In the HTML of every document each element contains only what it may: paragraphs, headings, links, emphasis and table cells contain text and inline elements, code contains text only, lists contain items and items occur nowhere else, a table is a head and a body with rows of header and data cells, br, hr and img are empty, a preformatted block is one code element, quotes and alerts contain blocks; a text without escaped closing brackets and without < or without > gives no link inside a link. (Exceptions, shown: the content of a footnote is a span with blocks in it, and empty elements are written with an end tag, which browsers read as a second line break for br.)", "quantifier": "all documents, all configurations", "why_tests_cant": "ASTs nest without bound and every node kind can contain every other; tests only exercise a few shapes.", "anchors": ["src/html_printer/block.rs", "src/html_printer/inline.rs"]}
{"id": "C100", "title": "A construct is read only from a text that has its characters", "statement": "A parsed document contains a quote, alert, ATX heading, thematic break, list, HTML block, footnote definition, link definition, table, autolink, link, image, reference, footnote reference, code span, emphasis, strikethrough, underlined heading, code block or hard line break, at any depth, only if the characters needed to write it are in the input, and each of its elements is written by its construct's grammar with characters of the input; so a text without any of them is read as paragraphs, underlined headings and code blocks of plain text and line breaks.", "quantifier": "all inputs, all configurations without user code", "why_tests_cant": "Strings range over an infinite set; the failing ones are rare special-character combinations.", "anchors": ["src/parser/mod.rs: parse_markdown", "src/parser/blocks/mod.rs: block", "src/parser/inline/mod.rs: inline"]}
{"id": "C101", "title": "Wrapped paragraphs take as few lines as possible", "statement": "The lines of a printed paragraph of ASCII text are its unbreakable pieces, in order, on lines of the width (a piece wider than that on a line of its own), and there is no way to put them on fewer lines; so at a greater width the paragraph never takes more lines.", "quantifier": "all paragraphs of ASCII text, any inline nesting, all widths, all other ways to break the lines", "why_tests_cant": "ASTs nest without bound and every node kind can contain every other; tests only exercise a few shapes.", "anchors": ["src/printer/inline.rs", "src/printer/mod.rs: render_markdown"]}
{"id": "C102", "title": "What the HTML of a text can do", "statement": "For every input, if HTML blocks are not parsed, the HTML can be read in just one way; its elements are those of a fixed list (no script, style, frame, form or other active element), with attributes of a fixed list for each (no event handler, inline style or id), classes of a fixed list, and every href and src is an address written in the document (link, image, autolink, definition) or the anchor of a footnote. (Finding: addresses are not looked at, so a javascript: link is passed on.)", "quantifier": "all inputs, all configurations without user code in which HTML blocks are not parsed; all documents without raw HTML", "why_tests_cant": "Strings range over an infinite set; the failing ones are rare special-character combinations.", "anchors": ["src/html_printer/block.rs", "src/html_printer/inline.rs", "src/html_printer/util.rs"]}
{"id": "C103", "title": "The LaTeX of a text cannot run commands of the text's author", "statement": "The control sequences in the output of render_latex, as TeX finds them, are of a fixed list: sectioning, lists, tables, links, footnotes, fonts and escaped characters; so are the environments. No text, link, title, image, HTML or alert of the input can read or write files, run programs, or define commands, neither with a backslash nor with ^^ notation, provided that code blocks are not parsed or have no mark of the end of their environment.", "quantifier": "all texts, all parser configurations without custom parsers and callbacks, all documents with plain alert names, all LaTeX configurations and widths", "why_tests_cant": "Strings range over an infinite set; the failing ones are rare special-character combinations.", "anchors": ["src/latex_printer/mod.rs: render_latex", "src/latex_printer/util.rs: escape_latex", "src/latex_printer/block.rs", "src/latex_printer/inline.rs"]}
{"id": "C104", "title": "How long the LaTeX of a text is", "statement": "The LaTeX of a document is at most linear in its blocks, inlines, list items, table rows, empty cells, columns and characters, and each reference and footnote adds at most the length of what it refers to and of its number. The LaTeX of a text of n characters without an escaped closing bracket has at most 1000 n^2 characters; without bars, references and footnotes at most 550 n. A table reaches the square.", "quantifier": "all documents, all texts without an escaped closing bracket, all LaTeX configurations and widths", "why_tests_cant": "Strings range over an infinite set; the failing ones are rare special-character combinations.", "anchors": ["src/latex_printer/mod.rs: render_latex", "src/latex_printer/block.rs", "src/latex_printer/inline.rs", "src/latex_printer/table.rs", "src/latex_printer/util.rs: escape_latex"]}
{"id": "C105", "title": "Rewriting addresses rewrites those of the HTML, except for those of definitions", "statement": "After transform_link_urls, transform_image_urls and transform_autolink_urls with a function f, every address in the HTML of a document without raw HTML is f of an address of the document, or the address of a link definition, unchanged, or points to a footnote. So a filter of addresses by these functions is complete exactly when there are no definitions.", "quantifier": "all documents without raw HTML, all functions, all HTML configurations; all texts and parser configurations without HTML blocks and definitions", "why_tests_cant": "ASTs nest without bound and every node kind can contain every other; tests only exercise a few shapes.", "anchors": ["src/ast_transform/convenience.rs: transform_link_urls, transform_image_urls, transform_autolink_urls", "src/html_printer/inline.rs", "src/html_printer/mod.rs: render_html"]}
{"id": "C106", "title": "Formatting a document does not change how it is displayed", "statement": "If a document passes the test of C49 (what it is printed as is not ambiguous) and no link is defined under a label with whitespace in it, then what is read from its printed text, at any width, has the same HTML as the document, element by element and attribute by attribute, but for the lengths of runs of whitespace in texts outside code. (Finding: a label with a space is wrapped like any text, and a label with a line break is not that of the definition, so that formatting removes the link together with its text.)", "quantifier": "all documents that pass the test, all formatting widths and styles, all HTML configurations", "why_tests_cant": "ASTs nest without bound and every node kind can contain every other; tests only exercise a few shapes.", "anchors": ["src/printer/mod.rs: render_markdown", "src/parser/mod.rs: parse_markdown", "src/html_printer/mod.rs: render_html"]}
{"id": "C107", "title": "Formatting a document does not change its LaTeX", "statement": "If a document passes the test of C49, no link is defined under a label with whitespace in it, and texts that consist of whitespace are one space or one line break before and after, then what is read from its printed text, at any width, gives exactly the same LaTeX, character by character, in every style and at every LaTeX width. The condition on what is read back holds if no text of the document consists of whitespace.", "quantifier": "all documents that pass the test, all formatting widths and styles, all LaTeX configurations", "why_tests_cant": "ASTs nest without bound and every node kind can contain every other; tests only exercise a few shapes.", "anchors": ["src/printer/mod.rs: render_markdown", "src/parser/mod.rs: parse_markdown", "src/latex_printer/mod.rs: render_latex"]}
{"id": "C108", "title": "Cleaning up whitespace changes nothing but whitespace in what is displayed", "statement": "The HTML of a document after normalize_whitespace or remove_empty_text has the same elements, attributes, raw HTML, code and characters as before, in the same places, except for whitespace in texts, provided that no two labels of the document become the same. (Findings: the whitespace may be what separates words, `one *two* three` is displayed as onetwothree; and a reference that did not resolve, and was not displayed, does after its label is normalized.)", "quantifier": "all documents no two labels of which become the same, all HTML configurations", "why_tests_cant": "ASTs nest without bound and every node kind can contain every other; tests only exercise a few shapes.", "anchors": ["src/ast_transform/convenience.rs: normalize_whitespace, remove_empty_text", "src/html_printer/mod.rs: render_html"]}
{"id": "C109", "title": "Transforming texts changes nothing but texts in what is displayed", "statement": "The HTML of a document after transform_text with any function has the same elements, attributes, raw HTML and code as before, in the same places, and in texts the same characters but for those that the function changes, provided that no two labels of the document become the same. (Finding: transform_text also rewrites labels, so that a reference can take the destination of another definition.)", "quantifier": "all documents no two labels of which become the same, all functions on texts, all HTML configurations", "why_tests_cant": "ASTs nest without bound and every node kind can contain every other; tests only exercise a few shapes.", "anchors": ["src/ast_transform/convenience.rs: transform_text", "src/html_printer/mod.rs: render_html"]}
{"id": "C110", "title": "Cleaning up whitespace changes nothing but whitespace in the LaTeX", "statement": "The LaTeX of a document after normalize_whitespace or remove_empty_text is, without whitespace, the LaTeX of the document without whitespace, character by character, in every style and whatever the widths of the lines before and after, provided that no two labels of the document become the same. The width of the lines alone, and how the widths of characters are measured, also matter for whitespace only. (Findings as for C108: words may be joined, references may become links.)", "quantifier": "all documents no two labels of which become the same, all LaTeX configurations and widths", "why_tests_cant": "ASTs nest without bound and every node kind can contain every other; tests only exercise a few shapes.", "anchors": ["src/ast_transform/convenience.rs: normalize_whitespace, remove_empty_text", "src/latex_printer/mod.rs: render_latex", "src/latex_printer/inline.rs"]}
{"id": "C111", "title": "Transforming texts changes nothing but texts in the LaTeX", "statement": "If the function given to transform_text adds and removes only characters of some kind, then the LaTeX of the document before and after differs only in whitespace and in the characters with which those of that kind are spelled (as & is spelled backslash &); commands, environments, addresses, code, numbers of footnotes and all other characters stay the same, in the same order, provided that no two labels of the document become the same.", "quantifier": "all documents no two labels of which become the same, all functions on texts and kinds of characters they are confined to, all LaTeX configurations and widths", "why_tests_cant": "ASTs nest without bound and every node kind can contain every other; tests only exercise a few shapes.", "anchors": ["src/ast_transform/convenience.rs: transform_text", "src/latex_printer/mod.rs: render_latex", "src/latex_printer/util.rs: escape_latex"]}
{"id": "C112", "title": "Transforming addresses, code or raw HTML changes nothing else in what is displayed", "statement": "The HTML of a document after transform_link_urls, transform_image_urls, transform_autolink_urls, transform_code or transform_html with any function is the tree of the HTML before with the same elements, attributes and characters in the same places, except for, respectively, the addresses of links, the addresses of images, the addresses and characters of links (an autolink displays its address), the content of inline code, and raw HTML; provided that no two labels of the document become the same. (The text of code blocks and the addresses of definitions are not transformed.)", "quantifier": "all documents no two labels of which become the same, all functions on texts, all HTML configurations", "why_tests_cant": "ASTs nest without bound and every node kind can contain every other; tests only exercise a few shapes.", "anchors": ["src/ast_transform/convenience.rs: transform_link_urls, transform_image_urls, transform_autolink_urls, transform_code, transform_html", "src/html_printer/mod.rs: render_html"]}
{"id": "C113", "title": "Blocks that are filtered out leave the rest of the output as it is", "statement": "The HTML of a document is one text for each of its blocks, and the HTML after filter_blocks is those of the blocks that are kept, provided that those dropped contain no definition, footnote definition or footnote reference; so is the LaTeX, with blank lines between. In particular remove_empty_paragraphs drops from the HTML a <p></p> for each empty paragraph among the blocks of the document, and nothing from the LaTeX but line breaks. (Without the condition links disappear and footnotes are renumbered.)", "quantifier": "all documents and predicates on blocks such that nothing is dropped that others need, all HTML and LaTeX configurations", "why_tests_cant": "ASTs nest without bound and every node kind can contain every other; tests only exercise a few shapes.", "anchors": ["src/ast_transform/convenience.rs: filter_blocks, remove_empty_paragraphs", "src/html_printer/mod.rs: render_html", "src/latex_printer/mod.rs: render_latex"]}
{"id": "C114", "title": "The Markdown of a document is that of its blocks", "statement": "render_markdown succeeds on a document exactly if it does on each of its blocks alone; so it still does after blocks are filtered out, moved or repeated. If no block's own text ends with a blank, the text of the document is the texts of the blocks printed alone, one after another, with an empty line between (before a list only a line break if the configuration says so), and the text after filter_blocks or remove_empty_paragraphs is what remains when the texts of the dropped blocks and what stands before them are taken out. (Without the condition trailing blanks of an indented empty line depend on whether a block follows.)", "quantifier": "all documents, predicates on blocks and formatting configurations", "why_tests_cant": "ASTs nest without bound and every node kind can contain every other; tests only exercise a few shapes.", "anchors": ["src/ast_transform/convenience.rs: filter_blocks, remove_empty_paragraphs", "src/printer/mod.rs: render_markdown", "src/printer/block.rs"]}
{"id": "C115", "title": "Cleaning up whitespace, and choosing a format, change nothing but whitespace in the Markdown", "statement": "The Markdown of a document after normalize_whitespace or remove_empty_text, or printed with other settings, has the same characters in the same order, apart from whitespace, from the > that begins the lines of quotes and alerts and from the dashes under the headers of tables; if a document has no quotes and alerts, or no tables, these are the same as well. The condition for clean-ups is that no link reference's text becomes its label ([a][ a] is printed as [a] afterwards). A document in which no row of a table is longer than its header can be printed after the clean-up exactly if it can be before.", "quantifier": "all documents no reference of which has a text that becomes its label, all pairs of formatting configurations", "why_tests_cant": "ASTs nest without bound and every node kind can contain every other; tests only exercise a few shapes.", "anchors": ["src/ast_transform/convenience.rs: normalize_whitespace, remove_empty_text", "src/printer/mod.rs: render_markdown", "src/printer/inline.rs", "src/printer/block.rs"]}
{"id": "C116", "title": "Transforming texts changes nothing but texts in the Markdown", "statement": "If the function given to transform_text adds and removes only characters of some kind, then the Markdown of the document before and after differs only in these characters, in whitespace, in the > that begins the lines of quotes and alerts and in the dashes under the headers of tables: markup, addresses, code, labels of footnotes and all other characters stay the same, in the same order, provided that no link reference's text becomes its label.", "quantifier": "all documents no reference of which has a text that becomes its label, all functions on texts and kinds of characters they are confined to, all formatting configurations", "why_tests_cant": "ASTs nest without bound and every node kind can contain every other; tests only exercise a few shapes.", "anchors": ["src/ast_transform/convenience.rs: transform_text", "src/printer/mod.rs: render_markdown", "src/printer/inline.rs", "src/printer/table.rs"]}
{"id": "C117", "title": "Transforming addresses, code or raw HTML changes nothing else in the Markdown", "statement": "If the function given to transform_link_urls, transform_image_urls, transform_autolink_urls, transform_code, transform_html (or transform_text) adds and removes only characters of some kind, then the Markdown of the document before and after differs only in these characters, in whitespace, in the > that begins the lines of quotes and alerts and in the dashes under the headers of tables, provided that no link reference's text becomes its label. Whether a document can be printed does not depend on the transform if no row of a table is longer than its header. (The text of code blocks and the addresses of definitions are not transformed.)", "quantifier": "all documents no reference of which has a text that becomes its label, all functions on strings and kinds of characters they are confined to, all formatting configurations", "why_tests_cant": "ASTs nest without bound and every node kind can contain every other; tests only exercise a few shapes.", "anchors": ["src/ast_transform/convenience.rs: transform_link_urls, transform_image_urls, transform_autolink_urls, transform_code, transform_html", "src/printer/mod.rs: render_markdown"]}
{"id": "C118", "title": "Transforming addresses, code or raw HTML changes nothing else in the LaTeX", "statement": "If the function given to transform_link_urls, transform_image_urls, transform_autolink_urls, transform_code, transform_html (or transform_text) adds and removes only characters of some kind, then the LaTeX of the document before and after differs only in whitespace and in the characters with which those of that kind are spelled: commands, environments, numbers of footnotes, the addresses references resolve to and all other characters stay the same, in the same order, provided that no two labels of the document become the same.", "quantifier": "all documents no two labels of which become the same, all functions on strings and kinds of characters they are confined to, all LaTeX configurations and widths", "why_tests_cant": "ASTs nest without bound and every node kind can contain every other; tests only exercise a few shapes.", "anchors": ["src/ast_transform/convenience.rs: transform_link_urls, transform_image_urls, transform_autolink_urls, transform_code, transform_html", "src/latex_printer/mod.rs: render_latex", "src/latex_printer/inline.rs"]}
{"id": "C119", "title": "The Markdown has bounded text besides its layout", "statement": "The characters of the Markdown text of a document that are neither whitespace nor the > before the lines of quotes nor dashes are at most sixty for every node, item, row and empty cell, one for every character of its strings (three for those of alert names, which are put in capitals), three for every column of its tables, and the marks of its headings: whatever the configuration and however blocks are nested, no string is printed twice. (Its layout has no such bound: cells are padded.)", "quantifier": "all documents and configurations for which the Markdown text exists, with any display width and any capital letters of at most three characters", "why_tests_cant": "ASTs nest without bound and every node kind can contain every other; tests only exercise a few shapes.", "anchors": ["src/printer/mod.rs: render_markdown", "src/printer/block.rs", "src/printer/inline.rs", "src/printer/table.rs", "src/printer/blockquote.rs", "src/printer/github_alert.rs", "src/printer/list.rs"]}
{"id": "C120", "title": "Every character of the strings of a document is in its Markdown", "statement": "Every character that is not whitespace occurs in the Markdown text of a document at least as often as in its strings: texts, code, raw HTML, addresses, titles, alternative texts, labels of footnotes and info strings, however deep they are, whatever the configuration. (A reference whose text is its label is printed once; the names of alerts are put in capitals.)", "quantifier": "all documents without a reference whose text equals its label, all configurations for which the Markdown text exists, and all characters that are not whitespace", "why_tests_cant": "ASTs nest without bound and every node kind can contain every other; tests only exercise a few shapes.", "anchors": ["src/printer/mod.rs: render_markdown", "src/printer/block.rs", "src/printer/inline.rs", "src/printer/table.rs", "src/printer/blockquote.rs", "src/printer/github_alert.rs", "src/printer/list.rs"]}
{"id": "C121", "title": "Every character of the strings that LaTeX shows is in the LaTeX", "statement": "Every character that is neither whitespace nor ^ nor ~ occurs in the LaTeX of a document at least as often as in the strings of it that LaTeX shows: texts, code, raw HTML, addresses, titles of links, captions of images and the texts of references, however deep they are, in all blocks but definitions and footnotes without a number, whatever the configuration.", "quantifier": "all documents, all LaTeX configurations and widths, all characters but whitespace, ^ and ~ (which have names in LaTeX)", "why_tests_cant": "ASTs nest without bound and every node kind can contain every other; tests only exercise a few shapes.", "anchors": ["src/latex_printer/mod.rs: render_latex", "src/latex_printer/block.rs", "src/latex_printer/inline.rs", "src/latex_printer/table.rs", "src/latex_printer/util.rs"]}
