STATUS.update({
 "C01": ("proved", "All documents, blocks, list items and inlines; all data values."),
 "C02": ("proved", "The Rust to_generic/from_generic free functions on the unit-data AST, both directions."),
 "C03": ("proved", "Exact data list of the result for every document/block/inline and value."),
 "C04": ("proved", "For every state-passing closure (including one that panics: then nothing is returned)."),
 "C05": ("proved", "map_data equals running the closure over the post-order data list; call count and result determined by it."),
 "C06": ("proved", "Identity and composition for pure closures."),
 "C07": ("proved", "u64 overflow modelled as a panic (debug build); ids are consecutive, unique, document last."),
 "C08": ("proved", "For every sequence of next_id/peek calls."),
 "C09": ("proved", "Exact list (document order) and soundness/completeness w.r.t. an inductive occurrence relation."),
 "C10": ("proved", "Exact list (document order) and soundness/completeness w.r.t. an inductive occurrence relation."),
 "C11": ("proved", "find_first, any, count and all typed finders in terms of find_all / occurrence."),
 "C12": ("proved", "For every visitor whose methods record and then walk; existence of such a visitor is shown."),
})
STATUS.update({
 "C13": ("proved", "transform_with/expand_with with all-default methods, classic and generic AST. Finding recorded: expand_with does not call an overridden transform_block on paragraphs."),
 "C14": ("proved", "Exact string list and skeleton; laws; and a user transformer overriding transform_text only, with state."),
 "C15": ("proved", "transform_image_urls/link_urls/autolink_urls/code/html (one theorem per target through Target)."),
 "C16": ("proved", "Builder steps, when, custom and composite order; composite equals the pipeline."),
 "C17": ("proved", "Canonical spacing, same words, idempotent; for every text of the document."),
 "C18": ("proved", "Exactly the blank texts disappear, everything else unchanged, idempotent."),
 "C19": ("proved", "Top-level filter; nested blocks kept verbatim."),
})
STATUS.update({
 "C20": ("proved", "Explicit decoder, injectivity, no special characters, every & starts an entity."),
 "C21": ("proved", "Grammar of well-nested HTML over a fixed vocabulary; the condition on alert names is necessary (C21_alert_name_not_escaped)."),
 "C22": ("partial", "False as stated: values are escaped twice (C22_refuted). Proved: decoding twice gives the value; decoding once gives it iff it has no special character."),
 "C23": ("proved", "For all widths and display-width functions."),
 "C24": ("proved", "Specification by rank of first occurrence; bijection onto 1..n; shown number of references (C25_direct_reference_partial, C52) and definitions (C24_definition)."),
 "C25": ("partial", "False as stated for references nested in other inlines (C25_refuted). C75 says exactly which references are linked. Proved for every reference standing directly in a rendered paragraph, heading or table cell."),
 "C26": ("proved", "Rendering equals rendering after replacing each reference by the link of the last equal-label definition, or nothing."),
 "C27": ("proved", "Panics iff a table without rows is part of the rendered output."),
 "C52": ("proved", "Tag-stripped, entity-decoded output equals the text of the AST."),
})
STATUS.update({
 "C28": ("proved", "Explicit decoder (any continuation), injectivity, one unit per character."),
 "C29": ("proved", "Brace balance for documents without code blocks, and a full grammar (groups, environments, & only in tables, fixed command vocabulary) for all documents with safe code; necessity of the conditions shown by witnesses."),
 "C30": ("proved", "Position-by-position equality up to space/newline, and code blocks literally unchanged, at every width and display-width function."),
 "C31": ("proved", "Rank of the last outer definition; consecutive 1..k without repetitions; shown numbers; reference links equal inline links; fallback. Definitions inside footnotes are not indexed (part of the specification)."),
})
STATUS.update({
 "C32": ("proved", "For every string; also for every configuration in which texts and paragraphs are not ignored (both conditions shown necessary)."),
 "C33": ("proved", "The depth counter of the model (recursion of the code) never matters beyond the input length, for blocks and inlines."),
 "C39": ("proved", "Blank input for every configuration; leading blank lines. Finding: a trailing newline can change the document (C39_trailing_newline_matters)."),
})
STATUS.update({
 "C34": ("proved", "Every configuration without user code (Map/FlatMap/custom parsers)."),
 "C35": ("proved", "Every configuration without user code."),
 "C36": ("proved", "All inline lists at all depths; merging preserves the sequence of characters and other inlines."),
 "C37": ("proved", "Default configuration, and every configuration without Skip."),
 "C38": ("proved", "All block and inline kinds. Findings: heading_v2 Skip/Ignore also affects paragraphs, paragraph Skip alone does not remove paragraphs."),
 "C40": ("proved", "Every configuration without user code."),
 "C42": ("proved", "No panic for every configuration without user code; well nested and exact visible text when HTML blocks are not parsed; stated from the input string."),
 "C53": ("proved", "Braces balanced when code blocks are not parsed; C53_code: with code blocks, for every text without \\end{ (C53_code_needs_end shows why it is needed). Finding: underscores of alert names reach LaTeX unescaped."),
})
STATUS.update({
 "C41": ("partial", "False as stated: names starting with a standard name (TIPS) and alerts whose body starts with a blank line are not recognised (C41_refuted_prefix, C41_refuted_blank_body). C74 says exactly which quotes are alerts. Proved for all other names, any letter case, any body."),
 "C43": ("proved", "Fenced blocks (with any indentation, fence length and info string, closed or ended by end of input), indented blocks. Finding: an unclosed fence is not a code block (C43_unclosed_fence)."),
 "C50": ("proved", "Lines of text in which nothing but character references is meaningful, any mixture of references and text."),
 "C51": ("partial", "False as stated: an escape after ordinary text is not recognised (C51_refuted). C79 says exactly which escapes are recognised. Proved for escapes and references at the beginning of the text, and for backslashes that escape nothing."),
 "C55": ("proved", "Every document; condition on the lines stated explicitly. Finding: the space after > is not stripped (C55_space_matters)."),
})
STATUS.update({
 "C54": ("partial", "False as stated for some names: nine names that start with another name of the list (header, thead, link, ...) are not recognised (C54_refuted_names). Proved for every unshadowed name in any letter case, and for comments, processing instructions, declarations and CDATA."),
})
STATUS.update({
 "C43": ("proved", "Fenced blocks (with any indentation, fence length and info string, closed or ended by end of input), indented blocks, code spans between any unambiguous inlines. Findings: an unclosed fence is not a code block (C43_unclosed_fence); a code span ends inside a longer run of backticks (C56_boundaries)."),
 "C56": ("proved", "Grammar Reads (InlineGrammar.lean) is the specification; any nesting; any number of lines. The boundaries of the grammar are shown needed by C56_boundaries."),
 "C57": ("proved", "ATX and Setext. Findings: closing #s stay in the heading, an indented # line is no heading (C57_boundaries)."),
})
STATUS.update({
 "C44": ("proved", "Paragraphs: the exact source with some spaces turned into newlines, at every width; whole documents: same words (quotes: apart from the > words)."),
 "C46": ("proved", "Exact lines, equal length, no panic. Finding: Left and None are both printed as ---, so Left is not encoded (C46_delimiter)."),
 "C47": ("partial", "False as stated (C47_number_panics, C47_footnote_panics, C47_nested_panics). Proved: the exact set of documents on which printing panics (C47_exact); parsed documents with numbers below 2^64 and no quotes in lists and footnotes print at every width >= 2."),
 "C48": ("proved", "Exact markers and boxes of all items, numbers consecutive, content words unchanged."),
})
STATUS.update({
 "C58": ("proved", "Every document and configuration; uniqueness of the reading for documents without raw HTML (Clean). Raw nodes are read verbatim."),
})
STATUS.update({
 "C59": ("proved", "Every document, configuration and width; the specification documentText is in LatexSourceSpec.lean."),
})
STATUS.update({
 "C45": ("partial", "False as stated: =, --, 1) and >x at the beginning of a line are block syntax that the printer does not avoid (C45_refuted). Proved for every text and width: no line begins with blanks or one of the words that the printer knows (bullets, >, |, runs of #, numbers with a dot, thematic breaks, fences). C45_exact says for every text and width exactly when the printed text is read as one paragraph (which lines must not begin with what); C45_harmless gives the texts for which that is so at every width."),
 "C60": ("proved", "Every document, configuration and width for which printing does not panic (C47_exact says when); specification in PrinterLayoutSpec.lean. Tables: rectangular ones."),
 "C61": ("proved", "Any inline nesting. Finding: the column is not reset after a hard line break (C61_hard_break)."),
})

STATUS.update({
 "C56": ("proved", "Grammar Reads (InlineGrammar.lean) is the specification; any nesting; any number of lines; text with loose special characters, identifiers, character references, escapes, both kinds of hard breaks, one to three stars or underscores; link destinations bare (with escapes and nested parentheses) or in angle brackets, titles in all three quotings. The boundaries of the grammar are shown needed by C56_boundaries."),
 "C62": ("proved", "Finding: spaces between the marks make it a list (C62_boundaries)."),
 "C63": ("proved", "Findings: blanks after the last bar are one more cell, and end the table in the delimiter row (C63_boundaries)."),
 "C64": ("proved", "Findings: trailing blanks or text after the title and it is no definition at all (C64_boundaries)."),
 "C65": ("proved", "Finding: a blank line ends the footnote even in front of an indented line (C65_boundaries)."),
})
STATUS.update({
 "C66": ("proved", "Any items in the sense of Items (ParserLists.lean), contents arbitrary. Findings in C66_boundaries: a blank line between items splits the list, less indented headings/quotes/other markers are taken into the item, 1. and 7) are one list, -[x] is an item."),
})

STATUS.update({
 "C49": ("partial", "False as stated (C49_refuted_parsed: escapes are not printed back). Proved for every document that passes the executable test fitsBlocks (RoundTripSpec.lean), any nesting and size, every printer width and configuration with an empty line before lists: the printed text parses to the same document up to runs of whitespace in text nodes. Missing: documents that fail the test; C49_refuted_* show witnesses for most reasons to fail. Texts may contain special characters that mean nothing where they are (identifiers with underscores, !, ~, &, <, a lone star). Hard line breaks are covered in paragraphs and setext headings, not inside emphasis or other inlines and not in list items; HTML blocks are covered when they are comments, instructions, declarations, CDATA, raw-text elements or (at top level) block-level elements with their last line end; inline HTML, brackets and loose underscores in texts are excluded."),
})

STATUS.update({
 "C67": ("partial", "False as stated (C67_refuted: wrapping can put 1) at the beginning of a line). Proved for every document that passes the executable test fitsBlocks of C49, every width and configuration with an empty line before lists, including that the re-read document is printed like the original with every other configuration. Missing: documents that fail the test."),
})
STATUS.update({
 "C68": ("proved", "Grammar of tags and attributes as in the program (attribute values in quotes are one character long, a blank line right after the line of the tag is part of the block: C68_boundaries)."),
})
STATUS.update({
 "C69": ("proved", "For every pure function. Hypothesis HookOk: no hook on texts and emphasis, no custom parsers, and heading_v2 and paragraph hooks agree on paragraphs unless one of them is Ignore; C69_boundaries shows what happens otherwise."),
})
STATUS.update({
 "C70": ("proved", "SpellsBlocks (ProvenanceSpec) says what a document spells, LosesOnlyMarkup what may be missing. Configurations with Skip, Map, FlatMap or custom parsers can lose text (C70_boundaries)."),
})
STATUS.update({
 "C71": ("proved", "GrammarSpec.lean is the grammar, declarative and independent of the parser. It is ambiguous on purpose (any text can be a paragraph); which reading wins is the matter of the recognition properties (C52-C57, C62-C66, C68). C71_refuses shows texts the grammar refuses."),
})
STATUS.update({
 "C72": ("proved", "OverrideSpec.lean is the specification (InOrder, BlockBecomes); for both traits. C72_exists/C72_generic_exists: every override is that of some transformer."),
 "C73": ("proved", "OverrideSpec.lean is the specification (InOrderConcat, BlockExpands); for both traits. What is not reached is in the statement (ItemExpands, Opaque) and in C73_boundaries."),
})

STATUS.update({
 "C74": ("proved", "AlertMarker, quoteFirst, quoteBody are the specification. Finding: a marker followed by blank lines only is not an alert but a quote with the marker as text. Hypothesis: the quote is not blank (a blank one is covered by C54/C63)."),
 "C75": ("proved", "Exact version of C25/C24: says which references are linked. Clean: no raw HTML in the document."),
})

STATUS.update({
 "C73": ("proved", "OverrideSpec.lean is the specification (InOrderConcat, BlockExpands); for both traits. C73_generic_hooks: the expand_* methods of GenericTransformer overridden. What is not reached is in the statement (ItemExpands, Opaque, GBlockHooked) and in C73_boundaries."),
 "C76": ("proved", "unix, CrOk, NoTraps and unixDoc (LineEndings.lean) are the specification. NoTraps excludes only texts with a possible definition that is ambiguous, or an attribute value that is a line ending; C76_boundaries: each exclusion is needed. Hypothesis UnixOk: no custom parsers; user code commutes with removing carriage returns."),
})

STATUS.update({
 "C77": ("proved", "Indifferent (Indifferent.lean) is the specification: per construct, the configurations agree or a needed character is missing. Also for custom parsers. C77_boundaries: every condition matters."),
 "C78": ("proved", "TriggeredBy, Reads and DecodesEsc are the specification. C78_inline_text and C78_examples: the finding that a custom inline parser is not asked within a text."),
})

STATUS.update({
 "C79": ("proved", "StandsFor (EscapeProps.lean) is the specification, total (C79_total) and functional (C79_unique). Exact version of C51."),
})

STATUS.update({
 "C80": ("proved", "StartSpec.lean is the specification (StartsWith, startKind): an exact characterisation of every block parser's domain; the kinds exclude each other. Exact companion of C41, C54, C58, C59, C62-C66."),
 "C81": ("proved", "TextRun and Interrupts (StartSpec.lean) are the specification; InlinesWritten is that of C71."),
 "C82": ("proved", "Complete, FlushLeft and Standalone (ConcatSpec.lean) are the specification; C82_concat is the claim, C82_fence and C82_comment add the constructs Complete does not admit, C82_join and C82_pieces put any number of documents together, C82_needed shows why the hypotheses are there."),
 "C83": ("proved", "EndsPlainly and NoHtmlLine (FinalNewline.lean, with HtmlAt of StartSpec.lean) are the specification; C83_plain is the form for texts without <; C83_needed shows why the hypotheses are there."),
})

STATUS.update({
 "C84": ("proved", "InlineExactSpec.lean is the specification: ReadAs, total (C84_total) and functional (C84_unique); it uses the shapes of GrammarSpec.lean. C84_heading and C84_text are about documents. Exact version of C42-C44, C50-C53, C71 for inlines."),
})

STATUS.update({
 "C89": ("proved", "HtmlTreeSpec.lean and HtmlExactSpec.lean are the specification: the tree of a document and how a tree is written. C89_exact_html is an equation for render_html of every document; the paths of the icons are the only thing left open (they are fixed, the same for all documents)."),
 "C90": ("proved", "End-to-end statements: the specifications of C88 and C89, C87, C86 put together; C90_example runs all three on one text."),
 "C88": ("proved", "InlineOnSpec.lean and BlockOnSpec.lean are the specification: ReadOn and DocOn, total and functional (C88_unique). C88_exact is an equivalence for the whole of parse_markdown for all configurations of Parse and Ignore, with any custom parsers (C88_custom_examples); C88_hooks adds the behaviours of C69; C88_all_on: with everything on it is C85."),
 "C87": ("proved", "LatexExactSpec.lean is the specification (latexText), with the layout function of PrinterExactSpec.lean. C87_exact is an equation for render_latex of every document and configuration; it makes C59 (where each blank may be broken) exact."),
 "C86": ("proved", "PrinterExactSpec.lean is the specification: markdownText, a function of the blocks, the width and the style. C86_exact is an equivalence for render_markdown of every document (ragged tables included) and configuration; Printable (PrinterSpec.lean) says when it does not panic. C86_paragraph: a paragraph is the greedy filling of its pieces."),
 "C85": ("proved", "BlockExactSpec.lean is the specification: DocRead, total and functional (C85_unique), with the shapes of GrammarSpec.lean and StartSpec.lean and ReadAs of C84. C85_exact is an equivalence for the whole of parse_markdown; C85_configuration: two configurations that read everything, with the same entities and heading rule, give the same document."),
})

STATUS.update({
 "C91": ("proved", "Effects.lean is the model of the parser with closures that take and return a state. C91_effects, C91_accepts and C91_total are the claim, C91_numbers shows that results that depend on the state do depend on dropped calls too."),
 "C92": ("proved", "C92_quote and C92_list say what is parsed how often, for any closures and any rest; C92_nested, C92_exponential, C92_items, C92_items_exponential are the claim about n levels; C92_calls instantiates it with a counter."),
})

STATUS.update({
 "C93": ("proved", "EffectsLogSpec.lean is the specification: the configuration that logs its calls, and the calls that the elements of a document stand for. C93_example is a concrete log."),
})

STATUS.update({
 "C94": ("proved", "From the grammar of C71: a label without an escaped bracket contains no closing bracket at all. C94_nested shows that the hypothesis is needed."),
})

STATUS.update({
 "C95": ("proved", "C95_bound, C95_quadratic and C95_linear are the upper bounds, by induction on the grammar of C71 with one general bound (blocks_weight). C95_table and C95_exponential are the lower bounds, for every size of the table and every depth that the limit of 999 characters for a label allows."),
})

STATUS.update({
 "C96": ("proved", "Settings.lean models every setter of the four configurations; the specification (the last call of each setter, counted by constructor of the call) is written on the list of calls alone."),
})

STATUS.update({
 "C97": ("proved", "From the exact outputs (C86, C87, C89) and the fact that they depend on the footnote numbers and link definitions only through what occurs in the part. C97_convert adds C82. C97_shared shows that the hypotheses are needed."),
})
STATUS.update({
 "C98": ("proved", "DocMass.lean: strings, labels, items, rows, empty cells of a parsed document (induction on the C71 derivation); HtmlLength.lean: length of the exact HTML (C89). Modest: no entity value longer than its name, no character with more than three capitals. C98_quadratic: lower bound, C98_example: a text that meets all hypotheses. Texts with escaped brackets are excluded (C95_exponential)."),
})

STATUS.update({
 "C99": ("proved", "HtmlNesting.lean states the content model of each element (MayContain) on the tree of C58; C99_clean is for every way to read the output. C99_anchors and C99_text are about links in links. C99_footnote and C99_anchors_example show the exceptions."),
 "C100": ("proved", "From C77 and C38. C100_rest adds underlined headings, code blocks and hard line breaks (configurations as in C71), from C100_written_block and C100_written_inline: each element has a text by the grammar. C100_ordinary is the corollary for a text with none of the characters, C100_example such a text."),
})

STATUS.update({
 "C101": ("proved", "C101_fewest: against every other way to put the pieces on lines (OnLines). C101_wider compares two widths, hard line breaks included. ASCII only, as C61: wider characters are measured by an external function."),
})

STATUS.update({
 "C102": ("proved", "The lists are in HtmlSafe.lean (harmless, classes). C102_harmless is for every document without raw HTML and every reading of the output; C102_text for every input. C102_script is the finding about javascript: addresses."),
 "C103": ("proved", "controls in LatexSafe.lean reads a string as TeX does; the list is Control.Harmless. C103_harmless for every document, C103_text for every input, C103_carets and C103_text_carets: no ^^ outside code. C103_code: without the condition on code blocks it is false."),
 "C104": ("proved", "C104_latex for every document, C104_text and C104_plain for every text without an escaped closing bracket (see C95), C104_quadratic: the square is reached, by tables."),
 "C105": ("proved", "rewriteAddresses composes transform_link_urls, transform_image_urls and transform_autolink_urls. C105_rewritten for every document without raw HTML; C105_text: filters work if definitions are not parsed; C105_definitions_missed is the finding: definitions are not rewritten, so a javascript: address passes such a filter."),
})
STATUS.update({
 "C106": ("proved", "settle (FormatHtml.lean) says what is displayed. C106_display for every document that passes fitsBlocks, C106_example meets the hypotheses, C106_label_wrapped is the finding and shows why the condition on labels is needed."),
 "C107": ("proved", "C107_latex: byte for byte; C107_no_blanks without a condition on the document that is read back; C107_examples meets the hypotheses and shows that both conditions are needed."),
})
STATUS.update({
 "C108": ("proved", "dense (CleanupHtml.lean) says what is compared. C108_normalize, C108_remove for every document with labels that stay apart; C108_example meets the hypotheses; C108_words_joined and C108_labels_joined are the findings, the latter shows why the condition on labels is needed."),
})
STATUS.update({
 "C109": ("proved", "C109_transform_text for every function and every kind of characters such that the function keeps the others; C109_elements for every function; C109_examples meets the hypotheses and shows why labels matter."),
})
STATUS.update({
 "C110": ("proved", "squeeze (CleanupHtml.lean) drops characters of a kind. C110_normalize, C110_remove for every document with labels that stay apart, at any two widths; C110_width for every document; dw measures a blank as one column, as in C87. C110_example meets the hypotheses, C110_words_joined has the findings."),
 "C111": ("proved", "C111_transform_text for every kind p the function is confined to and every q that contains whitespace and the spelling of p; C111_examples meets the hypotheses and shows why labels matter."),
})
STATUS.update({
 "C112": ("proved", "masked (TransformHtml.lean) says what is compared for each kind of transform. C112_transform for every function and document with labels that stay apart; C112_example meets the hypotheses for all five, C112_labels_joined shows why labels matter. For transform_text see C109."),
})
STATUS.update({
 "C113": ("proved", "C113_html and C113_latex: one function from blocks to texts for all predicates. C113_empty_paragraphs is the corollary for remove_empty_paragraphs. C113_example meets the hypotheses, C113_needed shows why they are needed. Documents with a table without rows, whose HTML is a panic (C27), are left out of C113_html."),
})
STATUS.update({
 "C114": ("proved", "stackMarkdown (FilterMarkdown.lean) puts the texts of blocks one after another. C114_blocks, C114_filter and C114_empty_paragraphs for every document and predicate under the condition on trailing blanks; C114_every without it. C114_example meets the hypotheses, C114_needed shows why the condition."),
})
STATUS.update({
 "C115": ("proved", "Comparable (CleanupMarkdown.lean) is the condition; q is the kind of characters that are not compared, any kind with whitespace in it. C115_normalize, C115_remove and C115_configuration for every document that meets it, with any two configurations (same upper-casing); C115_printed says when there is a text. C115_example meets the hypotheses, C115_findings shows why > and - and the references are excepted."),
 "C116": ("proved", "C116_transform_text for every kind p the function is confined to and every q that contains whitespace and p; C115_example meets the hypotheses for it, too."),
})
STATUS.update({
 "C117": ("proved", "C117_transform for the six transforms, every function confined to a kind p and every q that contains whitespace and p, on documents that meet Comparable (CleanupMarkdown.lean); C117_printed for every function. C117_example meets the hypotheses for all six."),
 "C118": ("proved", "C118_transform for the six transforms, every function confined to a kind p and every q that contains whitespace and the spelling of p, on documents with labels that stay apart; dw measures a blank as one column, as in C87. C118_example meets the hypotheses for all six."),
})

STATUS.update({
 "C119": ("proved", "C119_ink for every document that has a Markdown text (C86 says which) and every configuration. C119_example: a document with nested lists, quote, alert, table and code meets the hypotheses; a table whose text, with its padding, is longer than the bound."),
})

STATUS.update({
 "C120": ("proved", "C120_told for every document that has a Markdown text (C86 says which), every configuration and every character that is not whitespace. C120_example: a document that meets the hypotheses, with the count of a character before and after; a reference printed once."),
})

STATUS.update({
 "C121": ("proved", "C121_told for every document, configuration and character but whitespace, ^ and ~; dw measures a blank as one column, as in C87. Which strings LaTeX shows is a recursive specification (Block.shown, LatexTold.lean). C121_example: a document with a footnote that has a number and one that has none."),
})
