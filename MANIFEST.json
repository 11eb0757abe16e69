{
 "claims": [
  {
   "property": "C01",
   "status": "proved",
   "theorems": [
    "Verif.C01_strip_with_data",
    "Verif.C01_strip_with_data_block",
    "Verif.C01_strip_with_data_item",
    "Verif.C01_strip_with_data_inline",
    "Verif.C01_with_data_injective"
   ],
   "note": "All documents, blocks, list items and inlines; all data values."
  },
  {
   "property": "C02",
   "status": "proved",
   "theorems": [
    "Verif.C02_from_to",
    "Verif.C02_to_from"
   ],
   "note": "The Rust to_generic/from_generic free functions on the unit-data AST, both directions."
  },
  {
   "property": "C03",
   "status": "proved",
   "theorems": [
    "Verif.C03_with_data_root_only",
    "Verif.C03_with_data_root_only_block",
    "Verif.C03_with_data_root_only_inline"
   ],
   "note": "Exact data list of the result for every document/block/inline and value."
  },
  {
   "property": "C04",
   "status": "proved",
   "theorems": [
    "Verif.C04_map_preserves_content"
   ],
   "note": "For every state-passing closure (including one that panics: then nothing is returned)."
  },
  {
   "property": "C05",
   "status": "proved",
   "theorems": [
    "Verif.C05_map_is_run_over_data",
    "Verif.C05_call_count",
    "Verif.C05_result_determined"
   ],
   "note": "map_data equals running the closure over the post-order data list; call count and result determined by it."
  },
  {
   "property": "C06",
   "status": "proved",
   "theorems": [
    "Verif.C06_map_pure",
    "Verif.C06_map_id",
    "Verif.C06_map_comp"
   ],
   "note": "Identity and composition for pure closures."
  },
  {
   "property": "C07",
   "status": "proved",
   "theorems": [
    "Verif.C07_ids",
    "Verif.C07_ids_unique",
    "Verif.C07_document_last",
    "Verif.C07_add_ids_to_document",
    "Verif.C07_generic_ignores_data",
    "Verif.C07_overflow_panics",
    "Verif.C07_release"
   ],
   "note": "u64 overflow modelled as a panic (debug build); ids are consecutive, unique, document last."
  },
  {
   "property": "C08",
   "status": "proved",
   "theorems": [
    "Verif.C08_history",
    "Verif.C08_peek",
    "Verif.C08_release",
    "Verif.C08_panic_iff",
    "Verif.C08_consecutive"
   ],
   "note": "For every sequence of next_id/peek calls."
  },
  {
   "property": "C09",
   "status": "proved",
   "theorems": [
    "Verif.C09_find_all_inlines",
    "Verif.C09_sound_complete",
    "Verif.C09_find_all_inlines_vec"
   ],
   "note": "Exact list (document order) and soundness/completeness w.r.t. an inductive occurrence relation."
  },
  {
   "property": "C10",
   "status": "proved",
   "theorems": [
    "Verif.C10_find_all_blocks",
    "Verif.C10_sound_complete"
   ],
   "note": "Exact list (document order) and soundness/completeness w.r.t. an inductive occurrence relation."
  },
  {
   "property": "C11",
   "status": "proved",
   "theorems": [
    "Verif.C11_find_first_inline",
    "Verif.C11_find_first_block",
    "Verif.C11_any_inline",
    "Verif.C11_any_block",
    "Verif.C11_count",
    "Verif.C11_typed_finders"
   ],
   "note": "find_first, any, count and all typed finders in terms of find_all / occurrence."
  },
  {
   "property": "C12",
   "status": "proved",
   "theorems": [
    "Verif.C12_visitor_order",
    "Verif.C12_visitor_sees_query_nodes",
    "Verif.C12_recording_exists"
   ],
   "note": "For every visitor whose methods record and then walk; existence of such a visitor is shown."
  },
  {
   "property": "C13",
   "status": "proved",
   "theorems": [
    "Verif.C13_generic_default_transform",
    "Verif.C13_generic_default_expand",
    "Verif.C13_generic_default_exists",
    "Verif.C13_default_transform",
    "Verif.C13_default_transform_nodes",
    "Verif.C13_default_expand",
    "Verif.C13_default_exists",
    "Verif.C13_expand_ignores_transform_block"
   ],
   "note": "transform_with/expand_with with all-default methods, classic and generic AST. Finding recorded: expand_with does not call an overridden transform_block on paragraphs."
  },
  {
   "property": "C14",
   "status": "proved",
   "theorems": [
    "Verif.C14_transform_text_code",
    "Verif.C14_texts",
    "Verif.C14_rest_unchanged",
    "Verif.C14_id",
    "Verif.C14_comp",
    "Verif.C14_override_transform_text"
   ],
   "note": "Exact string list and skeleton; laws; and a user transformer overriding transform_text only, with state."
  },
  {
   "property": "C15",
   "status": "proved",
   "theorems": [
    "Verif.C15_transform_code",
    "Verif.C15_exact",
    "Verif.C15_functor",
    "Verif.C15_commute"
   ],
   "note": "transform_image_urls/link_urls/autolink_urls/code/html (one theorem per target through Target)."
  },
  {
   "property": "C16",
   "status": "proved",
   "theorems": [
    "Verif.C16_apply",
    "Verif.C16_compose",
    "Verif.C16_builders",
    "Verif.C16_when",
    "Verif.C16_transform_if_doc",
    "Verif.C16_composite_append",
    "Verif.C16_composite_order",
    "Verif.C16_composite_eq_pipeline"
   ],
   "note": "Builder steps, when, custom and composite order; composite equals the pipeline."
  },
  {
   "property": "C17",
   "status": "proved",
   "theorems": [
    "Verif.C17_canonical",
    "Verif.C17_words",
    "Verif.C17_idempotent"
   ],
   "note": "Canonical spacing, same words, idempotent; for every text of the document."
  },
  {
   "property": "C18",
   "status": "proved",
   "theorems": [
    "Verif.C18_code",
    "Verif.C18_texts",
    "Verif.C18_no_blank",
    "Verif.C18_idempotent"
   ],
   "note": "Exactly the blank texts disappear, everything else unchanged, idempotent."
  },
  {
   "property": "C19",
   "status": "proved",
   "theorems": [
    "Verif.C19_filter_blocks",
    "Verif.C19_remove_empty_paragraphs",
    "Verif.C19_nested_kept"
   ],
   "note": "Top-level filter; nested blocks kept verbatim."
  },
  {
   "property": "C20",
   "status": "proved",
   "theorems": [
    "Verif.Html.C20_decode_escape",
    "Verif.Html.C20_injective",
    "Verif.Html.C20_no_special",
    "Verif.Html.C20_ampersand"
   ],
   "note": "Explicit decoder, injectivity, no special characters, every & starts an entity."
  },
  {
   "property": "C21",
   "status": "proved",
   "theorems": [
    "Verif.Html.C21_well_nested",
    "Verif.Html.C21_alert_name_not_escaped"
   ],
   "note": "Grammar of well-nested HTML over a fixed vocabulary; the condition on alert names is necessary (C21_alert_name_not_escaped)."
  },
  {
   "property": "C22",
   "status": "partial",
   "theorems": [
    "Verif.Html.C22_link_href_partial",
    "Verif.Html.C22_image_attrs_partial",
    "Verif.Html.C22_refuted"
   ],
   "note": "False as stated: values are escaped twice (C22_refuted). Proved: decoding twice gives the value; decoding once gives it iff it has no special character."
  },
  {
   "property": "C23",
   "status": "proved",
   "theorems": [
    "Verif.Html.C23_width_independent"
   ],
   "note": "For all widths and display-width functions."
  },
  {
   "property": "C24",
   "status": "proved",
   "theorems": [
    "Verif.Html.C24_bijection",
    "Verif.Html.C24_order",
    "Verif.Html.C24_definition"
   ],
   "note": "Specification by rank of first occurrence; bijection onto 1..n; shown number of references (C25_direct_reference_partial, C52) and definitions (C24_definition)."
  },
  {
   "property": "C25",
   "status": "partial",
   "theorems": [
    "Verif.Html.C25_direct_reference_partial",
    "Verif.Html.C25_refuted"
   ],
   "note": "False as stated for references nested in other inlines (C25_refuted). C75 says exactly which references are linked. Proved for every reference standing directly in a rendered paragraph, heading or table cell."
  },
  {
   "property": "C26",
   "status": "proved",
   "theorems": [
    "Verif.Html.C26_references_resolved"
   ],
   "note": "Rendering equals rendering after replacing each reference by the link of the last equal-label definition, or nothing."
  },
  {
   "property": "C27",
   "status": "proved",
   "theorems": [
    "Verif.Html.C27_panics_iff",
    "Verif.Html.C27_total"
   ],
   "note": "Panics iff a table without rows is part of the rendered output."
  },
  {
   "property": "C28",
   "status": "proved",
   "theorems": [
    "Verif.Latex.C28_decode_escape",
    "Verif.Latex.C28_injective",
    "Verif.Latex.C28_units"
   ],
   "note": "Explicit decoder (any continuation), injectivity, one unit per character."
  },
  {
   "property": "C29",
   "status": "proved",
   "theorems": [
    "Verif.Latex.C29_well_formed",
    "Verif.Latex.C29_balanced",
    "Verif.Latex.C29_no_raw_special",
    "Verif.Latex.C29_dangling_caret",
    "Verif.Latex.C29_alert_not_escaped",
    "Verif.Latex.C29_code_not_escaped"
   ],
   "note": "Brace balance for documents without code blocks, and a full grammar (groups, environments, & only in tables, fixed command vocabulary) for all documents with safe code; necessity of the conditions shown by witnesses."
  },
  {
   "property": "C30",
   "status": "proved",
   "theorems": [
    "Verif.Latex.C30_width_only_whitespace",
    "Verif.Latex.C30_code_untouched"
   ],
   "note": "Position-by-position equality up to space/newline, and code blocks literally unchanged, at every width and display-width function."
  },
  {
   "property": "C31",
   "status": "proved",
   "theorems": [
    "Verif.Latex.C31_numbering",
    "Verif.Latex.C31_consecutive",
    "Verif.Latex.C31_reference",
    "Verif.Latex.C31_definition",
    "Verif.Latex.C31_references_resolved",
    "Verif.Latex.C31_link_resolved",
    "Verif.Latex.C31_link_fallback"
   ],
   "note": "Rank of the last outer definition; consecutive 1..k without repetitions; shown numbers; reference links equal inline links; fallback. Definitions inside footnotes are not indexed (part of the specification)."
  },
  {
   "property": "C32",
   "status": "proved",
   "theorems": [
    "Verif.C32_parse_total_of_config",
    "Verif.C32_parse_total",
    "Verif.C32_text_needed",
    "Verif.C32_paragraph_needed"
   ],
   "note": "For every string; also for every configuration in which texts and paragraphs are not ignored (both conditions shown necessary)."
  },
  {
   "property": "C33",
   "status": "proved",
   "theorems": [
    "Verif.C33_block_depth",
    "Verif.C33_inline_depth"
   ],
   "note": "The depth counter of the model (recursion of the code) never matters beyond the input length, for blocks and inlines."
  },
  {
   "property": "C34",
   "status": "proved",
   "theorems": [
    "Verif.C34_tables_rectangular"
   ],
   "note": "Every configuration without user code (Map/FlatMap/custom parsers)."
  },
  {
   "property": "C35",
   "status": "proved",
   "theorems": [
    "Verif.C35_heading_levels"
   ],
   "note": "Every configuration without user code."
  },
  {
   "property": "C36",
   "status": "proved",
   "theorems": [
    "Verif.C36_texts_merged",
    "Verif.C36_merge_preserves",
    "Verif.C36_merge_example"
   ],
   "note": "All inline lists at all depths; merging preserves the sequence of characters and other inlines."
  },
  {
   "property": "C37",
   "status": "proved",
   "theorems": [
    "Verif.C37_no_placeholders_of_config",
    "Verif.C37_no_placeholders"
   ],
   "note": "Default configuration, and every configuration without Skip."
  },
  {
   "property": "C38",
   "status": "proved",
   "theorems": [
    "Verif.C38_blocks_removed",
    "Verif.C38_inlines_removed",
    "Verif.C38_ignore_and_skip",
    "Verif.C38_skip_setext_drops_paragraphs",
    "Verif.C38_ignore_setext_splits_paragraphs",
    "Verif.C38_skip_paragraph_keeps_paragraphs"
   ],
   "note": "All block and inline kinds. Findings: heading_v2 Skip/Ignore also affects paragraphs, paragraph Skip alone does not remove paragraphs."
  },
  {
   "property": "C39",
   "status": "proved",
   "theorems": [
    "Verif.C39_blank",
    "Verif.C39_leading_blank_lines",
    "Verif.C39_trailing_newline_matters"
   ],
   "note": "Blank input for every configuration; leading blank lines. Finding: a trailing newline can change the document (C39_trailing_newline_matters)."
  },
  {
   "property": "C40",
   "status": "proved",
   "theorems": [
    "Verif.C40_alert_names"
   ],
   "note": "Every configuration without user code."
  },
  {
   "property": "C41",
   "status": "partial",
   "theorems": [
    "Verif.C41_alert_partial",
    "Verif.C41_refuted_prefix",
    "Verif.C41_refuted_blank_body"
   ],
   "note": "False as stated: names starting with a standard name (TIPS) and alerts whose body starts with a blank line are not recognised (C41_refuted_prefix, C41_refuted_blank_body). C74 says exactly which quotes are alerts. Proved for all other names, any letter case, any body."
  },
  {
   "property": "C42",
   "status": "proved",
   "theorems": [
    "Verif.C42_html_no_panic",
    "Verif.C42_html_safe",
    "Verif.C42_string_to_html",
    "Verif.C42_string_to_html_default"
   ],
   "note": "No panic for every configuration without user code; well nested and exact visible text when HTML blocks are not parsed; stated from the input string."
  },
  {
   "property": "C43",
   "status": "proved",
   "theorems": [
    "Verif.C43_fenced",
    "Verif.C43_indented",
    "Verif.C43_unclosed_fence",
    "Verif.C43_code_span"
   ],
   "note": "Fenced blocks (with any indentation, fence length and info string, closed or ended by end of input), indented blocks, code spans between any unambiguous inlines. Findings: an unclosed fence is not a code block (C43_unclosed_fence); a code span ends inside a longer run of backticks (C56_boundaries)."
  },
  {
   "property": "C44",
   "status": "proved",
   "theorems": [
    "Verif.Md.C44_document",
    "Verif.Md.C44_document_quotes",
    "Verif.Md.C44_paragraph",
    "Verif.Md.C44_paragraph_words",
    "Verif.Md.C44_width_independent"
   ],
   "note": "Paragraphs: the exact source with some spaces turned into newlines, at every width; whole documents: same words (quotes: apart from the > words)."
  },
  {
   "property": "C45",
   "status": "partial",
   "theorems": [
    "Verif.Md.C45_lines_partial",
    "Verif.Md.C45_refuted",
    "Verif.Md.C45_exact",
    "Verif.Md.C45_harmless"
   ],
   "note": "False as stated: =, --, 1) and >x at the beginning of a line are block syntax that the printer does not avoid (C45_refuted). Proved for every text and width: no line begins with blanks or one of the words that the printer knows (bullets, >, |, runs of #, numbers with a dot, thematic breaks, fences). C45_exact says for every text and width exactly when the printed text is read as one paragraph (which lines must not begin with what); C45_harmless gives the texts for which that is so at every width."
  },
  {
   "property": "C46",
   "status": "proved",
   "theorems": [
    "Verif.Md.C46_table",
    "Verif.Md.C46_aligned",
    "Verif.Md.C46_delimiter"
   ],
   "note": "Exact lines, equal length, no panic. Finding: Left and None are both printed as ---, so Left is not encoded (C46_delimiter)."
  },
  {
   "property": "C47",
   "status": "partial",
   "theorems": [
    "Verif.Md.C47_exact",
    "Verif.Md.C47_prints",
    "Verif.Md.C47_parsed_partial",
    "Verif.Md.C47_number_panics",
    "Verif.Md.C47_footnote_panics",
    "Verif.Md.C47_nested_panics"
   ],
   "note": "False as stated (C47_number_panics, C47_footnote_panics, C47_nested_panics). Proved: the exact set of documents on which printing panics (C47_exact); parsed documents with numbers below 2^64 and no quotes in lists and footnotes print at every width >= 2."
  },
  {
   "property": "C48",
   "status": "proved",
   "theorems": [
    "Verif.Md.C48_list"
   ],
   "note": "Exact markers and boxes of all items, numbers consecutive, content words unchanged."
  },
  {
   "property": "C49",
   "status": "partial",
   "theorems": [
    "Verif.Md.C49_round_trip_partial",
    "Verif.Md.C49_parsed_partial",
    "Verif.Md.C49_refuted_parsed",
    "Verif.Md.C49_refuted_escape",
    "Verif.Md.C49_refuted_left",
    "Verif.Md.C49_refuted_quoted_heading",
    "Verif.Md.C49_refuted_item_code",
    "Verif.Md.C49_refuted_item_setext",
    "Verif.Md.C49_refuted_wrapped_number",
    "Verif.Md.C49_refuted_wrapped_footnote",
    "Verif.Md.C49_refuted_alert_code",
    "Verif.Md.C49_refuted_code_after_list",
    "Verif.Md.C49_refuted_html",
    "Verif.Md.C49_refuted_level",
    "Verif.Md.C49_refuted_atx_break"
   ],
   "note": "False as stated (C49_refuted_parsed: escapes are not printed back). Proved for every document that passes the executable test fitsBlocks (RoundTripSpec.lean), any nesting and size, every printer width and configuration with an empty line before lists: the printed text parses to the same document up to runs of whitespace in text nodes. Missing: documents that fail the test; C49_refuted_* show witnesses for most reasons to fail. Texts may contain special characters that mean nothing where they are (identifiers with underscores, !, ~, &, <, a lone star). Hard line breaks are covered in paragraphs and setext headings, not inside emphasis or other inlines and not in list items; HTML blocks are covered when they are comments, instructions, declarations, CDATA, raw-text elements or (at top level) block-level elements with their last line end; inline HTML, brackets and loose underscores in texts are excluded."
  },
  {
   "property": "C50",
   "status": "proved",
   "theorems": [
    "Verif.C50_references"
   ],
   "note": "Lines of text in which nothing but character references is meaningful, any mixture of references and text."
  },
  {
   "property": "C51",
   "status": "partial",
   "theorems": [
    "Verif.C51_escapes_partial",
    "Verif.C51_refuted"
   ],
   "note": "False as stated: an escape after ordinary text is not recognised (C51_refuted). C79 says exactly which escapes are recognised. Proved for escapes and references at the beginning of the text, and for backslashes that escape nothing."
  },
  {
   "property": "C52",
   "status": "proved",
   "theorems": [
    "Verif.Html.C52_visible_text"
   ],
   "note": "Tag-stripped, entity-decoded output equals the text of the AST."
  },
  {
   "property": "C53",
   "status": "proved",
   "theorems": [
    "Verif.C53_code",
    "Verif.C53_code_example",
    "Verif.C53_code_needs_end",
    "Verif.C53_latex_balanced",
    "Verif.C53_underscore_in_alert_name"
   ],
   "note": "Braces balanced when code blocks are not parsed; C53_code: with code blocks, for every text without \\end{ (C53_code_needs_end shows why it is needed). Finding: underscores of alert names reach LaTeX unescaped."
  },
  {
   "property": "C54",
   "status": "partial",
   "theorems": [
    "Verif.C54_tag_partial",
    "Verif.C54_tag_final",
    "Verif.C54_shadowed_names",
    "Verif.C54_refuted_names",
    "Verif.C54_markers"
   ],
   "note": "False as stated for some names: nine names that start with another name of the list (header, thead, link, ...) are not recognised (C54_refuted_names). Proved for every unshadowed name in any letter case, and for comments, processing instructions, declarations and CDATA."
  },
  {
   "property": "C55",
   "status": "proved",
   "theorems": [
    "Verif.C55_quote",
    "Verif.C55_space_matters"
   ],
   "note": "Every document; condition on the lines stated explicitly. Finding: the space after > is not stripped (C55_space_matters)."
  },
  {
   "property": "C56",
   "status": "proved",
   "theorems": [
    "Verif.C56_paragraph_indented",
    "Verif.C56_paragraph",
    "Verif.C56_boundaries"
   ],
   "note": "Grammar Reads (InlineGrammar.lean) is the specification; any nesting; any number of lines; text with loose special characters, identifiers, character references, escapes, both kinds of hard breaks, one to three stars or underscores; link destinations bare (with escapes and nested parentheses) or in angle brackets, titles in all three quotings. The boundaries of the grammar are shown needed by C56_boundaries."
  },
  {
   "property": "C57",
   "status": "proved",
   "theorems": [
    "Verif.C57_atx",
    "Verif.C57_setext_indented",
    "Verif.C57_setext",
    "Verif.C57_boundaries"
   ],
   "note": "ATX and Setext. Findings: closing #s stay in the heading, an indented # line is no heading (C57_boundaries)."
  },
  {
   "property": "C58",
   "status": "proved",
   "theorems": [
    "Verif.Html.C58_tree",
    "Verif.Html.C58_unique"
   ],
   "note": "Every document and configuration; uniqueness of the reading for documents without raw HTML (Clean). Raw nodes are read verbatim."
  },
  {
   "property": "C59",
   "status": "proved",
   "theorems": [
    "Verif.Latex.C59_source",
    "Verif.Latex.C59_exact"
   ],
   "note": "Every document, configuration and width; the specification documentText is in LatexSourceSpec.lean."
  },
  {
   "property": "C60",
   "status": "proved",
   "theorems": [
    "Verif.Md.C60_layout"
   ],
   "note": "Every document, configuration and width for which printing does not panic (C47_exact says when); specification in PrinterLayoutSpec.lean. Tables: rectangular ones."
  },
  {
   "property": "C61",
   "status": "proved",
   "theorems": [
    "Verif.Md.C61_fill",
    "Verif.Md.C61_width",
    "Verif.Md.C61_hard_break"
   ],
   "note": "Any inline nesting. Finding: the column is not reset after a hard line break (C61_hard_break)."
  },
  {
   "property": "C62",
   "status": "proved",
   "theorems": [
    "Verif.C62_thematic_break",
    "Verif.C62_boundaries"
   ],
   "note": "Finding: spaces between the marks make it a list (C62_boundaries)."
  },
  {
   "property": "C63",
   "status": "proved",
   "theorems": [
    "Verif.C63_table",
    "Verif.C63_boundaries"
   ],
   "note": "Findings: blanks after the last bar are one more cell, and end the table in the delimiter row (C63_boundaries)."
  },
  {
   "property": "C64",
   "status": "proved",
   "theorems": [
    "Verif.C64_link_definition",
    "Verif.C64_boundaries"
   ],
   "note": "Findings: trailing blanks or text after the title and it is no definition at all (C64_boundaries)."
  },
  {
   "property": "C65",
   "status": "proved",
   "theorems": [
    "Verif.C65_footnote_definition",
    "Verif.C65_boundaries"
   ],
   "note": "Finding: a blank line ends the footnote even in front of an indented line (C65_boundaries)."
  },
  {
   "property": "C66",
   "status": "proved",
   "theorems": [
    "Verif.C66_list",
    "Verif.C66_boundaries"
   ],
   "note": "Any items in the sense of Items (ParserLists.lean), contents arbitrary. Findings in C66_boundaries: a blank line between items splits the list, less indented headings/quotes/other markers are taken into the item, 1. and 7) are one list, -[x] is an item."
  },
  {
   "property": "C67",
   "status": "partial",
   "theorems": [
    "Verif.Md.C67_idempotent_partial",
    "Verif.Md.C67_whitespace_partial",
    "Verif.Md.C67_refuted"
   ],
   "note": "False as stated (C67_refuted: wrapping can put 1) at the beginning of a line). Proved for every document that passes the executable test fitsBlocks of C49, every width and configuration with an empty line before lists, including that the re-read document is printed like the original with every other configuration. Missing: documents that fail the test."
  },
  {
   "property": "C68",
   "status": "proved",
   "theorems": [
    "Verif.C68_raw",
    "Verif.C68_tag",
    "Verif.C68_boundaries"
   ],
   "note": "Grammar of tags and attributes as in the program (attribute values in quotes are one character long, a blank line right after the line of the tag is part of the block: C68_boundaries)."
  },
  {
   "property": "C69",
   "status": "proved",
   "theorems": [
    "Verif.C69_hooks",
    "Verif.C69_witness",
    "Verif.C69_boundaries"
   ],
   "note": "For every pure function. Hypothesis HookOk: no hook on texts and emphasis, no custom parsers, and heading_v2 and paragraph hooks agree on paragraphs unless one of them is Ignore; C69_boundaries shows what happens otherwise."
  },
  {
   "property": "C70",
   "status": "proved",
   "theorems": [
    "Verif.C70_keeps_the_text",
    "Verif.C70_example",
    "Verif.C70_boundaries"
   ],
   "note": "SpellsBlocks (ProvenanceSpec) says what a document spells, LosesOnlyMarkup what may be missing. Configurations with Skip, Map, FlatMap or custom parsers can lose text (C70_boundaries)."
  },
  {
   "property": "C71",
   "status": "proved",
   "theorems": [
    "Verif.C71_reads",
    "Verif.C71_example",
    "Verif.C71_boundaries",
    "Verif.C71_refuses"
   ],
   "note": "GrammarSpec.lean is the grammar, declarative and independent of the parser. It is ambiguous on purpose (any text can be a paragraph); which reading wins is the matter of the recognition properties (C52-C57, C62-C66, C68). C71_refuses shows texts the grammar refuses."
  },
  {
   "property": "C72",
   "status": "proved",
   "theorems": [
    "Verif.C72_generic",
    "Verif.C72_generic_exists",
    "Verif.C72_transform",
    "Verif.C72_exists",
    "Verif.C72_example"
   ],
   "note": "OverrideSpec.lean is the specification (InOrder, BlockBecomes); for both traits. C72_exists/C72_generic_exists: every override is that of some transformer."
  },
  {
   "property": "C73",
   "status": "proved",
   "theorems": [
    "Verif.C73_generic",
    "Verif.C73_generic_exists",
    "Verif.C73_boundaries",
    "Verif.C73_generic_hooks",
    "Verif.C73_generic_hooks_exists",
    "Verif.C73_generic_hooks_example",
    "Verif.C73_expand",
    "Verif.C73_exists",
    "Verif.C73_example"
   ],
   "note": "OverrideSpec.lean is the specification (InOrderConcat, BlockExpands); for both traits. C73_generic_hooks: the expand_* methods of GenericTransformer overridden. What is not reached is in the statement (ItemExpands, Opaque, GBlockHooked) and in C73_boundaries."
  },
  {
   "property": "C74",
   "status": "proved",
   "theorems": [
    "Verif.C74_quote_or_alert",
    "Verif.C74_alert_iff",
    "Verif.C74_markers"
   ],
   "note": "AlertMarker, quoteFirst, quoteBody are the specification. Finding: a marker followed by blank lines only is not an alert but a quote with the marker as text. Hypothesis: the quote is not blank (a blank one is covered by C54/C63)."
  },
  {
   "property": "C75",
   "status": "proved",
   "theorems": [
    "Verif.Html.C75_links",
    "Verif.Html.C75_count"
   ],
   "note": "Exact version of C25/C24: says which references are linked. Clean: no raw HTML in the document."
  },
  {
   "property": "C76",
   "status": "proved",
   "theorems": [
    "Verif.C76_line_endings",
    "Verif.C76_dos",
    "Verif.C76_equal",
    "Verif.C76_example",
    "Verif.C76_boundaries",
    "Verif.C76_lone"
   ],
   "note": "unix, CrOk, NoTraps and unixDoc (LineEndings.lean) are the specification. NoTraps excludes only texts with a possible definition that is ambiguous, or an attribute value that is a line ending; C76_boundaries: each exclusion is needed. Hypothesis UnixOk: no custom parsers; user code commutes with removing carriage returns."
  },
  {
   "property": "C77",
   "status": "proved",
   "theorems": [
    "Verif.C77_indifferent",
    "Verif.C77_custom",
    "Verif.C77_example",
    "Verif.C77_boundaries"
   ],
   "note": "Indifferent (Indifferent.lean) is the specification: per construct, the configurations agree or a needed character is missing. Also for custom parsers. C77_boundaries: every condition matters."
  },
  {
   "property": "C78",
   "status": "proved",
   "theorems": [
    "Verif.C78_block",
    "Verif.C78_interrupts",
    "Verif.C78_inline",
    "Verif.C78_inline_text",
    "Verif.C78_examples"
   ],
   "note": "TriggeredBy, Reads and DecodesEsc are the specification. C78_inline_text and C78_examples: the finding that a custom inline parser is not asked within a text."
  },
  {
   "property": "C79",
   "status": "proved",
   "theorems": [
    "Verif.C79_exact",
    "Verif.C79_total",
    "Verif.C79_unique",
    "Verif.C79_examples"
   ],
   "note": "StandsFor (EscapeProps.lean) is the specification, total (C79_total) and functional (C79_unique). Exact version of C51."
  },
  {
   "property": "C80",
   "status": "proved",
   "theorems": [
    "Verif.C80_first_block",
    "Verif.C80_plain"
   ],
   "note": "StartSpec.lean is the specification (StartsWith, startKind): an exact characterisation of every block parser's domain; the kinds exclude each other. Exact companion of C41, C54, C58, C59, C62-C66."
  },
  {
   "property": "C81",
   "status": "proved",
   "theorems": [
    "Verif.C81_text",
    "Verif.C81_one"
   ],
   "note": "TextRun and Interrupts (StartSpec.lean) are the specification; InlinesWritten is that of C71."
  },
  {
   "property": "C82",
   "status": "proved",
   "theorems": [
    "Verif.C82_concat",
    "Verif.C82_complete",
    "Verif.C82_fence",
    "Verif.C82_comment",
    "Verif.C82_join",
    "Verif.C82_pieces",
    "Verif.C82_simple",
    "Verif.C82_example",
    "Verif.C82_needed"
   ],
   "note": "Complete, FlushLeft and Standalone (ConcatSpec.lean) are the specification; C82_concat is the claim, C82_fence and C82_comment add the constructs Complete does not admit, C82_join and C82_pieces put any number of documents together, C82_needed shows why the hypotheses are there."
  },
  {
   "property": "C83",
   "status": "proved",
   "theorems": [
    "Verif.C83_final_newline",
    "Verif.C83_final_newlines",
    "Verif.C83_plain",
    "Verif.C83_example",
    "Verif.C83_needed"
   ],
   "note": "EndsPlainly and NoHtmlLine (FinalNewline.lean, with HtmlAt of StartSpec.lean) are the specification; C83_plain is the form for texts without <; C83_needed shows why the hypotheses are there."
  },
  {
   "property": "C84",
   "status": "proved",
   "theorems": [
    "Verif.Exact.C84_exact",
    "Verif.Exact.C84_unique",
    "Verif.Exact.C84_total",
    "Verif.Exact.C84_heading",
    "Verif.Exact.C84_text",
    "Verif.Exact.C84_examples"
   ],
   "note": "InlineExactSpec.lean is the specification: ReadAs, total (C84_total) and functional (C84_unique); it uses the shapes of GrammarSpec.lean. C84_heading and C84_text are about documents. Exact version of C42-C44, C50-C53, C71 for inlines."
  },
  {
   "property": "C85",
   "status": "proved",
   "theorems": [
    "Verif.Exact.C85_exact",
    "Verif.Exact.C85_unique",
    "Verif.Exact.C85_configuration",
    "Verif.Exact.C85_examples"
   ],
   "note": "BlockExactSpec.lean is the specification: DocRead, total and functional (C85_unique), with the shapes of GrammarSpec.lean and StartSpec.lean and ReadAs of C84. C85_exact is an equivalence for the whole of parse_markdown; C85_configuration: two configurations that read everything, with the same entities and heading rule, give the same document."
  },
  {
   "property": "C86",
   "status": "proved",
   "theorems": [
    "Verif.Md.Exact.C86_exact",
    "Verif.Md.Exact.C86_paragraph",
    "Verif.Md.Exact.C86_examples",
    "Verif.Md.Exact.C86_example_printed"
   ],
   "note": "PrinterExactSpec.lean is the specification: markdownText, a function of the blocks, the width and the style. C86_exact is an equivalence for render_markdown of every document (ragged tables included) and configuration; Printable (PrinterSpec.lean) says when it does not panic. C86_paragraph: a paragraph is the greedy filling of its pieces."
  },
  {
   "property": "C87",
   "status": "proved",
   "theorems": [
    "Verif.Latex.Exact.C87_exact",
    "Verif.Latex.Exact.C87_examples"
   ],
   "note": "LatexExactSpec.lean is the specification (latexText), with the layout function of PrinterExactSpec.lean. C87_exact is an equation for render_latex of every document and configuration; it makes C59 (where each blank may be broken) exact."
  },
  {
   "property": "C88",
   "status": "proved",
   "theorems": [
    "Verif.Exact.C88_exact",
    "Verif.Exact.C88_unique",
    "Verif.Exact.C88_all_on",
    "Verif.Exact.C88_hooks",
    "Verif.Exact.C88_hooks_example",
    "Verif.Exact.C88_examples",
    "Verif.Exact.C88_custom_examples",
    "Verif.Exact.C88_inlines"
   ],
   "note": "InlineOnSpec.lean and BlockOnSpec.lean are the specification: ReadOn and DocOn, total and functional (C88_unique). C88_exact is an equivalence for the whole of parse_markdown for all configurations of Parse and Ignore, with any custom parsers (C88_custom_examples); C88_hooks adds the behaviours of C69; C88_all_on: with everything on it is C85."
  },
  {
   "property": "C89",
   "status": "proved",
   "theorems": [
    "Verif.Html.C89_exact_html"
   ],
   "note": "HtmlTreeSpec.lean and HtmlExactSpec.lean are the specification: the tree of a document and how a tree is written. C89_exact_html is an equation for render_html of every document; the paths of the icons are the only thing left open (they are fixed, the same for all documents)."
  },
  {
   "property": "C90",
   "status": "proved",
   "theorems": [
    "Verif.C90_html",
    "Verif.C90_latex",
    "Verif.C90_format",
    "Verif.C90_reparse",
    "Verif.C90_example"
   ],
   "note": "End-to-end statements: the specifications of C88 and C89, C87, C86 put together; C90_example runs all three on one text."
  },
  {
   "property": "C91",
   "status": "proved",
   "theorems": [
    "Verif.Fx.C91_example",
    "Verif.Fx.C91_numbering_total",
    "Verif.Fx.C91_numbers",
    "Verif.Fx.C91_effects",
    "Verif.Fx.C91_accepts",
    "Verif.Fx.C91_total"
   ],
   "note": "Effects.lean is the model of the parser with closures that take and return a state. C91_effects, C91_accepts and C91_total are the claim, C91_numbers shows that results that depend on the state do depend on dropped calls too."
  },
  {
   "property": "C92",
   "status": "proved",
   "theorems": [
    "Verif.Fx.C92_list",
    "Verif.Fx.C92_items",
    "Verif.Fx.C92_items_exponential",
    "Verif.Fx.C92_examples",
    "Verif.Fx.C92_quote",
    "Verif.Fx.C92_nested",
    "Verif.Fx.C92_exponential",
    "Verif.Fx.C92_calls"
   ],
   "note": "C92_quote and C92_list say what is parsed how often, for any closures and any rest; C92_nested, C92_exponential, C92_items, C92_items_exponential are the claim about n levels; C92_calls instantiates it with a counter."
  },
  {
   "property": "C93",
   "status": "proved",
   "theorems": [
    "Verif.Fx.C93_calls",
    "Verif.Fx.C93_continued",
    "Verif.Fx.C93_example"
   ],
   "note": "EffectsLogSpec.lean is the specification: the configuration that logs its calls, and the calls that the elements of a document stand for. C93_example is a concrete log."
  },
  {
   "property": "C94",
   "status": "proved",
   "theorems": [
    "Verif.C94_links",
    "Verif.C94_badge",
    "Verif.C94_nested"
   ],
   "note": "From the grammar of C71: a label without an escaped bracket contains no closing bracket at all. C94_nested shows that the hypothesis is needed."
  },
  {
   "property": "C95",
   "status": "proved",
   "theorems": [
    "Verif.C95_linear",
    "Verif.C95_quadratic",
    "Verif.C95_bound",
    "Verif.C95_table",
    "Verif.C95_exponential"
   ],
   "note": "C95_bound, C95_quadratic and C95_linear are the upper bounds, by induction on the grammar of C71 with one general bound (blocks_weight). C95_table and C95_exponential are the lower bounds, for every size of the table and every depth that the limit of 999 characters for a label allows."
  },
  {
   "property": "C96",
   "status": "proved",
   "theorems": [
    "Verif.C96_parser",
    "Verif.Md.C96_markdown",
    "Verif.Html.C96_html",
    "Verif.Latex.C96_latex",
    "Verif.C96_swap",
    "Verif.C96_again",
    "Verif.C96_entities",
    "Verif.C96_parse"
   ],
   "note": "Settings.lean models every setter of the four configurations; the specification (the last call of each setter, counted by constructor of the call) is written on the list of calls alone."
  },
  {
   "property": "C97",
   "status": "proved",
   "theorems": [
    "Verif.C97_html",
    "Verif.C97_latex",
    "Verif.C97_markdown",
    "Verif.C97_convert",
    "Verif.C97_unrelated",
    "Verif.C97_shared"
   ],
   "note": "From the exact outputs (C86, C87, C89) and the fact that they depend on the footnote numbers and link definitions only through what occurs in the part. C97_convert adds C82. C97_shared shows that the hypotheses are needed."
  },
  {
   "property": "C98",
   "status": "proved",
   "theorems": [
    "Verif.C98_linear",
    "Verif.Html.C98_html",
    "Verif.C98_text",
    "Verif.C98_plain",
    "Verif.C98_quadratic",
    "Verif.C98_example"
   ],
   "note": "DocMass.lean: strings, labels, items, rows, empty cells of a parsed document (induction on the C71 derivation); HtmlLength.lean: length of the exact HTML (C89). Modest: no entity value longer than its name, no character with more than three capitals. C98_quadratic: lower bound, C98_example: a text that meets all hypotheses. Texts with escaped brackets are excluded (C95_exponential)."
  },
  {
   "property": "C99",
   "status": "proved",
   "theorems": [
    "Verif.Html.C99_anchors",
    "Verif.Html.C99_text",
    "Verif.Html.C99_anchors_example",
    "Verif.Html.C99_nested",
    "Verif.Html.C99_clean",
    "Verif.Html.C99_example",
    "Verif.Html.C99_footnote"
   ],
   "note": "HtmlNesting.lean states the content model of each element (MayContain) on the tree of C58; C99_clean is for every way to read the output. C99_anchors and C99_text are about links in links. C99_footnote and C99_anchors_example show the exceptions."
  },
  {
   "property": "C100",
   "status": "proved",
   "theorems": [
    "Verif.C100_blocks",
    "Verif.C100_inlines",
    "Verif.C100_ordinary",
    "Verif.C100_example",
    "Verif.C100_written_block",
    "Verif.C100_written_inline",
    "Verif.C100_rest",
    "Verif.C100_written_example"
   ],
   "note": "From C77 and C38. C100_rest adds underlined headings, code blocks and hard line breaks (configurations as in C71), from C100_written_block and C100_written_inline: each element has a text by the grammar. C100_ordinary is the corollary for a text with none of the characters, C100_example such a text."
  },
  {
   "property": "C101",
   "status": "proved",
   "theorems": [
    "Verif.Md.C101_fewest",
    "Verif.Md.C101_wider",
    "Verif.Md.C101_example"
   ],
   "note": "C101_fewest: against every other way to put the pieces on lines (OnLines). C101_wider compares two widths, hard line breaks included. ASCII only, as C61: wider characters are measured by an external function."
  },
  {
   "property": "C102",
   "status": "proved",
   "theorems": [
    "Verif.Html.C102_harmless",
    "Verif.Html.C102_text",
    "Verif.Html.C102_example",
    "Verif.Html.C102_script"
   ],
   "note": "The lists are in HtmlSafe.lean (harmless, classes). C102_harmless is for every document without raw HTML and every reading of the output; C102_text for every input. C102_script is the finding about javascript: addresses."
  },
  {
   "property": "C103",
   "status": "proved",
   "theorems": [
    "Verif.Latex.C103_harmless",
    "Verif.Latex.C103_text",
    "Verif.Latex.C103_example",
    "Verif.Latex.C103_code",
    "Verif.Latex.C103_carets",
    "Verif.Latex.C103_text_carets"
   ],
   "note": "controls in LatexSafe.lean reads a string as TeX does; the list is Control.Harmless. C103_harmless for every document, C103_text for every input, C103_carets and C103_text_carets: no ^^ outside code. C103_code: without the condition on code blocks it is false."
  },
  {
   "property": "C104",
   "status": "proved",
   "theorems": [
    "Verif.Latex.C104_latex",
    "Verif.Latex.C104_text",
    "Verif.Latex.C104_plain",
    "Verif.C104_quadratic",
    "Verif.C104_example"
   ],
   "note": "C104_latex for every document, C104_text and C104_plain for every text without an escaped closing bracket (see C95), C104_quadratic: the square is reached, by tables."
  },
  {
   "property": "C105",
   "status": "proved",
   "theorems": [
    "Verif.Html.C105_rewritten",
    "Verif.Html.C105_text",
    "Verif.Html.C105_definitions_missed"
   ],
   "note": "rewriteAddresses composes transform_link_urls, transform_image_urls and transform_autolink_urls. C105_rewritten for every document without raw HTML; C105_text: filters work if definitions are not parsed; C105_definitions_missed is the finding: definitions are not rewritten, so a javascript: address passes such a filter."
  },
  {
   "property": "C106",
   "status": "proved",
   "theorems": [
    "Verif.Html.C106_display",
    "Verif.Html.C106_example",
    "Verif.Html.C106_label_wrapped"
   ],
   "note": "settle (FormatHtml.lean) says what is displayed. C106_display for every document that passes fitsBlocks, C106_example meets the hypotheses, C106_label_wrapped is the finding and shows why the condition on labels is needed."
  },
  {
   "property": "C107",
   "status": "proved",
   "theorems": [
    "Verif.Latex.C107_latex",
    "Verif.Latex.C107_no_blanks",
    "Verif.Latex.C107_examples"
   ],
   "note": "C107_latex: byte for byte; C107_no_blanks without a condition on the document that is read back; C107_examples meets the hypotheses and shows that both conditions are needed."
  },
  {
   "property": "C108",
   "status": "proved",
   "theorems": [
    "Verif.Html.C108_normalize",
    "Verif.Html.C108_remove",
    "Verif.Html.C108_words_joined",
    "Verif.Html.C108_labels_joined",
    "Verif.Html.C108_example"
   ],
   "note": "dense (CleanupHtml.lean) says what is compared. C108_normalize, C108_remove for every document with labels that stay apart; C108_example meets the hypotheses; C108_words_joined and C108_labels_joined are the findings, the latter shows why the condition on labels is needed."
  },
  {
   "property": "C109",
   "status": "proved",
   "theorems": [
    "Verif.Html.C109_transform_text",
    "Verif.Html.C109_elements",
    "Verif.Html.C109_examples"
   ],
   "note": "C109_transform_text for every function and every kind of characters such that the function keeps the others; C109_elements for every function; C109_examples meets the hypotheses and shows why labels matter."
  },
  {
   "property": "C110",
   "status": "proved",
   "theorems": [
    "Verif.Latex.C110_normalize",
    "Verif.Latex.C110_remove",
    "Verif.Latex.C110_width",
    "Verif.Latex.C110_words_joined",
    "Verif.Latex.C110_example"
   ],
   "note": "squeeze (CleanupHtml.lean) drops characters of a kind. C110_normalize, C110_remove for every document with labels that stay apart, at any two widths; C110_width for every document; dw measures a blank as one column, as in C87. C110_example meets the hypotheses, C110_words_joined has the findings."
  },
  {
   "property": "C111",
   "status": "proved",
   "theorems": [
    "Verif.Latex.C111_transform_text",
    "Verif.Latex.C111_examples"
   ],
   "note": "C111_transform_text for every kind p the function is confined to and every q that contains whitespace and the spelling of p; C111_examples meets the hypotheses and shows why labels matter."
  },
  {
   "property": "C112",
   "status": "proved",
   "theorems": [
    "Verif.Html.C112_transform",
    "Verif.Html.C112_example",
    "Verif.Html.C112_labels_joined"
   ],
   "note": "masked (TransformHtml.lean) says what is compared for each kind of transform. C112_transform for every function and document with labels that stay apart; C112_example meets the hypotheses for all five, C112_labels_joined shows why labels matter. For transform_text see C109."
  },
  {
   "property": "C113",
   "status": "proved",
   "theorems": [
    "Verif.C113_html",
    "Verif.C113_latex",
    "Verif.C113_empty_paragraphs",
    "Verif.C113_example",
    "Verif.C113_needed"
   ],
   "note": "C113_html and C113_latex: one function from blocks to texts for all predicates. C113_empty_paragraphs is the corollary for remove_empty_paragraphs. C113_example meets the hypotheses, C113_needed shows why they are needed. Documents with a table without rows, whose HTML is a panic (C27), are left out of C113_html."
  },
  {
   "property": "C114",
   "status": "proved",
   "theorems": [
    "Verif.C114_blocks",
    "Verif.C114_filter",
    "Verif.C114_empty_paragraphs",
    "Verif.C114_every",
    "Verif.C114_example",
    "Verif.C114_needed"
   ],
   "note": "stackMarkdown (FilterMarkdown.lean) puts the texts of blocks one after another. C114_blocks, C114_filter and C114_empty_paragraphs for every document and predicate under the condition on trailing blanks; C114_every without it. C114_example meets the hypotheses, C114_needed shows why the condition."
  },
  {
   "property": "C115",
   "status": "proved",
   "theorems": [
    "Verif.Md.C115_normalize",
    "Verif.Md.C115_remove",
    "Verif.Md.C115_configuration",
    "Verif.Md.C115_printed",
    "Verif.Md.C115_findings",
    "Verif.Md.C115_example"
   ],
   "note": "Comparable (CleanupMarkdown.lean) is the condition; q is the kind of characters that are not compared, any kind with whitespace in it. C115_normalize, C115_remove and C115_configuration for every document that meets it, with any two configurations (same upper-casing); C115_printed says when there is a text. C115_example meets the hypotheses, C115_findings shows why > and - and the references are excepted."
  },
  {
   "property": "C116",
   "status": "proved",
   "theorems": [
    "Verif.Md.C116_transform_text"
   ],
   "note": "C116_transform_text for every kind p the function is confined to and every q that contains whitespace and p; C115_example meets the hypotheses for it, too."
  },
  {
   "property": "C117",
   "status": "proved",
   "theorems": [
    "Verif.Md.C117_transform",
    "Verif.Md.C117_printed",
    "Verif.Md.C117_example"
   ],
   "note": "C117_transform for the six transforms, every function confined to a kind p and every q that contains whitespace and p, on documents that meet Comparable (CleanupMarkdown.lean); C117_printed for every function. C117_example meets the hypotheses for all six."
  },
  {
   "property": "C118",
   "status": "proved",
   "theorems": [
    "Verif.Latex.C118_transform",
    "Verif.Latex.C118_example"
   ],
   "note": "C118_transform for the six transforms, every function confined to a kind p and every q that contains whitespace and the spelling of p, on documents with labels that stay apart; dw measures a blank as one column, as in C87. C118_example meets the hypotheses for all six."
  },
  {
   "property": "C119",
   "status": "proved",
   "theorems": [
    "Verif.Md.C119_ink",
    "Verif.Md.C119_example"
   ],
   "note": "C119_ink for every document that has a Markdown text (C86 says which) and every configuration. C119_example: a document with nested lists, quote, alert, table and code meets the hypotheses; a table whose text, with its padding, is longer than the bound."
  },
  {
   "property": "C120",
   "status": "proved",
   "theorems": [
    "Verif.Md.C120_told",
    "Verif.Md.C120_example"
   ],
   "note": "C120_told for every document that has a Markdown text (C86 says which), every configuration and every character that is not whitespace. C120_example: a document that meets the hypotheses, with the count of a character before and after; a reference printed once."
  },
  {
   "property": "C121",
   "status": "proved",
   "theorems": [
    "Verif.Latex.C121_told",
    "Verif.Latex.C121_example"
   ],
   "note": "C121_told for every document, configuration and character but whitespace, ^ and ~; dw measures a blank as one column, as in C87. Which strings LaTeX shows is a recursive specification (Block.shown, LatexTold.lean). C121_example: a document with a footnote that has a number and one that has none."
  }
 ]
}