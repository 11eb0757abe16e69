'Verif.C01_strip_with_data' depends on axioms: [propext]
'Verif.C01_strip_with_data_block' depends on axioms: [propext]
'Verif.C01_strip_with_data_inline' depends on axioms: [propext]
'Verif.C01_strip_with_data_item' depends on axioms: [propext]
'Verif.C01_with_data_injective' depends on axioms: [propext]
'Verif.C02_from_to' depends on axioms: [propext]
'Verif.C02_to_from' depends on axioms: [propext, Quot.sound]
'Verif.C03_with_data_root_only' depends on axioms: [propext]
'Verif.C03_with_data_root_only_block' depends on axioms: [propext]
'Verif.C03_with_data_root_only_inline' depends on axioms: [propext]
'Verif.C04_map_preserves_content' depends on axioms: [propext, Quot.sound]
'Verif.C05_call_count' depends on axioms: [propext, Quot.sound]
'Verif.C05_map_is_run_over_data' depends on axioms: [propext, Quot.sound]
'Verif.C05_result_determined' depends on axioms: [propext]
'Verif.C06_map_comp' depends on axioms: [propext, Quot.sound]
'Verif.C06_map_id' depends on axioms: [propext, Quot.sound]
'Verif.C06_map_pure' depends on axioms: [propext, Quot.sound]
'Verif.C07_add_ids_to_document' does not depend on any axioms
'Verif.C07_document_last' depends on axioms: [propext, Quot.sound]
'Verif.C07_generic_ignores_data' depends on axioms: [propext, Quot.sound]
'Verif.C07_ids' depends on axioms: [propext, Quot.sound]
'Verif.C07_ids_unique' depends on axioms: [propext, Classical.choice, Quot.sound]
'Verif.C07_overflow_panics' depends on axioms: [propext, Quot.sound]
'Verif.C07_release' depends on axioms: [propext, Classical.choice, Quot.sound]
'Verif.C08_consecutive' depends on axioms: [propext]
'Verif.C08_history' depends on axioms: [propext, Quot.sound]
'Verif.C08_panic_iff' depends on axioms: [propext, Quot.sound]
'Verif.C08_peek' depends on axioms: [propext]
'Verif.C08_release' depends on axioms: [propext, Quot.sound]
'Verif.C09_find_all_inlines' depends on axioms: [propext, Quot.sound]
'Verif.C09_find_all_inlines_vec' depends on axioms: [propext]
'Verif.C09_sound_complete' depends on axioms: [propext, Quot.sound]
'Verif.C100_blocks' depends on axioms: [propext, Classical.choice, Quot.sound]
'Verif.C100_example' depends on axioms: [propext, Quot.sound]
'Verif.C100_inlines' depends on axioms: [propext, Classical.choice, Quot.sound]
'Verif.C100_ordinary' depends on axioms: [propext, Classical.choice, Quot.sound]
'Verif.C100_rest' depends on axioms: [propext, Classical.choice, Quot.sound]
'Verif.C100_written_block' depends on axioms: [propext, Classical.choice, Quot.sound]
'Verif.C100_written_example' depends on axioms: [propext, Quot.sound]
'Verif.C100_written_inline' depends on axioms: [propext, Classical.choice, Quot.sound]
'Verif.C104_example' depends on axioms: [propext, Quot.sound]
'Verif.C104_quadratic' depends on axioms: [propext, Classical.choice, Quot.sound]
'Verif.C10_find_all_blocks' depends on axioms: [propext, Quot.sound]
'Verif.C10_sound_complete' depends on axioms: [propext, Quot.sound]
'Verif.C113_empty_paragraphs' depends on axioms: [propext, Classical.choice, Quot.sound]
'Verif.C113_example' depends on axioms: [propext]
'Verif.C113_html' depends on axioms: [propext, Classical.choice, Quot.sound]
'Verif.C113_latex' depends on axioms: [propext, Classical.choice, Quot.sound]
'Verif.C113_needed' depends on axioms: [propext]
'Verif.C114_blocks' depends on axioms: [propext, Classical.choice, Quot.sound]
'Verif.C114_empty_paragraphs' depends on axioms: [propext, Classical.choice, Quot.sound]
'Verif.C114_every' depends on axioms: [propext, Classical.choice, Quot.sound]
'Verif.C114_example' depends on axioms: [propext, Classical.choice, Quot.sound]
'Verif.C114_filter' depends on axioms: [propext, Classical.choice, Quot.sound]
'Verif.C114_needed' depends on axioms: [propext, Classical.choice, Quot.sound]
'Verif.C11_any_block' depends on axioms: [propext, Quot.sound]
'Verif.C11_any_inline' depends on axioms: [propext, Quot.sound]
'Verif.C11_count' depends on axioms: [propext, Quot.sound]
'Verif.C11_find_first_block' depends on axioms: [propext, Quot.sound]
'Verif.C11_find_first_inline' depends on axioms: [propext, Quot.sound]
'Verif.C11_typed_finders' depends on axioms: [propext, Quot.sound]
'Verif.C12_recording_exists' depends on axioms: [propext, Quot.sound]
'Verif.C12_visitor_order' depends on axioms: [propext, Quot.sound]
'Verif.C12_visitor_sees_query_nodes' depends on axioms: [propext, Quot.sound]
'Verif.C13_default_exists' depends on axioms: [propext, Quot.sound]
'Verif.C13_default_expand' depends on axioms: [propext, Quot.sound]
'Verif.C13_default_transform' depends on axioms: [propext, Quot.sound]
'Verif.C13_default_transform_nodes' depends on axioms: [propext, Quot.sound]
'Verif.C13_expand_ignores_transform_block' depends on axioms: [propext]
'Verif.C13_generic_default_exists' depends on axioms: [propext, Quot.sound]
'Verif.C13_generic_default_expand' depends on axioms: [propext, Quot.sound]
'Verif.C13_generic_default_transform' depends on axioms: [propext, Quot.sound]
'Verif.C14_comp' depends on axioms: [propext, Quot.sound]
'Verif.C14_id' depends on axioms: [propext, Quot.sound]
'Verif.C14_override_transform_text' depends on axioms: [propext, Quot.sound]
'Verif.C14_rest_unchanged' depends on axioms: [propext, Quot.sound]
'Verif.C14_texts' depends on axioms: [propext, Quot.sound]
'Verif.C14_transform_text_code' depends on axioms: [propext, Quot.sound]
'Verif.C15_commute' depends on axioms: [propext, Quot.sound]
'Verif.C15_exact' depends on axioms: [propext, Quot.sound]
'Verif.C15_functor' depends on axioms: [propext, Quot.sound]
'Verif.C15_transform_code' depends on axioms: [propext, Quot.sound]
'Verif.C16_apply' depends on axioms: [propext, Quot.sound]
'Verif.C16_builders' depends on axioms: [propext, Quot.sound]
'Verif.C16_compose' depends on axioms: [propext, Quot.sound]
'Verif.C16_composite_append' depends on axioms: [propext]
'Verif.C16_composite_eq_pipeline' depends on axioms: [propext]
'Verif.C16_composite_order' depends on axioms: [propext]
'Verif.C16_transform_if_doc' depends on axioms: [propext]
'Verif.C16_when' depends on axioms: [propext, Quot.sound]
'Verif.C17_canonical' depends on axioms: [propext, Classical.choice, Quot.sound]
'Verif.C17_idempotent' depends on axioms: [propext, Quot.sound]
'Verif.C17_words' depends on axioms: [propext, Quot.sound]
'Verif.C18_code' depends on axioms: [propext, Quot.sound]
'Verif.C18_idempotent' depends on axioms: [propext, Quot.sound]
'Verif.C18_no_blank' depends on axioms: [propext, Quot.sound]
'Verif.C18_texts' depends on axioms: [propext, Quot.sound]
'Verif.C19_filter_blocks' depends on axioms: [propext, Quot.sound]
'Verif.C19_nested_kept' depends on axioms: [propext]
'Verif.C19_remove_empty_paragraphs' depends on axioms: [propext, Quot.sound]
'Verif.C32_paragraph_needed' depends on axioms: [propext, Quot.sound]
'Verif.C32_parse_total' depends on axioms: [propext, Classical.choice, Quot.sound]
'Verif.C32_parse_total_of_config' depends on axioms: [propext, Classical.choice, Quot.sound]
'Verif.C32_text_needed' depends on axioms: [propext, Quot.sound]
'Verif.C33_block_depth' depends on axioms: [propext, Classical.choice, Quot.sound]
'Verif.C33_inline_depth' depends on axioms: [propext, Classical.choice, Quot.sound]
'Verif.C34_tables_rectangular' depends on axioms: [propext, Classical.choice, Quot.sound]
'Verif.C35_heading_levels' depends on axioms: [propext, Classical.choice, Quot.sound]
'Verif.C36_merge_example' depends on axioms: [propext]
'Verif.C36_merge_preserves' depends on axioms: [propext, Quot.sound]
'Verif.C36_texts_merged' depends on axioms: [propext, Classical.choice, Quot.sound]
'Verif.C37_no_placeholders' depends on axioms: [propext, Classical.choice, Quot.sound]
'Verif.C37_no_placeholders_of_config' depends on axioms: [propext, Classical.choice, Quot.sound]
'Verif.C38_blocks_removed' depends on axioms: [propext, Classical.choice, Quot.sound]
'Verif.C38_ignore_and_skip' depends on axioms: [propext, Quot.sound]
'Verif.C38_ignore_setext_splits_paragraphs' depends on axioms: [propext, Quot.sound]
'Verif.C38_inlines_removed' depends on axioms: [propext, Classical.choice, Quot.sound]
'Verif.C38_skip_paragraph_keeps_paragraphs' depends on axioms: [propext, Quot.sound]
'Verif.C38_skip_setext_drops_paragraphs' depends on axioms: [propext, Quot.sound]
'Verif.C39_blank' depends on axioms: [propext, Classical.choice, Quot.sound]
'Verif.C39_leading_blank_lines' depends on axioms: [propext, Classical.choice, Quot.sound]
'Verif.C39_trailing_newline_matters' depends on axioms: [propext, Quot.sound]
'Verif.C40_alert_names' depends on axioms: [propext, Classical.choice, Quot.sound]
'Verif.C41_alert_partial' depends on axioms: [propext, Classical.choice, Quot.sound]
'Verif.C41_refuted_blank_body' depends on axioms: [propext, Quot.sound]
'Verif.C41_refuted_prefix' depends on axioms: [propext, Quot.sound]
'Verif.C42_html_no_panic' depends on axioms: [propext, Classical.choice, Quot.sound]
'Verif.C42_html_safe' depends on axioms: [propext, Classical.choice, Quot.sound]
'Verif.C42_string_to_html' depends on axioms: [propext, Classical.choice, Quot.sound]
'Verif.C42_string_to_html_default' depends on axioms: [propext, Classical.choice, Quot.sound]
'Verif.C43_code_span' depends on axioms: [propext, Classical.choice, Quot.sound]
'Verif.C43_fenced' depends on axioms: [propext, Classical.choice, Quot.sound]
'Verif.C43_indented' depends on axioms: [propext, Classical.choice, Quot.sound]
'Verif.C43_unclosed_fence' depends on axioms: [propext, Quot.sound]
'Verif.C50_references' depends on axioms: [propext, Classical.choice, Quot.sound]
'Verif.C51_escapes_partial' depends on axioms: [propext, Classical.choice, Quot.sound]
'Verif.C51_refuted' depends on axioms: [propext, Quot.sound]
'Verif.C53_code' depends on axioms: [propext, Classical.choice, Quot.sound]
'Verif.C53_code_example' depends on axioms: [propext, Classical.choice, Quot.sound]
'Verif.C53_code_needs_end' depends on axioms: [propext, Quot.sound]
'Verif.C53_latex_balanced' depends on axioms: [propext, Classical.choice, Quot.sound]
'Verif.C53_underscore_in_alert_name' depends on axioms: [propext, Quot.sound]
'Verif.C54_markers' depends on axioms: [propext, Classical.choice, Quot.sound]
'Verif.C54_refuted_names' depends on axioms: [propext, Quot.sound]
'Verif.C54_shadowed_names' does not depend on any axioms
'Verif.C54_tag_final' depends on axioms: [propext, Classical.choice, Quot.sound]
'Verif.C54_tag_partial' depends on axioms: [propext, Classical.choice, Quot.sound]
'Verif.C55_quote' depends on axioms: [propext, Classical.choice, Quot.sound]
'Verif.C55_space_matters' depends on axioms: [propext, Quot.sound]
'Verif.C56_boundaries' depends on axioms: [propext, Quot.sound]
'Verif.C56_paragraph' depends on axioms: [propext, Classical.choice, Quot.sound]
'Verif.C56_paragraph_indented' depends on axioms: [propext, Classical.choice, Quot.sound]
'Verif.C57_atx' depends on axioms: [propext, Classical.choice, Quot.sound]
'Verif.C57_boundaries' depends on axioms: [propext, Quot.sound]
'Verif.C57_setext' depends on axioms: [propext, Classical.choice, Quot.sound]
'Verif.C57_setext_indented' depends on axioms: [propext, Classical.choice, Quot.sound]
'Verif.C62_boundaries' depends on axioms: [propext, Quot.sound]
'Verif.C62_thematic_break' depends on axioms: [propext, Classical.choice, Quot.sound]
'Verif.C63_boundaries' depends on axioms: [propext, Quot.sound]
'Verif.C63_table' depends on axioms: [propext, Classical.choice, Quot.sound]
'Verif.C64_boundaries' depends on axioms: [propext, Quot.sound]
'Verif.C64_link_definition' depends on axioms: [propext, Classical.choice, Quot.sound]
'Verif.C65_boundaries' depends on axioms: [propext, Quot.sound]
'Verif.C65_footnote_definition' depends on axioms: [propext, Classical.choice, Quot.sound]
'Verif.C66_boundaries' depends on axioms: [propext, Quot.sound]
'Verif.C66_list' depends on axioms: [propext, Classical.choice, Quot.sound]
'Verif.C68_boundaries' depends on axioms: [propext, Quot.sound]
'Verif.C68_raw' depends on axioms: [propext, Classical.choice, Quot.sound]
'Verif.C68_tag' depends on axioms: [propext, Classical.choice, Quot.sound]
'Verif.C69_boundaries' depends on axioms: [propext, Quot.sound]
'Verif.C69_hooks' depends on axioms: [propext, Classical.choice, Quot.sound]
'Verif.C69_witness' depends on axioms: [propext, Quot.sound]
'Verif.C70_boundaries' depends on axioms: [propext, Quot.sound]
'Verif.C70_example' depends on axioms: [propext, Classical.choice, Quot.sound]
'Verif.C70_keeps_the_text' depends on axioms: [propext, Classical.choice, Quot.sound]
'Verif.C71_boundaries' depends on axioms: [propext, Quot.sound]
'Verif.C71_example' depends on axioms: [propext, Classical.choice, Quot.sound]
'Verif.C71_reads' depends on axioms: [propext, Classical.choice, Quot.sound]
'Verif.C71_refuses' depends on axioms: [propext, Quot.sound]
'Verif.C72_example' depends on axioms: [propext]
'Verif.C72_exists' depends on axioms: [propext, Quot.sound]
'Verif.C72_generic' depends on axioms: [propext, Quot.sound]
'Verif.C72_generic_exists' depends on axioms: [propext, Quot.sound]
'Verif.C72_transform' depends on axioms: [propext, Quot.sound]
'Verif.C73_boundaries' depends on axioms: [propext]
'Verif.C73_example' depends on axioms: [propext]
'Verif.C73_exists' depends on axioms: [propext, Quot.sound]
'Verif.C73_expand' depends on axioms: [propext, Quot.sound]
'Verif.C73_generic' depends on axioms: [propext, Quot.sound]
'Verif.C73_generic_exists' depends on axioms: [propext, Quot.sound]
'Verif.C73_generic_hooks' depends on axioms: [propext, Quot.sound]
'Verif.C73_generic_hooks_example' depends on axioms: [propext]
'Verif.C73_generic_hooks_exists' depends on axioms: [propext, Quot.sound]
'Verif.C74_alert_iff' depends on axioms: [propext, Classical.choice, Quot.sound]
'Verif.C74_markers' depends on axioms: [propext, Classical.choice, Quot.sound]
'Verif.C74_quote_or_alert' depends on axioms: [propext, Classical.choice, Quot.sound]
'Verif.C76_boundaries' depends on axioms: [propext, Quot.sound]
'Verif.C76_dos' depends on axioms: [propext, Classical.choice, Quot.sound]
'Verif.C76_equal' depends on axioms: [propext, Classical.choice, Quot.sound]
'Verif.C76_example' depends on axioms: [propext, Quot.sound]
'Verif.C76_line_endings' depends on axioms: [propext, Classical.choice, Quot.sound]
'Verif.C76_lone' depends on axioms: [propext, Quot.sound]
'Verif.C77_boundaries' depends on axioms: [propext, Quot.sound]
'Verif.C77_custom' depends on axioms: [propext, Classical.choice, Quot.sound]
'Verif.C77_example' depends on axioms: [propext, Classical.choice, Quot.sound]
'Verif.C77_indifferent' depends on axioms: [propext, Classical.choice, Quot.sound]
'Verif.C78_block' depends on axioms: [propext, Classical.choice, Quot.sound]
'Verif.C78_examples' depends on axioms: [propext, Quot.sound]
'Verif.C78_inline' depends on axioms: [propext, Classical.choice, Quot.sound]
'Verif.C78_inline_text' depends on axioms: [propext, Classical.choice, Quot.sound]
'Verif.C78_interrupts' depends on axioms: [propext, Classical.choice, Quot.sound]
'Verif.C79_exact' depends on axioms: [propext, Classical.choice, Quot.sound]
'Verif.C79_examples' depends on axioms: [propext, Quot.sound]
'Verif.C79_total' depends on axioms: [propext, Classical.choice, Quot.sound]
'Verif.C79_unique' depends on axioms: [propext, Classical.choice, Quot.sound]
'Verif.C80_first_block' depends on axioms: [propext, Classical.choice, Quot.sound]
'Verif.C80_plain' depends on axioms: [propext, Quot.sound]
'Verif.C81_one' depends on axioms: [propext, Classical.choice, Quot.sound]
'Verif.C81_text' depends on axioms: [propext, Classical.choice, Quot.sound]
'Verif.C82_comment' depends on axioms: [propext, Classical.choice, Quot.sound]
'Verif.C82_complete' depends on axioms: [propext, Classical.choice, Quot.sound]
'Verif.C82_concat' depends on axioms: [propext, Classical.choice, Quot.sound]
'Verif.C82_example' depends on axioms: [propext, Classical.choice, Quot.sound]
'Verif.C82_fence' depends on axioms: [propext, Classical.choice, Quot.sound]
'Verif.C82_join' depends on axioms: [propext]
'Verif.C82_needed' depends on axioms: [propext, Quot.sound]
'Verif.C82_pieces' depends on axioms: [propext, Quot.sound]
'Verif.C82_simple' depends on axioms: [propext, Classical.choice, Quot.sound]
'Verif.C83_example' depends on axioms: [propext, Classical.choice, Quot.sound]
'Verif.C83_final_newline' depends on axioms: [propext, Classical.choice, Quot.sound]
'Verif.C83_final_newlines' depends on axioms: [propext, Classical.choice, Quot.sound]
'Verif.C83_needed' depends on axioms: [propext, Quot.sound]
'Verif.C83_plain' depends on axioms: [propext, Classical.choice, Quot.sound]
'Verif.C90_example' depends on axioms: [propext, Classical.choice, Quot.sound]
'Verif.C90_format' depends on axioms: [propext, Classical.choice, Quot.sound]
'Verif.C90_html' depends on axioms: [propext, Classical.choice, Quot.sound]
'Verif.C90_latex' depends on axioms: [propext, Classical.choice, Quot.sound]
'Verif.C90_reparse' depends on axioms: [propext, Classical.choice, Quot.sound]
'Verif.C94_badge' depends on axioms: [propext, Quot.sound]
'Verif.C94_links' depends on axioms: [propext, Classical.choice, Quot.sound]
'Verif.C94_nested' depends on axioms: [propext, Quot.sound]
'Verif.C95_bound' depends on axioms: [propext, Classical.choice, Quot.sound]
'Verif.C95_exponential' depends on axioms: [propext, Classical.choice, Quot.sound]
'Verif.C95_linear' depends on axioms: [propext, Classical.choice, Quot.sound]
'Verif.C95_quadratic' depends on axioms: [propext, Classical.choice, Quot.sound]
'Verif.C95_table' depends on axioms: [propext, Classical.choice, Quot.sound]
'Verif.C96_again' depends on axioms: [propext, Quot.sound]
'Verif.C96_entities' depends on axioms: [propext, Quot.sound]
'Verif.C96_parse' depends on axioms: [propext]
'Verif.C96_parser' depends on axioms: [propext]
'Verif.C96_swap' depends on axioms: [propext, Quot.sound]
'Verif.C97_convert' depends on axioms: [propext, Classical.choice, Quot.sound]
'Verif.C97_html' depends on axioms: [propext, Classical.choice, Quot.sound]
'Verif.C97_latex' depends on axioms: [propext, Classical.choice, Quot.sound]
'Verif.C97_markdown' depends on axioms: [propext, Classical.choice, Quot.sound]
'Verif.C97_shared' depends on axioms: [propext, Classical.choice, Quot.sound]
'Verif.C97_unrelated' depends on axioms: [propext, Quot.sound]
'Verif.C98_example' depends on axioms: [propext, Quot.sound]
'Verif.C98_linear' depends on axioms: [propext, Classical.choice, Quot.sound]
'Verif.C98_plain' depends on axioms: [propext, Classical.choice, Quot.sound]
'Verif.C98_quadratic' depends on axioms: [propext, Classical.choice, Quot.sound]
'Verif.C98_text' depends on axioms: [propext, Classical.choice, Quot.sound]
'Verif.Exact.C84_exact' depends on axioms: [propext, Classical.choice, Quot.sound]
'Verif.Exact.C84_examples' depends on axioms: [propext, Classical.choice, Quot.sound]
'Verif.Exact.C84_heading' depends on axioms: [propext, Classical.choice, Quot.sound]
'Verif.Exact.C84_text' depends on axioms: [propext, Classical.choice, Quot.sound]
'Verif.Exact.C84_total' depends on axioms: [propext, Classical.choice, Quot.sound]
'Verif.Exact.C84_unique' depends on axioms: [propext, Classical.choice, Quot.sound]
'Verif.Exact.C85_configuration' depends on axioms: [propext, Classical.choice, Quot.sound]
'Verif.Exact.C85_exact' depends on axioms: [propext, Classical.choice, Quot.sound]
'Verif.Exact.C85_examples' depends on axioms: [propext, Classical.choice, Quot.sound]
'Verif.Exact.C85_unique' depends on axioms: [propext, Classical.choice, Quot.sound]
'Verif.Exact.C88_all_on' depends on axioms: [propext, Classical.choice, Quot.sound]
'Verif.Exact.C88_custom_examples' depends on axioms: [propext, Classical.choice, Quot.sound]
'Verif.Exact.C88_exact' depends on axioms: [propext, Classical.choice, Quot.sound]
'Verif.Exact.C88_examples' depends on axioms: [propext, Classical.choice, Quot.sound]
'Verif.Exact.C88_hooks' depends on axioms: [propext, Classical.choice, Quot.sound]
'Verif.Exact.C88_hooks_example' depends on axioms: [propext, Classical.choice, Quot.sound]
'Verif.Exact.C88_inlines' depends on axioms: [propext, Classical.choice, Quot.sound]
'Verif.Exact.C88_unique' depends on axioms: [propext, Classical.choice, Quot.sound]
'Verif.Fx.C91_accepts' depends on axioms: [propext, Quot.sound]
'Verif.Fx.C91_effects' depends on axioms: [propext]
'Verif.Fx.C91_example' depends on axioms: [propext, Quot.sound]
'Verif.Fx.C91_numbering_total' depends on axioms: [propext, Classical.choice, Quot.sound]
'Verif.Fx.C91_numbers' depends on axioms: [propext, Classical.choice, Quot.sound]
'Verif.Fx.C91_total' depends on axioms: [propext, Classical.choice, Quot.sound]
'Verif.Fx.C92_calls' depends on axioms: [propext, Classical.choice, Quot.sound]
'Verif.Fx.C92_examples' depends on axioms: [propext, Quot.sound]
'Verif.Fx.C92_exponential' depends on axioms: [propext, Classical.choice, Quot.sound]
'Verif.Fx.C92_items' depends on axioms: [propext, Classical.choice, Quot.sound]
'Verif.Fx.C92_items_exponential' depends on axioms: [propext, Classical.choice, Quot.sound]
'Verif.Fx.C92_list' depends on axioms: [propext, Classical.choice, Quot.sound]
'Verif.Fx.C92_nested' depends on axioms: [propext, Classical.choice, Quot.sound]
'Verif.Fx.C92_quote' depends on axioms: [propext, Classical.choice, Quot.sound]
'Verif.Fx.C93_calls' depends on axioms: [propext, Classical.choice, Quot.sound]
'Verif.Fx.C93_continued' depends on axioms: [propext, Classical.choice, Quot.sound]
'Verif.Fx.C93_example' depends on axioms: [propext, Quot.sound]
'Verif.Html.C102_example' depends on axioms: [propext, Quot.sound]
'Verif.Html.C102_harmless' depends on axioms: [propext, Classical.choice, Quot.sound]
'Verif.Html.C102_script' depends on axioms: [propext, Quot.sound]
'Verif.Html.C102_text' depends on axioms: [propext, Classical.choice, Quot.sound]
'Verif.Html.C105_definitions_missed' depends on axioms: [propext, Quot.sound]
'Verif.Html.C105_rewritten' depends on axioms: [propext, Classical.choice, Quot.sound]
'Verif.Html.C105_text' depends on axioms: [propext, Classical.choice, Quot.sound]
'Verif.Html.C106_display' depends on axioms: [propext, Classical.choice, Quot.sound]
'Verif.Html.C106_example' depends on axioms: [propext, Classical.choice, Quot.sound]
'Verif.Html.C106_label_wrapped' depends on axioms: [propext, Classical.choice, Quot.sound]
'Verif.Html.C108_example' depends on axioms: [propext, Quot.sound]
'Verif.Html.C108_labels_joined' depends on axioms: [propext, Quot.sound]
'Verif.Html.C108_normalize' depends on axioms: [propext, Classical.choice, Quot.sound]
'Verif.Html.C108_remove' depends on axioms: [propext, Classical.choice, Quot.sound]
'Verif.Html.C108_words_joined' depends on axioms: [propext, Quot.sound]
'Verif.Html.C109_elements' depends on axioms: [propext, Classical.choice, Quot.sound]
'Verif.Html.C109_examples' depends on axioms: [propext, Quot.sound]
'Verif.Html.C109_transform_text' depends on axioms: [propext, Classical.choice, Quot.sound]
'Verif.Html.C112_example' depends on axioms: [propext, Quot.sound]
'Verif.Html.C112_labels_joined' depends on axioms: [propext]
'Verif.Html.C112_transform' depends on axioms: [propext, Classical.choice, Quot.sound]
'Verif.Html.C20_ampersand' depends on axioms: [propext, Quot.sound]
'Verif.Html.C20_decode_escape' depends on axioms: [propext]
'Verif.Html.C20_injective' depends on axioms: [propext]
'Verif.Html.C20_no_special' depends on axioms: [propext, Quot.sound]
'Verif.Html.C21_alert_name_not_escaped' depends on axioms: [propext, Quot.sound]
'Verif.Html.C21_well_nested' depends on axioms: [propext, Quot.sound]
'Verif.Html.C22_image_attrs_partial' depends on axioms: [propext, Quot.sound]
'Verif.Html.C22_link_href_partial' depends on axioms: [propext, Quot.sound]
'Verif.Html.C22_refuted' depends on axioms: [propext]
'Verif.Html.C23_width_independent' depends on axioms: [propext, Quot.sound]
'Verif.Html.C24_bijection' depends on axioms: [propext, Classical.choice, Quot.sound]
'Verif.Html.C24_definition' depends on axioms: [propext, Classical.choice, Quot.sound]
'Verif.Html.C24_order' depends on axioms: [propext, Classical.choice, Quot.sound]
'Verif.Html.C25_direct_reference_partial' depends on axioms: [propext, Classical.choice, Quot.sound]
'Verif.Html.C25_refuted' depends on axioms: [propext, Quot.sound]
'Verif.Html.C26_references_resolved' depends on axioms: [propext, Quot.sound]
'Verif.Html.C27_panics_iff' depends on axioms: [propext, Classical.choice, Quot.sound]
'Verif.Html.C27_total' depends on axioms: [propext, Classical.choice, Quot.sound]
'Verif.Html.C52_visible_text' depends on axioms: [propext, Classical.choice, Quot.sound]
'Verif.Html.C58_tree' depends on axioms: [propext, Classical.choice, Quot.sound]
'Verif.Html.C58_unique' depends on axioms: [propext, Classical.choice, Quot.sound]
'Verif.Html.C75_count' depends on axioms: [propext, Classical.choice, Quot.sound]
'Verif.Html.C75_links' depends on axioms: [propext, Classical.choice, Quot.sound]
'Verif.Html.C89_exact_html' depends on axioms: [propext, Classical.choice, Quot.sound]
'Verif.Html.C96_html' depends on axioms: [propext]
'Verif.Html.C98_html' depends on axioms: [propext, Classical.choice, Quot.sound]
'Verif.Html.C99_anchors' depends on axioms: [propext, Classical.choice, Quot.sound]
'Verif.Html.C99_anchors_example' depends on axioms: [propext, Quot.sound]
'Verif.Html.C99_clean' depends on axioms: [propext, Classical.choice, Quot.sound]
'Verif.Html.C99_example' depends on axioms: [propext, Quot.sound]
'Verif.Html.C99_footnote' depends on axioms: [propext]
'Verif.Html.C99_nested' depends on axioms: [propext, Classical.choice, Quot.sound]
'Verif.Html.C99_text' depends on axioms: [propext, Classical.choice, Quot.sound]
'Verif.Latex.C103_carets' depends on axioms: [propext, Classical.choice, Quot.sound]
'Verif.Latex.C103_code' depends on axioms: [propext, Quot.sound]
'Verif.Latex.C103_example' depends on axioms: [propext, Quot.sound]
'Verif.Latex.C103_harmless' depends on axioms: [propext, Classical.choice, Quot.sound]
'Verif.Latex.C103_text' depends on axioms: [propext, Classical.choice, Quot.sound]
'Verif.Latex.C103_text_carets' depends on axioms: [propext, Classical.choice, Quot.sound]
'Verif.Latex.C104_latex' depends on axioms: [propext, Classical.choice, Quot.sound]
'Verif.Latex.C104_plain' depends on axioms: [propext, Classical.choice, Quot.sound]
'Verif.Latex.C104_text' depends on axioms: [propext, Classical.choice, Quot.sound]
'Verif.Latex.C107_examples' depends on axioms: [propext, Classical.choice, Quot.sound]
'Verif.Latex.C107_latex' depends on axioms: [propext, Classical.choice, Quot.sound]
'Verif.Latex.C107_no_blanks' depends on axioms: [propext, Classical.choice, Quot.sound]
'Verif.Latex.C110_example' depends on axioms: [propext, Quot.sound]
'Verif.Latex.C110_normalize' depends on axioms: [propext, Classical.choice, Quot.sound]
'Verif.Latex.C110_remove' depends on axioms: [propext, Classical.choice, Quot.sound]
'Verif.Latex.C110_width' depends on axioms: [propext, Classical.choice, Quot.sound]
'Verif.Latex.C110_words_joined' depends on axioms: [propext, Quot.sound]
'Verif.Latex.C111_examples' depends on axioms: [propext, Classical.choice, Quot.sound]
'Verif.Latex.C111_transform_text' depends on axioms: [propext, Classical.choice, Quot.sound]
'Verif.Latex.C118_example' depends on axioms: [propext, Quot.sound]
'Verif.Latex.C118_transform' depends on axioms: [propext, Classical.choice, Quot.sound]
'Verif.Latex.C121_example' depends on axioms: [propext]
'Verif.Latex.C121_told' depends on axioms: [propext, Classical.choice, Quot.sound]
'Verif.Latex.C28_decode_escape' depends on axioms: [propext, Classical.choice, Quot.sound]
'Verif.Latex.C28_injective' depends on axioms: [propext, Classical.choice, Quot.sound]
'Verif.Latex.C28_units' depends on axioms: [propext]
'Verif.Latex.C29_alert_not_escaped' depends on axioms: [propext]
'Verif.Latex.C29_balanced' depends on axioms: [propext, Classical.choice, Quot.sound]
'Verif.Latex.C29_code_not_escaped' depends on axioms: [propext]
'Verif.Latex.C29_dangling_caret' depends on axioms: [propext]
'Verif.Latex.C29_no_raw_special' depends on axioms: [propext, Classical.choice, Quot.sound]
'Verif.Latex.C29_well_formed' depends on axioms: [propext, Classical.choice, Quot.sound]
'Verif.Latex.C30_code_untouched' depends on axioms: [propext, Classical.choice, Quot.sound]
'Verif.Latex.C30_width_only_whitespace' depends on axioms: [propext, Quot.sound]
'Verif.Latex.C31_consecutive' depends on axioms: [propext, Classical.choice, Quot.sound]
'Verif.Latex.C31_definition' depends on axioms: [propext, Classical.choice, Quot.sound]
'Verif.Latex.C31_link_fallback' depends on axioms: [propext, Classical.choice, Quot.sound]
'Verif.Latex.C31_link_resolved' depends on axioms: [propext, Classical.choice, Quot.sound]
'Verif.Latex.C31_numbering' depends on axioms: [propext, Classical.choice, Quot.sound]
'Verif.Latex.C31_reference' depends on axioms: [propext, Classical.choice, Quot.sound]
'Verif.Latex.C31_references_resolved' depends on axioms: [propext, Classical.choice, Quot.sound]
'Verif.Latex.C59_exact' depends on axioms: [propext, Classical.choice, Quot.sound]
'Verif.Latex.C59_source' depends on axioms: [propext, Classical.choice, Quot.sound]
'Verif.Latex.C96_latex' depends on axioms: [propext]
'Verif.Latex.Exact.C87_exact' depends on axioms: [propext, Classical.choice, Quot.sound]
'Verif.Latex.Exact.C87_examples' depends on axioms: [propext]
'Verif.Md.C101_example' depends on axioms: [propext, Classical.choice, Quot.sound]
'Verif.Md.C101_fewest' depends on axioms: [propext, Classical.choice, Quot.sound]
'Verif.Md.C101_wider' depends on axioms: [propext, Classical.choice, Quot.sound]
'Verif.Md.C115_configuration' depends on axioms: [propext, Classical.choice, Quot.sound]
'Verif.Md.C115_example' depends on axioms: [propext, Classical.choice, Quot.sound]
'Verif.Md.C115_findings' depends on axioms: [propext, Classical.choice, Quot.sound]
'Verif.Md.C115_normalize' depends on axioms: [propext, Classical.choice, Quot.sound]
'Verif.Md.C115_printed' depends on axioms: [propext, Classical.choice, Quot.sound]
'Verif.Md.C115_remove' depends on axioms: [propext, Classical.choice, Quot.sound]
'Verif.Md.C116_transform_text' depends on axioms: [propext, Classical.choice, Quot.sound]
'Verif.Md.C117_example' depends on axioms: [propext, Classical.choice, Quot.sound]
'Verif.Md.C117_printed' depends on axioms: [propext, Classical.choice, Quot.sound]
'Verif.Md.C117_transform' depends on axioms: [propext, Classical.choice, Quot.sound]
'Verif.Md.C119_example' depends on axioms: [propext, Classical.choice, Quot.sound]
'Verif.Md.C119_ink' depends on axioms: [propext, Classical.choice, Quot.sound]
'Verif.Md.C120_example' depends on axioms: [propext, Classical.choice, Quot.sound]
'Verif.Md.C120_told' depends on axioms: [propext, Classical.choice, Quot.sound]
'Verif.Md.C44_document' depends on axioms: [propext, Classical.choice, Quot.sound]
'Verif.Md.C44_document_quotes' depends on axioms: [propext, Classical.choice, Quot.sound]
'Verif.Md.C44_paragraph' depends on axioms: [propext, Quot.sound]
'Verif.Md.C44_paragraph_words' depends on axioms: [propext, Quot.sound]
'Verif.Md.C44_width_independent' depends on axioms: [propext, Quot.sound]
'Verif.Md.C45_exact' depends on axioms: [propext, Classical.choice, Quot.sound]
'Verif.Md.C45_harmless' depends on axioms: [propext, Classical.choice, Quot.sound]
'Verif.Md.C45_lines_partial' depends on axioms: [propext, Classical.choice, Quot.sound]
'Verif.Md.C45_refuted' depends on axioms: [propext, Classical.choice, Quot.sound]
'Verif.Md.C46_aligned' depends on axioms: [propext, Classical.choice, Quot.sound]
'Verif.Md.C46_delimiter' depends on axioms: [propext, Quot.sound]
'Verif.Md.C46_table' depends on axioms: [propext, Classical.choice, Quot.sound]
'Verif.Md.C47_exact' depends on axioms: [propext, Classical.choice, Quot.sound]
'Verif.Md.C47_footnote_panics' depends on axioms: [propext, Classical.choice, Quot.sound]
'Verif.Md.C47_nested_panics' depends on axioms: [propext, Classical.choice, Quot.sound]
'Verif.Md.C47_number_panics' depends on axioms: [propext, Classical.choice, Quot.sound]
'Verif.Md.C47_parsed_partial' depends on axioms: [propext, Classical.choice, Quot.sound]
'Verif.Md.C47_prints' depends on axioms: [propext, Classical.choice, Quot.sound]
'Verif.Md.C48_list' depends on axioms: [propext, Classical.choice, Quot.sound]
'Verif.Md.C49_parsed_partial' depends on axioms: [propext, Classical.choice, Quot.sound]
'Verif.Md.C49_refuted_alert_code' depends on axioms: [propext, Classical.choice, Quot.sound]
'Verif.Md.C49_refuted_atx_break' depends on axioms: [propext, Classical.choice, Quot.sound]
'Verif.Md.C49_refuted_code_after_list' depends on axioms: [propext, Classical.choice, Quot.sound]
'Verif.Md.C49_refuted_escape' depends on axioms: [propext, Classical.choice, Quot.sound]
'Verif.Md.C49_refuted_html' depends on axioms: [propext, Classical.choice, Quot.sound]
'Verif.Md.C49_refuted_item_code' depends on axioms: [propext, Classical.choice, Quot.sound]
'Verif.Md.C49_refuted_item_setext' depends on axioms: [propext, Classical.choice, Quot.sound]
'Verif.Md.C49_refuted_left' depends on axioms: [propext, Classical.choice, Quot.sound]
'Verif.Md.C49_refuted_level' depends on axioms: [propext, Classical.choice, Quot.sound]
'Verif.Md.C49_refuted_parsed' depends on axioms: [propext, Classical.choice, Quot.sound]
'Verif.Md.C49_refuted_quoted_heading' depends on axioms: [propext, Classical.choice, Quot.sound]
'Verif.Md.C49_refuted_wrapped_footnote' depends on axioms: [propext, Classical.choice, Quot.sound]
'Verif.Md.C49_refuted_wrapped_number' depends on axioms: [propext, Classical.choice, Quot.sound]
'Verif.Md.C49_round_trip_partial' depends on axioms: [propext, Classical.choice, Quot.sound]
'Verif.Md.C60_layout' depends on axioms: [propext, Classical.choice, Quot.sound]
'Verif.Md.C61_fill' depends on axioms: [propext, Quot.sound]
'Verif.Md.C61_hard_break' depends on axioms: [propext, Classical.choice, Quot.sound]
'Verif.Md.C61_width' depends on axioms: [propext, Quot.sound]
'Verif.Md.C67_idempotent_partial' depends on axioms: [propext, Classical.choice, Quot.sound]
'Verif.Md.C67_refuted' depends on axioms: [propext, Classical.choice, Quot.sound]
'Verif.Md.C67_whitespace_partial' depends on axioms: [propext, Classical.choice, Quot.sound]
'Verif.Md.C96_markdown' depends on axioms: [propext]
'Verif.Md.Exact.C86_exact' depends on axioms: [propext, Classical.choice, Quot.sound]
'Verif.Md.Exact.C86_example_printed' depends on axioms: [propext, Classical.choice, Quot.sound]
'Verif.Md.Exact.C86_examples' depends on axioms: [propext, Classical.choice, Quot.sound]
'Verif.Md.Exact.C86_paragraph' depends on axioms: [propext, Classical.choice, Quot.sound]
