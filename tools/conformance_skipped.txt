src/parser/inline/tests/environment_variable.rs test_integration_with_full_parser Bad('statement id if')
src/parser/blocks/tests/blockquote.rs blockquote_skip1 Bad('call MarkdownParserConfig::default')
src/parser/blocks/tests/blockquote.rs blockquote_skip2 Bad('call MarkdownParserConfig::default')
src/parser/blocks/tests/blockquote.rs blockquote_ignore1 Bad('call MarkdownParserConfig::default')
src/parser/blocks/tests/blockquote.rs blockquote_ignore2 Bad('call MarkdownParserConfig::default')
src/parser/blocks/tests/custom_parser.rs custom_parser1 Bad('closure')
src/parser/blocks/tests/github_alert.rs github_alert_standard_types_roundtrip Bad('tuple')
src/parser/blocks/tests/heading.rs heading_v1 Bad('call MarkdownParserConfig::default')
src/parser/blocks/tests/html_block.rs html_block_skip1 Bad('call crate::parser::config::MarkdownParserConfig::default')
src/parser/blocks/tests/html_block.rs html_block_ignore1 Bad('call crate::parser::config::MarkdownParserConfig::default')
src/parser/blocks/tests/link_definition.rs link_definition_mapped1 Bad('closure')
src/parser/blocks/tests/link_definition.rs link_definition_mapped2 Bad('closure')
src/parser/blocks/tests/table.rs table_malformed_separators Bad('statement id match')
src/printer/tests/line_wrapping_issues.rs test_indentation_wrapping_creates_code_block Bad('call std::mem::discriminant')
src/printer/tests/line_wrapping_issues.rs test_systematic_problematic_patterns Bad('tuple')
src/printer/tests/line_wrapping_issues.rs test_round_trip_with_wrapping_issues Bad('statement id for')
src/printer/tests/table.rs table_no_line_wrapping_with_small_width Bad('typed let')
src/printer/tests/table.rs table_preserves_structure_with_long_cells Bad('typed let')
src/printer/tests/table.rs table_renders_with_different_widths Bad('statement id for')
src/printer/tests/table.rs table_handles_newlines_in_cell_content Bad('typed let')
src/printer/tests/table.rs table_with_user_example_structure Bad('statement id if')
src/latex_printer/tests/comprehensive.rs test_github_alerts Bad('tuple')
src/latex_printer/tests/comprehensive.rs test_empty_block Bad('typed let')
src/latex_printer/tests/config_combinations.rs test_width_configuration Bad('mut')
src/latex_printer/tests/config_combinations.rs test_config_combinations Bad('statement id for')
src/latex_printer/tests/config_combinations.rs test_config_equality Bad('field width')
src/latex_printer/tests/config_combinations.rs test_mixed_content_with_different_configs Bad('statement id for')
src/latex_printer/tests/edge_cases.rs test_very_long_line Bad('method Str.repeat')
src/latex_printer/tests/edge_cases.rs test_deeply_nested_lists Bad('statement id fn')
src/latex_printer/tests/edge_cases.rs test_all_list_bullet_kinds Bad('statement id for')
src/latex_printer/tests/mod.rs test_config_width Bad('method Str.lines')
src/latex_printer/tests/mod.rs test_width_works_for_complex_content Bad('method Str.lines')
src/latex_printer/tests/mod.rs test_code_blocks_no_wrapping Bad('typed let')
