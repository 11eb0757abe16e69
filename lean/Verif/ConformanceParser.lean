import Verif.ConformanceBase
/-!
# Unit tests of the repository, transcribed (generated by `tools/gen_conformance.py`)
-/
namespace Verif
namespace Conformance
open Nom

/-- `autolink1`, `src/parser/inline/tests/autolink.rs:5-15` -/
example :
    ((parsed cs!"<http://foo.bar.baz>").getD ⟨[]⟩) = (⟨[(.paragraph [(.autolink cs!"http://foo.bar.baz")])]⟩ : Document) := by
  decide +kernel

/-- `autolink2`, `src/parser/inline/tests/autolink.rs:18-28` -/
example :
    ((parsed cs!"<irc://foo.bar:2233/baz>").getD ⟨[]⟩) = (⟨[(.paragraph [(.autolink cs!"irc://foo.bar:2233/baz")])]⟩ : Document) := by
  decide +kernel

/-- `autolink3`, `src/parser/inline/tests/autolink.rs:31-41` -/
example :
    ((parsed cs!"<MAILTO:FOO@BAR.BAZ>").getD ⟨[]⟩) = (⟨[(.paragraph [(.autolink cs!"MAILTO:FOO@BAR.BAZ")])]⟩ : Document) := by
  decide +kernel

/-- `autolink4`, `src/parser/inline/tests/autolink.rs:44-54` -/
example :
    ((parsed cs!"<http://foo.bar/baz bim>").getD ⟨[]⟩) = (⟨[(.paragraph [(.text cs!"<http://foo.bar/baz bim>")])]⟩ : Document) := by
  decide +kernel

/-- `autolink5`, `src/parser/inline/tests/autolink.rs:57-67` -/
example :
    ((parsed cs!"<http://example.com/\\[\\>").getD ⟨[]⟩) = (⟨[(.paragraph [(.autolink cs!"http://example.com/\\[\\")])]⟩ : Document) := by
  decide +kernel

/-- `autolink6`, `src/parser/inline/tests/autolink.rs:70-78` -/
example :
    ((parsed cs!"<>").getD ⟨[]⟩) = (⟨[(.paragraph [(.text cs!"<>")])]⟩ : Document) := by
  decide +kernel

/-- `code_span1`, `src/parser/inline/tests/code_span.rs:5-13` -/
example :
    ((parsed cs!"`foo`").getD ⟨[]⟩) = (⟨[(.paragraph [(.code cs!"foo")])]⟩ : Document) := by
  decide +kernel

/-- `code_span2`, `src/parser/inline/tests/code_span.rs:16-26` -/
example :
    ((parsed cs!"`` foo ` bar ``").getD ⟨[]⟩) = (⟨[(.paragraph [(.code cs!"foo ` bar")])]⟩ : Document) := by
  decide +kernel

/-- `code_span3`, `src/parser/inline/tests/code_span.rs:29-47` -/
example :
    ((parsed cs!"``\nfoo\nbar  \nbaz\n``").getD ⟨[]⟩) = (⟨[(.paragraph [(.code cs!"foo bar   baz")])]⟩ : Document) := by
  decide +kernel

/-- `test_environment_variables_with_text`, `src/parser/inline/tests/consecutive_text_elements.rs:83-92` -/
example :
    (mergedBlocks ((parsed cs!"Set PKG_CONFIG_PATH and CMAKE_BUILD_TYPE to debug for testing").getD ⟨[]⟩).blocks) = true := by
  decide +kernel

/-- `test_emphasis_with_surrounding_text`, `src/parser/inline/tests/consecutive_text_elements.rs:95-104` -/
example :
    (mergedBlocks ((parsed cs!"This is *emphasized* text with more content").getD ⟨[]⟩).blocks) = true := by
  decide +kernel

/-- `test_multiple_environment_variables`, `src/parser/inline/tests/consecutive_text_elements.rs:107-116` -/
example :
    (mergedBlocks ((parsed cs!"Use PATH_TO_FILE and CMAKE_BUILD_TYPE and PKG_CONFIG_PATH variables").getD ⟨[]⟩).blocks) = true := by
  decide +kernel

/-- `test_mixed_inline_elements`, `src/parser/inline/tests/consecutive_text_elements.rs:119-128` -/
example :
    (mergedBlocks ((parsed cs!"Text with ENV_VAR and *emphasis* and **strong** and `code` formatting").getD ⟨[]⟩).blocks) = true := by
  decide +kernel

/-- `test_escaped_characters_with_text`, `src/parser/inline/tests/consecutive_text_elements.rs:131-140` -/
example :
    (mergedBlocks ((parsed cs!"Text with \\* escaped asterisk \\_ underscore and more text").getD ⟨[]⟩).blocks) = true := by
  decide +kernel

/-- `test_autolinks_with_text`, `src/parser/inline/tests/consecutive_text_elements.rs:143-152` -/
example :
    (mergedBlocks ((parsed cs!"Visit <https://example.com> for more information about ENV_VAR usage").getD ⟨[]⟩).blocks) = true := by
  decide +kernel

/-- `test_html_entities_with_text`, `src/parser/inline/tests/consecutive_text_elements.rs:155-164` -/
example :
    (mergedBlocks ((parsed cs!"Text &amp; more text &lt; even more text").getD ⟨[]⟩).blocks) = true := by
  decide +kernel

/-- `test_complex_paragraph`, `src/parser/inline/tests/consecutive_text_elements.rs:167-175` -/
example :
    (mergedBlocks ((parsed cs!"Configure CMAKE_BUILD_TYPE to *debug* mode using PKG_CONFIG_PATH variable and check <https://example.com> for &amp; documentation").getD ⟨[]⟩).blocks) = true := by
  decide +kernel

/-- `test_nested_emphasis_with_env_vars`, `src/parser/inline/tests/consecutive_text_elements.rs:178-187` -/
example :
    (mergedBlocks ((parsed cs!"Use **strong with *nested ENV_VAR emphasis* and more** formatting").getD ⟨[]⟩).blocks) = true := by
  decide +kernel

/-- `test_list_items_with_mixed_content`, `src/parser/inline/tests/consecutive_text_elements.rs:190-198` -/
example :
    (mergedBlocks ((parsed cs!"- Set ENV_VAR to *value* for testing\n- Use CMAKE_BUILD_TYPE in **production** mode\n- Check &amp; validate settings").getD ⟨[]⟩).blocks) = true := by
  decide +kernel

/-- `test_table_cells_with_mixed_content`, `src/parser/inline/tests/consecutive_text_elements.rs:201-209` -/
example :
    (mergedBlocks ((parsed cs!"| Variable | Value | Description |\n|----------|-------|-------------|\n| ENV_VAR | *debug* | Test &amp; development |\n| PKG_CONFIG_PATH | `/usr/lib` | System **path** |").getD ⟨[]⟩).blocks) = true := by
  decide +kernel

/-- `test_blockquote_with_mixed_content`, `src/parser/inline/tests/consecutive_text_elements.rs:212-221` -/
example :
    (mergedBlocks ((parsed cs!"> Set ENV_VAR for *testing* and check PKG_CONFIG_PATH configuration").getD ⟨[]⟩).blocks) = true := by
  decide +kernel

/-- `test_heading_with_mixed_content`, `src/parser/inline/tests/consecutive_text_elements.rs:224-233` -/
example :
    (mergedBlocks ((parsed cs!"# Configuration of ENV_VAR and *Other* Settings").getD ⟨[]⟩).blocks) = true := by
  decide +kernel

/-- `test_multiline_paragraph_with_mixed_content`, `src/parser/inline/tests/consecutive_text_elements.rs:236-244` -/
example :
    (mergedBlocks ((parsed cs!"First line with ENV_VAR variable\nSecond line with *emphasis* formatting\nThird line with PKG_CONFIG_PATH and more content").getD ⟨[]⟩).blocks) = true := by
  decide +kernel

/-- `test_footnote_reference_with_text`, `src/parser/inline/tests/consecutive_text_elements.rs:247-255` -/
example :
    (mergedBlocks ((parsed cs!"Text with footnote[^1] and ENV_VAR variable\n\n[^1]: Footnote with PKG_CONFIG_PATH reference").getD ⟨[]⟩).blocks) = true := by
  decide +kernel

/-- `emphasis1`, `src/parser/inline/tests/emphasis.rs:5-15` -/
example :
    ((parsed cs!"*foo bar*").getD ⟨[]⟩) = (⟨[(.paragraph [(.emphasis [(.text cs!"foo bar")])])]⟩ : Document) := by
  decide +kernel

/-- `emphasis2`, `src/parser/inline/tests/emphasis.rs:18-32` -/
example :
    ((parsed cs!"* a *").getD ⟨[]⟩) = (⟨[(.list (.bullet .star) [(.mk none [(.paragraph [(.text cs!"a *")])])])]⟩ : Document) := by
  decide +kernel

/-- `emphasis3`, `src/parser/inline/tests/emphasis.rs:35-46` -/
example :
    ((parsed cs!"foo ___bar___").getD ⟨[]⟩) = (⟨[(.paragraph [(.text cs!"foo "), (.strong [(.emphasis [(.text cs!"bar")])])])]⟩ : Document) := by
  decide +kernel

/-- `emphasis4`, `src/parser/inline/tests/emphasis.rs:49-61` -/
example :
    ((parsed cs!"**foo ___bar___ baz**").getD ⟨[]⟩) = (⟨[(.paragraph [(.strong [(.text cs!"foo "), (.strong [(.emphasis [(.text cs!"bar")])]), (.text cs!" baz")])])]⟩ : Document) := by
  decide +kernel

/-- `emphasis_with_underscores_in_words`, `src/parser/inline/tests/emphasis.rs:64-86` -/
example :
    ((parsed cs!"Note that we set PKG_CONFIG_PATH only if it's not _already_ set").getD ⟨[]⟩) = (⟨[(.paragraph [(.text cs!"Note that we set PKG_CONFIG_PATH only if it's not "), (.emphasis [(.text cs!"already")]), (.text cs!" set")])]⟩ : Document) := by
  decide +kernel

/-- `test_simple_underscore`, `src/parser/inline/tests/emphasis.rs:89-102` -/
example :
    ((parsed cs!"_already_").getD ⟨[]⟩) = (⟨[(.paragraph [(.emphasis [(.text cs!"already")])])]⟩ : Document) := by
  decide +kernel

/-- `test_pkg_config`, `src/parser/inline/tests/emphasis.rs:105-118` -/
example :
    ((parsed cs!"PKG_CONFIG_PATH").getD ⟨[]⟩) = (⟨[(.paragraph [(.text cs!"PKG_CONFIG_PATH")])]⟩ : Document) := by
  decide +kernel

/-- `test_multiple_env_vars_with_emphasis`, `src/parser/inline/tests/emphasis.rs:121-138` -/
example :
    ((parsed cs!"Set PATH_TO_FILE and CMAKE_BUILD_TYPE to _debug_ for testing").getD ⟨[]⟩) = (⟨[(.paragraph [(.text cs!"Set PATH_TO_FILE and CMAKE_BUILD_TYPE to "), (.emphasis [(.text cs!"debug")]), (.text cs!" for testing")])]⟩ : Document) := by
  decide +kernel

/-- `test_env_var_mixed_case`, `src/parser/inline/tests/emphasis.rs:141-156` -/
example :
    ((parsed cs!"Use my_custom_var for configuration").getD ⟨[]⟩) = (⟨[(.paragraph [(.text cs!"Use my_custom_var for configuration")])]⟩ : Document) := by
  decide +kernel

/-- `test_false_positive_prevention`, `src/parser/inline/tests/emphasis.rs:159-179` -/
example :
    ((parsed cs!"Text with _emphasis_ and __strong__ formatting").getD ⟨[]⟩) = (⟨[(.paragraph [(.text cs!"Text with "), (.emphasis [(.text cs!"emphasis")]), (.text cs!" and "), (.strong [(.text cs!"strong")]), (.text cs!" formatting")])]⟩ : Document) := by
  decide +kernel

/-- `test_basic_env_var`, `src/parser/inline/tests/environment_variable.rs:5-9` -/
example :
    (((environmentVariable cs!"PKG_CONFIG_PATH").getD ([], .empty)).1 = cs!"") ∧
    (((environmentVariable cs!"PKG_CONFIG_PATH").getD ([], .empty)).2 = (.text cs!"PKG_CONFIG_PATH")) := by
  decide +kernel

/-- `test_mixed_case_env_var`, `src/parser/inline/tests/environment_variable.rs:12-16` -/
example :
    (((environmentVariable cs!"CMAKE_Build_Type").getD ([], .empty)).1 = cs!"") ∧
    (((environmentVariable cs!"CMAKE_Build_Type").getD ([], .empty)).2 = (.text cs!"CMAKE_Build_Type")) := by
  decide +kernel

/-- `test_lowercase_env_var`, `src/parser/inline/tests/environment_variable.rs:19-23` -/
example :
    (((environmentVariable cs!"my_custom_var").getD ([], .empty)).1 = cs!"") ∧
    (((environmentVariable cs!"my_custom_var").getD ([], .empty)).2 = (.text cs!"my_custom_var")) := by
  decide +kernel

/-- `test_env_var_with_numbers`, `src/parser/inline/tests/environment_variable.rs:26-30` -/
example :
    (((environmentVariable cs!"VAR_123_test").getD ([], .empty)).1 = cs!"") ∧
    (((environmentVariable cs!"VAR_123_test").getD ([], .empty)).2 = (.text cs!"VAR_123_test")) := by
  decide +kernel

/-- `test_reject_no_underscore`, `src/parser/inline/tests/environment_variable.rs:33-35` -/
example :
    (environmentVariable cs!"NOUNDERCORE").isNone = true := by
  decide +kernel

/-- `test_reject_starts_with_underscore`, `src/parser/inline/tests/environment_variable.rs:38-40` -/
example :
    (environmentVariable cs!"_INVALID").isNone = true := by
  decide +kernel

/-- `test_reject_ends_with_underscore`, `src/parser/inline/tests/environment_variable.rs:43-45` -/
example :
    (environmentVariable cs!"INVALID_").isNone = true := by
  decide +kernel

/-- `test_reject_consecutive_underscores`, `src/parser/inline/tests/environment_variable.rs:48-50` -/
example :
    (environmentVariable cs!"INVALID__VAR").isNone = true := by
  decide +kernel

/-- `test_reject_too_short`, `src/parser/inline/tests/environment_variable.rs:53-56` -/
example :
    ((environmentVariable cs!"A_").isNone = true) ∧
    ((environmentVariable cs!"_A").isNone = true) := by
  decide +kernel

/-- `footnote_reference1`, `src/parser/inline/tests/footnote_reference.rs:5-15` -/
example :
    ((parsed cs!"[^label]").getD ⟨[]⟩) = (⟨[(.paragraph [(.footnoteReference cs!"label")])]⟩ : Document) := by
  decide +kernel

/-- `hard_newline1`, `src/parser/inline/tests/hard_newline.rs:5-17` -/
example :
    ((parsed cs!"line1\\\nline2").getD ⟨[]⟩) = (⟨[(.paragraph [(.text cs!"line1"), .lineBreak, (.text cs!"line2")])]⟩ : Document) := by
  decide +kernel

/-- `hard_newline2`, `src/parser/inline/tests/hard_newline.rs:20-32` -/
example :
    ((parsed cs!"line1  \nline2").getD ⟨[]⟩) = (⟨[(.paragraph [(.text cs!"line1"), .lineBreak, (.text cs!"line2")])]⟩ : Document) := by
  decide +kernel

/-- `html_entity1`, `src/parser/inline/tests/html_entity.rs:5-13` -/
example :
    ((parsed cs!"&amp;").getD ⟨[]⟩) = (⟨[(.paragraph [(.text cs!"&")])]⟩ : Document) := by
  decide +kernel

/-- `html_entity2`, `src/parser/inline/tests/html_entity.rs:16-24` -/
example :
    ((parsed cs!"&#32;").getD ⟨[]⟩) = (⟨[(.paragraph [(.text cs!" ")])]⟩ : Document) := by
  decide +kernel

/-- `html_entity3`, `src/parser/inline/tests/html_entity.rs:27-35` -/
example :
    ((parsed cs!"&#x20;").getD ⟨[]⟩) = (⟨[(.paragraph [(.text cs!" ")])]⟩ : Document) := by
  decide +kernel

/-- `html_entity4`, `src/parser/inline/tests/html_entity.rs:38-48` -/
example :
    ((parsed cs!"&unknownchar;").getD ⟨[]⟩) = (⟨[(.paragraph [(.text cs!"&unknownchar;")])]⟩ : Document) := by
  decide +kernel

/-- `image1`, `src/parser/inline/tests/image.rs:5-17` -/
example :
    ((parsed cs!"![foo](/url \"title\")").getD ⟨[]⟩) = (⟨[(.paragraph [(.image cs!"/url" (some cs!"title") cs!"foo")])]⟩ : Document) := by
  decide +kernel

/-- `image2`, `src/parser/inline/tests/image.rs:20-32` -/
example :
    ((parsed cs!"![foo](train.jpg)").getD ⟨[]⟩) = (⟨[(.paragraph [(.image cs!"train.jpg" none cs!"foo")])]⟩ : Document) := by
  decide +kernel

/-- `image3`, `src/parser/inline/tests/image.rs:35-47` -/
example :
    ((parsed cs!"![foo](<url>)").getD ⟨[]⟩) = (⟨[(.paragraph [(.image cs!"url" none cs!"foo")])]⟩ : Document) := by
  decide +kernel

/-- `image4`, `src/parser/inline/tests/image.rs:50-62` -/
example :
    ((parsed cs!"![](train.jpg)").getD ⟨[]⟩) = (⟨[(.paragraph [(.image cs!"train.jpg" none cs!"")])]⟩ : Document) := by
  decide +kernel

/-- `inline_link1`, `src/parser/inline/tests/inline_link.rs:5-17` -/
example :
    ((parsed cs!"[foo](/url \"title\")").getD ⟨[]⟩) = (⟨[(.paragraph [(.link cs!"/url" (some cs!"title") [(.text cs!"foo")])])]⟩ : Document) := by
  decide +kernel

/-- `inline_link2`, `src/parser/inline/tests/inline_link.rs:20-32` -/
example :
    ((parsed cs!"[foo](train.jpg)").getD ⟨[]⟩) = (⟨[(.paragraph [(.link cs!"train.jpg" none [(.text cs!"foo")])])]⟩ : Document) := by
  decide +kernel

/-- `inline_link3`, `src/parser/inline/tests/inline_link.rs:35-47` -/
example :
    ((parsed cs!"[foo](<url>)").getD ⟨[]⟩) = (⟨[(.paragraph [(.link cs!"url" none [(.text cs!"foo")])])]⟩ : Document) := by
  decide +kernel

/-- `reference_link1`, `src/parser/inline/tests/reference_link.rs:5-18` -/
example :
    ((parsed cs!"[text][label]").getD ⟨[]⟩) = (⟨[(.paragraph [(.linkReference [(.text cs!"label")] [(.text cs!"text")])])]⟩ : Document) := by
  decide +kernel

/-- `reference_link2`, `src/parser/inline/tests/reference_link.rs:21-34` -/
example :
    ((parsed cs!"[text][]").getD ⟨[]⟩) = (⟨[(.paragraph [(.linkReference [(.text cs!"text")] [(.text cs!"text")])])]⟩ : Document) := by
  decide +kernel

/-- `reference_link3`, `src/parser/inline/tests/reference_link.rs:37-50` -/
example :
    ((parsed cs!"[text]").getD ⟨[]⟩) = (⟨[(.paragraph [(.linkReference [(.text cs!"text")] [(.text cs!"text")])])]⟩ : Document) := by
  decide +kernel

/-- `strikethrough1`, `src/parser/inline/tests/strikethrough.rs:5-15` -/
example :
    ((parsed cs!"~~text~~").getD ⟨[]⟩) = (⟨[(.paragraph [(.strikethrough [(.text cs!"text")])])]⟩ : Document) := by
  decide +kernel

/-- `strikethrough2`, `src/parser/inline/tests/strikethrough.rs:18-28` -/
example :
    ((parsed cs!"~~text~~~").getD ⟨[]⟩) = (⟨[(.paragraph [(.strikethrough [(.text cs!"text~")])])]⟩ : Document) := by
  decide +kernel

/-- `strikethrough3`, `src/parser/inline/tests/strikethrough.rs:31-42` -/
example :
    ((parsed cs!"~~~text~~~").getD ⟨[]⟩) = (⟨[(.paragraph [(.text cs!"~"), (.strikethrough [(.text cs!"text~")])])]⟩ : Document) := by
  decide +kernel

/-- `blockquote1`, `src/parser/blocks/tests/blockquote.rs:6-17` -/
example :
    ((parsed cs!"> a\n>\n>> b").getD ⟨[]⟩) = (⟨[(.blockQuote [(.paragraph [(.text cs!"a")]), (.blockQuote [(.paragraph [(.text cs!"b")])])])]⟩ : Document) := by
  decide +kernel

/-- `blockquote2`, `src/parser/blocks/tests/blockquote.rs:20-31` -/
example :
    ((parsed cs!">> a\n>>\n>> b").getD ⟨[]⟩) = (⟨[(.blockQuote [(.blockQuote [(.paragraph [(.text cs!"a")]), (.paragraph [(.text cs!"b")])])])]⟩ : Document) := by
  decide +kernel

/-- `code_block_indented1`, `src/parser/blocks/tests/code_block.rs:5-16` -/
example :
    ((parsed cs!"     a").getD ⟨[]⟩) = (⟨[(.codeBlock .indented cs!" a")]⟩ : Document) := by
  decide +kernel

/-- `code_block_indented2`, `src/parser/blocks/tests/code_block.rs:19-30` -/
example :
    ((parsed cs!"     a\n    b").getD ⟨[]⟩) = (⟨[(.codeBlock .indented cs!" a\nb")]⟩ : Document) := by
  decide +kernel

/-- `code_block_fenced1`, `src/parser/blocks/tests/code_block.rs:33-44` -/
example :
    ((parsed cs!"```\na\n```").getD ⟨[]⟩) = (⟨[(.codeBlock (.fenced none) cs!"a")]⟩ : Document) := by
  decide +kernel

/-- `code_block_fenced2`, `src/parser/blocks/tests/code_block.rs:47-58` -/
example :
    ((parsed cs!"  `````\na\n`````````").getD ⟨[]⟩) = (⟨[(.codeBlock (.fenced none) cs!"a")]⟩ : Document) := by
  decide +kernel

/-- `code_block_fenced3`, `src/parser/blocks/tests/code_block.rs:61-72` -/
example :
    ((parsed cs!"  ```\n    a\n      b\n```").getD ⟨[]⟩) = (⟨[(.codeBlock (.fenced none) cs!"  a\n    b")]⟩ : Document) := by
  decide +kernel

/-- `code_block_fenced4`, `src/parser/blocks/tests/code_block.rs:75-88` -/
example :
    ((parsed cs!"  ```rust\na\n```").getD ⟨[]⟩) = (⟨[(.codeBlock (.fenced (some cs!"rust")) cs!"a")]⟩ : Document) := by
  decide +kernel

/-- `footnote_definition1`, `src/parser/blocks/tests/footnote_definition.rs:5-18` -/
example :
    ((parsed cs!"[^foo]: definition").getD ⟨[]⟩) = (⟨[(.footnoteDefinition cs!"foo" [(.paragraph [(.text cs!"definition")])])]⟩ : Document) := by
  decide +kernel

/-- `footnote_definition2`, `src/parser/blocks/tests/footnote_definition.rs:21-40` -/
example :
    ((parsed cs!"[^foo]: line1\n    line2\n").getD ⟨[]⟩) = (⟨[(.footnoteDefinition cs!"foo" [(.paragraph [(.text cs!"line1\nline2")])])]⟩ : Document) := by
  decide +kernel

/-- `github_alert_note`, `src/parser/blocks/tests/github_alert.rs:6-24` -/
example :
    ((parsed cs!"> [!NOTE]\n> This is a note").getD ⟨[]⟩) = (⟨[(.githubAlert .note [(.paragraph [(.text cs!"This is a note")])])]⟩ : Document) := by
  decide +kernel

/-- `github_alert_tip`, `src/parser/blocks/tests/github_alert.rs:27-41` -/
example :
    ((parsed cs!"> [!TIP]\n> This is a tip").getD ⟨[]⟩) = (⟨[(.githubAlert .tip [(.paragraph [(.text cs!"This is a tip")])])]⟩ : Document) := by
  decide +kernel

/-- `github_alert_important`, `src/parser/blocks/tests/github_alert.rs:44-62` -/
example :
    ((parsed cs!"> [!IMPORTANT]\n> This is important").getD ⟨[]⟩) = (⟨[(.githubAlert .important [(.paragraph [(.text cs!"This is important")])])]⟩ : Document) := by
  decide +kernel

/-- `github_alert_warning`, `src/parser/blocks/tests/github_alert.rs:65-83` -/
example :
    ((parsed cs!"> [!WARNING]\n> This is a warning").getD ⟨[]⟩) = (⟨[(.githubAlert .warning [(.paragraph [(.text cs!"This is a warning")])])]⟩ : Document) := by
  decide +kernel

/-- `github_alert_caution`, `src/parser/blocks/tests/github_alert.rs:86-104` -/
example :
    ((parsed cs!"> [!CAUTION]\n> This is a caution").getD ⟨[]⟩) = (⟨[(.githubAlert .caution [(.paragraph [(.text cs!"This is a caution")])])]⟩ : Document) := by
  decide +kernel

/-- `github_alert_multiline`, `src/parser/blocks/tests/github_alert.rs:107-126` -/
example :
    ((parsed cs!"> [!NOTE]\n> Line 1\n> Line 2\n> \n> Line 3").getD ⟨[]⟩) = (⟨[(.githubAlert .note [(.paragraph [(.text cs!"Line 1\nLine 2")]), (.paragraph [(.text cs!"Line 3")])])]⟩ : Document) := by
  decide +kernel

/-- `github_alert_with_formatting`, `src/parser/blocks/tests/github_alert.rs:129-151` -/
example :
    ((parsed cs!"> [!TIP]\n> Use **bold** and *italic* text").getD ⟨[]⟩) = (⟨[(.githubAlert .tip [(.paragraph [(.text cs!"Use "), (.strong [(.text cs!"bold")]), (.text cs!" and "), (.emphasis [(.text cs!"italic")]), (.text cs!" text")])])]⟩ : Document) := by
  decide +kernel

/-- `github_alert_empty_content`, `src/parser/blocks/tests/github_alert.rs:154-166` -/
example :
    ((parsed cs!"> [!WARNING]\n>").getD ⟨[]⟩) = (⟨[(.githubAlert .warning [])]⟩ : Document) := by
  decide +kernel

/-- `regular_blockquote_not_alert`, `src/parser/blocks/tests/github_alert.rs:169-184` -/
example :
    ((parsed cs!"> This is not an alert\n> Just a regular blockquote").getD ⟨[]⟩) = (⟨[(.blockQuote [(.paragraph [(.text cs!"This is not an alert\nJust a regular blockquote")])])]⟩ : Document) := by
  decide +kernel

/-- `github_alert_case_insensitive`, `src/parser/blocks/tests/github_alert.rs:187-205` -/
example :
    ((parsed cs!"> [!note]\n> lowercase note").getD ⟨[]⟩) = (⟨[(.githubAlert .note [(.paragraph [(.text cs!"lowercase note")])])]⟩ : Document) := by
  decide +kernel

/-- `github_alert_custom_simple`, `src/parser/blocks/tests/github_alert.rs:208-226` -/
example :
    ((parsed cs!"> [!CUSTOM]\n> This is a custom alert").getD ⟨[]⟩) = (⟨[(.githubAlert (.custom cs!"CUSTOM") [(.paragraph [(.text cs!"This is a custom alert")])])]⟩ : Document) := by
  decide +kernel

/-- `github_alert_custom_with_numbers`, `src/parser/blocks/tests/github_alert.rs:229-247` -/
example :
    ((parsed cs!"> [!ALERT123]\n> Custom alert with numbers").getD ⟨[]⟩) = (⟨[(.githubAlert (.custom cs!"ALERT123") [(.paragraph [(.text cs!"Custom alert with numbers")])])]⟩ : Document) := by
  decide +kernel

/-- `github_alert_custom_with_underscores`, `src/parser/blocks/tests/github_alert.rs:250-268` -/
example :
    ((parsed cs!"> [!MY_CUSTOM_ALERT]\n> Custom alert with underscores").getD ⟨[]⟩) = (⟨[(.githubAlert (.custom cs!"MY_CUSTOM_ALERT") [(.paragraph [(.text cs!"Custom alert with underscores")])])]⟩ : Document) := by
  decide +kernel

/-- `github_alert_custom_case_insensitive`, `src/parser/blocks/tests/github_alert.rs:271-289` -/
example :
    ((parsed cs!"> [!custom]\n> lowercase custom alert").getD ⟨[]⟩) = (⟨[(.githubAlert (.custom cs!"CUSTOM") [(.paragraph [(.text cs!"lowercase custom alert")])])]⟩ : Document) := by
  decide +kernel

/-- `github_alert_invalid_custom_starts_with_number`, `src/parser/blocks/tests/github_alert.rs:292-313` -/
example :
    ((parsed cs!"> [!123INVALID]\n> Should not be parsed as alert").getD ⟨[]⟩) = (⟨[(.blockQuote [(.paragraph [(.linkReference [(.text cs!"!123INVALID")] [(.text cs!"!123INVALID")]), (.text cs!"\nShould not be parsed as alert")])])]⟩ : Document) := by
  decide +kernel

/-- `github_alert_invalid_custom_with_special_chars`, `src/parser/blocks/tests/github_alert.rs:316-337` -/
example :
    ((parsed cs!"> [!CUSTOM-ALERT]\n> Should not be parsed as alert").getD ⟨[]⟩) = (⟨[(.blockQuote [(.paragraph [(.linkReference [(.text cs!"!CUSTOM-ALERT")] [(.text cs!"!CUSTOM-ALERT")]), (.text cs!"\nShould not be parsed as alert")])])]⟩ : Document) := by
  decide +kernel

/-- `github_alert_custom_printer_simple`, `src/parser/blocks/tests/github_alert.rs:342-354` -/
example :
    (printed Md.Config.default (⟨[(.githubAlert (.custom cs!"CUSTOM") [(.paragraph [(.text cs!"This is a custom alert")])])]⟩ : Document)) = cs!"> [!CUSTOM]\n> This is a custom alert" := by
  decide +kernel

/-- `github_alert_custom_printer_with_underscores`, `src/parser/blocks/tests/github_alert.rs:357-369` -/
example :
    (printed Md.Config.default (⟨[(.githubAlert (.custom cs!"MY_CUSTOM_ALERT") [(.paragraph [(.text cs!"Custom alert with underscores")])])]⟩ : Document)) = cs!"> [!MY_CUSTOM_ALERT]\n> Custom alert with underscores" := by
  decide +kernel

/-- `github_alert_custom_printer_with_numbers`, `src/parser/blocks/tests/github_alert.rs:372-384` -/
example :
    (printed Md.Config.default (⟨[(.githubAlert (.custom cs!"ALERT123") [(.paragraph [(.text cs!"Custom alert with numbers")])])]⟩ : Document)) = cs!"> [!ALERT123]\n> Custom alert with numbers" := by
  decide +kernel

/-- `github_alert_custom_printer_multiline`, `src/parser/blocks/tests/github_alert.rs:387-400` -/
example :
    (printed Md.Config.default (⟨[(.githubAlert (.custom cs!"MULTILINE") [(.paragraph [(.text cs!"First paragraph")]), (.paragraph [(.text cs!"Second paragraph")])])]⟩ : Document)) = cs!"> [!MULTILINE]\n> First paragraph\n>\n> Second paragraph" := by
  decide +kernel

/-- `github_alert_custom_roundtrip_simple`, `src/parser/blocks/tests/github_alert.rs:405-414` -/
example :
    (((parsed cs!"> [!CUSTOM]\n> This is a custom alert").getD ⟨[]⟩) = ((parsed (printed Md.Config.default ((parsed cs!"> [!CUSTOM]\n> This is a custom alert").getD ⟨[]⟩))).getD ⟨[]⟩)) ∧
    ((printed Md.Config.default ((parsed cs!"> [!CUSTOM]\n> This is a custom alert").getD ⟨[]⟩)) = cs!"> [!CUSTOM]\n> This is a custom alert") := by
  decide +kernel

/-- `github_alert_custom_roundtrip_with_formatting`, `src/parser/blocks/tests/github_alert.rs:417-425` -/
example :
    ((parsed cs!"> [!MY_ALERT]\n> Use **bold** and *italic* text").getD ⟨[]⟩) = ((parsed (printed Md.Config.default ((parsed cs!"> [!MY_ALERT]\n> Use **bold** and *italic* text").getD ⟨[]⟩))).getD ⟨[]⟩) := by
  decide +kernel

/-- `github_alert_custom_roundtrip_multiline`, `src/parser/blocks/tests/github_alert.rs:428-436` -/
example :
    ((parsed cs!"> [!COMPLEX_ALERT]\n> Line 1 Line 2\n> \n> Line 3").getD ⟨[]⟩) = ((parsed (printed Md.Config.default ((parsed cs!"> [!COMPLEX_ALERT]\n> Line 1 Line 2\n> \n> Line 3").getD ⟨[]⟩))).getD ⟨[]⟩) := by
  decide +kernel

/-- `heading_v2`, `src/parser/blocks/tests/heading.rs:39-61` -/
example :
    (((parsed cs!"a\n==").getD ⟨[]⟩) = (⟨[(.heading (.setext .level1) [(.text cs!"a")])]⟩ : Document)) ∧
    (((parsed cs!"a\n--").getD ⟨[]⟩) = (⟨[(.heading (.setext .level2) [(.text cs!"a")])]⟩ : Document)) := by
  decide +kernel

/-- `html_block1`, `src/parser/blocks/tests/html_block.rs:5-27` -/
example :
    (((parsed cs!"<script>\n</script>").getD ⟨[]⟩) = (⟨[(.htmlBlock cs!"<script>\n</script>")]⟩ : Document)) ∧
    (((parsed cs!"<script>\n\n<h1>hello</h1></script>").getD ⟨[]⟩) = (⟨[(.htmlBlock cs!"<script>\n\n<h1>hello</h1></script>")]⟩ : Document)) := by
  decide +kernel

/-- `html_block2`, `src/parser/blocks/tests/html_block.rs:30-44` -/
example :
    ((parsed cs!"<!-- \n\nsome commented\n out code -->").getD ⟨[]⟩) = (⟨[(.htmlBlock cs!"<!-- \n\nsome commented\n out code -->")]⟩ : Document) := by
  decide +kernel

/-- `html_block3`, `src/parser/blocks/tests/html_block.rs:47-59` -/
example :
    ((parsed cs!"  <? \n\nsome \n   code ?>  ").getD ⟨[]⟩) = (⟨[(.htmlBlock cs!"<? \n\nsome \n   code ?>")]⟩ : Document) := by
  decide +kernel

/-- `html_block4`, `src/parser/blocks/tests/html_block.rs:62-70` -/
example :
    ((parsed cs!"  <!A some \n\n\n text >  ").getD ⟨[]⟩) = (⟨[(.htmlBlock cs!"<!A some \n\n\n text >")]⟩ : Document) := by
  decide +kernel

/-- `html_block5`, `src/parser/blocks/tests/html_block.rs:73-85` -/
example :
    ((parsed cs!"  <![CDATA[ ]\n\n[[]]<> ]]> ").getD ⟨[]⟩) = (⟨[(.htmlBlock cs!"<![CDATA[ ]\n\n[[]]<> ]]>")]⟩ : Document) := by
  decide +kernel

/-- `html_block6`, `src/parser/blocks/tests/html_block.rs:88-118` -/
example :
    (((parsed cs!"  <body  \n\n").getD ⟨[]⟩) = (⟨[(.htmlBlock cs!"<body  \n")]⟩ : Document)) ∧
    (((parsed cs!"  <body a b=c d='e' f=\"g\" >\n</body>\n\n").getD ⟨[]⟩) = (⟨[(.htmlBlock cs!"<body a b=c d='e' f=\"g\" >\n</body>\n")]⟩ : Document)) ∧
    (((parsed cs!"  </body> <p>\n</p>\n\n").getD ⟨[]⟩) = (⟨[(.htmlBlock cs!"</body> <p>\n</p>\n")]⟩ : Document)) := by
  decide +kernel

/-- `link_definition1`, `src/parser/blocks/tests/link_definition.rs:8-20` -/
example :
    ((parsed cs!"[foo]: /url \"title\"").getD ⟨[]⟩) = (⟨[(.definition [(.text cs!"foo")] cs!"/url" (some cs!"title"))]⟩ : Document) := by
  decide +kernel

/-- `link_definition2`, `src/parser/blocks/tests/link_definition.rs:23-42` -/
example :
    ((parsed cs!"   [foo]: \n      /url  \n           'the title'\n").getD ⟨[]⟩) = (⟨[(.definition [(.text cs!"foo")] cs!"/url" (some cs!"the title"))]⟩ : Document) := by
  decide +kernel

/-- `link_definition3`, `src/parser/blocks/tests/link_definition.rs:45-61` -/
example :
    ((parsed cs!"[Foo*bar\\]]:my_(url) 'title (with parens)'").getD ⟨[]⟩) = (⟨[(.definition [(.text cs!"Foo*bar]")] cs!"my_(url)" (some cs!"title (with parens)"))]⟩ : Document) := by
  decide +kernel

/-- `link_definition4`, `src/parser/blocks/tests/link_definition.rs:64-82` -/
example :
    ((parsed cs!"[Foo bar]:\n<my url>\n'title'").getD ⟨[]⟩) = (⟨[(.definition [(.text cs!"Foo bar")] cs!"my url" (some cs!"title"))]⟩ : Document) := by
  decide +kernel

/-- `link_definition5`, `src/parser/blocks/tests/link_definition.rs:85-105` -/
example :
    ((parsed cs!"[foo]: /url '\ntitle\nline1\nline2\n'").getD ⟨[]⟩) = (⟨[(.definition [(.text cs!"foo")] cs!"/url" (some cs!"\ntitle\nline1\nline2\n"))]⟩ : Document) := by
  decide +kernel

/-- `link_definition6`, `src/parser/blocks/tests/link_definition.rs:108-125` -/
example :
    ((parsed cs!"[foo]:\n/url").getD ⟨[]⟩) = (⟨[(.definition [(.text cs!"foo")] cs!"/url" none)]⟩ : Document) := by
  decide +kernel

/-- `link_definition7`, `src/parser/blocks/tests/link_definition.rs:128-140` -/
example :
    ((parsed cs!"[foo]: <>").getD ⟨[]⟩) = (⟨[(.definition [(.text cs!"foo")] cs!"" none)]⟩ : Document) := by
  decide +kernel

/-- `list1`, `src/parser/blocks/tests/list.rs:5-19` -/
example :
    ((parsed cs!"1. a").getD ⟨[]⟩) = (⟨[(.list (.ordered 1) [(.mk none [(.paragraph [(.text cs!"a")])])])]⟩ : Document) := by
  decide +kernel

/-- `list2`, `src/parser/blocks/tests/list.rs:22-36` -/
example :
    ((parsed cs!"0100. a").getD ⟨[]⟩) = (⟨[(.list (.ordered 100) [(.mk none [(.paragraph [(.text cs!"a")])])])]⟩ : Document) := by
  decide +kernel

/-- `list3`, `src/parser/blocks/tests/list.rs:39-53` -/
example :
    ((parsed cs!"1) a").getD ⟨[]⟩) = (⟨[(.list (.ordered 1) [(.mk none [(.paragraph [(.text cs!"a")])])])]⟩ : Document) := by
  decide +kernel

/-- `list4`, `src/parser/blocks/tests/list.rs:56-70` -/
example :
    ((parsed cs!" -   a").getD ⟨[]⟩) = (⟨[(.list (.bullet .dash) [(.mk none [(.paragraph [(.text cs!"a")])])])]⟩ : Document) := by
  decide +kernel

/-- `list5`, `src/parser/blocks/tests/list.rs:73-93` -/
example :
    ((parsed cs!"1. a\n2. b").getD ⟨[]⟩) = (⟨[(.list (.ordered 1) [(.mk none [(.paragraph [(.text cs!"a")])]), (.mk none [(.paragraph [(.text cs!"b")])])])]⟩ : Document) := by
  decide +kernel

/-- `list6`, `src/parser/blocks/tests/list.rs:96-110` -/
example :
    ((parsed cs!" - a\nb").getD ⟨[]⟩) = (⟨[(.list (.bullet .dash) [(.mk none [(.paragraph [(.text cs!"a\nb")])])])]⟩ : Document) := by
  decide +kernel

/-- `list7`, `src/parser/blocks/tests/list.rs:113-130` -/
example :
    ((parsed cs!" - a\nb\n\nc").getD ⟨[]⟩) = (⟨[(.list (.bullet .dash) [(.mk none [(.paragraph [(.text cs!"a\nb")])])]), (.paragraph [(.text cs!"c")])]⟩ : Document) := by
  decide +kernel

/-- `list8`, `src/parser/blocks/tests/list.rs:133-150` -/
example :
    ((parsed cs!" - a\nb\n\n   c").getD ⟨[]⟩) = (⟨[(.list (.bullet .dash) [(.mk none [(.paragraph [(.text cs!"a\nb")]), (.paragraph [(.text cs!"c")])])])]⟩ : Document) := by
  decide +kernel

/-- `list9`, `src/parser/blocks/tests/list.rs:153-196` -/
example :
    ((parsed cs!"1. list1\n   * list2\n   * list2\n2. list1").getD ⟨[]⟩) = (⟨[(.list (.ordered 1) [(.mk none [(.paragraph [(.text cs!"list1")]), (.list (.bullet .star) [(.mk none [(.paragraph [(.text cs!"list2")])]), (.mk none [(.paragraph [(.text cs!"list2")])])])]), (.mk none [(.paragraph [(.text cs!"list1")])])])]⟩ : Document) := by
  decide +kernel

/-- `list10`, `src/parser/blocks/tests/list.rs:199-219` -/
example :
    ((parsed cs!" * list1\n * list1").getD ⟨[]⟩) = (⟨[(.list (.bullet .star) [(.mk none [(.paragraph [(.text cs!"list1")])]), (.mk none [(.paragraph [(.text cs!"list1")])])])]⟩ : Document) := by
  decide +kernel

/-- `task_list1`, `src/parser/blocks/tests/list.rs:222-236` -/
example :
    ((parsed cs!" - [ ] a").getD ⟨[]⟩) = (⟨[(.list (.bullet .dash) [(.mk (some .incomplete) [(.paragraph [(.text cs!"a")])])])]⟩ : Document) := by
  decide +kernel

/-- `task_list2`, `src/parser/blocks/tests/list.rs:239-253` -/
example :
    ((parsed cs!" - [x] a").getD ⟨[]⟩) = (⟨[(.list (.bullet .dash) [(.mk (some .complete) [(.paragraph [(.text cs!"a")])])])]⟩ : Document) := by
  decide +kernel

/-- `task_list3`, `src/parser/blocks/tests/list.rs:256-270` -/
example :
    ((parsed cs!" -   [x]   a").getD ⟨[]⟩) = (⟨[(.list (.bullet .dash) [(.mk (some .complete) [(.paragraph [(.text cs!"a")])])])]⟩ : Document) := by
  decide +kernel

/-- `task_list4`, `src/parser/blocks/tests/list.rs:273-287` -/
example :
    ((parsed cs!" - [ ] ").getD ⟨[]⟩) = (⟨[(.list (.bullet .dash) [(.mk (some .incomplete) [])])]⟩ : Document) := by
  decide +kernel

/-- `task_list5`, `src/parser/blocks/tests/list.rs:290-304` -/
example :
    ((parsed cs!"  -  [ ] \n\n     a").getD ⟨[]⟩) = (⟨[(.list (.bullet .dash) [(.mk (some .incomplete) [(.paragraph [(.text cs!"a")])])])]⟩ : Document) := by
  decide +kernel

/-- `minimal_paragraph`, `src/parser/blocks/tests/paragraph.rs:5-29` -/
example :
    (((parsed cs!"a").getD ⟨[]⟩) = (⟨[(.paragraph [(.text cs!"a")])]⟩ : Document)) ∧
    (((parsed cs!"a b c").getD ⟨[]⟩) = (⟨[(.paragraph [(.text cs!"a b c")])]⟩ : Document)) ∧
    (((parsed cs!"a\nb\nc").getD ⟨[]⟩) = (⟨[(.paragraph [(.text cs!"a\nb\nc")])]⟩ : Document)) := by
  decide +kernel

/-- `multi_paragraph1`, `src/parser/blocks/tests/paragraph.rs:32-43` -/
example :
    ((parsed cs!"a\n\nb").getD ⟨[]⟩) = (⟨[(.paragraph [(.text cs!"a")]), (.paragraph [(.text cs!"b")])]⟩ : Document) := by
  decide +kernel

/-- `multi_paragraph2`, `src/parser/blocks/tests/paragraph.rs:46-57` -/
example :
    ((parsed cs!"a\n\n\n\n\nb").getD ⟨[]⟩) = (⟨[(.paragraph [(.text cs!"a")]), (.paragraph [(.text cs!"b")])]⟩ : Document) := by
  decide +kernel

/-- `multi_paragraph3`, `src/parser/blocks/tests/paragraph.rs:60-71` -/
example :
    ((parsed cs!"a\n\n  b").getD ⟨[]⟩) = (⟨[(.paragraph [(.text cs!"a")]), (.paragraph [(.text cs!"b")])]⟩ : Document) := by
  decide +kernel

/-- `multi_paragraph4`, `src/parser/blocks/tests/paragraph.rs:74-85` -/
example :
    ((parsed cs!"aaa\n\n===").getD ⟨[]⟩) = (⟨[(.paragraph [(.text cs!"aaa")]), (.paragraph [(.text cs!"===")])]⟩ : Document) := by
  decide +kernel

/-- `paragraph_with_indented_line1`, `src/parser/blocks/tests/paragraph.rs:88-96` -/
example :
    ((parsed cs!"a\n    b").getD ⟨[]⟩) = (⟨[(.paragraph [(.text cs!"a\n b")])]⟩ : Document) := by
  decide +kernel

/-- `table1`, `src/parser/blocks/tests/table.rs:5-31` -/
example :
    ((parsed cs!"| foo | bar |\n| --- | --- |\n| baz | bim |").getD ⟨[]⟩) = (⟨[(.table [[[(.text cs!"foo")], [(.text cs!"bar")]], [[(.text cs!"baz")], [(.text cs!"bim")]]] [.none, .none])]⟩ : Document) := by
  decide +kernel

/-- `table2`, `src/parser/blocks/tests/table.rs:34-60` -/
example :
    ((parsed cs!"| foo | bar |\n| :-- | --: |\n| baz | bim |").getD ⟨[]⟩) = (⟨[(.table [[[(.text cs!"foo")], [(.text cs!"bar")]], [[(.text cs!"baz")], [(.text cs!"bim")]]] [.left, .right])]⟩ : Document) := by
  decide +kernel

/-- `table3`, `src/parser/blocks/tests/table.rs:63-89` -/
example :
    ((parsed cs!"| foo | bar |\n| --- | --- |\n| baz | b\\|im |").getD ⟨[]⟩) = (⟨[(.table [[[(.text cs!"foo")], [(.text cs!"bar")]], [[(.text cs!"baz")], [(.text cs!"b|im")]]] [.none, .none])]⟩ : Document) := by
  decide +kernel

/-- `table4`, `src/parser/blocks/tests/table.rs:92-123` -/
example :
    ((parsed cs!"| abc | def |\n| --- | --- |\n| bar |\n| bar | baz | boo |").getD ⟨[]⟩) = (⟨[(.table [[[(.text cs!"abc")], [(.text cs!"def")]], [[(.text cs!"bar")], [(.text cs!"")]], [[(.text cs!"bar")], [(.text cs!"baz")]]] [.none, .none])]⟩ : Document) := by
  decide +kernel

/-- `table5`, `src/parser/blocks/tests/table.rs:126-158` -/
example :
    ((parsed cs!"| header1 | header2 |\n| ------- | ------- |\n| cell1 | cell2 | extra1 | extra2 |\n| cell3 | cell4 | extra3 |").getD ⟨[]⟩) = (⟨[(.table [[[(.text cs!"header1")], [(.text cs!"header2")]], [[(.text cs!"cell1")], [(.text cs!"cell2")]], [[(.text cs!"cell3")], [(.text cs!"cell4")]]] [.none, .none])]⟩ : Document) := by
  decide +kernel

/-- `table6`, `src/parser/blocks/tests/table.rs:161-193` -/
example :
    ((parsed cs!"| header1 | header2\n| ------- | -------\n| cell1 | cell2\n| cell3 | cell4").getD ⟨[]⟩) = (⟨[(.table [[[(.text cs!"header1")], [(.text cs!"header2")]], [[(.text cs!"cell1")], [(.text cs!"cell2")]], [[(.text cs!"cell3")], [(.text cs!"cell4")]]] [.none, .none])]⟩ : Document) := by
  decide +kernel

/-- `table7`, `src/parser/blocks/tests/table.rs:196-223` -/
example :
    ((parsed cs!"| Short | Very long content that would normally wrap on narrow displays but should be preserved as-is |\n| ----- | -------------------------------------------------------------------------------------------- |\n| A     | This is another very long cell content that tests how the parser handles lengthy text        |").getD ⟨[]⟩) = (⟨[(.table [[[(.text cs!"Short")], [(.text cs!"Very long content that would normally wrap on narrow displays but should be preserved as-is")]], [[(.text cs!"A")], [(.text cs!"This is another very long cell content that tests how the parser handles lengthy text")]]] [.none, .none])]⟩ : Document) := by
  decide +kernel

/-- `thematic_break`, `src/parser/blocks/tests/thematic_break.rs:5-13` -/
example :
    ((parsed cs!"---").getD ⟨[]⟩) = (⟨[.thematicBreak]⟩ : Document) := by
  decide +kernel

end Conformance
end Verif
