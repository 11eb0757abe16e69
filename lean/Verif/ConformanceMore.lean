import Verif.ConformanceBase
import Verif.Transform
import Verif.Generic
/-!
# More unit tests of the repository, transcribed by hand

Tests with configurations, closures and loops, which `tools/gen_conformance.py` skips.
-/
namespace Verif
namespace Conformance
open Nom

/-- `parse_markdown(MarkdownParserState::with_config(cfg), s)` with an empty table of entities -/
abbrev parsedBy (cfg : PConfig) (s : Str) : Option Document := parseMarkdown PExt.ascii cfg s

/-- The default configuration. -/
abbrev base : PConfig := PConfig.default entities

/-! ## Parser configurations -/

/-- `blockquote_skip1`, `blockquote_skip2`, `src/parser/blocks/tests/blockquote.rs:47-60` -/
example :
    parsedBy { base with blockquote := .skip } cs!"> a\n>\n>> b" = some ⟨[.empty]⟩ ∧
    parsedBy { base with blockquote := .skip } cs!"a\n> a\n>\n>> b" = some ⟨[.paragraph [.text cs!"a"], .empty]⟩ := by
  decide +kernel

/-- `blockquote_ignore1`, `blockquote_ignore2`, `src/parser/blocks/tests/blockquote.rs:78-90` -/
example :
    parsedBy { base with blockquote := .ignore } cs!"> a\n>\n>> b" = some ⟨[.paragraph [.text cs!"> a\n>\n>> b"]]⟩ ∧
    parsedBy { base with blockquote := .ignore } cs!"a\n> a\n>\n>> b" =
      some ⟨[.paragraph [.text cs!"a\n> a\n>\n>> b"]]⟩ := by
  decide +kernel

/-- `heading_v1`, `src/parser/blocks/tests/heading.rs:5-36` -/
example :
    parsedBy base cs!"## a" = some ⟨[.heading (.atx 2) [.text cs!"a"]]⟩ ∧
    parsedBy base cs!"##a" = some ⟨[.paragraph [.text cs!"##a"]]⟩ ∧
    parsedBy { base with allowNoSpaceInHeadings := true } cs!"##a" = some ⟨[.heading (.atx 2) [.text cs!"a"]]⟩ := by
  decide +kernel

/-- `html_block_skip1`, `html_block_ignore1`, `src/parser/blocks/tests/html_block.rs:150-181` -/
example :
    parsedBy { base with htmlBlock := .skip } cs!"<script>\n</script>" = some ⟨[.empty]⟩ ∧
    parsedBy { base with htmlBlock := .skip } cs!"<script>\n\n<h1>hello</h1></script>" = some ⟨[.empty]⟩ ∧
    parsedBy { base with htmlBlock := .ignore } cs!"<script>\n</script>" =
      some ⟨[.paragraph [.text cs!"<script>\n</script>"]]⟩ ∧
    parsedBy { base with htmlBlock := .ignore } cs!"<script>\n\n<h1>hello</h1></script>" =
      some ⟨[.paragraph [.text cs!"<script>"], .paragraph [.text cs!"<h1>hello</h1></script>"]]⟩ := by
  decide +kernel

/-- The closure of `link_definition_mapped1`, `src/parser/blocks/tests/link_definition.rs:145-157` -/
def mapped (m : Str) : Block → Block
  | .definition l d t => .definition (.text cs!"mapped " :: l) (cs!"mapped " ++ d) (t.map (m ++ ·))
  | b => b

/-- `link_definition_mapped1`, `link_definition_mapped2`, `src/parser/blocks/tests/link_definition.rs:180-230` -/
example :
    parsedBy { base with linkDefinition := .map (mapped cs!"mapped ") } cs!"[foo]: /url \"title\"" =
      some ⟨[.definition [.text cs!"mapped ", .text cs!"foo"] cs!"mapped /url" (some cs!"mapped title")]⟩ ∧
    parsedBy { base with linkDefinition := .flatMap fun b => [mapped cs!"mapped1 " b, mapped cs!"mapped2 " b] }
        cs!"[foo]: /url \"title\"" =
      some ⟨[.definition [.text cs!"mapped ", .text cs!"foo"] cs!"mapped /url" (some cs!"mapped1 title"),
        .definition [.text cs!"mapped ", .text cs!"foo"] cs!"mapped /url" (some cs!"mapped2 title")]⟩ := by
  decide +kernel

/-- `custom_parser1`, `src/parser/blocks/tests/custom_parser.rs:8-28` -/
example :
    parsedBy { base with customBlock := some (value [.thematicBreak] (tag cs!"///")) } cs!"///\ntext\n===" =
      some ⟨[.thematicBreak, .heading (.setext .level1) [.text cs!"text"]]⟩ := by
  decide +kernel

/-- `test_integration_with_full_parser`, `src/parser/inline/tests/environment_variable.rs:59-74` -/
example : parsed cs!"PKG_CONFIG_PATH" = some ⟨[.paragraph [.text cs!"PKG_CONFIG_PATH"]]⟩ := by decide +kernel

/-! ## Printer -/

/-- Printed with the default configuration and parsed again, the document is the same. -/
def comesBack (s : Str) : Bool :=
  match parsed s with
  | none => false
  | some d => parsed (printed .default d) == some d

/-- `github_alert_standard_types_roundtrip`, `src/parser/blocks/tests/github_alert.rs:439-463` -/
example : ∀ p ∈ [(cs!"> [!NOTE]\n> This is a note", AlertType.note), (cs!"> [!TIP]\n> This is a tip", .tip),
      (cs!"> [!IMPORTANT]\n> This is important", .important), (cs!"> [!WARNING]\n> This is a warning", .warning),
      (cs!"> [!CAUTION]\n> This is a caution", .caution)],
    (match parsed p.1 with | some ⟨.githubAlert t _ :: _⟩ => t == p.2 | _ => false) = true ∧ comesBack p.1 = true := by
  decide +kernel

/-- `table_malformed_separators`, `src/parser/blocks/tests/table.rs:226-247`: the separator is accepted. -/
example : (match parsed (cs!"| header1 | header2 | header3 |\n|" ++ List.replicate 88 '-' ++ cs!"|" ++ List.replicate 36 '-' ++
      cs!"|--------|\n| cell1 | cell2 | cell3 |") with
    | some ⟨[.table rows al]⟩ => rows.length == 2 && al.length == 3
    | _ => false) = true := by
  decide +kernel

/-- The number of the lines of a text. -/
def lineCount (s : Str) : Nat := 1 + s.count '\n'

/-- The text printed at a width. -/
def printedAt (w : Nat) (s : Str) : Str := printed { Md.Config.default with width := w } ((parsed s).getD ⟨[]⟩)

/-- `table_renders_with_different_widths`, `table_handles_newlines_in_cell_content`,
`src/printer/tests/table.rs:98-119` -/
example : (∀ w ∈ [10, 40, 80, 120, 200],
      printedAt w cs!"| Header1 | Header2 | Header3 |\n| ------- | ------- | ------- |\n| Cell1   | Cell2   | Cell3   |" =
        cs!"| Header1 | Header2 | Header3 |\n| ------- | ------- | ------- |\n| Cell1   | Cell2   | Cell3   |") ∧
    printedAt 80 cs!"| Header |\n| ------ |\n| Text with spaces |" =
      cs!"| Header           |\n| ---------------- |\n| Text with spaces |" := by
  decide +kernel

/-- `table_no_line_wrapping_with_small_width`, `src/printer/tests/table.rs:7-31` -/
example : lineCount (printedAt 20
      (cs!"| Very long header that exceeds width | Another very long header that also exceeds width |\n" ++
        cs!"| ------------------------------------ | ------------------------------------------------- |\n" ++
        cs!"| Very long cell content that definitely exceeds any reasonable width limit | Another very long cell content here |")) =
    3 := by
  decide +kernel

/-- The kinds of the blocks of a document. -/
def kinds (d : Document) : List Nat := d.blocks.map fun
  | .paragraph _ => 0 | .heading _ _ => 1 | .thematicBreak => 2 | .blockQuote _ => 3 | .list _ _ => 4 | .codeBlock _ _ => 5
  | .htmlBlock _ => 6 | .definition _ _ _ => 7 | .table _ _ => 8 | .footnoteDefinition _ _ => 9 | .githubAlert _ _ => 10 | .empty => 11

/-- Printed at a width and parsed, the text has the same kinds of blocks. -/
def sameKinds (w : Nat) (s : Str) : Bool :=
  (parsed (printedAt w s)).map kinds == (parsed s).map kinds

/-- `test_round_trip_with_wrapping_issues`, `src/printer/tests/line_wrapping_issues.rs:314-341` -/
example : ∀ s ∈ [cs!"a - b - c - d - e - f - g - h - i - j - k - l",
      cs!"Version 1. was released 2. years ago 3. months after 4. the initial design",
      cs!"Use operators > for comparison > and < for less than > in code",
      cs!"Data format: value1 | value2 | value3 | value4 | value5",
      cs!"Headers like # Main # Sub # Detail # levels are common",
      cs!"Code with ``` examples ``` and ``` samples ``` throughout"],
    ∀ w ∈ [10, 15, 20, 25], sameKinds w s = true := by
  decide +kernel

/-- The text of `test_problematic_pattern`, `src/printer/tests/line_wrapping_issues.rs:247-255` -/
def patternText (p : Str) : Str :=
  if p.contains '*' then
    cs!"text " ++ p ++ cs!" more " ++ p ++ cs!" words " ++ p ++ cs!" here " ++ p ++ cs!" and " ++ p ++ cs!" there " ++ p ++ cs!" end"
  else
    cs!"a " ++ p ++ cs!" b " ++ p ++ cs!" c " ++ p ++ cs!" d " ++ p ++ cs!" e " ++ p ++ cs!" f " ++ p ++ cs!" g " ++ p ++ cs!" h " ++ p

/-- `test_systematic_problematic_patterns`, `test_indentation_wrapping_creates_code_block`,
`src/printer/tests/line_wrapping_issues.rs:229-244` -/
example : (∀ p ∈ [cs!"-", cs!"*", cs!"+", cs!"#", cs!"##", cs!"###", cs!">", cs!"|", cs!"1.", cs!"2.", cs!"10.", cs!"```", cs!"---",
      cs!"___", cs!"    ", cs!"\t"], sameKinds 8 (patternText p) = true) ∧
    sameKinds 15 (cs!"    This line starts with spaces    and has more spaces    throughout the text    which could" ++
      cs!"    be problematic") = true := by
  decide +kernel

/-- The tests of `src/printer/markdown_syntax_detector.rs:108-202` -/
example : (∀ w ∈ [cs!"-", cs!"*", cs!"+", cs!"1.", cs!"42.", cs!"999.", cs!"#", cs!"##", cs!"###", cs!"####", cs!"#####", cs!"######",
      cs!">", cs!"|", cs!"---", cs!"----", cs!"***", cs!"****", cs!"___", cs!"____", cs!"```", cs!"````", cs!"~~~~", cs!"~~~~~",
      cs!"    ", cs!"    code", cs!"\t", cs!"\tcode"], Md.isSyntax Md.Ext.ascii w = true) ∧
    (∀ w ∈ [cs!"1", cs!"1.5", cs!"a.", cs!"#text", cs!"##text", cs!"--", cs!"**", cs!"__", cs!"``", cs!"~~~", cs!"   ", cs!"  code",
      cs!"word", cs!"hello", cs!"123", cs!"test-word", cs!"markdown"], Md.isSyntax Md.Ext.ascii w = false) ∧
    Md.isSafeBreakBefore Md.Ext.ascii cs!"word" = true ∧
    ∀ w ∈ [cs!"-", cs!"*", cs!"#", cs!"1."], Md.isSafeBreakBefore Md.Ext.ascii w = false := by
  decide +kernel

/-! ## LaTeX -/

/-- `test_escape_latex`, `src/latex_printer/util.rs:162-173` -/
example : ∀ p ∈ [(cs!"hello", cs!"hello"), (cs!"$100", cs!"\\$100"), (cs!"A & B", cs!"A \\& B"), (cs!"50%", cs!"50\\%"),
      (cs!"#hashtag", cs!"\\#hashtag"), (cs!"x^2", cs!"x\\textasciicircum{}2"), (cs!"file_name", cs!"file\\_name"),
      (cs!"~home", cs!"\\textasciitilde{}home"), (cs!"{code}", cs!"\\{code\\}"), (cs!"\\command", cs!"\\textbackslash{}command")],
    Latex.escape p.1 = p.2 := by
  decide +kernel

/-- LaTeX with the default configuration. -/
def latex (bs : List Block) : Str := Latex.renderLatex List.length .default ⟨bs⟩

/-- `test_github_alerts`, `src/latex_printer/tests/comprehensive.rs:58-82` -/
example : ∀ p ∈ [(AlertType.note, cs!"Note"), (.tip, cs!"Tip"), (.important, cs!"Important"), (.warning, cs!"Warning"),
      (.caution, cs!"Caution")],
    ∀ w ∈ [cs!"\\footnote", p.2, cs!"Alert content"],
      containsStr w (latex [.githubAlert p.1 [.paragraph [.text cs!"Alert content"]]]) = true := by
  decide +kernel

/-- `test_empty_block`, `src/latex_printer/tests/comprehensive.rs:85-103` -/
example :
    let s := latex [.paragraph [.text cs!"Before"], .empty, .paragraph [.text cs!"After"]]
    containsStr cs!"Before" s = true ∧ containsStr cs!"After" s = true := by
  decide +kernel

/-- `test_all_list_bullet_kinds`, `src/latex_printer/tests/edge_cases.rs:330-352` -/
example : ∀ k ∈ [BulletKind.star, .dash, .plus], ∀ w ∈ [cs!"\\begin{itemize}", cs!"\\item Item"],
    containsStr w (latex [.list (.bullet k) [.mk none [.paragraph [.text cs!"Item"]]]]) = true := by
  decide +kernel

/-- `test_config_width`, `src/latex_printer/tests/mod.rs:233-258` -/
example :
    let d : Document := ⟨[.paragraph [.text (cs!"This is a very long line that should be wrapped at the specified width limit" ++
      cs!" and it contains many words that exceed forty characters")]]⟩
    lineCount (Latex.renderLatex List.length { Latex.Config.default with width := 40 } d) >
      lineCount (Latex.renderLatex List.length { Latex.Config.default with width := 120 } d) := by
  decide +kernel

/-! ## Transformations -/

/-- The document of `src/ast_transform/tests/convenience_tests.rs:4-26` -/
def testDoc : Document := ⟨[.paragraph [.text cs!"Hello ", .text cs!"world!"],
  .paragraph [.image cs!"/image.jpg" none cs!"test", .text cs!" and ",
    .link cs!"http://example.com" none [.text cs!"link"]]]⟩

/-- `str::to_uppercase` on ASCII -/
def uppercase (s : Str) : Str := s.map Char.toUpper

/-- `test_transform_text`, `test_transform_image_urls`, `test_transform_link_urls`,
`src/ast_transform/tests/convenience_tests.rs:60-74` -/
example :
    testDoc.transformText uppercase = ⟨[.paragraph [.text cs!"HELLO ", .text cs!"WORLD!"],
      .paragraph [.image cs!"/image.jpg" none cs!"test", .text cs!" AND ",
        .link cs!"http://example.com" none [.text cs!"LINK"]]]⟩ ∧
    testDoc.transformImageUrls (cs!"https://cdn.example.com" ++ ·) = ⟨[.paragraph [.text cs!"Hello ", .text cs!"world!"],
      .paragraph [.image cs!"https://cdn.example.com/image.jpg" none cs!"test", .text cs!" and ",
        .link cs!"http://example.com" none [.text cs!"link"]]]⟩ ∧
    testDoc.transformLinkUrls (fun u => cs!"https://" ++ u.drop 7) = ⟨[.paragraph [.text cs!"Hello ", .text cs!"world!"],
      .paragraph [.image cs!"/image.jpg" none cs!"test", .text cs!" and ",
        .link cs!"https://example.com" none [.text cs!"link"]]]⟩ := by
  decide +kernel

/-- `test_transform_code`, `test_transform_html`, `src/ast_transform/tests/convenience_tests.rs:129-157` -/
example :
    Document.transformCode (fun c => cs!"`" ++ c ++ cs!"`") ⟨[.paragraph [.text cs!"Use ", .code cs!"println!()", .text cs!" to print."]]⟩ =
      ⟨[.paragraph [.text cs!"Use ", .code cs!"`println!()`", .text cs!" to print."]]⟩ ∧
    Document.transformHtml (cs!"<!-- Processed -->" ++ ·)
        ⟨[.paragraph [.text cs!"Some ", .html cs!"<em>inline HTML</em>", .text cs!" here."], .htmlBlock cs!"<div>Block HTML</div>"]⟩ =
      ⟨[.paragraph [.text cs!"Some ", .html cs!"<!-- Processed --><em>inline HTML</em>", .text cs!" here."],
        .htmlBlock cs!"<!-- Processed --><div>Block HTML</div>"]⟩ := by
  decide +kernel

/-- `test_transform_if_doc`, `src/ast_transform/tests/convenience_tests.rs:233-249` -/
example :
    testDoc.transformIfDoc (fun _ => true) (·.transformText uppercase) = testDoc.transformText uppercase ∧
    testDoc.transformIfDoc (fun _ => false) (·.transformText uppercase) = testDoc := by
  decide +kernel

/-- `test_remove_empty_paragraphs`, `test_normalize_whitespace`, `test_filter_blocks`, `test_remove_empty_text`,
`src/ast_transform/tests/convenience_tests.rs:298-319` -/
example :
    Document.removeEmptyParagraphs ⟨[.paragraph [.text cs!"Not empty"], .paragraph [], .paragraph [.text cs!"Also not empty"]]⟩ =
      ⟨[.paragraph [.text cs!"Not empty"], .paragraph [.text cs!"Also not empty"]]⟩ ∧
    Document.normalizeWhitespace ⟨[.paragraph [.text cs!"  Hello   \n\t  world  "]]⟩ = ⟨[.paragraph [.text cs!"Hello world"]]⟩ ∧
    (Document.filterBlocks (fun b => !isKind cs!"CodeBlock" b) ⟨[.paragraph [.text cs!"Keep this"], .thematicBreak,
      .paragraph [.text cs!"And this"], .codeBlock .indented cs!"Remove this"]⟩).blocks.length = 3 ∧
    Document.removeEmptyText ⟨[.paragraph [.text cs!"Valid text", .text cs!"   ", .text cs!"Another valid", .text []]]⟩ =
      ⟨[.paragraph [.text cs!"Valid text", .empty, .text cs!"Another valid", .empty]]⟩ := by
  decide +kernel

/-! ## Element ids -/

/-- `test_id_generator`, `test_id_generator_starting_from`, `src/ast_specialized/element_id.rs:120-124` -/
example :
    (IdGenerator.new.generate .checked).map (·.1) = some 1 ∧
    ((IdGenerator.new.generate .checked).bind fun p => p.2.generate .checked) = some (2, ⟨3⟩) ∧
    (IdGenerator.peek ⟨3⟩) = 3 ∧ (IdGenerator.generate .checked ⟨3⟩).map (·.1) = some 3 ∧
    ((IdGenerator.reset ⟨4⟩).generate .checked).map (·.1) = some 1 ∧
    ((IdGenerator.startingFrom 100).generate .checked).bind (fun p => (p.2.generate .checked).map fun q => (p.1, q.1)) =
      some (100, 101) := by
  decide +kernel

end Conformance
end Verif
