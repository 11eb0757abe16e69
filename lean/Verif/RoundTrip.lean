import Verif.RoundTripList
import Verif.RoundTripSame
import Verif.PrinterLayout
/-!
# Printing a document and parsing the text gives the document back (C49)

The documents are those that pass the test `fitsBlocks` (`RoundTripSpec.lean`), the widths are
arbitrary, and documents are compared up to runs of whitespace in their text nodes, which is where
lines are wrapped.  The theorems at the end show that the conditions of the test are not idle.
-/
set_option linter.unusedVariables false
set_option linter.unusedSimpArgs false
namespace Verif
namespace Md
open Nom Spec

/-- The document that is read back has the same key. -/
theorem round_trip_key {x : Ext} {cfg : Config} {pcfg : PConfig} (hp : EveryParse pcfg) {d : Document} {s : Str}
    (hf : fitsBlocks (isPunctuation x.toPExt) (style x cfg) false d.blocks ⟨0, 0, 0⟩ = true)
    (h : renderMarkdown x cfg d = some s) :
    ∃ d', parseMarkdown x.toPExt pcfg s = some d' ∧ keyBlocks d'.blocks = keyBlocks d.blocks := by
  obtain ⟨L, h1, h2⟩ := (printed_lines (isPunctuation x.toPExt) (style x cfg)).2.2.1 d.blocks false ⟨0, 0, 0⟩ 0 s true
    (fun _ => rfl) hf (C60_layout x cfg d s h)
  simp only [Bool.true_or, if_true, List.nil_append, newline_zero] at h2
  by_cases hb : d.blocks = []
  · rw [hb] at h1 ⊢
    simp only [CanonL] at h1
    rw [h2, h1]
    exact ⟨⟨[]⟩, parseMarkdown_nil, rfl⟩
  · obtain ⟨l0, ls, rfl, _⟩ := (shape (isPunctuation x.toPExt) (style x cfg)).2.2.1 d.blocks false ⟨0, 0, 0⟩ L hb hf h1
    obtain ⟨bs, q1, q2⟩ := (blocks_back x.toPExt (style x cfg) hp).2.2.1 d.blocks false ⟨0, 0, 0⟩ l0 ls _ (Nat.le_refl _) hb hf h1
      (.text false ⟨0, 0, 0⟩ ls)
    refine ⟨⟨bs⟩, ?_, q1⟩
    rw [h2, join_tailText_nil, ← q2]
    simp

/-- **C49 (partial).** Whenever a document that passes the test is printed, at whatever width, the
parser reads the printed text as the same document, up to runs of whitespace in text nodes.
Missing from the full claim ("every document comes back"): the documents that do not pass the test;
the theorems `C49_refuted_*` show that documents of most of the excluded forms do not come back. -/
theorem C49_round_trip_partial {x : Ext} {cfg : Config} {pcfg : PConfig} (hp : EveryParse pcfg) {d : Document} {s : Str}
    (hf : fitsBlocks (isPunctuation x.toPExt) (style x cfg) false d.blocks ⟨0, 0, 0⟩ = true)
    (h : renderMarkdown x cfg d = some s) :
    ∃ d', parseMarkdown x.toPExt pcfg s = some d' ∧ squashBlocks d'.blocks = squashBlocks d.blocks := by
  obtain ⟨d', h1, h2⟩ := round_trip_key hp hf h
  exact ⟨d', h1, key_squash_blocks.2.2.1 _ _ h2⟩

/-- **C49 (partial)** for parsed documents: parsing, printing and parsing again gives the same document,
up to runs of whitespace in text nodes, whenever the document passes the test.  Missing: the other
inputs (`C49_refuted_parsed`). -/
theorem C49_parsed_partial {x : Ext} {cfg : Config} {pcfg : PConfig} (hp : EveryParse pcfg) {input s : Str} {d : Document}
    (h1 : parseMarkdown x.toPExt pcfg input = some d)
    (hf : fitsBlocks (isPunctuation x.toPExt) (style x cfg) false d.blocks ⟨0, 0, 0⟩ = true)
    (h2 : renderMarkdown x cfg d = some s) :
    ∃ d', parseMarkdown x.toPExt pcfg s = some d' ∧ squashBlocks d'.blocks = squashBlocks d.blocks :=
  C49_round_trip_partial hp hf h2

/-- **C67 (partial).** Formatting is idempotent: when a printed document is parsed, the result is
printed as the same text, and, with any other configuration, as the original document is.  Missing from
the full claim ("for every document"): the documents that do not pass the test; `C67_refuted` shows that
the claim is false of some of them. -/
theorem C67_idempotent_partial {x : Ext} {cfg : Config} {pcfg : PConfig} (hp : EveryParse pcfg) {d : Document} {s : Str}
    (hf : fitsBlocks (isPunctuation x.toPExt) (style x cfg) false d.blocks ⟨0, 0, 0⟩ = true)
    (h : renderMarkdown x cfg d = some s) :
    ∃ d', parseMarkdown x.toPExt pcfg s = some d' ∧ renderMarkdown x cfg d' = some s ∧
      ∀ cfg', renderMarkdown x cfg' d' = renderMarkdown x cfg' d := by
  obtain ⟨d', h1, h2⟩ := round_trip_key hp hf h
  exact ⟨d', h1, by rw [key_render h2, h], fun _ => key_render h2⟩

/-- **C67 (partial).** Two documents that differ only in runs of whitespace in text nodes (and whose
references have the same label and text in the same places, which the parameter `keyBlocks` tells too)
are printed alike with every configuration.  Missing from the full claim: see above. -/
theorem C67_whitespace_partial {d e : Document} (h : keyBlocks d.blocks = keyBlocks e.blocks) (x : Ext) (cfg : Config) :
    renderMarkdown x cfg d = renderMarkdown x cfg e := key_render h

/-- The ASCII default configuration, at width `w`. -/
abbrev narrow (w : Nat) : Config := { Config.default with width := w }

/-- A paragraph of a text. -/
abbrev para (s : Str) : Block := .paragraph [.text s]

/-- A document with most of the constructs. -/
def sample : Document := ⟨[
  .heading (.atx 2) [.text cs!"One ", .emphasis [.text cs!"two"], .text cs!"."],
  .paragraph [.text cs!"Some words, ", .strong [.text cs!"strong ", .code cs!"a*b"], .text cs!", a ",
    .link cs!"http://a.b" (some cs!"t") [.text cs!"link"], .text cs!" and ", .footnoteReference cs!"n1", .text cs!" to wrap."],
  .list (.ordered 9) [
    .mk (some .complete) [.paragraph [.text cs!"first item of the list"],
      .list (.bullet .star) [.mk none [.paragraph [.text cs!"inner"]], .mk none []]],
    .mk none [.paragraph [.text cs!"second"], .blockQuote [.paragraph [.text cs!"quoted in an item"]]]],
  .blockQuote [.paragraph [.text cs!"quoted words that wrap"], .codeBlock (.fenced (some cs!"rust")) cs!"let a;\n\n  b",
    .githubAlert .note [.paragraph [.text cs!"alert"]]],
  .table [[[.text cs!"h"], []], [[.code cs!"c"], [.text cs!"long cell"]]] [.center, .right],
  .githubAlert (.custom cs!"MY_1") [.thematicBreak],
  .codeBlock .indented cs!"x\n  y",
  .heading (.setext .level1) [.text cs!"under"],
  .definition [.text cs!"ref"] cs!"/u" (some cs!"title"),
  .footnoteDefinition cs!"n1" [.paragraph [.text cs!"note"]]]⟩

/-- What the sample document is printed as in 24 columns. -/
def sampleText : Str :=
  cs!"## One *two*.\n\nSome words, **strong\n`a*b`**, a\n[link](http://a.b \"t\")\nand [^n1] to wrap.\n\n" ++
  cs!" 9. [X] first item of\n     the list\n     \n      * inner\n      * \n 10. second\n     \n     > quoted in an item\n\n" ++
  cs!"> quoted words that wrap\n> \n> ```rust\n> let a;\n> \n>   b\n> ```\n> \n> > [!NOTE]\n> > alert\n\n" ++
  cs!"|  h  |           |\n| :-: | --------: |\n| `c` | long cell |\n\n> [!MY_1]\n> ---\n\n    x\n      y\n\n" ++
  cs!"under\n==========\n\n[ref]: /u \"title\"\n\n[^n1]: note"

/-- The sample document meets the hypotheses at the widths 24 and 80. -/
example : (∀ cfg ∈ [narrow 24, narrow 80],
      fitsBlocks (isPunctuation Ext.ascii.toPExt) (style Ext.ascii cfg) false sample.blocks ⟨0, 0, 0⟩ = true) ∧
    renderMarkdown Ext.ascii (narrow 24) sample = some sampleText ∧
    (renderMarkdown Ext.ascii (narrow 80) sample).isSome = true := by
  decide +kernel

/-- An input with a wrapped paragraph, a nested list and a quote meets the hypotheses. -/
example :
    let d : Document := ⟨[.paragraph [.text cs!"a ", .emphasis [.text cs!"b\nc"], .text cs!" d"],
      .list (.ordered 1) [.mk none [.paragraph [.text cs!"x"], .list (.bullet .dash) [.mk (some .incomplete) [.paragraph [.text cs!"y"]]]],
        .mk none [.paragraph [.text cs!"z"]]],
      .blockQuote [.paragraph [.text cs!"q\nr"]]]⟩
    parseMarkdown PExt.ascii (PConfig.default fun _ => none)
      cs!"a *b\nc* d\n\n1. x\n\n   - [ ] y\n2. z\n\n> q\n> r\n" = some d ∧
    fitsBlocks (isPunctuation PExt.ascii) (style Ext.ascii (narrow 6)) false d.blocks ⟨0, 0, 0⟩ = true ∧
    renderMarkdown Ext.ascii (narrow 6) d = some
      cs!"a *b\nc* d\n\n 1. x\n    \n     - [ ] y\n 2. z\n\n> q r" := by
  decide +kernel

/-- Special characters that mean nothing where they are, in texts and destinations. -/
example :
    let d : Document := ⟨[.paragraph [.text cs!"snake_case_name, AT&T! 2 * 3<= 7 ~ \\ok ",
      .link cs!"a(b)c" none [.text cs!"x_y"]]]⟩
    fitsBlocks (isPunctuation PExt.ascii) (style Ext.ascii (narrow 80)) false d.blocks ⟨0, 0, 0⟩ = true ∧
    renderMarkdown Ext.ascii (narrow 80) d = some
      cs!"snake_case_name, AT&T! 2 * 3<= 7 ~ \\ok [x_y](a(b)c)" := by
  decide +kernel

/-- Hard line breaks, between words and in a heading that is wrapped. -/
example :
    let d : Document := ⟨[.paragraph [.text cs!"one", .lineBreak, .emphasis [.text cs!"two three"], .lineBreak, .text cs!"four"],
      .blockQuote [.paragraph [.text cs!"a", .lineBreak, .text cs!"b"]],
      .heading (.setext .level2) [.text cs!"x", .lineBreak, .text cs!"y"]]⟩
    fitsBlocks (isPunctuation PExt.ascii) (style Ext.ascii (narrow 8)) false d.blocks ⟨0, 0, 0⟩ = true ∧
    renderMarkdown Ext.ascii (narrow 8) d = some
      cs!"one  \n*two\nthree*  \nfour\n\n> a  \n> b\n\nx  \ny\n----------" := by
  decide +kernel

/-- Raw HTML: a block-level element with its last line end, a comment with a blank line, a script, and
one-line comments in a quote and in a list item. -/
example :
    let d : Document := ⟨[.htmlBlock cs!"<DIV class=a>\n*b*\n</div>\n", .htmlBlock cs!"<!-- a\n\n b -->",
      .htmlBlock cs!"<script>\nif (a </b) c();\n</SCRIPT>", para cs!"d",
      .blockQuote [.htmlBlock cs!"<!-- q -->", para cs!"r"],
      .list (.bullet .dash) [.mk none [para cs!"x", .htmlBlock cs!"<?php y ?>"]], .htmlBlock cs!"<p>\nz\n"]⟩
    fitsBlocks (isPunctuation PExt.ascii) (style Ext.ascii (narrow 80)) false d.blocks ⟨0, 0, 0⟩ = true ∧
    renderMarkdown Ext.ascii (narrow 80) d = some (
      cs!"<DIV class=a>\n*b*\n</div>\n\n\n<!-- a\n\n b -->\n\n<script>\nif (a </b) c();\n</SCRIPT>\n\nd\n\n" ++
      cs!"> <!-- q -->\n> \n> r\n\n - x\n   \n   <?php y ?>\n\n<p>\nz\n") := by
  decide +kernel

/-! ## Documents that do not come back -/

/-- **C49** is false: the input `\\*a*` is a text with stars, which is
printed as emphasis; and the input `a`, newline, `b` is printed with a space for the newline. -/
theorem C49_refuted_parsed :
    (parseMarkdown PExt.ascii (PConfig.default fun _ => none) cs!"\\*a*" = some ⟨[.paragraph [.text cs!"*a*"]]⟩ ∧
      renderMarkdown Ext.ascii Config.default ⟨[.paragraph [.text cs!"*a*"]]⟩ = some cs!"*a*" ∧
      parseMarkdown PExt.ascii (PConfig.default fun _ => none) cs!"*a*" =
        some ⟨[.paragraph [.emphasis [.text cs!"a"]]]⟩) ∧
    (parseMarkdown PExt.ascii (PConfig.default fun _ => none) cs!"a\nb" = some ⟨[.paragraph [.text cs!"a\nb"]]⟩ ∧
      renderMarkdown Ext.ascii Config.default ⟨[.paragraph [.text cs!"a\nb"]]⟩ = some cs!"a b" ∧
      parseMarkdown PExt.ascii (PConfig.default fun _ => none) cs!"a b" = some ⟨[.paragraph [.text cs!"a b"]]⟩) := by
  decide +kernel

/-- **C67** is false of some documents: wrapping at width 5 puts `1)` at the beginning of a line, and
what is read back is printed differently. -/
theorem C67_refuted :
    parseMarkdown PExt.ascii (PConfig.default fun _ => none) cs!"aaa 1) b" = some ⟨[.paragraph [.text cs!"aaa 1) b"]]⟩ ∧
    renderMarkdown Ext.ascii (narrow 5) ⟨[.paragraph [.text cs!"aaa 1) b"]]⟩ = some cs!"aaa\n1) b" ∧
    ∃ d', parseMarkdown PExt.ascii (PConfig.default fun _ => none) cs!"aaa\n1) b" = some d' ∧
      renderMarkdown Ext.ascii (narrow 5) d' = some cs!"aaa\n\n 1. b" :=
  ⟨by decide +kernel, by decide +kernel,
    ⟨[.paragraph [.text cs!"aaa"], .list (.ordered 1) [.mk none [.paragraph [.text cs!"b"]]]]⟩, by decide +kernel, by decide +kernel⟩

/-- Printed and parsed, the document differs in more than runs of whitespace. -/
def Lost (cfg : Config) (bs : List Block) : Prop :=
  ∃ s d', renderMarkdown Ext.ascii cfg ⟨bs⟩ = some s ∧
    parseMarkdown PExt.ascii (PConfig.default fun _ => none) s = some d' ∧ squashBlocks d'.blocks ≠ squashBlocks bs

/-- `Lost`, computed. -/
def lost (cfg : Config) (bs : List Block) : Bool :=
  match renderMarkdown Ext.ascii cfg ⟨bs⟩ with
  | none => false
  | some s => match parseMarkdown PExt.ascii (PConfig.default fun _ => none) s with
    | none => false
    | some d' => decide (squashBlocks d'.blocks ≠ squashBlocks bs)

theorem Lost.of {cfg : Config} {bs : List Block} (h : lost cfg bs = true) : Lost cfg bs := by
  unfold lost at h
  split at h
  · cases h
  · rename_i s hs
    split at h
    · cases h
    · rename_i d' hd
      exact ⟨s, d', hs, hd, by simpa using h⟩

/-- Characters with a meaning are printed without a backslash: a text `*a*` comes back as emphasis. -/
theorem C49_refuted_escape : Lost (narrow 80) [para cs!"*a*"] := .of (by decide +kernel)

/-- A left-aligned column comes back without alignment. -/
theorem C49_refuted_left : Lost (narrow 80) [.table [[[.text cs!"a"]]] [.left]] := .of (by decide +kernel)

/-- A heading in a quote comes back as a paragraph. -/
theorem C49_refuted_quoted_heading : Lost (narrow 80) [.blockQuote [.heading (.atx 1) [.text cs!"a"]]] :=
  .of (by decide +kernel)

/-- A code block in a list item is printed without indentation and is broken by a blank line. -/
theorem C49_refuted_item_code : Lost (narrow 80)
    [.list (.bullet .dash) [.mk none [.codeBlock (.fenced none) cs!"a\n\nb"]]] := .of (by decide +kernel)

/-- The line `----------` under a heading in a list item comes back as a thematic break after the
list. -/
theorem C49_refuted_item_setext : Lost (narrow 80)
    [.list (.bullet .dash) [.mk none [.heading (.setext .level2) [.text cs!"a"]]]] := .of (by decide +kernel)

/-- Wrapping puts a number at the beginning of a line, where it opens a list. -/
theorem C49_refuted_wrapped_number : Lost (narrow 5) [para cs!"aaa 1) b"] := .of (by decide +kernel)

/-- Wrapping a footnote puts its rest out of the footnote. -/
theorem C49_refuted_wrapped_footnote : Lost (narrow 5) [.footnoteDefinition cs!"a" [para cs!"b c"]] :=
  .of (by decide +kernel)

/-- A line of spaces in a code block in an alert is printed as an empty line. -/
theorem C49_refuted_alert_code : Lost (narrow 80)
    [.githubAlert .note [.codeBlock (.fenced none) cs!"a\n \nb"]] := .of (by decide +kernel)

/-- An indented code block after a list comes back as a paragraph in the last item. -/
theorem C49_refuted_code_after_list : Lost (narrow 80)
    [.list (.bullet .dash) [.mk none [para cs!"a"]], .codeBlock .indented cs!"x"] := .of (by decide +kernel)

/-- Raw HTML is printed as it is, so that it may come back as something else. -/
theorem C49_refuted_html : Lost (narrow 80) [.htmlBlock cs!"a"] := .of (by decide +kernel)

/-- A heading of more than six levels comes back as a paragraph. -/
theorem C49_refuted_level : Lost (narrow 80) [.heading (.atx 7) [.text cs!"a"]] := .of (by decide +kernel)

/-- A hard line break in a heading ends the heading. -/
theorem C49_refuted_atx_break : Lost (narrow 80) [.heading (.atx 1) [.text cs!"a", .lineBreak, .text cs!"b"]] :=
  .of (by decide +kernel)

end Md
end Verif
