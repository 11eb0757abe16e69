import Verif.ParserShape
import Verif.HtmlProps2
import Verif.LatexProps3
/-!
# Properties of parsed documents (C34-C38, C40, C42, C53)

`x : PExt` is the Unicode data, `cfg` the configuration.  `cfg.Plain` says that the configuration
runs no user code (`Map`, `FlatMap`, custom parsers); the default configuration is one.
-/
set_option linter.unusedVariables false
namespace Verif
open Nom

theorem default_plain (e : Str → Option Str) : (PConfig.default e).Plain := by
  constructor <;> first | trivial | rfl

/-- The configuration with everything parsed but HTML blocks. -/
def noHtmlBlocks (e : Str → Option Str) : PConfig :=
  { PConfig.default e with htmlBlock := .ignore }

theorem noHtmlBlocks_plain (e : Str → Option Str) : (noHtmlBlocks e).Plain := by
  constructor <;> first | trivial | rfl

section
variable {x : PExt} {cfg : PConfig} (hp : cfg.Plain) {s : Str} {d : Document}
  (h : parseMarkdown x cfg s = some d)
include hp h

/-! ## C34 -/

/-- **C34.** Every table of a parsed document has a header row, at least one column, and exactly
one cell per column in every row. -/
theorem C34_tables_rectangular {rows : List (List (List Inline))} {al : List Alignment}
    (ht : d.HasBlock (.table rows al)) :
    rows ≠ [] ∧ al ≠ [] ∧ ∀ row ∈ rows, row.length = al.length := by
  obtain ⟨_, h1, h2, h3⟩ := (parse_ok hp h).1 _ ht
  exact ⟨h1, h2, fun row hr => (h3 row hr).1⟩

/-! ## C35 -/

/-- **C35.** Every ATX heading of a parsed document has a level from 1 to 6. -/
theorem C35_heading_levels {n : Nat} {c : List Inline}
    (ht : d.HasBlock (.heading (.atx n) c)) : 1 ≤ n ∧ n ≤ 6 := by
  obtain ⟨_, h1, h2, _⟩ := (parse_ok hp h).1 _ ht
  exact ⟨h1, h2⟩

/-! ## C36 -/

end

/-- The inline lists directly inside a block. -/
def Block.inlineLists : Block → List (List Inline)
  | .paragraph c => [c]
  | .heading _ c => [c]
  | .definition l _ _ => [l]
  | .table rows _ => rows.flatten
  | _ => []

/-- The inline lists directly inside an inline. -/
def Inline.inlineLists : Inline → List (List Inline)
  | .link _ _ c => [c]
  | .linkReference l t => [l, t]
  | .emphasis c => [c]
  | .strong c => [c]
  | .strikethrough c => [c]
  | _ => []

/-- These are all the inline lists: together they are the children. -/
theorem inlineLists_complete (b : Block) (i : Inline) :
    b.inlineLists.flatten = b.directInlines ∧ i.inlineLists.flatten = i.children := by
  constructor
  · cases b <;> simp [Block.inlineLists, Block.directInlines]
  · cases i <;> simp [Inline.inlineLists, Inline.children]

/-- **C36.** No inline list of a parsed document has two consecutive texts. -/
theorem C36_texts_merged {x : PExt} {cfg : PConfig} (hp : cfg.Plain) {s : Str} {d : Document}
    (h : parseMarkdown x cfg s = some d) :
    (∀ b, d.HasBlock b → ∀ l ∈ b.inlineLists, NoAdjacentTexts l) ∧
    (∀ i, d.HasInline i → ∀ l ∈ i.inlineLists, NoAdjacentTexts l) := by
  obtain ⟨h1, h2⟩ := parse_ok hp h
  constructor
  · intro b hb l hl
    have := h1 b hb
    cases b with
    | paragraph c => simp [Block.inlineLists] at hl; subst hl; exact this.2.2
    | heading k c =>
      simp [Block.inlineLists] at hl; subst hl
      cases k with
      | atx n => exact this.2.2.2
      | setext v => exact this.2.2
    | definition a b c => simp [Block.inlineLists] at hl; subst hl; exact this.2.2
    | table rows al =>
      obtain ⟨row, hr, hl⟩ := List.mem_flatten.1 hl
      exact (this.2.2.2 row hr).2 l hl
    | _ => simp [Block.inlineLists] at hl
  · intro i hi l hl
    have := h2 i hi
    cases i with
    | link a b c => simp [Inline.inlineLists] at hl; subst hl; exact this.2.2
    | linkReference a b =>
      simp [Inline.inlineLists] at hl
      rcases hl with rfl | rfl
      · exact this.2.1.2
      · exact this.2.2.2
    | emphasis c => simp [Inline.inlineLists] at hl; subst hl; exact this.2.2
    | strong c => simp [Inline.inlineLists] at hl; subst hl; exact this.2.2
    | strikethrough c => simp [Inline.inlineLists] at hl; subst hl; exact this.2.2
    | _ => simp [Inline.inlineLists] at hl

/-- The content of an inline list as a sequence of characters of texts and other inlines. -/
def explode (l : List Inline) : List (Char ⊕ Inline) :=
  l.flatMap fun i => match i with
    | .text s => s.map Sum.inl
    | i => [Sum.inr i]

/-- **C36.** Merging changes neither the characters nor the other inlines nor their order, for every
list of inlines. -/
theorem C36_merge_preserves (l : List Inline) : explode (mergeText l) = explode l := by
  have key : ∀ l, explode (mergeTextAux none l) = explode l ∧
      ∀ t, explode (mergeTextAux (some t) l) = t.map Sum.inl ++ explode l := by
    intro l
    induction l with
    | nil => exact ⟨rfl, fun t => by simp [mergeTextAux, explode]⟩
    | cons i l ih =>
      have hc : ∀ j m, explode (j :: m) = (match j with
          | .text s => s.map Sum.inl
          | i => [Sum.inr i]) ++ explode m := fun j m => by simp [explode]
      cases i <;> simp only [mergeTextAux, hc, ih.1, ih.2, List.map_append, List.append_assoc,
        implies_true, and_self]
  exact (key l).1

/-- A list with something to merge. -/
theorem C36_merge_example :
    mergeText [.text cs!"a", .text cs!"b", .lineBreak, .text cs!"c", .text cs!"d"] =
      [.text cs!"ab", .lineBreak, .text cs!"cd"] := by decide

section
variable {x : PExt} {cfg : PConfig} (hp : cfg.Plain) {s : Str} {d : Document}
  (h : parseMarkdown x cfg s = some d)
include hp h

/-! ## C37 -/

/-- **C37.** Without `Skip` there are no `Empty` blocks or inlines, and there is never inline HTML;
lists have items, quotes have blocks, paragraphs have inlines. -/
theorem C37_no_placeholders_of_config (hb : ¬ cfg.SkipsBlock) (hi : ¬ cfg.SkipsInline) :
    ¬ d.HasBlock .empty ∧ ¬ d.HasInline .empty ∧ (∀ t, ¬ d.HasInline (.html t)) ∧
    (∀ k items, d.HasBlock (.list k items) → items ≠ []) ∧
    (∀ bs, d.HasBlock (.blockQuote bs) → bs ≠ []) ∧
    (∀ c, d.HasBlock (.paragraph c) → c ≠ []) := by
  obtain ⟨h1, h2⟩ := parse_ok hp h
  exact ⟨fun e => hb (h1 _ e), fun e => hi (h2 _ e), fun t e => h2 _ e,
    fun k items e => (h1 _ e).2.1, fun bs e => (h1 _ e).2, fun c e => (h1 _ e).2.1⟩

end

/-- **C37.** The default configuration. -/
theorem C37_no_placeholders {x : PExt} {e : Str → Option Str} {s : Str} {d : Document}
    (h : parseMarkdown x (PConfig.default e) s = some d) :
    ¬ d.HasBlock .empty ∧ ¬ d.HasInline .empty ∧ (∀ t, ¬ d.HasInline (.html t)) ∧
    (∀ k items, d.HasBlock (.list k items) → items ≠ []) ∧
    (∀ bs, d.HasBlock (.blockQuote bs) → bs ≠ []) ∧
    (∀ c, d.HasBlock (.paragraph c) → c ≠ []) :=
  C37_no_placeholders_of_config (default_plain e) h
    (by simp [PConfig.SkipsBlock, PConfig.default]) (by simp [PConfig.SkipsInline, PConfig.default])

section
variable {x : PExt} {cfg : PConfig} (hp : cfg.Plain) {s : Str} {d : Document}
  (h : parseMarkdown x cfg s = some d)
include hp h

/-! ## C38 -/

/-- **C38**, blocks: a kind of block whose behaviour is not `Parse` (so `Ignore` or `Skip`) does not
occur at any depth.  Paragraphs are produced by two parsers. -/
theorem C38_blocks_removed :
    (cfg.headingV1 ≠ .parse → ∀ n c, ¬ d.HasBlock (.heading (.atx n) c)) ∧
    (cfg.headingV2 ≠ .parse → ∀ v c, ¬ d.HasBlock (.heading (.setext v) c)) ∧
    (cfg.headingV2 ≠ .parse → cfg.paragraph ≠ .parse → ∀ c, ¬ d.HasBlock (.paragraph c)) ∧
    (cfg.thematicBreak ≠ .parse → ¬ d.HasBlock .thematicBreak) ∧
    (cfg.blockquote ≠ .parse → ∀ bs, ¬ d.HasBlock (.blockQuote bs)) ∧
    (cfg.githubAlert ≠ .parse → ∀ t bs, ¬ d.HasBlock (.githubAlert t bs)) ∧
    (cfg.list ≠ .parse → ∀ k items, ¬ d.HasBlock (.list k items)) ∧
    (cfg.codeBlock ≠ .parse → ∀ k t, ¬ d.HasBlock (.codeBlock k t)) ∧
    (cfg.htmlBlock ≠ .parse → ∀ t, ¬ d.HasBlock (.htmlBlock t)) ∧
    (cfg.linkDefinition ≠ .parse → ∀ l t u, ¬ d.HasBlock (.definition l t u)) ∧
    (cfg.table ≠ .parse → ∀ r a, ¬ d.HasBlock (.table r a)) ∧
    (cfg.footnoteDefinition ≠ .parse → ∀ l bs, ¬ d.HasBlock (.footnoteDefinition l bs)) := by
  obtain ⟨h1, _⟩ := parse_ok hp h
  refine ⟨fun hn n c e => hn (h1 _ e).1, fun hn v c e => hn (h1 _ e).1,
    fun hn hn' c e => ?_, fun hn e => hn (h1 _ e), fun hn _ e => hn (h1 _ e).1,
    fun hn _ _ e => hn (h1 _ e).1, fun hn _ _ e => hn (h1 _ e).1, fun hn _ _ e => hn (h1 _ e).1,
    fun hn _ e => hn (h1 _ e).1, fun hn _ _ _ e => hn (h1 _ e).1, fun hn _ _ e => hn (h1 _ e).1,
    fun hn _ _ e => hn (h1 _ e).1⟩
  rcases (h1 _ e).1 with h2 | h2
  · exact hn h2
  · exact hn' h2

/-- **C38**, inlines: a kind of inline whose behaviour is not `Parse` does not occur at any depth
(texts excepted: variable names such as `MY_VAR` are read as texts in any case). -/
theorem C38_inlines_removed :
    (cfg.autolink ≠ .parse → ∀ t, ¬ d.HasInline (.autolink t)) ∧
    (cfg.link ≠ .parse → ∀ a b c, ¬ d.HasInline (.link a b c)) ∧
    (cfg.footnoteReference ≠ .parse → ∀ l, ¬ d.HasInline (.footnoteReference l)) ∧
    (cfg.referenceLink ≠ .parse → ∀ a b, ¬ d.HasInline (.linkReference a b)) ∧
    (cfg.hardNewline ≠ .parse → ¬ d.HasInline .lineBreak) ∧
    (cfg.image ≠ .parse → ∀ a b c, ¬ d.HasInline (.image a b c)) ∧
    (cfg.codeSpan ≠ .parse → ∀ t, ¬ d.HasInline (.code t)) ∧
    (cfg.emphasis ≠ .parse → ∀ c, ¬ d.HasInline (.emphasis c) ∧ ¬ d.HasInline (.strong c)) ∧
    (cfg.strikethrough ≠ .parse → ∀ c, ¬ d.HasInline (.strikethrough c)) := by
  obtain ⟨_, h1⟩ := parse_ok hp h
  exact ⟨fun hn _ e => hn (h1 _ e).1, fun hn _ _ _ e => hn (h1 _ e).1,
    fun hn _ e => hn (h1 _ e).1, fun hn _ _ e => hn (h1 _ e).1, fun hn e => hn (h1 _ e),
    fun hn _ _ _ e => hn (h1 _ e).1, fun hn _ e => hn (h1 _ e).1,
    fun hn _ => ⟨fun e => hn (h1 _ e).1, fun e => hn (h1 _ e).1⟩, fun hn _ e => hn (h1 _ e).1⟩

end

/-- **C38**, `Ignore` is not `Skip`: ignored blocks are read by the other alternatives (the text
stays), skipped ones leave an `Empty` block. -/
theorem C38_ignore_and_skip :
    parseMarkdown PExt.ascii { PConfig.default (fun _ => none) with headingV1 := .ignore }
      cs!"# a\n" = some ⟨[.paragraph [.text cs!"# a"]]⟩ ∧
    parseMarkdown PExt.ascii { PConfig.default (fun _ => none) with headingV1 := .skip }
      cs!"# a\n" = some ⟨[.empty]⟩ := by decide +kernel

/-- Finding: `block_heading_v2_behavior = Skip` also drops paragraphs, because the parser of setext
headings is the one that reads them. -/
theorem C38_skip_setext_drops_paragraphs :
    parseMarkdown PExt.ascii { PConfig.default (fun _ => none) with headingV2 := .skip }
      cs!"hello\n" = some ⟨[.empty]⟩ := by decide +kernel

/-- Finding: `block_heading_v2_behavior = Ignore` splits a paragraph into one per line. -/
theorem C38_ignore_setext_splits_paragraphs :
    parseMarkdown PExt.ascii { PConfig.default (fun _ => none) with headingV2 := .ignore }
      cs!"a\nb" = some ⟨[.paragraph [.text cs!"a"], .paragraph [.text cs!"b"]]⟩ := by
  decide +kernel

/-- Finding: `block_paragraph_behavior = Skip` alone does not remove paragraphs. -/
theorem C38_skip_paragraph_keeps_paragraphs :
    parseMarkdown PExt.ascii { PConfig.default (fun _ => none) with paragraph := .skip }
      cs!"hello\n" = some ⟨[.paragraph [.text cs!"hello"]]⟩ := by decide +kernel

section
variable {x : PExt} {cfg : PConfig} (hp : cfg.Plain) {s : Str} {d : Document}
  (h : parseMarkdown x cfg s = some d)
include hp h

/-! ## C40 -/

/-- **C40.** The name of a custom alert of a parsed document is an ASCII letter followed by ASCII
letters, digits and underscores. -/
theorem C40_alert_names {n : Str} {bs : List Block}
    (ha : d.HasBlock (.githubAlert (.custom n) bs)) : AlertNameOk n :=
  ((parse_ok hp h).1 _ ha).2 n rfl

/-! ## C42 -/

/-- **C42.** Rendering a parsed document as HTML never panics. -/
theorem C42_html_no_panic (dw : Str → Nat) (hc : Html.Config) :
    ∃ out, Html.renderHtml dw d hc = some out := by
  refine Html.C27_total dw d hc fun al ht => ?_
  exact (C34_tables_rectangular hp h ht).1 rfl

omit hp h in
theorem parsed_clean (hp : cfg.Plain) (h : parseMarkdown x cfg s = some d)
    (hh : cfg.htmlBlock ≠ .parse) : Html.Clean d where
  noHtmlBlock := (C38_blocks_removed hp h).2.2.2.2.2.2.2.2.1 hh
  noHtmlInline := fun t e => (parse_ok hp h).2 _ e
  alertNames := by
    intro n b hb
    have := C40_alert_names hp h hb
    obtain ⟨c, r, rfl, h1, h2⟩ := this
    have key : ∀ e ∈ c :: r, isAlnum e = true ∨ e = '_' := by
      intro e he
      rcases List.mem_cons.1 he with rfl | he
      · exact .inl (isAlnum_of_isAlpha h1)
      · exact h2 e he
    refine ⟨?_, ?_, ?_⟩ <;> intro hm <;> rcases key _ hm with hk | hk <;> revert hk <;> decide

/-- **C42.** If HTML blocks are not parsed, the HTML of a parsed document is well nested and shows
exactly the text of the document, whatever the input. -/
theorem C42_html_safe (hh : cfg.htmlBlock ≠ .parse) (dw : Str → Nat) (hc : Html.Config) :
    ∃ out, Html.renderHtml dw d hc = some out ∧ Html.WellNested out ∧
      Html.visibleText out = Html.blocksText (Html.footnoteNumber d)
        (fun l => (Html.lastDefinition d l).isSome) d.blocks := by
  obtain ⟨out, ho⟩ := C42_html_no_panic hp h dw hc
  have hcl := parsed_clean hp h hh
  exact ⟨out, ho, Html.C21_well_nested dw d hc hcl out ho, Html.C52_visible_text dw d hc hcl out ho⟩

/-! ## C53 -/

/-- **C53.** If code blocks are not parsed, the LaTeX of a parsed document has balanced braces,
whatever the input. -/
theorem C53_latex_balanced (hh : cfg.codeBlock ≠ .parse) (dw : Str → Nat) (lc : Latex.Config) :
    Latex.Balanced (Latex.renderLatex dw lc d) := by
  refine Latex.C29_balanced dw lc d ((C38_blocks_removed hp h).2.2.2.2.2.2.2.1 hh) ?_
  intro n b hb
  have := C40_alert_names hp h hb
  obtain ⟨c, r, rfl, h1, h2⟩ := this
  have key : ∀ e ∈ c :: r, isAlnum e = true ∨ e = '_' := by
    intro e he
    rcases List.mem_cons.1 he with rfl | he
    · exact .inl (isAlnum_of_isAlpha h1)
    · exact h2 e he
  refine ⟨?_, ?_, ?_⟩ <;> intro hm <;> rcases key _ hm with hk | hk <;> revert hk <;> decide

end

/-- **C42**, from the input string: with HTML blocks ignored, parsing and rendering any string
succeeds and gives well nested HTML. -/
theorem C42_string_to_html (x : PExt) (e : Str → Option Str) (s : Str) (dw : Str → Nat)
    (hc : Html.Config) : ∃ d out, parseMarkdown x (noHtmlBlocks e) s = some d ∧
      Html.renderHtml dw d hc = some out ∧ Html.WellNested out := by
  obtain ⟨d, hd⟩ := C32_parse_total_of_config (x := x) (cfg := noHtmlBlocks e)
    (CustomOk_of_none rfl rfl) (by intro h; cases h) (by intro h; cases h) s
  obtain ⟨out, h1, h2, _⟩ := C42_html_safe (noHtmlBlocks_plain e) hd (by intro h; cases h) dw hc
  exact ⟨d, out, hd, h1, h2⟩

/-- **C42**, from the input string, default configuration: no error and no panic. -/
theorem C42_string_to_html_default (x : PExt) (e : Str → Option Str) (s : Str) (dw : Str → Nat)
    (hc : Html.Config) : ∃ d out, parseMarkdown x (PConfig.default e) s = some d ∧
      Html.renderHtml dw d hc = some out := by
  obtain ⟨d, hd⟩ := C32_parse_total x e s
  obtain ⟨out, h1⟩ := C42_html_no_panic (default_plain e) hd dw hc
  exact ⟨d, out, hd, h1⟩

/-- A document with a table, a heading, a list, a quote and an alert: all hypotheses above are met
by a non-trivial document. -/
theorem shape_example : ∃ d, parseMarkdown PExt.ascii (PConfig.default fun _ => none)
    cs!"## t\n\n| a | b |\n|---|---|\n| c |\n\n- x\n\n> [!FOO_1]\n> *y* z\n" = some d ∧
    d.blocks = [.heading (.atx 2) [.text cs!"t"],
      .table [[[.text cs!"a"], [.text cs!"b"]], [[.text cs!"c"], [.text []]]] [.none, .none],
      .list (.bullet .dash) [.mk none [.paragraph [.text cs!"x"]]],
      .githubAlert (.custom cs!"FOO_1") [.paragraph [.emphasis [.text cs!"y"], .text cs!" z"]]] :=
  ⟨_, rfl, by decide +kernel⟩

/-- Finding: a custom alert name with an underscore is written unescaped into LaTeX. -/
theorem C53_underscore_in_alert_name : ∃ d,
    parseMarkdown PExt.ascii (PConfig.default fun _ => none) cs!"> [!A_B]\n" = some d ∧
    cs!"A_B" <:+: Latex.renderLatex List.length Latex.Config.default d := by
  refine ⟨⟨[.githubAlert (.custom cs!"A_B") []]⟩, by decide +kernel, ?_⟩
  decide +kernel

end Verif
