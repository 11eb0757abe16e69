import Verif.ParserBlock
import Verif.Printer
import Verif.Html
import Verif.Latex

/-!
# The functions that build configurations

`src/parser/config.rs`, `src/printer/config.rs`, `src/html_printer/config.rs` and
`src/latex_printer/config.rs`: one definition per public setter, one constructor per call of it, and
the configuration a chain of calls arrives at.
-/

set_option autoImplicit false



namespace Verif

open Nom

/-- `with_allow_no_space_in_headings`, `src/parser/config.rs:165-170`. -/
def PConfig.withAllowNoSpaceInHeadings (self : PConfig) : PConfig := { self with allowNoSpaceInHeadings := true }

/-- `with_html_entities_map`, `src/parser/config.rs:173-181`. -/
def PConfig.withHtmlEntitiesMap (self : PConfig) (htmlEntitiesMap : Str → Option Str) : PConfig := { self with entities := htmlEntitiesMap }

/-- `with_block_blockquote_behavior`, `src/parser/config.rs:184-192`. -/
def PConfig.withBlockBlockquoteBehavior (self : PConfig) (behavior : Behavior Block) : PConfig := { self with blockquote := behavior }

/-- `with_block_github_alert_behavior`, `src/parser/config.rs:195-203`. -/
def PConfig.withBlockGithubAlertBehavior (self : PConfig) (behavior : Behavior Block) : PConfig := { self with githubAlert := behavior }

/-- `with_block_heading_v1_behavior`, `src/parser/config.rs:206-214`. -/
def PConfig.withBlockHeadingV1Behavior (self : PConfig) (behavior : Behavior Block) : PConfig := { self with headingV1 := behavior }

/-- `with_block_heading_v2_behavior`, `src/parser/config.rs:217-225`. -/
def PConfig.withBlockHeadingV2Behavior (self : PConfig) (behavior : Behavior Block) : PConfig := { self with headingV2 := behavior }

/-- `with_block_thematic_break_behavior`, `src/parser/config.rs:228-236`. -/
def PConfig.withBlockThematicBreakBehavior (self : PConfig) (behavior : Behavior Block) : PConfig := { self with thematicBreak := behavior }

/-- `with_block_list_behavior`, `src/parser/config.rs:239-244`. -/
def PConfig.withBlockListBehavior (self : PConfig) (behavior : Behavior Block) : PConfig := { self with list := behavior }

/-- `with_block_code_block_behavior`, `src/parser/config.rs:247-255`. -/
def PConfig.withBlockCodeBlockBehavior (self : PConfig) (behavior : Behavior Block) : PConfig := { self with codeBlock := behavior }

/-- `with_block_html_block_behavior`, `src/parser/config.rs:258-266`. -/
def PConfig.withBlockHtmlBlockBehavior (self : PConfig) (behavior : Behavior Block) : PConfig := { self with htmlBlock := behavior }

/-- `with_block_footnote_definition_behavior`, `src/parser/config.rs:269-277`. -/
def PConfig.withBlockFootnoteDefinitionBehavior (self : PConfig) (behavior : Behavior Block) : PConfig := { self with footnoteDefinition := behavior }

/-- `with_block_link_definition_behavior`, `src/parser/config.rs:280-288`. -/
def PConfig.withBlockLinkDefinitionBehavior (self : PConfig) (behavior : Behavior Block) : PConfig := { self with linkDefinition := behavior }

/-- `with_block_table_behavior`, `src/parser/config.rs:291-296`. -/
def PConfig.withBlockTableBehavior (self : PConfig) (behavior : Behavior Block) : PConfig := { self with table := behavior }

/-- `with_block_paragraph_behavior`, `src/parser/config.rs:299-307`. -/
def PConfig.withBlockParagraphBehavior (self : PConfig) (behavior : Behavior Block) : PConfig := { self with paragraph := behavior }

/-- `with_inline_autolink_behavior`, `src/parser/config.rs:310-318`. -/
def PConfig.withInlineAutolinkBehavior (self : PConfig) (behavior : Behavior Inline) : PConfig := { self with autolink := behavior }

/-- `with_inline_link_behavior`, `src/parser/config.rs:321-326`. -/
def PConfig.withInlineLinkBehavior (self : PConfig) (behavior : Behavior Inline) : PConfig := { self with link := behavior }

/-- `with_inline_footnote_reference_behavior`, `src/parser/config.rs:329-337`. -/
def PConfig.withInlineFootnoteReferenceBehavior (self : PConfig) (behavior : Behavior Inline) : PConfig := { self with footnoteReference := behavior }

/-- `with_inline_reference_link_behavior`, `src/parser/config.rs:340-348`. -/
def PConfig.withInlineReferenceLinkBehavior (self : PConfig) (behavior : Behavior Inline) : PConfig := { self with referenceLink := behavior }

/-- `with_inline_hard_newline_behavior`, `src/parser/config.rs:351-359`. -/
def PConfig.withInlineHardNewlineBehavior (self : PConfig) (behavior : Behavior Inline) : PConfig := { self with hardNewline := behavior }

/-- `with_inline_image_behavior`, `src/parser/config.rs:362-367`. -/
def PConfig.withInlineImageBehavior (self : PConfig) (behavior : Behavior Inline) : PConfig := { self with image := behavior }

/-- `with_inline_code_span_behavior`, `src/parser/config.rs:370-378`. -/
def PConfig.withInlineCodeSpanBehavior (self : PConfig) (behavior : Behavior Inline) : PConfig := { self with codeSpan := behavior }

/-- `with_inline_emphasis_behavior`, `src/parser/config.rs:381-389`. -/
def PConfig.withInlineEmphasisBehavior (self : PConfig) (behavior : Behavior Inline) : PConfig := { self with emphasis := behavior }

/-- `with_inline_strikethrough_behavior`, `src/parser/config.rs:392-400`. -/
def PConfig.withInlineStrikethroughBehavior (self : PConfig) (behavior : Behavior Inline) : PConfig := { self with strikethrough := behavior }

/-- `with_inline_text_behavior`, `src/parser/config.rs:403-408`. -/
def PConfig.withInlineTextBehavior (self : PConfig) (behavior : Behavior Inline) : PConfig := { self with text := behavior }

/-- `with_custom_block_parser`, `src/parser/config.rs:411-416`. -/
def PConfig.withCustomBlockParser (self : PConfig) (parser : P (List Block)) : PConfig := { self with customBlock := some parser }

/-- `with_custom_inline_parser`, `src/parser/config.rs:419-424`. -/
def PConfig.withCustomInlineParser (self : PConfig) (parser : P (List Inline)) : PConfig := { self with customInline := some parser }

/-- One call of a setter of `MarkdownParserConfig`, `src/parser/config.rs:155-425`. -/
inductive PSetter where
  | allowNoSpaceInHeadings
  | entities (v : Str → Option Str)
  | blockquote (v : Behavior Block)
  | githubAlert (v : Behavior Block)
  | headingV1 (v : Behavior Block)
  | headingV2 (v : Behavior Block)
  | thematicBreak (v : Behavior Block)
  | list (v : Behavior Block)
  | codeBlock (v : Behavior Block)
  | htmlBlock (v : Behavior Block)
  | footnoteDefinition (v : Behavior Block)
  | linkDefinition (v : Behavior Block)
  | table (v : Behavior Block)
  | paragraph (v : Behavior Block)
  | autolink (v : Behavior Inline)
  | link (v : Behavior Inline)
  | footnoteReference (v : Behavior Inline)
  | referenceLink (v : Behavior Inline)
  | hardNewline (v : Behavior Inline)
  | image (v : Behavior Inline)
  | codeSpan (v : Behavior Inline)
  | emphasis (v : Behavior Inline)
  | strikethrough (v : Behavior Inline)
  | text (v : Behavior Inline)
  | customBlock (v : P (List Block))
  | customInline (v : P (List Inline))

/-- What the call does to the configuration it is made on, `src/parser/config.rs:155-425`. -/
def PSetter.call (self : PConfig) : PSetter → PConfig
  | .allowNoSpaceInHeadings => self.withAllowNoSpaceInHeadings
  | .entities v => self.withHtmlEntitiesMap v
  | .blockquote v => self.withBlockBlockquoteBehavior v
  | .githubAlert v => self.withBlockGithubAlertBehavior v
  | .headingV1 v => self.withBlockHeadingV1Behavior v
  | .headingV2 v => self.withBlockHeadingV2Behavior v
  | .thematicBreak v => self.withBlockThematicBreakBehavior v
  | .list v => self.withBlockListBehavior v
  | .codeBlock v => self.withBlockCodeBlockBehavior v
  | .htmlBlock v => self.withBlockHtmlBlockBehavior v
  | .footnoteDefinition v => self.withBlockFootnoteDefinitionBehavior v
  | .linkDefinition v => self.withBlockLinkDefinitionBehavior v
  | .table v => self.withBlockTableBehavior v
  | .paragraph v => self.withBlockParagraphBehavior v
  | .autolink v => self.withInlineAutolinkBehavior v
  | .link v => self.withInlineLinkBehavior v
  | .footnoteReference v => self.withInlineFootnoteReferenceBehavior v
  | .referenceLink v => self.withInlineReferenceLinkBehavior v
  | .hardNewline v => self.withInlineHardNewlineBehavior v
  | .image v => self.withInlineImageBehavior v
  | .codeSpan v => self.withInlineCodeSpanBehavior v
  | .emphasis v => self.withInlineEmphasisBehavior v
  | .strikethrough v => self.withInlineStrikethroughBehavior v
  | .text v => self.withInlineTextBehavior v
  | .customBlock v => self.withCustomBlockParser v
  | .customInline v => self.withCustomInlineParser v

/-- A chain of calls, `self.with_a(..).with_b(..)…`, `src/parser/config.rs:155-425`. -/
def PConfig.after (self : PConfig) (calls : List PSetter) : PConfig := calls.foldl PSetter.call self

/-- `make_html_entities_map`, `src/parser/config.rs:156-162`: the entries are inserted into an empty
`HashMap` in the order of the table, a later one of the same name replacing an earlier one.  A map is
modelled as the function that looks a name up in it. -/
def makeEntitiesMap (table : List (Str × Str)) : Str → Option Str :=
  table.foldl (fun m e => fun n => if n = e.1 then some e.2 else m n) (fun _ => none)

namespace Md

/-- `with_width`, `src/printer/config.rs:20-22`. -/
def Config.withWidth (self : Config) (width : Nat) : Config := { self with width := width }

/-- `with_spaces_before_list_item`, `src/printer/config.rs:37-42`. -/
def Config.withSpacesBeforeListItem (self : Config) (spaces : Nat) : Config :=
  { self with spacesBeforeListItem := spaces }

/-- `with_empty_line_before_list`, `src/printer/config.rs:47-52`. -/
def Config.withEmptyLineBeforeList (self : Config) (tight : Bool) : Config :=
  { self with emptyLineBeforeList := tight }

/-- One call of a setter of the Markdown printer's `Config`, `src/printer/config.rs:18-53`. -/
inductive Setter where
  | width (v : Nat)
  | spacesBeforeListItem (v : Nat)
  | emptyLineBeforeList (v : Bool)

/-- What the call does, `src/printer/config.rs:18-53`. -/
def Setter.call (self : Config) : Setter → Config
  | .width v => self.withWidth v
  | .spacesBeforeListItem v => self.withSpacesBeforeListItem v
  | .emptyLineBeforeList v => self.withEmptyLineBeforeList v

/-- A chain of calls, `src/printer/config.rs:18-53`. -/
def Config.after (self : Config) (calls : List Setter) : Config := calls.foldl Setter.call self

end Md

namespace Html

/-- `with_width`, `src/html_printer/config.rs:18-20`. -/
def Config.withWidth (self : Config) (width : Nat) : Config := { self with width := width }

/-- `with_anchor_prefix`, `src/html_printer/config.rs:23-28`. -/
def Config.withAnchorPrefix (self : Config) (anchorPrefix : Str) : Config :=
  { self with anchorPrefix := anchorPrefix }

/-- One call of a setter of the HTML printer's `Config`, `src/html_printer/config.rs:16-29`. -/
inductive Setter where
  | width (v : Nat)
  | anchorPrefix (v : Str)

/-- What the call does, `src/html_printer/config.rs:16-29`. -/
def Setter.call (self : Config) : Setter → Config
  | .width v => self.withWidth v
  | .anchorPrefix v => self.withAnchorPrefix v

/-- A chain of calls, `src/html_printer/config.rs:16-29`. -/
def Config.after (self : Config) (calls : List Setter) : Config := calls.foldl Setter.call self

end Html

namespace Latex

/-- `with_width`, `src/latex_printer/config.rs:187-189`. -/
def Config.withWidth (self : Config) (width : Nat) : Config := { self with width := width }

/-- `with_table_style`, `src/latex_printer/config.rs:208-213`. -/
def Config.withTableStyle (self : Config) (tableStyle : TableStyle) : Config :=
  { self with tableStyle := tableStyle }

/-- `with_code_block_style`, `src/latex_printer/config.rs:232-237`. -/
def Config.withCodeBlockStyle (self : Config) (codeBlockStyle : CodeBlockStyle) : Config :=
  { self with codeBlockStyle := codeBlockStyle }

/-- One call of a setter of the LaTeX printer's `Config`, `src/latex_printer/config.rs:170-238`. -/
inductive Setter where
  | width (v : Nat)
  | tableStyle (v : TableStyle)
  | codeBlockStyle (v : CodeBlockStyle)

/-- What the call does, `src/latex_printer/config.rs:170-238`. -/
def Setter.call (self : Config) : Setter → Config
  | .width v => self.withWidth v
  | .tableStyle v => self.withTableStyle v
  | .codeBlockStyle v => self.withCodeBlockStyle v

/-- A chain of calls, `src/latex_printer/config.rs:170-238`. -/
def Config.after (self : Config) (calls : List Setter) : Config := calls.foldl Setter.call self

end Latex

end Verif
