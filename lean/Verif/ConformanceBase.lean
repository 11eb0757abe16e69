import Verif.ParserBlock
import Verif.Printer
import Verif.Html
import Verif.Latex
/-!
# The unit tests of the repository, run on the model

`tools/gen_conformance.py` transcribes the assertions of the tests in `/repo/src/**/tests` into
examples about the model (`ConformanceParser`, `ConformancePrinter`, `ConformanceLatex`).  They are tests of
the model, not theorems: they show that the model computes what the program is known to compute.
This module has what the transcribed assertions are made of.
-/
namespace Verif
namespace Conformance
open Nom

/-- The named entities that the tests use. -/
def entities (n : Str) : Option Str :=
  if n = cs!"&amp;" then some cs!"&" else if n = cs!"&lt;" then some cs!"<" else
  if n = cs!"&copy;" then some [Char.ofNat 169] else none

/-- `parse_markdown(MarkdownParserState::default(), s)` -/
def parsed (s : Str) : Option Document := parseMarkdown PExt.ascii (PConfig.default entities) s

/-- `render_markdown(&d, cfg)`; a panic is no text of any test. -/
def printed (cfg : Md.Config) (d : Document) : Str := (Md.renderMarkdown Md.Ext.ascii cfg d).getD cs!"panic"

/-- `render_html(&d, cfg)`; a panic is no text of any test. -/
def html (cfg : Html.Config) (d : Document) : Str := (Html.renderHtml List.length d cfg).getD cs!"panic"

/-- `s.contains(w)` -/
def containsStr (w : Str) : Str → Bool
  | [] => w.isEmpty
  | c :: s => w.isPrefixOf (c :: s) || containsStr w s

/-- `s.matches(w).count()` for `w` that does not overlap itself -/
def occurrences (w : Str) : Str → Nat
  | [] => 0
  | c :: s => (if w.isPrefixOf (c :: s) then 1 else 0) + occurrences w s

/-- `matches!(b, Block::Name(_))` -/
def isKind (name : Str) : Block → Bool
  | .paragraph _ => name == cs!"Paragraph"
  | .heading _ _ => name == cs!"Heading"
  | .thematicBreak => name == cs!"ThematicBreak"
  | .blockQuote _ => name == cs!"BlockQuote"
  | .list _ _ => name == cs!"List"
  | .codeBlock _ _ => name == cs!"CodeBlock"
  | .htmlBlock _ => name == cs!"HtmlBlock"
  | .definition _ _ _ => name == cs!"Definition"
  | .table _ _ => name == cs!"Table"
  | .footnoteDefinition _ _ => name == cs!"FootnoteDefinition"
  | .githubAlert _ _ => name == cs!"GitHubAlert"
  | .empty => name == cs!"Empty"

mutual
/-- `assert_no_consecutive_text_elements`, inside an inline (`consecutive_text_elements.rs`). -/
def mergedIn : Inline → Bool
  | .emphasis c => merged false c
  | .strong c => merged false c
  | .strikethrough c => merged false c
  | .link _ _ c => merged false c
  | .linkReference l t => merged false l && merged false t
  | _ => true
/-- The same in a list, after a text or not. -/
def merged (after : Bool) : List Inline → Bool
  | [] => true
  | .text s :: l => !after && merged true l
  | i :: l => mergedIn i && merged false l
end

mutual
/-- `assert_no_consecutive_text_in_document`, in a block (`consecutive_text_elements.rs`). -/
def mergedBlock : Block → Bool
  | .paragraph c => merged false c
  | .heading _ c => merged false c
  | .blockQuote b => mergedBlocks b
  | .list _ items => mergedItems items
  | .table rows _ => rows.all (·.all (merged false))
  | _ => true
/-- The same in a list of blocks. -/
def mergedBlocks : List Block → Bool
  | [] => true
  | b :: l => mergedBlock b && mergedBlocks l
/-- The same in the items of a list. -/
def mergedItems : List ListItem → Bool
  | [] => true
  | .mk _ b :: l => mergedBlocks b && mergedItems l
end

end Conformance
end Verif
