import Verif.GrammarDoc
import Verif.LineEndings
/-!
# Which texts begin with which block (specification for C80 and C81)

Specification only.  Each predicate says of a text, in terms of its characters, that it begins with a
block of some kind.  `s` is always the text from the beginning of a line on.
-/
set_option autoImplicit false
namespace Verif
open Nom

/-- A configuration without user code that parses every kind of block. -/
structure PConfig.AllBlocks (cfg : PConfig) : Prop where
  keeps : cfg.Keeps
  blockquote : cfg.blockquote = .parse
  githubAlert : cfg.githubAlert = .parse
  headingV1 : cfg.headingV1 = .parse
  headingV2 : cfg.headingV2 = .parse
  thematicBreak : cfg.thematicBreak = .parse
  list : cfg.list = .parse
  codeBlock : cfg.codeBlock = .parse
  htmlBlock : cfg.htmlBlock = .parse
  footnoteDefinition : cfg.footnoteDefinition = .parse
  linkDefinition : cfg.linkDefinition = .parse
  table : cfg.table = .parse

/-- The first line of `s` is blank. -/
def BlankLineAt (s : Str) : Prop := ∃ b e r, Blanks b ∧ LineEnd e r ∧ s = b ++ (e ++ r)

/-- Four spaces or a tab in front of a line. -/
def IndentedAt (s : Str) : Prop :=
  ∃ p l e r, (p = sp 4 ∨ p = ['\t']) ∧ OneLine l ∧ LineEnd e r ∧ s = p ++ (l ++ (e ++ r))

/-- The text is empty or ends with a line end. -/
def WholeLines (w : Str) : Prop := w = [] ∨ w.getLast? = some '\n'

/-- A line that opens a fence (`n` characters `f`, at least three), and, after whole lines, a line that
closes it. -/
def FencedAt (s : Str) : Prop :=
  ∃ k n f info e w c e' r, k ≤ 3 ∧ 3 ≤ n ∧ (f = '`' ∨ f = '~') ∧ info.head? ≠ some f ∧
    LineWritten info e (w ++ (c ++ (e' ++ r))) ∧ WholeLines w ∧ CrOk w ∧ ClosesFence f n c ∧ LineEnd e' r ∧
    s = sp k ++ (List.replicate n f ++ (info ++ (e ++ (w ++ (c ++ (e' ++ r))))))

/-- `n` characters `#`, blanks (which a configuration can make optional) and a text that is not empty. -/
def AtxAt (cfg : PConfig) (n : Nat) (s : Str) : Prop :=
  ∃ m t e r, HeadingMark cfg n m t ∧ t ≠ [] ∧ LineWritten t e r ∧ s = m ++ (t ++ (e ++ r))

/-- The underline of a heading. -/
def UnderlineAt (k : SetextHeading) (s : Str) : Prop := ∃ u e r, Underline k u ∧ LineEnd e r ∧ s = u ++ (e ++ r)

/-- The prefix of a quoted line, and the line. -/
def QuotedLine (p l : Str) : Prop := QuotePrefix p l ∧ OneLine l

/-- Quoted lines that are not all blank. -/
def QuoteAt (s : Str) : Prop :=
  ∃ ls w r, LinesWritten QuotedLine r ls w ∧ (∃ l ∈ ls, ¬ Blanks l) ∧ s = w ++ r

/-- The marker of an item followed by a blank rest of the line, by a space, or by a box alone on the
line. -/
def ItemAt (kind : ListKind) (s : Str) : Prop :=
  ∃ k m u, k ≤ 3 ∧ Marker kind m ∧ s = sp k ++ (m ++ u) ∧
    (BlankLineAt u ∨ (∃ l e r, OneLine l ∧ LineEnd e r ∧ u = ' ' :: (l ++ (e ++ r))) ∨
      ∃ n t b e r, n ≤ 3 ∧ Box t b ∧ LineEnd e r ∧ u = sp n ++ (b ++ (e ++ r)))

/-- The beginning of an HTML block: a raw-text element that is closed somewhere, a comment, processing
instruction, declaration or CDATA section that is closed somewhere, a tag of a block-level element (whose
name does not begin with another such name), or a complete tag followed by a space or the end of the
line. -/
inductive HtmlStart : Str → Prop
  | raw {name sep a close r : Str} : name.map asciiLower ∈ rawTags → RawSep sep → RawClose close →
      HtmlStart ('<' :: (name ++ (sep ++ (a ++ (close ++ r)))))
  | marked {o c a r : Str} : HtmlMarkers o c → HtmlStart (o ++ (a ++ (c ++ r)))
  | block {o name sep r : Str} : o = cs!"<" ∨ o = cs!"</" → name.map asciiLower ∈ blockTags →
      Unshadowed (name.map asciiLower) → sep = [' '] ∨ sep = ['>'] ∨ sep = cs!"/>" ∨ IsNewline sep →
      HtmlStart (o ++ (name ++ (sep ++ r)))
  | tag {name t sep r : Str} : CompleteTag name t → sep = [' '] ∨ IsNewline sep → HtmlStart (t ++ (sep ++ r))

/-- An HTML block after at most three spaces. -/
def HtmlAt (s : Str) : Prop := ∃ k u, k ≤ 3 ∧ HtmlStart u ∧ s = sp k ++ u

/-- `[^label]:` and something more than three spaces on the line. -/
def FootnoteAt (s : Str) : Prop :=
  ∃ k label l e r, k ≤ 3 ∧ label ≠ [] ∧ ']' ∉ label ∧ LineWritten l e r ∧ dropSpaces 3 l ≠ [] ∧
    s = sp k ++ (cs!"[^" ++ (label ++ (cs!"]:" ++ (l ++ (e ++ r)))))

/-- What can follow the destination of a definition: a title and the end of the line, or, if no title
follows, not even on the next line, the end of the line. -/
def DefEnd (v : Str) : Prop :=
  (∃ g w t e r, TitleGap g ∧ LinkTitle w t ∧ LineEnd e r ∧ v = g ++ (w ++ (e ++ r))) ∨
  ((∃ e r, LineEnd e r ∧ v = e ++ r) ∧ ¬ ∃ g w t r, TitleGap g ∧ LinkTitle w t ∧ v = g ++ (w ++ r))

/-- A destination; a bare one may end in a lone backslash at the end of the text. -/
def DestAt (w v : Str) : Prop :=
  (∃ d, LinkDest w d) ∨ (∃ d, BareDest d ∧ w = d ++ ['\\'] ∧ v = [])

/-- A label in brackets, a colon, a destination and perhaps a title. -/
def DefAt (s : Str) : Prop :=
  ∃ k w t g d v, k ≤ 3 ∧ BracketText w t ∧ w.getLast? ≠ some '\\' ∧ Gap g ∧ DestAt d v ∧ DefEnd v ∧
    s = sp k ++ ('[' :: (w ++ (cs!"]:" ++ (g ++ (d ++ v)))))

/-- The cells of a row, each after a bar, in front of `u`: not empty, with escaped bars, and an unescaped
bar or the end of the line behind them. -/
inductive CellsAt (e : Str) : Nat → Str → Prop
  | last {w t : Str} : w ≠ [] → Unescapes '|' w t → '\n' ∉ w → (e = ['\n'] → w.getLast? ≠ some '\r') →
      CellsAt e 1 ('|' :: w)
  | closed {w t : Str} : w ≠ [] → Unescapes '|' w t → '\n' ∉ w → w.getLast? ≠ some '\\' →
      CellsAt e 1 ('|' :: (w ++ ['|']))
  | cons {n : Nat} {w t u : Str} : w ≠ [] → Unescapes '|' w t → '\n' ∉ w → w.getLast? ≠ some '\\' →
      CellsAt e n ('|' :: u) → CellsAt e (n + 1) ('|' :: (w ++ '|' :: u))

/-- A row of `n` cells in front of `r`. -/
def RowAt (n : Nat) (s r : Str) : Prop := ∃ k u e, k ≤ 3 ∧ CellsAt e n u ∧ LineEnd e r ∧ s = sp k ++ (u ++ (e ++ r))

/-- A row and a delimiter row with as many cells. -/
def TableAt (s : Str) : Prop :=
  ∃ as a last k e r t, RowAt as.length s t ∧ as ≠ [] ∧ AlignsWritten as a ∧ (last = [] ∨ last = ['|']) ∧
    k ≤ 3 ∧ LineEnd e r ∧ t = sp k ++ (a ++ (last ++ (e ++ r)))

/-- The rest of the text does not begin with a quoted line. -/
def QuoteEnds (r : Str) : Prop := ¬ ∃ p l e r', QuotedLine p l ∧ LineEnd e r' ∧ r = p ++ (l ++ (e ++ r'))

/-- The line of a quote that makes it an alert: `[!NAME]`, in any case, between white space.  Any word of
letters, digits and underscores is a name unless it begins with one of the five standard names. -/
def AlertLine (x : PExt) (t : AlertType) (l : Str) : Prop :=
  x.upperStr (trim l) = cs!"[!" ++ (alertWord t ++ [']']) ∧
    ∀ n, t = .custom n → AlertName n ∧ ∀ y ∈ standardAlerts, ¬ y.1 <+: n

/-- A quote whose first line makes it an alert, and whose other lines, all of them, are not all blank
(but none at all, or a single empty one, will do). -/
def AlertAt (x : PExt) (t : AlertType) (s : Str) : Prop :=
  ∃ l ls w r, LinesWritten QuotedLine r (l :: ls) w ∧ QuoteEnds r ∧ AlertLine x t l ∧
    (ls = [] ∨ ls = [[]] ∨ ∃ l ∈ ls, ¬ Blanks l) ∧ s = w ++ r

/-- The kinds of blocks, as far as the beginning of a text decides them. -/
inductive StartKind where
  | indented | fenced | atx (n : Nat) | thematic | alert (t : AlertType) | quote | list (kind : ListKind) | html
  | footnote | definition | table | text | other

/-- The kind of a block. -/
def startKind : Block → StartKind
  | .codeBlock .indented _ => .indented
  | .codeBlock (.fenced _) _ => .fenced
  | .heading (.atx n) _ => .atx n
  | .heading (.setext _) _ => .text
  | .thematicBreak => .thematic
  | .githubAlert t _ => .alert t
  | .blockQuote _ => .quote
  | .list kind _ => .list kind
  | .htmlBlock _ => .html
  | .footnoteDefinition _ _ => .footnote
  | .definition _ _ _ => .definition
  | .table _ _ => .table
  | .paragraph _ => .text
  | .empty => .other

/-- The text begins with a block other than a paragraph or an underlined heading. -/
def SpecialAt (cfg : PConfig) (s : Str) : Prop :=
  IndentedAt s ∨ FencedAt s ∨ (∃ n, AtxAt cfg n s) ∨ ThematicAt s ∨ QuoteAt s ∨ (∃ kind, ItemAt kind s) ∨ HtmlAt s ∨
    FootnoteAt s ∨ DefAt s ∨ TableAt s

/-- The text begins with a block of the kind. -/
def StartsWith (x : PExt) (cfg : PConfig) (s : Str) : StartKind → Prop
  | .indented => IndentedAt s
  | .fenced => FencedAt s
  | .atx n => AtxAt cfg n s
  | .thematic => ThematicAt s
  | .alert t => AlertAt x t s
  | .quote => QuoteAt s ∧ ¬ ∃ t, AlertAt x t s
  | .list kind => ItemAt kind s
  | .html => HtmlAt s
  | .footnote => FootnoteAt s
  | .definition => DefAt s ∧ ¬ FootnoteAt s
  | .table => TableAt s
  | .text => ¬ SpecialAt cfg s
  | .other => False

/-- What ends a paragraph: a text that begins with a blank line or with another block; indented code and
alerts by themselves do not. -/
def Interrupts (cfg : PConfig) (s : Str) : Prop :=
  BlankLineAt s ∨ (∃ n, AtxAt cfg n s) ∨ (∃ k, UnderlineAt k s) ∨ ThematicAt s ∨ QuoteAt s ∨
    (∃ kind, ItemAt kind s) ∨ FencedAt s ∨ HtmlAt s ∨ DefAt s ∨ FootnoteAt s ∨ TableAt s

/-- The lines of a paragraph in front of `r`: without up to three spaces each, and the text behind a line
does not interrupt the paragraph if another line of it follows. -/
inductive TextRun (cfg : PConfig) (r : Str) : List Str → Str → Prop
  | last {p l e : Str} : Indented 3 p l → l ≠ [] → LineWritten l e r → TextRun cfg r [l] (p ++ (l ++ e))
  | cons {p l e w : Str} {ls : List Str} : Indented 3 p l → l ≠ [] → LineWritten l e (w ++ r) →
      ¬ Interrupts cfg (w ++ r) → TextRun cfg r ls w → TextRun cfg r (l :: ls) (p ++ (l ++ (e ++ w)))

end Verif
