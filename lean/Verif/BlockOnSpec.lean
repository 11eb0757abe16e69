import Verif.BlockExactSpec
import Verif.InlineOnSpec
/-!
# How a text is read as blocks when constructs are switched off (specification for C88)

Specification only.  As `BlockExactSpec.lean`, but a block is read only if the configuration parses its kind,
and a custom parser may read others.
-/
set_option autoImplicit false
namespace Verif.Exact
open Nom

/-- A custom parser reads the blocks `bs` at the front of the text. -/
def CustomBlock (cfg : PConfig) (s : Str) (bs : List Block) (r : Str) : Prop :=
  ∃ p, cfg.customBlock = some p ∧ p s = some (r, bs)

/-- A custom parser accepts the text. -/
def CustomAt (cfg : PConfig) (s : Str) : Prop := ∃ bs r, CustomBlock cfg s bs r

/-- Alerts are read if they are parsed, unless the paragraph of an underlined heading would take the lines of
quotes: underlined headings are tried first, and only quotes that are parsed, and what a custom parser accepts,
interrupt paragraphs. -/
def AlertsOn (cfg : PConfig) (s : Str) : Prop :=
  cfg.githubAlert = .parse ∧ (cfg.blockquote = .parse ∨ cfg.headingV2 = .ignore ∨ CustomAt cfg s)

/-- The text begins with a block, other than a paragraph or an underlined heading, that is switched on. -/
def SpecialOn (x : PExt) (cfg : PConfig) (s : Str) : Prop :=
  (cfg.codeBlock = .parse ∧ (IndentedAt s ∨ FencedAt s)) ∨
  (cfg.headingV1 = .parse ∧ ∃ n, AtxAt cfg n s) ∨
  (cfg.thematicBreak = .parse ∧ ThematicAt s) ∨
  (AlertsOn cfg s ∧ ∃ t, AlertAt x t s) ∨
  (cfg.blockquote = .parse ∧ QuoteAt s) ∨
  (cfg.list = .parse ∧ ∃ kind, ItemAt kind s) ∨
  (cfg.htmlBlock = .parse ∧ HtmlAt s) ∨
  (cfg.footnoteDefinition = .parse ∧ FootnoteAt s) ∨
  (cfg.linkDefinition = .parse ∧ DefAt s) ∨
  (cfg.table = .parse ∧ TableAt s)

/-- What ends a paragraph: a blank line, another block that is switched on, or what a custom parser accepts;
indented code and alerts by themselves do not. -/
def InterruptsOn (cfg : PConfig) (s : Str) : Prop :=
  BlankLineAt s ∨
  (cfg.headingV1 = .parse ∧ ∃ n, AtxAt cfg n s) ∨
  (cfg.headingV2 = .parse ∧ ∃ k, UnderlineAt k s) ∨
  (cfg.thematicBreak = .parse ∧ ThematicAt s) ∨
  (cfg.blockquote = .parse ∧ QuoteAt s) ∨
  (cfg.list = .parse ∧ ∃ kind, ItemAt kind s) ∨
  (cfg.codeBlock = .parse ∧ FencedAt s) ∨
  (cfg.htmlBlock = .parse ∧ HtmlAt s) ∨
  (cfg.linkDefinition = .parse ∧ DefAt s) ∨
  (cfg.footnoteDefinition = .parse ∧ FootnoteAt s) ∨
  (cfg.table = .parse ∧ TableAt s) ∨
  CustomAt cfg s

/-- The lines of a paragraph in front of `r`, as `TextRun`. -/
inductive TextOn (cfg : PConfig) (r : Str) : List Str → Str → Prop
  | last {p l e : Str} : Indented 3 p l → l ≠ [] → LineWritten l e r → TextOn cfg r [l] (p ++ (l ++ e))
  | cons {p l e w : Str} {ls : List Str} : Indented 3 p l → l ≠ [] → LineWritten l e (w ++ r) →
      ¬ InterruptsOn cfg (w ++ r) → TextOn cfg r ls w → TextOn cfg r (l :: ls) (p ++ (l ++ (e ++ w)))

mutual
/-- `DocOn x cfg s bs`: with the configuration `cfg`, the text `s` is read as the blocks `bs`. -/
inductive DocOn (x : PExt) (cfg : PConfig) : Str → List Block → Prop
  | nil {s : Str} : BlankText s → DocOn x cfg s []
  | cons {g s r : Str} {b : Block} {bs : List Block} : BlankLines g → ¬ BlankLineAt s → BlockOn x cfg s b r →
      DocOn x cfg r bs → DocOn x cfg (g ++ s) (b :: bs)
  /-- Custom blocks are read where no other block but a paragraph or an underlined heading begins. -/
  | custom {g s r : Str} {bs bs' : List Block} : BlankLines g → ¬ BlankLineAt s → ¬ SpecialOn x cfg s →
      CustomBlock cfg s bs r → DocOn x cfg r bs' → DocOn x cfg (g ++ s) (bs ++ bs')
/-- `BlockOn x cfg s b r`: the text `s` begins with the block `b`, and `r` is the rest. -/
inductive BlockOn (x : PExt) (cfg : PConfig) : Str → Block → Str → Prop
  | indented {w r : Str} {ls : List Str} : cfg.codeBlock = .parse → LinesWritten CodeLine r ls w → ls ≠ [] →
      ¬ IndentedAt r → BlockOn x cfg (w ++ r) (.codeBlock .indented (joinWith ['\n'] ls)) r
  | fenced {s r : Str} {info : Option Str} {ls : List Str} : cfg.codeBlock = .parse → FencedRead s info ls r →
      BlockOn x cfg s (.codeBlock (.fenced info) (joinWith ['\n'] ls)) r
  | atx {n : Nat} {m t e r : Str} {l : List Inline} : cfg.headingV1 = .parse → HeadingMark cfg n m t → t ≠ [] →
      LineWritten t e r → ReadOn x cfg t l → BlockOn x cfg (m ++ (t ++ (e ++ r))) (.heading (.atx n) l) r
  | thematic {l e r : Str} : cfg.thematicBreak = .parse → ThematicLine l → LineEnd e r →
      BlockOn x cfg (l ++ (e ++ r)) .thematicBreak r
  | quote {s r : Str} {ls : List Str} {bs : List Block} : cfg.blockquote = .parse → QuoteFrame s ls r →
      (∃ l ∈ ls, ¬ Blanks l) → (cfg.githubAlert = .parse → ¬ ∃ t, AlertAt x t s) → DocOn x cfg (joinWith ['\n'] ls) bs →
      BlockOn x cfg s (.blockQuote bs) r
  | alert {s l r : Str} {ls : List Str} {t : AlertType} {bs : List Block} : AlertsOn cfg s → QuoteFrame s (l :: ls) r →
      AlertLine x t l → (ls = [] ∨ ls = [[]] ∨ ∃ l ∈ ls, ¬ Blanks l) → DocOn x cfg (joinWith ['\n'] ls) bs →
      BlockOn x cfg s (.githubAlert t bs) r
  | list {s s' r : Str} {kind : ListKind} {i : ListItem} {l : List ListItem} : cfg.list = .parse →
      ItemOn x cfg s kind i s' → ItemsOn x cfg s' l r → BlockOn x cfg s (.list kind (i :: l)) r
  | html {k : Nat} {h r : Str} : cfg.htmlBlock = .parse → k ≤ 3 → HtmlRead h r →
      BlockOn x cfg (sp k ++ (h ++ r)) (.htmlBlock h) r
  | footnote {s label r : Str} {ls : List Str} {bs : List Block} : cfg.footnoteDefinition = .parse →
      FootnoteRead s label ls r → DocOn x cfg (joinWith ['\n'] ls) bs → BlockOn x cfg s (.footnoteDefinition label bs) r
  | definition {s t d r : Str} {title : Option Str} {l : List Inline} : cfg.linkDefinition = .parse →
      DefRead s t d title r → (cfg.footnoteDefinition = .parse → ¬ FootnoteAt s) → ReadOn x cfg t l →
      BlockOn x cfg s (.definition l d title) r
  | table {s r : Str} {rows : List (List (List Inline))} {as : List Alignment} : cfg.table = .parse →
      TableRead (ReadOn x cfg) s rows as r → BlockOn x cfg s (.table rows as) r
  | paragraph {w r : Str} {ls : List Str} {l : List Inline} : cfg.headingV2 = .parse → ¬ SpecialOn x cfg (w ++ r) → ¬ CustomAt cfg (w ++ r) →
      (¬ ∃ k, UnderlineAt k (w ++ r)) → TextOn cfg r ls w → InterruptsOn cfg r → (¬ ∃ k, UnderlineAt k r) →
      ReadOn x cfg (joinWith ['\n'] ls) l → BlockOn x cfg (w ++ r) (.paragraph l) r
  | setext {w u e r : Str} {k : SetextHeading} {ls : List Str} {l : List Inline} : cfg.headingV2 = .parse →
      ¬ SpecialOn x cfg (w ++ (u ++ (e ++ r))) → ¬ CustomAt cfg (w ++ (u ++ (e ++ r))) → (¬ ∃ k, UnderlineAt k (w ++ (u ++ (e ++ r)))) →
      TextOn cfg (u ++ (e ++ r)) ls w → Underline k u → LineEnd e r → ReadOn x cfg (joinWith ['\n'] ls) l →
      BlockOn x cfg (w ++ (u ++ (e ++ r))) (.heading (.setext k) l) r
  /-- A paragraph of one line: an underline with nothing above it, or any line if underlined headings are ignored. -/
  | line {p t e r : Str} {l : List Inline} : ¬ SpecialOn x cfg (p ++ (t ++ (e ++ r))) → ¬ CustomAt cfg (p ++ (t ++ (e ++ r))) →
      cfg.headingV2 = .ignore ∨ (∃ k, UnderlineAt k (p ++ (t ++ (e ++ r)))) → Indented 3 p t → t ≠ [] →
      LineWritten t e r → ReadOn x cfg t l → BlockOn x cfg (p ++ (t ++ (e ++ r))) (.paragraph l) r
/-- An item of a list. -/
inductive ItemOn (x : PExt) (cfg : PConfig) : Str → ListKind → ListItem → Str → Prop
  | mk {s r : Str} {kind : ListKind} {task : Option TaskState} {ls : List Str} {bs : List Block} :
      ItemFrame s kind task ls r → DocOn x cfg (joinWith ['\n'] ls) bs → ItemOn x cfg s kind (.mk task bs) r
/-- All the items that follow, whatever their markers. -/
inductive ItemsOn (x : PExt) (cfg : PConfig) : Str → List ListItem → Str → Prop
  | stop {s : Str} : (∀ kind, ¬ ItemAt kind s) → ItemsOn x cfg s [] s
  | cons {s s' r : Str} {kind : ListKind} {i : ListItem} {l : List ListItem} : ItemOn x cfg s kind i s' →
      ItemsOn x cfg s' l r → ItemsOn x cfg s (i :: l) r
end

end Verif.Exact
