import Verif.Latex
import Verif.ParserBlock
/-!
# The Markdown printer (`src/printer/`)

A panic is `none` (while documents are built) or the document `Doc.panic` (in the closure that the
renderer runs for a block quote).  Integer overflow and underflow are panics (debug builds).
-/
namespace Verif
namespace Md
open Nom (isDigit)

/-- `printer::config::Config`, `src/printer/config.rs:2-6`. -/
structure Config where
  width : Nat
  spacesBeforeListItem : Nat
  emptyLineBeforeList : Bool

/-- `Config::default`, `src/printer/config.rs:9-15`. -/
def Config.default : Config := ⟨80, 1, true⟩

/-- What the printer takes from outside the repository, besides the upper-case forms in `PExt`: the
display width of a text (the length of an ASCII text) and the Unicode digits (`\d` of the `regex`
crate, category `Nd`), of which proofs use only that the ASCII ones are `0` to `9` and that they are
not whitespace. -/
structure Ext extends PExt where
  dw : Str → Nat
  dw_ascii : ∀ s : Str, (∀ c ∈ s, c.toNat < 128) → dw s = s.length
  digit : Char → Bool
  digit_ascii : ∀ c, c.toNat < 128 → digit c = isDigit c
  digit_not_ws : ∀ c, digit c = true → isWs c = false

theorem isDigit_not_ws (c : Char) (h : isDigit c = true) : isWs c = false := by
  simp only [isDigit, Bool.and_eq_true, decide_eq_true_eq, Char.le_def] at h
  have h1 : 48 ≤ c.toNat := h.1
  have h2 : c.toNat ≤ 57 := h.2
  simp [isWs]; omega

/-- An instance of `Ext`: ASCII only, every character one column wide. -/
def Ext.ascii : Ext where
  toPExt := PExt.ascii
  dw := List.length
  dw_ascii := fun _ _ => rfl
  digit := isDigit
  digit_ascii := fun _ _ => rfl
  digit_not_ws := isDigit_not_ws

/-- A Rust integer in decimal (`format!("{n}")`). -/
def natStr (n : Nat) : Str := Nat.toDigits 10 n

/-! ## The detector of block syntax (`markdown_syntax_detector.rs`) -/

/-- `MARKDOWN_BLOCK_STARTERS`, `src/printer/markdown_syntax_detector.rs:11-11`. -/
def blockStarters : List Char := ['-', '*', '+', '#', '>', '|']

/-- `^\d+\.$`, `src/printer/markdown_syntax_detector.rs:14-17`. -/
def orderedListRegex (x : Ext) (w : Str) : Bool :=
  w.getLast? == some '.' && !w.dropLast.isEmpty && w.dropLast.all x.digit

/-- `^(-{3,}|\*{3,}|_{3,})$`, `src/printer/markdown_syntax_detector.rs:20-23`. -/
def horizontalRuleRegex (w : Str) : Bool :=
  decide (3 ≤ w.length) && (w.all (· == '-') || w.all (· == '*') || w.all (· == '_'))

/-- ``^(`{3,}|~{4,})``, `src/printer/markdown_syntax_detector.rs:26-29`. -/
def codeFenceRegex (w : Str) : Bool := cs!"```".isPrefixOf w || cs!"~~~~".isPrefixOf w

/-- The checks after the single-character case, `src/printer/markdown_syntax_detector.rs:59-84`. -/
def longSyntax (x : Ext) (w : Str) : Bool :=
  (w.head? == some '#' && w.all (· == '#')) || orderedListRegex x w || horizontalRuleRegex w ||
  codeFenceRegex w || cs!"    ".isPrefixOf w || w.head? == some '\t'

/-- `is_markdown_syntax_at_line_start`, `src/printer/markdown_syntax_detector.rs:45-85`;
`word.len() == 1` holds of a single ASCII character. -/
def isSyntax (x : Ext) : Str → Bool
  | [] => false
  | [c] => if c.toNat < 128 then c == '\t' || blockStarters.contains c else longSyntax x [c]
  | w => longSyntax x w

/-- `is_safe_line_break_before`, `src/printer/markdown_syntax_detector.rs:100-102`. -/
def isSafeBreakBefore (x : Ext) (w : Str) : Bool := !isSyntax x w

/-! ## Inlines (`inline.rs`) -/

/-- `split_with_spaces`, `src/printer/inline.rs:125-148`: the same code as in the LaTeX printer
(`src/latex_printer/inline.rs:158-183`). -/
def splitWithSpaces (s : Str) : List (Option Str) := Latex.splitGo s [] []

/-- `find_next_word`, `src/printer/inline.rs:217-219`. -/
def findNextWord : List (Option Str) → Option Str
  | [] => none
  | some w :: _ => some w
  | none :: l => findNextWord l

/-- The loop of `safe_text_layout`, `src/printer/inline.rs:164-206`. -/
def safeTextDocs (x : Ext) : List (Option Str) → List Doc
  | [] => []
  | some w :: l => .text w :: safeTextDocs x l
  | none :: l =>
    (match findNextWord l with
     | some next => if isSafeBreakBefore x next then Doc.softline else Doc.text [' ']
     | none => Doc.softline) :: safeTextDocs x l

/-- `safe_text_layout`, `src/printer/inline.rs:164-206`. -/
def safeTextLayout (x : Ext) (l : List (Option Str)) : Doc := Doc.concat (safeTextDocs x l)

/-- The text case, `src/printer/inline.rs:34-50`; `nl` is `allow_newlines`. -/
def textDoc (x : Ext) (nl : Bool) (t : Str) : Doc :=
  let words := splitWithSpaces (Latex.nlToSpace t)
  if nl then safeTextLayout x words
  else Doc.concat (words.map fun
    | some w => Doc.text w
    | none => Doc.text [' '])

/-- The title of a link, `src/printer/inline.rs:72-78`. -/
def linkTitleDoc : Option Str → Doc
  | some v => ((Doc.text cs!" \"").app (.text v)).app (.text cs!"\"")
  | none => .nil

/-- The title of an image, `src/printer/inline.rs:91-94`, and of a definition,
`src/printer/block.rs:83-90`. -/
def titlePart : Option Str → Str
  | some t => cs!" \"" ++ t ++ cs!"\""
  | none => []

mutual
/-- `impl ToDocInline for Inline`, `src/printer/inline.rs:27-122`. -/
def inlineDoc (x : Ext) (nl : Bool) : Inline → Doc
  | .text t => textDoc x nl t
  | .lineBreak => .text cs!"  \n"
  | .code c => ((Doc.text cs!"`").app (.text c)).app (.text cs!"`")
  | .html h => .text h
  | .emphasis c => ((Doc.text cs!"*").app (Doc.concat (inlineDocs x nl c))).app (.text cs!"*")
  | .strong c => ((Doc.text cs!"**").app (Doc.concat (inlineDocs x nl c))).app (.text cs!"**")
  | .strikethrough c =>
    ((Doc.text cs!"~~").app (Doc.concat (inlineDocs x nl c))).app (.text cs!"~~")
  | .link d t c =>
    (((((Doc.text cs!"[").app (Doc.concat (inlineDocs x nl c))).app (.text cs!"](")).app
      (.text d)).app (linkTitleDoc t)).app (.text cs!")")
  | .image d t a =>
    (((((Doc.text cs!"![").app (.text a)).app (.text cs!"](")).app (.text d)).app
      (.text (titlePart t))).app (.text cs!")")
  | .autolink l => .text (cs!"<" ++ l ++ cs!">")
  | .footnoteReference l => .text (cs!"[^" ++ l ++ cs!"]")
  | .empty => .nil
  | .linkReference l t =>
    if l = t then ((Doc.text cs!"[").app (Doc.concat (inlineDocs x nl l))).app (.text cs!"]")
    else ((((Doc.text cs!"[").app (Doc.concat (inlineDocs x nl t))).app (.text cs!"][")).app
      (Doc.concat (inlineDocs x nl l))).app (.text cs!"]")
termination_by structural i => i
/-- The iterator of `impl ToDocInline for Vec<Inline>`, `src/printer/inline.rs:13-25`. -/
def inlineDocs (x : Ext) (nl : Bool) : List Inline → List Doc
  | [] => []
  | i :: l => inlineDoc x nl i :: inlineDocs x nl l
termination_by structural l => l
end

/-- `impl ToDocInline for Vec<Inline>`, `src/printer/inline.rs:13-25`. -/
def inlinesDoc (x : Ext) (nl : Bool) (l : List Inline) : Doc := Doc.concat (inlineDocs x nl l)

/-! ## Headings (`heading.rs`) -/

/-- `impl ToDoc for Heading`, `src/printer/heading.rs:6-32`. -/
def headingDoc (x : Ext) (k : HeadingKind) (c : List Inline) : Doc :=
  match k with
  | .atx level =>
    ((Doc.text (List.replicate level '#')).app (.text cs!" ")).app (inlinesDoc x false c)
  | .setext .level1 => ((inlinesDoc x true c).app .hardline).app (.text cs!"==========")
  | .setext .level2 => ((inlinesDoc x true c).app .hardline).app (.text cs!"----------")

/-! ## Tables (`table.rs`) -/

/-- `usize::MAX`. -/
def usizeMax : Nat := 2 ^ 64 - 1

/-- `render_cell`, `src/printer/table.rs:193-200`. -/
def renderCell (x : Ext) (cell : List Inline) : Str := (inlinesDoc x false cell).render x.dw usizeMax

/-- `table_content`, `src/printer/table.rs:180-191`. -/
def tableContent (x : Ext) (rows : List (List (List Inline))) : List (List Str) :=
  rows.map fun row => row.map (renderCell x)

/-- `column_content_width`, `src/printer/table.rs:166-178`. -/
def columnContentWidth (table : List (List Str)) (i : Nat) : Nat :=
  table.foldl (fun m row => match row[i]? with
    | some cell => if cell.length > m then cell.length else m
    | none => m) 0

/-- The smallest width of a column, `src/printer/table.rs:152-158`. -/
def alignmentWidth : Option Alignment → Nat
  | some .left => 1
  | some .center => 3
  | some .right => 2
  | some .none => 1
  | none => 1

/-- `column_width`, `src/printer/table.rs:150-164`. -/
def columnWidth (table : List (List Str)) (al : List Alignment) (i : Nat) : Nat :=
  if columnContentWidth table i > alignmentWidth al[i]? then columnContentWidth table i
  else alignmentWidth al[i]?

/-- `columns_width`, `src/printer/table.rs:141-148`. -/
def columnsWidth (table : List (List Str)) (al : List Alignment) : List Nat :=
  (List.range (table.headD []).length).map (columnWidth table al)

/-- `column_width - cell.chars().count()`, e.g. `src/printer/table.rs:118`: panics on underflow. -/
def padding (w : Nat) (cell : Str) : Option Nat :=
  if cell.length ≤ w then some (w - cell.length) else none

/-- `cell_to_doc`, `src/printer/table.rs:107-139` (its text). -/
def cellText (cell : Str) (w : Nat) (al : Alignment) : Option Str := do
  let p ← padding w cell
  match al with
  | .none | .left => some (cell ++ List.replicate p ' ')
  | .center =>
    some (List.replicate (p / 2) ' ' ++ cell ++ List.replicate (p - p / 2) ' ')
  | .right => some (List.replicate p ' ' ++ cell)

/-- The cell loop of `row_to_doc`, `src/printer/table.rs:95-103`. -/
def rowCells (widths : List Nat) (al : List Alignment) : Nat → Doc → List Str → Option Doc
  | _, acc, [] => some acc
  | i, acc, cell :: l => do
    let acc := if i > 0 then acc.app (.text cs!" | ") else acc
    let t ← cellText cell (widths[i]?.getD 3) (al[i]?.getD .left)
    rowCells widths al (i + 1) (acc.app (.text t)) l

/-- `row_to_doc`, `src/printer/table.rs:88-105`. -/
def rowDoc (row : List Str) (widths : List Nat) (al : List Alignment) : Option Doc := do
  let acc ← rowCells widths al 0 (.text cs!"| ") row
  some (acc.app (.text cs!" |"))

/-- `alignment_to_doc`, `src/printer/table.rs:56-86`. -/
def alignmentDoc (al : Alignment) (w : Nat) : Doc :=
  match al with
  | .none | .left => .text (List.replicate (if w > 1 then w else 1) '-')
  | .center =>
    ((Doc.text cs!":").app (.text (List.replicate (if w > 2 then w - 2 else 1) '-'))).app
      (.text cs!":")
  | .right => (Doc.text (List.replicate (if w > 1 then w - 1 else 1) '-')).app (.text cs!":")

/-- The loop of `alignments_row_to_doc`, `src/printer/table.rs:45-53`. -/
def alignmentCells (widths : List Nat) : Nat → Doc → List Alignment → Doc
  | _, acc, [] => acc
  | i, acc, a :: l =>
    let acc := if i > 0 then acc.app (.text cs!" | ") else acc
    alignmentCells widths (i + 1) (acc.app (alignmentDoc a (widths[i]?.getD 3))) l

/-- `alignments_row_to_doc`, `src/printer/table.rs:40-54`. -/
def alignmentsRowDoc (al : List Alignment) (widths : List Nat) : Doc :=
  (alignmentCells widths 0 (.text cs!"| ") al).app (.text cs!" |")

/-- `impl ToDoc for Table`, `src/printer/table.rs:7-38`. -/
def tableDoc (x : Ext) (rows : List (List (List Inline))) (al : List Alignment) : Option Doc :=
  match tableContent x rows with
  | [] => some .nil
  | first :: rest => do
    let widths := columnsWidth (first :: rest) al
    let header ← rowDoc first widths al
    let separator := alignmentsRowDoc al widths
    let body ← rest.mapM fun row => rowDoc row widths al
    let tableDoc := Doc.intersperse (header :: separator :: body) .hardline
    some (.text (tableDoc.render x.dw usizeMax))

/-! ## Quotes and alerts (`blockquote.rs`, `github_alert.rs`) -/

/-- The closure of `blockquote_to_doc`, `src/printer/blockquote.rs:12-29`; `inner` is
`blocks.to_doc(..)` and the column is the argument `col`. -/
def quoteDoc (x : Ext) (cfg : Config) (inner : Option Doc) (col : Nat) : Doc :=
  match inner with
  | none => .panic
  | some d =>
    if col + 2 ≤ cfg.width then
      match d.renderE x.dw (cfg.width - col - 2) with
      | none => .panic
      | some text =>
        Doc.intersperse ((rustLines text).map fun l => (Doc.text cs!"> ").app (.text l)) .hardline
    else .panic

/-- `as_markdown_str`, `src/printer/github_alert.rs:8-17`. -/
def alertName : AlertType → Str
  | .note => cs!"note"
  | .tip => cs!"tip"
  | .important => cs!"important"
  | .warning => cs!"warning"
  | .caution => cs!"caution"
  | .custom s => s

/-- A line of the content of an alert, `src/printer/github_alert.rs:36-44`. -/
def alertLine (l : Str) : Str :=
  if l.isEmpty then cs!">"
  else if l.all isWs then cs!">"
  else cs!"> " ++ l

/-- `github_alert_to_doc`, `src/printer/github_alert.rs:21-51`; `content` is
`alert.blocks.to_doc(..)`, and `none` if there are no blocks. -/
def alertDoc (x : Ext) (t : AlertType) (content : Option Doc) : Option Doc := do
  let marker := cs!"> [!" ++ x.toPExt.upperStr (alertName t) ++ cs!"]"
  let rest ← match content with
    | none => some []
    | some d => (d.renderE x.dw 80).map fun s => (rustLines s).map alertLine
  some (Doc.intersperse ((marker :: rest).map .text) .hardline)

/-! ## Lists (`list.rs`) -/

/-- The marker of an item, `src/printer/list.rs:28-37`. -/
def marker (k : ListKind) (counter : Nat) : Str :=
  match k with
  | .bullet .dash => cs!"-"
  | .bullet .star => cs!"*"
  | .bullet .plus => cs!"+"
  | .ordered _ => natStr counter ++ cs!"."

/-- The task marker, `src/printer/list.rs:39-43`. -/
def taskDoc : Option TaskState → Doc
  | some .complete => (Doc.text cs!"[X]").app (.text cs!" ")
  | some .incomplete => (Doc.text cs!"[ ]").app (.text cs!" ")
  | none => .nil

/-- The counter before the first item, `src/printer/list.rs:12-16`. -/
def firstCounter : ListKind → Nat
  | .ordered start => start
  | .bullet _ => 0

/-- `counter += 1` for ordered lists, `src/printer/list.rs:34`. -/
def nextCounter (k : ListKind) (c : Nat) : Option Nat :=
  match k with
  | .ordered _ => if c + 1 < u64Bound then some (c + 1) else none
  | .bullet _ => some c

/-- The prefix length, `src/printer/list.rs:17-26`, for `n` items. -/
def prefixLength (cfg : Config) (k : ListKind) (n : Nat) : Option Nat :=
  match k with
  | .bullet _ => some (2 + cfg.spacesBeforeListItem)
  | .ordered start =>
    if start + n < u64Bound ∧ 1 ≤ start + n then
      some ((natStr (start + n - 1)).length + 2 + cfg.spacesBeforeListItem)
    else none

/-- An item, `src/printer/list.rs:45-59`; `blocks` is `item.blocks.to_doc(..)`. -/
def itemDoc (cfg : Config) (k : ListKind) (pl counter : Nat) (task : Option TaskState)
    (blocks : Doc) : Doc :=
  ((((Doc.text (List.replicate cfg.spacesBeforeListItem ' ')).app (.text (marker k counter))).app
    (.text cs!" ")).app (taskDoc task)).app (.group (.nest pl blocks))

/-! ## Blocks (`block.rs`) -/

/-- A code block, `src/printer/block.rs:58-77`. -/
def codeBlockDoc (k : CodeBlockKind) (literal : Str) : Doc :=
  match k with
  | .fenced info =>
    ((Doc.text (cs!"```" ++ info.getD [] ++ cs!"\n")).app (.text literal)).app (.text cs!"\n```")
  | .indented => .text (joinWith ['\n'] ((rustLines literal).map fun l => cs!"    " ++ l))

/-- Is the block a list?  (`matches!(block, Block::List(_))`, `src/printer/block.rs:28`.) -/
def isList : Block → Bool
  | .list _ _ => true
  | _ => false

/-- What precedes a block that is not the first one, `src/printer/block.rs:25-36`. -/
def separate (cfg : Config) (acc : Doc) (b : Block) : Doc :=
  let acc := acc.app .hardline
  if isList b then (if cfg.emptyLineBeforeList then acc.app .hardline else acc)
  else acc.app .hardline

mutual
/-- `impl ToDoc for Block`, `src/printer/block.rs:44-102`. -/
def blockDoc (x : Ext) (cfg : Config) : Block → Option Doc
  | .paragraph c => some (inlinesDoc x true c)
  | .heading k c => some (headingDoc x k c)
  | .thematicBreak => some (.text cs!"---")
  | .blockQuote b =>
    let inner := blocksDoc x cfg true .nil b
    some (.column (quoteDoc x cfg inner))
  | .list k items =>
    match prefixLength cfg k items.length with
    | none => none
    | some pl => match itemDocs x cfg k pl (firstCounter k) items with
      | none => none
      | some ds => some (Doc.intersperse ds .hardline)
  | .codeBlock k s => some (codeBlockDoc k s)
  | .htmlBlock h => some (.text h)
  | .definition l d t =>
    some ((((Doc.text cs!"[").app (inlinesDoc x true l)).app (.text cs!"]: ")).app
      (.text (d ++ titlePart t)))
  | .empty => some .nil
  | .table rows al => tableDoc x rows al
  | .footnoteDefinition l b =>
    match blocksDoc x cfg true .nil b with
    | none => none
    | some d => some ((Doc.text (cs!"[^" ++ l ++ cs!"]: ")).app d)
  | .githubAlert t b =>
    match blocksDoc x cfg true .nil b with
    | none => none
    | some d => alertDoc x t (if b.isEmpty then none else some d)
termination_by structural b => b
/-- `impl ToDoc for Vec<&Block>`, `src/printer/block.rs:17-41`. -/
def blocksDoc (x : Ext) (cfg : Config) (first : Bool) (acc : Doc) : List Block → Option Doc
  | [] => some acc
  | b :: l =>
    match blockDoc x cfg b with
    | none => none
    | some d => blocksDoc x cfg false ((if first then acc else separate cfg acc b).app d) l
termination_by structural l => l
/-- `item.blocks.to_doc(..)`, `src/printer/list.rs:53-54`. -/
def itemBlocksDoc (x : Ext) (cfg : Config) : ListItem → Option Doc
  | .mk _ b => blocksDoc x cfg true .nil b
termination_by structural i => i
/-- The item iterator of `impl ToDoc for List`, `src/printer/list.rs:27-60`. -/
def itemDocs (x : Ext) (cfg : Config) (k : ListKind) (pl counter : Nat) :
    List ListItem → Option (List Doc)
  | [] => some []
  | i :: l =>
    match itemBlocksDoc x cfg i with
    | none => none
    | some d => match nextCounter k counter with
      | none => none
      | some c => match itemDocs x cfg k pl c l with
        | none => none
        | some ds => some (itemDoc cfg k pl counter i.task d :: ds)
termination_by structural l => l
end

/-- `render_markdown`, `src/printer/mod.rs:123-131`. -/
def renderMarkdown (x : Ext) (cfg : Config) (ast : Document) : Option Str :=
  match blocksDoc x cfg true .nil ast.blocks with
  | none => none
  | some d => d.renderE x.dw cfg.width

end Md
end Verif
