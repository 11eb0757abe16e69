import Verif.Ast
/-!
# Specification of the Markdown printer

What the Markdown text of a document is, written without the printer: `inlinesSource` and
`blocksSource` are the source text with every text node on one line, and the relations below say
how a wrapped text may differ from it.
-/
namespace Verif
namespace Md
namespace Spec

/-- Every run of whitespace becomes one space. -/
def collapse : Bool → Str → Str
  | _, [] => []
  | inRun, c :: s =>
    if isWs c then (if inRun then collapse true s else ' ' :: collapse true s)
    else c :: collapse false s

/-- A title in double quotes, after a space. -/
def title : Option Str → Str
  | none => []
  | some t => cs!" \"" ++ t ++ cs!"\""

mutual
/-- The Markdown text of an inline; `text` says how a text node is written. -/
def inlineSource (text : Str → Str) : Inline → Str
  | .text t => text t
  | .lineBreak => cs!"  \n"
  | .code c => cs!"`" ++ c ++ cs!"`"
  | .html h => h
  | .emphasis c => cs!"*" ++ inlinesSource text c ++ cs!"*"
  | .strong c => cs!"**" ++ inlinesSource text c ++ cs!"**"
  | .strikethrough c => cs!"~~" ++ inlinesSource text c ++ cs!"~~"
  | .link d t c => cs!"[" ++ inlinesSource text c ++ cs!"](" ++ d ++ title t ++ cs!")"
  | .image d t a => cs!"![" ++ a ++ cs!"](" ++ d ++ title t ++ cs!")"
  | .autolink l => cs!"<" ++ l ++ cs!">"
  | .footnoteReference l => cs!"[^" ++ l ++ cs!"]"
  | .empty => []
  | .linkReference l t =>
    if l = t then cs!"[" ++ inlinesSource text l ++ cs!"]"
    else cs!"[" ++ inlinesSource text t ++ cs!"][" ++ inlinesSource text l ++ cs!"]"
termination_by structural i => i
/-- The Markdown text of inlines. -/
def inlinesSource (text : Str → Str) : List Inline → Str
  | [] => []
  | i :: l => inlineSource text i ++ inlinesSource text l
termination_by structural l => l
end

/-- The Markdown text of inlines with text nodes as they are. -/
abbrev rawSource : List Inline → Str := inlinesSource id

/-- The Markdown text of inlines on one line: whitespace in text nodes is one space. -/
abbrev lineSource : List Inline → Str := inlinesSource (collapse false)

/-- `Wrapped a b`: `b` is `a` with some spaces replaced by newlines. -/
inductive Wrapped : Str → Str → Prop
  | nil : Wrapped [] []
  | keep (c : Char) {a b : Str} : Wrapped a b → Wrapped (c :: a) (c :: b)
  | wrap {a b : Str} : Wrapped a b → Wrapped (' ' :: a) ('\n' :: b)

/-! ## Tables -/

/-- The smallest width of a column whose delimiter cell has at least one dash. -/
def need : Alignment → Nat
  | .none | .left => 1
  | .right => 2
  | .center => 3

/-- The width of column `i`: its longest cell, and at least what its alignment needs. -/
def columnWidth (rows : List (List Str)) (a : Alignment) (i : Nat) : Nat :=
  (rows.map fun r => (r[i]?.getD []).length).foldr max (need a)

/-- `c` padded with spaces to the width `w`, at the end, on both sides or at the beginning. -/
def pad (a : Alignment) (w : Nat) (c : Str) : Str :=
  let n := w - c.length
  match a with
  | .none | .left => c ++ List.replicate n ' '
  | .center => List.replicate (n / 2) ' ' ++ c ++ List.replicate (n - n / 2) ' '
  | .right => List.replicate n ' ' ++ c

/-- The cell of the delimiter row. -/
def delimiter (a : Alignment) (w : Nat) : Str :=
  match a with
  | .none | .left => List.replicate w '-'
  | .center => cs!":" ++ List.replicate (w - 2) '-' ++ cs!":"
  | .right => List.replicate (w - 1) '-' ++ cs!":"

/-- A row: the cells between bars. -/
def row (cells : List Str) : Str := cs!"| " ++ joinWith cs!" | " cells ++ cs!" |"

/-- The lines of a table with the given cells: header, delimiter row, body. -/
def tableLines (al : List Alignment) : List (List Str) → List Str
  | [] => []
  | header :: body =>
    let width := fun i => columnWidth (header :: body) (al[i]?.getD .none) i
    let line := fun (cells : List Str) =>
      row (cells.mapIdx fun i c => pad (al[i]?.getD .none) (width i) c)
    line header :: row (al.mapIdx fun i a => delimiter a (width i)) :: body.map line

/-- Every row has one cell per alignment. -/
def Rectangular {α : Type} (rows : List (List α)) (al : List Alignment) : Prop :=
  ∀ r ∈ rows, r.length = al.length

/-! ## Blocks -/

/-- The marker of the `i`-th item. -/
def marker (k : ListKind) (i : Nat) : Str :=
  match k with
  | .bullet .dash => cs!"-"
  | .bullet .star => cs!"*"
  | .bullet .plus => cs!"+"
  | .ordered start => Nat.toDigits 10 (start + i) ++ cs!"."

/-- The task box. -/
def taskBox : Option TaskState → Str
  | none => []
  | some .complete => cs!"[X] "
  | some .incomplete => cs!"[ ] "

/-- The `i`-th item: indentation, marker, task box, content. -/
def itemText (spaces : Nat) (k : ListKind) (i : Nat) (task : Option TaskState) (body : Str) : Str :=
  List.replicate spaces ' ' ++ marker k i ++ cs!" " ++ taskBox task ++ body

/-- The words of a task box. -/
def taskWords : Option TaskState → List Str
  | none => []
  | some .complete => [cs!"[X]"]
  | some .incomplete => [cs!"[", cs!"]"]

/-- The name of an alert in its marker; `upper` is `str::to_uppercase`. -/
def alertName (upper : Str → Str) : AlertType → Str
  | .note => cs!"NOTE"
  | .tip => cs!"TIP"
  | .important => cs!"IMPORTANT"
  | .warning => cs!"WARNING"
  | .caution => cs!"CAUTION"
  | .custom s => upper s

mutual
/-- The words of the Markdown source of a block, without the `>` of quotes and alerts. -/
def blockWords (upper : Str → Str) : Block → List Str
  | .paragraph c => splitWs (rawSource c)
  | .heading (.atx n) c => splitWs (List.replicate n '#') ++ splitWs (rawSource c)
  | .heading (.setext .level1) c => splitWs (rawSource c) ++ [cs!"=========="]
  | .heading (.setext .level2) c => splitWs (rawSource c) ++ [cs!"----------"]
  | .thematicBreak => [cs!"---"]
  | .blockQuote b => blocksWords upper b
  | .list k items => itemsWords upper k 0 items
  | .codeBlock (.fenced info) s =>
    splitWs (cs!"```" ++ info.getD []) ++ splitWs s ++ [cs!"```"]
  | .codeBlock .indented s => splitWs s
  | .htmlBlock h => splitWs h
  | .definition l d t =>
    splitWs (cs!"[" ++ rawSource l ++ cs!"]:") ++ splitWs (d ++ title t)
  | .empty => []
  | .table rows al => (tableLines al (rows.map (·.map lineSource))).flatMap splitWs
  | .footnoteDefinition l b => splitWs (cs!"[^" ++ l ++ cs!"]:") ++ blocksWords upper b
  | .githubAlert t b => splitWs (cs!"[!" ++ alertName upper t ++ cs!"]") ++ blocksWords upper b
termination_by structural b => b
/-- The words of blocks. -/
def blocksWords (upper : Str → Str) : List Block → List Str
  | [] => []
  | b :: l => blockWords upper b ++ blocksWords upper l
termination_by structural l => l
/-- The words of an item without its marker. -/
def itemWords (upper : Str → Str) : ListItem → List Str
  | .mk task b => taskWords task ++ blocksWords upper b
termination_by structural i => i
/-- The words of items from the `n`-th on. -/
def itemsWords (upper : Str → Str) (k : ListKind) (n : Nat) : List ListItem → List Str
  | [] => []
  | i :: l => marker k n :: (itemWords upper i ++ itemsWords upper k (n + 1) l)
termination_by structural l => l
end

mutual
/-- Neither quotes nor alerts, and all tables rectangular. -/
def Unquoted : Block → Prop
  | .blockQuote _ => False
  | .githubAlert _ _ => False
  | .list _ items => UnquotedItems items
  | .footnoteDefinition _ b => UnquotedBlocks b
  | .table rows al => Rectangular rows al
  | _ => True
termination_by structural b => b
/-- `Unquoted` for blocks. -/
def UnquotedBlocks : List Block → Prop
  | [] => True
  | b :: l => Unquoted b ∧ UnquotedBlocks l
termination_by structural l => l
/-- `Unquoted` for an item. -/
def UnquotedItem : ListItem → Prop
  | .mk _ b => UnquotedBlocks b
termination_by structural i => i
/-- `Unquoted` for items. -/
def UnquotedItems : List ListItem → Prop
  | [] => True
  | i :: l => UnquotedItem i ∧ UnquotedItems l
termination_by structural l => l
end

mutual
/-- All tables are rectangular. -/
def RectTables : Block → Prop
  | .blockQuote b => RectTablesL b
  | .githubAlert _ b => RectTablesL b
  | .list _ items => RectTablesItems items
  | .footnoteDefinition _ b => RectTablesL b
  | .table rows al => Rectangular rows al
  | _ => True
termination_by structural b => b
/-- `RectTables` for blocks. -/
def RectTablesL : List Block → Prop
  | [] => True
  | b :: l => RectTables b ∧ RectTablesL l
termination_by structural l => l
/-- `RectTables` for an item. -/
def RectTablesItem : ListItem → Prop
  | .mk _ b => RectTablesL b
termination_by structural i => i
/-- `RectTables` for items. -/
def RectTablesItems : List ListItem → Prop
  | [] => True
  | i :: l => RectTablesItem i ∧ RectTablesItems l
termination_by structural l => l
end

/-! ## When printing does not panic -/

/-- Every cell beyond the header row's last column is at most three characters long. -/
def TableOk (rows : List (List (List Inline))) : Prop :=
  ∀ r ∈ rows, ∀ (j : Nat) (c : List Inline), r[j]? = some c →
    j < (rows.headD []).length ∨ (lineSource c).length ≤ 3

/-- The number after the last marker is between 1 and `2^64 - 1`. -/
def NumbersOk (k : ListKind) (n : Nat) : Prop :=
  match k with
  | .bullet _ => True
  | .ordered start => 1 ≤ start + n ∧ start + n < 2 ^ 64

/-- The indentation of the blocks of an item below its first line. -/
def contentIndent (spaces : Nat) (k : ListKind) (n : Nat) : Nat :=
  match k with
  | .bullet _ => 2 + spaces
  | .ordered start => (Nat.toDigits 10 (start + n - 1)).length + 2 + spaces

/-- The columns before the content of the `i`-th item. -/
def itemColumns (spaces : Nat) (k : ListKind) (i : Nat) (task : Option TaskState) : Nat :=
  spaces + (marker k i).length + 1 + (taskBox task).length

mutual
/-- Printing the block at indentation `ind` from column `col` does not panic: quotes need two more
columns, lists valid numbers.  `dw` is the display width, `w` the configured width, `sp` the
spaces before list items. -/
def Printable (dw : Str → Nat) (w sp : Nat) (ind col : Nat) : Block → Prop
  | .blockQuote b => col + 2 ≤ w ∧ PrintableL dw w sp 0 0 b
  | .list k items =>
    NumbersOk k items.length ∧
      PrintableItems dw w sp k (ind + contentIndent sp k items.length) ind 0 col items
  | .table rows _ => TableOk rows
  | .footnoteDefinition l b => PrintableL dw w sp ind (col + dw (cs!"[^" ++ l ++ cs!"]: ")) b
  | .githubAlert _ b => PrintableL dw w sp 0 0 b
  | _ => True
termination_by structural b => b
/-- `Printable` for blocks: the first one starts at column `col`, the others at the indentation. -/
def PrintableL (dw : Str → Nat) (w sp : Nat) (ind col : Nat) : List Block → Prop
  | [] => True
  | b :: l => Printable dw w sp ind col b ∧ PrintableL dw w sp ind ind l
termination_by structural l => l
/-- `Printable` for the blocks of an item. -/
def PrintableItem (dw : Str → Nat) (w sp : Nat) (ind col : Nat) : ListItem → Prop
  | .mk _ b => PrintableL dw w sp ind col b
termination_by structural i => i
/-- `Printable` for the items of a list from the `n`-th on, the next one at column `col`, the
others at the indentation `ind` of the list; `inner` is the indentation of their content. -/
def PrintableItems (dw : Str → Nat) (w sp : Nat) (k : ListKind) (inner ind n col : Nat) :
    List ListItem → Prop
  | [] => True
  | i :: l =>
    PrintableItem dw w sp inner (col + itemColumns sp k n i.task) i ∧
      PrintableItems dw w sp k inner ind (n + 1) ind l
termination_by structural l => l
end

end Spec
end Md
end Verif
