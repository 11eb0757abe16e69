import Verif.PrinterLayoutSpec
/-!
# The exact Markdown text of a document (specification for C86)

Nothing here refers to the printer.  A document is a sequence of words, gaps and line breaks, each at an
indentation; `lay` puts it on lines of a width.  The text of a quote depends on the column in which it begins.
-/
set_option autoImplicit false
namespace Verif
namespace Md
namespace Spec

/-- A word is never divided; a gap is a blank or a line break. -/
inductive Piece where
  | word (s : Str)
  | gap
  | newline

/-- Pieces with the indentation of the lines they are on. -/
abbrev Pieces := List (Nat × Piece)

/-- All the pieces at one indentation. -/
def atIndent (ind : Nat) (l : List Piece) : Pieces := l.map fun p => (ind, p)

/-! ## Lines -/

section
variable (dw : Str → Nat) (w : Nat)

/-- The width of the words up to the next gap or line break. -/
def ahead : Pieces → Nat
  | (_, .word s) :: t => dw s + ahead t
  | _ => 0

/-- The indentation of a new line: that of what follows. -/
def nextIndent (ind : Nat) : Pieces → Nat
  | [] => ind
  | (j, _) :: _ => j

/-- The pieces on lines of width `w`, from the column `col` on: at a gap the line goes on if the words up to the
next gap fit. -/
def lay : Nat → Pieces → Str
  | _, [] => []
  | col, (_, .word s) :: t => s ++ lay (col + dw s) t
  | col, (i, .gap) :: t =>
    if col + 1 + ahead dw t ≤ w then ' ' :: lay (col + 1) t
    else newline (nextIndent i t) ++ lay (nextIndent i t) t
  | _, (i, .newline) :: t => newline (nextIndent i t) ++ lay (nextIndent i t) t

end

/-! ## Inlines -/

/-- The words of a text; `none` is whitespace. -/
def wordsOf : Str → List (Option Str)
  | [] => []
  | c :: s =>
    if isWs c then
      match wordsOf s with
      | none :: l => none :: l
      | l => none :: l
    else
      match wordsOf s with
      | some v :: l => some (c :: v) :: l
      | l => some [c] :: l

/-- The pieces of a text: the line is not broken in front of a word that could start a block. -/
def textPieces (digit : Char → Bool) : List (Option Str) → List Piece
  | [] => []
  | some v :: l => .word v :: textPieces digit l
  | none :: some v :: l => (if startsBlock digit v then .word [' '] else .gap) :: .word v :: textPieces digit l
  | none :: l => .gap :: textPieces digit l

/-- The title of a link. -/
def titlePieces : Option Str → List Piece
  | none => []
  | some t => [.word cs!" \"", .word t, .word cs!"\""]

mutual
/-- The pieces of an inline. -/
def inlinePieces (digit : Char → Bool) : Inline → List Piece
  | .text t => textPieces digit (wordsOf t)
  | .lineBreak => [.word cs!"  \n"]
  | .code c => [.word cs!"`", .word c, .word cs!"`"]
  | .html h => [.word h]
  | .emphasis c => [.word cs!"*"] ++ inlinesPieces digit c ++ [.word cs!"*"]
  | .strong c => [.word cs!"**"] ++ inlinesPieces digit c ++ [.word cs!"**"]
  | .strikethrough c => [.word cs!"~~"] ++ inlinesPieces digit c ++ [.word cs!"~~"]
  | .link d t c => [.word cs!"["] ++ inlinesPieces digit c ++ [.word cs!"](", .word d] ++ titlePieces t ++ [.word cs!")"]
  | .image d t a => [.word cs!"![", .word a, .word cs!"](", .word d, .word (title t), .word cs!")"]
  | .autolink l => [.word (cs!"<" ++ l ++ cs!">")]
  | .footnoteReference l => [.word (cs!"[^" ++ l ++ cs!"]")]
  | .empty => []
  | .linkReference l t =>
    if l = t then [.word cs!"["] ++ inlinesPieces digit l ++ [.word cs!"]"]
    else [.word cs!"["] ++ inlinesPieces digit t ++ [.word cs!"]["] ++ inlinesPieces digit l ++ [.word cs!"]"]
termination_by structural i => i
/-- The pieces of inlines. -/
def inlinesPieces (digit : Char → Bool) : List Inline → List Piece
  | [] => []
  | i :: l => inlinePieces digit i ++ inlinesPieces digit l
termination_by structural l => l
end

/-- The gaps are blanks: the line is not broken. -/
def unbroken : List Piece → List Piece
  | [] => []
  | .gap :: l => .word [' '] :: unbroken l
  | p :: l => p :: unbroken l

/-! ## Blocks -/

/-- The line breaks between the block and the block before it. -/
def gapBefore (y : Style) : Block → List Piece
  | .list _ _ => if y.blankBeforeList then [.newline, .newline] else [.newline]
  | _ => [.newline, .newline]

/-- Pieces on lines of their own. -/
def onLines : List (List Piece) → List Piece
  | [] => []
  | [l] => l
  | l :: ls => l ++ .newline :: onLines ls

/-- The lines of a quote. -/
def quotePieces (ls : List Str) : List Piece :=
  if ls = [] then [.word []] else onLines (ls.map fun l => [.word cs!"> ", .word l])

/-- The marker and the box of an item. -/
def itemPieces (spaces : Nat) (k : ListKind) (i : Nat) (task : Option TaskState) : List Piece :=
  [.word (List.replicate spaces ' '), .word (marker k i), .word [' ']] ++
    match task with
    | none => []
    | some .complete => [.word cs!"[X]", .word [' ']]
    | some .incomplete => [.word cs!"[ ]", .word [' ']]

/-- The width of column `i` of a table: as in a rectangular table, three where the header has no cell. -/
def widthOf (al : List Alignment) (rows : List (List Str)) (i : Nat) : Nat :=
  if i < (rows.headD []).length then columnWidth rows (al[i]?.getD .none) i else 3

/-- The lines of any table: header, delimiter row, body. -/
def anyTableLines (al : List Alignment) : List (List Str) → List Str
  | [] => []
  | header :: body =>
    let width := widthOf al (header :: body)
    let line := fun (cells : List Str) => row (cells.mapIdx fun i c => pad (al[i]?.getD .none) (width i) c)
    line header :: row (al.mapIdx fun i a => delimiter a (width i)) :: body.map line

section
variable (dw : Str → Nat) (w : Nat) (y : Style)

mutual
/-- The pieces of a block at the indentation `ind` that begins in the column `col`; `w` is the width of the document.
The content of a quote has the width that is left, that of an alert eighty columns. -/
def blockPieces (ind col : Nat) : Block → Pieces
  | .paragraph c => atIndent ind (inlinesPieces y.digit c)
  | .heading (.atx n) c =>
    atIndent ind ([.word (List.replicate n '#'), .word [' ']] ++ unbroken (inlinesPieces y.digit c))
  | .heading (.setext v) c => atIndent ind (inlinesPieces y.digit c ++ [.newline, .word (underline v)])
  | .thematicBreak => atIndent ind [.word cs!"---"]
  | .blockQuote b => atIndent ind (quotePieces (rustLines (lay dw (w - col - 2) 0 (blocksPieces 0 0 true b))))
  | .list k items => itemsPieces k (ind + contentIndent y.spaces k items.length) ind 0 col items
  | .codeBlock (.fenced info) t => atIndent ind [.word (cs!"```" ++ info.getD [] ++ cs!"\n"), .word t, .word cs!"\n```"]
  | .codeBlock .indented t => atIndent ind [.word (joinWith cs!"\n" ((rustLines t).map fun l => cs!"    " ++ l))]
  | .htmlBlock t => atIndent ind [.word t]
  | .definition l d t =>
    atIndent ind ([.word cs!"["] ++ inlinesPieces y.digit l ++ [.word cs!"]: ", .word (d ++ title t)])
  | .empty => []
  | .table rows al =>
    if rows = [] then [] else atIndent ind [.word (joinWith cs!"\n" (anyTableLines al (rows.map (·.map lineSource))))]
  | .footnoteDefinition l b =>
    (ind, .word (cs!"[^" ++ l ++ cs!"]: ")) :: blocksPieces ind (col + dw (cs!"[^" ++ l ++ cs!"]: ")) true b
  | .githubAlert t b =>
    atIndent ind (onLines ([.word (cs!"> [!" ++ alertName y.upper t ++ cs!"]")] ::
      (rustLines (lay dw 80 0 (blocksPieces 0 0 true b))).map fun l => [.word (alertLine l)]))
termination_by structural b => b
/-- The pieces of blocks, the first of which begins in the column `col` (`first`: no blocks precede them). -/
def blocksPieces (ind col : Nat) (first : Bool) : List Block → Pieces
  | [] => []
  | b :: l => (if first then [] else atIndent ind (gapBefore y b)) ++ blockPieces ind col b ++ blocksPieces ind ind false l
termination_by structural l => l
/-- The pieces of the blocks of an item. -/
def contentPieces (ind col : Nat) : ListItem → Pieces
  | .mk _ b => blocksPieces ind col true b
termination_by structural i => i
/-- The pieces of the items of a list at the indentation `ind`, from the `i`-th on; `inner` is the indentation of
their content. -/
def itemsPieces (k : ListKind) (inner ind i col : Nat) : List ListItem → Pieces
  | [] => []
  | it :: l => (if i = 0 then [] else [(ind, .newline)]) ++ atIndent ind (itemPieces y.spaces k i it.task) ++
      contentPieces inner (col + itemColumns y.spaces k i it.task) it ++ itemsPieces k inner ind (i + 1) ind l
termination_by structural l => l
end

/-- The Markdown text of a document. -/
def markdownText (bs : List Block) : Str := lay dw w 0 (blocksPieces dw w y 0 0 true bs)

end

end Spec
end Md
end Verif
