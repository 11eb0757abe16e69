import Verif.PrinterSpec
/-!
# The Markdown text of a document

What a reader of `render_markdown` output expects, as a relation between a document and a text.
Nothing here refers to the printer.
-/
namespace Verif
namespace Md
namespace Spec

/-- Markdown text; `none` is a blank at which the line may be broken. -/
abbrev Text := List (Option Char)

/-- Text printed as it is. -/
def lit (s : Str) : Text := s.map some

/-- A line break followed by the indentation. -/
def newline (ind : Nat) : Str := '\n' :: List.replicate ind ' '

/-- The text `t` laid out at indentation `ind`: each break opportunity is a space or a line break
(one at the very end may be followed by less indentation). -/
inductive Laid (ind : Nat) : Text → Str → Prop
  | nil : Laid ind [] []
  | char (c : Char) {t : Text} {s : Str} : Laid ind t s → Laid ind (some c :: t) (c :: s)
  | space {t : Text} {s : Str} : Laid ind t s → Laid ind (none :: t) (' ' :: s)
  | break {t : Text} {s : Str} : Laid ind t s → Laid ind (none :: t) (newline ind ++ s)
  | last {j : Nat} : j ≤ ind → Laid ind [none] (newline j)

/-- What the text depends on besides the document: digits, upper case, the spaces before list
items and whether a list is separated by a blank line from what precedes it. -/
structure Style where
  digit : Char → Bool
  upper : Str → Str
  spaces : Nat
  blankBeforeList : Bool

/-- The word at the beginning of a text, after whitespace. -/
def nextWord (s : Str) : Str := (s.dropWhile isWs).takeWhile fun c => !isWs c

/-- A number and a dot. -/
def numbered (digit : Char → Bool) (w : Str) : Bool :=
  w.getLast? == some '.' && !w.dropLast.isEmpty && w.dropLast.all digit

/-- The words that the printer does not put at the beginning of a line: markers of bullet items,
quotes and table rows, runs of `#`, numbers with a dot, thematic breaks and code fences. -/
def startsBlock (digit : Char → Bool) (w : Str) : Bool :=
  [cs!"-", cs!"*", cs!"+", cs!">", cs!"|"].contains w ||
  (!w.isEmpty && w.all (· == '#')) ||
  numbered digit w ||
  (decide (3 ≤ w.length) && ['-', '*', '_'].any fun c => w.all (· == c)) ||
  cs!"```".isPrefixOf w || cs!"~~~~".isPrefixOf w

/-- A text node: each run of whitespace is one blank, and the line may be broken there unless the
next word could start a block (`after`: a blank has just been printed). -/
def textToks (digit : Char → Bool) (after : Bool) : Str → Text
  | [] => []
  | c :: s =>
    if isWs c then
      if after then textToks digit true s
      else (if startsBlock digit (nextWord s) then some ' ' else none) :: textToks digit true s
    else some c :: textToks digit false s

mutual
/-- The Markdown text of an inline with its break opportunities. -/
def inlineToks (digit : Char → Bool) : Inline → Text
  | .text t => textToks digit false t
  | .lineBreak => lit cs!"  \n"
  | .code c => lit (cs!"`" ++ c ++ cs!"`")
  | .html h => lit h
  | .emphasis c => lit cs!"*" ++ inlinesToks digit c ++ lit cs!"*"
  | .strong c => lit cs!"**" ++ inlinesToks digit c ++ lit cs!"**"
  | .strikethrough c => lit cs!"~~" ++ inlinesToks digit c ++ lit cs!"~~"
  | .link d t c => lit cs!"[" ++ inlinesToks digit c ++ lit (cs!"](" ++ d ++ title t ++ cs!")")
  | .image d t a => lit (cs!"![" ++ a ++ cs!"](" ++ d ++ title t ++ cs!")")
  | .autolink l => lit (cs!"<" ++ l ++ cs!">")
  | .footnoteReference l => lit (cs!"[^" ++ l ++ cs!"]")
  | .empty => []
  | .linkReference l t =>
    if l = t then lit cs!"[" ++ inlinesToks digit l ++ lit cs!"]"
    else lit cs!"[" ++ inlinesToks digit t ++ lit cs!"][" ++ inlinesToks digit l ++ lit cs!"]"
termination_by structural i => i
/-- The Markdown text of inlines with its break opportunities. -/
def inlinesToks (digit : Char → Bool) : List Inline → Text
  | [] => []
  | i :: l => inlineToks digit i ++ inlinesToks digit l
termination_by structural l => l
end

/-- The underline of a Setext heading. -/
def underline : SetextHeading → Str
  | .level1 => cs!"=========="
  | .level2 => cs!"----------"

/-- A line of an alert: blank lines have no space after the `>`. -/
def alertLine (l : Str) : Str := if l.all isWs then cs!">" else cs!"> " ++ l

/-- What stands between a block and the blocks before it (`rest`: the text from `b` on, to the end
of the container). -/
def Separates (y : Style) (ind : Nat) (b : Block) (rest sep : Str) : Prop :=
  ∃ j, (j = ind ∨ j ≤ ind ∧ rest = []) ∧
    match b with
    | .list _ _ => sep = if y.blankBeforeList then newline ind ++ newline j else newline j
    | _ => sep = newline ind ++ newline j

mutual
/-- `s` is a Markdown text of the block at indentation `ind` (from the second line on; literal
text of code blocks, HTML blocks and tables is not indented). -/
def Printed (y : Style) (ind : Nat) : Block → Str → Prop
  | .paragraph c => fun s => Laid ind (inlinesToks y.digit c) s
  | .heading (.atx n) c => fun s => s = List.replicate n '#' ++ cs!" " ++ lineSource c
  | .heading (.setext v) c => fun s =>
    ∃ a, Laid ind (inlinesToks y.digit c) a ∧ s = a ++ newline ind ++ underline v
  | .thematicBreak => fun s => s = cs!"---"
  | .blockQuote b => fun s =>
    ∃ inner, PrintedL y 0 true b inner ∧
      s = joinWith (newline ind) ((rustLines inner).map fun l => cs!"> " ++ l)
  | .list k items => fun s => PrintedItems y k items.length ind 0 items s
  | .codeBlock (.fenced info) t => fun s => s = cs!"```" ++ info.getD [] ++ cs!"\n" ++ t ++ cs!"\n```"
  | .codeBlock .indented t => fun s =>
    s = joinWith cs!"\n" ((rustLines t).map fun l => cs!"    " ++ l)
  | .htmlBlock t => fun s => s = t
  | .definition l d t => fun s =>
    Laid ind (lit cs!"[" ++ inlinesToks y.digit l ++ lit (cs!"]: " ++ d ++ title t)) s
  | .empty => fun s => s = []
  | .table rows al => fun s =>
    Rectangular rows al → s = joinWith cs!"\n" (tableLines al (rows.map (·.map lineSource)))
  | .footnoteDefinition l b => fun s =>
    ∃ inner, PrintedL y ind true b inner ∧ s = cs!"[^" ++ l ++ cs!"]: " ++ inner
  | .githubAlert t b => fun s =>
    ∃ inner, PrintedL y 0 true b inner ∧
      s = joinWith (newline ind) ((cs!"> [!" ++ alertName y.upper t ++ cs!"]") ::
        (rustLines inner).map alertLine)
termination_by structural b => b
/-- `s` is a Markdown text of the blocks (`first`: no blocks precede them). -/
def PrintedL (y : Style) (ind : Nat) (first : Bool) : List Block → Str → Prop
  | [] => fun s => s = []
  | b :: l => fun s => ∃ sep a rest, (if first then sep = [] else Separates y ind b (a ++ rest) sep) ∧
      Printed y ind b a ∧ PrintedL y ind false l rest ∧ s = sep ++ a ++ rest
termination_by structural l => l
/-- `s` is a Markdown text of the blocks of the item. -/
def PrintedItem (y : Style) (ind : Nat) : ListItem → Str → Prop
  | .mk _ b => fun s => PrintedL y ind true b s
termination_by structural i => i
/-- `s` is a Markdown text of the items of a list of `n` items, from the `i`-th on. -/
def PrintedItems (y : Style) (k : ListKind) (n ind i : Nat) : List ListItem → Str → Prop
  | [] => fun s => s = []
  | it :: l => fun s => ∃ body rest,
      PrintedItem y (ind + contentIndent y.spaces k n) it body ∧
      PrintedItems y k n ind (i + 1) l rest ∧
      s = (if i = 0 then [] else newline ind) ++ itemText y.spaces k i it.task body ++ rest
termination_by structural l => l
end

end Spec
end Md
end Verif
