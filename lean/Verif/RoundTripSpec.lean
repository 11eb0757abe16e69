import Verif.PrinterLayoutSpec
import Verif.InlineGrammar
import Verif.HtmlTagProps
/-!
# Documents that survive printing and parsing (C49)

Specification only: when two documents are the same up to line wrapping, and an executable test
`fitsBlocks` for documents whose printed text is unambiguous.  `RoundTrip.lean` proves that the
documents that pass the test are read back after they are printed, whatever the width.
-/
namespace Verif
namespace Md
namespace Spec
open Nom

/-! ## Equality up to line wrapping -/

mutual
/-- The inline with every run of whitespace in its text nodes replaced by one space. -/
def squashInline : Inline → Inline
  | .text t => .text (collapse false t)
  | .emphasis c => .emphasis (squashInlines c)
  | .strong c => .strong (squashInlines c)
  | .strikethrough c => .strikethrough (squashInlines c)
  | .link d t c => .link d t (squashInlines c)
  | .linkReference l t => .linkReference (squashInlines l) (squashInlines t)
  | .lineBreak => .lineBreak
  | .code c => .code c
  | .html h => .html h
  | .image d t a => .image d t a
  | .autolink l => .autolink l
  | .footnoteReference l => .footnoteReference l
  | .empty => .empty
termination_by structural i => i
/-- `squashInline` for inlines. -/
def squashInlines : List Inline → List Inline
  | [] => []
  | i :: l => squashInline i :: squashInlines l
termination_by structural l => l
end

mutual
/-- The block with every run of whitespace in its text nodes replaced by one space. -/
def squashBlock : Block → Block
  | .paragraph c => .paragraph (squashInlines c)
  | .heading k c => .heading k (squashInlines c)
  | .thematicBreak => .thematicBreak
  | .blockQuote b => .blockQuote (squashBlocks b)
  | .list k items => .list k (squashItems items)
  | .codeBlock k t => .codeBlock k t
  | .htmlBlock h => .htmlBlock h
  | .definition l d t => .definition (squashInlines l) d t
  | .table rows al => .table (rows.map (·.map squashInlines)) al
  | .footnoteDefinition l b => .footnoteDefinition l (squashBlocks b)
  | .githubAlert t b => .githubAlert t (squashBlocks b)
  | .empty => .empty
termination_by structural b => b
/-- `squashBlock` for blocks. -/
def squashBlocks : List Block → List Block
  | [] => []
  | b :: l => squashBlock b :: squashBlocks l
termination_by structural l => l
/-- `squashBlock` for an item. -/
def squashItem : ListItem → ListItem
  | .mk t b => .mk t (squashBlocks b)
termination_by structural i => i
/-- `squashBlock` for items. -/
def squashItems : List ListItem → List ListItem
  | [] => []
  | i :: l => squashItem i :: squashItems l
termination_by structural l => l
end

/-! ## Inlines -/

/-- The text of an autolink. -/
def isAutolink (l : Str) : Bool :=
  (match l with
    | [] => false
    | a :: r =>
      let scheme := r.takeWhile isSchemeChar
      isAlpha a && !scheme.isEmpty && (r.drop scheme.length).head? == some ':' &&
        ((r.drop scheme.length).drop 1).all
          (fun c => !isAsciiControl c && !isAsciiWs c && c != '<' && c != '>')) ||
  (let user := l.takeWhile (fun c => isAlnum c || c == '_' || c == '-' || c == '.')
   let domain := (l.drop user.length).drop 1
   !user.isEmpty && (l.drop user.length).head? == some '@' && !domain.isEmpty &&
     domain.all (fun c => isAlnum c || c == '.' || c == '-'))

/-- Parentheses come in pairs, `depth` of them being open, and a backslash is followed by something it
escapes. -/
def paired : Nat → Str → Bool
  | depth, [] => depth == 0
  | _, ['\\'] => false
  | depth, '\\' :: _ :: s => paired depth s
  | depth, '(' :: s => paired (depth + 1) s
  | 0, ')' :: _ => false
  | depth + 1, ')' :: s => paired depth s
  | depth, _ :: s => paired depth s

/-- A destination and title that are printed unambiguously. -/
def plainDest (d : Str) (t : Option Str) : Bool :=
  !d.isEmpty && d.all (fun c => !isAsciiControl c && !(cs!" <").contains c) && paired 0 d &&
    (t.getD []).all (fun c => !(cs!"\"\\\r\n").contains c)

/-- The source of a label. -/
def plainLabel (s : Str) : Bool :=
  !s.contains ']' && s.getLast? != some '\\' && s.any (fun c => c != ' ' && c != '\n') &&
    decide (s.length < 1000)

/-- Nothing, a space or punctuation follows. -/
def closes (punct : Char → Bool) (u : Str) : Bool := u.head?.all fun c => isWs c || punct c

/-- A text node comes first. -/
def textFirst : List Inline → Bool
  | .text _ :: _ => true
  | _ => false

/-- The character does not stand twice in a row. -/
def noPair (c : Char) : Str → Bool
  | a :: b :: s => !(a == c && b == c) && noPair c (b :: s)
  | _ => true

/-- A letter, a digit or an underscore. -/
def isWord (c : Char) : Bool := isAlnum c || c == '_'

/-- An identifier with single underscores inside. -/
def isIdentifier (w : Str) : Bool :=
  w.head?.all isAlpha && w.all isWord && w.contains '_' && w.getLast? != some '_' && noPair '_' w &&
    decide (w.length ≤ 50)

/-- The character means nothing in front of the text. -/
def looseChar (c : Char) (next : Str) : Bool :=
  !inlineSpecial.contains c ||
  (c == '!' && next.head? != some '[') ||
  (c == '~' && next.head? != some '~') ||
  (c == '*' && next.head?.all isWs) ||
  (c == '<' && next.head?.all (fun d => !isAlnum d && !(cs!"_-.").contains d)) ||
  (c == '\\' && next.head?.all (fun d => !escapable.contains d && d != ' ')) ||
  (c == '&' && next.head? != some '#' && (next.dropWhile isAlpha).head? != some ';')

/-- Nothing in the text, followed by inlines with the source `u`, means anything: the words with
underscores are identifiers, and the other special characters are not in front of anything that
gives them a meaning (`after`: the text follows a letter, a digit or an underscore). -/
def looseText (u : Str) : Bool → Str → Bool
  | _, [] => true
  | after, c :: v =>
    (after || !isWord c || !((c :: v).takeWhile isWord).contains '_' ||
      isIdentifier ((c :: v).takeWhile isWord)) &&
    (looseChar c (v ++ u) || (after && c == '_')) && looseText u (isWord c) v

mutual
/-- Whether the inline, followed by inlines with the one-line source `u`, is printed
unambiguously. -/
def clearInline (punct : Char → Bool) : Inline → Str → Bool
  | .text t => fun u => !t.isEmpty && looseText u false (collapse false t)
  | .code c => fun u => !c.isEmpty && c.all (fun d => !(cs!"`\r\n").contains d) &&
      !(c.head? == some ' ' && c.getLast? == some ' ' && decide (2 ≤ c.length) &&
        c.any (fun d => !isWs d)) && u.head? != some '`'
  | .autolink l => fun _ => isAutolink l
  | .emphasis c => fun u => !c.isEmpty && clearInlines punct c && (lineSource c).head?.all (!isWs ·) &&
      !(lineSource c).contains '*' && (lineSource c).getLast? != some '\\' && closes punct u
  | .strong c => fun u => !c.isEmpty && clearInlines punct c &&
      (lineSource c).head?.all (fun d => !isWs d && d != '*') && (lineSource c).getLast? != some '*' &&
      !(lineSource c).contains '\\' && noPair '*' (lineSource c) && closes punct u
  | .strikethrough c => fun u => !c.isEmpty && clearInlines punct c && !(lineSource c).contains '~' &&
      (lineSource c).getLast? != some '\\' && u.head? != some '~'
  | .link d t c => fun _ => clearInlines punct c && plainLabel (lineSource c) && plainDest d t
  | .image d t a => fun _ => a.all (fun c => !(cs!"]\r\n").contains c) && plainDest d t
  | .footnoteReference l => fun u => !l.isEmpty && decide (l.length < 999) && l.all isAlnum &&
      u.head? != some '('
  | .linkReference l t => fun u => clearInlines punct l && clearInlines punct t &&
      plainLabel (lineSource l) && plainLabel (lineSource t) && (lineSource t).head? != some '^' &&
      (decide (l ≠ t) || (u.head? != some '(' && u.head? != some '[')) &&
      (decide (l = t) || decide (squashInlines l ≠ squashInlines t))
  | .lineBreak => fun _ => false
  | .html _ => fun _ => false
  | .empty => fun _ => false
termination_by structural i => i
/-- Whether the inlines are printed unambiguously. -/
def clearInlines (punct : Char → Bool) : List Inline → Bool
  | [] => true
  | i :: l => clearInline punct i (lineSource l) && !(textFirst [i] && textFirst l) &&
      clearInlines punct l
termination_by structural l => l
end

/-! ## Lines -/

/-- The text cannot be taken for the beginning of another block than a paragraph. -/
def startsText : Str → Bool
  | [] => false
  | c :: t =>
    let n := (t.takeWhile (· == c)).length + 1
    let after := (t.drop (n - 1)).head?
    if c = '*' then n == 2 && after.isSome || n == 1 && after.any (fun d => !(cs!" \t\r\n[").contains d)
    else if c = '`' then decide (n < 3) && after.isSome
    else if c = '~' then decide (n < 3) && after.isSome
    else if c = '_' then n == 1 && after.isSome
    else if c = '+' then t.head?.any (fun d => !(cs!" \t\r\n[").contains d)
    else if c = '-' then after.any (fun d => !(cs!" \t\r\n").contains d) && !(n == 1 && after == some '[')
    else if c = '=' then after.any (fun d => !(cs!" \t\r\n").contains d)
    else if c = '[' then
      let label := t.takeWhile (· != ']')
      let rest := t.drop label.length
      !rest.isEmpty && label.getLast? != some '\\' && (rest.drop 1).head? != some ':'
    else if c = '<' then
      let link := t.takeWhile (· != '>')
      !(t.drop link.length).isEmpty && isAutolink link
    else if isDigit c then !((t.dropWhile isDigit).head?.any (fun d => d == '.' || d == ')'))
    else !blockStart.contains c && !isWs c

/-- A text printed on one line. -/
def flat (t : Text) : Str := t.map (·.getD ' ')

/-- Wherever the line may be broken, the next line cannot be taken for the beginning of another
block. -/
def breaksText : Text → Bool
  | [] => true
  | none :: t => startsText (flat t) && breaksText t
  | some _ :: t => breaksText t

/-- The inlines can be the content of a paragraph. -/
def fitsText (punct : Char → Bool) (y : Style) (c : List Inline) : Bool :=
  clearInlines punct c && startsText (lineSource c) && breaksText (inlinesToks y.digit c)

/-- The parts of a text between hard line breaks. -/
def parts : List Inline → List (List Inline)
  | [] => [[]]
  | i :: l =>
    if i = .lineBreak then [] :: parts l
    else match parts l with
      | [] => [[i]]
      | p :: ps => (i :: p) :: ps

/-- A hard line break may follow: the text ends with a visible character other than a backslash. -/
def endsPart (c : List Inline) : Bool := (lineSource c).getLast?.all (fun d => !isWs d && d != '\\')

/-- The inlines can be the content of a paragraph with hard line breaks, which the printer does not
indent in list items. -/
def fitsLines (punct : Char → Bool) (y : Style) (item : Bool) (c : List Inline) : Bool :=
  (parts c).all (fitsText punct y) && (parts c).dropLast.all endsPart && (!item || (parts c).length == 1)

/-! ## Blocks -/

/-- A line that closes a code fence of three backticks. -/
def closesFence (l : Str) : Bool :=
  let t := l.dropWhile (· == ' ')
  decide (l.length - t.length ≤ 3) && decide (3 ≤ t.length) && t.all (· == '`')

/-- The lines of a text, at every newline. -/
def splitNl : Str → List Str
  | [] => [[]]
  | c :: s => if c = '\n' then [] :: splitNl s else
    match splitNl s with
    | [] => [[c]]
    | l :: ls => (c :: l) :: ls

/-- `o`, and then the first `c` at the end of the text. -/
def enclosed (o c h : Str) : Bool :=
  o.isPrefixOf h && c.isSuffixOf (h.drop o.length) && decide (¬ c <:+: (h.drop o.length).dropLast)

/-- A comment, a processing instruction, a CDATA section or a declaration. -/
def closedHtml (h : Str) : Bool :=
  enclosed cs!"<!--" cs!"-->" h || enclosed cs!"<?" cs!"?>" h || enclosed cs!"<![CDATA[" cs!"]]>" h ||
  (match h with
   | '<' :: '!' :: c :: _ => isAsciiUpper c && enclosed (cs!"<!" ++ [c]) cs!">" h
   | _ => false)

/-- A raw-text element with its first closing tag at the end. -/
def rawHtml (h : Str) : Bool :=
  rawTags.any fun n => rawTags.any fun m =>
    let text := (h.map asciiLower).drop (n.length + 1)
    let body := (text.drop 1).take (text.length - 1 - (m.length + 3))
    ('<' :: n).isPrefixOf (h.map asciiLower) && text.head?.any (fun c => (cs!" >\n").contains c) &&
      (cs!"</" ++ m ++ cs!">").isSuffixOf (text.drop 1) &&
      rawTags.all fun k => decide (¬ (cs!"</" ++ k ++ cs!">") <:+: body)

/-- Lines without a blank one among them, the first of which begins with a tag of a block-level element; the
last one is ended. -/
def blockHtml (h : Str) : Bool :=
  match splitNl h with
  | [] => false
  | first :: others =>
    others.getLast? == some [] && others.dropLast.all (·.any (!isSpace ·)) &&
      [cs!"<", cs!"</"].any fun o => blockTags.any fun n =>
        let l := first.drop (o ++ n).length
        blockTags.all (fun t => !t.isPrefixOf n || t == n) && (o ++ n).isPrefixOf (first.map asciiLower) &&
          (l.head?.any (fun c => c == ' ' || c == '>') || (cs!"/>").isPrefixOf l || (l.isEmpty && !others.dropLast.isEmpty))

/-- Where blocks stand in a container, once its markers have been removed: the leading spaces of the
first line and of the other ones, and of blank lines between blocks. -/
structure Place where
  first : Nat
  others : Nat
  blank : Nat

/-- The place of the second and later blocks. -/
def Place.next (p : Place) : Place := { p with first := p.others }

/-- The column of the content of the `i`-th item. -/
def itemColumn (y : Style) (k : ListKind) (first i : Nat) : Nat :=
  first + y.spaces + (marker k i).length + 1

/-- The place of the blocks of the `i`-th of `n` items. -/
def itemPlace (y : Style) (p : Place) (k : ListKind) (n i : Nat) : Place :=
  let col := itemColumn y k (if i = 0 then p.first else p.others) i
  let extra := p.others + contentIndent y.spaces k n - col
  ⟨0, extra, if extra = 0 then col else extra⟩

/-- A list comes first. -/
def listFirst : List Block → Bool
  | .list _ _ :: _ => true
  | _ => false

/-- The first block is a paragraph or an underlined heading whose source begins with one of the
texts. -/
def beginsWith (l : List Str) : List Block → Bool
  | .paragraph c :: _ => l.any (·.isPrefixOf (lineSource c))
  | .heading (.setext _) c :: _ => l.any (·.isPrefixOf (lineSource c))
  | _ => false

/-- The text stays on one line. -/
def oneLine (digit : Char → Bool) (c : List Inline) : Bool := (inlinesToks digit c).all (·.isSome)

/-- The name of an alert type is read back as this type. -/
def fitsAlert (upper : Str → Str) : AlertType → Bool
  | .custom name =>
    upper name == name && name.map Char.toUpper == name && name.head?.any isAlpha &&
      name.all (fun c => isAlnum c || c == '_') &&
      [cs!"NOTE", cs!"TIP", cs!"IMPORTANT", cs!"WARNING", cs!"CAUTION"].all (!·.isPrefixOf name)
  | _ => true

/-- The cell of a table is read back. -/
def fitsCell (punct : Char → Bool) (c : List Inline) : Bool :=
  clearInlines punct c && (lineSource c).all (fun d => !(cs!"|\\").contains d) &&
    (lineSource c).head?.all (!isWs ·) && (lineSource c).getLast?.all (!isWs ·)

/-- What follows a list or a footnote may not be taken for a part of it. -/
def blockEnds (y : Style) (p : Place) : Block → Bool
  | .list k items =>
    let col := itemColumn y k (if items.length = 1 then p.first else p.others) (items.length - 1)
    decide (p.blank ≤ col) && decide (p.others + y.spaces < col)
  | .footnoteDefinition _ _ => decide (p.blank ≤ 3) && decide (p.others ≤ 3)
  | _ => true

/-- An indented code block comes first. -/
def codeFirst : List Block → Bool
  | .codeBlock .indented _ :: _ => true
  | _ => false

mutual
/-- Whether the block, at the given place, is read back after it is printed (`item`: it is in a list
item). -/
def fitsBlock (punct : Char → Bool) (y : Style) (item : Bool) : Block → Place → Bool
  | .paragraph c => fun p => decide (p.first ≤ 3) && decide (p.others ≤ 3) && fitsLines punct y item c
  | .heading (.atx n) c => fun p => p.first == 0 && decide (1 ≤ n) && decide (n ≤ 6) &&
      clearInlines punct c && (lineSource c).head?.any (fun d => !isSpace d)
  | .heading (.setext _) c => fun p => !item && decide (p.first ≤ 3) && decide (p.others ≤ 3) &&
      fitsLines punct y item c
  | .thematicBreak => fun p => !item && decide (p.first ≤ 3)
  | .codeBlock (.fenced info) t => fun p => !item && p.first == p.others && decide (p.first ≤ 3) &&
      decide (p.blank ≤ p.first) &&
      (p.blank == p.others || (splitNl t).all (fun l => l.isEmpty || l.any (!isWs ·))) &&
      info != some [] && (info.getD []).head? != some '`' &&
      (info.getD []).all (fun c => !(cs!"\r\n").contains c) && !t.contains '\r' &&
      (splitNl t).all (!closesFence ·)
  | .blockQuote b => fun p => decide (p.first ≤ 3) && decide (p.others ≤ 3) && !b.isEmpty &&
      !beginsWith [cs!"[!"] b && fitsBlocks punct y false b ⟨1, 1, 1⟩
  | .list k items => fun p => decide (p.others + y.spaces ≤ 3) && !items.isEmpty && y.blankBeforeList &&
      fitsItems punct y k items.length 0 items p
  | .codeBlock .indented t => fun p => !item && p.first == 0 && p.others == 0 && p.blank == 0 &&
      !t.contains '\r' && t.getLast? != some '\n' && ((splitNl t).headD []).any (fun c => !isSpace c)
  | .definition l d t => fun p => decide (p.first ≤ 3) && clearInlines punct l && oneLine y.digit l &&
      plainLabel (lineSource l) && (lineSource l).head? != some '^' && (lineSource l).head? != some '!' && plainDest d t
  | .table rows al => fun p => !item && decide (p.first ≤ 3) && decide (p.others ≤ 3) && !rows.isEmpty &&
      !al.isEmpty && al.all (· != .left) && rows.all (fun r => r.length == al.length) &&
      rows.all (·.all (fitsCell punct))
  | .footnoteDefinition l b => fun p => decide (p.first ≤ 3) && !l.isEmpty &&
      l.all (fun c => !(cs!"]\r\n").contains c) &&
      (match b with
       | [.paragraph c] => fitsText punct y c && oneLine y.digit c
       | _ => false)
  | .githubAlert t b => fun p => decide (p.first ≤ 3) && decide (p.others ≤ 3) && fitsAlert y.upper t &&
      fitsBlocks punct y false b ⟨1, 1, 0⟩
  | .htmlBlock h => fun p => !h.contains '\r' &&
      ((!item && p.first == 0 && p.others == 0 && p.blank == 0 && (closedHtml h || rawHtml h || blockHtml h)) ||
       (decide (p.first ≤ 3) && !h.contains '\n' && (closedHtml h || rawHtml h)))
  | .empty => fun _ => false
termination_by structural b => b
/-- `fitsBlock` for blocks. -/
def fitsBlocks (punct : Char → Bool) (y : Style) (item : Bool) : List Block → Place → Bool
  | [] => fun _ => true
  | b :: l => fun p => fitsBlock punct y item b p && (l.isEmpty || blockEnds y p b) && !(listFirst [b] && codeFirst l) &&
      fitsBlocks punct y item l p.next
termination_by structural l => l
/-- `fitsBlock` for an item. -/
def fitsItem (punct : Char → Bool) (y : Style) : ListItem → Place → Bool
  | .mk t b => fun p => (!listFirst b || y.spaces == 0) &&
      (t.isSome || !beginsWith [cs!"[x]", cs!"[X]", cs!"[ ]"] b) && fitsBlocks punct y true b p
termination_by structural i => i
/-- `fitsBlock` for the items of a list of `n` items from the `i`-th on. -/
def fitsItems (punct : Char → Bool) (y : Style) (k : ListKind) (n i : Nat) : List ListItem → Place → Bool
  | [] => fun _ => true
  | it :: l => fun p => (match k with | .bullet _ => true | .ordered s => decide (s + i < 2 ^ 64)) &&
      fitsItem punct y it (itemPlace y p k n i) &&
      (l.isEmpty || decide (p.others + y.spaces < itemColumn y k (if i = 0 then p.first else p.others) i)) &&
      fitsItems punct y k n (i + 1) l p
termination_by structural l => l
end

end Spec
end Md
end Verif
