import Verif.TraverseSpec
/-!
# Specification vocabulary for HTML output

Nothing here refers to the renderer: an entity decoder, a grammar of well-nested HTML, the
visible text of an HTML string, and the text of a document.
-/
namespace Verif
namespace Html

/-- Decode the five predefined entities, left to right, once. -/
def decode : Str → Str
  | '&' :: 'a' :: 'm' :: 'p' :: ';' :: s => '&' :: decode s
  | '&' :: 'l' :: 't' :: ';' :: s => '<' :: decode s
  | '&' :: 'g' :: 't' :: ';' :: s => '>' :: decode s
  | '&' :: 'q' :: 'u' :: 'o' :: 't' :: ';' :: s => '"' :: decode s
  | '&' :: 'a' :: 'p' :: 'o' :: 's' :: ';' :: s => '\'' :: decode s
  | c :: s => c :: decode s
  | [] => []

/-- The characters with a meaning in HTML text or attribute values. -/
def special : List Char := ['&', '<', '>', '"', '\'']

/-- The five entities. -/
def entities : List Str := [cs!"&amp;", cs!"&lt;", cs!"&gt;", cs!"&quot;", cs!"&apos;"]

/-- One attribute as it stands in a tag: ` key="value"`. -/
def attrStr (kv : Str × Str) : Str := ' ' :: (kv.1 ++ cs!"=\"" ++ kv.2 ++ cs!"\"")

/-- An element in HTML syntax. -/
def element (name : Str) (attrs : List (Str × Str)) (inner : Str) : Str :=
  cs!"<" ++ name ++ attrs.flatMap attrStr ++ cs!">" ++ inner ++ (cs!"</" ++ name ++ cs!">")

/-- The element names the renderer may use. -/
def elementNames : List Str :=
  [cs!"p", cs!"h1", cs!"h2", cs!"h3", cs!"h4", cs!"h5", cs!"h6", cs!"hr", cs!"blockquote",
   cs!"ol", cs!"ul", cs!"li", cs!"span", cs!"pre", cs!"code", cs!"table", cs!"thead", cs!"tbody",
   cs!"tr", cs!"th", cs!"td", cs!"div", cs!"br", cs!"em", cs!"b", cs!"s", cs!"a", cs!"img",
   cs!"svg", cs!"path"]

/-- The attribute names the renderer may use. -/
def attributeNames : List Str :=
  [cs!"href", cs!"title", cs!"src", cs!"alt", cs!"class", cs!"start", cs!"viewBox", cs!"version",
   cs!"width", cs!"height", cs!"aria-hidden", cs!"d"]

/-- An attribute from the vocabulary whose value cannot end the attribute or the tag. -/
def GoodAttr (kv : Str × Str) : Prop :=
  kv.1 ∈ attributeNames ∧ '"' ∉ kv.2 ∧ '<' ∉ kv.2 ∧ '>' ∉ kv.2

/-- Properly nested HTML over the fixed vocabulary, with no stray `<` or `>`. -/
inductive WellNested : Str → Prop
  | nil : WellNested []
  | char (c : Char) (s : Str) : c ≠ '<' → c ≠ '>' → WellNested s → WellNested (c :: s)
  | element (name : Str) (attrs : List (Str × Str)) (inner s : Str) :
      name ∈ elementNames → (∀ a ∈ attrs, GoodAttr a) → WellNested inner → WellNested s →
      WellNested (element name attrs inner ++ s)

/-- Remove everything from a `<` to the next `>`; `true` means "inside a tag". -/
def stripTags : Bool → Str → Str
  | _, [] => []
  | true, c :: s => stripTags (c != '>') s
  | false, c :: s => if c = '<' then stripTags true s else c :: stripTags false s

/-- What a reader sees of an HTML string: tags removed, entities decoded. -/
def visibleText (html : Str) : Str := decode (stripTags false html)

/-- The decimal digits of a number. -/
def decimal (n : Nat) : Str := Nat.toDigits 10 n

mutual
/-- The text of an inline; `num` numbers the footnotes, `defined` tells which reference labels
have a definition. -/
def inlineText (num : Str → Option Nat) (defined : List Inline → Bool) : Inline → Str
  | .text s => s
  | .lineBreak => []
  | .code s => s
  | .html _ => []
  | .link _ _ c => inlinesText num defined c
  | .linkReference l t => if defined l then inlinesText num defined t else []
  | .image _ _ _ => []
  | .emphasis c => inlinesText num defined c
  | .strong c => inlinesText num defined c
  | .strikethrough c => inlinesText num defined c
  | .autolink s => s
  | .footnoteReference l =>
    match num l with
    | some n => cs!"[" ++ decimal n ++ cs!"]"
    | none => []
  | .empty => []
termination_by structural i => i
/-- The text of a list of inlines. -/
def inlinesText (num : Str → Option Nat) (defined : List Inline → Bool) : List Inline → Str
  | [] => []
  | i :: l => inlineText num defined i ++ inlinesText num defined l
termination_by structural l => l
end

/-- The text of an alert's title. -/
def alertName : AlertType → Str
  | .note => cs!"Note"
  | .tip => cs!"Tip"
  | .important => cs!"Important"
  | .warning => cs!"Warning"
  | .caution => cs!"Caution"
  | .custom s => s

/-- The text of a task marker. -/
def taskText : Option TaskState → Str
  | some .complete => cs!"[X] "
  | some .incomplete => cs!"[ ] "
  | none => []

mutual
/-- The text of a block. -/
def blockText (num : Str → Option Nat) (defined : List Inline → Bool) : Block → Str
  | .paragraph c => inlinesText num defined c
  | .heading _ c => inlinesText num defined c
  | .thematicBreak => []
  | .blockQuote b => blocksText num defined b
  | .list _ items => itemsText num defined items
  | .codeBlock _ s => s
  | .htmlBlock _ => []
  | .definition _ _ _ => []
  | .table rows _ => rows.flatMap fun row => row.flatMap (inlinesText num defined)
  | .footnoteDefinition l b =>
    match num l with
    | some n => decimal n ++ cs!". " ++ blocksText num defined b
    | none => []
  | .githubAlert t b => alertName t ++ blocksText num defined b
  | .empty => []
termination_by structural b => b
/-- The text of a list of blocks. -/
def blocksText (num : Str → Option Nat) (defined : List Inline → Bool) : List Block → Str
  | [] => []
  | b :: l => blockText num defined b ++ blocksText num defined l
termination_by structural l => l
/-- The text of an item. -/
def itemText (num : Str → Option Nat) (defined : List Inline → Bool) : ListItem → Str
  | .mk t b => taskText t ++ blocksText num defined b
termination_by structural i => i
/-- The text of items. -/
def itemsText (num : Str → Option Nat) (defined : List Inline → Bool) : List ListItem → Str
  | [] => []
  | i :: l => itemText num defined i ++ itemsText num defined l
termination_by structural l => l
end

/-- The label of a footnote reference. -/
def refLabel : Inline → Option Str
  | .footnoteReference l => some l
  | _ => none

/-- The footnote labels referenced directly from the inline list of a block (paragraph, heading,
table cell, definition label), in document order, with repetitions. -/
def directRefs (d : Document) : List Str :=
  d.allBlocks.flatMap fun b => b.directInlines.filterMap refLabel

/-- Keep the first occurrence of each element. -/
def firstOccurrences : List Str → List Str
  | [] => []
  | a :: l => a :: (firstOccurrences l).filter (· ≠ a)

/-- The number of a label: its rank, from 1, among the distinct labels in order of first
reference. -/
def footnoteNumber (d : Document) (l : Str) : Option Nat :=
  ((firstOccurrences (directRefs d)).idxOf? l).map (· + 1)

/-- The link definitions of a document, in document order. -/
def linkDefinitions (d : Document) : List (List Inline × (Str × Option Str)) :=
  d.allBlocks.filterMap fun
    | .definition l dest title => some (l, (dest, title))
    | _ => none

/-- The last definition with exactly this label. -/
def lastDefinition (d : Document) (l : List Inline) : Option (Str × Option Str) :=
  ((linkDefinitions d).reverse.find? fun e => e.1 = l).map (·.2)

/-- Raw HTML is absent, and custom alert names contain no `<`, `>`, `&`. -/
structure Clean (d : Document) : Prop where
  noHtmlBlock : ∀ s, ¬ d.HasBlock (.htmlBlock s)
  noHtmlInline : ∀ s, ¬ d.HasInline (.html s)
  alertNames : ∀ name b, d.HasBlock (.githubAlert (.custom name) b) →
    '<' ∉ name ∧ '>' ∉ name ∧ '&' ∉ name

/-- `b` is `c`, or is reached from `c` without entering a footnote definition nobody refers to:
such a definition is not part of the output. -/
inductive Rendered (num : Str → Option Nat) : Block → Block → Prop
  | self (b) : Rendered num b b
  | child (b c e) : e ∈ c.childBlocks →
      (∀ l bs, c = .footnoteDefinition l bs → num l ≠ none) → Rendered num b e → Rendered num b c

/-- Block `b` is part of the rendered document. -/
def RenderedIn (d : Document) (b : Block) : Prop :=
  ∃ c ∈ d.blocks, Rendered (footnoteNumber d) b c

mutual
/-- Replace every reference link by the link it resolves to, or by nothing. -/
def resolveInline (defs : List Inline → Option (Str × Option Str)) : Inline → Inline
  | .linkReference l t =>
    match defs l with
    | some (dest, title) => .link dest title (resolveInlines defs t)
    | none => .empty
  | .link d t c => .link d t (resolveInlines defs c)
  | .emphasis c => .emphasis (resolveInlines defs c)
  | .strong c => .strong (resolveInlines defs c)
  | .strikethrough c => .strikethrough (resolveInlines defs c)
  | .text s => .text s
  | .lineBreak => .lineBreak
  | .code s => .code s
  | .html s => .html s
  | .image d t a => .image d t a
  | .autolink s => .autolink s
  | .footnoteReference s => .footnoteReference s
  | .empty => .empty
termination_by structural i => i
/-- `resolveInline` on a list. -/
def resolveInlines (defs : List Inline → Option (Str × Option Str)) : List Inline → List Inline
  | [] => []
  | i :: l => resolveInline defs i :: resolveInlines defs l
termination_by structural l => l
end

mutual
/-- `resolveInline` in every rendered inline of a block (definitions are left alone). -/
def resolveBlock (defs : List Inline → Option (Str × Option Str)) : Block → Block
  | .paragraph c => .paragraph (resolveInlines defs c)
  | .heading k c => .heading k (resolveInlines defs c)
  | .thematicBreak => .thematicBreak
  | .blockQuote b => .blockQuote (resolveBlocks defs b)
  | .list k i => .list k (resolveItems defs i)
  | .codeBlock k s => .codeBlock k s
  | .htmlBlock s => .htmlBlock s
  | .definition l d t => .definition l d t
  | .table rows al => .table (rows.map fun r => r.map (resolveInlines defs)) al
  | .footnoteDefinition l b => .footnoteDefinition l (resolveBlocks defs b)
  | .githubAlert t b => .githubAlert t (resolveBlocks defs b)
  | .empty => .empty
termination_by structural b => b
/-- `resolveBlock` on a list. -/
def resolveBlocks (defs : List Inline → Option (Str × Option Str)) : List Block → List Block
  | [] => []
  | b :: l => resolveBlock defs b :: resolveBlocks defs l
termination_by structural l => l
/-- `resolveBlock` in an item. -/
def resolveItem (defs : List Inline → Option (Str × Option Str)) : ListItem → ListItem
  | .mk t b => .mk t (resolveBlocks defs b)
termination_by structural i => i
/-- `resolveBlock` in items. -/
def resolveItems (defs : List Inline → Option (Str × Option Str)) : List ListItem → List ListItem
  | [] => []
  | i :: l => resolveItem defs i :: resolveItems defs l
termination_by structural l => l
end

end Html
end Verif
