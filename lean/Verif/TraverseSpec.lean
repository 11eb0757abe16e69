import Verif.Traverse
/-!
# Specification vocabulary for traversals

Independent description of "the nodes of a document": the direct children of a node, the
"occurs in" relation, and the pre-order enumeration.
-/
namespace Verif

/-- The inlines directly inside an inline (for a reference link: label, then text). -/
def Inline.children : Inline → List Inline
  | .link _ _ c => c
  | .linkReference l t => l ++ t
  | .emphasis c => c
  | .strong c => c
  | .strikethrough c => c
  | _ => []

/-- The inlines directly inside a block. -/
def Block.directInlines : Block → List Inline
  | .paragraph c => c
  | .heading _ c => c
  | .definition l _ _ => l
  | .table rows _ => rows.flatten.flatten
  | _ => []

/-- The blocks directly inside a block. -/
def Block.childBlocks : Block → List Block
  | .blockQuote b => b
  | .list _ items => items.flatMap ListItem.blocks
  | .footnoteDefinition _ b => b
  | .githubAlert _ b => b
  | _ => []

/-- `i.Within j`: inline `i` is `j` or occurs at any depth inside it. -/
inductive Inline.Within : Inline → Inline → Prop
  | self (i) : Inline.Within i i
  | child (i j k) : k ∈ j.children → Inline.Within i k → Inline.Within i j

/-- `b.Within c`: block `b` is `c` or occurs at any depth inside it. -/
inductive Block.Within : Block → Block → Prop
  | self (b) : Block.Within b b
  | child (b c e) : e ∈ c.childBlocks → Block.Within b e → Block.Within b c

/-- Block `b` occurs somewhere in the document. -/
def Document.HasBlock (d : Document) (b : Block) : Prop := ∃ c ∈ d.blocks, b.Within c

/-- Inline `i` occurs somewhere in the document. -/
def Document.HasInline (d : Document) (i : Inline) : Prop :=
  ∃ b, d.HasBlock b ∧ ∃ j ∈ b.directInlines, i.Within j

mutual
/-- Pre-order enumeration of an inline and everything inside it. -/
def Inline.pre : Inline → List Inline
  | .text s => [.text s]
  | .lineBreak => [.lineBreak]
  | .code s => [.code s]
  | .html s => [.html s]
  | .link d t c => .link d t c :: Inline.preL c
  | .linkReference l t => .linkReference l t :: (Inline.preL l ++ Inline.preL t)
  | .image d t a => [.image d t a]
  | .emphasis c => .emphasis c :: Inline.preL c
  | .strong c => .strong c :: Inline.preL c
  | .strikethrough c => .strikethrough c :: Inline.preL c
  | .autolink s => [.autolink s]
  | .footnoteReference s => [.footnoteReference s]
  | .empty => [.empty]
/-- Pre-order enumeration of a list. -/
def Inline.preL : List Inline → List Inline
  | [] => []
  | i :: l => i.pre ++ Inline.preL l
end

mutual
/-- Pre-order enumeration of a block and the blocks inside it. -/
def Block.pre : Block → List Block
  | .blockQuote b => .blockQuote b :: Block.preL b
  | .list k i => .list k i :: ListItem.preL i
  | .footnoteDefinition l b => .footnoteDefinition l b :: Block.preL b
  | .githubAlert t b => .githubAlert t b :: Block.preL b
  | .paragraph c => [.paragraph c]
  | .heading k c => [.heading k c]
  | .thematicBreak => [.thematicBreak]
  | .codeBlock k s => [.codeBlock k s]
  | .htmlBlock s => [.htmlBlock s]
  | .definition l d t => [.definition l d t]
  | .table r a => [.table r a]
  | .empty => [.empty]
/-- Pre-order enumeration of a list of blocks. -/
def Block.preL : List Block → List Block
  | [] => []
  | b :: l => b.pre ++ Block.preL l
/-- Pre-order enumeration of the blocks of an item. -/
def ListItem.pre : ListItem → List Block
  | .mk _ b => Block.preL b
/-- Pre-order enumeration of the blocks of items. -/
def ListItem.preL : List ListItem → List Block
  | [] => []
  | i :: l => i.pre ++ ListItem.preL l
end

/-- All blocks of a document in document order (a block before the blocks inside it). -/
def Document.allBlocks (d : Document) : List Block := Block.preL d.blocks

/-- All inlines of a document in document order. -/
def Document.allInlines (d : Document) : List Inline :=
  d.allBlocks.flatMap fun b => Inline.preL b.directInlines

/-- What a visitor can be told about: one constructor per `visit_*` hook. -/
inductive Node where
  | document (d : Document)
  | block (b : Block)
  | inline (i : Inline)
  | tableCell (c : List Inline)
  | listItem (i : ListItem)
  | tableRow (r : List (List Inline))
  | heading (k : HeadingKind) (c : List Inline)
  | link (d : Str) (t : Option Str) (c : List Inline)
  | image (d : Str) (t : Option Str) (a : Str)
  | codeBlock (k : CodeBlockKind) (s : Str)
  | text (s : Str)
  | footnoteDefinition (l : Str) (b : List Block)
  | githubAlert (t : AlertType) (b : List Block)

mutual
/-- The hooks reached from an inline, in order. -/
def Inline.events : Inline → List Node
  | .text s => [.inline (.text s), .text s]
  | .lineBreak => [.inline .lineBreak]
  | .code s => [.inline (.code s)]
  | .html s => [.inline (.html s)]
  | .link d t c => .inline (.link d t c) :: .link d t c :: Inline.eventsL c
  | .linkReference l t =>
    .inline (.linkReference l t) :: (Inline.eventsL l ++ Inline.eventsL t)
  | .image d t a => [.inline (.image d t a), .image d t a]
  | .emphasis c => .inline (.emphasis c) :: Inline.eventsL c
  | .strong c => .inline (.strong c) :: Inline.eventsL c
  | .strikethrough c => .inline (.strikethrough c) :: Inline.eventsL c
  | .autolink s => [.inline (.autolink s)]
  | .footnoteReference s => [.inline (.footnoteReference s)]
  | .empty => [.inline .empty]
/-- The hooks reached from a list of inlines. -/
def Inline.eventsL : List Inline → List Node
  | [] => []
  | i :: l => i.events ++ Inline.eventsL l
end

/-- The hooks reached from a table cell. -/
def cellEvents (c : List Inline) : List Node := .tableCell c :: Inline.eventsL c
/-- The hooks reached from a table row. -/
def rowEvents (r : List (List Inline)) : List Node := .tableRow r :: r.flatMap cellEvents

mutual
/-- The hooks reached from a block, in order. -/
def Block.events : Block → List Node
  | .paragraph c => .block (.paragraph c) :: Inline.eventsL c
  | .heading k c => .block (.heading k c) :: .heading k c :: Inline.eventsL c
  | .thematicBreak => [.block .thematicBreak]
  | .blockQuote b => .block (.blockQuote b) :: Block.eventsL b
  | .list k i => .block (.list k i) :: ListItem.eventsL i
  | .codeBlock k s => [.block (.codeBlock k s), .codeBlock k s]
  | .htmlBlock s => [.block (.htmlBlock s)]
  | .definition l d t => .block (.definition l d t) :: Inline.eventsL l
  | .table r a => .block (.table r a) :: r.flatMap rowEvents
  | .footnoteDefinition l b =>
    .block (.footnoteDefinition l b) :: .footnoteDefinition l b :: Block.eventsL b
  | .githubAlert t b => .block (.githubAlert t b) :: .githubAlert t b :: Block.eventsL b
  | .empty => [.block .empty]
/-- The hooks reached from a list of blocks. -/
def Block.eventsL : List Block → List Node
  | [] => []
  | b :: l => b.events ++ Block.eventsL l
/-- The hooks reached from an item. -/
def ListItem.events : ListItem → List Node
  | .mk t b => .listItem (.mk t b) :: Block.eventsL b
/-- The hooks reached from items. -/
def ListItem.eventsL : List ListItem → List Node
  | [] => []
  | i :: l => i.events ++ ListItem.eventsL l
end

/-- The hooks a full traversal of a document reaches, in order. -/
def Document.events (d : Document) : List Node := .document d :: Block.eventsL d.blocks

/-- The block of a block event. -/
def Node.asBlock : Node → Option Block
  | .block b => some b
  | _ => none
/-- The inline of an inline event. -/
def Node.asInline : Node → Option Inline
  | .inline i => some i
  | _ => none

/-- `V` is a visitor in which every hook first does its own thing (`on`) and then calls the
default `walk_*`; `on` ignoring a kind of node means that hook is left at its default. -/
structure Recording {σ : Type} (V : Visitor σ) (on : Node → σ → σ) : Prop where
  document : ∀ d s, V.visitDocument d s = walkDocument V d (on (.document d) s)
  block : ∀ b s, V.visitBlock b s = walkBlock V b (on (.block b) s)
  inline : ∀ i s, V.visitInline i s = walkInline V i (on (.inline i) s)
  tableCell : ∀ c s, V.visitTableCell c s = walkTableCell V c (on (.tableCell c) s)
  listItem : ∀ i s, V.visitListItem i s = walkListItem V i (on (.listItem i) s)
  tableRow : ∀ r s, V.visitTableRow r s = walkTableRow V r (on (.tableRow r) s)
  heading : ∀ k c s, V.visitHeading k c s = walkHeading V k c (on (.heading k c) s)
  link : ∀ d t c s, V.visitLink d t c s = walkLink V d t c (on (.link d t c) s)
  image : ∀ d t a s, V.visitImage d t a s = walkImage d t a (on (.image d t a) s)
  codeBlock : ∀ k c s, V.visitCodeBlock k c s = walkCodeBlock k c (on (.codeBlock k c) s)
  text : ∀ t s, V.visitText t s = walkText t (on (.text t) s)
  footnoteDefinition : ∀ l b s, V.visitFootnoteDefinition l b s =
    walkFootnoteDefinition V l b (on (.footnoteDefinition l b) s)
  githubAlert : ∀ t b s, V.visitGithubAlert t b s =
    walkGithubAlert V t b (on (.githubAlert t b) s)

end Verif
