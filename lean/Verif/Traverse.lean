import Verif.Ast
/-!
# Queries and visitors

`src/ast_transform/query.rs`, `src/ast_transform/visitor.rs`.

Rust's `results: &mut Vec<&Inline>` accumulator is the argument and result `acc`; returned
references are modelled by the referenced node.
-/
namespace Verif

/-! ## Query: collecting -/

mutual
/-- `collect_inlines_from_inline`, `query.rs:367-399` -/
def collectInlinesInline (p : Inline → Bool) : Inline → List Inline → List Inline
  | .text s, acc => if p (.text s) then acc ++ [.text s] else acc
  | .lineBreak, acc => if p .lineBreak then acc ++ [.lineBreak] else acc
  | .code s, acc => if p (.code s) then acc ++ [.code s] else acc
  | .html s, acc => if p (.html s) then acc ++ [.html s] else acc
  | .link d t c, acc =>
    collectInlinesInlines p c (if p (.link d t c) then acc ++ [.link d t c] else acc)
  | .linkReference l t, acc =>
    collectInlinesInlines p t (collectInlinesInlines p l
      (if p (.linkReference l t) then acc ++ [.linkReference l t] else acc))
  | .image d t a, acc => if p (.image d t a) then acc ++ [.image d t a] else acc
  | .emphasis c, acc =>
    collectInlinesInlines p c (if p (.emphasis c) then acc ++ [.emphasis c] else acc)
  | .strong c, acc => collectInlinesInlines p c (if p (.strong c) then acc ++ [.strong c] else acc)
  | .strikethrough c, acc =>
    collectInlinesInlines p c (if p (.strikethrough c) then acc ++ [.strikethrough c] else acc)
  | .autolink s, acc => if p (.autolink s) then acc ++ [.autolink s] else acc
  | .footnoteReference s, acc =>
    if p (.footnoteReference s) then acc ++ [.footnoteReference s] else acc
  | .empty, acc => if p .empty then acc ++ [.empty] else acc
/-- `for inline in inlines { collect_inlines_from_inline(..) }` (e.g. `query.rs:318-320`) -/
def collectInlinesInlines (p : Inline → Bool) : List Inline → List Inline → List Inline
  | [], acc => acc
  | i :: l, acc => collectInlinesInlines p l (collectInlinesInline p i acc)
end

mutual
/-- `collect_inlines_from_block`, `query.rs:312-365` -/
def collectInlinesBlock (p : Inline → Bool) : Block → List Inline → List Inline
  | .paragraph c, acc => collectInlinesInlines p c acc
  | .heading _ c, acc => collectInlinesInlines p c acc
  | .blockQuote b, acc => collectInlinesBlocks p b acc
  | .list _ i, acc => collectInlinesItems p i acc
  | .table r _, acc =>
    r.foldl (fun acc row => row.foldl (fun acc cell => collectInlinesInlines p cell acc) acc) acc
  | .footnoteDefinition _ b, acc => collectInlinesBlocks p b acc
  | .githubAlert _ b, acc => collectInlinesBlocks p b acc
  | .definition l _ _, acc => collectInlinesInlines p l acc
  | .thematicBreak, acc => acc
  | .codeBlock _ _, acc => acc
  | .htmlBlock _, acc => acc
  | .empty, acc => acc
/-- `for block in blocks { collect_inlines_from_block(..) }` -/
def collectInlinesBlocks (p : Inline → Bool) : List Block → List Inline → List Inline
  | [], acc => acc
  | b :: l, acc => collectInlinesBlocks p l (collectInlinesBlock p b acc)
/-- `query.rs:334-336` -/
def collectInlinesItem (p : Inline → Bool) : ListItem → List Inline → List Inline
  | .mk _ b, acc => collectInlinesBlocks p b acc
/-- `query.rs:333-337` -/
def collectInlinesItems (p : Inline → Bool) : List ListItem → List Inline → List Inline
  | [], acc => acc
  | i :: l, acc => collectInlinesItems p l (collectInlinesItem p i acc)
end

mutual
/-- `collect_blocks_from_block`, `query.rs:401-434` -/
def collectBlocksBlock (p : Block → Bool) : Block → List Block → List Block
  | .blockQuote b, acc =>
    collectBlocksBlocks p b (if p (.blockQuote b) then acc ++ [.blockQuote b] else acc)
  | .list k i, acc => collectBlocksItems p i (if p (.list k i) then acc ++ [.list k i] else acc)
  | .footnoteDefinition l b, acc =>
    collectBlocksBlocks p b
      (if p (.footnoteDefinition l b) then acc ++ [.footnoteDefinition l b] else acc)
  | .githubAlert t b, acc =>
    collectBlocksBlocks p b (if p (.githubAlert t b) then acc ++ [.githubAlert t b] else acc)
  | .paragraph c, acc => if p (.paragraph c) then acc ++ [.paragraph c] else acc
  | .heading k c, acc => if p (.heading k c) then acc ++ [.heading k c] else acc
  | .thematicBreak, acc => if p .thematicBreak then acc ++ [.thematicBreak] else acc
  | .codeBlock k s, acc => if p (.codeBlock k s) then acc ++ [.codeBlock k s] else acc
  | .htmlBlock s, acc => if p (.htmlBlock s) then acc ++ [.htmlBlock s] else acc
  | .definition l d t, acc => if p (.definition l d t) then acc ++ [.definition l d t] else acc
  | .table r a, acc => if p (.table r a) then acc ++ [.table r a] else acc
  | .empty, acc => if p .empty then acc ++ [.empty] else acc
termination_by structural b => b
/-- `for block in blocks { collect_blocks_from_block(..) }` -/
def collectBlocksBlocks (p : Block → Bool) : List Block → List Block → List Block
  | [], acc => acc
  | b :: l, acc => collectBlocksBlocks p l (collectBlocksBlock p b acc)
termination_by structural l => l
/-- `query.rs:417-419` -/
def collectBlocksItem (p : Block → Bool) : ListItem → List Block → List Block
  | .mk _ b, acc => collectBlocksBlocks p b acc
termination_by structural i => i
/-- `query.rs:416-420` -/
def collectBlocksItems (p : Block → Bool) : List ListItem → List Block → List Block
  | [], acc => acc
  | i :: l, acc => collectBlocksItems p l (collectBlocksItem p i acc)
termination_by structural l => l
end

/-- `<Block as Query>::find_all_inlines`, `query.rs:238-245` -/
def Block.findAllInlines (b : Block) (p : Inline → Bool) : List Inline := collectInlinesBlock p b []

/-- `<Block as Query>::find_all_blocks`, `query.rs:247-254` -/
def Block.findAllBlocks (b : Block) (p : Block → Bool) : List Block := collectBlocksBlock p b []

/-- `<Document as Query>::find_all_inlines`, `query.rs:190-199` -/
def Document.findAllInlines (d : Document) (p : Inline → Bool) : List Inline :=
  d.blocks.foldl (fun results b => results ++ b.findAllInlines p) []

/-- `<Document as Query>::find_all_blocks`, `query.rs:201-210` -/
def Document.findAllBlocks (d : Document) (p : Block → Bool) : List Block :=
  d.blocks.foldl (fun results b => results ++ b.findAllBlocks p) []

/-- `<Vec<Inline> as Query>::find_all_inlines`, `query.rs:272-281` -/
def inlinesFindAllInlines (l : List Inline) (p : Inline → Bool) : List Inline :=
  collectInlinesInlines p l []

/-! ## Query: first match -/

mutual
/-- `find_first_inline_in_inline`, `query.rs:508-546` -/
def findFirstInlineInline (p : Inline → Bool) : Inline → Option Inline
  | .text s => if p (.text s) then some (.text s) else none
  | .lineBreak => if p .lineBreak then some .lineBreak else none
  | .code s => if p (.code s) then some (.code s) else none
  | .html s => if p (.html s) then some (.html s) else none
  | .link d t c => if p (.link d t c) then some (.link d t c) else findFirstInlineInlines p c
  | .linkReference l t =>
    if p (.linkReference l t) then some (.linkReference l t)
    else match findFirstInlineInlines p l with
      | some found => some found
      | none => findFirstInlineInlines p t
  | .image d t a => if p (.image d t a) then some (.image d t a) else none
  | .emphasis c => if p (.emphasis c) then some (.emphasis c) else findFirstInlineInlines p c
  | .strong c => if p (.strong c) then some (.strong c) else findFirstInlineInlines p c
  | .strikethrough c =>
    if p (.strikethrough c) then some (.strikethrough c) else findFirstInlineInlines p c
  | .autolink s => if p (.autolink s) then some (.autolink s) else none
  | .footnoteReference s =>
    if p (.footnoteReference s) then some (.footnoteReference s) else none
  | .empty => if p .empty then some .empty else none
/-- `for inline in inlines { if let Some(found) = .. { return Some(found) } }` -/
def findFirstInlineInlines (p : Inline → Bool) : List Inline → Option Inline
  | [] => none
  | i :: l => match findFirstInlineInline p i with
    | some found => some found
    | none => findFirstInlineInlines p l
end

/-- The `for row … for cell … for inline …` loop of `query.rs:472-480`, one row. -/
def findFirstInlineRow (p : Inline → Bool) : List (List Inline) → Option Inline
  | [] => none
  | c :: l => match findFirstInlineInlines p c with
    | some found => some found
    | none => findFirstInlineRow p l

/-- The `for row …` loop of `query.rs:472-480`. -/
def findFirstInlineRows (p : Inline → Bool) : List (List (List Inline)) → Option Inline
  | [] => none
  | r :: l => match findFirstInlineRow p r with
    | some found => some found
    | none => findFirstInlineRows p l

mutual
/-- `find_first_inline_in_block`, `query.rs:436-506` -/
def findFirstInlineBlock (p : Inline → Bool) : Block → Option Inline
  | .paragraph c => findFirstInlineInlines p c
  | .heading _ c => findFirstInlineInlines p c
  | .blockQuote b => findFirstInlineBlocks p b
  | .list _ i => findFirstInlineItems p i
  | .table r _ => findFirstInlineRows p r
  | .footnoteDefinition _ b => findFirstInlineBlocks p b
  | .githubAlert _ b => findFirstInlineBlocks p b
  | .definition l _ _ => findFirstInlineInlines p l
  | .thematicBreak => none
  | .codeBlock _ _ => none
  | .htmlBlock _ => none
  | .empty => none
/-- loop over blocks, e.g. `query.rs:456-460` -/
def findFirstInlineBlocks (p : Inline → Bool) : List Block → Option Inline
  | [] => none
  | b :: l => match findFirstInlineBlock p b with
    | some found => some found
    | none => findFirstInlineBlocks p l
/-- `query.rs:464-468` -/
def findFirstInlineItem (p : Inline → Bool) : ListItem → Option Inline
  | .mk _ b => findFirstInlineBlocks p b
/-- `query.rs:463-469` -/
def findFirstInlineItems (p : Inline → Bool) : List ListItem → Option Inline
  | [] => none
  | i :: l => match findFirstInlineItem p i with
    | some found => some found
    | none => findFirstInlineItems p l
end

mutual
/-- `find_first_block_in_block`, `query.rs:548-590` -/
def findFirstBlockBlock (p : Block → Bool) : Block → Option Block
  | .blockQuote b => if p (.blockQuote b) then some (.blockQuote b) else findFirstBlockBlocks p b
  | .list k i => if p (.list k i) then some (.list k i) else findFirstBlockItems p i
  | .footnoteDefinition l b =>
    if p (.footnoteDefinition l b) then some (.footnoteDefinition l b)
    else findFirstBlockBlocks p b
  | .githubAlert t b =>
    if p (.githubAlert t b) then some (.githubAlert t b) else findFirstBlockBlocks p b
  | .paragraph c => if p (.paragraph c) then some (.paragraph c) else none
  | .heading k c => if p (.heading k c) then some (.heading k c) else none
  | .thematicBreak => if p .thematicBreak then some .thematicBreak else none
  | .codeBlock k s => if p (.codeBlock k s) then some (.codeBlock k s) else none
  | .htmlBlock s => if p (.htmlBlock s) then some (.htmlBlock s) else none
  | .definition l d t => if p (.definition l d t) then some (.definition l d t) else none
  | .table r a => if p (.table r a) then some (.table r a) else none
  | .empty => if p .empty then some .empty else none
/-- loop over blocks, e.g. `query.rs:558-562` -/
def findFirstBlockBlocks (p : Block → Bool) : List Block → Option Block
  | [] => none
  | b :: l => match findFirstBlockBlock p b with
    | some found => some found
    | none => findFirstBlockBlocks p l
/-- `query.rs:566-570` -/
def findFirstBlockItem (p : Block → Bool) : ListItem → Option Block
  | .mk _ b => findFirstBlockBlocks p b
/-- `query.rs:565-571` -/
def findFirstBlockItems (p : Block → Bool) : List ListItem → Option Block
  | [] => none
  | i :: l => match findFirstBlockItem p i with
    | some found => some found
    | none => findFirstBlockItems p l
end

/-- `<Document as Query>::find_first_inline`, `query.rs:212-222` -/
def Document.findFirstInline (d : Document) (p : Inline → Bool) : Option Inline :=
  findFirstInlineBlocks p d.blocks

/-- `<Document as Query>::find_first_block`, `query.rs:224-234` -/
def Document.findFirstBlock (d : Document) (p : Block → Bool) : Option Block :=
  findFirstBlockBlocks p d.blocks

/-- `any_inline`, `query.rs:74-79` -/
def Document.anyInline (d : Document) (p : Inline → Bool) : Bool := (d.findFirstInline p).isSome

/-- `any_block`, `query.rs:82-87` -/
def Document.anyBlock (d : Document) (p : Block → Bool) : Bool := (d.findFirstBlock p).isSome

/-- `count_inlines`, `query.rs:58-63` -/
def Document.countInlines (d : Document) (p : Inline → Bool) : Nat := (d.findAllInlines p).length

/-- `count_blocks`, `query.rs:66-71` -/
def Document.countBlocks (d : Document) (p : Block → Bool) : Nat := (d.findAllBlocks p).length

/-! ### Typed finders -/

/-- Payload extraction of `find_all_links`, `query.rs:93-96` -/
def asLink : Inline → Option (Str × Option Str × List Inline)
  | .link d t c => some (d, t, c)
  | _ => none
/-- `query.rs:104-107` -/
def asImage : Inline → Option (Str × Option Str × Str)
  | .image d t a => some (d, t, a)
  | _ => none
/-- `query.rs:126-129` -/
def asAutolink : Inline → Option Str
  | .autolink s => some s
  | _ => none
/-- `query.rs:137-140` -/
def asText : Inline → Option Str
  | .text s => some s
  | _ => none
/-- `query.rs:148-151` -/
def asCode : Inline → Option Str
  | .code s => some s
  | _ => none
/-- `query.rs:115-118` -/
def asHeading : Block → Option (HeadingKind × List Inline)
  | .heading k c => some (k, c)
  | _ => none
/-- `query.rs:159-162` -/
def asCodeBlock : Block → Option (CodeBlockKind × Str)
  | .codeBlock k s => some (k, s)
  | _ => none
/-- `query.rs:170-173` -/
def asTable : Block → Option (List (List (List Inline)) × List Alignment)
  | .table r a => some (r, a)
  | _ => none
/-- `query.rs:181-184` -/
def asList : Block → Option (ListKind × List ListItem)
  | .list k i => some (k, i)
  | _ => none

/-- `find_all_links`, `query.rs:90-98` (`matches!` is `isSome` of the payload) -/
def Document.findAllLinks (d : Document) :=
  (d.findAllInlines fun i => match i with | .link _ _ _ => true | _ => false).filterMap asLink
/-- `find_all_images`, `query.rs:101-109` -/
def Document.findAllImages (d : Document) :=
  (d.findAllInlines fun i => match i with | .image _ _ _ => true | _ => false).filterMap asImage
/-- `find_all_headings`, `query.rs:112-120` -/
def Document.findAllHeadings (d : Document) :=
  (d.findAllBlocks fun i => match i with | .heading _ _ => true | _ => false).filterMap asHeading
/-- `find_all_autolinks`, `query.rs:123-131` -/
def Document.findAllAutolinks (d : Document) :=
  (d.findAllInlines fun i => match i with | .autolink _ => true | _ => false).filterMap asAutolink
/-- `find_all_text`, `query.rs:134-142` -/
def Document.findAllText (d : Document) :=
  (d.findAllInlines fun i => match i with | .text _ => true | _ => false).filterMap asText
/-- `find_all_code_spans`, `query.rs:145-153` -/
def Document.findAllCodeSpans (d : Document) :=
  (d.findAllInlines fun i => match i with | .code _ => true | _ => false).filterMap asCode
/-- `find_all_code_blocks`, `query.rs:156-164` -/
def Document.findAllCodeBlocks (d : Document) :=
  (d.findAllBlocks fun i => match i with | .codeBlock _ _ => true | _ => false).filterMap
    asCodeBlock
/-- `find_all_tables`, `query.rs:167-175` -/
def Document.findAllTables (d : Document) :=
  (d.findAllBlocks fun i => match i with | .table _ _ => true | _ => false).filterMap asTable
/-- `find_all_lists`, `query.rs:178-186` -/
def Document.findAllLists (d : Document) :=
  (d.findAllBlocks fun i => match i with | .list _ _ => true | _ => false).filterMap asList

/-! ## Visitors

A visitor is a record of its (overridable) `visit_*` methods acting on its state `σ`; the
`walk_*` methods are functions of the record (`self.visit_*` is a field access). -/

/-- `trait Visitor`, `visitor.rs:62-126` -/
structure Visitor (σ : Type) where
  visitDocument : Document → σ → σ
  visitBlock : Block → σ → σ
  visitInline : Inline → σ → σ
  visitTableCell : List Inline → σ → σ
  visitListItem : ListItem → σ → σ
  visitTableRow : List (List Inline) → σ → σ
  visitHeading : HeadingKind → List Inline → σ → σ
  visitLink : Str → Option Str → List Inline → σ → σ
  visitImage : Str → Option Str → Str → σ → σ
  visitCodeBlock : CodeBlockKind → Str → σ → σ
  visitText : Str → σ → σ
  visitFootnoteDefinition : Str → List Block → σ → σ
  visitGithubAlert : AlertType → List Block → σ → σ

/-- A Rust `for x in xs { self.f(x) }` loop. -/
def forEach {σ α : Type} (f : α → σ → σ) (xs : List α) (s : σ) : σ := xs.foldl (fun s x => f x s) s

variable {σ : Type} (V : Visitor σ)

/-- `walk_document`, `visitor.rs:129-133` -/
def walkDocument (d : Document) (s : σ) : σ := forEach V.visitBlock d.blocks s

/-- `walk_block`, `visitor.rs:136-178` -/
def walkBlock (b : Block) (s : σ) : σ :=
  match b with
  | .paragraph c => forEach V.visitInline c s
  | .heading k c => V.visitHeading k c s
  | .blockQuote b => forEach V.visitBlock b s
  | .list _ i => forEach V.visitListItem i s
  | .table r _ => forEach V.visitTableRow r s
  | .footnoteDefinition l b => V.visitFootnoteDefinition l b s
  | .githubAlert t b => V.visitGithubAlert t b s
  | .definition l _ _ => forEach V.visitInline l s
  | .codeBlock k c => V.visitCodeBlock k c s
  | .thematicBreak => s
  | .htmlBlock _ => s
  | .empty => s

/-- `walk_inline`, `visitor.rs:181-215` -/
def walkInline (i : Inline) (s : σ) : σ :=
  match i with
  | .emphasis c => forEach V.visitInline c s
  | .strong c => forEach V.visitInline c s
  | .strikethrough c => forEach V.visitInline c s
  | .link d t c => V.visitLink d t c s
  | .linkReference l t => forEach V.visitInline t (forEach V.visitInline l s)
  | .image d t a => V.visitImage d t a s
  | .text t => V.visitText t s
  | .lineBreak => s
  | .code _ => s
  | .html _ => s
  | .autolink _ => s
  | .footnoteReference _ => s
  | .empty => s

/-- `walk_table_cell`, `visitor.rs:218-222` -/
def walkTableCell (c : List Inline) (s : σ) : σ := forEach V.visitInline c s
/-- `walk_list_item`, `visitor.rs:225-229` -/
def walkListItem (i : ListItem) (s : σ) : σ := forEach V.visitBlock i.blocks s
/-- `walk_table_row`, `visitor.rs:232-236` -/
def walkTableRow (r : List (List Inline)) (s : σ) : σ := forEach V.visitTableCell r s
/-- `walk_heading`, `visitor.rs:239-243` -/
def walkHeading (_ : HeadingKind) (c : List Inline) (s : σ) : σ := forEach V.visitInline c s
/-- `walk_link`, `visitor.rs:246-250` -/
def walkLink (_ : Str) (_ : Option Str) (c : List Inline) (s : σ) : σ := forEach V.visitInline c s
/-- `walk_image`, `visitor.rs:253-255` -/
def walkImage (_ : Str) (_ : Option Str) (_ : Str) (s : σ) : σ := s
/-- `walk_code_block`, `visitor.rs:258-260` -/
def walkCodeBlock (_ : CodeBlockKind) (_ : Str) (s : σ) : σ := s
/-- `walk_text`, `visitor.rs:263-265` -/
def walkText (_ : Str) (s : σ) : σ := s
/-- `walk_footnote_definition`, `visitor.rs:268-272` -/
def walkFootnoteDefinition (_ : Str) (b : List Block) (s : σ) : σ := forEach V.visitBlock b s
/-- `walk_github_alert`, `visitor.rs:275-279` -/
def walkGithubAlert (_ : AlertType) (b : List Block) (s : σ) : σ := forEach V.visitBlock b s

/-- `doc.visit_with(&mut v)`, `visitor.rs:288-292` -/
def Document.visitWith (d : Document) (s : σ) : σ := V.visitDocument d s

end Verif
