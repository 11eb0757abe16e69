import Verif.Ast
/-!
# Transformers, convenience transforms and pipelines

`src/ast_transform/transformer.rs`, `src/ast_transform/convenience.rs`,
`src/ast_transform/pipeline.rs`.

A transformer is a record of its overridable trait methods, acting on the transformer's own state
`σ` (Rust's `&mut self`).  The `walk_transform_*` methods are functions of the record, so a call
`self.transform_x(..)` in the Rust code is the access of the record's field `transformX`.
Closures `F: Fn(String) -> String` are pure functions.
-/
namespace Verif
universe u

/-- `xs.into_iter().map(|x| self.f(x)).collect()` for a method acting on the state. -/
def mapSt {α β : Type} {σ : Type u} (f : α → σ → β × σ) : List α → σ → List β × σ
  | [], s => ([], s)
  | a :: l, s =>
    let r := f a s
    let rs := mapSt f l r.2
    (r.1 :: rs.1, rs.2)

/-- `xs.into_iter().flat_map(|x| self.f(x)).collect()` -/
def flatMapSt {α β : Type} {σ : Type u} (f : α → σ → List β × σ) (l : List α) (s : σ) :
    List β × σ :=
  let r := mapSt f l s
  (r.1.flatten, r.2)

/-- `trait Transformer`, `transformer.rs:55-586`: the methods that a default method calls on
`self`.  (`expand_heading`, `expand_link`, `expand_image`, `expand_code_block`, `expand_text`,
`expand_footnote_definition`, `expand_github_alert` and their `walk_expand_*` are never called by
the crate; they are not modelled.) -/
structure Transformer (σ : Type u) where
  transformDocument : Document → σ → Document × σ
  transformBlock : Block → σ → Block × σ
  transformInline : Inline → σ → Inline × σ
  transformTableCell : List Inline → σ → List Inline × σ
  transformListItem : ListItem → σ → ListItem × σ
  transformTableRow : List (List Inline) → σ → List (List Inline) × σ
  transformHeading : HeadingKind × List Inline → σ → (HeadingKind × List Inline) × σ
  transformLink : Str × Option Str × List Inline → σ → (Str × Option Str × List Inline) × σ
  transformImage : Str × Option Str × Str → σ → (Str × Option Str × Str) × σ
  transformCodeBlock : CodeBlockKind × Str → σ → (CodeBlockKind × Str) × σ
  transformText : Str → σ → Str × σ
  transformFootnoteDefinition : Str × List Block → σ → (Str × List Block) × σ
  transformGithubAlert : AlertType × List Block → σ → (AlertType × List Block) × σ
  expandDocument : Document → σ → List Document × σ
  expandBlock : Block → σ → List Block × σ
  expandInline : Inline → σ → List Inline × σ
  expandTableCell : List Inline → σ → List (List Inline) × σ
  expandListItem : ListItem → σ → List ListItem × σ
  expandTableRow : List (List Inline) → σ → List (List (List Inline)) × σ
  walkExpandDocument : Document → σ → List Document × σ
  walkExpandBlock : Block → σ → List Block × σ
  walkExpandInline : Inline → σ → List Inline × σ
  walkExpandTableCell : List Inline → σ → List (List Inline) × σ
  walkExpandListItem : ListItem → σ → List ListItem × σ
  walkExpandTableRow : List (List Inline) → σ → List (List (List Inline)) × σ

namespace Transformer
variable {σ : Type u} (D : Transformer σ)

/-- `walk_transform_document`, `transformer.rs:125-132` -/
def walkTransformDocument (d : Document) (s : σ) : Document × σ :=
  let r := mapSt D.transformBlock d.blocks s
  (⟨r.1⟩, r.2)

/-- `walk_transform_block`, `transformer.rs:135-182` -/
def walkTransformBlock (b : Block) (s : σ) : Block × σ :=
  match b with
  | .paragraph c => let r := mapSt D.transformInline c s; (.paragraph r.1, r.2)
  | .heading k c => let r := D.transformHeading (k, c) s; (.heading r.1.1 r.1.2, r.2)
  | .blockQuote b => let r := mapSt D.transformBlock b s; (.blockQuote r.1, r.2)
  | .list k i => let r := mapSt D.transformListItem i s; (.list k r.1, r.2)
  | .table rows a => let r := mapSt D.transformTableRow rows s; (.table r.1 a, r.2)
  | .footnoteDefinition l b =>
    let r := D.transformFootnoteDefinition (l, b) s
    (.footnoteDefinition r.1.1 r.1.2, r.2)
  | .githubAlert t b =>
    let r := D.transformGithubAlert (t, b) s
    (.githubAlert r.1.1 r.1.2, r.2)
  | .definition l d t => let r := mapSt D.transformInline l s; (.definition r.1 d t, r.2)
  | .codeBlock k c => let r := D.transformCodeBlock (k, c) s; (.codeBlock r.1.1 r.1.2, r.2)
  | .thematicBreak => (.thematicBreak, s)
  | .htmlBlock h => (.htmlBlock h, s)
  | .empty => (.empty, s)

/-- `walk_transform_inline`, `transformer.rs:185-224` -/
def walkTransformInline (i : Inline) (s : σ) : Inline × σ :=
  match i with
  | .emphasis c => let r := mapSt D.transformInline c s; (.emphasis r.1, r.2)
  | .strong c => let r := mapSt D.transformInline c s; (.strong r.1, r.2)
  | .strikethrough c => let r := mapSt D.transformInline c s; (.strikethrough r.1, r.2)
  | .link d t c => let r := D.transformLink (d, t, c) s; (.link r.1.1 r.1.2.1 r.1.2.2, r.2)
  | .linkReference l t =>
    let r := mapSt D.transformInline l s
    let q := mapSt D.transformInline t r.2
    (.linkReference r.1 q.1, q.2)
  | .image d t a => let r := D.transformImage (d, t, a) s; (.image r.1.1 r.1.2.1 r.1.2.2, r.2)
  | .text t => let r := D.transformText t s; (.text r.1, r.2)
  | .lineBreak => (.lineBreak, s)
  | .code c => (.code c, s)
  | .html h => (.html h, s)
  | .autolink l => (.autolink l, s)
  | .footnoteReference l => (.footnoteReference l, s)
  | .empty => (.empty, s)

/-- `walk_transform_table_cell`, `transformer.rs:227-231` -/
def walkTransformTableCell (c : List Inline) (s : σ) := mapSt D.transformInline c s
/-- `walk_transform_list_item`, `transformer.rs:234-241` -/
def walkTransformListItem (i : ListItem) (s : σ) : ListItem × σ :=
  let r := mapSt D.transformBlock i.blocks s
  (.mk i.task r.1, r.2)
/-- `walk_transform_table_row`, `transformer.rs:244-248` -/
def walkTransformTableRow (r : List (List Inline)) (s : σ) := mapSt D.transformTableCell r s
/-- `walk_transform_heading`, `transformer.rs:251-258` -/
def walkTransformHeading (h : HeadingKind × List Inline) (s : σ) :
    (HeadingKind × List Inline) × σ :=
  let r := mapSt D.transformInline h.2 s
  ((h.1, r.1), r.2)
/-- `walk_transform_link`, `transformer.rs:261-268` -/
def walkTransformLink (l : Str × Option Str × List Inline) (s : σ) :
    (Str × Option Str × List Inline) × σ :=
  let r := mapSt D.transformInline l.2.2 s
  ((l.1, l.2.1, r.1), r.2)
/-- `walk_transform_image`, `transformer.rs:271-274` -/
def walkTransformImage (i : Str × Option Str × Str) (s : σ) := (i, s)
/-- `walk_transform_code_block`, `transformer.rs:277-280` -/
def walkTransformCodeBlock (c : CodeBlockKind × Str) (s : σ) := (c, s)
/-- `walk_transform_text`, `transformer.rs:283-286` -/
def walkTransformText (t : Str) (s : σ) := (t, s)
/-- `walk_transform_footnote_definition`, `transformer.rs:565-575` -/
def walkTransformFootnoteDefinition (f : Str × List Block) (s : σ) : (Str × List Block) × σ :=
  let r := mapSt D.transformBlock f.2 s
  ((f.1, r.1), r.2)
/-- `walk_transform_github_alert`, `transformer.rs:578-585` -/
def walkTransformGithubAlert (f : AlertType × List Block) (s : σ) :
    (AlertType × List Block) × σ :=
  let r := mapSt D.transformBlock f.2 s
  ((f.1, r.1), r.2)

/-- Default of `walk_expand_document`, `transformer.rs:384-391` -/
def defWalkExpandDocument (d : Document) (s : σ) : List Document × σ :=
  let r := flatMapSt D.walkExpandBlock d.blocks s
  ([⟨r.1⟩], r.2)

/-- Default of `walk_expand_block`, `transformer.rs:398-465` -/
def defWalkExpandBlock (b : Block) (s : σ) : List Block × σ :=
  match b with
  | .paragraph c => let r := flatMapSt D.walkExpandInline c s; ([.paragraph r.1], r.2)
  | .heading k c => let r := flatMapSt D.walkExpandInline c s; ([.heading k r.1], r.2)
  | .blockQuote b => let r := flatMapSt D.walkExpandBlock b s; ([.blockQuote r.1], r.2)
  | .list k i => let r := flatMapSt D.walkExpandListItem i s; ([.list k r.1], r.2)
  | .table rows a => let r := flatMapSt D.walkExpandTableRow rows s; ([.table r.1 a], r.2)
  | .footnoteDefinition l b =>
    let r := flatMapSt D.walkExpandBlock b s
    ([.footnoteDefinition l r.1], r.2)
  | .githubAlert t b => let r := flatMapSt D.walkExpandBlock b s; ([.githubAlert t r.1], r.2)
  | .definition l d t => let r := flatMapSt D.walkExpandInline l s; ([.definition r.1 d t], r.2)
  | .codeBlock k c => let r := D.transformBlock (.codeBlock k c) s; ([r.1], r.2)
  | .thematicBreak => let r := D.transformBlock .thematicBreak s; ([r.1], r.2)
  | .htmlBlock h => let r := D.transformBlock (.htmlBlock h) s; ([r.1], r.2)
  | .empty => let r := D.transformBlock .empty s; ([r.1], r.2)

/-- `vec![self.transform_x(..)]`: the default of every `expand_x` (`transformer.rs:295-373`) and
of `walk_expand_inline` (`transformer.rs:471-473`) -/
def single {α : Type} (f : α → σ → α × σ) (a : α) (s : σ) : List α × σ :=
  let r := f a s
  ([r.1], r.2)

/-- Default of `walk_expand_table_cell`, `transformer.rs:476-482` -/
def defWalkExpandTableCell (c : List Inline) (s : σ) : List (List Inline) × σ :=
  let r := flatMapSt D.expandInline c s
  ([r.1], r.2)
/-- Default of `walk_expand_list_item`, `transformer.rs:485-492` -/
def defWalkExpandListItem (i : ListItem) (s : σ) : List ListItem × σ :=
  let r := flatMapSt D.expandBlock i.blocks s
  ([.mk i.task r.1], r.2)
/-- Default of `walk_expand_table_row`, `transformer.rs:495-501` -/
def defWalkExpandTableRow (row : List (List Inline)) (s : σ) : List (List (List Inline)) × σ :=
  let r := flatMapSt D.expandTableCell row s
  ([r.1], r.2)

/-- "Every method other than `transform_document`, `transform_block`, `transform_inline` and
`transform_text` is the trait's default" (`transformer.rs:55-586`). -/
structure DefaultRest : Prop where
  tableCell : ∀ x s, D.transformTableCell x s = D.walkTransformTableCell x s
  listItem : ∀ x s, D.transformListItem x s = D.walkTransformListItem x s
  tableRow : ∀ x s, D.transformTableRow x s = D.walkTransformTableRow x s
  heading : ∀ x s, D.transformHeading x s = D.walkTransformHeading x s
  link : ∀ x s, D.transformLink x s = D.walkTransformLink x s
  image : ∀ x s, D.transformImage x s = walkTransformImage x s
  codeBlock : ∀ x s, D.transformCodeBlock x s = walkTransformCodeBlock x s
  footnoteDefinition : ∀ x s,
    D.transformFootnoteDefinition x s = D.walkTransformFootnoteDefinition x s
  githubAlert : ∀ x s, D.transformGithubAlert x s = D.walkTransformGithubAlert x s
  expandDocument : ∀ x s, D.expandDocument x s = single D.transformDocument x s
  expandBlock : ∀ x s, D.expandBlock x s = single D.transformBlock x s
  expandInline : ∀ x s, D.expandInline x s = single D.transformInline x s
  expandTableCell : ∀ x s, D.expandTableCell x s = single D.transformTableCell x s
  expandListItem : ∀ x s, D.expandListItem x s = single D.transformListItem x s
  expandTableRow : ∀ x s, D.expandTableRow x s = single D.transformTableRow x s
  walkExpandDocument : ∀ x s, D.walkExpandDocument x s = D.defWalkExpandDocument x s
  walkExpandBlock : ∀ x s, D.walkExpandBlock x s = D.defWalkExpandBlock x s
  walkExpandInline : ∀ x s, D.walkExpandInline x s = single D.transformInline x s
  walkExpandTableCell : ∀ x s, D.walkExpandTableCell x s = D.defWalkExpandTableCell x s
  walkExpandListItem : ∀ x s, D.walkExpandListItem x s = D.defWalkExpandListItem x s
  walkExpandTableRow : ∀ x s, D.walkExpandTableRow x s = D.defWalkExpandTableRow x s

/-- `transform_document` is the default (`transformer.rs:57-59`). -/
def DefaultDocument : Prop := ∀ x s, D.transformDocument x s = D.walkTransformDocument x s
/-- `transform_block` is the default (`transformer.rs:62-64`). -/
def DefaultBlock : Prop := ∀ x s, D.transformBlock x s = D.walkTransformBlock x s
/-- `transform_inline` is the default (`transformer.rs:67-69`). -/
def DefaultInline : Prop := ∀ x s, D.transformInline x s = D.walkTransformInline x s
/-- `transform_text` is the default (`transformer.rs:107-109`). -/
def DefaultText : Prop := ∀ x s, D.transformText x s = walkTransformText x s

/-- `impl Transformer for T {}`: nothing overridden. -/
structure Default : Prop where
  document : D.DefaultDocument
  block : D.DefaultBlock
  inline : D.DefaultInline
  text : D.DefaultText
  rest : D.DefaultRest

/-- Only `transform_text` is overridden. -/
structure OverridesText (g : Str → σ → Str × σ) : Prop where
  document : D.DefaultDocument
  block : D.DefaultBlock
  inline : D.DefaultInline
  text : ∀ t s, D.transformText t s = g t s
  rest : D.DefaultRest

/-! ## The convenience transformers (`convenience.rs:185-351`, `395-404`)

Each is described by the equations of its `impl Transformer`. -/

/-- `TextTransformer`, `convenience.rs:198-208` -/
structure IsTextTransformer (f : Str → Str) : Prop where
  document : D.DefaultDocument
  block : D.DefaultBlock
  inline : ∀ i s, D.transformInline i s = match i with
    | .text t => (.text (f t), s)
    | other => D.walkTransformInline other s
  text : D.DefaultText
  rest : D.DefaultRest

/-- `ImageUrlTransformer`, `convenience.rs:223-236` -/
structure IsImageUrlTransformer (f : Str → Str) : Prop where
  document : D.DefaultDocument
  block : D.DefaultBlock
  inline : ∀ i s, D.transformInline i s = match i with
    | .image d t a => (.image (f d) t a, s)
    | other => D.walkTransformInline other s
  text : D.DefaultText
  rest : D.DefaultRest

/-- `LinkUrlTransformer`, `convenience.rs:251-269` -/
structure IsLinkUrlTransformer (f : Str → Str) : Prop where
  document : D.DefaultDocument
  block : D.DefaultBlock
  inline : ∀ i s, D.transformInline i s = match i with
    | .link d t c => let r := mapSt D.transformInline c s; (.link (f d) t r.1, r.2)
    | other => D.walkTransformInline other s
  text : D.DefaultText
  rest : D.DefaultRest

/-- `AutolinkTransformer`, `convenience.rs:284-294` -/
structure IsAutolinkTransformer (f : Str → Str) : Prop where
  document : D.DefaultDocument
  block : D.DefaultBlock
  inline : ∀ i s, D.transformInline i s = match i with
    | .autolink l => (.autolink (f l), s)
    | other => D.walkTransformInline other s
  text : D.DefaultText
  rest : D.DefaultRest

/-- `CodeTransformer`, `convenience.rs:309-319` -/
structure IsCodeTransformer (f : Str → Str) : Prop where
  document : D.DefaultDocument
  block : D.DefaultBlock
  inline : ∀ i s, D.transformInline i s = match i with
    | .code l => (.code (f l), s)
    | other => D.walkTransformInline other s
  text : D.DefaultText
  rest : D.DefaultRest

/-- `HtmlTransformer`, `convenience.rs:334-351` -/
structure IsHtmlTransformer (f : Str → Str) : Prop where
  document : D.DefaultDocument
  block : ∀ b s, D.transformBlock b s = match b with
    | .htmlBlock h => (.htmlBlock (f h), s)
    | other => D.walkTransformBlock other s
  inline : ∀ i s, D.transformInline i s = match i with
    | .html l => (.html (f l), s)
    | other => D.walkTransformInline other s
  text : D.DefaultText
  rest : D.DefaultRest

/-- `EmptyTextRemover`, `convenience.rs:397-404` -/
structure IsEmptyTextRemover : Prop where
  document : D.DefaultDocument
  block : D.DefaultBlock
  inline : ∀ i s, D.transformInline i s = match i with
    | .text t => if (trim t).isEmpty then (.empty, s) else D.walkTransformInline (.text t) s
    | other => D.walkTransformInline other s
  text : D.DefaultText
  rest : D.DefaultRest

end Transformer

/-! ## Instances

Records satisfying the equations above, built from a structural recursion over the AST (the
predicates determine the behaviour uniquely: `Transformer.Shallow.document_eq` in
`TransformProps`). -/

mutual
/-- Rebuild an inline bottom-up, applying `h` to every node. -/
def Inline.mapNodes (h : Inline → Inline) : Inline → Inline
  | .text t => h (.text t)
  | .lineBreak => h .lineBreak
  | .code c => h (.code c)
  | .html c => h (.html c)
  | .link d t c => h (.link d t (Inline.mapNodesL h c))
  | .linkReference l t => h (.linkReference (Inline.mapNodesL h l) (Inline.mapNodesL h t))
  | .image d t a => h (.image d t a)
  | .emphasis c => h (.emphasis (Inline.mapNodesL h c))
  | .strong c => h (.strong (Inline.mapNodesL h c))
  | .strikethrough c => h (.strikethrough (Inline.mapNodesL h c))
  | .autolink l => h (.autolink l)
  | .footnoteReference l => h (.footnoteReference l)
  | .empty => h .empty
/-- `Inline.mapNodes` on a list. -/
def Inline.mapNodesL (h : Inline → Inline) : List Inline → List Inline
  | [] => []
  | i :: l => Inline.mapNodes h i :: Inline.mapNodesL h l
end

mutual
/-- Rebuild a block bottom-up, applying `h` to every inline and `hb` to every block. -/
def Block.mapNodes (h : Inline → Inline) (hb : Block → Block) : Block → Block
  | .paragraph c => hb (.paragraph (Inline.mapNodesL h c))
  | .heading k c => hb (.heading k (Inline.mapNodesL h c))
  | .thematicBreak => hb .thematicBreak
  | .blockQuote b => hb (.blockQuote (Block.mapNodesL h hb b))
  | .list k i => hb (.list k (ListItem.mapNodesL h hb i))
  | .codeBlock k c => hb (.codeBlock k c)
  | .htmlBlock c => hb (.htmlBlock c)
  | .definition l d t => hb (.definition (Inline.mapNodesL h l) d t)
  | .table rows a => hb (.table (rows.map (List.map (Inline.mapNodesL h))) a)
  | .footnoteDefinition l b => hb (.footnoteDefinition l (Block.mapNodesL h hb b))
  | .githubAlert t b => hb (.githubAlert t (Block.mapNodesL h hb b))
  | .empty => hb .empty
/-- `Block.mapNodes` on a list. -/
def Block.mapNodesL (h : Inline → Inline) (hb : Block → Block) : List Block → List Block
  | [] => []
  | b :: l => Block.mapNodes h hb b :: Block.mapNodesL h hb l
/-- `Block.mapNodes` on a list item. -/
def ListItem.mapNodes (h : Inline → Inline) (hb : Block → Block) : ListItem → ListItem
  | .mk t b => .mk t (Block.mapNodesL h hb b)
/-- `Block.mapNodes` on list items. -/
def ListItem.mapNodesL (h : Inline → Inline) (hb : Block → Block) :
    List ListItem → List ListItem
  | [] => []
  | i :: l => ListItem.mapNodes h hb i :: ListItem.mapNodesL h hb l
end

/-- `Block.mapNodes` on a document. -/
def Document.mapNodes (h : Inline → Inline) (hb : Block → Block) (d : Document) : Document :=
  ⟨Block.mapNodesL h hb d.blocks⟩

mutual
/-- What `walk_expand_block` does with a transformer of the kind below: `hb` is applied to the
blocks inside list items (reached through `expand_block`) and to the leaf blocks, but not to the
other blocks on the path (reached through `walk_expand_block`). -/
def Block.expandMap (h : Inline → Inline) (hb : Block → Block) : Block → Block
  | .paragraph c => .paragraph (Inline.mapNodesL h c)
  | .heading k c => .heading k (Inline.mapNodesL h c)
  | .thematicBreak => hb .thematicBreak
  | .blockQuote b => .blockQuote (Block.expandMapL h hb b)
  | .list k i => .list k (ListItem.mapNodesL h hb i)
  | .codeBlock k c => hb (.codeBlock k c)
  | .htmlBlock c => hb (.htmlBlock c)
  | .definition l d t => .definition (Inline.mapNodesL h l) d t
  | .table rows a => .table (rows.map (List.map (Inline.mapNodesL h))) a
  | .footnoteDefinition l b => .footnoteDefinition l (Block.expandMapL h hb b)
  | .githubAlert t b => .githubAlert t (Block.expandMapL h hb b)
  | .empty => hb .empty
/-- `Block.expandMap` on a list. -/
def Block.expandMapL (h : Inline → Inline) (hb : Block → Block) : List Block → List Block
  | [] => []
  | b :: l => Block.expandMap h hb b :: Block.expandMapL h hb l
end

/-- A stateless transformer which after walking the children of a node applies `h` / `hb`. -/
def Transformer.shallow (h : Inline → Inline) (hb : Block → Block) : Transformer Unit where
  transformDocument d s := (d.mapNodes h hb, s)
  transformBlock b s := (b.mapNodes h hb, s)
  transformInline i s := (i.mapNodes h, s)
  transformTableCell c s := (Inline.mapNodesL h c, s)
  transformListItem i s := (i.mapNodes h hb, s)
  transformTableRow r s := (r.map (Inline.mapNodesL h), s)
  transformHeading x s := ((x.1, Inline.mapNodesL h x.2), s)
  transformLink x s := ((x.1, x.2.1, Inline.mapNodesL h x.2.2), s)
  transformImage x s := (x, s)
  transformCodeBlock x s := (x, s)
  transformText x s := (x, s)
  transformFootnoteDefinition x s := ((x.1, Block.mapNodesL h hb x.2), s)
  transformGithubAlert x s := ((x.1, Block.mapNodesL h hb x.2), s)
  expandDocument d s := ([d.mapNodes h hb], s)
  expandBlock d s := ([d.mapNodes h hb], s)
  expandInline d s := ([d.mapNodes h], s)
  expandTableCell c s := ([Inline.mapNodesL h c], s)
  expandListItem i s := ([i.mapNodes h hb], s)
  expandTableRow r s := ([r.map (Inline.mapNodesL h)], s)
  walkExpandDocument d s := ([⟨Block.expandMapL h hb d.blocks⟩], s)
  walkExpandBlock d s := ([Block.expandMap h hb d], s)
  walkExpandInline d s := ([d.mapNodes h], s)
  walkExpandTableCell c s := ([Inline.mapNodesL h c], s)
  walkExpandListItem i s := ([i.mapNodes h hb], s)
  walkExpandTableRow r s := ([r.map (Inline.mapNodesL h)], s)

/-- `TextTransformer::new(f)`, `convenience.rs:185-208` -/
def textTransformer (f : Str → Str) : Transformer Unit :=
  .shallow (fun | .text t => .text (f t) | i => i) id
/-- `ImageUrlTransformer::new(f)`, `convenience.rs:210-236` -/
def imageUrlTransformer (f : Str → Str) : Transformer Unit :=
  .shallow (fun | .image d t a => .image (f d) t a | i => i) id
/-- `LinkUrlTransformer::new(f)`, `convenience.rs:238-269` -/
def linkUrlTransformer (f : Str → Str) : Transformer Unit :=
  .shallow (fun | .link d t c => .link (f d) t c | i => i) id
/-- `AutolinkTransformer::new(f)`, `convenience.rs:271-294` -/
def autolinkTransformer (f : Str → Str) : Transformer Unit :=
  .shallow (fun | .autolink d => .autolink (f d) | i => i) id
/-- `CodeTransformer::new(f)`, `convenience.rs:296-319` -/
def codeTransformer (f : Str → Str) : Transformer Unit :=
  .shallow (fun | .code d => .code (f d) | i => i) id
/-- `HtmlTransformer::new(f)`, `convenience.rs:321-351` -/
def htmlTransformer (f : Str → Str) : Transformer Unit :=
  .shallow (fun | .html d => .html (f d) | i => i) (fun | .htmlBlock d => .htmlBlock (f d) | b => b)
/-- `EmptyTextRemover`, `convenience.rs:397-404` -/
def emptyTextRemover : Transformer Unit :=
  .shallow (fun | .text t => if (trim t).isEmpty then .empty else .text t | i => i) id

namespace Document

/-- `Transform::transform_with`, `convenience.rs:166-168`: the transformer is consumed. -/
def transformWith {σ : Type u} (D : Transformer σ) (s : σ) (d : Document) : Document :=
  (D.transformDocument d s).1
/-- `transform_text`, `convenience.rs:118-124` -/
def transformText (f : Str → Str) (d : Document) := d.transformWith (textTransformer f) ()
/-- `transform_image_urls`, `convenience.rs:126-132` -/
def transformImageUrls (f : Str → Str) (d : Document) := d.transformWith (imageUrlTransformer f) ()
/-- `transform_link_urls`, `convenience.rs:134-140` -/
def transformLinkUrls (f : Str → Str) (d : Document) := d.transformWith (linkUrlTransformer f) ()
/-- `transform_autolink_urls`, `convenience.rs:142-148` -/
def transformAutolinkUrls (f : Str → Str) (d : Document) :=
  d.transformWith (autolinkTransformer f) ()
/-- `transform_code`, `convenience.rs:150-156` -/
def transformCode (f : Str → Str) (d : Document) := d.transformWith (codeTransformer f) ()
/-- `transform_html`, `convenience.rs:158-164` -/
def transformHtml (f : Str → Str) (d : Document) := d.transformWith (htmlTransformer f) ()
/-- `transform_if_doc`, `convenience.rs:170-180` -/
def transformIfDoc (p : Document → Bool) (t : Document → Document) (d : Document) : Document :=
  if p d then t d else d
/-- `remove_empty_paragraphs`, `convenience.rs:371-375` -/
def removeEmptyParagraphs (d : Document) : Document :=
  ⟨d.blocks.filter fun b => !(match b with | .paragraph c => c.isEmpty | _ => false)⟩
/-- `remove_empty_text`, `convenience.rs:377-380` -/
def removeEmptyText (d : Document) := d.transformWith emptyTextRemover ()
/-- `normalize_whitespace`, `convenience.rs:382-384` -/
def normalizeWhitespace (d : Document) := d.transformText fun t => joinWith [' '] (splitWs t)
/-- `filter_blocks`, `convenience.rs:386-392` -/
def filterBlocks (p : Block → Bool) (d : Document) : Document := ⟨d.blocks.filter p⟩

end Document

/-! ## Pipelines (`pipeline.rs`) -/

/-- `TransformPipeline`, `pipeline.rs:48-50`; a boxed `FnOnce(Document) -> Document` is a
function. -/
structure Pipeline where
  steps : List (Document → Document)

namespace Pipeline

/-- `apply`, `pipeline.rs:202-207` -/
def apply (p : Pipeline) (d : Document) : Document := p.steps.foldl (fun d step => step d) d
/-- `TransformPipeline::new`, `pipeline.rs:54-56` -/
def new : Pipeline := ⟨[]⟩
/-- `self.steps.push(..)` -/
def push (p : Pipeline) (f : Document → Document) : Pipeline := ⟨p.steps ++ [f]⟩
/-- `transform_text`, `pipeline.rs:59-66` -/
def transformText (p : Pipeline) (f : Str → Str) := p.push (·.transformText f)
/-- `transform_image_urls`, `pipeline.rs:69-77` -/
def transformImageUrls (p : Pipeline) (f : Str → Str) := p.push (·.transformImageUrls f)
/-- `transform_link_urls`, `pipeline.rs:80-88` -/
def transformLinkUrls (p : Pipeline) (f : Str → Str) := p.push (·.transformLinkUrls f)
/-- `transform_autolink_urls`, `pipeline.rs:91-99` -/
def transformAutolinkUrls (p : Pipeline) (f : Str → Str) := p.push (·.transformAutolinkUrls f)
/-- `transform_code`, `pipeline.rs:102-109` -/
def transformCode (p : Pipeline) (f : Str → Str) := p.push (·.transformCode f)
/-- `transform_html`, `pipeline.rs:112-119` -/
def transformHtml (p : Pipeline) (f : Str → Str) := p.push (·.transformHtml f)
/-- `transform_with`, `pipeline.rs:122-127` -/
def transformWith {σ : Type u} (p : Pipeline) (D : Transformer σ) (s : σ) :=
  p.push (·.transformWith D s)
/-- `custom`, `pipeline.rs:130-136` -/
def custom (p : Pipeline) (f : Document → Document) := p.push f
/-- `when`, `pipeline.rs:139-149` -/
def when (p : Pipeline) (c : Bool) (builder : Pipeline → Pipeline) : Pipeline :=
  if c then p.push (builder new).apply else p
/-- `when_doc`, `pipeline.rs:152-166` -/
def whenDoc (p : Pipeline) (pred : Document → Bool) (builder : Pipeline → Pipeline) : Pipeline :=
  p.push fun d => if pred d then (builder new).apply d else d
/-- `remove_empty_paragraphs`, `pipeline.rs:169-174` -/
def removeEmptyParagraphs (p : Pipeline) := p.push (·.removeEmptyParagraphs)
/-- `remove_empty_text`, `pipeline.rs:177-181` -/
def removeEmptyText (p : Pipeline) := p.push (·.removeEmptyText)
/-- `normalize_whitespace`, `pipeline.rs:184-188` -/
def normalizeWhitespace (p : Pipeline) := p.push (·.normalizeWhitespace)
/-- `filter_blocks`, `pipeline.rs:191-199` -/
def filterBlocks (p : Pipeline) (pred : Block → Bool) := p.push (·.filterBlocks pred)

end Pipeline

/-! ## `CompositeTransformer` (`transformer.rs:636-685`) -/

/-- `Box<dyn Transformer>`: a transformer with its current state. -/
structure DynTransformer where
  σ : Type
  impl : Transformer σ
  state : σ

/-- `for transformer in &mut self.transformers { x = transformer.f(x) }` -/
def compositeRun {α : Type} (f : (D : DynTransformer) → α → α × D.σ) :
    List DynTransformer → α → α × List DynTransformer
  | [], a => (a, [])
  | D :: l, a =>
    let r := f D a
    let q := compositeRun f l r.1
    (q.1, ⟨D.σ, D.impl, r.2⟩ :: q.2)

/-- `CompositeTransformer::transform_document`, `transformer.rs:665-670` -/
def compositeDocument (l : List DynTransformer) (d : Document) : Document × List DynTransformer :=
  compositeRun (fun D d => D.impl.transformDocument d D.state) l d
/-- `CompositeTransformer::transform_block`, `transformer.rs:672-677` -/
def compositeBlock (l : List DynTransformer) (b : Block) : Block × List DynTransformer :=
  compositeRun (fun D d => D.impl.transformBlock d D.state) l b
/-- `CompositeTransformer::transform_inline`, `transformer.rs:679-684` -/
def compositeInline (l : List DynTransformer) (i : Inline) : Inline × List DynTransformer :=
  compositeRun (fun D d => D.impl.transformInline d D.state) l i
/-- `add_transformer`, `transformer.rs:652-655` -/
def compositeAdd (l : List DynTransformer) (D : DynTransformer) : List DynTransformer := l ++ [D]

end Verif
