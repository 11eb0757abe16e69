import Verif.Generic
import Verif.Transform
/-!
# `GenericTransformer<T>` (`src/ast_transform/generic_transformer.rs`)

Same conventions as `Transform.lean`; `σ` is the transformer's own state and `T` the user data.
-/
namespace Verif
universe u

/-- `trait GenericTransformer<T>`, `generic_transformer.rs:51-525`: the overridable methods.
Payload structs are tuples in field order, the user data last. -/
structure GTransformer (T : Type) (σ : Type u) where
  transformDocument : GDocument T → σ → GDocument T × σ
  transformBlock : GBlock T → σ → GBlock T × σ
  transformInline : GInline T → σ → GInline T × σ
  transformTableCell : List (GInline T) → σ → List (GInline T) × σ
  transformListItem : GListItem T → σ → GListItem T × σ
  transformTableRow : List (List (GInline T)) → σ → List (List (GInline T)) × σ
  transformHeading : HeadingKind × List (GInline T) × T → σ → (HeadingKind × List (GInline T) × T) × σ
  transformLink : Str × Option Str × List (GInline T) × T → σ →
    (Str × Option Str × List (GInline T) × T) × σ
  transformImage : Str × Option Str × Str × T → σ → (Str × Option Str × Str × T) × σ
  transformCodeBlock : CodeBlockKind × Str × T → σ → (CodeBlockKind × Str × T) × σ
  transformFootnoteDefinition : Str × List (GBlock T) × T → σ → (Str × List (GBlock T) × T) × σ
  transformGithubAlert : AlertType × List (GBlock T) × T → σ → (AlertType × List (GBlock T) × T) × σ
  expandDocument : GDocument T → σ → List (GDocument T) × σ
  expandBlock : GBlock T → σ → List (GBlock T) × σ
  expandInline : GInline T → σ → List (GInline T) × σ
  expandTableCell : List (GInline T) → σ → List (List (GInline T)) × σ
  expandListItem : GListItem T → σ → List (GListItem T) × σ
  expandTableRow : List (List (GInline T)) → σ → List (List (List (GInline T))) × σ
  expandHeading : HeadingKind × List (GInline T) × T → σ →
    List (HeadingKind × List (GInline T) × T) × σ
  expandLink : Str × Option Str × List (GInline T) × T → σ →
    List (Str × Option Str × List (GInline T) × T) × σ
  expandImage : Str × Option Str × Str × T → σ → List (Str × Option Str × Str × T) × σ
  expandCodeBlock : CodeBlockKind × Str × T → σ → List (CodeBlockKind × Str × T) × σ
  expandFootnoteDefinition : Str × List (GBlock T) × T → σ → List (Str × List (GBlock T) × T) × σ
  expandGithubAlert : AlertType × List (GBlock T) × T → σ →
    List (AlertType × List (GBlock T) × T) × σ
  transformListItemContainer : ListKind × List (GListItem T) × T → σ →
    (ListKind × List (GListItem T) × T) × σ
  transformTable : List (List (List (GInline T))) × List Alignment × T → σ →
    (List (List (List (GInline T))) × List Alignment × T) × σ
  walkExpandDocument : GDocument T → σ → List (GDocument T) × σ
  walkExpandBlock : GBlock T → σ → List (GBlock T) × σ
  walkExpandInline : GInline T → σ → List (GInline T) × σ
  expandListContainer : ListKind × List (GListItem T) × T → σ →
    List (ListKind × List (GListItem T) × T) × σ
  expandTableContainer : List (List (List (GInline T))) × List Alignment × T → σ →
    List (List (List (List (GInline T))) × List Alignment × T) × σ

namespace GTransformer
variable {T : Type} {σ : Type u} (D : GTransformer T σ)

/-- `walk_transform_document`, `generic_transformer.rs:187-194` -/
def walkTransformDocument (d : GDocument T) (s : σ) : GDocument T × σ :=
  let r := mapSt D.transformBlock d.blocks s
  (⟨r.1, d.userData⟩, r.2)

/-- `walk_transform_block`, `generic_transformer.rs:197-232` -/
def walkTransformBlock (b : GBlock T) (s : σ) : GBlock T × σ :=
  match b with
  | .paragraph c x => let r := mapSt D.transformInline c s; (.paragraph r.1 x, r.2)
  | .heading k c x =>
    let r := D.transformHeading (k, c, x) s
    (.heading r.1.1 r.1.2.1 r.1.2.2, r.2)
  | .blockQuote b x => let r := mapSt D.transformBlock b s; (.blockQuote r.1 x, r.2)
  | .list k i x =>
    let r := D.transformListItemContainer (k, i, x) s
    (.list r.1.1 r.1.2.1 r.1.2.2, r.2)
  | .table rows a x => let r := D.transformTable (rows, a, x) s; (.table r.1.1 r.1.2.1 r.1.2.2, r.2)
  | .footnoteDefinition l b x =>
    let r := D.transformFootnoteDefinition (l, b, x) s
    (.footnoteDefinition r.1.1 r.1.2.1 r.1.2.2, r.2)
  | .githubAlert t b x =>
    let r := D.transformGithubAlert (t, b, x) s
    (.githubAlert r.1.1 r.1.2.1 r.1.2.2, r.2)
  | .definition l d t x => let r := mapSt D.transformInline l s; (.definition r.1 d t x, r.2)
  | .codeBlock k c x =>
    let r := D.transformCodeBlock (k, c, x) s
    (.codeBlock r.1.1 r.1.2.1 r.1.2.2, r.2)
  | .thematicBreak x => (.thematicBreak x, s)
  | .htmlBlock h x => (.htmlBlock h x, s)
  | .empty x => (.empty x, s)

/-- `walk_transform_inline`, `generic_transformer.rs:235-276` -/
def walkTransformInline (i : GInline T) (s : σ) : GInline T × σ :=
  match i with
  | .emphasis c x => let r := mapSt D.transformInline c s; (.emphasis r.1 x, r.2)
  | .strong c x => let r := mapSt D.transformInline c s; (.strong r.1 x, r.2)
  | .strikethrough c x => let r := mapSt D.transformInline c s; (.strikethrough r.1 x, r.2)
  | .link d t c x =>
    let r := D.transformLink (d, t, c, x) s
    (.link r.1.1 r.1.2.1 r.1.2.2.1 r.1.2.2.2, r.2)
  | .linkReference l t x =>
    let r := mapSt D.transformInline l s
    let q := mapSt D.transformInline t r.2
    (.linkReference r.1 q.1 x, q.2)
  | .image d t a x =>
    let r := D.transformImage (d, t, a, x) s
    (.image r.1.1 r.1.2.1 r.1.2.2.1 r.1.2.2.2, r.2)
  | .text t x => (.text t x, s)
  | .lineBreak x => (.lineBreak x, s)
  | .code c x => (.code c x, s)
  | .html h x => (.html h x, s)
  | .autolink l x => (.autolink l x, s)
  | .footnoteReference l x => (.footnoteReference l x, s)
  | .empty x => (.empty x, s)

/-- Default of `walk_expand_document`, `generic_transformer.rs:384-391` -/
def defWalkExpandDocument (d : GDocument T) (s : σ) : List (GDocument T) × σ :=
  let r := flatMapSt D.walkExpandBlock d.blocks s
  ([⟨r.1, d.userData⟩], r.2)

/-- Default of `walk_expand_block`, `generic_transformer.rs:394-455` -/
def defWalkExpandBlock (b : GBlock T) (s : σ) : List (GBlock T) × σ :=
  match b with
  | .paragraph c x => let r := flatMapSt D.walkExpandInline c s; ([.paragraph r.1 x], r.2)
  | .heading k c x =>
    let r := D.expandHeading (k, c, x) s
    (r.1.map fun h => .heading h.1 h.2.1 h.2.2, r.2)
  | .blockQuote b x => let r := flatMapSt D.walkExpandBlock b s; ([.blockQuote r.1 x], r.2)
  | .list k i x =>
    let r := D.expandListContainer (k, i, x) s
    (r.1.map fun h => .list h.1 h.2.1 h.2.2, r.2)
  | .table rows a x =>
    let r := D.expandTableContainer (rows, a, x) s
    (r.1.map fun h => .table h.1 h.2.1 h.2.2, r.2)
  | .footnoteDefinition l b x =>
    let r := D.expandFootnoteDefinition (l, b, x) s
    (r.1.map fun h => .footnoteDefinition h.1 h.2.1 h.2.2, r.2)
  | .githubAlert t b x =>
    let r := D.expandGithubAlert (t, b, x) s
    (r.1.map fun h => .githubAlert h.1 h.2.1 h.2.2, r.2)
  | .definition l d t x => let r := flatMapSt D.walkExpandInline l s; ([.definition r.1 d t x], r.2)
  | .codeBlock k c x =>
    let r := D.expandCodeBlock (k, c, x) s
    (r.1.map fun h => .codeBlock h.1 h.2.1 h.2.2, r.2)
  | .thematicBreak x => ([.thematicBreak x], s)
  | .htmlBlock h x => ([.htmlBlock h x], s)
  | .empty x => ([.empty x], s)

/-- Default of `walk_expand_inline`, `generic_transformer.rs:459-503` -/
def defWalkExpandInline (i : GInline T) (s : σ) : List (GInline T) × σ :=
  match i with
  | .emphasis c x => let r := flatMapSt D.walkExpandInline c s; ([.emphasis r.1 x], r.2)
  | .strong c x => let r := flatMapSt D.walkExpandInline c s; ([.strong r.1 x], r.2)
  | .strikethrough c x => let r := flatMapSt D.walkExpandInline c s; ([.strikethrough r.1 x], r.2)
  | .link d t c x =>
    let r := D.expandLink (d, t, c, x) s
    (r.1.map fun h => .link h.1 h.2.1 h.2.2.1 h.2.2.2, r.2)
  | .linkReference l t x =>
    let r := flatMapSt D.walkExpandInline l s
    let q := flatMapSt D.walkExpandInline t r.2
    ([.linkReference r.1 q.1 x], q.2)
  | .image d t a x =>
    let r := D.expandImage (d, t, a, x) s
    (r.1.map fun h => .image h.1 h.2.1 h.2.2.1 h.2.2.2, r.2)
  | .text t x => ([.text t x], s)
  | .lineBreak x => ([.lineBreak x], s)
  | .code c x => ([.code c x], s)
  | .html h x => ([.html h x], s)
  | .autolink l x => ([.autolink l x], s)
  | .footnoteReference l x => ([.footnoteReference l x], s)
  | .empty x => ([.empty x], s)

/-- `impl GenericTransformer<T> for X {}`: every method is the trait's default
(`generic_transformer.rs:53-523`). -/
structure Default : Prop where
  document : ∀ x s, D.transformDocument x s = D.walkTransformDocument x s
  block : ∀ x s, D.transformBlock x s = D.walkTransformBlock x s
  inline : ∀ x s, D.transformInline x s = D.walkTransformInline x s
  /-- `walk_transform_table_cell` -/
  tableCell : ∀ x s, D.transformTableCell x s = mapSt D.transformInline x s
  /-- `walk_transform_list_item` -/
  listItem : ∀ t b x s, D.transformListItem (.mk t b x) s =
    (.mk t (mapSt D.transformBlock b s).1 x, (mapSt D.transformBlock b s).2)
  /-- `walk_transform_table_row` -/
  tableRow : ∀ x s, D.transformTableRow x s = mapSt D.transformTableCell x s
  /-- `walk_transform_heading` -/
  heading : ∀ k c x s, D.transformHeading (k, c, x) s =
    ((k, (mapSt D.transformInline c s).1, x), (mapSt D.transformInline c s).2)
  /-- `walk_transform_link` -/
  link : ∀ d t c x s, D.transformLink (d, t, c, x) s =
    ((d, t, (mapSt D.transformInline c s).1, x), (mapSt D.transformInline c s).2)
  /-- `walk_transform_image` -/
  image : ∀ x s, D.transformImage x s = (x, s)
  /-- `walk_transform_code_block` -/
  codeBlock : ∀ x s, D.transformCodeBlock x s = (x, s)
  /-- `walk_transform_footnote_definition` -/
  footnoteDefinition : ∀ l b x s, D.transformFootnoteDefinition (l, b, x) s =
    ((l, (mapSt D.transformBlock b s).1, x), (mapSt D.transformBlock b s).2)
  /-- `walk_transform_github_alert` -/
  githubAlert : ∀ l b x s, D.transformGithubAlert (l, b, x) s =
    ((l, (mapSt D.transformBlock b s).1, x), (mapSt D.transformBlock b s).2)
  /-- `transform_list_item_container` -/
  listContainer : ∀ k i x s, D.transformListItemContainer (k, i, x) s =
    ((k, (mapSt D.transformListItem i s).1, x), (mapSt D.transformListItem i s).2)
  /-- `transform_table` -/
  table : ∀ r a x s, D.transformTable (r, a, x) s =
    (((mapSt D.transformTableRow r s).1, a, x), (mapSt D.transformTableRow r s).2)
  expandDocument : ∀ x s, D.expandDocument x s = Transformer.single D.transformDocument x s
  expandBlock : ∀ x s, D.expandBlock x s = Transformer.single D.transformBlock x s
  expandInline : ∀ x s, D.expandInline x s = Transformer.single D.transformInline x s
  expandTableCell : ∀ x s, D.expandTableCell x s = Transformer.single D.transformTableCell x s
  expandListItem : ∀ x s, D.expandListItem x s = Transformer.single D.transformListItem x s
  expandTableRow : ∀ x s, D.expandTableRow x s = Transformer.single D.transformTableRow x s
  expandHeading : ∀ x s, D.expandHeading x s = Transformer.single D.transformHeading x s
  expandLink : ∀ x s, D.expandLink x s = Transformer.single D.transformLink x s
  expandImage : ∀ x s, D.expandImage x s = Transformer.single D.transformImage x s
  expandCodeBlock : ∀ x s, D.expandCodeBlock x s = Transformer.single D.transformCodeBlock x s
  expandFootnoteDefinition : ∀ x s,
    D.expandFootnoteDefinition x s = Transformer.single D.transformFootnoteDefinition x s
  expandGithubAlert : ∀ x s, D.expandGithubAlert x s = Transformer.single D.transformGithubAlert x s
  walkExpandDocument : ∀ x s, D.walkExpandDocument x s = D.defWalkExpandDocument x s
  walkExpandBlock : ∀ x s, D.walkExpandBlock x s = D.defWalkExpandBlock x s
  walkExpandInline : ∀ x s, D.walkExpandInline x s = D.defWalkExpandInline x s
  /-- `expand_list_container` -/
  expandListContainer : ∀ k i x s, D.expandListContainer (k, i, x) s =
    ([(k, (flatMapSt D.expandListItem i s).1, x)], (flatMapSt D.expandListItem i s).2)
  /-- `expand_table_container` -/
  expandTableContainer : ∀ r a x s, D.expandTableContainer (r, a, x) s =
    ([((flatMapSt D.expandTableRow r s).1, a, x)], (flatMapSt D.expandTableRow r s).2)

/-- The trivial transformer, every method returning its argument. -/
def ident (T : Type) : GTransformer T Unit where
  transformDocument x s := (x, s)
  transformBlock x s := (x, s)
  transformInline x s := (x, s)
  transformTableCell x s := (x, s)
  transformListItem x s := (x, s)
  transformTableRow x s := (x, s)
  transformHeading x s := (x, s)
  transformLink x s := (x, s)
  transformImage x s := (x, s)
  transformCodeBlock x s := (x, s)
  transformFootnoteDefinition x s := (x, s)
  transformGithubAlert x s := (x, s)
  expandDocument x s := ([x], s)
  expandBlock x s := ([x], s)
  expandInline x s := ([x], s)
  expandTableCell x s := ([x], s)
  expandListItem x s := ([x], s)
  expandTableRow x s := ([x], s)
  expandHeading x s := ([x], s)
  expandLink x s := ([x], s)
  expandImage x s := ([x], s)
  expandCodeBlock x s := ([x], s)
  expandFootnoteDefinition x s := ([x], s)
  expandGithubAlert x s := ([x], s)
  transformListItemContainer x s := (x, s)
  transformTable x s := (x, s)
  walkExpandDocument x s := ([x], s)
  walkExpandBlock x s := ([x], s)
  walkExpandInline x s := ([x], s)
  expandListContainer x s := ([x], s)
  expandTableContainer x s := ([x], s)

end GTransformer
end Verif
