import Verif.OverrideSpec
import Verif.GenericTransformProps
/-!
# C72, C73: overriding the methods of a transformer
-/
set_option linter.unusedVariables false
set_option linter.unusedSimpArgs false
namespace Verif
universe u

theorem mapSt_inOrder {α β : Type} {σ : Type u} {R : α → σ → β → σ → Prop} {f : α → σ → β × σ} :
    ∀ (l : List α), (∀ a ∈ l, ∀ s, R a s (f a s).1 (f a s).2) → ∀ s, InOrder R l s (mapSt f l s).1 (mapSt f l s).2
  | [], _, s => .nil
  | a :: l, h, s => .cons (h a (by simp) s) (mapSt_inOrder l (fun b hb => h b (by simp [hb])) _)

theorem flatMapSt_inOrder {α β : Type} {σ : Type u} {R : α → σ → List β → σ → Prop} {f : α → σ → List β × σ} :
    ∀ (l : List α), (∀ a ∈ l, ∀ s, R a s (f a s).1 (f a s).2) →
      ∀ s, InOrderConcat R l s (flatMapSt f l s).1 (flatMapSt f l s).2
  | [], _, s => .nil
  | a :: l, h, s => .cons (h a (by simp) s) (flatMapSt_inOrder l (fun b hb => h b (by simp [hb])) _)

/-- When each element becomes one. -/
theorem flatMapSt_inOrder1 {α β : Type} {σ : Type u} {R : α → σ → β → σ → Prop} {f : α → σ → List β × σ} :
    ∀ (l : List α), (∀ a ∈ l, ∀ s, ∃ b, (f a s).1 = [b] ∧ R a s b (f a s).2) →
      ∀ s, InOrder R l s (flatMapSt f l s).1 (flatMapSt f l s).2
  | [], _, s => .nil
  | a :: l, h, s => by
    obtain ⟨b, h1, h2⟩ := h a (by simp) s
    have := InOrder.cons h2 (flatMapSt_inOrder1 l (fun b hb => h b (by simp [hb])) (f a s).2)
    simpa [flatMapSt, mapSt, h1] using this

/-! ## C72: `transform_with` -/

namespace Transformer
variable {σ : Type u} (D : Transformer σ)

/-- The user's `transform_block`, `transform_inline` and `transform_text` are `o`, falling back to the
`walk_transform_*` methods; the other methods are the defaults. -/
structure OverriddenBy (o : Overrides σ) : Prop where
  document : D.DefaultDocument
  block : ∀ b s, D.transformBlock b s = (o.block b s).getD (D.walkTransformBlock b s)
  inline : ∀ i s, D.transformInline i s = (o.inline i s).getD (D.walkTransformInline i s)
  text : ∀ t s, D.transformText t s = o.text t s
  tableCell : ∀ x s, D.transformTableCell x s = D.walkTransformTableCell x s
  listItem : ∀ x s, D.transformListItem x s = D.walkTransformListItem x s
  tableRow : ∀ x s, D.transformTableRow x s = D.walkTransformTableRow x s
  heading : ∀ x s, D.transformHeading x s = D.walkTransformHeading x s
  link : ∀ x s, D.transformLink x s = D.walkTransformLink x s
  image : ∀ x s, D.transformImage x s = walkTransformImage x s
  codeBlock : ∀ x s, D.transformCodeBlock x s = walkTransformCodeBlock x s
  footnoteDefinition : ∀ x s,
    D.transformFootnoteDefinition x s = D.walkTransformFootnoteDefinition x s
  githubAlert : ∀ x s, D.transformGithubAlert x s = D.walkTransformGithubAlert x s

variable {D} {o : Overrides σ}

theorem OverriddenBy.inlines (H : D.OverriddenBy o) :
    (∀ i s, InlineBecomes o i s (D.transformInline i s).1 (D.transformInline i s).2) ∧
    (∀ l : List Inline, ∀ i ∈ l, ∀ s, InlineBecomes o i s (D.transformInline i s).1 (D.transformInline i s).2) := by
  have own : ∀ i s p, o.inline i s = some p → InlineBecomes o i s (D.transformInline i s).1 (D.transformInline i s).2 := by
    intro i s p h; rw [H.inline, h]; exact .own (by rw [h]; rfl)
  apply Inline.ind
  case nil => simp
  case cons => intro i l hi hl j hj s; rcases List.mem_cons.1 hj with rfl | hj; exact hi s; exact hl j hj s
  case text =>
    intro t s
    cases h : o.inline (.text t) s with
    | some p => exact own _ _ _ h
    | none => rw [H.inline, h]; simp only [Option.getD_none, walkTransformInline, H.text]; exact .text h rfl
  case emphasis =>
    intro c ih s
    cases h : o.inline (.emphasis c) s with
    | some p => exact own _ _ _ h
    | none => rw [H.inline, h]; exact .emphasis h (mapSt_inOrder _ ih _)
  case strong =>
    intro c ih s
    cases h : o.inline (.strong c) s with
    | some p => exact own _ _ _ h
    | none => rw [H.inline, h]; exact .strong h (mapSt_inOrder _ ih _)
  case strikethrough =>
    intro c ih s
    cases h : o.inline (.strikethrough c) s with
    | some p => exact own _ _ _ h
    | none => rw [H.inline, h]; exact .strikethrough h (mapSt_inOrder _ ih _)
  case link =>
    intro d t c ih s
    cases h : o.inline (.link d t c) s with
    | some p => exact own _ _ _ h
    | none =>
      rw [H.inline, h]
      simp only [Option.getD_none, walkTransformInline, H.link, walkTransformLink]
      exact .link h (mapSt_inOrder _ ih _)
  case linkReference =>
    intro l t ihl iht s
    cases h : o.inline (.linkReference l t) s with
    | some p => exact own _ _ _ h
    | none =>
      rw [H.inline, h]
      exact .linkReference h (mapSt_inOrder _ ihl _) (mapSt_inOrder _ iht _)
  case image =>
    intro d t a s
    cases h : o.inline (.image d t a) s with
    | some p => exact own _ _ _ h
    | none =>
      rw [H.inline, h]
      simp only [Option.getD_none, walkTransformInline, H.image, walkTransformImage]
      exact .atom h trivial
  all_goals
    intros
    rename_i s
    cases h : o.inline _ s with
    | some p => exact own _ _ _ h
    | none => rw [H.inline, h]; exact .atom h trivial

theorem OverriddenBy.cell (H : D.OverriddenBy o) (c : List Inline) (s : σ) :
    CellBecomes o c s (D.transformTableCell c s).1 (D.transformTableCell c s).2 := by
  rw [H.tableCell]; exact mapSt_inOrder _ (H.inlines.2 c) _

theorem OverriddenBy.row (H : D.OverriddenBy o) (c : List (List Inline)) (s : σ) :
    RowBecomes o c s (D.transformTableRow c s).1 (D.transformTableRow c s).2 := by
  rw [H.tableRow]; exact mapSt_inOrder _ (fun c _ => H.cell c) _

theorem OverriddenBy.blocks (H : D.OverriddenBy o) :
    (∀ b s, BlockBecomes o b s (D.transformBlock b s).1 (D.transformBlock b s).2) ∧
    (∀ i s, ItemBecomes o i s (D.transformListItem i s).1 (D.transformListItem i s).2) ∧
    (∀ l : List Block, ∀ b ∈ l, ∀ s, BlockBecomes o b s (D.transformBlock b s).1 (D.transformBlock b s).2) ∧
    (∀ l : List ListItem, ∀ b ∈ l, ∀ s, ItemBecomes o b s (D.transformListItem b s).1 (D.transformListItem b s).2) := by
  have own : ∀ i s p, o.block i s = some p → BlockBecomes o i s (D.transformBlock i s).1 (D.transformBlock i s).2 := by
    intro i s p h; rw [H.block, h]; exact .own (by rw [h]; rfl)
  apply Block.ind
  case nilB => simp
  case nilI => simp
  case consB => intro i l hi hl j hj s; rcases List.mem_cons.1 hj with rfl | hj; exact hi s; exact hl j hj s
  case consI => intro i l hi hl j hj s; rcases List.mem_cons.1 hj with rfl | hj; exact hi s; exact hl j hj s
  case item => intro t b ih s; rw [H.listItem]; exact .mk (mapSt_inOrder _ ih _)
  case paragraph =>
    intro c s
    cases h : o.block (.paragraph c) s with
    | some p => exact own _ _ _ h
    | none => rw [H.block, h]; exact .paragraph h (mapSt_inOrder _ (H.inlines.2 c) _)
  case heading =>
    intro k c s
    cases h : o.block (.heading k c) s with
    | some p => exact own _ _ _ h
    | none =>
      rw [H.block, h]
      simp only [Option.getD_none, walkTransformBlock, H.heading, walkTransformHeading]
      exact .heading h (mapSt_inOrder _ (H.inlines.2 c) _)
  case definition =>
    intro l d t s
    cases h : o.block (.definition l d t) s with
    | some p => exact own _ _ _ h
    | none => rw [H.block, h]; exact .definition h (mapSt_inOrder _ (H.inlines.2 l) _)
  case table =>
    intro r a s
    cases h : o.block (.table r a) s with
    | some p => exact own _ _ _ h
    | none => rw [H.block, h]; exact .table h (mapSt_inOrder _ (fun r _ => H.row r) _)
  case blockQuote =>
    intro b ih s
    cases h : o.block (.blockQuote b) s with
    | some p => exact own _ _ _ h
    | none => rw [H.block, h]; exact .blockQuote h (mapSt_inOrder _ ih _)
  case footnoteDefinition =>
    intro l b ih s
    cases h : o.block (.footnoteDefinition l b) s with
    | some p => exact own _ _ _ h
    | none =>
      rw [H.block, h]
      simp only [Option.getD_none, walkTransformBlock, H.footnoteDefinition, walkTransformFootnoteDefinition]
      exact .footnoteDefinition h (mapSt_inOrder _ ih _)
  case githubAlert =>
    intro l b ih s
    cases h : o.block (.githubAlert l b) s with
    | some p => exact own _ _ _ h
    | none =>
      rw [H.block, h]
      simp only [Option.getD_none, walkTransformBlock, H.githubAlert, walkTransformGithubAlert]
      exact .githubAlert h (mapSt_inOrder _ ih _)
  case list =>
    intro k i ih s
    cases h : o.block (.list k i) s with
    | some p => exact own _ _ _ h
    | none => rw [H.block, h]; exact .list h (mapSt_inOrder _ ih _)
  case codeBlock =>
    intro k c s
    cases h : o.block (.codeBlock k c) s with
    | some p => exact own _ _ _ h
    | none =>
      rw [H.block, h]
      simp only [Option.getD_none, walkTransformBlock, H.codeBlock, walkTransformCodeBlock]
      exact .atom h trivial
  all_goals
    intros
    rename_i s
    cases h : o.block _ s with
    | some p => exact own _ _ _ h
    | none => rw [H.block, h]; exact .atom h trivial

/-! ## C73: `expand_with` -/

variable (D)

/-- `walk_expand_block` and `walk_expand_inline` are overridden by `o` (blocks that `o` does not take go
to the default), and so is `expand_block`; all other methods are the defaults. -/
structure ExpandedBy (o : Expansion σ) : Prop where
  block : D.DefaultBlock
  inline : D.DefaultInline
  text : D.DefaultText
  tableCell : ∀ x s, D.transformTableCell x s = D.walkTransformTableCell x s
  link : ∀ x s, D.transformLink x s = D.walkTransformLink x s
  image : ∀ x s, D.transformImage x s = walkTransformImage x s
  codeBlock : ∀ x s, D.transformCodeBlock x s = walkTransformCodeBlock x s
  expandTableCell : ∀ x s, D.expandTableCell x s = single D.transformTableCell x s
  expandBlock : ∀ x s, D.expandBlock x s = o.itemBlock x s
  walkExpandDocument : ∀ x s, D.walkExpandDocument x s = D.defWalkExpandDocument x s
  walkExpandBlock : ∀ b s, D.walkExpandBlock b s = (o.block b s).getD (D.defWalkExpandBlock b s)
  walkExpandInline : ∀ x s, D.walkExpandInline x s = o.inline x s
  walkExpandListItem : ∀ x s, D.walkExpandListItem x s = D.defWalkExpandListItem x s
  walkExpandTableRow : ∀ x s, D.walkExpandTableRow x s = D.defWalkExpandTableRow x s

variable {D} {e : Expansion σ}

theorem ExpandedBy.inline_id (H : D.ExpandedBy e) :
    (∀ i s, D.transformInline i s = (i, s)) ∧
    (∀ l : List Inline, ∀ i ∈ l, ∀ s, D.transformInline i s = (i, s)) := by
  apply Inline.ind
  case nil => simp
  case cons => intro i l hi hl j hj s; rcases List.mem_cons.1 hj with rfl | hj; exact hi s; exact hl j hj s
  case text => intro t s; rw [H.inline]; simp [walkTransformInline, H.text t, walkTransformText]
  case link =>
    intro d t c hc s
    rw [H.inline]
    simp [walkTransformInline, H.link, walkTransformLink, GTransformer.mapSt_id _ _ hc]
  case linkReference =>
    intro l t hl ht s
    rw [H.inline]; simp [walkTransformInline, GTransformer.mapSt_id _ _ hl, GTransformer.mapSt_id _ _ ht]
  case image => intro d t a s; rw [H.inline]; simp [walkTransformInline, H.image, walkTransformImage]
  case emphasis => intro c hc s; rw [H.inline]; simp [walkTransformInline, GTransformer.mapSt_id _ _ hc]
  case strong => intro c hc s; rw [H.inline]; simp [walkTransformInline, GTransformer.mapSt_id _ _ hc]
  case strikethrough => intro c hc s; rw [H.inline]; simp [walkTransformInline, GTransformer.mapSt_id _ _ hc]
  all_goals intros; rw [H.inline]; rfl

theorem ExpandedBy.row_id (H : D.ExpandedBy e) (r : List (List Inline)) (s : σ) :
    D.walkExpandTableRow r s = ([r], s) := by
  rw [H.walkExpandTableRow]
  have := GTransformer.flatMapSt_id D.expandTableCell r (fun c _ s => by
    rw [H.expandTableCell]
    simp [single, H.tableCell, walkTransformTableCell, GTransformer.mapSt_id _ _ (H.inline_id.2 c)]) s
  simp [defWalkExpandTableRow, this]

theorem ExpandedBy.items (H : D.ExpandedBy e) (l : List ListItem) (s : σ) :
    InOrder (ItemExpands e) l s (flatMapSt D.walkExpandListItem l s).1 (flatMapSt D.walkExpandListItem l s).2 := by
  refine flatMapSt_inOrder1 l (fun i _ s => ?_) s
  rw [H.walkExpandListItem]
  refine ⟨_, rfl, ?_⟩
  cases i with
  | mk t b =>
    refine .mk ?_
    have : D.expandBlock = e.itemBlock := funext fun x => funext fun s => H.expandBlock x s
    simp only [defWalkExpandListItem, this]
    exact flatMapSt_inOrder (R := ItemBlockExpands e) _ (fun _ _ _ => rfl) _

theorem ExpandedBy.inlines (H : D.ExpandedBy e) (l : List Inline) (s : σ) :
    InOrderConcat (InlineExpands e) l s (flatMapSt D.walkExpandInline l s).1 (flatMapSt D.walkExpandInline l s).2 := by
  have : D.walkExpandInline = e.inline := funext fun x => funext fun s => H.walkExpandInline x s
  rw [this]
  exact flatMapSt_inOrder (R := InlineExpands e) _ (fun _ _ _ => rfl) _

theorem ExpandedBy.blocks (H : D.ExpandedBy e) :
    (∀ b s, BlockExpands e b s (D.walkExpandBlock b s).1 (D.walkExpandBlock b s).2) ∧
    (∀ _ : ListItem, True) ∧
    (∀ l : List Block, ∀ b ∈ l, ∀ s, BlockExpands e b s (D.walkExpandBlock b s).1 (D.walkExpandBlock b s).2) ∧
    (∀ _ : List ListItem, True) := by
  have own : ∀ i s p, e.block i s = some p → BlockExpands e i s (D.walkExpandBlock i s).1 (D.walkExpandBlock i s).2 := by
    intro i s p h; rw [H.walkExpandBlock, h]; exact .own (by rw [h]; rfl)
  apply Block.ind
  case nilB => simp
  case nilI => trivial
  case consB => intro i l hi hl j hj s; rcases List.mem_cons.1 hj with rfl | hj; exact hi s; exact hl j hj s
  case consI => intros; trivial
  case item => intros; trivial
  case paragraph =>
    intro c s
    cases h : e.block (.paragraph c) s with
    | some p => exact own _ _ _ h
    | none => rw [H.walkExpandBlock, h]; exact .paragraph h (H.inlines c s)
  case heading =>
    intro k c s
    cases h : e.block (.heading k c) s with
    | some p => exact own _ _ _ h
    | none => rw [H.walkExpandBlock, h]; exact .heading h (H.inlines c s)
  case definition =>
    intro l d t s
    cases h : e.block (.definition l d t) s with
    | some p => exact own _ _ _ h
    | none => rw [H.walkExpandBlock, h]; exact .definition h (H.inlines l s)
  case table =>
    intro r a s
    cases h : e.block (.table r a) s with
    | some p => exact own _ _ _ h
    | none =>
      rw [H.walkExpandBlock, h]
      simp only [Option.getD_none, defWalkExpandBlock, GTransformer.flatMapSt_id _ r (fun c _ s => H.row_id c s)]
      exact .table h
  case blockQuote =>
    intro b ih s
    cases h : e.block (.blockQuote b) s with
    | some p => exact own _ _ _ h
    | none => rw [H.walkExpandBlock, h]; exact .blockQuote h (flatMapSt_inOrder _ ih _)
  case footnoteDefinition =>
    intro l b ih s
    cases h : e.block (.footnoteDefinition l b) s with
    | some p => exact own _ _ _ h
    | none => rw [H.walkExpandBlock, h]; exact .footnoteDefinition h (flatMapSt_inOrder _ ih _)
  case githubAlert =>
    intro l b ih s
    cases h : e.block (.githubAlert l b) s with
    | some p => exact own _ _ _ h
    | none => rw [H.walkExpandBlock, h]; exact .githubAlert h (flatMapSt_inOrder _ ih _)
  case list =>
    intro k i _ s
    cases h : e.block (.list k i) s with
    | some p => exact own _ _ _ h
    | none => rw [H.walkExpandBlock, h]; exact .list h (H.items i s)
  case codeBlock =>
    intro k c s
    cases h : e.block (.codeBlock k c) s with
    | some p => exact own _ _ _ h
    | none =>
      rw [H.walkExpandBlock, h]
      simp only [Option.getD_none, defWalkExpandBlock, H.block _ s, walkTransformBlock, H.codeBlock, walkTransformCodeBlock]
      exact .atom h trivial
  all_goals
    intros
    rename_i s
    cases h : e.block _ s with
    | some p => exact own _ _ _ h
    | none =>
      rw [H.walkExpandBlock, h]
      simp only [Option.getD_none, defWalkExpandBlock, H.block _ s, walkTransformBlock]
      exact .atom h trivial

end Transformer

/-- C72: with `transform_block`, `transform_inline` and `transform_text` overridden by any code with any
state, `transform_with` gives the user's result for what the user takes over and walks the rest, in
document order, passing the state along. -/
theorem C72_transform {σ : Type u} (D : Transformer σ) (o : Overrides σ) (H : D.OverriddenBy o)
    (d d' : Document) (s s' : σ) (h : D.transformDocument d s = (d', s')) :
    InOrder (BlockBecomes o) d.blocks s d'.blocks s' := by
  have := mapSt_inOrder (R := BlockBecomes o) d.blocks (H.blocks.2.2.1 d.blocks) s
  rw [H.document] at h
  simp only [Transformer.walkTransformDocument, Prod.mk.injEq] at h
  obtain ⟨rfl, rfl⟩ := h
  exact this

/-- C73: with `walk_expand_block`, `walk_expand_inline` and `expand_block` overridden, `expand_with`
returns one document, in which what the user takes over is replaced by the user's lists, in document
order, passing the state along. -/
theorem C73_expand {σ : Type u} (D : Transformer σ) (o : Expansion σ) (H : D.ExpandedBy o)
    (d : Document) (ds : List Document) (s s' : σ) (h : D.walkExpandDocument d s = (ds, s')) :
    ∃ bs, ds = [⟨bs⟩] ∧ InOrderConcat (BlockExpands o) d.blocks s bs s' := by
  have := flatMapSt_inOrder (R := BlockExpands o) d.blocks (H.blocks.2.2.1 d.blocks) s
  rw [H.walkExpandDocument] at h
  simp only [Transformer.defWalkExpandDocument, Prod.mk.injEq] at h
  obtain ⟨rfl, rfl⟩ := h
  exact ⟨_, rfl, this⟩

/-! ## Every override is possible -/

section
variable {σ : Type u} (o : Overrides σ)

mutual
def inlineBy : Inline → σ → Inline × σ
  | .text t, s => (o.inline (.text t) s).getD (.text (o.text t s).1, (o.text t s).2)
  | .emphasis c, s => (o.inline (.emphasis c) s).getD (.emphasis (inlinesBy c s).1, (inlinesBy c s).2)
  | .strong c, s => (o.inline (.strong c) s).getD (.strong (inlinesBy c s).1, (inlinesBy c s).2)
  | .strikethrough c, s => (o.inline (.strikethrough c) s).getD (.strikethrough (inlinesBy c s).1, (inlinesBy c s).2)
  | .link d t c, s => (o.inline (.link d t c) s).getD (.link d t (inlinesBy c s).1, (inlinesBy c s).2)
  | .linkReference l t, s => (o.inline (.linkReference l t) s).getD
      (.linkReference (inlinesBy l s).1 (inlinesBy t (inlinesBy l s).2).1, (inlinesBy t (inlinesBy l s).2).2)
  | .image d t a, s => (o.inline (.image d t a) s).getD (.image d t a, s)
  | .lineBreak, s => (o.inline .lineBreak s).getD (.lineBreak, s)
  | .code c, s => (o.inline (.code c) s).getD (.code c, s)
  | .html c, s => (o.inline (.html c) s).getD (.html c, s)
  | .autolink c, s => (o.inline (.autolink c) s).getD (.autolink c, s)
  | .footnoteReference c, s => (o.inline (.footnoteReference c) s).getD (.footnoteReference c, s)
  | .empty, s => (o.inline .empty s).getD (.empty, s)
def inlinesBy : List Inline → σ → List Inline × σ
  | [], s => ([], s)
  | i :: l, s => ((inlineBy i s).1 :: (inlinesBy l (inlineBy i s).2).1, (inlinesBy l (inlineBy i s).2).2)
end

theorem inlinesBy_eq : ∀ l s, inlinesBy o l s = mapSt (inlineBy o) l s
  | [], s => by simp [inlinesBy, mapSt]
  | i :: l, s => by simp [inlinesBy, mapSt, inlinesBy_eq l]

mutual
def blockBy : Block → σ → Block × σ
  | .paragraph c, s => (o.block (.paragraph c) s).getD (.paragraph (inlinesBy o c s).1, (inlinesBy o c s).2)
  | .heading k c, s => (o.block (.heading k c) s).getD (.heading k (inlinesBy o c s).1, (inlinesBy o c s).2)
  | .definition c d t, s => (o.block (.definition c d t) s).getD (.definition (inlinesBy o c s).1 d t, (inlinesBy o c s).2)
  | .table r a, s => (o.block (.table r a) s).getD
      (.table (mapSt (mapSt (mapSt (inlineBy o))) r s).1 a, (mapSt (mapSt (mapSt (inlineBy o))) r s).2)
  | .blockQuote b, s => (o.block (.blockQuote b) s).getD (.blockQuote (blocksBy b s).1, (blocksBy b s).2)
  | .footnoteDefinition l b, s => (o.block (.footnoteDefinition l b) s).getD
      (.footnoteDefinition l (blocksBy b s).1, (blocksBy b s).2)
  | .githubAlert t b, s => (o.block (.githubAlert t b) s).getD (.githubAlert t (blocksBy b s).1, (blocksBy b s).2)
  | .list k i, s => (o.block (.list k i) s).getD (.list k (itemsBy i s).1, (itemsBy i s).2)
  | .codeBlock k c, s => (o.block (.codeBlock k c) s).getD (.codeBlock k c, s)
  | .thematicBreak, s => (o.block .thematicBreak s).getD (.thematicBreak, s)
  | .htmlBlock h, s => (o.block (.htmlBlock h) s).getD (.htmlBlock h, s)
  | .empty, s => (o.block .empty s).getD (.empty, s)
def blocksBy : List Block → σ → List Block × σ
  | [], s => ([], s)
  | i :: l, s => ((blockBy i s).1 :: (blocksBy l (blockBy i s).2).1, (blocksBy l (blockBy i s).2).2)
def itemBy : ListItem → σ → ListItem × σ
  | .mk t b, s => (.mk t (blocksBy b s).1, (blocksBy b s).2)
def itemsBy : List ListItem → σ → List ListItem × σ
  | [], s => ([], s)
  | i :: l, s => ((itemBy i s).1 :: (itemsBy l (itemBy i s).2).1, (itemsBy l (itemBy i s).2).2)
end

theorem blocksBy_eq : ∀ l s, blocksBy o l s = mapSt (blockBy o) l s
  | [], s => by simp [blocksBy, mapSt]
  | i :: l, s => by simp [blocksBy, mapSt, blocksBy_eq l]

theorem itemsBy_eq : ∀ l s, itemsBy o l s = mapSt (itemBy o) l s
  | [], s => by simp [itemsBy, mapSt]
  | i :: l, s => by simp [itemsBy, mapSt, itemsBy_eq l]

/-- The transformer with these overrides. -/
def Transformer.overriding : Transformer σ where
  transformDocument d s := (⟨(blocksBy o d.blocks s).1⟩, (blocksBy o d.blocks s).2)
  transformBlock := blockBy o
  transformInline := inlineBy o
  transformTableCell := mapSt (inlineBy o)
  transformListItem := itemBy o
  transformTableRow := mapSt (mapSt (inlineBy o))
  transformHeading x s := ((x.1, (inlinesBy o x.2 s).1), (inlinesBy o x.2 s).2)
  transformLink x s := ((x.1, x.2.1, (inlinesBy o x.2.2 s).1), (inlinesBy o x.2.2 s).2)
  transformImage x s := (x, s)
  transformCodeBlock x s := (x, s)
  transformText := o.text
  transformFootnoteDefinition x s := ((x.1, (blocksBy o x.2 s).1), (blocksBy o x.2 s).2)
  transformGithubAlert x s := ((x.1, (blocksBy o x.2 s).1), (blocksBy o x.2 s).2)
  expandDocument x s := ([x], s)
  expandBlock x s := ([x], s)
  expandInline x s := ([x], s)
  expandTableCell x s := ([x], s)
  expandListItem x s := ([x], s)
  expandTableRow x s := ([x], s)
  walkExpandDocument x s := ([x], s)
  walkExpandBlock x s := ([x], s)
  walkExpandInline x s := ([x], s)
  walkExpandTableCell x s := ([x], s)
  walkExpandListItem x s := ([x], s)
  walkExpandTableRow x s := ([x], s)

/-- C72 is about every override: any user code is that of some transformer. -/
theorem C72_exists : (Transformer.overriding o).OverriddenBy o where
  document d s := by simp [Transformer.overriding, Transformer.walkTransformDocument, blocksBy_eq]
  block b s := by
    cases b <;> simp [Transformer.overriding, blockBy, Transformer.walkTransformBlock, blocksBy_eq, inlinesBy_eq,
      itemsBy_eq]
  inline i s := by
    cases i <;> simp [Transformer.overriding, inlineBy, Transformer.walkTransformInline, inlinesBy_eq]
  text _ _ := rfl
  tableCell _ _ := rfl
  listItem i s := by
    cases i; simp [Transformer.overriding, itemBy, Transformer.walkTransformListItem, blocksBy_eq, ListItem.task,
      ListItem.blocks]
  tableRow _ _ := rfl
  heading x s := by simp [Transformer.overriding, Transformer.walkTransformHeading, inlinesBy_eq]
  link x s := by simp [Transformer.overriding, Transformer.walkTransformLink, inlinesBy_eq]
  image _ _ := rfl
  codeBlock _ _ := rfl
  footnoteDefinition x s := by
    simp [Transformer.overriding, Transformer.walkTransformFootnoteDefinition, blocksBy_eq]
  githubAlert x s := by
    simp [Transformer.overriding, Transformer.walkTransformGithubAlert, blocksBy_eq]

end

section
variable {σ : Type u} (e : Expansion σ)

def itemExpandBy (i : ListItem) (s : σ) : ListItem × σ :=
  (.mk i.task (flatMapSt e.itemBlock i.blocks s).1, (flatMapSt e.itemBlock i.blocks s).2)

mutual
def blockExpandBy : Block → σ → List Block × σ
  | .paragraph c, s => (e.block (.paragraph c) s).getD ([.paragraph (flatMapSt e.inline c s).1], (flatMapSt e.inline c s).2)
  | .heading k c, s => (e.block (.heading k c) s).getD ([.heading k (flatMapSt e.inline c s).1], (flatMapSt e.inline c s).2)
  | .definition c d t, s => (e.block (.definition c d t) s).getD
      ([.definition (flatMapSt e.inline c s).1 d t], (flatMapSt e.inline c s).2)
  | .table r a, s => (e.block (.table r a) s).getD ([.table r a], s)
  | .blockQuote b, s => (e.block (.blockQuote b) s).getD ([.blockQuote (blocksExpandBy b s).1], (blocksExpandBy b s).2)
  | .footnoteDefinition l b, s => (e.block (.footnoteDefinition l b) s).getD
      ([.footnoteDefinition l (blocksExpandBy b s).1], (blocksExpandBy b s).2)
  | .githubAlert t b, s => (e.block (.githubAlert t b) s).getD
      ([.githubAlert t (blocksExpandBy b s).1], (blocksExpandBy b s).2)
  | .list k i, s => (e.block (.list k i) s).getD ([.list k (mapSt (itemExpandBy e) i s).1], (mapSt (itemExpandBy e) i s).2)
  | .codeBlock k c, s => (e.block (.codeBlock k c) s).getD ([.codeBlock k c], s)
  | .thematicBreak, s => (e.block .thematicBreak s).getD ([.thematicBreak], s)
  | .htmlBlock h, s => (e.block (.htmlBlock h) s).getD ([.htmlBlock h], s)
  | .empty, s => (e.block .empty s).getD ([.empty], s)
def blocksExpandBy : List Block → σ → List Block × σ
  | [], s => ([], s)
  | i :: l, s => ((blockExpandBy i s).1 ++ (blocksExpandBy l (blockExpandBy i s).2).1,
      (blocksExpandBy l (blockExpandBy i s).2).2)
end

theorem blocksExpandBy_eq : ∀ l s, blocksExpandBy e l s = flatMapSt (blockExpandBy e) l s
  | [], s => by simp [blocksExpandBy, flatMapSt, mapSt]
  | i :: l, s => by simp [blocksExpandBy, flatMapSt, mapSt, blocksExpandBy_eq l]

theorem flatMapSt_one {α β : Type} (f : α → σ → β × σ) : ∀ (l : List α) (s : σ),
    flatMapSt (fun a s => ([(f a s).1], (f a s).2)) l s = mapSt f l s
  | [], s => by simp [flatMapSt, mapSt]
  | a :: l, s => by
    have := flatMapSt_one f l (f a s).2
    simp only [flatMapSt, mapSt, Prod.ext_iff] at this ⊢
    simp [this.1, this.2]

/-- The transformer with these overrides. -/
def Transformer.expanding : Transformer σ where
  transformDocument x s := (x, s)
  transformBlock x s := (x, s)
  transformInline x s := (x, s)
  transformTableCell x s := (x, s)
  transformListItem x s := (x, s)
  transformTableRow x s := (x, s)
  transformHeading x s := (x, s)
  transformLink x s := (x, s)
  transformImage x s := (x, s)
  transformCodeBlock x s := (x, s)
  transformText x s := (x, s)
  transformFootnoteDefinition x s := (x, s)
  transformGithubAlert x s := (x, s)
  expandDocument x s := ([x], s)
  expandBlock := e.itemBlock
  expandInline x s := ([x], s)
  expandTableCell x s := ([x], s)
  expandListItem x s := ([x], s)
  expandTableRow x s := ([x], s)
  walkExpandDocument d s := ([⟨(blocksExpandBy e d.blocks s).1⟩], (blocksExpandBy e d.blocks s).2)
  walkExpandBlock := blockExpandBy e
  walkExpandInline := e.inline
  walkExpandTableCell x s := ([x], s)
  walkExpandListItem i s := ([(itemExpandBy e i s).1], (itemExpandBy e i s).2)
  walkExpandTableRow x s := ([x], s)

/-- C73 is about every override. -/
theorem C73_exists : (Transformer.expanding e).ExpandedBy e where
  block b s := by
    have hm : ∀ {α : Type} (l : List α) (s : σ), mapSt (fun x s => (x, s)) l s = (l, s) :=
      fun l s => GTransformer.mapSt_id _ l (fun _ _ _ => rfl) s
    cases b <;> simp [Transformer.expanding, Transformer.walkTransformBlock, hm]
  inline i s := by
    have hm : ∀ {α : Type} (l : List α) (s : σ), mapSt (fun x s => (x, s)) l s = (l, s) :=
      fun l s => GTransformer.mapSt_id _ l (fun _ _ _ => rfl) s
    cases i <;> simp [Transformer.expanding, Transformer.walkTransformInline, hm]
  text _ _ := rfl
  tableCell x s := (GTransformer.mapSt_id _ x (fun _ _ _ => rfl) s).symm
  link x s := by
    have hm : ∀ {α : Type} (l : List α) (s : σ), mapSt (fun x s => (x, s)) l s = (l, s) :=
      fun l s => GTransformer.mapSt_id _ l (fun _ _ _ => rfl) s
    simp [Transformer.expanding, Transformer.walkTransformLink, hm]
  image _ _ := rfl
  codeBlock _ _ := rfl
  expandTableCell _ _ := rfl
  expandBlock _ _ := rfl
  walkExpandDocument d s := by simp [Transformer.expanding, Transformer.defWalkExpandDocument, blocksExpandBy_eq]
  walkExpandBlock b s := by
    cases b <;> simp [Transformer.expanding, Transformer.defWalkExpandBlock, blockExpandBy, blocksExpandBy_eq,
      flatMapSt_one, GTransformer.flatMapSt_id]
  walkExpandInline _ _ := rfl
  walkExpandListItem _ _ := rfl
  walkExpandTableRow x s := by
    simp [Transformer.expanding, Transformer.defWalkExpandTableRow, GTransformer.flatMapSt_id]

end

/-- Number the texts in front, and drop code spans from link texts by taking links over. -/
def numberTexts : Overrides Nat where
  block b s := match b with | .thematicBreak => some (.empty, s + 10) | _ => none
  inline i s := match i with | .link d t _ => some (.link d t [], s) | _ => none
  text t s := (Nat.toDigits 10 s ++ t, s + 1)

/-- Double every text, split quotes into their blocks. -/
def splitQuotes : Expansion Nat where
  block b s := match b with | .blockQuote bs => some (bs, s + 1) | _ => none
  inline i s := match i with | .text t => ([.text t, .code t], s + 1) | i => ([i], s)
  itemBlock b s := ([b, .thematicBreak], s + 100)

/-- What the overrides of the examples do. -/
theorem C72_example :
    (Transformer.overriding numberTexts).transformDocument ⟨[.paragraph [.text cs!"a", .emphasis [.text cs!"b"]],
      .thematicBreak, .list (.ordered 1) [.mk none [.paragraph [.link cs!"u" none [.text cs!"c"], .text cs!"d"]]]]⟩ 1 =
    (⟨[.paragraph [.text cs!"1a", .emphasis [.text cs!"2b"]], .empty,
      .list (.ordered 1) [.mk none [.paragraph [.link cs!"u" none [], .text cs!"13d"]]]]⟩, 14) := by
  decide +kernel

theorem C73_example :
    (Transformer.expanding splitQuotes).walkExpandDocument ⟨[.blockQuote [.thematicBreak, .paragraph [.text cs!"a"]],
      .footnoteDefinition cs!"f" [.blockQuote [.empty], .paragraph [.text cs!"b", .emphasis [.text cs!"c"]]],
      .list (.ordered 1) [.mk none [.paragraph [.text cs!"d"]]]]⟩ 0 =
    ([⟨[.thematicBreak, .paragraph [.text cs!"a"],
      .footnoteDefinition cs!"f" [.empty, .paragraph [.text cs!"b", .code cs!"b", .emphasis [.text cs!"c"]]],
      .list (.ordered 1) [.mk none [.paragraph [.text cs!"d"], .thematicBreak]]]⟩], 103) := by
  decide +kernel

end Verif
