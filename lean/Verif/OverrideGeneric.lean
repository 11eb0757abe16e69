import Verif.OverrideProps
/-!
# C72, C73 for `GenericTransformer<T>`
-/
set_option linter.unusedVariables false
set_option linter.unusedSimpArgs false
namespace Verif
universe u
namespace GTransformer
variable {T : Type} {σ : Type u} (D : GTransformer T σ)

/-- The methods of the transform side other than `transform_block` and `transform_inline` are the
defaults. -/
structure DefaultTransforms : Prop where
  document : ∀ x s, D.transformDocument x s = D.walkTransformDocument x s
  tableCell : ∀ x s, D.transformTableCell x s = mapSt D.transformInline x s
  listItem : ∀ t b x s, D.transformListItem (.mk t b x) s =
    (.mk t (mapSt D.transformBlock b s).1 x, (mapSt D.transformBlock b s).2)
  tableRow : ∀ x s, D.transformTableRow x s = mapSt D.transformTableCell x s
  heading : ∀ k c x s, D.transformHeading (k, c, x) s =
    ((k, (mapSt D.transformInline c s).1, x), (mapSt D.transformInline c s).2)
  link : ∀ d t c x s, D.transformLink (d, t, c, x) s =
    ((d, t, (mapSt D.transformInline c s).1, x), (mapSt D.transformInline c s).2)
  image : ∀ x s, D.transformImage x s = (x, s)
  codeBlock : ∀ x s, D.transformCodeBlock x s = (x, s)
  footnoteDefinition : ∀ l b x s, D.transformFootnoteDefinition (l, b, x) s =
    ((l, (mapSt D.transformBlock b s).1, x), (mapSt D.transformBlock b s).2)
  githubAlert : ∀ l b x s, D.transformGithubAlert (l, b, x) s =
    ((l, (mapSt D.transformBlock b s).1, x), (mapSt D.transformBlock b s).2)
  listContainer : ∀ k i x s, D.transformListItemContainer (k, i, x) s =
    ((k, (mapSt D.transformListItem i s).1, x), (mapSt D.transformListItem i s).2)
  table : ∀ r a x s, D.transformTable (r, a, x) s =
    (((mapSt D.transformTableRow r s).1, a, x), (mapSt D.transformTableRow r s).2)

/-- `transform_block` and `transform_inline` are overridden by `o`. -/
structure OverriddenBy (o : GOverrides T σ) : Prop extends DefaultTransforms D where
  block : ∀ b s, D.transformBlock b s = (o.block b s).getD (D.walkTransformBlock b s)
  inline : ∀ i s, D.transformInline i s = (o.inline i s).getD (D.walkTransformInline i s)

/-- `walk_expand_block` and `walk_expand_inline` are overridden by `e`. -/
structure ExpandedBy (e : GExpansion T σ) : Prop extends DefaultTransforms D where
  block : ∀ x s, D.transformBlock x s = D.walkTransformBlock x s
  inline : ∀ x s, D.transformInline x s = D.walkTransformInline x s
  expandListItem : ∀ x s, D.expandListItem x s = Transformer.single D.transformListItem x s
  expandTableRow : ∀ x s, D.expandTableRow x s = Transformer.single D.transformTableRow x s
  expandHeading : ∀ x s, D.expandHeading x s = Transformer.single D.transformHeading x s
  expandLink : ∀ x s, D.expandLink x s = Transformer.single D.transformLink x s
  expandImage : ∀ x s, D.expandImage x s = Transformer.single D.transformImage x s
  expandCodeBlock : ∀ x s, D.expandCodeBlock x s = Transformer.single D.transformCodeBlock x s
  expandFootnoteDefinition : ∀ x s,
    D.expandFootnoteDefinition x s = Transformer.single D.transformFootnoteDefinition x s
  expandGithubAlert : ∀ x s, D.expandGithubAlert x s = Transformer.single D.transformGithubAlert x s
  expandListContainer : ∀ k i x s, D.expandListContainer (k, i, x) s =
    ([(k, (flatMapSt D.expandListItem i s).1, x)], (flatMapSt D.expandListItem i s).2)
  expandTableContainer : ∀ r a x s, D.expandTableContainer (r, a, x) s =
    ([((flatMapSt D.expandTableRow r s).1, a, x)], (flatMapSt D.expandTableRow r s).2)
  walkExpandDocument : ∀ x s, D.walkExpandDocument x s = D.defWalkExpandDocument x s
  walkExpandBlock : ∀ b s, D.walkExpandBlock b s = (e.block b s).getD (D.defWalkExpandBlock b s)
  walkExpandInline : ∀ i s, D.walkExpandInline i s = (e.inline i s).getD (D.defWalkExpandInline i s)

variable {D} {o : GOverrides T σ} {e : GExpansion T σ}

theorem OverriddenBy.inlines (H : D.OverriddenBy o) :
    (∀ i s, GInlineBecomes o i s (D.transformInline i s).1 (D.transformInline i s).2) ∧
    (∀ l : List (GInline T), ∀ i ∈ l, ∀ s, GInlineBecomes o i s (D.transformInline i s).1 (D.transformInline i s).2) := by
  have own : ∀ i s p, o.inline i s = some p → GInlineBecomes o i s (D.transformInline i s).1 (D.transformInline i s).2 := by
    intro i s p h; rw [H.inline, h]; exact .own (by rw [h]; rfl)
  apply GInline.ind
  case nil => simp
  case cons => intro i l hi hl j hj s; rcases List.mem_cons.1 hj with rfl | hj; exact hi s; exact hl j hj s
  case emphasis =>
    intro c x ih s
    cases h : o.inline (.emphasis c x) s with
    | some p => exact own _ _ _ h
    | none => rw [H.inline, h]; exact .emphasis h (mapSt_inOrder _ ih _)
  case strong =>
    intro c x ih s
    cases h : o.inline (.strong c x) s with
    | some p => exact own _ _ _ h
    | none => rw [H.inline, h]; exact .strong h (mapSt_inOrder _ ih _)
  case strikethrough =>
    intro c x ih s
    cases h : o.inline (.strikethrough c x) s with
    | some p => exact own _ _ _ h
    | none => rw [H.inline, h]; exact .strikethrough h (mapSt_inOrder _ ih _)
  case link =>
    intro d t c x ih s
    cases h : o.inline (.link d t c x) s with
    | some p => exact own _ _ _ h
    | none =>
      rw [H.inline, h]
      simp only [Option.getD_none, walkTransformInline, H.link]
      exact .link h (mapSt_inOrder _ ih _)
  case linkReference =>
    intro l t x ihl iht s
    cases h : o.inline (.linkReference l t x) s with
    | some p => exact own _ _ _ h
    | none =>
      rw [H.inline, h]
      exact .linkReference h (mapSt_inOrder _ ihl _) (mapSt_inOrder _ iht _)
  case image =>
    intro d t a x s
    cases h : o.inline (.image d t a x) s with
    | some p => exact own _ _ _ h
    | none =>
      rw [H.inline, h]
      simp only [Option.getD_none, walkTransformInline, H.image]
      exact .atom h trivial
  all_goals
    intros
    rename_i s
    cases h : o.inline _ s with
    | some p => exact own _ _ _ h
    | none => rw [H.inline, h]; exact .atom h trivial

theorem OverriddenBy.row (H : D.OverriddenBy o) (c : List (List (GInline T))) (s : σ) :
    InOrder (InOrder (GInlineBecomes o)) c s (D.transformTableRow c s).1 (D.transformTableRow c s).2 := by
  rw [H.tableRow]
  refine mapSt_inOrder _ (fun c _ s => ?_) _
  rw [H.tableCell]; exact mapSt_inOrder _ (H.inlines.2 c) _

theorem OverriddenBy.blocks (H : D.OverriddenBy o) :
    (∀ b s, GBlockBecomes o b s (D.transformBlock b s).1 (D.transformBlock b s).2) ∧
    (∀ i s, GItemBecomes o i s (D.transformListItem i s).1 (D.transformListItem i s).2) ∧
    (∀ l : List (GBlock T), ∀ b ∈ l, ∀ s, GBlockBecomes o b s (D.transformBlock b s).1 (D.transformBlock b s).2) ∧
    (∀ l : List (GListItem T), ∀ b ∈ l, ∀ s,
      GItemBecomes o b s (D.transformListItem b s).1 (D.transformListItem b s).2) := by
  have own : ∀ i s p, o.block i s = some p → GBlockBecomes o i s (D.transformBlock i s).1 (D.transformBlock i s).2 := by
    intro i s p h; rw [H.block, h]; exact .own (by rw [h]; rfl)
  apply GBlock.ind
  case nilB => simp
  case nilI => simp
  case consB => intro i l hi hl j hj s; rcases List.mem_cons.1 hj with rfl | hj; exact hi s; exact hl j hj s
  case consI => intro i l hi hl j hj s; rcases List.mem_cons.1 hj with rfl | hj; exact hi s; exact hl j hj s
  case item => intro t b x ih s; rw [H.listItem]; exact .mk (mapSt_inOrder _ ih _)
  case paragraph =>
    intro c x s
    cases h : o.block (.paragraph c x) s with
    | some p => exact own _ _ _ h
    | none => rw [H.block, h]; exact .paragraph h (mapSt_inOrder _ (H.inlines.2 c) _)
  case heading =>
    intro k c x s
    cases h : o.block (.heading k c x) s with
    | some p => exact own _ _ _ h
    | none =>
      rw [H.block, h]
      simp only [Option.getD_none, walkTransformBlock, H.heading]
      exact .heading h (mapSt_inOrder _ (H.inlines.2 c) _)
  case definition =>
    intro l d t x s
    cases h : o.block (.definition l d t x) s with
    | some p => exact own _ _ _ h
    | none => rw [H.block, h]; exact .definition h (mapSt_inOrder _ (H.inlines.2 l) _)
  case table =>
    intro r a x s
    cases h : o.block (.table r a x) s with
    | some p => exact own _ _ _ h
    | none =>
      rw [H.block, h]
      simp only [Option.getD_none, walkTransformBlock, H.table]
      exact .table h (mapSt_inOrder _ (fun r _ => H.row r) _)
  case blockQuote =>
    intro b x ih s
    cases h : o.block (.blockQuote b x) s with
    | some p => exact own _ _ _ h
    | none => rw [H.block, h]; exact .blockQuote h (mapSt_inOrder _ ih _)
  case footnoteDefinition =>
    intro l b x ih s
    cases h : o.block (.footnoteDefinition l b x) s with
    | some p => exact own _ _ _ h
    | none =>
      rw [H.block, h]
      simp only [Option.getD_none, walkTransformBlock, H.footnoteDefinition]
      exact .footnoteDefinition h (mapSt_inOrder _ ih _)
  case githubAlert =>
    intro l b x ih s
    cases h : o.block (.githubAlert l b x) s with
    | some p => exact own _ _ _ h
    | none =>
      rw [H.block, h]
      simp only [Option.getD_none, walkTransformBlock, H.githubAlert]
      exact .githubAlert h (mapSt_inOrder _ ih _)
  case list =>
    intro k i x ih s
    cases h : o.block (.list k i x) s with
    | some p => exact own _ _ _ h
    | none =>
      rw [H.block, h]
      simp only [Option.getD_none, walkTransformBlock, H.listContainer]
      exact .list h (mapSt_inOrder _ ih _)
  case codeBlock =>
    intro k c x s
    cases h : o.block (.codeBlock k c x) s with
    | some p => exact own _ _ _ h
    | none =>
      rw [H.block, h]
      simp only [Option.getD_none, walkTransformBlock, H.codeBlock]
      exact .atom h trivial
  all_goals
    intros
    rename_i s
    cases h : o.block _ s with
    | some p => exact own _ _ _ h
    | none => rw [H.block, h]; exact .atom h trivial

theorem ExpandedBy.overridden (H : D.ExpandedBy e) : D.OverriddenBy ⟨fun _ _ => none, fun _ _ => none⟩ :=
  { H.toDefaultTransforms with block := H.block, inline := H.inline }

theorem ExpandedBy.inline_id (H : D.ExpandedBy e) :
    (∀ i s, D.transformInline i s = (i, s)) ∧
    (∀ l : List (GInline T), ∀ i ∈ l, ∀ s, D.transformInline i s = (i, s)) := by
  apply GInline.ind
  case nil => simp
  case cons =>
    intro i l hi hl j hj s; rcases List.mem_cons.1 hj with rfl | hj; exact hi s; exact hl j hj s
  case link => intro d t c x hc s; simp [H.inline, walkTransformInline, H.link, mapSt_id _ _ hc]
  case linkReference =>
    intro l t x hl ht s; simp [H.inline, walkTransformInline, mapSt_id _ _ hl, mapSt_id _ _ ht]
  case image => intro d t a x s; simp [H.inline, walkTransformInline, H.image]
  case emphasis => intro c x hc s; simp [H.inline, walkTransformInline, mapSt_id _ _ hc]
  case strong => intro c x hc s; simp [H.inline, walkTransformInline, mapSt_id _ _ hc]
  case strikethrough => intro c x hc s; simp [H.inline, walkTransformInline, mapSt_id _ _ hc]
  all_goals intros; simp [H.inline, walkTransformInline]

theorem ExpandedBy.inlines_id (H : D.ExpandedBy e) (l : List (GInline T)) (s : σ) :
    mapSt D.transformInline l s = (l, s) := mapSt_id _ l (H.inline_id.2 l) s

theorem ExpandedBy.row_id (H : D.ExpandedBy e) (l : List (List (GInline T))) (s : σ) :
    D.transformTableRow l s = (l, s) := by
  rw [H.tableRow, mapSt_id _ _ fun c _ s => by rw [H.tableCell, H.inlines_id]]

theorem ExpandedBy.block_id (H : D.ExpandedBy e) :
    (∀ b s, D.transformBlock b s = (b, s)) ∧
    (∀ i s, D.transformListItem i s = (i, s)) ∧
    (∀ l s, mapSt D.transformBlock l s = (l, s)) ∧
    (∀ l s, mapSt D.transformListItem l s = (l, s)) := by
  have hrows := fun r s => mapSt_id D.transformTableRow r (fun c _ s => H.row_id c s) s
  apply GBlock.ind
  case nilB => intro s; rfl
  case nilI => intro s; rfl
  case consB => intro b l hb' hl s; simp [mapSt, hb', hl]
  case consI => intro b l hb' hl s; simp [mapSt, hb', hl]
  case item => intro t b x ih s; simp [H.listItem, ih]
  all_goals
    intros
    simp [H.block, walkTransformBlock, H.inlines_id, H.heading, H.listContainer, H.table, hrows,
      H.footnoteDefinition, H.githubAlert, H.codeBlock, *]

theorem ExpandedBy.inlines (H : D.ExpandedBy e) :
    (∀ i s, GInlineExpands e i s (D.walkExpandInline i s).1 (D.walkExpandInline i s).2) ∧
    (∀ l : List (GInline T), ∀ i ∈ l, ∀ s,
      GInlineExpands e i s (D.walkExpandInline i s).1 (D.walkExpandInline i s).2) := by
  have own : ∀ i s p, e.inline i s = some p →
      GInlineExpands e i s (D.walkExpandInline i s).1 (D.walkExpandInline i s).2 := by
    intro i s p h; rw [H.walkExpandInline, h]; exact .own (by rw [h]; rfl)
  apply GInline.ind
  case nil => simp
  case cons => intro i l hi hl j hj s; rcases List.mem_cons.1 hj with rfl | hj; exact hi s; exact hl j hj s
  case emphasis =>
    intro c x ih s
    cases h : e.inline (.emphasis c x) s with
    | some p => exact own _ _ _ h
    | none => rw [H.walkExpandInline, h]; exact .emphasis h (flatMapSt_inOrder _ ih _)
  case strong =>
    intro c x ih s
    cases h : e.inline (.strong c x) s with
    | some p => exact own _ _ _ h
    | none => rw [H.walkExpandInline, h]; exact .strong h (flatMapSt_inOrder _ ih _)
  case strikethrough =>
    intro c x ih s
    cases h : e.inline (.strikethrough c x) s with
    | some p => exact own _ _ _ h
    | none => rw [H.walkExpandInline, h]; exact .strikethrough h (flatMapSt_inOrder _ ih _)
  case link =>
    intro d t c x ih s
    cases h : e.inline (.link d t c x) s with
    | some p => exact own _ _ _ h
    | none =>
      rw [H.walkExpandInline, h]
      simp only [Option.getD_none, defWalkExpandInline, H.expandLink, Transformer.single, H.link, H.inlines_id,
        List.map_cons, List.map_nil]
      exact .link h
  case linkReference =>
    intro l t x ihl iht s
    cases h : e.inline (.linkReference l t x) s with
    | some p => exact own _ _ _ h
    | none =>
      rw [H.walkExpandInline, h]
      exact .linkReference h (flatMapSt_inOrder _ ihl _) (flatMapSt_inOrder _ iht _)
  case image =>
    intro d t a x s
    cases h : e.inline (.image d t a x) s with
    | some p => exact own _ _ _ h
    | none =>
      rw [H.walkExpandInline, h]
      simp only [Option.getD_none, defWalkExpandInline, H.expandImage, Transformer.single, H.image,
        List.map_cons, List.map_nil]
      exact .atom h trivial
  all_goals
    intros
    rename_i s
    cases h : e.inline _ s with
    | some p => exact own _ _ _ h
    | none => rw [H.walkExpandInline, h]; exact .atom h trivial

theorem ExpandedBy.blocks (H : D.ExpandedBy e) :
    (∀ b s, GBlockExpands e b s (D.walkExpandBlock b s).1 (D.walkExpandBlock b s).2) ∧
    (∀ _ : GListItem T, True) ∧
    (∀ l : List (GBlock T), ∀ b ∈ l, ∀ s, GBlockExpands e b s (D.walkExpandBlock b s).1 (D.walkExpandBlock b s).2) ∧
    (∀ _ : List (GListItem T), True) := by
  have own : ∀ i s p, e.block i s = some p →
      GBlockExpands e i s (D.walkExpandBlock i s).1 (D.walkExpandBlock i s).2 := by
    intro i s p h; rw [H.walkExpandBlock, h]; exact .own (by rw [h]; rfl)
  have hItem := fun l s => flatMapSt_id D.expandListItem l
    (fun i _ s => by simp [H.expandListItem, Transformer.single, H.block_id.2.1]) s
  have hRow := fun l s => flatMapSt_id D.expandTableRow l
    (fun i _ s => by simp [H.expandTableRow, Transformer.single, H.row_id]) s
  apply GBlock.ind
  case nilB => simp
  case nilI => trivial
  case consB => intro i l hi hl j hj s; rcases List.mem_cons.1 hj with rfl | hj; exact hi s; exact hl j hj s
  case consI => intros; trivial
  case item => intros; trivial
  case paragraph =>
    intro c x s
    cases h : e.block (.paragraph c x) s with
    | some p => exact own _ _ _ h
    | none => rw [H.walkExpandBlock, h]; exact .paragraph h (flatMapSt_inOrder _ (H.inlines.2 c) _)
  case definition =>
    intro l d t x s
    cases h : e.block (.definition l d t x) s with
    | some p => exact own _ _ _ h
    | none => rw [H.walkExpandBlock, h]; exact .definition h (flatMapSt_inOrder _ (H.inlines.2 l) _)
  case blockQuote =>
    intro b x ih s
    cases h : e.block (.blockQuote b x) s with
    | some p => exact own _ _ _ h
    | none => rw [H.walkExpandBlock, h]; exact .blockQuote h (flatMapSt_inOrder _ ih _)
  all_goals
    intros
    rename_i s
    cases h : e.block _ s with
    | some p => exact own _ _ _ h
    | none =>
      rw [H.walkExpandBlock, h]
      simp only [Option.getD_none, defWalkExpandBlock, hItem, hRow, H.expandHeading,
        Transformer.single, H.heading, H.inlines_id, H.expandListContainer, H.expandTableContainer,
        H.expandFootnoteDefinition, H.footnoteDefinition, H.expandGithubAlert, H.githubAlert,
        H.block_id.2.2.1, H.expandCodeBlock, H.codeBlock, List.map_cons, List.map_nil]
      exact .opaque h trivial

end GTransformer

/-- C72 for `GenericTransformer`: the same, user data included. -/
theorem C72_generic {T : Type} {σ : Type u} (D : GTransformer T σ) (o : GOverrides T σ) (H : D.OverriddenBy o)
    (d d' : GDocument T) (s s' : σ) (h : D.transformDocument d s = (d', s')) :
    InOrder (GBlockBecomes o) d.blocks s d'.blocks s' ∧ d'.userData = d.userData := by
  have := mapSt_inOrder (R := GBlockBecomes o) d.blocks (H.blocks.2.2.1 d.blocks) s
  rw [H.document] at h
  simp only [GTransformer.walkTransformDocument, Prod.mk.injEq] at h
  obtain ⟨rfl, rfl⟩ := h
  exact ⟨this, rfl⟩

/-- C73 for `GenericTransformer`. -/
theorem C73_generic {T : Type} {σ : Type u} (D : GTransformer T σ) (e : GExpansion T σ) (H : D.ExpandedBy e)
    (d : GDocument T) (ds : List (GDocument T)) (s s' : σ) (h : D.walkExpandDocument d s = (ds, s')) :
    ∃ bs, ds = [⟨bs, d.userData⟩] ∧ InOrderConcat (GBlockExpands e) d.blocks s bs s' := by
  have := flatMapSt_inOrder (R := GBlockExpands e) d.blocks (H.blocks.2.2.1 d.blocks) s
  rw [H.walkExpandDocument] at h
  simp only [GTransformer.defWalkExpandDocument, Prod.mk.injEq] at h
  obtain ⟨rfl, rfl⟩ := h
  exact ⟨_, rfl, this⟩

/-! ## Every override is possible -/

namespace GTransformer
section
variable {T : Type} {σ : Type u} (o : GOverrides T σ)

mutual
def inlineBy : GInline T → σ → GInline T × σ
  | .emphasis c x, s => (o.inline (.emphasis c x) s).getD (.emphasis (inlinesBy c s).1 x, (inlinesBy c s).2)
  | .strong c x, s => (o.inline (.strong c x) s).getD (.strong (inlinesBy c s).1 x, (inlinesBy c s).2)
  | .strikethrough c x, s => (o.inline (.strikethrough c x) s).getD
      (.strikethrough (inlinesBy c s).1 x, (inlinesBy c s).2)
  | .link d t c x, s => (o.inline (.link d t c x) s).getD (.link d t (inlinesBy c s).1 x, (inlinesBy c s).2)
  | .linkReference l t x, s => (o.inline (.linkReference l t x) s).getD
      (.linkReference (inlinesBy l s).1 (inlinesBy t (inlinesBy l s).2).1 x, (inlinesBy t (inlinesBy l s).2).2)
  | .image d t a x, s => (o.inline (.image d t a x) s).getD (.image d t a x, s)
  | .text t x, s => (o.inline (.text t x) s).getD (.text t x, s)
  | .lineBreak x, s => (o.inline (.lineBreak x) s).getD (.lineBreak x, s)
  | .code c x, s => (o.inline (.code c x) s).getD (.code c x, s)
  | .html c x, s => (o.inline (.html c x) s).getD (.html c x, s)
  | .autolink c x, s => (o.inline (.autolink c x) s).getD (.autolink c x, s)
  | .footnoteReference c x, s => (o.inline (.footnoteReference c x) s).getD (.footnoteReference c x, s)
  | .empty x, s => (o.inline (.empty x) s).getD (.empty x, s)
def inlinesBy : List (GInline T) → σ → List (GInline T) × σ
  | [], s => ([], s)
  | i :: l, s => ((inlineBy i s).1 :: (inlinesBy l (inlineBy i s).2).1, (inlinesBy l (inlineBy i s).2).2)
end

theorem inlinesBy_eq : ∀ l s, inlinesBy o l s = mapSt (inlineBy o) l s
  | [], s => by simp [inlinesBy, mapSt]
  | i :: l, s => by simp [inlinesBy, mapSt, inlinesBy_eq l]

mutual
def blockBy : GBlock T → σ → GBlock T × σ
  | .paragraph c x, s => (o.block (.paragraph c x) s).getD (.paragraph (inlinesBy o c s).1 x, (inlinesBy o c s).2)
  | .heading k c x, s => (o.block (.heading k c x) s).getD (.heading k (inlinesBy o c s).1 x, (inlinesBy o c s).2)
  | .definition c d t x, s => (o.block (.definition c d t x) s).getD
      (.definition (inlinesBy o c s).1 d t x, (inlinesBy o c s).2)
  | .table r a x, s => (o.block (.table r a x) s).getD
      (.table (mapSt (mapSt (mapSt (inlineBy o))) r s).1 a x, (mapSt (mapSt (mapSt (inlineBy o))) r s).2)
  | .blockQuote b x, s => (o.block (.blockQuote b x) s).getD (.blockQuote (blocksBy b s).1 x, (blocksBy b s).2)
  | .footnoteDefinition l b x, s => (o.block (.footnoteDefinition l b x) s).getD
      (.footnoteDefinition l (blocksBy b s).1 x, (blocksBy b s).2)
  | .githubAlert t b x, s => (o.block (.githubAlert t b x) s).getD (.githubAlert t (blocksBy b s).1 x, (blocksBy b s).2)
  | .list k i x, s => (o.block (.list k i x) s).getD (.list k (itemsBy i s).1 x, (itemsBy i s).2)
  | .codeBlock k c x, s => (o.block (.codeBlock k c x) s).getD (.codeBlock k c x, s)
  | .thematicBreak x, s => (o.block (.thematicBreak x) s).getD (.thematicBreak x, s)
  | .htmlBlock h x, s => (o.block (.htmlBlock h x) s).getD (.htmlBlock h x, s)
  | .empty x, s => (o.block (.empty x) s).getD (.empty x, s)
def blocksBy : List (GBlock T) → σ → List (GBlock T) × σ
  | [], s => ([], s)
  | i :: l, s => ((blockBy i s).1 :: (blocksBy l (blockBy i s).2).1, (blocksBy l (blockBy i s).2).2)
def itemBy : GListItem T → σ → GListItem T × σ
  | .mk t b x, s => (.mk t (blocksBy b s).1 x, (blocksBy b s).2)
def itemsBy : List (GListItem T) → σ → List (GListItem T) × σ
  | [], s => ([], s)
  | i :: l, s => ((itemBy i s).1 :: (itemsBy l (itemBy i s).2).1, (itemsBy l (itemBy i s).2).2)
end

theorem blocksBy_eq : ∀ l s, blocksBy o l s = mapSt (blockBy o) l s
  | [], s => by simp [blocksBy, mapSt]
  | i :: l, s => by simp [blocksBy, mapSt, blocksBy_eq l]

theorem itemsBy_eq : ∀ l s, itemsBy o l s = mapSt (itemBy o) l s
  | [], s => by simp [itemsBy, mapSt]
  | i :: l, s => by simp [itemsBy, mapSt, itemsBy_eq l]

/-- The transformer with these overrides. -/
def overriding : GTransformer T σ where
  transformDocument d s := (⟨(blocksBy o d.blocks s).1, d.userData⟩, (blocksBy o d.blocks s).2)
  transformBlock := blockBy o
  transformInline := inlineBy o
  transformTableCell := mapSt (inlineBy o)
  transformListItem := itemBy o
  transformTableRow := mapSt (mapSt (inlineBy o))
  transformHeading x s := ((x.1, (inlinesBy o x.2.1 s).1, x.2.2), (inlinesBy o x.2.1 s).2)
  transformLink x s := ((x.1, x.2.1, (inlinesBy o x.2.2.1 s).1, x.2.2.2), (inlinesBy o x.2.2.1 s).2)
  transformImage x s := (x, s)
  transformCodeBlock x s := (x, s)
  transformFootnoteDefinition x s := ((x.1, (blocksBy o x.2.1 s).1, x.2.2), (blocksBy o x.2.1 s).2)
  transformGithubAlert x s := ((x.1, (blocksBy o x.2.1 s).1, x.2.2), (blocksBy o x.2.1 s).2)
  expandDocument x s := ([x], s)
  expandBlock x s := ([x], s)
  expandInline x s := ([x], s)
  expandTableCell x s := ([x], s)
  expandListItem x s := ([x], s)
  expandTableRow x s := ([x], s)
  expandHeading x s := ([x], s)
  expandLink x s := ([x], s)
  expandImage x s := ([x], s)
  expandCodeBlock x s := ([x], s)
  expandFootnoteDefinition x s := ([x], s)
  expandGithubAlert x s := ([x], s)
  transformListItemContainer x s := ((x.1, (itemsBy o x.2.1 s).1, x.2.2), (itemsBy o x.2.1 s).2)
  transformTable x s := (((mapSt (mapSt (mapSt (inlineBy o))) x.1 s).1, x.2.1, x.2.2),
    (mapSt (mapSt (mapSt (inlineBy o))) x.1 s).2)
  walkExpandDocument x s := ([x], s)
  walkExpandBlock x s := ([x], s)
  walkExpandInline x s := ([x], s)
  expandListContainer x s := ([x], s)
  expandTableContainer x s := ([x], s)

theorem overriding_by : (overriding o).OverriddenBy o where
  document d s := by simp [overriding, walkTransformDocument, blocksBy_eq]
  block b s := by
    cases b <;> simp [overriding, blockBy, walkTransformBlock, blocksBy_eq, inlinesBy_eq, itemsBy_eq]
  inline i s := by cases i <;> simp [overriding, inlineBy, walkTransformInline, inlinesBy_eq]
  tableCell _ _ := rfl
  listItem t b x s := by simp [overriding, itemBy, blocksBy_eq]
  tableRow _ _ := rfl
  heading k c x s := by simp [overriding, inlinesBy_eq]
  link d t c x s := by simp [overriding, inlinesBy_eq]
  image _ _ := rfl
  codeBlock _ _ := rfl
  footnoteDefinition l b x s := by simp [overriding, blocksBy_eq]
  githubAlert l b x s := by simp [overriding, blocksBy_eq]
  listContainer k i x s := by simp [overriding, itemsBy_eq]
  table _ _ _ _ := rfl

end

section
variable {T : Type} {σ : Type u} (e : GExpansion T σ)

mutual
def inlineExpandBy : GInline T → σ → List (GInline T) × σ
  | .emphasis c x, s => (e.inline (.emphasis c x) s).getD ([.emphasis (inlinesExpandBy c s).1 x], (inlinesExpandBy c s).2)
  | .strong c x, s => (e.inline (.strong c x) s).getD ([.strong (inlinesExpandBy c s).1 x], (inlinesExpandBy c s).2)
  | .strikethrough c x, s => (e.inline (.strikethrough c x) s).getD
      ([.strikethrough (inlinesExpandBy c s).1 x], (inlinesExpandBy c s).2)
  | .link d t c x, s => (e.inline (.link d t c x) s).getD ([.link d t c x], s)
  | .linkReference l t x, s => (e.inline (.linkReference l t x) s).getD
      ([.linkReference (inlinesExpandBy l s).1 (inlinesExpandBy t (inlinesExpandBy l s).2).1 x],
        (inlinesExpandBy t (inlinesExpandBy l s).2).2)
  | .image d t a x, s => (e.inline (.image d t a x) s).getD ([.image d t a x], s)
  | .text t x, s => (e.inline (.text t x) s).getD ([.text t x], s)
  | .lineBreak x, s => (e.inline (.lineBreak x) s).getD ([.lineBreak x], s)
  | .code c x, s => (e.inline (.code c x) s).getD ([.code c x], s)
  | .html c x, s => (e.inline (.html c x) s).getD ([.html c x], s)
  | .autolink c x, s => (e.inline (.autolink c x) s).getD ([.autolink c x], s)
  | .footnoteReference c x, s => (e.inline (.footnoteReference c x) s).getD ([.footnoteReference c x], s)
  | .empty x, s => (e.inline (.empty x) s).getD ([.empty x], s)
def inlinesExpandBy : List (GInline T) → σ → List (GInline T) × σ
  | [], s => ([], s)
  | i :: l, s => ((inlineExpandBy i s).1 ++ (inlinesExpandBy l (inlineExpandBy i s).2).1,
      (inlinesExpandBy l (inlineExpandBy i s).2).2)
end

theorem inlinesExpandBy_eq : ∀ l s, inlinesExpandBy e l s = flatMapSt (inlineExpandBy e) l s
  | [], s => by simp [inlinesExpandBy, flatMapSt, mapSt]
  | i :: l, s => by simp [inlinesExpandBy, flatMapSt, mapSt, inlinesExpandBy_eq l]

mutual
def blockExpandBy : GBlock T → σ → List (GBlock T) × σ
  | .paragraph c x, s => (e.block (.paragraph c x) s).getD
      ([.paragraph (inlinesExpandBy e c s).1 x], (inlinesExpandBy e c s).2)
  | .definition c d t x, s => (e.block (.definition c d t x) s).getD
      ([.definition (inlinesExpandBy e c s).1 d t x], (inlinesExpandBy e c s).2)
  | .blockQuote b x, s => (e.block (.blockQuote b x) s).getD
      ([.blockQuote (blocksExpandBy b s).1 x], (blocksExpandBy b s).2)
  | .heading k c x, s => (e.block (.heading k c x) s).getD ([.heading k c x], s)
  | .table r a x, s => (e.block (.table r a x) s).getD ([.table r a x], s)
  | .footnoteDefinition l b x, s => (e.block (.footnoteDefinition l b x) s).getD ([.footnoteDefinition l b x], s)
  | .githubAlert t b x, s => (e.block (.githubAlert t b x) s).getD ([.githubAlert t b x], s)
  | .list k i x, s => (e.block (.list k i x) s).getD ([.list k i x], s)
  | .codeBlock k c x, s => (e.block (.codeBlock k c x) s).getD ([.codeBlock k c x], s)
  | .thematicBreak x, s => (e.block (.thematicBreak x) s).getD ([.thematicBreak x], s)
  | .htmlBlock h x, s => (e.block (.htmlBlock h x) s).getD ([.htmlBlock h x], s)
  | .empty x, s => (e.block (.empty x) s).getD ([.empty x], s)
def blocksExpandBy : List (GBlock T) → σ → List (GBlock T) × σ
  | [], s => ([], s)
  | i :: l, s => ((blockExpandBy i s).1 ++ (blocksExpandBy l (blockExpandBy i s).2).1,
      (blocksExpandBy l (blockExpandBy i s).2).2)
end

theorem blocksExpandBy_eq : ∀ l s, blocksExpandBy e l s = flatMapSt (blockExpandBy e) l s
  | [], s => by simp [blocksExpandBy, flatMapSt, mapSt]
  | i :: l, s => by simp [blocksExpandBy, flatMapSt, mapSt, blocksExpandBy_eq l]

/-- The transformer with these overrides. -/
def expanding : GTransformer T σ where
  transformDocument x s := (x, s)
  transformBlock x s := (x, s)
  transformInline x s := (x, s)
  transformTableCell x s := (x, s)
  transformListItem x s := (x, s)
  transformTableRow x s := (x, s)
  transformHeading x s := (x, s)
  transformLink x s := (x, s)
  transformImage x s := (x, s)
  transformCodeBlock x s := (x, s)
  transformFootnoteDefinition x s := (x, s)
  transformGithubAlert x s := (x, s)
  expandDocument x s := ([x], s)
  expandBlock x s := ([x], s)
  expandInline x s := ([x], s)
  expandTableCell x s := ([x], s)
  expandListItem x s := ([x], s)
  expandTableRow x s := ([x], s)
  expandHeading x s := ([x], s)
  expandLink x s := ([x], s)
  expandImage x s := ([x], s)
  expandCodeBlock x s := ([x], s)
  expandFootnoteDefinition x s := ([x], s)
  expandGithubAlert x s := ([x], s)
  transformListItemContainer x s := (x, s)
  transformTable x s := (x, s)
  walkExpandDocument d s := ([⟨(blocksExpandBy e d.blocks s).1, d.userData⟩], (blocksExpandBy e d.blocks s).2)
  walkExpandBlock := blockExpandBy e
  walkExpandInline := inlineExpandBy e
  expandListContainer x s := ([x], s)
  expandTableContainer x s := ([x], s)

theorem expanding_by : (expanding e).ExpandedBy e := by
  have hm : ∀ {α : Type} (l : List α) (s : σ), mapSt (fun x s => (x, s)) l s = (l, s) :=
    fun l s => mapSt_id _ l (fun _ _ _ => rfl) s
  have hf : ∀ {α : Type} (l : List α) (s : σ), flatMapSt (fun x s => ([x], s)) l s = (l, s) :=
    fun l s => flatMapSt_id _ l (fun _ _ _ => rfl) s
  constructor
  · constructor
    all_goals intros
    all_goals simp [expanding, hm, walkTransformDocument]
  case block => intro b s; cases b <;> simp [expanding, walkTransformBlock, hm]
  case inline => intro b s; cases b <;> simp [expanding, walkTransformInline, hm]
  case walkExpandBlock =>
    intro b s
    cases b <;> simp [expanding, defWalkExpandBlock, blockExpandBy, blocksExpandBy_eq, inlinesExpandBy_eq]
  case walkExpandInline =>
    intro b s
    cases b <;> simp [expanding, defWalkExpandInline, inlineExpandBy, inlinesExpandBy_eq]
  case walkExpandDocument => intro d s; simp [expanding, defWalkExpandDocument, blocksExpandBy_eq]
  all_goals intros; first | rfl | simp [expanding, hf]

end
end GTransformer

/-- C72 for `GenericTransformer` is about every override. -/
theorem C72_generic_exists {T : Type} {σ : Type u} (o : GOverrides T σ) : ∃ D : GTransformer T σ, D.OverriddenBy o :=
  ⟨_, GTransformer.overriding_by o⟩

/-- C73 for `GenericTransformer` is about every override. -/
theorem C73_generic_exists {T : Type} {σ : Type u} (e : GExpansion T σ) : ∃ D : GTransformer T σ, D.ExpandedBy e :=
  ⟨_, GTransformer.expanding_by e⟩

/-- Where `walk_expand_inline` is called and where it is not: the texts of paragraphs are doubled at any
depth, but not those of headings and links. (In a `Transformer` those of headings are, and those in
emphasis are not: C73_example.) -/
theorem C73_boundaries :
    let e : GExpansion Nat Unit := ⟨fun _ _ => none, fun i s => match i with
      | .text t x => some ([.text t x, .text t (x + 1)], s) | _ => none⟩
    (GTransformer.expanding e).walkExpandDocument ⟨[.paragraph [.emphasis [.text cs!"a" 1] 2] 3,
      .heading (.atx 1) [.text cs!"b" 4] 5, .paragraph [.link cs!"u" none [.text cs!"c" 6] 7] 8], 9⟩ () =
    ([⟨[.paragraph [.emphasis [.text cs!"a" 1, .text cs!"a" 2] 2] 3,
      .heading (.atx 1) [.text cs!"b" 4] 5, .paragraph [.link cs!"u" none [.text cs!"c" 6] 7] 8], 9⟩], ()) := by
  intro e
  simp [e, GTransformer.expanding, GTransformer.blocksExpandBy, GTransformer.blockExpandBy,
    GTransformer.inlinesExpandBy, GTransformer.inlineExpandBy]

end Verif
