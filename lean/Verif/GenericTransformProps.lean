import Verif.GenericTransform
import Verif.TransformProps
/-!
# C13 for `GenericTransformer<T>`
-/
namespace Verif
universe u
namespace GTransformer
variable {T : Type} {σ : Type u} {D : GTransformer T σ}

theorem mapSt_id {α : Type} (f : α → σ → α × σ) (l : List α) (h : ∀ a ∈ l, ∀ s, f a s = (a, s))
    (s : σ) : mapSt f l s = (l, s) := by
  rw [mapSt_pure f id l h, List.map_id]

theorem flatMapSt_id {α : Type} (f : α → σ → List α × σ) (l : List α)
    (h : ∀ a ∈ l, ∀ s, f a s = ([a], s)) (s : σ) : flatMapSt f l s = (l, s) := by
  rw [flatMapSt_single f id l h, List.map_id]

theorem Default.inline_eq (H : D.Default) :
    (∀ i s, D.transformInline i s = (i, s)) ∧
    (∀ l : List (GInline T), ∀ i ∈ l, ∀ s, D.transformInline i s = (i, s)) := by
  apply GInline.ind
  case nil => simp
  case cons =>
    intro i l hi hl j hj s; rcases List.mem_cons.1 hj with rfl | hj; exact hi s; exact hl j hj s
  case link => intro d t c x hc s; simp [H.inline, walkTransformInline, H.link, mapSt_id _ _ hc]
  case linkReference =>
    intro l t x hl ht s; simp [H.inline, walkTransformInline, mapSt_id _ _ hl, mapSt_id _ _ ht]
  case image => intro d t a x s; simp [H.inline, walkTransformInline, H.image]
  case emphasis => intro c x hc s; simp [H.inline, walkTransformInline, mapSt_id _ _ hc]
  case strong => intro c x hc s; simp [H.inline, walkTransformInline, mapSt_id _ _ hc]
  case strikethrough => intro c x hc s; simp [H.inline, walkTransformInline, mapSt_id _ _ hc]
  all_goals intros; simp [H.inline, walkTransformInline]

theorem Default.inlines_eq (H : D.Default) (l : List (GInline T)) (s : σ) :
    mapSt D.transformInline l s = (l, s) := mapSt_id _ l (H.inline_eq.2 l) s

theorem Default.cell_eq (H : D.Default) (l : List (GInline T)) (s : σ) :
    D.transformTableCell l s = (l, s) := by rw [H.tableCell, H.inlines_eq]

theorem Default.row_eq (H : D.Default) (l : List (List (GInline T))) (s : σ) :
    D.transformTableRow l s = (l, s) := by
  rw [H.tableRow, mapSt_id _ _ fun c _ s => H.cell_eq c s]

theorem Default.block_eq (H : D.Default) :
    (∀ b s, D.transformBlock b s = (b, s)) ∧
    (∀ i s, D.transformListItem i s = (i, s)) ∧
    (∀ l s, mapSt D.transformBlock l s = (l, s)) ∧
    (∀ l s, mapSt D.transformListItem l s = (l, s)) := by
  have hrows := fun r s => mapSt_id D.transformTableRow r (fun c _ s => H.row_eq c s) s
  apply GBlock.ind
  case nilB => intro s; rfl
  case nilI => intro s; rfl
  case consB => intro b l hb' hl s; simp [mapSt, hb', hl]
  case consI => intro b l hb' hl s; simp [mapSt, hb', hl]
  case item => intro t b x ih s; simp [H.listItem, ih]
  all_goals
    intros
    simp [H.block, walkTransformBlock, H.inlines_eq, H.heading, H.listContainer, H.table, hrows,
      H.footnoteDefinition, H.githubAlert, H.codeBlock, *]

theorem Default.expandInline_eq (H : D.Default) :
    (∀ i s, D.walkExpandInline i s = ([i], s)) ∧
    (∀ l : List (GInline T), ∀ i ∈ l, ∀ s, D.walkExpandInline i s = ([i], s)) := by
  apply GInline.ind
  case nil => simp
  case cons =>
    intro i l hi hl j hj s; rcases List.mem_cons.1 hj with rfl | hj; exact hi s; exact hl j hj s
  case link =>
    intro d t c x hc s
    simp [H.walkExpandInline, defWalkExpandInline, H.expandLink, Transformer.single, H.link,
      H.inlines_eq]
  case linkReference =>
    intro l t x hl ht s
    simp [H.walkExpandInline, defWalkExpandInline, flatMapSt_id _ _ hl, flatMapSt_id _ _ ht]
  case image =>
    intro d t a x s
    simp [H.walkExpandInline, defWalkExpandInline, H.expandImage, Transformer.single, H.image]
  case emphasis =>
    intro c x hc s; simp [H.walkExpandInline, defWalkExpandInline, flatMapSt_id _ _ hc]
  case strong =>
    intro c x hc s; simp [H.walkExpandInline, defWalkExpandInline, flatMapSt_id _ _ hc]
  case strikethrough =>
    intro c x hc s; simp [H.walkExpandInline, defWalkExpandInline, flatMapSt_id _ _ hc]
  all_goals intros; simp [H.walkExpandInline, defWalkExpandInline]

theorem Default.expandBlock_eq (H : D.Default) :
    (∀ b s, D.walkExpandBlock b s = ([b], s)) ∧ (∀ _ : GListItem T, True) ∧
    (∀ l : List (GBlock T), ∀ b ∈ l, ∀ s, D.walkExpandBlock b s = ([b], s)) ∧
    (∀ _ : List (GListItem T), True) := by
  have hI := fun l s => flatMapSt_id D.walkExpandInline l (H.expandInline_eq.2 l) s
  have hItem := fun l s => flatMapSt_id D.expandListItem l
    (fun i _ s => by simp [H.expandListItem, Transformer.single, H.block_eq.2.1]) s
  have hRow := fun l s => flatMapSt_id D.expandTableRow l
    (fun i _ s => by simp [H.expandTableRow, Transformer.single, H.row_eq]) s
  apply GBlock.ind
  case nilB => simp
  case nilI => trivial
  case consB =>
    intro i l hi hl j hj s; rcases List.mem_cons.1 hj with rfl | hj; exact hi s; exact hl j hj s
  case consI => intros; trivial
  case item => intros; trivial
  case blockQuote =>
    intro b x hb s; simp [H.walkExpandBlock, defWalkExpandBlock, flatMapSt_id _ _ hb]
  all_goals
    intros
    simp [H.walkExpandBlock, defWalkExpandBlock, hI, hItem, hRow, H.expandHeading,
      Transformer.single, H.heading, H.inlines_eq, H.expandListContainer, H.expandTableContainer,
      H.expandFootnoteDefinition, H.footnoteDefinition, H.expandGithubAlert, H.githubAlert,
      H.block_eq.2.2.1, H.expandCodeBlock, H.codeBlock]

end GTransformer

/-- C13 for `GenericTransformer`: with nothing overridden, the document (user data included) is
returned unchanged. -/
theorem C13_generic_default_transform {T : Type} {σ : Type u} (D : GTransformer T σ)
    (H : D.Default) (d : GDocument T) (s : σ) : D.transformDocument d s = (d, s) := by
  cases d; simp [H.document, GTransformer.walkTransformDocument, H.block_eq.2.2.1]

/-- C13 for `GenericTransformer`: with nothing overridden, `expand_with` returns exactly one,
unchanged, document. -/
theorem C13_generic_default_expand {T : Type} {σ : Type u} (D : GTransformer T σ)
    (H : D.Default) (d : GDocument T) (s : σ) : D.walkExpandDocument d s = ([d], s) := by
  cases d
  rw [H.walkExpandDocument, GTransformer.defWalkExpandDocument,
    GTransformer.flatMapSt_id _ _ (H.expandBlock_eq.2.2.1 _)]

/-- C13, non-vacuity: a generic transformer overriding nothing exists for every `T`. -/
theorem C13_generic_default_exists (T : Type) : (GTransformer.ident T).Default := by
  have hm : ∀ {α : Type} (l : List α) (s : Unit), mapSt (fun x s => (x, s)) l s = (l, s) :=
    fun l s => GTransformer.mapSt_id _ l (fun _ _ _ => rfl) s
  have hf : ∀ {α : Type} (l : List α) (s : Unit), flatMapSt (fun x s => ([x], s)) l s = (l, s) :=
    fun l s => GTransformer.flatMapSt_id _ l (fun _ _ _ => rfl) s
  constructor
  case block => intro x s; cases x <;> simp [GTransformer.ident, GTransformer.walkTransformBlock, hm]
  case inline => intro x s; cases x <;> simp [GTransformer.ident, GTransformer.walkTransformInline, hm]
  case walkExpandBlock =>
    intro x s; cases x <;> simp [GTransformer.ident, GTransformer.defWalkExpandBlock, hf]
  case walkExpandInline =>
    intro x s; cases x <;> simp [GTransformer.ident, GTransformer.defWalkExpandInline, hf]
  all_goals
    intros
    simp [GTransformer.ident, GTransformer.walkTransformDocument,
      GTransformer.defWalkExpandDocument, hm, hf, Transformer.single]

end Verif
