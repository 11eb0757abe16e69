import Verif.OverrideGeneric
/-!
# Overriding the `expand_*` methods of a transformer (C73, continued)

`expand_heading`, `expand_link` and the other `expand_*` methods of `GenericTransformer`, and
`expand_block` and `expand_table_cell` of `Transformer`, replaced by any user code.
-/
set_option linter.unusedVariables false
set_option linter.unusedSimpArgs false
namespace Verif
universe u

/-! ## Specification -/

/-- User code for the `expand_*` methods: what it is given may become any number of the same kind. -/
structure GHooks (T : Type) (σ : Type u) where
  heading : HeadingKind × List (GInline T) × T → σ → List (HeadingKind × List (GInline T) × T) × σ
  link : Str × Option Str × List (GInline T) × T → σ → List (Str × Option Str × List (GInline T) × T) × σ
  image : Str × Option Str × Str × T → σ → List (Str × Option Str × Str × T) × σ
  codeBlock : CodeBlockKind × Str × T → σ → List (CodeBlockKind × Str × T) × σ
  footnoteDefinition : Str × List (GBlock T) × T → σ → List (Str × List (GBlock T) × T) × σ
  githubAlert : AlertType × List (GBlock T) × T → σ → List (AlertType × List (GBlock T) × T) × σ
  listItem : GListItem T → σ → List (GListItem T) × σ
  tableRow : List (List (GInline T)) → σ → List (List (List (GInline T))) × σ

/-- An inline for which no method is called. -/
def GInline.Plain {T : Type} : GInline T → Prop
  | .text _ _ | .lineBreak _ | .code _ _ | .html _ _ | .autolink _ _ | .footnoteReference _ _ | .empty _ => True
  | _ => False

/-- What becomes of an inline. -/
inductive GInlineHooked {T : Type} {σ : Type u} (h : GHooks T σ) : GInline T → σ → List (GInline T) → σ → Prop
  | plain {i : GInline T} {s : σ} : i.Plain → GInlineHooked h i s [i] s
  | emphasis {c c' : List (GInline T)} {x : T} {s s' : σ} : InOrderConcat (GInlineHooked h) c s c' s' →
      GInlineHooked h (.emphasis c x) s [.emphasis c' x] s'
  | strong {c c' : List (GInline T)} {x : T} {s s' : σ} : InOrderConcat (GInlineHooked h) c s c' s' →
      GInlineHooked h (.strong c x) s [.strong c' x] s'
  | strikethrough {c c' : List (GInline T)} {x : T} {s s' : σ} : InOrderConcat (GInlineHooked h) c s c' s' →
      GInlineHooked h (.strikethrough c x) s [.strikethrough c' x] s'
  | linkReference {l l' t t' : List (GInline T)} {x : T} {s s1 s' : σ} :
      InOrderConcat (GInlineHooked h) l s l' s1 → InOrderConcat (GInlineHooked h) t s1 t' s' →
      GInlineHooked h (.linkReference l t x) s [.linkReference l' t' x] s'
  | link {d : Str} {t : Option Str} {c : List (GInline T)} {x : T} {ls s s'} :
      h.link (d, t, c, x) s = (ls, s') →
      GInlineHooked h (.link d t c x) s (ls.map fun l => .link l.1 l.2.1 l.2.2.1 l.2.2.2) s'
  | image {d : Str} {t : Option Str} {a : Str} {x : T} {ls s s'} :
      h.image (d, t, a, x) s = (ls, s') →
      GInlineHooked h (.image d t a x) s (ls.map fun l => .image l.1 l.2.1 l.2.2.1 l.2.2.2) s'

/-- What becomes of a block. -/
inductive GBlockHooked {T : Type} {σ : Type u} (h : GHooks T σ) : GBlock T → σ → List (GBlock T) → σ → Prop
  | thematicBreak {x : T} {s : σ} : GBlockHooked h (.thematicBreak x) s [.thematicBreak x] s
  | htmlBlock {t : Str} {x : T} {s : σ} : GBlockHooked h (.htmlBlock t x) s [.htmlBlock t x] s
  | empty {x : T} {s : σ} : GBlockHooked h (.empty x) s [.empty x] s
  | paragraph {c c' : List (GInline T)} {x : T} {s s' : σ} : InOrderConcat (GInlineHooked h) c s c' s' →
      GBlockHooked h (.paragraph c x) s [.paragraph c' x] s'
  | definition {l l' : List (GInline T)} {d : Str} {t : Option Str} {x : T} {s s' : σ} :
      InOrderConcat (GInlineHooked h) l s l' s' →
      GBlockHooked h (.definition l d t x) s [.definition l' d t x] s'
  | blockQuote {b b' : List (GBlock T)} {x : T} {s s' : σ} : InOrderConcat (GBlockHooked h) b s b' s' →
      GBlockHooked h (.blockQuote b x) s [.blockQuote b' x] s'
  | list {k : ListKind} {i i' : List (GListItem T)} {x : T} {s s' : σ} :
      InOrderConcat (fun a s l s' => h.listItem a s = (l, s')) i s i' s' →
      GBlockHooked h (.list k i x) s [.list k i' x] s'
  | table {r r' : List (List (List (GInline T)))} {a : List Alignment} {x : T} {s s' : σ} :
      InOrderConcat (fun a s l s' => h.tableRow a s = (l, s')) r s r' s' →
      GBlockHooked h (.table r a x) s [.table r' a x] s'
  | heading {k : HeadingKind} {c : List (GInline T)} {x : T} {ls s s'} : h.heading (k, c, x) s = (ls, s') →
      GBlockHooked h (.heading k c x) s (ls.map fun l => .heading l.1 l.2.1 l.2.2) s'
  | codeBlock {k : CodeBlockKind} {c : Str} {x : T} {ls s s'} : h.codeBlock (k, c, x) s = (ls, s') →
      GBlockHooked h (.codeBlock k c x) s (ls.map fun l => .codeBlock l.1 l.2.1 l.2.2) s'
  | footnoteDefinition {l : Str} {b : List (GBlock T)} {x : T} {ls s s'} :
      h.footnoteDefinition (l, b, x) s = (ls, s') →
      GBlockHooked h (.footnoteDefinition l b x) s (ls.map fun l => .footnoteDefinition l.1 l.2.1 l.2.2) s'
  | githubAlert {t : AlertType} {b : List (GBlock T)} {x : T} {ls s s'} :
      h.githubAlert (t, b, x) s = (ls, s') →
      GBlockHooked h (.githubAlert t b x) s (ls.map fun l => .githubAlert l.1 l.2.1 l.2.2) s'

/-! ## `GenericTransformer` -/

namespace GTransformer
variable {T : Type} {σ : Type u}
open Transformer

/-- The `expand_*` methods are the user code `h`; the rest of `expand_with` is the default. -/
structure HookedBy (D : GTransformer T σ) (h : GHooks T σ) : Prop where
  heading : D.expandHeading = h.heading
  link : D.expandLink = h.link
  image : D.expandImage = h.image
  codeBlock : D.expandCodeBlock = h.codeBlock
  footnoteDefinition : D.expandFootnoteDefinition = h.footnoteDefinition
  githubAlert : D.expandGithubAlert = h.githubAlert
  listItem : D.expandListItem = h.listItem
  tableRow : D.expandTableRow = h.tableRow
  listContainer : ∀ k i x s, D.expandListContainer (k, i, x) s =
    ([(k, (flatMapSt D.expandListItem i s).1, x)], (flatMapSt D.expandListItem i s).2)
  tableContainer : ∀ r a x s, D.expandTableContainer (r, a, x) s =
    ([((flatMapSt D.expandTableRow r s).1, a, x)], (flatMapSt D.expandTableRow r s).2)
  walkExpandDocument : ∀ x s, D.walkExpandDocument x s = D.defWalkExpandDocument x s
  walkExpandBlock : ∀ x s, D.walkExpandBlock x s = D.defWalkExpandBlock x s
  walkExpandInline : ∀ x s, D.walkExpandInline x s = D.defWalkExpandInline x s

variable {D : GTransformer T σ} {h : GHooks T σ}

theorem HookedBy.inlines (H : D.HookedBy h) :
    (∀ i s, GInlineHooked h i s (D.walkExpandInline i s).1 (D.walkExpandInline i s).2) ∧
    (∀ l : List (GInline T), ∀ i ∈ l, ∀ s,
      GInlineHooked h i s (D.walkExpandInline i s).1 (D.walkExpandInline i s).2) := by
  apply GInline.ind
  case nil => simp
  case cons => intro i l hi hl j hj s; rcases List.mem_cons.1 hj with rfl | hj; exact hi s; exact hl j hj s
  case emphasis => intro c x ih s; rw [H.walkExpandInline]; exact .emphasis (flatMapSt_inOrder _ ih _)
  case strong => intro c x ih s; rw [H.walkExpandInline]; exact .strong (flatMapSt_inOrder _ ih _)
  case strikethrough => intro c x ih s; rw [H.walkExpandInline]; exact .strikethrough (flatMapSt_inOrder _ ih _)
  case linkReference =>
    intro l t x ihl iht s
    rw [H.walkExpandInline]
    exact .linkReference (flatMapSt_inOrder _ ihl _) (flatMapSt_inOrder _ iht _)
  case link =>
    intro d t c x _ s
    rw [H.walkExpandInline]
    simp only [defWalkExpandInline, H.link]
    exact .link rfl
  case image =>
    intro d t a x s
    rw [H.walkExpandInline]
    simp only [defWalkExpandInline, H.image]
    exact .image rfl
  all_goals intros; rw [H.walkExpandInline]; exact .plain trivial

theorem HookedBy.blocks (H : D.HookedBy h) :
    (∀ b s, GBlockHooked h b s (D.walkExpandBlock b s).1 (D.walkExpandBlock b s).2) ∧
    (∀ _ : GListItem T, True) ∧
    (∀ l : List (GBlock T), ∀ b ∈ l, ∀ s, GBlockHooked h b s (D.walkExpandBlock b s).1 (D.walkExpandBlock b s).2) ∧
    (∀ _ : List (GListItem T), True) := by
  apply GBlock.ind
  case nilB => simp
  case nilI => trivial
  case consB => intro i l hi hl j hj s; rcases List.mem_cons.1 hj with rfl | hj; exact hi s; exact hl j hj s
  case consI => intros; trivial
  case item => intros; trivial
  case paragraph =>
    intro c x s; rw [H.walkExpandBlock]; exact .paragraph (flatMapSt_inOrder _ (H.inlines.2 c) _)
  case definition =>
    intro l d t x s; rw [H.walkExpandBlock]; exact .definition (flatMapSt_inOrder _ (H.inlines.2 l) _)
  case blockQuote => intro b x ih s; rw [H.walkExpandBlock]; exact .blockQuote (flatMapSt_inOrder _ ih _)
  case list =>
    intro k i x _ s
    rw [H.walkExpandBlock]
    simp only [defWalkExpandBlock, H.listContainer, List.map_cons, List.map_nil, H.listItem]
    exact .list (flatMapSt_inOrder (R := fun a s l s' => h.listItem a s = (l, s')) _ (fun _ _ _ => rfl) _)
  case table =>
    intro r a x s
    rw [H.walkExpandBlock]
    simp only [defWalkExpandBlock, H.tableContainer, List.map_cons, List.map_nil, H.tableRow]
    exact .table (flatMapSt_inOrder (R := fun a s l s' => h.tableRow a s = (l, s')) _ (fun _ _ _ => rfl) _)
  case heading =>
    intro k c x s; rw [H.walkExpandBlock]; simp only [defWalkExpandBlock, H.heading]; exact .heading rfl
  case codeBlock =>
    intro k c x s; rw [H.walkExpandBlock]; simp only [defWalkExpandBlock, H.codeBlock]; exact .codeBlock rfl
  case footnoteDefinition =>
    intro l b x _ s
    rw [H.walkExpandBlock]; simp only [defWalkExpandBlock, H.footnoteDefinition]; exact .footnoteDefinition rfl
  case githubAlert =>
    intro l b x _ s
    rw [H.walkExpandBlock]; simp only [defWalkExpandBlock, H.githubAlert]; exact .githubAlert rfl
  case thematicBreak => intro x s; rw [H.walkExpandBlock]; exact .thematicBreak
  case htmlBlock => intro t x s; rw [H.walkExpandBlock]; exact .htmlBlock
  case empty => intro x s; rw [H.walkExpandBlock]; exact .empty

end GTransformer

/-- C73 for `GenericTransformer` with the `expand_*` methods overridden: what they return, all of it and in
order, takes the place of what they were given, in document order, passing the state along. -/
theorem C73_generic_hooks {T : Type} {σ : Type u} (D : GTransformer T σ) (h : GHooks T σ) (H : D.HookedBy h)
    (d : GDocument T) (ds : List (GDocument T)) (s s' : σ) (e : D.walkExpandDocument d s = (ds, s')) :
    ∃ bs, ds = [⟨bs, d.userData⟩] ∧ InOrderConcat (GBlockHooked h) d.blocks s bs s' := by
  have := flatMapSt_inOrder (R := GBlockHooked h) d.blocks (H.blocks.2.2.1 d.blocks) s
  rw [H.walkExpandDocument] at e
  simp only [GTransformer.defWalkExpandDocument, Prod.mk.injEq] at e
  obtain ⟨rfl, rfl⟩ := e
  exact ⟨_, rfl, this⟩

/-! ## Every choice of user code is that of some transformer -/

namespace GTransformer
open Transformer
section
variable {T : Type} {σ : Type u} (h : GHooks T σ)

mutual
def inlineHookBy : GInline T → σ → List (GInline T) × σ
  | .emphasis c x, s => ([.emphasis (inlinesHookBy c s).1 x], (inlinesHookBy c s).2)
  | .strong c x, s => ([.strong (inlinesHookBy c s).1 x], (inlinesHookBy c s).2)
  | .strikethrough c x, s => ([.strikethrough (inlinesHookBy c s).1 x], (inlinesHookBy c s).2)
  | .link d t c x, s => ((h.link (d, t, c, x) s).1.map fun l => .link l.1 l.2.1 l.2.2.1 l.2.2.2, (h.link (d, t, c, x) s).2)
  | .linkReference l t x, s => ([.linkReference (inlinesHookBy l s).1 (inlinesHookBy t (inlinesHookBy l s).2).1 x],
        (inlinesHookBy t (inlinesHookBy l s).2).2)
  | .image d t a x, s => ((h.image (d, t, a, x) s).1.map fun l => .image l.1 l.2.1 l.2.2.1 l.2.2.2, (h.image (d, t, a, x) s).2)
  | .text t x, s => ([.text t x], s)
  | .lineBreak x, s => ([.lineBreak x], s)
  | .code c x, s => ([.code c x], s)
  | .html c x, s => ([.html c x], s)
  | .autolink c x, s => ([.autolink c x], s)
  | .footnoteReference c x, s => ([.footnoteReference c x], s)
  | .empty x, s => ([.empty x], s)
def inlinesHookBy : List (GInline T) → σ → List (GInline T) × σ
  | [], s => ([], s)
  | i :: l, s => ((inlineHookBy i s).1 ++ (inlinesHookBy l (inlineHookBy i s).2).1,
      (inlinesHookBy l (inlineHookBy i s).2).2)
end

theorem inlinesHookBy_eq : ∀ l s, inlinesHookBy h l s = flatMapSt (inlineHookBy h) l s
  | [], s => by simp [inlinesHookBy, flatMapSt, mapSt]
  | i :: l, s => by simp [inlinesHookBy, flatMapSt, mapSt, inlinesHookBy_eq l]

mutual
def blockHookBy : GBlock T → σ → List (GBlock T) × σ
  | .paragraph c x, s => ([.paragraph (inlinesHookBy h c s).1 x], (inlinesHookBy h c s).2)
  | .definition c d t x, s => ([.definition (inlinesHookBy h c s).1 d t x], (inlinesHookBy h c s).2)
  | .blockQuote b x, s => ([.blockQuote (blocksHookBy b s).1 x], (blocksHookBy b s).2)
  | .heading k c x, s => ((h.heading (k, c, x) s).1.map fun l => .heading l.1 l.2.1 l.2.2, (h.heading (k, c, x) s).2)
  | .table r a x, s => ([.table (flatMapSt h.tableRow r s).1 a x], (flatMapSt h.tableRow r s).2)
  | .footnoteDefinition l b x, s => ((h.footnoteDefinition (l, b, x) s).1.map fun l => .footnoteDefinition l.1 l.2.1 l.2.2,
      (h.footnoteDefinition (l, b, x) s).2)
  | .githubAlert t b x, s => ((h.githubAlert (t, b, x) s).1.map fun l => .githubAlert l.1 l.2.1 l.2.2,
      (h.githubAlert (t, b, x) s).2)
  | .list k i x, s => ([.list k (flatMapSt h.listItem i s).1 x], (flatMapSt h.listItem i s).2)
  | .codeBlock k c x, s => ((h.codeBlock (k, c, x) s).1.map fun l => .codeBlock l.1 l.2.1 l.2.2, (h.codeBlock (k, c, x) s).2)
  | .thematicBreak x, s => ([.thematicBreak x], s)
  | .htmlBlock h x, s => ([.htmlBlock h x], s)
  | .empty x, s => ([.empty x], s)
def blocksHookBy : List (GBlock T) → σ → List (GBlock T) × σ
  | [], s => ([], s)
  | i :: l, s => ((blockHookBy i s).1 ++ (blocksHookBy l (blockHookBy i s).2).1,
      (blocksHookBy l (blockHookBy i s).2).2)
end

theorem blocksHookBy_eq : ∀ l s, blocksHookBy h l s = flatMapSt (blockHookBy h) l s
  | [], s => by simp [blocksHookBy, flatMapSt, mapSt]
  | i :: l, s => by simp [blocksHookBy, flatMapSt, mapSt, blocksHookBy_eq l]

/-- The transformer with this user code. -/
def hooking : GTransformer T σ where
  transformDocument x s := (x, s)
  transformBlock x s := (x, s)
  transformInline x s := (x, s)
  transformTableCell x s := (x, s)
  transformListItem x s := (x, s)
  transformTableRow x s := (x, s)
  transformHeading x s := (x, s)
  transformLink x s := (x, s)
  transformImage x s := (x, s)
  transformCodeBlock x s := (x, s)
  transformFootnoteDefinition x s := (x, s)
  transformGithubAlert x s := (x, s)
  expandDocument x s := ([x], s)
  expandBlock x s := ([x], s)
  expandInline x s := ([x], s)
  expandTableCell x s := ([x], s)
  expandListItem := h.listItem
  expandTableRow := h.tableRow
  expandHeading := h.heading
  expandLink := h.link
  expandImage := h.image
  expandCodeBlock := h.codeBlock
  expandFootnoteDefinition := h.footnoteDefinition
  expandGithubAlert := h.githubAlert
  transformListItemContainer x s := (x, s)
  transformTable x s := (x, s)
  walkExpandDocument d s := ([⟨(blocksHookBy h d.blocks s).1, d.userData⟩], (blocksHookBy h d.blocks s).2)
  walkExpandBlock := blockHookBy h
  walkExpandInline := inlineHookBy h
  expandListContainer x s := ([(x.1, (flatMapSt h.listItem x.2.1 s).1, x.2.2)], (flatMapSt h.listItem x.2.1 s).2)
  expandTableContainer x s := ([((flatMapSt h.tableRow x.1 s).1, x.2)], (flatMapSt h.tableRow x.1 s).2)

theorem hooking_by : (hooking h).HookedBy h := by
  constructor
  case walkExpandBlock =>
    intro b s
    cases b <;> simp [hooking, defWalkExpandBlock, blockHookBy, blocksHookBy_eq, inlinesHookBy_eq]
  case walkExpandInline =>
    intro b s
    cases b <;> simp [hooking, defWalkExpandInline, inlineHookBy, inlinesHookBy_eq]
  case walkExpandDocument => intro d s; simp [hooking, defWalkExpandDocument, blocksHookBy_eq]
  all_goals intros; rfl

end
end GTransformer

/-- C73_generic_hooks is about every choice of user code. -/
theorem C73_generic_hooks_exists {T : Type} {σ : Type u} (h : GHooks T σ) : ∃ D : GTransformer T σ, D.HookedBy h :=
  ⟨_, GTransformer.hooking_by h⟩

/-- `expand_heading` that repeats each heading one level deeper and counts them: in a quote too, in order. -/
theorem C73_generic_hooks_example :
    let h : GHooks Nat Nat := ⟨fun a n => ([a, (.atx (n + 2), a.2.1, n)], n + 1), fun a n => ([a], n), fun a n => ([a], n),
      fun a n => ([], n + 10), fun a n => ([a], n), fun a n => ([a], n), fun a n => ([a], n), fun a n => ([a], n)⟩
    (GTransformer.hooking h).walkExpandDocument ⟨[.heading (.atx 1) [.text cs!"a" 1] 2, .codeBlock .indented cs!"c" 3,
      .blockQuote [.heading (.atx 1) [.text cs!"b" 4] 5] 6], 7⟩ 0 =
    ([⟨[.heading (.atx 1) [.text cs!"a" 1] 2, .heading (.atx 2) [.text cs!"a" 1] 0,
      .blockQuote [.heading (.atx 1) [.text cs!"b" 4] 5, .heading (.atx 13) [.text cs!"b" 4] 11] 6], 7⟩], 12) := by
  intro h
  simp [h, GTransformer.hooking, GTransformer.blocksHookBy, GTransformer.blockHookBy]

end Verif
