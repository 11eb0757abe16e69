import Verif.EndToEnd
import Verif.ConcatProps

/-!
# Documents can be rendered in parts (C97)

When two documents share neither footnotes nor link definitions, the text of both together is the text of
the one and the text of the other, with nothing between them in HTML and a blank line between them in
LaTeX and Markdown.
-/

set_option autoImplicit false

namespace Verif

/-! ## Specification -/

/-- The document refers to the footnote `l`, or defines it. -/
def Document.MentionsFootnote (d : Document) (l : Str) : Prop :=
  d.HasInline (.footnoteReference l) ∨ ∃ b, d.HasBlock (.footnoteDefinition l b)

/-- Some reference link of the document has the label `l`. -/
def Document.RefersTo (d : Document) (l : List Inline) : Prop := ∃ t, d.HasInline (.linkReference l t)

/-- The document defines the label `l`. -/
def Document.Defines (d : Document) (l : List Inline) : Prop :=
  ∃ dest title, d.HasBlock (.definition l dest title)

/-- Two documents have nothing to do with each other: only one of them has footnotes, and neither defines
a label to which the other refers. -/
structure Unrelated (a b : List Block) : Prop where
  footnotes : (∀ l, ¬ Document.MentionsFootnote ⟨a⟩ l) ∨ ∀ l, ¬ Document.MentionsFootnote ⟨b⟩ l
  fromLeft : ∀ l, Document.RefersTo ⟨a⟩ l → ¬ Document.Defines ⟨b⟩ l
  fromRight : ∀ l, Document.RefersTo ⟨b⟩ l → ¬ Document.Defines ⟨a⟩ l

/-- What stands between two parts of a Markdown text, the second of which begins with the given block. -/
def betweenParts (cfg : Md.Config) : Block → Str
  | .list _ _ => if cfg.emptyLineBeforeList then cs!"\n\n" else cs!"\n"
  | _ => cs!"\n\n"

/-! ## What the numbers and the definitions depend on -/

namespace Parts

theorem allBlocks_append (a b : List Block) : (Document.mk (a ++ b)).allBlocks = (Document.mk a).allBlocks ++ (Document.mk b).allBlocks := by
  simp [Document.allBlocks, preL_flatMap]

theorem directRefs_append (a b : List Block) : Html.directRefs ⟨a ++ b⟩ = Html.directRefs ⟨a⟩ ++ Html.directRefs ⟨b⟩ := by
  simp [Html.directRefs, allBlocks_append]

theorem directRefs_nil {a : List Block} (h : ∀ l, ¬ Document.MentionsFootnote ⟨a⟩ l) : Html.directRefs ⟨a⟩ = [] := by
  rw [List.eq_nil_iff_forall_not_mem]
  intro l hl
  simp only [Html.directRefs, List.mem_flatMap, List.mem_filterMap] at hl
  obtain ⟨b, hb, i, hi, hl⟩ := hl
  have : i = .footnoteReference l := by
    cases i <;> simp_all [Html.refLabel]
  subst this
  exact h l (.inl ⟨b, (Document.mem_allBlocks _ _).1 hb, _, hi, .self _⟩)

theorem number_left {a b : List Block} (h : ∀ l, ¬ Document.MentionsFootnote ⟨a⟩ l) (l : Str) :
    Html.footnoteNumber ⟨a ++ b⟩ l = Html.footnoteNumber ⟨b⟩ l := by
  unfold Html.footnoteNumber
  rw [directRefs_append, directRefs_nil h, List.nil_append]

theorem number_right {a b : List Block} (h : ∀ l, ¬ Document.MentionsFootnote ⟨b⟩ l) (l : Str) :
    Html.footnoteNumber ⟨a ++ b⟩ l = Html.footnoteNumber ⟨a⟩ l := by
  unfold Html.footnoteNumber
  rw [directRefs_append, directRefs_nil h, List.append_nil]

theorem find_none {a : List Block} {l : List Inline} (h : ¬ Document.Defines ⟨a⟩ l) :
    (Html.linkDefinitions ⟨a⟩).reverse.find? (fun e => e.1 = l) = none := by
  rw [List.find?_eq_none]
  rintro ⟨k, dest, title⟩ he hk
  simp only [List.mem_reverse, Html.linkDefinitions, List.mem_filterMap] at he
  obtain ⟨b, hb, he⟩ := he
  refine h ⟨dest, title, (Document.mem_allBlocks _ _).1 ?_⟩
  have hk : k = l := by simpa using hk
  cases b <;> simp_all

theorem defs_append (a b : List Block) : Html.linkDefinitions ⟨a ++ b⟩ = Html.linkDefinitions ⟨a⟩ ++ Html.linkDefinitions ⟨b⟩ := by
  simp [Html.linkDefinitions, allBlocks_append]

theorem last_left {a b : List Block} {l : List Inline} (h : ¬ Document.Defines ⟨b⟩ l) :
    Html.lastDefinition ⟨a ++ b⟩ l = Html.lastDefinition ⟨a⟩ l := by
  unfold Html.lastDefinition
  rw [defs_append, List.reverse_append, List.find?_append, find_none h, Option.none_or]

theorem last_right {a b : List Block} {l : List Inline} (h : ¬ Document.Defines ⟨a⟩ l) :
    Html.lastDefinition ⟨a ++ b⟩ l = Html.lastDefinition ⟨b⟩ l := by
  unfold Html.lastDefinition
  rw [defs_append, List.reverse_append, List.find?_append, find_none h, Option.or_none]

/-- The lookups give the same for what occurs in inlines. -/
def AgreesI (n n' : Str → Option Nat) (t t' : List Inline → Option (Str × Option Str)) (l : List Inline) : Prop :=
  (∀ k, .footnoteReference k ∈ l → n k = n' k) ∧ ∀ k s, .linkReference k s ∈ l → t k = t' k

/-- The lookups give the same for what occurs in the listed blocks themselves. -/
structure AgreesB (n n' : Str → Option Nat) (t t' : List Inline → Option (Str × Option Str)) (bs : List Block) : Prop where
  direct : ∀ b ∈ bs, AgreesI n n' t t' (Inline.preL b.directInlines)
  definition : ∀ l c, .footnoteDefinition l c ∈ bs → n l = n' l

theorem agrees_of {a : List Block} {n n' : Str → Option Nat} {t t' : List Inline → Option (Str × Option Str)}
    (hn : ∀ l, Document.MentionsFootnote ⟨a⟩ l → n l = n' l) (ht : ∀ l, Document.RefersTo ⟨a⟩ l → t l = t' l) :
    AgreesB n n' t t' (Block.preL a) := by
  have has : ∀ c ∈ Block.preL a, ∀ i, i ∈ Inline.preL c.directInlines → Document.HasInline ⟨a⟩ i := fun c hc i hi =>
    (Document.mem_allInlines ⟨a⟩ i).1 (List.mem_flatMap.2 ⟨c, hc, hi⟩)
  exact ⟨fun c hc => ⟨fun l hl => hn l (.inl (has c hc _ hl)), fun l s hl => ht l ⟨s, has c hc _ hl⟩⟩,
    fun l c hc => hn l (.inr ⟨c, (Document.mem_allBlocks ⟨a⟩ _).1 hc⟩)⟩

theorem agrees_left {a b : List Block} (h : Unrelated a b) :
    AgreesB (Html.footnoteNumber ⟨a ++ b⟩) (Html.footnoteNumber ⟨a⟩) (Html.lastDefinition ⟨a ++ b⟩) (Html.lastDefinition ⟨a⟩) (Block.preL a) :=
  agrees_of (fun l hl => h.footnotes.elim (fun h => absurd hl (h l)) fun h => number_right h l) fun l hl => last_left (h.fromLeft l hl)

theorem agrees_right {a b : List Block} (h : Unrelated a b) :
    AgreesB (Html.footnoteNumber ⟨a ++ b⟩) (Html.footnoteNumber ⟨b⟩) (Html.lastDefinition ⟨a ++ b⟩) (Html.lastDefinition ⟨b⟩) (Block.preL b) :=
  agrees_of (fun l hl => h.footnotes.elim (fun h => number_left h l) fun h => absurd hl (h l)) fun l hl => last_right (h.fromRight l hl)

/-! ## HTML -/

section
open Html
variable {n n' : Str → Option Nat} {t t' : List Inline → Option (Str × Option Str)}

theorem AgreesI.left {l m : List Inline} (h : AgreesI n n' t t' (l ++ m)) : AgreesI n n' t t' l :=
  ⟨fun k hk => h.1 k (List.mem_append_left _ hk), fun k s hk => h.2 k s (List.mem_append_left _ hk)⟩

theorem AgreesI.right {l m : List Inline} (h : AgreesI n n' t t' (l ++ m)) : AgreesI n n' t t' m :=
  ⟨fun k hk => h.1 k (List.mem_append_right _ hk), fun k s hk => h.2 k s (List.mem_append_right _ hk)⟩

theorem AgreesI.tail {i : Inline} {m : List Inline} (h : AgreesI n n' t t' (i :: m)) : AgreesI n n' t t' m :=
  AgreesI.right (l := [i]) h

theorem inline_nodes (p : Str) (ic : AlertType → Html.Node) (ti : AlertType → List Html.Node) :
    (∀ i : Inline, AgreesI n n' t t' i.pre → inlineNodes ⟨n, t, p, ic, ti⟩ i = inlineNodes ⟨n', t', p, ic, ti⟩ i) ∧
    (∀ l : List Inline, AgreesI n n' t t' (Inline.preL l) → inlinesNodes ⟨n, t, p, ic, ti⟩ l = inlinesNodes ⟨n', t', p, ic, ti⟩ l) := by
  apply Inline.ind
  case nil => intro _; rw [inlinesNodes, inlinesNodes]
  case cons =>
    intro i l hi hl h
    rw [Inline.preL] at h
    rw [inlinesNodes, inlinesNodes, hi h.left, hl h.right]
  case linkReference =>
    intro l s _ hs h
    rw [Inline.pre] at h
    rw [inlineNodes, inlineNodes, hs h.tail.right]
    dsimp only
    rw [h.2 l s (by simp)]
  case footnoteReference =>
    intro l h
    rw [inlineNodes, inlineNodes]
    dsimp only
    rw [h.1 l (by simp [Inline.pre])]
  case link =>
    intro d s c hc h
    rw [Inline.pre] at h
    rw [inlineNodes, inlineNodes, hc h.tail]
  case emphasis | strong | strikethrough =>
    intro c hc h
    rw [Inline.pre] at h
    rw [inlineNodes, inlineNodes, hc h.tail]
  all_goals (intros; rw [inlineNodes, inlineNodes])

theorem AgreesB.left {l m : List Block} (h : AgreesB n n' t t' (l ++ m)) : AgreesB n n' t t' l :=
  ⟨fun b hb => h.1 b (List.mem_append_left _ hb), fun k s hk => h.2 k s (List.mem_append_left _ hk)⟩

theorem AgreesB.right {l m : List Block} (h : AgreesB n n' t t' (l ++ m)) : AgreesB n n' t t' m :=
  ⟨fun b hb => h.1 b (List.mem_append_right _ hb), fun k s hk => h.2 k s (List.mem_append_right _ hk)⟩

theorem AgreesB.tail {b : Block} {m : List Block} (h : AgreesB n n' t t' (b :: m)) : AgreesB n n' t t' m :=
  AgreesB.right (l := [b]) h

theorem AgreesB.cell {rows : List (List (List Inline))} {al : List Alignment} (h : AgreesB n n' t t' [.table rows al])
    {row : List (List Inline)} (hr : row ∈ rows) {cell : List Inline} (hc : cell ∈ row) : AgreesI n n' t t' (Inline.preL cell) := by
  have h := h.direct _ List.mem_cons_self
  have key : ∀ i, i ∈ Inline.preL cell → i ∈ Inline.preL (Block.directInlines (.table rows al)) := by
    intro i hi
    rw [Inline.preL_eq_flatMap, List.mem_flatMap] at hi ⊢
    obtain ⟨j, hj, hi⟩ := hi
    exact ⟨j, List.mem_flatten.2 ⟨cell, List.mem_flatten.2 ⟨row, hr, hc⟩, hj⟩, hi⟩
  exact ⟨fun k hk => h.1 k (key _ hk), fun k s hk => h.2 k s (key _ hk)⟩

theorem row_node (p : Str) (ic : AlertType → Html.Node) (ti : AlertType → List Html.Node) (name : Str) (al : List Alignment)
    (row : List (List Inline)) (h : ∀ cell ∈ row, AgreesI n n' t t' (Inline.preL cell)) :
    rowNode ⟨n, t, p, ic, ti⟩ name al row = rowNode ⟨n', t', p, ic, ti⟩ name al row := by
  unfold rowNode
  congr 1
  rw [List.mapIdx_eq_mapIdx_iff]
  intro i hi
  rw [(inline_nodes p ic ti).2 _ (h _ (List.getElem_mem hi))]

theorem block_nodes (p : Str) (ic : AlertType → Html.Node) (ti : AlertType → List Html.Node) :
    (∀ b : Block, AgreesB n n' t t' b.pre → blockNodes ⟨n, t, p, ic, ti⟩ b = blockNodes ⟨n', t', p, ic, ti⟩ b) ∧
    (∀ i : ListItem, AgreesB n n' t t' i.pre → itemNode ⟨n, t, p, ic, ti⟩ i = itemNode ⟨n', t', p, ic, ti⟩ i) ∧
    (∀ l : List Block, AgreesB n n' t t' (Block.preL l) → blocksNodes ⟨n, t, p, ic, ti⟩ l = blocksNodes ⟨n', t', p, ic, ti⟩ l) ∧
    (∀ l : List ListItem, AgreesB n n' t t' (ListItem.preL l) → itemsNodes ⟨n, t, p, ic, ti⟩ l = itemsNodes ⟨n', t', p, ic, ti⟩ l) := by
  apply Block.ind
  case nilB => intro _; rw [blocksNodes, blocksNodes]
  case nilI => intro _; rw [itemsNodes, itemsNodes]
  case consB =>
    intro b l hb hl h
    rw [Block.preL] at h
    rw [blocksNodes, blocksNodes, hb h.left, hl h.right]
  case consI =>
    intro b l hb hl h
    rw [ListItem.preL] at h
    rw [itemsNodes, itemsNodes, hb h.left, hl h.right]
  case item =>
    intro s bs hb h
    rw [ListItem.pre] at h
    rw [itemNode, itemNode, hb h]
  case blockQuote =>
    intro bs hb h
    rw [Block.pre] at h
    rw [blockNodes, blockNodes, hb h.tail]
  case list | githubAlert =>
    intro k bs hb h
    rw [Block.pre] at h
    rw [blockNodes, blockNodes, hb h.tail]
  case footnoteDefinition =>
    intro l bs hb h
    rw [Block.pre] at h
    rw [blockNodes, blockNodes, hb h.tail]
    dsimp only
    rw [h.definition l bs List.mem_cons_self]
  case paragraph =>
    intro c h
    rw [Block.pre] at h
    rw [blockNodes, blockNodes, (inline_nodes p ic ti).2 c (h.direct _ List.mem_cons_self)]
  case heading =>
    intro k c h
    rw [Block.pre] at h
    rw [blockNodes, blockNodes, (inline_nodes p ic ti).2 c (h.direct _ List.mem_cons_self)]
  case table =>
    intro rows al h
    rw [Block.pre] at h
    rw [blockNodes, blockNodes]
    have e1 : rows.head?.toList.map (rowNode ⟨n, t, p, ic, ti⟩ cs!"th" al) = rows.head?.toList.map (rowNode ⟨n', t', p, ic, ti⟩ cs!"th" al) :=
      List.map_congr_left fun r hr => row_node p ic ti _ al r fun cell hc => h.cell (List.mem_of_mem_head? (by simpa using hr)) hc
    have e2 : rows.tail.map (rowNode ⟨n, t, p, ic, ti⟩ cs!"td" al) = rows.tail.map (rowNode ⟨n', t', p, ic, ti⟩ cs!"td" al) :=
      List.map_congr_left fun r hr => row_node p ic ti _ al r fun cell hc => h.cell (List.mem_of_mem_tail hr) hc
    rw [e1, e2]
  all_goals (intros; rw [blockNodes, blockNodes])

theorem blocksNodes_append (x : Context) (a b : List Block) : blocksNodes x (a ++ b) = blocksNodes x a ++ blocksNodes x b := by
  induction a with
  | nil => rw [blocksNodes]; rfl
  | cons c a ih => rw [List.cons_append, blocksNodes, blocksNodes, ih, List.append_assoc]

theorem writeNodes_append (a b : List Html.Node) : writeNodes (a ++ b) = writeNodes a ++ writeNodes b := by
  induction a with
  | nil => rw [writeNodes]; rfl
  | cons c a ih => rw [List.cons_append, writeNodes, writeNodes, ih, List.append_assoc]

theorem rendered_same {b c : Block} (h : Rendered n b c) : AgreesB n n' t t' c.pre → Rendered n' b c := by
  induction h with
  | self => intro _; exact .self _
  | child c e he hn _ ih =>
    intro h
    have hp : ∀ x ∈ e.pre, x ∈ c.pre := fun x hx => by
      rw [Block.pre_eq]
      exact List.mem_cons_of_mem _ (List.mem_flatMap.2 ⟨e, he, hx⟩)
    refine .child _ _ e he (fun l bs hc => ?_) (ih ⟨fun x hx => h.1 x (hp x hx), fun l s hx => h.2 l s (hp _ hx)⟩)
    rw [← h.definition l bs (by rw [Block.pre_eq, hc]; exact List.mem_cons_self)]
    exact hn l bs hc

theorem AgreesB.member {bs : List Block} (h : AgreesB n n' t t' (Block.preL bs)) {c : Block} (hc : c ∈ bs) : AgreesB n n' t t' c.pre := by
  have hp : ∀ x ∈ c.pre, x ∈ Block.preL bs := fun x hx => by
    rw [preL_flatMap]
    exact List.mem_flatMap.2 ⟨c, hc, hx⟩
  exact ⟨fun x hx => h.1 x (hp x hx), fun l s hx => h.2 l s (hp _ hx)⟩

end

/-! ## LaTeX -/

section
open Latex Latex.Exact Latex.Source
open Md.Spec (Piece)
variable {n n' : Str → Option Nat} {t t' : List Inline → Option (Str × Option Str)}

/-- Blocks outside footnote definitions are blocks of the document. -/
theorem outer_sub :
    (∀ b : Block, ∀ c ∈ outer b, c ∈ b.pre) ∧ (∀ i : ListItem, ∀ c ∈ outerItem i, c ∈ i.pre) ∧
    (∀ l : List Block, ∀ c ∈ outerL l, c ∈ Block.preL l) ∧ (∀ l : List ListItem, ∀ c ∈ outerItems l, c ∈ ListItem.preL l) := by
  apply Block.ind
  case nilB => intro c h; simp [outerL] at h
  case nilI => intro c h; simp [outerItems] at h
  case consB =>
    intro b l hb hl c h
    rw [outerL, List.mem_append] at h
    rw [Block.preL, List.mem_append]
    exact h.imp (hb c) (hl c)
  case consI =>
    intro b l hb hl c h
    rw [outerItems, List.mem_append] at h
    rw [ListItem.preL, List.mem_append]
    exact h.imp (hb c) (hl c)
  case item => intro t bs hb c h; rw [outerItem] at h; rw [ListItem.pre]; exact hb c h
  case blockQuote =>
    intro bs hb c h
    rw [outer, List.mem_cons] at h
    rw [Block.pre, List.mem_cons]
    exact h.imp id (hb c)
  case list | githubAlert =>
    intro k bs hb c h
    rw [outer, List.mem_cons] at h
    rw [Block.pre, List.mem_cons]
    exact h.imp id (hb c)
  case footnoteDefinition =>
    intro l bs _ c h
    rw [outer] at h
    rw [Block.pre, List.mem_cons]
    exact .inl (by simpa using h)
  all_goals (intros; rename_i c h; rw [outer] at h; rw [Block.pre]; exact h)

theorem outerL_append (a b : List Block) : outerL (a ++ b) = outerL a ++ outerL b := by
  induction a with
  | nil => rw [outerL]; rfl
  | cons c a ih => rw [List.cons_append, outerL, outerL, ih, List.append_assoc]

theorem labels_nil {a : List Block} (h : ∀ l, ¬ Document.MentionsFootnote ⟨a⟩ l) : footnoteLabels ⟨a⟩ = [] := by
  rw [List.eq_nil_iff_forall_not_mem]
  intro l hl
  simp only [footnoteLabels, List.mem_filterMap] at hl
  obtain ⟨b, hb, hl⟩ := hl
  have hb := outer_sub.2.2.1 a b hb
  cases b <;> simp [footnoteLabel] at hl
  subst hl
  exact h _ (.inr ⟨_, (Document.mem_allBlocks ⟨a⟩ _).1 hb⟩)

theorem labels_append (a b : List Block) : footnoteLabels ⟨a ++ b⟩ = footnoteLabels ⟨a⟩ ++ footnoteLabels ⟨b⟩ := by
  simp [footnoteLabels, outerL_append]

theorem latex_find_none {a : List Block} {l : List Inline} (h : ¬ Document.Defines ⟨a⟩ l) :
    ((outerL a).filterMap linkDef).reverse.find? (fun e => e.1 = l) = none := by
  rw [List.find?_eq_none]
  rintro ⟨k, dest, title⟩ he hk
  simp only [List.mem_reverse, List.mem_filterMap] at he
  obtain ⟨b, hb, he⟩ := he
  have hb := outer_sub.2.2.1 a b hb
  refine h ⟨dest, title, (Document.mem_allBlocks ⟨a⟩ _).1 ?_⟩
  have hk : k = l := by simpa using hk
  change _ ∈ Block.preL a
  cases b <;> simp_all [linkDef]

theorem latex_left {a b : List Block} (h : Unrelated a b) :
    AgreesB (footnoteNumber ⟨a ++ b⟩) (footnoteNumber ⟨a⟩) (lastDefinition ⟨a ++ b⟩) (lastDefinition ⟨a⟩) (Block.preL a) := by
  refine agrees_of (fun l hl => h.footnotes.elim (fun h => absurd hl (h l)) fun h => ?_) fun l hl => ?_
  · unfold footnoteNumber
    rw [labels_append, labels_nil h, List.append_nil]
  · unfold lastDefinition
    dsimp only
    rw [outerL_append, List.filterMap_append, List.reverse_append, List.find?_append, latex_find_none (h.fromLeft l hl), Option.none_or]

theorem latex_right {a b : List Block} (h : Unrelated a b) :
    AgreesB (footnoteNumber ⟨a ++ b⟩) (footnoteNumber ⟨b⟩) (lastDefinition ⟨a ++ b⟩) (lastDefinition ⟨b⟩) (Block.preL b) := by
  refine agrees_of (fun l hl => h.footnotes.elim (fun h => ?_) fun h => absurd hl (h l)) fun l hl => ?_
  · unfold footnoteNumber
    rw [labels_append, labels_nil h, List.nil_append]
  · unfold lastDefinition
    dsimp only
    rw [outerL_append, List.filterMap_append, List.reverse_append, List.find?_append, latex_find_none (h.fromRight l hl), Option.or_none]

theorem inline_pieces :
    (∀ i : Inline, AgreesI n n' t t' i.pre → inlinePieces ⟨n, t⟩ i = inlinePieces ⟨n', t'⟩ i) ∧
    (∀ l : List Inline, AgreesI n n' t t' (Inline.preL l) → inlinesPieces ⟨n, t⟩ l = inlinesPieces ⟨n', t'⟩ l) := by
  apply Inline.ind
  case nil => intro _; rw [inlinesPieces, inlinesPieces]
  case cons =>
    intro i l hi hl h
    rw [Inline.preL] at h
    rw [inlinesPieces, inlinesPieces, hi h.left, hl h.right]
  case linkReference =>
    intro l s hl hs h
    rw [Inline.pre] at h
    rw [inlinePieces, inlinePieces, hs h.tail.right, hl h.tail.left]
    dsimp only
    rw [h.2 l s (by simp)]
  case footnoteReference =>
    intro l h
    rw [inlinePieces, inlinePieces]
    dsimp only
    rw [h.1 l (by simp [Inline.pre])]
  case link =>
    intro d s c hc h
    rw [Inline.pre] at h
    cases s <;> rw [inlinePieces, inlinePieces, hc h.tail]
  case emphasis | strong | strikethrough =>
    intro c hc h
    rw [Inline.pre] at h
    rw [inlinePieces, inlinePieces, hc h.tail]
  all_goals (intros; rw [inlinePieces, inlinePieces])

theorem table_same {rows : List (List (List Inline))} {al : List Alignment} (h : AgreesB n n' t t' [.table rows al]) (y : TableStyle) :
    Latex.Exact.tableP ⟨n, t⟩ rows al y = Latex.Exact.tableP ⟨n', t'⟩ rows al y := by
  have hrow : ∀ r ∈ rows, rowP ⟨n, t⟩ r = rowP ⟨n', t'⟩ r := by
    intro r hr
    unfold rowP
    rw [List.map_congr_left fun c hc => inline_pieces.2 c (h.cell hr hc)]
  have hrows : ∀ rule last, rowsP ⟨n, t⟩ rule last rows = rowsP ⟨n', t'⟩ rule last rows := by
    intro rule last
    cases rows with
    | nil => rfl
    | cons r l =>
      rw [rowsP, rowsP, hrow r List.mem_cons_self, List.map_congr_left fun r hr => by rw [hrow r (List.mem_cons_of_mem _ hr)]]
  cases y <;> simp only [Latex.Exact.tableP, hrows]

theorem block_pieces (cfg : Config) :
    (∀ b : Block, AgreesB n n' t t' b.pre → blockPieces cfg ⟨n, t⟩ b = blockPieces cfg ⟨n', t'⟩ b) ∧
    (∀ i : ListItem, AgreesB n n' t t' i.pre → itemPieces cfg ⟨n, t⟩ i = itemPieces cfg ⟨n', t'⟩ i) ∧
    (∀ l : List Block, AgreesB n n' t t' (Block.preL l) → blocksPieces cfg ⟨n, t⟩ l = blocksPieces cfg ⟨n', t'⟩ l) ∧
    (∀ l : List ListItem, AgreesB n n' t t' (ListItem.preL l) → itemsPieces cfg ⟨n, t⟩ l = itemsPieces cfg ⟨n', t'⟩ l) := by
  apply Block.ind
  case nilB => intro _; rw [blocksPieces, blocksPieces]
  case nilI => intro _; rw [itemsPieces, itemsPieces]
  case consB =>
    intro b l hb hl h
    rw [Block.preL] at h
    rw [blocksPieces, blocksPieces, hb h.left, hl h.right]
  case consI =>
    intro b l hb hl h
    rw [ListItem.preL] at h
    rw [itemsPieces, itemsPieces, hb h.left, hl h.right]
  case item =>
    intro s bs hb h
    rw [ListItem.pre] at h
    rw [itemPieces, itemPieces, hb h]
  case blockQuote =>
    intro bs hb h
    rw [Block.pre] at h
    rw [blockPieces, blockPieces, hb h.tail]
  case list | githubAlert =>
    intro k bs hb h
    rw [Block.pre] at h
    rw [blockPieces, blockPieces, hb h.tail]
  case footnoteDefinition =>
    intro l bs hb h
    rw [Block.pre] at h
    rw [blockPieces, blockPieces, hb h.tail]
    dsimp only
    rw [h.definition l bs List.mem_cons_self]
  case paragraph =>
    intro c h
    rw [Block.pre] at h
    rw [blockPieces, blockPieces, inline_pieces.2 c (h.direct _ List.mem_cons_self)]
  case heading =>
    intro k c h
    rw [Block.pre] at h
    rw [blockPieces, blockPieces, inline_pieces.2 c (h.direct _ List.mem_cons_self)]
  case table =>
    intro rows al h
    rw [Block.pre] at h
    rw [blockPieces, blockPieces, table_same h]
  all_goals (intros; rw [blockPieces, blockPieces])

theorem blocksPieces_append (cfg : Config) (x : Context) (a b : List Block) :
    blocksPieces cfg x (a ++ b) = blocksPieces cfg x a ++ blocksPieces cfg x b := by
  induction a with
  | nil => rw [blocksPieces]; rfl
  | cons c a ih => rw [List.cons_append, blocksPieces, blocksPieces, ih]; rfl

theorem joinedP_append (sep : List Piece) (b : List (List Piece)) (hb : b ≠ []) : ∀ a : List (List Piece), a ≠ [] →
    joinedP sep (a ++ b) = joinedP sep a ++ (sep ++ joinedP sep b)
  | [], h => absurd rfl h
  | [p], _ => by
    cases b with
    | nil => exact absurd rfl hb
    | cons q b => simp [joinedP]
  | p :: q :: a, _ => by
    have := joinedP_append sep b hb (q :: a) (by simp)
    simp only [List.cons_append] at this ⊢
    rw [joinedP, this, joinedP]
    simp

end

/-! ## Lines -/

section
open Md.Spec

/-- The indentation of the last piece, if it ends a line. -/
def Even : Pieces → Prop
  | [] => True
  | [(i, .gap)] => i = 0
  | [(i, .newline)] => i = 0
  | _ :: t => Even t

/-- A line break at the margin divides the lines before it from those after it, if these do not end with an indented
empty line. -/
theorem lay_newline (dw : Str → Nat) (w : Nat) (q : Pieces) : ∀ (p : Pieces) (col : Nat), Even p →
    lay dw w col (p ++ (0, .newline) :: q) = lay dw w col p ++ (newline (nextIndent 0 q) ++ lay dw w (nextIndent 0 q) q)
  | [], col, _ => by rw [List.nil_append, lay, lay]; rfl
  | (i, .word s) :: t, col, h => by
    have ht : Even t := by cases t <;> first | trivial | exact h
    rw [List.cons_append, lay, lay, lay_newline dw w q t _ ht, List.append_assoc]
  | (i, .newline) :: t, col, h => by
    rw [List.cons_append, lay, lay]
    cases t with
    | nil =>
      have h : i = 0 := h
      subst h
      rw [lay_newline dw w q [] _ trivial, List.append_assoc]; rfl
    | cons o t => 
      rw [lay_newline dw w q (o :: t) _ h, List.append_assoc]; rfl
  | (i, .gap) :: t, col, h => by
    have ha : ahead dw (t ++ (0, .newline) :: q) = ahead dw t := by
      clear h
      induction t with
      | nil => rfl
      | cons o t ih =>
        obtain ⟨j, o⟩ := o
        cases o
        · rw [List.cons_append, ahead, ahead, ih]
        · rfl
        · rfl
    have ht : Even t := by cases t <;> first | trivial | exact h
    have hi : nextIndent i (t ++ (0, .newline) :: q) = nextIndent i t := by
      cases t with
      | nil => exact Eq.symm h
      | cons o t => rfl
    rw [List.cons_append, lay, lay, ha, hi, lay_newline dw w q t _ ht, lay_newline dw w q t _ ht]
    split
    · rfl
    · rw [List.append_assoc]

theorem even_atIndent (p : List Piece) : Even (atIndent 0 p) := by
  induction p with
  | nil => trivial
  | cons o t ih =>
    cases t with
    | nil => cases o <;> trivial
    | cons o' t => cases o <;> exact ih

/-- A text that does not end with a blank does not end with an indented empty line. -/
theorem even_of_lay (dw : Str → Nat) (w : Nat) : ∀ (p : Pieces) (col : Nat), ¬ [' '] <:+ lay dw w col p → Even p
  | [], _, _ => trivial
  | (i, .word s) :: t, col, h => by
    have := even_of_lay dw w t (col + dw s) fun h' => h (by rw [lay]; exact h'.trans (List.suffix_append _ _))
    cases t <;> first | trivial | exact this
  | (i, .newline) :: t, col, h => by
    have h1 := even_of_lay dw w t (nextIndent i t) fun h' => h (by rw [lay]; exact h'.trans (List.suffix_append _ _))
    cases t with
    | nil =>
      cases i with
      | zero => rfl
      | succ i =>
        refine absurd ?_ h
        rw [lay, lay]
        show [' '] <:+ _
        simp [newline, nextIndent, List.replicate_succ']
    | cons o t => exact h1
  | (i, .gap) :: t, col, h => by
    cases t with
    | nil =>
      cases i with
      | zero => rfl
      | succ i =>
        refine absurd ?_ h
        rw [lay]
        split
        · simp [lay]
        · simp [lay, newline, nextIndent, List.replicate_succ']
    | cons o t =>
      rw [lay] at h
      split at h
      · exact even_of_lay dw w (o :: t) (col + 1) fun h' => h (h'.trans (List.suffix_cons _ _))
      · exact even_of_lay dw w (o :: t) _ fun h' => h (h'.trans (List.suffix_append _ _))

/-- Pieces of blocks begin at their indentation. -/
theorem starts (dw : Str → Nat) (w : Nat) (y : Style) :
    (∀ (b : Block) (ind col : Nat), nextIndent ind (blockPieces dw w y ind col b) = ind) ∧
    (∀ (_ : ListItem), True) ∧
    (∀ (l : List Block) (ind col : Nat) (first : Bool), nextIndent ind (blocksPieces dw w y ind col first l) = ind) ∧
    (∀ (_ : List ListItem), True) := by
  have at_ : ∀ (ind : Nat) (l : List Piece), nextIndent ind (atIndent ind l) = ind := by
    intro ind l; cases l <;> rfl
  apply Block.ind
  case nilB => intro ind col first; rw [blocksPieces]; rfl
  case nilI => trivial
  case consI => intros; trivial
  case item => intros; trivial
  case consB =>
    intro b l hb hl ind col first
    rw [blocksPieces]
    cases first
    · have : ∃ t, gapBefore y b = .newline :: t := by
        cases b <;> simp [gapBefore]
        split <;> exact ⟨_, rfl⟩
      obtain ⟨t, ht⟩ := this
      rw [ht]
      rfl
    · rw [if_pos rfl, List.nil_append]
      have := hb ind col
      rcases hp : blockPieces dw w y ind col b with _ | ⟨⟨j, o⟩, t⟩
      · exact hl ind ind false
      · rw [hp] at this
        exact this
  case list =>
    intro k items _ ind col
    rw [blockPieces]
    cases items with
    | nil => rw [itemsPieces]; rfl
    | cons i items => rw [itemsPieces]; rfl
  case heading =>
    intro k c ind col
    cases k <;> (rw [blockPieces]; exact at_ _ _)
  case codeBlock =>
    intro k c ind col
    cases k <;> (rw [blockPieces]; exact at_ _ _)
  case table =>
    intro rows al ind col
    rw [blockPieces]
    split
    · rfl
    · exact at_ _ _
  case footnoteDefinition => intro l b _ ind col; rw [blockPieces]; rfl
  case empty => intro ind col; rw [blockPieces]; rfl
  all_goals (intros; rw [blockPieces]; exact at_ _ _)

theorem blocksPieces_later (dw : Str → Nat) (w : Nat) (y : Style) (b : List Block) : ∀ a : List Block,
    blocksPieces dw w y 0 0 false (a ++ b) = blocksPieces dw w y 0 0 false a ++ blocksPieces dw w y 0 0 false b
  | [] => by rw [List.nil_append, blocksPieces, List.nil_append]
  | c :: a => by
    rw [List.cons_append, blocksPieces, blocksPieces, blocksPieces_later dw w y b a]
    simp

theorem blocksPieces_parts (dw : Str → Nat) (w : Nat) (y : Style) {a : List Block} (ha : a ≠ []) (c : Block) (b : List Block) :
    blocksPieces dw w y 0 0 true (a ++ c :: b) =
      blocksPieces dw w y 0 0 true a ++ (atIndent 0 (gapBefore y c) ++ blocksPieces dw w y 0 0 true (c :: b)) := by
  cases a with
  | nil => exact absurd rfl ha
  | cons d a =>
    have e : ∀ f (e : Block) l, blocksPieces dw w y 0 0 f (e :: l) =
        (if f then [] else atIndent 0 (gapBefore y e)) ++ blockPieces dw w y 0 0 e ++ blocksPieces dw w y 0 0 false l := by
      intro f e l; rw [blocksPieces]
    rw [List.cons_append, e, blocksPieces_later, e true d, e false c, e true c]
    simp

end

end Parts

/-! ## The properties -/

/-- **C97**, HTML: the HTML of two unrelated documents together is the HTML of the one and that of the other. -/
theorem C97_html {dw : Str → Nat} {cfg : Html.Config} {a b : List Block} (h : Unrelated a b) {ta tb : Str}
    (ha : Html.renderHtml dw ⟨a⟩ cfg = some ta) (hb : Html.renderHtml dw ⟨b⟩ cfg = some tb) :
    Html.renderHtml dw ⟨a ++ b⟩ cfg = some (ta ++ tb) := by
  obtain ⟨icon, _, e⟩ := Html.C89_exact_html
  have ea := e dw ⟨a⟩ cfg
  have eb := e dw ⟨b⟩ cfg
  rw [ha] at ea
  rw [hb] at eb
  split at ea
  · exact absurd ea (by simp)
  rename_i na
  split at eb
  · exact absurd eb (by simp)
  rename_i nb
  rw [e dw ⟨a ++ b⟩ cfg, if_neg, Parts.blocksNodes_append, Parts.writeNodes_append,
    (Parts.block_nodes _ _ _).2.2.1 a (Parts.agrees_left h), (Parts.block_nodes _ _ _).2.2.1 b (Parts.agrees_right h),
    Option.some.inj ea, Option.some.inj eb]
  rintro ⟨al, c, hc, hr⟩
  rcases List.mem_append.1 hc with hc | hc
  · exact na ⟨al, c, hc, Parts.rendered_same hr ((Parts.agrees_left h).member hc)⟩
  · exact nb ⟨al, c, hc, Parts.rendered_same hr ((Parts.agrees_right h).member hc)⟩

/-- **C97**, LaTeX: the same, with a blank line between them. -/
theorem C97_latex {dw : Str → Nat} (h1 : dw [' '] = 1) (cfg : Latex.Config) {a b : List Block} (h : Unrelated a b)
    (ha : a ≠ []) (hb : b ≠ []) :
    Latex.renderLatex dw cfg ⟨a ++ b⟩ = Latex.renderLatex dw cfg ⟨a⟩ ++ cs!"\n\n" ++ Latex.renderLatex dw cfg ⟨b⟩ := by
  have nz : ∀ {x : Latex.Source.Context} {c : List Block}, c ≠ [] → Latex.Exact.blocksPieces cfg x c ≠ [] := by
    intro x c hc
    cases c with
    | nil => exact absurd rfl hc
    | cons d c => rw [Latex.Exact.blocksPieces]; exact List.cons_ne_nil _ _
  rw [Latex.Exact.C87_exact h1, Latex.Exact.C87_exact h1, Latex.Exact.C87_exact h1]
  unfold Latex.Exact.latexText
  dsimp only
  rw [Parts.blocksPieces_append, (Parts.block_pieces cfg).2.2.1 a (Parts.latex_left h),
    (Parts.block_pieces cfg).2.2.1 b (Parts.latex_right h), Parts.joinedP_append _ _ (nz hb) _ (nz ha)]
  simp only [Md.Spec.atIndent, List.map_append, List.map_cons, List.map_nil]
  rw [← Md.Spec.atIndent, List.cons_append, Parts.lay_newline _ _ _ _ _ (Parts.even_atIndent _)]
  rw [List.append_assoc]
  congr 1
  rw [List.cons_append, List.nil_append, Md.Spec.lay]
  have : ∀ l : List Md.Spec.Piece, Md.Spec.nextIndent 0 (List.map (fun p => (0, p)) l) = 0 := by intro l; cases l <;> rfl
  rw [this]
  rfl

/-- **C97**, Markdown: the same, with a blank line between them, or only a line break before a list if the configuration
says so; provided that the first part does not end with a blank. -/
theorem C97_markdown {x : Md.Ext} {cfg : Md.Config} {a b : List Block} {c : Block} {ta tb : Str} (ha : a ≠ [])
    (ea : Md.renderMarkdown x cfg ⟨a⟩ = some ta) (eb : Md.renderMarkdown x cfg ⟨c :: b⟩ = some tb) (hs : ¬ [' '] <:+ ta) :
    Md.renderMarkdown x cfg ⟨a ++ c :: b⟩ = some (ta ++ betweenParts cfg c ++ tb) := by
  rw [Md.Exact.C86_exact] at ea eb ⊢
  obtain ⟨pa, rfl⟩ := ea
  obtain ⟨pb, rfl⟩ := eb
  refine ⟨?_, ?_⟩
  · clear hs ha
    dsimp only at pa ⊢
    induction a with
    | nil => exact pb
    | cons d a ih =>
      rw [Md.Spec.PrintableL] at pa
      rw [List.cons_append, Md.Spec.PrintableL]
      exact ⟨pa.1, ih pa.2⟩
  · unfold Md.Spec.markdownText at hs ⊢
    dsimp only at hs ⊢
    have he := Parts.even_of_lay _ _ _ _ hs
    have hst := (Parts.starts x.dw cfg.width (Md.style x cfg)).2.2.1 (c :: b) 0 0 true
    rw [Parts.blocksPieces_parts _ _ _ ha, List.append_assoc]
    generalize Md.Spec.blocksPieces x.dw cfg.width (Md.style x cfg) 0 0 true (c :: b) = q at hst ⊢
    have : (Md.Spec.gapBefore (Md.style x cfg) c = [.newline] ∧ betweenParts cfg c = cs!"\n") ∨
        (Md.Spec.gapBefore (Md.style x cfg) c = [.newline, .newline] ∧ betweenParts cfg c = cs!"\n\n") := by
      cases c <;> first | exact .inr ⟨rfl, rfl⟩ | skip
      rcases h : cfg.emptyLineBeforeList with _ | _ <;> simp [Md.Spec.gapBefore, Md.style, betweenParts, h]
    rcases this with ⟨e, e'⟩ | ⟨e, e'⟩
    · have := Parts.lay_newline x.dw cfg.width q _ 0 he
      rw [hst] at this
      rw [e, e']
      exact this.symm
    · have := Parts.lay_newline x.dw cfg.width ((0, .newline) :: q) _ 0 he
      rw [Md.Spec.lay, hst] at this
      rw [e, e']
      exact this.symm

/-- **C97**, from text to HTML: the HTML of a text that stands on its own, a blank line and another text is the HTML of the
one and that of the other, if their documents are unrelated. -/
theorem C97_convert {x : PExt} {cfg : PConfig} {dw : Str → Nat} {hcfg : Html.Config} {s t ta tb : Str} {a b : List Block}
    (hs : Standalone x cfg s) (ht : FlushLeft t) (pa : parseMarkdown x cfg s = some ⟨a⟩) (pb : parseMarkdown x cfg t = some ⟨b⟩)
    (h : Unrelated a b) (ha : Html.renderHtml dw ⟨a⟩ hcfg = some ta) (hb : Html.renderHtml dw ⟨b⟩ hcfg = some tb) :
    (parseMarkdown x cfg (s ++ '\n' :: t)).bind (fun d => Html.renderHtml dw d hcfg) = some (ta ++ tb) := by
  obtain ⟨a', b', h1, h2, h3⟩ := hs t ht
  rw [pa] at h1
  rw [pb] at h2
  cases h1
  cases h2
  rw [h3, Option.bind_some]
  exact C97_html h ha hb

/-! ## Concrete cases -/

/-- The hypotheses are met: the second part resolves a reference of its own, the first has the footnotes. -/
theorem C97_unrelated : Unrelated
    [.paragraph [.text cs!"a", .footnoteReference cs!"n"], .footnoteDefinition cs!"n" [.paragraph [.text cs!"b"]]]
    [.definition [.text cs!"r"] cs!"/u" none, .paragraph [.emphasis [.linkReference [.text cs!"r"] [.text cs!"c"]]]] := by
  have hl : ∀ l, ¬ Document.RefersTo
      ⟨[.paragraph [.text cs!"a", .footnoteReference cs!"n"], .footnoteDefinition cs!"n" [.paragraph [.text cs!"b"]]]⟩ l := by
    rintro l ⟨t, h⟩
    rw [← Document.mem_allInlines] at h
    simp [Document.allInlines, Document.allBlocks, Block.preL, Block.pre, Block.directInlines, Inline.preL, Inline.pre] at h
  refine ⟨.inr ?_, fun l h => absurd h (hl l), ?_⟩
  · rintro l (h | ⟨b, h⟩)
    · rw [← Document.mem_allInlines] at h
      simp [Document.allInlines, Document.allBlocks, Block.preL, Block.pre, Block.directInlines, Inline.preL, Inline.pre] at h
    · rw [← Document.mem_allBlocks] at h
      simp [Document.allBlocks, Block.preL, Block.pre] at h
  · rintro l _ ⟨dest, title, h⟩
    rw [← Document.mem_allBlocks] at h
    simp [Document.allBlocks, Block.preL, Block.pre] at h

/-- With definitions and footnotes shared, the parts give something else: so the hypotheses are needed. -/
theorem C97_shared :
    Html.renderHtml List.length ⟨[.paragraph [.linkReference [.text cs!"r"] [.text cs!"c"]]]⟩ Html.Config.default = some cs!"<p></p>" ∧
    Html.renderHtml List.length ⟨[.definition [.text cs!"r"] cs!"/u" none]⟩ Html.Config.default = some [] ∧
    Html.renderHtml List.length ⟨[.paragraph [.linkReference [.text cs!"r"] [.text cs!"c"]], .definition [.text cs!"r"] cs!"/u" none]⟩
      Html.Config.default = some cs!"<p><a href=\"/u\">c</a></p>" ∧
    Md.renderMarkdown Md.Ext.ascii ⟨6, 1, true⟩ ⟨[.list (.bullet .dash) [.mk none [.paragraph [.text cs!"abc "]]]]⟩ = some cs!" - abc\n   " ∧
    Md.renderMarkdown Md.Ext.ascii ⟨6, 1, true⟩ ⟨[.list (.bullet .dash) [.mk none [.paragraph [.text cs!"abc "]]], .paragraph [.text cs!"d"]]⟩ =
      some cs!" - abc\n\n\nd" := by
  decide +kernel

end Verif
