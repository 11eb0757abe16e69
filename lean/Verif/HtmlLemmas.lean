import Verif.Html
import Verif.HtmlSpec
import Verif.TraverseProps
/-! # Lemmas about the HTML renderer: its output as plain strings. -/
namespace Verif
namespace Html
open Doc

/-! ## Everything is text -/

theorem textOnly_attr (kv : Str × Str) : (attrDoc kv).TextOnly := by
  simp [attrDoc, app, TextOnly]

theorem texts_attr (kv : Str × Str) : (attrDoc kv).texts = attrStr (kv.1, escape kv.2) := by
  simp [attrDoc, app, texts, attrStr]

theorem textOnly_attrs (l : List (Str × Str)) : ∀ d : Doc, d.TextOnly →
    (l.foldl (fun acc kv => acc.app (attrDoc kv)) d).TextOnly := by
  induction l with
  | nil => intro d h; exact h
  | cons a l ih => intro d h; exact ih _ (textOnly_app h (textOnly_attr a))

theorem texts_attrs (l : List (Str × Str)) : ∀ d : Doc,
    (l.foldl (fun acc kv => acc.app (attrDoc kv)) d).texts =
      d.texts ++ l.flatMap fun kv => attrStr (kv.1, escape kv.2) := by
  induction l with
  | nil => simp
  | cons a l ih => intro d; simp [ih, texts_app, texts_attr]

/-- The attributes as they end up in the output. -/
def outAttrs (l : List (Str × Str)) : List (Str × Str) := l.map fun kv => (kv.1, escape kv.2)

theorem textOnly_tag (n : Str) (a : List (Str × Str)) {d : Doc} (h : d.TextOnly) :
    (tag n a d).TextOnly := by
  unfold tag
  apply textOnly_app
  · apply textOnly_app _ h
    apply textOnly_app
    · apply textOnly_app
      · simp [app, TextOnly]
      · exact textOnly_attrs _ _ trivial
    · simp [TextOnly]
  · simp [app, TextOnly]

theorem texts_tag (n : Str) (a : List (Str × Str)) (d : Doc) :
    (tag n a d).texts = element n (outAttrs a) d.texts := by
  simp [tag, texts_app, texts_attrs, texts, element, outAttrs, List.flatMap_map]

theorem inline_textOnly (st : State) :
    (∀ i, (inlineDoc st i).TextOnly) ∧ (∀ l, ∀ d ∈ inlineDocs st l, d.TextOnly) := by
  apply Inline.ind
  case cons => intro i l hi hl d hd; simp only [inlineDocs, List.mem_cons] at hd
               rcases hd with rfl | hd
               · exact hi
               · exact hl d hd
  case nil => intro d hd; simp [inlineDocs] at hd
  case linkReference =>
    intro l t _ ht
    simp only [inlineDoc]
    split
    · trivial
    · exact textOnly_tag _ _ (textOnly_concat ht)
  case footnoteReference =>
    intro l
    simp only [inlineDoc]
    split
    · trivial
    · exact textOnly_tag _ _ trivial
  all_goals intros; simp only [inlineDoc]
  all_goals first
    | trivial
    | exact textOnly_tag _ _ trivial
    | (apply textOnly_tag; apply textOnly_concat; assumption)

theorem inlines_textOnly (st : State) (l : List Inline) : (inlinesDoc st l).TextOnly :=
  textOnly_concat ((inline_textOnly st).2 l)

theorem cells_textOnly (st : State) (n : Str) (al : List Alignment) (row : List (List Inline)) :
    ∀ k, ∀ d ∈ cellDocs st n al k row, d.TextOnly := by
  induction row with
  | nil => intro k d hd; simp [cellDocs] at hd
  | cons c row ih =>
    intro k d hd
    simp only [cellDocs, List.mem_cons] at hd
    rcases hd with rfl | hd
    · exact textOnly_tag _ _ (inlines_textOnly st c)
    · exact ih _ d hd

theorem row_textOnly (st : State) (row : List (List Inline)) (n : Str) (al : List Alignment) :
    (rowDoc st row n al).TextOnly :=
  textOnly_tag _ _ (textOnly_foldl _ _ trivial (cells_textOnly st n al row 0))

theorem rows_textOnly (st : State) (al : List Alignment) (rows : List (List (List Inline))) :
    ∀ d : Doc, d.TextOnly →
      (rows.foldl (fun acc row => acc.app (rowDoc st row cs!"td" al)) d).TextOnly := by
  induction rows with
  | nil => intro d h; exact h
  | cons r rows ih => intro d h; exact ih _ (textOnly_app h (row_textOnly ..))

theorem task_textOnly (t : Option TaskState) : (taskDoc t).TextOnly := by
  rcases t with _ | (_ | _)
  · trivial
  · simp only [taskDoc]; exact textOnly_tag _ _ trivial
  · simp only [taskDoc]; exact textOnly_tag _ _ trivial

theorem list_textOnly (k : ListKind) {d : Doc} (h : d.TextOnly) : (listTag k d).TextOnly := by
  cases k <;> exact textOnly_tag _ _ h

theorem block_textOnly (st : State) :
    (∀ b d, blockDoc st b = some d → d.TextOnly) ∧
    (∀ i d, itemDoc st i = some d → d.TextOnly) ∧
    (∀ l ds, blockDocs st l = some ds → ∀ d ∈ ds, d.TextOnly) ∧
    (∀ l ds, itemDocs st l = some ds → ∀ d ∈ ds, d.TextOnly) := by
  apply Block.ind
  case paragraph => intro c d h; simp only [blockDoc, Option.some.injEq] at h; subst h
                    exact textOnly_tag _ _ (inlines_textOnly st c)
  case heading => intro k c d h; simp only [blockDoc, Option.some.injEq] at h; subst h
                  exact textOnly_tag _ _ (inlines_textOnly st c)
  case thematicBreak => intro d h; simp only [blockDoc, Option.some.injEq] at h; subst h
                        exact textOnly_tag _ _ trivial
  case blockQuote =>
    intro b ih d h
    simp only [blockDoc, Option.bind_eq_bind, Option.bind_eq_some_iff, Option.some.injEq] at h
    obtain ⟨ds, hds, rfl⟩ := h
    exact textOnly_tag _ _ (textOnly_concat (ih ds hds))
  case list =>
    intro k b ih d h
    simp only [blockDoc, Option.bind_eq_bind, Option.bind_eq_some_iff, Option.some.injEq] at h
    obtain ⟨ds, hds, rfl⟩ := h
    exact list_textOnly _ (textOnly_concat (ih ds hds))
  case codeBlock => intro k c d h; simp only [blockDoc, Option.some.injEq] at h; subst h
                    exact textOnly_tag _ _ (textOnly_tag _ _ trivial)
  case htmlBlock => intro c d h; simp only [blockDoc, Option.some.injEq] at h; subst h; trivial
  case definition => intro _ _ _ d h; simp only [blockDoc, Option.some.injEq] at h; subst h; trivial
  case empty => intro d h; simp only [blockDoc, Option.some.injEq] at h; subst h; trivial
  case table =>
    intro rows al d h
    simp only [blockDoc] at h
    cases rows with
    | nil => simp [tableDoc] at h
    | cons r rows =>
      simp only [tableDoc, Option.some.injEq] at h
      subst h
      exact textOnly_tag _ _ (textOnly_app (textOnly_tag _ _ (row_textOnly ..))
        (textOnly_tag _ _ (rows_textOnly _ _ _ _ trivial)))
  case footnoteDefinition =>
    intro l b ih d h
    simp only [blockDoc] at h
    split at h
    · simp only [Option.some.injEq] at h; subst h; trivial
    · simp only [Option.bind_eq_bind, Option.bind_eq_some_iff, Option.some.injEq] at h
      obtain ⟨ds, hds, rfl⟩ := h
      exact textOnly_tag _ _ (textOnly_app (textOnly_tag _ _ trivial)
        (textOnly_tag _ _ (textOnly_concat (ih ds hds))))
  case githubAlert =>
    intro t b ih d h
    simp only [blockDoc, Option.bind_eq_bind, Option.bind_eq_some_iff, Option.some.injEq] at h
    obtain ⟨ds, hds, rfl⟩ := h
    exact textOnly_tag _ _ (textOnly_app (textOnly_tag _ _ (by simp [app, TextOnly]))
      (textOnly_concat (ih ds hds)))
  case item =>
    intro t b ih d h
    simp only [itemDoc, Option.bind_eq_bind, Option.bind_eq_some_iff, Option.some.injEq] at h
    obtain ⟨ds, hds, rfl⟩ := h
    exact textOnly_tag _ _ (textOnly_app (task_textOnly t) (textOnly_concat (ih ds hds)))
  case nilB => intro ds h d hd; simp only [blockDocs, Option.some.injEq] at h; subst h; simp at hd
  case nilI => intro ds h d hd; simp only [itemDocs, Option.some.injEq] at h; subst h; simp at hd
  case consB =>
    intro b l hb hl ds h d hd
    simp only [blockDocs, Option.bind_eq_bind, Option.bind_eq_some_iff, Option.some.injEq] at h
    obtain ⟨e, he, es, hes, rfl⟩ := h
    rcases List.mem_cons.1 hd with rfl | hd
    · exact hb _ he
    · exact hl _ hes d hd
  case consI =>
    intro b l hb hl ds h d hd
    simp only [itemDocs, Option.bind_eq_bind, Option.bind_eq_some_iff, Option.some.injEq] at h
    obtain ⟨e, he, es, hes, rfl⟩ := h
    rcases List.mem_cons.1 hd with rfl | hd
    · exact hb _ he
    · exact hl _ hes d hd

/-! ## The output as strings -/

mutual
/-- The HTML of an inline. -/
def inlineStr (st : State) : Inline → Str
  | .text t => escape t
  | .lineBreak => element cs!"br" [] []
  | .code c => element cs!"code" [] (escape c)
  | .html h => h
  | .emphasis c => element cs!"em" [] (inlinesStr st c)
  | .strong c => element cs!"b" [] (inlinesStr st c)
  | .strikethrough c => element cs!"s" [] (inlinesStr st c)
  | .link d t c =>
    element cs!"a" (outAttrs ((cs!"href", escape d) :: titleAttr t)) (inlinesStr st c)
  | .image d t a =>
    element cs!"img" (outAttrs ((cs!"src", escape d) :: (cs!"alt", escape a) :: titleAttr t)) []
  | .autolink l => element cs!"a" (outAttrs [(cs!"href", escape l)]) (escape l)
  | .footnoteReference label =>
    match st.getFootnoteIndex label with
    | none => []
    | some index => element cs!"a"
        (outAttrs [(cs!"class", cs!"markdown-footnote-reference"),
         (cs!"href", escape ('#' :: (st.config.anchorPrefix ++ natStr index)))])
        ('[' :: (natStr index ++ cs!"]"))
  | .empty => []
  | .linkReference label content =>
    match st.getLinkDefinition label with
    | none => []
    | some (dest, title) =>
      element cs!"a" (outAttrs ((cs!"href", escape dest) :: titleAttr title)) (inlinesStr st content)
termination_by structural i => i
/-- The HTML of inlines. -/
def inlinesStr (st : State) : List Inline → Str
  | [] => []
  | i :: l => inlineStr st i ++ inlinesStr st l
termination_by structural l => l
end

theorem inline_texts (st : State) :
    (∀ i, (inlineDoc st i).texts = inlineStr st i) ∧
    (∀ l, ((inlineDocs st l).map texts).flatten = inlinesStr st l) := by
  apply Inline.ind
  case nil => rfl
  case cons => intro i l hi hl; simp [inlineDocs, inlinesStr, hi, hl]
  case footnoteReference =>
    intro l
    simp only [inlineDoc, inlineStr]
    cases st.getFootnoteIndex l with
    | none => rfl
    | some n => exact texts_tag ..
  case linkReference =>
    intro l t _ ht
    simp only [inlineDoc, inlineStr]
    cases st.getLinkDefinition l with
    | none => rfl
    | some n => simp only [texts_tag, texts_concat, ht]
  all_goals intros; simp only [inlineDoc, inlineStr, texts_tag, texts_concat, *]
  all_goals rfl

theorem inlines_texts (st : State) (l : List Inline) : (inlinesDoc st l).texts = inlinesStr st l := by
  rw [inlinesDoc, texts_concat, (inline_texts st).2]

/-- The HTML of the cells of a row. -/
def cellsStr (st : State) (n : Str) (al : List Alignment) : Nat → List (List Inline) → Str
  | _, [] => []
  | k, c :: row =>
    element n (outAttrs [(cs!"class", cs!"markdown-table-align-" ++ alignName al[k]?)])
      (inlinesStr st c) ++ cellsStr st n al (k + 1) row

/-- The HTML of a row. -/
def rowStr (st : State) (row : List (List Inline)) (n : Str) (al : List Alignment) : Str :=
  element cs!"tr" [] (cellsStr st n al 0 row)

theorem cells_texts (st : State) (n : Str) (al : List Alignment) (row : List (List Inline)) :
    ∀ k, ((cellDocs st n al k row).map texts).flatten = cellsStr st n al k row := by
  induction row with
  | nil => intro k; rfl
  | cons c row ih =>
    intro k
    simp only [cellDocs, List.map_cons, List.flatten_cons, ih, texts_tag, inlines_texts, cellsStr]

theorem row_texts (st : State) (row : List (List Inline)) (n : Str) (al : List Alignment) :
    (rowDoc st row n al).texts = rowStr st row n al := by
  simp only [rowDoc, texts_tag, texts_foldl, cells_texts, rowStr, texts, List.nil_append]
  rfl

theorem rows_texts (st : State) (al : List Alignment) (rows : List (List (List Inline))) :
    ∀ d : Doc, (rows.foldl (fun acc row => acc.app (rowDoc st row cs!"td" al)) d).texts =
      d.texts ++ rows.flatMap fun r => rowStr st r cs!"td" al := by
  induction rows with
  | nil => simp
  | cons r rows ih => intro d; simp [ih, texts_app, row_texts]

/-- The HTML of a table. -/
def tableStr (st : State) (rows : List (List (List Inline))) (al : List Alignment) : Option Str :=
  match rows with
  | [] => none
  | r :: rest => some (element cs!"table" []
      (element cs!"thead" [] (rowStr st r cs!"th" al) ++
       element cs!"tbody" [] (rest.flatMap fun r => rowStr st r cs!"td" al)))

/-- The HTML of a list. -/
def listStr (k : ListKind) (s : Str) : Str :=
  match k with
  | .ordered start => element cs!"ol" (outAttrs [(cs!"start", natStr start)]) s
  | .bullet k => element cs!"ul" (outAttrs [(cs!"class", bulletClass k)]) s

/-- The HTML of a task marker. -/
def taskStr : Option TaskState → Str
  | some .complete =>
    element cs!"span" (outAttrs [(cs!"class", cs!"markdown-list-task-complete")]) cs!"[X] "
  | some .incomplete =>
    element cs!"span" (outAttrs [(cs!"class", cs!"markdown-list-task-incomplete")]) cs!"[ ] "
  | none => []

/-- The HTML of an alert. -/
def alertStr (t : AlertType) (s : Str) : Str :=
  element cs!"div" (outAttrs [(cs!"class", alertClasses t)])
    (element cs!"p" (outAttrs [(cs!"class", cs!"markdown-alert-title")])
      (svgIcon t ++ alertTitle t) ++ s)

/-- The HTML of a footnote definition. -/
def footnoteStr (n : Nat) (s : Str) : Str :=
  element cs!"div" (outAttrs [(cs!"class", cs!"markdown-footnote-definition")])
    (element cs!"span" (outAttrs [(cs!"class", cs!"markdown-footnote-definition-index")])
        (natStr n ++ cs!". ") ++
     element cs!"span" (outAttrs [(cs!"class", cs!"markdown-footnote-definition-content")]) s)

mutual
/-- The HTML of a block. -/
def blockStr (st : State) : Block → Option Str
  | .paragraph c => some (element cs!"p" [] (inlinesStr st c))
  | .heading k c => some (element (headingTag k) [] (inlinesStr st c))
  | .thematicBreak => some (element cs!"hr" [] [])
  | .blockQuote b => (blocksStr st b).map (element cs!"blockquote" [])
  | .list k items => (itemsStr st items).map (listStr k)
  | .codeBlock _ s => some (element cs!"pre" [] (element cs!"code" [] (escape s)))
  | .htmlBlock h => some h
  | .definition _ _ _ => some []
  | .empty => some []
  | .table rows al => tableStr st rows al
  | .footnoteDefinition label b =>
    match st.getFootnoteIndex label with
    | none => some []
    | some n => (blocksStr st b).map (footnoteStr n)
  | .githubAlert t b => (blocksStr st b).map (alertStr t)
termination_by structural b => b
/-- The HTML of blocks. -/
def blocksStr (st : State) : List Block → Option Str
  | [] => some []
  | b :: l => (blockStr st b).bind fun s => (blocksStr st l).map (s ++ ·)
termination_by structural l => l
/-- The HTML of an item. -/
def itemStr (st : State) : ListItem → Option Str
  | .mk t b => (blocksStr st b).map fun s => element cs!"li" [] (taskStr t ++ s)
termination_by structural i => i
/-- The HTML of items. -/
def itemsStr (st : State) : List ListItem → Option Str
  | [] => some []
  | i :: l => (itemStr st i).bind fun s => (itemsStr st l).map (s ++ ·)
termination_by structural l => l
end

theorem task_texts (t : Option TaskState) : (taskDoc t).texts = taskStr t := by
  rcases t with _ | (_ | _)
  · rfl
  · simp only [taskDoc, taskStr, texts_tag, texts]
  · simp only [taskDoc, taskStr, texts_tag, texts]

theorem block_texts (st : State) :
    (∀ b, (blockDoc st b).map texts = blockStr st b) ∧
    (∀ i, (itemDoc st i).map texts = itemStr st i) ∧
    (∀ l, (blockDocs st l).map (fun ds => (ds.map texts).flatten) = blocksStr st l) ∧
    (∀ l, (itemDocs st l).map (fun ds => (ds.map texts).flatten) = itemsStr st l) := by
  apply Block.ind
  case blockQuote =>
    intro b ih
    simp only [blockDoc, blockStr, ← ih]
    cases blockDocs st b <;> simp [texts_tag, texts_concat, outAttrs]
  case list =>
    intro k b ih
    simp only [blockDoc, blockStr, ← ih]
    cases itemDocs st b with
    | none => rfl
    | some ds => cases k <;> simp [listTag, listStr, texts_tag, texts_concat, outAttrs]
  case githubAlert =>
    intro t b ih
    simp only [blockDoc, blockStr, ← ih]
    cases blockDocs st b <;>
      simp [alertDoc, alertStr, texts_tag, texts_concat, texts_app, outAttrs, texts]
  case footnoteDefinition =>
    intro l b ih
    simp only [blockDoc, blockStr, ← ih]
    cases st.getFootnoteIndex l with
    | none => rfl
    | some n =>
      cases blockDocs st b <;>
        simp [footnoteDefDoc, footnoteStr, texts_tag, texts_concat, texts_app, outAttrs, texts]
  case item =>
    intro t b ih
    simp only [itemDoc, itemStr, ← ih]
    cases blockDocs st b <;>
      simp [texts_tag, texts_concat, texts_app, outAttrs, task_texts]
  case table =>
    intro rows al
    cases rows with
    | nil => rfl
    | cons r rows =>
      simp [blockDoc, blockStr, tableDoc, tableStr, texts_tag, texts_app, row_texts, rows_texts,
        outAttrs, texts]
  case nilB => rfl
  case nilI => rfl
  case consB =>
    intro b l hb hl
    simp only [blockDocs, blocksStr, ← hb, ← hl]
    cases blockDoc st b <;> cases blockDocs st l <;> simp
  case consI =>
    intro b l hb hl
    simp only [itemDocs, itemsStr, ← hb, ← hl]
    cases itemDoc st b <;> cases itemDocs st l <;> simp
  all_goals
    intros
    simp [blockDoc, blockStr, texts_tag, inlines_texts, outAttrs, texts]

/-- The output of `render_html` is `blocksStr`, whatever the width. -/
theorem renderHtml_eq (dw : Str → Nat) (doc : Document) (cfg : Config) :
    renderHtml dw doc cfg = blocksStr (State.new cfg doc) doc.blocks := by
  simp only [renderHtml, documentDoc, ← (block_texts _).2.2.1]
  cases h : blockDocs (State.new cfg doc) doc.blocks with
  | none => simp
  | some ds =>
    have := textOnly_concat ((block_textOnly _).2.2.1 _ _ h)
    simp [render_textOnly this, texts_concat]

end Html
end Verif
