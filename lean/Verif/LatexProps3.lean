import Verif.LatexProps2
import Verif.HtmlProps2
/-!
# LaTeX renderer: C30 (code is never touched), C31
-/
namespace Verif
namespace Latex

/-! ## The index -/

theorem lastRank_append (a b : List Str) (n : Nat) (x : Str) :
    lastRank (a ++ b) n x =
      match lastRank b (n + a.length) x with
      | some m => some m
      | none => lastRank a n x := by
  induction a generalizing n with
  | nil => simp only [List.nil_append, List.length_nil, Nat.add_zero, lastRank]; split <;> simp_all
  | cons y a ih =>
    have e : n + 1 + a.length = n + (y :: a).length := by simp; omega
    simp only [List.cons_append, lastRank, ih, e]
    cases lastRank b (n + (y :: a).length) x <;> rfl

/-- What the index becomes after the blocks `bs` (in the order of `outer`). -/
def IndexAfter (ix : Index) (bs : List Block) (ix' : Index) : Prop :=
  (∀ x, ix'.footnotes.lookup x =
    match lastRank (bs.filterMap footnoteLabel) ix.counter x with
    | some m => some m
    | none => ix.footnotes.lookup x) ∧
  ix'.counter = ix.counter + (bs.filterMap footnoteLabel).length ∧
  ix'.defs = (bs.filterMap linkDef).reverse ++ ix.defs

theorem IndexAfter.refl (ix : Index) : IndexAfter ix [] ix := by
  simp [IndexAfter, lastRank]

theorem IndexAfter.plain (ix : Index) (b : Block) (h1 : footnoteLabel b = none)
    (h2 : linkDef b = none) : IndexAfter ix [b] ix := by
  simp [IndexAfter, lastRank, h1, h2]

theorem IndexAfter.trans {ix ix1 ix2 : Index} {a b : List Block} (h : IndexAfter ix a ix1)
    (h' : IndexAfter ix1 b ix2) : IndexAfter ix (a ++ b) ix2 := by
  obtain ⟨h1, h2, h3⟩ := h
  obtain ⟨g1, g2, g3⟩ := h'
  refine ⟨fun x => ?_, by simp [g2, h2, Nat.add_assoc], by simp [g3, h3]⟩
  rw [g1, List.filterMap_append, lastRank_append, h2]
  cases lastRank (b.filterMap footnoteLabel) (ix.counter + (a.filterMap footnoteLabel).length) x
  · exact h1 x
  · rfl

theorem process_index :
    (∀ b, ∀ ix, IndexAfter ix (outer b) (processBlock ix b)) ∧
    (∀ i, ∀ ix, IndexAfter ix (outerItem i) (processItem ix i)) ∧
    (∀ l, ∀ ix, IndexAfter ix (outerL l) (processBlocks ix l)) ∧
    (∀ l, ∀ ix, IndexAfter ix (outerItems l) (processItems ix l)) := by
  apply Block.ind
  case paragraph => intro _ ix; exact .plain ix _ rfl rfl
  case heading => intro _ _ ix; exact .plain ix _ rfl rfl
  case thematicBreak => intro ix; exact .plain ix _ rfl rfl
  case codeBlock => intro _ _ ix; exact .plain ix _ rfl rfl
  case htmlBlock => intro _ ix; exact .plain ix _ rfl rfl
  case table => intro _ _ ix; exact .plain ix _ rfl rfl
  case empty => intro ix; exact .plain ix _ rfl rfl
  case blockQuote =>
    intro b ih ix
    have := (IndexAfter.plain ix (.blockQuote b) rfl rfl).trans (ih ix)
    simpa [outer, processBlock] using this
  case list =>
    intro k b ih ix
    have := (IndexAfter.plain ix (.list k b) rfl rfl).trans (ih ix)
    simpa [outer, processBlock] using this
  case githubAlert =>
    intro k b ih ix
    have := (IndexAfter.plain ix (.githubAlert k b) rfl rfl).trans (ih ix)
    simpa [outer, processBlock] using this
  case definition =>
    intro l d t ix
    have e : [Block.definition l d t].filterMap footnoteLabel = [] := rfl
    exact ⟨fun x => by simp only [outer, processBlock, e, lastRank], by
      simp [outer, footnoteLabel, processBlock], by simp [outer, linkDef, processBlock]⟩
  case footnoteDefinition =>
    intro l b _ ix
    refine ⟨fun x => ?_, by simp [outer, footnoteLabel, processBlock], by
      simp [outer, linkDef, processBlock]⟩
    simp only [outer, processBlock, List.filterMap_cons, footnoteLabel, List.filterMap_nil, lastRank,
      List.lookup_cons]
    by_cases h : l = x
    · subst h; simp
    · have : (x == l) = false := by simp [Ne.symm h]
      simp [this, h]
  case item => intro t b ih ix; simpa [outerItem, processItem] using ih ix
  case nilB => intro ix; exact .refl ix
  case consB =>
    intro b l hb hl ix
    simpa [outerL, processBlocks] using (hb ix).trans (hl _)
  case nilI => intro ix; exact .refl ix
  case consI =>
    intro b l hb hl ix
    simpa [outerItems, processItems] using (hb ix).trans (hl _)

theorem footnoteIndex_eq (cfg : Config) (d : Document) (l : Str) :
    (State.new cfg d).getFootnoteIndex l = footnoteNumber d l := by
  have := (process_index.2.2.1 d.blocks ⟨[], [], 1⟩).1 l
  simp only [List.lookup_nil] at this
  simp only [State.getFootnoteIndex, State.new, getIndices, this, footnoteNumber, footnoteLabels]
  split <;> simp_all

theorem linkDefinition_eq (cfg : Config) (d : Document) (l : List Inline) :
    (State.new cfg d).getLinkDefinition l = lastDefinition d l := by
  have := (process_index.2.2.1 d.blocks ⟨[], [], 1⟩).2.2
  simp only [List.append_nil] at this
  simp only [State.getLinkDefinition, State.new, getIndices, this, lastDefinition]
  exact Html.lookup_eq_find? _ _

/-! ## C31: numbering -/

theorem lastRank_eq_none {l : List Str} {n : Nat} {x : Str} :
    lastRank l n x = none ↔ x ∉ l := by
  induction l generalizing n with
  | nil => simp [lastRank]
  | cons a l ih =>
    simp only [lastRank, List.mem_cons, not_or]
    cases h : lastRank l (n + 1) x with
    | some m =>
      have : ¬ x ∉ l := fun hx => by rw [ih.2 hx] at h; cases h
      simp [this]
    | none =>
      have : x ∉ l := ih.1 h
      by_cases e : a = x
      · simp [e]
      · simp [e, this, Ne.symm e]

theorem lastRank_eq_some {l : List Str} {n m : Nat} {x : Str} :
    lastRank l n x = some m ↔ ∃ a b, l = a ++ x :: b ∧ x ∉ b ∧ m = n + a.length := by
  induction l generalizing n m with
  | nil => simp [lastRank]
  | cons y l ih =>
    simp only [lastRank]
    cases h : lastRank l (n + 1) x with
    | some k =>
      obtain ⟨a, b, rfl, hb, rfl⟩ := ih.1 h
      constructor
      · rintro ⟨⟩
        exact ⟨y :: a, b, rfl, hb, by simp; omega⟩
      · rintro ⟨a', b', e, hb', rfl⟩
        cases a' with
        | nil =>
          simp only [List.nil_append, List.cons.injEq] at e
          exact absurd (by rw [← e.2]; simp) hb'
        | cons z a' =>
          simp only [List.cons_append, List.cons.injEq] at e
          have := (ih (n := n + 1)).2 ⟨a', b', e.2, hb', rfl⟩
          rw [h] at this
          simp only [Option.some.injEq] at this
          simp only [Option.some.injEq, List.length_cons]
          omega
    | none =>
      have hn : x ∉ l := lastRank_eq_none.1 h
      constructor
      · intro e
        simp only at e
        split at e
        · next hy => cases e; exact ⟨[], l, by simp [hy], hn, by simp⟩
        · cases e
      · rintro ⟨a, b, e, hb, rfl⟩
        cases a with
        | nil =>
          simp only [List.nil_append, List.cons.injEq] at e
          simp [e.1]
        | cons z a =>
          simp only [List.cons_append, List.cons.injEq] at e
          exact absurd (by rw [e.2]; simp) hn

/-- **C31.** The numbers given to footnotes: a label gets one iff it is defined outside other
footnotes, and then it is the rank (from 1) of its last definition among those definitions. -/
theorem C31_numbering (cfg : Config) (d : Document) (l : Str) (n : Nat) :
    (State.new cfg d).getFootnoteIndex l = some n ↔
      ∃ before after, footnoteLabels d = before ++ l :: after ∧ l ∉ after ∧
        n = before.length + 1 := by
  rw [footnoteIndex_eq, footnoteNumber, lastRank_eq_some]
  simp only [Nat.add_comm]

/-- **C31.** A document without repeated labels numbers its `k` outer footnotes 1, 2, ..., k in
document order. -/
theorem C31_consecutive (cfg : Config) (d : Document) (h : (footnoteLabels d).Nodup) :
    (footnoteLabels d).map (State.new cfg d).getFootnoteIndex =
      (List.range (footnoteLabels d).length).map fun i => some (i + 1) := by
  apply List.ext_getElem (by simp)
  intro i h1 h2
  simp only [List.getElem_map, List.getElem_range, C31_numbering]
  simp only [List.length_map] at h1
  refine ⟨(footnoteLabels d).take i, (footnoteLabels d).drop (i + 1), ?_, ?_, ?_⟩
  · rw [← List.drop_eq_getElem_cons h1, List.take_append_drop]
  · have : (footnoteLabels d).drop i = (footnoteLabels d)[i] :: (footnoteLabels d).drop (i + 1) :=
      List.drop_eq_getElem_cons h1
    have hn : ((footnoteLabels d).drop i).Nodup := h.sublist (List.drop_sublist i _)
    rw [this, List.nodup_cons] at hn
    exact hn.1
  · simp; omega

/-! ## What is part of the output -/

theorem skel_infix_app_left {x : List (Option Char)} {a b : Doc} (h : x <:+: a.skel) :
    x <:+: (a.app b).skel := by
  rw [Doc.skel_app]; exact h.trans (List.prefix_append _ _).isInfix

theorem skel_infix_app_right {x : List (Option Char)} {a b : Doc} (h : x <:+: b.skel) :
    x <:+: (a.app b).skel := by
  rw [Doc.skel_app]; exact h.trans (List.suffix_append _ _).isInfix

theorem foldl_infix (l : List Doc) : ∀ (a : Doc),
    a.skel <:+: (l.foldl Doc.app a).skel ∧ ∀ d ∈ l, d.skel <:+: (l.foldl Doc.app a).skel := by
  induction l with
  | nil => intro a; exact ⟨List.infix_rfl, by simp⟩
  | cons d l ih =>
    intro a
    obtain ⟨h1, h2⟩ := ih (a.app d)
    refine ⟨(skel_infix_app_left List.infix_rfl).trans h1, ?_⟩
    intro e he
    rcases List.mem_cons.1 he with rfl | he
    · exact (skel_infix_app_right List.infix_rfl).trans h1
    · exact h2 e he

theorem concat_infix {l : List Doc} {d : Doc} (h : d ∈ l) : d.skel <:+: (Doc.concat l).skel :=
  (foldl_infix l .nil).2 d h

theorem command_infix {x : List (Option Char)} {name : Str} {d : Doc} (h : x <:+: d.skel) :
    x <:+: (command name d).skel := skel_infix_app_left (skel_infix_app_right h)

theorem environment_infix {x : List (Option Char)} {name : Str} {o : Option Str} {d : Doc}
    (h : x <:+: d.skel) : x <:+: (environment name o d).skel :=
  skel_infix_app_left (skel_infix_app_left (skel_infix_app_right h))

theorem hrefDoc_infix {x : List (Option Char)} {u : Str} {d : Doc} (h : x <:+: d.skel) :
    x <:+: (hrefDoc u d).skel := skel_infix_app_left (skel_infix_app_right h)

theorem inlineDocs_mem {st : State} {i : Inline} {l : List Inline} (h : i ∈ l) :
    inlineDoc st i ∈ inlineDocs st l := by
  induction l with
  | nil => cases h
  | cons j l ih =>
    rcases List.mem_cons.1 h with rfl | h
    · simp [inlineDocs]
    · simp [inlineDocs, ih h]

theorem inlines_infix {st : State} {i : Inline} {l : List Inline} (h : i ∈ l) :
    (inlineDoc st i).skel <:+: (Doc.concat (inlineDocs st l)).skel := concat_infix (inlineDocs_mem h)

theorem shown_skel {st : State} {defined : List Inline → Bool}
    (hd : ∀ l, (st.getLinkDefinition l).isSome = defined l) {i j : Inline}
    (h : Shown defined i j) : (inlineDoc st i).skel <:+: (inlineDoc st j).skel := by
  induction h with
  | self => exact List.infix_rfl
  | link k d t c hk _ ih =>
    refine ih.trans ((inlines_infix hk).trans ?_)
    cases t
    · exact hrefDoc_infix List.infix_rfl
    · exact skel_infix_app_left (hrefDoc_infix List.infix_rfl)
  | emphasis k c hk _ ih => exact ih.trans ((inlines_infix hk).trans (command_infix List.infix_rfl))
  | strong k c hk _ ih => exact ih.trans ((inlines_infix hk).trans (command_infix List.infix_rfl))
  | strikethrough k c hk _ ih =>
    exact ih.trans ((inlines_infix hk).trans (command_infix List.infix_rfl))
  | refText k l t hk _ ih =>
    refine ih.trans ((inlines_infix hk).trans ?_)
    simp only [inlineDoc]
    split
    · exact hrefDoc_infix List.infix_rfl
    · exact skel_infix_app_left (skel_infix_app_left (skel_infix_app_left
        (skel_infix_app_right List.infix_rfl)))
  | refLabel k l t hl hk _ ih =>
    refine ih.trans ((inlines_infix hk).trans ?_)
    have e := hd l
    rw [hl] at e
    simp only [inlineDoc]
    split
    · next h => rw [h] at e; cases e
    · exact skel_infix_app_left (skel_infix_app_right List.infix_rfl)

theorem rowCells_infix (st : State) (row : List (List Inline)) : ∀ first acc,
    acc.skel <:+: (rowCells st first acc row).skel ∧
    ∀ c ∈ row, (inlinesDoc st c).skel <:+: (rowCells st first acc row).skel := by
  induction row with
  | nil => intro _ _; exact ⟨List.infix_rfl, by simp⟩
  | cons c row ih =>
    intro first acc
    obtain ⟨h1, h2⟩ := ih false ((if first then acc else acc.app (.text cs!" & ")).app
      (inlinesDoc st c))
    refine ⟨List.IsInfix.trans ?_ h1, ?_⟩
    · refine skel_infix_app_left ?_
      cases first
      · exact skel_infix_app_left List.infix_rfl
      · exact List.infix_rfl
    · intro e he
      rcases List.mem_cons.1 he with rfl | he
      · exact (skel_infix_app_right List.infix_rfl).trans h1
      · exact h2 e he

theorem tableRow_infix {st : State} {row : List (List Inline)} {c : List Inline} (h : c ∈ row) :
    (inlinesDoc st c).skel <:+: (tableRowDoc st row).skel :=
  skel_infix_app_left ((rowCells_infix st row _ _).2 c h)

theorem dataRows_infix (st : State) (sep : Doc) (rows : List (List (List Inline))) : ∀ acc,
    acc.skel <:+: (dataRows st sep acc rows).skel ∧
    ∀ r ∈ rows, (tableRowDoc st r).skel <:+: (dataRows st sep acc rows).skel := by
  induction rows with
  | nil => intro _; exact ⟨List.infix_rfl, by simp⟩
  | cons r rows ih =>
    intro acc
    obtain ⟨h1, h2⟩ := ih (((acc.app (tableRowDoc st r)).app sep).app .hardline)
    refine ⟨List.IsInfix.trans ?_ h1, ?_⟩
    · exact skel_infix_app_left (skel_infix_app_left (skel_infix_app_left List.infix_rfl))
    · intro e he
      rcases List.mem_cons.1 he with rfl | he
      · exact (skel_infix_app_left (skel_infix_app_left (skel_infix_app_right List.infix_rfl))).trans h1
      · exact h2 e he

theorem rows_infix (st : State) (rule : Str) (sep acc : Doc) (rows : List (List (List Inline))) :
    ∀ r ∈ rows, (tableRowDoc st r).skel <:+:
      (dataRows st sep (headerRow st rule acc rows) (rows.drop 1)).skel := by
  intro r hr
  cases rows with
  | nil => cases hr
  | cons h rows =>
    rcases List.mem_cons.1 hr with rfl | hr
    · refine List.IsInfix.trans ?_ (dataRows_infix st sep _ _).1
      exact skel_infix_app_left (skel_infix_app_left (skel_infix_app_left
        (skel_infix_app_right List.infix_rfl)))
    · exact (dataRows_infix st sep _ _).2 r hr

theorem table_infix {st : State} {rows : List (List (List Inline))} {al : List Alignment}
    {r : List (List Inline)} (hr : r ∈ rows) :
    (tableRowDoc st r).skel <:+: (tableDoc st rows al).skel := by
  unfold tableDoc
  split
  · unfold tabularDoc; exact environment_infix (rows_infix st _ _ _ rows r hr)
  · unfold longtabuDoc; exact environment_infix (rows_infix st _ _ _ rows r hr)
  · unfold booktabsDoc
    exact environment_infix (skel_infix_app_left (rows_infix st _ _ _ rows r hr))

theorem blocks_infix (st : State) (l : List Block) : ∀ first acc,
    acc.skel <:+: (blocksDoc st first acc l).skel ∧
    ∀ b ∈ l, (blockDoc st b).skel <:+: (blocksDoc st first acc l).skel := by
  induction l with
  | nil => intro _ _; exact ⟨List.infix_rfl, by simp⟩
  | cons b l ih =>
    intro first acc
    obtain ⟨h1, h2⟩ := ih false ((if first then acc else (acc.app .hardline).app .hardline).app
      (blockDoc st b))
    simp only [blocksDoc]
    refine ⟨List.IsInfix.trans ?_ h1, ?_⟩
    · refine skel_infix_app_left ?_
      cases first
      · exact skel_infix_app_left (skel_infix_app_left List.infix_rfl)
      · exact List.infix_rfl
    · intro e he
      rcases List.mem_cons.1 he with rfl | he
      · exact (skel_infix_app_right List.infix_rfl).trans h1
      · exact h2 e he

theorem items_infix (st : State) (l : List ListItem) : ∀ acc,
    acc.skel <:+: (itemsDoc st acc l).skel ∧
    ∀ b ∈ l, (itemDoc st b).skel <:+: (itemsDoc st acc l).skel := by
  induction l with
  | nil => intro _; exact ⟨List.infix_rfl, by simp⟩
  | cons b l ih =>
    intro acc
    obtain ⟨h1, h2⟩ := ih (acc.app (itemDoc st b))
    simp only [itemsDoc]
    refine ⟨List.IsInfix.trans (skel_infix_app_left List.infix_rfl) h1, ?_⟩
    intro e he
    rcases List.mem_cons.1 he with rfl | he
    · exact (skel_infix_app_right List.infix_rfl).trans h1
    · exact h2 e he

theorem child_skel {st : State} {num : Str → Option Nat} (hn : ∀ l, st.getFootnoteIndex l = num l)
    {c e : Block} (he : e ∈ c.childBlocks)
    (hf : ∀ l bs, c = .footnoteDefinition l bs → num l ≠ none) :
    (blockDoc st e).skel <:+: (blockDoc st c).skel := by
  cases c with
  | blockQuote b =>
    simp only [blockDoc]
    exact environment_infix ((blocks_infix st b _ _).2 e he)
  | list k items =>
    simp only [Block.childBlocks, List.mem_flatMap] at he
    obtain ⟨i, hi, he⟩ := he
    simp only [blockDoc]
    refine environment_infix (List.IsInfix.trans ?_ ((items_infix st items _).2 i hi))
    cases i with
    | mk task b =>
      simp only [itemDoc]
      exact skel_infix_app_left (skel_infix_app_right ((blocks_infix st b _ _).2 e he))
  | footnoteDefinition l b =>
    obtain ⟨n, hl⟩ := Option.ne_none_iff_exists'.1 (hf l b rfl)
    simp only [blockDoc, hn, hl]
    exact command_infix (skel_infix_app_right ((blocks_infix st b _ _).2 e he))
  | githubAlert t b =>
    simp only [blockDoc]
    exact command_infix (skel_infix_app_right ((blocks_infix st b _ _).2 e he))
  | _ => simp [Block.childBlocks] at he

theorem rendered_skel {st : State} {num : Str → Option Nat}
    (hn : ∀ l, st.getFootnoteIndex l = num l) {b c : Block} (h : Rendered num b c) :
    (blockDoc st b).skel <:+: (blockDoc st c).skel := by
  induction h with
  | self => exact List.infix_rfl
  | child c e he hf _ ih => exact ih.trans (child_skel hn he hf)

theorem renderedIn_skel {cfg : Config} {d : Document} {b : Block} (h : RenderedIn d b) :
    (blockDoc (State.new cfg d) b).skel <:+: docSkel cfg d := by
  obtain ⟨c, hc, h⟩ := h
  exact (rendered_skel (footnoteIndex_eq cfg d) h).trans ((blocks_infix _ d.blocks _ _).2 c hc)

theorem directInlines_skel {st : State} {b : Block} {j : Inline} (h : j ∈ b.directInlines)
    (hd : linkDef b = none) : (inlineDoc st j).skel <:+: (blockDoc st b).skel := by
  cases b with
  | paragraph c => exact inlines_infix h
  | heading k c => exact command_infix (inlines_infix h)
  | definition l dest t => cases hd
  | table rows al =>
    simp only [Block.directInlines, List.mem_flatten] at h
    obtain ⟨c, ⟨r, hr, hc⟩, hj⟩ := h
    exact (inlines_infix hj).trans ((tableRow_infix hc).trans (table_infix hr))
  | _ => simp [Block.directInlines] at h

theorem shownIn_skel {cfg : Config} {d : Document} {i : Inline} (h : ShownIn d i) :
    (inlineDoc (State.new cfg d) i).skel <:+: docSkel cfg d := by
  obtain ⟨b, hb, hd, j, hj, h⟩ := h
  refine (shown_skel (fun l => ?_) h).trans ((directInlines_skel hj hd).trans (renderedIn_skel hb))
  rw [linkDefinition_eq]

/-- An inline whose rendering has no break opportunity appears literally in the output. -/
theorem shown_literal {dw : Str → Nat} {cfg : Config} {d : Document} {i : Inline} {s : Str}
    (h : ShownIn d i) (hs : s.map some <:+: (inlineDoc (State.new cfg d) i).skel) :
    s <:+: renderLatex dw cfg d :=
  (render_fills dw cfg d).infix' (hs.trans (shownIn_skel h))

/-- **C31.** Every footnote reference that is part of the output shows the number of its footnote,
or its label if it has none. -/
theorem C31_reference (dw : Str → Nat) (cfg : Config) (d : Document) (l : Str)
    (h : ShownIn d (.footnoteReference l)) :
    match footnoteNumber d l with
    | some n => cs!"\\footnotemark{[" ++ natStr n ++ cs!"]}" <:+: renderLatex dw cfg d
    | none => cs!"[^" ++ escape l ++ cs!"]" <:+: renderLatex dw cfg d := by
  cases e : footnoteNumber d l with
  | some n =>
    refine shown_literal h ?_
    simp only [inlineDoc, footnoteIndex_eq, e, command, Doc.skel_app, Doc.skel]
    rw [← List.map_append, ← List.map_append, ← List.map_append]
    simp
  | none =>
    refine shown_literal h ?_
    simp only [inlineDoc, footnoteIndex_eq, e, Doc.skel_app, Doc.skel]
    rw [← List.map_append, ← List.map_append]
    simp

/-- **C31.** Every footnote definition that is part of the output and has a number shows it in front
of its content. -/
theorem C31_definition (dw : Str → Nat) (cfg : Config) (d : Document) (l : Str) (bs : List Block)
    (h : RenderedIn d (.footnoteDefinition l bs)) (n : Nat) (hn : footnoteNumber d l = some n) :
    cs!"\\footnotetext{[" ++ natStr n ++ cs!"] " <:+: renderLatex dw cfg d := by
  refine (render_fills dw cfg d).infix' (List.IsInfix.trans ?_ (renderedIn_skel h))
  simp only [blockDoc, footnoteIndex_eq, hn, command, Doc.skel_app, Doc.skel]
  exact ⟨[], (blocksDoc (State.new cfg d) true .nil bs).skel ++ [some '}'], by simp⟩

/-- **C30.** Code is never touched by the layout: the text of every code block in the output
appears there unchanged, at any width. -/
theorem C30_code_untouched (dw : Str → Nat) (cfg : Config) (d : Document) (k : CodeBlockKind) (s : Str)
    (h : RenderedIn d (.codeBlock k s)) :
    cs!"\n" ++ s ++ cs!"\n\\end{" <:+: renderLatex dw cfg d := by
  refine (render_fills dw cfg d).infix' (List.IsInfix.trans ?_ (renderedIn_skel h))
  have env : ∀ name o, (cs!"\n" ++ s ++ cs!"\n\\end{").map some <:+:
      (environment name o (.text s)).skel := by
    intro name o
    cases o with
    | none =>
      simp only [environment, Doc.skel_app, Doc.skel]
      exact ⟨(cs!"\\begin{" ++ name ++ cs!"}").map some, (name ++ cs!"}").map some, by simp⟩
    | some o =>
      simp only [environment, Doc.skel_app, Doc.skel]
      exact ⟨(cs!"\\begin{" ++ name ++ cs!"}[" ++ o ++ cs!"]").map some,
        (name ++ cs!"}").map some, by simp⟩
  simp only [blockDoc, codeBlockDoc]
  split
  · exact env _ _
  · exact env _ _
  · simp only [Doc.skel_app, Doc.skel]
    split
    · rename_i lang
      exact ⟨(cs!"\\begin{minted}{" ++ lang ++ cs!"}").map some, cs!"minted}".map some, by simp⟩
    · exact ⟨(cs!"\\begin{minted}{" ++ cs!"text" ++ cs!"}").map some, cs!"minted}".map some, by simp⟩

/-! ## C31: reference links -/

section Resolve
variable (defs : List Inline → Option (Str × Option Str))

theorem resolve_outer :
    (∀ b, (outer (resolveBlock defs b)).filterMap footnoteLabel = (outer b).filterMap footnoteLabel ∧
      (outer (resolveBlock defs b)).filterMap linkDef = (outer b).filterMap linkDef) ∧
    (∀ i, (outerItem (resolveItem defs i)).filterMap footnoteLabel =
        (outerItem i).filterMap footnoteLabel ∧
      (outerItem (resolveItem defs i)).filterMap linkDef = (outerItem i).filterMap linkDef) ∧
    (∀ l, (outerL (resolveBlocks defs l)).filterMap footnoteLabel =
        (outerL l).filterMap footnoteLabel ∧
      (outerL (resolveBlocks defs l)).filterMap linkDef = (outerL l).filterMap linkDef) ∧
    (∀ l, (outerItems (resolveItems defs l)).filterMap footnoteLabel =
        (outerItems l).filterMap footnoteLabel ∧
      (outerItems (resolveItems defs l)).filterMap linkDef = (outerItems l).filterMap linkDef) := by
  apply Block.ind <;> intros <;>
    simp_all [resolveBlock, resolveItem, resolveBlocks, resolveItems, outer, outerItem, outerL,
      outerItems, List.filterMap_append, List.filterMap_cons, footnoteLabel, linkDef]

theorem inline_resolve (st : State) (hd : ∀ l, st.getLinkDefinition l = defs l) :
    (∀ i, inlineDoc st (resolveInline defs i) = inlineDoc st i) ∧
    (∀ l, inlineDocs st (resolveInlines defs l) = inlineDocs st l) := by
  apply Inline.ind
  case linkReference =>
    intro l t _ ht
    obtain e | ⟨⟨dest, x⟩, e⟩ := Option.eq_none_or_eq_some (defs l)
    · simp only [resolveInline, e, inlineDoc, hd, ht]
    · simp only [resolveInline, e, inlineDoc, hd, ht]
  all_goals intros; simp only [resolveInline, resolveInlines, inlineDoc, inlineDocs, *]

theorem inlines_resolve {st : State} (hd : ∀ l, st.getLinkDefinition l = defs l) (l : List Inline) :
    inlinesDoc st (resolveInlines defs l) = inlinesDoc st l := by
  simp only [inlinesDoc, (inline_resolve defs st hd).2]

theorem rowCells_resolve {st : State} (hd : ∀ l, st.getLinkDefinition l = defs l)
    (row : List (List Inline)) : ∀ first acc,
    rowCells st first acc (row.map (resolveInlines defs)) = rowCells st first acc row := by
  induction row with
  | nil => intros; rfl
  | cons c row ih => intros; simp only [List.map_cons, rowCells, inlines_resolve defs hd, ih]

theorem dataRows_resolve {st : State} (hd : ∀ l, st.getLinkDefinition l = defs l) (sep : Doc)
    (rows : List (List (List Inline))) : ∀ acc,
    dataRows st sep acc (rows.map fun r => r.map (resolveInlines defs)) = dataRows st sep acc rows := by
  induction rows with
  | nil => intros; rfl
  | cons c row ih =>
    intros; simp only [List.map_cons, dataRows, tableRowDoc, rowCells_resolve defs hd, ih]

theorem table_resolve {st : State} (hd : ∀ l, st.getLinkDefinition l = defs l)
    (rows : List (List (List Inline))) (al : List Alignment) :
    tableDoc st (rows.map fun r => r.map (resolveInlines defs)) al = tableDoc st rows al := by
  have hh : ∀ rule acc, headerRow st rule acc (rows.map fun r => r.map (resolveInlines defs)) =
      headerRow st rule acc rows := by
    intro rule acc
    cases rows with
    | nil => rfl
    | cons r rows => simp only [headerRow, List.map_cons, List.head?_cons, tableRowDoc,
        rowCells_resolve defs hd]
  have e : (rows.map fun r => r.map (resolveInlines defs)).drop 1 =
      (rows.drop 1).map fun r => r.map (resolveInlines defs) := by simp
  simp only [tableDoc, tabularDoc, longtabuDoc, booktabsDoc, hh, e, dataRows_resolve defs hd]

theorem block_resolve {st : State} (hd : ∀ l, st.getLinkDefinition l = defs l) :
    (∀ b, blockDoc st (resolveBlock defs b) = blockDoc st b) ∧
    (∀ i, itemDoc st (resolveItem defs i) = itemDoc st i) ∧
    (∀ l, ∀ first acc, blocksDoc st first acc (resolveBlocks defs l) = blocksDoc st first acc l) ∧
    (∀ l, ∀ acc, itemsDoc st acc (resolveItems defs l) = itemsDoc st acc l) := by
  apply Block.ind <;> intros <;>
    simp only [resolveBlock, resolveItem, resolveBlocks, resolveItems, blockDoc, itemDoc, blocksDoc,
      itemsDoc, inlines_resolve defs hd, table_resolve defs hd, *]

end Resolve

theorem block_congr_state {st st' : State} (hc : st.config = st'.config)
    (hf : ∀ l, st.getFootnoteIndex l = st'.getFootnoteIndex l)
    (hl : ∀ l, st.getLinkDefinition l = st'.getLinkDefinition l) :
    (∀ l, inlinesDoc st l = inlinesDoc st' l) ∧
    (∀ rows al, tableDoc st rows al = tableDoc st' rows al) ∧
    (∀ l, ∀ first acc, blocksDoc st first acc l = blocksDoc st' first acc l) := by
  have hi : (∀ i, inlineDoc st i = inlineDoc st' i) ∧ (∀ l, inlineDocs st l = inlineDocs st' l) := by
    apply Inline.ind <;> intros <;> simp only [inlineDoc, inlineDocs, *]
  have h1 : ∀ l, inlinesDoc st l = inlinesDoc st' l := by
    intro l; simp only [inlinesDoc, hi.2]
  have h2 : ∀ row first acc, rowCells st first acc row = rowCells st' first acc row := by
    intro row
    induction row with
    | nil => intros; rfl
    | cons c row ih => intros; simp only [rowCells, h1, ih]
  have h3 : ∀ sep rows acc, dataRows st sep acc rows = dataRows st' sep acc rows := by
    intro sep rows
    induction rows with
    | nil => intros; rfl
    | cons c row ih => intros; simp only [dataRows, tableRowDoc, h2, ih]
  have h4 : ∀ rule acc rows, headerRow st rule acc rows = headerRow st' rule acc rows := by
    intro rule acc rows
    simp only [headerRow, tableRowDoc, h2]
  have h5 : ∀ rows al, tableDoc st rows al = tableDoc st' rows al := by
    intro rows al
    simp only [tableDoc, hc, tabularDoc, longtabuDoc, booktabsDoc, h3, h4]
  refine ⟨h1, h5, ?_⟩
  have := Block.ind (P := fun b => blockDoc st b = blockDoc st' b)
    (PI := fun i => itemDoc st i = itemDoc st' i)
    (PL := fun l => ∀ first acc, blocksDoc st first acc l = blocksDoc st' first acc l)
    (PIL := fun l => ∀ acc, itemsDoc st acc l = itemsDoc st' acc l)
  refine (this ?_ ?_ ?_ ?_ ?_ ?_ ?_ ?_ ?_ ?_ ?_ ?_ ?_ ?_ ?_ ?_ ?_).2.2.1 <;> intros <;>
    simp only [blockDoc, itemDoc, blocksDoc, itemsDoc, codeBlockDoc, *]

/-- **C31.** Reference links behave exactly like the inline links they stand for: replacing every
reference whose label has a definition (the last one with that label outside footnotes) by an
inline link to its destination does not change the output. -/
theorem C31_references_resolved (dw : Str → Nat) (cfg : Config) (d : Document) :
    renderLatex dw cfg ⟨resolveBlocks (lastDefinition d) d.blocks⟩ = renderLatex dw cfg d := by
  have ho := (resolve_outer (lastDefinition d)).2.2.1 d.blocks
  have hs := block_congr_state (st := State.new cfg ⟨resolveBlocks (lastDefinition d) d.blocks⟩)
    (st' := State.new cfg d) rfl
    (fun l => by simp only [footnoteIndex_eq, footnoteNumber, footnoteLabels, ho.1])
    (fun l => by
      simp only [linkDefinition_eq]
      exact congrArg (fun x => (x.reverse.find? fun e => decide (e.1 = l)).map (·.2)) ho.2)
  simp only [renderLatex, hs.2.2,
    (block_resolve (lastDefinition d) (linkDefinition_eq cfg d)).2.2.1]

/-- **C31.** A reference with a definition points to the destination of the last one. -/
theorem C31_link_resolved (dw : Str → Nat) (cfg : Config) (d : Document) (l t : List Inline)
    (h : ShownIn d (.linkReference l t)) (dest : Str) (title : Option Str)
    (hd : lastDefinition d l = some (dest, title)) :
    cs!"\\href{" ++ escape dest ++ cs!"}{" <:+: renderLatex dw cfg d := by
  refine shown_literal h ?_
  simp only [inlineDoc, linkDefinition_eq, hd, hrefDoc, command, Doc.skel_app, Doc.skel]
  exact ⟨[], (Doc.concat (inlineDocs (State.new cfg d) t)).skel ++ [some '}'], by simp⟩

/-- **C31.** A reference without definition shows both its text and its label, in brackets. -/
theorem C31_link_fallback (dw : Str → Nat) (cfg : Config) (d : Document) (l t : List Inline)
    (h : ShownIn d (.linkReference l t)) (hd : lastDefinition d l = none) :
    ∃ x y, cs!"[" ++ x ++ cs!"][" ++ y ++ cs!"]" <:+: renderLatex dw cfg d ∧
      Fills (inlinesDoc (State.new cfg d) t).skel x ∧
      Fills (inlinesDoc (State.new cfg d) l).skel y := by
  have hi := shownIn_skel (cfg := cfg) h
  simp only [inlineDoc, linkDefinition_eq, hd, Doc.skel_app, Doc.skel] at hi
  obtain ⟨p, q, e⟩ := hi
  have hf := render_fills dw cfg d
  rw [← e] at hf
  obtain ⟨u, v, e1, hu, -⟩ := hf.split
  obtain ⟨u, w, rfl, -, hw⟩ := hu.split
  obtain ⟨w, w1, rfl, hw, h5⟩ := hw.split
  obtain ⟨w, y, rfl, hw, h4⟩ := hw.split
  obtain ⟨w, w3, rfl, hw, h3⟩ := hw.split
  obtain ⟨w, x, rfl, hw, h2⟩ := hw.split
  rw [Fills.some_iff.1 hw, Fills.some_iff.1 h3, Fills.some_iff.1 h5] at e1
  exact ⟨x, y, ⟨u, v, e1.symm⟩, h2, h4⟩

/-- The hypotheses of the C31 theorems are met: a repeated label keeps its last number, the note
inside a note is not numbered, an undefined reference falls back. -/
example : renderLatex List.length Config.default
    ⟨[.paragraph [.footnoteReference cs!"b", .footnoteReference cs!"a", .footnoteReference cs!"z",
        .linkReference [.text cs!"l"] [.text cs!"t"], .linkReference [.text cs!"m"] [.text cs!"t"]],
      .definition [.text cs!"l"] cs!"first" none, .definition [.text cs!"l"] cs!"last" none,
      .footnoteDefinition cs!"a" [.footnoteDefinition cs!"z" []], .footnoteDefinition cs!"b" [],
      .footnoteDefinition cs!"a" []]⟩ =
    cs!"\\footnotemark{[2]}\\footnotemark{[3]}[^z]\\href{last}{t}[t][m]\n\n\n\n\n\n\\footnotetext{[3] }\n\n\\footnotetext{[2] }\n\n\\footnotetext{[3] }" := by
  decide +kernel

end Latex
end Verif
