import Verif.TraverseSpec
/-! # Properties C09–C12: queries and visitors -/
namespace Verif

/-! ## Lemmas: collecting is filtering the pre-order enumeration -/

theorem collectInlinesInline_eq (p : Inline → Bool) :
    (∀ i acc, collectInlinesInline p i acc = acc ++ i.pre.filter p) ∧
    (∀ l acc, collectInlinesInlines p l acc = acc ++ (Inline.preL l).filter p) := by
  apply Inline.ind
  case nil => intro acc; simp [collectInlinesInlines, Inline.preL]
  case cons => intro i l hi hl acc; simp [collectInlinesInlines, Inline.preL, hi, hl]
  all_goals
    intros
    simp only [collectInlinesInline, Inline.pre, List.filter_cons, List.filter_append,
      List.filter_nil]
    try simp only [*]
    split <;> simp

theorem preL_append (l m : List Inline) : Inline.preL (l ++ m) = Inline.preL l ++ Inline.preL m := by
  induction l with
  | nil => simp [Inline.preL]
  | cons i l ih => simp [Inline.preL, ih]

theorem preL_flatten (l : List (List Inline)) :
    Inline.preL l.flatten = l.flatMap Inline.preL := by
  induction l with
  | nil => simp [Inline.preL]
  | cons i l ih => simp [preL_append, ih]

/-- All inlines below a list of blocks (each block's own inlines before those of inner blocks:
only leaf blocks have inlines of their own). -/
def inlinesOf (l : List Block) : List Inline := l.flatMap fun b => Inline.preL b.directInlines

theorem collectInlines_rows (p : Inline → Bool) (r : List (List (List Inline))) :
    ∀ acc, r.foldl (fun acc row => row.foldl (fun acc cell => collectInlinesInlines p cell acc) acc)
      acc = acc ++ (Inline.preL r.flatten.flatten).filter p := by
  have hrow : ∀ (row : List (List Inline)) acc,
      row.foldl (fun acc cell => collectInlinesInlines p cell acc) acc
        = acc ++ (Inline.preL row.flatten).filter p := by
    intro row
    induction row with
    | nil => intro acc; simp [Inline.preL]
    | cons c row ih =>
      intro acc
      rw [List.foldl_cons, ih, (collectInlinesInline_eq p).2]
      simp [preL_append]
  induction r with
  | nil => intro acc; simp [Inline.preL]
  | cons c r ih =>
    intro acc
    rw [List.foldl_cons, ih, hrow]
    simp [preL_append]

theorem collectInlinesBlock_eq (p : Inline → Bool) :
    (∀ b acc, collectInlinesBlock p b acc = acc ++ (inlinesOf b.pre).filter p) ∧
    (∀ i acc, collectInlinesItem p i acc = acc ++ (inlinesOf (ListItem.pre i)).filter p) ∧
    (∀ l acc, collectInlinesBlocks p l acc = acc ++ (inlinesOf (Block.preL l)).filter p) ∧
    (∀ l acc, collectInlinesItems p l acc = acc ++ (inlinesOf (ListItem.preL l)).filter p) := by
  apply Block.ind
  case table =>
    intro r a acc
    simp only [collectInlinesBlock, collectInlines_rows, Block.pre, inlinesOf,
      List.flatMap_cons, List.flatMap_nil, List.append_nil, Block.directInlines]
  case nilB => intro acc; simp [collectInlinesBlocks, inlinesOf, Block.preL]
  case nilI => intro acc; simp [collectInlinesItems, inlinesOf, ListItem.preL]
  case consB =>
    intro b l hb hl acc
    simp [collectInlinesBlocks, inlinesOf, Block.preL, hb, hl] 
  case consI =>
    intro b l hb hl acc
    simp [collectInlinesItems, inlinesOf, ListItem.preL, hb, hl] 
  all_goals
    intros
    simp_all [collectInlinesBlock, collectInlinesItem, Block.pre, inlinesOf, ListItem.pre,
      Block.directInlines, Inline.preL, (collectInlinesInline_eq p).2]

theorem collectBlocksBlock_eq (p : Block → Bool) :
    (∀ b acc, collectBlocksBlock p b acc = acc ++ b.pre.filter p) ∧
    (∀ i acc, collectBlocksItem p i acc = acc ++ (ListItem.pre i).filter p) ∧
    (∀ l acc, collectBlocksBlocks p l acc = acc ++ (Block.preL l).filter p) ∧
    (∀ l acc, collectBlocksItems p l acc = acc ++ (ListItem.preL l).filter p) := by
  apply Block.ind
  case nilB => intro acc; simp [collectBlocksBlocks, Block.preL]
  case nilI => intro acc; simp [collectBlocksItems, ListItem.preL]
  case consB => intro b l hb hl acc; simp [collectBlocksBlocks, Block.preL, hb, hl]
  case consI => intro b l hb hl acc; simp [collectBlocksItems, ListItem.preL, hb, hl]
  case item => intro t b hb acc; simp [collectBlocksItem, ListItem.pre, hb]
  all_goals
    intros
    simp only [collectBlocksBlock, Block.pre, List.filter_cons, List.filter_nil]
    try simp only [*]
    split <;> simp

theorem foldl_append_flatMap {α β : Type} (f : α → List β) (l : List α) :
    ∀ acc, l.foldl (fun r b => r ++ f b) acc = acc ++ l.flatMap f := by
  induction l with
  | nil => intro acc; simp
  | cons a l ih => intro acc; simp [ih]

theorem inlinesOf_preL (l : List Block) : inlinesOf (Block.preL l) =
    l.flatMap fun b => inlinesOf b.pre := by
  induction l with
  | nil => simp [inlinesOf, Block.preL]
  | cons b l ih => rw [List.flatMap_cons, ← ih]; simp [inlinesOf, Block.preL]

theorem preL_flatMap (l : List Block) : Block.preL l = l.flatMap Block.pre := by
  induction l with
  | nil => simp [Block.preL]
  | cons b l ih => rw [List.flatMap_cons, ← ih]; simp [Block.preL]

/-! ## The enumeration is exactly the set of nodes of the document -/

theorem Inline.preL_eq_flatMap (l : List Inline) : Inline.preL l = l.flatMap Inline.pre := by
  induction l with
  | nil => simp [Inline.preL]
  | cons b l ih => rw [List.flatMap_cons, ← ih]; simp [Inline.preL]

/-- Each inline precedes the inlines inside it, which follow in order. -/
theorem Inline.pre_eq (i : Inline) : i.pre = i :: i.children.flatMap Inline.pre := by
  cases i <;> simp [Inline.pre, Inline.children, Inline.preL_eq_flatMap]

/-- Each block precedes the blocks inside it, which follow in order. -/
theorem Block.pre_eq (b : Block) : b.pre = b :: b.childBlocks.flatMap Block.pre := by
  have items : ∀ l : List ListItem,
      ListItem.preL l = (l.flatMap ListItem.blocks).flatMap Block.pre := by
    intro l
    induction l with
    | nil => rfl
    | cons i l ih =>
      obtain ⟨t, b⟩ := i
      simp [ListItem.preL, ListItem.pre, ListItem.blocks, ih, preL_flatMap]
  cases b <;> simp [Block.pre, Block.childBlocks, preL_flatMap, items]

theorem Inline.mem_pre_aux :
    (∀ j i : Inline, i ∈ j.pre → i.Within j) ∧
    (∀ (l : List Inline) (i : Inline), i ∈ Inline.preL l → ∃ j ∈ l, i.Within j) := by
  apply Inline.ind
  case nil => intro i h; simp [Inline.preL] at h
  case cons =>
    intro j l hj hl i h
    simp only [Inline.preL, List.mem_append] at h
    rcases h with h | h
    · exact ⟨j, by simp, hj i h⟩
    · obtain ⟨k, hk, hw⟩ := hl i h
      exact ⟨k, by simp [hk], hw⟩
  case linkReference =>
    intro l t hl ht i h
    simp only [Inline.pre, List.mem_cons, List.mem_append] at h
    rcases h with rfl | h | h
    · exact .self _
    · obtain ⟨k, hk, hw⟩ := hl i h
      exact .child _ _ k (by simp [Inline.children, hk]) hw
    · obtain ⟨k, hk, hw⟩ := ht i h
      exact .child _ _ k (by simp [Inline.children, hk]) hw
  case link =>
    intro d t c hc i h
    simp only [Inline.pre, List.mem_cons] at h
    rcases h with rfl | h
    · exact .self _
    · obtain ⟨k, hk, hw⟩ := hc i h
      exact .child _ _ k (by simp [Inline.children, hk]) hw
  case emphasis | strong | strikethrough =>
    intro c hc i h
    simp only [Inline.pre, List.mem_cons] at h
    rcases h with rfl | h
    · exact .self _
    · obtain ⟨k, hk, hw⟩ := hc i h
      exact .child _ _ k (by simp [Inline.children, hk]) hw
  all_goals
    intros
    rename_i i h
    simp only [Inline.pre, List.mem_cons, List.not_mem_nil, or_false] at h
    subst h
    exact .self _

theorem Inline.mem_pre (i j : Inline) : i ∈ j.pre ↔ i.Within j := by
  refine ⟨Inline.mem_pre_aux.1 j i, fun h => ?_⟩
  induction h with
  | self => rw [Inline.pre_eq]; simp
  | child j k hk _ ih => rw [Inline.pre_eq]; simp only [List.mem_cons, List.mem_flatMap]; exact Or.inr ⟨k, hk, ih⟩

theorem Block.mem_pre_aux :
    (∀ c b : Block, b ∈ c.pre → b.Within c) ∧
    (∀ (i : ListItem) (b : Block), b ∈ i.pre → ∃ c ∈ i.blocks, b.Within c) ∧
    (∀ (l : List Block) (b : Block), b ∈ Block.preL l → ∃ c ∈ l, b.Within c) ∧
    (∀ (l : List ListItem) (b : Block), b ∈ ListItem.preL l →
      ∃ c ∈ l.flatMap ListItem.blocks, b.Within c) := by
  apply Block.ind
  case nilB => intro b h; simp [Block.preL] at h
  case nilI => intro b h; simp [ListItem.preL] at h
  case consB =>
    intro c l hc hl b h
    simp only [Block.preL, List.mem_append] at h
    rcases h with h | h
    · exact ⟨c, by simp, hc b h⟩
    · obtain ⟨k, hk, hw⟩ := hl b h
      exact ⟨k, by simp [hk], hw⟩
  case consI =>
    intro c l hc hl b h
    simp only [ListItem.preL, List.mem_append] at h
    rcases h with h | h
    · obtain ⟨k, hk, hw⟩ := hc b h
      exact ⟨k, by simp [hk], hw⟩
    · obtain ⟨k, hk, hw⟩ := hl b h
      exact ⟨k, by rw [List.flatMap_cons]; exact List.mem_append_right _ hk, hw⟩
  case item => intro t bs h b hb; exact h b (by simpa [ListItem.pre] using hb)
  case blockQuote =>
    intro bs h b hb
    simp only [Block.pre, List.mem_cons] at hb
    rcases hb with rfl | hb
    · exact .self _
    · obtain ⟨k, hk, hw⟩ := h b hb
      exact .child _ _ k (by simpa [Block.childBlocks] using hk) hw
  case list | footnoteDefinition | githubAlert =>
    intro x bs h b hb
    simp only [Block.pre, List.mem_cons] at hb
    rcases hb with rfl | hb
    · exact .self _
    · obtain ⟨k, hk, hw⟩ := h b hb
      exact .child _ _ k (by simpa [Block.childBlocks] using hk) hw
  all_goals
    intros
    rename_i b h
    simp only [Block.pre, List.mem_cons, List.not_mem_nil, or_false] at h
    subst h
    exact .self _

theorem Block.mem_pre (b c : Block) : b ∈ c.pre ↔ b.Within c := by
  refine ⟨Block.mem_pre_aux.1 c b, fun h => ?_⟩
  induction h with
  | self => rw [Block.pre_eq]; simp
  | child j k hk _ ih => rw [Block.pre_eq]; simp only [List.mem_cons, List.mem_flatMap]; exact Or.inr ⟨k, hk, ih⟩

/-- The enumeration contains exactly the blocks occurring in the document. -/
theorem Document.mem_allBlocks (d : Document) (b : Block) : b ∈ d.allBlocks ↔ d.HasBlock b := by
  simp [Document.allBlocks, preL_flatMap, Document.HasBlock, List.mem_flatMap, Block.mem_pre]

/-- The enumeration contains exactly the inlines occurring in the document. -/
theorem Document.mem_allInlines (d : Document) (i : Inline) : i ∈ d.allInlines ↔ d.HasInline i := by
  simp [Document.allInlines, List.mem_flatMap, Document.mem_allBlocks, Document.HasInline,
    Inline.preL_eq_flatMap, Inline.mem_pre]

/-! ## C09 -/

/-- C09: the result is the document-order enumeration filtered by the predicate: each occurrence
once, in order. -/
theorem C09_find_all_inlines (d : Document) (p : Inline → Bool) :
    d.findAllInlines p = d.allInlines.filter p := by
  have : d.allInlines = inlinesOf (Block.preL d.blocks) := rfl
  rw [this, inlinesOf_preL]
  simp only [Document.findAllInlines, foldl_append_flatMap, List.nil_append,
    Block.findAllInlines, (collectInlinesBlock_eq p).1]
  induction d.blocks with
  | nil => rfl
  | cons b l ih => simp [ih]

/-- C09: sound and complete with respect to occurrence in the document. -/
theorem C09_sound_complete (d : Document) (p : Inline → Bool) (i : Inline) :
    i ∈ d.findAllInlines p ↔ d.HasInline i ∧ p i = true := by
  rw [C09_find_all_inlines, List.mem_filter, Document.mem_allInlines]

/-- C09 on a list of inlines (`Vec<Inline>` implements `Query` too). -/
theorem C09_find_all_inlines_vec (l : List Inline) (p : Inline → Bool) :
    inlinesFindAllInlines l p = (l.flatMap Inline.pre).filter p := by
  simp [inlinesFindAllInlines, (collectInlinesInline_eq p).2, Inline.preL_eq_flatMap]

/-! ## C10 -/

/-- C10: the result is the document-order enumeration of blocks filtered by the predicate. -/
theorem C10_find_all_blocks (d : Document) (p : Block → Bool) :
    d.findAllBlocks p = d.allBlocks.filter p := by
  simp only [Document.findAllBlocks, foldl_append_flatMap, List.nil_append,
    Block.findAllBlocks, (collectBlocksBlock_eq p).1, Document.allBlocks, preL_flatMap]
  induction d.blocks with
  | nil => rfl
  | cons b l ih => simp [ih]

/-- C10: sound and complete with respect to occurrence in the document. -/
theorem C10_sound_complete (d : Document) (p : Block → Bool) (b : Block) :
    b ∈ d.findAllBlocks p ↔ d.HasBlock b ∧ p b = true := by
  rw [C10_find_all_blocks, List.mem_filter, Document.mem_allBlocks]

/-! ## C11 -/

theorem findFirstInlineInline_eq (p : Inline → Bool) :
    (∀ i, findFirstInlineInline p i = i.pre.find? p) ∧
    (∀ l, findFirstInlineInlines p l = (Inline.preL l).find? p) := by
  apply Inline.ind
  case nil => simp [findFirstInlineInlines, Inline.preL]
  case cons => intro i l hi hl; simp only [findFirstInlineInlines, Inline.preL, List.find?_append, hi, hl]; split <;> (rename_i heq; rw [heq]; rfl)
  case linkReference =>
    intro l t hl ht
    simp only [findFirstInlineInline, Inline.pre, List.find?_cons, List.find?_append, hl, ht]
    cases p (.linkReference l t)
    · simp only [Bool.false_eq_true, if_false]; split <;> (rename_i heq; rw [heq]; rfl)
    · simp
  all_goals
    intros
    simp only [findFirstInlineInline, Inline.pre, List.find?_cons, List.find?_nil]
    try simp only [*]
    split <;> simp_all

theorem findFirstInlineRows_eq (p : Inline → Bool) (r : List (List (List Inline))) :
    findFirstInlineRows p r = (Inline.preL r.flatten.flatten).find? p := by
  have hrow : ∀ row : List (List Inline),
      findFirstInlineRow p row = (Inline.preL row.flatten).find? p := by
    intro row
    induction row with
    | nil => simp [findFirstInlineRow, Inline.preL]
    | cons c row ih =>
      simp only [findFirstInlineRow, ih, List.flatten_cons, preL_append, List.find?_append,
        (findFirstInlineInline_eq p).2]
      split <;> (rename_i heq; rw [heq]; rfl)
  induction r with
  | nil => simp [findFirstInlineRows, Inline.preL]
  | cons c r ih =>
    simp only [findFirstInlineRows, ih, hrow, List.flatten_cons, List.flatten_append, preL_append,
      List.find?_append]
    split <;> (rename_i heq; rw [heq]; rfl)

theorem inlinesOf_append (l m : List Block) : inlinesOf (l ++ m) = inlinesOf l ++ inlinesOf m := by
  simp [inlinesOf]

theorem inlinesOf_cons (b : Block) (l : List Block) :
    inlinesOf (b :: l) = Inline.preL b.directInlines ++ inlinesOf l := by
  simp [inlinesOf]

theorem findFirstInlineBlock_eq (p : Inline → Bool) :
    (∀ b, findFirstInlineBlock p b = (inlinesOf b.pre).find? p) ∧
    (∀ i, findFirstInlineItem p i = (inlinesOf (ListItem.pre i)).find? p) ∧
    (∀ l, findFirstInlineBlocks p l = (inlinesOf (Block.preL l)).find? p) ∧
    (∀ l, findFirstInlineItems p l = (inlinesOf (ListItem.preL l)).find? p) := by
  have e : inlinesOf [] = [] := rfl
  apply Block.ind
  case nilB => simp [findFirstInlineBlocks, inlinesOf, Block.preL]
  case nilI => simp [findFirstInlineItems, inlinesOf, ListItem.preL]
  case consB =>
    intro b l hb hl
    simp only [findFirstInlineBlocks, Block.preL, inlinesOf_append, List.find?_append, hb, hl]
    split <;> (rename_i heq; rw [heq]; rfl)
  case consI =>
    intro b l hb hl
    simp only [findFirstInlineItems, ListItem.preL, inlinesOf_append, List.find?_append, hb, hl]
    split <;> (rename_i heq; rw [heq]; rfl)
  all_goals
    intros
    simp only [findFirstInlineBlock, findFirstInlineItem, Block.pre, ListItem.pre, inlinesOf_cons,
      Block.directInlines, Inline.preL, e, List.append_nil, List.nil_append, List.find?_nil,
      (findFirstInlineInline_eq p).2, findFirstInlineRows_eq]
    try assumption

theorem findFirstBlockBlock_eq (p : Block → Bool) :
    (∀ b, findFirstBlockBlock p b = b.pre.find? p) ∧
    (∀ i, findFirstBlockItem p i = (ListItem.pre i).find? p) ∧
    (∀ l, findFirstBlockBlocks p l = (Block.preL l).find? p) ∧
    (∀ l, findFirstBlockItems p l = (ListItem.preL l).find? p) := by
  apply Block.ind
  case nilB => simp [findFirstBlockBlocks, Block.preL]
  case nilI => simp [findFirstBlockItems, ListItem.preL]
  case consB => intro b l hb hl; simp only [findFirstBlockBlocks, Block.preL, List.find?_append, hb, hl]; split <;> (rename_i heq; rw [heq]; rfl)
  case consI => intro b l hb hl; simp only [findFirstBlockItems, ListItem.preL, List.find?_append, hb, hl]; split <;> (rename_i heq; rw [heq]; rfl)
  case item => intro t b hb; simp only [findFirstBlockItem, ListItem.pre, hb]
  all_goals
    intros
    simp only [findFirstBlockBlock, Block.pre, List.find?_cons, List.find?_nil]
    try simp only [*]
    split <;> simp_all

/-- C11: `find_first_inline` is the first element of `find_all_inlines`. -/
theorem C11_find_first_inline (d : Document) (p : Inline → Bool) :
    d.findFirstInline p = (d.findAllInlines p).head? := by
  rw [C09_find_all_inlines, List.head?_filter, Document.findFirstInline,
    (findFirstInlineBlock_eq p).2.2.1]
  rfl

/-- C11: `find_first_block` is the first element of `find_all_blocks`. -/
theorem C11_find_first_block (d : Document) (p : Block → Bool) :
    d.findFirstBlock p = (d.findAllBlocks p).head? := by
  rw [C10_find_all_blocks, List.head?_filter, Document.findFirstBlock,
    (findFirstBlockBlock_eq p).2.2.1]
  rfl

/-- C11: `any_inline` holds exactly when some inline of the document satisfies the predicate. -/
theorem C11_any_inline (d : Document) (p : Inline → Bool) :
    d.anyInline p = true ↔ ∃ i, d.HasInline i ∧ p i = true := by
  rw [Document.anyInline, C11_find_first_inline, List.isSome_head?]
  constructor
  · intro h
    cases hl : d.findAllInlines p with
    | nil => simp [hl] at h
    | cons i l => exact ⟨i, (C09_sound_complete d p i).1 (by simp [hl])⟩
  · rintro ⟨i, hi⟩
    have := (C09_sound_complete d p i).2 hi
    cases hl : d.findAllInlines p with
    | nil => simp [hl] at this
    | cons i l => simp

/-- C11: `any_block` holds exactly when some block of the document satisfies the predicate. -/
theorem C11_any_block (d : Document) (p : Block → Bool) :
    d.anyBlock p = true ↔ ∃ b, d.HasBlock b ∧ p b = true := by
  rw [Document.anyBlock, C11_find_first_block, List.isSome_head?]
  constructor
  · intro h
    cases hl : d.findAllBlocks p with
    | nil => simp [hl] at h
    | cons i l => exact ⟨i, (C10_sound_complete d p i).1 (by simp [hl])⟩
  · rintro ⟨i, hi⟩
    have := (C10_sound_complete d p i).2 hi
    cases hl : d.findAllBlocks p with
    | nil => simp [hl] at this
    | cons i l => simp

/-- C11: counting. -/
theorem C11_count (d : Document) (p : Inline → Bool) (q : Block → Bool) :
    d.countInlines p = d.allInlines.countP p ∧ d.countBlocks q = d.allBlocks.countP q := by
  simp [Document.countInlines, Document.countBlocks, C09_find_all_inlines, C10_find_all_blocks,
    List.countP_eq_length_filter]

theorem filter_filterMap {α β : Type} (p : α → Bool) (f : α → Option β)
    (h : ∀ a, p a = (f a).isSome) (l : List α) : (l.filter p).filterMap f = l.filterMap f := by
  induction l with
  | nil => rfl
  | cons a l ih =>
    have := h a
    cases hf : f a with
    | none => simp [List.filter_cons, this, hf, ih]
    | some b => simp [List.filter_cons, this, hf, ih]

/-- C11: the typed finders return exactly the payloads of that kind, in document order. -/
theorem C11_typed_finders (d : Document) :
    d.findAllLinks = d.allInlines.filterMap (fun | .link u t c => some (u, t, c) | _ => none) ∧
    d.findAllImages = d.allInlines.filterMap (fun | .image u t a => some (u, t, a) | _ => none) ∧
    d.findAllAutolinks = d.allInlines.filterMap (fun | .autolink u => some u | _ => none) ∧
    d.findAllText = d.allInlines.filterMap (fun | .text t => some t | _ => none) ∧
    d.findAllCodeSpans = d.allInlines.filterMap (fun | .code c => some c | _ => none) ∧
    d.findAllHeadings = d.allBlocks.filterMap (fun | .heading k c => some (k, c) | _ => none) ∧
    d.findAllCodeBlocks = d.allBlocks.filterMap (fun | .codeBlock k c => some (k, c) | _ => none) ∧
    d.findAllTables = d.allBlocks.filterMap (fun | .table r a => some (r, a) | _ => none) ∧
    d.findAllLists = d.allBlocks.filterMap (fun | .list k i => some (k, i) | _ => none) := by
  have h1 : ∀ (α : Type) (p : Inline → Bool) (f g : Inline → Option α), (∀ i, p i = (f i).isSome) → (∀ i, f i = g i) →
      (d.allInlines.filter p).filterMap f = d.allInlines.filterMap g :=
    fun _ p f g h hg => by rw [filter_filterMap p f h, funext hg]
  have h2 : ∀ (α : Type) (p : Block → Bool) (f g : Block → Option α), (∀ i, p i = (f i).isSome) → (∀ i, f i = g i) →
      (d.allBlocks.filter p).filterMap f = d.allBlocks.filterMap g :=
    fun _ p f g h hg => by rw [filter_filterMap p f h, funext hg]
  refine ⟨?_, ?_, ?_, ?_, ?_, ?_, ?_, ?_, ?_⟩ <;>
    first
    | (simp only [Document.findAllLinks, Document.findAllImages, Document.findAllAutolinks,
        Document.findAllText, Document.findAllCodeSpans, C09_find_all_inlines]
       refine h1 _ _ _ _ ?_ ?_ <;> intro a <;> cases a <;> rfl)
    | (simp only [Document.findAllHeadings, Document.findAllCodeBlocks, Document.findAllTables,
        Document.findAllLists, C10_find_all_blocks]
       refine h2 _ _ _ _ ?_ ?_ <;> intro a <;> cases a <;> rfl)

/-- A document with inlines in every container. -/
def queryDoc : Document := ⟨[
  .heading (.atx 2) [.text cs!"h"],
  .blockQuote [.list (.ordered 1) [.mk none [.paragraph [.link cs!"u" none [.text cs!"a",
    .emphasis [.text cs!"b"]]]]]],
  .definition [.text cs!"c"] cs!"d" none,
  .footnoteDefinition cs!"f" [.table [[[.text cs!"e"], [.linkReference [.text cs!"l"] [.text cs!"t"]]]]
    [.left, .right]],
  .githubAlert .note [.paragraph [.strong [.text cs!"z"]]]]⟩

example : queryDoc.findAllText =
    [cs!"h", cs!"a", cs!"b", cs!"c", cs!"e", cs!"l", cs!"t", cs!"z"] := by decide
example : queryDoc.countBlocks (fun _ => true) = 9 := by decide
example : queryDoc.findFirstInline (fun i => match i with | .emphasis _ => true | _ => false)
    = some (.emphasis [.text cs!"b"]) := by decide

/-! ## C12 -/

/-- Apply the recording action along a list of events. -/
def runEvents {σ : Type} (on : Node → σ → σ) (es : List Node) (s : σ) : σ :=
  es.foldl (fun s e => on e s) s

theorem runEvents_append {σ : Type} (on : Node → σ → σ) (a b : List Node) (s : σ) :
    runEvents on (a ++ b) s = runEvents on b (runEvents on a s) := by
  simp [runEvents]

theorem runEvents_cons {σ : Type} (on : Node → σ → σ) (a : Node) (b : List Node) (s : σ) :
    runEvents on (a :: b) s = runEvents on b (on a s) := rfl

theorem forEach_cons {σ α : Type} (f : α → σ → σ) (a : α) (l : List α) (s : σ) :
    forEach f (a :: l) s = forEach f l (f a s) := rfl

theorem visitInline_events {σ : Type} (V : Visitor σ) (on : Node → σ → σ) (h : Recording V on) :
    (∀ i s, V.visitInline i s = runEvents on i.events s) ∧
    (∀ l s, forEach V.visitInline l s = runEvents on (Inline.eventsL l) s) := by
  apply Inline.ind
  case nil => intro s; rfl
  case cons =>
    intro i l hi hl s
    simp only [forEach_cons, hi, hl, Inline.eventsL, runEvents_append]
  all_goals
    intros
    rw [h.inline]
    simp only [walkInline, Inline.events, runEvents_cons, runEvents_append, h.text, h.link,
      h.image, walkText, walkImage, walkLink]
    try simp only [*]
    try rfl

theorem visitRow_events {σ : Type} (V : Visitor σ) (on : Node → σ → σ) (h : Recording V on)
    (r : List (List (List Inline))) :
    ∀ s, forEach V.visitTableRow r s = runEvents on (r.flatMap rowEvents) s := by
  have hcell : ∀ (row : List (List Inline)) s,
      forEach V.visitTableCell row s = runEvents on (row.flatMap cellEvents) s := by
    intro row
    induction row with
    | nil => intro s; rfl
    | cons c row ih =>
      intro s
      simp only [forEach_cons, ih, List.flatMap_cons, runEvents_append, h.tableCell,
        walkTableCell, (visitInline_events V on h).2, cellEvents, runEvents_cons]
  induction r with
  | nil => intro s; rfl
  | cons c r ih =>
    intro s
    simp only [forEach_cons, ih, List.flatMap_cons, runEvents_append, h.tableRow,
      walkTableRow, hcell, rowEvents, runEvents_cons]

theorem visitBlock_events {σ : Type} (V : Visitor σ) (on : Node → σ → σ) (h : Recording V on) :
    (∀ b s, V.visitBlock b s = runEvents on b.events s) ∧
    (∀ i s, V.visitListItem i s = runEvents on (ListItem.events i) s) ∧
    (∀ l s, forEach V.visitBlock l s = runEvents on (Block.eventsL l) s) ∧
    (∀ l s, forEach V.visitListItem l s = runEvents on (ListItem.eventsL l) s) := by
  apply Block.ind
  case nilB => intro s; rfl
  case nilI => intro s; rfl
  case consB =>
    intro i l hi hl s
    simp only [forEach_cons, hi, hl, Block.eventsL, runEvents_append]
  case consI =>
    intro i l hi hl s
    simp only [forEach_cons, hi, hl, ListItem.eventsL, runEvents_append]
  case item =>
    intro t b hb s
    rw [h.listItem]
    simp only [walkListItem, ListItem.blocks, hb, ListItem.events, runEvents_cons]
  all_goals
    intros
    rw [h.block]
    simp only [walkBlock, Block.events, runEvents_cons, h.heading, walkHeading,
      (visitInline_events V on h).2, h.codeBlock, walkCodeBlock, visitRow_events V on h,
      h.footnoteDefinition, walkFootnoteDefinition, h.githubAlert, walkGithubAlert]
    try simp only [*]
    try rfl

/-- C12: a visitor built from the defaults reaches every hook exactly once per node, in document
order; its final state is the fold of its own actions over that sequence. -/
theorem C12_visitor_order {σ : Type} (V : Visitor σ) (on : Node → σ → σ) (h : Recording V on)
    (d : Document) (s : σ) :
    d.visitWith V s = d.events.foldl (fun s e => on e s) s := by
  show V.visitDocument d s = runEvents on d.events s
  rw [h.document]
  simp only [walkDocument, (visitBlock_events V on h).2.2.1, Document.events, runEvents_cons]

theorem Inline.events_asInline :
    (∀ i : Inline, i.events.filterMap Node.asInline = i.pre ∧
      i.events.filterMap Node.asBlock = []) ∧
    (∀ l : List Inline, (Inline.eventsL l).filterMap Node.asInline = Inline.preL l ∧
      (Inline.eventsL l).filterMap Node.asBlock = []) := by
  apply Inline.ind <;> intros <;>
    simp only [Inline.events, Inline.eventsL, Inline.pre, Inline.preL, List.filterMap_cons,
      List.filterMap_append, List.filterMap_nil, Node.asInline, Node.asBlock, *, and_self,
      List.append_nil]

theorem rows_events (r : List (List (List Inline))) :
    (r.flatMap rowEvents).filterMap Node.asInline = Inline.preL r.flatten.flatten ∧
    (r.flatMap rowEvents).filterMap Node.asBlock = [] := by
  have hrow : ∀ row : List (List Inline),
      (row.flatMap cellEvents).filterMap Node.asInline = Inline.preL row.flatten ∧
      (row.flatMap cellEvents).filterMap Node.asBlock = [] := by
    intro row
    induction row with
    | nil => exact ⟨rfl, rfl⟩
    | cons c row ih =>
      simp only [List.flatMap_cons, List.filterMap_append, List.filterMap_cons, ih, cellEvents,
        Node.asInline, Node.asBlock, (Inline.events_asInline.2 c), preL_append,
        List.flatten_cons, List.append_nil, and_self]
  induction r with
  | nil => exact ⟨rfl, rfl⟩
  | cons c r ih =>
    simp only [List.flatMap_cons, List.filterMap_append, List.filterMap_cons, ih, rowEvents,
      Node.asInline, Node.asBlock, hrow c, preL_append, List.flatten_cons, List.flatten_append,
      List.append_nil, and_self]

theorem Block.events_asInline :
    (∀ b : Block, b.events.filterMap Node.asInline = inlinesOf b.pre ∧
      b.events.filterMap Node.asBlock = b.pre) ∧
    (∀ i : ListItem, i.events.filterMap Node.asInline = inlinesOf i.pre ∧
      i.events.filterMap Node.asBlock = i.pre) ∧
    (∀ l : List Block, (Block.eventsL l).filterMap Node.asInline = inlinesOf (Block.preL l) ∧
      (Block.eventsL l).filterMap Node.asBlock = Block.preL l) ∧
    (∀ l : List ListItem, (ListItem.eventsL l).filterMap Node.asInline
        = inlinesOf (ListItem.preL l) ∧
      (ListItem.eventsL l).filterMap Node.asBlock = ListItem.preL l) := by
  have e : inlinesOf [] = [] := rfl
  apply Block.ind <;> intros <;>
    simp only [Block.events, Block.eventsL, ListItem.events, ListItem.eventsL, Block.pre,
      Block.preL, ListItem.pre, ListItem.preL, Node.asInline, Node.asBlock, inlinesOf_cons,
      inlinesOf_append, Block.directInlines, Inline.preL, Inline.events_asInline.2, rows_events,
      List.filterMap_cons, List.filterMap_append, List.filterMap_nil, e, List.append_nil,
      List.nil_append, *, and_self]

/-- C12: the blocks and inlines seen are exactly those enumerated by `Query`, in the same order. -/
theorem C12_visitor_sees_query_nodes (d : Document) :
    d.events.filterMap Node.asBlock = d.findAllBlocks (fun _ => true) ∧
    d.events.filterMap Node.asInline = d.findAllInlines (fun _ => true) := by
  rw [C09_find_all_inlines, C10_find_all_blocks]
  have ft : ∀ {α : Type} (l : List α), l.filter (fun _ => true) = l := by
    intro α l; simp
  rw [ft, ft]
  simp only [Document.events, List.filterMap_cons, Node.asBlock, Node.asInline,
    Block.events_asInline.2.2.1]
  exact ⟨rfl, rfl⟩

/-- A visitor with default walking for any recording action (so `Recording` is satisfiable). -/
def recordingVisitor {σ : Type} (on : Node → σ → σ) : Visitor σ where
  visitDocument d := runEvents on d.events
  visitBlock b := runEvents on b.events
  visitInline i := runEvents on i.events
  visitTableCell c := runEvents on (cellEvents c)
  visitListItem i := runEvents on i.events
  visitTableRow r := runEvents on (rowEvents r)
  visitHeading k c := runEvents on (.heading k c :: Inline.eventsL c)
  visitLink d t c := runEvents on (.link d t c :: Inline.eventsL c)
  visitImage d t a := on (.image d t a)
  visitCodeBlock k c := on (.codeBlock k c)
  visitText t := on (.text t)
  visitFootnoteDefinition l b := runEvents on (.footnoteDefinition l b :: Block.eventsL b)
  visitGithubAlert t b := runEvents on (.githubAlert t b :: Block.eventsL b)

theorem forEach_runEvents {σ α : Type} (on : Node → σ → σ) (f : α → List Node) (l : List α) :
    ∀ s, forEach (fun a => runEvents on (f a)) l s = runEvents on (l.flatMap f) s := by
  induction l with
  | nil => intro s; rfl
  | cons a l ih => intro s; rw [forEach_cons, ih, List.flatMap_cons, runEvents_append]

theorem Inline.eventsL_flatMap (l : List Inline) : Inline.eventsL l = l.flatMap Inline.events := by
  induction l with
  | nil => rfl
  | cons a l ih => rw [List.flatMap_cons, ← ih, Inline.eventsL]

theorem Block.eventsL_flatMap (l : List Block) : Block.eventsL l = l.flatMap Block.events := by
  induction l with
  | nil => rfl
  | cons a l ih => rw [List.flatMap_cons, ← ih, Block.eventsL]

theorem ListItem.eventsL_flatMap (l : List ListItem) :
    ListItem.eventsL l = l.flatMap ListItem.events := by
  induction l with
  | nil => rfl
  | cons a l ih => rw [List.flatMap_cons, ← ih, ListItem.eventsL]

/-- C12: such visitors exist for every recording action. -/
theorem C12_recording_exists {σ : Type} (on : Node → σ → σ) :
    Recording (recordingVisitor on) on where
  document d s := by
    simp only [recordingVisitor, walkDocument, Document.events, runEvents_cons,
      forEach_runEvents, Block.eventsL_flatMap]
  block b s := by
    cases b <;> simp only [recordingVisitor, walkBlock, Block.events, runEvents_cons,
      forEach_runEvents, Block.eventsL_flatMap, Inline.eventsL_flatMap,
      ListItem.eventsL_flatMap] <;> rfl
  inline i s := by
    cases i <;> simp only [recordingVisitor, walkInline, Inline.events, runEvents_cons,
      runEvents_append, forEach_runEvents, Inline.eventsL_flatMap] <;> rfl
  tableCell c s := by
    simp only [recordingVisitor, walkTableCell, cellEvents, runEvents_cons, forEach_runEvents,
      Inline.eventsL_flatMap]
  listItem i s := by
    obtain ⟨t, b⟩ := i
    simp only [recordingVisitor, walkListItem, ListItem.events, ListItem.blocks, runEvents_cons,
      forEach_runEvents, Block.eventsL_flatMap]
  tableRow r s := by
    simp only [recordingVisitor, walkTableRow, rowEvents, runEvents_cons, forEach_runEvents]
  heading k c s := by
    simp only [recordingVisitor, walkHeading, runEvents_cons, forEach_runEvents,
      Inline.eventsL_flatMap]
  link d t c s := by
    simp only [recordingVisitor, walkLink, runEvents_cons, forEach_runEvents,
      Inline.eventsL_flatMap]
  image _ _ _ _ := rfl
  codeBlock _ _ _ := rfl
  text _ _ := rfl
  footnoteDefinition l b s := by
    simp only [recordingVisitor, walkFootnoteDefinition, runEvents_cons, forEach_runEvents,
      Block.eventsL_flatMap]
  githubAlert t b s := by
    simp only [recordingVisitor, walkGithubAlert, runEvents_cons, forEach_runEvents,
      Block.eventsL_flatMap]

end Verif
