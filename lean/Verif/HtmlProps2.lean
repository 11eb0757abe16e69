import Verif.HtmlProps
/-! # Properties C22–C27 and C52: attributes, footnotes, reference links, panics, visible text. -/
namespace Verif
namespace Html

/-! ## C23 -/

/-- **C23.** The width (and the display-width table) play no role in the output. -/
theorem C23_width_independent (dw dw' : Str → Nat) (d : Document) (w w' : Nat) (prefix' : Str) :
    renderHtml dw d ⟨w, prefix'⟩ = renderHtml dw' d ⟨w', prefix'⟩ := by
  have key : ∀ (st st' : State), st.footnoteIndex = st'.footnoteIndex →
      st.linkDefs = st'.linkDefs → st.config.anchorPrefix = st'.config.anchorPrefix →
      ∀ l, blocksStr st l = blocksStr st' l := by
    intro st st' h1 h2 h3
    have hf : ∀ l, st.getFootnoteIndex l = st'.getFootnoteIndex l := by
      intro l; simp [State.getFootnoteIndex, h1]
    have hd : ∀ l, st.getLinkDefinition l = st'.getLinkDefinition l := by
      intro l; simp [State.getLinkDefinition, h2]
    have hi : (∀ i, inlineStr st i = inlineStr st' i) ∧ (∀ l, inlinesStr st l = inlinesStr st' l) := by
      apply Inline.ind <;> intros <;> simp only [inlineStr, inlinesStr, hf, hd, h3, *]
    have hc : ∀ n al row k, cellsStr st n al k row = cellsStr st' n al k row := by
      intro n al row
      induction row with
      | nil => intro k; rfl
      | cons c row ih => intro k; simp only [cellsStr, hi.2, ih]
    have hb : (∀ b, blockStr st b = blockStr st' b) ∧ (∀ b, itemStr st b = itemStr st' b) ∧
        (∀ b, blocksStr st b = blocksStr st' b) ∧ (∀ b, itemsStr st b = itemsStr st' b) := by
      apply Block.ind <;> intros <;>
        simp only [blockStr, itemStr, blocksStr, itemsStr, hi.2, hf, tableStr, rowStr, hc, *]
    exact hb.2.2.1
  rw [renderHtml_eq, renderHtml_eq]
  exact key (State.new ⟨w, prefix'⟩ d) (State.new ⟨w', prefix'⟩ d) rfl rfl rfl _

example : renderHtml List.length ⟨[.paragraph [.text cs!"a b c d e f"]]⟩ ⟨3, []⟩ =
    some cs!"<p>a b c d e f</p>" := by decide

/-! ## C22: attribute values are escaped twice -/

theorem escape_eq_self_iff (s : Str) : escape s = s ↔ ∀ c ∈ s, c ∉ special := by
  have hlen : ∀ c, 1 ≤ (escapeChar c).length := by
    intro c; unfold escapeChar; split <;> simp
  have hle : ∀ s : Str, s.length ≤ (escape s).length := by
    intro s
    induction s with
    | nil => simp [escape]
    | cons c s ih =>
      have := hlen c
      simp only [escape, List.flatMap_cons, List.length_append, List.length_cons] at *
      omega
  have hself : ∀ c, escapeChar c = [c] ↔ c ∉ special := by
    intro c
    unfold escapeChar special
    split
    · simp
    · simp
    · simp
    · simp
    · simp
    · simp only [true_iff, List.mem_cons, List.not_mem_nil, or_false, not_or]
      refine ⟨?_, ?_, ?_, ?_, ?_⟩ <;> assumption
  induction s with
  | nil => simp [escape]
  | cons c s ih =>
    have e : escape (c :: s) = escapeChar c ++ escape s := by simp [escape]
    constructor
    · intro h
      rw [e] at h
      have h1 : (escapeChar c).length = 1 := by
        have a := congrArg List.length h
        have b := hle s
        have b' := hlen c
        simp only [List.length_append, List.length_cons] at a
        omega
      obtain ⟨x, hx⟩ := List.length_eq_one_iff.1 h1
      rw [hx] at h
      simp only [List.cons_append, List.nil_append, List.cons.injEq] at h
      rw [h.1] at hx
      intro d hd
      rcases List.mem_cons.1 hd with rfl | hd
      · exact (hself d).1 hx
      · exact ih.1 h.2 d hd
    · intro h
      rw [e, (hself c).2 (h c (by simp)), ih.2 fun d hd => h d (by simp [hd])]
      rfl

/-- **C22 (partial).** A link's `href` is the destination escaped *twice*, so decoding it once gives
the destination back exactly when the destination has no special character; decoding it twice
always does.  (The full property, "decoding once always gives the destination", is false:
`C22_refuted`.) -/
theorem C22_link_href_partial (dw : Str → Nat) (dest : Str) (t : Option Str) (c : List Inline)
    (rest : List Inline) (cfg : Config) : ∃ v post,
    renderHtml dw ⟨[.paragraph (.link dest t c :: rest)]⟩ cfg =
      some (cs!"<p><a href=\"" ++ v ++ cs!"\"" ++ post) ∧ '"' ∉ v ∧
    decode (decode v) = dest ∧ (decode v = dest ↔ ∀ ch ∈ dest, ch ∉ special) := by
  refine ⟨escape (escape dest), ?_⟩
  rw [renderHtml_eq]
  refine ⟨?post, ?_, (C20_no_special _).2.2.1, ?_, ?_⟩
  rotate_left 2
  · rw [C20_decode_escape, C20_decode_escape]
  · rw [C20_decode_escape, escape_eq_self_iff]
  rotate_left
  · simp only [blocksStr, blockStr, inlinesStr, inlineStr, Option.bind_some, Option.map_some,
      element, outAttrs, List.map_cons, List.flatMap_cons, attrStr, List.append_assoc,
      List.cons_append, List.nil_append, List.flatMap_nil]
    rfl

/-- **C22 (partial).** The same for an image's `src`, `alt` and `title`: each is the AST value
escaped twice. -/
theorem C22_image_attrs_partial (dw : Str → Nat) (dest alt title : Str) (rest : List Inline)
    (cfg : Config) : ∃ v a ti post,
    renderHtml dw ⟨[.paragraph (.image dest (some title) alt :: rest)]⟩ cfg =
      some (cs!"<p><img src=\"" ++ v ++ cs!"\" alt=\"" ++ a ++ cs!"\" title=\"" ++ ti ++ cs!"\"" ++
        post) ∧ '"' ∉ v ∧ '"' ∉ a ∧ '"' ∉ ti ∧
    decode (decode v) = dest ∧ decode (decode a) = alt ∧ decode (decode ti) = title := by
  refine ⟨escape (escape dest), escape (escape alt), escape (escape title), ?_⟩
  rw [renderHtml_eq]
  refine ⟨?post, ?_, (C20_no_special _).2.2.1, (C20_no_special _).2.2.1, (C20_no_special _).2.2.1,
    ?_, ?_, ?_⟩
  rotate_left 2
  · rw [C20_decode_escape, C20_decode_escape]
  · rw [C20_decode_escape, C20_decode_escape]
  · rw [C20_decode_escape, C20_decode_escape]
  rotate_left
  · simp only [blocksStr, blockStr, inlinesStr, inlineStr, Option.bind_some, Option.map_some,
      element, outAttrs, List.map_cons, List.flatMap_cons, attrStr, List.append_assoc, titleAttr,
      List.cons_append, List.nil_append, List.flatMap_nil]
    rfl

/-- **C22 is false**: the link `a&b` has an `href` that decodes to `a&amp;b`. -/
theorem C22_refuted : ∃ dest v post,
    renderHtml List.length ⟨[.paragraph [.link dest none [.text cs!"x"]]]⟩ Config.default =
      some (cs!"<p><a href=\"" ++ v ++ cs!"\"" ++ post) ∧ '"' ∉ v ∧ decode v ≠ dest :=
  ⟨cs!"a&b", cs!"a&amp;amp;b", cs!">x</a></p>", by decide, by decide, by decide⟩

/-! ## C52: the visible text -/

/-- The string `x` shows as `t`, whatever follows. -/
def Shows (x t : Str) : Prop := ∀ rest, visibleText (x ++ rest) = t ++ visibleText rest

theorem Shows.append {x y t u : Str} (h : Shows x t) (h' : Shows y u) : Shows (x ++ y) (t ++ u) := by
  intro r; rw [List.append_assoc, h, h', List.append_assoc]

theorem Shows.nil : Shows [] [] := fun _ => rfl

theorem stripTags_text {s : Str} (h : '<' ∉ s) (r : Str) :
    stripTags false (s ++ r) = s ++ stripTags false r := by
  induction s with
  | nil => rfl
  | cons c s ih =>
    simp only [List.mem_cons, not_or] at h
    simp only [List.cons_append, stripTags, Ne.symm h.1, if_false, ih h.2]

theorem stripTags_tag {s : Str} (h : '>' ∉ s) (r : Str) :
    stripTags true (s ++ '>' :: r) = stripTags false r := by
  induction s with
  | nil => rfl
  | cons c s ih =>
    simp only [List.mem_cons, not_or] at h
    have : (c != '>') = true := by simpa using Ne.symm h.1
    simp only [List.cons_append, stripTags, this, ih h.2]

theorem Shows.escape (s : Str) : Shows (escape s) s := by
  intro r
  rw [visibleText, stripTags_text (C20_no_special s).1, decode_escape_append]; rfl

theorem Shows.plain {s : Str} (h1 : '<' ∉ s) (h2 : '&' ∉ s) : Shows s s := by
  intro r
  rw [visibleText, stripTags_text h1]
  clear h1
  induction s with
  | nil => rfl
  | cons c s ih =>
    simp only [List.mem_cons, not_or] at h2
    rw [List.cons_append, decode_cons (Ne.symm h2.1), ih h2.2]; rfl

theorem Shows.element {n : Str} {attrs : List (Str × Str)} {i t : Str} (hn : n ∈ elementNames)
    (ha : ∀ a ∈ attrs, GoodAttr a) (h : Shows i t) : Shows (element n attrs i) t := by
  have hn' : '>' ∉ n := by
    have : ∀ n ∈ elementNames, '>' ∉ n := by decide
    exact this n hn
  have hat : '>' ∉ attrs.flatMap attrStr := by
    intro hm
    simp only [List.mem_flatMap] at hm
    obtain ⟨⟨k, v⟩, hkv, hm⟩ := hm
    obtain ⟨g1, g2, g3, g4⟩ := ha _ hkv
    have hk : '>' ∉ k := by
      have : ∀ n ∈ attributeNames, '>' ∉ n := by decide
      exact this k g1
    simp only [attrStr, List.mem_cons, List.mem_append, List.not_mem_nil, or_false] at hm
    rcases hm with hm | ((hm | hm | hm) | hm) | hm
    · exact absurd hm (by decide)
    · exact hk hm
    · exact absurd hm (by decide)
    · exact absurd hm (by decide)
    · exact g4 hm
    · exact absurd hm (by decide)
  intro r
  have e : Html.element n attrs i ++ r =
      '<' :: ((n ++ attrs.flatMap attrStr) ++ '>' :: (i ++ ('<' :: (('/' :: n) ++ '>' :: r)))) := by
    simp [Html.element]
  have h1 : '>' ∉ n ++ attrs.flatMap attrStr := by simp [hn', hat]
  have h2 : '>' ∉ '/' :: n := by simp [hn']
  have e2 : ∀ s, stripTags false ('<' :: s) = stripTags true s := by intro s; simp [stripTags]
  rw [e, visibleText, e2, stripTags_tag h1]
  have := h ('<' :: (('/' :: n) ++ '>' :: r))
  rw [visibleText] at this
  rw [this, visibleText, e2, stripTags_tag h2]; rfl

theorem Shows.natStr (n : Nat) : Shows (natStr n) (decimal n) :=
  .plain (not_mem_natStr n (by decide)) (not_mem_natStr n (by decide))

theorem inline_shows (st : State) :
    (∀ i, (∀ s, .html s ∉ Inline.pre i) → Shows (inlineStr st i)
      (inlineText st.getFootnoteIndex (fun l => (st.getLinkDefinition l).isSome) i)) ∧
    (∀ l, (∀ s, .html s ∉ Inline.preL l) → Shows (inlinesStr st l)
      (inlinesText st.getFootnoteIndex (fun l => (st.getLinkDefinition l).isSome) l)) := by
  apply Inline.ind
  case nil => intro _; exact .nil
  case cons =>
    intro i l hi hl h
    simp only [Inline.preL, List.mem_append, not_or] at h
    exact (hi fun s => (h s).1).append (hl fun s => (h s).2)
  case text => intro s _; exact .escape s
  case lineBreak => intro _; simp only [inlineStr]; exact .element (by decide) no_attrs .nil
  case code => intro s _; simp only [inlineStr]; exact .element (by decide) no_attrs (.escape s)
  case html => intro s h; exact absurd (by simp [Inline.pre]) (h s)
  case link =>
    intro d t c ih h
    simp only [Inline.pre, List.mem_cons, reduceCtorEq, false_or] at h
    simp only [inlineStr]
    exact .element (by decide)
      (goodAttrs_out _ (names_cons (by decide) (titleAttr_names t))) (ih h)
  case linkReference =>
    intro l t _ ih h
    simp only [Inline.pre, List.mem_cons, reduceCtorEq, false_or, List.mem_append, not_or] at h
    obtain e | ⟨x, e⟩ := Option.eq_none_or_eq_some (st.getLinkDefinition l)
    · simp only [inlineStr, inlineText, e, Option.isSome_none]
      exact .nil
    · simp only [inlineStr, inlineText, e, Option.isSome_some, if_true]
      exact .element (by decide)
        (goodAttrs_out _ (names_cons (by decide) (titleAttr_names _))) (ih fun s => (h s).2)
  case image =>
    intro d t a _
    simp only [inlineStr]
    exact .element (by decide)
      (goodAttrs_out _ (names_cons (by decide) (names_cons (by decide) (titleAttr_names _)))) .nil
  case emphasis =>
    intro c ih h
    simp only [Inline.pre, List.mem_cons, reduceCtorEq, false_or] at h
    simp only [inlineStr]
    exact .element (by decide) no_attrs (ih h)
  case strong =>
    intro c ih h
    simp only [Inline.pre, List.mem_cons, reduceCtorEq, false_or] at h
    simp only [inlineStr]
    exact .element (by decide) no_attrs (ih h)
  case strikethrough =>
    intro c ih h
    simp only [Inline.pre, List.mem_cons, reduceCtorEq, false_or] at h
    simp only [inlineStr]
    exact .element (by decide) no_attrs (ih h)
  case autolink =>
    intro s _
    simp only [inlineStr]
    exact .element (by decide) (goodAttrs_out _ (names_cons (by decide) names_nil)) (.escape s)
  case footnoteReference =>
    intro l _
    simp only [inlineStr, inlineText]
    cases st.getFootnoteIndex l with
    | none => exact .nil
    | some n =>
      have : Shows ('[' :: (natStr n ++ cs!"]")) (cs!"[" ++ decimal n ++ cs!"]") := by
        have := ((Shows.plain (s := cs!"[") (by decide) (by decide)).append (.natStr n)).append
          (Shows.plain (s := cs!"]") (by decide) (by decide))
        simpa using this
      exact .element (by decide)
        (goodAttrs_out _ (names_cons (by decide) (names_cons (by decide) names_nil))) this
  case empty => intro _; exact .nil

theorem cells_shows (st : State) (n : Str) (hn : n ∈ elementNames) (al : List Alignment)
    (row : List (List Inline)) (h : ∀ c ∈ row, ∀ s, .html s ∉ Inline.preL c) :
    ∀ k, Shows (cellsStr st n al k row) (row.flatMap
      (inlinesText st.getFootnoteIndex fun l => (st.getLinkDefinition l).isSome)) := by
  induction row with
  | nil => intro k; exact .nil
  | cons c row ih =>
    intro k
    simp only [cellsStr, List.flatMap_cons]
    refine .append (.element hn (goodAttrs_out _ (names_cons (by decide) names_nil))
      ((inline_shows st).2 c (h c (by simp)))) (ih (fun c hc => h c (by simp [hc])) _)

theorem row_shows (st : State) (n : Str) (hn : n ∈ elementNames) (al : List Alignment)
    (row : List (List Inline)) (h : ∀ c ∈ row, ∀ s, .html s ∉ Inline.preL c) :
    Shows (rowStr st row n al) (row.flatMap
      (inlinesText st.getFootnoteIndex fun l => (st.getLinkDefinition l).isSome)) :=
  .element (by decide) no_attrs (cells_shows st n hn al row h 0)

theorem flatMap_shows {α : Type} (f g : α → Str) (l : List α) (h : ∀ a ∈ l, Shows (f a) (g a)) :
    Shows (l.flatMap f) (l.flatMap g) := by
  induction l with
  | nil => exact .nil
  | cons a l ih =>
    rw [List.flatMap_cons, List.flatMap_cons]
    exact (h a (by simp)).append (ih fun b hb => h b (by simp [hb]))

theorem svg_shows (t : AlertType) : Shows (svgIcon t) [] := by
  obtain ⟨c, d, e, hc, hd⟩ := svg_shape t
  rw [e]
  refine .element (by decide) ?_ (.element (by decide) ?_ .nil)
  · intro a ha
    simp only [List.mem_cons, List.not_mem_nil, or_false] at ha
    rcases ha with rfl | rfl | rfl | rfl | rfl | rfl
    · exact hc
    all_goals exact ⟨by show _ ∈ _; decide, by decide, by decide, by decide⟩
  · intro a ha
    rw [List.mem_singleton] at ha
    exact ha ▸ hd

theorem block_shows (st : State) :
    (∀ b, (∀ c ∈ b.pre, NodeOK c) → ∀ s, blockStr st b = some s → Shows s
      (blockText st.getFootnoteIndex (fun l => (st.getLinkDefinition l).isSome) b)) ∧
    (∀ i, (∀ c ∈ ListItem.pre i, NodeOK c) → ∀ s, itemStr st i = some s → Shows s
      (itemText st.getFootnoteIndex (fun l => (st.getLinkDefinition l).isSome) i)) ∧
    (∀ l, (∀ c ∈ Block.preL l, NodeOK c) → ∀ s, blocksStr st l = some s → Shows s
      (blocksText st.getFootnoteIndex (fun l => (st.getLinkDefinition l).isSome) l)) ∧
    (∀ l, (∀ c ∈ ListItem.preL l, NodeOK c) → ∀ s, itemsStr st l = some s → Shows s
      (itemsText st.getFootnoteIndex (fun l => (st.getLinkDefinition l).isSome) l)) := by
  apply Block.ind
  case paragraph =>
    intro c h s hs
    simp only [blockStr, Option.some.injEq] at hs
    subst hs
    exact .element (by decide) no_attrs
      ((inline_shows st).2 c (h (.paragraph c) (by simp [Block.pre])).2.1)
  case heading =>
    intro k c h s hs
    simp only [blockStr, Option.some.injEq] at hs
    subst hs
    exact .element (headingTag_mem k) no_attrs
      ((inline_shows st).2 c (h (.heading k c) (by simp [Block.pre])).2.1)
  case thematicBreak =>
    intro h s hs
    simp only [blockStr, Option.some.injEq] at hs
    subst hs
    exact .element (by decide) no_attrs .nil
  case codeBlock =>
    intro k c h s hs
    simp only [blockStr, Option.some.injEq] at hs
    subst hs
    exact .element (by decide) no_attrs (.element (by decide) no_attrs (.escape c))
  case htmlBlock => intro c h; exact absurd rfl ((h _ (by simp [Block.pre])).1 c)
  case definition =>
    intro _ _ _ h s hs
    simp only [blockStr, Option.some.injEq] at hs
    subst hs
    exact .nil
  case empty =>
    intro h s hs
    simp only [blockStr, Option.some.injEq] at hs
    subst hs
    exact .nil
  case table =>
    intro rows al h s hs
    have hrow : ∀ r ∈ rows, ∀ c ∈ r, ∀ s, .html s ∉ Inline.preL c := by
      intro r hr c hc s hs
      refine (h (.table rows al) (by simp [Block.pre])).2.1 s ?_
      exact mem_preL_flatten (List.mem_flatten.2 ⟨r, hr, hc⟩) hs
    simp only [blockStr] at hs
    rcases rows with _ | ⟨r, rows⟩
    · simp [tableStr] at hs
    · simp only [tableStr, Option.some.injEq] at hs
      subst hs
      simp only [blockText, List.flatMap_cons]
      refine .element (by decide) no_attrs (.append (.element (by decide) no_attrs ?_)
        (.element (by decide) no_attrs ?_))
      · exact row_shows st _ (by decide) al r (hrow r (by simp))
      · exact flatMap_shows _ _ _ fun r hr =>
          row_shows st _ (by decide) al r (hrow r (by simp [hr]))
  case blockQuote =>
    intro b ih h s hs
    simp only [blockStr, Option.map_eq_some_iff] at hs
    obtain ⟨t, ht, rfl⟩ := hs
    exact .element (by decide) no_attrs (ih (fun c hc => h c (by simp [Block.pre, hc])) t ht)
  case list =>
    intro k b ih h s hs
    simp only [blockStr, Option.map_eq_some_iff] at hs
    obtain ⟨t, ht, rfl⟩ := hs
    have := ih (fun c hc => h c (by simp [Block.pre, hc])) t ht
    cases k with
    | ordered n =>
      exact .element (by decide) (goodAttrs_out _ (names_cons (by decide) names_nil)) this
    | bullet n =>
      exact .element (by decide) (goodAttrs_out _ (names_cons (by decide) names_nil)) this
  case footnoteDefinition =>
    intro l b ih h s hs
    simp only [blockStr] at hs
    simp only [blockText]
    cases e : st.getFootnoteIndex l with
    | none =>
      rw [e] at hs
      simp only [Option.some.injEq] at hs
      subst hs
      exact .nil
    | some n =>
      rw [e] at hs
      simp only [Option.map_eq_some_iff] at hs
      obtain ⟨t, ht, rfl⟩ := hs
      have := ih (fun c hc => h c (by simp [Block.pre, hc])) t ht
      exact .element (by decide) (goodAttrs_out _ (names_cons (by decide) names_nil))
        (.append (.element (by decide) (goodAttrs_out _ (names_cons (by decide) names_nil))
            ((Shows.natStr _).append (.plain (by decide) (by decide))))
          (.element (by decide) (goodAttrs_out _ (names_cons (by decide) names_nil)) this))
  case githubAlert =>
    intro ty b ih h s hs
    simp only [blockStr, Option.map_eq_some_iff] at hs
    obtain ⟨t, ht, rfl⟩ := hs
    have hb := ih (fun c hc => h c (by simp [Block.pre, hc])) t ht
    have htitle : Shows (alertTitle ty) (alertName ty) := by
      cases ty with
      | custom n =>
        have := (h (.githubAlert (.custom n) b) (by simp [Block.pre])).2.2 n b rfl
        exact .plain this.1 this.2.2
      | _ => exact .plain (by decide) (by decide)
    exact .element (by decide) (goodAttrs_out _ (names_cons (by decide) names_nil))
      (.append (.element (by decide) (goodAttrs_out _ (names_cons (by decide) names_nil))
        (Shows.append (svg_shows ty) htitle)) hb)
  case item =>
    intro ta b ih h s hs
    simp only [itemStr, Option.map_eq_some_iff] at hs
    obtain ⟨t, ht, rfl⟩ := hs
    have hb := ih (fun c hc => h c (by simp [ListItem.pre, hc])) t ht
    refine .element (by decide) no_attrs (.append ?_ hb)
    rcases ta with _ | (_ | _)
    · exact .nil
    · simp only [taskStr, taskText]
      exact .element (by decide) (goodAttrs_out _ (names_cons (by decide) names_nil))
        (.plain (by decide) (by decide))
    · simp only [taskStr, taskText]
      exact .element (by decide) (goodAttrs_out _ (names_cons (by decide) names_nil))
        (.plain (by decide) (by decide))
  case nilB =>
    intro h s hs
    simp only [blocksStr, Option.some.injEq] at hs
    subst hs
    exact .nil
  case nilI =>
    intro h s hs
    simp only [itemsStr, Option.some.injEq] at hs
    subst hs
    exact .nil
  case consB =>
    intro b l hb hl h s hs
    simp only [blocksStr, Option.bind_eq_some_iff, Option.map_eq_some_iff] at hs
    obtain ⟨x, hx, y, hy, rfl⟩ := hs
    exact (hb (fun c hc => h c (by simp [Block.preL, hc])) x hx).append
      (hl (fun c hc => h c (by simp [Block.preL, hc])) y hy)
  case consI =>
    intro b l hb hl h s hs
    simp only [itemsStr, Option.bind_eq_some_iff, Option.map_eq_some_iff] at hs
    obtain ⟨x, hx, y, hy, rfl⟩ := hs
    exact (hb (fun c hc => h c (by simp [ListItem.preL, hc])) x hx).append
      (hl (fun c hc => h c (by simp [ListItem.preL, hc])) y hy)

/-! ## C24: footnote numbers -/

theorem addFootnote_defs (ix : Index) (l : Str) (D : List (List Inline × (Str × Option Str))) :
    ({ ix with defs := D } : Index).addFootnote l = { ix.addFootnote l with defs := D } := by
  simp only [Index.addFootnote]
  split <;> rfl

theorem fold_defs (ls : List Str) : ∀ (ix : Index) (D : List (List Inline × (Str × Option Str))),
    ls.foldl Index.addFootnote { ix with defs := D } =
      { ls.foldl Index.addFootnote ix with defs := D } := by
  induction ls with
  | nil => intros; rfl
  | cons l ls ih => intro ix D; rw [List.foldl_cons, addFootnote_defs ix l D, ih]; rfl

theorem fold_keeps_defs (ls : List Str) : ∀ (ix : Index),
    (ls.foldl Index.addFootnote ix).defs = ix.defs := by
  induction ls with
  | nil => intros; rfl
  | cons l ls ih =>
    intro ix
    rw [List.foldl_cons, ih]
    simp only [Index.addFootnote]
    split <;> rfl

theorem inlines_index (l : List Inline) : ∀ ix : Index,
    l.foldl inlineIndices ix = (l.filterMap refLabel).foldl Index.addFootnote ix := by
  induction l with
  | nil => intro ix; rfl
  | cons i l ih =>
    intro ix
    rw [List.foldl_cons, ih, List.filterMap_cons]
    cases i <;> rfl

/-- The definition a block is. -/
def asDef : Block → Option (List Inline × (Str × Option Str))
  | .definition l dest title => some (l, (dest, title))
  | _ => none

theorem linkDefinitions_eq (d : Document) :
    linkDefinitions d = (Block.preL d.blocks).filterMap asDef := by
  unfold linkDefinitions Document.allBlocks
  congr 1

/-- The references of a list of blocks. -/
def refsOf (l : List Block) : List Str := l.flatMap fun b => b.directInlines.filterMap refLabel

theorem refsOf_append (l m : List Block) : refsOf (l ++ m) = refsOf l ++ refsOf m := by
  simp [refsOf]

theorem row_index (row : List (List Inline)) : ∀ ix : Index,
    row.foldl (fun ix cell => cell.foldl inlineIndices ix) ix =
      (row.flatten.filterMap refLabel).foldl Index.addFootnote ix := by
  induction row with
  | nil => intro ix; rfl
  | cons c row ih =>
    intro ix
    rw [List.foldl_cons, ih, inlines_index, List.flatten_cons, List.filterMap_append,
      List.foldl_append]

theorem rows_index (rows : List (List (List Inline))) : ∀ ix : Index,
    rows.foldl (fun ix row => row.foldl (fun ix cell => cell.foldl inlineIndices ix) ix) ix =
      (rows.flatten.flatten.filterMap refLabel).foldl Index.addFootnote ix := by
  induction rows with
  | nil => intro ix; rfl
  | cons r rows ih =>
    intro ix
    rw [List.foldl_cons, ih, row_index, List.flatten_cons, List.flatten_append,
      List.filterMap_append, List.foldl_append]

/-- Extending an index by the references and definitions of some blocks. -/
def ext (ix : Index) (l : List Block) : Index :=
  { (refsOf l).foldl Index.addFootnote ix with defs := (l.filterMap asDef).reverse ++ ix.defs }

theorem ext_append (ix : Index) (l m : List Block) : ext (ext ix l) m = ext ix (l ++ m) := by
  simp only [ext, refsOf_append, List.foldl_append, List.filterMap_append, List.reverse_append,
    List.append_assoc, fold_defs]

theorem ext_nil (ix : Index) : ext ix [] = ix := by simp [ext, refsOf]

theorem ext_plain (ix : Index) (b : Block) (h : asDef b = none)
    (h' : b.directInlines.filterMap refLabel = []) : ext ix [b] = ix := by
  simp [ext, refsOf, h, h']

theorem ext_refs (ix : Index) (b : Block) (h : asDef b = none) :
    ext ix [b] = (b.directInlines.filterMap refLabel).foldl Index.addFootnote ix := by
  have := fold_keeps_defs (b.directInlines.filterMap refLabel) ix
  simp only [ext, refsOf, List.flatMap_cons, List.flatMap_nil, List.append_nil, h,
    List.filterMap_cons, List.filterMap_nil, List.reverse_nil, List.nil_append]
  rw [← this]

theorem block_index :
    (∀ b ix, blockIndices ix b = ext ix b.pre) ∧
    (∀ i ix, itemIndices ix i = ext ix (ListItem.pre i)) ∧
    (∀ l ix, blocksIndices ix l = ext ix (Block.preL l)) ∧
    (∀ l ix, itemsIndices ix l = ext ix (ListItem.preL l)) := by
  have hc : ∀ ix b l, asDef b = none → b.directInlines.filterMap refLabel = [] →
      ext ix (b :: l) = ext ix l := by
    intro ix b l h h'
    rw [show b :: l = [b] ++ l from rfl, ← ext_append, ext_plain _ _ h h']
  apply Block.ind
  case paragraph => intro c ix; simp only [blockIndices, Block.pre, inlines_index]
                    rw [ext_refs _ _ rfl]; rfl
  case heading => intro k c ix; simp only [blockIndices, Block.pre, inlines_index]
                  rw [ext_refs _ _ rfl]; rfl
  case table => intro r al ix; simp only [blockIndices, Block.pre, rows_index]
                rw [ext_refs _ _ rfl]; rfl
  case definition =>
    intro l d t ix
    simp only [blockIndices, Block.pre, inlines_index, fold_defs]
    simp [ext, refsOf, asDef, Block.directInlines]
  case thematicBreak => intro ix; exact (ext_plain _ _ rfl rfl).symm
  case codeBlock => intro _ _ ix; exact (ext_plain _ _ rfl rfl).symm
  case htmlBlock => intro _ ix; exact (ext_plain _ _ rfl rfl).symm
  case empty => intro ix; exact (ext_plain _ _ rfl rfl).symm
  case blockQuote => intro b ih ix; simp only [blockIndices, Block.pre, ih]; rw [hc _ _ _ rfl rfl]
  case list => intro k b ih ix; simp only [blockIndices, Block.pre, ih]; rw [hc _ _ _ rfl rfl]
  case footnoteDefinition =>
    intro k b ih ix; simp only [blockIndices, Block.pre, ih]; rw [hc _ _ _ rfl rfl]
  case githubAlert => intro k b ih ix; simp only [blockIndices, Block.pre, ih]; rw [hc _ _ _ rfl rfl]
  case item => intro t b ih ix; simp only [itemIndices, ListItem.pre, ih]
  case nilB => intro ix; exact (ext_nil ix).symm
  case nilI => intro ix; exact (ext_nil ix).symm
  case consB => intro b l hb hl ix; simp only [blocksIndices, Block.preL, hb, hl, ext_append]
  case consI => intro b l hb hl ix; simp only [itemsIndices, ListItem.preL, hb, hl, ext_append]

theorem getIndices_eq (d : Document) : getIndices d = ext Index.new (Block.preL d.blocks) := by
  have : ∀ (l : List Block) ix, l.foldl blockIndices ix = blocksIndices ix l := by
    intro l
    induction l with
    | nil => intro ix; rfl
    | cons b l ih => intro ix; simp only [List.foldl_cons, ih, blocksIndices]
  rw [getIndices, this, block_index.2.2.1]

theorem mem_firstOccurrences (l : List Str) (a : Str) : a ∈ firstOccurrences l ↔ a ∈ l := by
  induction l with
  | nil => simp [firstOccurrences]
  | cons b l ih =>
    simp only [firstOccurrences, List.mem_cons, List.mem_filter, ih, decide_eq_true_eq]
    by_cases h : a = b <;> simp [h]

theorem firstOccurrences_snoc (l : List Str) (a : Str) : firstOccurrences (l ++ [a]) =
    if a ∈ l then firstOccurrences l else firstOccurrences l ++ [a] := by
  induction l with
  | nil => simp [firstOccurrences]
  | cons b l ih =>
    simp only [List.cons_append, firstOccurrences, ih, List.mem_cons]
    by_cases h : a = b
    · subst h
      simp only [true_or, if_true]
      split
      · rfl
      · simp
    · simp only [h, false_or]
      split
      · rfl
      · simp [h]

theorem nodup_firstOccurrences (l : List Str) : (firstOccurrences l).Nodup := by
  induction l with
  | nil => simp [firstOccurrences]
  | cons a l ih =>
    simp only [firstOccurrences, List.nodup_cons, List.mem_filter]
    exact ⟨by simp, ih.filter _⟩

theorem idxOf?_snoc (l : List Str) (a b : Str) (ha : a ∉ l) : (l ++ [a]).idxOf? b =
    if b = a then some l.length else l.idxOf? b := by
  induction l with
  | nil =>
    by_cases h : b = a
    · subst h; simp [List.idxOf?, List.findIdx?_cons]
    · have : (a == b) = false := by simpa using Ne.symm h
      simp [List.idxOf?, List.findIdx?_cons, h, this]
  | cons c l ih =>
    simp only [List.mem_cons, not_or] at ha
    simp only [List.idxOf?, List.cons_append, List.findIdx?_cons] at ih ⊢
    by_cases h : c = b
    · subst h
      have : c ≠ a := Ne.symm ha.1
      simp [this]
    · have : (c == b) = false := by simpa using h
      simp only [this]
      rw [ih ha.2]
      by_cases h' : b = a <;> simp [h']

theorem idxOf?_eq_none' (l : List Str) (a : Str) : l.idxOf? a = none ↔ a ∉ l := by
  simp [List.idxOf?, List.findIdx?_eq_none_iff]
  constructor
  · intro h hm; exact h a hm rfl
  · intro h x hx e; exact h (e ▸ hx)

theorem fold_numbers (ls : List Str) :
    (∀ l, ((ls.foldl Index.addFootnote Index.new).footnotes.lookup l) =
      ((firstOccurrences ls).idxOf? l).map (· + 1)) ∧
    (ls.foldl Index.addFootnote Index.new).last = (firstOccurrences ls).length + 1 := by
  suffices ∀ r : List Str, ∀ ls, ls = r.reverse → (∀ l, ((ls.foldl Index.addFootnote Index.new).footnotes.lookup l) =
      ((firstOccurrences ls).idxOf? l).map (· + 1)) ∧
      (ls.foldl Index.addFootnote Index.new).last = (firstOccurrences ls).length + 1 from
    this ls.reverse ls (by simp)
  clear ls
  intro r
  induction r with
  | nil =>
    intro ls e
    subst e
    exact ⟨fun l => rfl, rfl⟩
  | cons a r ih =>
    intro ls e
    rw [List.reverse_cons] at e
    obtain ⟨h1, h2⟩ := ih r.reverse rfl
    subst e
    rw [List.foldl_append, List.foldl_cons, List.foldl_nil, firstOccurrences_snoc]
    generalize hp : r.reverse.foldl Index.addFootnote Index.new = ix at *
    unfold Index.addFootnote
    by_cases hm : a ∈ r.reverse
    · have : ix.footnotes.lookup a ≠ none := by
        rw [h1]
        simp only [ne_eq, Option.map_eq_none_iff, idxOf?_eq_none', mem_firstOccurrences, hm,
          not_true_eq_false, not_false_eq_true]
      cases hx : ix.footnotes.lookup a with
      | none => exact absurd hx this
      | some n => simp only [hm, if_true]; exact ⟨h1, h2⟩
    · have hnone : ix.footnotes.lookup a = none := by
        rw [h1]
        simp only [Option.map_eq_none_iff, idxOf?_eq_none', mem_firstOccurrences, hm,
          not_false_eq_true]
      simp only [hnone, hm, if_false]
      refine ⟨fun l => ?_, by simp [h2]⟩
      rw [idxOf?_snoc _ _ _ (by rw [mem_firstOccurrences]; exact hm)]
      by_cases hl : l = a
      · subst hl; simp [h2]
      · have : (l == a) = false := by simpa using hl
        simp only [List.lookup, this, hl, if_false, h1]

/-- The renderer's footnote table is the specification's numbering. -/
theorem footnoteIndex_eq (cfg : Config) (d : Document) (l : Str) :
    (State.new cfg d).getFootnoteIndex l = footnoteNumber d l := by
  simp only [State.getFootnoteIndex, State.new, getIndices_eq, ext, footnoteNumber]
  exact (fold_numbers _).1 l

theorem lookup_eq_find? {α β : Type} [BEq α] [LawfulBEq α] [DecidableEq α] (l : List (α × β)) (a : α) :
    l.lookup a = (l.find? fun e => e.1 = a).map (·.2) := by
  induction l with
  | nil => rfl
  | cons e l ih =>
    obtain ⟨x, y⟩ := e
    by_cases h : x = a
    · subst h; simp
    · have h' : (a == x) = false := by simpa using Ne.symm h
      simp only [List.lookup, h', List.find?_cons, h, decide_false, ih]

/-- The renderer's table of link definitions is the specification's. -/
theorem linkDefinition_eq (cfg : Config) (d : Document) (l : List Inline) :
    (State.new cfg d).getLinkDefinition l = lastDefinition d l := by
  simp only [State.getLinkDefinition, State.new, getIndices_eq, ext, lastDefinition,
    linkDefinitions_eq, Index.new, List.append_nil]
  rw [lookup_eq_find?]

/-- **C24.** Numbers are given exactly to the labels referenced directly from a block; they are
`1..n` without gaps or repetitions, in order of first reference. -/
theorem C24_bijection (d : Document) :
    (∀ l, footnoteNumber d l ≠ none ↔ l ∈ directRefs d) ∧
    (∀ l l' n, footnoteNumber d l = some n → footnoteNumber d l' = some n → l = l') ∧
    (∃ n, ∀ k, (∃ l, footnoteNumber d l = some k) ↔ 1 ≤ k ∧ k ≤ n) := by
  have hget : ∀ l n, footnoteNumber d l = some n ↔
      1 ≤ n ∧ (firstOccurrences (directRefs d))[n - 1]? = some l := by
    intro l n
    simp only [footnoteNumber, Option.map_eq_some_iff, List.idxOf?, List.findIdx?_eq_some_iff_getElem]
    constructor
    · rintro ⟨k, ⟨hk, h1, h2⟩, rfl⟩
      refine ⟨by omega, ?_⟩
      simp only [Nat.add_sub_cancel]
      rw [List.getElem?_eq_getElem hk]
      simpa using h1
    · rintro ⟨h1, h2⟩
      obtain ⟨hk, he⟩ := List.getElem?_eq_some_iff.1 h2
      refine ⟨n - 1, ⟨hk, by simpa using he, ?_⟩, by omega⟩
      intro j hj
      have hnd := nodup_firstOccurrences (directRefs d)
      simp only [beq_iff_eq, Bool.not_eq_true, Bool.not_eq_eq_eq_not, Bool.not_true,
        beq_eq_false_iff_ne, ne_eq]
      intro e
      exact absurd (e.trans he.symm)
        ((List.pairwise_iff_getElem.1 hnd) j (n - 1) (by omega) hk hj)
  refine ⟨fun l => ?_, fun l l' n h h' => ?_, (firstOccurrences (directRefs d)).length, fun k => ?_⟩
  · rw [footnoteNumber, ne_eq, Option.map_eq_none_iff, idxOf?_eq_none', mem_firstOccurrences,
      Decidable.not_not]
  · have a := ((hget l n).1 h).2
    have b := ((hget l' n).1 h').2
    rw [a] at b
    exact Option.some.inj b
  · constructor
    · rintro ⟨l, hl⟩
      obtain ⟨h1, h2⟩ := (hget l k).1 hl
      obtain ⟨hk, _⟩ := List.getElem?_eq_some_iff.1 h2
      omega
    · rintro ⟨h1, h2⟩
      exact ⟨_, (hget _ k).2 ⟨h1, List.getElem?_eq_getElem (by omega)⟩⟩

/-- **C24.** Numbers follow the order of first reference. -/
theorem C24_order (d : Document) (pre post : List Str) (l : Str)
    (h : directRefs d = pre ++ l :: post) (hl : l ∉ pre) :
    footnoteNumber d l = some ((firstOccurrences pre).length + 1) := by
  have key : ∀ (pre : List Str) (L : List Str), l ∉ pre → (∃ q, L = pre ++ l :: q) →
      (firstOccurrences L).idxOf? l = some (firstOccurrences pre).length := by
    intro pre L hp hq
    obtain ⟨q, rfl⟩ := hq
    suffices ∀ r : List Str, (firstOccurrences (pre ++ l :: r.reverse)).idxOf? l =
        some (firstOccurrences pre).length by simpa using this q.reverse
    intro r
    induction r with
    | nil =>
      rw [List.reverse_nil, firstOccurrences_snoc, if_neg hp,
        idxOf?_snoc _ _ _ (by rwa [mem_firstOccurrences]), if_pos rfl]
    | cons a r ih =>
      have e : pre ++ l :: (a :: r).reverse = (pre ++ l :: r.reverse) ++ [a] := by simp
      rw [e, firstOccurrences_snoc]
      split
      · exact ih
      · rename_i ha
        rw [idxOf?_snoc _ _ _ (by rwa [mem_firstOccurrences]), if_neg, ih]
        rintro rfl
        apply ha; simp
  rw [footnoteNumber, key pre _ hl ⟨post, h⟩]; rfl

/-! ## C52 -/

/-- **C52.** What a reader sees in the HTML (tags removed, entities decoded) is exactly the text of
the document, in order, with every footnote reference and definition showing its number. -/
theorem C52_visible_text (dw : Str → Nat) (d : Document) (cfg : Config) (h : Clean d) (out : Str)
    (ho : renderHtml dw d cfg = some out) :
    visibleText out = blocksText (footnoteNumber d) (fun l => (lastDefinition d l).isSome) d.blocks := by
  rw [renderHtml_eq] at ho
  have := (block_shows _).2.2.1 _ h.nodeOK _ ho []
  rw [List.append_nil] at this
  rw [this, show visibleText [] = [] from rfl, List.append_nil]
  have e1 : (State.new cfg d).getFootnoteIndex = footnoteNumber d := funext (footnoteIndex_eq cfg d)
  have e2 : (fun l => ((State.new cfg d).getLinkDefinition l).isSome) =
      fun l => (lastDefinition d l).isSome := by
    funext l; rw [linkDefinition_eq]
  rw [e1, e2]

/-! ## C25, C27: what is part of the output -/

theorem Rendered.within {num : Str → Option Nat} {b c : Block} (h : Rendered num b c) :
    b.Within c := by
  induction h with
  | self => exact .self _
  | child c e he _ _ ih => exact .child _ _ _ he ih

theorem blocksStr_mem {st : State} {l : List Block} {s : Str} (h : blocksStr st l = some s) :
    ∀ b ∈ l, ∃ t, blockStr st b = some t ∧ t <:+: s := by
  induction l generalizing s with
  | nil => simp
  | cons b l ih =>
    simp only [blocksStr, Option.bind_eq_some_iff, Option.map_eq_some_iff] at h
    obtain ⟨x, hx, y, hy, rfl⟩ := h
    intro c hc
    rcases List.mem_cons.1 hc with rfl | hc
    · exact ⟨x, hx, (List.prefix_append x y).isInfix⟩
    · obtain ⟨t, ht, hi⟩ := ih hy c hc
      exact ⟨t, ht, hi.trans (List.suffix_append x y).isInfix⟩

theorem itemsStr_mem {st : State} {l : List ListItem} {s : Str} (h : itemsStr st l = some s) :
    ∀ b ∈ l, ∃ t, itemStr st b = some t ∧ t <:+: s := by
  induction l generalizing s with
  | nil => simp
  | cons b l ih =>
    simp only [itemsStr, Option.bind_eq_some_iff, Option.map_eq_some_iff] at h
    obtain ⟨x, hx, y, hy, rfl⟩ := h
    intro c hc
    rcases List.mem_cons.1 hc with rfl | hc
    · exact ⟨x, hx, (List.prefix_append x y).isInfix⟩
    · obtain ⟨t, ht, hi⟩ := ih hy c hc
      exact ⟨t, ht, hi.trans (List.suffix_append x y).isInfix⟩

theorem infix_element (n : Str) (a : List (Str × Str)) (s : Str) : s <:+: element n a s :=
  ⟨cs!"<" ++ n ++ a.flatMap attrStr ++ cs!">", cs!"</" ++ n ++ cs!">", by simp [element]⟩

theorem infix_append_left {a s t : Str} (h : a <:+: s) : a <:+: s ++ t :=
  h.trans (List.prefix_append s t).isInfix

theorem infix_append_right {a s t : Str} (h : a <:+: t) : a <:+: s ++ t :=
  h.trans (List.suffix_append s t).isInfix

theorem rendered_str {st : State} {num : Str → Option Nat}
    (hn : ∀ l, st.getFootnoteIndex l = num l) {b c : Block} (h : Rendered num b c) :
    ∀ s, blockStr st c = some s → ∃ t, blockStr st b = some t ∧ t <:+: s := by
  induction h with
  | self => intro s hs; exact ⟨s, hs, List.infix_refl s⟩
  | child c e he hc _ ih =>
    intro s hs
    suffices ∃ t, blockStr st e = some t ∧ t <:+: s by
      obtain ⟨t, ht, hi⟩ := this
      obtain ⟨u, hu, hj⟩ := ih t ht
      exact ⟨u, hu, hj.trans hi⟩
    cases c with
    | blockQuote bs =>
      simp only [blockStr, Option.map_eq_some_iff] at hs
      obtain ⟨t, ht, rfl⟩ := hs
      obtain ⟨u, hu, hi⟩ := blocksStr_mem ht e he
      exact ⟨u, hu, hi.trans (infix_element ..)⟩
    | list k items =>
      simp only [blockStr, Option.map_eq_some_iff] at hs
      obtain ⟨t, ht, rfl⟩ := hs
      simp only [Block.childBlocks, List.mem_flatMap] at he
      obtain ⟨i, hi, hei⟩ := he
      obtain ⟨u, hu, hui⟩ := itemsStr_mem ht i hi
      obtain ⟨ta, bs⟩ := i
      simp only [itemStr, Option.map_eq_some_iff] at hu
      obtain ⟨v, hv, rfl⟩ := hu
      obtain ⟨x, hx, hxi⟩ := blocksStr_mem hv e hei
      refine ⟨x, hx, (hxi.trans ?_).trans (hui.trans ?_)⟩
      · exact (infix_append_right (List.infix_refl v)).trans (infix_element ..)
      · cases k <;> exact infix_element ..
    | footnoteDefinition l bs =>
      have := hc l bs rfl
      simp only [blockStr, hn] at hs
      cases hnl : num l with
      | none => exact absurd hnl this
      | some n =>
        rw [hnl] at hs
        simp only [Option.map_eq_some_iff] at hs
        obtain ⟨t, ht, rfl⟩ := hs
        obtain ⟨u, hu, hi⟩ := blocksStr_mem ht e he
        exact ⟨u, hu, hi.trans ((infix_element ..).trans
          ((infix_append_right (List.infix_refl _)).trans (infix_element ..)))⟩
    | githubAlert ty bs =>
      simp only [blockStr, Option.map_eq_some_iff] at hs
      obtain ⟨t, ht, rfl⟩ := hs
      obtain ⟨u, hu, hi⟩ := blocksStr_mem ht e he
      exact ⟨u, hu, hi.trans ((infix_append_right (List.infix_refl _)).trans (infix_element ..))⟩
    | _ => simp [Block.childBlocks] at he

theorem renderedIn_str {dw : Str → Nat} {d : Document} {cfg : Config} {out : Str}
    (ho : renderHtml dw d cfg = some out) {b : Block} (h : RenderedIn d b) :
    ∃ t, blockStr (State.new cfg d) b = some t ∧ t <:+: out := by
  rw [renderHtml_eq] at ho
  obtain ⟨c, hc, hr⟩ := h
  obtain ⟨t, ht, hi⟩ := blocksStr_mem ho c hc
  obtain ⟨u, hu, hj⟩ := rendered_str (footnoteIndex_eq cfg d) hr t ht
  exact ⟨u, hu, hj.trans hi⟩

theorem inlinesStr_mem (st : State) (l : List Inline) : ∀ i ∈ l, inlineStr st i <:+: inlinesStr st l := by
  induction l with
  | nil => simp
  | cons j l ih =>
    intro i hi
    rcases List.mem_cons.1 hi with rfl | hi
    · exact (List.prefix_append _ _).isInfix
    · exact infix_append_right (ih i hi)

theorem cellsStr_mem (st : State) (n : Str) (al : List Alignment) (row : List (List Inline)) :
    ∀ k, ∀ c ∈ row, inlinesStr st c <:+: cellsStr st n al k row := by
  induction row with
  | nil => simp
  | cons c row ih =>
    intro k e he
    rcases List.mem_cons.1 he with rfl | he
    · exact infix_append_left (infix_element ..)
    · exact infix_append_right (ih _ e he)

theorem flatMap_infix {α : Type} (f : α → Str) (l : List α) : ∀ a ∈ l, f a <:+: l.flatMap f := by
  induction l with
  | nil => simp
  | cons b l ih =>
    intro a ha
    rw [List.flatMap_cons]
    rcases List.mem_cons.1 ha with rfl | ha
    · exact infix_append_left (List.infix_refl _)
    · exact infix_append_right (ih a ha)

/-- **C24 / C25 (partial).** Every footnote reference standing directly in a rendered paragraph,
heading or table cell is rendered as a link showing its label's number.  (For references nested
inside emphasis, links, ... this is false: `C25_refuted`.) -/
theorem C25_direct_reference_partial (dw : Str → Nat) (d : Document) (cfg : Config) (out : Str)
    (ho : renderHtml dw d cfg = some out) (b : Block) (hb : RenderedIn d b)
    (hnd : ∀ l dest t, b ≠ .definition l dest t) (l : Str)
    (hl : .footnoteReference l ∈ b.directInlines) :
    ∃ n href, footnoteNumber d l = some n ∧
      decode (decode href) = '#' :: (cfg.anchorPrefix ++ decimal n) ∧
      cs!"<a class=\"markdown-footnote-reference\" href=\"" ++ href ++ cs!"\">[" ++ decimal n ++
        cs!"]</a>" <:+: out := by
  have hmem : l ∈ directRefs d := by
    refine List.mem_flatMap.2 ⟨b, ?_, List.mem_filterMap.2 ⟨_, hl, rfl⟩⟩
    rw [Document.mem_allBlocks]
    obtain ⟨c, hc, hr⟩ := hb
    exact ⟨c, hc, hr.within⟩
  have hne := ((C24_bijection d).1 l).2 hmem
  obtain ⟨n, hn⟩ := Option.ne_none_iff_exists'.1 hne
  obtain ⟨t, ht, hi⟩ := renderedIn_str ho hb
  refine ⟨n, escape (escape ('#' :: (cfg.anchorPrefix ++ natStr n))), hn, ?_, ?_⟩
  · rw [C20_decode_escape, C20_decode_escape]; rfl
  · refine List.IsInfix.trans ?_ hi
    have hst : inlineStr (State.new cfg d) (.footnoteReference l) =
        cs!"<a class=\"markdown-footnote-reference\" href=\"" ++
          escape (escape ('#' :: (cfg.anchorPrefix ++ natStr n))) ++ cs!"\">[" ++ decimal n ++
          cs!"]</a>" := by
      simp only [inlineStr, footnoteIndex_eq, hn]
      simp only [element, outAttrs, List.map_cons, List.map_nil, List.flatMap_cons, List.flatMap_nil,
        attrStr, List.append_assoc, List.cons_append, List.nil_append, List.append_nil]
      have : escape cs!"markdown-footnote-reference" = cs!"markdown-footnote-reference" := by decide
      rw [this]
      rfl
    rw [← hst]
    cases b with
    | paragraph c =>
      simp only [blockStr, Option.some.injEq] at ht
      subst ht
      exact (inlinesStr_mem _ _ _ hl).trans (infix_element ..)
    | heading k c =>
      simp only [blockStr, Option.some.injEq] at ht
      subst ht
      exact (inlinesStr_mem _ _ _ hl).trans (infix_element ..)
    | table rows al =>
      simp only [Block.directInlines, List.mem_flatten] at hl
      obtain ⟨cell, ⟨row, hrow, hcell⟩, hl⟩ := hl
      have h1 : ∀ n, inlineStr (State.new cfg d) (.footnoteReference l) <:+:
          rowStr (State.new cfg d) row n al := fun n =>
        (inlinesStr_mem _ _ _ hl).trans ((cellsStr_mem _ n al row 0 cell hcell).trans (infix_element ..))
      cases rows with
      | nil => simp at hrow
      | cons r rows =>
        simp only [blockStr, tableStr, Option.some.injEq] at ht
        subst ht
        refine List.IsInfix.trans ?_ (infix_element ..)
        rcases List.mem_cons.1 hrow with rfl | hrow
        · exact infix_append_left ((h1 _).trans (infix_element ..))
        · exact infix_append_right (((h1 _).trans
            (flatMap_infix (fun r => rowStr (State.new cfg d) r cs!"td" al) rows row hrow)).trans
              (infix_element ..))
    | definition l' dest t' => exact absurd rfl (hnd l' dest t')
    | _ => simp [Block.directInlines] at hl

/-- **C24.** A rendered footnote definition with a number starts by showing that number: the same
number its references show. -/
theorem C24_definition (dw : Str → Nat) (d : Document) (cfg : Config) (out : Str)
    (ho : renderHtml dw d cfg = some out) (l : Str) (bs : List Block)
    (hb : RenderedIn d (.footnoteDefinition l bs)) (n : Nat) (hn : footnoteNumber d l = some n) :
    cs!"<div class=\"markdown-footnote-definition\"><span class=\"markdown-footnote-definition-index\">" ++
      decimal n ++ cs!". </span>" <:+: out := by
  obtain ⟨t, ht, hi⟩ := renderedIn_str ho hb
  simp only [blockStr, footnoteIndex_eq, hn, Option.map_eq_some_iff] at ht
  obtain ⟨u, _, rfl⟩ := ht
  refine List.IsInfix.trans ?_ hi
  have e1 : escape cs!"markdown-footnote-definition" = cs!"markdown-footnote-definition" := by decide
  have e2 : escape cs!"markdown-footnote-definition-index" =
    cs!"markdown-footnote-definition-index" := by decide
  refine List.IsPrefix.isInfix ⟨cs!"<span class=\"markdown-footnote-definition-content\">" ++
    (u ++ cs!"</span></div>"), ?_⟩
  have e3 : escape cs!"markdown-footnote-definition-content" =
    cs!"markdown-footnote-definition-content" := by decide
  simp only [footnoteStr, element, outAttrs, List.map_cons, List.map_nil, List.flatMap_cons,
    List.flatMap_nil, attrStr, List.append_assoc, List.cons_append, List.nil_append,
    List.append_nil, e1, e2, e3, decimal, natStr]

/-- **C25 is false**: a footnote reference inside emphasis is not rendered at all, although its
footnote is defined in the document. -/
theorem C25_refuted : ∃ (d : Document) (l : Str), d.HasInline (.footnoteReference l) ∧
    (∃ bs, d.HasBlock (.footnoteDefinition l bs)) ∧
    renderHtml List.length d Config.default = some cs!"<p>x<em></em></p>" := by
  refine ⟨⟨[.paragraph [.text cs!"x", .emphasis [.footnoteReference cs!"a"]],
    .footnoteDefinition cs!"a" [.paragraph [.text cs!"note"]]]⟩, cs!"a", ?_, ?_, by decide⟩
  · rw [← Document.mem_allInlines]; decide
  · exact ⟨_, (Document.mem_allBlocks _ _).1 (by simp [Document.allBlocks, Block.preL, Block.pre]; rfl)⟩

/-- The hypotheses of `C25_direct_reference_partial` and `C24_definition` are met. -/
example : renderHtml List.length ⟨[.paragraph [.footnoteReference cs!"b", .footnoteReference cs!"a"],
      .footnoteDefinition cs!"a" [.paragraph [.text cs!"n"]]]⟩ Config.default =
    some cs!"<p><a class=\"markdown-footnote-reference\" href=\"#1\">[1]</a><a class=\"markdown-footnote-reference\" href=\"#2\">[2]</a></p><div class=\"markdown-footnote-definition\"><span class=\"markdown-footnote-definition-index\">2. </span><span class=\"markdown-footnote-definition-content\"><p>n</p></span></div>" := by
  decide +kernel

/-! ## C27 -/

theorem block_panics {st : State} {num : Str → Option Nat}
    (hn : ∀ l, st.getFootnoteIndex l = num l) :
    (∀ b, blockStr st b = none → ∃ al, Rendered num (.table [] al) b) ∧
    (∀ i, itemStr st i = none → ∃ b ∈ ListItem.blocks i, ∃ al, Rendered num (.table [] al) b) ∧
    (∀ l, blocksStr st l = none → ∃ b ∈ l, ∃ al, Rendered num (.table [] al) b) ∧
    (∀ l, itemsStr st l = none →
      ∃ b ∈ l.flatMap ListItem.blocks, ∃ al, Rendered num (.table [] al) b) := by
  apply Block.ind
  case table =>
    intro rows al h
    cases rows with
    | nil => exact ⟨al, .self _⟩
    | cons r rows => simp [blockStr, tableStr] at h
  case blockQuote =>
    intro b ih h
    simp only [blockStr, Option.map_eq_none_iff] at h
    obtain ⟨c, hc, al, hr⟩ := ih h
    exact ⟨al, .child _ _ c hc (by simp) hr⟩
  case list =>
    intro k b ih h
    simp only [blockStr, Option.map_eq_none_iff] at h
    obtain ⟨c, hc, al, hr⟩ := ih h
    exact ⟨al, .child _ _ c hc (by simp) hr⟩
  case githubAlert =>
    intro k b ih h
    simp only [blockStr, Option.map_eq_none_iff] at h
    obtain ⟨c, hc, al, hr⟩ := ih h
    exact ⟨al, .child _ _ c hc (by simp) hr⟩
  case footnoteDefinition =>
    intro l b ih h
    simp only [blockStr, hn] at h
    cases e : num l with
    | none => simp [e] at h
    | some n =>
      simp only [e, Option.map_eq_none_iff] at h
      obtain ⟨c, hc, al, hr⟩ := ih h
      refine ⟨al, .child _ _ c hc ?_ hr⟩
      intro l' bs e'
      cases e'
      simp [e]
  case item =>
    intro t b ih h
    simp only [itemStr, Option.map_eq_none_iff] at h
    exact ih h
  case nilB => intro h; simp [blocksStr] at h
  case nilI => intro h; simp [itemsStr] at h
  case consB =>
    intro b l hb hl h
    simp only [blocksStr, Option.bind_eq_none_iff, Option.map_eq_none_iff] at h
    cases e : blockStr st b with
    | none => obtain ⟨al, hr⟩ := hb e; exact ⟨b, by simp, al, hr⟩
    | some s =>
      obtain ⟨c, hc, r⟩ := hl (h s e)
      exact ⟨c, by simp [hc], r⟩
  case consI =>
    intro b l hb hl h
    simp only [itemsStr, Option.bind_eq_none_iff, Option.map_eq_none_iff] at h
    cases e : itemStr st b with
    | none =>
      obtain ⟨c, hc, r⟩ := hb e
      exact ⟨c, by simp [hc], r⟩
    | some s =>
      obtain ⟨c, hc, r⟩ := hl (h s e)
      exact ⟨c, by simp only [List.flatMap_cons, List.mem_append]; exact Or.inr hc, r⟩
  all_goals intros; simp_all [blockStr]

/-- **C27.** `render_html` panics exactly when a table without rows is part of the output. -/
theorem C27_panics_iff (dw : Str → Nat) (d : Document) (cfg : Config) :
    renderHtml dw d cfg = none ↔ ∃ al, RenderedIn d (.table [] al) := by
  constructor
  · intro h
    rw [renderHtml_eq] at h
    obtain ⟨b, hb, al, hr⟩ := (block_panics (footnoteIndex_eq cfg d)).2.2.1 _ h
    exact ⟨al, b, hb, hr⟩
  · rintro ⟨al, hr⟩
    cases h : renderHtml dw d cfg with
    | none => rfl
    | some out =>
      obtain ⟨t, ht, _⟩ := renderedIn_str h hr
      simp [blockStr, tableStr] at ht

/-- **C27.** No panic if every table has a row. -/
theorem C27_total (dw : Str → Nat) (d : Document) (cfg : Config)
    (h : ∀ al, ¬ d.HasBlock (.table [] al)) : ∃ out, renderHtml dw d cfg = some out := by
  cases e : renderHtml dw d cfg with
  | some out => exact ⟨out, rfl⟩
  | none =>
    obtain ⟨al, c, hc, hr⟩ := (C27_panics_iff dw d cfg).1 e
    exact absurd ⟨c, hc, hr.within⟩ (h al)

example : renderHtml List.length ⟨[.blockQuote [.table [] []]]⟩ Config.default = none := by decide
example : renderHtml List.length
    ⟨[.footnoteDefinition cs!"unused" [.table [] []]]⟩ Config.default = some [] := by decide

/-! ## C26 -/

theorem refs_resolve (defs : List Inline → Option (Str × Option Str)) (l : List Inline) :
    (resolveInlines defs l).filterMap refLabel = l.filterMap refLabel := by
  induction l with
  | nil => rfl
  | cons i l ih =>
    simp only [resolveInlines, List.filterMap_cons, ih]
    cases i with
    | linkReference a b =>
      simp only [resolveInline]
      cases defs a <;> rfl
    | _ => rfl

theorem refs_flatten (f : List Inline → List Inline) (hf : ∀ l, (f l).filterMap refLabel =
    l.filterMap refLabel) (rows : List (List Inline)) :
    (rows.map f).flatten.filterMap refLabel = rows.flatten.filterMap refLabel := by
  induction rows with
  | nil => rfl
  | cons r rows ih =>
    simp only [List.map_cons, List.flatten_cons, List.filterMap_append, ih, hf]

theorem block_resolve_pre (defs : List Inline → Option (Str × Option Str)) :
    (∀ b, refsOf (resolveBlock defs b).pre = refsOf b.pre ∧
      (resolveBlock defs b).pre.filterMap asDef = b.pre.filterMap asDef) ∧
    (∀ b, refsOf (resolveItem defs b).pre = refsOf b.pre ∧
      (resolveItem defs b).pre.filterMap asDef = b.pre.filterMap asDef) ∧
    (∀ b, refsOf (Block.preL (resolveBlocks defs b)) = refsOf (Block.preL b) ∧
      (Block.preL (resolveBlocks defs b)).filterMap asDef = (Block.preL b).filterMap asDef) ∧
    (∀ b, refsOf (ListItem.preL (resolveItems defs b)) = refsOf (ListItem.preL b) ∧
      (ListItem.preL (resolveItems defs b)).filterMap asDef = (ListItem.preL b).filterMap asDef) := by
  have hcons : ∀ b l, refsOf (b :: l) = b.directInlines.filterMap refLabel ++ refsOf l := by
    intros; simp [refsOf]
  have hnil : refsOf [] = [] := rfl
  apply Block.ind
  case table =>
    intro rows al
    refine ⟨?_, rfl⟩
    simp only [resolveBlock, Block.pre, hcons, hnil, List.append_nil, Block.directInlines]
    have : (rows.map fun r => r.map (resolveInlines defs)).flatten =
        rows.flatten.map (resolveInlines defs) := by
      rw [List.map_flatten]
    rw [this, refs_flatten _ (refs_resolve defs)]
  case paragraph =>
    intro c
    refine ⟨?_, rfl⟩
    simp only [resolveBlock, Block.pre, hcons, hnil, Block.directInlines, refs_resolve]
  case heading =>
    intro k c
    refine ⟨?_, rfl⟩
    simp only [resolveBlock, Block.pre, hcons, hnil, Block.directInlines, refs_resolve]
  case nilB => exact ⟨rfl, rfl⟩
  case nilI => exact ⟨rfl, rfl⟩
  case consB =>
    intro b l hb hl
    simp only [resolveBlocks, Block.preL, refsOf_append, List.filterMap_append, hb, hl, and_self]
  case consI =>
    intro b l hb hl
    simp only [resolveItems, ListItem.preL, refsOf_append, List.filterMap_append, hb, hl, and_self]
  case item => intro t b ih; simpa only [resolveItem, ListItem.pre] using ih
  case blockQuote =>
    intro b ih
    simp only [resolveBlock, Block.pre, hcons, List.filterMap_cons, asDef, ih, Block.directInlines, and_self]
  case list =>
    intro k b ih
    simp only [resolveBlock, Block.pre, hcons, List.filterMap_cons, asDef, ih, Block.directInlines, and_self]
  case footnoteDefinition =>
    intro k b ih
    simp only [resolveBlock, Block.pre, hcons, List.filterMap_cons, asDef, ih, Block.directInlines, and_self]
  case githubAlert =>
    intro k b ih
    simp only [resolveBlock, Block.pre, hcons, List.filterMap_cons, asDef, ih, Block.directInlines, and_self]
  all_goals intros; exact ⟨rfl, rfl⟩

theorem inline_resolve (st : State) (defs : List Inline → Option (Str × Option Str))
    (h : ∀ l, st.getLinkDefinition l = defs l) :
    (∀ i, inlineStr st (resolveInline defs i) = inlineStr st i) ∧
    (∀ l, inlinesStr st (resolveInlines defs l) = inlinesStr st l) := by
  apply Inline.ind
  case linkReference =>
    intro l t _ ih
    simp only [resolveInline, inlineStr, h]
    cases defs l with
    | none => rfl
    | some x => simp only [inlineStr, ih]
  case cons => intro i l hi hl; simp only [resolveInlines, inlinesStr, hi, hl]
  case nil => rfl
  all_goals intros; simp only [resolveInline, inlineStr, *]

theorem cells_resolve (st : State) (defs : List Inline → Option (Str × Option Str))
    (h : ∀ l, st.getLinkDefinition l = defs l) (n : Str) (al : List Alignment)
    (row : List (List Inline)) : ∀ k, cellsStr st n al k (row.map (resolveInlines defs)) =
      cellsStr st n al k row := by
  induction row with
  | nil => intro k; rfl
  | cons c row ih =>
    intro k
    simp only [List.map_cons, cellsStr, ih, (inline_resolve st defs h).2]

theorem block_resolve (st : State) (defs : List Inline → Option (Str × Option Str))
    (h : ∀ l, st.getLinkDefinition l = defs l) :
    (∀ b, blockStr st (resolveBlock defs b) = blockStr st b) ∧
    (∀ b, itemStr st (resolveItem defs b) = itemStr st b) ∧
    (∀ b, blocksStr st (resolveBlocks defs b) = blocksStr st b) ∧
    (∀ b, itemsStr st (resolveItems defs b) = itemsStr st b) := by
  apply Block.ind
  case table =>
    intro rows al
    simp only [resolveBlock, blockStr]
    cases rows with
    | nil => rfl
    | cons r rows =>
      simp only [List.map_cons, tableStr, rowStr, cells_resolve st defs h, List.flatMap_map]
  all_goals
    intros
    simp only [resolveBlock, resolveItem, resolveBlocks, resolveItems, blockStr, itemStr, blocksStr,
      itemsStr, (inline_resolve st defs h).2, *]

/-- **C26.** Reference links render exactly as the links they stand for: rendering a document gives
the same HTML as rendering it with every reference replaced by a link with the destination and title of
the last definition having an equal label, and by nothing if there is none. -/
theorem C26_references_resolved (dw : Str → Nat) (d : Document) (cfg : Config) :
    renderHtml dw d cfg = renderHtml dw ⟨resolveBlocks (lastDefinition d) d.blocks⟩ cfg := by
  have hst : State.new cfg ⟨resolveBlocks (lastDefinition d) d.blocks⟩ = State.new cfg d := by
    have e := (block_resolve_pre (lastDefinition d)).2.2.1 d.blocks
    simp only [State.new, getIndices_eq, ext, e]
  rw [renderHtml_eq, renderHtml_eq, hst,
    (block_resolve _ _ (linkDefinition_eq cfg d)).2.2.1]

/-- The first of two definitions with the same label is ignored; an undefined reference vanishes. -/
example : renderHtml List.length ⟨[.paragraph [.linkReference [.text cs!"x"] [.text cs!"t"],
      .linkReference [.text cs!"y"] [.text cs!"u"]],
      .definition [.text cs!"x"] cs!"one" none, .blockQuote [.definition [.text cs!"x"] cs!"two" none]]⟩
      Config.default = some cs!"<p><a href=\"two\">t</a></p><blockquote></blockquote>" := by decide

/-- `Clean` is met by a document with every text character class, and the output is as expected. -/
example : Clean ⟨[.paragraph [.text cs!"<b>&", .code cs!"x<y"], .githubAlert (.custom cs!"Bug") []]⟩ := by
  constructor
  · intro s h; rw [← Document.mem_allBlocks] at h; simp [Document.allBlocks, Block.preL, Block.pre] at h
  · intro s h
    rw [← Document.mem_allInlines] at h
    simp [Document.allInlines, Document.allBlocks, Block.preL, Block.pre, Block.directInlines,
      Inline.preL, Inline.pre] at h
  · intro n b h
    rw [← Document.mem_allBlocks] at h
    simp [Document.allBlocks, Block.preL, Block.pre] at h
    rw [h.1]; decide

/-- In well-nested HTML there are as many `<` as `>`. -/
theorem WellNested.count {s : Str} (h : WellNested s) : s.count '<' = s.count '>' := by
  induction h with
  | nil => rfl
  | char c s h1 h2 _ ih =>
    simp [List.count_cons, ih, h1, h2]
  | element n attrs i s hn ha _ _ ih1 ih2 =>
    have hn1 : '<' ∉ n ∧ '>' ∉ n := by
      have : ∀ n ∈ elementNames, '<' ∉ n ∧ '>' ∉ n := by decide
      exact this n hn
    have hat : '<' ∉ attrs.flatMap attrStr ∧ '>' ∉ attrs.flatMap attrStr := by
      have : ∀ x, x = '<' ∨ x = '>' → x ∉ attrs.flatMap attrStr := by
        intro x hx hm
        simp only [List.mem_flatMap] at hm
        obtain ⟨⟨k, v⟩, hkv, hm⟩ := hm
        obtain ⟨g1, g2, g3, g4⟩ := ha _ hkv
        have hk : '<' ∉ k ∧ '>' ∉ k := by
          have : ∀ n ∈ attributeNames, '<' ∉ n ∧ '>' ∉ n := by decide
          exact this k g1
        simp only [attrStr, List.mem_cons, List.mem_append, List.not_mem_nil, or_false] at hm
        rcases hx with rfl | rfl
        · rcases hm with hm | ((hm | hm | hm) | hm) | hm
          · exact absurd hm (by decide)
          · exact hk.1 hm
          · exact absurd hm (by decide)
          · exact absurd hm (by decide)
          · exact g3 hm
          · exact absurd hm (by decide)
        · rcases hm with hm | ((hm | hm | hm) | hm) | hm
          · exact absurd hm (by decide)
          · exact hk.2 hm
          · exact absurd hm (by decide)
          · exact absurd hm (by decide)
          · exact g4 hm
          · exact absurd hm (by decide)
      exact ⟨this _ (Or.inl rfl), this _ (Or.inr rfl)⟩
    simp only [Html.element, List.count_append, List.count_eq_zero_of_not_mem hn1.1,
      List.count_eq_zero_of_not_mem hn1.2, List.count_eq_zero_of_not_mem hat.1,
      List.count_eq_zero_of_not_mem hat.2, ih1, ih2]
    simp [List.count_cons]

/-- Without the condition on alert names C21 fails: a custom alert name is not escaped. -/
theorem C21_alert_name_not_escaped : ∃ name out,
    renderHtml List.length ⟨[.githubAlert (.custom name) []]⟩ Config.default = some out ∧
    ¬ WellNested out := by
  refine ⟨cs!"<", _, rfl, fun h => ?_⟩
  exact absurd h.count (by decide +kernel)

end Html
end Verif
