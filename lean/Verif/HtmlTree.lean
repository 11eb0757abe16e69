import Verif.HtmlTreeSpec
import Verif.HtmlProps2
/-!
# The HTML output as a tree (C58)
-/
set_option linter.unusedVariables false
namespace Verif
namespace Html

theorem encode_eq (s : Str) : encode s = escape s := by
  unfold encode escape
  congr 1
  funext c
  by_cases h1 : c = '&'; · subst h1; rfl
  by_cases h2 : c = '<'; · subst h2; rfl
  by_cases h3 : c = '>'; · subst h3; rfl
  by_cases h4 : c = '"'; · subst h4; rfl
  by_cases h5 : c = '\''; · subst h5; rfl
  have : references.lookup c = none := by
    simp [references, List.lookup, beq_eq_false_iff_ne.2 h1, beq_eq_false_iff_ne.2 h2,
      beq_eq_false_iff_ne.2 h3, beq_eq_false_iff_ne.2 h4, beq_eq_false_iff_ne.2 h5]
  rw [this]
  simp only [Option.getD_none]
  unfold escapeChar
  split <;> simp_all

section
variable {P : Prop}

theorem Reads.append {a b : Str} {l m : List Node} (h : Reads P a l) (h' : Reads P b m) :
    Reads P (a ++ b) (l ++ m) := by
  induction h with
  | nil => exact h'
  | char c h1 h2 h3 _ ih => exact .char c h1 h2 h3 ih
  | reference c r hr _ ih => rw [List.append_assoc]; exact .reference c r hr ih
  | element n at' hn ha hi _ _ ih => rw [List.append_assoc]; exact .element n at' hn ha hi ih
  | raw h hp _ ih => rw [List.append_assoc]; exact .raw h hp ih

theorem Reads.escape (s : Str) : Reads P (escape s) (chars s) := by
  induction s with
  | nil => exact .nil
  | cons c s ih =>
    have : Html.escape (c :: s) = escapeChar c ++ Html.escape s := rfl
    rw [this]
    show Reads P _ (.char c :: chars s)
    by_cases h1 : c = '&'; · subst h1; exact .reference '&' _ (by decide) ih
    by_cases h2 : c = '<'; · subst h2; exact .reference '<' _ (by decide) ih
    by_cases h3 : c = '>'; · subst h3; exact .reference '>' _ (by decide) ih
    by_cases h4 : c = '"'; · subst h4; exact .reference '"' _ (by decide) ih
    by_cases h5 : c = '\''; · subst h5; exact .reference '\'' _ (by decide) ih
    have : escapeChar c = [c] := by unfold escapeChar; split <;> simp_all
    rw [this]
    exact .char c h2 h3 h1 ih

theorem Reads.plain {s : Str} (h1 : '<' ∉ s) (h2 : '>' ∉ s) (h3 : '&' ∉ s) :
    Reads P s (chars s) := by
  induction s with
  | nil => exact .nil
  | cons c s ih =>
    simp only [List.mem_cons, not_or] at h1 h2 h3
    exact .char c (Ne.symm h1.1) (Ne.symm h2.1) (Ne.symm h3.1) (ih h1.2 h2.2 h3.2)

theorem outAttrs_decode (a : List (Str × Str)) :
    (outAttrs a).map (fun a => (a.1, decode a.2)) = a := by
  induction a with
  | nil => rfl
  | cons e a ih => simp only [outAttrs, List.map_cons, C20_decode_escape] at ih ⊢; rw [ih]

theorem Reads.el {n : Str} {a : List (Str × Str)} {s : Str} {l : List Node} (hn : n ∈ elementNames)
    (ha : ∀ e ∈ a, e.1 ∈ attributeNames) (h : Reads P s l) :
    Reads P (Html.element n (outAttrs a) s) [.el n a l] := by
  have := Reads.element n (outAttrs a) hn (goodAttrs_out a ha) h .nil
  rwa [outAttrs_decode, List.append_nil] at this

theorem titleAttr_eq (t : Option Str) :
    (t.toList.map fun t => (cs!"title", encode t)) = titleAttr t := by
  cases t <;> simp [titleAttr, encode_eq]

theorem linkAttrs_eq (d : Str) (t : Option Str) :
    linkAttrs d t = (cs!"href", Html.escape d) :: titleAttr t := by
  rw [linkAttrs, titleAttr_eq, encode_eq]

/-- The context of the renderer. -/
def State.context (st : State) (icon : AlertType → Node) : Context :=
  ⟨st.getFootnoteIndex, st.getLinkDefinition, st.config.anchorPrefix, icon, titleNodes⟩

theorem inline_reads (st : State) (ic : AlertType → Node) :
    (∀ i, (∀ s, .html s ∈ Inline.pre i → P) →
      Reads P (inlineStr st i) (inlineNodes (st.context ic) i)) ∧
    (∀ l, (∀ s, .html s ∈ Inline.preL l → P) →
      Reads P (inlinesStr st l) (inlinesNodes (st.context ic) l)) := by
  apply Inline.ind
  case nil => intro _; exact .nil
  case cons =>
    intro i l hi hl h
    simp only [Inline.preL, List.mem_append] at h
    exact (hi fun s hs => h s (.inl hs)).append (hl fun s hs => h s (.inr hs))
  case text => intro s _; exact .escape s
  case lineBreak =>
    intro _; exact .el (n := cs!"br") (a := []) (by decide) (by simp) .nil
  case code => intro s _; exact .el (n := cs!"code") (a := []) (by decide) (by simp) (.escape s)
  case html =>
    intro s h
    have := Reads.raw (raws := P) s (h s (by simp [Inline.pre])) .nil
    rwa [List.append_nil] at this
  case link =>
    intro d t c ih h
    simp only [Inline.pre, List.mem_cons, reduceCtorEq, false_or] at h
    simp only [inlineStr, inlineNodes, linkAttrs_eq]
    exact .el (by decide) (names_cons (by decide) (titleAttr_names t)) (ih h)
  case linkReference =>
    intro l t _ ih h
    simp only [Inline.pre, List.mem_cons, reduceCtorEq, false_or, List.mem_append] at h
    simp only [inlineStr, inlineNodes, State.context]
    cases st.getLinkDefinition l with
    | none => exact .nil
    | some e =>
      obtain ⟨d, ti⟩ := e
      simp only [linkAttrs_eq]
      exact .el (by decide) (names_cons (by decide) (titleAttr_names _)) (ih fun s hs => h s (.inr hs))
  case image =>
    intro d t a _
    simp only [inlineStr, inlineNodes, titleAttr_eq]
    rw [encode_eq, encode_eq]
    exact .el (by decide) (names_cons (by decide) (names_cons (by decide) (titleAttr_names _))) .nil
  case emphasis =>
    intro c ih h
    simp only [Inline.pre, List.mem_cons, reduceCtorEq, false_or] at h
    exact .el (n := cs!"em") (a := []) (by decide) (by simp) (ih h)
  case strong =>
    intro c ih h
    simp only [Inline.pre, List.mem_cons, reduceCtorEq, false_or] at h
    exact .el (n := cs!"b") (a := []) (by decide) (by simp) (ih h)
  case strikethrough =>
    intro c ih h
    simp only [Inline.pre, List.mem_cons, reduceCtorEq, false_or] at h
    exact .el (n := cs!"s") (a := []) (by decide) (by simp) (ih h)
  case autolink =>
    intro s _
    simp only [inlineStr, inlineNodes, linkAttrs_eq, titleAttr]
    exact .el (by decide) (names_cons (by decide) names_nil) (.escape s)
  case footnoteReference =>
    intro l _
    simp only [inlineStr, inlineNodes, State.context]
    cases st.getFootnoteIndex l with
    | none => exact .nil
    | some n =>
      simp only [encode_eq]
      refine .el (by decide) (names_cons (by decide) (names_cons (by decide) names_nil)) ?_
      refine .plain ?_ ?_ ?_ <;>
      · simp only [List.mem_cons, List.mem_append, not_or]
        refine ⟨by decide, not_mem_natStr n (by decide), by decide⟩
  case empty => intro _; exact .nil

theorem cells_reads (st : State) (ic : AlertType → Node) (n : Str) (hn : n ∈ elementNames)
    (al : List Alignment) (row : List (List Inline)) (h : ∀ c ∈ row, ∀ s, .html s ∈ Inline.preL c → P) :
    ∀ k, Reads P (cellsStr st n al k row) (row.mapIdx fun i cell =>
      .el n [(cs!"class", alignClass (al[k + i]?.getD .left))] (inlinesNodes (st.context ic) cell)) := by
  induction row with
  | nil => intro k; exact .nil
  | cons c row ih =>
    intro k
    have ht := ih (fun c hc => h c (by simp [hc])) (k + 1)
    have hc := (inline_reads (P := P) st ic).2 c (h c (by simp))
    have ha : cs!"markdown-table-align-" ++ alignName al[k]? = alignClass (al[k]?.getD .left) := by
      rcases al[k]? with _ | ⟨⟨⟩⟩ <;> rfl
    simp only [cellsStr, List.mapIdx_cons, Nat.add_zero, ha]
    refine Reads.append (.el hn (names_cons (by decide) names_nil) hc) ?_
    have : (fun i (cell : List Inline) => Node.el n
        [(cs!"class", alignClass (al[k + (i + 1)]?.getD .left))] (inlinesNodes (st.context ic) cell)) =
        fun i cell => Node.el n
          [(cs!"class", alignClass (al[k + 1 + i]?.getD .left))] (inlinesNodes (st.context ic) cell) := by
      funext i cell
      rw [show k + (i + 1) = k + 1 + i by omega]
    rw [this]
    exact ht

theorem row_reads (st : State) (ic : AlertType → Node) (n : Str) (hn : n ∈ elementNames)
    (al : List Alignment) (row : List (List Inline)) (h : ∀ c ∈ row, ∀ s, .html s ∈ Inline.preL c → P) :
    Reads P (rowStr st row n al) [rowNode (st.context ic) n al row] := by
  have := cells_reads st ic n hn al row h 0
  simp only [Nat.zero_add] at this
  exact .el (n := cs!"tr") (a := []) (by decide) (by simp) this

theorem rows_reads (st : State) (ic : AlertType → Node) (n : Str) (hn : n ∈ elementNames)
    (al : List Alignment) (rows : List (List (List Inline)))
    (h : ∀ r ∈ rows, ∀ c ∈ r, ∀ s, .html s ∈ Inline.preL c → P) :
    Reads P (rows.flatMap fun r => rowStr st r n al) (rows.map (rowNode (st.context ic) n al)) := by
  induction rows with
  | nil => exact .nil
  | cons r rows ih =>
    rw [List.flatMap_cons, List.map_cons]
    exact (row_reads st ic n hn al r (h r (by simp))).append (ih fun r hr => h r (by simp [hr]))

theorem headingName_eq (k : HeadingKind) : headingName k = headingTag k := by
  rcases k with n | ⟨⟨⟩⟩
  · match n with
    | 0 => decide
    | 1 => decide
    | 2 => decide
    | 3 => decide
    | 4 => decide
    | 5 => decide
    | 6 => decide
    | n + 7 =>
      simp only [headingName]
      rw [if_neg (by omega)]
      rfl
  · rfl
  · rfl

/-- What the raw parts of a block need. -/
def NodeRaw (P : Prop) (b : Block) : Prop :=
  (∀ s, b = .htmlBlock s → P) ∧ (∀ s, .html s ∈ Inline.preL b.directInlines → P) ∧
  (∀ n bs, b = .githubAlert (.custom n) bs → '<' ∈ n ∨ '>' ∈ n ∨ '&' ∈ n → P)

theorem title_reads (t : AlertType) (h : ∀ n, t = .custom n → '<' ∈ n ∨ '>' ∈ n ∨ '&' ∈ n → P) :
    Reads P (alertTitle t) (titleNodes t) := by
  cases t with
  | custom n =>
    simp only [titleNodes]
    split
    · rename_i hn
      have := Reads.raw (raws := P) n (h n rfl hn) .nil
      rwa [List.append_nil] at this
    · rename_i hn
      simp only [not_or] at hn
      exact .plain hn.1 hn.2.1 hn.2.2
  | _ => exact .plain (by decide) (by decide) (by decide)

theorem block_reads (st : State) (ic : AlertType → Node) (hic : ∀ t, Reads P (svgIcon t) [ic t]) :
    (∀ b, (∀ c ∈ Block.pre b, NodeRaw P c) → ∀ s, blockStr st b = some s →
      Reads P s (blockNodes (st.context ic) b)) ∧
    (∀ i, (∀ c ∈ ListItem.pre i, NodeRaw P c) → ∀ s, itemStr st i = some s →
      Reads P s [itemNode (st.context ic) i]) ∧
    (∀ l, (∀ c ∈ Block.preL l, NodeRaw P c) → ∀ s, blocksStr st l = some s →
      Reads P s (blocksNodes (st.context ic) l)) ∧
    (∀ l, (∀ c ∈ ListItem.preL l, NodeRaw P c) → ∀ s, itemsStr st l = some s →
      Reads P s (itemsNodes (st.context ic) l)) := by
  apply Block.ind
  case paragraph =>
    intro c h s hs
    cases hs
    exact .el (n := cs!"p") (a := []) (by decide) (by simp)
      ((inline_reads st ic).2 c (h (.paragraph c) (by simp [Block.pre])).2.1)
  case heading =>
    intro k c h s hs
    cases hs
    simp only [blockNodes, headingName_eq]
    exact .el (a := []) (headingTag_mem k) (by simp)
      ((inline_reads st ic).2 c (h (.heading k c) (by simp [Block.pre])).2.1)
  case thematicBreak =>
    intro h s hs
    cases hs
    exact .el (n := cs!"hr") (a := []) (by decide) (by simp) .nil
  case blockQuote =>
    intro b ih h s hs
    simp only [blockStr, Option.map_eq_some_iff] at hs
    obtain ⟨t, ht, rfl⟩ := hs
    exact .el (n := cs!"blockquote") (a := []) (by decide) (by simp)
      (ih (fun c hc => h c (by simp [Block.pre, hc])) t ht)
  case list =>
    intro k b ih h s hs
    simp only [blockStr, Option.map_eq_some_iff] at hs
    obtain ⟨t, ht, rfl⟩ := hs
    have := ih (fun c hc => h c (by simp [Block.pre, hc])) t ht
    rcases k with n | ⟨⟨⟩⟩
    all_goals exact .el (by decide) (names_cons (by decide) names_nil) this
  case codeBlock =>
    intro k c h s hs
    cases hs
    exact .el (n := cs!"pre") (a := []) (by decide) (by simp)
      (.el (n := cs!"code") (a := []) (by decide) (by simp) (.escape c))
  case htmlBlock =>
    intro t h s hs
    cases hs
    have := Reads.raw (raws := P) t ((h (.htmlBlock t) (by simp [Block.pre])).1 t rfl) .nil
    rwa [List.append_nil] at this
  case definition => intro l d t h s hs; cases hs; exact .nil
  case empty => intro h s hs; cases hs; exact .nil
  case table =>
    intro rows al h s hs
    have hrow : ∀ r ∈ rows, ∀ c ∈ r, ∀ s, .html s ∈ Inline.preL c → P := by
      intro r hr c hc s hs
      refine (h (.table rows al) (by simp [Block.pre])).2.1 s ?_
      exact mem_preL_flatten (List.mem_flatten.2 ⟨r, hr, hc⟩) hs
    simp only [blockStr] at hs
    rcases rows with _ | ⟨r, rows⟩
    · simp [tableStr] at hs
    · simp only [tableStr, Option.some.injEq] at hs
      subst hs
      refine .el (n := cs!"table") (a := []) (by decide) (by simp) (Reads.append
        (l := [_]) (.el (n := cs!"thead") (a := []) (by decide) (by simp) ?_)
        (.el (n := cs!"tbody") (a := []) (by decide) (by simp) ?_))
      · exact row_reads st ic _ (by decide) al r (hrow r (by simp))
      · exact rows_reads st ic _ (by decide) al rows fun r hr => hrow r (by simp [hr])
  case footnoteDefinition =>
    intro l b ih h s hs
    simp only [blockStr] at hs
    simp only [blockNodes, State.context]
    cases hn : st.getFootnoteIndex l with
    | none => rw [hn] at hs; cases hs; exact .nil
    | some n =>
      rw [hn] at hs
      simp only [Option.map_eq_some_iff] at hs
      obtain ⟨t, ht, rfl⟩ := hs
      have := ih (fun c hc => h c (by simp [Block.pre, hc])) t ht
      refine .el (by decide) (names_cons (by decide) names_nil) (Reads.append (l := [_])
        (.el (by decide) (names_cons (by decide) names_nil) ?_)
        (.el (by decide) (names_cons (by decide) names_nil) this))
      refine .plain ?_ ?_ ?_ <;>
      · simp only [List.mem_append, not_or]
        exact ⟨not_mem_natStr n (by decide), by decide⟩
  case githubAlert =>
    intro ty b ih h s hs
    simp only [blockStr, Option.map_eq_some_iff] at hs
    obtain ⟨t, ht, rfl⟩ := hs
    have hb := ih (fun c hc => h c (by simp [Block.pre, hc])) t ht
    have hti := title_reads (P := P) ty fun n e =>
      (h (.githubAlert ty b) (by simp [Block.pre])).2.2 n b (by rw [e])
    have hcl : alertClasses ty = cs!"markdown-alert markdown-alert-" ++ alertKind ty := by
      cases ty <;> rfl
    simp only [alertStr, hcl]
    exact .el (by decide) (names_cons (by decide) names_nil) (Reads.append (l := [_])
      (.el (by decide) (names_cons (by decide) names_nil) ((hic ty).append hti)) hb)
  case item =>
    intro ta b ih h s hs
    simp only [itemStr, Option.map_eq_some_iff] at hs
    obtain ⟨t, ht, rfl⟩ := hs
    have hb := ih (fun c hc => h c (by simp [ListItem.pre, hc])) t ht
    refine .el (n := cs!"li") (a := []) (by decide) (by simp) (Reads.append ?_ hb)
    rcases ta with _ | (_ | _)
    · exact .nil
    · exact .el (by decide) (names_cons (by decide) names_nil)
        (.plain (by decide) (by decide) (by decide))
    · exact .el (by decide) (names_cons (by decide) names_nil)
        (.plain (by decide) (by decide) (by decide))
  case nilB => intro h s hs; cases hs; exact .nil
  case nilI => intro h s hs; cases hs; exact .nil
  case consB =>
    intro b l hb hl h s hs
    simp only [blocksStr, Option.bind_eq_some_iff, Option.map_eq_some_iff] at hs
    obtain ⟨a, ha, t, ht, rfl⟩ := hs
    exact (hb (fun c hc => h c (by simp [Block.preL, hc])) a ha).append
      (hl (fun c hc => h c (by simp [Block.preL, hc])) t ht)
  case consI =>
    intro b l hb hl h s hs
    simp only [itemsStr, Option.bind_eq_some_iff, Option.map_eq_some_iff] at hs
    obtain ⟨a, ha, t, ht, rfl⟩ := hs
    exact (hb (fun c hc => h c (by simp [ListItem.preL, hc])) a ha).append
      (hl (fun c hc => h c (by simp [ListItem.preL, hc])) t ht)

theorem svg_class (t : AlertType) :
    ((svgIcon t).drop 12).takeWhile (· != '"') = cs!"octicon octicon-" ++ iconKind t ++ cs!" mr-2" := by
  cases t with
  | custom l =>
    show ((svgIcon (.custom [])).drop 12).takeWhile (· != '"') =
      cs!"octicon octicon-" ++ iconKind (.custom []) ++ cs!" mr-2"
    decide +kernel
  | _ => decide +kernel

theorem takeWhile_stop {p : Char → Bool} {a b : Str} {c : Char} (h : ∀ x ∈ a, p x = true)
    (hc : p c = false) : (a ++ c :: b).takeWhile p = a := by
  induction a with
  | nil => simp [hc]
  | cons x a ih => simp [h x (by simp), ih fun y hy => h y (by simp [hy])]

theorem icon_reads (t : AlertType) : ∃ n, IsIcon t n ∧ Reads P (svgIcon t) [n] := by
  obtain ⟨c, d, e, hc, hd⟩ := svg_shape t
  have hcl : c = cs!"octicon octicon-" ++ iconKind t ++ cs!" mr-2" := by
    rw [← svg_class t, e]
    simp only [element, List.flatMap_cons, attrStr, List.append_assoc, List.cons_append,
      List.nil_append, List.drop_succ_cons, List.drop_zero]
    show c = (c ++ '"' :: _).takeWhile _
    rw [takeWhile_stop ?_ (by decide)]
    intro x hx
    have : x ≠ '"' := fun h => hc.2.1 (h ▸ hx)
    simpa using this
  have hdc : decode c = cs!"octicon octicon-" ++ iconKind t ++ cs!" mr-2" := by
    rw [hcl]
    cases t with
    | custom l => show decode (cs!"octicon octicon-" ++ cs!"info" ++ cs!" mr-2") = cs!"octicon octicon-info mr-2"; decide
    | _ => decide
  refine ⟨_, ⟨decode d, rfl⟩, ?_⟩
  rw [e]
  have hp := Reads.element (raws := P) cs!"path" [(cs!"d", d)] (by decide)
    (by intro a ha; rw [List.mem_singleton] at ha; exact ha ▸ hd) .nil .nil
  rw [List.append_nil] at hp
  have := Reads.element (raws := P) cs!"svg"
    [(cs!"class", c), (cs!"viewBox", cs!"0 0 16 16"), (cs!"version", cs!"1.1"),
     (cs!"width", cs!"16"), (cs!"height", cs!"16"), (cs!"aria-hidden", cs!"true")] (by decide)
    (by
      intro a ha
      simp only [List.mem_cons, List.not_mem_nil, or_false] at ha
      rcases ha with rfl | rfl | rfl | rfl | rfl | rfl
      · exact hc
      all_goals exact ⟨by show _ ∈ _; decide, by decide, by decide, by decide⟩) hp .nil
  rw [List.append_nil] at this
  simp only [List.map_cons, List.map_nil, hdc] at this
  exact this

end

/-- **C58.** The output of `render_html`, read as HTML, is the tree of the document: headings with
their level, lists with their kind and start, tables with their alignments, ...  Raw nodes are
needed only for documents that are not clean. -/
theorem C58_tree (dw : Str → Nat) (d : Document) (cfg : Config) (out : Str)
    (ho : renderHtml dw d cfg = some out) :
    ∃ icon, (∀ t, IsIcon t (icon t)) ∧
      Reads (¬ Clean d) out
        (blocksNodes ⟨footnoteNumber d, lastDefinition d, cfg.anchorPrefix, icon, titleNodes⟩ d.blocks) := by
  have hi : ∀ t, ∃ n, IsIcon t n ∧ Reads (¬ Clean d) (svgIcon t) [n] := icon_reads
  refine ⟨fun t => (hi t).choose, fun t => (hi t).choose_spec.1, ?_⟩
  rw [renderHtml_eq] at ho
  have e1 : (State.new cfg d).getFootnoteIndex = footnoteNumber d := funext (footnoteIndex_eq cfg d)
  have e2 : (State.new cfg d).getLinkDefinition = lastDefinition d := funext (linkDefinition_eq cfg d)
  have := (block_reads (P := ¬ Clean d) (State.new cfg d) (fun t => (hi t).choose)
    fun t => (hi t).choose_spec.2).2.2.1 d.blocks ?_ out ho
  · simp only [State.context, e1, e2] at this
    exact this
  · intro b hb
    refine ⟨fun s e hc => (hc.nodeOK b hb).1 s e, fun s hs hc => (hc.nodeOK b hb).2.1 s hs, ?_⟩
    intro n bs e hn hc
    have := (hc.nodeOK b hb).2.2 n bs e
    rcases hn with h | h | h
    · exact this.1 h
    · exact this.2.1 h
    · exact this.2.2 h

/-! ## Reading is unambiguous -/

theorem split_unique {c : Char} {a b x y : Str} (ha : c ∉ a) (hb : c ∉ b)
    (h : a ++ c :: x = b ++ c :: y) : a = b ∧ x = y := by
  induction a generalizing b with
  | nil =>
    cases b with
    | nil => exact ⟨rfl, (List.cons.inj h).2⟩
    | cons d b => simp only [List.nil_append, List.cons_append, List.cons.injEq] at h
                  exact absurd (by simp [h.1]) hb
  | cons e a ih =>
    cases b with
    | nil => simp only [List.nil_append, List.cons_append, List.cons.injEq] at h
             exact absurd (by simp [h.1]) ha
    | cons d b =>
      simp only [List.cons_append, List.cons.injEq] at h
      obtain ⟨h1, h2⟩ := ih (by simp_all) (by simp_all) h.2
      exact ⟨by rw [h.1, h1], h2⟩

theorem attrName_ok : ∀ k ∈ attributeNames, '=' ∉ k := by decide

theorem attrs_unique (a b : List (Str × Str)) (ha : ∀ e ∈ a, GoodAttr e) (hb : ∀ e ∈ b, GoodAttr e)
    {x y : Str} (h : a.flatMap attrStr ++ '>' :: x = b.flatMap attrStr ++ '>' :: y) :
    a = b ∧ x = y := by
  induction a generalizing b with
  | nil =>
    cases b with
    | nil => exact ⟨rfl, (List.cons.inj h).2⟩
    | cons e b => simp [attrStr] at h
  | cons e a ih =>
    cases b with
    | nil => simp [attrStr] at h
    | cons f b =>
      obtain ⟨k, v⟩ := e
      obtain ⟨k', v'⟩ := f
      have g1 := ha (k, v) (by simp)
      have g2 := hb (k', v') (by simp)
      simp only [List.flatMap_cons, attrStr, List.append_assoc, List.cons_append, List.nil_append,
        List.cons.injEq, true_and] at h
      obtain ⟨rfl, h2⟩ := split_unique (attrName_ok k g1.1) (attrName_ok k' g2.1) h
      simp only [List.cons.injEq, true_and] at h2
      obtain ⟨rfl, h3⟩ := split_unique g1.2.1 g2.2.1 h2
      obtain ⟨rfl, h4⟩ := ih b (fun e he => ha e (by simp [he])) (fun e he => hb e (by simp [he])) h3
      exact ⟨rfl, h4⟩

/-- The end of a name. -/
def Stops (s : Str) : Prop := s.head? = some ' ' ∨ s.head? = some '>'

theorem name_unique {a b x y : Str} (ha : ' ' ∉ a ∧ '>' ∉ a) (hb : ' ' ∉ b ∧ '>' ∉ b)
    (hx : Stops x) (hy : Stops y) (h : a ++ x = b ++ y) : a = b ∧ x = y := by
  induction a generalizing b with
  | nil =>
    cases b with
    | nil => exact ⟨rfl, h⟩
    | cons d b =>
      simp only [List.nil_append, List.cons_append] at h
      subst h
      rcases hx with hx | hx <;> simp only [List.head?_cons, Option.some.injEq] at hx <;> subst hx <;> simp at hb
  | cons e a ih =>
    cases b with
    | nil =>
      simp only [List.nil_append, List.cons_append] at h
      subst h
      rcases hy with hy | hy <;> simp only [List.head?_cons, Option.some.injEq] at hy <;> subst hy <;> simp at ha
    | cons d b =>
      simp only [List.cons_append, List.cons.injEq] at h
      obtain ⟨h1, h2⟩ := ih (by simp_all) (by simp_all) h.2
      exact ⟨by rw [h.1, h1], h2⟩

theorem elementName_ok : ∀ n ∈ elementNames, (' ' ∉ n ∧ '>' ∉ n) ∧ n.head? ≠ some '/' ∧ n ≠ [] := by
  decide

theorem attrs_stops (a : List (Str × Str)) (x : Str) : Stops (a.flatMap attrStr ++ '>' :: x) := by
  cases a with
  | nil => exact .inr rfl
  | cons e a => exact .inl rfl

/-- What may follow a sequence of nodes: nothing, or a closing tag. -/
def Closes (t : Str) : Prop := t = [] ∨ ∃ u, t = '<' :: '/' :: u

theorem Closes.not_cons {c : Char} {u : Str} (h : Closes (c :: u)) (hc : c ≠ '<') : False := by
  rcases h with h | ⟨v, h⟩
  · cases h
  · cases h; exact hc rfl

theorem Closes.not_element {n : Str} {a : List (Str × Str)} {i u : Str} (hn : n ∈ elementNames)
    (h : Closes (element n a i ++ u)) : False := by
  obtain ⟨-, h1, h2⟩ := elementName_ok n hn
  simp only [element, List.append_assoc, List.cons_append, List.nil_append] at h
  rcases h with h | ⟨v, h⟩
  · cases h
  · cases n with
    | nil => exact h2 rfl
    | cons c n =>
      simp only [List.cons_append, List.cons.injEq, true_and] at h
      exact h1 (by rw [h.1]; rfl)

theorem reference_head {c : Char} {r : Str} (h : (c, r) ∈ references) :
    ∃ u, r = '&' :: u := by
  simp only [references, List.mem_cons, Prod.mk.injEq, List.not_mem_nil, or_false] at h
  rcases h with ⟨-, rfl⟩ | ⟨-, rfl⟩ | ⟨-, rfl⟩ | ⟨-, rfl⟩ | ⟨-, rfl⟩ <;> exact ⟨_, rfl⟩

theorem reference_unique {c c' : Char} {r r' x y : Str} (h : (c, r) ∈ references)
    (h' : (c', r') ∈ references) (e : r ++ x = r' ++ y) : c = c' ∧ r = r' ∧ x = y := by
  simp only [references, List.mem_cons, Prod.mk.injEq, List.not_mem_nil, or_false] at h h'
  rcases h with ⟨rfl, rfl⟩ | ⟨rfl, rfl⟩ | ⟨rfl, rfl⟩ | ⟨rfl, rfl⟩ | ⟨rfl, rfl⟩ <;>
  rcases h' with ⟨rfl, rfl⟩ | ⟨rfl, rfl⟩ | ⟨rfl, rfl⟩ | ⟨rfl, rfl⟩ | ⟨rfl, rfl⟩ <;>
  simp_all

theorem Reads.unique {s : Str} {l : List Node} (h : Reads False s l) :
    ∀ {s' : Str} {l' : List Node} {t t' : Str}, Reads False s' l' → Closes t → Closes t' → s ++ t = s' ++ t' →
      s = s' ∧ l = l' := by
  induction h with
  | nil =>
    intro s' l' t t' h' ht ht' e
    rw [List.nil_append] at e
    subst e
    cases h' with
    | nil => exact ⟨rfl, rfl⟩
    | char c h1 h2 h3 h4 => exact (ht.not_cons h1).elim
    | reference c r hr h4 =>
      obtain ⟨u, rfl⟩ := reference_head hr
      exact (ht.not_cons (by decide)).elim
    | element n a hn ha hi hs => rw [List.append_assoc] at ht; exact (ht.not_element hn).elim
    | raw _ hp => exact hp.elim
  | char c h1 h2 h3 _ ih =>
    intro s' l' t t' h' ht ht' e
    cases h' with
    | nil => rw [List.nil_append] at e; subst e; exact (ht'.not_cons h1).elim
    | char c' _ _ _ h4 =>
      simp only [List.cons_append, List.cons.injEq] at e
      obtain ⟨rfl, e⟩ := e
      obtain ⟨rfl, rfl⟩ := ih h4 ht ht' e
      exact ⟨rfl, rfl⟩
    | reference c' r hr h4 =>
      obtain ⟨u, rfl⟩ := reference_head hr
      simp only [List.cons_append, List.cons.injEq] at e
      exact absurd e.1 h3
    | element n a hn ha hi hs =>
      simp only [Html.element, List.append_assoc, List.cons_append, List.nil_append,
        List.cons.injEq] at e
      exact absurd e.1 h1
    | raw _ hp => exact hp.elim
  | reference c r hr _ ih =>
    intro s' l' t t' h' ht ht' e
    obtain ⟨u, hu⟩ := reference_head hr
    cases h' with
    | nil => rw [List.nil_append] at e; subst e; subst hu; exact (ht'.not_cons (by decide)).elim
    | char c' _ _ h3 h4 =>
      subst hu
      simp only [List.cons_append, List.cons.injEq] at e
      exact absurd e.1.symm h3
    | reference c' r' hr' h4 =>
      rw [List.append_assoc, List.append_assoc] at e
      obtain ⟨rfl, rfl, e2⟩ := reference_unique hr hr' e
      obtain ⟨rfl, rfl⟩ := ih h4 ht ht' e2
      exact ⟨rfl, rfl⟩
    | element n a hn ha hi hs =>
      subst hu
      simp only [Html.element, List.append_assoc, List.cons_append, List.nil_append,
        List.cons.injEq] at e
      exact absurd e.1 (by decide)
    | raw _ hp => exact hp.elim
  | @element n a inner s children l hn ha _ _ ih1 ih2 =>
    intro s' l' t t' h' ht ht' e
    cases h' with
    | nil =>
      rw [List.nil_append, List.append_assoc] at e
      subst e
      exact (ht'.not_element hn).elim
    | char c' h1 _ _ h4 =>
      simp only [Html.element, List.append_assoc, List.cons_append, List.nil_append,
        List.cons.injEq] at e
      exact absurd e.1.symm h1
    | reference c' r hr h4 =>
      obtain ⟨u, rfl⟩ := reference_head hr
      simp only [Html.element, List.append_assoc, List.cons_append, List.nil_append,
        List.cons.injEq] at e
      exact absurd e.1 (by decide)
    | @element n' a' inner' s' children' l' hn' ha' hi' hs' =>
      simp only [Html.element, List.append_assoc, List.cons_append, List.nil_append,
        List.cons.injEq, true_and] at e
      obtain ⟨rfl, e2⟩ := name_unique (elementName_ok n hn).1 (elementName_ok n' hn').1
        (attrs_stops a _) (attrs_stops a' _) e
      obtain ⟨rfl, e3⟩ := attrs_unique a a' ha ha' e2
      obtain ⟨rfl, rfl⟩ := ih1 hi' (.inr ⟨_, rfl⟩) (.inr ⟨_, rfl⟩) e3
      simp only [List.append_cancel_left_eq, List.cons.injEq, true_and] at e3
      obtain ⟨rfl, rfl⟩ := ih2 hs' ht ht' e3
      exact ⟨rfl, rfl⟩
    | raw _ hp => exact hp.elim
  | raw _ hp => exact hp.elim

/-- **C58.** The tree can be read off the output of a clean document in one way only. -/
theorem C58_unique (dw : Str → Nat) (d : Document) (cfg : Config) (out : Str) (hc : Clean d)
    (ho : renderHtml dw d cfg = some out) :
    ∃ icon, (∀ t, IsIcon t (icon t)) ∧ ∀ l, Reads False out l ↔
      l = blocksNodes ⟨footnoteNumber d, lastDefinition d, cfg.anchorPrefix, icon, titleNodes⟩ d.blocks := by
  obtain ⟨icon, hi, h⟩ := C58_tree dw d cfg out ho
  have e : (¬ Clean d) = False := by simp [hc]
  rw [e] at h
  refine ⟨icon, hi, fun l => ⟨fun hl => ?_, fun hl => hl ▸ h⟩⟩
  exact (hl.unique h (.inl rfl) (.inl rfl) rfl).2

/-- A document with a heading, a list and a table. -/
example : renderHtml List.length ⟨[.heading (.setext .level2) [.text cs!"a<b"],
    .list (.ordered 3) [.mk (some .complete) [.paragraph [.strong [.text cs!"x"]]]],
    .table [[[.text cs!"h"]]] [.right]]⟩ Config.default =
    some cs!"<h2>a&lt;b</h2><ol start=\"3\"><li><span class=\"markdown-list-task-complete\">[X] </span><p><b>x</b></p></li></ol><table><thead><tr><th class=\"markdown-table-align-right\">h</th></tr></thead><tbody></tbody></table>" := by
  decide +kernel

end Html
end Verif
