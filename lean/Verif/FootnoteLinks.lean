import Verif.HtmlTree
/-!
# C75: exactly which footnote references become links

`C25` is false for references inside emphasis and the like.  Here is what is true: the footnote links
of the HTML are the references of the shown parts of the document, in order, without those whose
label is never used directly in a paragraph, heading, table cell or definition label.
-/
set_option linter.unusedVariables false
set_option linter.unusedSimpArgs false
namespace Verif
namespace Html

/-! ## Specification -/

/-- The text of nodes. -/
def shownChars (l : List Node) : Str :=
  l.flatMap fun n => match n with
    | .char c => [c]
    | _ => []

mutual
/-- The footnote links in a node, in order: their addresses and texts. -/
def Node.footnoteLinks : Node → List (Str × Str)
  | .char _ => []
  | .raw _ => []
  | .el _ attrs c =>
    (if attrs.lookup cs!"class" = some cs!"markdown-footnote-reference" then
      [((attrs.lookup cs!"href").getD [], shownChars c)] else []) ++ footnoteLinks c
termination_by structural n => n
/-- The footnote links in nodes, in order. -/
def footnoteLinks : List Node → List (Str × Str)
  | [] => []
  | n :: l => n.footnoteLinks ++ footnoteLinks l
termination_by structural l => l
end

mutual
/-- The labels of the footnote references in an inline, in order; the texts of link references without
a definition are not shown. -/
def inlineRefs (known : List Inline → Bool) : Inline → List Str
  | .footnoteReference l => [l]
  | .emphasis c => inlinesRefs known c
  | .strong c => inlinesRefs known c
  | .strikethrough c => inlinesRefs known c
  | .link _ _ c => inlinesRefs known c
  | .linkReference l t => if known l then inlinesRefs known t else []
  | .text _ => []
  | .lineBreak => []
  | .code _ => []
  | .html _ => []
  | .image _ _ _ => []
  | .autolink _ => []
  | .empty => []
termination_by structural i => i
/-- The labels of the footnote references in inlines. -/
def inlinesRefs (known : List Inline → Bool) : List Inline → List Str
  | [] => []
  | i :: l => inlineRefs known i ++ inlinesRefs known l
termination_by structural l => l
end

mutual
/-- The labels of the footnote references in a block, in order; footnotes without a number and link
definitions are not shown. -/
def blockRefs (numbered : Str → Bool) (known : List Inline → Bool) : Block → List Str
  | .paragraph c => inlinesRefs known c
  | .heading _ c => inlinesRefs known c
  | .blockQuote b => blocksRefs numbered known b
  | .list _ items => itemsRefs numbered known items
  | .table rows _ => rows.flatMap fun row => row.flatMap (inlinesRefs known)
  | .footnoteDefinition l b => if numbered l then blocksRefs numbered known b else []
  | .githubAlert _ b => blocksRefs numbered known b
  | .thematicBreak => []
  | .codeBlock _ _ => []
  | .htmlBlock _ => []
  | .definition _ _ _ => []
  | .empty => []
termination_by structural b => b
/-- The labels of the footnote references in blocks. -/
def blocksRefs (numbered : Str → Bool) (known : List Inline → Bool) : List Block → List Str
  | [] => []
  | b :: l => blockRefs numbered known b ++ blocksRefs numbered known l
termination_by structural l => l
/-- The labels of the footnote references in an item. -/
def itemRefs (numbered : Str → Bool) (known : List Inline → Bool) : ListItem → List Str
  | .mk _ b => blocksRefs numbered known b
termination_by structural i => i
/-- The labels of the footnote references in items. -/
def itemsRefs (numbered : Str → Bool) (known : List Inline → Bool) : List ListItem → List Str
  | [] => []
  | i :: l => itemRefs numbered known i ++ itemsRefs numbered known l
termination_by structural l => l
end

/-- The labels of the footnote references that are shown, in order. -/
def shownRefs (d : Document) : List Str :=
  blocksRefs (fun l => decide (l ∈ directRefs d)) (fun l => (lastDefinition d l).isSome) d.blocks

/-! ## Proofs -/

theorem footnoteLinks_append (a b : List Node) :
    footnoteLinks (a ++ b) = footnoteLinks a ++ footnoteLinks b := by
  induction a with
  | nil => rfl
  | cons n a ih => simp only [List.cons_append, footnoteLinks, ih, List.append_assoc]

theorem footnoteLinks_chars (s : Str) : footnoteLinks (chars s) = [] := by
  induction s with
  | nil => rfl
  | cons c s ih =>
    show footnoteLinks (.char c :: chars s) = _
    simp only [footnoteLinks, Node.footnoteLinks, ih, List.append_nil]

theorem shownChars_chars (s : Str) : shownChars (chars s) = s := by
  induction s with
  | nil => rfl
  | cons c s ih =>
    show c :: shownChars (chars s) = _
    rw [ih]

theorem footnoteLinks_map {α : Type} (f : α → Node) (g : α → List (Str × Str)) (l : List α)
    (h : ∀ a ∈ l, (f a).footnoteLinks = g a) : footnoteLinks (l.map f) = l.flatMap g := by
  induction l with
  | nil => rfl
  | cons a l ih =>
    simp only [List.map_cons, footnoteLinks, List.flatMap_cons]
    rw [h a (by simp), ih (fun b hb => h b (by simp [hb]))]

/-- The link of a reference. -/
def refLink (x : Context) (l : Str) : Option (Str × Str) :=
  (x.num l).map fun n => (encode (cs!"#" ++ x.anchor ++ decimal n), cs!"[" ++ decimal n ++ cs!"]")

theorem linkAttrs_class (d : Str) (t : Option Str) : (linkAttrs d t).lookup cs!"class" = none := by
  cases t <;> rfl

theorem inline_links (x : Context) :
    (∀ i, footnoteLinks (inlineNodes x i) =
      (inlineRefs (fun l => (x.defs l).isSome) i).filterMap (refLink x)) ∧
    (∀ l, footnoteLinks (inlinesNodes x l) =
      (inlinesRefs (fun l => (x.defs l).isSome) l).filterMap (refLink x)) := by
  have el : ∀ (n : Str) (c : List Node), footnoteLinks [.el n [] c] = footnoteLinks c := by
    intro n c; simp [footnoteLinks, Node.footnoteLinks]
  apply Inline.ind
  case text => intro s; simp only [inlineNodes, inlineRefs, footnoteLinks_chars]; rfl
  case lineBreak => simp only [inlineNodes, inlineRefs, el]; rfl
  case code => intro s; simp only [inlineNodes, inlineRefs, el, footnoteLinks_chars]; rfl
  case html => intro s; rfl
  case link =>
    intro d t c ih
    simp [inlineNodes, inlineRefs, footnoteLinks, Node.footnoteLinks, linkAttrs_class, ih]
  case linkReference =>
    intro l t _ ih
    cases h : x.defs l with
    | none => simp only [inlineNodes, inlineRefs, h]; rfl
    | some y =>
      simp [inlineNodes, inlineRefs, h, footnoteLinks, Node.footnoteLinks, linkAttrs_class, ih]
  case image =>
    intro d t a
    cases t <;> rfl
  case emphasis => intro c ih; simp only [inlineNodes, inlineRefs, el, ih]
  case strong => intro c ih; simp only [inlineNodes, inlineRefs, el, ih]
  case strikethrough => intro c ih; simp only [inlineNodes, inlineRefs, el, ih]
  case autolink =>
    intro l
    simp [inlineNodes, inlineRefs, footnoteLinks, Node.footnoteLinks, linkAttrs_class,
      footnoteLinks_chars]
  case footnoteReference =>
    intro l
    cases h : x.num l with
    | none => simp only [inlineNodes, inlineRefs, h, refLink, List.filterMap_cons]; rfl
    | some n =>
      simp only [inlineNodes, inlineRefs, h, refLink, List.filterMap_cons, Option.map_some,
        footnoteLinks, Node.footnoteLinks, footnoteLinks_chars, shownChars_chars]
      rfl
  case empty => rfl
  case nil => rfl
  case cons =>
    intro i l h1 h2
    simp only [inlinesNodes, inlinesRefs, footnoteLinks_append, List.filterMap_append, h1, h2]

theorem mapIdx_links (x : Context) (name : Str) (al : List Alignment) (row : List (List Inline)) :
    (rowNode x name al row).footnoteLinks =
      (row.flatMap (inlinesRefs fun l => (x.defs l).isSome)).filterMap (refLink x) := by
  have key : ∀ (f : Nat → Str) (row : List (List Inline)),
      (∀ i, f i ≠ cs!"markdown-footnote-reference") →
      footnoteLinks (row.mapIdx fun i cell => .el name [(cs!"class", f i)] (inlinesNodes x cell)) =
        (row.flatMap (inlinesRefs fun l => (x.defs l).isSome)).filterMap (refLink x) := by
    intro f row
    induction row generalizing f with
    | nil => intro _; rfl
    | cons c row ih =>
      intro hf
      rw [List.mapIdx_cons, List.flatMap_cons, List.filterMap_append, footnoteLinks,
        ih (fun i => f (i + 1)) (fun i => hf _), Node.footnoteLinks, (inline_links x).2]
      have : List.lookup cs!"class" [(cs!"class", f 0)] = some (f 0) := rfl
      rw [this, if_neg (by simpa using hf 0), List.nil_append]
  show (Node.el cs!"tr" [] _).footnoteLinks = _
  rw [Node.footnoteLinks, key (fun i => alignClass (al[i]?.getD .left))]
  · rfl
  · intro i
    cases al[i]?.getD .left <;> decide

theorem titleNodes_links (t : AlertType) : footnoteLinks (titleNodes t) = [] := by
  cases t <;> try exact footnoteLinks_chars _
  rename_i s
  simp only [titleNodes]
  split
  · rfl
  · exact footnoteLinks_chars _

theorem taskNodes_links (t : Option TaskState) : footnoteLinks (taskNodes t) = [] := by
  cases t with
  | none => rfl
  | some t => cases t <;> rfl

theorem headingEl_links (n : Str) (c : List Node) : footnoteLinks [.el n [] c] = footnoteLinks c := by
  simp [footnoteLinks, Node.footnoteLinks]

theorem classEl_links {n v : Str} {c : List Node} (h : v ≠ cs!"markdown-footnote-reference") :
    (Node.el n [(cs!"class", v)] c).footnoteLinks = footnoteLinks c := by
  have : List.lookup cs!"class" [(cs!"class", v)] = some v := rfl
  rw [Node.footnoteLinks, this, if_neg (by simpa using h), List.nil_append]

theorem block_links (x : Context) (hi : ∀ t, (x.icon t).footnoteLinks = [])
    (ht : ∀ t, footnoteLinks (x.title t) = []) :
    (∀ b, footnoteLinks (blockNodes x b) =
      (blockRefs (fun l => (x.num l).isSome) (fun l => (x.defs l).isSome) b).filterMap (refLink x)) ∧
    (∀ i, (itemNode x i).footnoteLinks =
      (itemRefs (fun l => (x.num l).isSome) (fun l => (x.defs l).isSome) i).filterMap (refLink x)) ∧
    (∀ l, footnoteLinks (blocksNodes x l) =
      (blocksRefs (fun l => (x.num l).isSome) (fun l => (x.defs l).isSome) l).filterMap (refLink x)) ∧
    (∀ l, footnoteLinks (itemsNodes x l) =
      (itemsRefs (fun l => (x.num l).isSome) (fun l => (x.defs l).isSome) l).filterMap (refLink x)) := by
  apply Block.ind
  case paragraph =>
    intro c; simp only [blockNodes, blockRefs, headingEl_links, (inline_links x).2]
  case heading =>
    intro k c; simp only [blockNodes, blockRefs, headingEl_links, (inline_links x).2]
  case thematicBreak => rfl
  case blockQuote => intro b ih; simp only [blockNodes, blockRefs, headingEl_links, ih]
  case list =>
    intro k items ih
    simp only [blockNodes, blockRefs, footnoteLinks, List.append_nil]
    have : ∀ k, (listNode k (itemsNodes x items)).footnoteLinks = footnoteLinks (itemsNodes x items) := by
      intro k
      cases k with
      | ordered n =>
        simp only [listNode, Node.footnoteLinks]
        rfl
      | bullet b => cases b <;> exact classEl_links (by decide)
    rw [this, ih]
  case codeBlock =>
    intro k s
    simp only [blockNodes, blockRefs, headingEl_links, footnoteLinks_chars]; rfl
  case htmlBlock => intro s; rfl
  case definition => intro l d t; rfl
  case empty => rfl
  case table =>
    intro rows al
    simp only [blockNodes, blockRefs, headingEl_links]
    simp only [footnoteLinks, Node.footnoteLinks, List.append_nil, List.lookup_nil]
    have hr : ∀ (name : Str) (rs : List (List (List Inline))),
        footnoteLinks (rs.map (rowNode x name al)) = rs.flatMap fun row =>
          (row.flatMap (inlinesRefs fun l => (x.defs l).isSome)).filterMap (refLink x) :=
      fun name rs => footnoteLinks_map _ _ _ (fun r _ => mapIdx_links x name al r)
    simp only [hr]
    cases rows with
    | nil => rfl
    | cons r rows =>
      simp [List.flatMap_cons, List.filterMap_append, List.filterMap_flatMap]
  case footnoteDefinition =>
    intro l b ih
    cases h : x.num l with
    | none => simp only [blockNodes, blockRefs, h]; rfl
    | some n =>
      simp only [blockNodes, blockRefs, h, Option.isSome_some, if_true, footnoteLinks, List.append_nil]
      rw [classEl_links (by decide)]
      simp only [footnoteLinks, List.append_nil]
      rw [classEl_links (by decide), classEl_links (by decide), footnoteLinks_chars, ih]
      rfl
  case githubAlert =>
    intro t b ih
    simp only [blockNodes, blockRefs, footnoteLinks, List.append_nil]
    rw [classEl_links (by cases t <;> simp [alertKind])]
    simp only [footnoteLinks]
    rw [classEl_links (by decide)]
    simp only [footnoteLinks]
    rw [hi, ht, ih]
    rfl
  case item =>
    intro t b ih
    simp only [itemNode, itemRefs, Node.footnoteLinks, footnoteLinks_append, taskNodes_links, ih]
    rfl
  case nilB => rfl
  case consB =>
    intro b l h1 h2
    simp only [blocksNodes, blocksRefs, footnoteLinks_append, List.filterMap_append, h1, h2]
  case nilI => rfl
  case consI =>
    intro b l h1 h2
    simp only [itemsNodes, itemsRefs, footnoteLinks, List.filterMap_append, h1, h2]

theorem icon_links {t : AlertType} {n : Node} (h : IsIcon t n) : n.footnoteLinks = [] := by
  obtain ⟨p, rfl⟩ := h
  simp only [Node.footnoteLinks, footnoteLinks, List.append_nil]
  have : ∀ k : AlertType, cs!"octicon octicon-" ++ iconKind k ++ cs!" mr-2" ≠
      cs!"markdown-footnote-reference" := by intro k; cases k <;> simp [iconKind]
  have e : ∀ (v : Str) l, List.lookup cs!"class" ((cs!"class", v) :: l) = some v := by
    intro v l; rfl
  rw [e, if_neg (by simpa using this t)]
  rfl

/-- **C75.** The footnote links of the HTML of a document, read as the only tree it can be read as, are
the footnote references in the shown parts of the document, in order, but without those whose label
is never used directly in a paragraph, a heading, a table cell or the label of a link definition.
Each one links to the anchor with the number of its label and shows that number. -/
theorem C75_links (dw : Str → Nat) (d : Document) (cfg : Config) (out : Str) (hc : Clean d)
    (ho : renderHtml dw d cfg = some out) :
    ∃ tree, (∀ l, Reads False out l ↔ l = tree) ∧
      footnoteLinks tree = ((shownRefs d).filter fun l => decide (l ∈ directRefs d)).map fun l =>
        (encode (cs!"#" ++ cfg.anchorPrefix ++ decimal ((footnoteNumber d l).getD 0)),
          cs!"[" ++ decimal ((footnoteNumber d l).getD 0) ++ cs!"]") := by
  obtain ⟨icon, hi, h⟩ := C58_unique dw d cfg out hc ho
  refine ⟨_, h, ?_⟩
  rw [(block_links _ (fun t => icon_links (hi t)) titleNodes_links).2.2.1]
  have e : (fun l => (footnoteNumber d l).isSome) = fun l => decide (l ∈ directRefs d) := by
    funext l
    have := (C24_bijection d).1 l
    by_cases hm : l ∈ directRefs d
    · have := Option.ne_none_iff_exists'.1 (this.2 hm)
      obtain ⟨n, hn⟩ := this
      simp [hm, hn]
    · have : footnoteNumber d l = none := by
        cases hn : footnoteNumber d l with
        | none => rfl
        | some n => exact absurd (this.1 (by simp [hn])) hm
      simp [hm, this]
  simp only [e]
  show ((shownRefs d).filterMap _) = _
  generalize shownRefs d = L
  induction L with
  | nil => rfl
  | cons l L ih =>
    have el : (footnoteNumber d l).isSome = decide (l ∈ directRefs d) := congrFun e l
    cases hn : footnoteNumber d l with
    | none =>
      rw [hn] at el
      simp only [List.filterMap_cons, refLink, hn, Option.map_none, List.filter_cons, ← el,
        Option.isSome_none]
      simpa using ih
    | some n =>
      rw [hn] at el
      simp only [List.filterMap_cons, refLink, hn, Option.map_some, List.filter_cons, ← el,
        Option.isSome_some, if_true, List.map_cons, Option.getD_some]
      rw [← ih]

/-- **C75.** Consequently every reference in a shown part of the document is rendered if and only if
its label is used directly somewhere. -/
theorem C75_count (dw : Str → Nat) (d : Document) (cfg : Config) (out : Str) (hc : Clean d)
    (ho : renderHtml dw d cfg = some out) :
    ∃ tree, (∀ l, Reads False out l ↔ l = tree) ∧
      ((footnoteLinks tree).length = (shownRefs d).length ↔ ∀ l ∈ shownRefs d, l ∈ directRefs d) := by
  obtain ⟨tree, h1, h2⟩ := C75_links dw d cfg out hc ho
  refine ⟨tree, h1, ?_⟩
  rw [h2, List.length_map, List.length_filter_eq_length_iff]
  simp

/-- References in emphasis and in a quote, one of which is not rendered; `Clean` and rendering hold. -/
example : Clean ⟨[.paragraph [.footnoteReference cs!"b", .emphasis [.footnoteReference cs!"a",
      .footnoteReference cs!"b"]], .blockQuote [.paragraph [.footnoteReference cs!"c"]]]⟩ ∧
    shownRefs ⟨[.paragraph [.footnoteReference cs!"b", .emphasis [.footnoteReference cs!"a",
      .footnoteReference cs!"b"]], .blockQuote [.paragraph [.footnoteReference cs!"c"]]]⟩ =
      [cs!"b", cs!"a", cs!"b", cs!"c"] ∧
    directRefs ⟨[.paragraph [.footnoteReference cs!"b", .emphasis [.footnoteReference cs!"a",
      .footnoteReference cs!"b"]], .blockQuote [.paragraph [.footnoteReference cs!"c"]]]⟩ =
      [cs!"b", cs!"c"] ∧
    (renderHtml List.length ⟨[.paragraph [.footnoteReference cs!"b", .emphasis
      [.footnoteReference cs!"a", .footnoteReference cs!"b"]],
      .blockQuote [.paragraph [.footnoteReference cs!"c"]]]⟩ Config.default).isSome := by
  refine ⟨⟨?_, ?_, ?_⟩, by decide +kernel, by decide +kernel, by decide +kernel⟩
  · intro s h
    rw [← Document.mem_allBlocks] at h
    simp [Document.allBlocks, Block.preL, Block.pre] at h
  · intro s h
    rw [← Document.mem_allInlines] at h
    simp [Document.allInlines, Document.allBlocks, Block.preL, Block.pre, Block.directInlines,
      Inline.preL, Inline.pre] at h
  · intro name b h
    rw [← Document.mem_allBlocks] at h
    simp [Document.allBlocks, Block.preL, Block.pre] at h

end Html
end Verif
