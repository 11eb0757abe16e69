import Verif.CleanupHtml
/-!
# C112: what transforming addresses, code and raw HTML does to the HTML
-/
set_option autoImplicit false
namespace Verif
namespace Html

/-! ## Specification -/

/-- The attributes of an element `n` without the address a transform of kind `k` may change. -/
def maskedAttrs (k : Target) (n : Str) (a : List (Str × Str)) : List (Str × Str) :=
  a.map fun e =>
    if (k = .linkUrl ∨ k = .autolink) ∧ n = cs!"a" ∧ e.1 = cs!"href" then (e.1, [])
    else if k = .imageUrl ∧ n = cs!"img" ∧ e.1 = cs!"src" then (e.1, [])
    else e

/-- The nodes without what a transform of kind `k` may change: the addresses of links; those of images; the addresses
of links and the characters in links (for autolinks, which display their address); the content of inline code; raw
HTML. -/
def masked (k : Target) : List Node → List Node
  | [] => []
  | .char c :: l => .char c :: masked k l
  | .raw s :: l => .raw (if k = .html then [] else s) :: masked k l
  | .el n a c :: l =>
    .el n (maskedAttrs k n a)
      (if n = cs!"pre" then c
        else if k = .code ∧ n = cs!"code" then []
        else if k = .autolink ∧ n = cs!"a" then dense (fun _ => true) (masked k c)
        else masked k c) :: masked k l

/-! ## Nodes -/

theorem masked_append (k : Target) (a b : List Node) : masked k (a ++ b) = masked k a ++ masked k b := by
  induction a with
  | nil => simp only [List.nil_append, masked]
  | cons n a ih => cases n <;> simp only [List.cons_append, masked, ih]

theorem masked_tag {k : Target} {a b : List Node} (h : masked k a = masked k b) {n : Str} (at_ : List (Str × Str))
    (e : (n == cs!"pre") = false) : masked k [.el n at_ a] = masked k [.el n at_ b] := by
  have e : n ≠ cs!"pre" := by simpa using e
  simp only [masked, if_neg e, h]

theorem masked_chars (k : Target) (t : Str) : masked k (chars t) = chars t := by
  unfold chars
  induction t with
  | nil => simp only [List.map_nil, masked]
  | cons c t ih => simp only [List.map_cons, masked, ih]

theorem masked_address {k : Target} (hk : k = .linkUrl ∨ k = .autolink) (d d' : Str) (t : Option Str) :
    maskedAttrs k cs!"a" (linkAttrs d' t) = maskedAttrs k cs!"a" (linkAttrs d t) := by
  simp only [maskedAttrs, linkAttrs, List.map_cons, hk, true_and, if_true]

variable {k : Target} (hk : k ≠ .text) (f : Str → Str)

include hk in
theorem inline_masked (x y : Context) (hn : ∀ l, y.num l = x.num l) (ha : y.anchor = x.anchor) :
    (∀ i, (∀ l t, .linkReference l t ∈ Inline.pre i → y.defs (Inline.mapNodesL (k.setInline f) l) = x.defs l) →
      masked k (inlineNodes y (Inline.mapNodes (k.setInline f) i)) = masked k (inlineNodes x i)) ∧
    ∀ l, (∀ m t, .linkReference m t ∈ Inline.preL l → y.defs (Inline.mapNodesL (k.setInline f) m) = x.defs m) →
      masked k (inlinesNodes y (Inline.mapNodesL (k.setInline f) l)) = masked k (inlinesNodes x l) := by
  apply Inline.ind
  case text =>
    intro t _
    cases k <;> first | rfl | exact absurd rfl hk
  case emphasis =>
    intro c ih hx
    have e := masked_tag (n := cs!"em") (ih fun l t hm => hx l t (by simp [Inline.pre, hm])) [] (by decide)
    cases k <;> exact e
  case strong =>
    intro c ih hx
    have e := masked_tag (n := cs!"b") (ih fun l t hm => hx l t (by simp [Inline.pre, hm])) [] (by decide)
    cases k <;> exact e
  case strikethrough =>
    intro c ih hx
    have e := masked_tag (n := cs!"s") (ih fun l t hm => hx l t (by simp [Inline.pre, hm])) [] (by decide)
    cases k <;> exact e
  case link =>
    intro d t c ih hx
    have ih := ih fun l t hm => hx l t (by simp [Inline.pre, hm])
    have e := masked_tag (n := cs!"a") ih (linkAttrs d t) (by decide)
    cases k
    case linkUrl =>
      have e' := masked_tag (n := cs!"a") ih (linkAttrs (f d) t) (by decide)
      refine e'.trans ?_
      simp only [inlineNodes, masked, masked_address (Or.inl rfl) d (f d) t]
    all_goals exact e
  case linkReference =>
    intro l t _ ih hx
    have ih := ih fun l t hm => hx l t (by simp [Inline.pre, hm])
    have e1 : Inline.mapNodes (k.setInline f) (.linkReference l t) =
      .linkReference (Inline.mapNodesL (k.setInline f) l) (Inline.mapNodesL (k.setInline f) t) := by cases k <;> rfl
    rw [e1]
    simp only [inlineNodes, hx l t (by simp [Inline.pre])]
    rcases x.defs l with _ | ⟨d, title⟩
    · rfl
    · exact masked_tag ih _ (by decide)
  case footnoteReference =>
    intro s _
    have e1 : Inline.mapNodes (k.setInline f) (.footnoteReference s) = .footnoteReference s := by cases k <;> rfl
    rw [e1]
    simp only [inlineNodes, hn, ha]
  case image =>
    intro d t a _
    cases k
    case imageUrl =>
      show masked _ (inlineNodes y (.image (f d) t a)) = _
      simp only [inlineNodes, masked, maskedAttrs, List.map_cons, true_and, if_true]
    all_goals rfl
  case autolink =>
    intro u _
    cases k
    case autolink =>
      show masked _ (inlineNodes y (.autolink (f u))) = _
      simp only [inlineNodes, masked, masked_address (Or.inr rfl) u (f u) none, masked_chars, dense_chars, squeeze]
      simp
    all_goals rfl
  case code =>
    intro s _
    cases k
    case code =>
      show masked _ (inlineNodes y (.code (f s))) = _
      simp only [inlineNodes, masked, true_and, if_true]
      simp
    all_goals rfl
  case html =>
    intro s _
    cases k
    case html =>
      show masked _ (inlineNodes y (.html (f s))) = _
      simp only [inlineNodes, masked, if_true]
    all_goals rfl
  case nil => intro _; rfl
  case cons =>
    intro i l ihi ihl hx
    simp only [Inline.mapNodesL, inlinesNodes, masked_append]
    rw [ihi fun m t hm => hx m t (by simp [Inline.preL, hm]), ihl fun m t hm => hx m t (by simp [Inline.preL, hm])]
  all_goals intros; cases k <;> rfl

include hk in
theorem row_masked (x y : Context) (hn : ∀ l, y.num l = x.num l) (ha : y.anchor = x.anchor) {n : Str} (e : (n == cs!"pre") = false)
    (al : List Alignment) (row : List (List Inline))
    (hx : ∀ m t, .linkReference m t ∈ Inline.preL row.flatten → y.defs (Inline.mapNodesL (k.setInline f) m) = x.defs m) :
    masked k [rowNode y n al (row.map (Inline.mapNodesL (k.setInline f)))] = masked k [rowNode x n al row] := by
  refine masked_tag ?_ _ (by decide)
  have key : ∀ (row : List (List Inline)) (g : Nat → List (Str × Str)),
      (∀ m t, .linkReference m t ∈ Inline.preL row.flatten → y.defs (Inline.mapNodesL (k.setInline f) m) = x.defs m) →
      masked k ((row.map (Inline.mapNodesL (k.setInline f))).mapIdx fun i cell => .el n (g i) (inlinesNodes y cell)) =
      masked k (row.mapIdx fun i cell => .el n (g i) (inlinesNodes x cell)) := by
    intro row
    induction row with
    | nil => intro g _; rfl
    | cons c row ih =>
      intro g hx
      simp only [List.flatten_cons, preL_append', List.mem_append] at hx
      simp only [List.map_cons, List.mapIdx_cons]
      have a := masked_tag (n := n) ((inline_masked hk f x y hn ha).2 c fun m t hm => hx m t (Or.inl hm)) (g 0) e
      have b := ih (fun i => g (i + 1)) fun m t hm => hx m t (Or.inr hm)
      rw [← List.singleton_append, masked_append, a, b, ← masked_append, List.singleton_append]
  exact key row _ hx

include hk in
theorem rows_masked (x y : Context) (hn : ∀ l, y.num l = x.num l) (ha : y.anchor = x.anchor) {n : Str} (e : (n == cs!"pre") = false)
    (al : List Alignment) (rows : List (List (List Inline)))
    (hx : ∀ m t, .linkReference m t ∈ Inline.preL rows.flatten.flatten → y.defs (Inline.mapNodesL (k.setInline f) m) = x.defs m) :
    masked k ((rows.map (List.map (Inline.mapNodesL (k.setInline f)))).map (rowNode y n al)) = masked k (rows.map (rowNode x n al)) := by
  induction rows with
  | nil => rfl
  | cons r rows ih =>
    simp only [List.flatten_cons, List.flatten_append, preL_append', List.mem_append] at hx
    simp only [List.map_cons]
    rw [← List.singleton_append, masked_append, row_masked hk f x y hn ha e al r fun m t hm => hx m t (Or.inl hm),
      ih fun m t hm => hx m t (Or.inr hm), ← masked_append, List.singleton_append]

include hk in
theorem block_masked (x y : Context) (hn : ∀ l, y.num l = x.num l) (ha : y.anchor = x.anchor) (hi : y.icon = x.icon) (ht : y.title = x.title) :
    (∀ b, Looked (k.setInline f) x y (Block.pre b) →
      masked k (blockNodes y (Block.mapNodes (k.setInline f) (k.setBlock f) b)) = masked k (blockNodes x b)) ∧
    (∀ i, Looked (k.setInline f) x y (ListItem.pre i) →
      masked k [itemNode y (ListItem.mapNodes (k.setInline f) (k.setBlock f) i)] = masked k [itemNode x i]) ∧
    (∀ l, Looked (k.setInline f) x y (Block.preL l) →
      masked k (blocksNodes y (Block.mapNodesL (k.setInline f) (k.setBlock f) l)) = masked k (blocksNodes x l)) ∧
    ∀ l, Looked (k.setInline f) x y (ListItem.preL l) →
      masked k (itemsNodes y (ListItem.mapNodesL (k.setInline f) (k.setBlock f) l)) = masked k (itemsNodes x l) := by
  have key := (inline_masked hk f x y hn ha).2
  have head : ∀ {b : Block} {l : List Block}, Looked (k.setInline f) x y (b :: l) → ∀ m t, .linkReference m t ∈ Inline.preL b.directInlines →
      y.defs (Inline.mapNodesL (k.setInline f) m) = x.defs m := fun k => k _ (List.mem_cons_self ..)
  have tail : ∀ {b : Block} {l : List Block}, Looked (k.setInline f) x y (b :: l) → Looked (k.setInline f) x y l := fun k c hc => k c (List.mem_cons_of_mem _ hc)
  have same : ∀ b : Block, (∀ s, b ≠ .htmlBlock s) → k.setBlock f b = b := by
    intro b hb
    cases k <;> cases b <;> first | rfl | exact absurd rfl (hb _)
  apply Block.ind
  case paragraph =>
    intro c q
    simp only [Block.mapNodes]
    rw [same _ (by simp)]
    exact masked_tag (key c (head q)) _ (by decide)
  case heading =>
    intro v c q
    simp only [Block.mapNodes]
    rw [same _ (by simp)]
    refine masked_tag (key c (head q)) _ ?_
    rcases v with n | (_ | _)
    · simp only [headingName]; rfl
    · decide
    · decide
  case blockQuote =>
    intro b ih q
    simp only [Block.mapNodes]
    rw [same _ (by simp)]
    exact masked_tag (ih (tail q)) _ (by decide)
  case list =>
    intro v i ih q
    simp only [Block.mapNodes]
    rw [same _ (by simp)]
    rcases v with n | (_ | _ | _) <;> exact masked_tag (ih (tail q)) _ (by decide)
  case table =>
    intro rows al q
    have hx := head q
    simp only [Block.directInlines] at hx
    simp only [Block.mapNodes]
    rw [same _ (by simp)]
    simp only [blockNodes]
    refine masked_tag ?_ _ (by decide)
    rcases rows with _ | ⟨r, rows⟩
    · rfl
    · simp only [List.flatten_cons, List.flatten_append, preL_append', List.mem_append] at hx
      have a := masked_tag (n := cs!"thead") (row_masked hk f x y hn ha (n := cs!"th") (by decide) al r fun m t hm => hx m t (Or.inl hm)) [] (by decide)
      have b := masked_tag (n := cs!"tbody") (rows_masked hk f x y hn ha (n := cs!"td") (by decide) al rows fun m t hm => hx m t (Or.inr hm)) [] (by decide)
      have := congr (congrArg (· ++ ·) a) b
      rw [← masked_append, ← masked_append] at this
      exact this
  case footnoteDefinition =>
    intro l b ih q
    simp only [Block.mapNodes]
    rw [same _ (by simp)]
    simp only [blockNodes, hn]
    rcases x.num l with _ | n
    · rfl
    · refine masked_tag ?_ _ (by decide)
      have c := masked_tag (n := cs!"span") (ih (tail q)) [(cs!"class", cs!"markdown-footnote-definition-content")] (by decide)
      rw [← List.singleton_append, masked_append, c, ← masked_append]
      rfl
  case githubAlert =>
    intro v b ih q
    simp only [Block.mapNodes]
    rw [same _ (by simp)]
    simp only [blockNodes, hi, ht]
    refine masked_tag ?_ _ (by decide)
    rw [← List.singleton_append, masked_append, ih (tail q), ← masked_append]
    rfl
  case htmlBlock =>
    intro s _
    cases k
    case html =>
      show masked _ (blockNodes y (.htmlBlock (f s))) = _
      simp only [blockNodes, masked, if_true]
    all_goals rfl
  case item =>
    intro t b ih q
    simp only [ListItem.mapNodes, itemNode]
    refine masked_tag ?_ _ (by decide)
    rw [masked_append, ih q, masked_append]
  case nilB => intro _; rfl
  case consB =>
    intro b l ihb ihl q
    simp only [Block.mapNodesL, blocksNodes, masked_append]
    rw [ihb fun c hc => q c (List.mem_append_left _ hc), ihl fun c hc => q c (List.mem_append_right _ hc)]
  case nilI => intro _; rfl
  case consI =>
    intro b l ihb ihl q
    simp only [ListItem.mapNodesL, itemsNodes]
    rw [← List.singleton_append, masked_append, ihb fun c hc => q c (List.mem_append_left _ hc),
      ihl fun c hc => q c (List.mem_append_right _ hc), ← masked_append]
    rfl
  all_goals intros; simp only [Block.mapNodes]; rw [same _ (by simp)]; try rfl

/-! ## Footnotes and definitions -/

theorem set_children (b : Block) : (k.setBlock f b).childBlocks = b.childBlocks := by cases k <;> cases b <;> rfl

theorem set_direct (b : Block) : (k.setBlock f b).directInlines = b.directInlines := by cases k <;> cases b <;> rfl

theorem number_set (d : Document) : footnoteNumber (d.mapNodes (k.setInline f) (k.setBlock f)) = footnoteNumber d := by
  have refs : ∀ l : List Inline, (Inline.mapNodesL (k.setInline f) l).filterMap refLabel = l.filterMap refLabel := by
    intro l
    induction l with
    | nil => rfl
    | cons i l ih =>
      simp only [Inline.mapNodesL, List.filterMap_cons, ih]
      cases k <;> cases i <;> rfl
  have e : directRefs (d.mapNodes (k.setInline f) (k.setBlock f)) = directRefs d := by
    unfold directRefs
    rw [Document.allBlocks_mapNodes (fun b => set_children f b), List.flatMap_map]
    congr 1
    funext b
    rw [Block.mapNodes_unfold, set_direct]
    simp only [Block.directInlines_mapKids, ← Inline.mapNodesL_eq, refs]
  funext l
  unfold footnoteNumber
  rw [e]

theorem lookup_set {d : Document}
    (hd : ∀ l m, d.HasLabel l → d.HasLabel m → Inline.mapNodesL (k.setInline f) l = Inline.mapNodesL (k.setInline f) m → l = m)
    {l : List Inline} (hl : d.HasLabel l) :
    lastDefinition (d.mapNodes (k.setInline f) (k.setBlock f)) (Inline.mapNodesL (k.setInline f) l) = lastDefinition d l := by
  have e : linkDefinitions (d.mapNodes (k.setInline f) (k.setBlock f)) =
      (linkDefinitions d).map fun e => (Inline.mapNodesL (k.setInline f) e.1, e.2) := by
    unfold linkDefinitions
    rw [Document.allBlocks_mapNodes (fun b => set_children f b), List.filterMap_map, List.map_filterMap]
    congr 1
    funext b
    cases k <;> cases b <;> rfl
  unfold lastDefinition
  rw [e, ← List.map_reverse]
  refine find_map _ _ _ fun e he q => ?_
  refine hd _ _ (Or.inr ?_) hl q
  obtain ⟨b, hb, hbe⟩ := List.mem_filterMap.1 (List.mem_reverse.1 he)
  cases b
  case definition l' dest title =>
    simp only [Option.some.injEq] at hbe
    subst hbe
    exact ⟨_, _, (Document.mem_allBlocks _ _).1 hb⟩
  all_goals simp at hbe

theorem children_set (b : Block) : (b.mapNodes (k.setInline f) (k.setBlock f)).childBlocks =
    b.childBlocks.map (Block.mapNodes (k.setInline f) (k.setBlock f)) := by
  rw [Block.mapNodes_unfold, set_children, Block.childBlocks_mapKids]

theorem set_footnote (b : Block) (l : Str) : (∃ bs, b.mapNodes (k.setInline f) (k.setBlock f) = .footnoteDefinition l bs) ↔
    ∃ bs, b = .footnoteDefinition l bs := by
  cases k <;> cases b <;> simp [Block.mapNodes, Target.setBlock]

theorem rendered_set {num : Str → Option Nat} {a c : Block} (q : Rendered num a c) :
    Rendered num (a.mapNodes (k.setInline f) (k.setBlock f)) (c.mapNodes (k.setInline f) (k.setBlock f)) := by
  induction q with
  | self => exact .self _
  | child c e he hc _ ih =>
    refine .child _ _ (e.mapNodes _ _) ?_ ?_ ih
    · rw [children_set]; exact List.mem_map.2 ⟨_, he, rfl⟩
    · intro l bs ecs
      obtain ⟨bs', e'⟩ := (set_footnote f c l).1 ⟨bs, ecs⟩
      exact hc l bs' e'

theorem rendered_unset {num : Str → Option Nat} {a c : Block} (q : Rendered num a c) :
    ∀ c', c'.mapNodes (k.setInline f) (k.setBlock f) = c →
      ∃ a', a'.mapNodes (k.setInline f) (k.setBlock f) = a ∧ Rendered num a' c' := by
  induction q with
  | self => intro c' e; exact ⟨c', e, .self _⟩
  | child c e he hc _ ih =>
    intro c' ec
    subst ec
    rw [children_set] at he
    obtain ⟨e', he', rfl⟩ := List.mem_map.1 he
    obtain ⟨a', ha', hr⟩ := ih e' rfl
    refine ⟨a', ha', .child _ _ e' he' ?_ hr⟩
    intro l bs e
    obtain ⟨bs', e'⟩ := (set_footnote (k := k) f c' l).2 ⟨bs, e⟩
    exact hc l bs' e'

theorem rowless_set (d : Document) :
    (∃ al, RenderedIn (d.mapNodes (k.setInline f) (k.setBlock f)) (.table [] al)) ↔ ∃ al, RenderedIn d (.table [] al) := by
  constructor
  · rintro ⟨al, c, hc, hr⟩
    rw [number_set] at hr
    simp only [Document.mapNodes, Block.mapNodesL_eq] at hc
    obtain ⟨c', hc', rfl⟩ := List.mem_map.1 hc
    obtain ⟨a, ha, q⟩ := rendered_unset f hr c' rfl
    have : ∃ al', a = .table [] al' := by
      cases k <;> cases a <;> simp [Block.mapNodes, Target.setBlock] at ha <;> exact ⟨_, by rw [ha.1]⟩
    obtain ⟨al', rfl⟩ := this
    exact ⟨_, c', hc', q⟩
  · rintro ⟨al, c, hc, hr⟩
    refine ⟨al, c.mapNodes (k.setInline f) (k.setBlock f), ?_, ?_⟩
    · simp only [Document.mapNodes, Block.mapNodesL_eq]; exact List.mem_map.2 ⟨_, hc, rfl⟩
    · rw [number_set]
      have := rendered_set (k := k) f hr
      cases k <;> exact this

/-! ## The theorem -/

/-- **C112.** Transforming the addresses of links, of images or of autolinks, inline code or raw HTML changes nothing
else in the HTML, provided that no two labels become the same. -/
theorem C112_transform (dw : Str → Nat) (cfg : Config) {k : Target} (hk : k ≠ .text) (f : Str → Str) {d : Document}
    (hd : LabelsApart (Document.transform k f) d) :
    (renderHtml dw (d.transform k f) cfg = none ↔ renderHtml dw d cfg = none) ∧
    ∀ s, renderHtml dw d cfg = some s → ∃ s' tree tree', renderHtml dw (d.transform k f) cfg = some s' ∧
      s = writeNodes tree ∧ s' = writeNodes tree' ∧ masked k tree' = masked k tree := by
  rw [Document.transform_eq]
  have hd : ∀ l m, d.HasLabel l → d.HasLabel m → Inline.mapNodesL (k.setInline f) l = Inline.mapNodesL (k.setInline f) m → l = m := by
    intro l m hl hm q
    refine hd l m hl hm ?_
    rw [Document.transform_eq, Document.transform_eq]
    simp only [Document.mapNodes, Block.mapNodesL, Block.mapNodes, q]
  obtain ⟨icon, _, hx⟩ := C89_exact_html
  rw [hx dw d cfg, hx dw (d.mapNodes _ _) cfg]
  by_cases ht : ∃ al, RenderedIn d (.table [] al)
  · rw [if_pos ht, if_pos ((rowless_set f d).2 ht)]
    exact ⟨Iff.rfl, fun s hs => by cases hs⟩
  · rw [if_neg ht, if_neg fun k => ht ((rowless_set f d).1 k)]
    refine ⟨by simp, fun s hs => ?_⟩
    injection hs with hs
    refine ⟨_, _, _, rfl, hs.symm, rfl, ?_⟩
    refine (block_masked hk f ⟨footnoteNumber d, lastDefinition d, cfg.anchorPrefix, icon, titleRaw⟩
      ⟨footnoteNumber (d.mapNodes _ _), lastDefinition (d.mapNodes _ _), cfg.anchorPrefix, icon, titleRaw⟩
      (fun l => congrFun (number_set f d) l) rfl rfl rfl).2.2.1 d.blocks ?_
    intro b hb m t hm
    exact lookup_set f hd (Or.inl ⟨t, (Document.mem_allInlines _ _).1 (List.mem_flatMap.2 ⟨b, hb, hm⟩)⟩)

/-- **C112**, a document that meets the hypotheses with all five transforms; a definition keeps its address, and code
blocks their text. -/
theorem C112_example :
    let d : Document := ⟨[.definition [.text cs!"a"] cs!"u" none, .htmlBlock cs!"<hr>", .codeBlock .indented cs!"b",
      .paragraph [.link cs!"v" none [.code cs!"c"], .linkReference [.text cs!"a"] [.html cs!"<i>"], .image cs!"w" none cs!"i",
        .autolink cs!"z"]]⟩
    let f := fun t : Str => '!' :: t
    let html := fun d => renderHtml (fun _ => 0) d Config.default
    (∀ k, LabelsApart (Document.transform k f) d) ∧
    html d = some cs!"<hr><pre><code>b</code></pre><p><a href=\"v\"><code>c</code></a><a href=\"u\"><i></a><img src=\"w\" alt=\"i\"></img><a href=\"z\">z</a></p>" ∧
    html (d.transform .linkUrl f) = some cs!"<hr><pre><code>b</code></pre><p><a href=\"!v\"><code>c</code></a><a href=\"u\"><i></a><img src=\"w\" alt=\"i\"></img><a href=\"z\">z</a></p>" ∧
    html (d.transform .imageUrl f) = some cs!"<hr><pre><code>b</code></pre><p><a href=\"v\"><code>c</code></a><a href=\"u\"><i></a><img src=\"!w\" alt=\"i\"></img><a href=\"z\">z</a></p>" ∧
    html (d.transform .autolink f) = some cs!"<hr><pre><code>b</code></pre><p><a href=\"v\"><code>c</code></a><a href=\"u\"><i></a><img src=\"w\" alt=\"i\"></img><a href=\"!z\">!z</a></p>" ∧
    html (d.transform .code f) = some cs!"<hr><pre><code>b</code></pre><p><a href=\"v\"><code>!c</code></a><a href=\"u\"><i></a><img src=\"w\" alt=\"i\"></img><a href=\"z\">z</a></p>" ∧
    html (d.transform .html f) = some cs!"!<hr><pre><code>b</code></pre><p><a href=\"v\"><code>c</code></a><a href=\"u\">!<i></a><img src=\"w\" alt=\"i\"></img><a href=\"z\">z</a></p>" := by
  have labels : ∀ l, Document.HasLabel ⟨[.definition [.text cs!"a"] cs!"u" none, .htmlBlock cs!"<hr>", .codeBlock .indented cs!"b",
      .paragraph [.link cs!"v" none [.code cs!"c"], .linkReference [.text cs!"a"] [.html cs!"<i>"], .image cs!"w" none cs!"i",
        .autolink cs!"z"]]⟩ l → l = [.text cs!"a"] := by
    rintro l (⟨t, k⟩ | ⟨u, t, k⟩)
    · rw [← Document.mem_allInlines] at k
      simp [Document.allInlines, Document.allBlocks, Block.preL, Block.pre, Block.directInlines, Inline.preL, Inline.pre] at k
      exact k.1
    · rw [← Document.mem_allBlocks] at k
      simp [Document.allBlocks, Block.preL, Block.pre] at k
      exact k.1
  refine ⟨fun k l m hl hm _ => ?_, by decide +kernel, by decide +kernel, by decide +kernel, by decide +kernel, by decide +kernel, by decide +kernel⟩
  rw [labels l hl, labels m hm]

/-- **C112**, labels that become the same: the reference takes the destination of another definition. -/
theorem C112_labels_joined :
    let d : Document := ⟨[.definition [.code cs!"a"] cs!"u" none, .definition [.code cs!"A"] cs!"v" none,
      .paragraph [.linkReference [.code cs!"a"] [.text cs!"x"]]]⟩
    renderHtml (fun _ => 0) d Config.default = some cs!"<p><a href=\"u\">x</a></p>" ∧
    renderHtml (fun _ => 0) (d.transform .code fun _ => cs!"c") Config.default = some cs!"<p><a href=\"v\">x</a></p>" := by
  decide +kernel

end Html
end Verif
