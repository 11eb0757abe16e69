import Verif.CleanupMarkdown
/-!
# C117: what transforms of addresses, code and raw HTML do to the Markdown
-/
set_option autoImplicit false
namespace Verif
namespace Md
namespace Swap
open Md.Spec Clean
open Latex (ink ink_append squeeze_app ink_lay)

/-- Functions on inlines and on blocks that change only characters of the kind `q` in the text of a node, and no reference. -/
structure Local (q : Char → Bool) (h : Inline → Inline) (hb : Block → Block) : Prop where
  source : ∀ i, squeeze q (inlineSource (collapse false) (h i)) = squeeze q (inlineSource (collapse false) i)
  reference : ∀ l t, h (.linkReference l t) = .linkReference l t
  block : ∀ b, (∀ t, b ≠ .htmlBlock t) → hb b = b
  html : ∀ t, ∃ t', hb (.htmlBlock t) = .htmlBlock t' ∧ squeeze q t' = squeeze q t

variable {q : Char → Bool} (hq : ∀ c, isWs c = true → q c = true) {h : Inline → Inline} {hb : Block → Block} (L : Local q h hb)

include L in
theorem source_changed :
    (∀ i, (∀ m t, .linkReference m t ∈ Inline.pre i → Inline.mapNodesL h m = Inline.mapNodesL h t → m = t) →
      squeeze q (inlineSource (collapse false) (Inline.mapNodes h i)) = squeeze q (inlineSource (collapse false) i)) ∧
    ∀ l, (∀ m t, .linkReference m t ∈ Inline.preL l → Inline.mapNodesL h m = Inline.mapNodesL h t → m = t) →
      squeeze q (lineSource (Inline.mapNodesL h l)) = squeeze q (lineSource l) := by
  apply Inline.ind
  case text =>
    intro t _
    rw [show Inline.mapNodes h (.text t) = h (.text t) from rfl, L.source _]
  case link =>
    intro d t c ih k
    simp only [Inline.mapNodes]
    rw [L.source]
    simp only [inlineSource, squeeze_app, ih fun m t ht => k m t (by simp [Inline.pre, ht])]
  case linkReference =>
    intro l t ihl iht k
    simp only [Inline.mapNodes]
    rw [L.reference]
    have el := ihl fun m t ht => k m t (by simp [Inline.pre, ht])
    have et := iht fun m t ht => k m t (by simp [Inline.pre, ht])
    have eh := k l t (by simp [Inline.pre])
    by_cases e : l = t
    · subst e
      simp only [inlineSource, if_true, squeeze_app, el]
    · have e' : Inline.mapNodesL h l ≠ Inline.mapNodesL h t := fun hh => e (eh hh)
      simp only [inlineSource, e, e', if_false, squeeze_app, el, et]
  case emphasis =>
    intro c ih k
    simp only [Inline.mapNodes]
    rw [L.source]
    simp only [inlineSource, squeeze_app, ih fun m t ht => k m t (by simp [Inline.pre, ht])]
  case strong =>
    intro c ih k
    simp only [Inline.mapNodes]
    rw [L.source]
    simp only [inlineSource, squeeze_app, ih fun m t ht => k m t (by simp [Inline.pre, ht])]
  case strikethrough =>
    intro c ih k
    simp only [Inline.mapNodes]
    rw [L.source]
    simp only [inlineSource, squeeze_app, ih fun m t ht => k m t (by simp [Inline.pre, ht])]
  case nil => intro _; rfl
  case cons =>
    intro i l ihi ihl k
    have h1 := ihi fun m t ht => k m t (by simp [Inline.preL, ht])
    have h2 := ihl fun m t ht => k m t (by simp [Inline.preL, ht])
    simp only [Inline.mapNodesL, inlinesSource, squeeze_app] at h1 h2 ⊢
    rw [h1, h2]
  all_goals
    intros
    simp only [Inline.mapNodes]
    rw [L.source]

include L hq in
theorem block_ink (dw dw' : Str → Nat) (w w' : Nat) (y y' : Style) (hu : y'.upper = y.upper) :
    (∀ b, Fit h q (Block.pre b) → ∀ ind col ind' col',
      inkP q (blockPieces dw' w' y' ind' col' (Block.mapNodes h hb b)) = inkP q (blockPieces dw w y ind col b)) ∧
    (∀ i, Fit h q (ListItem.pre i) → ∀ ind col ind' col',
      inkP q (contentPieces dw' w' y' ind' col' (ListItem.mapNodes h hb i)) = inkP q (contentPieces dw w y ind col i)) ∧
    (∀ l, Fit h q (Block.preL l) → ∀ ind col ind' col' first,
      inkP q (blocksPieces dw' w' y' ind' col' first (Block.mapNodesL h hb l)) = inkP q (blocksPieces dw w y ind col first l)) ∧
    ∀ l, Fit h q (ListItem.preL l) → ∀ k i inner ind col inner' ind' col',
      inkP q (itemsPieces dw' w' y' k inner' ind' i col' (ListItem.mapNodesL h hb l)) = inkP q (itemsPieces dw w y k inner ind i col l) := by
  have key : ∀ {b : Block} {l c}, Fit h q (b :: l) → (∀ i ∈ Inline.preL c, i ∈ Inline.preL b.directInlines) →
      squeeze q (lineSource (Inline.mapNodesL h c)) = squeeze q (lineSource c) := fun {b l c} f k =>
    (source_changed L).2 c fun m t hm => f.apart b (List.mem_cons_self ..) m t (k _ hm)
  have inl : ∀ {b : Block} {l c}, Fit h q (b :: l) → (∀ i ∈ Inline.preL c, i ∈ Inline.preL b.directInlines) →
      ink q (inlinesPieces y'.digit (Inline.mapNodesL h c)) = ink q (inlinesPieces y.digit c) := fun {b l c} f k => by
    rw [(inline_source hq _).2, (inline_source hq _).2, key f k]
  have tl : ∀ {b : Block} {l : List Block}, Fit h q (b :: l) → Fit h q l := fun f => f.tail fun c hc => List.mem_cons_of_mem _ hc
  apply Block.ind
  case paragraph =>
    intro c k _ _ _ _
    simp only [Block.mapNodes]; rw [L.block _ fun t => by simp]; simp only [blockPieces, inkP_at]
    exact inl k fun _ h => h
  case heading =>
    intro v c k _ _ _ _
    have := inl (c := c) k fun _ h => h
    simp only [Block.mapNodes]; rw [L.block _ fun t => by simp]
    cases v <;> simp only [blockPieces, inkP_at, ink_append, ink_unbroken hq, this]
  case definition =>
    intro l d t k _ _ _ _
    have := inl (c := l) k fun _ h => h
    simp only [Block.mapNodes]; rw [L.block _ fun t => by simp]; simp only [blockPieces, inkP_at, ink_append, this]
  case blockQuote =>
    intro b ih k _ _ _ _
    have hg := k.quotes b (List.mem_cons_self ..)
    simp only [Block.mapNodes]; rw [L.block _ fun t => by simp]; simp only [blockPieces, inkP_at, quote_ink hq hg, ink_lay hq]
    exact ih (tl k) _ _ _ _ _
  case githubAlert =>
    intro v b ih k _ _ _ _
    have hg := k.alerts v b (List.mem_cons_self ..)
    simp only [Block.mapNodes]; rw [L.block _ fun t => by simp]; simp only [blockPieces, inkP_at, ink_onLines, List.map_cons, List.map_map, List.flatten_cons, hu]
    have e := alert_ink hq hg (lay dw 80 0 (blocksPieces dw w y 0 0 true b))
    have e' := alert_ink hq hg (lay dw' 80 0 (blocksPieces dw' w' y' 0 0 true (Block.mapNodesL h hb b)))
    simp only [Function.comp_def]
    rw [e, e', ink_lay hq, ink_lay hq]
    congr 1
    exact ih (tl k) _ _ _ _ _
  case list =>
    intro v i ih k _ _ _ _
    simp only [Block.mapNodes]; rw [L.block _ fun t => by simp]; simp only [blockPieces]
    exact ih (tl k) _ _ _ _ _ _ _ _
  case table =>
    intro rows al k ind col ind' col'
    have hd := k.tables rows al (List.mem_cons_self ..)
    simp only [Block.mapNodes]; rw [L.block _ fun t => by simp]; simp only [blockPieces, List.map_eq_nil_iff]
    split
    · rfl
    · simp only [inkP_at, ink, List.append_nil, join_squeeze]
      congr 1
      refine table_squeeze hq hd al _ _ ?_
      simp only [List.map_map]
      refine List.map_congr_left fun r hr => ?_
      simp only [Function.comp, List.map_map]
      refine List.map_congr_left fun c hc => ?_
      exact key k fun i hi => by
        simp only [Block.directInlines]
        exact Latex.preL_flatten (List.mem_flatten.2 ⟨r, hr, hc⟩) hi
  case footnoteDefinition =>
    intro l b ih k ind col ind' col'
    simp only [Block.mapNodes]; rw [L.block _ fun t => by simp]; simp only [blockPieces, inkP, List.map_cons, ink]
    congr 1
    exact ih (tl k) _ _ _ _ _
  case item =>
    intro t b ih k ind col ind' col'
    simp only [ListItem.mapNodes, contentPieces]
    exact ih k _ _ _ _ _
  case nilB => intro _ _ _ _ _ _; rfl
  case consB =>
    intro b l ihb ihl k ind col ind' col' first
    simp only [Block.mapNodesL, blocksPieces, inkP_append]
    rw [ihb (k.tail fun c hc => List.mem_append_left _ hc) ind col, ihl (k.tail fun c hc => List.mem_append_right _ hc) ind ind]
    congr 2
    cases first
    · simp only [Bool.false_eq_true, if_false, inkP_at, gap_ink]
    · rfl
  case nilI => intro _ _ _ _ _ _ _ _ _; rfl
  case consI =>
    intro b l ihb ihl k v i inner ind col inner' ind' col'
    have et : (ListItem.mapNodes h hb b).task = b.task := by cases b; rfl
    simp only [ListItem.mapNodesL, itemsPieces, inkP_append, inkP_at, et, item_ink hq y'.spaces y.spaces]
    rw [ihb (k.tail fun c hc => List.mem_append_left _ hc) inner (col + itemColumns y.spaces v i b.task),
      ihl (k.tail fun c hc => List.mem_append_right _ hc) v (i + 1) inner ind ind]
    congr 3
    split <;> rfl
  case empty => intros; simp only [Block.mapNodes]; rw [L.block _ fun t => by simp]; rfl
  case htmlBlock =>
    intro t _ _ _ _ _
    obtain ⟨t', e, k⟩ := L.html t
    simp only [Block.mapNodes, e, blockPieces, inkP_at, ink, k]
  case codeBlock =>
    intro v t _ _ _ _ _
    simp only [Block.mapNodes]; rw [L.block _ fun t => by simp]
    cases v <;> simp only [blockPieces, inkP_at]
  all_goals
    intros
    simp only [Block.mapNodes]; rw [L.block _ fun t => by simp]
    try simp only [blockPieces, inkP_at]

include L in
theorem printable (dw : Str → Nat) (sp : Nat) :
    (∀ b, Ragless (Block.pre b) → ∀ w ind col, Printable dw w sp ind col (Block.mapNodes h hb b) ↔ Printable dw w sp ind col b) ∧
    (∀ i, Ragless (ListItem.pre i) → ∀ w ind col, PrintableItem dw w sp ind col (ListItem.mapNodes h hb i) ↔ PrintableItem dw w sp ind col i) ∧
    (∀ l, Ragless (Block.preL l) → ∀ w ind col, PrintableL dw w sp ind col (Block.mapNodesL h hb l) ↔ PrintableL dw w sp ind col l) ∧
    ∀ l, Ragless (ListItem.preL l) → ∀ w k inner ind n col,
      PrintableItems dw w sp k inner ind n col (ListItem.mapNodesL h hb l) ↔ PrintableItems dw w sp k inner ind n col l := by
  have tl : ∀ {b : Block} {l : List Block}, Ragless (b :: l) → Ragless l := fun f r a hm => f r a (List.mem_cons_of_mem _ hm)
  have len : ∀ l : List ListItem, (ListItem.mapNodesL h hb l).length = l.length := by
    intro l
    induction l with
    | nil => rfl
    | cons i l ih => simp [ListItem.mapNodesL, ih]
  apply Block.ind
  case blockQuote =>
    intro b ih k w ind col
    simp only [Block.mapNodes]; rw [L.block _ fun t => by simp]; simp only [Printable, ih (tl k)]
  case githubAlert =>
    intro v b ih k w ind col
    simp only [Block.mapNodes]; rw [L.block _ fun t => by simp]; simp only [Printable, ih (tl k)]
  case footnoteDefinition =>
    intro l b ih k w ind col
    simp only [Block.mapNodes]; rw [L.block _ fun t => by simp]; simp only [Printable, ih (tl k)]
  case list =>
    intro v i ih k w ind col
    simp only [Block.mapNodes]; rw [L.block _ fun t => by simp]; simp only [Printable, ih (tl k), len]
  case table =>
    intro r a k w ind col
    have h1 := k r a (List.mem_cons_self ..)
    have h2 : ∀ u ∈ r.map (List.map (Inline.mapNodesL h)), u.length ≤ ((r.map (List.map (Inline.mapNodesL h))).headD []).length := by
      intro u hu
      obtain ⟨v, hv, rfl⟩ := List.mem_map.1 hu
      have := h1 v hv
      cases r <;> simp_all
    simp only [Block.mapNodes]; rw [L.block _ fun t => by simp]; simp only [Printable]
    exact ⟨fun _ => ragless_ok h1, fun _ => ragless_ok h2⟩
  case item =>
    intro t b ih k w ind col
    simp only [ListItem.mapNodes, PrintableItem, ih k]
  case nilB => intro _ _ _ _; rfl
  case consB =>
    intro b l ihb ihl k w ind col
    simp only [Block.mapNodesL, PrintableL]
    rw [ihb fun r a hm => k r a (List.mem_append_left _ hm), ihl fun r a hm => k r a (List.mem_append_right _ hm)]
  case nilI => intro _ _ _ _ _ _ _; rfl
  case consI =>
    intro b l ihb ihl k w v inner ind n col
    have et : (ListItem.mapNodes h hb b).task = b.task := by cases b; rfl
    simp only [ListItem.mapNodesL, PrintableItems, et]
    rw [ihb fun r a hm => k r a (List.mem_append_left _ hm), ihl fun r a hm => k r a (List.mem_append_right _ hm)]
  case htmlBlock =>
    intro t _ _ _ _
    obtain ⟨t', e, _⟩ := L.html t
    simp only [Block.mapNodes, e, Printable]
  all_goals
    intros
    simp only [Block.mapNodes]
    rw [L.block _ fun t => by simp]
    try rfl


include hq in
theorem local_set {p : Char → Bool} {f : Str → Str} (hf : ∀ t, squeeze p (f t) = squeeze p t) (hp : ∀ c, p c = true → q c = true)
    (k : Target) : Local q (k.setInline f) (k.setBlock f) := by
  have hf' : ∀ t, squeeze q (f t) = squeeze q t := fun t => by rw [← squeeze_twice hp (f t), ← squeeze_twice hp t, hf]
  refine ⟨fun i => ?_, fun l t => by cases k <;> rfl, fun b hb => ?_, fun t => ?_⟩
  · cases k <;> cases i <;> try rfl
    case text.text => simp only [Target.setInline, inlineSource, collapse_squeeze hq, hf']
    all_goals simp only [Target.setInline, inlineSource, squeeze_app, hf']
  · cases k <;> cases b <;> try rfl
    exact absurd rfl (hb _)
  · cases k
    case html => exact ⟨f t, rfl, hf' t⟩
    all_goals exact ⟨t, rfl, rfl⟩

theorem fit {g : Document → Document} (e : ∀ l, g ⟨[.paragraph l]⟩ = ⟨[.paragraph (Inline.mapNodesL h l)]⟩) {d : Document} (c : Comparable g q d) :
    Fit h q (Block.preL d.blocks) := by
  refine ⟨fun b hb m t hm k => c.apart m t ?_ ?_, fun b hb => c.quotes b ?_, fun v b hb => c.alerts v b ?_, fun r a hb => c.tables r a ?_⟩
  · rw [← Document.mem_allInlines]
    exact List.mem_flatMap.2 ⟨b, hb, hm⟩
  · rw [e, e, k]
  all_goals rw [← Document.mem_allBlocks]; exact hb

end Swap

/-- **C117.** If a function on strings changes only characters of the kind `p`, then `transform_text`, `transform_image_urls`,
`transform_link_urls`, `transform_autolink_urls`, `transform_code` and `transform_html` change only these characters and whitespace
in the Markdown (and `>` if there are quotes or alerts, and `-` if there are tables). -/
theorem C117_transform {p q : Char → Bool} {f : Str → Str} (hf : ∀ t, squeeze p (f t) = squeeze p t)
    (hq : ∀ c, isWs c = true → q c = true) (hp : ∀ c, p c = true → q c = true) {x x' : Ext} {cfg cfg' : Config}
    (hu : x'.toPExt.upperStr = x.toPExt.upperStr) (k : Target) {d : Document} {s s' : Str} (hd : Comparable (Document.transform k f) q d)
    (hs : renderMarkdown x cfg d = some s) (hs' : renderMarkdown x' cfg' (d.transform k f) = some s') :
    squeeze q s' = squeeze q s := by
  have L := Swap.local_set hq hf hp k
  rw [Exact.C86_exact] at hs hs'
  rw [hs.2, hs'.2, Document.transform_eq]
  unfold Spec.markdownText
  rw [Latex.ink_lay hq, Latex.ink_lay hq]
  refine (Swap.block_ink hq L x.dw x'.dw cfg.width cfg'.width (style x cfg) (style x' cfg') hu).2.2.1 d.blocks
    (Swap.fit (fun l => ?_) hd) 0 0 0 0 true
  rw [Document.transform_eq]
  simp only [Document.mapNodes, Block.mapNodesL, Block.mapNodes]
  rw [L.block _ fun t => by simp]

/-- **C117**: a document without a table that has a row longer than its header has a Markdown text after a transform exactly if
it has one before, whatever the function. -/
theorem C117_printed (x : Ext) (cfg : Config) (k : Target) (f : Str → Str) {d : Document}
    (hr : ∀ rows al, d.HasBlock (.table rows al) → ∀ r ∈ rows, r.length ≤ (rows.headD []).length) :
    (∃ s, renderMarkdown x cfg (d.transform k f) = some s) ↔ ∃ s, renderMarkdown x cfg d = some s := by
  have L : Swap.Local (fun _ => true) (k.setInline f) (k.setBlock f) :=
    Swap.local_set (p := fun _ => true) (q := fun _ => true) (fun _ _ => rfl) (by simp [squeeze]) (fun _ _ => rfl) k
  rw [Document.transform_eq]
  simp only [Exact.C86_exact, exists_and_left, exists_eq, and_true]
  exact (Swap.printable L x.dw cfg.spacesBeforeListItem).2.2.1 d.blocks (fun r a hm => hr r a (by rw [← Document.mem_allBlocks]; exact hm)) _ _ _

/-- **C117**, a document that meets the hypotheses for every kind of transform. -/
theorem C117_example :
    let d : Document := ⟨[.paragraph [.text cs!"ta ", .link cs!"la" none [.text cs!"ta"], .image cs!"ia" none cs!"aa", .autolink cs!"ua",
      .code cs!"ca", .html cs!"<a>"], .htmlBlock cs!"<ba>", .codeBlock .indented cs!"ka"]⟩
    let f := fun t : Str => t.filter (· != 'a')
    let q := fun c : Char => isWs c || c == 'a'
    let md (k : Target) := renderMarkdown Ext.ascii Config.default (d.transform k f)
    (∀ k, Comparable (Document.transform k f) q d) ∧ (∀ t, squeeze (· == 'a') (f t) = squeeze (· == 'a') t) ∧
    (∀ c, isWs c = true → q c = true) ∧ (∀ c, (c == 'a') = true → q c = true) ∧
    renderMarkdown Ext.ascii Config.default d = some cs!"ta [ta](la)![aa](ia)<ua>`ca`<a>\n\n<ba>\n\n    ka" ∧
    md .text = some cs!"t [t](la)![aa](ia)<ua>`ca`<a>\n\n<ba>\n\n    ka" ∧
    md .linkUrl = some cs!"ta [ta](l)![aa](ia)<ua>`ca`<a>\n\n<ba>\n\n    ka" ∧
    md .imageUrl = some cs!"ta [ta](la)![aa](i)<ua>`ca`<a>\n\n<ba>\n\n    ka" ∧
    md .autolink = some cs!"ta [ta](la)![aa](ia)<u>`ca`<a>\n\n<ba>\n\n    ka" ∧
    md .code = some cs!"ta [ta](la)![aa](ia)<ua>`c`<a>\n\n<ba>\n\n    ka" ∧
    md .html = some cs!"ta [ta](la)![aa](ia)<ua>`ca`<>\n\n<b>\n\n    ka" := by
  refine ⟨fun k => ⟨fun l t hi _ => ?_, fun b hb => ?_, fun v b hb => ?_, fun r a hb => ?_⟩, fun t => ?_, fun c h => by simp [h], fun c h => by simp_all,
    by decide +kernel, by decide +kernel, by decide +kernel, by decide +kernel, by decide +kernel, by decide +kernel, by decide +kernel⟩
  · rw [← Document.mem_allInlines] at hi
    simp [Document.allInlines, Document.allBlocks, Block.preL, Block.pre, Block.directInlines, Inline.preL, Inline.pre] at hi
  · rw [← Document.mem_allBlocks] at hb
    simp [Document.allBlocks, Block.preL, Block.pre] at hb
  · rw [← Document.mem_allBlocks] at hb
    simp [Document.allBlocks, Block.preL, Block.pre] at hb
  · rw [← Document.mem_allBlocks] at hb
    simp [Document.allBlocks, Block.preL, Block.pre] at hb
  · simp only [squeeze, List.filter_filter]
    refine List.filter_congr fun c _ => ?_
    by_cases h : c = 'a' <;> simp [h]

end Md
end Verif
