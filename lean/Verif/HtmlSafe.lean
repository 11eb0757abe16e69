import Verif.HtmlAnchors
/-!
# C102: what the HTML of a text can do

Which elements and attributes the HTML of a document can have, and where its addresses come from.  There are no scripts,
styles, frames, forms, event handlers or identifiers; every address is one of the document, or points to a footnote.
-/
set_option autoImplicit false
namespace Verif

/-! ## Specification -/

/-- The address that the inline links to or loads. -/
def Inline.address : Inline → Option Str
  | .link u _ _ => some u
  | .image u _ _ => some u
  | .autolink u => some u
  | _ => none

/-- An address that is in the document. -/
def Document.HasAddress (d : Document) (u : Str) : Prop :=
  (∃ i, d.HasInline i ∧ i.address = some u) ∨ ∃ l t, d.HasBlock (.definition l u t)

namespace Html

/-- The elements and their attributes. -/
def harmless : List (Str × List Str) :=
  [(cs!"p", [cs!"class"]), (cs!"h1", []), (cs!"h2", []), (cs!"h3", []), (cs!"h4", []), (cs!"h5", []), (cs!"h6", []),
   (cs!"br", []), (cs!"hr", []), (cs!"code", []), (cs!"pre", []), (cs!"em", []), (cs!"b", []), (cs!"s", []),
   (cs!"blockquote", []), (cs!"ul", [cs!"class"]), (cs!"ol", [cs!"start"]), (cs!"li", []), (cs!"table", []),
   (cs!"thead", []), (cs!"tbody", []), (cs!"tr", []), (cs!"th", [cs!"class"]), (cs!"td", [cs!"class"]),
   (cs!"div", [cs!"class"]), (cs!"span", [cs!"class"]), (cs!"a", [cs!"class", cs!"href", cs!"title"]),
   (cs!"img", [cs!"src", cs!"alt", cs!"title"]),
   (cs!"svg", [cs!"class", cs!"viewBox", cs!"version", cs!"width", cs!"height", cs!"aria-hidden"]), (cs!"path", [cs!"d"])]

/-- The classes. -/
def classes : List Str :=
  [cs!"markdown-footnote-reference", cs!"markdown-footnote-definition", cs!"markdown-footnote-definition-index",
   cs!"markdown-footnote-definition-content", cs!"markdown-table-align-left", cs!"markdown-table-align-right",
   cs!"markdown-table-align-center", cs!"markdown-list-kind-dash", cs!"markdown-list-kind-star",
   cs!"markdown-list-kind-plus", cs!"markdown-list-task-complete", cs!"markdown-list-task-incomplete",
   cs!"markdown-alert-title", cs!"markdown-alert markdown-alert-note", cs!"markdown-alert markdown-alert-tip",
   cs!"markdown-alert markdown-alert-important", cs!"markdown-alert markdown-alert-warning",
   cs!"markdown-alert markdown-alert-caution", cs!"markdown-alert markdown-alert-custom",
   cs!"octicon octicon-info mr-2", cs!"octicon octicon-light-bulb mr-2", cs!"octicon octicon-report mr-2",
   cs!"octicon octicon-alert mr-2", cs!"octicon octicon-stop mr-2"]

/-- An element is harmless: its name and attributes are listed, its classes too, and its addresses are some of `U` or
point to a footnote.  (The addresses are encoded once more than they should, see C22.) -/
structure Harmless (U : Str → Prop) (anchor : Str) (name : Str) (attrs : List (Str × Str)) : Prop where
  listed : ∃ names, (name, names) ∈ harmless ∧ ∀ a ∈ attrs, a.1 ∈ names
  classes : ∀ v, (cs!"class", v) ∈ attrs → v ∈ classes
  addresses : ∀ k v, k = cs!"href" ∨ k = cs!"src" → (k, v) ∈ attrs →
    (∃ u, U u ∧ v = encode u) ∨ ∃ n, v = encode (cs!"#" ++ anchor ++ decimal n)

/-- There are no scripts, styles, frames, forms or other active elements, and no event handlers, inline styles or
identifiers among them. -/
example : (∀ e ∈ harmless, e.1 ∉ [cs!"script", cs!"style", cs!"iframe", cs!"object", cs!"embed", cs!"form", cs!"input",
      cs!"button", cs!"link", cs!"meta", cs!"base", cs!"html", cs!"body"]) ∧
    ∀ e ∈ harmless, ∀ a ∈ e.2, a.take 2 ≠ cs!"on" ∧ a ≠ cs!"style" ∧ a ≠ cs!"id" ∧ a ≠ cs!"srcdoc" := by decide +kernel

/-! ## Proof -/

/-- All elements are harmless. -/
def AllHarmless (U : Str → Prop) (anchor : Str) (l : List Node) : Prop :=
  ∀ name attrs children, Inside (.el name attrs children) l → Harmless U anchor name attrs

section
variable {U : Str → Prop} {anchor : Str}

theorem AllHarmless.nil : AllHarmless U anchor [] := fun _ _ _ h => absurd h inside_nil
theorem AllHarmless.append {l r : List Node} (hl : AllHarmless U anchor l) (hr : AllHarmless U anchor r) :
    AllHarmless U anchor (l ++ r) := by
  intro n a c h
  rcases inside_append.1 h with h | h
  · exact hl n a c h
  · exact hr n a c h
theorem AllHarmless.el {name : Str} {attrs : List (Str × Str)} {l : List Node} (h : Harmless U anchor name attrs)
    (hl : AllHarmless U anchor l) : AllHarmless U anchor [.el name attrs l] := by
  intro n a c hi
  rcases inside_el.1 hi with hi | hi
  · simp only [Node.el.injEq] at hi
    rw [hi.1, hi.2.1]
    exact h
  · exact hl n a c hi
theorem AllHarmless.chars (s : Str) : AllHarmless U anchor (chars s) := by
  intro n a c h
  cases h with
  | here h => obtain ⟨_, h⟩ := TextOnly.chars s _ h; cases h
  | deeper h _ => obtain ⟨_, h⟩ := TextOnly.chars s _ h; cases h
theorem AllHarmless.raw (s : Str) : AllHarmless U anchor [.raw s] := by
  intro n a c h
  cases h with
  | here h => simp at h
  | deeper h _ => simp at h
theorem AllHarmless.of_all {l : List Node} (h : ∀ n ∈ l, AllHarmless U anchor [n]) : AllHarmless U anchor l := by
  induction l with
  | nil => exact .nil
  | cons n l ih => exact AllHarmless.append (l := [n]) (h n (by simp)) (ih fun m hm => h m (by simp [hm]))

theorem harmless_bare {name : Str} {names : List Str} (h : (name, names) ∈ harmless) : Harmless U anchor name [] :=
  ⟨⟨names, h, by simp⟩, by simp, by simp⟩

theorem harmless_class {name v : Str} {names : List Str} (h : (name, names) ∈ harmless) (hn : cs!"class" ∈ names)
    (hv : v ∈ classes) : Harmless U anchor name [(cs!"class", v)] :=
  ⟨⟨names, h, by simpa using hn⟩, by simpa using hv, by
    intro k v hk h
    simp only [List.mem_singleton, Prod.mk.injEq] at h
    rcases hk with rfl | rfl
    · exact absurd h.1 (by decide)
    · exact absurd h.1 (by decide)⟩

theorem harmless_link {u : Str} {t : Option Str} (hu : U u) : Harmless U anchor cs!"a" (linkAttrs u t) := by
  refine ⟨⟨[cs!"class", cs!"href", cs!"title"], by decide, ?_⟩, ?_, ?_⟩
  · intro a ha
    cases t <;> simp only [linkAttrs, Option.toList, List.map_nil, List.map_cons, List.mem_cons, List.not_mem_nil, or_false] at ha
    · rw [ha]; simp
    · rcases ha with rfl | rfl <;> simp
  · intro v hv
    cases t <;> simp [linkAttrs] at hv
  · intro k v hk hv
    left
    refine ⟨u, hu, ?_⟩
    cases t <;> simp only [linkAttrs, Option.toList, List.map_nil, List.map_cons, List.mem_cons, List.not_mem_nil, or_false,
      Prod.mk.injEq] at hv
    · exact hv.2
    · rcases hv with hv | hv
      · exact hv.2
      · rcases hk with rfl | rfl
        · exact absurd hv.1 (by decide)
        · exact absurd hv.1 (by decide)

theorem harmless_image {u a : Str} {t : Option Str} (hu : U u) : Harmless U anchor cs!"img"
    ((cs!"src", encode u) :: (cs!"alt", encode a) :: t.toList.map fun t => (cs!"title", encode t)) := by
  refine ⟨⟨[cs!"src", cs!"alt", cs!"title"], by decide, ?_⟩, ?_, ?_⟩
  · intro b hb
    cases t <;> simp only [Option.toList, List.map_nil, List.map_cons, List.mem_cons, List.not_mem_nil, or_false] at hb
    · rcases hb with rfl | rfl <;> simp
    · rcases hb with rfl | rfl | rfl <;> simp
  · intro v hv
    cases t <;> simp at hv
  · intro k v hk hv
    left
    refine ⟨u, hu, ?_⟩
    have no : ∀ {n : Str}, n = cs!"alt" ∨ n = cs!"title" → k ≠ n := by
      rintro n (rfl | rfl) rfl <;> rcases hk with h | h <;> exact absurd h (by decide)
    cases t <;> simp only [Option.toList, List.map_nil, List.map_cons, List.mem_cons, List.not_mem_nil, or_false,
      Prod.mk.injEq] at hv
    · rcases hv with hv | hv
      · exact hv.2
      · exact absurd hv.1 (no (.inl rfl))
    · rcases hv with hv | hv | hv
      · exact hv.2
      · exact absurd hv.1 (no (.inl rfl))
      · exact absurd hv.1 (no (.inr rfl))

theorem inline_harmless (x : Context) (ha : x.anchor = anchor) (hd : ∀ l u t, x.defs l = some (u, t) → U u) :
    (∀ i : Inline, (∀ k : Inline, k.Within i → ∀ u, k.address = some u → U u) → AllHarmless U anchor (inlineNodes x i)) ∧
    ∀ l : List Inline, (∀ i ∈ l, ∀ k : Inline, k.Within i → ∀ u, k.address = some u → U u) →
      AllHarmless U anchor (inlinesNodes x l) := by
  apply Inline.ind
  case text => intro s _; exact .chars s
  case lineBreak => intro _; exact .el (harmless_bare (names := []) (by decide)) .nil
  case code => intro s _; exact .el (harmless_bare (names := []) (by decide)) (.chars s)
  case html => intro s _; exact .raw s
  case emphasis => intro c ih h; exact .el (harmless_bare (names := []) (by decide)) (ih fun i hi m hm => h m (.child _ _ _ hi hm))
  case strong => intro c ih h; exact .el (harmless_bare (names := []) (by decide)) (ih fun i hi m hm => h m (.child _ _ _ hi hm))
  case strikethrough =>
    intro c ih h; exact .el (harmless_bare (names := []) (by decide)) (ih fun i hi m hm => h m (.child _ _ _ hi hm))
  case link =>
    intro d t c ih h
    exact .el (harmless_link (h _ (.self _) d rfl)) (ih fun i hi m hm => h m (.child _ _ _ hi hm))
  case image => intro d t a h; exact .el (harmless_image (h _ (.self _) d rfl)) .nil
  case autolink => intro l h; exact .el (harmless_link (h _ (.self _) l rfl)) (.chars l)
  case footnoteReference =>
    intro l h
    simp only [inlineNodes]
    split
    · rename_i n _
      refine .el ⟨⟨[cs!"class", cs!"href", cs!"title"], by decide, ?_⟩, ?_, ?_⟩ (.chars _)
      · intro a ha
        simp only [List.mem_cons, List.not_mem_nil, or_false] at ha
        rcases ha with rfl | rfl <;> simp
      · intro v hv
        simp only [List.mem_cons, List.not_mem_nil, or_false, Prod.mk.injEq] at hv
        rcases hv with hv | hv
        · rw [hv.2]; decide
        · exact absurd hv.1 (by decide)
      · intro k v hk hv
        simp only [List.mem_cons, List.not_mem_nil, or_false, Prod.mk.injEq] at hv
        rcases hv with hv | hv
        · rcases hk with rfl | rfl <;> exact absurd hv.1 (by decide)
        · exact .inr ⟨n, by rw [hv.2, ha]⟩
    · exact .nil
  case linkReference =>
    intro l t _ ih h
    simp only [inlineNodes]
    split
    · rename_i e
      exact .el (harmless_link (hd _ _ _ e)) (ih fun i hi m hm => h m (.child _ _ _ (List.mem_append_right _ hi) hm))
    · exact .nil
  case empty => intro _; exact .nil
  case nil => intro _; exact .nil
  case cons =>
    intro i l hi hl h
    exact (hi (h i (by simp))).append (hl fun j hj => h j (by simp [hj]))

/-- The addresses in the block are in `U`. -/
def AddressedIn (U : Str → Prop) (b : Block) : Prop := ∀ c : Block, c.Within b → ∀ i ∈ c.directInlines, ∀ k : Inline, k.Within i →
  ∀ u, k.address = some u → U u

theorem AddressedIn.sub {b c : Block} (h : AddressedIn U b) (hc : c ∈ b.childBlocks) : AddressedIn U c :=
  fun e he => h e (.child _ _ _ hc he)

theorem block_harmless (x : Context) (ha : x.anchor = anchor) (hd : ∀ l u t, x.defs l = some (u, t) → U u)
    (hi : ∀ t, IsIcon t (x.icon t)) (ht : ∀ t, AllHarmless U anchor (x.title t)) :
    (∀ b, AddressedIn U b → AllHarmless U anchor (blockNodes x b)) ∧
    (∀ i : ListItem, (∀ b ∈ i.blocks, AddressedIn U b) → AllHarmless U anchor [itemNode x i]) ∧
    (∀ l, (∀ b ∈ l, AddressedIn U b) → AllHarmless U anchor (blocksNodes x l)) ∧
    ∀ l : List ListItem, (∀ i ∈ l, ∀ b ∈ i.blocks, AddressedIn U b) → AllHarmless U anchor (itemsNodes x l) := by
  have inl : ∀ {b : Block}, AddressedIn U b → ∀ c, (∀ i ∈ c, i ∈ b.directInlines) → AllHarmless U anchor (inlinesNodes x c) :=
    fun h c hc => (inline_harmless x ha hd).2 c fun i hi => h _ (.self _) i (hc i hi)
  apply Block.ind
  case paragraph => intro c h; exact .el (harmless_bare (names := [cs!"class"]) (by decide)) (inl h c fun i hi => hi)
  case heading =>
    intro k c h
    refine .el ?_ (inl h c fun i hi => hi)
    have hk := heading_name k
    simp only [List.mem_cons, List.not_mem_nil, or_false] at hk
    rcases hk with e | e | e | e | e | e <;> rw [e] <;> exact harmless_bare (names := []) (by decide)
  case thematicBreak => intro _; exact .el (harmless_bare (names := []) (by decide)) .nil
  case blockQuote => intro b ih h; exact .el (harmless_bare (names := []) (by decide)) (ih fun c hc => h.sub hc)
  case list =>
    intro k i ih h
    have := ih fun j hj b hb => h.sub (by simp only [Block.childBlocks, List.mem_flatMap]; exact ⟨j, hj, hb⟩)
    cases k with
    | ordered n =>
      refine .el ⟨⟨[cs!"start"], by decide, by simp⟩, by simp, ?_⟩ this
      intro k v hk hv
      simp only [List.mem_singleton, Prod.mk.injEq] at hv
      rcases hk with rfl | rfl <;> exact absurd hv.1 (by decide)
    | bullet k => cases k <;> exact .el (harmless_class (names := [cs!"class"]) (by decide) (by decide) (by decide)) this
  case codeBlock =>
    intro k s _
    exact .el (harmless_bare (names := []) (by decide)) (.el (harmless_bare (names := []) (by decide)) (.chars s))
  case htmlBlock => intro s _; exact .raw s
  case definition => intro l d t _; exact .nil
  case table =>
    intro rows al h
    have hr : ∀ cell, (cell, [cs!"class"]) ∈ harmless → ∀ rs : List (List (List Inline)), (∀ r ∈ rs, r ∈ rows) →
        AllHarmless U anchor (rs.map (rowNode x cell al)) := by
      intro cell hc rs hrs
      refine .of_all fun n hn => ?_
      obtain ⟨r, hr, rfl⟩ := List.mem_map.1 hn
      refine .el (harmless_bare (names := []) (by decide)) (.of_all fun m hm => ?_)
      obtain ⟨i, hi, rfl⟩ := List.mem_mapIdx.1 hm
      refine .el (harmless_class hc (by decide) ?_) (inl h _ fun j hj => ?_)
      · have : ∀ a : Alignment, alignClass a ∈ classes := by intro a; cases a <;> decide
        exact this _
      · simp only [Block.directInlines, List.mem_flatten]
        exact ⟨r[i], ⟨r, hrs r hr, List.getElem_mem hi⟩, hj⟩
    have h1 := hr cs!"th" (by decide) rows.head?.toList fun r hr => List.mem_of_mem_head? (Option.mem_toList.1 hr)
    have h2 := hr cs!"td" (by decide) rows.tail fun r hr => List.mem_of_mem_tail hr
    exact .el (harmless_bare (names := []) (by decide)) (AllHarmless.append (l := [_])
      (.el (harmless_bare (names := []) (by decide)) h1) (.el (harmless_bare (names := []) (by decide)) h2))
  case footnoteDefinition =>
    intro l b ih h
    have k : ∀ {name v}, (name, [cs!"class"]) ∈ harmless → v ∈ classes → Harmless U anchor name [(cs!"class", v)] :=
      fun h1 h2 => harmless_class h1 (by decide) h2
    simp only [blockNodes]
    split
    · exact .el (k (by decide) (by decide)) (AllHarmless.append (l := [_]) (.el (k (by decide) (by decide)) (.chars _))
        (.el (k (by decide) (by decide)) (ih fun c hc => h.sub hc)))
    · exact .nil
  case githubAlert =>
    intro t b ih h
    obtain ⟨path, hp⟩ := hi t
    have k : ∀ {name v}, (name, [cs!"class"]) ∈ harmless → v ∈ classes → Harmless U anchor name [(cs!"class", v)] :=
      fun h1 h2 => harmless_class h1 (by decide) h2
    refine .el (k (by decide) ?_) (AllHarmless.append (l := [_]) (.el (k (by decide) (by decide)) ?_) (ih fun c hc => h.sub hc))
    · cases t <;> simp only [alertKind] <;> decide
    · refine AllHarmless.append (l := [_]) ?_ (ht t)
      rw [hp]
      refine .el ⟨⟨[cs!"class", cs!"viewBox", cs!"version", cs!"width", cs!"height", cs!"aria-hidden"], by decide, ?_⟩,
        ?_, ?_⟩ (.el ⟨⟨[cs!"d"], by decide, by simp⟩, by simp, ?_⟩ .nil)
      · intro a ha
        simp only [List.mem_cons, List.not_mem_nil, or_false] at ha
        rcases ha with rfl | rfl | rfl | rfl | rfl | rfl <;> simp
      · intro v hv
        simp only [List.mem_cons, List.not_mem_nil, or_false, Prod.mk.injEq] at hv
        rcases hv with hv | hv | hv | hv | hv | hv
        · rw [hv.2]; cases t <;> simp only [iconKind] <;> decide
        all_goals exact absurd hv.1 (by decide)
      · intro k v hk hv
        simp only [List.mem_cons, List.not_mem_nil, or_false, Prod.mk.injEq] at hv
        rcases hk with rfl | rfl <;> rcases hv with hv | hv | hv | hv | hv | hv <;> exact absurd hv.1 (by decide)
      · intro k v hk hv
        simp only [List.mem_singleton, Prod.mk.injEq] at hv
        rcases hk with rfl | rfl <;> exact absurd hv.1 (by decide)
  case empty => intro _; exact .nil
  case item =>
    intro t b ih h
    refine .el (harmless_bare (names := []) (by decide)) (AllHarmless.append ?_ (ih h))
    cases t with
    | none => exact .nil
    | some t => cases t <;> exact .el (harmless_class (names := [cs!"class"]) (by decide) (by decide) (by decide)) (.chars _)
  case nilB => intro _; exact .nil
  case consB =>
    intro b l hb hl h
    exact (hb (h b (by simp))).append (hl fun j hj => h j (by simp [hj]))
  case nilI => intro _; exact .nil
  case consI =>
    intro i l hb hl h
    exact AllHarmless.append (l := [_]) (hb (h i (by simp))) (hl fun j hj => h j (by simp [hj]))

theorem title_harmless (t : AlertType) : AllHarmless U anchor (titleNodes t) := by
  cases t with
  | custom s =>
    simp only [titleNodes]
    split
    · exact .raw s
    · exact .chars s
  | _ => exact .chars _

end

theorem lastDefinition_address {d : Document} {l : List Inline} {u : Str} {t : Option Str}
    (h : lastDefinition d l = some (u, t)) : d.HasAddress u := by
  simp only [lastDefinition, Option.map_eq_some_iff] at h
  obtain ⟨e, he, h2⟩ := h
  have hm := List.mem_of_find?_eq_some he
  simp only [linkDefinitions, List.mem_reverse, List.mem_filterMap] at hm
  obtain ⟨b, hb, hbe⟩ := hm
  right
  cases b <;> simp at hbe
  rename_i l' u' t'
  subst hbe
  simp only [Prod.mk.injEq] at h2
  rw [← h2.1]
  exact ⟨l', t', (Document.mem_allBlocks _ _).1 hb⟩

/-- **C102.** The HTML of a document without raw HTML, however it is read, has only harmless elements, with harmless
attributes, whose addresses are in the document. -/
theorem C102_harmless (dw : Str → Nat) (d : Document) (cfg : Config) (out : Str) (hc : Clean d)
    (ho : renderHtml dw d cfg = some out) (l : List Node) (hl : Reads False out l) (name : Str)
    (attrs : List (Str × Str)) (children : List Node) (h : Inside (.el name attrs children) l) :
    Harmless d.HasAddress cfg.anchorPrefix name attrs := by
  obtain ⟨icon, hi, hu⟩ := C58_unique dw d cfg out hc ho
  rw [(hu l).1 hl] at h
  exact (block_harmless ⟨footnoteNumber d, lastDefinition d, cfg.anchorPrefix, icon, titleNodes⟩ rfl
    (fun _ _ _ => lastDefinition_address) hi title_harmless).2.2.1 d.blocks
    (fun b hb c hc i hi k hk u hu => .inl ⟨k, ⟨c, ⟨b, hb, hc⟩, i, hi, hk⟩, hu⟩) name attrs children h

/-- **C102.** So for every input, if HTML blocks are not parsed: it is rendered, and can be read in just one way, with
harmless elements only. -/
theorem C102_text {x : PExt} {pc : PConfig} (hp : pc.Plain) (hh : pc.htmlBlock ≠ .parse) (ht : pc.text ≠ .ignore)
    (hpa : pc.paragraph ≠ .ignore) (dw : Str → Nat) (cfg : Config)
    (s : Str) : ∃ d out l, parseMarkdown x pc s = some d ∧ renderHtml dw d cfg = some out ∧
      (∀ l', Reads False out l' ↔ l' = l) ∧ NestsWell l ∧
      ∀ name attrs children, Inside (.el name attrs children) l → Harmless d.HasAddress cfg.anchorPrefix name attrs := by
  obtain ⟨d, h⟩ := C32_parse_total_of_config (x := x) (plain_ok hp) ht hpa s
  obtain ⟨out, ho⟩ := C42_html_no_panic hp h dw cfg
  have hc := parsed_clean hp h hh
  obtain ⟨icon, hi, hu⟩ := C58_unique dw d cfg out hc ho
  exact ⟨d, out, _, h, ho, hu, (C99_clean dw d cfg out hc ho).2 _ ((hu _).2 rfl),
    fun n a c hin => C102_harmless dw d cfg out hc ho _ ((hu _).2 rfl) n a c hin⟩

/-- **C102**, a case: a script is text if HTML blocks are ignored. -/
theorem C102_example : ({ PConfig.default (fun _ => none) with htmlBlock := .ignore } : PConfig).Plain ∧
    (parseMarkdown PExt.ascii { PConfig.default (fun _ => none) with htmlBlock := .ignore }
      cs!"<script>a</script>\n![b](c \"' onload='\")").bind (renderHtml List.length · Config.default) =
      some cs!"<p>&lt;script&gt;a&lt;/script&gt;\n<img src=\"c\" alt=\"b\" title=\"&amp;apos; onload=&amp;apos;\"></img></p>" := by
  refine ⟨?_, by decide +kernel⟩
  constructor <;> first | trivial | rfl

/-- **C102**: addresses are not looked at, whatever they make the browser do. -/
theorem C102_script : (parseMarkdown PExt.ascii (PConfig.default fun _ => none) cs!"[a](javascript:b)").bind
    (renderHtml List.length · Config.default) = some cs!"<p><a href=\"javascript:b\">a</a></p>" := by decide +kernel

end Html
end Verif
