import Verif.HtmlNesting
import Verif.LinkNesting
import Verif.Needs
import Verif.EndToEnd
/-!
# C99: links in links

HTML wants no `a` element inside another.  The renderer nests them exactly as the document does, and a text without escaped
closing brackets and autolinks gives none.
-/
set_option autoImplicit false
namespace Verif

/-- The inlines that are rendered as `a` elements. -/
def Inline.Anchors : Inline → Prop
  | .link _ _ _ => True
  | .linkReference _ _ => True
  | .footnoteReference _ => True
  | .autolink _ => True
  | _ => False

/-- No link (inline or by reference) of the document contains a link of any kind. -/
def Document.SimpleLinks (d : Document) : Prop :=
  ∀ i, d.HasInline i → i.IsLink → ∀ j ∈ i.children, ∀ k : Inline, k.Within j → ¬ k.Anchors

theorem Inline.Within.through {i j k : Inline} (h : k.Within i) (hw : i.Within j) : k.Within j := by
  induction hw with
  | self => exact h
  | child _ _ hk _ ih => exact .child _ _ _ hk ih

namespace Html

/-- There is no `a` element. -/
def Anchorless (l : List Node) : Prop := ∀ attrs children, ¬ Inside (.el cs!"a" attrs children) l

/-- No `a` element is inside another. -/
def AnchorsApart (l : List Node) : Prop :=
  ∀ attrs children, Inside (.el cs!"a" attrs children) l → Anchorless children

theorem inside_append {n : Node} {l r : List Node} : Inside n (l ++ r) ↔ Inside n l ∨ Inside n r := by
  constructor
  · intro h
    cases h with
    | here h => rcases List.mem_append.1 h with h | h; exact .inl (.here h); exact .inr (.here h)
    | deeper h h' => rcases List.mem_append.1 h with h | h; exact .inl (.deeper h h'); exact .inr (.deeper h h')
  · rintro (h | h)
    · cases h with
      | here h => exact .here (List.mem_append_left _ h)
      | deeper h h' => exact .deeper (List.mem_append_left _ h) h'
    · cases h with
      | here h => exact .here (List.mem_append_right _ h)
      | deeper h h' => exact .deeper (List.mem_append_right _ h) h'

theorem inside_nil {n : Node} : ¬ Inside n [] := by
  intro h
  cases h with
  | here h => cases h
  | deeper h _ => cases h

theorem inside_el {n : Node} {name : Str} {attrs : List (Str × Str)} {l : List Node} :
    Inside n [.el name attrs l] ↔ n = .el name attrs l ∨ Inside n l := by
  constructor
  · intro h
    cases h with
    | here h => exact .inl (List.mem_singleton.1 h)
    | deeper h h' =>
      simp only [List.mem_singleton, Node.el.injEq] at h
      obtain ⟨rfl, rfl, rfl⟩ := h
      exact .inr h'
  · rintro (h | h)
    · exact .here (List.mem_singleton.2 h)
    · exact .deeper (List.mem_singleton.2 rfl) h

theorem Anchorless.nil : Anchorless [] := fun _ _ => inside_nil
theorem Anchorless.append {l r : List Node} (hl : Anchorless l) (hr : Anchorless r) : Anchorless (l ++ r) := by
  intro a c h
  rcases inside_append.1 h with h | h
  · exact hl a c h
  · exact hr a c h
theorem Anchorless.el {name : Str} {attrs : List (Str × Str)} {l : List Node} (hn : name ≠ cs!"a") (hl : Anchorless l) :
    Anchorless [.el name attrs l] := by
  intro a c h
  rcases inside_el.1 h with h | h
  · simp only [Node.el.injEq] at h
    exact hn h.1.symm
  · exact hl a c h
theorem Anchorless.chars (s : Str) : Anchorless (chars s) := by
  intro a c h
  cases h with
  | here h => obtain ⟨_, h⟩ := TextOnly.chars s _ h; cases h
  | deeper h _ => obtain ⟨_, h⟩ := TextOnly.chars s _ h; cases h
theorem Anchorless.raw (s : Str) : Anchorless [.raw s] := by
  intro a c h
  cases h with
  | here h => simp at h
  | deeper h _ => simp at h

theorem Anchorless.apart {l : List Node} (h : Anchorless l) : AnchorsApart l := fun a c hi => absurd hi (h a c)
theorem AnchorsApart.append {l r : List Node} (hl : AnchorsApart l) (hr : AnchorsApart r) : AnchorsApart (l ++ r) := by
  intro a c h
  rcases inside_append.1 h with h | h
  · exact hl a c h
  · exact hr a c h
theorem AnchorsApart.el {name : Str} {attrs : List (Str × Str)} {l : List Node} (hn : name ≠ cs!"a")
    (hl : AnchorsApart l) : AnchorsApart [.el name attrs l] := by
  intro a c h
  rcases inside_el.1 h with h | h
  · simp only [Node.el.injEq] at h
    exact absurd h.1.symm hn
  · exact hl a c h
theorem AnchorsApart.anchor {attrs : List (Str × Str)} {l : List Node} (hl : Anchorless l) :
    AnchorsApart [.el cs!"a" attrs l] := by
  intro a c h
  rcases inside_el.1 h with h | h
  · simp only [Node.el.injEq] at h
    rw [h.2.2]
    exact hl
  · exact absurd h (hl a c)
theorem AnchorsApart.of_all {l : List Node} (h : ∀ n ∈ l, AnchorsApart [n]) : AnchorsApart l := by
  induction l with
  | nil => exact Anchorless.nil.apart
  | cons n l ih => exact AnchorsApart.append (l := [n]) (h n (by simp)) (ih fun m hm => h m (by simp [hm]))

theorem inline_anchorless (x : Context) :
    (∀ i : Inline, (∀ k : Inline, k.Within i → ¬ k.Anchors) → Anchorless (inlineNodes x i)) ∧
    ∀ l : List Inline, (∀ j ∈ l, ∀ k : Inline, k.Within j → ¬ k.Anchors) → Anchorless (inlinesNodes x l) := by
  have sub : ∀ {i : Inline}, (∀ k : Inline, k.Within i → ¬ k.Anchors) → ∀ j ∈ i.children, ∀ k : Inline, k.Within j → ¬ k.Anchors :=
    fun h j hj k hk => h k (.child _ _ _ hj hk)
  apply Inline.ind
  case text => intro s _; exact .chars s
  case lineBreak => intro _; exact .el (by decide) .nil
  case code => intro s _; exact .el (by decide) (.chars s)
  case html => intro s _; exact .raw s
  case emphasis => intro c ih h; exact .el (by decide) (ih (sub h))
  case strong => intro c ih h; exact .el (by decide) (ih (sub h))
  case strikethrough => intro c ih h; exact .el (by decide) (ih (sub h))
  case link => intro d t c _ h; exact (h _ (.self _) trivial).elim
  case image => intro d t a _; exact .el (by decide) .nil
  case autolink => intro l h; exact (h _ (.self _) trivial).elim
  case footnoteReference => intro l h; exact (h _ (.self _) trivial).elim
  case linkReference => intro l t _ _ h; exact (h _ (.self _) trivial).elim
  case empty => intro _; exact .nil
  case nil => intro _; exact .nil
  case cons =>
    intro i l hi hl h
    exact (hi (h i (by simp))).append (hl fun j hj => h j (by simp [hj]))

theorem inline_apart (x : Context) :
    (∀ i : Inline, (∀ m : Inline, m.Within i → m.IsLink → ∀ j ∈ m.children, ∀ k : Inline, k.Within j → ¬ k.Anchors) →
      AnchorsApart (inlineNodes x i)) ∧
    ∀ l : List Inline, (∀ i ∈ l, ∀ m : Inline, m.Within i → m.IsLink → ∀ j ∈ m.children, ∀ k : Inline, k.Within j → ¬ k.Anchors) →
      AnchorsApart (inlinesNodes x l) := by
  have less := (inline_anchorless x).2
  apply Inline.ind
  case text => intro s _; exact (Anchorless.chars s).apart
  case lineBreak => intro _; exact .el (by decide) Anchorless.nil.apart
  case code => intro s _; exact .el (by decide) (Anchorless.chars s).apart
  case html => intro s _; exact (Anchorless.raw s).apart
  case emphasis => intro c ih h; exact .el (by decide) (ih fun i hi m hm => h m (.child _ _ _ hi hm))
  case strong => intro c ih h; exact .el (by decide) (ih fun i hi m hm => h m (.child _ _ _ hi hm))
  case strikethrough => intro c ih h; exact .el (by decide) (ih fun i hi m hm => h m (.child _ _ _ hi hm))
  case link => intro d t c _ h; exact .anchor (less c (h _ (.self _) trivial))
  case image => intro d t a _; exact .el (by decide) Anchorless.nil.apart
  case autolink => intro l h; exact .anchor (.chars l)
  case footnoteReference =>
    intro l h
    simp only [inlineNodes]
    split
    · exact .anchor (.chars _)
    · exact Anchorless.nil.apart
  case linkReference =>
    intro l t _ _ h
    simp only [inlineNodes]
    split
    · exact .anchor (less t fun j hj => h _ (.self _) trivial j (List.mem_append_right _ hj))
    · exact Anchorless.nil.apart
  case empty => intro _; exact Anchorless.nil.apart
  case nil => intro _; exact Anchorless.nil.apart
  case cons =>
    intro i l hi hl h
    exact (hi (h i (by simp))).append (hl fun j hj => h j (by simp [hj]))

/-- The links of the block are simple. -/
def SimpleIn (b : Block) : Prop := ∀ c : Block, c.Within b → ∀ i ∈ c.directInlines, ∀ m : Inline, m.Within i → m.IsLink →
  ∀ j ∈ m.children, ∀ k : Inline, k.Within j → ¬ k.Anchors

theorem SimpleIn.sub {b c : Block} (h : SimpleIn b) (hc : c ∈ b.childBlocks) : SimpleIn c :=
  fun e he => h e (.child _ _ _ hc he)

theorem block_apart (x : Context) (hi : ∀ t, IsIcon t (x.icon t)) (ht : ∀ t, Anchorless (x.title t)) :
    (∀ b, SimpleIn b → AnchorsApart (blockNodes x b)) ∧
    (∀ i : ListItem, (∀ b ∈ i.blocks, SimpleIn b) → AnchorsApart [itemNode x i]) ∧
    (∀ l, (∀ b ∈ l, SimpleIn b) → AnchorsApart (blocksNodes x l)) ∧
    ∀ l : List ListItem, (∀ i ∈ l, ∀ b ∈ i.blocks, SimpleIn b) → AnchorsApart (itemsNodes x l) := by
  have inl : ∀ {b : Block}, SimpleIn b → ∀ c, (∀ i ∈ c, i ∈ b.directInlines) → AnchorsApart (inlinesNodes x c) :=
    fun h c hc => (inline_apart x).2 c fun i hi => h _ (.self _) i (hc i hi)
  have none' := Anchorless.nil.apart
  apply Block.ind
  case paragraph => intro c h; exact .el (by decide) (inl h c fun i hi => hi)
  case heading =>
    intro k c h
    refine .el ?_ (inl h c fun i hi => hi)
    have hk := heading_name k
    intro e
    rw [e] at hk
    exact absurd hk (by decide)
  case thematicBreak => intro _; exact .el (by decide) none'
  case blockQuote => intro b ih h; exact .el (by decide) (ih fun c hc => h.sub hc)
  case list =>
    intro k i ih h
    have := ih fun j hj b hb => h.sub (by simp only [Block.childBlocks, List.mem_flatMap]; exact ⟨j, hj, hb⟩)
    cases k with
    | ordered n => exact .el (by decide) this
    | bullet k => cases k <;> exact .el (by decide) this
  case codeBlock => intro k s _; exact .el (by decide) (.el (by decide) (Anchorless.chars s).apart)
  case htmlBlock => intro s _; exact (Anchorless.raw s).apart
  case definition => intro l d t _; exact none'
  case table =>
    intro rows al h
    have hr : ∀ cell, cell ≠ cs!"a" → ∀ rs : List (List (List Inline)), (∀ r ∈ rs, r ∈ rows) →
        AnchorsApart (rs.map (rowNode x cell al)) := by
      intro cell hc rs hrs
      refine .of_all fun n hn => ?_
      obtain ⟨r, hr, rfl⟩ := List.mem_map.1 hn
      refine .el (by decide) (.of_all fun m hm => ?_)
      obtain ⟨i, hi, rfl⟩ := List.mem_mapIdx.1 hm
      refine .el hc (inl h _ fun j hj => ?_)
      simp only [Block.directInlines, List.mem_flatten]
      exact ⟨r[i], ⟨r, hrs r hr, List.getElem_mem hi⟩, hj⟩
    have h1 := hr cs!"th" (by decide) rows.head?.toList fun r hr => List.mem_of_mem_head? (Option.mem_toList.1 hr)
    have h2 := hr cs!"td" (by decide) rows.tail fun r hr => List.mem_of_mem_tail hr
    exact .el (by decide) (AnchorsApart.append (l := [_]) (.el (by decide) h1) (.el (by decide) h2))
  case footnoteDefinition =>
    intro l b ih h
    simp only [blockNodes]
    split
    · exact .el (by decide) (AnchorsApart.append (l := [_]) (.el (by decide) (Anchorless.chars _).apart)
        (.el (by decide) (ih fun c hc => h.sub hc)))
    · exact none'
  case githubAlert =>
    intro t b ih h
    obtain ⟨path, hp⟩ := hi t
    refine .el (by decide) (AnchorsApart.append (l := [_]) (.el (by decide) ?_) (ih fun c hc => h.sub hc))
    refine AnchorsApart.append (l := [_]) ?_ (ht t).apart
    rw [hp]
    exact .el (by decide) (.el (by decide) none')
  case empty => intro _; exact none'
  case item =>
    intro t b ih h
    refine .el (by decide) (AnchorsApart.append ?_ (ih h))
    cases t with
    | none => exact none'
    | some t => cases t <;> exact .el (by decide) (Anchorless.chars _).apart
  case nilB => intro _; exact none'
  case consB =>
    intro b l hb hl h
    exact (hb (h b (by simp))).append (hl fun j hj => h j (by simp [hj]))
  case nilI => intro _; exact none'
  case consI =>
    intro i l hb hl h
    exact AnchorsApart.append (l := [_]) (hb (h i (by simp))) (hl fun j hj => h j (by simp [hj]))

theorem title_anchorless (t : AlertType) : Anchorless (titleNodes t) := by
  cases t with
  | custom s =>
    simp only [titleNodes]
    split
    · exact .raw s
    · exact .chars s
  | _ => exact .chars _

/-- **C99.** If no link of the document contains a link of any kind, no `a` element of the HTML is inside another. -/
theorem C99_anchors (dw : Str → Nat) (d : Document) (cfg : Config) (out : Str) (ho : renderHtml dw d cfg = some out)
    (hd : d.SimpleLinks) :
    ∃ l, Reads (¬ Clean d) out l ∧ NestsWell l ∧
      ∀ attrs children attrs' children', Inside (.el cs!"a" attrs children) l → ¬ Inside (.el cs!"a" attrs' children') children := by
  obtain ⟨icon, hi, h⟩ := C58_tree dw d cfg out ho
  refine ⟨_, h, (block_neat ⟨footnoteNumber d, lastDefinition d, cfg.anchorPrefix, icon, titleNodes⟩ hi title_neat).2.2.1
    d.blocks, fun a c a' c' hl => ?_⟩
  exact (block_apart ⟨footnoteNumber d, lastDefinition d, cfg.anchorPrefix, icon, titleNodes⟩ hi title_anchorless).2.2.1
    d.blocks (fun b hb c hc i hi m hm => hd m ⟨c, ⟨b, hb, hc⟩, i, hi, hm⟩) a c hl a' c'

/-- **C99.** So for the HTML of every text without an escaped closing bracket and without `<` or without `>`. -/
theorem C99_text {x : PExt} {pc : PConfig} (hk : pc.Keeps) (dw : Str → Nat) (cfg : Config) {s out : Str} {d : Document}
    (h : parseMarkdown x pc s = some d) (hs : ¬ HasEscapedBracket s) (ha : '<' ∉ s ∨ '>' ∉ s)
    (ho : renderHtml dw d cfg = some out) :
    ∃ l, Reads (¬ Clean d) out l ∧ NestsWell l ∧
      ∀ attrs children attrs' children', Inside (.el cs!"a" attrs children) l → ¬ Inside (.el cs!"a" attrs' children') children := by
  refine C99_anchors dw d cfg out ho ?_
  rintro i ⟨b, hb, j0, hj0, hw⟩ hl j hj k hkj hka
  have h1 := (C94_links hk h hs).1 i ⟨b, hb, j0, hj0, hw⟩ hl j hj k hkj
  have hin : d.HasInline k := ⟨b, hb, j0, hj0, (Inline.Within.through (.child _ _ _ hj hkj) hw)⟩
  cases k with
  | link => exact h1 trivial
  | linkReference => exact h1 trivial
  | footnoteReference => exact h1 trivial
  | autolink l =>
    have := (C100_inlines hk.plain h).1 l hin
    rcases ha with ha | ha
    · exact ha (this '<' (by decide))
    · exact ha (this '>' (by decide))
  | _ => exact hka

/-- **C99**, a case: links next to each other and in emphasis; and the hypotheses are needed, since the document may have
nested links, and a text may give them. -/
theorem C99_anchors_example :
    parseMarkdown PExt.ascii (PConfig.default fun _ => none) cs!"*[a](b)* [c]" =
      some ⟨[.paragraph [.emphasis [.link cs!"b" none [.text cs!"a"]], .text cs!" ", .linkReference [.text cs!"c"] [.text cs!"c"]]]⟩ ∧
    (parseMarkdown PExt.ascii (PConfig.default fun _ => none) cs!"[<ab:c>](d)").bind
      (renderHtml List.length · Config.default) = some cs!"<p><a href=\"d\"><a href=\"ab:c\">ab:c</a></a></p>" ∧
    (parseMarkdown PExt.ascii (PConfig.default fun _ => none) cs!"[a [b\\](c) d](e)").bind
      (renderHtml List.length · Config.default) = some cs!"<p><a href=\"e\">a <a href=\"c\">b</a> d</a></p>" := by
  decide +kernel

end Html
end Verif
