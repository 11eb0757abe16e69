import Verif.BlockExactText
/-!
# Blocks are read exactly (C85)
-/
set_option autoImplicit false
set_option linter.unusedVariables false
set_option linter.unusedSimpArgs false
namespace Verif.Exact
open Nom

section
variable {x : PExt} {cfg : PConfig}

/-! ## The alternative that reads a block -/

/-- The alternative that reads a block of the kind. -/
def ByKind (x : PExt) (cfg : PConfig) (s : Str) (b : Block) (r : Str) : StartKind → Prop
  | .indented => codeBlockIndented s = some (r, b)
  | .fenced => codeBlockFenced s = some (r, b)
  | .atx _ => headingV1 x cfg s = some (r, b)
  | .thematic => b = .thematicBreak ∧ thematicBreakP s = some (r, ())
  | .alert _ => githubAlertP x (blockP x cfg) s = some (r, [b])
  | .quote => blockquoteP (blockP x cfg) s = some (r, b)
  | .list _ => listP (blockP x cfg) s = some (r, b)
  | .html => mapP htmlBlockP Block.htmlBlock s = some (r, b)
  | .footnote => footnoteDefinitionP (blockP x cfg) s = some (r, b)
  | .definition => linkDefinitionP x cfg s = some (r, b)
  | .table => tableP x cfg s = some (r, b)
  | .text => TextBy x cfg s b r
  | .other => False

theorem byKind_unique {s r r' : Str} {b b' : Block} {k : StartKind} (h : ByKind x cfg s b r k) (h' : ByKind x cfg s b' r' k) :
    b = b' ∧ r = r' := by
  cases k <;> simp only [ByKind] at h h'
  case thematic =>
    obtain ⟨rfl, h⟩ := h
    obtain ⟨rfl, h'⟩ := h'
    rw [h] at h'; simp at h'; exact ⟨rfl, h'⟩
  case text =>
    unfold TextBy at h h'
    rcases h with h | ⟨h0, h⟩ <;> rcases h' with h' | ⟨h0', h'⟩
    · rw [h] at h'; simp at h'; exact ⟨h'.2, h'.1⟩
    · rw [h] at h0'; simp at h0'
    · rw [h0] at h'; simp at h'
    · rw [h] at h'; simp at h'; exact ⟨h'.2, h'.1⟩
  all_goals rw [h] at h'; simp at h'; exact ⟨h'.2, h'.1⟩

theorem block_byKind (ha : cfg.AllBlocks) {s r : Str} {bs : List Block} (hs : ¬ BlankLineAt s)
    (he : blockP x cfg s = some (r, bs)) : ∃ b, bs = [b] ∧ ByKind x cfg s b r (startKind b) := by
  rw [blockP_alt ha.keeps.customOk (emptyLine_iff.2 hs)] at he
  unfold blockAlt at he
  have hcust : ∀ s, customParser cfg.customBlock s = none := by
    intro s; rw [ha.keeps.customBlock]; rfl
  simp only [orElse_some, block_iff ha.codeBlock, block_iff ha.headingV1, block_iff ha.headingV2,
    block_iff ha.thematicBreak, block_iff ha.blockquote, block_iff ha.list, block_iff ha.htmlBlock,
    block_iff ha.footnoteDefinition, block_iff ha.linkDefinition, block_iff ha.table,
    block_iff ha.keeps.paragraph,
    block_none ha.codeBlock, block_none ha.headingV1, block_none ha.headingV2,
    block_none ha.thematicBreak, block_none ha.blockquote, block_none ha.list, block_none ha.htmlBlock,
    block_none ha.footnoteDefinition, block_none ha.linkDefinition, block_none ha.table, ha.githubAlert,
    conditionalBlockVec, codeBlockP, orElse_none, mapP_none, value_none, hcust] at he
  rcases he with ⟨v, h1 | ⟨n1, h1⟩, rfl⟩ | ⟨⟨n1, n2⟩, ⟨v, h1, rfl⟩ | ⟨n3, ⟨v, h1, rfl⟩ | ⟨n4, ⟨v, h1, rfl⟩ | ⟨n5, h1 |
    ⟨n6, ⟨v, h1, rfl⟩ | ⟨n7, ⟨v, h1, rfl⟩ | ⟨n8, ⟨v, h1, rfl⟩ | ⟨n9, ⟨v, h1, rfl⟩ | ⟨n10, ⟨v, h1, rfl⟩ |
    ⟨n11, ⟨v, h1, rfl⟩ | ⟨n12, h1 | ⟨_, v, h1, rfl⟩⟩⟩⟩⟩⟩⟩⟩⟩⟩⟩⟩
  · obtain ⟨ls, _, rfl⟩ := mapP_some.1 h1
    exact ⟨_, rfl, h1⟩
  · obtain ⟨info, ls, _, rfl⟩ := fencedCode_iff.1 h1
    exact ⟨_, rfl, h1⟩
  · obtain ⟨n, l, rfl, h⟩ := headingV1_at h1
    exact ⟨_, rfl, h1⟩
  · refine ⟨v, rfl, ?_⟩
    have hk : startKind v = .text := by
      obtain ⟨⟨l, o⟩, _, rfl⟩ := mapP_some.1 h1
      cases o <;> rfl
    rw [hk]
    exact .inl h1
  · obtain ⟨_, h2, rfl⟩ := value_some.1 h1
    exact ⟨_, rfl, rfl, h2⟩
  · obtain ⟨t, l, rfl⟩ := alert_shape h1
    exact ⟨_, rfl, h1⟩
  · obtain ⟨ls, bs, _, _, _, rfl⟩ := (quote_exact ha.keeps.total).1 h1
    exact ⟨_, rfl, h1⟩
  · obtain ⟨kind, l, rfl, h⟩ := listP_at h1
    exact ⟨_, rfl, h1⟩
  · obtain ⟨t, h2, rfl⟩ := mapP_some.1 h1
    exact ⟨_, rfl, h1⟩
  · obtain ⟨label, ls, bs, _, _, rfl⟩ := footnoteDef_exact.1 h1
    exact ⟨_, rfl, h1⟩
  · obtain ⟨h, l, d, t, rfl⟩ := definition_at h1
    exact ⟨_, rfl, h1⟩
  · obtain ⟨h, rows, as, rfl⟩ := table_at h1
    exact ⟨_, rfl, h1⟩
  · simp at h1
  · obtain ⟨l, _, rfl⟩ := mapP_some.1 h1
    exact ⟨_, rfl, .inr ⟨n4, h1⟩⟩

/-- A block is read by the alternative of its kind, where the text begins with a block of that kind. -/
theorem block_exact (ha : cfg.AllBlocks) {s r : Str} {b : Block} (hs : ¬ BlankLineAt s) :
    blockP x cfg s = some (r, [b]) ↔ StartsWith x cfg s (startKind b) ∧ ByKind x cfg s b r (startKind b) := by
  have hc := ha.keeps.customOk
  have ht : cfg.text ≠ .ignore := by rw [ha.keeps.text]; simp
  have hp : cfg.paragraph ≠ .ignore := by rw [ha.keeps.paragraph]; simp
  obtain ⟨r', b', h1, h2⟩ := first_block (x := x) ha hs
  obtain ⟨b'', h4, h3⟩ := block_byKind ha hs h1
  simp at h4
  subst h4
  constructor
  · intro h
    rw [h1] at h
    simp at h
    obtain ⟨rfl, rfl⟩ := h
    exact ⟨h2, h3⟩
  · rintro ⟨h5, h6⟩
    rw [← starts_unique hc ht hp h2 h5] at h6
    obtain ⟨rfl, rfl⟩ := byKind_unique h3 h6
    exact h1

/-! ## From the parser to the specification -/

/-- Shorter texts are read as the specification says. -/
def Below (x : PExt) (cfg : PConfig) (n : Nat) : Prop :=
  ∀ c bs, c.length < n → parseMarkdown x cfg c = some ⟨bs⟩ → DocRead x cfg c bs

theorem item_reads (ha : cfg.AllBlocks) {n : Nat} (ih : Below x cfg n) {s r : Str} {kind : ListKind} {i : ListItem}
    (hs : s.length ≤ n) (h : listItemP (blockP x cfg) s = some (r, (kind, i))) : ItemRead x cfg s kind i r := by
  obtain ⟨task, ls, bs, h1, h2, rfl⟩ := item_exact.1 h
  have := item_shorter h1
  exact .mk h1 (ih _ _ (by omega) ((blocks0_exact ha.keeps.total).1 h2))

theorem items_read (ha : cfg.AllBlocks) {n : Nat} (ih : Below x cfg n) : ∀ s r l,
    many0 (listItemP (blockP x cfg)) s = some (r, l) → s.length ≤ n → ItemsRead x cfg s (l.map Prod.snd) r := by
  refine many0_induction ?_ ?_
  · intro s h _
    exact .stop ((item_none ha.keeps.customOk).1 h)
  · intro s r a r' l h hlt _ ih' hs
    obtain ⟨kind, i⟩ := a
    exact .cons (item_reads ha ih hs h) (ih' (by omega))

theorem block_reads (ha : cfg.AllBlocks) (hi : InlineParse cfg) {n : Nat} (ih : Below x cfg n) {s r : Str} {b : Block}
    (hn : s.length ≤ n) (hs : ¬ BlankLineAt s) (h : blockP x cfg s = some (r, [b])) : BlockRead x cfg s b r := by
  have hc := ha.keeps.customOk
  obtain ⟨h1, h2⟩ := (block_exact ha hs).1 h
  cases b with
  | codeBlock kind t =>
    cases kind with
    | indented =>
      obtain ⟨ls, w, g1, g2, g3, rfl, g4⟩ := indentedCode_iff.1 h2
      rw [g4]
      exact .indented g1 g2 g3
    | fenced info =>
      obtain ⟨info, ls, g1, g2⟩ := fencedCode_iff.1 h2
      rw [g2]
      exact .fenced g1
  | heading k l =>
    cases k with
    | atx m =>
      obtain ⟨n, m, t, e, l, g1, g2, g3, g4, rfl, g5⟩ := (atx_exact (sem_readAs hc hi)).1 h2
      rw [g5]
      exact .atx g1 g2 g3 g4
    | setext k =>
      have h1 : ¬ SpecialAt cfg s := h1
      by_cases hu : ∃ k, UnderlineAt k s
      · obtain ⟨w, t, l, _, _, _, g⟩ := (stray_exact ha hi hs hu).1 h2
        simp at g
      · have hni : ¬ Interrupts cfg s := by
          unfold Interrupts
          unfold SpecialAt at h1
          grind
        rcases (run_exact ha hi hni).1 h2 with ⟨w, ls, l, _, _, _, _, _, g⟩ | ⟨w, u, e, k, ls, l, g1, g2, g3, g4, rfl, g5⟩
        · simp at g
        · rw [g5]
          exact .setext h1 hu g1 g2 g3 g4
  | thematicBreak =>
    obtain ⟨l, e, g1, g2, rfl⟩ := thematicBreak_iff.1 h2.2
    exact .thematic g1 g2
  | githubAlert t bs =>
    obtain ⟨l, ls, g1, g2, g3, g4⟩ := (alert_exact ha.keeps.total).1 h2
    have := alert_shorter g1
    exact .alert g1 g2 g3 (ih _ _ (by omega) g4)
  | blockQuote bs =>
    obtain ⟨ls, bs, g1, g2, g3, g4⟩ := (quote_exact ha.keeps.total).1 h2
    rw [g4]
    have := quote_shorter g1 (by rintro rfl; simp at g2)
    exact .quote g1 g2 h1.2 (ih _ _ (by omega) g3)
  | list kind l =>
    have h2 : listP (blockP x cfg) s = some (r, .list kind l) := h2
    unfold listP at h2
    split at h2
    · rename_i r1 k i l e
      simp at h2
      obtain ⟨rfl, rfl, rfl⟩ := h2
      obtain ⟨r2, a, l', g1, g2, g3⟩ := many1_some.1 e
      simp at g3
      obtain ⟨rfl, rfl⟩ := g3
      have hlt := Con.lt g1
      exact .list (item_reads ha ih hn g1) (items_read ha ih _ _ _ g2 (by omega))
    · simp at h2
  | htmlBlock t =>
    obtain ⟨t', g1, g2⟩ := mapP_some.1 h2
    obtain ⟨k, hk, rfl, g3⟩ := html_exact.1 g1
    rw [← g2]
    exact .html hk g3
  | footnoteDefinition label bs =>
    obtain ⟨label, ls, bs, g1, g2, g3⟩ := footnoteDef_exact.1 h2
    have := note_shorter g1
    rw [g3]
    exact .footnote g1 (ih _ _ (by omega) ((blocks0_exact ha.keeps.total).1 g2))
  | definition l d title =>
    obtain ⟨t, d, title, l, g1, g2, g3⟩ := (definition_exact (sem_readAs hc hi)).1 h2
    rw [g3]
    exact .definition g1 h1.2 g2
  | table rows as =>
    obtain ⟨rows, as, g1, g2⟩ := (table_exact hc (sem_readAs hc hi)).1 h2
    rw [g2]
    exact .table g1
  | paragraph l =>
    have h1 : ¬ SpecialAt cfg s := h1
    by_cases hu : ∃ k, UnderlineAt k s
    · obtain ⟨w, t, l, g1, g2, rfl, g⟩ := (stray_exact ha hi hs hu).1 h2
      rw [g]
      exact .stray h1 hu g1 g2
    · have hni : ¬ Interrupts cfg s := by
        unfold Interrupts
        unfold SpecialAt at h1
        grind
      rcases (run_exact ha hi hni).1 h2 with ⟨w, ls, l, g1, g2, g3, g4, rfl, g⟩ | ⟨w, u, e, k, ls, l, g1, g2, g3, g4, _, g5⟩
      · rw [g]
        exact .paragraph h1 hu g1 g2 g3 g4
      · simp at g5
  | empty => exact absurd h1 id

theorem below (ha : cfg.AllBlocks) (hi : InlineParse cfg) : ∀ n, Below x cfg n := by
  have hc := ha.keeps.customOk
  have ht : cfg.text ≠ .ignore := by rw [ha.keeps.text]; simp
  have hp : cfg.paragraph ≠ .ignore := by rw [ha.keeps.paragraph]; simp
  intro n
  induction n with
  | zero => intro c bs h; omega
  | succ n ih =>
    intro c bs hlen h
    cases hb : blockP x cfg c with
    | none =>
      have hbl := (blockP_none (x := x) hc ht hp).1 hb
      rw [C39_blank x cfg hbl] at h
      simp at h
      subst h
      exact .nil hbl
    | some y =>
      obtain ⟨r, bs1⟩ := y
      have hst := hb
      rw [blockP_eq hc] at hst
      obtain ⟨s, ws, h1, h2⟩ := preceded_some.1 hst
      obtain ⟨g, rfl, hg⟩ := manyEmptyLines0_written _ _ _ h1
      have hs : ¬ BlankLineAt s := emptyLine_iff.1 (many0_stop h1)
      have h3 : blockP x cfg s = some (r, bs1) := by rw [blockP_alt hc (emptyLine_iff.2 hs)]; exact h2
      rw [C39_leading_blank_lines hc hg, parseMarkdown_cons hc h3] at h
      obtain ⟨b, rfl, _⟩ := block_byKind ha hs h3
      obtain ⟨d, h4, h5⟩ := Option.map_eq_some_iff.1 h
      simp at h5
      subst h5
      have := blockP_con (x := x) hc
      have hlt := Con.lt h3
      simp at hlen
      refine .cons hg hs (block_reads ha hi (n := n) ih (by omega) hs h3) (ih _ _ (by omega) h4)

/-! ## From the specification to the parser -/

theorem kind_of (ha : cfg.AllBlocks) {s r : Str} {b : Block} {k : StartKind} (hk : startKind b = k) (hs : ¬ BlankLineAt s)
    (h1 : StartsWith x cfg s k) (h2 : ByKind x cfg s b r k) : blockP x cfg s = some (r, [b]) := by
  subst hk
  exact (block_exact ha hs).2 ⟨h1, h2⟩

theorem item_reads_of (ha : cfg.AllBlocks) {s r : Str} {kind : ListKind} {task : Option TaskState} {ls : List Str} {bs : List Block}
    (h1 : ItemFrame s kind task ls r) (h2 : parseMarkdown x cfg (joinWith ['\n'] ls) = some ⟨bs⟩) :
    listItemP (blockP x cfg) s = some (r, (kind, .mk task bs)) :=
  item_exact.2 ⟨task, ls, bs, h1, (blocks0_exact ha.keeps.total).2 h2, rfl⟩

theorem doc_of (ha : cfg.AllBlocks) (hi : InlineParse cfg) {s : Str} {bs : List Block} (h : DocRead x cfg s bs) :
    parseMarkdown x cfg s = some ⟨bs⟩ := by
  have hc := ha.keeps.customOk
  have ht : cfg.text ≠ .ignore := by rw [ha.keeps.text]; simp
  have hp : cfg.paragraph ≠ .ignore := by rw [ha.keeps.paragraph]; simp
  refine DocRead.rec (motive_1 := fun s bs _ => parseMarkdown x cfg s = some ⟨bs⟩)
    (motive_2 := fun s b r _ => ¬ BlankLineAt s → blockP x cfg s = some (r, [b]))
    (motive_3 := fun s kind i r _ => listItemP (blockP x cfg) s = some (r, (kind, i)))
    (motive_4 := fun s l r _ => ∃ l', many0 (listItemP (blockP x cfg)) s = some (r, l') ∧ l = l'.map Prod.snd)
    ?_ ?_ ?_ ?_ ?_ ?_ ?_ ?_ ?_ ?_ ?_ ?_ ?_ ?_ ?_ ?_ ?_ ?_ ?_ h
  · intro s hb; exact C39_blank x cfg hb
  · intro g s r b bs hg hs _ _ ih1 ih2
    rw [C39_leading_blank_lines hc hg, parseMarkdown_cons hc (ih1 hs), ih2]
    rfl
  · intro w r ls g1 g2 g3 hs
    have h := indentedCode_iff.2 ⟨ls, w, g1, g2, g3, rfl, rfl⟩
    exact kind_of ha rfl hs (indented_iff.1 ⟨_, h⟩) h
  · intro s r info ls g1 hs
    have h := fencedCode_iff.2 ⟨info, ls, g1, rfl⟩
    exact kind_of ha rfl hs (fenced_iff.1 ⟨_, h⟩) h
  · intro n m t e r l g1 g2 g3 g4 hs
    have h := (atx_exact (x := x) (sem_readAs hc hi)).2 ⟨n, m, t, e, l, g1, g2, g3, g4, rfl, rfl⟩
    obtain ⟨n', l', h5, h6⟩ := headingV1_at h
    simp at h5
    obtain ⟨rfl, rfl⟩ := h5
    exact kind_of ha rfl hs h6 h
  · intro l e r g1 g2 hs
    have h := thematicBreak_iff.2 ⟨l, e, g1, g2, rfl⟩
    exact kind_of ha rfl hs (thematic_iff.1 ⟨_, h⟩) ⟨rfl, h⟩
  · intro s r ls bs g1 g2 g3 _ ih hs
    have h := (quote_exact ha.keeps.total).2 ⟨ls, bs, g1, g2, ih, rfl⟩
    exact kind_of ha rfl hs ⟨(blockquote_iff (x := x) hc ht hp).1 ⟨_, h⟩, g3⟩ h
  · intro s l r ls t bs g1 g2 g3 _ ih hs
    have h := (alert_exact ha.keeps.total).2 ⟨l, ls, g1, g2, g3, ih⟩
    exact kind_of ha rfl hs ((alert_iff hc ht hp).1 ⟨_, _, h⟩) h
  · intro s s' r kind i l _ _ ih1 ih2 hs
    obtain ⟨l', h1, rfl⟩ := ih2
    have h : listP (blockP x cfg) s = some (r, .list kind (i :: l'.map Prod.snd)) := by
      unfold listP
      rw [many1_some.2 ⟨_, _, _, ih1, h1, rfl⟩]
    obtain ⟨kind', l', h5, h6⟩ := listP_at h
    simp at h5
    obtain ⟨rfl, rfl⟩ := h5
    exact kind_of ha rfl hs h6 h
  · intro k h' r g1 g2 hs
    have h := html_exact.2 ⟨k, g1, rfl, g2⟩
    exact kind_of ha rfl hs (html_iff.1 ⟨_, h⟩) (mapP_some.2 ⟨_, h, rfl⟩)
  · intro s label r ls bs g1 _ ih hs
    have h := footnoteDef_exact.2 ⟨label, ls, bs, g1, (blocks0_exact ha.keeps.total).2 ih, rfl⟩
    exact kind_of ha rfl hs ((Verif.footnote_iff (x := x) hc).1 ⟨_, h⟩) h
  · intro s t d r title l g1 g2 g3 hs
    have h := (definition_exact (x := x) (sem_readAs hc hi)).2 ⟨t, d, title, l, g1, g3, rfl⟩
    exact kind_of ha rfl hs ⟨(definition_at h).1, g2⟩ h
  · intro s r rows as g1 hs
    have h := (table_exact hc (sem_readAs hc hi)).2 ⟨rows, as, g1, rfl⟩
    exact kind_of ha rfl hs (table_at h).1 h
  · intro w r ls l h1 hu g1 g2 g3 g4 hs
    have hni : ¬ Interrupts cfg (w ++ r) := by
      unfold Interrupts
      unfold SpecialAt at h1
      grind
    exact kind_of ha rfl hs h1 ((run_exact ha hi hni).2 (.inl ⟨w, ls, l, g1, g2, g3, g4, rfl, rfl⟩))
  · intro w u e r k ls l h1 hu g1 g2 g3 g4 hs
    have hni : ¬ Interrupts cfg (w ++ (u ++ (e ++ r))) := by
      unfold Interrupts
      unfold SpecialAt at h1
      grind
    exact kind_of ha rfl hs h1 ((run_exact ha hi hni).2 (.inr ⟨w, u, e, k, ls, l, g1, g2, g3, g4, rfl, rfl⟩))
  · intro w r t l h1 hu g1 g2 hs
    exact kind_of ha rfl hs h1 ((stray_exact ha hi hs hu).2 ⟨w, t, l, g1, g2, rfl, rfl⟩)
  · intro s r kind task ls bs g1 _ ih
    exact item_reads_of ha g1 ih
  · intro s h
    exact ⟨[], many0_of_none ((item_none hc).2 h), rfl⟩
  · intro s s' r kind i l _ _ ih1 ih2
    obtain ⟨l', h1, rfl⟩ := ih2
    exact ⟨(kind, i) :: l', many0_of_some ih1 (Con.lt ih1) h1, rfl⟩

/-- **C85.** A text is read as the blocks that the specification says, and as no others. -/
theorem C85_exact (ha : cfg.AllBlocks) (hi : InlineParse cfg) (s : Str) (bs : List Block) :
    parseMarkdown x cfg s = some ⟨bs⟩ ↔ DocRead x cfg s bs :=
  ⟨fun h => below ha hi (s.length + 1) s bs (by omega) h, doc_of ha hi⟩

/-- **C85.** The specification reads every text, and in one way. -/
theorem C85_unique (ha : cfg.AllBlocks) (hi : InlineParse cfg) (s : Str) : ∃ bs, DocRead x cfg s bs ∧
    ∀ bs', DocRead x cfg s bs' → bs' = bs := by
  obtain ⟨⟨bs⟩, h⟩ := everyDoc (x := x) ha s
  refine ⟨bs, (C85_exact ha hi s bs).1 h, fun bs' h' => ?_⟩
  have := doc_of ha hi h'
  rw [h] at this
  simp at this
  exact this.symm

/-! ## What the reading depends on -/

section
variable {cfg' : PConfig}

theorem textRun_same {r w : Str} {ls : List Str} (h : cfg.allowNoSpaceInHeadings = cfg'.allowNoSpaceInHeadings)
    (ht : TextRun cfg r ls w) : TextRun cfg' r ls w := by
  induction ht with
  | last h1 h2 h3 => exact .last h1 h2 h3
  | cons h1 h2 h3 h4 _ ih =>
    refine .cons h1 h2 h3 ?_ ih
    simpa only [Interrupts, AtxAt, HeadingMark, h] using h4

/-- The reading depends on the configuration through the entities and the headings only. -/
theorem docRead_same (h : cfg.allowNoSpaceInHeadings = cfg'.allowNoSpaceInHeadings) (he : cfg.entities = cfg'.entities)
    {s : Str} {bs : List Block} (hd : DocRead x cfg s bs) : DocRead x cfg' s bs := by
  have hS : ∀ t, SpecialAt cfg t ↔ SpecialAt cfg' t := fun t => by simp only [SpecialAt, AtxAt, HeadingMark, h]
  have hI : ∀ t, Interrupts cfg t ↔ Interrupts cfg' t := fun t => by simp only [Interrupts, AtxAt, HeadingMark, h]
  have hM : ∀ n m t, HeadingMark cfg n m t ↔ HeadingMark cfg' n m t := fun n m t => by simp only [HeadingMark, h]
  refine DocRead.rec (motive_1 := fun s bs _ => DocRead x cfg' s bs) (motive_2 := fun s b r _ => BlockRead x cfg' s b r)
    (motive_3 := fun s k i r _ => ItemRead x cfg' s k i r) (motive_4 := fun s l r _ => ItemsRead x cfg' s l r)
    ?_ ?_ ?_ ?_ ?_ ?_ ?_ ?_ ?_ ?_ ?_ ?_ ?_ ?_ ?_ ?_ ?_ ?_ ?_ hd
  · intro s hb; exact .nil hb
  · intro g s r b bs hg hs _ _ ih1 ih2; exact .cons hg hs ih1 ih2
  · intro w r ls g1 g2 g3; exact .indented g1 g2 g3
  · intro s r info ls g; exact .fenced g
  · intro n m t e r l g1 g2 g3 g4; exact .atx ((hM _ _ _).1 g1) g2 g3 (he ▸ g4)
  · intro l e r g1 g2; exact .thematic g1 g2
  · intro s r ls bs g1 g2 g3 _ ih; exact .quote g1 g2 g3 ih
  · intro s l r ls t bs g1 g2 g3 _ ih; exact .alert g1 g2 g3 ih
  · intro s s' r kind i l _ _ ih1 ih2; exact .list ih1 ih2
  · intro k h' r g1 g2; exact .html g1 g2
  · intro s label r ls bs g _ ih; exact .footnote g ih
  · intro s t d r title l g1 g2 g3; exact .definition g1 g2 (he ▸ g3)
  · intro s r rows as g; exact .table (he ▸ g)
  · intro w r ls l g1 g2 g3 g4 g5 g6
    exact .paragraph (fun g => g1 ((hS _).2 g)) g2 (textRun_same h g3) ((hI _).1 g4) g5 (he ▸ g6)
  · intro w u e r k ls l g1 g2 g3 g4 g5 g6
    exact .setext (fun g => g1 ((hS _).2 g)) g2 (textRun_same h g3) g4 g5 (he ▸ g6)
  · intro w r t l g1 g2 g3 g4
    exact .stray (fun g => g1 ((hS _).2 g)) g2 (textRun_same h g3) (he ▸ g4)
  · intro s r kind task ls bs g _ ih; exact .mk g ih
  · intro s h; exact .stop h
  · intro s s' r kind i l _ _ ih1 ih2; exact .cons ih1 ih2

/-- **C85.** Two configurations that read everything give the same document for every text if they have the
same entities and agree on headings without a space. -/
theorem C85_configuration (ha : cfg.AllBlocks) (hi : InlineParse cfg) (ha' : cfg'.AllBlocks) (hi' : InlineParse cfg')
    (h : cfg.allowNoSpaceInHeadings = cfg'.allowNoSpaceInHeadings) (he : cfg.entities = cfg'.entities) (s : Str) :
    parseMarkdown x cfg s = parseMarkdown x cfg' s := by
  obtain ⟨bs, hb, _⟩ := C85_unique (x := x) ha hi s
  rw [(C85_exact ha hi s bs).2 hb, (C85_exact ha' hi' s bs).2 (docRead_same h he hb)]

end
end

/-! ## Concrete cases -/

/-- Lazy lines, blank lines and a marker of the other kind in an item; alerts and quotes; tables; code; underlines;
footnotes, definitions and HTML. -/
theorem C85_examples :
    let ent : Str → Option Str := fun s => if s = cs!"&amp;" then some cs!"&" else none
    let cfg := PConfig.default ent
    DocRead PExt.ascii cfg cs!"- a\nb\n\n  c\n1. [x] d" [.list (.bullet .dash)
      [.mk none [.paragraph [.text cs!"a\nb"], .paragraph [.text ['c']],
        .list (.ordered 1) [.mk (some .complete) [.paragraph [.text ['d']]]]]]] ∧
    DocRead PExt.ascii cfg cs!"> [!NOTE]\n> x\n\n> y\nz" [.githubAlert .note [.paragraph [.text ['x']]],
      .blockQuote [.paragraph [.text ['y']]], .paragraph [.text ['z']]] ∧
    DocRead PExt.ascii cfg cs!"| a | *b*\n|:-:|--|\n| c |\n" [.table [[[.text ['a']], [.emphasis [.text ['b']]]],
      [[.text ['c']], [.text []]]] [.center, .none]] ∧
    DocRead PExt.ascii cfg cs!"~~~ r\n &amp;\n~~~~\n    a\n\n    b" [.codeBlock (.fenced (some cs!" r")) cs!" &amp;",
      .codeBlock .indented cs!"a", .codeBlock .indented cs!"b"] ∧
    DocRead PExt.ascii cfg cs!"a &amp;\n===\n===\nb\n# c" [.heading (.setext .level1) [.text cs!"a &"],
      .paragraph [.text cs!"==="], .paragraph [.text ['b']], .heading (.atx 1) [.text ['c']]] ∧
    DocRead PExt.ascii cfg cs!"[^n]: f\n   g\n[l]: u 't'\n<div>\nh\n\n***" [.footnoteDefinition ['n'] [.paragraph [.text cs!"f\ng"]],
      .definition [.text ['l']] ['u'] (some ['t']), .htmlBlock cs!"<div>\nh\n", .thematicBreak] := by
  intro ent cfg
  have key := fun s bs => C85_exact (x := PExt.ascii) (cfg := PConfig.default ent) (allBlocks_default ent)
    (inlineParse_default ent) s bs
  refine ⟨(key _ _).1 ?_, (key _ _).1 ?_, (key _ _).1 ?_, (key _ _).1 ?_, (key _ _).1 ?_, (key _ _).1 ?_⟩ <;> decide +kernel

end Verif.Exact
