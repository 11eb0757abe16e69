import Verif.BlockOnStart
import Verif.Hooks
/-!
# Blocks are read exactly, whatever is switched off (C88)
-/
set_option autoImplicit false
set_option linter.unusedVariables false
set_option linter.unusedSimpArgs false
namespace Verif.Exact
open Nom

section
variable {x : PExt} {cfg : PConfig}

theorem _root_.Verif.PConfig.Tries.total (h : cfg.Tries) : cfg.Total :=
  ⟨h.custom, by rw [h.text]; simp, by rw [h.paragraph]; simp⟩

theorem _root_.Verif.PConfig.Keeps.tries (h : cfg.Keeps) : cfg.Tries := by
  obtain ⟨⟩ := id h
  constructor
  case custom => exact h.customOk
  all_goals assumption

/-! ## The alternative that reads a block -/

theorem block_on {b : Behavior Block} {p : P Block} {s r : Str} {bs : List Block} (hb : b = .parse ∨ b = .ignore) :
    conditionalBlock b p s = some (r, bs) ↔ ∃ v, (b = .parse ∧ p s = some (r, v)) ∧ bs = [v] := by
  rcases hb with rfl | rfl
  · rw [block_iff rfl]; simp
  · simp [conditionalBlock, conditional, failP]

theorem block_off {b : Behavior Block} {p : P Block} {s : Str} (hb : b = .parse ∨ b = .ignore) :
    conditionalBlock b p s = none ↔ (b = .parse → p s = none) := by
  rcases hb with rfl | rfl
  · rw [block_none rfl]; simp
  · simp [conditionalBlock, conditional, failP]

theorem vec_on {b : Behavior Block} {p : P (List Block)} {s r : Str} {bs : List Block} (hb : b = .parse ∨ b = .ignore) :
    conditionalBlockVec b p s = some (r, bs) ↔ b = .parse ∧ p s = some (r, bs) := by
  rcases hb with rfl | rfl <;> simp [conditionalBlockVec, failP]

theorem vec_off {b : Behavior Block} {p : P (List Block)} {s : Str} (hb : b = .parse ∨ b = .ignore) :
    conditionalBlockVec b p s = none ↔ (b = .parse → p s = none) := by
  rcases hb with rfl | rfl <;> simp [conditionalBlockVec, failP]

/-- The text is read as a paragraph or an underlined heading. -/
def TextByOn (x : PExt) (cfg : PConfig) (s : Str) (b : Block) (r : Str) : Prop :=
  (cfg.headingV2 = .parse ∧ headingV2OrParagraph x cfg (blockP x cfg) s = some (r, b)) ∨
    ((cfg.headingV2 = .parse → headingV2OrParagraph x cfg (blockP x cfg) s = none) ∧
      mapP (paragraphP x cfg (blockP x cfg) false) Block.paragraph s = some (r, b))

/-- The alternative that reads a block of the kind. -/
def ByOn (x : PExt) (cfg : PConfig) (s : Str) (b : Block) (r : Str) : StartKind → Prop
  | .text => TextByOn x cfg s b r
  | k => ByKind x cfg s b r k

theorem byOn_unique {s r r' : Str} {b b' : Block} {k : StartKind} (h : ByOn x cfg s b r k) (h' : ByOn x cfg s b' r' k) :
    b = b' ∧ r = r' := by
  cases k
  case text =>
    simp only [ByOn] at h h'
    unfold TextByOn at h h'
    rcases h with ⟨hp, h⟩ | ⟨h0, h⟩ <;> rcases h' with ⟨hp', h'⟩ | ⟨h0', h'⟩
    · rw [h] at h'; simp at h'; exact ⟨h'.2, h'.1⟩
    · rw [h0' hp] at h; simp at h
    · rw [h0 hp'] at h'; simp at h'
    · rw [h] at h'; simp at h'; exact ⟨h'.2, h'.1⟩
  all_goals simp only [ByOn] at h h'; exact byKind_unique h h'

/-- A text that begins with a quote mark is not interrupted if quotes are ignored. -/
theorem quote_uninterrupted (hb : cfg.blockquote = .ignore) {s : Str} (hs : ¬ BlankLineAt s) (h : FirstAt 3 s)
    (hcu : ¬ CustomAt cfg s) : ¬ InterruptsOn cfg s := by
  rintro (h1 | ⟨_, _, h1⟩ | ⟨_, k, h1⟩ | ⟨_, h1⟩ | ⟨h1, _⟩ | ⟨_, _, h1⟩ | ⟨_, h1⟩ | ⟨_, h1⟩ | ⟨_, h1⟩ | ⟨_, h1⟩ | ⟨_, h1⟩ | h1)
  · exact hs h1
  · have := firstAt_eq (by omega) (by omega) h (AtxAt.first h1); omega
  · obtain ⟨u, e, r, h1, h2, rfl⟩ := h1
    obtain ⟨k', c, t, hk, hc, he⟩ := h
    cases h1
    · rename_i k n b hk' hn hb
      obtain ⟨m, rfl⟩ : ∃ m, n = m + 1 := ⟨n - 1, by omega⟩
      simp only [List.replicate_succ, List.append_assoc, List.cons_append] at he
      have := sp_split (by decide) (by rintro rfl; exact absurd hc (by decide)) he
      subst this
      exact absurd hc (by decide)
    · rename_i k n b hk' hn hb
      obtain ⟨m, rfl⟩ : ∃ m, n = m + 1 := ⟨n - 1, by omega⟩
      simp only [List.replicate_succ, List.append_assoc, List.cons_append] at he
      have := sp_split (by decide) (by rintro rfl; exact absurd hc (by decide)) he
      subst this
      exact absurd hc (by decide)
  · have := firstAt_eq (by omega) (by omega) h (ThematicAt.first h1); omega
  · rw [hb] at h1; simp at h1
  · have := firstAt_eq (by omega) (by omega) h (ItemAt.first h1); omega
  · have := firstAt_eq (by omega) (by omega) h (FencedAt.first h1); omega
  · have := firstAt_eq (by omega) (by omega) h (HtmlAt.first h1); omega
  · have := firstAt_eq (by omega) (by omega) h (DefAt.first h1); omega
  · have := firstAt_eq (by omega) (by omega) h (FootnoteAt.first h1); omega
  · have := firstAt_eq (by omega) (by omega) h (TableAt.first h1); omega
  · exact hcu h1

/-- The underlined heading, or the paragraph, that begins where nothing interrupts. -/
theorem v2_some (ha : cfg.Tries) {s : Str} (hs : ¬ InterruptsOn cfg s) :
    headingV2OrParagraph x cfg (blockP x cfg) s ≠ none := by
  obtain ⟨rest, ls, w, h1, rfl, h2, h3⟩ := lines_on (x := x) ha hs
  obtain ⟨l, h7⟩ := parseInlines1_ne_none (x := x) ha.custom (text_on ha) h2.join_ne
  have h8 : paragraphP x cfg (blockP x cfg) true (w ++ rest) = some (rest, l) := mapOpt_some.2 ⟨ls, h1, h7⟩
  unfold headingV2OrParagraph
  rw [ne_eq, mapP_none]
  cases h : headingV2Level rest with
  | none => rw [seq_some (x := (l, none)).2 ⟨_, h8, opt_some.2 (.inr ⟨h, rfl, rfl⟩)⟩]; simp
  | some y => rw [seq_some (x := (l, some y.2)).2 ⟨_, h8, opt_some.2 (.inl ⟨y.2, h, rfl⟩)⟩]; simp

theorem first_on (ha : cfg.Tries) {s : Str} (hs : ¬ BlankLineAt s) :
    (∃ r b, blockP x cfg s = some (r, [b]) ∧ StartsOn x cfg s (startKind b) ∧ ByOn x cfg s b r (startKind b)) ∨
    (∃ r bs, blockP x cfg s = some (r, bs) ∧ ¬ SpecialOn x cfg s ∧ CustomBlock cfg s bs r) := by
  have hc := ha.custom
  have ht := text_on ha
  have hp := paragraph_on ha
  cases he : blockP x cfg s with
  | none =>
    exact absurd (BlankLineAt.of_blank ((blockP_none hc ht hp).1 he)) hs
  | some y =>
    obtain ⟨r, bs⟩ := y
    rw [blockP_alt hc (emptyLine_iff.2 hs)] at he
    unfold blockAlt at he
    simp only [orElse_some, block_on ha.codeBlock, block_on ha.headingV1, block_on ha.headingV2,
      block_on ha.thematicBreak, block_on ha.blockquote, block_on ha.list, block_on ha.htmlBlock,
      block_on ha.footnoteDefinition, block_on ha.linkDefinition, block_on ha.table,
      block_iff ha.paragraph, vec_on ha.githubAlert, vec_off ha.githubAlert,
      block_off ha.codeBlock, block_off ha.headingV1, block_off ha.headingV2,
      block_off ha.thematicBreak, block_off ha.blockquote, block_off ha.list, block_off ha.htmlBlock,
      block_off ha.footnoteDefinition, block_off ha.linkDefinition, block_off ha.table,
      codeBlockP, orElse_none, mapP_none, value_none] at he
    rcases he with ⟨v, ⟨k1, h1 | ⟨n1, h1⟩⟩, rfl⟩ | ⟨n2, ⟨v, ⟨k1, h1⟩, rfl⟩ | ⟨n3, ⟨v, ⟨k1, h1⟩, rfl⟩ | ⟨n4, ⟨v, ⟨k1, h1⟩, rfl⟩ |
      ⟨n5, ⟨k1, h1⟩ | ⟨n6, ⟨v, ⟨k1, h1⟩, rfl⟩ | ⟨n7, ⟨v, ⟨k1, h1⟩, rfl⟩ | ⟨n8, ⟨v, ⟨k1, h1⟩, rfl⟩ | ⟨n9, ⟨v, ⟨k1, h1⟩, rfl⟩ |
      ⟨n10, ⟨v, ⟨k1, h1⟩, rfl⟩ | ⟨n11, ⟨v, ⟨k1, h1⟩, rfl⟩ | ⟨n12, h1 | ⟨n13, v, h1, rfl⟩⟩⟩⟩⟩⟩⟩⟩⟩⟩⟩⟩
    · refine .inl ⟨r, v, rfl, ?_⟩
      obtain ⟨ls, _, rfl⟩ := mapP_some.1 h1
      exact ⟨⟨k1, indented_iff.1 ⟨_, h1⟩⟩, h1⟩
    · obtain ⟨info, ls, _, rfl⟩ := fencedCode_iff.1 h1
      exact .inl ⟨r, _, rfl, ⟨k1, fenced_iff.1 ⟨_, h1⟩⟩, h1⟩
    · obtain ⟨n, l, rfl, h⟩ := headingV1_at h1
      exact .inl ⟨r, _, rfl, ⟨k1, h⟩, h1⟩
    · refine .inl ⟨r, v, rfl, ?_⟩
      have hk : startKind v = .text := by
        obtain ⟨⟨l, o⟩, _, rfl⟩ := mapP_some.1 h1
        cases o <;> rfl
      rw [hk]
      have hn : ¬ InterruptsOn cfg s := by
        rw [← notAPara_on (x := x) ha]
        intro hne
        obtain ⟨y, hy⟩ := ne_none_iff.1 hne
        rw [headingV2OrParagraph_none hc hy] at h1
        simp at h1
      have hi : cfg.codeBlock = .parse → ¬ IndentedAt s := by
        intro h
        rw [← indented_iff, (n2 h).1]; simp
      unfold InterruptsOn at hn
      refine ⟨⟨?_, fun h => hn (by simp [h])⟩, .inl ⟨k1, h1⟩⟩
      rintro (⟨g, g' | g'⟩ | g | g | ⟨⟨_, g | g | g⟩, t, g'⟩ | g | g | g | g | g | g)
      · exact hi g g'
      · exact hn (by simp [g, g'])
      · exact hn (.inr (.inl g))
      · exact hn (by simp [g])
      · exact hn (by simp [g, AlertAt.quote (cfg := cfg) hc ht hp g'])
      · rw [k1] at g; simp at g
      · exact hn (by simp [g])
      all_goals exact hn (by simp [g])
    · obtain ⟨_, h2, rfl⟩ := value_some.1 h1
      exact .inl ⟨r, _, rfl, ⟨k1, thematic_iff.1 ⟨_, h2⟩⟩, rfl, h2⟩
    · obtain ⟨t, l, rfl⟩ := alert_shape h1
      have hal := (alert_iff hc ht hp).1 ⟨_, _, h1⟩
      refine .inl ⟨r, _, rfl, ⟨⟨k1, ?_⟩, hal⟩, h1⟩
      rcases ha.blockquote with hb | hb
      · exact .inl hb
      · rcases ha.headingV2 with hv | hv
        · by_cases hcu : CustomAt cfg s
          · exact .inr (.inr hcu)
          · exact absurd (n4 hv) (v2_some ha (quote_uninterrupted hb hs (QuoteAt.first (AlertAt.quote (cfg := cfg) hc ht hp hal)) hcu))
        · exact .inr (.inl hv)
    all_goals
      have hal : cfg.githubAlert = .parse → ¬ ∃ t, AlertAt x t s := by
        rintro hg ⟨t, h⟩
        obtain ⟨r, bs, h⟩ := (alert_iff (cfg := cfg) hc ht hp).2 h
        rw [n6 hg] at h; simp at h
    · have hq := (blockquote_iff (x := x) hc ht hp).1 ⟨_, h1⟩
      obtain ⟨ls, bs, _, _, _, rfl⟩ := (quote_exact ha.total).1 h1
      exact .inl ⟨r, _, rfl, ⟨k1, hq, hal⟩, h1⟩
    · obtain ⟨kind, l, rfl, h⟩ := listP_at h1
      exact .inl ⟨r, _, rfl, ⟨k1, h⟩, h1⟩
    · obtain ⟨t, h2, rfl⟩ := mapP_some.1 h1
      exact .inl ⟨r, _, rfl, ⟨k1, Verif.html_iff.1 ⟨_, h2⟩⟩, h1⟩
    · obtain ⟨label, ls, bs, _, _, rfl⟩ := footnoteDef_exact.1 h1
      exact .inl ⟨r, _, rfl, ⟨k1, (Verif.footnote_iff (x := x) hc).1 ⟨_, h1⟩⟩, h1⟩
    · obtain ⟨h, l, d, t, rfl⟩ := definition_at h1
      refine .inl ⟨r, _, rfl, ⟨k1, h, ?_⟩, h1⟩
      intro hf
      rw [← Verif.footnote_iff (x := x) hc, n10 hf]; simp
    · obtain ⟨h, rows, as, rfl⟩ := table_at h1
      exact .inl ⟨r, _, rfl, ⟨k1, h⟩, h1⟩
    all_goals
      have hsp : ¬ SpecialOn x cfg s := by
        rintro (⟨g, g' | g'⟩ | ⟨g, _, g'⟩ | ⟨g, g'⟩ | ⟨⟨g, _⟩, g'⟩ | ⟨g, g'⟩ | ⟨g, _, g'⟩ | ⟨g, g'⟩ | ⟨g, g'⟩ | ⟨g, g'⟩ | ⟨g, g'⟩)
        · rw [← indented_iff, (n2 g).1] at g'; simp at g'
        · rw [← fenced_iff, (n2 g).2] at g'; simp at g'
        · obtain ⟨r, l, h⟩ := headingV1_of_at (x := x) hc g'
          rw [n3 g] at h; simp at h
        · rw [← thematic_iff, n5 g] at g'; simp at g'
        · exact hal g g'
        · rw [← blockquote_iff (x := x) hc ht hp, n7 g] at g'; simp at g'
        · obtain ⟨r, l, h⟩ := listP_of_at (x := x) hc g'
          rw [n8 g] at h; simp at h
        · rw [← Verif.html_iff, n9 g] at g'; simp at g'
        · rw [← Verif.footnote_iff (x := x) hc, n10 g] at g'; simp at g'
        · rw [← Verif.definition_iff (x := x) hc ht, n11 g] at g'; simp at g'
        · rw [← Verif.table_iff (x := x) hc, n12 g] at g'; simp at g'
    · exact .inr ⟨r, bs, rfl, hsp, customBlock_iff.2 h1⟩
    · obtain ⟨l, _, rfl⟩ := mapP_some.1 h1
      refine .inl ⟨r, _, rfl, ⟨hsp, ?_⟩, .inr ⟨n4, h1⟩⟩
      rw [customAt_iff, n13]; simp

/-- No custom parser reads a block of a kind. -/
theorem startsOn_free (ha : cfg.Tries) {s : Str} {k : StartKind} (h : StartsOn x cfg s k) :
    SpecialOn x cfg s ∨ ¬ CustomAt cfg s := by
  rcases startsOn_class ha h with ⟨_, _, h⟩ | ⟨_, _, h⟩ | ⟨_, _, h⟩
  · exact .inl h
  · exact .inr h
  · exact .inl h

theorem onBlock_exact (ha : cfg.Tries) {s r : Str} {b : Block} (hs : ¬ BlankLineAt s) (hk : SpecialOn x cfg s ∨ ¬ CustomAt cfg s) :
    blockP x cfg s = some (r, [b]) ↔ StartsOn x cfg s (startKind b) ∧ ByOn x cfg s b r (startKind b) := by
  obtain ⟨r', b', h1, h2, h3⟩ | ⟨r', bs, _, h1, h2⟩ := first_on (x := x) ha hs
  case inr =>
    rcases hk with hk | hk
    · exact absurd hk h1
    · exact absurd ⟨_, _, h2⟩ hk
  constructor
  · intro h
    rw [h1] at h
    simp at h
    obtain ⟨rfl, rfl⟩ := h
    exact ⟨h2, h3⟩
  · rintro ⟨h5, h6⟩
    rw [← startsOn_unique ha h2 h5] at h6
    obtain ⟨rfl, rfl⟩ := byOn_unique h3 h6
    exact h1

/-- Where no special block begins, a paragraph or an underlined heading is read. -/
theorem textOn_exact (ha : cfg.Tries) {s r : Str} {b : Block} (hs : ¬ BlankLineAt s) (h1 : ¬ SpecialOn x cfg s)
    (hcu : ¬ CustomAt cfg s) : TextByOn x cfg s b r ↔
      (cfg.headingV2 = .parse ∧ (¬ ∃ k, UnderlineAt k s) ∧
        ((∃ w ls l, TextOn cfg r ls w ∧ InterruptsOn cfg r ∧ (¬ ∃ k, UnderlineAt k r) ∧
          ReadOn x cfg (joinWith ['\n'] ls) l ∧ s = w ++ r ∧ b = .paragraph l) ∨
        (∃ w u e k ls l, TextOn cfg (u ++ (e ++ r)) ls w ∧ Underline k u ∧ LineEnd e r ∧
          ReadOn x cfg (joinWith ['\n'] ls) l ∧ s = w ++ (u ++ (e ++ r)) ∧ b = .heading (.setext k) l))) ∨
      ((cfg.headingV2 = .ignore ∨ ∃ k, UnderlineAt k s) ∧ ∃ p t e l, Indented 3 p t ∧ t ≠ [] ∧ LineWritten t e r ∧
        ReadOn x cfg t l ∧ s = p ++ (t ++ (e ++ r)) ∧ b = .paragraph l) := by
  unfold TextByOn
  rw [line_exact ha hs]
  by_cases hu : ∃ k, UnderlineAt k s
  · have h2 : cfg.headingV2 = .parse → headingV2OrParagraph x cfg (blockP x cfg) s = none := by
      intro hv
      obtain ⟨y, hy⟩ := ne_none_iff.1 ((notAPara_on (x := x) ha).2 (.inr (.inr (.inl ⟨hv, hu⟩))))
      exact headingV2OrParagraph_none ha.custom hy
    constructor
    · rintro (⟨g1, g2⟩ | ⟨_, g2⟩)
      · rw [h2 g1] at g2; simp at g2
      · exact .inr ⟨.inr hu, g2⟩
    · rintro (⟨_, g2, _⟩ | ⟨_, g2⟩)
      · exact absurd hu g2
      · exact .inr ⟨h2, g2⟩
  · have hni : ¬ InterruptsOn cfg s := by
      unfold SpecialOn at h1
      rintro (g | g | ⟨_, g⟩ | g | g | g | ⟨g, g'⟩ | g | g | g | g | g)
      · exact hs g
      · exact h1 (by simp only [g, true_or, or_true, and_self])
      · exact hu g
      · exact h1 (by simp only [g, true_or, or_true, and_self])
      · exact h1 (by simp only [g, true_or, or_true, and_self])
      · exact h1 (by simp only [g, true_or, or_true, and_self])
      · exact h1 (by simp only [g, g', true_or, or_true, and_self])
      all_goals first | exact hcu g | exact h1 (by simp only [g, true_or, or_true, and_self])
    rcases ha.headingV2 with hv | hv
    · rw [v2_exact ha hv hni]
      constructor
      · rintro (⟨_, g2⟩ | ⟨g1, _⟩)
        · exact .inl ⟨hv, hu, g2⟩
        · exact absurd (g1 hv) (v2_some ha hni)
      · rintro (⟨_, _, g2⟩ | ⟨g1 | g1, _⟩)
        · exact .inl ⟨hv, g2⟩
        · rw [hv] at g1; simp at g1
        · exact absurd g1 hu
    · constructor
      · rintro (⟨g1, _⟩ | ⟨_, g2⟩)
        · rw [hv] at g1; simp at g1
        · exact .inr ⟨.inl hv, g2⟩
      · rintro (⟨g1, _⟩ | ⟨_, g2⟩)
        · rw [hv] at g1; simp at g1
        · exact .inr ⟨by rw [hv]; simp, g2⟩

/-! ## From the parser to the specification -/

/-- Shorter texts are read as the specification says. -/
def BelowOn (x : PExt) (cfg : PConfig) (n : Nat) : Prop :=
  ∀ c bs, c.length < n → parseMarkdown x cfg c = some ⟨bs⟩ → DocOn x cfg c bs

theorem onItem_reads (ha : cfg.Tries) {n : Nat} (ih : BelowOn x cfg n) {s r : Str} {kind : ListKind} {i : ListItem}
    (hs : s.length ≤ n) (h : listItemP (blockP x cfg) s = some (r, (kind, i))) : ItemOn x cfg s kind i r := by
  obtain ⟨task, ls, bs, h1, h2, rfl⟩ := item_exact.1 h
  have := item_shorter h1
  exact .mk h1 (ih _ _ (by omega) ((blocks0_exact ha.total).1 h2))

theorem onItems_read (ha : cfg.Tries) {n : Nat} (ih : BelowOn x cfg n) : ∀ s r l,
    many0 (listItemP (blockP x cfg)) s = some (r, l) → s.length ≤ n → ItemsOn x cfg s (l.map Prod.snd) r := by
  refine many0_induction ?_ ?_
  · intro s h _
    exact .stop ((item_none ha.custom).1 h)
  · intro s r a r' l h hlt _ ih' hs
    obtain ⟨kind, i⟩ := a
    exact .cons (onItem_reads ha ih hs h) (ih' (by omega))

theorem onBlock_reads (ha : cfg.Tries) {n : Nat} (ih : BelowOn x cfg n) {s r : Str} {b : Block}
    (hn : s.length ≤ n) (hs : ¬ BlankLineAt s) (hk : SpecialOn x cfg s ∨ ¬ CustomAt cfg s) (h : blockP x cfg s = some (r, [b])) : BlockOn x cfg s b r := by
  have hc := ha.custom
  have hR := sem_readOn (x := x) ha
  obtain ⟨h1, h2⟩ := (onBlock_exact ha hs hk).1 h
  cases b with
  | codeBlock kind t =>
    cases kind with
    | indented =>
      obtain ⟨ls, w, g1, g2, g3, rfl, g4⟩ := indentedCode_iff.1 h2
      rw [g4]
      exact .indented h1.1 g1 g2 g3
    | fenced info =>
      obtain ⟨info, ls, g1, g2⟩ := fencedCode_iff.1 h2
      rw [g2]
      exact .fenced h1.1 g1
  | heading k l =>
    cases k with
    | atx m =>
      obtain ⟨n, m, t, e, l, g1, g2, g3, g4, rfl, g5⟩ := (atx_exact hR).1 h2
      rw [g5]
      exact .atx h1.1 g1 g2 g3 g4
    | setext k =>
      obtain ⟨h1, hcu⟩ : ¬ SpecialOn x cfg s ∧ ¬ CustomAt cfg s := h1
      rcases (textOn_exact ha hs h1 hcu).1 h2 with ⟨hv, hu, ⟨w, ls, l, _, _, _, _, _, g⟩ | ⟨w, u, e, k, ls, l, g1, g2, g3, g4, rfl, g5⟩⟩ |
        ⟨_, p, t, e, l, _, _, _, _, _, g⟩
      · simp at g
      · rw [g5]
        exact .setext hv h1 hcu hu g1 g2 g3 g4
      · simp at g
  | thematicBreak =>
    obtain ⟨l, e, g1, g2, rfl⟩ := thematicBreak_iff.1 h2.2
    exact .thematic h1.1 g1 g2
  | githubAlert t bs =>
    obtain ⟨l, ls, g1, g2, g3, g4⟩ := (alert_exact ha.total).1 h2
    have := alert_shorter g1
    exact .alert h1.1 g1 g2 g3 (ih _ _ (by omega) g4)
  | blockQuote bs =>
    obtain ⟨ls, bs, g1, g2, g3, g4⟩ := (quote_exact ha.total).1 h2
    rw [g4]
    have := quote_shorter g1 (by rintro rfl; simp at g2)
    exact .quote h1.1 g1 g2 h1.2.2 (ih _ _ (by omega) g3)
  | list kind l =>
    have h2 : listP (blockP x cfg) s = some (r, .list kind l) := h2
    unfold listP at h2
    split at h2
    · rename_i r1 k i l e
      simp at h2
      obtain ⟨rfl, rfl, rfl⟩ := h2
      obtain ⟨r2, a, l', g1, g2, g3⟩ := many1_some.1 e
      simp at g3
      obtain ⟨rfl, rfl⟩ := g3
      have hlt := Con.lt g1
      exact .list h1.1 (onItem_reads ha ih hn g1) (onItems_read ha ih _ _ _ g2 (by omega))
    · simp at h2
  | htmlBlock t =>
    obtain ⟨t', g1, g2⟩ := mapP_some.1 h2
    obtain ⟨k, hk3, rfl, g3⟩ := html_exact.1 g1
    rw [← g2]
    exact .html h1.1 hk3 g3
  | footnoteDefinition label bs =>
    obtain ⟨label, ls, bs, g1, g2, g3⟩ := footnoteDef_exact.1 h2
    have := note_shorter g1
    rw [g3]
    exact .footnote h1.1 g1 (ih _ _ (by omega) ((blocks0_exact ha.total).1 g2))
  | definition l d title =>
    obtain ⟨t, d, title, l, g1, g2, g3⟩ := (definition_exact hR).1 h2
    rw [g3]
    exact .definition h1.1 g1 h1.2.2 g2
  | table rows as =>
    obtain ⟨rows, as, g1, g2⟩ := (table_exact hc hR).1 h2
    rw [g2]
    exact .table h1.1 g1
  | paragraph l =>
    obtain ⟨h1, hcu⟩ : ¬ SpecialOn x cfg s ∧ ¬ CustomAt cfg s := h1
    rcases (textOn_exact ha hs h1 hcu).1 h2 with ⟨hv, hu, ⟨w, ls, l, g1, g2, g3, g4, rfl, g⟩ | ⟨w, u, e, k, ls, l, _, _, _, _, _, g⟩⟩ |
      ⟨hv, p, t, e, l, g1, g2, g3, g4, rfl, g⟩
    · rw [g]
      exact .paragraph hv h1 hcu hu g1 g2 g3 g4
    · simp at g
    · rw [g]
      exact .line h1 hcu hv g1 g2 g3 g4
  | empty => exact absurd h1 id

theorem belowOn (ha : cfg.Tries) : ∀ n, BelowOn x cfg n := by
  have hc := ha.custom
  have ht := text_on ha
  have hp := paragraph_on ha
  intro n
  induction n with
  | zero => intro c bs h; omega
  | succ n ih =>
    intro c bs hlen h
    cases hb : blockP x cfg c with
    | none =>
      have hbl := (blockP_none (x := x) hc ht hp).1 hb
      rw [C39_blank x cfg hbl] at h
      simp at h
      subst h
      exact .nil hbl
    | some y =>
      obtain ⟨r, bs1⟩ := y
      have hst := hb
      rw [blockP_eq hc] at hst
      obtain ⟨s, ws, h1, h2⟩ := preceded_some.1 hst
      obtain ⟨g, rfl, hg⟩ := manyEmptyLines0_written _ _ _ h1
      have hs : ¬ BlankLineAt s := emptyLine_iff.1 (many0_stop h1)
      have h3 : blockP x cfg s = some (r, bs1) := by rw [blockP_alt hc (emptyLine_iff.2 hs)]; exact h2
      rw [C39_leading_blank_lines hc hg, parseMarkdown_cons hc h3] at h
      obtain ⟨d, h4, h5⟩ := Option.map_eq_some_iff.1 h
      simp at h5
      subst h5
      have := blockP_con (x := x) hc
      have hlt := Con.lt h3
      simp at hlen
      rcases first_on (x := x) ha hs with ⟨r', b, h6, h7, _⟩ | ⟨r', bs', h6, h7, h8⟩
      · rw [h3] at h6
        simp only [Option.some.injEq, Prod.mk.injEq] at h6
        obtain ⟨rfl, rfl⟩ := h6
        exact .cons hg hs (onBlock_reads ha (n := n) ih (by omega) hs (startsOn_free ha h7) h3) (ih _ _ (by omega) h4)
      · rw [h3] at h6
        simp only [Option.some.injEq, Prod.mk.injEq] at h6
        obtain ⟨rfl, rfl⟩ := h6
        exact .custom hg hs h7 h8 (ih _ _ (by omega) h4)

/-! ## From the specification to the parser -/

theorem kind_on (ha : cfg.Tries) {s r : Str} {b : Block} {k : StartKind} (hk : startKind b = k) (hs : ¬ BlankLineAt s)
    (h1 : StartsOn x cfg s k) (h2 : ByOn x cfg s b r k) : blockP x cfg s = some (r, [b]) := by
  subst hk
  exact (onBlock_exact ha hs (startsOn_free ha h1)).2 ⟨h1, h2⟩

theorem docOn_of (ha : cfg.Tries) {s : Str} {bs : List Block} (h : DocOn x cfg s bs) :
    parseMarkdown x cfg s = some ⟨bs⟩ := by
  have hc := ha.custom
  have ht := text_on ha
  have hp := paragraph_on ha
  have hR := sem_readOn (x := x) ha
  refine DocOn.rec (motive_1 := fun s bs _ => parseMarkdown x cfg s = some ⟨bs⟩)
    (motive_2 := fun s b r _ => ¬ BlankLineAt s → blockP x cfg s = some (r, [b]))
    (motive_3 := fun s kind i r _ => listItemP (blockP x cfg) s = some (r, (kind, i)))
    (motive_4 := fun s l r _ => ∃ l', many0 (listItemP (blockP x cfg)) s = some (r, l') ∧ l = l'.map Prod.snd)
    ?_ ?_ ?_ ?_ ?_ ?_ ?_ ?_ ?_ ?_ ?_ ?_ ?_ ?_ ?_ ?_ ?_ ?_ ?_ ?_ h
  · intro s hb; exact C39_blank x cfg hb
  · intro g s r b bs hg hs _ _ ih1 ih2
    rw [C39_leading_blank_lines hc hg, parseMarkdown_cons hc (ih1 hs), ih2]
    rfl
  · intro g s r bs bs' hg hs h1 h2 _ ih
    have h3 : blockP x cfg s = some (r, bs) := by
      rcases first_on (x := x) ha hs with ⟨r', b, h6, h7, _⟩ | ⟨r', bs'', h6, h7, h8⟩
      · rcases startsOn_free ha h7 with h | h
        · exact absurd h h1
        · exact absurd ⟨_, _, h2⟩ h
      · rw [customBlock_iff] at h2 h8
        rw [h2] at h8
        rw [h6]; exact h8.symm
    rw [C39_leading_blank_lines hc hg, parseMarkdown_cons hc h3, ih]
    rfl
  · intro w r ls k1 g1 g2 g3 hs
    have h := indentedCode_iff.2 ⟨ls, w, g1, g2, g3, rfl, rfl⟩
    exact kind_on ha rfl hs ⟨k1, indented_iff.1 ⟨_, h⟩⟩ h
  · intro s r info ls k1 g1 hs
    have h := fencedCode_iff.2 ⟨info, ls, g1, rfl⟩
    exact kind_on ha rfl hs ⟨k1, fenced_iff.1 ⟨_, h⟩⟩ h
  · intro n m t e r l k1 g1 g2 g3 g4 hs
    have h := (atx_exact (x := x) hR).2 ⟨n, m, t, e, l, g1, g2, g3, g4, rfl, rfl⟩
    obtain ⟨n', l', h5, h6⟩ := headingV1_at h
    simp at h5
    obtain ⟨rfl, rfl⟩ := h5
    exact kind_on ha rfl hs ⟨k1, h6⟩ h
  · intro l e r k1 g1 g2 hs
    have h := thematicBreak_iff.2 ⟨l, e, g1, g2, rfl⟩
    exact kind_on ha rfl hs ⟨k1, thematic_iff.1 ⟨_, h⟩⟩ ⟨rfl, h⟩
  · intro s r ls bs k1 g1 g2 g3 _ ih hs
    have h := (quote_exact ha.total).2 ⟨ls, bs, g1, g2, ih, rfl⟩
    exact kind_on ha rfl hs ⟨k1, (blockquote_iff (x := x) hc ht hp).1 ⟨_, h⟩, g3⟩ h
  · intro s l r ls t bs k1 g1 g2 g3 _ ih hs
    have h := (alert_exact ha.total).2 ⟨l, ls, g1, g2, g3, ih⟩
    exact kind_on ha rfl hs ⟨k1, (alert_iff hc ht hp).1 ⟨_, _, h⟩⟩ h
  · intro s s' r kind i l k1 _ _ ih1 ih2 hs
    obtain ⟨l', h1, rfl⟩ := ih2
    have h : listP (blockP x cfg) s = some (r, .list kind (i :: l'.map Prod.snd)) := by
      unfold listP
      rw [many1_some.2 ⟨_, _, _, ih1, h1, rfl⟩]
    obtain ⟨kind', l', h5, h6⟩ := listP_at h
    simp at h5
    obtain ⟨rfl, rfl⟩ := h5
    exact kind_on ha rfl hs ⟨k1, h6⟩ h
  · intro k h' r k1 g1 g2 hs
    have h := html_exact.2 ⟨k, g1, rfl, g2⟩
    exact kind_on ha rfl hs ⟨k1, Verif.html_iff.1 ⟨_, h⟩⟩ (mapP_some.2 ⟨_, h, rfl⟩)
  · intro s label r ls bs k1 g1 _ ih hs
    have h := footnoteDef_exact.2 ⟨label, ls, bs, g1, (blocks0_exact ha.total).2 ih, rfl⟩
    exact kind_on ha rfl hs ⟨k1, (Verif.footnote_iff (x := x) hc).1 ⟨_, h⟩⟩ h
  · intro s t d r title l k1 g1 g2 g3 hs
    have h := (definition_exact (x := x) hR).2 ⟨t, d, title, l, g1, g3, rfl⟩
    exact kind_on ha rfl hs ⟨k1, (definition_at h).1, g2⟩ h
  · intro s r rows as k1 g1 hs
    have h := (table_exact hc hR).2 ⟨rows, as, g1, rfl⟩
    exact kind_on ha rfl hs ⟨k1, (table_at h).1⟩ h
  · intro w r ls l hv h1 hcu hu g1 g2 g3 g4 hs
    exact kind_on ha rfl hs ⟨h1, hcu⟩ ((textOn_exact ha hs h1 hcu).2 (.inl ⟨hv, hu, .inl ⟨w, ls, l, g1, g2, g3, g4, rfl, rfl⟩⟩))
  · intro w u e r k ls l hv h1 hcu hu g1 g2 g3 g4 hs
    exact kind_on ha rfl hs ⟨h1, hcu⟩ ((textOn_exact ha hs h1 hcu).2 (.inl ⟨hv, hu, .inr ⟨w, u, e, k, ls, l, g1, g2, g3, g4, rfl, rfl⟩⟩))
  · intro p t e r l h1 hcu hu g1 g2 g3 g4 hs
    exact kind_on ha rfl hs ⟨h1, hcu⟩ ((textOn_exact ha hs h1 hcu).2 (.inr ⟨hu, p, t, e, l, g1, g2, g3, g4, rfl, rfl⟩))
  · intro s r kind task ls bs g1 _ ih
    exact item_exact.2 ⟨task, ls, bs, g1, (blocks0_exact ha.total).2 ih, rfl⟩
  · intro s h
    exact ⟨[], many0_of_none ((item_none hc).2 h), rfl⟩
  · intro s s' r kind i l _ _ ih1 ih2
    obtain ⟨l', h1, rfl⟩ := ih2
    exact ⟨(kind, i) :: l', many0_of_some ih1 (Con.lt ih1) h1, rfl⟩

/-- **C88.** Whatever constructs are switched off and whatever the custom parsers read, a text is read as the blocks that the specification says, and
as no others. -/
theorem C88_exact (ha : cfg.Tries) (s : Str) (bs : List Block) :
    parseMarkdown x cfg s = some ⟨bs⟩ ↔ DocOn x cfg s bs :=
  ⟨fun h => belowOn ha (s.length + 1) s bs (by omega) h, docOn_of ha⟩

/-- **C88.** The specification reads every text, and in one way. -/
theorem C88_unique (ha : cfg.Tries) (s : Str) : ∃ bs, DocOn x cfg s bs ∧ ∀ bs', DocOn x cfg s bs' → bs' = bs := by
  obtain ⟨⟨bs⟩, h⟩ := everyDoc_total (x := x) ha.total s
  refine ⟨bs, (C88_exact ha s bs).1 h, fun bs' h' => ?_⟩
  have := docOn_of ha h'
  rw [h] at this
  simp at this
  exact this.symm

/-- **C88.** Where everything is on, this is the reading of C85. -/
theorem C88_all_on (ha : cfg.AllBlocks) (hi : InlineParse cfg) (s : Str) (bs : List Block) :
    DocOn x cfg s bs ↔ DocRead x cfg s bs := by
  rw [← C88_exact ha.keeps.tries, C85_exact ha hi]

theorem plain_tries {c : PConfig} (hc : c.HookOk) (ht : c.text = .parse) (hp : c.paragraph ≠ .ignore) : c.plain.Tries := by
  have key : ∀ {α : Type} (b : Behavior α), b.plain = .parse ∨ b.plain = .ignore := by intro α b; cases b <;> simp [Behavior.plain]
  constructor
  case text => show c.text.plain = .parse; rw [ht]; rfl
  case paragraph => show c.paragraph.plain = .parse; cases h : c.paragraph <;> simp [Behavior.plain, h] at hp ⊢
  case custom => exact CustomOk_of_none hc.customInline hc.customBlock
  all_goals exact key _

/-- **C88.** With Skip, Map and FlatMap: the document is what the specification reads with the hooks away, with every
element replaced by what its hook makes of it. -/
theorem C88_hooks {c : PConfig} (hc : c.HookOk) (ht : c.text = .parse) (hp : c.paragraph ≠ .ignore) (s : Str) (bs : List Block) :
    parseMarkdown x c s = some ⟨bs⟩ ↔ ∃ bs', DocOn x c.plain s bs' ∧ bs = Block.hookL c bs' := by
  rw [C69_hooks x c hc s]
  constructor
  · intro h
    obtain ⟨⟨bs'⟩, h1, h2⟩ := Option.map_eq_some_iff.1 h
    simp at h2
    exact ⟨bs', (C88_exact (plain_tries hc ht hp) s bs').1 h1, h2.symm⟩
  · rintro ⟨bs', h1, rfl⟩
    rw [(C88_exact (plain_tries hc ht hp) s bs').2 h1]
    rfl

end

/-! ## Concrete cases -/

/-- The hooks of `hookExample` satisfy the hypotheses of `C88_hooks`. -/
theorem C88_hooks_example (s : Str) (bs : List Block) : parseMarkdown PExt.ascii hookExample s = some ⟨bs⟩ ↔
    ∃ bs', DocOn PExt.ascii hookExample.plain s bs' ∧ bs = Block.hookL hookExample bs' :=
  C88_hooks hookExample_ok rfl (by simp [hookExample]) s bs

/-- Underlined headings ignored: every line is a paragraph.  Quotes ignored, alerts not: the alert is a paragraph.
Both ignored: the alert is read.  Code and lists ignored: their lines are paragraphs with the blanks beyond the
third.  Emphasis and links ignored: their marks are text. -/
theorem C88_examples :
    let cfg := PConfig.default fun _ => none
    DocOn PExt.ascii { cfg with headingV2 := .ignore } cs!"a
b
===" [.paragraph [.text ['a']], .paragraph [.text ['b']],
      .paragraph [.text cs!"==="]] ∧
    DocOn PExt.ascii { cfg with blockquote := .ignore, referenceLink := .ignore } cs!"> [!NOTE]
> x" [.paragraph [.text cs!"> [!NOTE]
> x"]] ∧
    DocOn PExt.ascii { cfg with blockquote := .ignore, headingV2 := .ignore } cs!"> [!NOTE]
> x"
      [.githubAlert .note [.paragraph [.text ['x']]]] ∧
    DocOn PExt.ascii { cfg with codeBlock := .ignore, list := .ignore } cs!"    a
- b

```
# c" [
      .paragraph [.text cs!" a
- b"], .paragraph [.text cs!"```"], .heading (.atx 1) [.text ['c']]] ∧
    DocOn PExt.ascii { cfg with emphasis := .ignore, link := .ignore, referenceLink := .ignore } cs!"- *a* [b](c) `d`"
      [.list (.bullet .dash) [.mk none [.paragraph [.text cs!"*a* [b](c) ", .code ['d']]]]] := by
  intro cfg
  have keep : ∀ c : PConfig, c.Keeps → ∀ s bs, parseMarkdown PExt.ascii c s = some ⟨bs⟩ → DocOn PExt.ascii c s bs :=
    fun c hc s bs => (C88_exact hc.tries s bs).1
  refine ⟨keep _ ?_ _ _ ?_, keep _ ?_ _ _ ?_, keep _ ?_ _ _ ?_, keep _ ?_ _ _ ?_, keep _ ?_ _ _ ?_⟩
  all_goals first | (constructor <;> simp [cfg, PConfig.default]; done) | decide +kernel

/-- A custom inline parser of mentions and a custom block parser of percent signs. -/
def customExample : PConfig :=
  { PConfig.default fun _ => none with
    customInline := some fun s => match s with
      | '@' :: c :: r => some (r, [.text ['<'], .code [c], .text ['>']])
      | _ => none
    customBlock := some fun s => match s with
      | '%' :: r => some (r, [.thematicBreak, .htmlBlock ['%']])
      | _ => none }

theorem customExample_tries : customExample.Tries := by
  constructor
  case custom =>
    constructor
    · constructor
      intro s r a h
      simp only [customExample, customParser] at h
      split at h
      · simp at h; obtain ⟨rfl, rfl⟩ := h
        exact ⟨⟨[_, _], rfl⟩, by simp; omega⟩
      · simp at h
    · constructor
      intro s r a h
      simp only [customExample, customParser] at h
      split at h
      · simp at h; obtain ⟨rfl, rfl⟩ := h
        exact ⟨⟨[_], rfl⟩, by simp⟩
      · simp at h
  all_goals simp [customExample, PConfig.default]

/-- A custom parser is asked at the start of a text and behind an element, not behind characters; the text that it
makes joins the text that follows.  A custom block interrupts a paragraph. -/
theorem C88_custom_examples :
    ReadOn PExt.ascii customExample cs!"@bc" [.text ['<'], .code ['b'], .text cs!">c"] ∧
    ReadOn PExt.ascii customExample cs!"a @b" [.text cs!"a @b"] ∧
    ReadOn PExt.ascii customExample cs!"`k`@b" [.code ['k'], .text ['<'], .code ['b'], .text cs!">"] ∧
    DocOn PExt.ascii customExample cs!"a
%b" [.paragraph [.text ['a']], .thematicBreak, .htmlBlock ['%'], .paragraph [.text ['b']]] := by
  refine ⟨(C88_inlines customExample_tries _ _).1 ?_, (C88_inlines customExample_tries _ _).1 ?_,
    (C88_inlines customExample_tries _ _).1 ?_, (C88_exact customExample_tries _ _).1 ?_⟩
  all_goals decide +kernel

end Verif.Exact
