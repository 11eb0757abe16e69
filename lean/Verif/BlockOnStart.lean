import Verif.BlockOnSpec
import Verif.BlockExactProps
import Verif.InlineOn
/-!
# Which block a text begins with, and paragraphs, when constructs are switched off (for C88)
-/
set_option autoImplicit false
set_option linter.unusedVariables false
set_option linter.unusedSimpArgs false
namespace Verif.Exact
open Nom

section
variable {x : PExt} {cfg : PConfig}

theorem sem_readOn (hk : cfg.Tries) : InlineSem x cfg (ReadOn x cfg) :=
  ⟨C88_inlines hk, fun t l ht => by rw [parse1_on hk.custom hk ht]; exact C88_inlines hk _ _⟩

theorem text_on (hk : cfg.Tries) : cfg.text ≠ .ignore := by rw [hk.text]; simp
theorem paragraph_on (hk : cfg.Tries) : cfg.paragraph ≠ .ignore := by rw [hk.paragraph]; simp

/-! ## What interrupts a paragraph -/

theorem unit_on {α β : Type} {b : Behavior α} {p : P β} {s : Str} (hb : b = .parse ∨ b = .ignore) :
    conditionalUnit b p s ≠ none ↔ b = .parse ∧ ∃ y, p s = some y := by
  rw [ne_eq, conditionalUnit_none, ← ne_none_iff]
  rcases hb with rfl | rfl <;> simp

theorem customBlock_iff {s r : Str} {bs : List Block} : CustomBlock cfg s bs r ↔ customParser cfg.customBlock s = some (r, bs) := by
  unfold CustomBlock customParser
  cases cfg.customBlock <;> simp [failP]

theorem customAt_iff {s : Str} : CustomAt cfg s ↔ ∃ y, customParser cfg.customBlock s = some y := by
  unfold CustomAt
  simp only [customBlock_iff]
  exact ⟨fun ⟨bs, r, h⟩ => ⟨_, h⟩, fun ⟨y, h⟩ => ⟨y.2, y.1, h⟩⟩

theorem notAPara_on (ha : cfg.Tries) {s : Str} :
    notAParagraphLine x cfg (blockP x cfg) s ≠ none ↔ InterruptsOn cfg s := by
  have hc := ha.custom
  have ht := text_on ha
  have hp := paragraph_on ha
  have h1 : (∃ y, headingV1 x cfg s = some y) ↔ ∃ n, AtxAt cfg n s := by
    constructor
    · rintro ⟨⟨r, b⟩, h⟩; obtain ⟨n, l, _, h⟩ := headingV1_at h; exact ⟨n, h⟩
    · rintro ⟨n, h⟩; obtain ⟨r, l, h⟩ := headingV1_of_at (x := x) hc h; exact ⟨_, h⟩
  have h2 : (∃ y, headingV2Level s = some y) ↔ ∃ k, UnderlineAt k s := by
    constructor
    · rintro ⟨⟨r, b⟩, h⟩; exact ⟨b, underline_iff.1 ⟨r, h⟩⟩
    · rintro ⟨n, h⟩; obtain ⟨r, h⟩ := underline_iff.2 h; exact ⟨_, h⟩
  have h3 : (∃ y, listItemP (blockP x cfg) s = some y) ↔ ∃ k, ItemAt k s := by
    constructor
    · rintro ⟨⟨r, k, i⟩, h⟩; exact ⟨k, listItemP_kind h⟩
    · rintro ⟨n, h⟩; obtain ⟨r, i, h⟩ := listItemP_of_at (x := x) hc h; exact ⟨_, h⟩
  have h4 : (value () (customParser cfg.customBlock) s ≠ none) ↔ CustomAt cfg s := by
    rw [ne_eq, value_none, customAt_iff, ← ne_none_iff]
  have h5 : (value () (lineTerminated space0) s ≠ none) ↔ BlankLineAt s := by
    rw [ne_eq, value_none, ← blankLine_iff, ← ne_none_iff]
  have key : ∀ (p q : P Unit), (p <||> q) s ≠ none ↔ p s ≠ none ∨ q s ≠ none := by
    intro p q
    rw [ne_eq, orElse_none]
    by_cases h : p s = none <;> by_cases h' : q s = none <;> simp [h, h']
  unfold notAParagraphLine
  simp only [key, unit_on ha.headingV1, unit_on ha.headingV2, unit_on ha.list, h1, h2, h3, h4, h5,
    unit_on ha.thematicBreak, unit_on ha.blockquote, unit_on ha.codeBlock,
    unit_on ha.htmlBlock, unit_on ha.linkDefinition, unit_on ha.footnoteDefinition, unit_on ha.table,
    thematic_iff, blockquote_iff hc ht hp, fenced_iff, Verif.html_iff, Verif.definition_iff hc ht,
    Verif.footnote_iff hc, Verif.table_iff hc]
  unfold InterruptsOn
  generalize (cfg.headingV1 = .parse ∧ ∃ n, AtxAt cfg n s) = A1
  generalize (cfg.headingV2 = .parse ∧ ∃ k, UnderlineAt k s) = A2
  generalize (cfg.thematicBreak = .parse ∧ ThematicAt s) = A3
  generalize (cfg.blockquote = .parse ∧ QuoteAt s) = A4
  generalize (cfg.list = .parse ∧ ∃ kind, ItemAt kind s) = A5
  generalize (cfg.codeBlock = .parse ∧ FencedAt s) = A6
  generalize (cfg.htmlBlock = .parse ∧ HtmlAt s) = A7
  generalize (cfg.linkDefinition = .parse ∧ DefAt s) = A8
  generalize (cfg.footnoteDefinition = .parse ∧ FootnoteAt s) = A9
  generalize (cfg.table = .parse ∧ TableAt s) = A10
  generalize CustomAt cfg s = A11
  generalize BlankLineAt s = A0
  grind

/-! ## The kinds of blocks -/

/-- The text begins with a block of the kind. -/
def StartsOn (x : PExt) (cfg : PConfig) (s : Str) : StartKind → Prop
  | .indented => cfg.codeBlock = .parse ∧ IndentedAt s
  | .fenced => cfg.codeBlock = .parse ∧ FencedAt s
  | .atx n => cfg.headingV1 = .parse ∧ AtxAt cfg n s
  | .thematic => cfg.thematicBreak = .parse ∧ ThematicAt s
  | .alert t => AlertsOn cfg s ∧ AlertAt x t s
  | .quote => cfg.blockquote = .parse ∧ QuoteAt s ∧ (cfg.githubAlert = .parse → ¬ ∃ t, AlertAt x t s)
  | .list kind => cfg.list = .parse ∧ ItemAt kind s
  | .html => cfg.htmlBlock = .parse ∧ HtmlAt s
  | .footnote => cfg.footnoteDefinition = .parse ∧ FootnoteAt s
  | .definition => cfg.linkDefinition = .parse ∧ DefAt s ∧ (cfg.footnoteDefinition = .parse → ¬ FootnoteAt s)
  | .table => cfg.table = .parse ∧ TableAt s
  | .text => ¬ SpecialOn x cfg s ∧ ¬ CustomAt cfg s
  | .other => False

theorem startsOn_class (ha : cfg.Tries) {s : Str} {k : StartKind} (h : StartsOn x cfg s k) :
    (k = .indented ∧ IndentedAt s ∧ SpecialOn x cfg s) ∨ (k = .text ∧ ¬ SpecialOn x cfg s ∧ ¬ CustomAt cfg s) ∨
      (1 ≤ kindClass k ∧ FirstAt (kindClass k) s ∧ SpecialOn x cfg s) := by
  have hc := ha.custom
  have ht := text_on ha
  have hp := paragraph_on ha
  unfold SpecialOn
  cases k with
  | indented => exact .inl ⟨rfl, h.2, .inl ⟨h.1, .inl h.2⟩⟩
  | text => exact .inr (.inl ⟨rfl, h⟩)
  | other => exact absurd h id
  | fenced => exact .inr (.inr ⟨by decide, FencedAt.first h.2, .inl ⟨h.1, .inr h.2⟩⟩)
  | atx n => exact .inr (.inr ⟨by show 1 ≤ 2; omega, AtxAt.first h.2, .inr (.inl ⟨h.1, _, h.2⟩)⟩)
  | thematic => exact .inr (.inr ⟨by decide, ThematicAt.first h.2, .inr (.inr (.inl h))⟩)
  | alert t =>
    have := AlertAt.quote (cfg := cfg) hc ht hp h.2
    exact .inr (.inr ⟨by show 1 ≤ 3; omega, QuoteAt.first this, .inr (.inr (.inr (.inl ⟨h.1, _, h.2⟩)))⟩)
  | quote => exact .inr (.inr ⟨by decide, QuoteAt.first h.2.1, .inr (.inr (.inr (.inr (.inl ⟨h.1, h.2.1⟩))))⟩)
  | list kind => exact .inr (.inr ⟨by show 1 ≤ 7; omega, ItemAt.first h.2, .inr (.inr (.inr (.inr (.inr (.inl ⟨h.1, _, h.2⟩)))))⟩)
  | html => exact .inr (.inr ⟨by decide, HtmlAt.first h.2, .inr (.inr (.inr (.inr (.inr (.inr (.inl h))))))⟩)
  | footnote => exact .inr (.inr ⟨by decide, FootnoteAt.first h.2, .inr (.inr (.inr (.inr (.inr (.inr (.inr (.inl h)))))))⟩)
  | definition => exact .inr (.inr ⟨by decide, DefAt.first h.2.1, .inr (.inr (.inr (.inr (.inr (.inr (.inr (.inr (.inl ⟨h.1, h.2.1⟩))))))))⟩)
  | table => exact .inr (.inr ⟨by decide, TableAt.first h.2, .inr (.inr (.inr (.inr (.inr (.inr (.inr (.inr (.inr h))))))))⟩)

theorem startsOn_unique (ha : cfg.Tries) {s : Str} {k1 k2 : StartKind} (h1 : StartsOn x cfg s k1) (h2 : StartsOn x cfg s k2) :
    k1 = k2 := by
  have hc := ha.custom
  have ht := text_on ha
  have hp := paragraph_on ha
  rcases startsOn_class ha h1 with ⟨rfl, a1, c1⟩ | ⟨rfl, a1, _⟩ | ⟨b1, a1, c1⟩ <;>
  rcases startsOn_class ha h2 with ⟨rfl, a2, c2⟩ | ⟨rfl, a2, _⟩ | ⟨b2, a2, c2⟩
  · rfl
  · exact absurd c1 a2
  · exact absurd a1 (firstAt_indented (by omega) a2)
  · exact absurd c2 a1
  · rfl
  · exact absurd c2 a1
  · exact absurd a2 (firstAt_indented (by omega) a1)
  · exact absurd c1 a2
  · have he := firstAt_eq (by omega) (by omega) a1 a2
    cases k1 <;> cases k2 <;> first | rfl | (exfalso; revert he; simp [kindClass]; done) | skip
    all_goals simp only [StartsOn] at h1 h2
    · obtain ⟨r, l, e1⟩ := headingV1_of_at (x := x) hc h1.2
      obtain ⟨r', l', e2⟩ := headingV1_of_at (x := x) hc h2.2
      rw [e1] at e2; simp at e2; rw [e2.2.1]
    · exact absurd h2.2 (thematic_item h1.2)
    · rename_i t1 t2
      obtain ⟨r, bs, e1⟩ := (alert_iff (cfg := cfg) hc ht hp).2 h1.2
      obtain ⟨r', bs', e2⟩ := (alert_iff (cfg := cfg) hc ht hp).2 h2.2
      rw [e1] at e2; simp at e2; rw [e2.2.1]
    · exact absurd ⟨_, h1.2⟩ (h2.2.2 h1.1.1)
    · exact absurd ⟨_, h2.2⟩ (h1.2.2 h2.1.1)
    · exact absurd h1.2 (thematic_item h2.2)
    · obtain ⟨r, l, e1⟩ := listItemP_of_at (x := x) hc h1.2
      obtain ⟨r', l', e2⟩ := listItemP_of_at (x := x) hc h2.2
      rw [e1] at e2; simp at e2; rw [e2.2.1]
    · exact absurd h1.2 (h2.2.2 h1.1)
    · exact absurd h2.2 (h1.2.2 h2.1)

/-! ## Paragraphs -/

theorem sep_on (ha : cfg.Tries) :
    ∀ s r ls, sepLoop lineEnding (preceded (notP (notAParagraphLine x cfg (blockP x cfg))) paragraphLine) s = some (r, ls) →
      ∀ y, eofOrEol s = some y → ∃ r2 e, eofOrEol r = some (r2, e) ∧ ∃ e0 w, s = e0 ++ (w ++ r2) ∧ LineEnd e0 (w ++ r2) ∧
        InterruptsOn cfg r2 ∧ ((ls = [] ∧ w = []) ∨ (TextOn cfg r2 ls w ∧ ¬ InterruptsOn cfg (w ++ r2))) := by
  refine sepLoop_induction ?_ ?_
  · intro s hs ⟨r2, e⟩ he
    obtain ⟨h1, rfl⟩ := LineEnd.of_eofOrEol he
    refine ⟨r2, e, he, e, [], rfl, h1, ?_, .inl ⟨rfl, rfl⟩⟩
    rcases orElse_some.1 he with h | ⟨hn, h⟩
    · rcases hs with hs | ⟨r, b, hs, hs2⟩
      · rw [hs] at h; simp at h
      · rw [hs] at h; simp at h
        obtain ⟨rfl, rfl⟩ := h
        by_cases hb : BlankLineAt r
        · exact .inl hb
        · rw [← notAPara_on (x := x) ha]
          intro hna
          obtain ⟨r', t, h2, _⟩ := paragraphLine_ne_none (emptyLine_iff.2 hb)
          rw [preceded_some.2 ⟨r, (), notP_some.2 ⟨hna, rfl⟩, h2⟩] at hs2
          simp at hs2
    · obtain ⟨h2, rfl, _⟩ := eof_some.1 h
      exact .inl ⟨[], [], [], by simp [Blanks], .inr ⟨rfl, rfl⟩, by simp⟩
  · intro s r b r' a r'' l hsep h1 _ _ ih y hy
    obtain ⟨s3, _, h2, h3⟩ := preceded_some.1 h1
    obtain ⟨hna, rfl⟩ := notP_some.1 h2
    have hni : ¬ InterruptsOn cfg s3 := by rw [← notAPara_on (x := x) ha, hna]; simp
    obtain ⟨_, _, _, h4⟩ := preceded_some.1 h3
    obtain ⟨z, hz⟩ := Option.ne_none_iff_exists'.1 (notEofOrEol1_rest h4)
    obtain ⟨r2, e, h5, e0, w, rfl, h6, h7, h8⟩ := ih z hz
    obtain ⟨q, rfl, ⟨g1, g2⟩, g3, g4⟩ := paragraphLine_some h3
    obtain ⟨nl, rfl, g5⟩ := lineEnding_writes _ _ _ hsep
    have g6 : LineWritten a e0 (w ++ r2) := ⟨g3, fun h => g4 (by rw [h]; rfl), h6⟩
    refine ⟨r2, e, h5, nl, q ++ (a ++ (e0 ++ w)), by simp, .inl g5, h7, .inr ⟨?_, by simpa using hni⟩⟩
    rcases h8 with ⟨rfl, rfl⟩ | ⟨h8, h9⟩
    · simp at g6 ⊢
      exact .last g2 g1 g6
    · exact .cons g2 g1 g6 h9 h8

theorem lines_on (ha : cfg.Tries) {s : Str} (hs : ¬ InterruptsOn cfg s) :
    ∃ rest ls w, paragraphLines x cfg (blockP x cfg) s = some (rest, ls) ∧ s = w ++ rest ∧ TextOn cfg rest ls w ∧
      InterruptsOn cfg rest := by
  have hb : ¬ BlankLineAt s := fun h => hs (.inl h)
  obtain ⟨r, t, h1, h2⟩ := paragraphLine_ne_none (emptyLine_iff.2 hb)
  have hna : notAParagraphLine x cfg (blockP x cfg) s = none := by
    cases h : notAParagraphLine x cfg (blockP x cfg) s with
    | none => rfl
    | some y => exact absurd ((notAPara_on (x := x) ha).1 (by rw [h]; simp)) hs
  have h3 : preceded (notP (notAParagraphLine x cfg (blockP x cfg))) paragraphLine s = some (r, t) :=
    preceded_some.2 ⟨s, (), notP_some.2 ⟨hna, rfl⟩, h1⟩
  obtain ⟨_, _, _, h4⟩ := preceded_some.1 h1
  obtain ⟨z, hz⟩ := Option.ne_none_iff_exists'.1 (notEofOrEol1_rest h4)
  have hsuf : Suf (preceded (notP (notAParagraphLine x cfg (blockP x cfg))) paragraphLine) := by
    have : Suf paragraphLine := by unfold paragraphLine; infer_instance
    infer_instance
  obtain ⟨⟨r1, l⟩, hl⟩ := Option.ne_none_iff_exists'.1
    (sepLoop_ne_none (sep := lineEnding) (p := preceded (notP (notAParagraphLine x cfg (blockP x cfg))) paragraphLine) r)
  obtain ⟨r2, e, h5, e0, w, rfl, h6, h7, h8⟩ := sep_on ha _ _ _ hl z hz
  obtain ⟨q, rfl, ⟨g1, g2⟩, g3, g4⟩ := paragraphLine_some h1
  have g6 : LineWritten t e0 (w ++ r2) := ⟨g3, fun h => g4 (by rw [h]; rfl), h6⟩
  refine ⟨r2, t :: l, q ++ (t ++ (e0 ++ w)), ?_, by simp, ?_, h7⟩
  · exact terminated_some.2 ⟨r1, e, separatedList0_some.2 (.inr ⟨_, _, _, h3, hl, rfl⟩), h5⟩
  · rcases h8 with ⟨rfl, rfl⟩ | ⟨h8, h9⟩
    · simp at g6 ⊢
      exact .last g2 g1 g6
    · exact .cons g2 g1 g6 h9 h8

theorem TextOn.join_ne {r : Str} {ls : List Str} {w : Str} (h : TextOn cfg r ls w) : joinWith ['\n'] ls ≠ [] := by
  cases h with
  | last _ h _ => simpa [joinWith] using h
  | @cons p l e w ls _ h _ _ _ =>
    cases ls with
    | nil => simpa [joinWith] using h
    | cons => simp [joinWith, h]

theorem textOn_unique {r : Str} {ls : List Str} {w : Str} (h : TextOn cfg r ls w) (hr : InterruptsOn cfg r) :
    ∀ {r' : Str} {ls' : List Str} {w' : Str}, TextOn cfg r' ls' w' → InterruptsOn cfg r' → w ++ r = w' ++ r' →
      ls = ls' ∧ r = r' := by
  induction h with
  | @last p l e h1 h2 h3 =>
    intro r' ls' w' h' hr' heq
    cases h' with
    | @last p' l' e' g1 g2 g3 =>
      simp only [List.append_assoc] at heq
      obtain ⟨rfl, rfl⟩ := textLine_unique h1 h2 h3 g1 g2 g3 heq
      exact ⟨rfl, rfl⟩
    | @cons p' l' e' w'' ls'' g1 g2 g3 g4 g5 =>
      simp only [List.append_assoc] at heq
      obtain ⟨rfl, rfl⟩ := textLine_unique h1 h2 h3 g1 g2 g3 heq
      exact absurd hr g4
  | @cons p l e w ls h1 h2 h3 h4 h5 ih =>
    intro r' ls' w' h' hr' heq
    cases h' with
    | @last p' l' e' g1 g2 g3 =>
      simp only [List.append_assoc] at heq
      obtain ⟨rfl, rfl⟩ := textLine_unique h1 h2 h3 g1 g2 g3 heq
      exact absurd hr' h4
    | @cons p' l' e' w'' ls'' g1 g2 g3 g4 g5 =>
      simp only [List.append_assoc] at heq
      obtain ⟨rfl, h6⟩ := textLine_unique h1 h2 h3 g1 g2 g3 heq
      obtain ⟨rfl, rfl⟩ := ih g5 hr' h6
      exact ⟨rfl, rfl⟩

/-- Lines that nothing interrupts are read by the alternative of underlined headings. -/
theorem v2_exact (ha : cfg.Tries) (hh : cfg.headingV2 = .parse) {s : Str} (hs : ¬ InterruptsOn cfg s) {r : Str} {b : Block} :
    headingV2OrParagraph x cfg (blockP x cfg) s = some (r, b) ↔
      (∃ w ls l, TextOn cfg r ls w ∧ InterruptsOn cfg r ∧ (¬ ∃ k, UnderlineAt k r) ∧
        ReadOn x cfg (joinWith ['\n'] ls) l ∧ s = w ++ r ∧ b = .paragraph l) ∨
      (∃ w u e k ls l, TextOn cfg (u ++ (e ++ r)) ls w ∧ Underline k u ∧ LineEnd e r ∧
        ReadOn x cfg (joinWith ['\n'] ls) l ∧ s = w ++ (u ++ (e ++ r)) ∧ b = .heading (.setext k) l) := by
  have hc := ha.custom
  have hR := sem_readOn (x := x) ha
  obtain ⟨rest, ls, w, h1, rfl, h2, h3⟩ := lines_on (x := x) ha hs
  obtain ⟨l, h7⟩ := parseInlines1_ne_none (x := x) hc (text_on ha) h2.join_ne
  have h7' := (hR.many1 _ _ h2.join_ne).1 h7
  have h8 : paragraphP x cfg (blockP x cfg) true (w ++ rest) = some (rest, l) := mapOpt_some.2 ⟨ls, h1, h7⟩
  by_cases hu : ∃ k, UnderlineAt k rest
  · obtain ⟨k, u, e, r', hk, he, rfl⟩ := hu
    have hbl : headingV2OrParagraph x cfg (blockP x cfg) (w ++ (u ++ (e ++ r'))) = some (r', .heading (.setext k) l) :=
      mapP_some.2 ⟨(l, some k), seq_some.2 ⟨_, h8, opt_some.2 (.inl ⟨k, underline_of hk he, rfl⟩)⟩, rfl⟩
    rw [hbl]
    simp only [Option.some.injEq, Prod.mk.injEq]
    constructor
    · rintro ⟨rfl, rfl⟩
      exact .inr ⟨w, u, e, k, ls, l, h2, hk, he, h7', rfl, rfl⟩
    · rintro (⟨w', ls', l', g1, g2, g3, g4, g5, rfl⟩ | ⟨w', u', e', k', ls', l', g1, g2, g3, g4, g5, rfl⟩)
      · obtain ⟨rfl, rfl⟩ := textOn_unique h2 h3 g1 g2 g5
        exact absurd ⟨k, u, e, r', hk, he, rfl⟩ g3
      · obtain ⟨rfl, h9⟩ := textOn_unique h2 h3 g1 (.inr (.inr (.inl ⟨hh, k', u', e', r, g2, g3, rfl⟩))) g5
        have h10 := underline_of hk he
        rw [h9, underline_of g2 g3] at h10
        simp at h10
        obtain ⟨rfl, rfl⟩ := h10
        have := (hR.many1 _ _ h2.join_ne).2 g4
        rw [this] at h7
        simp at h7
        exact ⟨rfl, by rw [h7]⟩
  · have h9 : headingV2Level rest = none := by
      cases h : headingV2Level rest with
      | none => rfl
      | some y => exact absurd ⟨y.2, underline_iff.1 ⟨y.1, h⟩⟩ hu
    have hbl : headingV2OrParagraph x cfg (blockP x cfg) (w ++ rest) = some (rest, .paragraph l) :=
      mapP_some.2 ⟨(l, none), seq_some.2 ⟨_, h8, opt_some.2 (.inr ⟨h9, rfl, rfl⟩)⟩, rfl⟩
    rw [hbl]
    simp only [Option.some.injEq, Prod.mk.injEq]
    constructor
    · rintro ⟨rfl, rfl⟩
      exact .inl ⟨w, ls, l, h2, h3, hu, h7', rfl, rfl⟩
    · rintro (⟨w', ls', l', g1, g2, g3, g4, g5, rfl⟩ | ⟨w', u', e', k', ls', l', g1, g2, g3, g4, g5, rfl⟩)
      · obtain ⟨rfl, rfl⟩ := textOn_unique h2 h3 g1 g2 g5
        have := (hR.many1 _ _ h2.join_ne).2 g4
        rw [this] at h7
        simp at h7
        exact ⟨rfl, by rw [h7]⟩
      · obtain ⟨rfl, rfl⟩ := textOn_unique h2 h3 g1 (.inr (.inr (.inl ⟨hh, k', u', e', r, g2, g3, rfl⟩))) g5
        exact absurd ⟨k', u', e', r, g2, g3, rfl⟩ hu

/-- The alternative of paragraphs reads one line. -/
theorem line_exact (ha : cfg.Tries) {s : Str} (hs : ¬ BlankLineAt s) {r : Str} {b : Block} :
    mapP (paragraphP x cfg (blockP x cfg) false) Block.paragraph s = some (r, b) ↔
      ∃ p t e l, Indented 3 p t ∧ t ≠ [] ∧ LineWritten t e r ∧ ReadOn x cfg t l ∧ s = p ++ (t ++ (e ++ r)) ∧
        b = .paragraph l := by
  have hc := ha.custom
  have hR := sem_readOn (x := x) ha
  obtain ⟨r1, t, h1, h2⟩ := paragraphLine_ne_none (emptyLine_iff.2 hs)
  obtain ⟨_, _, _, h4⟩ := preceded_some.1 h1
  obtain ⟨⟨rest, e⟩, hz⟩ := Option.ne_none_iff_exists'.1 (notEofOrEol1_rest h4)
  have h5 : preceded (notP (notAParagraphLine x cfg (blockP x cfg))) paragraphLine r1 = none := by
    cases e : preceded (notP (notAParagraphLine x cfg (blockP x cfg))) paragraphLine r1 with
    | none => rfl
    | some z =>
      obtain ⟨_, _, h6, h7⟩ := preceded_some.1 e
      rw [(notP_some.1 h6).2, paragraphLine_of_eol hz] at h7; simp at h7
  have h6 : paragraphLines x cfg (blockP x cfg) r1 = some (rest, []) :=
    terminated_some.2 ⟨r1, e, separatedList0_some.2 (.inl ⟨h5, rfl, rfl⟩), hz⟩
  obtain ⟨l, h7⟩ := parseInlines1_ne_none (x := x) hc (text_on ha) h2
  have h8 : paragraphP x cfg (blockP x cfg) false s = some (rest, l) :=
    mapOpt_some.2 ⟨[t], mapP_some.2 ⟨(t, []), seq_some.2 ⟨r1, h1, h6⟩, rfl⟩, h7⟩
  simp only [mapP_some]
  rw [h8]
  obtain ⟨q, rfl, ⟨g1, g2⟩, g3, g4⟩ := paragraphLine_some h1
  obtain ⟨rfl, g5⟩ := LineWritten.mk' (u := []) g3 g4 hz
  constructor
  · rintro ⟨l', h9, rfl⟩
    simp only [Option.some.injEq, Prod.mk.injEq] at h9
    obtain ⟨rfl, rfl⟩ := h9
    exact ⟨q, t, e, l, g2, g1, g5, (hR.many1 _ _ g1).1 h7, by simp, rfl⟩
  · rintro ⟨p', t', e', l', m1, m2, m3, k2, k3, rfl⟩
    obtain ⟨rfl, rfl⟩ := textLine_unique g2 g1 g5 m1 m2 m3 k3
    have := (hR.many1 _ _ g1).2 k2
    rw [this] at h7
    simp at h7
    subst h7
    exact ⟨_, rfl, rfl⟩

end
end Verif.Exact
