import Verif.BlockExactDef
import Verif.BlockExactList
import Verif.BlockExactTable
/-!
# Paragraphs, quotes and the contents of containers, exactly (for C85)
-/
set_option autoImplicit false
set_option linter.unusedVariables false
set_option linter.unusedSimpArgs false
namespace Verif.Exact
open Nom

section
variable {x : PExt} {cfg : PConfig}

/-! ## The lines of a paragraph -/

theorem textLine_of {p l e r : Str} (h : Indented 3 p l) (hne : l ≠ []) (he : LineWritten l e r) :
    paragraphLine (p ++ (l ++ (e ++ r))) = some (e ++ r, l) :=
  preceded_some.2 ⟨_, _, manyMN_indented h he.ends.head, notEofOrEol1_lineWritten hne he⟩

theorem textLine_unique {p l e r p' l' e' r' : Str} (h : Indented 3 p l) (hne : l ≠ []) (he : LineWritten l e r)
    (h' : Indented 3 p' l') (hne' : l' ≠ []) (he' : LineWritten l' e' r')
    (heq : p ++ (l ++ (e ++ r)) = p' ++ (l' ++ (e' ++ r'))) : l = l' ∧ r = r' := by
  have h1 := textLine_of h hne he
  have h2 := textLine_of h' hne' he'
  rw [heq, h2] at h1
  simp only [Option.some.injEq, Prod.mk.injEq] at h1
  obtain ⟨h3, rfl⟩ := h1
  have h4 := he.ends.eofOrEol
  have h5 := he'.ends.eofOrEol
  rw [h3, h4] at h5
  simp at h5
  exact ⟨rfl, h5.1⟩

theorem textRun_unique {r : Str} {ls : List Str} {w : Str} (h : TextRun cfg r ls w) (hr : Interrupts cfg r) :
    ∀ {r' : Str} {ls' : List Str} {w' : Str}, TextRun cfg r' ls' w' → Interrupts cfg r' → w ++ r = w' ++ r' →
      ls = ls' ∧ r = r' := by
  induction h with
  | @last p l e h1 h2 h3 =>
    intro r' ls' w' h' hr' heq
    cases h' with
    | @last p' l' e' g1 g2 g3 =>
      simp only [List.append_assoc] at heq
      obtain ⟨rfl, rfl⟩ := textLine_unique h1 h2 h3 g1 g2 g3 heq
      exact ⟨rfl, rfl⟩
    | @cons p' l' e' w'' ls'' g1 g2 g3 g4 g5 =>
      simp only [List.append_assoc] at heq
      obtain ⟨rfl, rfl⟩ := textLine_unique h1 h2 h3 g1 g2 g3 heq
      exact absurd hr g4
  | @cons p l e w ls h1 h2 h3 h4 h5 ih =>
    intro r' ls' w' h' hr' heq
    cases h' with
    | @last p' l' e' g1 g2 g3 =>
      simp only [List.append_assoc] at heq
      obtain ⟨rfl, rfl⟩ := textLine_unique h1 h2 h3 g1 g2 g3 heq
      exact absurd hr' h4
    | @cons p' l' e' w'' ls'' g1 g2 g3 g4 g5 =>
      simp only [List.append_assoc] at heq
      obtain ⟨rfl, h6⟩ := textLine_unique h1 h2 h3 g1 g2 g3 heq
      obtain ⟨rfl, rfl⟩ := ih g5 hr' h6
      exact ⟨rfl, rfl⟩

theorem inl1_exact (ha : cfg.AllBlocks) (hi : InlineParse cfg) {t : Str} {l : List Inline} (ht : t ≠ []) :
    parseInlines1 x cfg t = some l ↔ ReadAs x cfg.entities t l := (sem_readAs ha.keeps.customOk hi).many1 _ _ ht

theorem underline_of {k : SetextHeading} {u e r : Str} (hk : Underline k u) (he : LineEnd e r) :
    headingV2Level (u ++ (e ++ r)) = some (r, k) := by
  cases hk with
  | @one j n b hj hm hb =>
    have := headingV2Level_of (k := j) (a := '=') hj hm (.inl ⟨rfl, rfl⟩) (fun d hd => isSpace_iff.2 (hb d hd)) he
    simpa [sp] using this
  | @two j n b hj hm hb =>
    have := headingV2Level_of (k := j) (a := '-') hj hm (.inr ⟨rfl, rfl⟩) (fun d hd => isSpace_iff.2 (hb d hd)) he
    simpa [sp] using this

/-- The alternatives for a text. -/
def TextBy (x : PExt) (cfg : PConfig) (s : Str) (b : Block) (r : Str) : Prop :=
  headingV2OrParagraph x cfg (blockP x cfg) s = some (r, b) ∨
    (headingV2OrParagraph x cfg (blockP x cfg) s = none ∧ mapP (paragraphP x cfg (blockP x cfg) false) Block.paragraph s = some (r, b))

/-- A text that an underline does not begin. -/
theorem run_exact (ha : cfg.AllBlocks) (hi : InlineParse cfg) {s : Str} (hs : ¬ Interrupts cfg s) {r : Str} {b : Block} :
    TextBy x cfg s b r ↔
      (∃ w ls l, TextRun cfg r ls w ∧ Interrupts cfg r ∧ (¬ ∃ k, UnderlineAt k r) ∧
        ReadAs x cfg.entities (joinWith ['\n'] ls) l ∧ s = w ++ r ∧ b = .paragraph l) ∨
      (∃ w u e k ls l, TextRun cfg (u ++ (e ++ r)) ls w ∧ Underline k u ∧ LineEnd e r ∧
        ReadAs x cfg.entities (joinWith ['\n'] ls) l ∧ s = w ++ (u ++ (e ++ r)) ∧ b = .heading (.setext k) l) := by
  have hc := ha.keeps.customOk
  have ht : cfg.text ≠ .ignore := by rw [ha.keeps.text]; simp
  obtain ⟨rest, ls, w, h1, rfl, h2, h3⟩ := paragraphLines_run (x := x) ha hs
  obtain ⟨l, h7⟩ := parseInlines1_ne_none (x := x) hc ht h2.join_ne
  have h7' := (inl1_exact ha hi h2.join_ne).1 h7
  have h8 : paragraphP x cfg (blockP x cfg) true (w ++ rest) = some (rest, l) := mapOpt_some.2 ⟨ls, h1, h7⟩
  by_cases hu : ∃ k, UnderlineAt k rest
  · obtain ⟨k, u, e, r', hk, he, rfl⟩ := hu
    have hbl : headingV2OrParagraph x cfg (blockP x cfg) (w ++ (u ++ (e ++ r'))) = some (r', .heading (.setext k) l) :=
      mapP_some.2 ⟨(l, some k), seq_some.2 ⟨_, h8, opt_some.2 (.inl ⟨k, underline_of hk he, rfl⟩)⟩, rfl⟩
    unfold TextBy
    rw [hbl]
    simp only [Option.some.injEq, Prod.mk.injEq, reduceCtorEq, false_and, or_false]
    constructor
    · rintro ⟨rfl, rfl⟩
      exact .inr ⟨w, u, e, k, ls, l, h2, hk, he, h7', rfl, rfl⟩
    · rintro (⟨w', ls', l', g1, g2, g3, g4, g5, rfl⟩ | ⟨w', u', e', k', ls', l', g1, g2, g3, g4, g5, rfl⟩)
      · obtain ⟨rfl, rfl⟩ := textRun_unique h2 h3 g1 g2 g5
        exact absurd ⟨k, u, e, r', hk, he, rfl⟩ g3
      · obtain ⟨rfl, h9⟩ := textRun_unique h2 h3 g1 (.inr (.inr (.inl ⟨k', u', e', r, g2, g3, rfl⟩))) g5
        have h10 := underline_of hk he
        rw [h9, underline_of g2 g3] at h10
        simp at h10
        obtain ⟨rfl, rfl⟩ := h10
        have := (inl1_exact ha hi h2.join_ne).2 g4
        rw [this] at h7
        simp at h7
        exact ⟨rfl, by rw [h7]⟩
  · have h9 : headingV2Level rest = none := by
      cases h : headingV2Level rest with
      | none => rfl
      | some y => exact absurd ⟨y.2, underline_iff.1 ⟨y.1, h⟩⟩ hu
    have hbl : headingV2OrParagraph x cfg (blockP x cfg) (w ++ rest) = some (rest, .paragraph l) :=
      mapP_some.2 ⟨(l, none), seq_some.2 ⟨_, h8, opt_some.2 (.inr ⟨h9, rfl, rfl⟩)⟩, rfl⟩
    unfold TextBy
    rw [hbl]
    simp only [Option.some.injEq, Prod.mk.injEq, reduceCtorEq, false_and, or_false]
    constructor
    · rintro ⟨rfl, rfl⟩
      exact .inl ⟨w, ls, l, h2, h3, hu, h7', rfl, rfl⟩
    · rintro (⟨w', ls', l', g1, g2, g3, g4, g5, rfl⟩ | ⟨w', u', e', k', ls', l', g1, g2, g3, g4, g5, rfl⟩)
      · obtain ⟨rfl, rfl⟩ := textRun_unique h2 h3 g1 g2 g5
        have := (inl1_exact ha hi h2.join_ne).2 g4
        rw [this] at h7
        simp at h7
        exact ⟨rfl, by rw [h7]⟩
      · obtain ⟨rfl, rfl⟩ := textRun_unique h2 h3 g1 (.inr (.inr (.inl ⟨k', u', e', r, g2, g3, rfl⟩))) g5
        exact absurd ⟨k', u', e', r, g2, g3, rfl⟩ hu

/-- A text that an underline begins. -/
theorem stray_exact (ha : cfg.AllBlocks) (hi : InlineParse cfg) {s : Str} (hs : ¬ BlankLineAt s) (hu : ∃ k, UnderlineAt k s)
    {r : Str} {b : Block} :
    TextBy x cfg s b r ↔ ∃ w t l, TextRun cfg r [t] w ∧ ReadAs x cfg.entities t l ∧ s = w ++ r ∧ b = .paragraph l := by
  have hc := ha.keeps.customOk
  have ht : cfg.text ≠ .ignore := by rw [ha.keeps.text]; simp
  obtain ⟨r1, t, h1, h2⟩ := paragraphLine_ne_none (emptyLine_iff.2 hs)
  obtain ⟨_, _, _, h4⟩ := preceded_some.1 h1
  obtain ⟨⟨rest, e⟩, hz⟩ := Option.ne_none_iff_exists'.1 (notEofOrEol1_rest h4)
  have h5 : preceded (notP (notAParagraphLine x cfg (blockP x cfg))) paragraphLine r1 = none := by
    cases e : preceded (notP (notAParagraphLine x cfg (blockP x cfg))) paragraphLine r1 with
    | none => rfl
    | some z =>
      obtain ⟨_, _, h6, h7⟩ := preceded_some.1 e
      rw [(notP_some.1 h6).2, paragraphLine_of_eol hz] at h7; simp at h7
  have h6 : paragraphLines x cfg (blockP x cfg) r1 = some (rest, []) :=
    terminated_some.2 ⟨r1, e, separatedList0_some.2 (.inl ⟨h5, rfl, rfl⟩), hz⟩
  obtain ⟨l, h7⟩ := parseInlines1_ne_none (x := x) hc ht h2
  have h8 : paragraphP x cfg (blockP x cfg) false s = some (rest, l) :=
    mapOpt_some.2 ⟨[t], mapP_some.2 ⟨(t, []), seq_some.2 ⟨r1, h1, h6⟩, rfl⟩, h7⟩
  have hna : ∃ y, notAParagraphLine x cfg (blockP x cfg) s = some y := by
    rw [← ne_none_iff, notAPara_iff ha]; exact .inr (.inr (.inl hu))
  obtain ⟨_, hna⟩ := hna
  unfold TextBy
  rw [headingV2OrParagraph_none hc hna]
  simp only [reduceCtorEq, true_and, false_or, mapP_some]
  rw [h8]
  obtain ⟨q, rfl, ⟨g1, g2⟩, g3, g4⟩ := paragraphLine_some h1
  obtain ⟨rfl, g5⟩ := LineWritten.mk' (u := []) g3 g4 hz
  constructor
  · rintro ⟨l', h9, rfl⟩
    simp only [Option.some.injEq, Prod.mk.injEq] at h9
    obtain ⟨rfl, rfl⟩ := h9
    exact ⟨q ++ (t ++ e), t, l, .last g2 g1 g5, (inl1_exact ha hi g1).1 h7, by simp, rfl⟩
  · rintro ⟨w, t', l', k1, k2, k3, rfl⟩
    cases k1 with
    | @last p' _ e' m1 m2 m3 =>
      simp only [List.append_assoc] at k3
      obtain ⟨rfl, rfl⟩ := textLine_unique g2 g1 g5 m1 m2 m3 k3
      have := (inl1_exact ha hi g1).2 k2
      rw [this] at h7
      simp at h7
      subst h7
      exact ⟨_, rfl, rfl⟩
    | cons _ _ _ _ k => cases k

/-! ## Contents -/

/-- A configuration with which every text is read. -/
structure _root_.Verif.PConfig.Total (cfg : PConfig) : Prop where
  custom : cfg.CustomOk
  text : cfg.text ≠ .ignore
  paragraph : cfg.paragraph ≠ .ignore

theorem _root_.Verif.PConfig.Keeps.total (h : cfg.Keeps) : cfg.Total :=
  ⟨h.customOk, by rw [h.text]; simp, by rw [h.paragraph]; simp⟩

theorem everyDoc_total (ha : cfg.Total) (s : Str) : ∃ d, parseMarkdown x cfg s = some d :=
  C32_parse_total_of_config ha.custom ha.text ha.paragraph s

theorem blocks0_exact (ha : cfg.Total) {c : Str} {bs : List Block} :
    blocks0 (blockP x cfg) c = some bs ↔ parseMarkdown x cfg c = some ⟨bs⟩ := by
  obtain ⟨d, hd⟩ := everyDoc_total (x := x) ha c
  rw [blocks0_of_parse ha.custom hd, hd]
  cases d
  simp

theorem blocks1_exact (ha : cfg.Total) {c : Str} {bs : List Block} :
    blocks1 (blockP x cfg) c = some bs ↔ parseMarkdown x cfg c = some ⟨bs⟩ ∧ ¬ BlankText c := by
  have hc := ha.custom
  have ht : cfg.text ≠ .ignore := ha.text
  have hp : cfg.paragraph ≠ .ignore := ha.paragraph
  by_cases hb : BlankText c
  · have : blocks1 (blockP x cfg) c = none := by
      unfold blocks1
      rw [many1_none_of ((blockP_none (x := x) hc ht hp).2 hb)]
      rfl
    rw [this]
    simp [hb]
  · obtain ⟨d, hd⟩ := everyDoc_total (x := x) ha c
    rw [blocks1_of_parse hc ht hp hb hd, hd]
    cases d
    simp [hb]

theorem frame_lines {s r : Str} {ls : List Str} (h : QuoteFrame s ls r) : ∀ l ∈ ls, OneLine l := by
  obtain ⟨w, h1, _, _⟩ := h
  exact linesWritten_all (fun _ _ h => h.2) h1

theorem not_blank_lines {ls : List Str} (h : ∀ l ∈ ls, OneLine l) :
    ¬ BlankText (joinWith ['\n'] ls) ↔ ∃ l ∈ ls, ¬ Blanks l := by
  rw [blankText_join h]
  simp

theorem quote_exact (ha : cfg.Total) {s r : Str} {b : Block} : blockquoteP (blockP x cfg) s = some (r, b) ↔
    ∃ ls bs, QuoteFrame s ls r ∧ (∃ l ∈ ls, ¬ Blanks l) ∧ parseMarkdown x cfg (joinWith ['\n'] ls) = some ⟨bs⟩ ∧
      b = .blockQuote bs := by
  unfold blockquoteP
  constructor
  · intro h
    obtain ⟨ls, h1, h2⟩ := mapOpt_some.1 h
    obtain ⟨bs, h3, rfl⟩ := Option.map_eq_some_iff.1 h2
    obtain ⟨h4, h5⟩ := (blocks1_exact ha).1 h3
    obtain ⟨h6, _⟩ := quoteFrame_iff.1 h1
    exact ⟨ls, bs, h6, (not_blank_lines (frame_lines h6)).1 h5, h4, rfl⟩
  · rintro ⟨ls, bs, h1, h2, h3, rfl⟩
    refine mapOpt_some.2 ⟨ls, quoteFrame_iff.2 ⟨h1, ?_⟩, Option.map_eq_some_iff.2 ⟨bs, (blocks1_exact ha).2 ⟨h3, ?_⟩, rfl⟩⟩
    · rintro rfl; simp at h2
    · exact (not_blank_lines (frame_lines h1)).2 h2

theorem alert_exact (ha : cfg.Total) {s r : Str} {t : AlertType} {bs : List Block} :
    githubAlertP x (blockP x cfg) s = some (r, [.githubAlert t bs]) ↔
    ∃ l ls, QuoteFrame s (l :: ls) r ∧ AlertLine x t l ∧ (ls = [] ∨ ls = [[]] ∨ ∃ l ∈ ls, ¬ Blanks l) ∧
      parseMarkdown x cfg (joinWith ['\n'] ls) = some ⟨bs⟩ := by
  have hc := ha.custom
  have ht : cfg.text ≠ .ignore := ha.text
  have hp : cfg.paragraph ≠ .ignore := ha.paragraph
  have key : ∀ {r t bs}, githubAlertP x (blockP x cfg) s = some (r, [.githubAlert t bs]) →
      ∃ l ls, QuoteFrame s (l :: ls) r ∧ AlertLine x t l ∧ (ls = [] ∨ ls = [[]] ∨ ∃ l ∈ ls, ¬ Blanks l) ∧
        parseMarkdown x cfg (joinWith ['\n'] ls) = some ⟨bs⟩ := by
    intro r t bs h
    obtain ⟨l', ls', w', r', g1, g2, g3, g4, rfl⟩ := (alert_iff hc ht hp).1 ⟨r, bs, h⟩
    have hf : QuoteFrame (w' ++ r') (l' :: ls') r' := ⟨w', g1, g2, rfl⟩
    have hq := quoteFrame_iff.2 ⟨hf, by simp⟩
    refine ⟨l', ls', ?_⟩
    unfold githubAlertP at h
    split at h
    · simp at h
    · split at h
      · simp at h
      · rw [hq] at h
        simp only [List.drop_succ_cons, List.drop_zero] at h
        split at h
        · rename_i hj
          have hj' : joinWith ['\n'] ls' = [] := by simpa using hj
          simp at h
          obtain ⟨rfl, rfl, rfl⟩ := h
          exact ⟨hf, g3, g4, by rw [hj']; exact parseMarkdown_nil⟩
        · split at h
          · rename_i bs' e6
            simp at h
            obtain ⟨rfl, rfl, rfl⟩ := h
            exact ⟨hf, g3, g4, ((blocks1_exact ha).1 e6).1⟩
          · simp at h
  refine ⟨key, ?_⟩
  rintro ⟨l, ls, h1, h2, h3, h4⟩
  obtain ⟨w, h5, h6, rfl⟩ := h1
  obtain ⟨r', bs', h7⟩ := (alert_iff (cfg := cfg) hc ht hp).2 ⟨l, ls, w, r, h5, h6, h2, h3, rfl⟩
  obtain ⟨l', ls', g1, g2, g3, g4⟩ := key h7
  have e1 := quoteFrame_iff.2 ⟨g1, by simp⟩
  have e2 := quoteFrame_iff.2 ⟨(⟨w, h5, h6, rfl⟩ : QuoteFrame (w ++ r) (l :: ls) r), by simp⟩
  rw [e1] at e2
  simp at e2
  obtain ⟨rfl, rfl, rfl⟩ := e2
  rw [h4] at g4
  simp at g4
  rw [h7, g4]

/-! ## Lengths -/

theorem quote_shorter {s r : Str} {ls : List Str} (h : QuoteFrame s ls r) (hne : ls ≠ []) :
    (joinWith ['\n'] ls).length < s.length := quoteLines_length (quoteFrame_iff.2 ⟨h, hne⟩)

theorem alert_shorter {s r l : Str} {ls : List Str} (h : QuoteFrame s (l :: ls) r) :
    (joinWith ['\n'] ls).length < s.length := quoteLines_tail_length (quoteFrame_iff.2 ⟨h, by simp⟩)

theorem item_shorter {s r : Str} {kind : ListKind} {task : Option TaskState} {ls : List Str} (h : ItemFrame s kind task ls r) :
    (joinWith ['\n'] ls).length < s.length := by
  obtain ⟨f, pl, first, e, s', ls', h1, h2, h3, rfl, h5, rfl⟩ := h
  obtain ⟨l, h6, rfl⟩ := restLines_of h5
  have := listItem_content_length (itemFirst_of h1 h2 h3) h6
  rwa [itemContent_flatten] at this

theorem noteLines_length {r : Str} {ls : List Str} {w : Str} (h : LinesWritten FootnotePrefix r ls w) :
    ((ls.map (fun l => '\n' :: l)).flatten).length ≤ w.length := by
  induction h with
  | nil => simp
  | @cons q l e w ls h2 h3 _ ih =>
    obtain ⟨_, rfl⟩ := h2
    simp only [List.map_cons, List.flatten_cons, List.length_append, List.length_cons, sp, List.length_replicate]
    omega

theorem note_shorter {s label r : Str} {ls : List Str} (h : FootnoteRead s label ls r) :
    (joinWith ['\n'] ls).length < s.length := by
  obtain ⟨k, p, first, e, w, ls', _, _, _, _, _, h1, _, rfl, rfl⟩ := h
  rw [joinWith_cons_flatten]
  have := noteLines_length h1
  simp only [List.length_append, List.length_cons]
  omega

end
end Verif.Exact
