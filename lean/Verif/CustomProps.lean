import Verif.ParserReads
import Verif.ParserBlocks
/-!
# The user's own parsers (C78)
-/
set_option linter.unusedVariables false
set_option linter.unusedSimpArgs false
namespace Verif
open Nom

/-! ## Specification -/

/-- The parser `p` accepts only texts that begin with the character `d`. -/
def TriggeredBy {α : Type} (p : P α) (d : Char) : Prop := ∀ t, p t ≠ none → t.head? = some d

section
variable {x : PExt} {cfg : PConfig} {rec : P (List Block)}

theorem blockStart_sub {c : Char} (h : c ∉ blockStart) : c ∉ cs!" \t\r\n#`~" := by
  have key : ∀ c ∈ cs!" \t\r\n#`~", c ∈ blockStart := by decide
  exact fun hm => h (key _ hm)

theorem notAParagraphLine_custom {s : Str} {y} (h : customParser cfg.customBlock s = some y) :
    ∃ z, notAParagraphLine x cfg rec s = some z := by
  cases e : notAParagraphLine x cfg rec s with
  | some z => exact ⟨z, rfl⟩
  | none =>
    exfalso
    unfold notAParagraphLine at e
    simp only [orElse_none, value_none] at e
    rw [e.2.2.2.2.2.2.2.2.2.2.1] at h
    simp at h

/-- C78, blocks: where the custom block parser accepts, at the start of a block that no built-in construct can
begin, what it gives is taken, and the rest is parsed on its own. -/
theorem C78_block (hc : cfg.CustomOk) {p : P (List Block)} (hp : cfg.customBlock = some p) {c : Char} {t r : Str}
    {bs : List Block} (hs : c ∉ blockStart) (h : p (c :: t) = some (r, bs)) :
    parseMarkdown x cfg (c :: t) = (parseMarkdown x cfg r).map fun d => ⟨bs ++ d.blocks⟩ := by
  have hp' : customParser cfg.customBlock (c :: t) = some (r, bs) := by rw [hp]; exact h
  refine parseMarkdown_cons hc ?_
  obtain ⟨z, hz⟩ := notAParagraphLine_custom (x := x) (rec := blockP x cfg) hp'
  have := blockP_late (x := x) hc (k := 0) (by decide) (blockStart_sub hs) hz
  simp only [List.replicate, List.nil_append] at this
  rw [this]
  obtain ⟨⟨h1, h2, h3, h4, h5, h6, h7, h8, h9, h10, h11, h12, h13, h14, h15, h16⟩, h17⟩ := notMem_blockStart hs
  unfold lateAlts
  rw [orElse_of_none (conditionalBlock_none (value_none.2 (thematicBreakP_head h1 h7 h8 h9))),
    orElse_of_none (conditionalBlockVec_none (githubAlertP_head h1 h10)),
    orElse_of_none (conditionalBlock_none (blockquoteP_head h1 h10)),
    orElse_of_none (conditionalBlock_none (listP_head h1 h17 h9 h11 h7)),
    orElse_of_none (conditionalBlock_none (mapP_none.2 (htmlBlockP_head_none h1 h14))),
    orElse_of_none (conditionalBlock_none (footnoteDefinitionP_head h1 h12)),
    orElse_of_none (conditionalBlock_none (linkDefinitionP_head h1 h12)),
    orElse_of_none (conditionalBlock_none (tableP_head h1 h13))]
  exact orElse_of_some hp'

/-! ## Paragraphs before a custom block -/

theorem notAParagraphLine_head' {c : Char} {t : Str} (hcb : customParser cfg.customBlock (c :: t) = none)
    (h : c ∉ blockStart) : notAParagraphLine x cfg rec (c :: t) = none := by
  obtain ⟨⟨h1, h2, h3, h4, h5, h6, h7, h8, h9, h10, h11, h12, h13, h14, h15, h16⟩, h17⟩ :=
    notMem_blockStart h
  unfold notAParagraphLine
  simp only [orElse_none, conditionalUnit_none, value_none]
  exact ⟨.inr (headingV1_head h5), .inr (headingV2Level_head h1 h6 h7),
    .inr (thematicBreakP_head h1 h7 h8 h9), .inr (blockquoteP_head h1 h10),
    .inr (listItemP_head h1 h17 h9 h11 h7), .inr (codeBlockFenced_head h1 h15 h16),
    .inr (htmlBlockP_head_none h1 h14), .inr (linkDefinitionP_head h1 h12),
    .inr (footnoteDefinitionP_head h1 h12), .inr (tableP_head h1 h13), hcb, (blankLine_head h1 h2 h4 h3).1⟩

theorem TriggeredBy.none {p : P (List Block)} {d : Char} (h : TriggeredBy p d) {c : Char} {t : Str} (hcd : c ≠ d) :
    p (c :: t) = none := by
  cases e : p (c :: t) with
  | none => rfl
  | some y => have := h (c :: t) (by rw [e]; simp); simp at this; exact absurd this hcd

theorem customPara_line {p : P (List Block)} {d : Char} (hp : cfg.customBlock = some p) (hd : TriggeredBy p d)
    {l e rest : Str} (hl : ParaLine l) (hld : l.head? ≠ some d) (he : LineEnd e rest) :
    preceded (notP (notAParagraphLine x cfg rec)) paragraphLine (l ++ (e ++ rest)) = some (e ++ rest, l) := by
  refine preceded_some.2 ⟨l ++ (e ++ rest), (), notP_some.2 ⟨?_, rfl⟩, paragraphLine_of hl he⟩
  obtain ⟨_, c, t, rfl, hc⟩ := hl
  refine notAParagraphLine_head' ?_ hc
  rw [hp]
  exact hd.none (by simpa using hld)

theorem customPara_sep {p : P (List Block)} {d : Char} (hp : cfg.customBlock = some p) (hd : TriggeredBy p d)
    {ls : List Str} {nl rest : Str} {y} (hls : ∀ l ∈ ls, ParaLine l ∧ l.head? ≠ some d) (hnl : IsNewline nl)
    (hr : notAParagraphLine x cfg rec rest = some y) :
    sepLoop lineEnding (preceded (notP (notAParagraphLine x cfg rec)) paragraphLine)
      ((ls.map ('\n' :: ·)).flatten ++ (nl ++ rest)) = some (nl ++ rest, ls) := by
  induction ls with
  | nil =>
    rw [sepLoop_eq]
    have hl : lineEnding (nl ++ rest) = some (rest, nl) := by rcases hnl with rfl | rfl <;> rfl
    have hp : preceded (notP (notAParagraphLine x cfg rec)) paragraphLine rest = none :=
      preceded_none (by rw [notP_none]; exact ⟨_, hr⟩)
    rw [show (([] : List Str).map ('\n' :: ·)).flatten ++ (nl ++ rest) = nl ++ rest from rfl]
    rw [hl]
    simp only [hp]
  | cons l ls ih =>
    have ih := ih (fun l' h' => hls l' (by simp [h']))
    obtain ⟨hl, hl'⟩ := hls l (by simp)
    obtain ⟨e, rest', he, hee⟩ : ∃ e rest', LineEnd e rest' ∧
        (ls.map ('\n' :: ·)).flatten ++ (nl ++ rest) = e ++ rest' := by
      cases ls with
      | nil => exact ⟨nl, rest, .inl hnl, rfl⟩
      | cons l' ls' => exact ⟨['\n'], l' ++ ((ls'.map ('\n' :: ·)).flatten ++ (nl ++ rest)), .inl (.inl rfl), by simp⟩
    have hp := customPara_line (x := x) (rec := rec) hp hd hl hl' he
    rw [← hee] at hp
    rw [sepLoop_eq]
    have hs : ((l :: ls).map ('\n' :: ·)).flatten ++ (nl ++ rest) =
        '\n' :: (l ++ ((ls.map ('\n' :: ·)).flatten ++ (nl ++ rest))) := by simp
    rw [hs, show ∀ v, lineEnding ('\n' :: v) = some (v, ['\n']) from fun _ => rfl]
    simp only [hp]
    have hlt : ((ls.map ('\n' :: ·)).flatten ++ (nl ++ rest)).length <
        ('\n' :: (l ++ ((ls.map ('\n' :: ·)).flatten ++ (nl ++ rest)))).length := by
      simp only [List.length_cons, List.length_append]; omega
    simp only [hlt, if_true, ih]

/-- C78, blocks: a custom block interrupts a paragraph. -/
theorem C78_interrupts (hi : InlineParse cfg) (hh : cfg.headingV2 = .parse) (hc : cfg.CustomOk) {p : P (List Block)}
    {d : Char} (hp : cfg.customBlock = some p) (hd : TriggeredBy p d) (hds : d ∉ blockStart)
    {ls : List Str} {nl t r : Str} {is : List Inline} {bs : List Block} (hne : ls ≠ [])
    (hls : ∀ l ∈ ls, ParaLine l ∧ l.head? ≠ some d) (hnl : IsNewline nl)
    (hr : Reads x cfg.entities (joinWith ['\n'] ls) is) (h : p (d :: t) = some (r, bs)) :
    parseMarkdown x cfg (joinWith ['\n'] ls ++ (nl ++ d :: t)) =
      (parseMarkdown x cfg r).map fun d => ⟨.paragraph is :: (bs ++ d.blocks)⟩ := by
  have hp' : customParser cfg.customBlock (d :: t) = some (r, bs) := by rw [hp]; exact h
  have hnext := C78_block (x := x) hc hp hds h
  suffices hb : blockP x cfg (joinWith ['\n'] ls ++ (nl ++ d :: t)) = some (d :: t, [.paragraph is]) by
    rw [parseMarkdown_cons hc hb, hnext]
    cases parseMarkdown x cfg r <;> rfl
  obtain ⟨z, hz⟩ := notAParagraphLine_custom (x := x) (rec := blockP x cfg) hp'
  obtain ⟨l, ls, rfl⟩ := List.exists_cons_of_ne_nil hne
  obtain ⟨hl, hl'⟩ := hls l (by simp)
  obtain ⟨e, rest', he, hee⟩ : ∃ e rest', LineEnd e rest' ∧
      (ls.map ('\n' :: ·)).flatten ++ (nl ++ d :: t) = e ++ rest' := by
    cases ls with
    | nil => exact ⟨nl, d :: t, .inl hnl, rfl⟩
    | cons l' ls' => exact ⟨['\n'], l' ++ ((ls'.map ('\n' :: ·)).flatten ++ (nl ++ d :: t)), .inl (.inl rfl), by simp⟩
  have hsep := customPara_sep (x := x) (rec := blockP x cfg) hp hd (ls := ls)
    (fun l' h' => hls l' (by simp [h'])) hnl hz
  have hsrc : joinWith ['\n'] (l :: ls) ++ (nl ++ d :: t) = l ++ ((ls.map ('\n' :: ·)).flatten ++ (nl ++ d :: t)) := by
    rw [joinWith_cons_flatten]; simp
  have hpl := customPara_line (x := x) (rec := blockP x cfg) hp hd hl hl' he
  rw [← hee] at hpl
  have hin : parseInlines1 x cfg (joinWith ['\n'] (l :: ls)) = some is := by
    refine hr.inlines hc hi ?_
    rw [joinWith_cons_flatten]
    simp [hl.ne]
  have hpara : paragraphP x cfg (blockP x cfg) true (l ++ ((ls.map ('\n' :: ·)).flatten ++ (nl ++ d :: t))) =
      some (d :: t, is) := by
    unfold paragraphP
    simp only [if_true]
    refine mapOpt_some.2 ⟨l :: ls, ?_, hin⟩
    unfold paragraphLines
    refine terminated_some.2 ⟨nl ++ d :: t, nl, ?_, LineEnd.eofOrEol (.inl hnl)⟩
    unfold separatedList0
    rw [hpl]
    simp only [hsep]
  obtain ⟨⟨d1, d2, d3, d4, d5, d6, d7, -⟩, -⟩ := notMem_blockStart hds
  have hlev : headingV2Level (d :: t) = none := headingV2Level_head d1 d6 d7
  rw [hsrc]
  obtain ⟨hol, c, u, rfl, hc2⟩ := hl
  obtain ⟨⟨h1, h2, h3, h4, h5, h6, h7, h8, h9, h10, h11, h12, h13, h14, h15, h16⟩, h17⟩ := notMem_blockStart hc2
  rw [List.cons_append] at hpara ⊢
  rw [blockP_alt hc (blankLine_head h1 h2 h4 h3).2]
  unfold blockAlt
  have hcode : codeBlockP (c :: (u ++ ((ls.map ('\n' :: ·)).flatten ++ (nl ++ d :: t)))) = none :=
    orElse_none.2 ⟨codeBlockIndented_head h1 h2, codeBlockFenced_head h1 h15 h16⟩
  rw [orElse_of_none (conditionalBlock_none hcode), orElse_of_none (conditionalBlock_none (headingV1_head h5))]
  refine orElse_of_some ?_
  rw [conditionalBlock_parse hh]
  have : headingV2OrParagraph x cfg (blockP x cfg)
      (c :: (u ++ ((ls.map ('\n' :: ·)).flatten ++ (nl ++ d :: t)))) = some (d :: t, .paragraph is) := by
    unfold headingV2OrParagraph
    exact mapP_some.2 ⟨(is, none), seq_some.2 ⟨d :: t, hpara, opt_some.2 (.inr ⟨hlev, rfl, rfl⟩)⟩, rfl⟩
  rw [this]; rfl

/-! ## Custom inlines -/

/-- C78, inlines: a custom inline parser that accepts the whole line of a paragraph gives its content. -/
theorem C78_inline (hc : cfg.CustomOk) (hcb : cfg.customBlock = none) (hh : cfg.headingV2 = .parse)
    {p : P (List Inline)} (hp : cfg.customInline = some p) {c : Char} {t : Str} {i : Inline} (ho : OneLine (c :: t))
    (hst : c ∉ blockStart) (hsp : c ∉ cs!"!") (hev : '_' ∉ c :: t) (h : p (c :: t) = some ([], [i])) :
    parseMarkdown x cfg (c :: t) = some ⟨[.paragraph [i]]⟩ := by
  refine parse_line hc hcb hh ⟨ho, c, t, rfl, hst⟩ ?_
  have hstep : inlineP x cfg (c :: t) = some ([], [i]) := by
    have key : ∀ c ∈ cs!"<[!`*_~", c ∈ blockStart ∨ c ∈ cs!"!" := by decide
    obtain ⟨h1, h2, h3, h4, h5, h6, h7, h8, h9, h10⟩ := before_text (x := x) (cfg := cfg) (rec := parseInlines1 x cfg)
      (s := c :: t) (by simp) (by
        intro e he hm
        simp at he
        subst he
        rcases key _ hm with h | h
        · exact hst h
        · exact hsp h) (hardNewline_oneLine ho) (by
        have := environmentVariable_none (s := c :: t) (u := []) hev quietEnd_nil
        rwa [List.append_nil] at this)
    unfold inlineP inlineStep
    rw [orElse_of_none h1, orElse_of_none h2, orElse_of_none h3, orElse_of_none h4,
      orElse_of_none h5, orElse_of_none h6, orElse_of_none h7,
      orElse_of_none (mapP_none.2 h8), orElse_of_none h9, orElse_of_none h10]
    exact orElse_of_some (by rw [hp]; exact h)
  have := inlineP_con (x := x) hc
  rw [parseInlines1_eq hc, many1_some.2 ⟨[], [i], [], hstep, many0_nil_of_con, rfl⟩]
  show some (mergeText [i]) = _
  cases i <;> rfl

/-- C78, inlines: within a text the custom inline parser is not asked; if it does not accept the text from its
beginning, the whole text is text, whatever the parser does at later places. -/
theorem C78_inline_text (hc : cfg.CustomOk) (hcb : cfg.customBlock = none) (hh : cfg.headingV2 = .parse)
    (ht : cfg.text = .parse) {p : P (List Inline)} (hp : cfg.customInline = some p) {c : Char} {s t : Str}
    (ho : OneLine (c :: s)) (hst : c ∉ blockStart) (h : DecodesEsc cfg.entities (c :: s) t) (hr : p (c :: s) = none) :
    parseMarkdown x cfg (c :: s) = some ⟨[.paragraph [.text t]]⟩ := by
  refine parse_line hc hcb hh ⟨ho, c, s, rfl, hst⟩ ?_
  obtain ⟨l, h1, h2⟩ := h.pieces (x := x) (rec := parseInlines1 x cfg) ht ho
  have hl : l ≠ [] := by
    rintro rfl
    rw [many0_eq] at h1
    split at h1
    · simp at h1
    · split at h1
      · split at h1 <;> simp at h1
      · simp at h1
  have hstep : inlineP x cfg (c :: s) = some ([], [.text t]) := by
    obtain ⟨k1, k2, k3, k4, k5, k6, k7, k8, k9, k10⟩ := before_text (x := x) (cfg := cfg) (rec := parseInlines1 x cfg)
      (s := c :: s) (by simp) (by
        intro e he
        simp at he
        subst he
        exact h.first) (hardNewline_oneLine ho) h.envVar
    unfold inlineP inlineStep
    rw [orElse_of_none k1, orElse_of_none k2, orElse_of_none k3, orElse_of_none k4,
      orElse_of_none k5, orElse_of_none k6, orElse_of_none k7,
      orElse_of_none (mapP_none.2 k8), orElse_of_none k9, orElse_of_none k10, hp, ht]
    rw [orElse_of_none (show customParser (some p) (c :: s) = none from hr)]
    have : textP x cfg (parseInlines1 x cfg) (c :: s) = some ([], .text l.flatten) :=
      mapP_some.2 ⟨l, many1_of_many0 h1 hl, rfl⟩
    rw [h2] at this
    exact mapP_some.2 ⟨_, this, rfl⟩
  have := inlineP_con (x := x) hc
  rw [parseInlines1_eq hc, many1_some.2 ⟨[], [.text t], [], hstep, many0_nil_of_con, rfl⟩]
  rfl

end

/-! ## A concrete parser -/

/-- `@name` is an HTML block, and as an inline a code span. -/
def atName {α : Type} (f : Str → α) : P (List α) := mapP (preceded (chr '@') (takeWhile1 isAlpha)) fun s => [f s]

instance {α : Type} (f : Str → α) : Con (atName f) := by unfold atName; infer_instance

theorem atName_triggered {α : Type} (f : Str → α) : TriggeredBy (atName f) '@' := by
  intro t ht
  cases t with
  | nil => exact absurd rfl ht
  | cons c t =>
    by_cases h : c = '@'
    · rw [h]; rfl
    · exact absurd (mapP_none.2 (preceded_none (chr_ne h))) ht

/-- The user's parsers at work; the last texts show where the inline parser is not asked: after other text. -/
theorem C78_examples :
    let cfg : PConfig := { entities := fun _ => none, customBlock := some (atName .htmlBlock), customInline := some (atName .code) }
    parseMarkdown PExt.ascii cfg cs!"a\nb\n@cd\n# e\n@f" = some ⟨[.paragraph [.text cs!"a\nb"], .htmlBlock cs!"cd",
      .heading (.atx 1) [.text cs!"e"], .htmlBlock cs!"f"]⟩ ∧
    parseMarkdown PExt.ascii cfg cs!"# @a" = some ⟨[.heading (.atx 1) [.code cs!"a"]]⟩ ∧
    parseMarkdown PExt.ascii cfg cs!"# b @a" = some ⟨[.heading (.atx 1) [.text cs!"b @a"]]⟩ ∧
    parseMarkdown PExt.ascii cfg cs!"# *b*@a" = some ⟨[.heading (.atx 1) [.emphasis [.text cs!"b"], .code cs!"a"]]⟩ ∧
    parseMarkdown PExt.ascii cfg cs!"# `b`@a" = some ⟨[.heading (.atx 1) [.code cs!"b", .code cs!"a"]]⟩ := by
  decide +kernel

/-- The hypotheses of `C78_interrupts` are met. -/
example (x : PExt) (t : Str) (ht : ∀ c, t.head? = some c → isAlpha c = false) :
    let cfg : PConfig := { entities := fun _ => none, customBlock := some (atName .htmlBlock) }
    parseMarkdown x cfg (cs!"a\n@bc" ++ t) =
      (parseMarkdown x cfg t).map fun d => ⟨.paragraph [.text cs!"a"] :: ([.htmlBlock cs!"bc"] ++ d.blocks)⟩ := by
  intro cfg
  have h := C78_interrupts (x := x) (cfg := cfg) (p := atName .htmlBlock) (d := '@') (ls := [cs!"a"]) (nl := ['\n'])
    (t := cs!"bc" ++ t) (r := t) (is := [.text cs!"a"]) (bs := [.htmlBlock cs!"bc"])
    (by constructor <;> rfl) rfl ⟨by unfold customParser; infer_instance, by unfold customParser; infer_instance⟩ rfl
    (atName_triggered _) (by decide) (by simp)
    (by intro l hl; rw [List.mem_singleton.1 hl]; exact ⟨⟨by intro c hc; revert c; decide, 'a', [], rfl, by decide⟩, by decide⟩) (.inl rfl)
    (.text1 (t := ['a']) (by simp) (plainText_of (by decide) (by decide))) (by
      obtain ⟨k1, k2⟩ := takeWhile_span' (f := isAlpha) (a := cs!"bc") (t := t) (by decide) ht
      exact mapP_some.2 ⟨cs!"bc", preceded_some.2 ⟨_, _, chr_cons _ _, takeWhile1_some.2 ⟨k1.symm, k2.symm, by simp⟩⟩, rfl⟩)
  simpa [joinWith] using h

end Verif
