import Verif.ParserPara
/-!
# Paragraphs and headings with inline markup (C56, C57, code spans of C43)

The meaning of inline text is `Reads` (`InlineGrammar.lean`), the lines that can be lines of a
paragraph are `TextLine` (`ParserPara.lean`).
-/
set_option linter.unusedVariables false
namespace Verif
open Nom

/-- No user code, and every construct the theorems below speak about is parsed. -/
structure AllParse (cfg : PConfig) : Prop where
  inlines : InlineParse cfg
  customBlock : cfg.customBlock = none
  headingV1 : cfg.headingV1 = .parse
  headingV2 : cfg.headingV2 = .parse

theorem allParse_default (ent : Str → Option Str) : AllParse (PConfig.default ent) :=
  ⟨inlineParse_default ent, rfl, rfl, rfl⟩

theorem AllParse.customOk {cfg : PConfig} (h : AllParse cfg) : cfg.CustomOk := by
  exact CustomOk_of_none h.inlines.custom h.customBlock

theorem manyMN_chr {c : Char} {t : Str} {n m k : Nat} (hm : m ≤ n) (hk : n ≤ k)
    (ht : t.head? ≠ some c) :
    manyMN (chr c) m k (List.replicate n c ++ t) = some (t, List.replicate n c) := by
  induction k generalizing n m with
  | zero =>
    obtain rfl : n = 0 := by omega
    rfl
  | succ k ih =>
    cases n with
    | zero =>
      obtain rfl : m = 0 := by omega
      refine manyMN_zero_of_none ?_ _
      cases t with
      | nil => rfl
      | cons d t => exact chr_ne (by simpa using ht)
    | succ n =>
      rw [List.replicate_succ, List.cons_append, manyMN, chr_cons]
      simp only [List.length_cons, Nat.lt_succ_self, if_true]
      rw [ih (m := m - 1) (by omega) (by omega)]

section
variable {x : PExt} {cfg : PConfig}

/-- The end of a paragraph: the end of the input, or a line end before a blank line, which may have
spaces and tabs. -/
def ParaGap (u rest : Str) : Prop :=
  (u = [] ∧ rest = []) ∨
  ∃ nl b v, IsNewline nl ∧ (∀ c ∈ b, isSpace c = true) ∧ u = nl ++ rest ∧ rest = b ++ v ∧
    (v = [] ∨ ∃ nl' r, IsNewline nl' ∧ v = nl' ++ r)

theorem ParaEnd.gap {u rest : Str} (h : ParaEnd u rest) : ParaGap u rest := by
  rcases h with h | ⟨nl, h1, h2, h3⟩
  · exact .inl h
  · exact .inr ⟨nl, [], rest, h1, by simp, h2, rfl, h3⟩

theorem gap_blank {b v : Str} (hb : ∀ c ∈ b, isSpace c = true)
    (hv : v = [] ∨ ∃ nl' r, IsNewline nl' ∧ v = nl' ++ r) : ∃ y, lineTerminated space0 (b ++ v) = some y := by
  have hsp : ∀ c, v.head? = some c → isSpace c = false := by
    intro c hc
    rcases hv with rfl | ⟨nl, r, rfl | rfl, rfl⟩
    · simp at hc
    · simp at hc; subst hc; rfl
    · simp at hc; subst hc; rfl
  obtain ⟨k1, k2⟩ := takeWhile_span' hb hsp
  have h0 : space0 (b ++ v) = some (v, b) := by
    show some (_, _) = _
    rw [k1, k2]
  have he : ∃ y, eofOrEol v = some y := by
    rcases hv with rfl | ⟨nl, r, h, rfl⟩
    · exact ⟨_, rfl⟩
    · exact ⟨_, LineEnd.eofOrEol (.inl h)⟩
  obtain ⟨⟨r, z⟩, hy⟩ := he
  exact ⟨_, terminated_some.2 ⟨_, _, h0, hy⟩⟩

theorem ParaGap.stop {rec : P (List Block)} {u rest : Str} (h : ParaGap u rest) :
    ParaStop x cfg rec u rest := by
  rcases h with h | ⟨nl, b, v, h1, h2, h3, h4, h5⟩
  · exact .inl h
  · refine .inr ⟨nl, h1, h3, ?_⟩
    cases e : notAParagraphLine x cfg rec rest with
    | some y => exact ⟨y, rfl⟩
    | none =>
      exfalso
      unfold notAParagraphLine at e
      simp only [orElse_none, value_none] at e
      obtain ⟨y, hy⟩ := gap_blank h2 h5
      rw [← h4, e.2.2.2.2.2.2.2.2.2.2.2] at hy
      simp at hy

theorem blank_head {b v : Str} (n : Nat) (hb : ∀ c ∈ b, isSpace c = true)
    (hv : v = [] ∨ ∃ nl' r, IsNewline nl' ∧ v = nl' ++ r) :
    ∀ c, (dropSpaces n (b ++ v)).head? = some c → c ∈ cs!" \t\r\n" := by
  have hvh : ∀ c, v.head? = some c → c ∈ cs!"\r\n" := by
    intro c hc
    rcases hv with rfl | ⟨nl, r, rfl | rfl, rfl⟩
    · simp at hc
    · simp at hc; subst hc; decide
    · simp at hc; subst hc; decide
  have hv0 : ∀ m, dropSpaces m v = v := by
    intro m
    cases v with
    | nil => cases m <;> rfl
    | cons d v =>
      refine dropSpaces_ne m ?_
      rintro rfl
      exact absurd (hvh ' ' rfl) (by decide)
  have key : ∀ d ∈ cs!"\r\n", d ∈ cs!" \t\r\n" := by decide
  intro c hc
  induction b generalizing n with
  | nil => rw [List.nil_append, hv0] at hc; exact key _ (hvh c hc)
  | cons d b ih =>
    rw [List.cons_append] at hc
    by_cases hd : d = ' '
    · subst hd
      cases n with
      | zero => simp [dropSpaces] at hc; subst hc; decide
      | succ n => exact ih n (fun e he => hb e (by simp [he])) (by simpa [dropSpaces] using hc)
    · rw [dropSpaces_ne n hd] at hc
      have := hb d (by simp)
      simp at hc; subst hc
      simp only [isSpace, Bool.or_eq_true, beq_iff_eq] at this
      rcases this with rfl | rfl <;> decide

theorem ParaGap.level {u rest : Str} (h : ParaGap u rest) : headingV2Level rest = none := by
  rcases h with ⟨_, rfl⟩ | ⟨nl, b, v, _, h2, _, rfl, h5⟩
  · rfl
  · obtain ⟨l, hl, _⟩ := manyMN_spaces 3 (b ++ v)
    have hh := blank_head 3 h2 h5
    unfold headingV2Level
    refine terminated_none ?_
    cases e : preceded indent03 (terminated
      (value SetextHeading.level1 (many1 (chr '=')) <||> value SetextHeading.level2 (many1 (chr '-'))) space0)
      (b ++ v) with
    | none => rfl
    | some y =>
      exfalso
      obtain ⟨r, lev⟩ := y
      obtain ⟨r1, z, e1, e2⟩ := preceded_some.1 e
      rw [show indent03 (b ++ v) = _ from hl] at e1
      simp at e1
      obtain ⟨rfl, rfl⟩ := e1
      obtain ⟨r2, z, e3, _⟩ := terminated_some.1 e2
      cases hd : dropSpaces 3 (b ++ v) with
      | nil => rw [hd] at e3; revert e3; simp [Nom.orElse, value, mapP, many1, chr, satisfy]
      | cons c t =>
        rw [hd] at e3 hh
        have hc := hh c rfl
        have key : ∀ c ∈ cs!" \t\r\n", c ≠ '=' ∧ c ≠ '-' := by decide
        rcases orElse_some.1 e3 with e4 | ⟨_, e4⟩
        · obtain ⟨a, e5, _⟩ := mapP_some.1 e4
          obtain ⟨_, _, _, e6, _⟩ := many1_some.1 e5
          rw [chr_ne (key c hc).1] at e6; simp at e6
        · obtain ⟨a, e5, _⟩ := mapP_some.1 e4
          obtain ⟨_, _, _, e6, _⟩ := many1_some.1 e5
          rw [chr_ne (key c hc).2] at e6; simp at e6

/-- C56: lines of text, each indented by at most three spaces, that together mean the inlines `is`, up
to the end of the input or a blank line, are a paragraph of exactly these inlines; what follows is
parsed on its own. -/
theorem C56_paragraph_indented (hp : AllParse cfg) {ys : List (Nat × Str)} {u rest : Str}
    {is : List Inline} (hys : TextLines ys) (hu : ParaGap u rest)
    (hr : Reads x cfg.entities (joinWith ['\n'] (ys.map Prod.snd)) is) :
    parseMarkdown x cfg (indentedLines ys ++ u) =
      (parseMarkdown x cfg rest).map (fun d => ⟨.paragraph is :: d.blocks⟩) :=
  parseMarkdown_cons hp.customOk (bs := [_])
    (textLines_block hp.customOk hp.customBlock hp.headingV2 hys hu.stop hu.level
      (hr.inlines hp.customOk hp.inlines hys.text_ne))

/-- C56: lines of text that together mean the inlines `is`, up to the end of the input or a blank
line, are a paragraph of exactly these inlines; what follows is parsed on its own. -/
theorem C56_paragraph (hp : AllParse cfg) {ls : List Str} {u rest : Str} {is : List Inline}
    (hne : ls ≠ []) (hls : ∀ l ∈ ls, TextLine l) (hu : ParaEnd u rest)
    (hr : Reads x cfg.entities (joinWith ['\n'] ls) is) :
    parseMarkdown x cfg (joinWith ['\n'] ls ++ u) =
      (parseMarkdown x cfg rest).map (fun d => ⟨.paragraph is :: d.blocks⟩) := by
  have := C56_paragraph_indented hp (TextLine.lines hne hls) hu.gap (is := is) (by
    simpa [List.map_map, Function.comp_def] using hr)
  rwa [indentedLines_zero] at this

/-- `C57_atx`, with the parser of inlines. -/
theorem atx_of (hp : AllParse cfg) {n : Nat} {sp s e rest : Str} {is : List Inline} (h1 : 1 ≤ n)
    (h6 : n ≤ 6) (hsp : sp ≠ []) (hsp' : ∀ c ∈ sp, isSpace c = true) (hs : s ≠ []) (ho : OneLine s)
    (hb : ∀ c, s.head? = some c → isSpace c = false) (he : LineEnd e rest) (hr : parseInlines0 x cfg s = some is) :
    parseMarkdown x cfg (List.replicate n '#' ++ (sp ++ (s ++ (e ++ rest)))) =
      (parseMarkdown x cfg rest).map (fun d => ⟨.heading (.atx n) is :: d.blocks⟩) := by
  have hsphead : (sp ++ (s ++ (e ++ rest))).head? ≠ some '#' := by
    obtain ⟨c, sp, rfl⟩ := List.exists_cons_of_ne_nil hsp
    have := hsp' c (by simp)
    intro h; simp at h; subst h; simp [isSpace] at this
  have hrun : manyMN (chr '#') 1 6 (List.replicate n '#' ++ (sp ++ (s ++ (e ++ rest)))) =
      some (sp ++ (s ++ (e ++ rest)), List.replicate n '#') := manyMN_chr h1 h6 hsphead
  have hspan : ∀ c, (s ++ (e ++ rest)).head? = some c → isSpace c = false := by
    obtain ⟨c, s, rfl⟩ := List.exists_cons_of_ne_nil hs
    exact hb
  obtain ⟨k1, k2⟩ := takeWhile_span' hsp' hspan
  have hspc : (if cfg.allowNoSpaceInHeadings then space0 else space1) (sp ++ (s ++ (e ++ rest))) =
      some (s ++ (e ++ rest), sp) := by
    split
    · show some (_, _) = _
      rw [k1, k2]
    · exact takeWhile1_some.2 ⟨k1.symm, k2.symm, hsp⟩
  have hh : headingV1 x cfg (List.replicate n '#' ++ (sp ++ (s ++ (e ++ rest)))) =
      some (rest, .heading (.atx n) is) := by
    unfold headingV1
    have : seq (manyMN (chr '#') 1 6)
      (preceded (if cfg.allowNoSpaceInHeadings then space0 else space1)
        (lineTerminated notEofOrEol1)) (List.replicate n '#' ++ (sp ++ (s ++ (e ++ rest)))) =
        some (rest, (List.replicate n '#', s)) :=
      seq_some.2 ⟨_, hrun, preceded_some.2 ⟨_, _, hspc,
        terminated_some.2 ⟨e ++ rest, e, notEofOrEol1_line ho hs he, he.eofOrEol⟩⟩⟩
    rw [this]
    simp only
    rw [hr]
    simp
  have hblock : blockP x cfg (List.replicate n '#' ++ (sp ++ (s ++ (e ++ rest)))) =
      some (rest, [.heading (.atx n) is]) := by
    obtain ⟨m, rfl⟩ : ∃ m, n = m + 1 := ⟨n - 1, by omega⟩
    rw [List.replicate_succ, List.cons_append] at hh ⊢
    rw [blockP_alt hp.customOk (blankLine_head (by decide) (by decide) (by decide) (by decide)).2]
    unfold blockAlt
    have hcode : codeBlockP ('#' :: (List.replicate m '#' ++ (sp ++ (s ++ (e ++ rest))))) = none :=
      orElse_none.2 ⟨codeBlockIndented_head (by decide) (by decide),
        codeBlockFenced_head (by decide) (by decide) (by decide)⟩
    rw [orElse_of_none (conditionalBlock_none hcode)]
    refine orElse_of_some ?_
    rw [conditionalBlock_parse hp.headingV1, hh]
    rfl
  exact parseMarkdown_cons hp.customOk (bs := [_]) hblock

/-- C57, ATX headings: one to six `#`, blanks, and a line of text that means `is`. -/
theorem C57_atx (hp : AllParse cfg) {n : Nat} {sp s e rest : Str} {is : List Inline} (h1 : 1 ≤ n)
    (h6 : n ≤ 6) (hsp : sp ≠ []) (hsp' : ∀ c ∈ sp, isSpace c = true) (hs : s ≠ []) (ho : OneLine s)
    (hb : ∀ c, s.head? = some c → isSpace c = false) (he : LineEnd e rest) (hr : Reads x cfg.entities s is) :
    parseMarkdown x cfg (List.replicate n '#' ++ (sp ++ (s ++ (e ++ rest)))) =
      (parseMarkdown x cfg rest).map (fun d => ⟨.heading (.atx n) is :: d.blocks⟩) :=
  atx_of hp h1 h6 hsp hsp' hs ho hb he (hr.inlines0 hp.customOk hp.inlines)

/-- C57, Setext headings: lines of text, each indented by at most three spaces, that mean `is`, and a
line of `=` or `-`. -/
theorem C57_setext_indented (hp : AllParse cfg) {ys : List (Nat × Str)} {k n : Nat} {a : Char}
    {lev : SetextHeading} {nl sp e rest : Str} {is : List Inline} (hys : TextLines ys)
    (hnl : IsNewline nl) (hk : k ≤ 3) (hn : 0 < n)
    (ha : a = '=' ∧ lev = .level1 ∨ a = '-' ∧ lev = .level2)
    (hsp : ∀ c ∈ sp, isSpace c = true) (he : LineEnd e rest)
    (hr : Reads x cfg.entities (joinWith ['\n'] (ys.map Prod.snd)) is) :
    parseMarkdown x cfg (indentedLines ys ++
        (nl ++ (List.replicate k ' ' ++ (List.replicate n a ++ (sp ++ (e ++ rest)))))) =
      (parseMarkdown x cfg rest).map (fun d => ⟨.heading (.setext lev) is :: d.blocks⟩) := by
  have hlev := headingV2Level_of (k := k) (n := n) (rest := rest) hk hn ha hsp he
  generalize hunder : List.replicate k ' ' ++ (List.replicate n a ++ (sp ++ (e ++ rest))) = under at *
  have hstop : ParaStop x cfg (blockP x cfg) (nl ++ under) under := by
    refine .inr ⟨nl, hnl, rfl, ?_⟩
    cases e2 : notAParagraphLine x cfg (blockP x cfg) under with
    | some y => exact ⟨y, rfl⟩
    | none =>
      exfalso
      unfold notAParagraphLine at e2
      simp only [orElse_none, conditionalUnit_none] at e2
      have := e2.2.1
      rw [hlev, hp.headingV2] at this
      simp at this
  refine parseMarkdown_cons hp.customOk (bs := [_]) (quiet_block hp.customOk hp.headingV2
    (textLines_quiet hp.customBlock hys hstop) ?_)
  unfold headingV2OrParagraph
  exact mapP_some.2 ⟨(is, some lev), seq_some.2 ⟨under, textLines_paragraphP hp.customBlock hys hstop
    (hr.inlines hp.customOk hp.inlines hys.text_ne), opt_some.2 (.inl ⟨lev, hlev, rfl⟩)⟩, rfl⟩

/-- C57, Setext headings: lines of text that mean `is`, and a line of `=` or `-`. -/
theorem C57_setext (hp : AllParse cfg) {ls : List Str} {k n : Nat} {a : Char} {lev : SetextHeading}
    {nl sp e rest : Str} {is : List Inline} (hne : ls ≠ []) (hls : ∀ l ∈ ls, TextLine l)
    (hnl : IsNewline nl) (hk : k ≤ 3) (hn : 0 < n)
    (ha : a = '=' ∧ lev = .level1 ∨ a = '-' ∧ lev = .level2)
    (hsp : ∀ c ∈ sp, isSpace c = true) (he : LineEnd e rest) (hr : Reads x cfg.entities (joinWith ['\n'] ls) is) :
    parseMarkdown x cfg (joinWith ['\n'] ls ++
        (nl ++ (List.replicate k ' ' ++ (List.replicate n a ++ (sp ++ (e ++ rest)))))) =
      (parseMarkdown x cfg rest).map (fun d => ⟨.heading (.setext lev) is :: d.blocks⟩) := by
  have := C57_setext_indented hp (TextLine.lines hne hls) hnl hk hn ha hsp he (is := is) (by
    simpa [List.map_map, Function.comp_def] using hr)
  rwa [indentedLines_zero] at this

/-- C43, code spans: the content of a span between equal runs of backticks is taken literally, except
that line ends become spaces and one space of padding is removed; whatever markup it contains, and
whatever unambiguous inlines surround it. -/
theorem C43_code_span (hp : AllParse cfg) {ls : List Str} {u rest pre c out post : Str} {n : Nat}
    {before after : List Inline} (hne : ls ≠ []) (hls : ∀ l ∈ ls, TextLine l) (hu : ParaEnd u rest)
    (hsrc : joinWith ['\n'] ls =
      pre ++ (List.replicate n '`' ++ (c ++ (List.replicate n '`' ++ post))))
    (hn : 0 < n) (hc : CodeContent n c) (ho : CodeText c out) (hpost : post.head? ≠ some '`')
    (hpre : pre = [] ∧ before = [] ∨ pre ≠ [] ∧ PlainText pre ∧ before = [.text pre])
    (hr : Reads x cfg.entities post after) :
    parseMarkdown x cfg (joinWith ['\n'] ls ++ u) =
      (parseMarkdown x cfg rest).map
        (fun d => ⟨.paragraph (before ++ .code out :: after) :: d.blocks⟩) := by
  refine C56_paragraph hp hne hls hu ?_
  have hcode := Reads.code hn hc ho hpost hr
  rw [hsrc]
  rcases hpre with ⟨rfl, rfl⟩ | ⟨h1, h2, rfl⟩
  · exact hcode
  · refine .text h1 h2 (by intro t r h; simp at h) (QuietEnd.apart ?_) hcode
    obtain ⟨m, rfl⟩ : ∃ m, n = m + 1 := ⟨n - 1, by omega⟩
    intro d hd
    simp [List.replicate_succ] at hd
    subst hd; decide

/-- The restrictions of `Reads` on the content of emphasis and labels are needed: an emphasis ends at
the first star, even inside strong emphasis or a code span, a label ends at the first bracket, even
inside a code span, and a code span ends inside a longer run of backticks; an escape is not recognised
after text, and underscores inside a word make emphasis unless the word is an identifier. -/
theorem C56_boundaries :
    parseMarkdown PExt.ascii (PConfig.default fun _ => none) cs!"a *b **c** d*" =
      some ⟨[.paragraph [.text cs!"a ", .emphasis [.text cs!"b "], .emphasis [.text cs!"c"],
        .text cs!"* d*"]]⟩ ∧
    parseMarkdown PExt.ascii (PConfig.default fun _ => none) cs!"a *b `*` c*" =
      some ⟨[.paragraph [.text cs!"a ", .emphasis [.text cs!"b `"], .text cs!"` c*"]]⟩ ∧
    parseMarkdown PExt.ascii (PConfig.default fun _ => none) cs!"a [`]`](b)" =
      some ⟨[.paragraph [.text cs!"a ", .linkReference [.text cs!"`"] [.text cs!"`"],
        .text cs!"`](b)"]]⟩ ∧
    parseMarkdown PExt.ascii (PConfig.default fun _ => none) cs!"a `b``c`" =
      some ⟨[.paragraph [.text cs!"a ", .code cs!"b`", .text cs!"c`"]]⟩ ∧
    parseMarkdown PExt.ascii (PConfig.default fun _ => none) cs!"a\\# b" =
      some ⟨[.paragraph [.text cs!"a\\# b"]]⟩ ∧
    parseMarkdown PExt.ascii (PConfig.default fun _ => none) cs!"a_b_" =
      some ⟨[.paragraph [.text ['a'], .emphasis [.text ['b']]]]⟩ := by
  decide +kernel

/-- Closing `#`s are not removed from ATX headings, and indented ones are not headings. -/
theorem C57_boundaries :
    parseMarkdown PExt.ascii (PConfig.default fun _ => none) cs!"# a #" =
      some ⟨[.heading (.atx 1) [.text cs!"a #"]]⟩ ∧
    parseMarkdown PExt.ascii (PConfig.default fun _ => none) cs!" # a" =
      some ⟨[.paragraph [.text cs!"# a"]]⟩ := by
  decide +kernel

/-- Plain text for the examples. -/
theorem plainText_of {s : Str} (h : ∀ c ∈ s, c ∉ inlineSpecial) (h2 : ¬ cs!"  " <:+: s) :
    PlainText s := by
  refine ⟨h, ?_⟩
  rintro ⟨a, b, nl, _, rfl⟩
  exact h2 ⟨a, nl ++ b, by simp⟩

theorem labelText_of {s : Str} (h : (s.all (· != ']') && (s.getLast? != some '\\') &&
    s.any (fun c => c != ' ' && c != '\n') && decide (s.length < 1000)) = true) : LabelText s := by
  simp only [Bool.and_eq_true, List.all_eq_true, List.any_eq_true, bne_iff_ne, decide_eq_true_eq] at h
  obtain ⟨⟨⟨h1, h2⟩, c, h3, h4, h5⟩, h6⟩ := h
  exact ⟨fun hm => h1 _ hm rfl, h2, ⟨c, h3, h4, h5⟩, h6⟩

/-- Two lines with a link, strong text, a code span and a footnote meet the hypotheses of
`C56_paragraph`. -/
example (ent : Str → Option Str) :
    parseMarkdown x (PConfig.default ent) cs!"[a *b*](u \"v\") c **d\n`e`**[^f]\n\n" =
      (parseMarkdown x (PConfig.default ent) cs!"\n").map (fun d => ⟨.paragraph
        [.link ['u'] (some ['v']) [.text cs!"a ", .emphasis [.text ['b']]], .text cs!" c ",
          .strong [.text cs!"d\n", .code ['e']], .footnoteReference ['f']] :: d.blocks⟩) := by
  refine C56_paragraph (allParse_default ent) (ls := [cs!"[a *b*](u \"v\") c **d", cs!"`e`**[^f]"])
    (u := cs!"\n\n") (rest := cs!"\n") (by simp) ?_
    (.inr ⟨['\n'], .inl rfl, rfl, .inr ⟨['\n'], [], .inl rfl, rfl⟩⟩) ?_
  · intro l hl
    simp only [List.mem_cons, List.not_mem_nil, or_false] at hl
    rcases hl with rfl | rfl
    · exact ⟨by intro c hc; revert c; decide, .bracket (s := cs!"a *b*")
        (by decide) (by decide) (by decide)⟩
    · exact ⟨by intro c hc; revert c; decide, .tick (by decide)⟩
  · refine .link (s := cs!"a *b*") (w := cs!"(u \"v\")") (u := cs!" c **d\n`e`**[^f]") ?_
      (labelText_of (by decide)) (.titled (d := ['u']) (t := ['v']) ⟨by simp, by decide⟩ (by decide)) ?_
    · refine .text (t := cs!"a ") (u := cs!"*b*") (by simp) (plainText_of (by decide) (by decide)) (by intro t r h; simp at h) (apart_of (by decide)) ?_
      refine .emphasis (s := ['b']) (u := []) (by simp) ?_ ⟨by simp; decide, by decide, by decide⟩
        (by intro c h; simp at h) .nil
      exact .text1 (t := ['b']) (by simp) (plainText_of (by decide) (by decide))
    · refine .text (t := cs!" c ") (u := cs!"**d\n`e`**[^f]") (by simp) (plainText_of (by decide) (by decide))
        (by intro t r h; simp at h) (apart_of (by decide)) ?_
      refine .strong (s := cs!"d\n`e`") (u := cs!"[^f]") (by simp) ?_ ⟨by simp; decide, by decide, ?_, ?_⟩ ?_ ?_
      · refine .text (t := cs!"d\n") (u := cs!"`e`") (by simp) ?_ (by intro t r h; simp at h) (apart_of (by decide)) ?_
        · exact plainText_of (by decide) (by decide)
        · refine .code (n := 1) (c := ['e']) (u := []) (by decide) ⟨by simp, by decide, by decide, by decide,
            by decide, ?_⟩ ?_ (by decide) .nil
          · rintro ⟨a, e, sp, e', b, h1, h2, _, h3⟩
            have hl := congrArg List.length h3
            rcases h1 with rfl | rfl <;> rcases h2 with rfl | rfl <;> simp at hl <;> omega
          · exact .bare (c := ['e']) (by intro m h; simp [spacedLines] at h)
      · decide
      · decide
      · intro c h; simp at h; subst h; exact .inr (.inl (by decide))
      · exact .footnote (l := ['f']) (u := []) (by simp) (by decide) (by decide) (by simp) .nil

/-- A check for text that stands for itself, for the examples. -/
def looseB (c : Char) (next : Option Char) : Bool :=
  !inlineSpecial.contains c || (c == '!' && next != some '[') || (c == '~' && next != some '~') ||
  (c == '*' && next.all isWs) || (c == '&' && next.all (fun d => !isAlpha d && d != '#'))

def plainRunB (u : Str) : Str → Bool
  | [] => true
  | c :: t => looseB c (t ++ u).head? && plainRunB u t

theorem plainRun_of {ent : Str → Option Str} {t u : Str} (h : plainRunB u t = true) (h2 : ¬ cs!"  " <:+: t) :
    PlainRun ent t u := by
  refine ⟨?_, ?_⟩
  · clear h2
    intro a
    induction t generalizing a with
    | nil => intro c b hab; simp at hab
    | cons d t ih =>
      simp only [plainRunB, Bool.and_eq_true] at h
      intro c b hab
      cases a with
      | cons e a => simp at hab; exact ih h.2 a c b hab.2
      | nil =>
        simp at hab
        obtain ⟨rfl, rfl⟩ := hab
        have := h.1
        simp only [looseB, Bool.or_eq_true, Bool.and_eq_true, Bool.not_eq_true', beq_iff_eq, bne_iff_ne] at this
        rcases this with (((h | h) | h) | h) | h
        · exact .inl (by simpa using h)
        · exact .inr (.inl h)
        · exact .inr (.inr (.inl h))
        · exact .inr (.inr (.inr (.inl ⟨h.1, fun e he => by rw [he] at h; simpa using h.2⟩)))
        · refine .inr (.inr (.inr (.inr (.inr (.inr ⟨h.1, ?_⟩)))))
          rintro w out hw ⟨v, hv⟩
          have hh : ∀ e, (t ++ u).head? = some e → isAlpha e = false ∧ e ≠ '#' := by
            intro e he; rw [he] at h; simpa using h.2
          cases hw with
          | dec _ _ _ => simp at hv; exact (hh '#' (by rw [← hv.2]; rfl)).2 rfl
          | hex _ _ _ _ => simp at hv; exact (hh '#' (by rw [← hv.2]; rfl)).2 rfl
          | @named name out h1 h2 _ =>
            obtain ⟨e, name, rfl⟩ := List.exists_cons_of_ne_nil h1
            simp at hv
            have := (hh e (by rw [← hv.2]; rfl)).1
            rw [h2 e (by simp)] at this; cases this
  · rintro ⟨a, b, nl, _, rfl⟩
    exact h2 ⟨a, nl ++ b, by simp⟩

/-- Two lines with an escape, an identifier, a loose `&`, emphasis in underscores, a hard line break
made of spaces, emphasis in three stars, a character reference and a loose star meet the hypotheses of
`C56_paragraph`, whatever the table of references is. -/
example (ent : Str → Option Str) :
    parseMarkdown PExt.ascii (PConfig.default ent) cs!"\\*a_b & _c_  \n***d*** &#65; 2 * 3" =
      (parseMarkdown PExt.ascii (PConfig.default ent) []).map (fun d => ⟨.paragraph
        [.text cs!"*a_b & ", .emphasis [.text ['c']], .lineBreak, .strong [.emphasis [.text ['d']]],
          .text cs!" A 2 * 3"] :: d.blocks⟩) := by
  refine C56_paragraph (allParse_default ent) (ls := [cs!"\\*a_b & _c_  ", cs!"***d*** &#65; 2 * 3"])
    (u := []) (rest := []) (by simp) ?_ (.inl ⟨rfl, rfl⟩) ?_
  · intro l hl
    simp only [List.mem_cons, List.not_mem_nil, or_false] at hl
    rcases hl with rfl | rfl
    · exact ⟨by intro c hc; revert c; decide, .plain (by decide)⟩
    · exact ⟨by intro c hc; revert c; decide, .starText (n := 3) (d := 'd') (by decide) (by decide)⟩
  · refine .escape (p := '*') (u := cs!"a_b & _c_  \n***d*** &#65; 2 * 3") (is := [.text cs!"a_b & ", _, _, _, _])
      (by decide) ?_
    refine .identifier (w := cs!"a_b") (u := cs!" & _c_  \n***d*** &#65; 2 * 3") (is := [.text cs!" & ", _, _, _, _])
      ⟨by simp; decide, by decide, by decide, by decide, by decide, by decide⟩ (by simp [WordEnd]; decide) ?_
    have h1 : Reads PExt.ascii ent cs!"_c_  \n***d*** &#65; 2 * 3" [.emphasis [.text ['c']], .lineBreak,
        .strong [.emphasis [.text ['d']]], .text cs!" A 2 * 3"] := by
      refine .emphasisU (s := ['c']) (u := cs!"  \n***d*** &#65; 2 * 3") (by simp)
        (.text1 (by simp) (plainText_of (by decide) (by decide))) ⟨?_, by decide, by decide⟩ ?_ ?_
      · intro c h; simp at h; subst h; simp [Separates]; decide
      · intro c h; simp at h; subst h; exact .inl (by decide)
      refine .spaceBreak (n := 2) (u := cs!"***d*** &#65; 2 * 3") (by decide) ?_
      refine .both (s := ['d']) (u := cs!" &#65; 2 * 3") (by simp)
        (.text1 (by simp) (plainText_of (by decide) (by decide))) ⟨by simp; decide, by decide, by decide, by decide⟩
        ?_ ?_
      · intro c h; simp at h; subst h; exact .inl (by decide)
      refine .run (t := [' ']) (u := cs!"&#65; 2 * 3") (is := [.text cs!"A 2 * 3"]) (by simp) (plainRun_of (by decide) (by decide))
        (.inr (.inl ⟨_, _, rfl, ?_, by decide⟩)) ⟨by simp; decide, by simp⟩ ?_
      · rintro (h | h | h | h | h | h | h)
        · exact h (by decide)
        · exact absurd h.1 (by decide)
        · exact absurd h.1 (by decide)
        · exact absurd h.1 (by decide)
        · exact absurd h.1 (by decide)
        · exact absurd h.1 (by decide)
        · exact h.2 cs!"&#65;" ['A'] (.dec (ds := cs!"65") (by simp) (by decide) (by decide)) ⟨cs!" 2 * 3", rfl⟩
      refine .reference_char (w := cs!"&#65;") (out := ['A']) (u := cs!" 2 * 3") (is := [.text cs!" 2 * 3"])
        (.dec (ds := cs!"65") (by simp) (by decide) (by decide)) ?_
      exact .run (t := cs!" 2 * 3") (u := []) (is := []) (by simp) (plainRun_of (by decide) (by decide)) (.inl rfl) apart_nil .nil
    exact .run (t := cs!" & ") (u := cs!"_c_  \n***d*** &#65; 2 * 3") (by simp) (plainRun_of (by decide) (by decide))
      (h1.opens (by simp [NotTextFirst])) ⟨by simp; decide, by simp⟩ h1

/-- A heading of the third level with a code span meets the hypotheses of `C57_atx`, and two lines
underlined with `=` those of `C57_setext`. -/
example (ent : Str → Option Str) :
    parseMarkdown x (PConfig.default ent) cs!"### a\n1 b\n*c*\n ===\n" =
      some ⟨[.heading (.atx 3) [.text ['a']],
        .heading (.setext .level1) [.text cs!"1 b\n", .emphasis [.text ['c']]]]⟩ := by
  have h1 := C57_atx (x := x) (allParse_default ent) (n := 3) (sp := [' ']) (s := ['a']) (e := ['\n'])
    (rest := cs!"1 b\n*c*\n ===\n") (is := [.text ['a']]) (by decide) (by decide) (by simp) (by decide)
    (by simp) (by intro c hc; revert c; decide) (by simp; decide) (.inl (.inl rfl))
    (.text1 (t := ['a']) (by simp) (plainText_of (by decide) (by decide)))
  have h2 := C57_setext (x := x) (allParse_default ent) (ls := [cs!"1 b", cs!"*c*"]) (nl := ['\n'])
    (k := 1) (n := 3) (a := '=') (lev := .level1) (sp := []) (e := ['\n']) (rest := [])
    (is := [.text cs!"1 b\n", .emphasis [.text ['c']]]) (by simp) (by
      intro l hl
      simp only [List.mem_cons, List.not_mem_nil, or_false] at hl
      rcases hl with rfl | rfl
      · exact ⟨by intro c hc; revert c; decide, .number (ds := ['1']) (by simp) (by decide) (by decide)
          (by decide) (by decide)⟩
      · exact ⟨by intro c hc; revert c; decide, .star (by decide)⟩)
    (.inl rfl) (by decide) (by decide) (.inl ⟨rfl, rfl⟩) (by simp) (.inl (.inl rfl)) (by
      refine .text (t := cs!"1 b\n") (u := cs!"*c*") (by simp) (plainText_of (by decide) (by decide)) (by intro t r h; simp at h) (apart_of (by decide)) ?_
      · refine .emphasis (s := ['c']) (u := []) (by simp) ?_ ⟨by simp; decide, by decide, by decide⟩
          (by intro c h; simp at h) .nil
        exact .text1 (t := ['c']) (by simp) (plainText_of (by decide) (by decide)))
  have e1 : cs!"### a\n1 b\n*c*\n ===\n" = List.replicate 3 '#' ++ ([' '] ++ (['a'] ++ (['\n'] ++
      cs!"1 b\n*c*\n ===\n"))) := rfl
  rw [e1, h1]
  have e2 : cs!"1 b\n*c*\n ===\n" = joinWith ['\n'] [cs!"1 b", cs!"*c*"] ++ (['\n'] ++
      (List.replicate 1 ' ' ++ (List.replicate 3 '=' ++ ([] ++ (['\n'] ++ []))))) := rfl
  rw [e2, h2, parseMarkdown_nil]
  rfl

end
end Verif
