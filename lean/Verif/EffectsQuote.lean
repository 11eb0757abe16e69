import Verif.EffectsDepth
import Verif.ParserQuote
/-!
# What is in a quote is parsed twice

`block` tries the paragraph alternative before the quote alternative, and the paragraph alternative asks
`is_paragraph_line_start`, which parses the quote to see whether there is one and drops what it has parsed.
-/
set_option autoImplicit false
namespace Verif
namespace Fx
open Nom

section
variable {σ : Type} {x : PExt} {cfg : Config σ} {d : PConfig}

/-- The state after parsing is that after the blocks. -/
theorem parseMarkdown_state (hf : cfg.Follows d) (hc : d.CustomOk) (s : Str) (st : σ) :
    (parseMarkdown x cfg s st).2 = (many0S (blockP x cfg) s st).2 := by
  rw [parseMarkdown_eq hf hc]
  unfold terminatedS mapS seqS lift
  rcases many0S (blockP x cfg) s st with ⟨_ | ⟨r, l⟩, st1⟩
  · rfl
  · simp only
    rcases seq (many0 (space1 <||> lineEnding)) eof r with _ | ⟨r', _⟩ <;> rfl

theorem many0S_of_parse (hf : cfg.Follows d) (hc : d.CustomOk) {s : Str} {st st1 : σ} {doc : Document}
    (h : parseMarkdown x cfg s st = (some doc, st1)) :
    ∃ r l, many0S (blockP x cfg) s st = (some (r, l), st1) ∧ l.flatten = doc.blocks := by
  rw [parseMarkdown_eq hf hc] at h
  unfold terminatedS mapS seqS lift at h
  rcases hm : many0S (blockP x cfg) s st with ⟨_ | ⟨r, l⟩, st2⟩
  · rw [hm] at h; simp at h
  · rw [hm] at h
    simp only at h
    rcases he : seq (many0 (space1 <||> lineEnding)) eof r with _ | ⟨r', _⟩
    · rw [he] at h; simp at h
    · rw [he] at h
      simp only [Prod.mk.injEq, Option.some.injEq] at h
      obtain ⟨rfl, rfl⟩ := h
      exact ⟨r, l, rfl, rfl⟩

/-- A first block, then the rest. -/
theorem parseMarkdown_cons (hf : cfg.Follows d) (hc : d.CustomOk) {s rest : Str} {bs : List Block} {st st1 st2 : σ}
    {doc : Document} (h : blockP x cfg s st = (some (rest, bs), st1)) (hlt : rest.length < s.length)
    (hr : parseMarkdown x cfg rest st1 = (some doc, st2)) :
    parseMarkdown x cfg s st = (some ⟨bs ++ doc.blocks⟩, st2) := by
  rw [parseMarkdown_eq hf hc] at hr ⊢
  unfold terminatedS mapS seqS lift at hr ⊢
  rw [many0S_eq, h]
  simp only [hlt, if_true]
  rcases hm : many0S (blockP x cfg) rest st1 with ⟨_ | ⟨r, l⟩, st3⟩
  · rw [hm] at hr; simp at hr
  · rw [hm] at hr
    simp only at hr ⊢
    rcases he : seq (many0 (space1 <||> lineEnding)) eof r with _ | ⟨r', _⟩
    · rw [he] at hr; simp at hr
    · rw [he] at hr
      simp only [Prod.mk.injEq, Option.some.injEq] at hr ⊢
      obtain ⟨rfl, rfl⟩ := hr
      exact ⟨by simp, rfl⟩

theorem blocks0_of_parse (hf : cfg.Follows d) (hc : d.CustomOk) {s : Str} {st st1 : σ} {doc : Document}
    (h : parseMarkdown x cfg s st = (some doc, st1)) : blocks0 (blockP x cfg) s st = (some doc.blocks, st1) := by
  obtain ⟨r, l, h1, h2⟩ := many0S_of_parse hf hc h
  unfold blocks0 whole mapS
  rw [h1, ← h2]; rfl

theorem blocks1_of_parse (hf : cfg.Follows d) (hc : d.CustomOk) (ht : d.text ≠ .ignore) (hp : d.paragraph ≠ .ignore)
    {s : Str} {st st1 : σ} {doc : Document} (hb : ¬ BlankText s) (h : parseMarkdown x cfg s st = (some doc, st1)) :
    blocks1 (blockP x cfg) s st = (some doc.blocks, st1) := by
  obtain ⟨r, l, h1, h2⟩ := many0S_of_parse hf hc h
  have : many1S (blockP x cfg) s st = (some (r, l), st1) := by
    unfold many1S
    rw [many0S_eq] at h1
    rcases hx : blockP x cfg s st with ⟨_ | ⟨r1, a⟩, st2⟩
    · exfalso
      apply hb
      rw [← blockP_none (x := x) hc ht hp]
      rcases (tr_blockP (x := x) hf).cases s st with ⟨_, _, h3⟩ | ⟨_, _, _, _, h3, _⟩
      · exact h3
      · rw [hx] at h3; simp at h3
    · rw [hx] at h1
      simp only at h1 ⊢
      by_cases hlt : r1.length < s.length
      · simp only [hlt, if_true] at h1
        rcases hm : many0S (blockP x cfg) r1 st2 with ⟨_ | ⟨r2, l2⟩, st3⟩ <;> rw [hm] at h1 <;> exact h1
      · simp [hlt] at h1
  unfold blocks1 whole mapS
  rw [this, ← h2]; rfl

/-! ## Alternatives that fail without effect -/

theorem conditional_none {α : Type} (b : Behavior σ α) (l : List α) {p : S σ α} {s : Str} {st st1 : σ}
    (h : p s st = (none, st1)) (hb : b.ignored = false ∨ st1 = st) : conditional b l p s st = (none, st1) := by
  unfold conditional
  cases b
  case ignore => rcases hb with hb | hb; { cases hb }; { subst hb; rfl }
  case parse => simp only [mapS, h]
  case skip => simp only [mapS, h]
  case map f => simp only [bindS, h]
  case flatMap f => simp only [bindS, h]

theorem conditionalUnit_none {α β : Type} (b : Behavior σ α) {p : S σ β} {s : Str} {st : σ}
    (h : p s st = (none, st)) : conditionalUnit b p s st = (none, st) := by
  unfold conditionalUnit
  cases b
  case ignore => rfl
  all_goals simp only [mapS, h]

theorem conditionalUnit_some {α β : Type} {b : Behavior σ α} (hb : b.ignored = false) {p : S σ β} {s r : Str} {v : β}
    {st st1 : σ} (h : p s st = (some (r, v), st1)) : conditionalUnit b p s st = (some (r, ()), st1) := by
  unfold conditionalUnit
  cases b
  case ignore => cases hb
  all_goals simp only [mapS, h]

theorem orElse_none {α : Type} {p q : S σ α} {s : Str} {st st1 : σ} (h : p s st = (none, st1)) :
    (p <or> q) s st = q s st1 := by
  unfold orElse; rw [h]

theorem orElse_some {α : Type} {p q : S σ α} {s : Str} {st st1 : σ} {y : Str × α} (h : p s st = (some y, st1)) :
    (p <or> q) s st = (some y, st1) := by
  unfold orElse; rw [h]

theorem lift_none {α : Type} {p : P α} {s : Str} {st : σ} (h : p s = none) : lift p s st = (none, st) := by
  unfold lift; rw [h]

theorem headingV1_none {s : Str} {st : σ} (h : s.head? ≠ some '#') : headingV1 x cfg s st = (none, st) := by
  unfold headingV1 bindS lift
  have : seq (manyMN (chr '#') 1 6) (preceded (if cfg.allowNoSpaceInHeadings then space0 else space1)
      (lineTerminated notEofOrEol1)) s = none := by
    refine seq_none ?_
    cases s with
    | nil => rfl
    | cons c t =>
      have : c ≠ '#' := by simpa using h
      unfold manyMN
      rw [chr_ne this]; rfl
  rw [this]

/-! ## Quotes -/

theorem codeBlockP_quote {k : Nat} {t : Str} (hk : k ≤ 3) : codeBlockP (List.replicate k ' ' ++ '>' :: t) = none := by
  have hi : indent03 (List.replicate k ' ' ++ '>' :: t) = some ('>' :: t, List.replicate k ' ') :=
    indent03_replicate hk (by simp)
  unfold codeBlockP
  rw [Nom.orElse_none]
  refine ⟨codeBlockIndented_indent hk (by decide) (by decide), ?_⟩
  have : seq indent03 openingFence (List.replicate k ' ' ++ '>' :: t) = none := by
    unfold seq
    rw [hi]
    simp only
    have : openingFence ('>' :: t) = none := by
      unfold openingFence lineTerminated
      refine terminated_none (seq_none ?_)
      rw [recognize_none, Nom.orElse_none]
      exact ⟨manyMin_none_of (chr_ne (by decide)) 2, manyMin_none_of (chr_ne (by decide)) 2⟩
    rw [this]
  unfold codeBlockFenced
  rw [this]

theorem thematicBreakP_quote {k : Nat} {t : Str} (hk : k ≤ 3) : thematicBreakP (List.replicate k ' ' ++ '>' :: t) = none := by
  have hi : indent03 (List.replicate k ' ' ++ '>' :: t) = some ('>' :: t, List.replicate k ' ') :=
    indent03_replicate hk (by simp)
  unfold thematicBreakP lineTerminated
  rw [value_none]
  refine terminated_none ?_
  unfold preceded
  rw [hi]
  refine terminated_none ?_
  rw [Nom.orElse_none, Nom.orElse_none]
  exact ⟨manyMin_none_of (chr_ne (by decide)) 2, manyMin_none_of (chr_ne (by decide)) 2,
    manyMin_none_of (chr_ne (by decide)) 2⟩

theorem headingV2Level_quote {k : Nat} {t : Str} (hk : k ≤ 3) : headingV2Level (List.replicate k ' ' ++ '>' :: t) = none := by
  have hi : indent03 (List.replicate k ' ' ++ '>' :: t) = some ('>' :: t, List.replicate k ' ') :=
    indent03_replicate hk (by simp)
  unfold headingV2Level lineTerminated
  refine terminated_none ?_
  unfold preceded
  rw [hi]
  refine terminated_none ?_
  rw [Nom.orElse_none, value_none, value_none]
  exact ⟨many1_none_of (chr_ne (by decide)), many1_none_of (chr_ne (by decide))⟩

theorem eofOrEol_quote {k : Nat} {t : Str} : eofOrEol (List.replicate k ' ' ++ '>' :: t) = none := by
  cases k
  · exact eofOrEol_cons (by decide) (by decide)
  · exact eofOrEol_cons (by decide) (by decide)

theorem githubAlertP_none {nl : Str} {ls : List (Nat × Str)} {last : Nat × Str} {e rest : Str} {rec : S σ (List Block)}
    (hnl : IsNewline nl) (hls : QuoteLinesOk (ls ++ [last])) (he : LineEnd e rest)
    (ha : ¬ cs!"[!" <+: trim (((ls ++ [last]).headD (0, [])).2)) (st : σ) :
    githubAlertP x rec (quoted nl ls last e ++ rest) st = (none, st) := by
  obtain ⟨e0, r0, he0, hs⟩ := quoted_head ls last (rest := rest) hnl he
  have hk : ((ls ++ [last]).headD (0, [])).1 ≤ 3 ∧ OneLine ((ls ++ [last]).headD (0, [])).2 := by
    cases ls with
    | nil => exact hls last (by simp)
    | cons z ls => exact hls z (by simp)
  generalize (ls ++ [last]).headD (0, []) = y0 at *
  obtain ⟨l, h1, h2⟩ := alertLine_of hk.1 hk.2 he0
  unfold githubAlertP
  rw [hs, h1]
  simp only
  rw [parseAlertMarker_none]
  rw [trim_trim, h2]; exact ha

theorem quote_shape {nl : Str} {ls : List (Nat × Str)} {last : Nat × Str} {e rest : Str} (hnl : IsNewline nl)
    (hls : QuoteLinesOk (ls ++ [last])) (he : LineEnd e rest) :
    ∃ k t, k ≤ 3 ∧ quoted nl ls last e ++ rest = List.replicate k ' ' ++ '>' :: t := by
  obtain ⟨e0, r0, he0, hs⟩ := quoted_head ls last (rest := rest) hnl he
  have hk : ((ls ++ [last]).headD (0, [])).1 ≤ 3 := by
    cases ls with
    | nil => exact (hls last (by simp)).1
    | cons z ls => exact (hls z (by simp)).1
  generalize (ls ++ [last]).headD (0, []) = y0 at hs hk
  obtain ⟨k, l⟩ := y0
  exact ⟨k, l ++ (e0 ++ r0), hk, by rw [hs]; simp [quoteLine]⟩

/-- Where something else than a paragraph starts, the paragraph alternative of headings gives up, but the effects of
finding out remain. -/
theorem headingV2OrParagraph_none {rec : S σ (List Block)} {s r : Str} {st st1 : σ}
    (h : notAParagraphLine x cfg rec s st = (some (r, ()), st1)) (he : eofOrEol s = none) :
    headingV2OrParagraph x cfg rec s st = (none, st1) := by
  unfold headingV2OrParagraph paragraphP paragraphLines terminatedS
  simp only [if_true, mapS, seqS, bindS, separatedList0S, precededS, notS, lift, h, he]

/-- A block quote is parsed twice. -/
theorem blockP_quote (hf : cfg.Follows d) (hc : d.CustomOk) (ht : d.text ≠ .ignore) (hp : d.paragraph ≠ .ignore)
    (hbq : cfg.blockquote = .parse) (hh2 : cfg.headingV2.ignored = false) {nl : Str} {ls : List (Nat × Str)}
    {last : Nat × Str} {e rest : Str} (hnl : IsNewline nl) (hls : QuoteLinesOk (ls ++ [last])) (he : LineEnd e rest)
    (hr : NotQuote rest) (ha : ¬ cs!"[!" <+: trim (((ls ++ [last]).headD (0, [])).2))
    (hb : ¬ BlankText (joinWith ['\n'] ((ls ++ [last]).map Prod.snd))) {st st1 st2 : σ} {d1 d2 : Document}
    (h1 : parseMarkdown x cfg (joinWith ['\n'] ((ls ++ [last]).map Prod.snd)) st = (some d1, st1))
    (h2 : parseMarkdown x cfg (joinWith ['\n'] ((ls ++ [last]).map Prod.snd)) st1 = (some d2, st2)) :
    blockP x cfg (quoted nl ls last e ++ rest) st = (some (rest, [.blockQuote d2.blocks]), st2) := by
  have hl := quoteLines_of hnl hls he hr
  have hq : ∀ {st st1 : σ} {d1 : Document},
      parseMarkdown x cfg (joinWith ['\n'] ((ls ++ [last]).map Prod.snd)) st = (some d1, st1) →
      blockquoteP (blockP x cfg) (quoted nl ls last e ++ rest) st = (some (rest, .blockQuote d1.blocks), st1) := by
    intro st st1 d1 h
    unfold blockquoteP mapS bindS lift
    rw [hl]
    simp only
    rw [blocks1_of_parse hf hc ht hp hb h]
  have q1 := hq h1
  have q2 := hq h2
  have halert : ∀ st : σ, githubAlertP x (blockP x cfg) (quoted nl ls last e ++ rest) st = (none, st) :=
    githubAlertP_none hnl hls he ha
  obtain ⟨k, t, hk, hs⟩ := quote_shape hnl hls he (rest := rest)
  rw [hs] at q1 q2 halert ⊢
  have hh : ∀ st : σ, headingV1 x cfg (List.replicate k ' ' ++ '>' :: t) st = (none, st) := by
    intro st
    apply headingV1_none
    cases k <;> simp [List.replicate_succ]
  have hn : notAParagraphLine x cfg (blockP x cfg) (List.replicate k ' ' ++ '>' :: t) st = (some (rest, ()), st1) := by
    unfold notAParagraphLine
    rw [orElse_none (conditionalUnit_none _ (hh st)),
      orElse_none (conditionalUnit_none _ (lift_none (headingV2Level_quote hk))),
      orElse_none (conditionalUnit_none _ (lift_none (thematicBreakP_quote hk)))]
    exact orElse_some (conditionalUnit_some (by rw [hbq]; rfl) q1)
  rw [blockP_eq hf hc]
  have hm : manyEmptyLines0 (List.replicate k ' ' ++ '>' :: t) = some (List.replicate k ' ' ++ '>' :: t, []) :=
    many0_of_none (notBlankLine (by decide) (by decide) (by decide))
  unfold blockStep
  simp only [precededS, lift, hm]
  unfold blockAlt conditionalBlock
  rw [orElse_none (conditional_none _ _ (lift_none (codeBlockP_quote hk)) (.inr rfl)),
    orElse_none (conditional_none _ _ (hh st) (.inr rfl)),
    orElse_none (conditional_none _ _ (headingV2OrParagraph_none hn eofOrEol_quote) (.inl hh2)),
    orElse_none (conditional_none _ _ (lift_none (value_none.2 (thematicBreakP_quote hk))) (.inr rfl)),
    orElse_none (st1 := st1)]
  · refine orElse_some ?_
    rw [hbq]
    unfold conditional
    simp only [mapS, q2]
  · unfold conditionalBlockVec
    cases cfg.githubAlert
    case ignore => rfl
    case skip => simp only [mapS, halert]
    all_goals simp only [halert]

/-- **C92.** The content of a quote is parsed twice: first to see that there is no paragraph, then to get the quote. The
effects of both are seen, the result of the first is dropped. -/
theorem C92_quote (ht : cfg.text.ignored = false) (hp : cfg.paragraph.ignored = false) (hb : cfg.customBlock = none)
    (hi : cfg.customInline = none) (hbq : cfg.blockquote = .parse) (hh2 : cfg.headingV2.ignored = false) {nl : Str}
    {ls : List (Nat × Str)} {last : Nat × Str} {e rest : Str} (hnl : IsNewline nl)
    (hls : ∀ y ∈ ls ++ [last], y.1 ≤ 3 ∧ OneLine y.2) (he : LineEnd e rest) (hr : NotQuote rest)
    (ha : ¬ cs!"[!" <+: trim (((ls ++ [last]).headD (0, [])).2))
    (hbl : ¬ BlankText (joinWith ['\n'] ((ls ++ [last]).map Prod.snd))) {st st1 st2 st3 : σ} {d1 d2 d3 : Document}
    (h1 : parseMarkdown x cfg (joinWith ['\n'] ((ls ++ [last]).map Prod.snd)) st = (some d1, st1))
    (h2 : parseMarkdown x cfg (joinWith ['\n'] ((ls ++ [last]).map Prod.snd)) st1 = (some d2, st2))
    (h3 : parseMarkdown x cfg rest st2 = (some d3, st3)) :
    parseMarkdown x cfg (unlines nl (ls.map quoteLine) ++ (quoteLine last ++ e) ++ rest) st =
      (some ⟨.blockQuote d2.blocks :: d3.blocks⟩, st3) := by
  obtain ⟨d, hf, hc, g1, g2, _⟩ := exists_follows ht hp hb hi
  refine parseMarkdown_cons hf hc (bs := [_]) (blockP_quote hf hc g1 g2 hbq hh2 hnl hls he hr ha hbl h1 h2) ?_ h3
  unfold quoteLine
  simp; omega

/-- The lines of a text, each behind `n` quote marks. -/
def quotedTimes (n : Nat) (ls : List Str) : Str := joinWith ['\n'] (ls.map (List.replicate n '>' ++ ·))

/-- Blocks in `n` quotes. -/
def inQuotes : Nat → List Block → List Block
  | 0, bs => bs
  | n + 1, bs => [.blockQuote (inQuotes n bs)]

/-- Something done `n` times. -/
def times (f : σ → σ) : Nat → σ → σ
  | 0, st => st
  | n + 1, st => times f n (f st)

theorem times_add (f : σ → σ) (m n : Nat) (st : σ) : times f (m + n) st = times f n (times f m st) := by
  induction m generalizing st with
  | zero => simp [times]
  | succ m ih => rw [Nat.succ_add]; exact ih (f st)

theorem joinWith_unlines (ls : List Str) (l : Str) : joinWith ['\n'] (ls ++ [l]) = unlines ['\n'] ls ++ l := by
  induction ls with
  | nil => simp [joinWith, unlines]
  | cons a ls ih =>
    cases hx : ls ++ [l] with
    | nil => simp at hx
    | cons b t =>
      rw [List.cons_append, hx, joinWith, ← hx, ih]
      simp [unlines]

theorem blankText_quote {n : Nat} {l : Str} {ls : List Str} : ¬ BlankText (quotedTimes (n + 1) (l :: ls)) := by
  intro h
  unfold quotedTimes at h
  have key : ∀ {s : Str}, BlankText s → '>' ∉ s := by
    intro s h
    induction h with
    | nil => simp
    | space _ ih => simp [ih]
    | tab _ ih => simp [ih]
    | lf _ ih => simp [ih]
    | crlf _ ih => simp [ih]
  refine key h (joinWith_head _ _ _ ?_)
  simp [List.replicate_succ]

theorem trim_quote {n : Nat} {l : Str} : ¬ cs!"[!" <+: trim (List.replicate (n + 1) '>' ++ l) := by
  have h : ∀ w : Str, trim ('>' :: w) <+: '>' :: w := by
    intro w
    unfold trim trimEnd trimStart
    rw [List.dropWhile_cons_of_neg (by decide)]
    have := List.dropWhile_suffix (l := ('>' :: w).reverse) isWs
    rw [← List.reverse_prefix] at this
    rwa [List.reverse_reverse] at this
  intro ⟨t, ht⟩
  obtain ⟨u, hu⟩ := h (List.replicate n '>' ++ l)
  change _ = trim ('>' :: (List.replicate n '>' ++ l)) at ht
  rw [← ht] at hu
  simp at hu

/-- **C92.** The effects of parsing a text behind `n` quote marks are those of parsing the text `2 ^ n` times; what the
document contains is what the last of these returns. -/
theorem C92_nested (ht : cfg.text.ignored = false) (hp : cfg.paragraph.ignored = false) (hb : cfg.customBlock = none)
    (hi : cfg.customInline = none) (hbq : cfg.blockquote = .parse) (hh2 : cfg.headingV2.ignored = false)
    {ls : List Str} (hls : ∀ l ∈ ls, OneLine l) (ha : ¬ cs!"[!" <+: trim (ls.headD []))
    (hbl : ¬ BlankText (joinWith ['\n'] ls)) (n : Nat) (st : σ) :
    ∃ doc, parseMarkdown x cfg (joinWith ['\n'] ls)
        (times (fun st => (parseMarkdown x cfg (joinWith ['\n'] ls) st).2) (2 ^ n - 1) st) =
          (some doc, times (fun st => (parseMarkdown x cfg (joinWith ['\n'] ls) st).2) (2 ^ n) st) ∧
      parseMarkdown x cfg (quotedTimes n ls) st =
        (some ⟨inQuotes n doc.blocks⟩, times (fun st => (parseMarkdown x cfg (joinWith ['\n'] ls) st).2) (2 ^ n) st) := by
  have hlast : ∀ m st, times (fun st => (parseMarkdown x cfg (joinWith ['\n'] ls) st).2) (m + 1) st =
      (parseMarkdown x cfg (joinWith ['\n'] ls)
        (times (fun st => (parseMarkdown x cfg (joinWith ['\n'] ls) st).2) m st)).2 := by
    intro m st; rw [times_add]; rfl
  induction n generalizing st with
  | zero =>
    obtain ⟨doc, hd⟩ := C91_total (x := x) ht hp hb hi (joinWith ['\n'] ls) st
    have h0 : parseMarkdown x cfg (joinWith ['\n'] ls) st = (some doc, (parseMarkdown x cfg (joinWith ['\n'] ls) st).2) := by
      rw [← hd]
    refine ⟨doc, h0, ?_⟩
    simp only [quotedTimes, List.replicate_zero, List.nil_append, List.map_id', inQuotes]
    exact h0
  | succ n ih =>
    obtain ⟨d1, _, h1⟩ := ih st
    obtain ⟨d2, h2', h2⟩ := ih (times (fun st => (parseMarkdown x cfg (joinWith ['\n'] ls) st).2) (2 ^ n) st)
    have hpos : 0 < 2 ^ n := Nat.two_pow_pos n
    rw [← times_add, ← times_add] at h2'
    rw [← times_add] at h2
    have e1 : 2 ^ n + (2 ^ n - 1) = 2 ^ (n + 1) - 1 := by rw [Nat.pow_succ]; omega
    have e2 : 2 ^ n + 2 ^ n = 2 ^ (n + 1) := by rw [Nat.pow_succ]; omega
    rw [e1, e2] at h2'
    rw [e2] at h2
    refine ⟨d2, h2', ?_⟩
    obtain ⟨init, l, rfl⟩ : ∃ init l, ls = init ++ [l] := by
      rcases List.eq_nil_or_concat ls with rfl | ⟨init, l, h⟩
      · exact absurd BlankText.nil hbl
      · exact ⟨init, l, by simpa using h⟩
    have hmap : ((init.map (fun u => (0, List.replicate n '>' ++ u)) ++ [(0, List.replicate n '>' ++ l)]).map Prod.snd) =
        (init ++ [l]).map (List.replicate n '>' ++ ·) := by simp [Function.comp_def]
    have := C92_quote (x := x) (cfg := cfg) ht hp hb hi hbq hh2 (nl := ['\n'])
      (ls := init.map (fun u => (0, List.replicate n '>' ++ u))) (last := (0, List.replicate n '>' ++ l)) (e := []) (rest := [])
      (st := st) (st1 := times (fun st => (parseMarkdown x cfg (joinWith ['\n'] (init ++ [l])) st).2) (2 ^ n) st)
      (st2 := times (fun st => (parseMarkdown x cfg (joinWith ['\n'] (init ++ [l])) st).2) (2 ^ (n + 1)) st)
      (st3 := times (fun st => (parseMarkdown x cfg (joinWith ['\n'] (init ++ [l])) st).2) (2 ^ (n + 1)) st)
      (d1 := ⟨inQuotes n d1.blocks⟩) (d2 := ⟨inQuotes n d2.blocks⟩) (d3 := ⟨[]⟩)
      (.inl rfl) ?_ (.inr ⟨rfl, rfl⟩) ?_ ?_ ?_ (by rw [hmap]; exact h1) (by rw [hmap]; exact h2) ?_
    · rw [← inQuotes] at this
      rw [← this]
      congr 1
      unfold quotedTimes
      rw [List.map_append, List.map_singleton, joinWith_unlines]
      simp [quoteLine, List.replicate_succ, Function.comp_def]
    · intro y hy
      simp only [List.mem_append, List.mem_map, List.mem_singleton] at hy
      have hq : ∀ u, u ∈ init ++ [l] → OneLine (List.replicate n '>' ++ u) := by
        intro u hu c hc
        rcases List.mem_append.1 hc with hc | hc
        · rw [(List.mem_replicate.1 hc).2]; decide
        · exact hls u hu c hc
      rcases hy with ⟨u, hu, rfl⟩ | rfl
      · exact ⟨by simp, hq u (by simp [hu])⟩
      · exact ⟨by simp, hq l (by simp)⟩
    · intro k t hk h; cases k <;> simp [List.replicate_succ] at h
    · cases n with
      | zero =>
        cases init with
        | nil => simpa using ha
        | cons a init => simpa using ha
      | succ n =>
        cases init with
        | nil => exact trim_quote
        | cons a init => exact trim_quote
    · rw [hmap]
      cases n with
      | zero => simpa using hbl
      | succ n =>
        cases init with
        | nil => exact blankText_quote
        | cons a init => exact blankText_quote
    · rfl

/-- **C92.** The state after parsing a text behind `n` quote marks is that after parsing the text `2 ^ n` times. -/
theorem C92_exponential (ht : cfg.text.ignored = false) (hp : cfg.paragraph.ignored = false) (hb : cfg.customBlock = none)
    (hi : cfg.customInline = none) (hbq : cfg.blockquote = .parse) (hh2 : cfg.headingV2.ignored = false)
    {ls : List Str} (hls : ∀ l ∈ ls, OneLine l) (ha : ¬ cs!"[!" <+: trim (ls.headD []))
    (hbl : ¬ BlankText (joinWith ['\n'] ls)) (n : Nat) (st : σ) :
    (parseMarkdown x cfg (quotedTimes n ls) st).2 =
      times (fun st => (parseMarkdown x cfg (joinWith ['\n'] ls) st).2) (2 ^ n) st := by
  obtain ⟨doc, _, h⟩ := C92_nested (x := x) ht hp hb hi hbq hh2 hls ha hbl n st
  rw [h]

end

/-- A configuration that counts how often a paragraph is made. -/
def counting : Config Nat := { entities := fun _ => none, headingV2 := .map (fun b n => (b, n + 1)) }

theorem times_count (m st : Nat) : times (fun n => n + 1) m st = st + m := by
  induction m generalizing st with
  | zero => rfl
  | succ m ih => rw [times, ih]; omega

/-- **C92.** A closure for paragraphs is called `2 ^ n` times for one paragraph behind `n` quote marks, although the
document has only one. -/
theorem C92_calls (n st : Nat) : parseMarkdown PExt.ascii counting (List.replicate n '>' ++ cs!"a") st =
    (some ⟨inQuotes n [.paragraph [.text cs!"a"]]⟩, st + 2 ^ n) := by
  have h0 : ∀ st, parseMarkdown PExt.ascii counting cs!"a" st = (some ⟨[.paragraph [.text cs!"a"]]⟩, st + 1) := fun st => rfl
  obtain ⟨doc, h1, h2⟩ := C92_nested (x := PExt.ascii) (cfg := counting) rfl rfl rfl rfl rfl rfl (ls := [cs!"a"])
    (by simp [OneLine]) (by decide) (by intro h; cases h) n st
  have e : (fun st => (parseMarkdown PExt.ascii counting (joinWith ['\n'] [cs!"a"]) st).2) = fun n => n + 1 := by
    funext st; exact congrArg Prod.snd (h0 st)
  rw [e] at h1 h2
  rw [times_count, times_count] at h1
  rw [times_count] at h2
  have h3 : parseMarkdown PExt.ascii counting (joinWith ['\n'] [cs!"a"]) (st + (2 ^ n - 1)) = _ := h0 (st + (2 ^ n - 1))
  rw [h3] at h1
  simp only [Prod.mk.injEq, Option.some.injEq] at h1
  rw [← h1.1] at h2
  exact h2

end Fx
end Verif
