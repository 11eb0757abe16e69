import Verif.ParserForward
/-!
# What quoted texts parse to: block quotes (C55) and alerts (C41)
-/
set_option linter.unusedVariables false
namespace Verif
open Nom

/-! ## Specification -/

/-- A line of a quote: up to three spaces, `>` and the quoted line. -/
def quoteLine (y : Nat × Str) : Str := List.replicate y.1 ' ' ++ '>' :: y.2

/-- A quoted text: the lines `ls` each followed by `nl`, then the line `last` followed by `e`. -/
def quoted (nl : Str) (ls : List (Nat × Str)) (last : Nat × Str) (e : Str) : Str :=
  unlines nl (ls.map quoteLine) ++ (quoteLine last ++ e)

/-- Text that does not go on with a quote. -/
def NotQuote (s : Str) : Prop := ∀ k t, k ≤ 3 → s ≠ List.replicate k ' ' ++ '>' :: t

/-- The conditions on the lines of a quote. -/
def QuoteLinesOk (ls : List (Nat × Str)) : Prop := ∀ y ∈ ls, y.1 ≤ 3 ∧ OneLine y.2

/-! ## The lines of a quote -/

section
variable {x : PExt} {cfg : PConfig}

theorem quotePrefix_of {k : Nat} {t : Str} (hk : k ≤ 3) :
    quotePrefix (List.replicate k ' ' ++ '>' :: t) = some (t, '>') :=
  preceded_some.2 ⟨_, _, indent03_replicate hk (by simp), chr_cons _ _⟩

theorem quotePrefix_none {s : Str} (h : NotQuote s) : quotePrefix s = none := by
  cases e : quotePrefix s with
  | none => rfl
  | some y =>
    obtain ⟨r, c⟩ := y
    obtain ⟨s1, l, h1, h2⟩ := preceded_some.1 e
    obtain ⟨k, hk, _, hs⟩ := indent03_spec h1
    obtain ⟨h3, rfl⟩ := chr_some.1 h2
    exact absurd (hs.trans (by rw [h3])) (h k r hk)

theorem quoteLine_of {y : Nat × Str} {e rest : Str} (hk : y.1 ≤ 3) (hl : OneLine y.2)
    (he : LineEnd e rest) :
    preceded quotePrefix (lineTerminated notEofOrEol0) (quoteLine y ++ (e ++ rest)) =
      some (rest, y.2) := by
  unfold quoteLine
  rw [List.append_assoc, List.cons_append]
  exact preceded_some.2 ⟨_, _, quotePrefix_of hk, line0 hl he⟩

theorem quoteLine_length {y : Nat × Str} {t : Str} : t.length < (quoteLine y ++ t).length := by
  simp [quoteLine]; omega

theorem quote_many0_of {nl : Str} {ls : List (Nat × Str)} {last : Nat × Str} {e rest : Str}
    (hnl : IsNewline nl) (hls : QuoteLinesOk (ls ++ [last])) (he : LineEnd e rest)
    (hr : NotQuote rest) :
    many0 (preceded quotePrefix (lineTerminated notEofOrEol0)) (quoted nl ls last e ++ rest) =
      some (rest, (ls ++ [last]).map Prod.snd) := by
  induction ls with
  | nil =>
    have := hls last (by simp)
    show many0 _ ((quoteLine last ++ e) ++ rest) = _
    rw [List.append_assoc]
    refine many0_of_some (quoteLine_of this.1 this.2 he) ?_
      (many0_of_none (preceded_none (quotePrefix_none hr)))
    have := quoteLine_length (y := last) (t := e ++ rest)
    simp only [List.length_append] at this ⊢; omega
  | cons y ls ih =>
    have ih := ih (fun z hz => hls z (by simp at hz ⊢; exact .inr hz))
    have hy := hls y (by simp)
    have heq : quoted nl (y :: ls) last e ++ rest =
        quoteLine y ++ (nl ++ (quoted nl ls last e ++ rest)) := by
      simp [quoted, unlines]
    rw [heq]
    refine many0_of_some (quoteLine_of hy.1 hy.2 (.inl hnl)) ?_ ih
    have := quoteLine_length (y := y) (t := nl ++ (quoted nl ls last e ++ rest))
    simp only [List.length_append] at this ⊢; omega

/-- A quoted text starts with its first line. -/
theorem quoted_head {nl : Str} (ls : List (Nat × Str)) (last : Nat × Str) {e rest : Str}
    (hnl : IsNewline nl) (he : LineEnd e rest) :
    ∃ e0 r0, LineEnd e0 r0 ∧
      quoted nl ls last e ++ rest = quoteLine ((ls ++ [last]).headD (0, [])) ++ (e0 ++ r0) := by
  cases ls with
  | nil => exact ⟨e, rest, he, by simp [quoted, unlines]⟩
  | cons y ls =>
    exact ⟨nl, quoted nl ls last e ++ rest, .inl hnl, by simp [quoted, unlines]⟩

theorem many1_of_many0 {α : Type} {p : P α} {s r : Str} {l : List α}
    (h : many0 p s = some (r, l)) (hne : l ≠ []) : many1 p s = some (r, l) := by
  rw [many0_eq] at h
  unfold many1
  cases ep : p s with
  | none => rw [ep] at h; simp at h; exact absurd h.2 (fun h' => hne h')
  | some y =>
    obtain ⟨r1, a⟩ := y
    simp only [ep] at h ⊢
    split at h
    · cases em : many0 p r1 with
      | none => rw [em] at h; simp at h
      | some z => rw [em] at h; simpa using h
    · simp at h

theorem quoteLines_of {nl : Str} {ls : List (Nat × Str)} {last : Nat × Str} {e rest : Str}
    (hnl : IsNewline nl) (hls : QuoteLinesOk (ls ++ [last])) (he : LineEnd e rest)
    (hr : NotQuote rest) :
    quoteLines (quoted nl ls last e ++ rest) = some (rest, (ls ++ [last]).map Prod.snd) :=
  many1_of_many0 (quote_many0_of hnl hls he hr) (by simp)

/-! ## The content of a container is a document -/

theorem many0_blocks (hc : cfg.CustomOk) {s : Str} {d : Document}
    (h : parseMarkdown x cfg s = some d) :
    ∃ r l, many0 (blockP x cfg) s = some (r, l) ∧ l.flatten = d.blocks := by
  have := blockP_con (x := x) hc
  unfold parseMarkdown at h
  rw [parseMarkdownF_eq hc (by omega)] at h
  obtain ⟨y, h1, h2⟩ := Option.map_eq_some_iff.1 h
  obtain ⟨r, l⟩ := y
  obtain ⟨r1, u, h3, _⟩ := terminated_some.1 h1
  exact ⟨r1, l, h3, by rw [← h2]⟩

theorem blocks0_of_parse (hc : cfg.CustomOk) {s : Str} {d : Document}
    (h : parseMarkdown x cfg s = some d) : blocks0 (blockP x cfg) s = some d.blocks := by
  obtain ⟨r, l, h1, h2⟩ := many0_blocks hc h
  unfold blocks0
  rw [h1, ← h2]; rfl

theorem blocks1_of_parse (hc : cfg.CustomOk) (ht : cfg.text ≠ .ignore) (hp : cfg.paragraph ≠ .ignore)
    {s : Str} {d : Document} (hb : ¬ BlankText s) (h : parseMarkdown x cfg s = some d) :
    blocks1 (blockP x cfg) s = some d.blocks := by
  obtain ⟨r, l, h1, h2⟩ := many0_blocks hc h
  unfold blocks1
  rw [many1_of_many0 h1, ← h2]
  · rfl
  · rintro rfl
    rw [many0_eq] at h1
    cases ep : blockP x cfg s with
    | none => exact hb ((blockP_none hc ht hp).1 ep)
    | some y =>
      obtain ⟨r1, a⟩ := y
      simp only [ep] at h1
      split at h1
      · cases em : many0 (blockP x cfg) r1 with
        | none => rw [em] at h1; simp at h1
        | some z => rw [em] at h1; simp at h1
      · simp at h1

/-- Where something else than a paragraph starts, the paragraph alternative of headings gives up. -/
theorem headingV2OrParagraph_none (hc : cfg.CustomOk) {rec : P (List Block)} {s : Str} {y}
    (h : notAParagraphLine x cfg rec s = some y) : headingV2OrParagraph x cfg rec s = none := by
  unfold headingV2OrParagraph
  rw [mapP_none]
  refine seq_none ?_
  unfold paragraphP
  simp only [if_true]
  have hl : preceded (notP (notAParagraphLine x cfg rec)) paragraphLine s = none := by
    refine preceded_none ?_
    rw [notP_none]; exact ⟨_, h⟩
  cases e : mapOpt (paragraphLines x cfg rec)
      (fun lines => parseInlines1 x cfg (joinWith ['\n'] lines)) s with
  | none => rfl
  | some z =>
    obtain ⟨r, a⟩ := z
    obtain ⟨lines, h1, h2⟩ := mapOpt_some.1 e
    unfold paragraphLines at h1
    obtain ⟨s1, u, h3, h4⟩ := terminated_some.1 h1
    unfold separatedList0 at h3
    rw [hl] at h3
    simp only [Option.some.injEq, Prod.mk.injEq] at h3
    obtain ⟨rfl, rfl⟩ := h3
    rw [show joinWith ['\n'] [] = [] from rfl, parseInlines1_nil hc] at h2
    simp at h2

theorem blockquoteP_of (hc : cfg.CustomOk) (ht : cfg.text ≠ .ignore) (hp : cfg.paragraph ≠ .ignore)
    {nl : Str} {ls : List (Nat × Str)} {last : Nat × Str}
    {e rest : Str} {d : Document} (hnl : IsNewline nl) (hls : QuoteLinesOk (ls ++ [last]))
    (he : LineEnd e rest) (hr : NotQuote rest)
    (hb : ¬ BlankText (joinWith ['\n'] ((ls ++ [last]).map Prod.snd)))
    (hd : parseMarkdown x cfg (joinWith ['\n'] ((ls ++ [last]).map Prod.snd)) = some d) :
    blockquoteP (blockP x cfg) (quoted nl ls last e ++ rest) =
      some (rest, .blockQuote d.blocks) := by
  unfold blockquoteP
  refine mapOpt_some.2 ⟨_, quoteLines_of hnl hls he hr, ?_⟩
  rw [blocks1_of_parse hc ht hp hb hd]; rfl

/-- The alternatives before quotes fail on a quote. -/
theorem quoted_alt (hc : cfg.CustomOk) {nl : Str} {ls : List (Nat × Str)} {last : Nat × Str}
    {e rest : Str} {y}
    (hnl : IsNewline nl) (hls : QuoteLinesOk (ls ++ [last])) (he : LineEnd e rest)
    (hbq : cfg.blockquote ≠ .ignore)
    (hq : blockquoteP (blockP x cfg) (quoted nl ls last e ++ rest) = some y) :
    blockP x cfg (quoted nl ls last e ++ rest) =
      ((conditionalBlockVec cfg.githubAlert (githubAlertP x (blockP x cfg)) <||>
        (conditionalBlock cfg.blockquote (blockquoteP (blockP x cfg)) <||>
        (conditionalBlock cfg.list (listP (blockP x cfg)) <||>
        conditionalBlock cfg.htmlBlock (mapP htmlBlockP .htmlBlock) <||>
        conditionalBlock cfg.footnoteDefinition (footnoteDefinitionP (blockP x cfg)) <||>
        conditionalBlock cfg.linkDefinition (linkDefinitionP x cfg) <||>
        conditionalBlock cfg.table (tableP x cfg) <||>
        customParser cfg.customBlock <||>
        conditionalBlock cfg.paragraph (mapP (paragraphP x cfg (blockP x cfg) false) .paragraph))))
      (quoted nl ls last e ++ rest)) := by
  obtain ⟨e0, r0, he0, hs⟩ := quoted_head ls last (rest := rest) hnl he
  have hk : ((ls ++ [last]).headD (0, [])).1 ≤ 3 := by
    cases ls with
    | nil => exact (hls last (by simp)).1
    | cons z ls => exact (hls z (by simp)).1
  generalize (ls ++ [last]).headD (0, []) = y0 at hs hk
  obtain ⟨k, l⟩ := y0
  have hs' : quoted nl ls last e ++ rest = List.replicate k ' ' ++ '>' :: (l ++ (e0 ++ r0)) := by
    rw [hs]; simp [quoteLine]
  rw [hs'] at hq ⊢
  simp only at hk
  generalize l ++ (e0 ++ r0) = t at hq
  rw [blockP_alt hc (notBlankLine (by decide) (by decide) (by decide))]
  unfold blockAlt
  have hi : indent03 (List.replicate k ' ' ++ '>' :: t) = some ('>' :: t, List.replicate k ' ') :=
    indent03_replicate hk (by simp)
  have hcode : codeBlockP (List.replicate k ' ' ++ '>' :: t) = none := by
    unfold codeBlockP
    rw [orElse_none]
    refine ⟨codeBlockIndented_indent hk (by decide) (by decide), ?_⟩
    have : seq indent03 openingFence (List.replicate k ' ' ++ '>' :: t) = none := by
      unfold seq
      rw [hi]
      simp only
      have : openingFence ('>' :: t) = none := by
        unfold openingFence lineTerminated
        refine terminated_none (seq_none ?_)
        rw [recognize_none, orElse_none]
        exact ⟨manyMin_none_of (chr_ne (by decide)) 2, manyMin_none_of (chr_ne (by decide)) 2⟩
      rw [this]
    unfold codeBlockFenced
    rw [this]
  have hh1 : headingV1 x cfg (List.replicate k ' ' ++ '>' :: t) = none := by
    cases k with
    | zero => exact headingV1_head (by decide)
    | succ k => exact headingV1_head (by decide)
  have htb : thematicBreakP (List.replicate k ' ' ++ '>' :: t) = none := by
    unfold thematicBreakP lineTerminated
    rw [value_none]
    refine terminated_none ?_
    unfold preceded
    rw [hi]
    refine terminated_none ?_
    rw [orElse_none, orElse_none]
    exact ⟨manyMin_none_of (chr_ne (by decide)) 2, manyMin_none_of (chr_ne (by decide)) 2,
      manyMin_none_of (chr_ne (by decide)) 2⟩
  have hnp : ∃ z, notAParagraphLine x cfg (blockP x cfg) (List.replicate k ' ' ++ '>' :: t) =
      some z := by
    cases en : notAParagraphLine x cfg (blockP x cfg) (List.replicate k ' ' ++ '>' :: t) with
    | some z => exact ⟨z, rfl⟩
    | none =>
      unfold notAParagraphLine at en
      simp only [orElse_none, conditionalUnit_none] at en
      obtain ⟨_, _, _, h, _⟩ := en
      rcases h with h | h
      · exact absurd h hbq
      · rw [hq] at h; simp at h
  obtain ⟨z, hnp⟩ := hnp
  rw [orElse_of_none (conditionalBlock_none hcode), orElse_of_none (conditionalBlock_none hh1),
    orElse_of_none (conditionalBlock_none (headingV2OrParagraph_none hc hnp)),
    orElse_of_none (conditionalBlock_none (value_none.2 htb))]

/-! ## Alert markers -/

theorem toUpper_ne {c d : Char} (h : c.toNat < 128) (hd : d = '[' ∨ d = '!') (hc : c ≠ d) :
    c.toUpper ≠ d := by
  have : c = Char.ofNat c.toNat := by simp
  rw [this] at hc ⊢
  generalize c.toNat = n at h hc
  have key : ∀ m : Fin 128, (Char.ofNat m.1 ≠ '[' → (Char.ofNat m.1).toUpper ≠ '[') ∧
    (Char.ofNat m.1 ≠ '!' → (Char.ofNat m.1).toUpper ≠ '!') := by decide
  rcases hd with rfl | rfl
  · exact (key ⟨n, h⟩).1 hc
  · exact (key ⟨n, h⟩).2 hc

/-- The upper-case form of a character other than `d` does not start with `d`. -/
theorem upper_head {c d : Char} (hd : d = '[' ∨ d = '!') (hc : c ≠ d) :
    ∃ e l, x.upper c = e :: l ∧ e ≠ d := by
  by_cases ha : c.toNat < 128
  · exact ⟨_, _, x.upper_ascii c ha, toUpper_ne ha hd hc⟩
  · obtain ⟨h1, h2⟩ := x.upper_nonascii c (by omega)
    cases hu : x.upper c with
    | nil => exact absurd hu h1
    | cons e l =>
      refine ⟨e, l, rfl, ?_⟩
      rintro rfl
      have := h2 e (by rw [hu]; simp)
      rcases hd with rfl | rfl <;> exact absurd (this (by decide)) (by decide)

theorem parseAlertMarker_none {m : Str} (h : ¬ cs!"[!" <+: trim m) :
    parseAlertMarker x m = none := by
  unfold parseAlertMarker
  have : alertMarkerP (x.upperStr (trim m)) = none := by
    unfold alertMarkerP
    refine delimited_none ?_
    rw [tag_none]
    rintro ⟨v, hv⟩
    cases ht : trim m with
    | nil => rw [ht] at hv; simp [PExt.upperStr] at hv
    | cons c t =>
      rw [ht] at hv h
      simp only [PExt.upperStr, List.flatMap_cons] at hv
      by_cases hc : c = '['
      · subst hc
        rw [x.upper_ascii '[' (by decide)] at hv
        cases t with
        | nil => simp at hv
        | cons c t =>
          have hc : c ≠ '!' := by
            rintro rfl
            exact h ⟨t, rfl⟩
          obtain ⟨e, l, h1, h2⟩ := upper_head (x := x) (.inr rfl) hc
          simp only [List.flatMap_cons, h1] at hv
          simp at hv
          exact h2 hv.1.symm
      · obtain ⟨e, l, h1, h2⟩ := upper_head (x := x) (.inl rfl) hc
        rw [h1] at hv
        simp at hv
        exact h2 hv.1.symm
  rw [this]

theorem trim_space (s : Str) : trim (' ' :: s) = trim s := by
  unfold trim trimStart
  rw [List.dropWhile_cons]; rfl

/-- The first line of an alert, as read by `github_alert`. -/
theorem alertLine_of {y : Nat × Str} {e rest : Str} (hk : y.1 ≤ 3) (hl : OneLine y.2)
    (he : LineEnd e rest) :
    ∃ l, preceded (seq quotePrefix (opt (chr ' '))) (lineTerminated notEofOrEol0)
      (quoteLine y ++ (e ++ rest)) = some (rest, l) ∧ trim l = trim y.2 := by
  obtain ⟨k, l⟩ := y
  unfold quoteLine
  simp only at hk hl ⊢
  rw [List.append_assoc, List.cons_append]
  have hp := quotePrefix_of (t := l ++ (e ++ rest)) hk
  by_cases hsp : l.head? = some ' '
  · cases l with
    | nil => simp at hsp
    | cons c l =>
      simp at hsp
      subst hsp
      refine ⟨l, preceded_some.2 ⟨l ++ (e ++ rest), ('>', some ' '), seq_some.2 ⟨_, hp, ?_⟩,
        line0 (fun c hc => hl c (by simp [hc])) he⟩, (trim_space l).symm⟩
      exact opt_some.2 (.inl ⟨_, chr_cons _ _, rfl⟩)
  · refine ⟨l, preceded_some.2 ⟨l ++ (e ++ rest), ('>', none), seq_some.2 ⟨_, hp, ?_⟩,
      line0 hl he⟩, rfl⟩
    refine opt_some.2 (.inr ⟨?_, rfl, rfl⟩)
    cases hh : l ++ (e ++ rest) with
    | nil => rfl
    | cons c t =>
      refine chr_ne ?_
      rintro rfl
      cases l with
      | nil => have := he.head; rw [List.nil_append] at hh; rw [hh] at this; simp at this
      | cons d l => simp at hh hsp; exact hsp hh.1

theorem dropWhile_nil_iff {f : Char → Bool} {s : Str} :
    s.dropWhile f = [] ↔ ∀ c ∈ s, f c = true := by
  induction s with
  | nil => simp
  | cons c s ih =>
    rw [List.dropWhile_cons]
    split
    · rename_i h; rw [ih]; simp [h]
    · rename_i h; simp [h]

theorem trim_trim (s : Str) : trim (trim s) = trim s := by
  have hs : ∀ s : Str, trimStart (trimStart s) = trimStart s := by
    intro s; unfold trimStart
    induction s with
    | nil => rfl
    | cons c s ih =>
      rw [List.dropWhile_cons]
      split
      · exact ih
      · rename_i h; rw [List.dropWhile_cons]; simp [h]
  have he : ∀ s : Str, trimEnd (trimEnd s) = trimEnd s := by
    intro s
    have := hs s.reverse
    unfold trimStart at this
    unfold trimEnd
    rw [List.reverse_reverse, this]
  have hse : ∀ s : Str, trimStart (trimEnd s) = trimEnd (trimStart s) := by
    intro s
    unfold trimEnd trimStart
    -- both remove the blanks of the two ends
    rcases List.eq_nil_or_concat (s.dropWhile isWs) with h | ⟨t, c, h⟩
    · have hall : ∀ c ∈ s, isWs c = true := by
        intro c hc
        false_or_by_contra
        rename_i hn
        have : s.dropWhile isWs ≠ [] := by
          intro h'
          rw [dropWhile_nil_iff] at h'
          exact hn (h' c hc)
        exact this h
      rw [h]
      have : s.reverse.dropWhile isWs = [] := by
        rw [dropWhile_nil_iff]; intro c hc; exact hall c (by simpa using hc)
      rw [this]; rfl
    · have hsplit := List.takeWhile_append_dropWhile (p := isWs) (l := s)
      generalize s.takeWhile isWs = a at hsplit
      have ha : (s.dropWhile isWs).head?.all (fun c => !isWs c) = true := by
        have := List.head?_dropWhile_not isWs s
        cases h2 : (s.dropWhile isWs).head? with
        | none => rfl
        | some c => rw [h2] at this; simpa using this
      generalize hb : s.dropWhile isWs = b at *
      have hab : ∀ c ∈ a, isWs c = true := by
        intro c hc
        have : a = s.takeWhile isWs := by
          have h1 := List.takeWhile_append_dropWhile (p := isWs) (l := s)
          rw [hb] at h1
          exact List.append_cancel_right (hsplit.trans h1.symm)
        rw [this] at hc
        exact takeWhile_all c hc
      subst hsplit
      rw [List.reverse_append]
      -- the first visible character is in b
      obtain ⟨d, b', hbd⟩ : ∃ d b', b = d :: b' := by
        cases b with
        | nil => simp at h
        | cons d b' => exact ⟨d, b', rfl⟩
      have hd : isWs d = false := by rw [hbd] at ha; simpa using ha
      have hne : b.reverse.dropWhile isWs ≠ [] := by
        rw [Ne, dropWhile_nil_iff]
        intro hall
        have := hall d (by rw [hbd]; simp)
        rw [hd] at this; simp at this
      have h1 : (b.reverse ++ a.reverse).dropWhile isWs = b.reverse.dropWhile isWs ++ a.reverse := by
        rw [List.dropWhile_append]
        rw [if_neg (by simpa using hne)]
      rw [h1, List.reverse_append, List.reverse_reverse]
      have h2 : ∀ (a b : Str), (∀ c ∈ a, isWs c = true) → (a ++ b).dropWhile isWs = b.dropWhile isWs := by
        intro a b h
        induction a with
        | nil => rfl
        | cons c a ih =>
          rw [List.cons_append, List.dropWhile_cons, if_pos (h c (by simp))]
          exact ih (fun e he => h e (by simp [he]))
      rw [h2 a _ hab]
      -- the trimmed b still starts with d
      have h3 : (b.reverse.dropWhile isWs).reverse.head? = some d := by
        have hsuf : b.reverse.dropWhile isWs <:+ b.reverse := List.dropWhile_suffix _
        have hpre : (b.reverse.dropWhile isWs).reverse <+: b := by
          have := List.reverse_prefix.2 hsuf
          simpa using this
        cases hc : (b.reverse.dropWhile isWs).reverse with
        | nil => exact absurd (List.reverse_eq_nil_iff.1 hc) hne
        | cons f l =>
          rw [hc, hbd] at hpre
          obtain ⟨v, hv⟩ := hpre
          simp at hv
          simp [hv.1]
      cases hc : (b.reverse.dropWhile isWs).reverse with
      | nil => rw [hc] at h3; simp at h3
      | cons f l =>
        rw [hc] at h3
        simp at h3
        rw [List.dropWhile_cons, h3, hd]; rfl
  unfold trim
  rw [hse, hs, he]

theorem githubAlertP_none_of {nl : Str} {ls : List (Nat × Str)} {last : Nat × Str}
    {e rest : Str} {rec : P (List Block)} (hnl : IsNewline nl) (hls : QuoteLinesOk (ls ++ [last]))
    (he : LineEnd e rest)
    (ha : ¬ cs!"[!" <+: trim (((ls ++ [last]).headD (0, [])).2)) :
    githubAlertP x rec (quoted nl ls last e ++ rest) = none := by
  obtain ⟨e0, r0, he0, hs⟩ := quoted_head ls last (rest := rest) hnl he
  have hk : ((ls ++ [last]).headD (0, [])).1 ≤ 3 ∧ OneLine ((ls ++ [last]).headD (0, [])).2 := by
    cases ls with
    | nil => exact hls last (by simp)
    | cons z ls => exact hls z (by simp)
  generalize (ls ++ [last]).headD (0, []) = y0 at *
  obtain ⟨l, h1, h2⟩ := alertLine_of hk.1 hk.2 he0
  unfold githubAlertP
  rw [hs, h1]
  simp only
  rw [parseAlertMarker_none]
  rw [trim_trim, h2]; exact ha

/-- C55: a text with `>` (after at most three spaces) in front of every line, not blank and not
starting with an alert marker, parses to one block quote, whose content is the document the text
itself parses to; what follows is parsed on its own. -/
theorem C55_quote (hc : cfg.CustomOk) (ht : cfg.text ≠ .ignore) (hp : cfg.paragraph ≠ .ignore)
    (hbq : cfg.blockquote = .parse) {nl : Str} {ls : List (Nat × Str)} {last : Nat × Str}
    {e rest : Str} {d : Document} (hnl : IsNewline nl)
    (hls : ∀ y ∈ ls ++ [last], y.1 ≤ 3 ∧ OneLine y.2) (he : LineEnd e rest) (hr : NotQuote rest)
    (ha : ¬ cs!"[!" <+: trim (((ls ++ [last]).headD (0, [])).2))
    (hb : ¬ BlankText (joinWith ['\n'] ((ls ++ [last]).map Prod.snd)))
    (hd : parseMarkdown x cfg (joinWith ['\n'] ((ls ++ [last]).map Prod.snd)) = some d) :
    parseMarkdown x cfg (unlines nl (ls.map quoteLine) ++ (quoteLine last ++ e) ++ rest) =
      (parseMarkdown x cfg rest).map (fun d' => ⟨.blockQuote d.blocks :: d'.blocks⟩) := by
  have hq := blockquoteP_of hc ht hp hnl hls he hr hb hd
  refine parseMarkdown_cons hc (bs := [_]) ?_
  show blockP x cfg (quoted nl ls last e ++ rest) = _
  rw [quoted_alt hc hnl hls he (by rw [hbq]; intro h; cases h) hq, orElse_of_none]
  · refine orElse_of_some ?_
    rw [conditionalBlock_parse hbq, hq]; rfl
  · have := githubAlertP_none_of (x := x) (rec := blockP x cfg) hnl hls he ha
    cases hg : cfg.githubAlert <;> unfold conditionalBlockVec
    · exact this
    · rfl
    · exact value_none.2 this
    · exact this
    · exact this

/-! ## C41 -/

/-- The standard alerts. -/
def standardAlerts : List (Str × AlertType) :=
  [(cs!"NOTE", .note), (cs!"TIP", .tip), (cs!"IMPORTANT", .important), (cs!"WARNING", .warning),
   (cs!"CAUTION", .caution)]

/-- The alert an upper-case name stands for. -/
def alertNamed (name : Str) : AlertType :=
  ((standardAlerts.find? (fun y => y.1 == name)).map Prod.snd).getD (.custom name)

/-- An alert name: a letter followed by letters, digits and underscores. -/
def AlertName (name : Str) : Prop :=
  ∃ c t, name = c :: t ∧ isAlpha c = true ∧ ∀ d ∈ t, isAlnum d = true ∨ d = '_'

theorem ascii_ind {Q : Char → Prop} (h : ∀ m : Fin 128, Q (Char.ofNat m.1)) {c : Char}
    (hc : c.toNat < 128) : Q c := by
  have : c = Char.ofNat c.toNat := by simp
  rw [this]
  exact h ⟨c.toNat, hc⟩

theorem isAlpha_lt {c : Char} (h : isAlpha c = true) : c.toNat < 128 := by
  simp only [isAlpha, Bool.or_eq_true, Bool.and_eq_true, decide_eq_true_eq] at h
  rcases h with ⟨_, h⟩ | ⟨_, h⟩
  · have : c.toNat ≤ 122 := h
    omega
  · have : c.toNat ≤ 90 := h
    omega

theorem isAlnum_lt {c : Char} (h : isAlnum c = true) : c.toNat < 128 := by
  simp only [isAlnum, Bool.or_eq_true] at h
  rcases h with h | h
  · exact isAlpha_lt h
  · simp only [isDigit, Bool.and_eq_true, decide_eq_true_eq] at h
    have : c.toNat ≤ 57 := h.2
    omega

theorem toUpper_alpha {c : Char} (h : isAlpha c = true) : isAlpha c.toUpper = true :=
  ascii_ind (Q := fun c => isAlpha c = true → isAlpha c.toUpper = true) (by decide) (isAlpha_lt h) h

theorem toUpper_alnum {c : Char} (h : isAlnum c = true) : isAlnum c.toUpper = true :=
  ascii_ind (Q := fun c => isAlnum c = true → isAlnum c.toUpper = true) (by decide) (isAlnum_lt h) h

theorem upperStr_ascii {s : Str} (h : ∀ c ∈ s, c.toNat < 128) :
    x.upperStr s = s.map Char.toUpper := by
  unfold PExt.upperStr
  induction s with
  | nil => rfl
  | cons c s ih =>
    rw [List.flatMap_cons, x.upper_ascii c (h c (by simp)), ih (fun d hd => h d (by simp [hd]))]
    rfl

theorem AlertName.upper {name : Str} (h : AlertName name) : AlertName (name.map Char.toUpper) := by
  obtain ⟨c, t, rfl, h1, h2⟩ := h
  refine ⟨c.toUpper, t.map Char.toUpper, rfl, toUpper_alpha h1, ?_⟩
  intro d hd
  obtain ⟨e, he, rfl⟩ := List.mem_map.1 hd
  rcases h2 e he with h | rfl
  · exact .inl (toUpper_alnum h)
  · exact .inr (by decide)

theorem AlertName.ascii {name : Str} (h : AlertName name) : ∀ c ∈ name, c.toNat < 128 := by
  obtain ⟨c, t, rfl, h1, h2⟩ := h
  intro d hd
  rcases List.mem_cons.1 hd with rfl | hd
  · exact isAlpha_lt h1
  · rcases h2 d hd with h | rfl
    · exact isAlnum_lt h
    · decide

theorem many0_satisfy {f : Char → Bool} {a t : Str} (ha : ∀ c ∈ a, f c = true)
    (ht : ∀ c, t.head? = some c → f c = false) : many0 (satisfy f) (a ++ t) = some (t, a) := by
  induction a with
  | nil =>
    refine many0_of_none ?_
    cases t with
    | nil => rfl
    | cons c t => exact satisfy_none_of (ht c rfl)
  | cons c a ih =>
    refine many0_of_some (satisfy_some.2 ⟨rfl, ha c (by simp)⟩) (by simp)
      (ih (fun d hd => ha d (by simp [hd])))

theorem customAlertName_of {name : Str} (h : AlertName name) :
    customAlertName (name ++ [']']) = some ([']'], name) := by
  obtain ⟨c, t, rfl, h1, h2⟩ := h
  unfold customAlertName
  -- the letters and what follows them
  have hne : (c :: t ++ [']']).takeWhile isAlpha ≠ [] := by
    rw [List.cons_append, List.takeWhile_cons, h1]; simp
  have hsplit := List.takeWhile_append_dropWhile (p := isAlpha) (l := c :: t)
  have hr : isAlpha ']' = false := by decide
  have htw : (c :: t ++ [']']).takeWhile isAlpha = (c :: t).takeWhile isAlpha := by
    rw [List.takeWhile_append]
    split
    · rename_i hh
      have : (c :: t).takeWhile isAlpha = c :: t :=
        (List.takeWhile_prefix isAlpha).eq_of_length hh
      rw [this]
      simp [hr]
    · rfl
  have hdw : (c :: t ++ [']']).dropWhile isAlpha = (c :: t).dropWhile isAlpha ++ [']'] := by
    have h3 := List.takeWhile_append_dropWhile (p := isAlpha) (l := c :: t ++ [']'])
    rw [htw] at h3
    have h4 : (c :: t).takeWhile isAlpha ++ ((c :: t).dropWhile isAlpha ++ [']']) =
        c :: t ++ [']'] := by rw [← List.append_assoc, hsplit]
    exact List.append_cancel_left (h3.trans h4.symm)
  have hd : ∀ d ∈ (c :: t).dropWhile isAlpha, (isAlnum d || d == '_') = true := by
    intro d hd
    have hm := (List.dropWhile_suffix isAlpha (l := c :: t)).subset hd
    rcases List.mem_cons.1 hm with rfl | hm
    · simp [isAlnum, h1]
    · rcases h2 d hm with h | rfl
      · simp [h]
      · simp
  refine recognize_of (v := ((c :: t ++ [']']).takeWhile isAlpha, (c :: t).dropWhile isAlpha)) ?_
  refine seq_some.2 ⟨(c :: t).dropWhile isAlpha ++ [']'], ?_, ?_⟩
  · show takeWhile1 _ _ = _
    unfold takeWhile1
    rw [hdw]
    simp only [List.isEmpty_iff]
    rw [if_neg hne]
  · exact many0_satisfy hd (by intro d hd; simp at hd; subst hd; decide)

theorem alertMarkerP_of {name : Str} (h : AlertName name)
    (hp : ∀ y ∈ standardAlerts, y.1 <+: name → y.1 = name) :
    alertMarkerP (cs!"[!" ++ (name ++ [']'])) = some ([], alertNamed name) := by
  have hnb : ']' ∉ name := by
    obtain ⟨c, t, rfl, h1, h2⟩ := h
    intro hm
    rcases List.mem_cons.1 hm with rfl | hm
    · revert h1; decide
    · rcases h2 _ hm with h | h
      · revert h; decide
      · revert h; decide
  have hpre : ∀ u : Str, ']' ∉ u → u <+: name ++ [']'] → u <+: name := by
    intro u hu huv
    rcases List.prefix_concat_iff.1 huv with h | h
    · exact absurd (by rw [h]; simp) hu
    · exact h
  have htag : ∀ y ∈ standardAlerts, name ≠ y.1 → tag y.1 (name ++ [']']) = none := by
    intro y hy hne
    rw [tag_none]
    intro hpr
    have key : ∀ y ∈ standardAlerts, ']' ∉ y.1 := by decide
    exact hne (hp y hy (hpre y.1 (key y hy) hpr)).symm
  unfold alertMarkerP
  refine delimited_some.2 ⟨name ++ [']'], _, [']'], [']'], tag_append _ _, ?_, rfl⟩
  by_cases h1 : name = cs!"NOTE"
  · subst h1; decide +kernel
  by_cases h2 : name = cs!"TIP"
  · subst h2; decide +kernel
  by_cases h3 : name = cs!"IMPORTANT"
  · subst h3; decide +kernel
  by_cases h4 : name = cs!"WARNING"
  · subst h4; decide +kernel
  by_cases h5 : name = cs!"CAUTION"
  · subst h5; decide +kernel
  have hn : alertNamed name = .custom name := by
    have : standardAlerts.find? (fun y => y.1 == name) = none := by
      rw [List.find?_eq_none]
      intro y hy hyn
      have hyn : y.1 = name := by simpa using hyn
      subst hyn
      simp only [standardAlerts, List.mem_cons, List.not_mem_nil, or_false] at hy
      rcases hy with rfl | rfl | rfl | rfl | rfl
      · exact h1 rfl
      · exact h2 rfl
      · exact h3 rfl
      · exact h4 rfl
      · exact h5 rfl
    unfold alertNamed
    rw [this]; rfl
  have hs : ∀ y ∈ standardAlerts, name ≠ y.1 → ∀ t : AlertType,
      value t (tag y.1) (name ++ [']']) = none := fun y hy h t => value_none.2 (htag y hy h)
  rw [orElse_of_none (hs (cs!"NOTE", .note) (by simp [standardAlerts]) h1 _),
    orElse_of_none (hs (cs!"TIP", .tip) (by simp [standardAlerts]) h2 _),
    orElse_of_none (hs (cs!"IMPORTANT", .important) (by simp [standardAlerts]) h3 _),
    orElse_of_none (hs (cs!"WARNING", .warning) (by simp [standardAlerts]) h4 _),
    orElse_of_none (hs (cs!"CAUTION", .caution) (by simp [standardAlerts]) h5 _), hn]
  exact mapP_some.2 ⟨name, customAlertName_of h, rfl⟩

/-- A marker between spaces and tabs. -/
theorem parseAlertMarker_of {name a b : Str} (h : AlertName name)
    (ha : ∀ c ∈ a, c = ' ' ∨ c = '\t') (hb : ∀ c ∈ b, c = ' ' ∨ c = '\t')
    (hp : ∀ y ∈ standardAlerts, y.1 <+: name.map Char.toUpper → y.1 = name.map Char.toUpper) :
    trim (a ++ (cs!"[!" ++ (name ++ [']']) ++ b)) = cs!"[!" ++ (name ++ [']']) ∧
    parseAlertMarker x (trim (a ++ (cs!"[!" ++ (name ++ [']']) ++ b))) =
      some (alertNamed (name.map Char.toUpper)) := by
  have hws : ∀ c : Char, c = ' ' ∨ c = '\t' → isWs c = true := by
    rintro c (rfl | rfl) <;> decide
  have h2 : ∀ (a b : Str), (∀ c ∈ a, isWs c = true) → (a ++ b).dropWhile isWs = b.dropWhile isWs := by
    intro a b h
    induction a with
    | nil => rfl
    | cons c a ih =>
      rw [List.cons_append, List.dropWhile_cons, if_pos (h c (by simp))]
      exact ih (fun e he => h e (by simp [he]))
  have ht : trim (a ++ (cs!"[!" ++ (name ++ [']']) ++ b)) = cs!"[!" ++ (name ++ [']']) := by
    unfold trim trimStart
    rw [h2 a _ (fun c hc => hws c (ha c hc))]
    have : (cs!"[!" ++ (name ++ [']']) ++ b).dropWhile isWs = cs!"[!" ++ (name ++ [']']) ++ b := rfl
    rw [this]
    unfold trimEnd
    rw [List.reverse_append, h2 _ _ (fun c hc => hws c (hb c (by simpa using hc)))]
    have : (cs!"[!" ++ (name ++ [']'])).reverse.dropWhile isWs = (cs!"[!" ++ (name ++ [']'])).reverse := by
      rw [← List.append_assoc, List.reverse_append]; rfl
    rw [this, List.reverse_reverse]
  refine ⟨ht, ?_⟩
  unfold parseAlertMarker
  rw [trim_trim, ht, upperStr_ascii]
  · have : (cs!"[!" ++ (name ++ [']'])).map Char.toUpper =
        cs!"[!" ++ (name.map Char.toUpper ++ [']']) := by
      rw [List.map_append, List.map_append]; rfl
    rw [this, alertMarkerP_of h.upper hp]
  · intro c hc
    rcases List.mem_append.1 hc with h' | h'
    · have key : ∀ c ∈ cs!"[!", c.toNat < 128 := by decide
      exact key c h'
    · rcases List.mem_append.1 h' with h' | h'
      · exact h.ascii c h'
      · simp at h'; subst h'; decide

theorem BlankText.chars {s : Str} (h : BlankText s) : '[' ∉ s := by
  induction h with
  | nil => simp
  | space _ ih => simp [ih]
  | tab _ ih => simp [ih]
  | lf _ ih => simp [ih]
  | crlf _ ih => simp [ih]

theorem joinWith_head (sep : Str) (l : List Str) (c : Char) (h : c ∈ l.headD []) :
    c ∈ joinWith sep l := by
  cases l with
  | nil => simp at h
  | cons a l =>
    cases l with
    | nil => exact h
    | cons b l => simp only [joinWith, List.mem_append]; exact .inl (.inl h)

/-- C41 for the names it is true of: a quote whose first line is `[!NAME]` (between spaces or tabs),
`NAME` being a letter followed by letters, digits and underscores, in any case, none of the standard
names being a proper beginning of it, parses to an alert of that type; its content is the document
the other lines parse to (which must be either empty or not blank); what follows is parsed on its
own.  What is missing is false: `C41_refuted_prefix`, `C41_refuted_blank_body`. -/
theorem C41_alert_partial (hc : cfg.CustomOk) (ht : cfg.text ≠ .ignore)
    (hp : cfg.paragraph ≠ .ignore) (hbq : cfg.blockquote ≠ .ignore) (hga : cfg.githubAlert = .parse)
    {nl : Str} {ls : List (Nat × Str)} {last : Nat × Str} {e rest name a b : Str}
    {bs : List Block} (hnl : IsNewline nl) (hls : ∀ y ∈ ls ++ [last], y.1 ≤ 3 ∧ OneLine y.2)
    (he : LineEnd e rest) (hr : NotQuote rest)
    (hfirst : ((ls ++ [last]).headD (0, [])).2 = a ++ (cs!"[!" ++ (name ++ [']']) ++ b))
    (ha : ∀ c ∈ a, c = ' ' ∨ c = '\t') (hb : ∀ c ∈ b, c = ' ' ∨ c = '\t') (hname : AlertName name)
    (hpre : ∀ y ∈ standardAlerts, y.1 <+: name.map Char.toUpper → y.1 = name.map Char.toUpper)
    (hbody : (joinWith ['\n'] (((ls ++ [last]).map Prod.snd).drop 1) = [] ∧ bs = []) ∨
      (¬ BlankText (joinWith ['\n'] (((ls ++ [last]).map Prod.snd).drop 1)) ∧
        parseMarkdown x cfg (joinWith ['\n'] (((ls ++ [last]).map Prod.snd).drop 1)) =
          some ⟨bs⟩)) :
    parseMarkdown x cfg (unlines nl (ls.map quoteLine) ++ (quoteLine last ++ e) ++ rest) =
      (parseMarkdown x cfg rest).map (fun d' =>
        ⟨.githubAlert (alertNamed (name.map Char.toUpper)) bs :: d'.blocks⟩) := by
  obtain ⟨d, hd⟩ := C32_parse_total_of_config (x := x) hc ht hp
    (joinWith ['\n'] ((ls ++ [last]).map Prod.snd))
  have hnb : ¬ BlankText (joinWith ['\n'] ((ls ++ [last]).map Prod.snd)) := by
    intro hbl
    refine hbl.chars (joinWith_head _ _ _ ?_)
    have : ((ls ++ [last]).map Prod.snd).headD [] = ((ls ++ [last]).headD (0, [])).2 := by
      cases ls <;> rfl
    rw [this, hfirst]; simp
  have hq := blockquoteP_of hc ht hp hnl hls he hr hnb hd
  refine parseMarkdown_cons hc (bs := [_]) ?_
  show blockP x cfg (quoted nl ls last e ++ rest) = _
  rw [quoted_alt hc hnl hls he hbq hq]
  refine orElse_of_some ?_
  rw [hga]
  show githubAlertP x (blockP x cfg) (quoted nl ls last e ++ rest) = _
  obtain ⟨e0, r0, he0, hs⟩ := quoted_head ls last (rest := rest) hnl he
  have hk : ((ls ++ [last]).headD (0, [])).1 ≤ 3 ∧ OneLine ((ls ++ [last]).headD (0, [])).2 := by
    cases ls with
    | nil => exact hls last (by simp)
    | cons z ls => exact hls z (by simp)
  obtain ⟨l, h1, h2⟩ := alertLine_of hk.1 hk.2 he0
  have hql := quoteLines_of hnl hls he hr
  unfold githubAlertP
  rw [hql]
  rw [hs, h1]
  simp only
  rw [h2, hfirst, (parseAlertMarker_of (x := x) hname ha hb hpre).2]
  simp only
  rcases hbody with ⟨hb1, rfl⟩ | ⟨hb1, hb2⟩
  · rw [hb1]; rfl
  · rw [if_neg, blocks1_of_parse hc ht hp hb1 hb2]
    intro hem
    simp only [List.isEmpty_iff] at hem
    rw [hem] at hb1
    exact hb1 .nil

end

/-- A custom alert with a body, upper-cased, meets the hypotheses. -/
example (x : PExt) (ent : Str → Option Str) (d : Document)
    (hd : parseMarkdown x (PConfig.default ent) cs!" body" = some d) :
    parseMarkdown x (PConfig.default ent) cs!"> [!my_Type2]\n> body" =
      some ⟨[.githubAlert (.custom cs!"MY_TYPE2") d.blocks]⟩ := by
  have := C41_alert_partial (x := x) (cfg := PConfig.default ent) (default_customOk _)
    (by intro h; cases h) (by intro h; cases h) (by intro h; cases h) rfl
    (nl := ['\n']) (ls := [(0, cs!" [!my_Type2]")]) (last := (0, cs!" body")) (e := []) (rest := [])
    (name := cs!"my_Type2") (a := [' ']) (b := []) (bs := d.blocks) (.inl rfl)
    (by
      intro y hy
      refine ⟨?_, ?_⟩
      · revert y; decide
      · intro c hc; revert c; revert y; decide)
    (.inr ⟨rfl, rfl⟩) (by intro k t _ h; cases k <;> simp [List.replicate] at h) rfl (by decide)
    (by decide) ⟨'m', cs!"y_Type2", rfl, rfl, by decide⟩ (by decide)
    (.inr ⟨(fun h => nomatch h), hd⟩)
  rw [parseMarkdown_nil] at this
  exact this

/-- C41 is false of names that a standard name is a proper beginning of: the alert parser takes the
standard name, then misses the `]`, and gives up; the quote is not an alert. -/
theorem C41_refuted_prefix :
    parseMarkdown PExt.ascii (PConfig.default fun _ => none) cs!"> [!TIPS]\n> a" =
      some ⟨[.blockQuote [.paragraph [.linkReference [.text cs!"!TIPS"] [.text cs!"!TIPS"],
        .text cs!"\na"]]]⟩ ∧
    parseMarkdown PExt.ascii (PConfig.default fun _ => none) cs!"> [!NOTES]" =
      some ⟨[.blockQuote [.paragraph [.linkReference [.text cs!"!NOTES"] [.text cs!"!NOTES"]]]]⟩ := by
  decide +kernel

/-- C41 is false when the rest of the quote is blank but not empty: `> ` after the marker. -/
theorem C41_refuted_blank_body :
    parseMarkdown PExt.ascii (PConfig.default fun _ => none) cs!"> [!NOTE]\n> " =
      some ⟨[.blockQuote [.paragraph [.linkReference [.text cs!"!NOTE"] [.text cs!"!NOTE"]]]]⟩ := by
  decide +kernel

/-- A quote of a list and a heading, in which only the heading line is indented, meets the
hypotheses of `C55_quote`. -/
example (x : PExt) (ent : Str → Option Str) (d : Document)
    (hd : parseMarkdown x (PConfig.default ent) cs!"# h\n- a" = some d) :
    parseMarkdown x (PConfig.default ent) cs!" ># h\n>- a\n" = some ⟨[.blockQuote d.blocks]⟩ := by
  have := C55_quote (x := x) (cfg := PConfig.default ent) (default_customOk _)
    (by intro h; cases h) (by intro h; cases h) rfl
    (nl := ['\n']) (ls := [(1, cs!"# h")]) (last := (0, cs!"- a")) (e := ['\n']) (rest := [])
    (.inl rfl)
    (by
      intro y hy
      refine ⟨?_, ?_⟩
      · revert y; decide
      · intro c hc; revert c; revert y; decide)
    (.inl (.inl rfl)) (by intro k t _ h; cases k <;> simp [List.replicate] at h) (by decide)
    (fun h => by cases h) hd
  rw [parseMarkdown_nil] at this
  exact this

/-- Finding: `> ` (with the usual space) in front of every line is not the same, because the space
stays in front of the quoted line and headings take no indentation: `> # a` is a quote of the
paragraph `# a`, where `># a` is a quote of a heading. -/
theorem C55_space_matters :
    parseMarkdown PExt.ascii (PConfig.default fun _ => none) cs!"> # a" =
      some ⟨[.blockQuote [.paragraph [.text cs!"# a"]]]⟩ ∧
    parseMarkdown PExt.ascii (PConfig.default fun _ => none) cs!"># a" =
      some ⟨[.blockQuote [.heading (.atx 1) [.text cs!"a"]]]⟩ := by
  decide +kernel

end Verif
