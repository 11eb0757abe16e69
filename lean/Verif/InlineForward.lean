import Verif.ParserQuote
/-!
# What given texts parse to: plain text, character references (C50), escapes (C51), code spans (C43)
-/
set_option linter.unusedVariables false
namespace Verif
open Nom

/-! ## The inline parser without a depth -/

/-- `inline`, `inline/mod.rs:84-140`, at its natural depth. -/
def inlineP (x : PExt) (cfg : PConfig) : P (List Inline) := inlineStep x cfg (parseInlines1 x cfg)

section
variable {x : PExt} {cfg : PConfig} {rec : Str → Option (List Inline)} {c : Char} {t : Str}

theorem inlineP_con (hc : cfg.CustomOk) : Con (inlineP x cfg) :=
  ⟨fun s r a h => by
    have := inlineF_con x cfg hc (s.length + 1)
    unfold inlineP at h
    rw [← inlineF_succ hc s.length s (by omega)] at h
    exact this.out s r a h⟩

theorem parseInlines1_eq (hc : cfg.CustomOk) (s : Str) :
    parseInlines1 x cfg s = (many1 (inlineP x cfg) s).map (fun y => mergeText y.2.flatten) := by
  have := inlineF_con x cfg hc (s.length + 1)
  have hm : many1 (inlineF x cfg (s.length + 1)) s = many1 (inlineP x cfg) s :=
    many1_congr s (fun u hu => by
      have := hu.length_le
      rw [inlineF_stable hc (s.length + 1) (u.length + 1) u (by omega) (by omega),
        inlineF_succ hc u.length u (by omega)]
      rfl)
  show ((mapP (many1 (inlineF x cfg (s.length + 1))) (fun l => mergeText l.flatten)) s).map
    Prod.snd = _
  unfold mapP
  rw [hm]
  cases many1 (inlineP x cfg) s <;> rfl

theorem parseInlines0_eq (hc : cfg.CustomOk) (s : Str) :
    parseInlines0 x cfg s = (many0 (inlineP x cfg) s).map (fun y => mergeText y.2.flatten) := by
  have := inlineF_con x cfg hc (s.length + 1)
  have hm : many0 (inlineF x cfg (s.length + 1)) s = many0 (inlineP x cfg) s :=
    many0_congr s (fun u hu => by
      have := hu.length_le
      rw [inlineF_stable hc (s.length + 1) (u.length + 1) u (by omega) (by omega),
        inlineF_succ hc u.length u (by omega)]
      rfl)
  show ((mapP (many0 (inlineF x cfg (s.length + 1))) (fun l => mergeText l.flatten)) s).map
    Prod.snd = _
  unfold mapP
  rw [hm]
  cases many0 (inlineP x cfg) s <;> rfl

/-! ## First characters -/

theorem autolinkP_head (h : c ≠ '<') : autolinkP (c :: t) = none := delimited_none (chr_ne h)

theorem linkLabel_head (h : c ≠ '[') : linkLabel rec (c :: t) = none :=
  delimited_none (tag_cons_ne h)

theorem inlineLink_head (h : c ≠ '[') : inlineLink rec (c :: t) = none := by
  unfold inlineLink; rw [mapP_none]; exact seq_none (linkLabel_head h)

theorem footnoteReferenceP_head (h : c ≠ '[') : footnoteReferenceP (c :: t) = none := by
  unfold footnoteReferenceP; rw [mapP_none]; exact delimited_none (tag_cons_ne h)

theorem referenceLink_head (h : c ≠ '[') : referenceLink rec (c :: t) = none := by
  unfold referenceLink referenceLinkFull referenceLinkCollapsed referenceLinkShortcut
  simp only [orElse_none, mapP_none]
  exact ⟨seq_none (linkLabel_head h), terminated_none (linkLabel_head h), linkLabel_head h⟩

theorem hardNewline_head (h1 : c ≠ '\\') (h2 : c ≠ ' ') : hardNewline (c :: t) = none := by
  unfold hardNewline
  rw [value_none, orElse_none, value_none, value_none]
  exact ⟨seq_none (chr_ne h1), seq_none (manyMin_none_of (chr_ne h2) 1)⟩

theorem imageP_head (h : c ≠ '!') : imageP (c :: t) = none := by
  unfold imageP; rw [mapP_none]; exact seq_none (preceded_none (chr_ne h))

theorem codeSpan_head (h : c ≠ '`') : codeSpan (c :: t) = none := by
  unfold codeSpan
  rw [show recognize (many1 (chr '`')) (c :: t) = none from by
    rw [recognize_none]; exact many1_none_of (chr_ne h)]

theorem openTag_head {d : Char} {u : Str} (h : c ≠ d) : openTag x (d :: u) (c :: t) = none := by
  unfold openTag; rw [tag_cons_ne h]

theorem emphasisP_head (h1 : c ≠ '*') (h2 : c ≠ '_') : emphasisP x rec (c :: t) = none := by
  unfold emphasisP emphasisDelimited
  simp only [orElse_none, mapP_none]
  exact ⟨⟨delimited_none (openTag_head h1), delimited_none (openTag_head h2)⟩,
    ⟨delimited_none (openTag_head h1), delimited_none (openTag_head h2)⟩,
    ⟨delimited_none (openTag_head h1), delimited_none (openTag_head h2)⟩⟩

theorem strikethroughP_head (h : c ≠ '~') : strikethroughP rec (c :: t) = none := by
  unfold strikethroughP
  rw [terminated_none (tag_cons_ne h)]

theorem htmlEntity_head (h : c ≠ '&') : htmlEntity cfg (c :: t) = none := by
  unfold htmlEntity htmlEntityAlpha htmlEntityNumeric
  rw [orElse_none, mapP_none]
  refine ⟨mapOpt_none ?_, mapOpt_none (delimited_none (tag_cons_ne h))⟩
  rw [recognize_none]; exact seq_none (chr_ne h)

theorem escapedChar_head (h : c ≠ '\\') : escapedChar (c :: t) = none := preceded_none (chr_ne h)

theorem environmentVariable_head (h : isAlpha c = false) :
    environmentVariable (c :: t) = none := by
  unfold environmentVariable
  rw [mapP_none]
  refine verify_none ?_
  rw [recognize_none]
  exact seq_none (takeWhile1_none_of h)

end

/-! ## Specification: plain text -/

/-- The characters that mean something in inline text. -/
def inlineSpecial : Str := cs!"<[\\!`*_~&"

/-- Two spaces at the end of a line: a hard line break. -/
def HasHardBreak (s : Str) : Prop := ∃ a b nl, IsNewline nl ∧ s = a ++ (cs!"  " ++ (nl ++ b))

/-- Text without special characters and hard line breaks. -/
def PlainText (s : Str) : Prop := (∀ c ∈ s, c ∉ inlineSpecial) ∧ ¬ HasHardBreak s

/-- What may follow plain text without joining it: the end, or one of the special characters except
`_`. -/
def QuietEnd (u : Str) : Prop := ∀ c, u.head? = some c → c ∈ cs!"<[\\!`*~&"

section
variable {x : PExt} {cfg : PConfig} {rec : Str → Option (List Inline)} {c : Char} {t : Str}

theorem notMem_special (h : c ∉ inlineSpecial) : c ≠ '<' ∧ c ≠ '[' ∧ c ≠ '\\' ∧ c ≠ '!' ∧
    c ≠ '`' ∧ c ≠ '*' ∧ c ≠ '_' ∧ c ≠ '~' ∧ c ≠ '&' := by
  refine ⟨?_, ?_, ?_, ?_, ?_, ?_, ?_, ?_, ?_⟩ <;> rintro rfl <;> exact h (by decide)

theorem PlainText.suffix {a b : Str} (h : PlainText (a ++ b)) : PlainText b :=
  ⟨fun c hc => h.1 c (by simp [hc]), fun ⟨p, q, nl, h1, h2⟩ => h.2 ⟨a ++ p, q, nl, h1, by
    rw [h2]; simp⟩⟩

theorem PlainText.tail {c : Char} {s : Str} (h : PlainText (c :: s)) : PlainText s :=
  PlainText.suffix (a := [c]) h

theorem environmentVariable_none {s u : Str} (hs : '_' ∉ s) (hu : QuietEnd u) :
    environmentVariable (s ++ u) = none := by
  cases e : environmentVariable (s ++ u) with
  | none => rfl
  | some y =>
    exfalso
    obtain ⟨r, i⟩ := y
    unfold environmentVariable at e
    obtain ⟨w, h1, _⟩ := mapP_some.1 e
    obtain ⟨h2, h3⟩ := verify_some.1 h1
    have happ := recognize_append h2
    have hall : ∀ d ∈ w, isAlnum d = true ∨ d = '_' := by
      refine Eats.recognize (f := fun d => isAlnum d = true ∨ d = '_') ?_ h2
      refine Eats.seq (Eats.takeWhile1 (fun c hc => .inl (isAlnum_of_isAlpha hc))) (Eats.many0 ?_)
      refine Eats.orElse (Eats.takeWhile1 (fun c hc => .inl hc)) ?_
      intro s r a h
      have := recognize_append h
      obtain ⟨b, hb, _⟩ := recognize_some.1 h
      obtain ⟨rfl, rfl⟩ := chr_some.1 hb
      refine ⟨['_'], rfl, ?_⟩
      intro d hd; simp at hd; exact .inr hd
    have hw : '_' ∈ w := by
      unfold isLikelyEnvVar at h3
      simp only [Bool.and_eq_true] at h3
      have := h3.1.1.1
      simpa using this
    -- w is longer than s
    rw [List.append_eq_append_iff] at happ
    rcases happ with ⟨a, h4, h5⟩ | ⟨a, h4, h5⟩
    · exact hs (by rw [h4]; simp [hw])
    · cases a with
      | nil => rw [List.append_nil] at h4; rw [h4] at hw; exact hs hw
      | cons d a =>
        have hd := hu d (by rw [h5]; rfl)
        have := hall d (by rw [h4]; simp)
        revert this
        have key : ∀ d ∈ cs!"<[\\!`*~&", ¬ (isAlnum d = true ∨ d = '_') := by decide
        exact key d hd

theorem hardNewline_plain {s u : Str} (hne : s ≠ []) (hs : PlainText s) (hu : QuietEnd u) :
    hardNewline (s ++ u) = none := by
  cases s with
  | nil => exact absurd rfl hne
  | cons c s =>
    obtain ⟨_, _, hbs, _⟩ := notMem_special (hs.1 c (by simp))
    cases e : hardNewline (c :: s ++ u) with
    | none => rfl
    | some y =>
      exfalso
      obtain ⟨r, i⟩ := y
      unfold hardNewline at e
      obtain ⟨_, e, _⟩ := value_some.1 e
      rcases orElse_some.1 e with e | ⟨_, e⟩
      · obtain ⟨_, e, _⟩ := value_some.1 e
        rw [List.cons_append, seq_none (chr_ne hbs)] at e
        simp at e
      · obtain ⟨v, e, _⟩ := value_some.1 e
        obtain ⟨r1, h1, h2⟩ := seq_some.1 e
        unfold manyMin at h1
        obtain ⟨h3, h4⟩ := verify_some.1 h1
        obtain ⟨n, h5, h6, _⟩ := many0_chr_some h3
        have hn : 2 ≤ n := by rw [h5] at h4; simpa using h4
        -- the spaces and the line ending are inside s
        have hnl : ∃ nl, IsNewline nl ∧ r1 = nl ++ r := by
          rcases lineEnding_some.1 h2 with ⟨h, _⟩ | ⟨h, _⟩
          · exact ⟨_, .inl rfl, h⟩
          · exact ⟨_, .inr rfl, h⟩
        obtain ⟨nl, hnl, rfl⟩ := hnl
        have key : ∀ (w : Str), (∀ d ∈ w, d ∉ cs!"<[\\!`*~&") → w <+: c :: s ++ u →
            w <+: c :: s := by
          intro w hw hp
          obtain ⟨q, hq⟩ := hp
          rcases List.append_eq_append_iff.1 hq with ⟨a, h7, h8⟩ | ⟨a, h7, h8⟩
          · exact ⟨a, h7.symm⟩
          · cases a with
            | nil => rw [List.append_nil] at h7; rw [h7]; exact List.prefix_rfl
            | cons d a => exact absurd (hu d (by rw [h8]; rfl)) (hw d (by rw [h7]; simp))
        have hpre : List.replicate n ' ' ++ nl <+: c :: s ++ u := ⟨r, by rw [h6]; simp⟩
        have hw : ∀ d ∈ List.replicate n ' ' ++ nl, d ∉ cs!"<[\\!`*~&" := by
          intro d hd
          rcases List.mem_append.1 hd with h | h
          · rw [(List.mem_replicate.1 h).2]; decide
          · rcases hnl with rfl | rfl
            · simp at h; subst h; decide
            · simp at h; rcases h with rfl | rfl <;> decide
        obtain ⟨q, hq⟩ := key _ hw hpre
        refine hs.2 ⟨List.replicate (n - 2) ' ', q, nl, hnl, ?_⟩
        rw [← hq]
        obtain ⟨n, rfl⟩ : ∃ j, n = j + 2 := ⟨n - 2, by omega⟩
        rw [Nat.add_sub_cancel, ← List.replicate_append_replicate]
        simp [List.replicate]

/-- Nothing but text starts inside plain text. -/
theorem notAText_plain {s u : Str} (hne : s ≠ []) (hs : PlainText s) (hu : QuietEnd u) :
    notAText x cfg rec (s ++ u) = none := by
  have h12 := environmentVariable_none (s := s) (u := u)
    (fun h => (notMem_special (hs.1 _ h)).2.2.2.2.2.2.1 rfl) hu
  have h13 := hardNewline_plain hne hs hu
  cases s with
  | nil => exact absurd rfl hne
  | cons c s =>
    obtain ⟨h1, h2, h3, h4, h5, h6, h7, h8, h9⟩ := notMem_special (hs.1 c (by simp))
    unfold notAText
    simp only [orElse_none, conditionalUnit_none, value_none]
    rw [List.cons_append] at h12 h13 ⊢
    exact ⟨.inr (autolinkP_head h1), .inr (referenceLink_head h2), .inr h13,
      .inr (htmlEntity_head h9), .inr (imageP_head h4), .inr (inlineLink_head h2),
      .inr (codeSpan_head h5), .inr (emphasisP_head h6 h7), .inr (footnoteReferenceP_head h2),
      .inr (strikethroughP_head h8), h12⟩

theorem plain_many0 {s u : Str} (hs : PlainText s) (hu : QuietEnd u)
    (hstop : preceded (notP (notAText x cfg rec)) anychar u = none) :
    many0 (preceded (notP (notAText x cfg rec)) anychar) (s ++ u) = some (u, s) := by
  induction s with
  | nil => exact many0_of_none hstop
  | cons c s ih =>
    exact many0_of_some (preceded_not_anychar (notAText_plain (s := c :: s) (by simp) hs hu))
      (by simp) (ih hs.tail)

theorem plain_piece {s u : Str} (hne : s ≠ []) (hs : PlainText s) (hu : QuietEnd u)
    (hstop : preceded (notP (notAText x cfg rec)) anychar u = none) :
    textPiece x cfg rec (s ++ u) = some (u, s) := by
  have hm := plain_many0 hs hu hstop
  unfold textPiece
  have h1 : mapP escapedChar (fun c => [c]) (s ++ u) = none := by
    cases s with
    | nil => exact absurd rfl hne
    | cons c s =>
      rw [mapP_none]; exact escapedChar_head (notMem_special (hs.1 c (by simp))).2.2.1
  have h2 : htmlEntity cfg (s ++ u) = none := by
    cases s with
    | nil => exact absurd rfl hne
    | cons c s => exact htmlEntity_head (notMem_special (hs.1 c (by simp))).2.2.2.2.2.2.2.2
  rw [orElse_of_none h1, orElse_of_none h2]
  exact recognize_of (many1_of_many0 hm hne)

theorem stop_of_notAText {u : Str} {y} (h : notAText x cfg rec u = some y) :
    preceded (notP (notAText x cfg rec)) anychar u = none :=
  preceded_none (by rw [notP_none]; exact ⟨_, h⟩)

theorem stop_nil : preceded (notP (notAText x cfg rec)) anychar [] = none := by
  cases e : preceded (notP (notAText x cfg rec)) anychar [] with
  | none => rfl
  | some y =>
    obtain ⟨_, _, h1, h2⟩ := preceded_some.1 e
    rw [(notP_some.1 h1).2] at h2
    simp [anychar, satisfy] at h2

theorem textPiece_nil : textPiece x cfg rec [] = none := by
  unfold textPiece
  rw [orElse_none, orElse_none]
  refine ⟨rfl, rfl, ?_⟩
  rw [recognize_none]; exact many1_none_of stop_nil

theorem quietEnd_nil : QuietEnd [] := by intro c h; simp at h

/-- Before the text alternative, nothing matches where a text piece starts. -/
theorem inlineStep_text (hci : cfg.customInline = none) (ht : cfg.text = .parse) {s r : Str}
    {l : List Str} (h : conditionalInline cfg.autolink (mapP autolinkP .autolink) s = none ∧
      conditionalInline cfg.link (inlineLink rec) s = none ∧
      conditionalInline cfg.footnoteReference footnoteReferenceP s = none ∧
      conditionalInline cfg.referenceLink (referenceLink rec) s = none ∧
      conditionalInline cfg.hardNewline hardNewline s = none ∧
      conditionalInline cfg.image imageP s = none ∧
      conditionalInline cfg.codeSpan (mapP codeSpan .code) s = none ∧
      environmentVariable s = none ∧
      conditionalInline cfg.emphasis (emphasisP x rec) s = none ∧
      conditionalInline cfg.strikethrough (strikethroughP rec) s = none)
    (hl : many1 (textPiece x cfg rec) s = some (r, l)) :
    inlineStep x cfg rec s = some (r, [.text l.flatten]) := by
  obtain ⟨h1, h2, h3, h4, h5, h6, h7, h8, h9, h10⟩ := h
  unfold inlineStep
  rw [orElse_of_none h1, orElse_of_none h2, orElse_of_none h3, orElse_of_none h4,
    orElse_of_none h5, orElse_of_none h6, orElse_of_none h7,
    orElse_of_none (mapP_none.2 h8), orElse_of_none h9, orElse_of_none h10, hci, ht]
  rw [show customParser (none : Option (P (List Inline))) = failP from rfl, orElse_of_none rfl]
  have : textP x cfg rec s = some (r, .text l.flatten) := mapP_some.2 ⟨l, hl, rfl⟩
  exact mapP_some.2 ⟨_, this, rfl⟩

/-- Nothing but text starts at a character that is not special, at an escape or at an entity. -/
theorem before_text {s : Str} (hne : s ≠ [])
    (hhead : ∀ c, s.head? = some c → c ∉ cs!"<[!`*_~") (hhn : hardNewline s = none)
    (hev : environmentVariable s = none) :
    conditionalInline cfg.autolink (mapP autolinkP .autolink) s = none ∧
      conditionalInline cfg.link (inlineLink rec) s = none ∧
      conditionalInline cfg.footnoteReference footnoteReferenceP s = none ∧
      conditionalInline cfg.referenceLink (referenceLink rec) s = none ∧
      conditionalInline cfg.hardNewline hardNewline s = none ∧
      conditionalInline cfg.image imageP s = none ∧
      conditionalInline cfg.codeSpan (mapP codeSpan .code) s = none ∧
      environmentVariable s = none ∧
      conditionalInline cfg.emphasis (emphasisP x rec) s = none ∧
      conditionalInline cfg.strikethrough (strikethroughP rec) s = none := by
  cases s with
  | nil => exact absurd rfl hne
  | cons c s =>
    have hc := hhead c rfl
    have h : c ≠ '<' ∧ c ≠ '[' ∧ c ≠ '!' ∧ c ≠ '`' ∧ c ≠ '*' ∧ c ≠ '_' ∧ c ≠ '~' := by
      refine ⟨?_, ?_, ?_, ?_, ?_, ?_, ?_⟩ <;> rintro rfl <;> exact hc (by decide)
    obtain ⟨h1, h2, h4, h5, h6, h7, h8⟩ := h
    unfold conditionalInline
    simp only [conditional_none, mapP_none]
    exact ⟨.inr (autolinkP_head h1), .inr (inlineLink_head h2), .inr (footnoteReferenceP_head h2),
      .inr (referenceLink_head h2), .inr hhn, .inr (imageP_head h4), .inr (codeSpan_head h5), hev,
      .inr (emphasisP_head h6 h7), .inr (strikethroughP_head h8)⟩

/-! ## Paragraphs -/

/-- What ends a paragraph: the end of the input, or a line ending followed by a blank line or the
end of the input; `rest` is what remains after the paragraph's last line ending. -/
def ParaEnd (u rest : Str) : Prop :=
  (u = [] ∧ rest = []) ∨
  ∃ nl, IsNewline nl ∧ u = nl ++ rest ∧ (rest = [] ∨ ∃ nl' r, IsNewline nl' ∧ rest = nl' ++ r)

/-- A line that can only be the line of a paragraph, by its first character. -/
def ParaLine (l : Str) : Prop := OneLine l ∧ ∃ c t, l = c :: t ∧ c ∉ blockStart

theorem ParaLine.ne {l : Str} (h : ParaLine l) : l ≠ [] := by
  obtain ⟨_, c, t, rfl, _⟩ := h; simp

theorem ParaEnd.lineEnd {u rest : Str} (h : ParaEnd u rest) :
    ∃ e, LineEnd e rest ∧ u = e ++ rest := by
  rcases h with ⟨rfl, rfl⟩ | ⟨nl, h, rfl, _⟩
  · exact ⟨[], .inr ⟨rfl, rfl⟩, rfl⟩
  · exact ⟨nl, .inl h, rfl⟩

theorem paragraphLine_of {l e rest : Str} (hl : ParaLine l) (he : LineEnd e rest) :
    paragraphLine (l ++ (e ++ rest)) = some (e ++ rest, l) := by
  have h1 := notEofOrEol1_line hl.1 hl.ne he
  obtain ⟨_, c, t, rfl, hc⟩ := hl
  unfold paragraphLine
  rw [List.cons_append, preceded_indent (notMem_blockStart hc).1.1]
  exact h1

theorem blank_notAParagraphLine {rec : P (List Block)} {rest : Str}
    (h : rest = [] ∨ ∃ nl' r, IsNewline nl' ∧ rest = nl' ++ r) :
    ∃ y, notAParagraphLine x cfg rec rest = some y := by
  cases e : notAParagraphLine x cfg rec rest with
  | some y => exact ⟨y, rfl⟩
  | none =>
    exfalso
    unfold notAParagraphLine at e
    simp only [orElse_none, value_none] at e
    have := e.2.2.2.2.2.2.2.2.2.2.2
    have h2 : ∃ y, lineTerminated space0 rest = some y := by
      rcases h with rfl | ⟨nl, r, rfl | rfl, rfl⟩
      · exact ⟨([], []), rfl⟩
      · exact ⟨(r, []), terminated_some.2 ⟨'\n' :: r, ['\n'], rfl, rfl⟩⟩
      · exact ⟨(r, []), terminated_some.2 ⟨'\r' :: '\n' :: r, ['\r', '\n'], rfl, rfl⟩⟩
    obtain ⟨y, h2⟩ := h2
    rw [h2] at this; simp at this

theorem paragraphSep_of (hcb : cfg.customBlock = none) {rec : P (List Block)} {ls : List Str}
    {u rest : Str} (hls : ∀ l ∈ ls, ParaLine l) (hu : ParaEnd u rest) :
    sepLoop lineEnding (preceded (notP (notAParagraphLine x cfg rec)) paragraphLine)
      ((ls.map ('\n' :: ·)).flatten ++ u) = some (u, ls) := by
  induction ls with
  | nil =>
    rw [sepLoop_eq]
    rcases hu with ⟨rfl, rfl⟩ | ⟨nl, h, rfl, h2⟩
    · rfl
    · have hl : lineEnding (nl ++ rest) = some (rest, nl) := by rcases h with rfl | rfl <;> rfl
      obtain ⟨y, hy⟩ := blank_notAParagraphLine (x := x) (cfg := cfg) (rec := rec) h2
      have hp : preceded (notP (notAParagraphLine x cfg rec)) paragraphLine rest = none :=
        preceded_none (by rw [notP_none]; exact ⟨_, hy⟩)
      rw [show (([] : List Str).map ('\n' :: ·)).flatten ++ (nl ++ rest) = nl ++ rest from rfl]
      rw [hl]
      simp only [hp]
  | cons l ls ih =>
    have ih := ih (fun l' h' => hls l' (by simp [h']))
    have hl := hls l (by simp)
    obtain ⟨e, rest', he, hee⟩ : ∃ e rest', LineEnd e rest' ∧
        (ls.map ('\n' :: ·)).flatten ++ u = e ++ rest' := by
      cases ls with
      | nil => obtain ⟨e, h1, h2⟩ := hu.lineEnd; exact ⟨e, rest, h1, by simpa using h2⟩
      | cons l' ls' => exact ⟨['\n'], l' ++ ((ls'.map ('\n' :: ·)).flatten ++ u), .inl (.inl rfl), by simp⟩
    have hp : preceded (notP (notAParagraphLine x cfg rec)) paragraphLine
        (l ++ ((ls.map ('\n' :: ·)).flatten ++ u)) = some ((ls.map ('\n' :: ·)).flatten ++ u, l) := by
      rw [hee]
      refine preceded_some.2 ⟨l ++ (e ++ rest'), (), notP_some.2 ⟨?_, rfl⟩, paragraphLine_of hl he⟩
      obtain ⟨_, c, t, rfl, hc⟩ := hl
      exact notAParagraphLine_head hcb hc
    rw [sepLoop_eq]
    have hs : ((l :: ls).map ('\n' :: ·)).flatten ++ u =
        '\n' :: (l ++ ((ls.map ('\n' :: ·)).flatten ++ u)) := by simp
    rw [hs]
    have hle : lineEnding ('\n' :: (l ++ ((ls.map ('\n' :: ·)).flatten ++ u))) =
        some (l ++ ((ls.map ('\n' :: ·)).flatten ++ u), ['\n']) := rfl
    rw [hle]
    simp only [hp]
    have hlt : ((ls.map ('\n' :: ·)).flatten ++ u).length <
        ('\n' :: (l ++ ((ls.map ('\n' :: ·)).flatten ++ u))).length := by
      simp only [List.length_cons, List.length_append]; omega
    simp only [hlt, if_true, ih]

theorem joinWith_cons_flatten (l : Str) (ls : List Str) :
    joinWith ['\n'] (l :: ls) = l ++ (ls.map ('\n' :: ·)).flatten := by
  induction ls generalizing l with
  | nil => simp [joinWith]
  | cons a ls ih => rw [joinWith, ih a]; simp

/-- Paragraph lines followed by the end of a paragraph are a paragraph. -/
theorem paragraph_block (hc : cfg.CustomOk) (hcb : cfg.customBlock = none)
    (hh : cfg.headingV2 = .parse) {ls : List Str} {u rest : Str} {is : List Inline}
    (hne : ls ≠ []) (hls : ∀ l ∈ ls, ParaLine l) (hu : ParaEnd u rest)
    (hi : parseInlines1 x cfg (joinWith ['\n'] ls) = some is) :
    blockP x cfg (joinWith ['\n'] ls ++ u) = some (rest, [.paragraph is]) := by
  obtain ⟨l, ls, rfl⟩ := List.exists_cons_of_ne_nil hne
  have hl := hls l (by simp)
  obtain ⟨e, rest', he, hee⟩ : ∃ e rest', LineEnd e rest' ∧
      (ls.map ('\n' :: ·)).flatten ++ u = e ++ rest' := by
    cases ls with
    | nil => obtain ⟨e, h1, h2⟩ := hu.lineEnd; exact ⟨e, rest, h1, by simpa using h2⟩
    | cons l' ls' => exact ⟨['\n'], l' ++ ((ls'.map ('\n' :: ·)).flatten ++ u), .inl (.inl rfl), by simp⟩
  have hsep := paragraphSep_of (x := x) (rec := blockP x cfg) (ls := ls) hcb
    (fun l' h' => hls l' (by simp [h'])) hu
  have hsrc : joinWith ['\n'] (l :: ls) ++ u = l ++ ((ls.map ('\n' :: ·)).flatten ++ u) := by
    rw [joinWith_cons_flatten]; simp
  have hp : preceded (notP (notAParagraphLine x cfg (blockP x cfg))) paragraphLine
      (l ++ ((ls.map ('\n' :: ·)).flatten ++ u)) = some ((ls.map ('\n' :: ·)).flatten ++ u, l) := by
    rw [hee]
    refine preceded_some.2 ⟨l ++ (e ++ rest'), (), notP_some.2 ⟨?_, rfl⟩, paragraphLine_of hl he⟩
    obtain ⟨_, c, t, rfl, hc⟩ := hl
    exact notAParagraphLine_head hcb hc
  obtain ⟨ue, hue, hueq⟩ := hu.lineEnd
  have hpara : paragraphP x cfg (blockP x cfg) true (l ++ ((ls.map ('\n' :: ·)).flatten ++ u)) =
      some (rest, is) := by
    unfold paragraphP
    simp only [if_true]
    refine mapOpt_some.2 ⟨l :: ls, ?_, hi⟩
    unfold paragraphLines
    refine terminated_some.2 ⟨u, ue, ?_, by rw [hueq]; exact hue.eofOrEol⟩
    unfold separatedList0
    rw [hp]
    simp only [hsep]
  have hlev : headingV2Level rest = none := by
    rcases hu with ⟨_, rfl⟩ | ⟨nl, _, _, rfl | ⟨nl', r, rfl | rfl, rfl⟩⟩
    · rfl
    · rfl
    · exact headingV2Level_head (by decide) (by decide) (by decide)
    · exact headingV2Level_head (by decide) (by decide) (by decide)
  rw [hsrc]
  obtain ⟨hol, c, t, rfl, hc2⟩ := hl
  obtain ⟨⟨h1, h2, h3, h4, h5, h6, h7, h8, h9, h10, h11, h12, h13, h14, h15, h16⟩, h17⟩ :=
    notMem_blockStart hc2
  rw [List.cons_append] at hpara ⊢
  rw [blockP_alt hc (blankLine_head h1 h2 h4 h3).2]
  unfold blockAlt
  have hcode : codeBlockP (c :: (t ++ ((ls.map ('\n' :: ·)).flatten ++ u))) = none :=
    orElse_none.2 ⟨codeBlockIndented_head h1 h2, codeBlockFenced_head h1 h15 h16⟩
  rw [orElse_of_none (conditionalBlock_none hcode), orElse_of_none (conditionalBlock_none (headingV1_head h5))]
  refine orElse_of_some ?_
  rw [conditionalBlock_parse hh]
  have : headingV2OrParagraph x cfg (blockP x cfg)
      (c :: (t ++ ((ls.map ('\n' :: ·)).flatten ++ u))) = some (rest, .paragraph is) := by
    unfold headingV2OrParagraph
    refine mapP_some.2 ⟨(is, none), seq_some.2 ⟨rest, hpara, ?_⟩, rfl⟩
    exact opt_some.2 (.inr ⟨hlev, rfl, rfl⟩)
  rw [this]; rfl

/-- A document of one line that can only be a paragraph. -/
theorem parse_line (hc : cfg.CustomOk) (hcb : cfg.customBlock = none)
    (hh : cfg.headingV2 = .parse) {l : Str} {is : List Inline} (hl : ParaLine l)
    (hi : parseInlines1 x cfg l = some is) : parseMarkdown x cfg l = some ⟨[.paragraph is]⟩ := by
  have := paragraph_block (x := x) hc hcb hh (ls := [l]) (u := []) (rest := []) (by simp)
    (by simpa using hl) (.inl ⟨rfl, rfl⟩) hi
  exact parseMarkdown_one hc (by simpa [joinWith] using this)

end
end Verif
