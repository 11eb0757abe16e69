import Verif.InlineGrammar
/-!
# The parser reads unambiguous inline Markdown as specified (C43 code spans, C56)
-/
set_option linter.unusedVariables false
namespace Verif
open Nom

/-- The configurations in which every inline kind is parsed. -/
structure InlineParse (cfg : PConfig) : Prop where
  custom : cfg.customInline = none
  autolink : cfg.autolink = .parse
  link : cfg.link = .parse
  footnoteReference : cfg.footnoteReference = .parse
  referenceLink : cfg.referenceLink = .parse
  hardNewline : cfg.hardNewline = .parse
  image : cfg.image = .parse
  codeSpan : cfg.codeSpan = .parse
  emphasis : cfg.emphasis = .parse
  strikethrough : cfg.strikethrough = .parse
  text : cfg.text = .parse

theorem inlineParse_default (ent : Str → Option Str) : InlineParse (PConfig.default ent) :=
  ⟨rfl, rfl, rfl, rfl, rfl, rfl, rfl, rfl, rfl, rfl, rfl⟩

/-! ## Merging -/

theorem mergeAux_append (o s : Str) (l : List Inline) :
    mergeTextAux (some (o ++ s)) l = addText o (mergeTextAux (some s) l) := by
  induction l generalizing s with
  | nil => rfl
  | cons i l ih =>
    cases i with
    | text t =>
      show mergeTextAux (some (o ++ s ++ t)) l = addText o (mergeTextAux (some (s ++ t)) l)
      rw [List.append_assoc, ih]
    | _ => rfl

theorem merge_text {o : Str} {l : List Inline} : mergeText (.text o :: l) = addText o (mergeText l) := by
  show mergeTextAux (some o) l = addText o (mergeTextAux none l)
  cases l with
  | nil => rfl
  | cons i l =>
    cases i with
    | text t => exact mergeAux_append o t l
    | _ => rfl

theorem merge_cons {i : Inline} {l : List Inline} (h : NotTextFirst [i]) :
    mergeText (i :: l) = i :: mergeText l := by
  cases i with
  | text t => exact absurd rfl (h t [])
  | _ => rfl

theorem addText_addText (o t : Str) (l : List Inline) : addText o (addText t l) = addText (o ++ t) l := by
  cases l with
  | nil => rfl
  | cons i l => cases i <;> simp [addText]

theorem addText_ne (o : Str) (l : List Inline) : addText o l ≠ [] := by
  cases l with
  | nil => simp [addText]
  | cons i l => cases i <;> simp [addText]

theorem addText_notText {o : Str} {l : List Inline} : ¬ NotTextFirst (addText o l) := by
  intro h
  cases l with
  | nil => exact h o [] rfl
  | cons i l => cases i <;> exact h _ _ rfl

theorem addText_of {t : Str} {l : List Inline} (h : NotTextFirst l) : addText t l = .text t :: l := by
  cases l with
  | nil => rfl
  | cons i l =>
    cases i with
    | text s => exact absurd rfl (h s l)
    | _ => rfl

section
variable {x : PExt} {cfg : PConfig} {rec : Str → Option (List Inline)} {ent : Str → Option Str}

theorem Reads.ne {s : Str} {is : List Inline} (h : Reads x ent s is) : s ≠ [] ↔ is ≠ [] := by
  cases h with
  | nil => simp
  | run h1 _ _ _ _ => simp [h1, addText_ne]
  | identifier h1 _ _ =>
    simp [addText_ne]
    intro h; subst h; have := h1.under; simp at this
  | reference_char h1 _ =>
    obtain ⟨t, rfl⟩ := h1.head
    simp [addText_ne]
  | escape _ _ => simp [addText_ne]
  | code h1 _ _ _ _ => simp; intro h; omega
  | spaceBreak _ _ => simp
  | _ => simp

/-! ## One segment -/

theorem condInline_parse {b : Behavior Inline} {p : P Inline} {s r : Str} {i : Inline}
    (hb : b = .parse) (h : p s = some (r, i)) : conditionalInline b p s = some (r, [i]) := by
  subst hb; exact mapP_some.2 ⟨i, h, rfl⟩

theorem condInline_none {b : Behavior Inline} {p : P Inline} {s : Str} (h : p s = none) :
    conditionalInline b p s = none := conditional_none.2 (.inr h)

theorem notAText_cases (hp : InlineParse cfg) {s : Str} (h : notAText x cfg rec s = none) :
    autolinkP s = none ∧ referenceLink rec s = none ∧ Verif.hardNewline s = none ∧ imageP s = none ∧
    inlineLink rec s = none ∧ Verif.codeSpan s = none ∧ emphasisP x rec s = none ∧
    footnoteReferenceP s = none ∧ strikethroughP rec s = none := by
  unfold notAText at h
  simp only [orElse_none, conditionalUnit_none, hp.autolink, hp.link, hp.footnoteReference,
    hp.referenceLink, hp.hardNewline, hp.image, hp.codeSpan, hp.emphasis, hp.strikethrough, hp.text,
    reduceCtorEq, false_or] at h
  obtain ⟨h1, h2, h3, _, h4, h5, h6, h7, h8, h9, _⟩ := h
  exact ⟨h1, h2, h3, h4, h5, h6, h7, h8, h9⟩

/-- What every segment other than text has to show. -/
def Segment (x : PExt) (cfg : PConfig) (s u : Str) (i : Inline) : Prop :=
  inlineP x cfg s = some (u, [i]) ∧ (∃ y, notAText x cfg (parseInlines1 x cfg) s = some y) ∧
    escapedChar s = none ∧ htmlEntity cfg s = none

theorem segment_notAText (hp : InlineParse cfg) {s : Str}
    (h : ¬ (autolinkP s = none ∧ referenceLink rec s = none ∧ Verif.hardNewline s = none ∧
      imageP s = none ∧ inlineLink rec s = none ∧ Verif.codeSpan s = none ∧ emphasisP x rec s = none ∧
      footnoteReferenceP s = none ∧ strikethroughP rec s = none)) :
    ∃ y, notAText x cfg rec s = some y := by
  cases e : notAText x cfg rec s with
  | some y => exact ⟨y, rfl⟩
  | none => exact absurd (notAText_cases hp e) h

theorem heads {c : Char} {s : Str} (h1 : c ≠ '\\' := by decide) (h2 : c ≠ '&' := by decide) :
    escapedChar (c :: s) = none ∧ htmlEntity cfg (c :: s) = none :=
  ⟨escapedChar_head h1, htmlEntity_head h2⟩

/-! ### Code spans -/

theorem codeNewlines_spaced {c : Str} (h : '\r' ∉ c) : codeNewlines c = spacedLines c := by
  induction c with
  | nil => rfl
  | cons d c ih =>
    have ih := ih (fun hm => h (by simp [hm]))
    have hd : d ≠ '\r' := by rintro rfl; exact h (by simp)
    by_cases hn : d = '\n'
    · subst hn
      show ' ' :: codeNewlines c = _
      rw [ih]; rfl
    · have : codeNewlines (d :: c) = d :: codeNewlines c := by
        rw [codeNewlines]
        · intro r h; exact absurd h hd
        · exact hn
      rw [this, ih]
      simp [spacedLines, hn]

theorem trim_eq_nil {s : Str} : trim s = [] ↔ ∀ c ∈ s, isWs c = true := by
  constructor
  · intro h c hc
    unfold trim trimEnd trimStart at h
    rw [List.reverse_eq_nil_iff, dropWhile_nil_iff] at h
    have h2 : (s.dropWhile isWs) = [] := by
      cases e : s.dropWhile isWs with
      | nil => rfl
      | cons d r =>
        exfalso
        have hd : isWs d = false := by
          have := List.head_dropWhile_not isWs (l := s) (by rw [e]; simp)
          simpa [e] using this
        have := h d (by rw [e]; simp)
        rw [hd] at this; simp at this
    exact dropWhile_nil_iff.1 h2 c hc
  · intro h
    unfold trim trimEnd trimStart
    rw [dropWhile_nil_iff.2 h]; rfl

theorem codeStrip_text {c out : Str} (h : CodeText c out) : codeStrip (spacedLines c) = out := by
  unfold codeStrip
  cases h with
  | padded h1 h2 =>
    rw [h1]
    have ht : trim (' ' :: (out ++ [' '])) ≠ [] := by
      intro h
      obtain ⟨d, hd, hw⟩ := h2
      have := trim_eq_nil.1 h d (by simp [hd])
      rw [hw] at this; simp at this
    rw [if_pos ⟨rfl, by rw [List.getLast?_cons]; simp, ht⟩]
    simp
  | bare h1 =>
    rw [if_neg]
    rintro ⟨h2, h3, h4⟩
    apply h4
    rw [trim_eq_nil]
    generalize hs : spacedLines c = s at *
    cases s with
    | nil => simp at h2
    | cons a s =>
      simp at h2
      subst h2
      intro d hd
      rcases List.eq_nil_or_concat s with rfl | ⟨m, b, rfl⟩
      · simp at hd; rw [hd]; decide
      · have hb : b = ' ' := by
          simp [List.getLast?_cons] at h3; exact h3
        subst hb
        simp at hd
        rcases hd with rfl | hd | rfl
        · decide
        · exact h1 m (by simp) d hd
        · decide

theorem prefix_of_append {w b v : Str} {c : Char} (hw : c ∉ w) (h : w <+: b ++ c :: v) : w <+: b := by
  obtain ⟨q, hq⟩ := h
  rcases List.append_eq_append_iff.1 hq with ⟨a, h1, h2⟩ | ⟨a, h1, h2⟩
  · exact ⟨a, h1.symm⟩
  · cases a with
    | nil => rw [List.append_nil] at h1; rw [h1]; exact List.prefix_rfl
    | cons d a =>
      simp at h2
      exact absurd (by rw [h1, h2.1]; simp) hw

theorem blankLine_none {b v : Str} {c d : Str} (hb : d ++ b = c) (hne : b ≠ []) (hcr : '\r' ∉ c)
    (hbl : ¬ HasBlankLine c) : seq lineEnding (seq space0 lineEnding) (b ++ '`' :: v) = none := by
  cases e : seq lineEnding (seq space0 lineEnding) (b ++ '`' :: v) with
  | none => rfl
  | some y =>
    exfalso
    obtain ⟨r, e1, sp, e2⟩ := y
    obtain ⟨s1, h1, h2⟩ := seq_some.1 e
    obtain ⟨s2, h3, h4⟩ := seq_some.1 h2
    obtain ⟨a, b, rfl⟩ := List.exists_cons_of_ne_nil hne
    have ha : a ≠ '\r' := by rintro rfl; exact hcr (by rw [← hb]; simp)
    have h5 : a = '\n' ∧ s1 = b ++ '`' :: v := by
      rcases lineEnding_some.1 h1 with ⟨h, _⟩ | ⟨h, _⟩
      · simp at h; exact ⟨h.1, h.2.symm⟩
      · simp at h; exact absurd h.1 ha
    obtain ⟨rfl, rfl⟩ := h5
    have h6 : s2 = (b ++ '`' :: v).dropWhile isSpace ∧ sp = (b ++ '`' :: v).takeWhile isSpace := by
      simp [space0, Nom.takeWhile] at h3; exact ⟨h3.1.symm, h3.2.symm⟩
    have h7 : sp ++ s2 = b ++ '`' :: v := by rw [h6.1, h6.2]; exact List.takeWhile_append_dropWhile
    have hsp : ∀ c ∈ sp, isSpace c = true := by
      intro c hc; rw [h6.2] at hc; exact takeWhile_all c hc
    have h8 : ∃ nl, IsNewline nl ∧ s2 = nl ++ r := by
      rcases lineEnding_some.1 h4 with ⟨h, _⟩ | ⟨h, _⟩
      · exact ⟨_, .inl rfl, h⟩
      · exact ⟨_, .inr rfl, h⟩
    obtain ⟨nl, hnl, rfl⟩ := h8
    have hpre : sp ++ nl <+: b := by
      refine prefix_of_append (c := '`') (v := v) ?_ ⟨r, by rw [← h7]; simp⟩
      intro hm
      rcases List.mem_append.1 hm with h | h
      · exact absurd (hsp _ h) (by decide)
      · rcases hnl with rfl | rfl <;> revert h <;> decide
    obtain ⟨q, hq⟩ := hpre
    exact hbl ⟨d, ['\n'], sp, nl, q, .inl rfl, hnl, hsp, by rw [← hb, ← hq]; simp⟩

theorem codeSpan_of {n : Nat} {c out u : Str} (hn : 0 < n) (hc : CodeContent n c)
    (ho : CodeText c out) (hu : u.head? ≠ some '`') :
    Verif.codeSpan (List.replicate n '`' ++ (c ++ (List.replicate n '`' ++ u))) = some (u, out) := by
  have hrep : List.replicate n '`' ≠ [] := by simp; omega
  have hhead : (c ++ (List.replicate n '`' ++ u)).head? ≠ some '`' := by
    obtain ⟨a, c', rfl⟩ := List.exists_cons_of_ne_nil hc.nonempty
    have := hc.start
    simpa using this
  have h1 : recognize (many1 (chr '`')) (List.replicate n '`' ++ (c ++ (List.replicate n '`' ++ u))) =
      some (c ++ (List.replicate n '`' ++ u), List.replicate n '`') :=
    recognize_of (many1_of_many0 (many0_chr n hhead) hrep)
  unfold Verif.codeSpan
  rw [h1]
  simp only
  refine mapP_some.2 ⟨c, terminated_some.2 ⟨List.replicate n '`' ++ u, List.replicate n '`', ?_,
    tag_append _ _⟩, ?_⟩
  · refine recognize_of (many1_of_many0 (until_of ?_ (.inr ?_)) hc.nonempty)
    · intro a b hab hb
      unfold codeSpanStop
      rw [orElse_none, value_none, value_none]
      constructor
      · cases e : preceded (notP (seq (tag (List.replicate n '`')) (chr '`'))) (tag (List.replicate n '`'))
          (b ++ (List.replicate n '`' ++ u)) with
        | none => rfl
        | some y =>
          exfalso
          obtain ⟨r, v⟩ := y
          obtain ⟨s1, _, h2, h3⟩ := preceded_some.1 e
          obtain ⟨_, rfl⟩ := notP_some.1 h2
          obtain ⟨h4, _⟩ := tag_some.1 h3
          have hp : List.replicate n '`' <+: b ++ (List.replicate n '`' ++ u) := ⟨r, h4.symm⟩
          by_cases hl : n ≤ b.length
          · apply hc.noRun
            have : List.replicate n '`' <+: b :=
              List.prefix_of_prefix_length_le hp (List.prefix_append _ _) (by simpa using hl)
            rw [hab]
            exact this.isInfix.trans (List.suffix_append _ _).isInfix
          · apply hc.finish
            have : b <+: List.replicate n '`' :=
              List.prefix_of_prefix_length_le (List.prefix_append _ _) hp (by simp; omega)
            have hall : ∀ d ∈ b, d = '`' := fun d hd => (List.mem_replicate.1 (this.subset hd)).2
            rw [hab, List.getLast?_append, List.getLast?_eq_some_getLast hb,
              hall _ (List.getLast_mem hb)]
            rfl
      · obtain ⟨m, rfl⟩ : ∃ m, n = m + 1 := ⟨n - 1, by omega⟩
        exact blankLine_none hab.symm hb hc.noCr hc.noBlank
    · refine ⟨(u, ()), orElse_of_some (value_some.2 ⟨_, preceded_some.2 ⟨_, (), notP_some.2 ⟨?_, rfl⟩,
        tag_append _ _⟩, rfl⟩)⟩
      unfold seq
      rw [tag_append]
      simp only
      cases u with
      | nil => rfl
      | cons d u => rw [chr_ne (by simpa using hu)]
  · rw [codeNewlines_spaced hc.noCr, codeStrip_text ho]

theorem Segment.code (hp : InlineParse cfg) {n : Nat} {c out u : Str} (hn : 0 < n)
    (hc : CodeContent n c) (ho : CodeText c out) (hu : u.head? ≠ some '`') :
    Segment x cfg (List.replicate n '`' ++ (c ++ (List.replicate n '`' ++ u))) u (.code out) := by
  have h := codeSpan_of hn hc ho hu
  obtain ⟨m, rfl⟩ : ∃ m, n = m + 1 := ⟨n - 1, by omega⟩
  rw [List.replicate_succ, List.cons_append] at h ⊢
  refine ⟨?_, segment_notAText hp (by rw [h]; simp), heads⟩
  unfold inlineP inlineStep
  rw [orElse_of_none (condInline_none (mapP_none.2 (autolinkP_head (by decide)))),
    orElse_of_none (condInline_none (inlineLink_head (by decide))),
    orElse_of_none (condInline_none (footnoteReferenceP_head (by decide))),
    orElse_of_none (condInline_none (referenceLink_head (by decide))),
    orElse_of_none (condInline_none (hardNewline_head (by decide) (by decide))),
    orElse_of_none (condInline_none (imageP_head (by decide)))]
  exact orElse_of_some (condInline_parse hp.codeSpan (mapP_some.2 ⟨out, h, rfl⟩))

/-! ### Autolinks and line breaks -/

theorem takeWhile_span' {f : Char → Bool} {a t : Str} (ha : ∀ d ∈ a, f d = true)
    (ht : ∀ c, t.head? = some c → f c = false) :
    (a ++ t).takeWhile f = a ∧ (a ++ t).dropWhile f = t := by
  cases t with
  | nil =>
    simp only [List.append_nil]
    constructor
    · clear ht
      induction a with
      | nil => rfl
      | cons d a ih => rw [List.takeWhile_cons, ha d (by simp), if_pos rfl, ih (fun e he => ha e (by simp [he]))]
    · rw [dropWhile_nil_iff]; exact ha
  | cons c t => exact takeWhile_span ha (ht c rfl)

theorem autolinkP_of {l u : Str} (h : AutolinkText l) :
    autolinkP ('<' :: (l ++ ('>' :: u))) = some (u, l) := by
  unfold autolinkP
  refine delimited_some.2 ⟨l ++ '>' :: u, '<', '>' :: u, '>', chr_cons _ _, ?_, chr_cons _ _⟩
  cases h with
  | @uri a sch r h1 h2 h3 h4 =>
    refine orElse_of_some ?_
    unfold Verif.uri
    refine mapP_some.2 ⟨(a :: sch, r), seq_some.2 ⟨r ++ '>' :: u, ?_, ?_⟩, by simp⟩
    · refine terminated_some.2 ⟨':' :: (r ++ '>' :: u), ':', ?_, chr_cons _ _⟩
      unfold scheme
      have : a :: sch ++ ':' :: r ++ '>' :: u = a :: sch ++ ':' :: (r ++ '>' :: u) := by simp
      rw [this]
      refine recognize_of (v := (a, sch)) (seq_some.2 ⟨sch ++ ':' :: (r ++ '>' :: u), satisfy_some.2 ⟨rfl, h1⟩, ?_⟩)
      exact takeWhile1_of h2 (fun d hd => by
        rcases h3 d hd with h | h | h | h <;> simp [isSchemeChar, h]) (by decide)
    · obtain ⟨k1, k2⟩ := takeWhile_span (f := fun c => !isAsciiControl c && !isAsciiWs c && c != '<' && c != '>')
        (a := r) (c := '>') (t := u) (by
          intro d hd
          obtain ⟨q1, q2, q3, q4⟩ := h4 d hd
          simp [q1, q2, q3, q4]) (by decide)
      show some (_, _) = _
      rw [k1, k2]
  | @email un dom h1 h2 h3 h4 =>
    have hno : ':' ∉ un ++ '@' :: dom ++ '>' :: [] := by
      intro hm
      simp at hm
      rcases hm with hm | hm
      · have := h3 _ hm; revert this; decide
      · have := h4 _ hm; revert this; decide
    rw [orElse_of_none]
    · unfold Verif.email
      refine recognize_of (v := (un, '@', dom)) ?_
      rw [List.append_assoc]
      refine seq_some.2 ⟨'@' :: (dom ++ '>' :: u), ?_, seq_some.2 ⟨dom ++ '>' :: u, chr_cons _ _, ?_⟩⟩
      · exact takeWhile1_of h1 (fun d hd => by
          rcases h3 d hd with h | h | h | h <;> simp [h]) (by decide)
      · exact takeWhile1_of h2 (fun d hd => by
          rcases h4 d hd with h | h | h <;> simp [h]) (by decide)
    · unfold Verif.uri
      rw [mapP_none]
      refine seq_none ?_
      cases e : terminated scheme (chr ':') (un ++ '@' :: dom ++ '>' :: u) with
      | none => rfl
      | some y =>
        exfalso
        obtain ⟨r, v⟩ := y
        obtain ⟨s1, c, e1, e2⟩ := terminated_some.1 e
        obtain ⟨rfl, rfl⟩ := chr_some.1 e2
        have happ := recognize_append e1
        obtain ⟨⟨a, b⟩, e3, _⟩ := recognize_some.1 e1
        obtain ⟨s2, e4, e5⟩ := seq_some.1 e3
        obtain ⟨e6, e7⟩ := satisfy_some.1 e4
        obtain ⟨e8, e9, _⟩ := takeWhile1_some.1 e5
        simp only at e6 e7 e8 e9
        -- the scheme is alphanumeric or `+.-`, so it ends before `>`
        have hs2 : s2 = b ++ ':' :: r := by
          rw [e9, e8]; exact (List.takeWhile_append_dropWhile).symm
        have hpre : a :: b <+: un ++ '@' :: dom := by
          refine prefix_of_append (c := '>') (v := u) ?_ ⟨':' :: r, by rw [e6, hs2]; simp⟩
          intro hm
          rcases List.mem_cons.1 hm with h | h
          · rw [← h] at e7; exact absurd e7 (by decide)
          · rw [e8] at h
            exact absurd (takeWhile_all _ h) (by decide)
        obtain ⟨q, hq⟩ := hpre
        have : (a :: b) ++ (':' :: r) = (a :: b) ++ (q ++ '>' :: u) := by
          rw [← List.append_assoc, hq, e6, hs2]; simp
        have := List.append_cancel_left this
        cases q with
        | nil => simp at this
        | cons d q =>
          simp at this
          apply hno
          rw [← hq, this.1]
          simp

theorem Segment.autolink (hp : InlineParse cfg) {l u : Str} (h : AutolinkText l) :
    Segment x cfg ('<' :: (l ++ ('>' :: u))) u (.autolink l) := by
  have h := autolinkP_of (u := u) h
  refine ⟨?_, segment_notAText hp (by rw [h]; simp), heads⟩
  unfold inlineP inlineStep
  exact orElse_of_some (condInline_parse hp.autolink (mapP_some.2 ⟨l, h, rfl⟩))

theorem Segment.lineBreak (hp : InlineParse cfg) {u : Str} :
    Segment x cfg ('\\' :: '\n' :: u) u .lineBreak := by
  have h : Verif.hardNewline ('\\' :: '\n' :: u) = some (u, .lineBreak) := rfl
  refine ⟨?_, segment_notAText hp (by rw [h]; simp),
    escapedChar_bs (by intro p hp; simp at hp; subst hp; decide), htmlEntity_head (by decide)⟩
  unfold inlineP inlineStep
  rw [orElse_of_none (condInline_none (mapP_none.2 (autolinkP_head (by decide)))),
    orElse_of_none (condInline_none (inlineLink_head (by decide))),
    orElse_of_none (condInline_none (footnoteReferenceP_head (by decide))),
    orElse_of_none (condInline_none (referenceLink_head (by decide)))]
  exact orElse_of_some (condInline_parse hp.hardNewline h)

theorem hardNewline_spaces {n : Nat} {u : Str} (hn : 2 ≤ n) :
    Verif.hardNewline (List.replicate n ' ' ++ '\n' :: u) = some (u, .lineBreak) := by
  unfold Verif.hardNewline
  refine value_some.2 ⟨(), ?_, rfl⟩
  rw [orElse_of_none]
  · refine value_some.2 ⟨(List.replicate n ' ', ['\n']), seq_some.2 ⟨'\n' :: u, ?_, rfl⟩, rfl⟩
    unfold manyMin
    exact verify_some.2 ⟨many0_chr n (by simp), by simpa using hn⟩
  · obtain ⟨m, rfl⟩ : ∃ m, n = m + 1 := ⟨n - 1, by omega⟩
    exact value_none.2 (seq_none (chr_ne (by decide)))

theorem Segment.spaceBreak (hp : InlineParse cfg) {n : Nat} {u : Str} (hn : 2 ≤ n) :
    Segment x cfg (List.replicate n ' ' ++ '\n' :: u) u .lineBreak := by
  have h := hardNewline_spaces (u := u) hn
  obtain ⟨m, rfl⟩ : ∃ m, n = m + 1 := ⟨n - 1, by omega⟩
  rw [List.replicate_succ, List.cons_append] at h ⊢
  refine ⟨?_, segment_notAText hp (by rw [h]; simp), heads⟩
  unfold inlineP inlineStep
  rw [orElse_of_none (condInline_none (mapP_none.2 (autolinkP_head (by decide)))),
    orElse_of_none (condInline_none (inlineLink_head (by decide))),
    orElse_of_none (condInline_none (footnoteReferenceP_head (by decide))),
    orElse_of_none (condInline_none (referenceLink_head (by decide)))]
  exact orElse_of_some (condInline_parse hp.hardNewline h)

/-! ### Emphasis -/

theorem content_many0 {close : P Unit} {e : Char} {s u : Str}
    (hclose : ∀ a b, s = a ++ b → b ≠ [] → close (b ++ u) = none) (hu : ∃ y, close u = some y)
    (hesc : ∀ a b, s = a ++ b → b ≠ [] → ¬ ['\\', e] <+: b ++ u) :
    ∃ l, many0 (preceded (notP close) (value () (tag ['\\', e]) <||> value () anychar)) (s ++ u) =
      some (u, l) ∧ (s ≠ [] → l ≠ []) := by
  induction s with
  | nil =>
    obtain ⟨y, hy⟩ := hu
    exact ⟨[], many0_of_none (preceded_none (notP_none.2 ⟨y, hy⟩)), by simp⟩
  | cons c s ih =>
    obtain ⟨l, h1, _⟩ := ih (fun a b h hb => hclose (c :: a) b (by rw [h]; rfl) hb)
      (fun a b h hb => hesc (c :: a) b (by rw [h]; rfl) hb)
    refine ⟨() :: l, many0_of_some (r := s ++ u) ?_ (by simp) h1, by simp⟩
    refine preceded_some.2 ⟨c :: s ++ u, (), notP_some.2 ⟨hclose [] (c :: s) rfl (by simp), rfl⟩, ?_⟩
    rw [orElse_of_none (value_none.2 (tag_none.2 (hesc [] (c :: s) rfl (by simp))))]
    rfl

theorem prefix_two {a b c : Char} {s : Str} : [a, b] <+: c :: s ↔ a = c ∧ s.head? = some b := by
  constructor
  · rintro ⟨q, hq⟩
    simp at hq
    exact ⟨hq.1, by rw [← hq.2]; rfl⟩
  · rintro ⟨rfl, h⟩
    cases s with
    | nil => simp at h
    | cons d s => simp at h; subst h; exact ⟨s, rfl⟩

/-- `\*` does not occur where the content meets the closing stars. -/
theorem noEscape_suffix {s u : Str} {e : Char} (h : ¬ ['\\', e] <:+: s ++ [e]) {a b : Str}
    (hab : s = a ++ b) (hb : b ≠ []) : ¬ ['\\', e] <+: b ++ e :: u := by
  intro hp
  apply h
  have : ['\\', e] <+: b ++ [e] := by
    have hl : ['\\', e].length ≤ (b ++ [e]).length := by
      have : 0 < b.length := List.length_pos_iff.2 hb
      simp; omega
    exact List.prefix_of_prefix_length_le hp ⟨u, by simp⟩ hl
  rw [hab, List.append_assoc]
  exact this.isInfix.trans (List.suffix_append _ _).isInfix

theorem infix_two_append {s : Str} {a e : Char} (h1 : e ∉ s) (h2 : s.getLast? ≠ some a) :
    ¬ [a, e] <:+: s ++ [e] := by
  rintro ⟨p, q, hpq⟩
  rcases List.eq_nil_or_concat q with rfl | ⟨q, d, rfl⟩
  · have : p ++ [a] ++ [e] = s ++ [e] := by simpa using hpq
    have := List.append_cancel_right this
    exact h2 (by rw [← this]; simp)
  · have : (p ++ [a, e] ++ q) ++ [d] = s ++ [e] := by simpa using hpq
    have := (List.append_inj' this rfl).1
    exact h1 (by rw [← this]; simp)

theorem EmphContent.noEsc {s : Str} (h : EmphContent s) : ¬ ['\\', '*'] <:+: s ++ ['*'] :=
  infix_two_append h.noStar h.noEscape

theorem openTag_of {t s : Str} {c : Char} (ht : t.headD '*' = '*') (h : isWs c = false) :
    openTag x t (t ++ c :: s) = some (c :: s, ()) := by
  unfold openTag
  rw [tag_append]
  simp only [ht]
  have : (t ++ c :: s)[t.length]? = some c := by simp
  rw [this]
  have : canOpen x '*' (some c) = true := by
    unfold canOpen
    have e : ('*' == '_') = false := by decide
    simp [h, e]
  rw [this]; rfl

theorem closeTag_of {t u : Str} (h : EmphEnd x u) : closeTag x t (t ++ u) = some (u, ()) := by
  unfold closeTag
  rw [tag_append]
  simp only
  have : (t ++ u)[t.length]? = u.head? := by
    cases u <;> simp
  rw [this]
  have : canClose x (t.headD '*') u.head? = true := by
    generalize t.headD '*' = m
    unfold canClose
    cases u with
    | nil => simp
    | cons c u =>
      have := h c rfl
      unfold Separates at this
      have e : isPunctuation x c = (isAsciiPunct c || x.uniPunct c) := rfl
      rcases this with h | h | h
      · cases hq : isPunctuation x c <;> simp [h, hq]
      · simp [h, e]
      · simp [h, e]
  rw [this]; rfl

theorem openTag_under {t s : Str} {c : Char} (ht : t.headD '*' = '_') (h : ¬ Separates x c) :
    openTag x t (t ++ c :: s) = some (c :: s, ()) := by
  unfold openTag
  rw [tag_append]
  simp only [ht]
  have : (t ++ c :: s)[t.length]? = some c := by simp
  rw [this]
  have : canOpen x '_' (some c) = true := by
    unfold canOpen
    unfold Separates at h
    simp only [not_or, Bool.not_eq_true] at h
    simp [isPunctuation, h]
  rw [this]; rfl

theorem openTag_none {t s : Str} (h : ¬ t <+: s) : openTag x t s = none := by
  unfold openTag; rw [tag_none.2 h]

theorem closeTag_none {t s : Str} (h : ¬ t <+: s) : closeTag x t s = none := by
  unfold closeTag; rw [tag_none.2 h]

theorem emphasisDelimited_none {t s : Str} (h : ¬ t <+: s) : emphasisDelimited x rec t s = none :=
  delimited_none (openTag_none h)

theorem emphasisDelimited_of {t s u : Str} {c : Char} {inner : List Inline}
    (ho : openTag x t (t ++ (c :: (s ++ (t ++ u)))) = some (c :: (s ++ (t ++ u)), ())) (hclose : ∀ a b, c :: s = a ++ b → b ≠ [] → ¬ t <+: b ++ (t ++ u))
    (hesc : ∀ a b, c :: s = a ++ b → b ≠ [] → ¬ ['\\', '*'] <+: b ++ (t ++ u))
    (hu : EmphEnd x u) (hrec : rec (c :: s) = some inner) :
    emphasisDelimited x rec t (t ++ (c :: s ++ (t ++ u))) = some (u, inner) := by
  unfold emphasisDelimited
  refine delimited_some.2 ⟨c :: s ++ (t ++ u), (), t ++ u, (), ho, ?_, closeTag_of hu⟩
  unfold emphasisContent
  obtain ⟨l, h1, h2⟩ := content_many0 (close := closeTag x t) (e := '*')
    (fun a b h hb => closeTag_none (hclose a b h hb)) ⟨_, closeTag_of hu⟩ hesc
  exact mapOpt_some.2 ⟨c :: s, recognize_of (many1_of_many0 h1 (h2 (by simp))), hrec⟩

theorem Segment.stars (hp : InlineParse cfg) {s u : Str} {i : Inline}
    (h : emphasisP x (parseInlines1 x cfg) ('*' :: s) = some (u, i)) :
    Segment x cfg ('*' :: s) u i := by
  refine ⟨?_, segment_notAText hp (by rw [h]; simp), heads⟩
  unfold inlineP inlineStep
  rw [orElse_of_none (condInline_none (mapP_none.2 (autolinkP_head (by decide)))),
    orElse_of_none (condInline_none (inlineLink_head (by decide))),
    orElse_of_none (condInline_none (footnoteReferenceP_head (by decide))),
    orElse_of_none (condInline_none (referenceLink_head (by decide))),
    orElse_of_none (condInline_none (hardNewline_head (by decide) (by decide))),
    orElse_of_none (condInline_none (imageP_head (by decide))),
    orElse_of_none (condInline_none (mapP_none.2 (codeSpan_head (by decide)))),
    orElse_of_none (mapP_none.2 (environmentVariable_head (by decide)))]
  exact orElse_of_some (condInline_parse hp.emphasis h)

theorem not_prefix_ne {a b : Char} {s t : Str} (h : a ≠ b) : ¬ a :: s <+: b :: t := by
  rintro ⟨q, hq⟩; simp at hq; exact h hq.1

theorem Segment.emphasis (hp : InlineParse cfg) {s u : Str} {inner : List Inline} (hne : s ≠ [])
    (hs : EmphContent s) (hu : EmphEnd x u) (hrec : parseInlines1 x cfg s = some inner) :
    Segment x cfg ('*' :: (s ++ ('*' :: u))) u (.emphasis inner) := by
  refine Segment.stars hp ?_
  obtain ⟨c, s, rfl⟩ := List.exists_cons_of_ne_nil hne
  have hcs : c ≠ '*' := by rintro rfl; exact hs.noStar (by simp)
  unfold emphasisP
  have n2 : ∀ t, ¬ '*' :: '*' :: t <+: '*' :: (c :: s ++ '*' :: u) := by
    rintro t ⟨q, hq⟩
    simp at hq
    exact hcs hq.1.symm
  rw [orElse_of_none (mapP_none.2 (orElse_none.2
      ⟨emphasisDelimited_none (n2 _), emphasisDelimited_none (not_prefix_ne (by decide))⟩)),
    orElse_of_none (mapP_none.2 (orElse_none.2
      ⟨emphasisDelimited_none (n2 _), emphasisDelimited_none (not_prefix_ne (by decide))⟩))]
  refine mapP_some.2 ⟨inner, orElse_of_some ?_, rfl⟩
  refine emphasisDelimited_of (t := ['*']) (openTag_of rfl (hs.start c rfl)) ?_ ?_ hu hrec
  · intro a b hab hb hpre
    obtain ⟨d, b, rfl⟩ := List.exists_cons_of_ne_nil hb
    obtain ⟨q, hq⟩ := hpre
    simp at hq
    exact hs.noStar (by rw [hab, ← hq.1]; simp)
  · intro a b hab hb
    exact noEscape_suffix hs.noEsc hab hb

theorem Segment.strong (hp : InlineParse cfg) {s u : Str} {inner : List Inline} (hne : s ≠ [])
    (hs : StrongContent s) (hu : EmphEnd x u) (hrec : parseInlines1 x cfg s = some inner) :
    Segment x cfg (cs!"**" ++ (s ++ (cs!"**" ++ u))) u (.strong inner) := by
  refine Segment.stars hp ?_
  obtain ⟨c, s, rfl⟩ := List.exists_cons_of_ne_nil hne
  have hcs := (hs.start c rfl).2
  unfold emphasisP
  have n2 : ∀ t, ¬ '*' :: '*' :: '*' :: t <+: '*' :: ['*'].append (c :: s ++ (cs!"**" ++ u)) := by
    rintro t ⟨q, hq⟩
    simp at hq
    exact hcs hq.1.symm
  rw [orElse_of_none (mapP_none.2 (orElse_none.2
      ⟨emphasisDelimited_none (n2 _), emphasisDelimited_none (not_prefix_ne (by decide))⟩))]
  refine orElse_of_some (mapP_some.2 ⟨inner, orElse_of_some ?_, rfl⟩)
  refine emphasisDelimited_of (t := cs!"**") (openTag_of rfl (hs.start c rfl).1) ?_ ?_ hu hrec
  · intro a b hab hb hpre
    obtain ⟨d, b, rfl⟩ := List.exists_cons_of_ne_nil hb
    obtain ⟨rfl, h2⟩ := prefix_two.1 hpre
    cases b with
    | nil => exact hs.finish (by rw [hab]; simp)
    | cons d b =>
      simp at h2
      subst h2
      exact hs.noStars ⟨a, b, by rw [hab]; simp⟩
  · intro a b hab hb
    exact noEscape_suffix (u := '*' :: u) hs.noEscape hab hb

/-- A run of `n` delimiters is found first behind a content that has no such run. -/
theorem run_absent {n : Nat} {e : Char} {s u : Str} (hn : ¬ List.replicate n e <:+: s)
    (hf : s.getLast? ≠ some e) {a b : Str} (hab : s = a ++ b) (hb : b ≠ []) :
    ¬ List.replicate n e <+: b ++ (List.replicate n e ++ u) := by
  intro hp
  by_cases hl : n ≤ b.length
  · apply hn
    have : List.replicate n e <+: b :=
      List.prefix_of_prefix_length_le hp (List.prefix_append _ _) (by simpa using hl)
    rw [hab]
    exact this.isInfix.trans (List.suffix_append _ _).isInfix
  · apply hf
    have : b <+: List.replicate n e :=
      List.prefix_of_prefix_length_le (List.prefix_append _ _) hp (by simp; omega)
    have hall : ∀ d ∈ b, d = e := fun d hd => (List.mem_replicate.1 (this.subset hd)).2
    rw [hab, List.getLast?_append, List.getLast?_eq_some_getLast hb, hall _ (List.getLast_mem hb)]
    rfl

theorem Segment.both (hp : InlineParse cfg) {s u : Str} {inner : List Inline} (hne : s ≠ [])
    (hs : StarsContent 3 s) (hu : EmphEnd x u) (hrec : parseInlines1 x cfg s = some inner) :
    Segment x cfg (cs!"***" ++ (s ++ (cs!"***" ++ u))) u (.strong [.emphasis inner]) := by
  refine Segment.stars hp ?_
  obtain ⟨c, s, rfl⟩ := List.exists_cons_of_ne_nil hne
  unfold emphasisP
  refine orElse_of_some (mapP_some.2 ⟨inner, orElse_of_some ?_, rfl⟩)
  refine emphasisDelimited_of (t := cs!"***") (openTag_of rfl (hs.start c rfl).1) ?_ ?_ hu hrec
  · intro a b hab hb
    exact run_absent (n := 3) hs.noStars hs.finish hab hb
  · intro a b hab hb
    exact noEscape_suffix (u := cs!"**" ++ u) hs.noEscape hab hb

/-- The content of an emphasis whose delimiter does not begin with a star. -/
theorem content_many0' {close : P Unit} {u : Str} (n : Nat) : ∀ {s : Str}, s.length ≤ n →
    (∀ a b, s = a ++ b → b ≠ [] → close (b ++ u) = none) → (∃ y, close u = some y) →
    u.head? ≠ some '*' →
    ∃ l, many0 (preceded (notP close) (value () (tag cs!"\\*") <||> value () anychar)) (s ++ u) =
      some (u, l) ∧ (s ≠ [] → l ≠ []) := by
  induction n with
  | zero =>
    intro s hl _ hu _
    obtain ⟨y, hy⟩ := hu
    have : s = [] := List.length_eq_zero_iff.1 (by omega)
    subst this
    exact ⟨[], many0_of_none (preceded_none (notP_none.2 ⟨y, hy⟩)), by simp⟩
  | succ n ih =>
    intro s hl hclose hu hstar
    match s, hl, hclose with
    | [], _, _ =>
      obtain ⟨y, hy⟩ := hu
      exact ⟨[], many0_of_none (preceded_none (notP_none.2 ⟨y, hy⟩)), by simp⟩
    | c :: s, hl, hclose =>
      have h0 := hclose [] (c :: s) rfl (by simp)
      by_cases hp : cs!"\\*" <+: c :: s ++ u
      · obtain ⟨rfl, hh⟩ := prefix_two.1 hp
        cases s with
        | nil => exact absurd hh hstar
        | cons d s =>
          simp at hh
          subst hh
          obtain ⟨l, h1, _⟩ := ih (s := s) (by simp at hl; omega)
            (fun a b h hb => hclose ('\\' :: '*' :: a) b (by rw [h]; rfl) hb) hu hstar
          refine ⟨() :: l, many0_of_some (r := s ++ u) ?_ (by simp; omega) h1, by simp⟩
          refine preceded_some.2 ⟨'\\' :: '*' :: s ++ u, (), notP_some.2 ⟨h0, rfl⟩, ?_⟩
          exact orElse_of_some (value_some.2 ⟨_, rfl, rfl⟩)
      · obtain ⟨l, h1, _⟩ := ih (s := s) (by simp at hl; omega)
            (fun a b h hb => hclose (c :: a) b (by rw [h]; rfl) hb) hu hstar
        refine ⟨() :: l, many0_of_some (r := s ++ u) ?_ (by simp) h1, by simp⟩
        refine preceded_some.2 ⟨c :: s ++ u, (), notP_some.2 ⟨h0, rfl⟩, ?_⟩
        rw [orElse_of_none (value_none.2 (tag_none.2 hp))]
        rfl

theorem emphasisDelimited_under {n : Nat} {s u : Str} {inner : List Inline} (hn : 0 < n)
    (hne : s ≠ []) (hs : UnderContent x n s) (hu : EmphEnd x u) (hrec : rec s = some inner) :
    emphasisDelimited x rec (List.replicate n '_')
      (List.replicate n '_' ++ (s ++ (List.replicate n '_' ++ u))) = some (u, inner) := by
  obtain ⟨c, s, rfl⟩ := List.exists_cons_of_ne_nil hne
  have ht : (List.replicate n '_').headD '*' = '_' := by
    obtain ⟨m, rfl⟩ : ∃ m, n = m + 1 := ⟨n - 1, by omega⟩
    rfl
  unfold emphasisDelimited
  refine delimited_some.2 ⟨c :: s ++ (List.replicate n '_' ++ u), (), List.replicate n '_' ++ u, (),
    openTag_under ht (hs.start c rfl), ?_, closeTag_of hu⟩
  unfold emphasisContent
  obtain ⟨l, h1, h2⟩ := content_many0' (close := closeTag x (List.replicate n '_'))
    (u := List.replicate n '_' ++ u) (c :: s).length (Nat.le_refl _)
    (fun a b h hb => closeTag_none (run_absent hs.noUnders hs.finish h hb)) ⟨_, closeTag_of hu⟩
    (by
      obtain ⟨m, rfl⟩ : ∃ m, n = m + 1 := ⟨n - 1, by omega⟩
      simp [List.replicate_succ])
  exact mapOpt_some.2 ⟨c :: s, recognize_of (many1_of_many0 h1 (h2 (by simp))), hrec⟩

theorem Segment.unders (hp : InlineParse cfg) {s u : Str} {i : Inline}
    (h : emphasisP x (parseInlines1 x cfg) ('_' :: s) = some (u, i)) :
    Segment x cfg ('_' :: s) u i := by
  refine ⟨?_, segment_notAText hp (by rw [h]; simp), heads⟩
  unfold inlineP inlineStep
  rw [orElse_of_none (condInline_none (mapP_none.2 (autolinkP_head (by decide)))),
    orElse_of_none (condInline_none (inlineLink_head (by decide))),
    orElse_of_none (condInline_none (footnoteReferenceP_head (by decide))),
    orElse_of_none (condInline_none (referenceLink_head (by decide))),
    orElse_of_none (condInline_none (hardNewline_head (by decide) (by decide))),
    orElse_of_none (condInline_none (imageP_head (by decide))),
    orElse_of_none (condInline_none (mapP_none.2 (codeSpan_head (by decide)))),
    orElse_of_none (mapP_none.2 (environmentVariable_head (by decide)))]
  exact orElse_of_some (condInline_parse hp.emphasis h)

theorem UnderContent.first {n : Nat} {s : Str} (hs : UnderContent x n s) : s.head? ≠ some '_' :=
  fun h => hs.start '_' h (.inr (.inl (by decide)))

theorem Segment.emphasisU (hp : InlineParse cfg) {s u : Str} {inner : List Inline} (hne : s ≠ [])
    (hs : UnderContent x 1 s) (hu : EmphEnd x u) (hrec : parseInlines1 x cfg s = some inner) :
    Segment x cfg ('_' :: (s ++ ('_' :: u))) u (.emphasis inner) := by
  refine Segment.unders hp ?_
  unfold emphasisP
  have h := emphasisDelimited_under (n := 1) (by decide) hne hs hu hrec
  have n2 : ∀ t, ¬ '_' :: '_' :: t <+: '_' :: (s ++ '_' :: u) := by
    rintro t ⟨q, hq⟩
    obtain ⟨c, s, rfl⟩ := List.exists_cons_of_ne_nil hne
    simp at hq
    exact hs.first (by rw [← hq.1]; rfl)
  rw [orElse_of_none (mapP_none.2 (orElse_none.2
      ⟨emphasisDelimited_none (not_prefix_ne (by decide)), emphasisDelimited_none (n2 _)⟩)),
    orElse_of_none (mapP_none.2 (orElse_none.2
      ⟨emphasisDelimited_none (not_prefix_ne (by decide)), emphasisDelimited_none (n2 _)⟩))]
  refine mapP_some.2 ⟨inner, ?_, rfl⟩
  rw [orElse_of_none (emphasisDelimited_none (not_prefix_ne (by decide)))]
  exact h

theorem Segment.strongU (hp : InlineParse cfg) {s u : Str} {inner : List Inline} (hne : s ≠ [])
    (hs : UnderContent x 2 s) (hu : EmphEnd x u) (hrec : parseInlines1 x cfg s = some inner) :
    Segment x cfg (cs!"__" ++ (s ++ (cs!"__" ++ u))) u (.strong inner) := by
  refine Segment.unders hp ?_
  unfold emphasisP
  have h := emphasisDelimited_under (n := 2) (by decide) hne hs hu hrec
  have n2 : ∀ t, ¬ '_' :: '_' :: '_' :: t <+: '_' :: ['_'].append (s ++ (cs!"__" ++ u)) := by
    rintro t ⟨q, hq⟩
    obtain ⟨c, s, rfl⟩ := List.exists_cons_of_ne_nil hne
    simp at hq
    exact hs.first (by rw [← hq.1]; rfl)
  rw [orElse_of_none (mapP_none.2 (orElse_none.2
      ⟨emphasisDelimited_none (not_prefix_ne (by decide)), emphasisDelimited_none (n2 _)⟩))]
  refine orElse_of_some (mapP_some.2 ⟨inner, ?_, rfl⟩)
  rw [orElse_of_none (emphasisDelimited_none (not_prefix_ne (by decide)))]
  exact h

theorem Segment.bothU (hp : InlineParse cfg) {s u : Str} {inner : List Inline} (hne : s ≠ [])
    (hs : UnderContent x 3 s) (hu : EmphEnd x u) (hrec : parseInlines1 x cfg s = some inner) :
    Segment x cfg (cs!"___" ++ (s ++ (cs!"___" ++ u))) u (.strong [.emphasis inner]) := by
  refine Segment.unders hp ?_
  unfold emphasisP
  have h := emphasisDelimited_under (n := 3) (by decide) hne hs hu hrec
  refine orElse_of_some (mapP_some.2 ⟨inner, ?_, rfl⟩)
  rw [orElse_of_none (emphasisDelimited_none (not_prefix_ne (by decide)))]
  exact h

/-! ### Strikethrough -/

theorem Segment.strike (hp : InlineParse cfg) {s u : Str} {inner : List Inline} (hne : s ≠ [])
    (h1 : '~' ∉ s) (h2 : s.getLast? ≠ some '\\') (hu : u.head? ≠ some '~')
    (hrec : parseInlines1 x cfg s = some inner) :
    Segment x cfg (cs!"~~" ++ (s ++ (cs!"~~" ++ u))) u (.strikethrough inner) := by
  have h : strikethroughP (parseInlines1 x cfg) (cs!"~~" ++ (s ++ (cs!"~~" ++ u))) =
      some (u, .strikethrough inner) := by
    have e1 : terminated (tag cs!"~~") (notP (chr '~')) (cs!"~~" ++ (s ++ (cs!"~~" ++ u))) =
        some (s ++ (cs!"~~" ++ u), cs!"~~") := by
      refine terminated_some.2 ⟨_, (), tag_append _ _, notP_some.2 ⟨?_, rfl⟩⟩
      obtain ⟨c, s, rfl⟩ := List.exists_cons_of_ne_nil hne
      exact chr_ne (by rintro rfl; exact h1 (by simp))
    have e2 : terminated (recognize (many1 (preceded (notP strikeClose)
        (value '~' (tag cs!"\\~") <||> anychar)))) (tag cs!"~~") (s ++ (cs!"~~" ++ u)) =
        some (u, s) := by
      refine terminated_some.2 ⟨cs!"~~" ++ u, cs!"~~", ?_, tag_append _ _⟩
      have key : ∃ l, many0 (preceded (notP strikeClose) (value '~' (tag cs!"\\~") <||> anychar))
          (s ++ (cs!"~~" ++ u)) = some (cs!"~~" ++ u, l) ∧ (s ≠ [] → l ≠ []) := by
        clear hne hrec e1
        induction s with
        | nil =>
          refine ⟨[], many0_of_none (preceded_none (notP_none.2 ⟨(u, cs!"~~"), ?_⟩)), by simp⟩
          refine preceded_some.2 ⟨_, (), notP_some.2 ⟨?_, rfl⟩, tag_append _ _⟩
          unfold seq
          rw [show ([] : Str) ++ (cs!"~~" ++ u) = cs!"~~" ++ u from rfl, tag_append]
          simp only
          cases u with
          | nil => rfl
          | cons d u => rw [chr_ne (by simpa using hu)]
        | cons c s ih =>
          have hc : c ≠ '~' := by rintro rfl; exact h1 (by simp)
          have h2' : s.getLast? ≠ some '\\' := by
            intro h
            apply h2
            rw [List.getLast?_cons]
            cases s with
            | nil => simp at h
            | cons d s => rw [h]; rfl
          obtain ⟨l, k1, _⟩ := ih (fun hm => h1 (by simp [hm])) h2'
          refine ⟨c :: l, many0_of_some (r := s ++ (cs!"~~" ++ u)) ?_ (by simp) k1, by simp⟩
          refine preceded_some.2 ⟨c :: (s ++ (cs!"~~" ++ u)), (), notP_some.2 ⟨?_, rfl⟩, ?_⟩
          · show strikeClose (c :: (s ++ (cs!"~~" ++ u))) = none
            cases e : strikeClose (c :: (s ++ (cs!"~~" ++ u))) with
            | none => rfl
            | some y =>
              obtain ⟨_, _, q1, q2⟩ := preceded_some.1 e
              obtain ⟨_, rfl⟩ := notP_some.1 q1
              rw [tag_cons_ne hc] at q2; simp at q2
          · rw [orElse_of_none]
            · rfl
            · rw [value_none, tag_none, prefix_two]
              rintro ⟨rfl, q⟩
              cases s with
              | nil => exact h2 rfl
              | cons d s => simp at q; exact h1 (by simp [q])
      obtain ⟨l, k1, k2⟩ := key
      exact recognize_of (many1_of_many0 k1 (k2 hne))
    unfold strikethroughP
    rw [e1]
    simp only
    rw [e2]
    simp only
    rw [hrec]
  refine ⟨?_, segment_notAText hp (by rw [h]; simp), heads⟩
  unfold inlineP inlineStep
  rw [show cs!"~~" ++ (s ++ (cs!"~~" ++ u)) = '~' :: '~' :: (s ++ (cs!"~~" ++ u)) from rfl] at h ⊢
  rw [orElse_of_none (condInline_none (mapP_none.2 (autolinkP_head (by decide)))),
    orElse_of_none (condInline_none (inlineLink_head (by decide))),
    orElse_of_none (condInline_none (footnoteReferenceP_head (by decide))),
    orElse_of_none (condInline_none (referenceLink_head (by decide))),
    orElse_of_none (condInline_none (hardNewline_head (by decide) (by decide))),
    orElse_of_none (condInline_none (imageP_head (by decide))),
    orElse_of_none (condInline_none (mapP_none.2 (codeSpan_head (by decide)))),
    orElse_of_none (mapP_none.2 (environmentVariable_head (by decide))),
    orElse_of_none (condInline_none (emphasisP_head (by decide) (by decide)))]
  exact orElse_of_some (condInline_parse hp.strikethrough h)

/-! ### Links and images -/

theorem labelVerify_of {s u : Str} (hs : LabelText s) :
    verify (many1 (preceded (notP (chr ']')) (value ']' (tag cs!"\\]") <||> anychar)))
      (fun cs => cs.any (fun c => c != ' ' && c != '\n') && cs.length < 1000) (s ++ (']' :: u)) =
        some (']' :: u, s) := by
  have key : ∀ s : Str, ']' ∉ s → s.getLast? ≠ some '\\' →
      many0 (preceded (notP (chr ']')) (value ']' (tag cs!"\\]") <||> anychar)) (s ++ ']' :: u) =
        some (']' :: u, s) := by
    intro s h1 h2
    induction s with
    | nil => exact many0_of_none (preceded_none (notP_none.2 ⟨_, chr_cons _ _⟩))
    | cons c s ih =>
      have hc : c ≠ ']' := by rintro rfl; exact h1 (by simp)
      have h2' : s.getLast? ≠ some '\\' := by
        intro h
        apply h2
        rw [List.getLast?_cons]
        cases s with
        | nil => simp at h
        | cons d s => rw [h]; rfl
      refine many0_of_some (r := s ++ ']' :: u) ?_ (by simp) (ih (fun hm => h1 (by simp [hm])) h2')
      refine preceded_some.2 ⟨c :: (s ++ ']' :: u), (), notP_some.2 ⟨chr_ne hc, rfl⟩, ?_⟩
      rw [orElse_of_none]
      · rfl
      · rw [value_none, tag_none, prefix_two]
        rintro ⟨rfl, q⟩
        cases s with
        | nil => exact h2 rfl
        | cons d s => simp at q; exact h1 (by simp [q])
  have hne : s ≠ [] := by obtain ⟨c, hc, _⟩ := hs.visible; rintro rfl; simp at hc
  refine verify_some.2 ⟨many1_of_many0 (key s hs.noClose hs.noEscape) hne, ?_⟩
  obtain ⟨c, hc, h1, h2⟩ := hs.visible
  have h3 := hs.short
  simp only [Bool.and_eq_true, List.any_eq_true, decide_eq_true_eq]
  exact ⟨⟨c, hc, by simp [h1, h2]⟩, h3⟩

theorem linkLabel_of {s u : Str} {inner : List Inline} (hs : LabelText s)
    (hrec : rec s = some inner) : linkLabel rec ('[' :: (s ++ (']' :: u))) = some (u, inner) := by
  unfold linkLabel
  refine delimited_some.2 ⟨s ++ (']' :: u), ['['], ']' :: u, [']'], rfl, ?_, rfl⟩
  unfold linkLabelInner
  rw [labelVerify_of hs]
  simp only
  rw [hrec]

theorem linkLabel_rec_none {s u : Str} (hs : LabelText s) (hrec : rec s = none) :
    linkLabel rec ('[' :: (s ++ (']' :: u))) = none := by
  have h1 : linkLabelInner rec (s ++ (']' :: u)) = none := by
    unfold linkLabelInner
    rw [labelVerify_of hs]
    simp only
    rw [hrec]
  unfold linkLabel
  cases e : delimited (tag cs!"[") (linkLabelInner rec) (tag cs!"]") ('[' :: (s ++ (']' :: u))) with
  | none => rfl
  | some y =>
    obtain ⟨r, l⟩ := y
    obtain ⟨s1, _, s2, _, a1, a2, _⟩ := delimited_some.1 e
    have : s1 = s ++ (']' :: u) := by
      rw [show tag cs!"[" ('[' :: (s ++ (']' :: u))) = some (s ++ (']' :: u), ['[']) from rfl] at a1
      simp at a1; exact a1.1.symm
    rw [this, h1] at a2
    simp at a2

theorem inlineLink_none {s u : Str} (hs : LabelText s) (hu : destAndTitle u = none) :
    inlineLink rec ('[' :: (s ++ (']' :: u))) = none := by
  unfold inlineLink
  rw [mapP_none]
  cases e : rec s with
  | none => exact seq_none (linkLabel_rec_none hs e)
  | some l =>
    unfold seq
    rw [linkLabel_of hs e]
    simp only
    rw [hu]

theorem multispace0_cons {c : Char} {t : Str} (h : isMultispace c = false) :
    multispace0 (c :: t) = some (c :: t, []) := by
  simp [multispace0, Nom.takeWhile, h]

theorem destChar {c : Char} (h : isAsciiControl c = false ∧ c ∉ cs!" <()\\") :
    isValidChar c = true ∧ c ≠ '<' ∧ c ≠ '(' ∧ c ≠ ')' ∧ c ≠ '\\' ∧ isMultispace c = false := by
  obtain ⟨h1, h2⟩ := h
  have : c ≠ ' ' ∧ c ≠ '<' ∧ c ≠ '(' ∧ c ≠ ')' ∧ c ≠ '\\' := by
    refine ⟨?_, ?_, ?_, ?_, ?_⟩ <;> rintro rfl <;> exact h2 (by decide)
  obtain ⟨h3, h4, h5, h6, h7⟩ := this
  refine ⟨by simp [isValidChar, h1, h3, h4], h4, h5, h6, h7, ?_⟩
  cases e : isMultispace c with
  | false => rfl
  | true =>
    exfalso
    unfold isMultispace at e
    simp only [Bool.or_eq_true, beq_iff_eq] at e
    rcases e with ((e | e) | e) | e
    · exact h3 e
    all_goals (subst e; exact absurd h1 (by decide))

theorem balancedParens_head {c : Char} {t : Str} (h : c ≠ '(') : balancedParens (c :: t) = none := by
  show delimited (tag cs!"(") _ _ (c :: t) = none
  exact delimited_none (tag_cons_ne h)

theorem linkEscapedChar_head {c : Char} {t : Str} (h : c ≠ '\\') : linkEscapedChar (c :: t) = none :=
  preceded_none (tag_cons_ne h)

theorem barePart_stop {q : P Unit} {c : Char} {t : Str} (hq : c ≠ '(' → q (c :: t) = none)
    (h : isMultispace c = true ∨ c = ')') :
    (value () linkEscapedChar <||> q <||>
      value () (satisfy (fun c => isValidChar c && c != '(' && c != ')'))) (c :: t) = none := by
  have h' : c ≠ '\\' ∧ c ≠ '(' ∧ (isValidChar c && c != '(' && c != ')') = false := by
    rcases h with h | rfl
    · unfold isMultispace at h
      simp only [Bool.or_eq_true, beq_iff_eq] at h
      rcases h with ((rfl | rfl) | rfl) | rfl <;> decide
    · decide
  rw [orElse_none, orElse_none, value_none, value_none]
  exact ⟨linkEscapedChar_head h'.1, hq h'.2.1, satisfy_none_of h'.2.2⟩

theorem barePart_nil {q : P Unit} (hq : q [] = none) : (value () linkEscapedChar <||> q <||>
      value () (satisfy (fun c => isValidChar c && c != '(' && c != ')'))) [] = none := by
  rw [orElse_none, orElse_none, value_none, value_none]
  exact ⟨rfl, hq, rfl⟩

theorem balancedParensF_head {n : Nat} {c : Char} {t : Str} (h : c ≠ '(') :
    balancedParensF n (c :: t) = none := by
  cases n with
  | zero => rfl
  | succ n => exact delimited_none (tag_cons_ne h)

theorem barePart_chr {q : P Unit} {c : Char} {t : Str} (hq : q (c :: t) = none)
    (h : isAsciiControl c = false ∧ c ∉ cs!" <()\\") :
    (value () linkEscapedChar <||> q <||>
      value () (satisfy (fun c => isValidChar c && c != '(' && c != ')'))) (c :: t) =
      some (t, ()) := by
  obtain ⟨k1, k2, k3, k4, k5, _⟩ := destChar h
  rw [orElse_of_none (value_none.2 (linkEscapedChar_head k5)), orElse_of_none hq]
  exact value_some.2 ⟨c, satisfy_some.2 ⟨rfl, by simp [k1, k3, k4]⟩, rfl⟩

theorem barePart_esc {q : P Unit} {c : Char} {t : Str} :
    (value () linkEscapedChar <||> q <||>
      value () (satisfy (fun c => isValidChar c && c != '(' && c != ')'))) ('\\' :: c :: t) =
      some (t, ()) :=
  orElse_of_some (value_some.2 ⟨c, preceded_some.2 ⟨c :: t, ['\\'], tag_append ['\\'] _, rfl⟩, rfl⟩)

/-- A part of a bare destination at a nesting depth. -/
theorem bareDest_manyF {s : Str} (h : BareDest s) : ∀ n, s.length ≤ n → ∀ v, ∃ l,
    many0 (value () linkEscapedChar <||> balancedParensF n <||>
      value () (satisfy (fun c => isValidChar c && c != '(' && c != ')'))) (s ++ ')' :: v) =
      some (')' :: v, l) := by
  induction h with
  | nil =>
    intro n _ v
    exact ⟨[], many0_of_none (barePart_stop (fun h => balancedParensF_head h) (.inr rfl))⟩
  | @chr c s h1 h2 _ ih =>
    intro n hn v
    obtain ⟨l, hl⟩ := ih n (by simp at hn; omega) v
    obtain ⟨_, _, k3, _⟩ := destChar ⟨h1, h2⟩
    exact ⟨() :: l, many0_of_some (barePart_chr (balancedParensF_head k3) ⟨h1, h2⟩) (by simp) hl⟩
  | @esc c s _ ih =>
    intro n hn v
    obtain ⟨l, hl⟩ := ih n (by simp at hn; omega) v
    exact ⟨() :: l, many0_of_some barePart_esc (by simp; omega) hl⟩
  | @parens a b _ _ iha ihb =>
    intro n hn v
    simp at hn
    obtain ⟨m, rfl⟩ : ∃ m, n = m + 1 := ⟨n - 1, by omega⟩
    obtain ⟨l, hl⟩ := ihb (m + 1) (by omega) v
    obtain ⟨l', hl'⟩ := iha m (by omega) (b ++ ')' :: v)
    refine ⟨() :: l, many0_of_some (r := b ++ ')' :: v) ?_ (by simp; omega) hl⟩
    have hs : '(' :: (a ++ ')' :: b) ++ ')' :: v = '(' :: (a ++ ')' :: (b ++ ')' :: v)) := by simp
    rw [hs, orElse_of_none (value_none.2 (linkEscapedChar_head (by decide)))]
    refine orElse_of_some ?_
    show delimited (tag cs!"(") _ _ _ = _
    exact delimited_some.2 ⟨a ++ ')' :: (b ++ ')' :: v), ['('], ')' :: (b ++ ')' :: v), [')'],
      tag_append ['('] _, value_some.2 ⟨_, hl', rfl⟩, tag_append [')'] _⟩

/-- Where a bare destination may end. -/
def DestStop (u : Str) : Prop := ∀ c, u.head? = some c → isMultispace c = true ∨ c = ')'

theorem bareDest_many {s u : Str} (h : BareDest s) (hu : DestStop u) : ∃ l,
    many0 (value () linkEscapedChar <||> balancedParens <||>
      value () (satisfy (fun c => isValidChar c && c != '(' && c != ')'))) (s ++ u) =
      some (u, l) ∧ (s ≠ [] → l ≠ []) := by
  induction h with
  | nil =>
    refine ⟨[], many0_of_none ?_, by simp⟩
    cases u with
    | nil => exact barePart_nil rfl
    | cons c u => exact barePart_stop (fun h => balancedParens_head h) (hu c rfl)
  | @chr c s h1 h2 _ ih =>
    obtain ⟨l, hl, _⟩ := ih
    obtain ⟨_, _, k3, _⟩ := destChar ⟨h1, h2⟩
    exact ⟨() :: l, many0_of_some (barePart_chr (balancedParens_head k3) ⟨h1, h2⟩) (by simp) hl, by simp⟩
  | @esc c s _ ih =>
    obtain ⟨l, hl, _⟩ := ih
    exact ⟨() :: l, many0_of_some barePart_esc (by simp; omega) hl, by simp⟩
  | @parens a b ha _ _ ihb =>
    obtain ⟨l, hl, _⟩ := ihb
    obtain ⟨l', hl'⟩ := bareDest_manyF ha ('(' :: (a ++ ')' :: (b ++ u))).length (by simp; omega) (b ++ u)
    refine ⟨() :: l, many0_of_some (r := b ++ u) ?_ (by simp; omega) hl, by simp⟩
    have hs : '(' :: (a ++ ')' :: b) ++ u = '(' :: (a ++ ')' :: (b ++ u)) := by simp
    rw [hs, orElse_of_none (value_none.2 (linkEscapedChar_head (by decide)))]
    refine orElse_of_some ?_
    unfold balancedParens
    rw [balancedParensF]
    exact delimited_some.2 ⟨a ++ ')' :: (b ++ u), ['('], ')' :: (b ++ u), [')'],
      tag_append ['('] _, value_some.2 ⟨_, hl', rfl⟩, tag_append [')'] _⟩

theorem BareDest.first {d : Str} (h : BareDest d) (hne : d ≠ []) :
    ∃ c t, d = c :: t ∧ isValidChar c = true ∧ c ≠ '<' ∧ isMultispace c = false := by
  cases h with
  | nil => exact absurd rfl hne
  | @chr c s h1 h2 _ =>
    obtain ⟨k1, k2, _, _, _, k6⟩ := destChar ⟨h1, h2⟩
    exact ⟨c, s, rfl, k1, k2, k6⟩
  | esc _ => exact ⟨_, _, rfl, by decide, by decide, by decide⟩
  | parens _ _ => exact ⟨_, _, rfl, by decide, by decide, by decide⟩

theorem angleDest_many {s t v : Str} (h : AngleDest s t) :
    many0 (preceded (chr '\\') (oneOf cs!"<>") <||> preceded (notP (oneOf cs!"\n<>")) anychar)
      (s ++ '>' :: v) = some ('>' :: v, t) := by
  have plain : ∀ {c : Char} {u : Str}, c ∉ cs!"\n<>" → (c = '\\' → ∀ e w, u = e :: w → e ∉ cs!"<>") →
      (preceded (chr '\\') (oneOf cs!"<>") <||> preceded (notP (oneOf cs!"\n<>")) anychar) (c :: u) =
        some (u, c) := by
    intro c u hc hu
    rw [orElse_of_none]
    · exact preceded_not_anychar (satisfy_none_of (by simpa using hc))
    · by_cases h : c = '\\'
      · subst h
        unfold preceded
        rw [chr_cons]
        cases u with
        | nil => rfl
        | cons e w => exact satisfy_none_of (by simpa using hu rfl e w rfl)
      · exact preceded_none (chr_ne h)
  induction h with
  | nil =>
    refine many0_of_none ?_
    rw [orElse_none]
    refine ⟨preceded_none (chr_ne (by decide)), preceded_none ?_⟩
    rw [notP_none]
    exact ⟨(v, '>'), satisfy_some.2 ⟨rfl, by decide⟩⟩
  | @chr c s t hc _ ih =>
    refine many0_of_some (plain ?_ ?_) (by simp) ih
    · intro hm
      exact hc (by revert hm; simp only [List.mem_cons, List.not_mem_nil]; rintro (h | h | h | h) <;> simp_all)
    · rintro rfl; exact absurd (by decide) hc
  | @back d s t hd _ ih =>
    refine many0_of_some (plain (by decide) ?_) (by simp) ih
    intro _ e w h
    simp at h
    rw [← h.1]; exact hd
  | @esc d s t hd _ ih =>
    refine many0_of_some (r := s ++ '>' :: v) (orElse_of_some ?_) (by simp; omega) ih
    exact preceded_some.2 ⟨d :: (s ++ '>' :: v), '\\', chr_cons _ _, satisfy_some.2 ⟨rfl, by simpa using hd⟩⟩

theorem linkDestination_of {src d u : Str} (h : LinkDest src d)
    (hu : src.head? = some '<' ∨ DestStop u) : linkDestination (src ++ u) = some (u, d) := by
  unfold linkDestination
  cases h with
  | bare hne hb =>
    obtain ⟨c, t, hct, k1, k2, _⟩ := hb.first hne
    have hu : DestStop u := by
      rcases hu with h | h
      · rw [hct] at h; simp at h; exact absurd h k2
      · exact h
    obtain ⟨l, h1, h2⟩ := bareDest_many hb hu
    have hrec := recognize_of (many1_of_many0 h1 (h2 hne))
    rw [orElse_of_none (by
      unfold linkDestination1
      rw [hct]
      exact delimited_none (chr_ne k2))]
    unfold linkDestination2
    have : satisfy (fun c => isValidChar c && c != '<') (src ++ u) = some (t ++ u, c) := by
      rw [hct]; exact satisfy_some.2 ⟨rfl, by simp [k1, k2]⟩
    rw [this]
    exact hrec
  | @angle s d ha =>
    refine orElse_of_some ?_
    unfold linkDestination1
    have hs : '<' :: (s ++ ['>']) ++ u = '<' :: (s ++ '>' :: u) := by simp
    rw [hs]
    exact delimited_some.2 ⟨_, _, _, _, chr_cons _ _, angleDest_many ha, chr_cons _ _⟩

theorem titleText_many {q : Char} {s t v : Str} (hq : q ≠ '\\') (h : TitleText q s t) :
    linkTitleInner q (s ++ q :: v) = some (q :: v, t) := by
  unfold linkTitleInner
  induction h with
  | nil =>
    refine many0_of_none ?_
    rw [orElse_none]
    exact ⟨linkEscapedChar_head hq, satisfy_none_of (by simp)⟩
  | @chr c s t h1 h2 _ ih =>
    refine many0_of_some (r := s ++ q :: v) ?_ (by simp) ih
    rw [List.cons_append, orElse_of_none (linkEscapedChar_head h2)]
    exact satisfy_some.2 ⟨rfl, by simp [h1, h2]⟩
  | @esc c s t _ ih =>
    refine many0_of_some (r := s ++ q :: v) (orElse_of_some ?_) (by simp; omega) ih
    exact preceded_some.2 ⟨c :: (s ++ q :: v), ['\\'], tag_append ['\\'] _, rfl⟩

theorem linkTitle_of {src t u : Str} (h : LinkTitle src t) : linkTitle (src ++ u) = some (u, t) := by
  unfold linkTitle
  cases h with
  | @double s t h =>
    have hs : '"' :: (s ++ ['"']) ++ u = '"' :: (s ++ '"' :: u) := by simp
    rw [hs]
    refine orElse_of_some ?_
    exact delimited_some.2 ⟨_, ['"'], _, ['"'], tag_append ['"'] _, titleText_many (by decide) h,
      tag_append ['"'] _⟩
  | @single s t h =>
    have hs : '\'' :: (s ++ ['\'']) ++ u = '\'' :: (s ++ '\'' :: u) := by simp
    rw [hs, orElse_of_none (by unfold linkTitleDoubleQuoted; exact delimited_none (tag_cons_ne (by decide)))]
    refine orElse_of_some ?_
    exact delimited_some.2 ⟨_, _, _, _, chr_cons _ _, titleText_many (by decide) h, chr_cons _ _⟩
  | @paren s t h =>
    have hs : '(' :: (s ++ [')']) ++ u = '(' :: (s ++ ')' :: u) := by simp
    rw [hs, orElse_of_none (by unfold linkTitleDoubleQuoted; exact delimited_none (tag_cons_ne (by decide))),
      orElse_of_none (by unfold linkTitleSingleQuoted; exact delimited_none (chr_ne (by decide)))]
    exact delimited_some.2 ⟨_, _, _, _, chr_cons _ _, titleText_many (by decide) h, chr_cons _ _⟩

theorem linkTitle_none {c : Char} {t : Str} (h : c ∉ cs!"\"'(") : linkTitle (c :: t) = none := by
  have h' : c ≠ '"' ∧ c ≠ '\'' ∧ c ≠ '(' := by
    refine ⟨?_, ?_, ?_⟩ <;> rintro rfl <;> exact h (by decide)
  unfold linkTitle
  rw [orElse_none, orElse_none]
  exact ⟨by unfold linkTitleDoubleQuoted; exact delimited_none (tag_cons_ne h'.1),
    by unfold linkTitleSingleQuoted; exact delimited_none (chr_ne h'.2.1),
    by unfold linkTitleParenthesized; exact delimited_none (chr_ne h'.2.2)⟩

theorem White.multispace {w : Str} (h : White w) : ∀ c ∈ w, isMultispace c = true := by
  intro c hc
  rcases h c hc with rfl | rfl | rfl | rfl <;> rfl

theorem multispace0_of {w u : Str} (h : White w) (hu : ∀ c, u.head? = some c → isMultispace c = false) :
    multispace0 (w ++ u) = some (u, w) := by
  obtain ⟨k1, k2⟩ := takeWhile_span' h.multispace hu
  show some (_, _) = _
  rw [k1, k2]

theorem LinkDest.first {src d : Str} (h : LinkDest src d) :
    ∃ c t, src = c :: t ∧ isMultispace c = false := by
  cases h with
  | bare hne hb => obtain ⟨c, t, h1, _, _, h2⟩ := hb.first hne; exact ⟨c, t, h1, h2⟩
  | angle _ => exact ⟨_, _, rfl, by decide⟩

theorem LinkTitle.first {src t : Str} (h : LinkTitle src t) :
    ∃ c s, src = c :: s ∧ isMultispace c = false := by
  cases h <;> exact ⟨_, _, rfl, by decide⟩

theorem White.destStop {w u : Str} (h : White w) (hu : w = [] → DestStop u) : DestStop (w ++ u) := by
  cases w with
  | nil => exact hu rfl
  | cons c w => intro d hd; simp at hd; subst hd; exact .inl (h.multispace c (by simp))

theorem destAndTitle_of {w d u : Str} {t : Option Str} (h : DestTitle w d t) :
    destAndTitle (w ++ u) = some (u, (d, t)) := by
  unfold destAndTitle
  have hclose : ∀ v, preceded multispace0 (chr ')') (')' :: v) = some (v, ')') := by
    intro v; rfl
  have hparen : ∀ v : Str, ∀ c, (')' :: v).head? = some c → isMultispace c = false := by
    intro v c hc; simp at hc; subst hc; decide
  cases h with
  | @plain w1 src _ w2 h1 h2 h3 =>
    obtain ⟨c, r, hcr, hms⟩ := h2.first
    have hs : '(' :: (w1 ++ (src ++ (w2 ++ [')']))) ++ u = '(' :: (w1 ++ (src ++ (w2 ++ ')' :: u))) := by simp
    rw [hs]
    refine delimited_some.2 ⟨w1 ++ (src ++ (w2 ++ ')' :: u)), '(', w2 ++ ')' :: u, ')', chr_cons _ _, ?_, ?_⟩
    · refine seq_some.2 ⟨w2 ++ ')' :: u, preceded_some.2 ⟨src ++ (w2 ++ ')' :: u), w1, ?_,
        linkDestination_of h2 (.inr (h3.destStop (fun _ => by intro c hc; simp at hc; exact .inr hc.symm)))⟩, ?_⟩
      · exact multispace0_of h1 (by rw [hcr]; intro d hd; simp at hd; subst hd; exact hms)
      · refine opt_some.2 (.inr ⟨?_, rfl, rfl⟩)
        unfold preceded
        rw [multispace0_of h3 (hparen u)]
        exact linkTitle_none (by decide)
    · unfold preceded
      rw [multispace0_of h3 (hparen u)]
      exact chr_cons _ _
  | @title w1 src _ w2 tsrc t w3 h1 h2 h3 h4 h5 h6 =>
    obtain ⟨c, r, hcr, hms⟩ := h2.first
    obtain ⟨c', r', hcr', hms'⟩ := h5.first
    have hs : '(' :: (w1 ++ (src ++ (w2 ++ (tsrc ++ (w3 ++ [')']))))) ++ u =
      '(' :: (w1 ++ (src ++ (w2 ++ (tsrc ++ (w3 ++ ')' :: u))))) := by simp
    rw [hs]
    refine delimited_some.2 ⟨w1 ++ (src ++ (w2 ++ (tsrc ++ (w3 ++ ')' :: u)))), '(', w3 ++ ')' :: u, ')',
      chr_cons _ _, ?_, ?_⟩
    · refine seq_some.2 ⟨w2 ++ (tsrc ++ (w3 ++ ')' :: u)),
        preceded_some.2 ⟨src ++ (w2 ++ (tsrc ++ (w3 ++ ')' :: u))), w1, ?_, linkDestination_of h2 ?_⟩, ?_⟩
      · exact multispace0_of h1 (by rw [hcr]; intro d hd; simp at hd; subst hd; exact hms)
      · cases hw : w2 with
        | nil => exact .inl (h4 hw)
        | cons e w2 => exact .inr (by rw [← hw]; exact h3.destStop (fun h => by rw [hw] at h; simp at h))
      · refine opt_some.2 (.inl ⟨t, preceded_some.2 ⟨tsrc ++ (w3 ++ ')' :: u), w2, ?_, linkTitle_of h5⟩, rfl⟩)
        exact multispace0_of h3 (by rw [hcr']; intro d hd; simp at hd; subst hd; exact hms')
    · unfold preceded
      rw [multispace0_of h6 (hparen u)]
      exact chr_cons _ _

theorem DestText.bareDest {d : Str} (h : DestText d) : BareDest d := by
  obtain ⟨hne, hd⟩ := h
  clear hne
  induction d with
  | nil => exact .nil
  | cons c d ih =>
    have := hd c (by simp)
    exact .chr this.1 this.2 (ih (fun e he => hd e (by simp [he])))

theorem titleText_plain {q : Char} {t : Str} (h : ∀ c ∈ t, c ≠ q ∧ c ≠ '\\') : TitleText q t t := by
  induction t with
  | nil => exact .nil
  | cons c t ih =>
    exact .chr (h c (by simp)).1 (h c (by simp)).2 (ih (fun d hd => h d (by simp [hd])))

/-- The simplest destination. -/
theorem DestTitle.bare {d : Str} (h : DestText d) : DestTitle ('(' :: (d ++ [')'])) d none :=
  .plain (w1 := []) (w2 := []) (by intro c hc; simp at hc) (.bare h.1 h.bareDest) (by intro c hc; simp at hc)

/-- A destination and a title. -/
theorem DestTitle.titled {d t : Str} (h : DestText d) (ht : ∀ c ∈ t, c ≠ '"' ∧ c ≠ '\\') :
    DestTitle ('(' :: (d ++ (' ' :: '"' :: (t ++ ['"', ')'])))) d (some t) := by
  have := DestTitle.title (w1 := []) (w2 := [' ']) (w3 := []) (by intro c hc; simp at hc)
    (.bare h.1 h.bareDest) (by intro c hc; simp at hc; simp [hc]) (by simp)
    (.double (titleText_plain ht)) (by intro c hc; simp at hc)
  simpa using this

theorem destAndTitle_none {u : Str} (h : u.head? ≠ some '(') : destAndTitle u = none := by
  unfold destAndTitle
  refine delimited_none ?_
  cases u with
  | nil => rfl
  | cons c u => exact chr_ne (by simpa using h)

theorem Segment.link (hp : InlineParse cfg) {s w d u : Str} {t : Option Str} {inner : List Inline}
    (hs : LabelText s) (hw : DestTitle w d t) (hrec : parseInlines1 x cfg s = some inner) :
    Segment x cfg ('[' :: (s ++ (']' :: (w ++ u)))) u (.link d t inner) := by
  have h : inlineLink (parseInlines1 x cfg) ('[' :: (s ++ (']' :: (w ++ u)))) =
      some (u, .link d t inner) := by
    unfold inlineLink
    exact mapP_some.2 ⟨(inner, d, t), seq_some.2 ⟨_, linkLabel_of hs hrec, destAndTitle_of hw⟩, rfl⟩
  refine ⟨?_, segment_notAText hp (by rw [h]; simp), heads⟩
  unfold inlineP inlineStep
  rw [orElse_of_none (condInline_none (mapP_none.2 (autolinkP_head (by decide))))]
  exact orElse_of_some (condInline_parse hp.link h)

theorem Segment.image (hp : InlineParse cfg) {s w d u : Str} {t : Option Str} (hs : ']' ∉ s)
    (hw : DestTitle w d t) :
    Segment x cfg (cs!"![" ++ (s ++ (']' :: (w ++ u)))) u (.image d t s) := by
  have h : imageP (cs!"![" ++ (s ++ (']' :: (w ++ u)))) = some (u, .image d t s) := by
    unfold imageP
    refine mapP_some.2 ⟨(s, d, t), seq_some.2 ⟨w ++ u, ?_, destAndTitle_of hw⟩, rfl⟩
    refine preceded_some.2 ⟨'[' :: (s ++ (']' :: (w ++ u))), '!', rfl, ?_⟩
    refine delimited_some.2 ⟨s ++ (']' :: (w ++ u)), '[', ']' :: (w ++ u), ']', chr_cons _ _, ?_, chr_cons _ _⟩
    obtain ⟨h1, h2⟩ := takeWhile_span (f := fun c => c != ']') (a := s) (c := ']') (t := w ++ u)
      (fun d hd => by simp; rintro rfl; exact hs hd) (by decide)
    show some (_, _) = _
    rw [h1, h2]
  refine ⟨?_, segment_notAText hp (by rw [h]; simp), heads⟩
  unfold inlineP inlineStep
  rw [show cs!"![" ++ (s ++ (']' :: (w ++ u))) = '!' :: '[' :: (s ++ (']' :: (w ++ u))) from rfl] at h ⊢
  rw [orElse_of_none (condInline_none (mapP_none.2 (autolinkP_head (by decide)))),
    orElse_of_none (condInline_none (inlineLink_head (by decide))),
    orElse_of_none (condInline_none (footnoteReferenceP_head (by decide))),
    orElse_of_none (condInline_none (referenceLink_head (by decide))),
    orElse_of_none (condInline_none (hardNewline_head (by decide) (by decide)))]
  exact orElse_of_some (condInline_parse hp.image h)

/-! ### Footnotes and reference links -/

theorem footnoteReferenceP_of {l u : Str} (h1 : l ≠ []) (h2 : ∀ c ∈ l, isAlnum c = true) :
    footnoteReferenceP (cs!"[^" ++ (l ++ (']' :: u))) = some (u, .footnoteReference l) := by
  unfold footnoteReferenceP
  refine mapP_some.2 ⟨l, delimited_some.2 ⟨l ++ (']' :: u), cs!"[^", ']' :: u, ']', tag_append _ _, ?_,
    chr_cons _ _⟩, rfl⟩
  exact takeWhile1_of h1 h2 (by decide)

theorem alnum_ne {c d : Char} (h : isAlnum c = true) (hd : isAlnum d = false) : c ≠ d := by
  rintro rfl; rw [h] at hd; simp at hd

theorem footnoteReferenceP_none {s : Str} (h : s.head? ≠ some '^') :
    footnoteReferenceP ('[' :: s) = none := by
  unfold footnoteReferenceP
  rw [mapP_none]
  refine delimited_none ?_
  rw [tag_none, prefix_two]
  rintro ⟨_, q⟩
  exact h q

theorem Segment.footnote (hp : InlineParse cfg) {l u : Str} (h1 : l ≠ [])
    (h2 : ∀ c ∈ l, isAlnum c = true) (h3 : l.length < 999) (hu : u.head? ≠ some '(') :
    Segment x cfg (cs!"[^" ++ (l ++ (']' :: u))) u (.footnoteReference l) := by
  have h := footnoteReferenceP_of (u := u) h1 h2
  refine ⟨?_, segment_notAText hp (by rw [h]; simp), heads⟩
  have hl : LabelText ('^' :: l) := by
    refine ⟨?_, ?_, ⟨'^', by simp, by decide, by decide⟩, by simp; omega⟩
    · simp only [List.mem_cons, not_or]
      exact ⟨by decide, fun hm => absurd (h2 _ hm) (by decide)⟩
    · intro hg
      have hm := List.mem_of_getLast? hg
      simp only [List.mem_cons] at hm
      rcases hm with hm | hm
      · exact absurd hm (by decide)
      · exact absurd (h2 _ hm) (by decide)
  have e : inlineLink (parseInlines1 x cfg) (cs!"[^" ++ (l ++ (']' :: u))) = none :=
    inlineLink_none (s := '^' :: l) hl (destAndTitle_none hu)
  have e0 : autolinkP (cs!"[^" ++ (l ++ (']' :: u))) = none := autolinkP_head (by decide)
  unfold inlineP inlineStep
  rw [orElse_of_none (condInline_none (mapP_none.2 e0)),
    orElse_of_none (condInline_none e)]
  exact orElse_of_some (condInline_parse hp.footnoteReference h)

theorem linkLabel_none {u : Str} (h : u.head? ≠ some '[') : linkLabel rec u = none := by
  cases u with
  | nil => rfl
  | cons c u => exact linkLabel_head (by simpa using h)

theorem referenceLink_shortcut {s u : Str} {inner : List Inline} (hs : LabelText s)
    (hrec : rec s = some inner) (hu : u.head? ≠ some '[') :
    referenceLink rec ('[' :: (s ++ (']' :: u))) = some (u, .linkReference inner inner) := by
  have h := linkLabel_of (u := u) hs hrec
  have h1 : referenceLinkFull rec ('[' :: (s ++ (']' :: u))) = none := by
    unfold referenceLinkFull
    rw [mapP_none]
    unfold seq
    rw [h]
    simp only
    rw [linkLabel_none hu]
  have h2 : referenceLinkCollapsed rec ('[' :: (s ++ (']' :: u))) = none := by
    unfold referenceLinkCollapsed
    rw [mapP_none]
    cases e : terminated (linkLabel rec) (tag cs!"[]") ('[' :: (s ++ (']' :: u))) with
    | none => rfl
    | some y =>
      obtain ⟨r, l⟩ := y
      obtain ⟨s1, _, a1, a2⟩ := terminated_some.1 e
      rw [h] at a1
      simp at a1
      rw [← a1.1] at a2
      exfalso
      have := (tag_some.1 a2).1
      rw [this] at hu
      exact hu rfl
  unfold referenceLink
  rw [orElse_of_none h1, orElse_of_none h2]
  exact mapP_some.2 ⟨inner, h, rfl⟩

theorem referenceLink_full {s l u : Str} {inner label : List Inline} (hs : LabelText s)
    (hrec : rec s = some inner) (hl : LabelText l) (hrec2 : rec l = some label) :
    referenceLink rec ('[' :: (s ++ (']' :: '[' :: (l ++ (']' :: u))))) =
      some (u, .linkReference label inner) := by
  unfold referenceLink
  refine orElse_of_some ?_
  unfold referenceLinkFull
  exact mapP_some.2 ⟨(inner, label), seq_some.2 ⟨_, linkLabel_of hs hrec, linkLabel_of hl hrec2⟩, rfl⟩

theorem referenceLink_collapsed {s u : Str} {inner : List Inline} (hs : LabelText s)
    (hrec : rec s = some inner) :
    referenceLink rec ('[' :: (s ++ (']' :: '[' :: ']' :: u))) =
      some (u, .linkReference inner inner) := by
  have h := linkLabel_of (u := '[' :: ']' :: u) hs hrec
  have h1 : referenceLinkFull rec ('[' :: (s ++ (']' :: '[' :: ']' :: u))) = none := by
    unfold referenceLinkFull
    rw [mapP_none]
    unfold seq
    rw [h]
    simp only
    have : linkLabel rec ('[' :: ']' :: u) = none := by
      unfold linkLabel
      cases e : delimited (tag cs!"[") (linkLabelInner rec) (tag cs!"]") ('[' :: ']' :: u) with
      | none => rfl
      | some y =>
        obtain ⟨r, l⟩ := y
        obtain ⟨s1, _, s2, _, a1, a2, _⟩ := delimited_some.1 e
        have hs1 : s1 = ']' :: u := by
          rw [show tag cs!"[" ('[' :: ']' :: u) = some (']' :: u, ['[']) from rfl] at a1
          simp at a1; exact a1.1.symm
        rw [hs1] at a2
        unfold linkLabelInner at a2
        rw [verify_none (many1_none_of (preceded_none (notP_none.2 ⟨_, chr_cons _ _⟩)))] at a2
        simp at a2
    rw [this]
  unfold referenceLink
  rw [orElse_of_none h1]
  refine orElse_of_some ?_
  unfold referenceLinkCollapsed
  exact mapP_some.2 ⟨inner, terminated_some.2 ⟨_, cs!"[]", h, rfl⟩, rfl⟩

theorem Segment.ofReference (hp : InlineParse cfg) {s u v : Str} {i : Inline} (hs : LabelText s)
    (hc : s.head? ≠ some '^') (hu : u.head? ≠ some '(')
    (h : referenceLink (parseInlines1 x cfg) ('[' :: (s ++ (']' :: u))) = some (v, i)) :
    Segment x cfg ('[' :: (s ++ (']' :: u))) v i := by
  refine ⟨?_, segment_notAText hp (by rw [h]; simp), heads⟩
  have hc' : (s ++ (']' :: u)).head? ≠ some '^' := by
    cases s with
    | nil => simp
    | cons c s => exact hc
  unfold inlineP inlineStep
  rw [orElse_of_none (condInline_none (mapP_none.2 (autolinkP_head (by decide)))),
    orElse_of_none (condInline_none (inlineLink_none hs (destAndTitle_none hu))),
    orElse_of_none (condInline_none (footnoteReferenceP_none hc'))]
  exact orElse_of_some (condInline_parse hp.referenceLink h)

/-! ## Text that stands for itself -/

theorem env_none {s u : Str} (hne : s ≠ []) (hs : '_' ∉ s)
    (hu : ∀ c, u.head? = some c → isAlnum c = true ∨ c = '_' → ∀ d, s.getLast? = some d → isAlnum d = false) :
    environmentVariable (s ++ u) = none := by
  cases e : environmentVariable (s ++ u) with
  | none => rfl
  | some y =>
    exfalso
    obtain ⟨r, i⟩ := y
    unfold environmentVariable at e
    obtain ⟨w, h1, _⟩ := mapP_some.1 e
    obtain ⟨h2, h3⟩ := verify_some.1 h1
    have happ := recognize_append h2
    have hall : ∀ d ∈ w, isAlnum d = true ∨ d = '_' := by
      refine Eats.recognize (f := fun d => isAlnum d = true ∨ d = '_') ?_ h2
      refine Eats.seq (Eats.takeWhile1 (fun c hc => .inl (isAlnum_of_isAlpha hc))) (Eats.many0 ?_)
      refine Eats.orElse (Eats.takeWhile1 (fun c hc => .inl hc)) ?_
      intro s r a h
      have := recognize_append h
      obtain ⟨b, hb, _⟩ := recognize_some.1 h
      obtain ⟨rfl, rfl⟩ := chr_some.1 hb
      refine ⟨['_'], rfl, ?_⟩
      intro d hd; simp at hd; exact .inr hd
    have hw : '_' ∈ w := by
      unfold isLikelyEnvVar at h3
      simp only [Bool.and_eq_true] at h3
      have := h3.1.1.1
      simpa using this
    rw [List.append_eq_append_iff] at happ
    rcases happ with ⟨a, h4, h5⟩ | ⟨a, h4, h5⟩
    · exact hs (by rw [h4]; simp [hw])
    · cases a with
      | nil => rw [List.append_nil] at h4; rw [h4] at hw; exact hs hw
      | cons d a =>
        obtain ⟨s', z, rfl⟩ : ∃ s' z, s = s' ++ [z] := by
          rcases List.eq_nil_or_concat s with h | ⟨s', z, h⟩
          · exact absurd h hne
          · exact ⟨s', z, by rw [h]; simp⟩
        have hz := hu d (by rw [h5]; rfl) (hall d (by rw [h4]; simp)) z (by simp)
        rcases hall z (by rw [h4]; simp) with h | h
        · rw [h] at hz; cases hz
        · exact hs (by rw [← h]; simp)

theorem loose_under {next : Str} : ¬ Loose ent '_' next := by
  rintro (h | h | h | h | h | h | h)
  · exact h (by decide)
  all_goals exact absurd h.1 (by decide)

theorem PlainRun.noUnder {t u : Str} (h : PlainRun ent t u) : '_' ∉ t := by
  intro hm
  obtain ⟨a, b, hab⟩ := List.append_of_mem hm
  exact loose_under (h.1 a '_' b hab)

theorem PlainRun.suffix {a b u : Str} (h : PlainRun ent (a ++ b) u) : PlainRun ent b u :=
  ⟨fun p c q hb => h.1 (a ++ p) c q (by rw [hb]; simp), fun ⟨p, q, nl, h1, h2⟩ => h.2 ⟨a ++ p, q, nl, h1, by
    rw [h2]; simp⟩⟩

theorem PlainRun.tail {c : Char} {s u : Str} (h : PlainRun ent (c :: s) u) : PlainRun ent s u :=
  PlainRun.suffix (a := [c]) h

theorem getLast_suffix {a b : Str} {d : Char} (hb : b ≠ []) (h : b.getLast? = some d) :
    (a ++ b).getLast? = some d := by
  rw [List.getLast?_append, h]; rfl

theorem Apart.suffix {a b u : Str} (h : Apart (a ++ b) u) (hb : b ≠ []) : Apart b u :=
  ⟨fun c h1 h2 d h3 => h.1 c h1 h2 d (getLast_suffix hb h3), fun h1 h2 => h.2 h1 (getLast_suffix hb h2)⟩

theorem opens_newline {u : Str} (h : Opens ent u) : ∀ c, u.head? = some c → c ≠ '\n' ∧ c ≠ '\r' := by
  intro c hc
  rcases h with rfl | ⟨d, v, rfl, h1, _⟩ | ⟨n, v, hn, rfl⟩ | ⟨w, v, rfl, hw, _⟩
  · simp at hc
  · simp at hc; subst hc
    constructor <;> rintro rfl <;> exact h1 (.inl (by decide))
  · obtain ⟨m, rfl⟩ : ∃ m, n = m + 1 := ⟨n - 1, by omega⟩
    simp [List.replicate_succ] at hc; subst hc
    constructor <;> decide
  · cases w with
    | nil => have := hw.under; simp at this
    | cons a w =>
      simp at hc; subst hc
      have := hw.start a rfl
      constructor <;> rintro rfl <;> revert this <;> decide

theorem hardNewline_run {s u : Str} (hne : s ≠ []) (hs : PlainRun ent s u) (ho : Opens ent u)
    (ha : Apart s u) : Verif.hardNewline (s ++ u) = none := by
  cases e : Verif.hardNewline (s ++ u) with
  | none => rfl
  | some y =>
    exfalso
    obtain ⟨r, i⟩ := y
    unfold Verif.hardNewline at e
    obtain ⟨_, e, _⟩ := value_some.1 e
    have hnl : ∀ {r1 r v}, lineEnding r1 = some (r, v) → ∃ nl, IsNewline nl ∧ r1 = nl ++ r := by
      intro r1 r v h2
      rcases lineEnding_some.1 h2 with ⟨h, _⟩ | ⟨h, _⟩
      · exact ⟨_, .inl rfl, h⟩
      · exact ⟨_, .inr rfl, h⟩
    rcases orElse_some.1 e with e | ⟨_, e⟩
    · obtain ⟨_, e, _⟩ := value_some.1 e
      obtain ⟨r1, h1, h2⟩ := seq_some.1 e
      obtain ⟨h1, _⟩ := chr_some.1 h1
      obtain ⟨nl, h3, rfl⟩ := hnl h2
      cases s with
      | nil => exact hne rfl
      | cons c s =>
        simp at h1
        have := hs.1 [] c s rfl
        rw [h1.1, h1.2] at this
        rcases this with h | h | h | h | h | h | h
        · exact h (by decide)
        · exact absurd h.1 (by decide)
        · exact absurd h.1 (by decide)
        · exact absurd h.1 (by decide)
        · exact absurd h.1 (by decide)
        · rcases h3 with rfl | rfl
          · exact (h.2 '\n' rfl).2.1 rfl
          · exact (h.2 '\r' rfl).2.2 rfl
        · exact absurd h.1 (by decide)
    · obtain ⟨v, e, _⟩ := value_some.1 e
      obtain ⟨r1, h1, h2⟩ := seq_some.1 e
      unfold manyMin at h1
      obtain ⟨h3, h4⟩ := verify_some.1 h1
      obtain ⟨n, h5, h6, _⟩ := many0_chr_some h3
      have hn : 2 ≤ n := by rw [h5] at h4; simpa using h4
      obtain ⟨nl, hnl, rfl⟩ := hnl h2
      have hnp := opens_newline ho
      -- the spaces and the line ending are inside s
      rw [← List.append_assoc] at h6
      rcases List.append_eq_append_iff.1 h6 with ⟨a, h7, h8⟩ | ⟨a, h7, h8⟩
      · -- s is a prefix of the break
        rcases Or.symm (List.append_eq_append_iff.1 h7) with ⟨b, h9, h10⟩ | ⟨b, h9, h10⟩
        · -- s consists of spaces
          have hlast : s.getLast? = some ' ' := by
            obtain ⟨s', z, rfl⟩ : ∃ s' z, s = s' ++ [z] := by
              rcases List.eq_nil_or_concat s with h | ⟨s', z, h⟩
              · exact absurd h hne
              · exact ⟨s', z, by rw [h]; simp⟩
            have : z ∈ List.replicate n ' ' := by rw [h9]; simp
            rw [List.eq_of_mem_replicate this]; simp
          cases b with
          | nil =>
            simp at h10; subst h10
            rcases hnl with rfl | rfl
            · exact (hnp '\n' (by rw [h8]; rfl)).1 rfl
            · exact (hnp '\r' (by rw [h8]; rfl)).2 rfl
          | cons z b =>
            have hz : z ∈ List.replicate n ' ' := by rw [h9]; simp
            rw [List.eq_of_mem_replicate hz] at h10
            exact ha.2 (by rw [h8, h10]; rfl) hlast
        · -- s ends in the line ending
          cases a with
          | nil =>
            rw [List.append_nil] at h10
            refine hs.2 ⟨List.replicate (n - 2) ' ', [], nl, hnl, ?_⟩
            rw [h9, ← h10, List.append_nil, ← List.append_assoc]
            congr 1
            rw [show cs!"  " = List.replicate 2 ' ' from rfl, List.replicate_append_replicate, Nat.sub_add_cancel hn]
          | cons z a =>
            rcases hnl with rfl | rfl
            · cases b with
              | nil => simp at h10; exact (hnp '\n' (by rw [h8, h10.1]; rfl)).1 rfl
              | cons y b => simp at h10
            · cases b with
              | nil => simp at h10; exact (hnp '\r' (by rw [h8, h10.1]; rfl)).2 rfl
              | cons y b =>
                cases b with
                | nil => simp at h10; exact (hnp '\n' (by rw [h8, h10.2.1]; rfl)).1 rfl
                | cons y' b => simp at h10
      · refine hs.2 ⟨List.replicate (n - 2) ' ', a, nl, hnl, ?_⟩
        rw [h7, ← List.append_assoc, ← List.append_assoc]
        congr 2
        rw [show cs!"  " = List.replicate 2 ' ' from rfl, List.replicate_append_replicate, Nat.sub_add_cancel hn]

theorem emphasisDelimited_open {t s : Str} (h : openTag x t s = none) : emphasisDelimited x rec t s = none :=
  delimited_none h

theorem uri_head {c : Char} {s : Str} (h : isAlnum c = false) : uri (c :: s) = none := by
  unfold uri
  rw [mapP_none]
  refine seq_none (terminated_none ?_)
  unfold scheme
  rw [recognize_none]
  refine seq_none (satisfy_none_of ?_)
  cases e : isAlpha c with
  | false => rfl
  | true => rw [isAlnum_of_isAlpha e] at h; cases h

theorem autolink_loose {s : Str} (h : ∀ d, s.head? = some d → isAlnum d = false ∧ d ∉ cs!"_-.") :
    autolinkP ('<' :: s) = none := by
  cases e : autolinkP ('<' :: s) with
  | none => rfl
  | some y =>
    exfalso
    unfold autolinkP at e
    obtain ⟨s1, _, s2, _, h1, h2, _⟩ := delimited_some.1 e
    obtain ⟨h1, _⟩ := chr_some.1 h1
    simp at h1; subst h1
    cases s with
    | nil => rcases orElse_some.1 h2 with h | ⟨_, h⟩ <;> simp [uri, email, mapP, seq, terminated, scheme, recognize, satisfy, takeWhile1] at h
    | cons c s =>
      obtain ⟨hc, hm⟩ := h c rfl
      rcases orElse_some.1 h2 with h | ⟨_, h⟩
      · rw [uri_head hc] at h; cases h
      · unfold email at h
        rw [recognize_none.2 (seq_none (takeWhile1_none_of ?_))] at h
        · cases h
        · simp at hm
          simp [hc, hm]

/-- Nothing but text starts at a character of text that stands for itself. -/
theorem notAText_run {s u : Str} (hne : s ≠ []) (hs : PlainRun cfg.entities s u) (ho : Opens cfg.entities u)
    (ha : Apart s u) : notAText x cfg rec (s ++ u) = none ∧ htmlEntity cfg (s ++ u) = none ∧ escapedChar (s ++ u) = none := by
  have h12 := env_none (u := u) hne hs.noUnder ha.1
  have h13 := hardNewline_run hne hs ho ha
  cases s with
  | nil => exact absurd rfl hne
  | cons c s =>
    have hl := hs.1 [] c s rfl
    rw [List.cons_append] at h12 h13 ⊢
    have he : htmlEntity cfg (c :: (s ++ u)) = none := by
      by_cases hc : c = '&'
      · subst hc
        cases e : htmlEntity cfg ('&' :: (s ++ u)) with
        | none => rfl
        | some y =>
          exfalso
          obtain ⟨w, hw, hs⟩ := htmlEntity_ref e
          rcases hl with h | h | h | h | h | h | h
          · exact h (by decide)
          · exact absurd h.1 (by decide)
          · exact absurd h.1 (by decide)
          · exact absurd h.1 (by decide)
          · exact absurd h.1 (by decide)
          · exact absurd h.1 (by decide)
          · exact h.2 w _ hw ⟨y.1, hs.symm⟩
      · exact htmlEntity_head hc
    have hx : escapedChar (c :: (s ++ u)) = none := by
      by_cases hc : c = '\\'
      · subst hc
        rcases hl with h | h | h | h | h | h | h
        · exact absurd (by decide) h
        · exact absurd h.1 (by decide)
        · exact absurd h.1 (by decide)
        · exact absurd h.1 (by decide)
        · exact absurd h.1 (by decide)
        · exact escapedChar_bs fun p hp => (h.2 p hp).1
        · exact absurd h.1 (by decide)
      · exact escapedChar_head hc
    refine ⟨?_, he, hx⟩
    have hne1 : c ≠ '[' ∧ c ≠ '`' ∧ c ≠ '_' := by
      refine ⟨?_, ?_, ?_⟩ <;> rintro rfl <;> rcases hl with h | h | h | h | h | h | h
      all_goals first
        | exact h (by decide)
        | exact absurd h.1 (by decide)
    obtain ⟨h2, h5, h7⟩ := hne1
    have ha1 : autolinkP (c :: (s ++ u)) = none := by
      by_cases hc : c = '<'
      · subst hc
        rcases hl with h | h | h | h | h | h | h
        · exact absurd (by decide) h
        · exact absurd h.1 (by decide)
        · exact absurd h.1 (by decide)
        · exact absurd h.1 (by decide)
        · exact autolink_loose h.2
        · exact absurd h.1 (by decide)
        · exact absurd h.1 (by decide)
      · exact autolinkP_head hc
    have hi : imageP (c :: (s ++ u)) = none := by
      by_cases hc : c = '!'
      · subst hc
        rcases hl with h | h | h | h | h | h | h
        · exact absurd (by decide) h
        · unfold imageP
          rw [mapP_none]
          refine seq_none ?_
          unfold preceded
          rw [chr_cons]
          show delimited (chr '[') _ _ (s ++ u) = none
          refine delimited_none ?_
          cases e : s ++ u with
          | nil => rfl
          | cons d v => exact chr_ne (by rintro rfl; exact h.2 (by rw [e]; rfl))
        · exact absurd h.1 (by decide)
        · exact absurd h.1 (by decide)
        · exact absurd h.1 (by decide)
        · exact absurd h.1 (by decide)
        · exact absurd h.1 (by decide)
      · exact imageP_head hc
    have hst : strikethroughP rec (c :: (s ++ u)) = none := by
      by_cases hc : c = '~'
      · subst hc
        rcases hl with h | h | h | h | h | h | h
        · exact absurd (by decide) h
        · exact absurd h.1 (by decide)
        · unfold strikethroughP
          have : tag cs!"~~" ('~' :: (s ++ u)) = none := by
            refine tag_none.2 ?_
            intro hp
            have := (prefix_two.1 hp).2
            exact h.2 this
          rw [terminated_none this]
        · exact absurd h.1 (by decide)
        · exact absurd h.1 (by decide)
        · exact absurd h.1 (by decide)
        · exact absurd h.1 (by decide)
      · exact strikethroughP_head hc
    have hem : emphasisP x rec (c :: (s ++ u)) = none := by
      by_cases hc : c = '*'
      · subst hc
        rcases hl with h | h | h | h | h | h | h
        · exact absurd (by decide) h
        · exact absurd h.1 (by decide)
        · exact absurd h.1 (by decide)
        · have n2 : ∀ t, ¬ '*' :: '*' :: t <+: '*' :: (s ++ u) := by
            rintro t ⟨q, hq⟩
            simp at hq
            have := h.2 '*' (by rw [← hq]; rfl)
            revert this; decide
          have n1 : openTag x ['*'] ('*' :: (s ++ u)) = none := by
            unfold openTag
            rw [show ('*' :: (s ++ u)) = ['*'] ++ (s ++ u) from rfl, tag_append]
            simp only
            have e1 : (['*'] ++ (s ++ u))[(['*'] : Str).length]? = (s ++ u).head? := by
              cases s ++ u <;> simp
            rw [e1]
            have : canOpen x (List.headD ['*'] '*') (s ++ u).head? = false := by
              unfold canOpen
              cases e : (s ++ u).head? with
              | none => simp
              | some d => have := h.2 d e; simp [this]
            rw [this]; rfl
          unfold emphasisP
          rw [orElse_none, orElse_none, mapP_none, mapP_none, mapP_none, orElse_none, orElse_none, orElse_none]
          exact ⟨⟨emphasisDelimited_open (openTag_none (n2 _)), emphasisDelimited_open (openTag_none (not_prefix_ne (by decide)))⟩,
            ⟨emphasisDelimited_open (openTag_none (n2 _)), emphasisDelimited_open (openTag_none (not_prefix_ne (by decide)))⟩,
            ⟨emphasisDelimited_open n1, emphasisDelimited_open (openTag_none (not_prefix_ne (by decide)))⟩⟩
        · exact absurd h.1 (by decide)
        · exact absurd h.1 (by decide)
        · exact absurd h.1 (by decide)
      · exact emphasisP_head hc h7
    unfold notAText
    simp only [orElse_none, conditionalUnit_none, value_none]
    exact ⟨.inr ha1, .inr (referenceLink_head h2), .inr h13, .inr he, .inr hi, .inr (inlineLink_head h2),
      .inr (codeSpan_head h5), .inr hem, .inr (footnoteReferenceP_head h2), .inr hst, h12⟩

theorem run_many0 {s u : Str} (hs : PlainRun cfg.entities s u) (ho : Opens cfg.entities u) (ha : s ≠ [] → Apart s u)
    (hstop : preceded (notP (notAText x cfg rec)) anychar u = none) :
    many0 (preceded (notP (notAText x cfg rec)) anychar) (s ++ u) = some (u, s) := by
  induction s with
  | nil => exact many0_of_none hstop
  | cons c s ih =>
    exact many0_of_some (preceded_not_anychar (notAText_run (s := c :: s) (by simp) hs ho (ha (by simp))).1)
      (by simp) (ih hs.tail (fun hne => (ha (by simp)).suffix (a := [c]) hne))

theorem run_piece {s u : Str} (hne : s ≠ []) (hs : PlainRun cfg.entities s u) (ho : Opens cfg.entities u) (ha : Apart s u)
    (hstop : preceded (notP (notAText x cfg rec)) anychar u = none) :
    textPiece x cfg rec (s ++ u) = some (u, s) := by
  have hm := run_many0 hs ho (fun _ => ha) hstop
  obtain ⟨_, h2, h1⟩ := notAText_run (x := x) (rec := rec) hne hs ho ha
  unfold textPiece
  rw [orElse_of_none (mapP_none.2 h1), orElse_of_none h2]
  exact recognize_of (many1_of_many0 hm hne)

/-- Text that has no special characters stands for itself. -/
theorem PlainText.run {t u : Str} (h : PlainText t) : PlainRun ent t u :=
  ⟨fun a c b hab => .inl (h.1 c (by rw [hab]; simp)), h.2⟩

theorem QuietEnd.apart {t u : Str} (h : QuietEnd u) : Apart t u := by
  constructor
  · intro c hc h1
    have := h c hc
    revert h1
    have key : ∀ d ∈ cs!"<[\\!`*~&", ¬ (isAlnum d = true ∨ d = '_') := by decide
    exact fun h1 => absurd h1 (key c this)
  · intro hc
    exact absurd (h ' ' hc) (by decide)


/-! ## Identifiers -/

theorem hasDouble_of {w : Str} (h : hasDoubleUnderscore w = true) : cs!"__" <:+: w := by
  induction w with
  | nil => simp [hasDoubleUnderscore] at h
  | cons c w ih =>
    unfold hasDoubleUnderscore at h
    split at h
    · rename_i r e
      exact ⟨[], r, by rw [e]; rfl⟩
    · rename_i e
      injection e with e1 e2
      subst e2
      obtain ⟨a, b, hab⟩ := ih h
      exact ⟨c :: a, b, by rw [← hab]; rfl⟩
    · rename_i e; cases e

theorem Identifier.cons {w : Str} (h : Identifier w) : ∃ a r, w = a :: r ∧ isAlpha a = true := by
  cases w with
  | nil => have := h.under; simp at this
  | cons a r => exact ⟨a, r, rfl, h.start a rfl⟩

theorem Identifier.likely {w : Str} (h : Identifier w) : isLikelyEnvVar w = true := by
  obtain ⟨a, r, rfl, ha⟩ := h.cons
  have h1 : hasDoubleUnderscore (a :: r) = false := by
    cases e : hasDoubleUnderscore (a :: r) with
    | false => rfl
    | true => exact absurd (hasDouble_of e) h.single
  have h2 : a ≠ '_' := by rintro rfl; revert ha; decide
  have h3 := h.short
  have h4 : 3 ≤ (a :: r).length := by
    have hu := h.under
    have hf := h.finish
    match r, hu, hf with
    | [], hu, _ => simp at hu; exact absurd hu.symm h2
    | [b], hu, hf =>
      simp at hu hf
      rcases hu with hu | hu
      · exact absurd hu.symm h2
      · exact absurd hu.symm hf
    | _ :: _ :: _, _, _ => simp
  have h5 : (a :: r).contains '_' = true := by simpa using h.under
  have h6 : ((a :: r).getLast? == some '_') = false := by simpa using h.finish
  have h7 : ((a :: r).head? == some '_') = false := by simpa using h2
  unfold isLikelyEnvVar
  rw [h5, h6, h7, h1]
  simp only [List.length_cons] at h3 h4
  simp
  omega

/-- An identifier is read up to its end. -/
theorem word_many0 (n : Nat) : ∀ {s u : Str}, s.length ≤ n → (∀ c ∈ s, isAlnum c = true ∨ c = '_') → WordEnd u →
    ∃ l, many0 (alphanumeric1 <||> recognize (chr '_')) (s ++ u) = some (u, l) := by
  induction n with
  | zero =>
    intro s u hl hs hu
    have : s = [] := List.length_eq_zero_iff.1 (by omega)
    subst this
    refine ⟨[], many0_of_none ?_⟩
    rw [List.nil_append]
    cases u with
    | nil => rfl
    | cons c u =>
      obtain ⟨h1, h2⟩ := hu c rfl
      exact orElse_none.2 ⟨takeWhile1_none_of h1, recognize_none.2 (chr_ne h2)⟩
  | succ n ih =>
    intro s u hl hs hu
    cases s with
    | nil =>
      exact ih (by simp) (by simp) hu
    | cons c s =>
      by_cases hc : c = '_'
      · subst hc
        obtain ⟨l, h1⟩ := ih (s := s) (by simp at hl; omega) (fun d hd => hs d (by simp [hd])) hu
        refine ⟨['_'] :: l, many0_of_some (r := s ++ u) ?_ (by simp) h1⟩
        rw [orElse_of_none (show alphanumeric1 ('_' :: s ++ u) = none from takeWhile1_none_of (by decide))]
        exact recognize_of (a := ['_']) (v := '_') (chr_cons _ _)
      · have hca : isAlnum c = true := (hs c (by simp)).resolve_right hc
        generalize e1 : (c :: s).takeWhile isAlnum = a
        generalize e2 : (c :: s).dropWhile isAlnum = b
        have hab : c :: s = a ++ b := by rw [← e1, ← e2]; exact (List.takeWhile_append_dropWhile).symm
        have ha : a ≠ [] := by rw [← e1]; simp [hca]
        have hlen : b.length ≤ n := by
          have := congrArg List.length hab
          have := List.length_pos_iff.2 ha
          simp at *; omega
        obtain ⟨l, h1⟩ := ih (s := b) hlen (fun d hd => hs d (by rw [hab]; simp [hd])) hu
        refine ⟨a :: l, many0_of_some (r := b ++ u) ?_ ?_ h1⟩
        · refine orElse_of_some ?_
          rw [hab, List.append_assoc]
          have haa : ∀ d ∈ a, isAlnum d = true := by
            intro d hd; rw [← e1] at hd; exact takeWhile_all d hd
          have hbu : ∀ d, (b ++ u).head? = some d → isAlnum d = false := by
            intro d hd
            cases b with
            | nil => exact (hu d hd).1
            | cons z b =>
              simp at hd; subst hd
              have := List.head_dropWhile_not isAlnum (l := c :: s) (by rw [e2]; simp)
              simpa [e2] using this
          obtain ⟨k1, k2⟩ := takeWhile_span' haa hbu
          unfold alphanumeric1
          refine takeWhile1_some.2 ⟨k1.symm, k2.symm, ha⟩
        · rw [hab]
          have := List.length_pos_iff.2 ha
          simp; omega

theorem environmentVariable_of {w u : Str} (hw : Identifier w) (hu : WordEnd u) :
    environmentVariable (w ++ u) = some (u, .text w) := by
  unfold environmentVariable
  refine mapP_some.2 ⟨w, verify_some.2 ⟨?_, hw.likely⟩, rfl⟩
  obtain ⟨c, s, rfl, hc⟩ := hw.cons
  generalize e1 : (c :: s).takeWhile isAlpha = a
  generalize e2 : (c :: s).dropWhile isAlpha = b
  have hab : c :: s = a ++ b := by rw [← e1, ← e2]; exact (List.takeWhile_append_dropWhile).symm
  have ha : a ≠ [] := by rw [← e1]; simp [hc]
  obtain ⟨l, h1⟩ := word_many0 (u := u) b.length (Nat.le_refl _) (fun d hd => hw.word d (by rw [hab]; simp [hd])) hu
  refine recognize_of (v := (a, l)) (seq_some.2 ⟨b ++ u, ?_, h1⟩)
  rw [hab, List.append_assoc]
  have haa : ∀ d ∈ a, isAlpha d = true := by
    intro d hd; rw [← e1] at hd; exact takeWhile_all d hd
  have hbu : ∀ d, (b ++ u).head? = some d → isAlpha d = false := by
    intro d hd
    cases b with
    | nil =>
      have := (hu d hd).1
      cases e : isAlpha d with
      | false => rfl
      | true => rw [isAlnum_of_isAlpha e] at this; cases this
    | cons z b =>
      simp at hd; subst hd
      have := List.head_dropWhile_not isAlpha (l := c :: s) (by rw [e2]; simp)
      simpa [e2] using this
  obtain ⟨k1, k2⟩ := takeWhile_span' haa hbu
  unfold alpha1
  exact takeWhile1_some.2 ⟨k1.symm, k2.symm, ha⟩

theorem alpha_ne {c d : Char} (h : isAlpha c = true) (hd : isAlpha d = false) : c ≠ d := by
  rintro rfl; rw [h] at hd; simp at hd

theorem Segment.identifier (hp : InlineParse cfg) {w u : Str} (hw : Identifier w) (hu : WordEnd u) :
    Segment x cfg (w ++ u) u (.text w) := by
  have h := environmentVariable_of hw hu
  obtain ⟨c, s, rfl, hc⟩ := hw.cons
  rw [List.cons_append] at h ⊢
  have hn : ∃ y, notAText x cfg (parseInlines1 x cfg) (c :: (s ++ u)) = some y := by
    cases e : notAText x cfg (parseInlines1 x cfg) (c :: (s ++ u)) with
    | some y => exact ⟨y, rfl⟩
    | none =>
      unfold notAText at e
      simp only [orElse_none, value_none] at e
      have := e.2.2.2.2.2.2.2.2.2.2
      rw [h] at this; simp at this
  refine ⟨?_, hn, heads (alpha_ne hc (by decide)) (alpha_ne hc (by decide))⟩
  unfold inlineP inlineStep
  rw [orElse_of_none (condInline_none (mapP_none.2 (autolinkP_head (alpha_ne hc (by decide))))),
    orElse_of_none (condInline_none (inlineLink_head (alpha_ne hc (by decide)))),
    orElse_of_none (condInline_none (footnoteReferenceP_head (alpha_ne hc (by decide)))),
    orElse_of_none (condInline_none (referenceLink_head (alpha_ne hc (by decide)))),
    orElse_of_none (condInline_none (hardNewline_head (alpha_ne hc (by decide)) (alpha_ne hc (by decide)))),
    orElse_of_none (condInline_none (imageP_head (alpha_ne hc (by decide)))),
    orElse_of_none (condInline_none (mapP_none.2 (codeSpan_head (alpha_ne hc (by decide)))))]
  exact orElse_of_some (mapP_some.2 ⟨_, h, rfl⟩)

/-! ## All segments -/

/-- How a text is read, from an inline boundary, from inside a text, and whether text stops there. -/
structure ReadsBy (x : PExt) (cfg : PConfig) (s : Str) (is : List Inline) : Prop where
  top : ∃ ls, many0 (inlineP x cfg) s = some ([], ls) ∧ mergeText ls.flatten = is
  inside : ∃ ps r ls, many0 (textPiece x cfg (parseInlines1 x cfg)) s = some (r, ps) ∧
    many0 (inlineP x cfg) r = some ([], ls) ∧
    ∀ o, addText (o ++ ps.flatten) (mergeText ls.flatten) = addText o is
  stop : Opens cfg.entities s → preceded (notP (notAText x cfg (parseInlines1 x cfg))) anychar s = none

theorem Segment.piece_none {s u : Str} {i : Inline} (h : Segment x cfg s u i) :
    textPiece x cfg (parseInlines1 x cfg) s = none := by
  obtain ⟨_, ⟨y, hy⟩, h1, h2⟩ := h
  unfold textPiece
  rw [orElse_none, orElse_none, mapP_none, recognize_none]
  exact ⟨h1, h2, many1_none_of (stop_of_notAText hy)⟩

theorem Segment.by {s u : Str} {i : Inline} {is js : List Inline} (hc : cfg.CustomOk)
    (h : Segment x cfg s u i) (ih : ReadsBy x cfg u is) (his : ∀ l, mergeText l = is → mergeText (i :: l) = js) :
    ReadsBy x cfg s js := by
  obtain ⟨ls, h1, h2⟩ := ih.top
  have ht : many0 (inlineP x cfg) s = some ([], [i] :: ls) :=
    many0_of_some h.1 ((inlineP_con hc).out _ _ _ h.1).2 h1
  have hm : mergeText (List.flatten ([i] :: ls)) = js := his _ h2
  refine ⟨⟨_, ht, hm⟩, ⟨[], s, _, many0_of_none h.piece_none, ht, fun o => ?_⟩, fun _ => ?_⟩
  · rw [hm]; simp
  · obtain ⟨y, hy⟩ := h.2.1
    exact stop_of_notAText hy

theorem Segment.byNode {s u : Str} {i : Inline} {is : List Inline} (hc : cfg.CustomOk)
    (h : Segment x cfg s u i) (hi : NotTextFirst [i]) (ih : ReadsBy x cfg u is) : ReadsBy x cfg s (i :: is) :=
  h.by hc ih fun l hl => by rw [merge_cons hi, hl]

/-- A piece of text: at the front, or in the middle of a text. -/
theorem ReadsBy.piece (hc : cfg.CustomOk) (hp : InlineParse cfg) {s u t : Str} {is : List Inline}
    (hlen : u.length < s.length)
    (hpiece : textPiece x cfg (parseInlines1 x cfg) s = some (u, t))
    (hbefore : autolinkP s = none ∧ referenceLink (parseInlines1 x cfg) s = none ∧ Verif.hardNewline s = none ∧
      imageP s = none ∧ inlineLink (parseInlines1 x cfg) s = none ∧ Verif.codeSpan s = none ∧
      emphasisP x (parseInlines1 x cfg) s = none ∧ footnoteReferenceP s = none ∧
      strikethroughP (parseInlines1 x cfg) s = none)
    (henv : environmentVariable s = none)
    (hstop : Opens cfg.entities s → preceded (notP (notAText x cfg (parseInlines1 x cfg))) anychar s = none)
    (ih : ReadsBy x cfg u is) : ReadsBy x cfg s (addText t is) := by
  obtain ⟨ps, r, ls, h1, h2, h3⟩ := ih.inside
  have hm : many0 (textPiece x cfg (parseInlines1 x cfg)) s = some (r, t :: ps) :=
    many0_of_some hpiece hlen h1
  obtain ⟨b1, b2, b3, b4, b5, b6, b7, b8, b9⟩ := hbefore
  have hs : inlineP x cfg s = some (r, [.text (t :: ps).flatten]) := by
    unfold inlineP
    exact inlineStep_text hp.custom hp.text ⟨condInline_none (mapP_none.2 b1), condInline_none b5,
      condInline_none b8, condInline_none b2, condInline_none b3, condInline_none b4,
      condInline_none (mapP_none.2 b6), henv, condInline_none b7, condInline_none b9⟩
      (many1_of_many0 hm (by simp))
  refine ⟨⟨[.text (t :: ps).flatten] :: ls, many0_of_some hs ((inlineP_con hc).out _ _ _ hs).2 h2, ?_⟩,
    ⟨t :: ps, r, ls, hm, h2, fun o => ?_⟩, hstop⟩
  · show mergeText (.text (t :: ps).flatten :: ls.flatten) = _
    rw [merge_text, List.flatten_cons, h3]
  · rw [List.flatten_cons, ← List.append_assoc, h3, addText_addText]

theorem SpaceBreak.hard {u : Str} (h : SpaceBreak u) : ∃ y, Verif.hardNewline u = some y := by
  obtain ⟨n, v, hn, rfl⟩ := h
  exact ⟨_, hardNewline_spaces hn⟩

/-- The whole text is read, segment by segment. -/
theorem Reads.by {s : Str} {is : List Inline} (hc : cfg.CustomOk) (hp : InlineParse cfg)
    (h : Reads x cfg.entities s is) : ReadsBy x cfg s is := by
  have rec1 : ∀ {s : Str} {is : List Inline}, Reads x cfg.entities s is → is ≠ [] →
      ReadsBy x cfg s is → parseInlines1 x cfg s = some is := by
    intro s is hr hne hm
    obtain ⟨ls, h1, h2⟩ := hm.top
    have : ls ≠ [] := by rintro rfl; exact hne h2.symm
    rw [parseInlines1_eq hc, many1_of_many0 h1 this]
    simp [h2]
  have rec2 : ∀ {s : Str} {is : List Inline}, Reads x cfg.entities s is → LabelText s →
      ReadsBy x cfg s is → parseInlines1 x cfg s = some is := by
    intro s is hr hl hm
    refine rec1 hr (hr.ne.1 ?_) hm
    obtain ⟨c, hc, _⟩ := hl.visible
    rintro rfl; simp at hc
  induction h with
  | nil =>
    have := inlineP_con (x := x) hc
    refine ⟨⟨[], many0_nil_of_con, rfl⟩, ⟨[], [], [], many0_of_none textPiece_nil, many0_nil_of_con, fun o => ?_⟩,
      fun _ => stop_nil⟩
    simp [mergeText, mergeTextAux]
  | @run t u is h1 h2 h3 h4 h5 ih =>
    obtain ⟨k1, k2, k3⟩ := notAText_run (x := x) (rec := parseInlines1 x cfg) h1 h2 h3 h4
    have henv := env_none h1 h2.noUnder h4.1
    have hlen : u.length < (t ++ u).length := by
      have := List.length_pos_iff.2 h1
      simp; omega
    refine ReadsBy.piece hc hp hlen (run_piece h1 h2 h3 h4 (ih.stop h3)) (notAText_cases hp k1) henv ?_ ih
    intro ho
    exfalso
    rcases ho with ho | ⟨c, v, hcv, hl, _⟩ | ho | ⟨w, v, hwv, hw, hv⟩
    · exact h1 (List.append_eq_nil_iff.1 ho).1
    · obtain ⟨d, t, rfl⟩ := List.exists_cons_of_ne_nil h1
      have := h2.1 [] d t rfl
      simp at hcv
      rw [← hcv.1, ← hcv.2] at hl
      exact hl this
    · obtain ⟨y, hy⟩ := ho.hard
      rw [hardNewline_run h1 h2 h3 h4] at hy
      cases hy
    · rw [hwv, environmentVariable_of hw hv] at henv
      cases henv
  | identifier h1 h2 h3 ih =>
    exact (Segment.identifier hp h1 h2).by hc ih fun l hl => by rw [merge_text, hl]
  | @reference_char w out u is h1 h2 ih =>
    have he := CharRef.parse (cfg := cfg) (s := u) h1
    obtain ⟨z, hz⟩ := notAText_ref (x := x) (rec := parseInlines1 x cfg) hp.text he
    obtain ⟨t, rfl⟩ := h1.head
    rw [List.cons_append] at he hz ⊢
    refine ReadsBy.piece hc hp (by simp; omega) ?_ ?_ (environmentVariable_head (by decide))
      (fun _ => stop_of_notAText hz) ih
    · unfold textPiece
      rw [orElse_of_none (mapP_none.2 (escapedChar_head (by decide))), orElse_of_some he]
    · exact ⟨autolinkP_head (by decide), referenceLink_head (by decide), hardNewline_head (by decide) (by decide),
        imageP_head (by decide), inlineLink_head (by decide), codeSpan_head (by decide),
        emphasisP_head (by decide) (by decide), footnoteReferenceP_head (by decide), strikethroughP_head (by decide)⟩
  | @escape p u is h1 h2 ih =>
    refine ReadsBy.piece hc hp (by simp; omega) ?_ ?_ (environmentVariable_head (by decide)) ?_ ih
    · unfold textPiece
      refine orElse_of_some (mapP_some.2 ⟨p, ?_, rfl⟩)
      unfold escapedChar
      refine preceded_some.2 ⟨p :: u, '\\', chr_cons _ _, ?_⟩
      exact satisfy_some.2 ⟨rfl, by simpa [escapable] using h1⟩
    · refine ⟨autolinkP_head (by decide), referenceLink_head (by decide), ?_,
        imageP_head (by decide), inlineLink_head (by decide), codeSpan_head (by decide),
        emphasisP_head (by decide) (by decide), footnoteReferenceP_head (by decide), strikethroughP_head (by decide)⟩
      unfold Verif.hardNewline
      rw [value_none, orElse_none, value_none, value_none]
      constructor
      · unfold seq
        rw [chr_cons]
        simp only
        have : lineEnding (p :: u) = none := by
          cases e : lineEnding (p :: u) with
          | none => rfl
          | some y =>
            exfalso
            rcases lineEnding_some.1 e with ⟨h, _⟩ | ⟨h, _⟩
            · simp at h; rw [h.1] at h1; revert h1; decide
            · simp at h; rw [h.1] at h1; revert h1; decide
        rw [this]
      · refine seq_none ?_
        unfold manyMin
        cases e : verify (many0 (chr ' ')) (fun l => decide (2 ≤ l.length)) ('\\' :: p :: u) with
        | none => rfl
        | some y =>
          obtain ⟨e1, e2⟩ := verify_some.1 e
          rw [many0_of_none (chr_ne (by decide))] at e1
          simp at e1
          rw [e1.2] at e2
          simp at e2
    · intro ho
      exfalso
      rcases ho with ho | ⟨c, v, hcv, _, hl⟩ | ⟨n, v, hn, ho⟩ | ⟨w, v, hwv, hw, hv⟩
      · cases ho
      · simp at hcv
        have := hl hcv.1.symm
        rw [← hcv.2] at this
        simp at this
        rw [this] at h1; revert h1; decide
      · obtain ⟨m, rfl⟩ : ∃ m, n = m + 1 := ⟨n - 1, by omega⟩
        simp [List.replicate_succ] at ho
      · obtain ⟨a, r, rfl, ha⟩ := hw.cons
        simp at hwv
        rw [← hwv.1] at ha; revert ha; decide
  | code h1 h2 h3 h4 h5 ih =>
    exact (Segment.code hp h1 h2 h3 h4).byNode hc (by simp [NotTextFirst]) ih
  | autolink h1 h2 ih => exact (Segment.autolink hp h1).byNode hc (by simp [NotTextFirst]) ih
  | lineBreak h1 ih => exact (Segment.lineBreak hp).byNode hc (by simp [NotTextFirst]) ih
  | spaceBreak h1 h2 ih => exact (Segment.spaceBreak hp h1).byNode hc (by simp [NotTextFirst]) ih
  | emphasis h1 h2 h3 h4 h5 ih1 ih2 =>
    exact (Segment.emphasis hp (h2.ne.2 h1) h3 h4 (rec1 h2 h1 ih1)).byNode hc (by simp [NotTextFirst]) ih2
  | strong h1 h2 h3 h4 h5 ih1 ih2 =>
    exact (Segment.strong hp (h2.ne.2 h1) h3 h4 (rec1 h2 h1 ih1)).byNode hc (by simp [NotTextFirst]) ih2
  | both h1 h2 h3 h4 h5 ih1 ih2 =>
    exact (Segment.both hp (h2.ne.2 h1) h3 h4 (rec1 h2 h1 ih1)).byNode hc (by simp [NotTextFirst]) ih2
  | emphasisU h1 h2 h3 h4 h5 ih1 ih2 =>
    exact (Segment.emphasisU hp (h2.ne.2 h1) h3 h4 (rec1 h2 h1 ih1)).byNode hc (by simp [NotTextFirst]) ih2
  | strongU h1 h2 h3 h4 h5 ih1 ih2 =>
    exact (Segment.strongU hp (h2.ne.2 h1) h3 h4 (rec1 h2 h1 ih1)).byNode hc (by simp [NotTextFirst]) ih2
  | bothU h1 h2 h3 h4 h5 ih1 ih2 =>
    exact (Segment.bothU hp (h2.ne.2 h1) h3 h4 (rec1 h2 h1 ih1)).byNode hc (by simp [NotTextFirst]) ih2
  | strike h1 h2 h3 h4 h5 h6 ih1 ih2 =>
    exact (Segment.strike hp (h2.ne.2 h1) h3 h4 h5 (rec1 h2 h1 ih1)).byNode hc (by simp [NotTextFirst]) ih2
  | link h1 h2 h3 h4 ih1 ih2 =>
    exact (Segment.link hp h2 h3 (rec2 h1 h2 ih1)).byNode hc (by simp [NotTextFirst]) ih2
  | image h1 h2 h3 ih => exact (Segment.image hp h1 h2).byNode hc (by simp [NotTextFirst]) ih
  | footnote h1 h2 h3 h4 h5 ih =>
    exact (Segment.footnote hp h1 h3 h2 h4).byNode hc (by simp [NotTextFirst]) ih
  | shortcut h1 h2 h3 h4 h5 h6 ih1 ih2 =>
    exact (Segment.ofReference hp h2 h3 h4 (referenceLink_shortcut h2 (rec2 h1 h2 ih1) h5)).byNode hc
      (by simp [NotTextFirst]) ih2
  | collapsed h1 h2 h3 h4 ih1 ih2 =>
    exact (Segment.ofReference hp h2 h3 (by simp) (referenceLink_collapsed h2 (rec2 h1 h2 ih1))).byNode hc
      (by simp [NotTextFirst]) ih2
  | reference h1 h2 h3 h4 h5 h6 ih1 ih2 ih3 =>
    exact (Segment.ofReference hp h2 h3 (by simp)
      (referenceLink_full h2 (rec2 h1 h2 ih1) h5 (rec2 h4 h5 ih2))).byNode hc (by simp [NotTextFirst]) ih3

/-- The inlines of an unambiguous text are the ones it means. -/
theorem Reads.inlines {s : Str} {is : List Inline} (hc : cfg.CustomOk) (hp : InlineParse cfg)
    (hne : s ≠ []) (h : Reads x cfg.entities s is) : parseInlines1 x cfg s = some is := by
  obtain ⟨ls, h1, h2⟩ := (h.by hc hp).top
  have : ls ≠ [] := by rintro rfl; exact h.ne.1 hne h2.symm
  rw [parseInlines1_eq hc, many1_of_many0 h1 this]
  simp [h2]

theorem Reads.inlines0 {s : Str} {is : List Inline} (hc : cfg.CustomOk) (hp : InlineParse cfg)
    (h : Reads x cfg.entities s is) : parseInlines0 x cfg s = some is := by
  obtain ⟨ls, h1, h2⟩ := (h.by hc hp).top
  rw [parseInlines0_eq hc, h1]
  simp [h2]

/-! ## Text without special characters -/

theorem not_loose {c : Char} {v : Str} (h : c ∈ cs!"[`_") : ¬ Loose ent c v := by
  have key : ∀ c ∈ cs!"[`_", c ∈ inlineSpecial ∧ c ≠ '!' ∧ c ≠ '~' ∧ c ≠ '*' ∧ c ≠ '<' ∧ c ≠ '\\' ∧ c ≠ '&' := by decide
  obtain ⟨h1, h2, h3, h4, h5, h6, h7⟩ := key c h
  rintro (h | h | h | h | h | h | h)
  · exact h h1
  · exact h2 h.1
  · exact h3 h.1
  · exact h4 h.1
  · exact h5 h.1
  · exact h6 h.1
  · exact h7 h.1

theorem not_loose_star {v : Str} (h : ∃ d, v.head? = some d ∧ isWs d = false) : ¬ Loose ent '*' v := by
  obtain ⟨d, h1, h2⟩ := h
  rintro (h | h | h | h | h | h | h)
  · exact h (by decide)
  · exact absurd h.1 (by decide)
  · exact absurd h.1 (by decide)
  · have := h.2 d h1; rw [h2] at this; cases this
  all_goals exact absurd h.1 (by decide)

theorem AutolinkText.first {l : Str} (h : AutolinkText l) :
    ∃ d, l.head? = some d ∧ (isAlnum d = true ∨ d ∈ cs!"_-.") := by
  cases h with
  | @uri a sch r h1 _ _ _ => exact ⟨a, rfl, .inl (isAlnum_of_isAlpha h1)⟩
  | @email u d h1 _ h2 _ =>
    obtain ⟨c, u, rfl⟩ := List.exists_cons_of_ne_nil h1
    refine ⟨c, rfl, ?_⟩
    rcases h2 c (by simp) with h | h | h | h
    · exact .inl h
    all_goals exact .inr (by simp [h])

/-- Inlines that do not begin with text begin where text ends. -/
theorem Reads.opens {s : Str} {is : List Inline} (h : Reads x ent s is) (hn : NotTextFirst is) :
    Opens ent s := by
  have mk : ∀ {c v}, ¬ Loose ent c v → c ≠ '\\' → Opens ent (c :: v) :=
    fun h1 h2 => .inr (.inl ⟨_, _, rfl, h1, fun h => absurd h h2⟩)
  have starHead : ∀ {s v : Str} {inner : List Inline}, inner ≠ [] → Reads x ent s inner →
      (∀ c, s.head? = some c → isWs c = false) → ∃ d, (s ++ v).head? = some d ∧ isWs d = false := by
    intro s v inner h1 h2 h3
    obtain ⟨c, s, rfl⟩ := List.exists_cons_of_ne_nil (h2.ne.2 h1)
    exact ⟨c, rfl, h3 c rfl⟩
  cases h with
  | nil => exact .inl rfl
  | run _ _ _ _ _ => exact absurd hn addText_notText
  | identifier _ _ _ => exact absurd hn addText_notText
  | reference_char _ _ => exact absurd hn addText_notText
  | escape _ _ => exact absurd hn addText_notText
  | @code n c out u is h1 h2 h3 h4 h5 =>
    obtain ⟨m, rfl⟩ : ∃ m, n = m + 1 := ⟨n - 1, by omega⟩
    exact mk (not_loose (by decide)) (by decide)
  | @autolink l u is h1 h2 =>
    refine mk ?_ (by decide)
    obtain ⟨d, h3, h4⟩ := h1.first
    have h3 : (l ++ '>' :: u).head? = some d := by
      cases l with
      | nil => simp at h3
      | cons a l => exact h3
    rintro (h | h | h | h | h | h | h)
    · exact h (by decide)
    · exact absurd h.1 (by decide)
    · exact absurd h.1 (by decide)
    · exact absurd h.1 (by decide)
    · obtain ⟨h5, h6⟩ := h.2 d h3
      rcases h4 with h4 | h4
      · rw [h4] at h5; cases h5
      · exact h6 h4
    all_goals exact absurd h.1 (by decide)
  | lineBreak _ =>
    refine .inr (.inl ⟨_, _, rfl, ?_, fun _ => rfl⟩)
    rintro (h | h | h | h | h | h | h)
    · exact h (by decide)
    · exact absurd h.1 (by decide)
    · exact absurd h.1 (by decide)
    · exact absurd h.1 (by decide)
    · exact absurd h.1 (by decide)
    · exact (h.2 '\n' rfl).2.1 rfl
    · exact absurd h.1 (by decide)
  | spaceBreak h1 h2 => exact .inr (.inr (.inl ⟨_, _, h1, rfl⟩))
  | emphasis h1 h2 h3 _ _ => exact mk (not_loose_star (starHead h1 h2 h3.start)) (by decide)
  | strong _ _ _ _ _ => exact mk (not_loose_star ⟨'*', rfl, by decide⟩) (by decide)
  | both _ _ _ _ _ => exact mk (not_loose_star ⟨'*', rfl, by decide⟩) (by decide)
  | emphasisU _ _ _ _ _ => exact mk (not_loose (by decide)) (by decide)
  | strongU _ _ _ _ _ => exact mk (not_loose (by decide)) (by decide)
  | bothU _ _ _ _ _ => exact mk (not_loose (by decide)) (by decide)
  | strike _ _ _ _ _ _ =>
    refine mk ?_ (by decide)
    rintro (h | h | h | h | h | h | h)
    · exact h (by decide)
    · exact absurd h.1 (by decide)
    · exact h.2 rfl
    all_goals exact absurd h.1 (by decide)
  | image _ _ _ =>
    refine mk ?_ (by decide)
    rintro (h | h | h | h | h | h | h)
    · exact h (by decide)
    · exact h.2 rfl
    all_goals exact absurd h.1 (by decide)
  | link _ _ _ _ => exact mk (not_loose (by decide)) (by decide)
  | footnote _ _ _ _ _ => exact mk (not_loose (by decide)) (by decide)
  | shortcut _ _ _ _ _ _ => exact mk (not_loose (by decide)) (by decide)
  | collapsed _ _ _ _ => exact mk (not_loose (by decide)) (by decide)
  | reference _ _ _ _ _ _ => exact mk (not_loose (by decide)) (by decide)

/-- Text without special characters in front of something else. -/
theorem Reads.text {t u : Str} {is : List Inline} (h1 : t ≠ []) (h2 : PlainText t) (h3 : NotTextFirst is)
    (h4 : Apart t u) (h5 : Reads x ent u is) : Reads x ent (t ++ u) (.text t :: is) := by
  have := Reads.run h1 (h2.run (ent := ent) (u := u)) (h5.opens h3) h4 h5
  rwa [addText_of h3] at this

theorem apart_nil {t : Str} : Apart t [] := ⟨by simp, by simp⟩

theorem apart_of {t u : Str} (h : u.head?.all (fun c => cs!"<[\\!`*~&".contains c) = true) : Apart t u :=
  QuietEnd.apart fun c hc => by rw [hc] at h; simpa using h

theorem Reads.text1 {t : Str} (h1 : t ≠ []) (h2 : PlainText t) : Reads x ent t [.text t] := by
  have := Reads.text (x := x) (ent := ent) h1 h2 (by simp [NotTextFirst]) apart_nil .nil
  simpa using this

end
end Verif
