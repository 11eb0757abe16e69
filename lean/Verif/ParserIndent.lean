import Verif.InlineGrammarProps
/-!
# Indented lines

Blocks may be indented by up to three spaces.
-/
set_option linter.unusedVariables false
namespace Verif
open Nom

/-! ## Indented lines -/

section
variable {x : PExt} {cfg : PConfig} {rec : P (List Block)} {k : Nat} {c : Char} {t : Str}

theorem preceded_indent_replicate {α : Type} {p : P α} (hk : k ≤ 3) (h : c ≠ ' ') :
    preceded indent03 p (List.replicate k ' ' ++ c :: t) = p (c :: t) := by
  unfold preceded
  rw [indent03_replicate hk (by simpa using h)]

theorem preceded_indent_same {α : Type} {p : P α} (hk : k ≤ 3) (h : c ≠ ' ') :
    preceded indent03 p (List.replicate k ' ' ++ c :: t) = preceded indent03 p (c :: t) := by
  rw [preceded_indent_replicate hk h, preceded_indent h]

theorem lineTerminated_congr {α : Type} {p : P α} {s s' : Str} (h : p s = p s') :
    lineTerminated p s = lineTerminated p s' := by
  unfold lineTerminated terminated mapP seq
  rw [h]

theorem thematicBreakP_indent (hk : k ≤ 3) (h : c ≠ ' ') :
    thematicBreakP (List.replicate k ' ' ++ c :: t) = thematicBreakP (c :: t) := by
  unfold thematicBreakP value mapP
  rw [lineTerminated_congr (preceded_indent_same hk h)]

theorem tableRow_indent (hk : k ≤ 3) (h : c ≠ ' ') :
    tableRow x cfg (List.replicate k ' ' ++ c :: t) = tableRow x cfg (c :: t) := by
  unfold tableRow
  rw [lineTerminated_congr (preceded_indent_same hk h)]

theorem alignmentRow_indent (hk : k ≤ 3) (h : c ≠ ' ') :
    alignmentRow (List.replicate k ' ' ++ c :: t) = alignmentRow (c :: t) := by
  unfold alignmentRow
  rw [lineTerminated_congr (preceded_indent_same hk h)]

theorem tableP_indent (hk : k ≤ 3) (h : c ≠ ' ') :
    tableP x cfg (List.replicate k ' ' ++ c :: t) = tableP x cfg (c :: t) := by
  unfold tableP
  rw [tableRow_indent hk h]

theorem quotePrefix_indent (hk : k ≤ 3) (h : c ≠ ' ') :
    quotePrefix (List.replicate k ' ' ++ c :: t) = quotePrefix (c :: t) :=
  preceded_indent_same hk h

theorem blockquoteP_indent_none (hk : k ≤ 3) (h : c ≠ ' ') (h' : c ≠ '>') :
    blockquoteP rec (List.replicate k ' ' ++ c :: t) = none :=
  mapOpt_none (many1_none_of (preceded_none
    ((quotePrefix_indent hk h).trans (quotePrefix_head h h'))))

theorem githubAlertP_indent_none (hk : k ≤ 3) (h : c ≠ ' ') (h' : c ≠ '>') :
    githubAlertP x rec (List.replicate k ' ' ++ c :: t) = none := by
  unfold githubAlertP
  rw [preceded_none (seq_none ((quotePrefix_indent hk h).trans (quotePrefix_head h h')))]

theorem codeBlockFenced_indent_none (hk : k ≤ 3) (h1 : c ≠ ' ') (h2 : c ≠ '`') (h3 : c ≠ '~') :
    codeBlockFenced (List.replicate k ' ' ++ c :: t) = none := by
  have : seq indent03 openingFence (List.replicate k ' ' ++ c :: t) = none := by
    unfold seq
    rw [indent03_replicate hk (by simpa using h1)]
    simp only
    have : openingFence (c :: t) = none := by
      unfold openingFence lineTerminated
      refine terminated_none (seq_none ?_)
      rw [recognize_none, orElse_none]
      exact ⟨manyMin_none_of (chr_ne h2) 2, manyMin_none_of (chr_ne h3) 2⟩
    rw [this]
  unfold codeBlockFenced
  rw [this]

theorem codeBlockP_indent_none (hk : k ≤ 3) (h1 : c ≠ ' ') (h2 : c ≠ '`') (h3 : c ≠ '~')
    (h4 : c ≠ '\t') : codeBlockP (List.replicate k ' ' ++ c :: t) = none := by
  unfold codeBlockP
  rw [orElse_none]
  exact ⟨codeBlockIndented_indent hk h1 h4, codeBlockFenced_indent_none hk h1 h2 h3⟩

theorem headingV1_indent_none (h : c ≠ '#') :
    headingV1 x cfg (List.replicate k ' ' ++ c :: t) = none := by
  cases k with
  | zero => exact headingV1_head h
  | succ k => exact headingV1_head (by decide)

theorem orElse_same {α : Type} {p q : P α} {s s' : Str} (h1 : p s = p s') (h2 : q s = q s') :
    orElse p q s = orElse p q s' := by
  unfold orElse; rw [h1, h2]

theorem htmlBlockP_indent (hk : k ≤ 3) (h : c ≠ ' ') :
    htmlBlockP (List.replicate k ' ' ++ c :: t) = htmlBlockP (c :: t) := by
  unfold htmlBlockP
  have e : ∀ p : P Str, preceded indent03 p (List.replicate k ' ' ++ c :: t) =
      preceded indent03 p (c :: t) := fun p => preceded_indent_same hk h
  exact orElse_same (e _) (orElse_same (e _) (orElse_same (e _) (orElse_same (e _)
    (orElse_same (e _) (orElse_same (e _) (e _))))))

theorem footnoteDefinitionP_indent (hk : k ≤ 3) (h : c ≠ ' ') :
    footnoteDefinitionP rec (List.replicate k ' ' ++ c :: t) = footnoteDefinitionP rec (c :: t) := by
  unfold footnoteDefinitionP
  rw [preceded_indent_same hk h]

theorem linkDefinitionP_indent (hk : k ≤ 3) (h : c ≠ ' ') :
    linkDefinitionP x cfg (List.replicate k ' ' ++ c :: t) = linkDefinitionP x cfg (c :: t) := by
  unfold linkDefinitionP mapP terminated mapP seq
  rw [preceded_indent_same hk h]

theorem listItemP_indent_none (hk : k ≤ 3) (h0 : c ≠ ' ') (h1 : isDigit c = false) (h2 : c ≠ '*')
    (h3 : c ≠ '+') (h4 : c ≠ '-') : listItemP rec (List.replicate k ' ' ++ c :: t) = none := by
  have hl := listMarker_head (t := t) h1 h2 h3 h4
  have : listMarkerWithSpanSize (List.replicate k ' ' ++ c :: t) = none := by
    unfold listMarkerWithSpanSize
    rw [orElse_none, mapP_none, mapP_none]
    constructor
    · unfold listMarkerFollowedByNewline
      rw [preceded_indent_replicate hk h0, hl]
    · refine seq_none ?_
      unfold listMarkerFollowedBySpaces
      have : delimited indent03 listMarker (manyMN (chr ' ') 1 4) (List.replicate k ' ' ++ c :: t) =
          none := by
        unfold delimited; rw [preceded_indent_replicate hk h0]; exact terminated_none hl
      rw [this]
  unfold listItemP
  rw [this]

theorem listP_indent_none (hk : k ≤ 3) (h0 : c ≠ ' ') (h1 : isDigit c = false) (h2 : c ≠ '*')
    (h3 : c ≠ '+') (h4 : c ≠ '-') : listP rec (List.replicate k ' ' ++ c :: t) = none := by
  unfold listP
  rw [many1_none_of (listItemP_indent_none hk h0 h1 h2 h3 h4)]

end


section
variable {x : PExt} {cfg : PConfig} {rec : P (List Block)} {k : Nat} {c : Char} {t : Str}

theorem headingV2Level_indent (hk : k ≤ 3) (h : c ≠ ' ') :
    headingV2Level (List.replicate k ' ' ++ c :: t) = headingV2Level (c :: t) := by
  unfold headingV2Level
  rw [lineTerminated_congr (preceded_indent_same hk h)]

theorem codeBlockFenced_indent_of (hk : k ≤ 3) (h : c ≠ ' ') (ho : openingFence (c :: t) = none) :
    codeBlockFenced (List.replicate k ' ' ++ c :: t) = none := by
  have : seq indent03 openingFence (List.replicate k ' ' ++ c :: t) = none := by
    unfold seq
    rw [indent03_replicate hk (by simpa using h)]
    simp only
    rw [ho]
  unfold codeBlockFenced
  rw [this]

theorem listItemP_indent_of (hk : k ≤ 3) (h0 : c ≠ ' ')
    (h : ∀ r kind, listMarker (c :: t) = some (r, kind) → ∃ d r', r = d :: r' ∧ d ∉ cs!" \t\r\n[") :
    listItemP rec (List.replicate k ' ' ++ c :: t) = none := by
  have : listMarkerWithSpanSize (List.replicate k ' ' ++ c :: t) = none := by
    unfold listMarkerWithSpanSize
    rw [orElse_none, mapP_none, mapP_none]
    cases hm : listMarker (c :: t) with
    | none =>
      constructor
      · unfold listMarkerFollowedByNewline
        rw [preceded_indent_replicate hk h0, hm]
      · refine seq_none ?_
        unfold listMarkerFollowedBySpaces
        have : delimited indent03 listMarker (manyMN (chr ' ') 1 4) (List.replicate k ' ' ++ c :: t) =
            none := by
          unfold delimited; rw [preceded_indent_replicate hk h0]; exact terminated_none hm
        rw [this]
    | some y =>
      obtain ⟨r, kind⟩ := y
      obtain ⟨d, r, rfl, hd⟩ := h r kind hm
      have hd' : d ≠ ' ' ∧ d ≠ '\t' ∧ d ≠ '\r' ∧ d ≠ '\n' ∧ d ≠ '[' := by
        refine ⟨?_, ?_, ?_, ?_, ?_⟩ <;> rintro rfl <;> exact hd (by decide)
      obtain ⟨d1, d2, d3, d4, d5⟩ := hd'
      constructor
      · unfold listMarkerFollowedByNewline
        rw [preceded_indent_replicate hk h0, hm]
        simp only
        rw [(blankLine_head d1 d2 d4 d3).1]
        simp only
        rw [indent03_cons d1]
        simp only
        rw [mapP_none]
        refine terminated_none ?_
        exact delimited_none (chr_ne d5)
      · refine seq_none ?_
        unfold listMarkerFollowedBySpaces
        have : delimited indent03 listMarker (manyMN (chr ' ') 1 4) (List.replicate k ' ' ++ c :: t) =
            none := by
          unfold delimited
          rw [preceded_indent_replicate hk h0]
          cases e : terminated listMarker (manyMN (chr ' ') 1 4) (c :: t) with
          | none => rfl
          | some y =>
            exfalso
            obtain ⟨r', a⟩ := y
            obtain ⟨s1, _, e1, e2⟩ := terminated_some.1 e
            rw [hm] at e1
            simp at e1
            rw [← e1.1, manyMN_pos_of_none (chr_ne d1) 0 3] at e2
            simp at e2
        rw [this]
  unfold listItemP
  rw [this]

end

/-! ## Autolinks at the beginning of a line -/

/-- A letter, a digit or a dash: the characters of tag names. -/
def NameChar (c : Char) : Prop := isAlnum c = true ∨ c = '-'

theorem AutolinkText.chars {l : Str} (h : AutolinkText l) :
    (∀ c ∈ l, c ∉ cs!" \t\r\n<>") ∧ (':' ∈ l ∨ '@' ∈ l) ∧
      ∀ c, l.head? = some c → c ∉ cs!"!?/" := by
  cases h with
  | @uri a sch r h1 h2 h3 h4 =>
    refine ⟨?_, .inl (by simp), ?_⟩
    · intro c hc
      simp at hc
      rcases hc with rfl | hc | rfl | hc
      · intro hm
        have : ∀ c ∈ cs!" \t\r\n<>", isAlpha c = false := by decide
        have := this _ hm
        rw [h1] at this; cases this
      · have := h3 c hc
        intro hm
        have key : ∀ c ∈ cs!" \t\r\n<>", ¬ (isAlnum c = true ∨ c = '+' ∨ c = '.' ∨ c = '-') := by decide
        exact key _ hm this
      · decide
      · obtain ⟨k1, k2, k3, k4⟩ := h4 c hc
        intro hm
        have key : ∀ c ∈ cs!" \t\r\n<>", isAsciiWs c = true ∨ c = '<' ∨ c = '>' := by decide
        rcases key _ hm with h | h | h
        · simp_all
        · exact k3 h
        · exact k4 h
    · intro c hc hm
      simp at hc; subst hc
      have key : ∀ c ∈ cs!"!?/", isAlpha c = false := by decide
      have := key _ hm
      simp_all
  | @email u d h1 h2 h3 h4 =>
    refine ⟨?_, .inr (by simp), ?_⟩
    · intro c hc hm
      simp at hc
      have key : ∀ c ∈ cs!" \t\r\n<>", isAlnum c = false ∧ c ≠ '_' ∧ c ≠ '-' ∧ c ≠ '.' ∧ c ≠ '@' := by
        decide
      obtain ⟨k1, k2, k3, k4, k5⟩ := key c hm
      rcases hc with hc | rfl | hc
      · rcases h3 c hc with h | h | h | h <;> simp_all
      · exact k5 rfl
      · rcases h4 c hc with h | h | h <;> simp_all
    · intro c hc hm
      obtain ⟨a, u, rfl⟩ := List.exists_cons_of_ne_nil h1
      simp at hc; subst hc
      have key : ∀ c ∈ cs!"!?/", isAlnum c = false ∧ c ≠ '_' ∧ c ≠ '-' ∧ c ≠ '.' := by decide
      obtain ⟨k1, k2, k3, k4⟩ := key _ hm
      rcases h3 a (by simp) with h | h | h | h <;> simp_all

theorem isAlnum_of_lower {c : Char} (h : isAlnum (asciiLower c) = true) : isAlnum c = true := by
  unfold asciiLower at h
  split at h
  · rename_i hu
    simp only [isAlnum, isAlpha, isAsciiUpper, Bool.or_eq_true, decide_eq_true_eq, Bool.and_eq_true] at *
    exact .inl (.inr hu)
  · exact h

theorem eats_tagNoCase {n : Str} (hn : ∀ c ∈ n, isAlnum c = true) : Eats NameChar (tagNoCase n) := by
  intro s r a h
  obtain ⟨h1, rfl, rfl⟩ := tagNoCase_some.1 h
  refine ⟨s.take n.length, by simp, ?_⟩
  intro c hc
  refine .inl (isAlnum_of_lower (hn _ ?_))
  rw [h1]
  exact List.mem_map.2 ⟨c, hc, rfl⟩

theorem eats_anyTagNoCase {l : List Str} (hl : ∀ n ∈ l, ∀ c ∈ n, isAlnum c = true) :
    Eats NameChar (anyTagNoCase l) := by
  induction l with
  | nil => intro s r a h; simp [anyTagNoCase, failP] at h
  | cons n l ih =>
    exact Eats.orElse (eats_tagNoCase (hl n (by simp))) (ih (fun m hm => hl m (by simp [hm])))

section
variable {l t : Str}

/-- What is left of an autolink after a tag name. -/
theorem autolink_cut (h : AutolinkText l) {α : Type} {p : P α} (hp : Eats NameChar p) {r : Str} {a : α}
    (e : p (l ++ '>' :: t) = some (r, a)) :
    ∃ c v, r = c :: v ∧ c ∉ cs!" \t\r\n<>" ∧ (c = '/' → v.head? ≠ some '>') := by
  obtain ⟨h1, h2, _⟩ := h.chars
  obtain ⟨n, hs, hn⟩ := hp _ _ _ e
  have hbad : ¬ NameChar '>' ∧ ¬ NameChar ':' ∧ ¬ NameChar '@' := by
    unfold NameChar; decide
  rcases List.append_eq_append_iff.1 hs with ⟨a', rfl, h4⟩ | ⟨m, rfl, h4⟩
  · -- the name contains the whole link
    exfalso
    rcases h2 with h2 | h2
    · exact hbad.2.1 (hn _ (by simp [h2]))
    · exact hbad.2.2 (hn _ (by simp [h2]))
  · cases m with
    | nil =>
      exfalso
      rcases h2 with h2 | h2
      · exact hbad.2.1 (hn _ (by simpa using h2))
      · exact hbad.2.2 (hn _ (by simpa using h2))
    | cons c m =>
      refine ⟨c, m ++ '>' :: t, h4, h1 c (by simp), ?_⟩
      rintro rfl hh
      cases m with
      | nil =>
        rcases h2 with h2 | h2
        · simp at h2; exact hbad.2.1 (hn _ h2)
        · simp at h2; exact hbad.2.2 (hn _ h2)
      | cons d m =>
        simp at hh; subst hh
        exact h1 '>' (by simp) (by decide)

theorem htmlBlockP_autolink (h : AutolinkText l) : htmlBlockP ('<' :: (l ++ '>' :: t)) = none := by
  have hne : l ≠ [] := by
    rintro rfl
    have := h.chars.2.1
    simp at this
  obtain ⟨d, m, hdm⟩ := List.exists_cons_of_ne_nil hne
  have hd : d ∉ cs!"!?/" := h.chars.2.2 d (by simp [hdm])
  have hd' : d ≠ '!' ∧ d ≠ '?' ∧ d ≠ '/' := by
    refine ⟨?_, ?_, ?_⟩ <;> rintro rfl <;> exact hd (by decide)
  obtain ⟨d1, d2, d3⟩ := hd'
  have hsrc : l ++ '>' :: t = d :: (m ++ '>' :: t) := by rw [hdm]; rfl
  have htag : ∀ (a : Char) (w : Str), a ≠ d → tag ('<' :: a :: w) ('<' :: (l ++ '>' :: t)) = none := by
    intro a w ha
    rw [tag_none, hsrc]
    rintro ⟨u, hu⟩
    simp at hu
    exact ha hu.1
  have hafter : ∀ {c : Char} {v : Str}, c ∉ cs!" \t\r\n<>" → c ≠ ' ' ∧ c ≠ '>' ∧ c ≠ '\n' ∧ c ≠ '\r' ∧ c ≠ '\t' := by
    intro c v hc
    refine ⟨?_, ?_, ?_, ?_, ?_⟩ <;> rintro rfl <;> exact hc (by decide)
  have hle : ∀ {c : Char} {v : Str}, c ≠ '\n' → c ≠ '\r' → lineEnding (c :: v) = none := by
    intro c v h1 h2
    unfold lineEnding
    split <;> simp_all
  unfold htmlBlockP
  simp only [orElse_none]
  refine ⟨?_, ?_, ?_, ?_, ?_, ?_, ?_⟩
  · unfold htmlBlock1
    rw [preceded_indent (by decide), recognize_none]
    unfold seq
    rw [chr_cons]
    simp only
    cases e : html1Tag (l ++ '>' :: t) with
    | none => rfl
    | some y =>
      obtain ⟨r, a⟩ := y
      have he : Eats NameChar html1Tag := Eats.orElse (eats_tagNoCase (by decide))
        (Eats.orElse (eats_tagNoCase (by decide)) (eats_tagNoCase (by decide)))
      obtain ⟨c, v, rfl, hc, _⟩ := autolink_cut h he e
      obtain ⟨c1, c2, c3, c4, _⟩ := hafter (v := v) hc
      have : (value () (chr ' ') <||> value () (chr '>') <||> value () lineEnding) (c :: v) = none := by
        simp only [orElse_none, value_none]
        exact ⟨chr_ne c1, chr_ne c2, hle c3 c4⟩
      simp only
      rw [this]
  · unfold htmlBlock2
    rw [preceded_indent (by decide), recognize_none]
    exact seq_none (htag _ _ (Ne.symm d1))
  · unfold htmlBlock3
    rw [preceded_indent (by decide), recognize_none]
    exact seq_none (htag _ _ (Ne.symm d2))
  · unfold htmlBlock4
    rw [preceded_indent (by decide), recognize_none]
    exact seq_none (htag _ _ (Ne.symm d1))
  · unfold htmlBlock5
    rw [preceded_indent (by decide), recognize_none]
    exact seq_none (htag _ _ (Ne.symm d1))
  · unfold htmlBlock6
    rw [preceded_indent (by decide), recognize_none]
    unfold seq
    have h1 : (value () (tag cs!"</") <||> value () (chr '<')) ('<' :: (l ++ '>' :: t)) =
        some (l ++ '>' :: t, ()) := by
      rw [orElse_of_none (value_none.2 (htag _ _ (Ne.symm d3)))]
      exact value_some.2 ⟨_, chr_cons _ _, rfl⟩
    rw [h1]
    simp only
    cases e : anyTagNoCase html6Names (l ++ '>' :: t) with
    | none => rfl
    | some y =>
      obtain ⟨r, a⟩ := y
      have he : Eats NameChar (anyTagNoCase html6Names) := eats_anyTagNoCase (by decide +kernel)
      obtain ⟨c, v, rfl, hc, hs⟩ := autolink_cut h he e
      obtain ⟨c1, c2, c3, c4, _⟩ := hafter (v := v) hc
      have : (value () (chr ' ') <||> value () lineEnding <||> value () (tag cs!"/>") <||>
          value () (chr '>')) (c :: v) = none := by
        simp only [orElse_none, value_none]
        refine ⟨chr_ne c1, hle c3 c4, ?_, chr_ne c2⟩
        rw [tag_none]
        rintro ⟨u, hu⟩
        simp at hu
        exact hs hu.1.symm (by rw [← hu.2]; rfl)
      simp only
      rw [this]
  · unfold htmlBlock7
    rw [preceded_indent (by decide), recognize_none]
    refine seq_none ?_
    rw [orElse_none]
    constructor
    · unfold completeOpenHtmlTag
      rw [recognize_none]
      unfold seq
      rw [chr_cons]
      simp only
      cases e : verify htmlTagName (fun s => ![cs!"script", cs!"pre", cs!"style"].any
          (fun t => t == s.map asciiLower)) (l ++ '>' :: t) with
      | none => rfl
      | some y =>
        obtain ⟨r, a⟩ := y
        have he : Eats NameChar htmlTagName := by
          intro s r a h
          unfold htmlTagName at h
          obtain ⟨b, h1, h2⟩ := recognize_some.1 h
          exact Eats.seq (f := NameChar) (Eats.takeWhile1 (fun c hc => .inl (by
            simp only [isAlnum, Bool.or_eq_true]; exact .inl hc)))
            (Eats.many0 (Eats.orElse (Eats.mapP (Eats.satisfy (by
              intro c hc; simp at hc; exact .inr hc)))
            (Eats.mapP (Eats.takeWhile1 (fun c hc => .inl hc))))) _ _ _ h1
        obtain ⟨c, v, rfl, hc, hs⟩ := autolink_cut h he (verify_some.1 e).1
        obtain ⟨c1, c2, c3, c4, c5⟩ := hafter (v := v) hc
        have hsp : isSpace c = false := by simp [isSpace, c1, c5]
        have hat : many0 htmlTagAttribute (c :: v) = some (c :: v, []) := by
          refine many0_of_none ?_
          unfold htmlTagAttribute
          rw [recognize_none]
          refine seq_none ?_
          cases e : space1 (c :: v) with
          | none => rfl
          | some y =>
            obtain ⟨r, a⟩ := y
            obtain ⟨h2, _, h3⟩ := takeWhile1_some.1 e
            rw [List.takeWhile_cons, hsp] at h2
            simp at h2; exact absurd h2 h3
        have hsp0 : space0 (c :: v) = some (c :: v, []) := by
          show takeWhile _ _ = _
          simp [Nom.takeWhile, List.dropWhile_cons, List.takeWhile_cons, hsp]
        simp only
        rw [hat]
        simp only
        rw [hsp0]
        simp only
        by_cases hc2 : c = '/'
        · subst hc2
          have : opt (chr '/') ('/' :: v) = some (v, some '/') := opt_some.2 (.inl ⟨_, chr_cons _ _, rfl⟩)
          rw [this]
          simp only
          cases v with
          | nil => rfl
          | cons b v =>
            have : chr '>' (b :: v) = none := chr_ne (by simpa using hs rfl)
            rw [this]
        · have : opt (chr '/') (c :: v) = some (c :: v, none) := opt_some.2 (.inr ⟨chr_ne hc2, rfl, rfl⟩)
          rw [this]
          simp only
          rw [chr_ne c2]
    · unfold completeClosingHtmlTag
      rw [recognize_none]
      exact seq_none (htag _ _ (Ne.symm d3))

end
end Verif
