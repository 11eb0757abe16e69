import Verif.GrammarBlock
/-!
# HTML blocks are read by the grammar (C71)
-/
set_option linter.unusedVariables false
set_option linter.unusedSimpArgs false
namespace Verif
open Nom

section
variable {α β : Type} {p : P α} {q : P β}

theorem Writes.seq {E : α → Str → Str → Prop} {E' : β → Str → Str → Prop} (h : Writes p E) (h' : Writes q E') :
    Writes (seq p q) (fun y w r => ∃ w1 w2, w = w1 ++ w2 ∧ E y.1 w1 (w2 ++ r) ∧ E' y.2 w2 r) := by
  intro s r y hp
  obtain ⟨s1, h1, h2⟩ := seq_some.1 hp
  obtain ⟨w1, rfl, h3⟩ := h _ _ _ h1
  obtain ⟨w2, rfl, h4⟩ := h' _ _ _ h2
  exact ⟨w1 ++ w2, by simp, w1, w2, rfl, h3, h4⟩

theorem Writes.recognize [Suf p] {E : Str → Str → Prop} (h : Writes p (fun _ w r => E w r)) :
    Writes (recognize p) (fun t w r => t = w ∧ E w r) := by
  intro s r t hp
  have hs := recognize_append hp
  obtain ⟨a, h1, _⟩ := recognize_some.1 hp
  obtain ⟨w, rfl, h2⟩ := h _ _ _ h1
  have : t = w := List.append_cancel_right hs
  exact ⟨w, rfl, this, h2⟩

theorem Writes.unit {E : Str → Str → Prop} (h : Writes p (fun _ w r => E w r)) {b : β} :
    Writes (value b p) (fun _ w r => E w r) := by
  intro s r t hp
  obtain ⟨a, h1, _⟩ := value_some.1 hp
  exact h _ _ _ h1

theorem chr_writes {c : Char} : Writes (chr c) (fun _ w _ => w = [c]) := by
  intro s r a h
  obtain ⟨rfl, _⟩ := chr_some.1 h
  exact ⟨[c], rfl, rfl⟩

theorem tag_writes {t : Str} : Writes (tag t) (fun _ w _ => w = t) := by
  intro s r a h
  obtain ⟨rfl, _⟩ := tag_some.1 h
  exact ⟨t, rfl, rfl⟩

theorem oneOf_writes {S : Str} : Writes (oneOf S) (fun _ w _ => ∃ c ∈ S, w = [c]) := by
  intro s r a h
  obtain ⟨rfl, h'⟩ := satisfy_some.1 h
  exact ⟨[a], rfl, a, by simpa using h', rfl⟩

theorem Writes.opt {E : α → Str → Str → Prop} (h : Writes p E) :
    Writes (Nom.opt p) (fun o w r => (∃ a, o = some a ∧ E a w r) ∨ (w = [] ∧ o = none ∧ p r = none)) := by
  intro s r o hp
  rcases opt_some.1 hp with ⟨a, h1, h2⟩ | ⟨h1, rfl, h2⟩
  · obtain ⟨w, h3, h4⟩ := h _ _ _ h1
    exact ⟨w, h3, .inl ⟨a, h2, h4⟩⟩
  · exact ⟨[], rfl, .inr ⟨rfl, h2, h1⟩⟩

/-- A loop over pieces made of characters with `Q`. -/
theorem charsLoop {Q : Char → Prop} (h : Writes p (fun _ w _ => ∀ c ∈ w, Q c)) :
    Writes (many0 p) (fun _ w _ => ∀ c ∈ w, Q c) := by
  refine many0_induction ?_ ?_
  · intro s _; exact ⟨[], rfl, by simp⟩
  · intro s r a r' l hp _ _ ih
    obtain ⟨w, rfl, h1⟩ := h _ _ _ hp
    obtain ⟨w', rfl, h2⟩ := ih
    exact ⟨w ++ w', by simp, by intro c hc; simp at hc; exact hc.elim (h1 c) (h2 c)⟩

end

/-! ## Complete tags -/

theorem htmlTagName_writes : Writes htmlTagName (fun t w _ => t = w ∧ TagName w) := by
  refine Writes.recognize ?_
  have hq : Writes (value () (chr '-') <||> value () alphanumeric1) (fun _ w _ => ∀ c ∈ w, isAlnum c = true ∨ c = '-') :=
    .orElse (.unit (chr_writes.mono fun _ w _ h => by subst h; simp))
      (.unit (takeWhile1_writes.mono fun _ w _ h c hc => .inl (h.2.2 c hc)))
  refine (Writes.seq takeWhile1_writes (charsLoop hq)).mono ?_
  rintro ⟨a, l⟩ w r ⟨w1, w2, rfl, ⟨_, h2, h3⟩, h4⟩
  cases w1 with
  | nil => exact absurd rfl h2
  | cons c t =>
    refine ⟨c, t ++ w2, rfl, h3 c (by simp), ?_⟩
    intro d hd
    simp at hd
    rcases hd with hd | hd
    · exact .inl (isAlpha_alnum (h3 d (by simp [hd])))
    · exact h4 d hd

theorem htmlTagAttributeName_writes : Writes htmlTagAttributeName (fun t w _ => t = w ∧ AttrName w) := by
  refine Writes.recognize ?_
  have hq : Writes (value () (oneOf cs!"_.:-") <||> value () alphanumeric1)
      (fun _ w _ => ∀ c ∈ w, isAlnum c = true ∨ c = '_' ∨ c = '.' ∨ c = ':' ∨ c = '-') :=
    .orElse (.unit (oneOf_writes.mono fun _ w _ h => by
        obtain ⟨c, hc, rfl⟩ := h
        intro d hd
        simp at hd hc
        subst hd
        exact .inr hc))
      (.unit (takeWhile1_writes.mono fun _ w _ h c hc => .inl (h.2.2 c hc)))
  have hf : Writes (value () alpha1 <||> value () (oneOf cs!"_:")) (fun _ w _ => ∃ c t, w = c :: t ∧
      (isAlpha c = true ∨ c = '_' ∨ c = ':') ∧ ∀ d ∈ t, isAlnum d = true) := by
    refine .orElse (.unit (takeWhile1_writes.mono fun _ w _ h => ?_)) (.unit (oneOf_writes.mono fun _ w _ h => ?_))
    · obtain ⟨_, h1, h2⟩ := h
      cases w with
      | nil => exact absurd rfl h1
      | cons c t => exact ⟨c, t, rfl, .inl (h2 c (by simp)), fun d hd => isAlpha_alnum (h2 d (by simp [hd]))⟩
    · obtain ⟨c, hc, rfl⟩ := h
      exact ⟨c, [], rfl, .inr (by simpa using hc), by simp⟩
  refine (Writes.seq hf (charsLoop hq)).mono ?_
  rintro ⟨a, l⟩ w r ⟨w1, w2, rfl, ⟨c, t, rfl, h2, h3⟩, h4⟩
  refine ⟨c, t ++ w2, rfl, h2, ?_⟩
  intro d hd
  simp at hd
  rcases hd with hd | hd
  · exact .inl (h3 d hd)
  · exact h4 d hd

theorem htmlTagAttributeValue_writes : Writes htmlTagAttributeValue (fun _ w _ => AttrValue w) := by
  have hbare : ∀ s r c, preceded (notP (value () space1 <||> value () (oneOf cs!"\"'=<>`"))) anychar s = some (r, c) →
      s = c :: r ∧ c ∉ [' ', '\t', '"', '\'', '=', '<', '>', '`'] := by
    intro s r c h
    obtain ⟨s1, _, h1, h2⟩ := preceded_some.1 h
    obtain ⟨h1, rfl⟩ := notP_some.1 h1
    have h2 := anychar_some.1 h2
    subst h2
    refine ⟨rfl, ?_⟩
    intro hc
    rw [orElse_none, value_none, value_none] at h1
    obtain ⟨h3, h4⟩ := h1
    simp at hc
    rcases hc with rfl | rfl | hc
    · simp [space1, takeWhile1, isSpace] at h3
    · simp [space1, takeWhile1, isSpace] at h3
    · rcases hc with rfl | rfl | rfl | rfl | rfl | rfl <;> simp [oneOf, satisfy] at h4
  have hquote : ∀ {d : Char} {s r t : Str}, recognize (delimited (chr d) (preceded (notP (chr d)) anychar) (chr d)) s =
      some (r, t) → ∃ c, c ≠ d ∧ s = [d, c, d] ++ r := by
    intro d s r t h
    obtain ⟨a, h1, _⟩ := recognize_some.1 h
    obtain ⟨s1, _, s2, _, h2, h3, h4⟩ := delimited_some.1 h1
    obtain ⟨rfl, _⟩ := chr_some.1 h2
    obtain ⟨rfl, _⟩ := chr_some.1 h4
    obtain ⟨s3, _, h5, h6⟩ := preceded_some.1 h3
    obtain ⟨h5, rfl⟩ := notP_some.1 h5
    have h6 := anychar_some.1 h6
    subst h6
    refine ⟨a, ?_, rfl⟩
    rintro rfl
    simp [chr, satisfy] at h5
  refine .orElse ?_ (.orElse ?_ ?_)
  · intro s r t h
    obtain ⟨l, h1, _⟩ := recognize_some.1 h
    have hl : ∀ s r l, many0 (preceded (notP (value () space1 <||> value () (oneOf cs!"\"'=<>`"))) anychar) s =
        some (r, l) → s = l ++ r ∧ ∀ c ∈ l, c ∉ [' ', '\t', '"', '\'', '=', '<', '>', '`'] := by
      refine many0_induction ?_ ?_
      · intro s _; exact ⟨rfl, by simp⟩
      · intro s r a r' l hp _ _ ih
        obtain ⟨rfl, h2⟩ := hbare _ _ _ hp
        obtain ⟨rfl, h3⟩ := ih
        refine ⟨rfl, ?_⟩
        intro c hc
        rcases List.mem_cons.1 hc with rfl | hc
        · exact h2
        · exact h3 c hc
    obtain ⟨s1, a, l', h2, h3, rfl⟩ := many1_some.1 h1
    obtain ⟨rfl, h4⟩ := hbare _ _ _ h2
    obtain ⟨rfl, h5⟩ := hl _ _ _ h3
    refine ⟨a :: l', rfl, .bare (by simp) ?_⟩
    intro c hc
    rcases List.mem_cons.1 hc with rfl | hc
    · exact h4
    · exact h5 c hc
  · intro s r t h
    obtain ⟨c, h1, h2⟩ := hquote h
    exact ⟨_, h2, .single h1⟩
  · intro s r t h
    obtain ⟨c, h1, h2⟩ := hquote h
    exact ⟨_, h2, .double h1⟩

theorem htmlTagAttribute_writes : Writes htmlTagAttribute (fun t w _ => t = w ∧ Attr w) := by
  refine Writes.recognize ?_
  have hv : Writes htmlTagAttributeValueSpecification (fun t w _ => t = w ∧ ∃ sp1 sp2 v, TagBlanks sp1 ∧
      TagBlanks sp2 ∧ AttrValue v ∧ w = sp1 ++ '=' :: (sp2 ++ v)) := by
    refine Writes.recognize ((Writes.seq space0_writes (Writes.seq chr_writes (Writes.seq space0_writes
      htmlTagAttributeValue_writes))).mono ?_)
    rintro y w r ⟨w1, w2, rfl, h1, w3, w4, rfl, rfl, w5, w6, rfl, h2, h3⟩
    exact ⟨w1, w5, w6, h1, h2, h3, by simp⟩
  refine (Writes.seq space1_writes (Writes.seq htmlTagAttributeName_writes hv.opt)).mono ?_
  rintro y w r ⟨w1, w2, rfl, ⟨h1, h2⟩, w3, w4, rfl, ⟨_, h3⟩, h4⟩
  rcases h4 with ⟨a, _, _, sp1, sp2, v, h5, h6, h7, rfl⟩ | ⟨rfl, _⟩
  · have := Attr.value h2 h1 h3 h5 h6 h7
    simpa using this
  · have := Attr.flag h2 h1 h3
    simpa using this

theorem attrsLoop : Writes (many0 htmlTagAttribute) (fun as w _ => (∀ a ∈ as, Attr a) ∧ w = as.flatten) := by
  refine many0_induction ?_ ?_
  · intro s _; exact ⟨[], rfl, by simp, rfl⟩
  · intro s r a r' l hp _ _ ih
    obtain ⟨w, rfl, rfl, h1⟩ := htmlTagAttribute_writes _ _ _ hp
    obtain ⟨w', rfl, h2, rfl⟩ := ih
    refine ⟨a ++ l.flatten, by simp, ?_, by simp⟩
    intro b hb
    rcases List.mem_cons.1 hb with rfl | hb
    · exact h1
    · exact h2 b hb

theorem completeTag_writes : Writes (completeOpenHtmlTag [cs!"script", cs!"pre", cs!"style"] <||> completeClosingHtmlTag)
    (fun t w _ => t = w ∧ ∃ n, CompleteTag n w) := by
  refine .orElse ?_ ?_
  · have hn : Writes (verify htmlTagName (fun s => ![cs!"script", cs!"pre", cs!"style"].any (fun t => t == s.map asciiLower)))
        (fun t w _ => t = w ∧ TagName w ∧ w.map asciiLower ∉ rawTags) := by
      intro s r t h
      obtain ⟨h1, h2⟩ := verify_some.1 h
      obtain ⟨w, rfl, rfl, h3⟩ := htmlTagName_writes _ _ _ h1
      refine ⟨t, rfl, rfl, h3, ?_⟩
      intro hm
      rw [Bool.not_eq_true', List.any_eq_false] at h2
      exact h2 _ hm (by simp)
    refine Writes.recognize ((Writes.seq chr_writes (Writes.seq hn (Writes.seq attrsLoop (Writes.seq space0_writes
      (Writes.seq chr_writes.opt chr_writes))))).mono ?_)
    rintro y w r ⟨w1, w2, rfl, rfl, w3, w4, rfl, ⟨_, h1, h2⟩, w5, w6, rfl, ⟨h3, rfl⟩, w7, w8, rfl, h4, w9, w10, rfl, h5, rfl⟩
    refine ⟨w3, .opening h1 h2 h3 h4 ?_⟩
    rcases h5 with ⟨_, _, rfl⟩ | ⟨rfl, _⟩
    · exact .inr rfl
    · exact .inl rfl
  · refine Writes.recognize ((Writes.seq tag_writes (Writes.seq htmlTagName_writes (Writes.seq space0_writes
      chr_writes))).mono ?_)
    rintro y w r ⟨w1, w2, rfl, rfl, w3, w4, rfl, ⟨_, h1⟩, w5, w6, rfl, h2, rfl⟩
    exact ⟨w3, .closing h1 h2⟩

/-! ## The seven kinds -/

theorem until_writes {α : Type} {stop : P α} : Writes (until_ stop)
    (fun l w r => l = w ∧ (∀ a b, w = a ++ b → b ≠ [] → stop (b ++ r) = none) ∧ (r ≠ [] → ∃ y, stop r = some y)) := by
  intro s r l h
  obtain ⟨h1, h2⟩ := untilLoop _ _ _ h
  exact ⟨l, h1, rfl, h2, untilLoop_end h⟩

theorem html1Tag_writes : Writes html1Tag (fun _ w _ => w.map asciiLower ∈ rawTags) := by
  intro s r w h
  obtain ⟨rfl, h2⟩ := html1Tag_some h
  exact ⟨w, rfl, h2⟩

theorem html1End_writes : Writes html1End (fun _ w _ => RawClose w) := by
  intro s r w h
  obtain ⟨cl, h1, h2⟩ := html1End_some h
  exact ⟨cl, h2, h1⟩

/-- What a kind of HTML block reads behind the indentation. -/
theorem htmlKind {α : Type} {p : P α} [Suf p] (h : Writes p (fun _ w r => HtmlWritten r w)) :
    Writes (preceded indent03 (recognize p)) (fun t w r => ∃ k, k ≤ 3 ∧ w = sp k ++ t ∧ HtmlWritten r t) := by
  intro s r t hp
  obtain ⟨s1, _, h1, h2⟩ := preceded_some.1 hp
  obtain ⟨k, hk, _, rfl, _⟩ := indent03_written h1
  obtain ⟨w, rfl, rfl, h3⟩ := h.recognize _ _ _ h2
  exact ⟨sp k ++ t, by simp [sp], k, hk, rfl, h3⟩

theorem firstStop {body c s : Str} {α : Type} {stop : P α}
    (h : ∀ a b, body = a ++ b → b ≠ [] → stop (b ++ (c ++ s)) = none) {a c' b : Str}
    (hc : ∀ t, stop (c' ++ t) ≠ none) (he : body ++ (c ++ s) = a ++ (c' ++ b)) : body.length ≤ a.length := by
  rw [List.append_eq_append_iff] at he
  rcases he with ⟨d, rfl, he⟩ | ⟨d, rfl, he⟩
  · simp
  · by_cases hd : d = []
    · subst hd; simp
    · have := h a d rfl hd
      rw [← he] at this
      exact absurd this (hc b)

theorem htmlBlock1_writes : Writes htmlBlock1 (fun t w r => ∃ k, k ≤ 3 ∧ w = sp k ++ t ∧ HtmlWritten r t) := by
  refine htmlKind ?_
  have hsep : Writes (value () (chr ' ') <||> value () (chr '>') <||> value () lineEnding) (fun _ w _ => RawSep w) :=
    .orElse (.unit (chr_writes.mono fun _ _ _ h => .inl h)) (.orElse (.unit (chr_writes.mono fun _ _ _ h => .inr (.inl h)))
      (.unit (lineEnding_writes.mono fun _ _ _ h => .inr (.inr h))))
  refine (Writes.seq chr_writes (Writes.seq html1Tag_writes (Writes.seq hsep (Writes.seq until_writes
    html1End_writes)))).mono ?_
  rintro y w r ⟨w1, w2, rfl, rfl, w3, w4, rfl, h1, w5, w6, rfl, h2, w7, w8, rfl, ⟨_, h3, _⟩, h4⟩
  refine HtmlWritten.raw (name := w3) (sep := w5) (body := w7) (close := w8) h1 h2 h4 ?_
  intro a c b hc he
  refine firstStop h3 (c' := c) (b := b) ?_ he
  intro t
  obtain ⟨n, hn, rfl⟩ := hc
  rw [html1End_of hn]; simp

theorem htmlMarked {c : Str} {α β : Type} {p : P α} {stop : P β} [Suf p] [Suf stop]
    (hp : Writes p (fun _ w _ => ∃ o, HtmlMarkers o c ∧ w = o))
    (hst : ∀ t, stop (c ++ t) ≠ none) :
    Writes (Nom.seq p (Nom.seq (until_ stop) (tag c))) (fun _ w r => HtmlWritten r w) := by
  refine (Writes.seq hp (Writes.seq until_writes tag_writes)).mono ?_
  rintro y w r ⟨w1, w2, rfl, ⟨o, ho, rfl⟩, w3, w4, rfl, ⟨_, h1, _⟩, rfl⟩
  exact .marked ho fun a b he => firstStop h1 hst he

theorem tag_not_none {c : Str} (t : Str) : tag c (c ++ t) ≠ none := by
  rw [(tag_some (r := t) (u := c)).2 ⟨rfl, rfl⟩]; simp

theorem htmlBlock4_writes : Writes htmlBlock4 (fun t w r => ∃ k, k ≤ 3 ∧ w = sp k ++ t ∧ HtmlWritten r t) := by
  refine htmlKind ((Writes.seq tag_writes (Writes.seq (p := satisfy isAsciiUpper)
    (E := fun _ w _ => ∃ X, isAsciiUpper X = true ∧ w = [X]) ?_ (Writes.seq until_writes tag_writes))).mono ?_)
  · intro s r a h
    obtain ⟨rfl, h'⟩ := satisfy_some.1 h
    exact ⟨[a], rfl, a, h', rfl⟩
  · rintro y w r ⟨w1, w2, rfl, rfl, w3, w4, rfl, ⟨X, hX, rfl⟩, w5, w6, rfl, ⟨_, h1, _⟩, rfl⟩
    have := HtmlWritten.marked (s := r) (body := w5) (HtmlMarkers.declaration hX)
      (fun a b he => firstStop h1 (c' := cs!">") (b := b) (fun t => by simp [chr, satisfy]) he)
    simpa using this

theorem blankLine_of {e sp e' t : Str} (h1 : IsNewline e) (h2 : IsNewline e') (h3 : ∀ c ∈ sp, isSpace c = true) :
    blankLineOrEof (e ++ (sp ++ (e' ++ t))) ≠ none := by
  have : blankLineOrEof ((e ++ sp ++ e') ++ t) = some (t, ()) :=
    BlankEnd.stop (.inr ⟨e, sp, e', rfl, h1, fun c hc => by simpa [isSpace] using h3 c hc, h2⟩)
  rw [show e ++ (sp ++ (e' ++ t)) = (e ++ sp ++ e') ++ t by simp, this]
  simp

theorem blankLineOrEof_writes : Writes blankLineOrEof (fun _ w r => BlankEnd w r) := by
  refine .orElse ?_ ?_
  · refine Writes.unit ((Writes.seq lineEnding_writes (Writes.seq space0_writes lineEnding_writes)).mono ?_)
    rintro y w r ⟨w1, w2, rfl, h1, w3, w4, rfl, h2, h3⟩
    exact .inr ⟨w1, w3, w4, by simp, h1, h2, h3⟩
  · refine Writes.unit ?_
    intro s r a h
    obtain ⟨rfl, rfl, _⟩ := eof_some.1 h
    exact ⟨[], rfl, .inl ⟨rfl, rfl⟩⟩

theorem noBlankLine {body r : Str} (h : ∀ a b, body = a ++ b → b ≠ [] → blankLineOrEof (b ++ r) = none) :
    ¬ HasBlankLine body := by
  rintro ⟨a, e, sp, e', b, h1, h2, h3, rfl⟩
  refine absurd (h a _ rfl ?_) ?_
  · rcases h1 with rfl | rfl <;> simp
  · rw [show e ++ (sp ++ (e' ++ b)) ++ r = e ++ (sp ++ (e' ++ (b ++ r))) by simp]
    exact blankLine_of h1 h2 h3

theorem newline_count {e : Str} (h : IsNewline e) : e.count '\n' = 1 := by
  rcases h with rfl | rfl <;> decide

theorem htmlBlock6_writes : Writes htmlBlock6 (fun t w r => ∃ k, k ≤ 3 ∧ w = sp k ++ t ∧ HtmlWritten r t) := by
  have hname : ∀ l : List Str, (∀ t ∈ l, t ∈ blockTags) → Writes (anyTagNoCase l) (fun _ w _ => w.map asciiLower ∈ blockTags) := by
    intro l
    induction l with
    | nil => intro _; exact .failP
    | cons t l ih =>
      intro hl
      refine .orElse ?_ (ih fun t ht => hl t (by simp [ht]))
      intro s r u h
      obtain ⟨h1, rfl, rfl⟩ := tagNoCase_some.1 h
      refine ⟨s.take t.length, (List.take_append_drop _ _).symm, ?_⟩
      show List.map asciiLower _ ∈ blockTags
      rw [← h1]
      exact hl t (by simp)
  have hopen : Writes (value () (tag cs!"</") <||> value () (chr '<')) (fun _ w _ => w = cs!"<" ∨ w = cs!"</") :=
    .orElse (.unit (tag_writes.mono fun _ _ _ h => .inr h)) (.unit (chr_writes.mono fun _ _ _ h => .inl h))
  have hsep : Writes (value () (chr ' ') <||> value () lineEnding <||> value () (tag cs!"/>") <||> value () (chr '>'))
      (fun _ w _ => w = [' '] ∨ w = ['>'] ∨ w = cs!"/>" ∨ IsNewline w) :=
    .orElse (.unit (chr_writes.mono fun _ _ _ h => .inl h)) (.orElse (.unit (lineEnding_writes.mono fun _ _ _ h => .inr (.inr (.inr h))))
      (.orElse (.unit (tag_writes.mono fun _ _ _ h => .inr (.inr (.inl h)))) (.unit (chr_writes.mono fun _ _ _ h => .inr (.inl h)))))
  refine htmlKind ((Writes.seq hopen (Writes.seq (hname _ html6Names_blockTags) (Writes.seq hsep
    (Writes.seq until_writes lineEnding_writes.opt)))).mono ?_)
  rintro y w r ⟨w1, w2, rfl, h1, w3, w4, rfl, h2, w5, w6, rfl, h3, w7, w8, rfl, ⟨_, h4, h5⟩, h6⟩
  have hb : BlankAfter w8 r := by
    by_cases hr : w8 ++ r = []
    · obtain ⟨rfl, rfl⟩ := List.append_eq_nil_iff.1 hr
      exact .inl ⟨rfl, rfl⟩
    · obtain ⟨⟨r', u⟩, hy⟩ := h5 hr
      obtain ⟨v, h7, h8⟩ := blankLineOrEof_writes _ _ _ hy
      rcases h8 with ⟨rfl, rfl⟩ | ⟨nl, sp, nl', rfl, h9, h10, h11⟩
      · exact absurd h7 hr
      · rcases h6 with ⟨e, _, h12⟩ | ⟨rfl, _, h12⟩
        · have : w8 = nl ∧ r = sp ++ (nl' ++ r') := by
            have h13 := lineEnding_head (s := r) h12
            have h14 := lineEnding_head (s := sp ++ (nl' ++ r')) h9
            rw [h7, show nl ++ sp ++ nl' ++ r' = nl ++ (sp ++ (nl' ++ r')) by simp, h14] at h13
            simp at h13
            exact ⟨h13.2.symm, h13.1.symm⟩
          obtain ⟨rfl, rfl⟩ := this
          exact .inr ⟨h12, sp, nl', r', by simp, fun c hc => by simpa [isSpace] using h10 c hc, h11⟩
        · rw [List.nil_append] at h7
          rw [h7, show nl ++ sp ++ nl' ++ r' = nl ++ (sp ++ (nl' ++ r')) by simp, lineEnding_head h9] at h12
          simp at h12
  refine .block h1 h2 h3 ?_ hb
  rintro ⟨a, e, sp, e', b, h7, h8, h9, he⟩
  have hcnt := newline_count h7
  have hcnt' := newline_count h8
  have hw8 : w8.count '\n' ≤ 1 := by
    rcases hb with ⟨rfl, _⟩ | ⟨h, _⟩
    · simp
    · exact Nat.le_of_eq (newline_count h)
  rw [List.append_eq_append_iff] at he
  rcases he with ⟨d, rfl, he⟩ | ⟨d, rfl, he⟩
  · have := congrArg (List.count '\n') he
    simp only [List.count_append] at this
    omega
  · by_cases hd : d = []
    · subst hd
      have := congrArg (List.count '\n') he
      simp only [List.count_append, List.nil_append] at this
      omega
    · have := h4 a d rfl hd
      rw [show d ++ (w8 ++ r) = (d ++ w8) ++ r by simp, ← he,
        show e ++ (sp ++ (e' ++ b)) ++ r = e ++ (sp ++ (e' ++ (b ++ r))) by simp] at this
      exact blankLine_of h7 h8 h9 this

theorem htmlBlock7_writes : Writes htmlBlock7 (fun t w r => ∃ k, k ≤ 3 ∧ w = sp k ++ t ∧ HtmlWritten r t) := by
  have hsep : Writes (value () lineEnding <||> value () (chr ' ')) (fun _ w _ => w = [' '] ∨ IsNewline w) :=
    .orElse (.unit (lineEnding_writes.mono fun _ _ _ h => .inr h)) (.unit (chr_writes.mono fun _ _ _ h => .inl h))
  refine htmlKind ((Writes.seq completeTag_writes (Writes.seq hsep (Writes.seq until_writes
    blankLineOrEof_writes))).mono ?_)
  rintro y w r ⟨w1, w2, rfl, ⟨_, n, h1⟩, w3, w4, rfl, h2, w5, w6, rfl, ⟨_, h3, _⟩, h4⟩
  exact .tag h1 h2 (noBlankLine h3) h4

theorem htmlBlockP_writes {x : PExt} {cfg : PConfig} :
    Writes (mapP htmlBlockP Block.htmlBlock) (BlockWritten x cfg) := by
  have h : Writes htmlBlockP (fun t w r => ∃ k, k ≤ 3 ∧ w = sp k ++ t ∧ HtmlWritten r t) := by
    refine .orElse htmlBlock1_writes (.orElse ?_ (.orElse ?_ (.orElse htmlBlock4_writes (.orElse ?_
      (.orElse htmlBlock6_writes htmlBlock7_writes)))))
    · exact htmlKind (htmlMarked (tag_writes.mono fun _ _ _ h => ⟨_, .comment, h⟩) tag_not_none)
    · exact htmlKind (htmlMarked (tag_writes.mono fun _ _ _ h => ⟨_, .instruction, h⟩) tag_not_none)
    · exact htmlKind (htmlMarked (tag_writes.mono fun _ _ _ h => ⟨_, .cdata, h⟩) tag_not_none)
  refine Writes.mapP (h.mono ?_)
  rintro t w r ⟨k, hk, rfl, h⟩
  exact .html hk h

end Verif
