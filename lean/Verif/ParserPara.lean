import Verif.ParserIndent
/-!
# Lines that belong to a paragraph

A sufficient, purely textual condition under which a line starts no other block, and the paragraphs
and Setext headings made of such lines.
-/
set_option linter.unusedVariables false
namespace Verif
open Nom

/-- A text that begins like the line of a paragraph, although it may begin with a character that can
also begin other blocks: an emphasis, a code span, a strikethrough, a link, a number, a word that
begins with `-`, `+` or `=`. -/
inductive TextStart : Str → Prop
  | plain {c : Char} {t : Str} : c ∉ blockStart → TextStart (c :: t)
  | star {d : Char} {t : Str} : d ∉ cs!"* \t\r\n[" → TextStart ('*' :: d :: t)
  | stars {d : Char} {t : Str} : d ≠ '*' → TextStart ('*' :: '*' :: d :: t)
  | tick {d : Char} {t : Str} : d ≠ '`' → TextStart ('`' :: d :: t)
  | ticks {d : Char} {t : Str} : d ≠ '`' → TextStart ('`' :: '`' :: d :: t)
  | tilde {d : Char} {t : Str} : d ≠ '~' → TextStart ('~' :: d :: t)
  | tildes {d : Char} {t : Str} : d ≠ '~' → TextStart ('~' :: '~' :: d :: t)
  | bracket {s t : Str} : ']' ∉ s → s.getLast? ≠ some '\\' → t.head? ≠ some ':' →
      TextStart ('[' :: (s ++ (']' :: t)))
  | autolink {l t : Str} : AutolinkText l → TextStart ('<' :: (l ++ ('>' :: t)))
  | number {ds : Str} {d : Char} {t : Str} : ds ≠ [] → (∀ c ∈ ds, isDigit c = true) →
      isDigit d = false → d ≠ '.' → d ≠ ')' → TextStart (ds ++ d :: t)
  | digits {ds : Str} : ds ≠ [] → (∀ c ∈ ds, isDigit c = true) → TextStart ds
  | underscore {d : Char} {t : Str} : d ≠ '_' → TextStart ('_' :: d :: t)
  | plus {d : Char} {t : Str} : d ∉ cs!" \t\r\n[" → TextStart ('+' :: d :: t)
  | dash {n : Nat} {d : Char} {t : Str} : 0 < n → d ∉ cs!"- \t\r\n" → (n = 1 → d ≠ '[') →
      TextStart (List.replicate n '-' ++ d :: t)
  | equals {n : Nat} {d : Char} {t : Str} : 0 < n → d ∉ cs!"= \t\r\n" →
      TextStart (List.replicate n '=' ++ d :: t)
  | starText {n : Nat} {d : Char} {t : Str} : 2 ≤ n → d ∉ cs!"* \t\r\n" →
      TextStart (List.replicate n '*' ++ d :: t)
  | underText {n : Nat} {d : Char} {t : Str} : 0 < n → d ∉ cs!"_ \t\r\n" →
      TextStart (List.replicate n '_' ++ d :: t)

section
variable {x : PExt} {cfg : PConfig} {rec : P (List Block)} {c : Char} {t : Str}

theorem TextStart.append {l e rest : Str} (h : TextStart l) (he : LineEnd e rest) :
    TextStart (l ++ (e ++ rest)) := by
  cases h with
  | plain h => exact .plain h
  | star h => exact .star h
  | stars h => exact .stars h
  | tick h => exact .tick h
  | ticks h => exact .ticks h
  | tilde h => exact .tilde h
  | tildes h => exact .tildes h
  | @bracket s t h0 h1 h2 =>
    have := TextStart.bracket (t := t ++ (e ++ rest)) h0 h1 (by
      cases t with
      | nil => rcases he with (rfl | rfl) | ⟨rfl, rfl⟩ <;> simp
      | cons c t => exact h2)
    simpa using this
  | @autolink l t h =>
    have := TextStart.autolink (t := t ++ (e ++ rest)) h
    simpa using this
  | @number ds d t h1 h2 h3 h4 h5 =>
    have := TextStart.number (t := t ++ (e ++ rest)) h1 h2 h3 h4 h5
    simpa using this
  | digits h1 h2 =>
    rcases he with (rfl | rfl) | ⟨rfl, rfl⟩
    · exact .number h1 h2 (by decide) (by decide) (by decide)
    · exact .number h1 h2 (by decide) (by decide) (by decide)
    · simpa using TextStart.digits h1 h2
  | underscore h => exact .underscore h
  | plus h => exact .plus h
  | @dash n d t h1 h2 h3 =>
    have := TextStart.dash (t := t ++ (e ++ rest)) h1 h2 h3
    simpa using this
  | @equals n d t h1 h2 =>
    have := TextStart.equals (t := t ++ (e ++ rest)) h1 h2
    simpa using this
  | @starText n d t h1 h2 =>
    have := TextStart.starText (t := t ++ (e ++ rest)) h1 h2
    simpa using this
  | @underText n d t h1 h2 =>
    have := TextStart.underText (t := t ++ (e ++ rest)) h1 h2
    simpa using this

theorem manyMin3_none {a d : Char} {n : Nat} (h : d ≠ a) (hn : n < 3) :
    manyMin 3 (chr a) (List.replicate n a ++ d :: t) = none := by
  have h1 := many0_chr (c := a) (t := d :: t) n (by simpa using h)
  cases e : manyMin 3 (chr a) (List.replicate n a ++ d :: t) with
  | none => rfl
  | some y =>
    exfalso
    obtain ⟨r, l⟩ := y
    obtain ⟨e1, e2⟩ := verify_some.1 e
    rw [h1] at e1
    simp at e1
    rw [← e1.2] at e2
    simp at e2
    omega

/-- A line made of a run and something else than blanks. -/
theorem runLine_none {α : Type} {p : P α} {d : Char} {s t : Str} (hd : d ∉ cs!" \t\r\n")
    (hs : s.head? ≠ some ' ') (hp : ∀ r a, p s = some (r, a) → r = d :: t) :
    lineTerminated (preceded indent03 (terminated p space0)) s = none := by
  have hd' : d ≠ ' ' ∧ d ≠ '\t' ∧ d ≠ '\r' ∧ d ≠ '\n' := by
    refine ⟨?_, ?_, ?_, ?_⟩ <;> rintro rfl <;> exact hd (by decide)
  obtain ⟨d1, d2, d3, d4⟩ := hd'
  have hsp : isSpace d = false := by simp [isSpace, d1, d2]
  have hind : preceded indent03 (terminated p space0) s = terminated p space0 s := by
    unfold preceded
    rw [show s = List.replicate 0 ' ' ++ s from rfl, indent03_replicate (by decide) hs]
    rfl
  cases e : lineTerminated (preceded indent03 (terminated p space0)) s with
  | none => rfl
  | some y =>
    obtain ⟨r, a⟩ := y
    obtain ⟨s1, e1, h1, h2⟩ := terminated_some.1 e
    rw [hind] at h1
    obtain ⟨s2, e2, h3, h4⟩ := terminated_some.1 h1
    obtain rfl := hp _ _ h3
    have : space0 (d :: t) = some (d :: t, []) := by
      show takeWhile _ _ = _
      simp [Nom.takeWhile, List.dropWhile_cons, List.takeWhile_cons, hsp]
    rw [this] at h4
    simp at h4
    rw [← h4.1] at h2
    have he : eofOrEol (d :: t) = none := by
      have := (blankLine_head (t := t) d1 d2 d4 d3).1
      unfold lineTerminated terminated mapP seq at this
      rw [‹space0 (d :: t) = _›] at this
      simp only at this
      cases e : eofOrEol (d :: t) with
      | none => rfl
      | some y => rw [e] at this; simp at this
    rw [he] at h2
    simp at h2

/-- What reads a run of a character reads the whole run. -/
theorem run_rest {a b d : Char} {n m : Nat} {r : Str} {l : List Char} (hn : 0 < n) (hd : d ≠ a)
    (h : manyMin m (chr b) (List.replicate n a ++ d :: t) = some (r, l)) (hm : 0 < m) : r = d :: t := by
  obtain ⟨h1, h2⟩ := verify_some.1 h
  by_cases hb : b = a
  · subst hb
    rw [many0_chr n (by simpa using hd)] at h1
    simp at h1; exact h1.1.symm
  · exfalso
    obtain ⟨n, rfl⟩ : ∃ j, n = j + 1 := ⟨n - 1, by omega⟩
    rw [List.replicate_succ, List.cons_append, many0_of_none (chr_ne (Ne.symm hb))] at h1
    simp at h1; rw [h1.2] at h2; simp at h2; omega

theorem many1_manyMin {α : Type} {p : P α} {s r : Str} {l : List α} (h : many1 p s = some (r, l))
    (hc : Con p) : manyMin 1 p s = some (r, l) := by
  obtain ⟨r1, a, l', h1, h2, rfl⟩ := many1_some.1 h
  refine verify_some.2 ⟨?_, by simp⟩
  exact many0_of_some h1 (hc.lt h1) h2

theorem openingFence_run {a d : Char} {n : Nat} (h : d ≠ a) (hn : n < 3) (h0 : 0 < n) :
    openingFence (List.replicate n a ++ d :: t) = none := by
  have hcons : List.replicate n a ++ d :: t = a :: (List.replicate (n - 1) a ++ d :: t) := by
    obtain ⟨m, rfl⟩ : ∃ m, n = m + 1 := ⟨n - 1, by omega⟩
    simp [List.replicate_succ]
  have key : ∀ b : Char, manyMin 3 (chr b) (List.replicate n a ++ d :: t) = none := by
    intro b
    by_cases hb : a = b
    · subst hb; exact manyMin3_none h hn
    · rw [hcons]; exact manyMin_none_of (chr_ne hb) 2
  unfold openingFence lineTerminated
  refine terminated_none (seq_none ?_)
  rw [recognize_none, orElse_none]
  exact ⟨key _, key _⟩

theorem thematicBreakP_run {a d : Char} {n : Nat} (ha : a ≠ ' ') (h : d ≠ a) (hn : n < 3)
    (h0 : 0 < n) : thematicBreakP (List.replicate n a ++ d :: t) = none := by
  unfold thematicBreakP lineTerminated
  rw [value_none]
  refine terminated_none ?_
  have hcons : List.replicate n a ++ d :: t = a :: (List.replicate (n - 1) a ++ d :: t) := by
    obtain ⟨m, rfl⟩ : ∃ m, n = m + 1 := ⟨n - 1, by omega⟩
    simp [List.replicate_succ]
  have key : ∀ b : Char, manyMin 3 (chr b) (List.replicate n a ++ d :: t) = none := by
    intro b
    by_cases hb : a = b
    · subst hb; exact manyMin3_none h hn
    · rw [hcons]; exact manyMin_none_of (chr_ne hb) 2
  rw [hcons, preceded_indent ha, ← hcons]
  refine terminated_none ?_
  rw [orElse_none, orElse_none]
  exact ⟨key _, key _, key _⟩

theorem thematicBreakP_runText {a d : Char} {n : Nat} (ha : a ≠ ' ') (h0 : 0 < n) (h : d ≠ a)
    (hd : d ∉ cs!" \t\r\n") : thematicBreakP (List.replicate n a ++ d :: t) = none := by
  unfold thematicBreakP
  rw [value_none]
  refine runLine_none hd ?_ ?_ (t := t)
  · obtain ⟨m, rfl⟩ : ∃ m, n = m + 1 := ⟨n - 1, by omega⟩
    simpa [List.replicate_succ] using ha
  · intro r l hl
    rcases orElse_some.1 hl with hl | ⟨_, hl⟩
    · exact run_rest h0 h hl (by decide)
    · rcases orElse_some.1 hl with hl | ⟨_, hl⟩ <;> exact run_rest h0 h hl (by decide)

theorem headingV2Level_runText {a d : Char} {n : Nat} (ha : a ≠ ' ') (h0 : 0 < n) (h : d ≠ a)
    (hd : d ∉ cs!" \t\r\n") : headingV2Level (List.replicate n a ++ d :: t) = none := by
  unfold headingV2Level
  refine runLine_none hd ?_ ?_ (t := t)
  · obtain ⟨m, rfl⟩ : ∃ m, n = m + 1 := ⟨n - 1, by omega⟩
    simpa [List.replicate_succ] using ha
  · intro r l hl
    rcases orElse_some.1 hl with hl | ⟨_, hl⟩
    · obtain ⟨l', hl', _⟩ := value_some.1 hl
      exact run_rest h0 h (many1_manyMin hl' inferInstance) (by decide)
    · obtain ⟨l', hl', _⟩ := value_some.1 hl
      exact run_rest h0 h (many1_manyMin hl' inferInstance) (by decide)

/-- The characters of a label without its closing bracket. -/
theorem labelChars_of {s u : Str} (h1 : ']' ∉ s) (h2 : s.getLast? ≠ some '\\') :
    many0 (preceded (notP (chr ']')) (value ']' (tag cs!"\\]") <||> anychar)) (s ++ ']' :: u) =
      some (']' :: u, s) := by
  induction s with
  | nil => exact many0_of_none (preceded_none (notP_none.2 ⟨_, chr_cons _ _⟩))
  | cons c s ih =>
    have hc : c ≠ ']' := by rintro rfl; exact h1 (by simp)
    have h2' : s.getLast? ≠ some '\\' := by
      intro h
      apply h2
      rw [List.getLast?_cons]
      cases s with
      | nil => simp at h
      | cons d s => rw [h]; rfl
    refine many0_of_some (r := s ++ ']' :: u) ?_ (by simp) (ih (fun hm => h1 (by simp [hm])) h2')
    refine preceded_some.2 ⟨c :: (s ++ ']' :: u), (), notP_some.2 ⟨chr_ne hc, rfl⟩, ?_⟩
    rw [orElse_of_none]
    · rfl
    · rw [value_none, tag_none, prefix_two]
      rintro ⟨rfl, q⟩
      cases s with
      | nil => exact h2 rfl
      | cons d s => simp at q; exact h1 (by simp [q])

theorem linkDefinitionP_bracket {s : Str} (h1 : ']' ∉ s) (h2 : s.getLast? ≠ some '\\')
    (ht : t.head? ≠ some ':') : linkDefinitionP x cfg ('[' :: (s ++ (']' :: t))) = none := by
  have hc : chr ':' t = none := by
    cases t with
    | nil => rfl
    | cons c t => exact chr_ne (by simpa using ht)
  unfold linkDefinitionP
  rw [mapP_none]
  refine terminated_none ?_
  unfold seq
  rw [preceded_indent (by decide)]
  cases e : linkLabel (parseInlines1 x cfg) ('[' :: (s ++ (']' :: t))) with
  | none => rfl
  | some y =>
    obtain ⟨r, l⟩ := y
    obtain ⟨s1, _, s2, _, a1, a2, a3⟩ := delimited_some.1 e
    have e1 : s1 = s ++ (']' :: t) := by
      rw [show tag cs!"[" ('[' :: (s ++ (']' :: t))) = some (s ++ (']' :: t), ['[']) from rfl] at a1
      simp at a1; exact a1.1.symm
    subst e1
    have e2 : s2 = ']' :: t := by
      unfold linkLabelInner at a2
      split at a2
      · cases a2
      · rename_i r label hv
        obtain ⟨hm, _⟩ := verify_some.1 hv
        obtain ⟨r1, b, l', m1, m2, rfl⟩ := many1_some.1 hm
        have := labelChars_of (u := t) h1 h2
        have hcon : Con (preceded (notP (chr ']')) (value ']' (tag cs!"\\]") <||> anychar)) := inferInstance
        rw [many0_of_some m1 (hcon.lt m1) m2] at this
        simp at this
        split at a2
        · simp at a2; rw [← a2.1]; exact this.1
        · cases a2
    subst e2
    have e3 : r = t := by
      rw [show tag cs!"]" (']' :: t) = some (t, [']']) from rfl] at a3
      simp at a3; exact a3.1.symm
    subst e3
    simp only
    rw [preceded_none hc]

theorem first_unique {a s u v : Str} {d : Char} (ha : ∀ c ∈ a, c ≠ d) (hs : ∀ c ∈ s, c ≠ d)
    (h : a ++ d :: u = s ++ d :: v) : a = s ∧ u = v := by
  induction a generalizing s with
  | nil =>
    cases s with
    | nil => simpa using h
    | cons c s => simp at h; exact absurd h.1.symm (hs c (by simp))
  | cons b a ih =>
    cases s with
    | nil => simp at h; exact absurd h.1 (ha b (by simp))
    | cons c s =>
      simp only [List.cons_append, List.cons.injEq] at h
      obtain ⟨rfl, h⟩ := h
      obtain ⟨rfl, h2⟩ := ih (fun c hc => ha c (by simp [hc])) (fun c hc => hs c (by simp [hc])) h
      exact ⟨rfl, h2⟩

theorem footnoteDefinitionP_bracket {s : Str} (hs : ']' ∉ s) (ht : t.head? ≠ some ':') :
    footnoteDefinitionP rec ('[' :: (s ++ (']' :: t))) = none := by
  have : preceded indent03 (preceded (tag cs!"[^")
      (terminated (recognize (many1 (noneOf cs!"]"))) (tag cs!"]:"))) ('[' :: (s ++ (']' :: t))) =
      none := by
    rw [preceded_indent (by decide)]
    cases e : preceded (tag cs!"[^") (terminated (recognize (many1 (noneOf cs!"]"))) (tag cs!"]:"))
      ('[' :: (s ++ (']' :: t))) with
    | none => rfl
    | some y =>
      exfalso
      obtain ⟨r, a⟩ := y
      obtain ⟨s1, _, e1, e2⟩ := preceded_some.1 e
      obtain ⟨s2, _, e3, e4⟩ := terminated_some.1 e2
      have h1 := (tag_some.1 e1).1
      have h4 := (tag_some.1 e4).1
      have h3 := recognize_append e3
      cases s with
      | nil => simp at h1
      | cons c s =>
        simp at h1
        obtain ⟨_, h1⟩ := h1
        have hall : ∀ c ∈ a, c ≠ ']' := Eats.recognize (f := fun c => c ≠ ']')
          (Eats.many1 (Eats.satisfy (fun c hc => by
            intro h; subst h; simp at hc))) e3
        rw [← h1, h4] at h3
        have := first_unique hall (fun c hc h => hs (by subst h; simp [hc])) h3
        rw [← this.2] at ht
        exact ht rfl
  unfold footnoteDefinitionP
  rw [this]

/-- What the parsers of other blocks say about the beginning of a paragraph line. -/
structure Quiet (x : PExt) (cfg : PConfig) (rec : P (List Block)) (s : Str) : Prop where
  visible : preceded space0 eofOrEol s = none
  code : codeBlockP s = none
  heading : headingV1 x cfg s = none
  notOther : notAParagraphLine x cfg rec s = none

/-- What the parsers of other blocks say about the beginning of a text that is not indented. -/
structure Marks (x : PExt) (cfg : PConfig) (rec : P (List Block)) (c : Char) (t : Str) : Prop where
  head : c ∉ cs!" \t\r\n#>|"
  level : headingV2Level (c :: t) = none
  rule : thematicBreakP (c :: t) = none
  item : ∀ r kind, listMarker (c :: t) = some (r, kind) → ∃ d r', r = d :: r' ∧ d ∉ cs!" \t\r\n["
  fence : openingFence (c :: t) = none
  html : htmlBlockP (c :: t) = none
  link : linkDefinitionP x cfg (c :: t) = none
  note : footnoteDefinitionP rec (c :: t) = none

theorem Marks.quiet (hcb : cfg.customBlock = none) {k : Nat} (hk : k ≤ 3) (h : Marks x cfg rec c t) :
    Quiet x cfg rec (List.replicate k ' ' ++ c :: t) := by
  have hc' : c ≠ ' ' ∧ c ≠ '\t' ∧ c ≠ '\r' ∧ c ≠ '\n' ∧ c ≠ '#' ∧ c ≠ '>' ∧ c ≠ '|' := by
    have := h.head
    refine ⟨?_, ?_, ?_, ?_, ?_, ?_, ?_⟩ <;> rintro rfl <;> exact this (by decide)
  obtain ⟨c1, c2, c3, c4, c5, c6, c7⟩ := hc'
  have hsp : isSpace c = false := by simp [isSpace, c1, c2]
  have hfence := codeBlockFenced_indent_of hk c1 h.fence
  have hvis := notBlankLine (k := k) (t := t) hsp c4 c3
  refine ⟨hvis, ?_, headingV1_indent_none c5, ?_⟩
  · unfold codeBlockP
    rw [orElse_none]
    exact ⟨codeBlockIndented_indent hk c1 c2, hfence⟩
  · unfold notAParagraphLine
    simp only [orElse_none, conditionalUnit_none, value_none]
    refine ⟨.inr (headingV1_indent_none c5), .inr ((headingV2Level_indent hk c1).trans h.level),
      .inr ((thematicBreakP_indent hk c1).trans h.rule), .inr (blockquoteP_indent_none hk c1 c6),
      .inr (listItemP_indent_of hk c1 h.item), .inr hfence, .inr ((htmlBlockP_indent hk c1).trans h.html),
      .inr ((linkDefinitionP_indent hk c1).trans h.link),
      .inr ((footnoteDefinitionP_indent hk c1).trans h.note),
      .inr ((tableP_indent hk c1).trans (tableP_head c1 c7)), ?_, ?_⟩
    · rw [hcb]; rfl
    · have : lineTerminated space0 (List.replicate k ' ' ++ c :: t) = none := by
        cases e : lineTerminated space0 (List.replicate k ' ' ++ c :: t) with
        | none => rfl
        | some y =>
          exfalso
          obtain ⟨r, a⟩ := y
          obtain ⟨s1, e1, h1, h2⟩ := terminated_some.1 e
          have : preceded space0 eofOrEol (List.replicate k ' ' ++ c :: t) = some (r, e1) :=
            preceded_some.2 ⟨s1, a, h1, h2⟩
          rw [hvis] at this; cases this
      exact this

theorem listMarker_head' {r : Str} {kind : ListKind} (h1 : isDigit c = false) (h2 : c ≠ '*') (h3 : c ≠ '+')
    (h4 : c ≠ '-') (h : listMarker (c :: t) = some (r, kind)) : ∃ d r', r = d :: r' ∧ d ∉ cs!" \t\r\n[" := by
  rw [listMarker_head h1 h2 h3 h4] at h
  cases h

theorem listMarker_digits {ds u : Str} (h1 : ds ≠ []) (h2 : ∀ c ∈ ds, isDigit c = true)
    (hu : ∀ d, u.head? = some d → isDigit d = false ∧ d ≠ '.' ∧ d ≠ ')') : listMarker (ds ++ u) = none := by
  obtain ⟨c, ds, rfl⟩ := List.exists_cons_of_ne_nil h1
  have hc := h2 c (by simp)
  have hne : ∀ a, isDigit a = false → c ≠ a := by
    rintro a ha rfl; rw [hc] at ha; simp at ha
  unfold listMarker listMarkerOrdered listMarkerStar listMarkerPlus listMarkerDash
  rw [orElse_none, orElse_none, orElse_none, mapP_none, value_none, value_none, value_none]
  refine ⟨?_, chr_ne (hne _ (by decide)), chr_ne (hne _ (by decide)), chr_ne (hne _ (by decide))⟩
  cases e : terminated u64P (oneOf cs!".)") (c :: ds ++ u) with
  | none => rfl
  | some y =>
    exfalso
    obtain ⟨r, n⟩ := y
    obtain ⟨s1, _, e1, e2⟩ := terminated_some.1 e
    unfold u64P at e1
    have hd1 : digit1 (c :: ds ++ u) = some (u, c :: ds) := by
      obtain ⟨k1, k2⟩ := takeWhile_span' (f := isDigit) h2 (fun d hd => (hu d hd).1)
      exact takeWhile1_some.2 ⟨k1.symm, k2.symm, by simp⟩
    rw [hd1] at e1
    simp only at e1
    split at e1
    · simp at e1
      rw [← e1.1] at e2
      cases u with
      | nil => cases e2
      | cons d u =>
        have := hu d rfl
        have : oneOf cs!".)" (d :: u) = none := satisfy_none_of (by simp [this.2.1, this.2.2])
        rw [this] at e2; simp at e2
    · simp at e1

/-- Digits that are no marker. -/
theorem digits_marks {ds u : Str} (h1 : ds ≠ []) (h2 : ∀ c ∈ ds, isDigit c = true)
    (hu : ∀ d, u.head? = some d → isDigit d = false ∧ d ≠ '.' ∧ d ≠ ')') :
    ∃ c t, ds ++ u = c :: t ∧ Marks x cfg rec c t := by
  have hl := listMarker_digits h1 h2 hu
  obtain ⟨c, ds, rfl⟩ := List.exists_cons_of_ne_nil h1
  have hc := h2 c (by simp)
  have hne : ∀ a, isDigit a = false → c ≠ a := by
    rintro a ha rfl; rw [hc] at ha; simp at ha
  refine ⟨c, ds ++ u, rfl, ⟨?_, headingV2Level_head (hne _ (by decide)) (hne _ (by decide)) (hne _ (by decide)),
    thematicBreakP_head (hne _ (by decide)) (hne _ (by decide)) (hne _ (by decide)) (hne _ (by decide)),
    ?_, openingFence_head (hne _ (by decide)) (hne _ (by decide)),
    htmlBlockP_head_none (hne _ (by decide)) (hne _ (by decide)),
    linkDefinitionP_head (hne _ (by decide)) (hne _ (by decide)),
    footnoteDefinitionP_head (hne _ (by decide)) (hne _ (by decide))⟩⟩
  · intro hm
    have key : ∀ a ∈ cs!" \t\r\n#>|", isDigit a = false := by decide
    have := key c hm
    rw [hc] at this; simp at this
  · intro r kind h
    rw [List.cons_append] at hl
    rw [hl] at h; cases h

theorem TextStart.marks {s : Str} (h : TextStart s) : ∃ c t, s = c :: t ∧ Marks x cfg rec c t := by
  cases h with
  | @plain c t h =>
    obtain ⟨⟨h1, h2, h3, h4, h5, h6, h7, h8, h9, h10, h11, h12, h13, h14, h15, h16⟩, h17⟩ :=
      notMem_blockStart h
    refine ⟨c, t, rfl, ⟨?_, headingV2Level_head h1 h6 h7, thematicBreakP_head h1 h7 h8 h9,
      fun r kind => listMarker_head' h17 h9 h11 h7, openingFence_head h15 h16,
      htmlBlockP_head_none h1 h14, linkDefinitionP_head h1 h12, footnoteDefinitionP_head h1 h12⟩⟩
    simp [h1, h2, h3, h4, h5, h10, h13]
  | @star d t h =>
    have hd : d ≠ '*' := by rintro rfl; exact h (by decide)
    refine ⟨_, _, rfl, ⟨by decide, headingV2Level_head (by decide) (by decide) (by decide),
      thematicBreakP_run (n := 1) (by decide) hd (by decide) (by decide), ?_,
      openingFence_head (by decide) (by decide), htmlBlockP_head_none (by decide) (by decide),
      linkDefinitionP_head (by decide) (by decide), footnoteDefinitionP_head (by decide) (by decide)⟩⟩
    intro r kind hm
    rw [show listMarker ('*' :: d :: t) = some (d :: t, .bullet .star) from rfl] at hm
    simp at hm
    refine ⟨d, t, hm.1.symm, fun hm => h ?_⟩
    revert hm
    have key : ∀ d ∈ cs!" \t\r\n[", d ∈ cs!"* \t\r\n[" := by decide
    exact key d
  | @stars d t h =>
    refine ⟨_, _, rfl, ⟨by decide, headingV2Level_head (by decide) (by decide) (by decide),
      thematicBreakP_run (n := 2) (by decide) h (by decide) (by decide), ?_,
      openingFence_head (by decide) (by decide), htmlBlockP_head_none (by decide) (by decide),
      linkDefinitionP_head (by decide) (by decide), footnoteDefinitionP_head (by decide) (by decide)⟩⟩
    intro r kind hm
    rw [show listMarker ('*' :: '*' :: d :: t) = some ('*' :: d :: t, .bullet .star) from rfl] at hm
    simp at hm
    exact ⟨_, _, hm.1.symm, by decide⟩
  | @tick d t h =>
    exact ⟨_, _, rfl, ⟨by decide, headingV2Level_head (by decide) (by decide) (by decide),
      thematicBreakP_head (by decide) (by decide) (by decide) (by decide),
      fun r kind => listMarker_head' (by decide) (by decide) (by decide) (by decide),
      openingFence_run (n := 1) h (by decide) (by decide), htmlBlockP_head_none (by decide) (by decide),
      linkDefinitionP_head (by decide) (by decide), footnoteDefinitionP_head (by decide) (by decide)⟩⟩
  | @ticks d t h =>
    exact ⟨_, _, rfl, ⟨by decide, headingV2Level_head (by decide) (by decide) (by decide),
      thematicBreakP_head (by decide) (by decide) (by decide) (by decide),
      fun r kind => listMarker_head' (by decide) (by decide) (by decide) (by decide),
      openingFence_run (n := 2) h (by decide) (by decide), htmlBlockP_head_none (by decide) (by decide),
      linkDefinitionP_head (by decide) (by decide), footnoteDefinitionP_head (by decide) (by decide)⟩⟩
  | @tilde d t h =>
    exact ⟨_, _, rfl, ⟨by decide, headingV2Level_head (by decide) (by decide) (by decide),
      thematicBreakP_head (by decide) (by decide) (by decide) (by decide),
      fun r kind => listMarker_head' (by decide) (by decide) (by decide) (by decide),
      openingFence_run (n := 1) h (by decide) (by decide), htmlBlockP_head_none (by decide) (by decide),
      linkDefinitionP_head (by decide) (by decide), footnoteDefinitionP_head (by decide) (by decide)⟩⟩
  | @tildes d t h =>
    exact ⟨_, _, rfl, ⟨by decide, headingV2Level_head (by decide) (by decide) (by decide),
      thematicBreakP_head (by decide) (by decide) (by decide) (by decide),
      fun r kind => listMarker_head' (by decide) (by decide) (by decide) (by decide),
      openingFence_run (n := 2) h (by decide) (by decide), htmlBlockP_head_none (by decide) (by decide),
      linkDefinitionP_head (by decide) (by decide), footnoteDefinitionP_head (by decide) (by decide)⟩⟩
  | @bracket s t h0 h1 h2 =>
    exact ⟨_, _, rfl, ⟨by decide, headingV2Level_head (by decide) (by decide) (by decide),
      thematicBreakP_head (by decide) (by decide) (by decide) (by decide),
      fun r kind => listMarker_head' (by decide) (by decide) (by decide) (by decide),
      openingFence_head (by decide) (by decide), htmlBlockP_head_none (by decide) (by decide),
      linkDefinitionP_bracket h0 h1 h2, footnoteDefinitionP_bracket h0 h2⟩⟩
  | @autolink l t h =>
    exact ⟨_, _, rfl, ⟨by decide, headingV2Level_head (by decide) (by decide) (by decide),
      thematicBreakP_head (by decide) (by decide) (by decide) (by decide),
      fun r kind => listMarker_head' (by decide) (by decide) (by decide) (by decide),
      openingFence_head (by decide) (by decide), htmlBlockP_autolink h,
      linkDefinitionP_head (by decide) (by decide), footnoteDefinitionP_head (by decide) (by decide)⟩⟩
  | @number ds d t h1 h2 h3 h4 h5 =>
    exact digits_marks h1 h2 (by intro d' hd'; simp at hd'; subst hd'; exact ⟨h3, h4, h5⟩)
  | digits h1 h2 =>
    have := digits_marks (x := x) (cfg := cfg) (rec := rec) (u := []) h1 h2 (by intro d h; simp at h)
    simpa using this
  | @underscore d t h =>
    exact ⟨_, _, rfl, ⟨by decide, headingV2Level_head (by decide) (by decide) (by decide),
      thematicBreakP_run (n := 1) (by decide) h (by decide) (by decide),
      fun r kind => listMarker_head' (by decide) (by decide) (by decide) (by decide),
      openingFence_head (by decide) (by decide), htmlBlockP_head_none (by decide) (by decide),
      linkDefinitionP_head (by decide) (by decide), footnoteDefinitionP_head (by decide) (by decide)⟩⟩
  | @plus d t h =>
    refine ⟨_, _, rfl, ⟨by decide, headingV2Level_head (by decide) (by decide) (by decide),
      thematicBreakP_head (by decide) (by decide) (by decide) (by decide), ?_,
      openingFence_head (by decide) (by decide), htmlBlockP_head_none (by decide) (by decide),
      linkDefinitionP_head (by decide) (by decide), footnoteDefinitionP_head (by decide) (by decide)⟩⟩
    intro r kind hm
    rw [show listMarker ('+' :: d :: t) = some (d :: t, .bullet .plus) from rfl] at hm
    simp at hm
    exact ⟨d, t, hm.1.symm, h⟩
  | @dash n d t h1 h2 h3 =>
    have hd : d ≠ '-' := by rintro rfl; exact h2 (by decide)
    have hd' : d ∉ cs!" \t\r\n" := fun hm => h2 (by
      have key : ∀ d ∈ cs!" \t\r\n", d ∈ cs!"- \t\r\n" := by decide
      exact key d hm)
    have e1 := headingV2Level_runText (a := '-') (t := t) (by decide) h1 hd hd'
    have e2 := thematicBreakP_runText (a := '-') (t := t) (by decide) h1 hd hd'
    obtain ⟨m, rfl⟩ : ∃ m, n = m + 1 := ⟨n - 1, by omega⟩
    rw [List.replicate_succ, List.cons_append] at *
    refine ⟨_, _, rfl, ⟨by decide, e1, e2, ?_,
      openingFence_head (by decide) (by decide), htmlBlockP_head_none (by decide) (by decide),
      linkDefinitionP_head (by decide) (by decide), footnoteDefinitionP_head (by decide) (by decide)⟩⟩
    intro r kind hm
    rw [show ∀ u, listMarker ('-' :: u) = some (u, .bullet .dash) from fun _ => rfl] at hm
    simp at hm
    cases m with
    | zero =>
      refine ⟨d, t, hm.1.symm, ?_⟩
      intro hmem
      have key : ∀ d ∈ cs!" \t\r\n[", d ∈ cs!" \t\r\n" ∨ d = '[' := by decide
      rcases key d hmem with h | h
      · exact hd' h
      · exact h3 rfl h
    | succ m => exact ⟨'-', _, hm.1.symm, by decide⟩
  | @equals n d t h1 h2 =>
    have hd : d ≠ '=' := by rintro rfl; exact h2 (by decide)
    have hd' : d ∉ cs!" \t\r\n" := fun hm => h2 (by
      have key : ∀ d ∈ cs!" \t\r\n", d ∈ cs!"= \t\r\n" := by decide
      exact key d hm)
    have e1 := headingV2Level_runText (a := '=') (t := t) (by decide) h1 hd hd'
    obtain ⟨m, rfl⟩ : ∃ m, n = m + 1 := ⟨n - 1, by omega⟩
    rw [List.replicate_succ, List.cons_append] at *
    exact ⟨_, _, rfl, ⟨by decide, e1, thematicBreakP_head (by decide) (by decide) (by decide) (by decide),
      fun r kind => listMarker_head' (by decide) (by decide) (by decide) (by decide),
      openingFence_head (by decide) (by decide), htmlBlockP_head_none (by decide) (by decide),
      linkDefinitionP_head (by decide) (by decide), footnoteDefinitionP_head (by decide) (by decide)⟩⟩
  | @starText n d t h1 h2 =>
    have hd : d ≠ '*' := by rintro rfl; exact h2 (by decide)
    have hd' : d ∉ cs!" \t\r\n" := fun hm => h2 (by
      have key : ∀ d ∈ cs!" \t\r\n", d ∈ cs!"* \t\r\n" := by decide
      exact key d hm)
    have e2 := thematicBreakP_runText (a := '*') (n := n) (t := t) (by decide) (by omega) hd hd'
    obtain ⟨m, rfl⟩ : ∃ m, n = m + 2 := ⟨n - 2, by omega⟩
    rw [List.replicate_succ, List.replicate_succ, List.cons_append, List.cons_append] at *
    refine ⟨_, _, rfl, ⟨by decide, headingV2Level_head (by decide) (by decide) (by decide), e2, ?_,
      openingFence_head (by decide) (by decide), htmlBlockP_head_none (by decide) (by decide),
      linkDefinitionP_head (by decide) (by decide), footnoteDefinitionP_head (by decide) (by decide)⟩⟩
    intro r kind hm
    rw [show ∀ u, listMarker ('*' :: u) = some (u, .bullet .star) from fun _ => rfl] at hm
    simp at hm
    exact ⟨_, _, hm.1.symm, by decide⟩
  | @underText n d t h1 h2 =>
    have hd : d ≠ '_' := by rintro rfl; exact h2 (by decide)
    have hd' : d ∉ cs!" \t\r\n" := fun hm => h2 (by
      have key : ∀ d ∈ cs!" \t\r\n", d ∈ cs!"_ \t\r\n" := by decide
      exact key d hm)
    have e2 := thematicBreakP_runText (a := '_') (t := t) (by decide) h1 hd hd'
    obtain ⟨m, rfl⟩ : ∃ m, n = m + 1 := ⟨n - 1, by omega⟩
    rw [List.replicate_succ, List.cons_append] at *
    exact ⟨_, _, rfl, ⟨by decide, headingV2Level_head (by decide) (by decide) (by decide), e2,
      fun r kind => listMarker_head' (by decide) (by decide) (by decide) (by decide),
      openingFence_head (by decide) (by decide), htmlBlockP_head_none (by decide) (by decide),
      linkDefinitionP_head (by decide) (by decide), footnoteDefinitionP_head (by decide) (by decide)⟩⟩

theorem TextStart.quiet (hcb : cfg.customBlock = none) {k : Nat} (hk : k ≤ 3) {s : Str} (h : TextStart s) :
    Quiet x cfg rec (List.replicate k ' ' ++ s) := by
  obtain ⟨c, t, rfl, hm⟩ := h.marks (x := x) (cfg := cfg) (rec := rec)
  exact hm.quiet hcb hk

theorem TextStart.head {s : Str} (h : TextStart s) : ∃ c t, s = c :: t ∧ c ∉ cs!" \t\r\n#>|" := by
  obtain ⟨c, t, rfl, hm⟩ := h.marks (x := PExt.ascii) (cfg := PConfig.default fun _ => none) (rec := failP)
  exact ⟨c, t, rfl, hm.head⟩

/-! ## Paragraphs and Setext headings -/

/-- The source of lines with the given indentations. -/
def indentedLines (ys : List (Nat × Str)) : Str :=
  joinWith ['\n'] (ys.map fun y => List.replicate y.1 ' ' ++ y.2)

/-- Lines of a paragraph, each indented by at most three spaces: what follows the indentation of a line
begins like the line of a paragraph. -/
inductive TextLines : List (Nat × Str) → Prop
  | one {k : Nat} {l : Str} : k ≤ 3 → OneLine l → TextStart l → TextLines [(k, l)]
  | cons {k : Nat} {l : Str} {y : Nat × Str} {ys : List (Nat × Str)} : k ≤ 3 → OneLine l →
      TextStart (l ++ '\n' :: indentedLines (y :: ys)) → TextLines (y :: ys) →
      TextLines ((k, l) :: y :: ys)

/-- A line of a paragraph. -/
def TextLine (l : Str) : Prop := OneLine l ∧ TextStart l

theorem TextStart.ne {l : Str} (h : TextStart l) : l ≠ [] := by
  obtain ⟨c, t, rfl, _⟩ := h.head
  simp

theorem TextLine.lines {ls : List Str} (hne : ls ≠ []) (hls : ∀ l ∈ ls, TextLine l) :
    TextLines (ls.map fun l => (0, l)) := by
  induction ls with
  | nil => exact absurd rfl hne
  | cons l ls ih =>
    cases ls with
    | nil => exact .one (by decide) (hls l (by simp)).1 (hls l (by simp)).2
    | cons l' ls =>
      refine .cons (by decide) (hls l (by simp)).1 ?_ (ih (by simp) (fun m hm => hls m (by simp at hm ⊢; exact .inr hm)))
      exact (hls l (by simp)).2.append (e := ['\n']) (.inl (.inl rfl))

theorem indentedLines_zero (ls : List Str) :
    indentedLines (ls.map fun l => (0, l)) = joinWith ['\n'] ls := by
  unfold indentedLines
  rw [List.map_map]
  congr 1
  exact (List.map_congr_left (by intro l _; simp)).trans (List.map_id ls)

/-- The end of the lines of a paragraph: the end of the input, or a line ending before something that
is not the line of a paragraph. -/
def ParaStop (x : PExt) (cfg : PConfig) (rec : P (List Block)) (u rest : Str) : Prop :=
  (u = [] ∧ rest = []) ∨
  ∃ nl, IsNewline nl ∧ u = nl ++ rest ∧ ∃ y, notAParagraphLine x cfg rec rest = some y

theorem ParaEnd.stop {u rest : Str} (h : ParaEnd u rest) : ParaStop x cfg rec u rest := by
  rcases h with h | ⟨nl, h1, h2, h3⟩
  · exact .inl h
  · exact .inr ⟨nl, h1, h2, blank_notAParagraphLine h3⟩

theorem ParaStop.lineEnd {u rest : Str} (h : ParaStop x cfg rec u rest) :
    ∃ e, LineEnd e rest ∧ u = e ++ rest := by
  rcases h with ⟨rfl, rfl⟩ | ⟨nl, h, rfl, _⟩
  · exact ⟨[], .inr ⟨rfl, rfl⟩, rfl⟩
  · exact ⟨nl, .inl h, rfl⟩

theorem paraLine_of (hcb : cfg.customBlock = none) {k : Nat} {l e rest : Str} (hk : k ≤ 3)
    (hl : OneLine l) (ht : TextStart (l ++ (e ++ rest))) (he : LineEnd e rest) (hne : l ≠ []) :
    preceded (notP (notAParagraphLine x cfg rec)) paragraphLine
      (List.replicate k ' ' ++ l ++ (e ++ rest)) = some (e ++ rest, l) := by
  have hq := ht.quiet (x := x) (rec := rec) hcb hk
  rw [List.append_assoc]
  refine preceded_some.2 ⟨_, (), notP_some.2 ⟨hq.notOther, rfl⟩, ?_⟩
  obtain ⟨c, t, hct, hc⟩ := ht.head
  have hc' : c ≠ ' ' := by rintro rfl; exact hc (by decide)
  unfold paragraphLine
  rw [hct, preceded_indent_replicate hk hc', ← hct]
  exact notEofOrEol1_line hl hne he

/-- The tail of the source of lines. -/
theorem indentedLines_cons (y : Nat × Str) (ys : List (Nat × Str)) (u : Str) :
    indentedLines (y :: ys) ++ u = List.replicate y.1 ' ' ++ y.2 ++
      ((ys.map fun y => '\n' :: (List.replicate y.1 ' ' ++ y.2)).flatten ++ u) := by
  unfold indentedLines
  rw [List.map_cons, joinWith_cons_flatten, List.map_map]
  simp [Function.comp_def]

theorem TextLines.head_of {y : Nat × Str} {ys : List (Nat × Str)} {e rest : Str} (h : TextLines (y :: ys))
    (he : LineEnd e rest) :
    y.1 ≤ 3 ∧ OneLine y.2 ∧ y.2 ≠ [] ∧
      TextStart (y.2 ++ ((ys.map fun y => '\n' :: (List.replicate y.1 ' ' ++ y.2)).flatten ++ (e ++ rest))) := by
  cases h with
  | one h1 h2 h3 => exact ⟨h1, h2, h3.ne, by simpa using h3.append he⟩
  | @cons k l y ys h1 h2 h3 h4 =>
    refine ⟨h1, h2, ?_, ?_⟩
    · rintro h
      simp only at h
      subst h
      obtain ⟨c, t, hct, hc⟩ := h3.head
      simp at hct
      exact hc (by rw [← hct.1]; decide)
    · have := h3.append he
      have e2 := indentedLines_cons y ys []
      simp only [List.append_nil] at e2
      rw [e2] at this
      simpa using this

theorem TextLines.text_ne {ys : List (Nat × Str)} (h : TextLines ys) :
    joinWith ['\n'] (ys.map Prod.snd) ≠ [] := by
  cases ys with
  | nil => cases h
  | cons y ys =>
    have := (h.head_of (e := []) (rest := []) (.inr ⟨rfl, rfl⟩)).2.2.1
    rw [List.map_cons, joinWith_cons_flatten]
    simp [this]

theorem textLines_sep (hcb : cfg.customBlock = none) {ys : List (Nat × Str)} {u rest : Str}
    (hys : ys = [] ∨ TextLines ys) (hu : ParaStop x cfg rec u rest) :
    sepLoop lineEnding (preceded (notP (notAParagraphLine x cfg rec)) paragraphLine)
      ((ys.map fun y => '\n' :: (List.replicate y.1 ' ' ++ y.2)).flatten ++ u) = some (u, ys.map Prod.snd) := by
  obtain ⟨ue, hue, hueq⟩ := hu.lineEnd
  induction ys with
  | nil =>
    rw [sepLoop_eq]
    rcases hu with ⟨rfl, rfl⟩ | ⟨nl, h, rfl, y, hy⟩
    · rfl
    · have hl : lineEnding (nl ++ rest) = some (rest, nl) := by rcases h with rfl | rfl <;> rfl
      have hp : preceded (notP (notAParagraphLine x cfg rec)) paragraphLine rest = none :=
        preceded_none (by rw [notP_none]; exact ⟨_, hy⟩)
      rw [show (([] : List (Nat × Str)).map fun y => '\n' :: (List.replicate y.1 ' ' ++ y.2)).flatten ++
        (nl ++ rest) = nl ++ rest from rfl]
      rw [hl]
      simp only [hp]
      rfl
  | cons y ys ih =>
    have hys : TextLines (y :: ys) := hys.resolve_left (by simp)
    have ih := ih (by
      cases hys with
      | one => exact .inl rfl
      | cons _ _ _ h => exact .inr h)
    obtain ⟨h1, h2, h3, h4⟩ := hys.head_of hue
    rw [← hueq] at h4
    obtain ⟨e, rest', he, hee⟩ : ∃ e rest', LineEnd e rest' ∧
        (ys.map fun y => '\n' :: (List.replicate y.1 ' ' ++ y.2)).flatten ++ u = e ++ rest' := by
      cases ys with
      | nil => exact ⟨ue, rest, hue, by simpa using hueq⟩
      | cons y' ys' => exact ⟨['\n'], _, .inl (.inl rfl), by
          rw [List.map_cons, List.flatten_cons, List.append_assoc]; rfl⟩
    have hp := paraLine_of (x := x) (rec := rec) hcb h1 h2 (by rw [← hee]; exact h4) he h3
    rw [← hee] at hp
    rw [sepLoop_eq]
    have hs : ((y :: ys).map fun y => '\n' :: (List.replicate y.1 ' ' ++ y.2)).flatten ++ u =
        '\n' :: (List.replicate y.1 ' ' ++ y.2 ++
          ((ys.map fun y => '\n' :: (List.replicate y.1 ' ' ++ y.2)).flatten ++ u)) := by simp
    rw [hs]
    rw [show ∀ v, lineEnding ('\n' :: v) = some (v, ['\n']) from fun _ => rfl]
    simp only [hp]
    have hlt : ((ys.map fun y => '\n' :: (List.replicate y.1 ' ' ++ y.2)).flatten ++ u).length <
        ('\n' :: (List.replicate y.1 ' ' ++ y.2 ++
          ((ys.map fun y => '\n' :: (List.replicate y.1 ' ' ++ y.2)).flatten ++ u))).length := by
      simp only [List.length_cons, List.length_append]; omega
    simp only [hlt, if_true, ih]
    rfl

/-- Paragraph lines are read together, up to the end of the paragraph. -/
theorem textLines_paragraphP (hcb : cfg.customBlock = none) {ys : List (Nat × Str)} {u rest : Str}
    {is : List Inline} (hys : TextLines ys)
    (hu : ParaStop x cfg rec u rest) (hi : parseInlines1 x cfg (joinWith ['\n'] (ys.map Prod.snd)) = some is) :
    paragraphP x cfg rec true (indentedLines ys ++ u) = some (rest, is) := by
  obtain ⟨ue, hue, hueq⟩ := hu.lineEnd
  cases ys with
  | nil => cases hys
  | cons y ys =>
    have hsep := textLines_sep (x := x) (rec := rec) (ys := ys) hcb (by
      cases hys with
      | one => exact .inl rfl
      | cons _ _ _ h => exact .inr h) hu
    obtain ⟨h1, h2, h3, h4⟩ := hys.head_of hue
    rw [← hueq] at h4
    obtain ⟨e, rest', he, hee⟩ : ∃ e rest', LineEnd e rest' ∧
        (ys.map fun y => '\n' :: (List.replicate y.1 ' ' ++ y.2)).flatten ++ u = e ++ rest' := by
      cases ys with
      | nil => exact ⟨ue, rest, hue, by simpa using hueq⟩
      | cons y' ys' => exact ⟨['\n'], _, .inl (.inl rfl), by
          rw [List.map_cons, List.flatten_cons, List.append_assoc]; rfl⟩
    have hp := paraLine_of (x := x) (rec := rec) hcb h1 h2 (by rw [← hee]; exact h4) he h3
    rw [← hee] at hp
    rw [indentedLines_cons]
    unfold paragraphP
    simp only [if_true]
    refine mapOpt_some.2 ⟨y.2 :: ys.map Prod.snd, ?_, hi⟩
    unfold paragraphLines
    refine terminated_some.2 ⟨u, ue, ?_, by rw [hueq]; exact hue.eofOrEol⟩
    unfold separatedList0
    rw [hp]
    simp only [hsep]

theorem textLines_quiet (hcb : cfg.customBlock = none) {ys : List (Nat × Str)} {u rest : Str}
    (hys : TextLines ys) (hu : ParaStop x cfg rec u rest) :
    Quiet x cfg rec (indentedLines ys ++ u) := by
  obtain ⟨ue, hue, hueq⟩ := hu.lineEnd
  cases ys with
  | nil => cases hys
  | cons y ys =>
    obtain ⟨h1, h2, h3, h4⟩ := hys.head_of hue
    rw [← hueq] at h4
    rw [indentedLines_cons, List.append_assoc]
    exact h4.quiet hcb h1

/-- What starts quietly is read as a paragraph, or as a Setext heading. -/
theorem quiet_block (hc : cfg.CustomOk) (hh : cfg.headingV2 = .parse) {s r : Str} {b : Block}
    (hq : Quiet x cfg (blockP x cfg) s) (h : headingV2OrParagraph x cfg (blockP x cfg) s = some (r, b)) :
    blockP x cfg s = some (r, [b]) := by
  rw [blockP_alt hc hq.visible]
  unfold blockAlt
  rw [orElse_of_none (conditionalBlock_none hq.code), orElse_of_none (conditionalBlock_none hq.heading)]
  refine orElse_of_some ?_
  rw [conditionalBlock_parse hh, h]
  rfl

/-- Paragraph lines followed by the end of a paragraph are a paragraph. -/
theorem textLines_block (hc : cfg.CustomOk) (hcb : cfg.customBlock = none)
    (hh : cfg.headingV2 = .parse) {ys : List (Nat × Str)} {u rest : Str} {is : List Inline}
    (hys : TextLines ys) (hu : ParaStop x cfg (blockP x cfg) u rest)
    (hlev : headingV2Level rest = none)
    (hi : parseInlines1 x cfg (joinWith ['\n'] (ys.map Prod.snd)) = some is) :
    blockP x cfg (indentedLines ys ++ u) = some (rest, [.paragraph is]) := by
  refine quiet_block hc hh (textLines_quiet hcb hys hu) ?_
  unfold headingV2OrParagraph
  exact mapP_some.2 ⟨(is, none), seq_some.2 ⟨rest, textLines_paragraphP hcb hys hu hi,
    opt_some.2 (.inr ⟨hlev, rfl, rfl⟩)⟩, rfl⟩

theorem ParaEnd.level {u rest : Str} (h : ParaEnd u rest) : headingV2Level rest = none := by
  rcases h with ⟨_, rfl⟩ | ⟨nl, _, _, rfl | ⟨nl', r, rfl | rfl, rfl⟩⟩
  · rfl
  · rfl
  · exact headingV2Level_head (by decide) (by decide) (by decide)
  · exact headingV2Level_head (by decide) (by decide) (by decide)

/-- Setext underlines: up to three spaces, a run, trailing blanks. -/
theorem headingV2Level_of {k n : Nat} {a : Char} {lev : SetextHeading} {sp e rest : Str} (hk : k ≤ 3)
    (hn : 0 < n) (ha : a = '=' ∧ lev = .level1 ∨ a = '-' ∧ lev = .level2)
    (hsp : ∀ c ∈ sp, isSpace c = true) (he : LineEnd e rest) :
    headingV2Level (List.replicate k ' ' ++ (List.replicate n a ++ (sp ++ (e ++ rest)))) =
      some (rest, lev) := by
  unfold headingV2Level
  have hhead : (sp ++ (e ++ rest)).head? ≠ some a := by
    cases sp with
    | nil => rcases he with (rfl | rfl) | ⟨rfl, rfl⟩ <;> rcases ha with ⟨rfl, _⟩ | ⟨rfl, _⟩ <;> simp
    | cons c sp =>
      have := hsp c (by simp)
      intro h; simp at h; subst h
      rcases ha with ⟨rfl, _⟩ | ⟨rfl, _⟩ <;> simp [isSpace] at this
  have hne : a ≠ ' ' := by rcases ha with ⟨rfl, _⟩ | ⟨rfl, _⟩ <;> decide
  obtain ⟨m, rfl⟩ : ∃ m, n = m + 1 := ⟨n - 1, by omega⟩
  have hrun := many0_chr (c := a) (m + 1) hhead
  refine terminated_some.2 ⟨e ++ rest, e, ?_, he.eofOrEol⟩
  have hind : preceded indent03 (terminated (value SetextHeading.level1 (many1 (chr '=')) <||>
      value .level2 (many1 (chr '-'))) space0)
      (List.replicate k ' ' ++ (List.replicate (m + 1) a ++ (sp ++ (e ++ rest)))) =
      terminated (value SetextHeading.level1 (many1 (chr '=')) <||>
      value .level2 (many1 (chr '-'))) space0 (List.replicate (m + 1) a ++ (sp ++ (e ++ rest))) := by
    rw [List.replicate_succ, List.cons_append]
    exact preceded_indent_rep hk hne
  rw [hind]
  have hm1 : many1 (chr a) (List.replicate (m + 1) a ++ (sp ++ (e ++ rest))) =
      some (sp ++ (e ++ rest), List.replicate (m + 1) a) := many1_of_many0 hrun (by simp)
  refine terminated_some.2 ⟨sp ++ (e ++ rest), sp, ?_, ?_⟩
  · rcases ha with ⟨rfl, rfl⟩ | ⟨rfl, rfl⟩
    · exact orElse_of_some (value_some.2 ⟨_, hm1, rfl⟩)
    · rw [orElse_of_none]
      · exact value_some.2 ⟨_, hm1, rfl⟩
      · rw [value_none, List.replicate_succ, List.cons_append]
        exact many1_none_of (chr_ne (by decide))
  · have h2 : ∀ c, (e ++ rest).head? = some c → isSpace c = false := by
      intro c hc
      rcases he with (rfl | rfl) | ⟨rfl, rfl⟩ <;> simp at hc <;> subst hc <;> decide
    obtain ⟨k1, k2⟩ := takeWhile_span' hsp h2
    show some (_, _) = _
    rw [k1, k2]

end
end Verif
