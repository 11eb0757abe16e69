import Verif.InlineExactSpec
import Verif.StartDef
/-!
# The inline elements begin exactly where the specification says (for C84)
-/
set_option autoImplicit false
set_option linter.unusedVariables false
set_option linter.unusedSimpArgs false
namespace Verif.Exact
open Nom

variable {x : PExt} {cfg : PConfig} {ent : Str → Option Str} {rec : Str → Option (List Inline)}

theorem autolink_iff {s u r : Str} : autolinkP s = some (r, u) ↔ AutolinkAt s u r := by
  constructor
  · intro h
    obtain ⟨w, hw, h'⟩ := autolinkP_writes (x := PExt.ascii) (ent := fun _ => none) s r _ (mapP_some.2 ⟨u, h, rfl⟩)
    cases h' with
    | autolink hu => exact ⟨hu, by rw [hw]; simp⟩
  · rintro ⟨h, rfl⟩
    exact autolinkP_of h

/-! ## Labels -/

theorem label_iff {s r : Str} {l : List Inline} :
    linkLabel rec s = some (r, l) ↔ ∃ t, LabelAt s t r ∧ rec t = some l := by
  constructor
  · intro h7
    obtain ⟨s1, _, s2, _, h1, h2, h3⟩ := delimited_some.1 h7
    obtain ⟨rfl, _⟩ := tag_some.1 h1
    obtain ⟨rfl, _⟩ := tag_some.1 h3
    unfold linkLabelInner at h2
    split at h2
    · simp at h2
    · rename_i r1 label e
      split at h2
      · rename_i l' e2
        simp at h2
        obtain ⟨rfl, rfl⟩ := h2
        obtain ⟨e3, e4⟩ := verify_some.1 e
        obtain ⟨w, rfl, hne, h4, h5, _⟩ := escLoop1_last (by decide) (by simp [chr_cons]) e3
        refine ⟨label, ⟨w, ⟨h4, ?_, ?_⟩, h5 rfl, by simp⟩, e2⟩
        · simp at e4
          obtain ⟨⟨c, hc, h5⟩, _⟩ := e4
          exact ⟨c, hc, h5⟩
        · simp at e4; exact e4.2
      · simp at h2
  · rintro ⟨t, ⟨w, h, hl, rfl⟩, hr⟩
    have hm := escLoop_of (e := ']') (by decide) (stop := chr ']') (r := ']' :: r) ⟨_, chr_cons _ _⟩ h.text
      (fun _ => hl) (by intro a c v _ hne; exact chr_ne hne)
    obtain ⟨c, hcm, h1, h2⟩ := h.visible
    have hne : t ≠ [] := by rintro rfl; simp at hcm
    refine delimited_some.2 ⟨w ++ (']' :: r), ['['], ']' :: r, [']'], rfl, ?_, rfl⟩
    unfold linkLabelInner
    have hv : verify (many1 (preceded (notP (chr ']')) (value ']' (tag cs!"\\]") <||> anychar)))
        (fun cs => cs.any (fun c => c != ' ' && c != '\n') && cs.length < 1000) (w ++ (']' :: r)) = some (']' :: r, t) := by
      refine verify_some.2 ⟨many1_of_many0 hm hne, ?_⟩
      simp only [Bool.and_eq_true, List.any_eq_true, decide_eq_true_eq]
      exact ⟨⟨c, hcm, by simp [h1, h2]⟩, h.short⟩
    rw [hv]
    simp only
    rw [hr]

theorem LabelAt.ne {s t r : Str} (h : LabelAt s t r) : t ≠ [] := by
  obtain ⟨w, h, _⟩ := h
  obtain ⟨c, hc, _⟩ := h.visible
  rintro rfl; simp at hc

/-! ## Destinations -/

theorem balanced_iff {v : Str} : balancedParens v ≠ none ↔ ∃ b r, BareDest b ∧ v = '(' :: (b ++ ')' :: r) := by
  constructor
  · intro h
    obtain ⟨⟨r, u⟩, h⟩ := Option.ne_none_iff_exists'.1 h
    have h0 : balancedParensF (v.length + 1) v = some (r, u) := h
    unfold balancedParensF at h0
    obtain ⟨s1, _, s2, _, h1, h2, h3⟩ := delimited_some.1 h0
    obtain ⟨rfl, _⟩ := tag_some.1 h1
    obtain ⟨rfl, _⟩ := tag_some.1 h3
    obtain ⟨l, h2, _⟩ := value_some.1 h2
    obtain ⟨d, rfl, hd⟩ := barePart_loop (balancedParensF_writes _) _ _ _ h2
    rcases hd with hd | ⟨_, _, _, hd⟩
    · exact ⟨d, r, hd, rfl⟩
    · simp at hd
  · rintro ⟨b, r, hb, rfl⟩
    obtain ⟨l, hl⟩ := bareDest_manyF hb (('(' :: (b ++ ')' :: r)).length) (by simp; omega) r
    have : balancedParens ('(' :: (b ++ ')' :: r)) = some (r, ()) := by
      show balancedParensF _ _ = _
      unfold balancedParensF
      exact delimited_some.2 ⟨_, _, _, _, tag_append ['('] _, value_some.2 ⟨l, hl, rfl⟩, tag_append [')'] _⟩
    rw [this]; simp

/-- Where a bare destination can stop: nothing further can be part of it. -/
def BareStop (u : Str) : Prop := DestStop u ∨ UnbalancedAt u

theorem bareDest_many' {s u : Str} (h : BareDest s) (hu : BareStop u) : ∃ l,
    many0 (value () linkEscapedChar <||> balancedParens <||>
      value () (satisfy (fun c => isValidChar c && c != '(' && c != ')'))) (s ++ u) =
      some (u, l) ∧ (s ≠ [] → l ≠ []) := by
  rcases hu with hu | ⟨hu, hb⟩
  · exact bareDest_many h hu
  induction h with
  | nil =>
    refine ⟨[], many0_of_none ?_, by simp⟩
    obtain ⟨v, rfl⟩ : ∃ v, u = '(' :: v := by
      cases u with
      | nil => simp at hu
      | cons c u => simp at hu; subst hu; exact ⟨_, rfl⟩
    rw [orElse_none, orElse_none, value_none, value_none]
    refine ⟨linkEscapedChar_head (by decide), ?_, rfl⟩
    cases e : balancedParens ('(' :: v) with
    | none => exact e
    | some y => exact absurd (balanced_iff.1 (by rw [e]; simp)) hb
  | @chr c s h1 h2 h ih =>
    obtain ⟨l, ih, _⟩ := ih
    have hc : c ≠ '(' := by rintro rfl; exact h2 (by decide)
    exact ⟨() :: l, many0_of_some (barePart_chr (balancedParens_head hc) ⟨h1, h2⟩) (by simp) ih, by simp⟩
  | @esc c s h ih =>
    obtain ⟨l, ih, _⟩ := ih
    exact ⟨() :: l, many0_of_some barePart_esc (by simp; omega) ih, by simp⟩
  | @parens a b ha hb' iha ihb =>
    obtain ⟨l, ih, _⟩ := ihb
    refine ⟨() :: l, many0_of_some (r := b ++ u) ?_ (by simp; omega) ih, by simp⟩
    have e : '(' :: (a ++ ')' :: b) ++ u = '(' :: (a ++ ')' :: (b ++ u)) := by simp
    rw [e, orElse_of_none (value_none.2 (linkEscapedChar_head (by decide)))]
    refine orElse_of_some ?_
    obtain ⟨l, hl⟩ := bareDest_manyF ha (('(' :: (a ++ ')' :: (b ++ u))).length) (by simp; omega) (b ++ u)
    show balancedParensF _ _ = _
    unfold balancedParensF
    exact delimited_some.2 ⟨_, _, _, _, tag_append ['('] _, value_some.2 ⟨l, hl, rfl⟩, tag_append [')'] _⟩

theorem linkDestination_of' {src d u : Str} (h : LinkDest src d)
    (hu : src.head? = some '<' ∨ BareStop u) : linkDestination (src ++ u) = some (u, d) := by
  cases h with
  | angle ha => exact linkDestination_of (.angle ha) (.inl rfl)
  | bare hne hb =>
    obtain ⟨c, t, hct, k1, k2, _⟩ := hb.first hne
    have hu : BareStop u := by
      rcases hu with hu | hu
      · rw [hct] at hu; simp at hu; exact absurd hu k2
      · exact hu
    obtain ⟨l, h1, h2⟩ := bareDest_many' hb hu
    have hrec := recognize_of (many1_of_many0 h1 (h2 hne))
    unfold linkDestination
    rw [orElse_of_none (by
      unfold linkDestination1
      rw [hct]
      exact delimited_none (chr_ne k2))]
    unfold linkDestination2
    have : satisfy (fun c => isValidChar c && c != '<') (src ++ u) = some (t ++ u, c) := by
      rw [hct]; exact satisfy_some.2 ⟨rfl, by simp [k1, k2]⟩
    rw [this]
    exact hrec

/-- A destination that is read, unless it ends the text: it is followed by something that cannot be part of it. -/
theorem linkDestination_at {s r d : Str} (h : linkDestination s = some (r, d)) (hr : r ≠ []) :
    ∃ w, s = w ++ r ∧ LinkDest w d ∧ (w.head? = some '<' ∨ ∀ c, r.head? = some c →
      c ≠ '\\' ∧ isValidChar c = false ∨ c = ')' ∨ UnbalancedAt r) := by
  have hbs : linkDestination1 s = none → ∀ c, r.head? = some c →
      c ≠ '\\' ∧ isValidChar c = false ∨ c = ')' ∨ UnbalancedAt r := by
    intro h1 c hc
    rcases orElse_some.1 h with h | ⟨_, h⟩
    · rw [h1] at h; simp at h
    · unfold linkDestination2 at h
      split at h
      · simp at h
      · obtain ⟨l, h2, _⟩ := recognize_some.1 h
        obtain ⟨s1, a, l', h3, h4, _⟩ := many1_some.1 h2
        have h5 := many0_stop h4
        obtain ⟨k1, k2, k3⟩ : linkEscapedChar r = none ∧ balancedParens r = none ∧
            satisfy (fun c => isValidChar c && c != '(' && c != ')') r = none := by
          simpa only [orElse_none, value_none] using h5
        obtain ⟨r', rfl⟩ : ∃ r', r = c :: r' := by
          cases r with
          | nil => simp at hc
          | cons e r => simp at hc; subst hc; exact ⟨_, rfl⟩
        have k3 : (isValidChar c && c != '(' && c != ')') = false := by
          simpa [satisfy] using k3
        by_cases hb : c = '('
        · subst hb
          exact .inr (.inr ⟨rfl, fun hh => by
            have := balanced_iff.2 hh
            exact this k2⟩)
        by_cases hb' : c = ')'
        · exact .inr (.inl hb')
        have hv : isValidChar c = false := by
          simpa [hb, hb'] using k3
        refine .inl ⟨?_, hv⟩
        rintro rfl
        revert hv; decide
  have hno : ∀ {d0 : Str}, (∃ c t, s = c :: t ∧ c ≠ '<') → linkDestination1 s = none := by
    rintro d0 ⟨c, t, rfl, hc⟩
    exact delimited_none (chr_ne hc)
  obtain ⟨w, hw, h'⟩ := linkDestination_writes _ _ _ h
  cases h' with
  | bare h1 h2 =>
    obtain ⟨c, t, hct, _, k2, _⟩ := h2.first h1
    exact ⟨d, hw, .bare h1 h2, .inr (hbs (hno (d0 := []) ⟨c, t ++ r, by rw [hw, hct]; rfl, k2⟩))⟩
  | angle h1 => exact ⟨_, hw, .angle h1, .inl rfl⟩
  | @back d0 hbd =>
    obtain ⟨w', hw', hd⟩ := destAt_of h
    have : w' = d0 ++ ['\\'] := by
      rw [hw] at hw'
      exact (List.append_cancel_right hw').symm
    subst this
    rcases hd with ⟨d', hd⟩ | ⟨_, _, _, hd⟩
    · have hne : (d0 ++ ['\\'] : Str) ≠ [] := by simp
      generalize hw0 : d0 ++ ['\\'] = w0 at hd hw hne h
      cases hd with
      | angle _ =>
        have := congrArg List.getLast? hw0
        simp at this
        rw [List.getLast?_cons] at this
        simp at this
      | bare h1 h2 =>
        obtain ⟨c, t, hct, _, k2, _⟩ := h2.first hne
        exact ⟨_, hw, .bare h1 h2, .inr (hbs (hno (d0 := []) ⟨c, t ++ r, by rw [hw, hct]; rfl, k2⟩))⟩
    · exact absurd hd hr

theorem destAndTitle_iff {s d r : Str} {ti : Option Str} :
    destAndTitle s = some (r, (d, ti)) ↔ DestTitleAt s d ti r := by
  constructor
  · intro h
    unfold destAndTitle at h
    obtain ⟨s1, _, s2, _, h1, h2, h3⟩ := delimited_some.1 h
    obtain ⟨rfl, _⟩ := chr_some.1 h1
    obtain ⟨s3, h4, h5⟩ := seq_some.1 h2
    obtain ⟨s4, _, h6, h7⟩ := preceded_some.1 h4
    obtain ⟨s5, _, h8, h9⟩ := preceded_some.1 h3
    obtain ⟨rfl, _⟩ := chr_some.1 h9
    obtain ⟨w1, rfl, hw1⟩ := multispace0_writes _ _ _ h6
    obtain ⟨w3, rfl, hw3⟩ := multispace0_writes _ _ _ h8
    rcases opt_some.1 h5 with ⟨t, h5', rfl⟩ | ⟨h5', rfl, rfl⟩
    · obtain ⟨s6, _, h10, h11⟩ := preceded_some.1 h5'
      obtain ⟨w2, rfl, hw2⟩ := multispace0_writes _ _ _ h10
      obtain ⟨ts, rfl, hts⟩ := linkTitle_writes _ _ _ h11
      obtain ⟨src, rfl, hsrc, hstop⟩ := linkDestination_at h7 (by simp)
      refine .title hw1 hsrc hw2 hts hw3 ?_
      rintro rfl
      rcases hstop with hstop | hstop
      · exact .inl hstop
      · obtain ⟨c, t', hct, _⟩ := hts.first
        have := hstop c (by rw [hct]; rfl)
        cases hts with
        | double _ =>
          simp at hct
          rw [← hct.1] at this
          rcases this with this | this | this
          · exact absurd this (by decide)
          · exact absurd this (by decide)
          · exact .inr this
        | single _ =>
          simp at hct
          rw [← hct.1] at this
          rcases this with this | this | this
          · exact absurd this (by decide)
          · exact absurd this (by decide)
          · exact .inr this
        | paren _ =>
          simp at hct
          rw [← hct.1] at this
          rcases this with this | this | this
          · exact absurd this (by decide)
          · exact absurd this (by decide)
          · exact .inr this
    · obtain ⟨src, rfl, hsrc, hstop⟩ := linkDestination_at h7 (by simp)
      exact .plain hw1 hsrc hw3
  · intro h
    unfold destAndTitle
    have hparen : ∀ v : Str, ∀ c, (')' :: v).head? = some c → isMultispace c = false := by
      intro v c hc; simp at hc; subst hc; decide
    cases h with
    | @plain w1 src _ w2 _ h1 h2 h3 =>
      have := destAndTitle_of (u := r) (DestTitle.plain h1 h2 h3)
      simpa [destAndTitle] using this
    | @title w1 src _ w2 tsrc t w3 _ h1 h2 h3 h5 h6 h4 =>
      obtain ⟨c, r, hcr, hms⟩ := h2.first
      obtain ⟨c', r', hcr', hms'⟩ := h5.first
      rename_i u
      refine delimited_some.2 ⟨w1 ++ (src ++ (w2 ++ (tsrc ++ (w3 ++ ')' :: u)))), '(', w3 ++ ')' :: u, ')',
        chr_cons _ _, ?_, ?_⟩
      · refine seq_some.2 ⟨w2 ++ (tsrc ++ (w3 ++ ')' :: u)),
          preceded_some.2 ⟨src ++ (w2 ++ (tsrc ++ (w3 ++ ')' :: u))), w1, ?_, linkDestination_of' h2 ?_⟩, ?_⟩
        · exact multispace0_of h1 (by rw [hcr]; intro d hd; simp at hd; subst hd; exact hms)
        · cases hw : w2 with
          | nil => exact (h4 hw).imp id .inr
          | cons e w2 => exact .inr (.inl (by rw [← hw]; exact h3.destStop (fun h => by rw [hw] at h; simp at h)))
        · refine opt_some.2 (.inl ⟨t, preceded_some.2 ⟨tsrc ++ (w3 ++ ')' :: u), w2, ?_, linkTitle_of h5⟩, rfl⟩)
          exact multispace0_of h3 (by rw [hcr']; intro d hd; simp at hd; subst hd; exact hms')
      · unfold preceded
        rw [multispace0_of h6 (hparen u)]
        exact chr_cons _ _

/-! ## Footnote references, line breaks, images -/

theorem footnote_iff {s r : Str} {i : Inline} :
    footnoteReferenceP s = some (r, i) ↔ ∃ n, i = .footnoteReference n ∧ NoteAt s n r := by
  constructor
  · intro h
    obtain ⟨w, hw, h'⟩ := footnoteReferenceP_writes (x := PExt.ascii) (ent := fun _ => none) s r _ h
    obtain ⟨n, h1, rfl⟩ := mapP_some.1 h
    cases h' with
    | footnoteReference h2 h3 => exact ⟨n, rfl, h2, h3, by rw [hw]; simp⟩
  · rintro ⟨n, rfl, h1, h2, rfl⟩
    unfold footnoteReferenceP
    refine mapP_some.2 ⟨n, delimited_some.2 ⟨n ++ ']' :: r, cs!"[^", ']' :: r, ']', tag_append _ _, ?_, chr_cons _ _⟩, rfl⟩
    obtain ⟨k1, k2⟩ := takeWhile_span' (f := isAlnum) (t := ']' :: r) h2 (by intro c hc; simp at hc; subst hc; decide)
    unfold alphanumeric1
    exact takeWhile1_some.2 ⟨k1.symm, k2.symm, h1⟩

theorem break_iff {s r : Str} {i : Inline} : hardNewline s = some (r, i) ↔ i = .lineBreak ∧ BreakAt s r := by
  constructor
  · intro h
    obtain ⟨w, hw, h'⟩ := hardNewline_writes (x := PExt.ascii) (ent := fun _ => none) s r _ h
    unfold hardNewline at h
    obtain ⟨_, _, rfl⟩ := value_some.1 h
    refine ⟨rfl, ?_⟩
    cases h' with
    | backslashBreak he => exact .inl ⟨_, he, by rw [hw]; simp⟩
    | spaceBreak hn he => exact .inr ⟨_, _, hn, he, by rw [hw]; simp⟩
  · rintro ⟨rfl, ⟨e, he, rfl⟩ | ⟨n, e, hn, he, rfl⟩⟩
    · unfold hardNewline
      refine value_some.2 ⟨(), orElse_of_some (value_some.2 ⟨('\\', e), seq_some.2 ⟨e ++ r, chr_cons _ _, lineEnding_head he⟩, rfl⟩), rfl⟩
    · unfold hardNewline
      refine value_some.2 ⟨(), ?_, rfl⟩
      obtain ⟨m, rfl⟩ : ∃ m, n = m + 1 := ⟨n - 1, by omega⟩
      rw [orElse_of_none]
      · refine value_some.2 ⟨(List.replicate (m + 1) ' ', e), seq_some.2 ⟨e ++ r, ?_, lineEnding_head he⟩, rfl⟩
        unfold manyMin
        refine verify_some.2 ⟨many0_chr _ (by rcases he with rfl | rfl <;> simp), by simpa using hn⟩
      · rw [value_none, List.replicate_succ, List.cons_append]
        exact seq_none (chr_ne (by decide))

theorem image_iff {s r : Str} {i : Inline} :
    imageP s = some (r, i) ↔ ∃ d ti alt, i = .image d ti alt ∧ ImageAt s alt d ti r := by
  constructor
  · intro h
    unfold imageP at h
    obtain ⟨⟨alt, d, ti⟩, h1, rfl⟩ := mapP_some.1 h
    obtain ⟨v, h2, h3⟩ := seq_some.1 h1
    obtain ⟨s1, _, h4, h5⟩ := preceded_some.1 h2
    obtain ⟨rfl, _⟩ := chr_some.1 h4
    obtain ⟨s2, _, s3, _, h6, h7, h8⟩ := delimited_some.1 h5
    obtain ⟨rfl, _⟩ := chr_some.1 h6
    obtain ⟨rfl, _⟩ := chr_some.1 h8
    obtain ⟨w, rfl, h9, h10⟩ := takeWhile_writes _ _ _ h7
    subst h9
    exact ⟨d, ti, alt, rfl, v, fun hm => by simpa using h10 _ hm, destAndTitle_iff.1 h3, rfl⟩
  · rintro ⟨d, ti, alt, rfl, v, h1, h2, rfl⟩
    unfold imageP
    refine mapP_some.2 ⟨(alt, d, ti), seq_some.2 ⟨v, preceded_some.2 ⟨'[' :: (alt ++ ']' :: v), '!', chr_cons _ _,
      delimited_some.2 ⟨alt ++ ']' :: v, '[', ']' :: v, ']', chr_cons _ _, ?_, chr_cons _ _⟩⟩, destAndTitle_iff.2 h2⟩, rfl⟩
    obtain ⟨k1, k2⟩ := takeWhile_span' (f := fun c => c != ']') (a := alt) (t := ']' :: v)
      (by intro c hc; simp; rintro rfl; exact h1 hc) (by intro c hc; simp at hc; subst hc; decide)
    show some (_, _) = _
    rw [k1, k2]

/-! ## Loops -/

/-- A step that takes an escaped `e` in one go and any other character alone. -/
structure Steps {α : Type} (e : Char) (q : P α) : Prop where
  esc : ∀ s, ∃ a, q ('\\' :: e :: s) = some (s, a)
  one : ∀ c s, ¬ (c = '\\' ∧ s.head? = some e) → ∃ a, q (c :: s) = some (s, a)

theorem Steps.over {α : Type} {e : Char} {q : P α} (h : Steps e q) (hn : q [] = none) : StepsOver e q := by
  constructor
  · intro s r a hs
    cases s with
    | nil => rw [hn] at hs; simp at hs
    | cons c s =>
      by_cases hc : c = '\\' ∧ s.head? = some e
      · obtain ⟨rfl, h1⟩ := hc
        cases s with
        | nil => simp at h1
        | cons d s =>
          simp at h1; subst h1
          obtain ⟨b, hb⟩ := h.esc s
          rw [hb] at hs; simp at hs
          exact .inl (by rw [hs.1])
      · obtain ⟨b, hb⟩ := h.one c s hc
        rw [hb] at hs; simp at hs
        exact .inr ⟨c, by rw [hs.1]⟩
  · intro c s h0
    by_cases hc : c = '\\' ∧ s.head? = some e
    · obtain ⟨rfl, h1⟩ := hc
      cases s with
      | nil => simp at h1
      | cons d s =>
        simp at h1; subst h1
        obtain ⟨b, hb⟩ := h.esc s
        rw [hb] at h0; simp at h0
    · obtain ⟨b, hb⟩ := h.one c s hc
      rw [hb] at h0; simp at h0

theorem step_some {α β : Type} {stop : P α} {q : P β} {s r : Str} {a : β} (h : stop s = none) (hq : q s = some (r, a)) :
    preceded (notP stop) q s = some (r, a) :=
  preceded_some.2 ⟨s, (), notP_some.2 ⟨h, rfl⟩, hq⟩

theorem skipLoop_of {α β : Type} {stop : P α} {e : Char} {q : P β} (he : e ≠ '\\') (hq : Steps e q) {r : Str}
    (hr : ∃ y, stop r = some y) : ∀ (n : Nat) (o : Str), o.length ≤ n →
    (∀ a b, o = a ++ b → b ≠ [] → ¬ (a.getLast? = some '\\' ∧ b.head? = some e) → stop (b ++ r) = none) →
    (r.head? = some e → o.getLast? ≠ some '\\') →
    ∃ l, many0 (preceded (notP stop) q) (o ++ r) = some (r, l) ∧ (o ≠ [] → l ≠ []) := by
  intro n
  induction n with
  | zero =>
    intro o ho _ _
    obtain rfl : o = [] := List.length_eq_zero_iff.1 (by omega)
    exact ⟨[], many0_of_none (preceded_none (notP_none.2 hr)), by simp⟩
  | succ n ih =>
    intro o ho hs hl
    cases o with
    | nil => exact ⟨[], many0_of_none (preceded_none (notP_none.2 hr)), by simp⟩
    | cons c o =>
      have h0 : stop (c :: (o ++ r)) = none := hs [] (c :: o) rfl (by simp) (by simp)
      by_cases hc : c = '\\' ∧ (o ++ r).head? = some e
      · obtain ⟨rfl, h1⟩ := hc
        cases o with
        | nil => exact absurd rfl (hl (by simpa using h1))
        | cons d o =>
          simp at h1; subst h1
          obtain ⟨b, hb⟩ := hq.esc (o ++ r)
          obtain ⟨l, h2, _⟩ := ih o (by simp at ho; omega)
            (by
              intro a b hab hbn hn
              refine hs ('\\' :: d :: a) b (by rw [hab]; rfl) hbn ?_
              cases a with
              | nil => simp [he]
              | cons f a => simpa [List.getLast?_cons_cons] using hn)
            (by
              intro h
              have := hl h
              cases o with
              | nil => simp
              | cons f o => simpa [List.getLast?_cons_cons] using this)
          exact ⟨b :: l, many0_of_some (step_some h0 hb) (by simp; omega) h2, by simp⟩
      · obtain ⟨b, hb⟩ := hq.one c (o ++ r) hc
        obtain ⟨l, h2, _⟩ := ih o (by simp at ho; omega)
          (by
            intro a b hab hbn hn
            refine hs (c :: a) b (by rw [hab]; rfl) hbn ?_
            cases a with
            | nil =>
              rintro ⟨h3, h4⟩
              simp at h3 hab
              subst h3 hab
              refine hc ⟨rfl, ?_⟩
              cases o with
              | nil => exact absurd rfl hbn
              | cons f o => simpa using h4
            | cons f a => simpa [List.getLast?_cons_cons] using hn)
          (by
            intro h
            have := hl h
            cases o with
            | nil => simp
            | cons f o => simpa [List.getLast?_cons_cons] using this)
        exact ⟨b :: l, many0_of_some (step_some h0 hb) (by simp) h2, by simp⟩

theorem skipLoop_last {α β : Type} {stop : P α} {e : Char} {q : P β} (he : e ≠ '\\') (hq : Steps e q) (hn : q [] = none) :
    ∀ s r l, many0 (preceded (notP stop) q) s = some (r, l) →
    ∀ o, s = o ++ r → r.head? = some e → o.getLast? ≠ some '\\' := by
  refine many0_induction ?_ ?_
  · intro s _ o ho _
    have : o = [] := by
      have := congrArg List.length ho
      simp at this; exact this
    simp [this]
  · intro s r c r' l hp hlt hm ih o ho hre
    obtain ⟨s1, _, h1, h2⟩ := preceded_some.1 hp
    obtain ⟨h1, rfl⟩ := notP_some.1 h1
    obtain ⟨p, rfl, _⟩ := skipLoop (hq.over hn) _ _ _ hm
    have hp := ih p rfl hre
    rcases (hq.over hn).1 _ _ _ h2 with h3 | ⟨d, h3⟩
    · have : o = '\\' :: e :: p := by
        have : o ++ r' = ('\\' :: e :: p) ++ r' := by rw [← ho, h3]; rfl
        exact List.append_cancel_right this
      subst this
      cases p with
      | nil => simp [he]
      | cons f p => simpa [List.getLast?_cons_cons] using hp
    · have : o = d :: p := by
        have : o ++ r' = (d :: p) ++ r' := by rw [← ho, h3]; rfl
        exact List.append_cancel_right this
      subst this
      cases p with
      | nil =>
        simp
        rintro rfl
        subst h3
        cases r' with
        | nil => simp at hre
        | cons f r' =>
          simp at hre; subst hre
          obtain ⟨b, hb⟩ := hq.esc r'
          rw [show [] ++ f :: r' = f :: r' from rfl, hb] at h2
          simp at h2
      | cons f p => simpa [List.getLast?_cons_cons] using hp

theorem many1_to_many0 {α β : Type} {stop : P α} {e : Char} {q : P β} (hq : StepsOver e q) {s r : Str} {l : List β}
    (h : many1 (preceded (notP stop) q) s = some (r, l)) : many0 (preceded (notP stop) q) s = some (r, l) := by
  obtain ⟨s1, a, l', h1, h2, rfl⟩ := many1_some.1 h
  refine many0_of_some h1 ?_ h2
  obtain ⟨s2, _, h3, h4⟩ := preceded_some.1 h1
  obtain ⟨_, rfl⟩ := notP_some.1 h3
  rcases hq.1 _ _ _ h4 with rfl | ⟨c, rfl⟩ <;> simp <;> omega

theorem untilLoop_of {α : Type} {stop : P α} {r : Str} (hr : ∃ y, stop r = some y) : ∀ o : Str,
    (∀ a b, o = a ++ b → b ≠ [] → stop (b ++ r) = none) →
    many0 (preceded (notP stop) anychar) (o ++ r) = some (r, o) := by
  intro o
  induction o with
  | nil => intro _; exact many0_of_none (preceded_none (notP_none.2 hr))
  | cons c o ih =>
    intro h
    refine many0_of_some (step_some (h [] (c :: o) rfl (by simp)) rfl) (by simp) (ih ?_)
    intro a b hab hb
    exact h (c :: a) b (by rw [hab]; rfl) hb

/-! ## Emphasis and strikethrough -/

theorem stars_steps : Steps '*' (value () (tag cs!"\\*") <||> value () anychar) := by
  constructor
  · intro s; exact ⟨(), rfl⟩
  · intro c s h
    refine ⟨(), ?_⟩
    rw [orElse_of_none]
    · rfl
    · rw [value_none, tag_none]
      rintro ⟨v, hv⟩
      simp at hv
      exact h ⟨hv.1.symm, by rw [← hv.2]; rfl⟩

theorem tildes_steps : Steps '~' (value '~' (tag cs!"\\~") <||> anychar) := by
  constructor
  · intro s; exact ⟨'~', rfl⟩
  · intro c s h
    refine ⟨c, ?_⟩
    rw [orElse_of_none]
    · rfl
    · rw [value_none, tag_none]
      rintro ⟨v, hv⟩
      simp at hv
      exact h ⟨hv.1.symm, by rw [← hv.2]; rfl⟩

theorem run_head {c : Str} {m : Char} {n : Nat} {s r : Str} (hn : 0 < n) (hc : c ≠ [])
    (h : c ++ s = List.replicate n m ++ r) : c.head? = some m := by
  obtain ⟨k, rfl⟩ : ∃ k, n = k + 1 := ⟨n - 1, by omega⟩
  cases c with
  | nil => exact absurd rfl hc
  | cons d c =>
    rw [List.replicate_succ] at h
    simp only [List.cons_append, List.cons.injEq] at h
    simp [h.1]

theorem emph_iff {m : Char} {n : Nat} (hm : EmphMark m) (hn : 0 < n) {s r : Str} {l : List Inline} :
    emphasisDelimited x rec (List.replicate n m) s = some (r, l) ↔ ∃ o, EmphAt x m n s o r ∧ rec o = some l := by
  constructor
  · intro h
    have h0 := h
    obtain ⟨s1, _, s2, _, h1, h2, h3⟩ := delimited_some.1 h
    obtain ⟨rfl, h4⟩ := openTag_some hm hn h1
    obtain ⟨rfl, h5⟩ := closeTag_some h3
    obtain ⟨t, h6, h7⟩ := mapOpt_some.1 h2
    have h8 := recognize_append h6
    obtain ⟨l', h9, _⟩ := recognize_some.1 h6
    have hq := stars_steps.over rfl
    obtain ⟨o, rfl, hne, h10, _⟩ := skipLoop1 hq h9
    have hlast := skipLoop_last (by decide) stars_steps rfl _ _ _ (many1_to_many0 hq h9) o rfl
    have ht : t = o := List.append_cancel_right h8
    subst ht
    refine ⟨t, ⟨⟨?_, h5, ?_⟩, ?_, rfl⟩, h7⟩
    · obtain ⟨c, h11, h12⟩ := h4
      refine ⟨c, ?_, h12⟩
      cases t with
      | nil => exact absurd rfl hne
      | cons a t => simpa using h11
    · intro a b hab hl hesc hend
      obtain ⟨c, rfl, hc, hcb⟩ := split_before hab hl
      have h11 := h10 a c rfl hc ?_
      · rw [hcb, closeTag_of hend] at h11
        simp at h11
      · rintro ⟨h12, h13⟩
        rw [run_head hn hc hcb] at h13
        simp at h13
        exact hesc h13 h12
    · rintro rfl
      apply hlast
      obtain ⟨k, rfl⟩ : ∃ k, n = k + 1 := ⟨n - 1, by omega⟩
      rfl
  · rintro ⟨o, ⟨ht, hl, rfl⟩, hr⟩
    obtain ⟨c, hc, hws, hsep⟩ := ht.start
    obtain ⟨o', rfl⟩ : ∃ o', o = c :: o' := by
      cases o with
      | nil => simp at hc
      | cons a o => simp at hc; subst hc; exact ⟨o, rfl⟩
    have hh : (List.replicate n m).headD '*' = m := by
      cases n with
      | zero => omega
      | succ n => rfl
    have hclose : closeTag x (List.replicate n m) (List.replicate n m ++ r) = some (r, ()) := closeTag_of ht.finish
    have hopen : openTag x (List.replicate n m) (List.replicate n m ++ (c :: (o' ++ (List.replicate n m ++ r)))) =
        some (c :: (o' ++ (List.replicate n m ++ r)), ()) := by
      rcases hm with rfl | rfl
      · exact openTag_of hh hws
      · exact openTag_under hh (hsep rfl)
    obtain ⟨l', h1, h2⟩ := skipLoop_of (stop := closeTag x (List.replicate n m)) (e := '*') (by decide) stars_steps
      (r := List.replicate n m ++ r) ⟨_, hclose⟩ _ (c :: o') (Nat.le_refl _)
      (by
        intro a b hab hb hesc
        cases e : closeTag x (List.replicate n m) (b ++ (List.replicate n m ++ r)) with
        | none => rfl
        | some y =>
          exfalso
          obtain ⟨h3, h4⟩ := closeTag_some (show _ = some (y.1, y.2) from e)
          refine ht.first a y.1 (by rw [← h3, hab]; simp) (by
            rw [hab]
            have := List.length_pos_iff.2 hb
            simp; omega) ?_ h4
          rintro rfl h5
          exact hesc ⟨h5, run_head hn hb h3⟩)
      (by
        intro h
        refine hl ?_
        obtain ⟨k, rfl⟩ : ∃ k, n = k + 1 := ⟨n - 1, by omega⟩
        rw [List.replicate_succ] at h
        simpa using h)
    unfold emphasisDelimited
    refine delimited_some.2 ⟨_, (), List.replicate n m ++ r, (), hopen, ?_, hclose⟩
    unfold emphasisContent
    exact mapOpt_some.2 ⟨c :: o', recognize_of (a := c :: o') (many1_of_many0 h1 (h2 (by simp))), hr⟩

theorem strikeClose_some {s r y : Str} (h : strikeClose s = some (r, y)) : s = cs!"~~" ++ r ∧ r.head? ≠ some '~' := by
  obtain ⟨s1, _, h1, h2⟩ := preceded_some.1 h
  obtain ⟨h1, rfl⟩ := notP_some.1 h1
  obtain ⟨rfl, _⟩ := tag_some.1 h2
  refine ⟨rfl, ?_⟩
  intro hh
  cases r with
  | nil => simp at hh
  | cons a r =>
    simp at hh; subst hh
    simp [Nom.seq, tag, chr_cons] at h1

theorem strikeClose_of {r : Str} (h : r.head? ≠ some '~') : strikeClose (cs!"~~" ++ r) = some (r, cs!"~~") := by
  refine preceded_some.2 ⟨_, (), notP_some.2 ⟨?_, rfl⟩, tag_append _ _⟩
  cases r with
  | nil => rfl
  | cons a r =>
    have : a ≠ '~' := by simpa using h
    simp [Nom.seq, tag, chr_ne this]

theorem strike_iff {s r : Str} {i : Inline} :
    strikethroughP rec s = some (r, i) ↔ ∃ o l, i = .strikethrough l ∧ StrikeAt s o r ∧ rec o = some l := by
  constructor
  · intro h
    unfold strikethroughP at h
    split at h
    · simp at h
    · rename_i s1 _ e1
      split at h
      · simp at h
      · rename_i s2 content e2
        split at h
        · rename_i l e3
          simp at h
          obtain ⟨rfl, rfl⟩ := h
          obtain ⟨s3, _, h1, h2⟩ := terminated_some.1 e1
          obtain ⟨rfl, _⟩ := tag_some.1 h1
          obtain ⟨h2, rfl⟩ := notP_some.1 h2
          obtain ⟨s4, _, h3, h4⟩ := terminated_some.1 e2
          obtain ⟨rfl, _⟩ := tag_some.1 h4
          have h5 := recognize_append h3
          obtain ⟨l', h6, _⟩ := recognize_some.1 h3
          have hq := tildes_steps.over rfl
          obtain ⟨o, rfl, hne, h7, h8⟩ := skipLoop1 hq h6
          have hlast := skipLoop_last (by decide) tildes_steps rfl _ _ _ (many1_to_many0 hq h6) o rfl rfl
          have ht : content = o := List.append_cancel_right h5
          subst ht
          refine ⟨content, l, rfl, ⟨⟨?_, ?_, ?_⟩, hlast, rfl⟩, e3⟩
          · cases content with
            | nil => exact absurd rfl hne
            | cons a t =>
              refine ⟨a, rfl, ?_⟩
              rintro rfl
              simp [chr_cons] at h2
          · obtain ⟨y, hy⟩ := h8 (by simp)
            obtain ⟨h9, h10⟩ := strikeClose_some (show _ = some (y.1, y.2) from hy)
            rw [List.append_cancel_left h9]
            exact h10
          · intro a b hab hl hesc
            obtain ⟨c, rfl, hc, hcb⟩ := split_before hab hl
            have h9 := h7 a c rfl hc (fun h => hesc h.1)
            rw [hcb] at h9
            by_cases hb : b.head? = some '~'
            · exact hb
            · rw [strikeClose_of hb] at h9; simp at h9
        · simp at h
  · rintro ⟨o, l, rfl, ⟨ht, hl, rfl⟩, hr⟩
    obtain ⟨c, hc, hne⟩ := ht.start
    obtain ⟨o', rfl⟩ : ∃ o', o = c :: o' := by
      cases o with
      | nil => simp at hc
      | cons a o => simp at hc; subst hc; exact ⟨o, rfl⟩
    have hclose := strikeClose_of ht.finish
    obtain ⟨l', h1, h2⟩ := skipLoop_of (stop := strikeClose) (e := '~') (by decide) tildes_steps
      (r := cs!"~~" ++ r) ⟨_, hclose⟩ _ (c :: o') (Nat.le_refl _)
      (by
        intro a b hab hb hesc
        cases e : strikeClose (b ++ (cs!"~~" ++ r)) with
        | none => rfl
        | some y =>
          exfalso
          obtain ⟨h3, h4⟩ := strikeClose_some (show _ = some (y.1, y.2) from e)
          refine h4 (ht.first a y.1 (by rw [← h3, hab]; simp) (by
            rw [hab]
            have := List.length_pos_iff.2 hb
            simp; omega) ?_)
          intro h5
          exact hesc ⟨h5, run_head (n := 2) (by decide) hb h3⟩)
      (fun _ => hl)
    unfold strikethroughP
    rw [show terminated (tag cs!"~~") (notP (chr '~')) (cs!"~~" ++ (c :: o' ++ (cs!"~~" ++ r))) =
      some (c :: o' ++ (cs!"~~" ++ r), cs!"~~") from
        terminated_some.2 ⟨_, (), tag_append _ _, notP_some.2 ⟨chr_ne hne, rfl⟩⟩]
    simp only
    rw [show terminated (recognize (many1 (preceded (notP strikeClose) (value '~' (tag cs!"\\~") <||> anychar))))
        (tag cs!"~~") (c :: o' ++ (cs!"~~" ++ r)) = some (r, c :: o') from
      terminated_some.2 ⟨_, _, recognize_of (a := c :: o') (many1_of_many0 h1 (h2 (by simp))), tag_append _ _⟩]
    simp only
    rw [hr]

end Verif.Exact
