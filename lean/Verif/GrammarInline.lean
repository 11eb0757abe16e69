import Verif.GrammarSpec
import Verif.ProvenanceInline
/-!
# Inlines are read by the grammar (C71)
-/
set_option linter.unusedVariables false
set_option linter.unusedSimpArgs false
namespace Verif
open Nom

/-- Whatever the parser reads is written as `E` says, in front of the rest. -/
def Writes {α : Type} (p : P α) (E : α → Str → Str → Prop) : Prop :=
  ∀ s r a, p s = some (r, a) → ∃ w, s = w ++ r ∧ E a w r

section
variable {α β : Type} {p q : P α}

theorem Writes.mono {E E' : α → Str → Str → Prop} (h : Writes p E) (hE : ∀ a w r, E a w r → E' a w r) :
    Writes p E' := by
  intro s r a hp
  obtain ⟨w, h1, h2⟩ := h s r a hp
  exact ⟨w, h1, hE _ _ _ h2⟩

theorem Writes.orElse {E : α → Str → Str → Prop} (h : Writes p E) (h' : Writes q E) :
    Writes (p <||> q) E := by
  intro s r a hp
  rcases orElse_some.1 hp with hp | ⟨_, hp⟩
  · exact h _ _ _ hp
  · exact h' _ _ _ hp

theorem Writes.failP {E : α → Str → Str → Prop} : Writes (failP : P α) E := by
  intro s r a hp; simp [Nom.failP] at hp

theorem Writes.mapP {f : α → β} {E : β → Str → Str → Prop} (h : Writes p (fun a w r => E (f a) w r)) :
    Writes (mapP p f) E := by
  intro s r b hp
  obtain ⟨a, hp', rfl⟩ := mapP_some.1 hp
  exact h _ _ _ hp'

end

/-! ## Loops -/

/-- A loop up to a stop: every character read is at a place where the stop fails. -/
theorem untilLoop {α : Type} {stop : P α} : ∀ s r l, many0 (preceded (notP stop) anychar) s = some (r, l) →
    s = l ++ r ∧ ∀ a b, l = a ++ b → b ≠ [] → stop (b ++ r) = none := by
  refine many0_induction ?_ ?_
  · intro s _
    refine ⟨rfl, ?_⟩
    intro a b h hb
    have := List.append_eq_nil_iff.1 h.symm
    exact absurd this.2 hb
  · intro s r c r' l hp _ _ ih
    obtain ⟨s1, _, h1, h2⟩ := preceded_some.1 hp
    obtain ⟨h1, rfl⟩ := notP_some.1 h1
    have h2 := anychar_some.1 h2
    obtain ⟨rfl, ih⟩ := ih
    subst h2
    refine ⟨rfl, ?_⟩
    intro a b h hb
    cases a with
    | nil =>
      simp at h; subst h
      simpa using h1
    | cons d a =>
      simp at h
      exact ih a b h.2 hb

theorem untilLoop_end {α : Type} {stop : P α} {s r : Str} {l : List Char}
    (h : many0 (preceded (notP stop) anychar) s = some (r, l)) (hr : r ≠ []) : ∃ y, stop r = some y := by
  have h1 := many0_stop h
  cases e : stop r with
  | some y => exact ⟨y, rfl⟩
  | none =>
    cases r with
    | nil => exact absurd rfl hr
    | cons c r => simp [preceded, notP, e, anychar, satisfy] at h1

/-- One step of a loop that jumps over an escaped `e`. -/
def StepsOver {α : Type} (e : Char) (q : P α) : Prop :=
  (∀ s r a, q s = some (r, a) → s = '\\' :: e :: r ∨ ∃ c, s = c :: r) ∧ ∀ c s, q (c :: s) ≠ none

/-- A loop up to a stop that jumps over escaped characters `e`. -/
theorem skipLoop {α β : Type} {stop : P α} {e : Char} {q : P β} (hq : StepsOver e q) :
    ∀ s r l, many0 (preceded (notP stop) q) s = some (r, l) →
    ∃ o, s = o ++ r ∧ ∀ a b, o = a ++ b → b ≠ [] → ¬ (a.getLast? = some '\\' ∧ b.head? = some e) →
      stop (b ++ r) = none := by
  refine many0_induction ?_ ?_
  · intro s _
    refine ⟨[], rfl, ?_⟩
    intro a b h hb
    have := List.append_eq_nil_iff.1 h.symm
    exact absurd this.2 hb
  · intro s r c r' l hp _ _ ih
    obtain ⟨s1, _, h1, h2⟩ := preceded_some.1 hp
    obtain ⟨h1, rfl⟩ := notP_some.1 h1
    obtain ⟨o, rfl, ih⟩ := ih
    rcases hq.1 _ _ _ h2 with rfl | ⟨c, rfl⟩
    · refine ⟨'\\' :: e :: o, rfl, ?_⟩
      intro a b h hb hn
      match a with
      | [] => simp at h; subst h; simpa using h1
      | [d] =>
        simp at h
        obtain ⟨rfl, rfl⟩ := h
        exact absurd ⟨rfl, rfl⟩ hn
      | d :: d' :: a =>
        simp at h
        refine ih a b h.2.2 hb ?_
        cases a with
        | nil => simp
        | cons d'' a => simpa [List.getLast?_cons_cons] using hn
    · refine ⟨c :: o, rfl, ?_⟩
      intro a b h hb hn
      cases a with
      | nil => simp at h; subst h; simpa using h1
      | cons d a =>
        simp at h
        refine ih a b h.2 hb ?_
        cases a with
        | nil => simp
        | cons d'' a => simpa [List.getLast?_cons_cons] using hn

theorem skipLoop1 {α β : Type} {stop : P α} {e : Char} {q : P β} (hq : StepsOver e q) {s r : Str} {l : List β}
    (h : many1 (preceded (notP stop) q) s = some (r, l)) :
    ∃ o, s = o ++ r ∧ o ≠ [] ∧ (∀ a b, o = a ++ b → b ≠ [] → ¬ (a.getLast? = some '\\' ∧ b.head? = some e) →
      stop (b ++ r) = none) ∧ (r ≠ [] → ∃ y, stop r = some y) := by
  obtain ⟨s1, a, l', h1, h2, rfl⟩ := many1_some.1 h
  have hlt : s1.length < s.length := by
    obtain ⟨s2, _, h3, h4⟩ := preceded_some.1 h1
    obtain ⟨_, rfl⟩ := notP_some.1 h3
    rcases hq.1 _ _ _ h4 with rfl | ⟨c, rfl⟩ <;> simp <;> omega
  have h0 := many0_of_some h1 hlt h2
  obtain ⟨o, rfl, h3⟩ := skipLoop hq _ _ _ h0
  have hs := many0_stop h0
  obtain ⟨o1, rfl, _⟩ := skipLoop hq _ _ _ h2
  refine ⟨o, rfl, ?_, h3, ?_⟩
  · rintro rfl; simp at hlt; omega
  · intro hr
    cases e' : stop r with
    | some y => exact ⟨y, rfl⟩
    | none =>
      cases r with
      | nil => exact absurd rfl hr
      | cons c r =>
        simp only [preceded, notP, e'] at hs
        exact absurd hs (hq.2 c r)

theorem split_before {o m s a b : Str} (h : o ++ (m ++ s) = a ++ (m ++ b)) (hl : a.length < o.length) :
    ∃ c, o = a ++ c ∧ c ≠ [] ∧ c ++ (m ++ s) = m ++ b := by
  rw [List.append_eq_append_iff] at h
  rcases h with ⟨c, rfl, h⟩ | ⟨c, rfl, h⟩
  · simp at hl; omega
  · refine ⟨c, rfl, ?_, h.symm⟩
    rintro rfl; simp at hl

/-! ## Escapes -/

/-- The characters up to a delimiter `e`, which can be escaped. -/
theorem unescapes_loop {e : Char} {α : Type} {stop : P α} (hstop : ∀ s, stop (e :: s) ≠ none) :
    ∀ s r l, many0 (preceded (notP stop) (value e (tag ['\\', e]) <||> anychar)) s = some (r, l) →
      ∃ w, s = w ++ r ∧ Unescapes e w l := by
  refine many0_induction ?_ ?_
  · intro s _; exact ⟨[], rfl, .nil⟩
  · intro s r c r' l hp _ _ ih
    obtain ⟨s1, _, h1, h2⟩ := preceded_some.1 hp
    obtain ⟨h1, rfl⟩ := notP_some.1 h1
    obtain ⟨w, rfl, ih⟩ := ih
    rcases orElse_some.1 h2 with h2 | ⟨_, h2⟩
    · obtain ⟨_, h3, rfl⟩ := value_some.1 h2
      have h4 := (tag_some.1 h3).1
      exact ⟨'\\' :: e :: w, by simp [h4], .esc ih⟩
    · have h4 := anychar_some.1 h2
      subst h4
      refine ⟨c :: w, rfl, .char ?_ ih⟩
      rintro rfl
      exact hstop _ h1

theorem unescapes_loop1 {e : Char} {α : Type} {stop : P α} (hstop : ∀ s, stop (e :: s) ≠ none)
    {s r l : Str} (h : many1 (preceded (notP stop) (value e (tag ['\\', e]) <||> anychar)) s = some (r, l)) :
    ∃ w, s = w ++ r ∧ w ≠ [] ∧ Unescapes e w l := by
  obtain ⟨s1, a, l', h1, h2, rfl⟩ := many1_some.1 h
  have hlt : s1.length < s.length := by
    obtain ⟨s2, _, h3, h4⟩ := preceded_some.1 h1
    obtain ⟨_, rfl⟩ := notP_some.1 h3
    rcases orElse_some.1 h4 with h4 | ⟨_, h4⟩
    · obtain ⟨_, h3, rfl⟩ := value_some.1 h4
      rw [(tag_some.1 h3).1]; simp; omega
    · rw [anychar_some.1 h4]; simp
  obtain ⟨w, rfl, h3⟩ := unescapes_loop hstop _ _ _ (many0_of_some h1 hlt h2)
  refine ⟨w, rfl, ?_, h3⟩
  rintro rfl
  cases h3

/-! ## Destinations and titles -/

theorem BareDest.append {a b : Str} (h : BareDest a) (h' : BareDest b) : BareDest (a ++ b) := by
  induction h with
  | nil => exact h'
  | chr h1 h2 _ ih => exact .chr h1 h2 ih
  | esc _ ih => exact .esc ih
  | parens h1 h2 _ ih2 =>
    have := BareDest.parens h1 ih2
    simpa using this

/-- A part of a bare destination. -/
def BarePart (d r : Str) : Prop := BareDest d ∨ ∃ d', d = d' ++ ['\\'] ∧ BareDest d' ∧ r = []

theorem barePart_step {q : P Unit} (hq : ∀ s r u, q s = some (r, u) → ∃ d, s = d ++ r ∧ BareDest d)
    {s r : Str} {u : Unit} (h : (value () linkEscapedChar <||> q <||>
      value () (satisfy (fun c => isValidChar c && c != '(' && c != ')'))) s = some (r, u)) :
    ∃ d, s = d ++ r ∧ BarePart d r := by
  rcases orElse_some.1 h with h | ⟨hn, h⟩
  · obtain ⟨c, h', _⟩ := value_some.1 h
    obtain ⟨s1, _, h1, h2⟩ := preceded_some.1 h'
    have h1 := (tag_some.1 h1).1
    have h2 := anychar_some.1 h2
    subst h2
    exact ⟨['\\', c], by simp [h1], .inl (.esc .nil)⟩
  · rcases orElse_some.1 h with h | ⟨_, h⟩
    · obtain ⟨d, h1, h2⟩ := hq _ _ _ h
      exact ⟨d, h1, .inl h2⟩
    · obtain ⟨c, h', _⟩ := value_some.1 h
      obtain ⟨rfl, hc⟩ := satisfy_some.1 h'
      refine ⟨[c], rfl, ?_⟩
      simp [isValidChar] at hc
      by_cases hb : c = '\\'
      · subst hb
        right
        refine ⟨[], rfl, .nil, ?_⟩
        cases r with
        | nil => rfl
        | cons d r => simp [value_none, linkEscapedChar, preceded, tag, anychar, satisfy] at hn
      · left
        refine .chr hc.1.1.1.1 ?_ .nil
        simp
        grind

theorem barePart_loop {q : P Unit} (hq : ∀ s r u, q s = some (r, u) → ∃ d, s = d ++ r ∧ BareDest d) :
    ∀ s r l, many0 (value () linkEscapedChar <||> q <||>
      value () (satisfy (fun c => isValidChar c && c != '(' && c != ')'))) s = some (r, l) →
    ∃ d, s = d ++ r ∧ BarePart d r := by
  refine many0_induction ?_ ?_
  · intro s _; exact ⟨[], rfl, .inl .nil⟩
  · intro s r a r' l hp _ _ ih
    obtain ⟨d, rfl, h1⟩ := barePart_step hq hp
    obtain ⟨d', rfl, h2⟩ := ih
    refine ⟨d ++ d', by simp, ?_⟩
    rcases h1 with h1 | ⟨d1, rfl, h1, h3⟩
    · rcases h2 with h2 | ⟨d2, rfl, h2, h4⟩
      · exact .inl (h1.append h2)
      · exact .inr ⟨d ++ d2, by simp, h1.append h2, h4⟩
    · have := List.append_eq_nil_iff.1 h3
      obtain ⟨rfl, rfl⟩ := this
      exact .inr ⟨d1, by simp, h1, rfl⟩

theorem balancedParensF_writes : ∀ n s r u, balancedParensF n s = some (r, u) → ∃ d, s = d ++ r ∧ BareDest d
  | 0, s, r, u, h => by simp [balancedParensF, failP] at h
  | n + 1, s, r, u, h => by
    obtain ⟨s1, _, s2, _, h1, h2, h3⟩ := delimited_some.1 h
    have h1 := (tag_some.1 h1).1
    have h3 := (tag_some.1 h3).1
    obtain ⟨l, h4, _⟩ := value_some.1 h2
    obtain ⟨d, rfl, h5⟩ := barePart_loop (balancedParensF_writes n) _ _ _ h4
    subst h1 h3
    rcases h5 with h5 | ⟨_, _, _, h5⟩
    · refine ⟨'(' :: (d ++ (')' :: [])), by simp, .parens h5 .nil⟩
    · simp at h5

theorem balancedParens_writes : ∀ s r u, balancedParens s = some (r, u) → ∃ d, s = d ++ r ∧ BareDest d :=
  fun s r u h => balancedParensF_writes _ _ _ _ h

theorem linkDestination2_writes : Writes linkDestination2 (fun d w _ => DestWritten w d) := by
  intro s r d h
  unfold linkDestination2 at h
  split at h
  · simp at h
  · have hs := recognize_append h
    obtain ⟨l, h1, _⟩ := recognize_some.1 h
    obtain ⟨s1, a, l', h2, h3, _⟩ := many1_some.1 h1
    obtain ⟨d1, e1, h4⟩ := barePart_step balancedParens_writes h2
    obtain ⟨d2, e2, h5⟩ := barePart_loop balancedParens_writes _ _ _ h3
    have hd : d = d1 ++ d2 := by
      have : d ++ r = (d1 ++ d2) ++ r := by rw [hs, e1, e2]; simp
      exact List.append_cancel_right this
    have hne : d1 ++ d2 ≠ [] := by
      intro h0
      obtain ⟨rfl, rfl⟩ := List.append_eq_nil_iff.1 h0
      simp at e1 e2
      have hc : s1.length < s.length := by
        rcases orElse_some.1 h2 with h | ⟨_, h⟩
        · obtain ⟨c, h', _⟩ := value_some.1 h
          obtain ⟨s1, _, h1, h2⟩ := preceded_some.1 h'
          rw [(tag_some.1 h1).1, anychar_some.1 h2]; simp; omega
        · rcases orElse_some.1 h with h | ⟨_, h⟩
          · obtain ⟨s1, _, s2, _, h1, h2, h3⟩ := delimited_some.1 h
            have h1 := (tag_some.1 h1).1
            have h3 := (tag_some.1 h3).1
            obtain ⟨l, h4, _⟩ := value_some.1 h2
            have := many0_length h4
            subst h1 h3; simp at this ⊢; omega
          · obtain ⟨c, h', _⟩ := value_some.1 h
            obtain ⟨rfl, hc⟩ := satisfy_some.1 h'
            simp
      rw [e1] at hc; omega
    refine ⟨d, hs.symm, ?_⟩
    subst hd
    have key : BarePart (d1 ++ d2) r := by
      rcases h4 with h4 | ⟨d', rfl, h4, h6⟩
      · rcases h5 with h5 | ⟨d3, rfl, h5, h7⟩
        · exact .inl (h4.append h5)
        · exact .inr ⟨d1 ++ d3, by simp, h4.append h5, h7⟩
      · rw [h6] at e2
        obtain ⟨rfl, rfl⟩ := List.append_eq_nil_iff.1 e2.symm
        exact .inr ⟨d', by simp, h4, rfl⟩
    rcases key with h | ⟨d', h6, h7, _⟩
    · exact .bare hne h
    · rw [h6]; exact .back h7

theorem angleLoop : ∀ s r l, many0 (preceded (chr '\\') (oneOf cs!"<>") <||>
      preceded (notP (oneOf cs!"\n<>")) anychar) s = some (r, l) → r.head? = some '>' →
    ∃ w, s = w ++ r ∧ AngleDest w l := by
  refine many0_induction ?_ ?_
  · intro s _ _; exact ⟨[], rfl, .nil⟩
  · intro s r c r' l hp _ _ ih hr
    obtain ⟨w, rfl, ih'⟩ := ih hr
    rcases orElse_some.1 hp with h | ⟨hn, h⟩
    · obtain ⟨s1, _, h1, h2⟩ := preceded_some.1 h
      obtain ⟨rfl, _⟩ := chr_some.1 h1
      obtain ⟨rfl, hc⟩ := satisfy_some.1 h2
      refine ⟨'\\' :: c :: w, rfl, .esc ?_ ih'⟩
      simpa using hc
    · obtain ⟨s1, _, h1, h2⟩ := preceded_some.1 h
      obtain ⟨h1, rfl⟩ := notP_some.1 h1
      have h2 := anychar_some.1 h2
      subst h2
      refine ⟨c :: w, rfl, ?_⟩
      have hc : c ∉ cs!"\n<>" := by
        intro hm
        rw [show oneOf cs!"\n<>" (c :: (w ++ r')) = some (w ++ r', c) from
          satisfy_some.2 ⟨rfl, by simpa using hm⟩] at h1
        simp at h1
      by_cases hb : c = '\\'
      · subst hb
        have hw : (w ++ r').head?.all (fun d => !(cs!"<>").contains d) = true := by
          cases hs : w ++ r' with
          | nil => rfl
          | cons d v =>
            rw [hs] at hn
            simp [preceded, chr_cons, oneOf, satisfy] at hn
            simp [hn]
        cases w with
        | nil =>
          cases r' with
          | nil => simp at hr
          | cons d v => simp at hr; subst hr; simp at hw
        | cons d w =>
          refine .back ?_ ih'
          simpa using hw
      · refine .chr ?_ ih'
        simp at hc ⊢
        exact ⟨hc.1, hc.2.1, hc.2.2, hb⟩

theorem linkDestination_writes : Writes linkDestination (fun d w _ => DestWritten w d) := by
  refine .orElse ?_ linkDestination2_writes
  intro s r d h
  obtain ⟨s1, _, s2, _, h1, h2, h3⟩ := delimited_some.1 h
  obtain ⟨rfl, _⟩ := chr_some.1 h1
  obtain ⟨rfl, _⟩ := chr_some.1 h3
  obtain ⟨w, rfl, h4⟩ := angleLoop _ _ _ h2 rfl
  exact ⟨'<' :: (w ++ ['>']), by simp, .angle h4⟩

theorem titleLoop {q : Char} : ∀ s r l, linkTitleInner q s = some (r, l) → ∃ w, s = w ++ r ∧ TitleText q w l := by
  refine many0_induction ?_ ?_
  · intro s _; exact ⟨[], rfl, .nil⟩
  · intro s r c r' l hp _ _ ih
    obtain ⟨w, rfl, ih⟩ := ih
    rcases orElse_some.1 hp with h | ⟨hn, h⟩
    · obtain ⟨s1, _, h1, h2⟩ := preceded_some.1 h
      have h1 := (tag_some.1 h1).1
      have h2 := anychar_some.1 h2
      subst h1 h2
      exact ⟨'\\' :: c :: w, rfl, .esc ih⟩
    · obtain ⟨rfl, hc⟩ := satisfy_some.1 h
      simp at hc
      exact ⟨c :: w, rfl, .chr hc.1 hc.2 ih⟩

theorem linkTitle_writes : Writes linkTitle (fun t w _ => LinkTitle w t) := by
  refine .orElse ?_ (.orElse ?_ ?_)
  · intro s r t h
    obtain ⟨s1, _, s2, _, h1, h2, h3⟩ := delimited_some.1 h
    obtain ⟨rfl, _⟩ := tag_some.1 h1
    obtain ⟨rfl, _⟩ := tag_some.1 h3
    obtain ⟨w, rfl, h4⟩ := titleLoop _ _ _ h2
    exact ⟨'"' :: (w ++ ['"']), by simp, .double h4⟩
  · intro s r t h
    obtain ⟨s1, _, s2, _, h1, h2, h3⟩ := delimited_some.1 h
    obtain ⟨rfl, _⟩ := chr_some.1 h1
    obtain ⟨rfl, _⟩ := chr_some.1 h3
    obtain ⟨w, rfl, h4⟩ := titleLoop _ _ _ h2
    exact ⟨'\'' :: (w ++ ['\'']), by simp, .single h4⟩
  · intro s r t h
    obtain ⟨s1, _, s2, _, h1, h2, h3⟩ := delimited_some.1 h
    obtain ⟨rfl, _⟩ := chr_some.1 h1
    obtain ⟨rfl, _⟩ := chr_some.1 h3
    obtain ⟨w, rfl, h4⟩ := titleLoop _ _ _ h2
    exact ⟨'(' :: (w ++ [')']), by simp, .paren h4⟩

theorem takeWhile_writes {f : Char → Bool} : Writes (takeWhile f) (fun t w _ => t = w ∧ ∀ c ∈ w, f c = true) := by
  intro s r t h
  simp [Nom.takeWhile] at h
  obtain ⟨rfl, rfl⟩ := h
  refine ⟨_, (List.takeWhile_append_dropWhile).symm, rfl, ?_⟩
  intro c hc
  exact takeWhile_all c hc

theorem takeWhile1_writes {f : Char → Bool} :
    Writes (takeWhile1 f) (fun t w _ => t = w ∧ w ≠ [] ∧ ∀ c ∈ w, f c = true) := by
  intro s r t h
  obtain ⟨rfl, rfl, hne⟩ := takeWhile1_some.1 h
  refine ⟨_, (List.takeWhile_append_dropWhile).symm, rfl, hne, ?_⟩
  intro c hc
  exact takeWhile_all c hc

theorem multispace0_writes : Writes multispace0 (fun _ w _ => White w) :=
  takeWhile_writes.mono fun t w r h c hc => by
    have := h.2 c hc
    simp [isMultispace] at this
    grind

theorem space0_writes : Writes space0 (fun _ w _ => Blanks w) :=
  takeWhile_writes.mono fun t w r h c hc => by
    have := h.2 c hc
    simpa [isSpace] using this

theorem space1_writes : Writes space1 (fun _ w _ => w ≠ [] ∧ Blanks w) :=
  takeWhile1_writes.mono fun t w r h => ⟨h.2.1, fun c hc => by
    have := h.2.2 c hc
    simpa [isSpace] using this⟩

theorem destAndTitle_writes : Writes destAndTitle (fun y w _ => DestTitleWritten w y.1 y.2) := by
  intro s r y h
  obtain ⟨d, t⟩ := y
  obtain ⟨s1, _, s2, _, h1, h2, h3⟩ := delimited_some.1 h
  obtain ⟨rfl, _⟩ := chr_some.1 h1
  obtain ⟨s3, _, h4, h5⟩ := preceded_some.1 h3
  obtain ⟨rfl, _⟩ := chr_some.1 h5
  obtain ⟨w3, rfl, h6⟩ := multispace0_writes _ _ _ h4
  obtain ⟨s4, h7, h8⟩ := seq_some.1 h2
  obtain ⟨s5, _, h9, h10⟩ := preceded_some.1 h7
  obtain ⟨w1, rfl, h11⟩ := multispace0_writes _ _ _ h9
  obtain ⟨w, rfl, h12⟩ := linkDestination_writes _ _ _ h10
  rcases opt_some.1 h8 with ⟨t', h13, h14⟩ | ⟨_, rfl, h14⟩
  · obtain ⟨s6, _, h15, h16⟩ := preceded_some.1 h13
    obtain ⟨w2, rfl, h17⟩ := multispace0_writes _ _ _ h15
    obtain ⟨wt, rfl, h18⟩ := linkTitle_writes _ _ _ h16
    simp only at h12 h14 h18 ⊢
    subst h14
    refine ⟨_, ?_, .title h11 h12 h17 h18 h6⟩
    simp
  · simp only at h12 h14 ⊢
    subst h14
    refine ⟨_, ?_, .plain h11 h12 h6⟩
    simp

/-! ## The inlines -/

section
variable {x : PExt} {ent : Str → Option Str} {rec : Str → Option (List Inline)}

/-- A parser of nested inlines by the grammar. -/
def RecReads (x : PExt) (ent : Str → Option Str) (rec : Str → Option (List Inline)) : Prop :=
  ∀ t l, rec t = some l → InlinesWritten x ent l t

theorem linkLabel_writes (hr : RecReads x ent rec) : Writes (linkLabel rec)
    (fun l w _ => ∃ w' t, w = '[' :: (w' ++ [']']) ∧ BracketText w' t ∧ InlinesWritten x ent l t) := by
  intro s r l h
  obtain ⟨s1, _, s2, _, h1, h2, h3⟩ := delimited_some.1 h
  obtain ⟨rfl, _⟩ := tag_some.1 h1
  obtain ⟨rfl, _⟩ := tag_some.1 h3
  unfold linkLabelInner at h2
  split at h2
  · simp at h2
  · rename_i r1 label e
    split at h2
    · rename_i l' e2
      simp at h2
      obtain ⟨rfl, rfl⟩ := h2
      obtain ⟨e3, e4⟩ := verify_some.1 e
      obtain ⟨w, rfl, hne, h4⟩ := unescapes_loop1 (by simp [chr_cons]) e3
      refine ⟨'[' :: (w ++ [']']), by simp, w, label, rfl, ⟨h4, ?_, ?_⟩, hr _ _ e2⟩
      · simp at e4
        obtain ⟨⟨c, hc, h5⟩, _⟩ := e4
        exact ⟨c, hc, h5⟩
      · simp at e4; exact e4.2
    · simp at h2

/-- One inline. -/
abbrev OneInline (x : PExt) (ent : Str → Option Str) (i : Inline) (w r : Str) : Prop := InlineWritten x ent i w r

theorem inlineLink_writes (hr : RecReads x ent rec) : Writes (inlineLink rec) (InlineWritten x ent) := by
  refine Writes.mapP ?_
  intro s r y h
  obtain ⟨s1, h1, h2⟩ := seq_some.1 h
  obtain ⟨w, rfl, w', t, rfl, h3, h4⟩ := linkLabel_writes hr _ _ _ h1
  obtain ⟨wd, rfl, h5⟩ := destAndTitle_writes _ _ _ h2
  exact ⟨_, by simp, .link h3 h4 h5⟩

theorem footnoteReferenceP_writes : Writes footnoteReferenceP (InlineWritten x ent) := by
  refine Writes.mapP ?_
  intro s r n h
  obtain ⟨s1, _, s2, _, h1, h2, h3⟩ := delimited_some.1 h
  obtain ⟨rfl, _⟩ := tag_some.1 h1
  obtain ⟨rfl, _⟩ := chr_some.1 h3
  obtain ⟨w, rfl, rfl, h4, h5⟩ := takeWhile1_writes _ _ _ h2
  exact ⟨_, by simp, .footnoteReference h4 h5⟩

theorem referenceLink_writes (hr : RecReads x ent rec) : Writes (referenceLink rec) (InlineWritten x ent) := by
  refine .orElse (Writes.mapP ?_) (.orElse (Writes.mapP ?_) (Writes.mapP ?_))
  · intro s r y h
    obtain ⟨s1, h1, h2⟩ := seq_some.1 h
    obtain ⟨w, rfl, w', t, rfl, h3, h4⟩ := linkLabel_writes hr _ _ _ h1
    obtain ⟨w2, rfl, w2', t2, rfl, h5, h6⟩ := linkLabel_writes hr _ _ _ h2
    exact ⟨_, by simp, .reference h3 h4 h5 h6⟩
  · intro s r y h
    obtain ⟨s1, _, h1, h2⟩ := terminated_some.1 h
    obtain ⟨w, rfl, w', t, rfl, h3, h4⟩ := linkLabel_writes hr _ _ _ h1
    obtain ⟨rfl, _⟩ := tag_some.1 h2
    exact ⟨_, by simp, .collapsed h3 h4⟩
  · intro s r y h
    obtain ⟨w, rfl, w', t, rfl, h3, h4⟩ := linkLabel_writes hr _ _ _ h
    exact ⟨_, by simp, .shortcut h3 h4⟩

theorem lineEnding_writes : Writes lineEnding (fun _ w _ => IsNewline w) := by
  intro s r t h
  rcases lineEnding_some.1 h with ⟨rfl, _⟩ | ⟨rfl, _⟩
  · exact ⟨['\n'], rfl, .inl rfl⟩
  · exact ⟨['\r', '\n'], rfl, .inr rfl⟩

theorem manyChr_writes {c : Char} : Writes (many0 (chr c))
    (fun l w r => w = List.replicate l.length c ∧ r.head? ≠ some c) := by
  intro s r l h
  obtain ⟨n, h1, h2, h3⟩ := many0_chr_some h
  refine ⟨_, h2, ?_, h3⟩
  rw [h1]; simp

theorem hardNewline_writes : Writes hardNewline (InlineWritten x ent) := by
  intro s r i h
  obtain ⟨_, h', rfl⟩ := value_some.1 h
  rcases orElse_some.1 h' with h | ⟨_, h⟩
  · obtain ⟨_, h1, _⟩ := value_some.1 h
    obtain ⟨s1, h2, h3⟩ := seq_some.1 h1
    obtain ⟨rfl, _⟩ := chr_some.1 h2
    obtain ⟨e, rfl, h4⟩ := lineEnding_writes _ _ _ h3
    exact ⟨_, rfl, .backslashBreak h4⟩
  · obtain ⟨_, h1, _⟩ := value_some.1 h
    obtain ⟨s1, h2, h3⟩ := seq_some.1 h1
    obtain ⟨h2, h5⟩ := verify_some.1 h2
    obtain ⟨w, rfl, rfl, _⟩ := manyChr_writes _ _ _ h2
    obtain ⟨e, rfl, h4⟩ := lineEnding_writes _ _ _ h3
    exact ⟨_, (List.append_assoc ..).symm, .spaceBreak (by simpa using h5) h4⟩

theorem imageP_writes : Writes imageP (InlineWritten x ent) := by
  refine Writes.mapP ?_
  intro s r y h
  obtain ⟨s1, h1, h2⟩ := seq_some.1 h
  obtain ⟨s2, _, h3, h4⟩ := preceded_some.1 h1
  obtain ⟨rfl, _⟩ := chr_some.1 h3
  obtain ⟨s3, _, s4, _, h5, h6, h7⟩ := delimited_some.1 h4
  obtain ⟨rfl, _⟩ := chr_some.1 h5
  obtain ⟨rfl, _⟩ := chr_some.1 h7
  obtain ⟨w, rfl, h8, h9⟩ := takeWhile_writes _ _ _ h6
  obtain ⟨wd, rfl, h10⟩ := destAndTitle_writes _ _ _ h2
  refine ⟨'!' :: '[' :: (w ++ (']' :: wd)), by simp, ?_⟩
  show InlineWritten x ent (Inline.image y.2.1 y.2.2 y.1) _ _
  rw [h8]
  refine .image ?_ h10
  intro hm
  simpa using h9 _ hm

theorem autolinkP_writes : Writes (mapP autolinkP Inline.autolink) (InlineWritten x ent) := by
  refine Writes.mapP ?_
  intro s r u h
  obtain ⟨s1, _, s2, _, h1, h2, h3⟩ := delimited_some.1 h
  obtain ⟨rfl, _⟩ := chr_some.1 h1
  obtain ⟨rfl, _⟩ := chr_some.1 h3
  have key : s1 = u ++ ('>' :: r) ∧ AutolinkText u := by
    rcases orElse_some.1 h2 with h | ⟨_, h⟩
    · obtain ⟨⟨a, b⟩, h4, rfl⟩ := mapP_some.1 h
      obtain ⟨s3, h5, h6⟩ := seq_some.1 h4
      obtain ⟨s4, _, h7, h8⟩ := terminated_some.1 h5
      obtain ⟨rfl, _⟩ := chr_some.1 h8
      have h9 := recognize_append h7
      obtain ⟨y, h10, _⟩ := recognize_some.1 h7
      obtain ⟨s5, h11, h12⟩ := seq_some.1 h10
      obtain ⟨rfl, h13⟩ := satisfy_some.1 h11
      obtain ⟨w, rfl, h14, h15, h16⟩ := takeWhile1_writes _ _ _ h12
      obtain ⟨w', rfl, h17, h18⟩ := takeWhile_writes _ _ _ h6
      simp only at h9 h17 ⊢
      have ha : a = y.1 :: w := by
        have : a ++ (':' :: (w' ++ '>' :: r)) = (y.1 :: w) ++ (':' :: (w' ++ '>' :: r)) := by rw [h9]; simp
        exact List.append_cancel_right this
      subst ha h17
      refine ⟨by simp, ?_⟩
      have := AutolinkText.uri (a := y.1) (sch := w) (r := b) h13 h15 ?_ ?_
      · simpa using this
      · intro c hc
        have := h16 c hc
        simp [isSchemeChar] at this
        grind
      · intro c hc
        have := h18 c hc
        simp at this
        grind
    · have h9 := recognize_append h
      refine ⟨h9.symm, ?_⟩
      obtain ⟨y, h10, _⟩ := recognize_some.1 h
      obtain ⟨s5, h11, h12⟩ := seq_some.1 h10
      obtain ⟨s6, h13, h14⟩ := seq_some.1 h12
      obtain ⟨w, rfl, h15, h16, h17⟩ := takeWhile1_writes _ _ _ h11
      obtain ⟨rfl, _⟩ := chr_some.1 h13
      obtain ⟨w', rfl, h18, h19, h20⟩ := takeWhile1_writes _ _ _ h14
      have hu : u = w ++ '@' :: w' := by
        have : u ++ ('>' :: r) = (w ++ '@' :: w') ++ ('>' :: r) := by rw [h9]; simp
        exact List.append_cancel_right this
      rw [hu]
      refine .email h16 h19 ?_ ?_
      · intro c hc
        have := h17 c hc
        simp at this
        grind
      · intro c hc
        have := h20 c hc
        simp at this
        grind
  obtain ⟨rfl, h4⟩ := key
  exact ⟨'<' :: (u ++ ['>']), by simp, .autolink h4⟩

theorem codeNewlines_lines (c : Str) : LinesAsSpaces c (codeNewlines c) := by
  fun_induction codeNewlines c with
  | case1 r ih => exact .newline (e := ['\r', '\n']) (.inr rfl) ih
  | case2 r ih => exact .newline (e := ['\n']) (.inl rfl) ih
  | case3 c r hc1 hc2 ih =>
    refine .char (fun h => hc2 h) ?_ ih
    rintro rfl h
    cases r with
    | nil => simp at h
    | cons d r => simp at h; subst h; exact hc1 r rfl rfl
  | case4 => exact .nil

theorem codeStrip_unpadded (t : Str) : Unpadded t (codeStrip t) := by
  unfold codeStrip
  split
  · rename_i h
    obtain ⟨h1, h2, h3⟩ := h
    cases t with
    | nil => simp at h1
    | cons a t =>
      simp at h1; subst h1
      rcases List.eq_nil_or_concat t with rfl | ⟨u, b, rfl⟩
      · exact absurd (by decide) h3
      · rw [List.concat_eq_append] at h2 h3 ⊢
        rw [← List.cons_append, List.getLast?_concat] at h2
        simp at h2; subst h2
        simp only [List.drop_succ_cons, List.drop_zero, List.dropLast_concat]
        refine .padded ?_
        false_or_by_contra
        rename_i hn
        refine h3 (trim_eq_nil.2 ?_)
        intro c hc
        simp at hc
        rcases hc with rfl | hc | rfl
        · decide
        · cases hw : isWs c with
          | true => rfl
          | false => exact absurd ⟨c, hc, hw⟩ hn
        · decide
  · rename_i h
    refine .bare ?_
    rintro u rfl
    have h3 : trim (' ' :: (u ++ [' '])) = [] := by
      false_or_by_contra
      rename_i h3
      refine h ⟨rfl, ?_, h3⟩
      rw [← List.cons_append, List.getLast?_concat]
    intro c hc
    exact trim_eq_nil.1 h3 c (by simp [hc])

theorem lineEnding_head {e s : Str} (h : IsNewline e) : lineEnding (e ++ s) = some (s, e) := by
  rcases h with rfl | rfl <;> rfl

theorem codeSpan_writes : Writes (mapP codeSpan Inline.code) (InlineWritten x ent) := by
  refine Writes.mapP ?_
  intro s r c h
  unfold codeSpan at h
  split at h
  · simp at h
  · rename_i r1 ticks e
    obtain ⟨d, h1, rfl⟩ := mapP_some.1 h
    have hticks : ∃ n, 0 < n ∧ ticks = List.replicate n '`' ∧ s = ticks ++ r1 ∧ r1.head? ≠ some '`' := by
      have h2 := recognize_append e
      obtain ⟨l, h3, _⟩ := recognize_some.1 e
      obtain ⟨s1, a, l', h4, h5, _⟩ := many1_some.1 h3
      obtain ⟨rfl, _⟩ := chr_some.1 h4
      obtain ⟨k, _, h6, h7⟩ := many0_chr_some h5
      refine ⟨k + 1, by omega, ?_, h2.symm, h7⟩
      rw [h6] at h2
      rw [← List.cons_append] at h2
      rw [List.append_cancel_right h2]
      rfl
    obtain ⟨n, hn, rfl, rfl, hr1⟩ := hticks
    obtain ⟨s2, _, h2, h3⟩ := terminated_some.1 h1
    obtain ⟨rfl, _⟩ := tag_some.1 h3
    have h4 := recognize_append h2
    obtain ⟨l, h5, _⟩ := recognize_some.1 h2
    have hq : StepsOver '`' (anychar) := by
      refine ⟨fun s r a h => .inr ⟨a, anychar_some.1 h⟩, ?_⟩
      intro c s; simp [anychar, satisfy]
    have hloop : ∃ l', many0 (preceded (notP (codeSpanStop (List.replicate n '`'))) anychar) r1 =
        some (List.replicate n '`' ++ r, l') ∧ l' ≠ [] := by
      obtain ⟨s1, a, l', h6, h7, rfl⟩ := many1_some.1 h5
      refine ⟨_, many0_of_some h6 ?_ h7, by simp⟩
      obtain ⟨s2, _, h8, h9⟩ := preceded_some.1 h6
      obtain ⟨_, rfl⟩ := notP_some.1 h8
      rw [anychar_some.1 h9]; simp
    obtain ⟨o, h6, hne⟩ := hloop
    obtain ⟨h7, h8⟩ := untilLoop _ _ _ h6
    have hd : d = o := by
      rw [h7] at h4
      exact List.append_cancel_right h4
    subst hd
    have hend := untilLoop_end h6 (by
      intro h0
      have := (List.append_eq_nil_iff.1 h0).1
      simp at this; omega)
    subst h7
    refine ⟨_, by simp, .code (.mk hn hne ?_ ?_ ?_ ?_ (codeNewlines_lines d) (codeStrip_unpadded _))⟩
    · cases d with
      | nil => exact absurd rfl hne
      | cons a d => simpa using hr1
    · rintro ⟨a, e, sp, e', b, he, he', hsp, hd⟩
      have h9 := h8 a (e ++ (sp ++ (e' ++ b))) hd (by rcases he with rfl | rfl <;> simp)
      obtain ⟨_, h9⟩ := orElse_none.1 h9
      rw [value_none] at h9
      have hs : takeWhile isSpace (sp ++ (e' ++ (b ++ (List.replicate n '`' ++ r)))) =
          some (e' ++ (b ++ (List.replicate n '`' ++ r)), sp) := by
        have := takeWhile_span' (f := isSpace) (t := e' ++ (b ++ (List.replicate n '`' ++ r))) hsp
          (by rcases he' with rfl | rfl <;> simp [isSpace])
        simp only [Nom.takeWhile, this]
      simp only [List.append_assoc, Nom.seq, lineEnding_head he, space0, hs, lineEnding_head he'] at h9
      simp at h9
    · obtain ⟨y, hy⟩ := hend
      obtain ⟨m, rfl⟩ : ∃ m, n = m + 1 := ⟨n - 1, by omega⟩
      rcases orElse_some.1 hy with hy | ⟨_, hy⟩
      · obtain ⟨_, hy, _⟩ := value_some.1 (show _ = some (y.1, y.2) from hy)
        obtain ⟨_, _, h9, _⟩ := preceded_some.1 hy
        obtain ⟨h9, _⟩ := notP_some.1 h9
        intro hh
        cases r with
        | nil => simp at hh
        | cons a r =>
          simp at hh; subst hh
          simp [Nom.seq, tag_append, chr_cons] at h9
      · obtain ⟨_, hy, _⟩ := value_some.1 (show _ = some (y.1, y.2) from hy)
        obtain ⟨_, h9, _⟩ := seq_some.1 hy
        simp [List.replicate_succ, lineEnding] at h9
    · intro a b hab hl
      obtain ⟨c, rfl, hc, hcb⟩ := split_before hab hl
      have h9 := h8 a c rfl hc
      rw [hcb] at h9
      obtain ⟨h9, _⟩ := orElse_none.1 h9
      rw [value_none] at h9
      cases b with
      | nil =>
        exfalso
        simp only [preceded, notP, Nom.seq, tag_append, chr_nil] at h9
        simp at h9
      | cons f b =>
        by_cases hf : f = '`'
        · rw [hf]; rfl
        · simp [preceded, notP, Nom.seq, tag_append, chr_ne hf] at h9

theorem closeTag_some {t s r : Str} {u : Unit} (h : closeTag x t s = some (r, u)) : s = t ++ r ∧ EmphEnd x r := by
  unfold closeTag at h
  split at h
  · rename_i r1 v e
    split at h
    · rename_i hc
      simp at h; subst h
      obtain ⟨rfl, _⟩ := tag_some.1 e
      refine ⟨rfl, ?_⟩
      intro c hcr
      have : (t ++ r1)[t.length]? = some c := by
        rw [List.getElem?_append_right (by omega)]
        simpa [List.head?_eq_getElem?] using hcr
      rw [this] at hc
      unfold canClose at hc
      simp only [Option.all_some] at hc
      unfold Separates
      unfold isPunctuation at hc
      cases h1 : isWs c <;> cases h2 : isAsciiPunct c <;> cases h3 : x.uniPunct c <;> simp_all
    · simp at h
  · simp at h

theorem openTag_some {m : Char} {n : Nat} {s r : Str} {u : Unit} (hm : EmphMark m) (hn : 0 < n)
    (h : openTag x (List.replicate n m) s = some (r, u)) :
    s = List.replicate n m ++ r ∧ ∃ c, r.head? = some c ∧ isWs c = false ∧ (m = '_' → ¬ Separates x c) := by
  unfold openTag at h
  split at h
  · rename_i r1 v e
    split at h
    · rename_i hc
      simp at h; subst h
      obtain ⟨rfl, _⟩ := tag_some.1 e
      refine ⟨rfl, ?_⟩
      have hh : (List.replicate n m).headD '*' = m := by
        cases n with
        | zero => omega
        | succ n => rfl
      have hi : (List.replicate n m ++ r1)[(List.replicate n m).length]? = r1.head? := by
        rw [List.getElem?_append_right (by omega)]
        simp [List.head?_eq_getElem?]
      rw [hh, hi] at hc
      cases hr : r1.head? with
      | none => rw [hr] at hc; simp [canOpen] at hc
      | some c =>
        rw [hr] at hc
        refine ⟨c, rfl, ?_, ?_⟩
        · cases hw : isWs c with
          | false => rfl
          | true => simp [canOpen, hw] at hc
        · rintro rfl
          unfold Separates
          unfold canOpen isPunctuation at hc
          cases h1 : isWs c <;> cases h2 : isAsciiPunct c <;> cases h3 : x.uniPunct c <;> simp_all
    · simp at h
  · simp at h

theorem emphasisDelimited_writes {m : Char} {n : Nat} (hr : RecReads x ent rec) (hm : EmphMark m) (hn : 0 < n) :
    Writes (emphasisDelimited x rec (List.replicate n m)) (fun l w r => ∃ o,
      w = List.replicate n m ++ (o ++ List.replicate n m) ∧ EmphasisText x m n o r ∧ InlinesWritten x ent l o) := by
  intro s r l h
  obtain ⟨s1, _, s2, _, h1, h2, h3⟩ := delimited_some.1 h
  obtain ⟨rfl, h4⟩ := openTag_some hm hn h1
  obtain ⟨rfl, h5⟩ := closeTag_some h3
  obtain ⟨t, h6, h7⟩ := mapOpt_some.1 h2
  have h8 := recognize_append h6
  obtain ⟨l', h9, _⟩ := recognize_some.1 h6
  have hq : StepsOver '*' (value () (tag cs!"\\*") <||> value () anychar) := by
    refine ⟨?_, ?_⟩
    · intro s r a h
      rcases orElse_some.1 h with h | ⟨_, h⟩
      · obtain ⟨_, h', _⟩ := value_some.1 h
        exact .inl (tag_some.1 h').1
      · obtain ⟨c, h', _⟩ := value_some.1 h
        exact .inr ⟨c, anychar_some.1 h'⟩
    · intro c s h
      obtain ⟨_, h⟩ := orElse_none.1 h
      rw [value_none] at h
      simp [anychar, satisfy] at h
  obtain ⟨o, rfl, hne, h10, _⟩ := skipLoop1 hq h9
  have ht : t = o := List.append_cancel_right h8
  subst ht
  refine ⟨_, by simp, t, rfl, ⟨?_, h5, ?_⟩, hr _ _ h7⟩
  · obtain ⟨c, h11, h12⟩ := h4
    refine ⟨c, ?_, h12⟩
    cases t with
    | nil => exact absurd rfl hne
    | cons a t => simpa using h11
  · intro a b hab hl hesc hend
    obtain ⟨c, rfl, hc, hcb⟩ := split_before hab hl
    have h11 := h10 a c rfl hc ?_
    · rw [hcb, closeTag_of hend] at h11
      simp at h11
    · rintro ⟨h12, h13⟩
      obtain ⟨k, rfl⟩ : ∃ k, n = k + 1 := ⟨n - 1, by omega⟩
      have h14 : c.head? = some m := by
        cases c with
        | nil => exact absurd rfl hc
        | cons d c =>
          rw [List.replicate_succ] at hcb
          simp only [List.cons_append, List.cons.injEq] at hcb
          simp [hcb.1]
      rw [h14] at h13
      simp at h13
      exact hesc h13 h12

theorem emphasisP_writes (hr : RecReads x ent rec) : Writes (emphasisP x rec) (InlineWritten x ent) := by
  have hs : EmphMark '*' := .inl rfl
  have hu : EmphMark '_' := .inr rfl
  have h : ∀ (m : Char) (n : Nat), EmphMark m → 0 < n → _ := fun m n => emphasisDelimited_writes (m := m) (n := n) hr
  refine .orElse (Writes.mapP (.orElse ?_ ?_)) (.orElse (Writes.mapP (.orElse ?_ ?_)) (Writes.mapP (.orElse ?_ ?_)))
  · refine (h '*' 3 hs (by decide)).mono ?_
    rintro l w r ⟨o, rfl, h1, h2⟩; exact .both hs h1 h2
  · refine (h '_' 3 hu (by decide)).mono ?_
    rintro l w r ⟨o, rfl, h1, h2⟩; exact .both hu h1 h2
  · refine (h '*' 2 hs (by decide)).mono ?_
    rintro l w r ⟨o, rfl, h1, h2⟩; exact .strong hs h1 h2
  · refine (h '_' 2 hu (by decide)).mono ?_
    rintro l w r ⟨o, rfl, h1, h2⟩; exact .strong hu h1 h2
  · refine (h '*' 1 hs (by decide)).mono ?_
    rintro l w r ⟨o, rfl, h1, h2⟩; exact .emphasis hs h1 h2
  · refine (h '_' 1 hu (by decide)).mono ?_
    rintro l w r ⟨o, rfl, h1, h2⟩; exact .emphasis hu h1 h2

theorem strikethroughP_writes (hr : RecReads x ent rec) : Writes (strikethroughP rec) (InlineWritten x ent) := by
  intro s r i h
  unfold strikethroughP at h
  split at h
  · simp at h
  · rename_i s1 _ e1
    split at h
    · simp at h
    · rename_i s2 content e2
      split at h
      · rename_i l e3
        simp at h
        obtain ⟨rfl, rfl⟩ := h
        obtain ⟨s3, _, h1, h2⟩ := terminated_some.1 e1
        obtain ⟨rfl, _⟩ := tag_some.1 h1
        obtain ⟨h2, rfl⟩ := notP_some.1 h2
        obtain ⟨s4, _, h3, h4⟩ := terminated_some.1 e2
        obtain ⟨rfl, _⟩ := tag_some.1 h4
        have h5 := recognize_append h3
        obtain ⟨l', h6, _⟩ := recognize_some.1 h3
        have hq : StepsOver '~' (value '~' (tag cs!"\\~") <||> anychar) := by
          refine ⟨?_, ?_⟩
          · intro s r a h
            rcases orElse_some.1 h with h | ⟨_, h⟩
            · obtain ⟨_, h', _⟩ := value_some.1 h
              exact .inl (tag_some.1 h').1
            · exact .inr ⟨a, anychar_some.1 h⟩
          · intro c s h
            obtain ⟨_, h⟩ := orElse_none.1 h
            simp [anychar, satisfy] at h
        obtain ⟨o, rfl, hne, h7, h8⟩ := skipLoop1 hq h6
        have ht : content = o := List.append_cancel_right h5
        subst ht
        refine ⟨cs!"~~" ++ (content ++ cs!"~~"), by simp, .strikethrough ⟨?_, ?_, ?_⟩ (hr _ _ e3)⟩
        · cases content with
          | nil => exact absurd rfl hne
          | cons a t =>
            refine ⟨a, rfl, ?_⟩
            rintro rfl
            simp [chr_cons] at h2
        · obtain ⟨y, hy⟩ := h8 (by simp)
          obtain ⟨_, _, h9, _⟩ := preceded_some.1 (show _ = some (y.1, y.2) from hy)
          obtain ⟨h9, _⟩ := notP_some.1 h9
          intro hh
          cases s2 with
          | nil => simp at hh
          | cons a r =>
            simp at hh; subst hh
            simp [Nom.seq, tag, chr_cons] at h9
        · intro a b hab hl hesc
          obtain ⟨c, rfl, hc, hcb⟩ := split_before hab hl
          have h9 := h7 a c rfl hc (fun h => hesc h.1)
          rw [hcb] at h9
          cases b with
          | nil => simp [strikeClose, preceded, notP, Nom.seq, tag, chr_nil] at h9
          | cons f b =>
            by_cases hf : f = '~'
            · rw [hf]; rfl
            · simp [strikeClose, preceded, notP, Nom.seq, tag, chr_ne hf] at h9
      · simp at h

theorem TextWritten.append {a b c d : Str} (h : TextWritten ent a b) (h' : TextWritten ent c d) :
    TextWritten ent (a ++ c) (b ++ d) := by
  induction h with
  | nil => exact h'
  | char _ ih => exact .char ih
  | esc h1 _ ih => exact .esc h1 ih
  | ref hr _ ih => simpa using TextWritten.ref hr ih

theorem TextWritten.refl : ∀ s, TextWritten ent s s
  | [] => .nil
  | c :: s => .char (refl s)

theorem environmentVariable_writes : Writes environmentVariable (InlineWritten x ent) := by
  refine Writes.mapP ?_
  intro s r t h
  obtain ⟨h1, _⟩ := verify_some.1 h
  have h2 := recognize_append h1
  refine ⟨t, h2.symm, .text ?_ (.refl _)⟩
  rintro rfl
  obtain ⟨y, h3, _⟩ := recognize_some.1 h1
  have hlt := Con.lt h3
  rw [← h2] at hlt
  simp at hlt

theorem textPiece_writes {cfg : PConfig} : Writes (textPiece x cfg rec)
    (fun t w _ => w ≠ [] ∧ TextWritten cfg.entities w t) := by
  refine .orElse (Writes.mapP ?_) (.orElse ?_ ?_)
  · intro s r c h
    obtain ⟨s1, _, h1, h2⟩ := preceded_some.1 h
    obtain ⟨rfl, _⟩ := chr_some.1 h1
    obtain ⟨rfl, h3⟩ := satisfy_some.1 h2
    refine ⟨['\\', c], rfl, by simp, .esc ?_ .nil⟩
    rw [List.contains_iff_mem] at h3
    exact h3
  · intro s r t h
    obtain ⟨w, h1, rfl⟩ := htmlEntity_ref h
    refine ⟨w, rfl, ?_, by simpa using TextWritten.ref h1 .nil⟩
    rintro rfl
    cases h1
  · intro s r t h
    have h2 := recognize_append h
    refine ⟨t, h2.symm, ?_, .refl _⟩
    rintro rfl
    obtain ⟨y, h3, _⟩ := recognize_some.1 h
    have hlt := Con.lt h3
    rw [← h2] at hlt
    simp at hlt

theorem textP_writes {cfg : PConfig} : Writes (textP x cfg rec) (InlineWritten x cfg.entities) := by
  refine Writes.mapP ?_
  intro s r l h
  obtain ⟨s1, t, l', h1, h2, rfl⟩ := many1_some.1 h
  obtain ⟨w, rfl, hne, h3⟩ := textPiece_writes _ _ _ h1
  have hl : ∀ s r l, many0 (textPiece x cfg rec) s = some (r, l) →
      ∃ w, s = w ++ r ∧ TextWritten cfg.entities w l.flatten := by
    refine many0_induction ?_ ?_
    · intro s _; exact ⟨[], rfl, .nil⟩
    · intro s r a r' l hp _ _ ih
      obtain ⟨w, rfl, _, h1⟩ := textPiece_writes _ _ _ hp
      obtain ⟨w', rfl, h2⟩ := ih
      exact ⟨w ++ w', by simp, h1.append h2⟩
  obtain ⟨w', rfl, h4⟩ := hl _ _ _ h2
  refine ⟨w ++ w', by simp, .text (by simp [hne]) ?_⟩
  simpa using h3.append h4

/-- Exactly one inline. -/
def OneWritten (x : PExt) (ent : Str → Option Str) (l : List Inline) (w r : Str) : Prop :=
  ∃ i, l = [i] ∧ InlineWritten x ent i w r

theorem conditionalInline_writes {b : Behavior Inline} {p : P Inline} (hb : b = .parse ∨ b = .ignore)
    (h : Writes p (InlineWritten x ent)) : Writes (conditionalInline b p) (OneWritten x ent) := by
  rcases hb with rfl | rfl
  · exact Writes.mapP (h.mono fun i w r h => ⟨i, rfl, h⟩)
  · exact Writes.failP

theorem inlineStep_writes {cfg : PConfig} (hk : cfg.Keeps) (hr : RecReads x cfg.entities rec) :
    Writes (inlineStep x cfg rec) (OneWritten x cfg.entities) := by
  refine .orElse (conditionalInline_writes hk.autolink autolinkP_writes) ?_
  refine .orElse (conditionalInline_writes hk.link (inlineLink_writes hr)) ?_
  refine .orElse (conditionalInline_writes hk.footnoteReference footnoteReferenceP_writes) ?_
  refine .orElse (conditionalInline_writes hk.referenceLink (referenceLink_writes hr)) ?_
  refine .orElse (conditionalInline_writes hk.hardNewline hardNewline_writes) ?_
  refine .orElse (conditionalInline_writes hk.image imageP_writes) ?_
  refine .orElse (conditionalInline_writes hk.codeSpan codeSpan_writes) ?_
  refine .orElse (Writes.mapP (environmentVariable_writes.mono fun i w r h => ⟨i, rfl, h⟩)) ?_
  refine .orElse (conditionalInline_writes hk.emphasis (emphasisP_writes hr)) ?_
  refine .orElse (conditionalInline_writes hk.strikethrough (strikethroughP_writes hr)) ?_
  refine .orElse ?_ (conditionalInline_writes (.inl hk.text) textP_writes)
  unfold customParser
  rw [hk.customInline]
  exact .failP

theorem mergeText_written {l : List Inline} {s : Str} (h : InlinesWritten x ent l s) :
    InlinesWritten x ent (mergeText l) s := by
  have key : ∀ (l : List Inline) (s : Str), InlinesWritten x ent l s →
      InlinesWritten x ent (mergeTextAux none l) s ∧
      ∀ t w, w ≠ [] → TextWritten ent w t → InlinesWritten x ent (mergeTextAux (some t) l) (w ++ s) := by
    intro l
    induction l with
    | nil =>
      intro s h
      cases h
      exact ⟨.nil, fun t w h0 h1 => .cons (.text h0 h1) .nil⟩
    | cons i l ih =>
      intro s h
      cases h with
      | @cons _ _ w s hi hl =>
      obtain ⟨ih1, ih2⟩ := ih _ hl
      have gen : (∀ t, i ≠ .text t) → InlinesWritten x ent (mergeTextAux none (i :: l)) (w ++ s) ∧
          ∀ t w', w' ≠ [] → TextWritten ent w' t →
            InlinesWritten x ent (mergeTextAux (some t) (i :: l)) (w' ++ (w ++ s)) := by
        intro hni
        have e1 : mergeTextAux none (i :: l) = i :: mergeTextAux none l := by
          cases i <;> first | rfl | exact absurd rfl (hni _)
        have e2 : ∀ t, mergeTextAux (some t) (i :: l) = .text t :: i :: mergeTextAux none l := by
          intro t
          cases i <;> first | rfl | exact absurd rfl (hni _)
        rw [e1]
        refine ⟨.cons hi ih1, ?_⟩
        intro t w' h0 h1
        rw [e2]
        exact .cons (.text h0 h1) (.cons hi ih1)
      cases hi with
      | text h0 h1 =>
        refine ⟨ih2 _ _ h0 h1, ?_⟩
        intro t w' h2 h3
        rw [← List.append_assoc]
        exact ih2 _ _ (by simp [h2]) (h3.append h1)
      | _ => exact gen (by simp)
  exact (key l s h).1

end

section
variable {x : PExt} {cfg : PConfig}

theorem many0_written {ent : Str → Option Str} {p : P (List Inline)} (h : Writes p (OneWritten x ent)) :
    ∀ s r l, many0 p s = some (r, l) → r = [] → InlinesWritten x ent l.flatten s := by
  refine many0_induction ?_ ?_
  · rintro s _ rfl; exact .nil
  · intro s r a r' l hp _ _ ih hr
    obtain ⟨w, rfl, i, rfl, h1⟩ := h _ _ _ hp
    exact .cons h1 (ih hr)

theorem many1_written {ent : Str → Option Str} {p : P (List Inline)} (h : Writes p (OneWritten x ent))
    {s : Str} {l : List (List Inline)} (hp : many1 p s = some ([], l)) : InlinesWritten x ent l.flatten s := by
  obtain ⟨s1, a, l', h1, h2, rfl⟩ := many1_some.1 hp
  obtain ⟨w, rfl, i, rfl, h3⟩ := h _ _ _ h1
  exact .cons h3 (many0_written h _ _ _ h2 rfl)

theorem inlineF_writes (hk : cfg.Keeps) : ∀ n, Writes (inlineF x cfg n) (OneWritten x cfg.entities)
  | 0 => .failP
  | n + 1 => by
    refine inlineStep_writes hk ?_
    intro t l h
    simp only [Option.map_eq_some_iff] at h
    obtain ⟨⟨r, l'⟩, h, rfl⟩ := h
    cases n with
    | zero =>
      unfold inlineMany1With inlineF at h
      obtain ⟨a, h1, _⟩ := mapP_some.1 h
      obtain ⟨_, _, _, h2, _⟩ := many1_some.1 h1
      simp [failP] at h2
    | succ n =>
      have hr := inlineMany1_rest hk.customOk (by rw [hk.text]; simp) h
      subst hr
      unfold inlineMany1With at h
      obtain ⟨a, h1, h2⟩ := mapP_some.1 h
      simp only at h2 ⊢
      subst h2
      exact mergeText_written (many1_written (inlineF_writes hk (n + 1)) h1)

theorem parseInlines0_reads (hk : cfg.Keeps) : RecReads x cfg.entities (parseInlines0 x cfg) := by
  intro t l h
  unfold parseInlines0 at h
  simp only [Option.map_eq_some_iff] at h
  obtain ⟨⟨r, l'⟩, h, rfl⟩ := h
  unfold inlineMany0With at h
  obtain ⟨a, h1, h2⟩ := mapP_some.1 h
  have hr : r = [] := by
    false_or_by_contra
    rename_i hr
    exact inlineF_ne_none (by rw [hk.text]; simp) hr (many0_stop h1)
  simp only at h2 ⊢
  subst h2
  exact mergeText_written (many0_written (inlineF_writes hk _) _ _ _ h1 hr)

theorem parseInlines1_reads (hk : cfg.Keeps) : RecReads x cfg.entities (parseInlines1 x cfg) := by
  intro t l h
  unfold parseInlines1 at h
  simp only [Option.map_eq_some_iff] at h
  obtain ⟨⟨r, l'⟩, h, rfl⟩ := h
  have hr := inlineMany1_rest hk.customOk (by rw [hk.text]; simp) h
  subst hr
  unfold inlineMany1With at h
  obtain ⟨a, h1, h2⟩ := mapP_some.1 h
  simp only at h2 ⊢
  subst h2
  exact mergeText_written (many1_written (inlineF_writes hk _) h1)

end
end Verif
