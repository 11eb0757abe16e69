import Verif.RoundTripKey
import Verif.ParserLists
/-!
# Inlines that survive printing and parsing

A clear list of inlines (`clearInlines`), printed with any choice of line breaks, means the same
inlines up to the whitespace of its text nodes.
-/
set_option linter.unusedVariables false
set_option linter.unusedSimpArgs false
namespace Verif
namespace Md
namespace Spec
open Nom

/-- The text with each break opportunity as a space or a line break, without indentation. -/
inductive Fill : Text → Str → Prop
  | nil : Fill [] []
  | char (c : Char) {t : Text} {s : Str} : Fill t s → Fill (some c :: t) (c :: s)
  | space {t : Text} {s : Str} : Fill t s → Fill (none :: t) (' ' :: s)
  | break {t : Text} {s : Str} : Fill t s → Fill (none :: t) ('\n' :: s)

theorem Fill.append_inv {t1 t2 : Text} {s : Str} (h : Fill (t1 ++ t2) s) :
    ∃ s1 s2, s = s1 ++ s2 ∧ Fill t1 s1 ∧ Fill t2 s2 := by
  induction t1 generalizing s with
  | nil => exact ⟨[], s, rfl, .nil, h⟩
  | cons o t1 ih =>
    cases h with
    | char c h => obtain ⟨s1, s2, rfl, h1, h2⟩ := ih h; exact ⟨_, _, rfl, .char c h1, h2⟩
    | space h => obtain ⟨s1, s2, rfl, h1, h2⟩ := ih h; exact ⟨_, _, rfl, .space h1, h2⟩
    | «break» h => obtain ⟨s1, s2, rfl, h1, h2⟩ := ih h; exact ⟨_, _, rfl, .break h1, h2⟩

theorem Fill.lit_inv {w s : Str} (h : Fill (lit w) s) : s = w := by
  induction w generalizing s with
  | nil => cases h; rfl
  | cons c w ih =>
    cases h with
    | char c h => rw [ih h]

theorem spacedLines_append (a b : Str) : spacedLines (a ++ b) = spacedLines a ++ spacedLines b := by
  simp [spacedLines]

theorem Fill.spaced {t : Text} {s : Str} (h : Fill t s) : spacedLines s = spacedLines (flat t) := by
  induction h with
  | nil => rfl
  | char c _ ih => simp [spacedLines, flat] at ih ⊢; exact ih
  | space _ ih => simp [spacedLines, flat] at ih ⊢; exact ih
  | «break» _ ih => simp [spacedLines, flat] at ih ⊢; exact ih

theorem flat_append (a b : Text) : flat (a ++ b) = flat a ++ flat b := by simp [flat]

theorem flat_lit (s : Str) : flat (lit s) = s := by
  unfold flat lit
  rw [List.map_map]
  exact List.map_id s

theorem flat_textToks (digit : Char → Bool) (b : Bool) (t : Str) :
    flat (textToks digit b t) = collapse b t := by
  induction t generalizing b with
  | nil => rfl
  | cons c t ih =>
    unfold textToks collapse
    by_cases hc : isWs c = true
    · simp only [hc, if_true]
      cases b with
      | true => simp only [if_true]; exact ih true
      | false =>
        simp only [Bool.false_eq_true, if_false]
        rw [← ih true]
        split <;> rfl
    · simp only [hc, Bool.false_eq_true, if_false]
      rw [← ih false]
      rfl

/-- On one line, the text with break opportunities is the one-line source. -/
theorem flat_inlines (digit : Char → Bool) :
    (∀ i, flat (inlineToks digit i) = inlineSource (collapse false) i) ∧
      ∀ l, flat (inlinesToks digit l) = lineSource l := by
  refine Inline.ind ?_ ?_ ?_ ?_ ?_ ?_ ?_ ?_ ?_ ?_ ?_ ?_ ?_ ?_ ?_
  all_goals intros
  all_goals simp only [inlineToks, inlinesToks, inlineSource, lineSource, inlinesSource] at *
  case refine_1 s => exact flat_textToks digit false s
  case refine_6 l t h1 h2 =>
    split <;> simp [flat_append, flat_lit, h1, h2]
  all_goals first
    | rfl
    | exact flat_lit _
    | simp_all [flat_append, flat_lit]

theorem drop_takeWhile {α : Type} (p : α → Bool) (l : List α) :
    l.drop (l.takeWhile p).length = l.dropWhile p := by
  induction l with
  | nil => rfl
  | cons a l ih => cases h : p a <;> simp [List.takeWhile_cons, List.dropWhile_cons, h, ih]

theorem mem_takeWhile {α : Type} {p : α → Bool} {l : List α} {a : α} (h : a ∈ l.takeWhile p) :
    p a = true := by
  induction l with
  | nil => simp at h
  | cons b l ih =>
    rw [List.takeWhile_cons] at h
    split at h
    · rename_i hb
      rcases List.mem_cons.1 h with rfl | h
      · exact hb
      · exact ih h
    · simp at h

theorem isAutolink_text {l : Str} (h : isAutolink l = true) : AutolinkText l := by
  unfold isAutolink at h
  rw [Bool.or_eq_true] at h
  rcases h with h | h
  · cases l with
    | nil => simp at h
    | cons a r =>
      simp only [Bool.and_eq_true, Bool.not_eq_true', beq_iff_eq] at h
      obtain ⟨⟨⟨h1, h2⟩, h3⟩, h4⟩ := h
      have hr : r = r.takeWhile isSchemeChar ++ ':' :: ((r.drop (r.takeWhile isSchemeChar).length).drop 1) := by
        have e1 : r = r.takeWhile isSchemeChar ++ r.drop (r.takeWhile isSchemeChar).length := by
          rw [drop_takeWhile, List.takeWhile_append_dropWhile]
        conv => lhs; rw [e1]
        congr 1
        cases hd : r.drop (r.takeWhile isSchemeChar).length with
        | nil => rw [hd] at h3; simp at h3
        | cons c u => rw [hd] at h3; simp at h3; simp [h3]
      rw [hr]
      refine .uri (sch := r.takeWhile isSchemeChar) h1 ?_ ?_ ?_
      · intro e; rw [e] at h2; simp at h2
      · intro c hc; exact (by simpa [isSchemeChar, or_assoc] using mem_takeWhile hc)
      · intro c hc
        have := List.all_eq_true.1 h4 c hc
        simpa [and_assoc] using this
  · simp only [Bool.and_eq_true, Bool.not_eq_true', beq_iff_eq] at h
    obtain ⟨⟨⟨h1, h2⟩, h3⟩, h4⟩ := h
    generalize hu : l.takeWhile (fun c => isAlnum c || c == '_' || c == '-' || c == '.') = user at *
    have e1 : l = user ++ l.drop user.length := by
      rw [← hu, drop_takeWhile, List.takeWhile_append_dropWhile]
    cases hd : l.drop user.length with
    | nil => rw [hd] at h2; simp at h2
    | cons c u =>
      rw [hd] at h2 h3 h4 e1
      simp at h2 h3 h4
      subst h2
      rw [e1]
      refine .email (by intro e; rw [e] at h1; simp at h1) h3 ?_ ?_
      · intro c hc
        rw [← hu] at hc
        have := mem_takeWhile hc
        simpa [or_assoc] using this
      · intro c hc
        simpa [or_assoc] using h4 c hc

/-! ## No line ends in the one-line source -/

theorem oneLine_append {a b : Str} : OneLine (a ++ b) ↔ OneLine a ∧ OneLine b := by
  constructor
  · intro h; exact ⟨fun c hc => h c (by simp [hc]), fun c hc => h c (by simp [hc])⟩
  · rintro ⟨h1, h2⟩ c hc
    rcases List.mem_append.1 hc with h | h
    · exact h1 c h
    · exact h2 c h

theorem oneLine_cons {c : Char} {b : Str} : OneLine (c :: b) ↔ (c ≠ '\n' ∧ c ≠ '\r') ∧ OneLine b := by
  simp [OneLine]

theorem oneLine_nil : OneLine [] := by intro c hc; simp at hc

theorem ws_newline {c : Char} (h : isWs c = false) : c ≠ '\n' ∧ c ≠ '\r' := by
  constructor <;> rintro rfl <;> exact absurd h (by decide)

theorem oneLine_collapse (b : Bool) (t : Str) : OneLine (collapse b t) := by
  induction t generalizing b with
  | nil => exact oneLine_nil
  | cons c t ih =>
    unfold collapse
    split
    · split
      · exact ih true
      · exact oneLine_cons.2 ⟨by decide, ih true⟩
    · rename_i h
      exact oneLine_cons.2 ⟨ws_newline (by simpa using h), ih false⟩

theorem oneLine_of_all {s bad : Str} {p : Char → Bool} (h : s.all p = true)
    (hp : p '\n' = false ∧ p '\r' = false) : OneLine s := by
  intro c hc
  have := List.all_eq_true.1 h c hc
  constructor
  · rintro rfl; rw [hp.1] at this; cases this
  · rintro rfl; rw [hp.2] at this; cases this

theorem autolink_oneLine {l : Str} (h : AutolinkText l) : OneLine l := by
  intro c hc
  have := h.chars.1 c hc
  constructor <;> rintro rfl <;> exact this (by decide)

theorem plainDest_oneLine {d : Str} {t : Option Str} (h : plainDest d t = true) :
    OneLine d ∧ OneLine (title t) := by
  unfold plainDest at h
  simp only [Bool.and_eq_true] at h
  obtain ⟨⟨⟨h1, h2⟩, _⟩, h3⟩ := h
  refine ⟨oneLine_of_all (bad := []) h2 (by decide), ?_⟩
  cases t with
  | none => exact oneLine_nil
  | some t =>
    have h3 : OneLine t := oneLine_of_all (bad := []) h3 (by decide)
    simp only [title, oneLine_append]
    exact ⟨⟨by intro c hc; revert c; decide, h3⟩, by intro c hc; revert c; decide⟩

theorem clear_oneLine (punct : Char → Bool) :
    (∀ i u, clearInline punct i u = true → OneLine (inlineSource (collapse false) i)) ∧
      ∀ l, clearInlines punct l = true → OneLine (lineSource l) := by
  refine Inline.ind ?_ ?_ ?_ ?_ ?_ ?_ ?_ ?_ ?_ ?_ ?_ ?_ ?_ ?_ ?_
  all_goals intros
  all_goals simp only [clearInline, clearInlines, lineSource, inlineSource, inlinesSource, Bool.and_eq_true,
    oneLine_append, oneLine_cons, Bool.false_eq_true] at *
  case refine_1 => exact oneLine_collapse _ _
  case refine_3 h =>
    exact ⟨⟨⟨by decide, oneLine_nil⟩, oneLine_of_all (bad := []) h.1.1.2 (by decide)⟩, by decide, oneLine_nil⟩
  case refine_5 ih u h =>
    obtain ⟨h1, h2⟩ := plainDest_oneLine h.2
    exact ⟨⟨⟨⟨⟨⟨by decide, oneLine_nil⟩, ih h.1.1⟩, by decide, by decide, oneLine_nil⟩, h1⟩, h2⟩, by decide, oneLine_nil⟩
  case refine_6 h1 h2 u h =>
    have hb : OneLine ['['] := by intro c hc; revert c; decide
    have he : OneLine [']'] := by intro c hc; revert c; decide
    have hm : OneLine cs!"][" := by intro c hc; revert c; decide
    have k1 := h1 h.1.1.1.1.1.1
    have k2 := h2 h.1.1.1.1.1.2
    split
    · exact oneLine_append.2 ⟨oneLine_append.2 ⟨hb, k1⟩, he⟩
    · exact oneLine_append.2 ⟨oneLine_append.2 ⟨oneLine_append.2 ⟨oneLine_append.2 ⟨hb, k2⟩, hm⟩, k1⟩, he⟩
  case refine_7 u h =>
    obtain ⟨h1, h2⟩ := plainDest_oneLine h.2
    have h3 := oneLine_of_all (bad := []) h.1 (by decide)
    exact ⟨⟨⟨⟨⟨⟨by decide, by decide, oneLine_nil⟩, h3⟩, by decide, by decide, oneLine_nil⟩, h1⟩, h2⟩, by decide, oneLine_nil⟩
  case refine_8 ih u h => exact ⟨⟨⟨by decide, oneLine_nil⟩, ih h.1.1.1.1.2⟩, by decide, oneLine_nil⟩
  case refine_9 ih u h =>
    exact ⟨⟨⟨by decide, by decide, oneLine_nil⟩, ih h.1.1.1.1.1.2⟩, by decide, by decide, oneLine_nil⟩
  case refine_10 ih u h =>
    exact ⟨⟨⟨by decide, by decide, oneLine_nil⟩, ih h.1.1.1.2⟩, by decide, by decide, oneLine_nil⟩
  case refine_11 h =>
    exact ⟨⟨⟨by decide, oneLine_nil⟩, autolink_oneLine (isAutolink_text h)⟩, by decide, oneLine_nil⟩
  case refine_12 h =>
    exact ⟨⟨⟨by decide, by decide, oneLine_nil⟩, oneLine_of_all (bad := []) h.1.2 (by decide)⟩, by decide, oneLine_nil⟩
  case refine_14 => exact oneLine_nil
  case refine_15 h1 h2 h => exact ⟨h1 _ h.1.1, h2 h.2⟩

theorem spacedLines_oneLine {s : Str} (h : OneLine s) : spacedLines s = s := by
  unfold spacedLines
  refine (List.map_congr_left ?_).trans (List.map_id s)
  intro c hc
  simp [(h c hc).1]

/-- What is printed is the one-line source with some spaces replaced by line breaks. -/
theorem Fill.source {punct : Char → Bool} {digit : Char → Bool} {l : List Inline} {s : Str}
    (hc : clearInlines punct l = true) (h : Fill (inlinesToks digit l) s) :
    lineSource l = spacedLines s := by
  rw [h.spaced, (flat_inlines digit).2, spacedLines_oneLine ((clear_oneLine punct).2 l hc)]

/-! ## From the one-line source to the wrapped one -/

theorem mem_spaced {c : Char} (h1 : c ≠ ' ') (h2 : c ≠ '\n') {s : Str} : c ∈ spacedLines s ↔ c ∈ s := by
  unfold spacedLines
  constructor
  · intro h
    obtain ⟨d, hd, he⟩ := List.mem_map.1 h
    split at he
    · exact absurd he.symm h1
    · subst he; exact hd
  · intro h
    exact List.mem_map.2 ⟨c, h, by simp [h2]⟩

theorem head_spaced {c : Char} (h1 : c ≠ ' ') (h2 : c ≠ '\n') {s : Str} :
    (spacedLines s).head? = some c ↔ s.head? = some c := by
  cases s with
  | nil => simp [spacedLines]
  | cons d s =>
    simp only [spacedLines, List.map_cons, List.head?_cons, Option.some.injEq]
    constructor
    · intro h
      split at h
      · exact absurd h.symm h1
      · exact h
    · rintro rfl; simp [h2]

theorem spacedLines_reverse (s : Str) : (spacedLines s).reverse = spacedLines s.reverse := by
  simp [spacedLines]

theorem last_spaced {c : Char} (h1 : c ≠ ' ') (h2 : c ≠ '\n') {s : Str} :
    (spacedLines s).getLast? = some c ↔ s.getLast? = some c := by
  rw [List.getLast?_eq_head?_reverse, spacedLines_reverse, head_spaced h1 h2, ← List.getLast?_eq_head?_reverse]

theorem spaced_ws (c : Char) : isWs (if c = '\n' then ' ' else c) = isWs c := by
  split
  · rename_i h; subst h; rfl
  · rfl

/-- The wrapped text of a text node. -/
theorem Fill.textToks {digit : Char → Bool} {b : Bool} {t s : Str} (h : Fill (textToks digit b t) s) :
    collapse b s = collapse b t ∧ (∀ c ∈ s, c = ' ' ∨ c = '\n' ∨ c ∈ t) ∧
      (b = true → ∀ c, s.head? = some c → isWs c = false) ∧
      (∀ a p q u, s = a ++ p :: q :: u → isWs p = true → isWs q = true → False) := by
  induction t generalizing b s with
  | nil => cases h; exact ⟨rfl, by simp, by simp, by simp⟩
  | cons c t ih =>
    unfold Spec.textToks at h
    by_cases hc : isWs c = true
    · simp only [hc, if_true] at h
      cases b with
      | true =>
        simp only [if_true] at h
        obtain ⟨h1, h2, h3, h4⟩ := ih h
        refine ⟨?_, ?_, h3, h4⟩
        · conv => rhs; unfold collapse
          simp only [hc, if_true]
          exact h1
        · intro d hd
          rcases h2 d hd with h | h | h
          · exact .inl h
          · exact .inr (.inl h)
          · exact .inr (.inr (by simp [h]))
      | false =>
        simp only [Bool.false_eq_true, if_false] at h
        obtain ⟨d, s', rfl, hd, hs'⟩ : ∃ d s', s = d :: s' ∧ (d = ' ' ∨ d = '\n') ∧ Fill (Spec.textToks digit true t) s' := by
          split at h
          · cases h with
            | char _ h => exact ⟨_, _, rfl, .inl rfl, h⟩
          · cases h with
            | space h => exact ⟨_, _, rfl, .inl rfl, h⟩
            | «break» h => exact ⟨_, _, rfl, .inr rfl, h⟩
        obtain ⟨h1, h2, h3, h4⟩ := ih hs'
        have hdw : isWs d = true := by rcases hd with rfl | rfl <;> rfl
        refine ⟨?_, ?_, by simp, ?_⟩
        · unfold collapse
          simp only [hc, hdw, if_true, Bool.false_eq_true, if_false, h1]
        · intro e he
          rcases List.mem_cons.1 he with rfl | he
          · rcases hd with h | h
            · exact .inl h
            · exact .inr (.inl h)
          · rcases h2 e he with h | h | h
            · exact .inl h
            · exact .inr (.inl h)
            · exact .inr (.inr (by simp [h]))
        · intro a p q u hs hp hq
          cases a with
          | nil =>
            simp at hs
            have := h3 rfl q (by simp [hs.2])
            rw [hq] at this; cases this
          | cons a0 a =>
            simp at hs
            exact h4 a p q u hs.2 hp hq
    · simp only [hc, Bool.false_eq_true, if_false] at h
      cases h with
      | @char _ _ s' h =>
        obtain ⟨h1, h2, h3, h4⟩ := ih h
        refine ⟨?_, ?_, ?_, ?_⟩
        · unfold collapse
          simp only [hc, Bool.false_eq_true, if_false, h1]
        · intro e he
          rcases List.mem_cons.1 he with rfl | he
          · exact .inr (.inr (by simp))
          · rcases h2 e he with h | h | h
            · exact .inl h
            · exact .inr (.inl h)
            · exact .inr (.inr (by simp [h]))
        · intro _ d hd
          simp at hd; subst hd
          simpa using hc
        · intro a p q u hs hp hq
          cases a with
          | nil => simp at hs; rw [hs.1] at hc; exact hc hp
          | cons a0 a =>
            simp at hs
            exact h4 a p q u hs.2 hp hq

theorem Fill.text_ne {digit : Char → Bool} {t s : Str} (h : Fill (Spec.textToks digit false t) s) (ht : t ≠ []) :
    s ≠ [] := by
  rintro rfl
  have := h.textToks.1
  cases t with
  | nil => exact ht rfl
  | cons c t =>
    simp [collapse] at this
    split at this <;> simp at this

theorem Fill.text_soft {digit : Char → Bool} {t s : Str} (h : Fill (Spec.textToks digit false t) s) :
    spacedLines s = collapse false t ∧ '\r' ∉ s ∧ ¬ HasHardBreak s := by
  have h1 : spacedLines s = collapse false t := by
    rw [h.spaced, flat_textToks, spacedLines_oneLine (oneLine_collapse _ _)]
  refine ⟨h1, ?_, ?_⟩
  · intro hm
    have := (mem_spaced (c := '\r') (by decide) (by decide)).2 hm
    rw [h1] at this
    exact (oneLine_collapse false t _ this).2 rfl
  · rintro ⟨a, b, nl, _, rfl⟩
    exact h.textToks.2.2.2 a ' ' ' ' (nl ++ b) (by simp) rfl rfl

theorem noPair_spec {c : Char} (h1 : c ≠ ' ') (h2 : c ≠ '\n') {s : Str}
    (h : noPair c (spacedLines s) = true) : ¬ List.replicate 2 c <:+: s := by
  induction s with
  | nil => intro h; simp at h
  | cons a s ih =>
    intro hi
    obtain ⟨u, v, huv⟩ := hi
    cases u with
    | nil =>
      simp at huv
      obtain ⟨rfl, rfl⟩ := huv
      simp [spacedLines, noPair, h2] at h
    | cons a' u =>
      simp at huv
      refine ih ?_ ⟨u, v, by simpa using huv.2⟩
      cases s with
      | nil => rfl
      | cons b s =>
        simp only [spacedLines, List.map_cons, noPair, Bool.and_eq_true] at h
        simpa [spacedLines] using h.2

theorem spaced_cons (c : Char) (s : Str) :
    spacedLines (c :: s) = (if c = '\n' then ' ' else c) :: spacedLines s := rfl

theorem spaced_isWord (c : Char) : isWord (if c = '\n' then ' ' else c) = isWord c := by
  split
  · rename_i h; subst h; rfl
  · rfl

theorem spaced_isAlpha (c : Char) : isAlpha (if c = '\n' then ' ' else c) = isAlpha c := by
  split
  · rename_i h; subst h; rfl
  · rfl

theorem spaced_takeWord (s : Str) : (spacedLines s).takeWhile isWord = s.takeWhile isWord := by
  induction s with
  | nil => rfl
  | cons c s ih =>
    rw [spaced_cons, List.takeWhile_cons, List.takeWhile_cons, spaced_isWord, ih]
    split
    · rename_i h
      have : c ≠ '\n' := by rintro rfl; exact absurd h (by decide)
      rw [if_neg this]
    · rfl

theorem spaced_dropAlpha (s : Str) :
    (spacedLines s).dropWhile isAlpha = spacedLines (s.dropWhile isAlpha) := by
  induction s with
  | nil => rfl
  | cons c s ih =>
    rw [spaced_cons, List.dropWhile_cons, List.dropWhile_cons, spaced_isAlpha, ih]
    split
    · rfl
    · rfl

/-- The test for a character says what it should. -/
theorem looseChar_loose {ent : Str → Option Str} {c : Char} {next : Str} (hr : next.head? ≠ some '\r')
    (h : looseChar (if c = '\n' then ' ' else c) (spacedLines next) = true) : Loose ent c next := by
  by_cases hn : c = '\n'
  · subst hn; exact .inl (by decide)
  rw [if_neg hn] at h
  have hd : ∀ d, next.head? = some d →
      (spacedLines next).head? = some (if d = '\n' then ' ' else d) := by
    intro d hd
    cases next with
    | nil => simp at hd
    | cons e next => simp at hd; subst hd; rfl
  simp only [looseChar, Bool.or_eq_true, Bool.and_eq_true, Bool.not_eq_true', beq_iff_eq,
    bne_iff_ne] at h
  rcases h with (((((h | ⟨rfl, h⟩) | ⟨rfl, h⟩) | ⟨rfl, h⟩) | ⟨rfl, h⟩) | ⟨rfl, h⟩) | ⟨⟨rfl, h⟩, h'⟩
  · exact .inl (by simpa using h)
  · rw [Ne, head_spaced (by decide) (by decide)] at h
    exact .inr (.inl ⟨rfl, h⟩)
  · rw [Ne, head_spaced (by decide) (by decide)] at h
    exact .inr (.inr (.inl ⟨rfl, h⟩))
  · refine .inr (.inr (.inr (.inl ⟨rfl, fun d e => ?_⟩)))
    rw [hd d e] at h
    simpa [spaced_ws] using h
  · refine .inr (.inr (.inr (.inr (.inl ⟨rfl, fun d e => ?_⟩))))
    rw [hd d e] at h
    by_cases hd' : d = '\n'
    · subst hd'; decide
    · simpa [hd'] using h
  · refine .inr (.inr (.inr (.inr (.inr (.inl ⟨rfl, fun d e => ?_⟩)))))
    rw [hd d e] at h
    by_cases hd' : d = '\n'
    · subst hd'; simp at h
    · refine ⟨?_, hd', ?_⟩
      · simp [hd'] at h
        exact h.1
      · rintro rfl; exact hr e
  · refine .inr (.inr (.inr (.inr (.inr (.inr ⟨rfl, fun w out hw hp => ?_⟩)))))
    rw [Ne, head_spaced (by decide) (by decide)] at h
    rw [spaced_dropAlpha, Ne, head_spaced (by decide) (by decide)] at h'
    cases hw with
    | dec _ _ _ =>
      obtain ⟨z, hz⟩ := hp
      cases next with
      | nil => simp at hz
      | cons e next => simp at hz h; exact h hz.1.symm
    | hex _ _ _ _ =>
      obtain ⟨z, hz⟩ := hp
      cases next with
      | nil => simp at hz
      | cons e next => simp at hz h; exact h hz.1.symm
    | @named name _ h1 h2 _ =>
      obtain ⟨z, hz⟩ := hp
      simp only [List.cons_append, List.cons.injEq, true_and] at hz
      rw [← hz, List.append_assoc, List.dropWhile_append_of_pos h2] at h'
      exact h' (by simp [show isAlpha ';' = false from by decide])

/-- Text in front of inlines that do not begin with text. -/
def addRun (w : Str) (is : List Inline) : List Inline := if w = [] then is else .text w :: is

theorem addText_addRun {t w : Str} {is : List Inline} (ht : t ≠ []) (h : NotTextFirst is) :
    addText t (addRun w is) = addRun (t ++ w) is := by
  unfold addRun
  by_cases hw : w = []
  · subst hw
    rw [if_pos rfl, addText_of h, List.append_nil, if_neg ht]
  · rw [if_neg hw, if_neg (by simp [ht])]
    rfl

theorem isIdentifier_spec {w : Str} (h : isIdentifier w = true) : Identifier w := by
  simp only [isIdentifier, Bool.and_eq_true, bne_iff_ne, decide_eq_true_eq] at h
  obtain ⟨⟨⟨⟨⟨h1, h2⟩, h3⟩, h4⟩, h5⟩, h6⟩ := h
  refine ⟨?_, ?_, by simpa using h3, h4, ?_, h6⟩
  · intro c hc; rw [hc] at h1; exact h1
  · intro c hc
    have := List.all_eq_true.1 h2 c hc
    simpa [isWord] using this
  · refine noPair_spec (c := '_') (by decide) (by decide) ?_
    rw [spacedLines_oneLine]
    · exact h5
    · intro c hc
      have := List.all_eq_true.1 h2 c hc
      constructor <;> (rintro rfl; revert this; decide)

theorem takeWhile_all {p : Char → Bool} (s : Str) : ∀ c ∈ s.takeWhile p, p c = true := by
  intro c hc; exact mem_takeWhile hc

theorem looseText_word {u : Str} (w v : Str) (hw : ∀ c ∈ w, isWord c = true) :
    ∀ b, (w = [] → b = true) → looseText u b (w ++ v) = true → looseText u true v = true := by
  induction w with
  | nil => intro b hb h; rw [hb rfl] at h; exact h
  | cons c w ih =>
    intro b _ h
    rw [List.cons_append, looseText] at h
    simp only [Bool.and_eq_true] at h
    have h2 := h.2
    rw [hw c (by simp)] at h2
    exact ih (fun d hd => hw d (by simp [hd])) true (fun _ => rfl) h2

/-- The text `s` is not continued by `u`. -/
def Closed (s u : Str) : Prop :=
  (∀ c, u.head? = some c → isWord c = false ∧ c ≠ '\r') ∧ (u.head? = some ' ' → s.getLast? ≠ some ' ')

theorem closed_of_quiet {s u : Str} (h : QuietEnd u) : Closed s u := by
  refine ⟨fun c hc => ?_, fun hc => ?_⟩
  · have := h c hc
    have key : ∀ c ∈ cs!"<[\\!`*~&", isWord c = false ∧ c ≠ '\r' := by decide
    exact key c this
  · exact absurd (h _ hc) (by decide)

theorem Closed.suffix {a s u : Str} (h : Closed (a ++ s) u) : Closed s u := by
  refine ⟨h.1, fun hu hs => h.2 hu ?_⟩
  rw [List.getLast?_append, hs]; rfl

/-- Text that passes the test is read as it is. -/
theorem looseText_reads {x : PExt} {ent : Str → Option Str} {u : Str} {is : List Inline}
    (hr : Reads x ent u is) (hn : NotTextFirst is) :
    ∀ (n : Nat) (s : Str) (after : Bool), Closed s u → s.length ≤ n →
      looseText (spacedLines u) after (spacedLines s) = true → '\r' ∉ s → ¬ HasHardBreak s →
      (after = true → '_' ∉ s.takeWhile isWord) →
      ∃ t w, s = t ++ w ∧ PlainRun ent t (w ++ u) ∧ Opens ent (w ++ u) ∧
        (t ≠ [] → Apart t (w ++ u)) ∧ Reads x ent (w ++ u) (addRun w is) ∧
        (t = [] → after = true → ∀ c, (w ++ u).head? = some c → isWord c = false) ∧
        ((w ++ u).head? = some ' ' → w = [] ∧ u.head? = some ' ') := by
  intro n
  induction n with
  | zero =>
    intro s after hq hs _ _ _ _
    have hqw := fun c hc => (hq.1 c hc).1
    have : s = [] := by simpa using hs
    subst this
    refine ⟨[], [], rfl, ⟨by simp, ?_⟩, hr.opens hn, by simp, ?_, fun _ _ => hqw, fun h => ⟨rfl, by simpa using h⟩⟩
    · rintro ⟨a, b, nl, _, h⟩; simp at h
    · exact hr
  | succ n ih =>
    intro s after hq hs hl hcr hhb haf
    have hqw := fun c hc => (hq.1 c hc).1
    cases s with
    | nil =>
      refine ⟨[], [], rfl, ⟨by simp, ?_⟩, hr.opens hn, by simp, hr, fun _ _ => hqw, fun h => ⟨rfl, by simpa using h⟩⟩
      rintro ⟨a, b, nl, _, h⟩; simp at h
    | cons c s =>
      simp only [List.length_cons] at hs
      by_cases hid : after = false ∧ isWord c = true ∧ '_' ∈ (c :: s).takeWhile isWord
      · -- an identifier
        obtain ⟨rfl, hc, hu⟩ := hid
        have hl' := hl
        rw [spaced_cons, looseText, ← spaced_cons, spaced_takeWord, spaced_isWord, hc] at hl
        simp only [Bool.and_eq_true, Bool.or_eq_true, Bool.not_eq_true', Bool.false_eq_true, false_or,
          or_false] at hl
        have hi : isIdentifier ((c :: s).takeWhile isWord) = true := by
          rcases hl.1.1 with (h | h) | h
          · cases h
          · simp [hu] at h
          · exact h
        have hident := isIdentifier_spec hi
        generalize hw0 : (c :: s).takeWhile isWord = w0 at *
        have hsplit : c :: s = w0 ++ (c :: s).dropWhile isWord := by
          rw [← hw0]; exact (List.takeWhile_append_dropWhile).symm
        have hwne : w0 ≠ [] := by
          rw [← hw0, List.takeWhile_cons, hc]; simp
        have hrest : ∀ d, ((c :: s).dropWhile isWord).head? = some d → isWord d = false := by
          intro d hd
          cases e : (c :: s).dropWhile isWord with
          | nil => rw [e] at hd; simp at hd
          | cons f r =>
            rw [e] at hd; simp at hd; subst hd
            have := List.head?_dropWhile_not isWord (c :: s)
            rw [e] at this
            simpa using this
        generalize (c :: s).dropWhile isWord = r at *
        have hwall : ∀ d ∈ w0, isWord d = true := by
          intro d hd; rw [← hw0] at hd; exact takeWhile_all _ d hd
        have hlr : looseText (spacedLines u) true (spacedLines r) = true := by
          rw [hsplit, spacedLines_append, spacedLines_oneLine (s := w0)] at hl'
          · exact looseText_word w0 _ hwall false (fun h => absurd h hwne) hl'
          · intro d hd
            have := hwall d hd
            constructor <;> (rintro rfl; revert this; decide)
        have hlen : r.length ≤ n := by
          have := congrArg List.length hsplit
          have h0 := List.length_pos_iff.2 hwne
          simp only [List.length_cons, List.length_append] at this
          omega
        obtain ⟨t, w, rfl, h1, h2, h3, h4, h5, h6⟩ := ih r true (by rw [hsplit] at hq; exact hq.suffix) hlen hlr
          (by intro hm; exact hcr (by rw [hsplit]; simp [hm]))
          (by
            rintro ⟨a, b, nl, hnl, e⟩
            exact hhb ⟨w0 ++ a, b, nl, hnl, by rw [hsplit, e]; simp⟩)
          (by
            intro _
            cases r with
            | nil => simp
            | cons d r => rw [List.takeWhile_cons, hrest d rfl]; simp)
        have hR : Reads x ent (t ++ w ++ u) (addRun (t ++ w) is) := by
          by_cases ht : t = []
          · subst ht; exact h4
          · have := Reads.run ht h1 h2 (h3 ht) h4
            rw [addText_addRun ht hn, ← List.append_assoc] at this
            exact this
        have hend : WordEnd (t ++ w ++ u) := by
          intro d hd
          have : isWord d = false := by
            cases e : t ++ w with
            | nil => rw [e] at hd; exact hqw d (by simpa using hd)
            | cons f r => rw [e] at hd; exact hrest d (by rw [e]; simpa using hd)
          simpa [isWord] using this
        refine ⟨[], w0 ++ (t ++ w), hsplit, ⟨by simp, ?_⟩, ?_, by simp, ?_, by simp, ?_⟩
        · rintro ⟨a, b, nl, _, h⟩; simp at h
        · exact .inr (.inr (.inr ⟨w0, t ++ w ++ u, by simp, hident, hend⟩))
        · have := Reads.identifier hident hend hR
          rw [addText_addRun hwne hn, ← List.append_assoc] at this
          exact this
        · intro hd
          rw [← hsplit] at hd
          simp at hd
          subst hd
          exact absurd hc (by decide)
      · -- a character that means nothing
        have hus : isWord c = true → '_' ∉ (c :: s).takeWhile isWord := by
          intro hc
          cases after with
          | true => exact haf rfl
          | false => intro hm; exact hid ⟨rfl, hc, hm⟩
        have hcu : c ≠ '_' := by
          rintro rfl
          exact hus (by decide) (by simp [List.takeWhile_cons, show isWord '_' = true from by decide])
        rw [spaced_cons, looseText, ← spaced_cons, spaced_isWord] at hl
        simp only [Bool.and_eq_true, Bool.or_eq_true, beq_iff_eq] at hl
        obtain ⟨⟨_, hl2⟩, hl3⟩ := hl
        have hcu' : (if c = '\n' then ' ' else c) ≠ '_' := by
          split
          · decide
          · exact hcu
        have hl2 := hl2.resolve_right (fun h => hcu' h.2)
        rw [← spacedLines_append] at hl2
        have hloose : Loose ent c (s ++ u) := looseChar_loose (by
          intro h
          cases s with
          | nil =>
            exact (hq.1 _ h).2 rfl
          | cons d s => simp at h; subst h; exact hcr (by simp)) hl2
        obtain ⟨t, w, rfl, h1, h2, h3, h4, h5, h6⟩ := ih s (isWord c) (Closed.suffix (a := [c]) hq) (by omega) hl3
          (by intro hm; exact hcr (by simp [hm]))
          (by rintro ⟨a, b, nl, hnl, e⟩; exact hhb ⟨c :: a, b, nl, hnl, by rw [e]; simp⟩)
          (by
            intro hc
            have := hus hc
            rw [List.takeWhile_cons, hc] at this
            intro hm
            exact this (by simp [hm]))
        refine ⟨c :: t, w, rfl, ⟨?_, ?_⟩, h2, fun _ => ⟨?_, ?_⟩, h4, by simp, h6⟩
        · intro a d b e
          cases a with
          | nil =>
            simp at e
            obtain ⟨rfl, rfl⟩ := e
            simpa using hloose
          | cons a0 a =>
            simp at e
            exact h1.1 a d b e.2
        · rintro ⟨a, b, nl, hnl, e⟩
          exact hhb ⟨a, b ++ w, nl, hnl, by rw [← List.cons_append, e]; simp⟩
        · intro e he hal d hd
          cases t with
          | nil =>
            simp at hd; subst hd
            cases hcw : isWord c with
            | true =>
              have := h5 rfl hcw e he
              simp [isWord] at this
              rcases hal with h | h
              · rw [this.1] at h; cases h
              · exact absurd h this.2
            | false => simp [isWord] at hcw; exact hcw.1
          | cons t0 t =>
            exact (h3 (by simp)).1 e he hal d (by simpa [List.getLast?_cons] using hd)
        · intro e
          obtain ⟨rfl, hu⟩ := h6 e
          have := hq.2 hu
          simpa using this

theorem textFirst_squash {a b : List Inline} (h : keyInlines a = keyInlines b) :
    textFirst a = textFirst b := by
  cases a with
  | nil => cases b with
    | nil => rfl
    | cons j b => simp [keyInlines] at h
  | cons i a => cases b with
    | nil => simp [keyInlines] at h
    | cons j b =>
      simp [keyInlines] at h
      have := h.1
      cases i <;> cases j <;> simp [keyInline] at this <;> (try (split at this <;> simp at this)) <;> rfl

theorem squash_ne {a b : List Inline} (h : keyInlines a = keyInlines b) (hb : b ≠ []) : a ≠ [] := by
  rintro rfl
  cases b with
  | nil => exact hb rfl
  | cons j b => simp [keyInlines] at h

theorem notTextFirst_of {l : List Inline} (h : textFirst l = false) : NotTextFirst l := by
  rintro t r rfl
  simp [textFirst] at h

theorem plainLabel_text {s : Str} (h : plainLabel (spacedLines s) = true) : LabelText s := by
  unfold plainLabel at h
  simp only [Bool.and_eq_true, Bool.not_eq_true', bne_iff_ne, List.any_eq_true, decide_eq_true_eq] at h
  obtain ⟨⟨⟨h1, h2⟩, c, hc, h3⟩, h4⟩ := h
  refine ⟨?_, ?_, ?_, ?_⟩
  · intro hm
    have := (mem_spaced (c := ']') (by decide) (by decide)).2 hm
    simp [this] at h1
  · rw [Ne, last_spaced (by decide) (by decide)] at h2; exact h2
  · exact ⟨c, (mem_spaced h3.1 h3.2).1 hc, h3⟩
  · simpa [spacedLines] using h4

/-- What is left of a destination when `n` parentheses are open. -/
inductive OpenDest : Nat → Str → Prop
  | zero {s : Str} : BareDest s → OpenDest 0 s
  | succ {n : Nat} {a b : Str} : BareDest a → OpenDest n b → OpenDest (n + 1) (a ++ ')' :: b)

theorem bareDest_append {a b : Str} (ha : BareDest a) (hb : BareDest b) : BareDest (a ++ b) := by
  induction ha with
  | nil => exact hb
  | chr h1 h2 _ ih => exact .chr h1 h2 ih
  | esc _ ih => exact .esc ih
  | @parens a' b' h1 _ _ ih =>
    have := BareDest.parens h1 ih
    simpa using this

theorem OpenDest.prepend {n : Nat} {a s : Str} (ha : BareDest a) (h : OpenDest n s) : OpenDest n (a ++ s) := by
  cases h with
  | zero h => exact .zero (bareDest_append ha h)
  | succ h1 h2 =>
    rw [← List.append_assoc]
    exact .succ (bareDest_append ha h1) h2

theorem paired_open {n : Nat} {d : Str} (hd : ∀ c ∈ d, isAsciiControl c = false ∧ c ≠ ' ' ∧ c ≠ '<')
    (h : paired n d = true) : OpenDest n d := by
  induction n, d using paired.induct with
  | case1 n =>
    simp [paired] at h; subst h; exact .zero .nil
  | case2 n => simp [paired] at h
  | case3 n c s ih =>
    rw [paired] at h
    have := ih (fun d hm => hd d (by simp [hm])) h
    exact this.prepend (a := ['\\', c]) (.esc .nil)
  | case4 n s ih =>
    rw [paired] at h
    have := ih (fun d hm => hd d (by simp [hm])) h
    cases this with
    | @succ _ a b h1 h2 =>
      have := h2.prepend (BareDest.parens h1 .nil)
      simpa using this
  | case5 s => simp [paired] at h
  | case6 n s ih =>
    rw [paired] at h
    have := ih (fun d hm => hd d (by simp [hm])) h
    exact .succ (a := []) .nil this
  | case7 n c s h1 h2 h3 h4 h5 ih =>
    have e : paired n s = true := by
      rw [paired] at h <;> simp_all
    have := ih (fun d hm => hd d (by simp [hm])) e
    refine this.prepend (a := [c]) (.chr (hd c (by simp)).1 ?_ .nil)
    intro hm
    simp only [List.mem_cons, List.not_mem_nil, or_false] at hm
    have hc := hd c (by simp)
    rcases hm with rfl | rfl | rfl | rfl | rfl
    · exact hc.2.1 rfl
    · exact hc.2.2 rfl
    · exact h3 rfl
    · cases n with
      | zero => exact h4 rfl rfl
      | succ n => exact h5 n rfl rfl
    · cases s with
      | nil => exact h1 rfl rfl
      | cons d s => exact h2 d s rfl rfl

theorem plainDest_spec {d : Str} {t : Option Str} (h : plainDest d t = true) :
    (d ≠ [] ∧ BareDest d) ∧ ∀ c ∈ t.getD [], c ≠ '"' ∧ c ≠ '\\' := by
  unfold plainDest at h
  simp only [Bool.and_eq_true, Bool.not_eq_true', List.isEmpty_eq_false_iff, List.all_eq_true] at h
  obtain ⟨⟨⟨h1, h2⟩, h4⟩, h3⟩ := h
  refine ⟨⟨h1, ?_⟩, ?_⟩
  · cases paired_open (fun c hc => by
      have := h2 c hc
      simpa using this) h4 with
    | zero h => exact h
  · intro c hc
    have := h3 c hc
    simp at this
    exact ⟨this.1, this.2.1⟩

theorem plainDest_title {d : Str} {t : Option Str} (h : plainDest d t = true) :
    DestTitle ('(' :: (d ++ (title t ++ [')']))) d t := by
  obtain ⟨⟨h1, h2⟩, h3⟩ := plainDest_spec h
  cases t with
  | none =>
    have := DestTitle.plain (w1 := []) (w2 := []) (by intro c hc; simp at hc) (.bare h1 h2)
      (by intro c hc; simp at hc)
    simpa [title] using this
  | some t =>
    have := DestTitle.title (w1 := []) (w2 := [' ']) (w3 := []) (by intro c hc; simp at hc)
      (.bare h1 h2) (by intro c hc; simp at hc; simp [hc]) (by simp)
      (.double (titleText_plain (by simpa using h3))) (by intro c hc; simp at hc)
    simpa [title] using this

theorem closes_emph {x : PExt} {u : Str} (h : closes (isPunctuation x) (spacedLines u) = true) : EmphEnd x u := by
  intro c hc
  cases u with
  | nil => simp at hc
  | cons d u =>
    simp at hc; subst hc
    simp only [closes, spacedLines, List.map_cons, List.head?_cons, Option.all_some, Bool.or_eq_true] at h
    by_cases hd : d = '\n'
    · subst hd; exact .inl rfl
    · simp [hd, isPunctuation] at h
      exact h

theorem head_all_ws {s : Str} (h : (spacedLines s).head?.all (!isWs ·) = true) :
    ∀ c, s.head? = some c → isWs c = false := by
  intro c hc
  cases s with
  | nil => simp at hc
  | cons d s =>
    simp at hc; subst hc
    simpa [spacedLines, spaced_ws] using h

theorem quietEnd_cons {c : Char} {s : Str} (h : c ∈ cs!"<[\\!`*~&") : QuietEnd (c :: s) := by
  intro d hd; simp at hd; subst hd; exact h

/-- Clear inlines, printed with any line breaks, mean the same inlines up to whitespace. -/
theorem clear_reads (x : PExt) (ent : Str → Option Str) (digit : Char → Bool) :
    (∀ i s u is, clearInline (isPunctuation x) i (spacedLines u) = true →
      Fill (inlineToks digit i) s → Reads x ent u is → (textFirst [i] = true → NotTextFirst is ∧ Closed s u) →
      ∃ i', Reads x ent (s ++ u) (i' :: is) ∧ keyInline i' = keyInline i ∧
        (textFirst [i] = false → QuietEnd (s ++ u))) ∧
    ∀ l s, clearInlines (isPunctuation x) l = true → Fill (inlinesToks digit l) s →
      ∃ is, Reads x ent s is ∧ keyInlines is = keyInlines l ∧ (textFirst l = false → QuietEnd s) := by
  refine Inline.ind ?_ ?_ ?_ ?_ ?_ ?_ ?_ ?_ ?_ ?_ ?_ ?_ ?_ ?_ ?_
  · -- text
    intro t s u is hc hf hr hn
    simp only [clearInline, Bool.and_eq_true, Bool.not_eq_true', List.isEmpty_eq_false_iff] at hc
    simp only [inlineToks] at hf
    obtain ⟨hs1, hs2, hs3⟩ := hf.text_soft
    rw [← hs1] at hc
    obtain ⟨t', w, hsw, h1, h2, h3, h4, _, _⟩ := looseText_reads hr (hn rfl).1 s.length s false
      (hn rfl).2 (Nat.le_refl _) hc.2 hs2 hs3 (by simp)
    refine ⟨.text s, ?_, ?_, ?_⟩
    · have hne := hf.text_ne hc.1
      have : addRun (t' ++ w) is = .text s :: is := by rw [← hsw, addRun, if_neg hne]
      rw [hsw, ← hsw, ← this]
      by_cases ht : t' = []
      · subst ht
        rw [hsw]; exact h4
      · have := Reads.run ht h1 h2 (h3 ht) h4
        rw [addText_addRun ht (hn rfl).1, ← List.append_assoc] at this
        rw [hsw]
        exact this
    · simp [keyInline, hf.textToks.1]
    · simp [textFirst]
  · intro s u is hc; simp [clearInline] at hc
  · -- code
    intro c s u is hc hf hr _
    simp only [clearInline, Bool.and_eq_true, Bool.not_eq_true', List.isEmpty_eq_false_iff, bne_iff_ne] at hc
    obtain ⟨⟨⟨h1, h2⟩, h3⟩, h4⟩ := hc
    simp only [inlineToks] at hf
    rw [hf.lit_inv]
    have h2' : ∀ d ∈ c, d ≠ '`' ∧ d ≠ '\r' ∧ d ≠ '\n' := by
      intro d hd
      have := List.all_eq_true.1 h2 d hd
      simpa using this
    have hnl : spacedLines c = c := spacedLines_oneLine fun d hd => ⟨(h2' d hd).2.2, (h2' d hd).2.1⟩
    refine ⟨.code c, ?_, rfl, fun _ => quietEnd_cons (by decide)⟩
    have := Reads.code (n := 1) (c := c) (out := c) (by decide) ?_ ?_
      (by rw [Ne, ← head_spaced (by decide) (by decide)]; exact h4) hr
    · simpa using this
    · refine ⟨h1, ?_, ?_, ?_, ?_, ?_⟩
      · intro h
        cases c with
        | nil => simp at h
        | cons d c => simp at h; exact (h2' d (by simp)).1 h
      · intro h
        exact (h2' _ (List.mem_of_getLast? h)).1 rfl
      · rintro ⟨a, b, h⟩
        exact (h2' '`' (by rw [← h]; simp)).1 rfl
      · intro h; exact (h2' _ h).2.1 rfl
      · rintro ⟨a, e, sp, e', b, he, he', _, h⟩
        have : '\n' ∈ c := by
          rw [h]
          rcases he with rfl | rfl <;> simp
        exact (h2' _ this).2.2 rfl
    · have := CodeText.bare (c := c) ?_
      · rwa [hnl] at this
      · intro m hm d hd
        rw [hnl] at hm
        subst hm
        cases hw : isWs d with
        | true => rfl
        | false =>
          exfalso
          have : (' ' :: (m ++ [' '])).any (fun d => !isWs d) = true :=
            List.any_eq_true.2 ⟨d, by simp [hd], by simp [hw]⟩
          simp [List.getLast?_cons] at h3
          rw [h3.2.1 d hd] at hw; cases hw
  · intro s s' u is hc; simp [clearInline] at hc
  · -- link
    intro d t c ih s u is hc hf hr _
    simp only [clearInline, Bool.and_eq_true] at hc
    obtain ⟨⟨h1, h2⟩, h3⟩ := hc
    simp only [inlineToks] at hf
    obtain ⟨s1, s2, rfl, hf, hf2⟩ := hf.append_inv
    obtain ⟨s3, s4, rfl, hf3, hf4⟩ := hf.append_inv
    rw [hf2.lit_inv, hf3.lit_inv]
    obtain ⟨is', hr', hs', _⟩ := ih s4 h1 hf4
    refine ⟨.link d t is', ?_, by simp [keyInline, hs'], fun _ => quietEnd_cons (by decide)⟩
    have := Reads.link hr' (plainLabel_text (by rw [← hf4.source h1]; exact h2)) (plainDest_title h3) hr
    simpa using this
  · -- link reference
    intro l t ihl iht s u is hc hf hr _
    simp only [clearInline, Bool.and_eq_true, bne_iff_ne, Bool.or_eq_true, decide_eq_true_eq] at hc
    obtain ⟨⟨⟨⟨⟨⟨h1, h2⟩, h3⟩, h4⟩, h5⟩, h6⟩, h7⟩ := hc
    simp only [inlineToks] at hf
    split at hf
    · rename_i hlt
      subst hlt
      obtain ⟨s1, s2, rfl, hf, hf2⟩ := hf.append_inv
      obtain ⟨s3, s4, rfl, hf3, hf4⟩ := hf.append_inv
      rw [hf2.lit_inv, hf3.lit_inv]
      obtain ⟨is', hr', hs', _⟩ := ihl s4 h1 hf4
      refine ⟨.linkReference is' is', ?_, by simp [keyInline, hs'], fun _ => quietEnd_cons (by decide)⟩
      have h6 := h6.resolve_left (by simp)
      rw [Ne, Ne, head_spaced (by decide) (by decide), head_spaced (by decide) (by decide)] at h6
      rw [hf4.source h1, Ne, head_spaced (by decide) (by decide)] at h5
      have := Reads.shortcut hr' (plainLabel_text (by rw [← hf4.source h1]; exact h3)) h5 h6.1 h6.2 hr
      simpa using this
    · rename_i hlt
      obtain ⟨s1, s2, rfl, hf, hf2⟩ := hf.append_inv
      obtain ⟨s3, s4, rfl, hf, hf4⟩ := hf.append_inv
      obtain ⟨s5, s6, rfl, hf, hf6⟩ := hf.append_inv
      obtain ⟨s7, s8, rfl, hf7, hf8⟩ := hf.append_inv
      rw [hf2.lit_inv, hf6.lit_inv, hf7.lit_inv]
      obtain ⟨il, hrl, hsl, _⟩ := ihl s4 h1 hf4
      obtain ⟨it, hrt, hst, _⟩ := iht s8 h2 hf8
      have hne : il ≠ it := by
        rintro rfl
        exact (h7.resolve_left hlt) (key_squash.2 l t (hsl.symm.trans hst))
      refine ⟨.linkReference il it, ?_, by simp [keyInline, hsl, hst, hne, hlt], fun _ => quietEnd_cons (by decide)⟩
      rw [hf8.source h2, Ne, head_spaced (by decide) (by decide)] at h5
      have := Reads.reference hrt (plainLabel_text (by rw [← hf8.source h2]; exact h4)) h5 hrl
        (plainLabel_text (by rw [← hf4.source h1]; exact h3)) hr
      simpa using this
  · -- image
    intro d t a s u is hc hf hr _
    simp only [clearInline, Bool.and_eq_true] at hc
    simp only [inlineToks] at hf
    rw [hf.lit_inv]
    refine ⟨.image d t a, ?_, rfl, fun _ => quietEnd_cons (by decide)⟩
    have := Reads.image (x := x) (s := a) (by
      intro hm
      have := List.all_eq_true.1 hc.1 _ hm
      simp at this) (plainDest_title hc.2) hr
    simpa using this
  · -- emphasis
    intro c ih s u is hc hf hr _
    simp only [clearInline, Bool.and_eq_true, Bool.not_eq_true', List.isEmpty_eq_false_iff, bne_iff_ne] at hc
    obtain ⟨⟨⟨⟨⟨h1, h2⟩, h3⟩, h4⟩, h5⟩, h6⟩ := hc
    simp only [inlineToks] at hf
    obtain ⟨s1, s2, rfl, hf, hf2⟩ := hf.append_inv
    obtain ⟨s3, s4, rfl, hf3, hf4⟩ := hf.append_inv
    rw [hf2.lit_inv, hf3.lit_inv]
    rw [hf4.source h2] at h3 h4 h5
    obtain ⟨is', hr', hs', _⟩ := ih s4 h2 hf4
    refine ⟨.emphasis is', ?_, by simp [keyInline, hs'], fun _ => quietEnd_cons (by decide)⟩
    have := Reads.emphasis (squash_ne hs' h1) hr' ⟨head_all_ws h3, by
      intro hm
      have := (mem_spaced (c := '*') (by decide) (by decide)).2 hm
      simp [this] at h4, by rwa [Ne, last_spaced (by decide) (by decide)] at h5⟩ (closes_emph h6) hr
    simpa using this
  · -- strong
    intro c ih s u is hc hf hr _
    simp only [clearInline, Bool.and_eq_true, Bool.not_eq_true', List.isEmpty_eq_false_iff, bne_iff_ne] at hc
    obtain ⟨⟨⟨⟨⟨⟨h1, h2⟩, h3⟩, h4⟩, h5⟩, h6⟩, h7⟩ := hc
    simp only [inlineToks] at hf
    obtain ⟨s1, s2, rfl, hf, hf2⟩ := hf.append_inv
    obtain ⟨s3, s4, rfl, hf3, hf4⟩ := hf.append_inv
    rw [hf2.lit_inv, hf3.lit_inv]
    rw [hf4.source h2] at h3 h4 h5 h6
    obtain ⟨is', hr', hs', _⟩ := ih s4 h2 hf4
    refine ⟨.strong is', ?_, by simp [keyInline, hs'], fun _ => quietEnd_cons (by decide)⟩
    have := Reads.strong (squash_ne hs' h1) hr' ⟨by
      intro c hc
      cases s4 with
      | nil => simp at hc
      | cons d s4 =>
        simp at hc; subst hc
        simp [spacedLines, spaced_ws] at h3
        refine ⟨h3.1, ?_⟩
        rintro rfl
        simp at h3, by rwa [Ne, last_spaced (by decide) (by decide)] at h4, noPair_spec (by decide) (by decide) h6, by
      have hb : '\\' ∉ s4 := by
        intro hm
        have := (mem_spaced (c := '\\') (by decide) (by decide)).2 hm
        simp [this] at h5
      rintro ⟨a, b, hab⟩
      have : '\\' ∈ s4 ++ ['*'] := by rw [← hab]; simp
      simp [hb] at this⟩ (closes_emph h7) hr
    simpa using this
  · -- strikethrough
    intro c ih s u is hc hf hr _
    simp only [clearInline, Bool.and_eq_true, Bool.not_eq_true', List.isEmpty_eq_false_iff, bne_iff_ne] at hc
    obtain ⟨⟨⟨⟨h1, h2⟩, h3⟩, h4⟩, h5⟩ := hc
    simp only [inlineToks] at hf
    obtain ⟨s1, s2, rfl, hf, hf2⟩ := hf.append_inv
    obtain ⟨s3, s4, rfl, hf3, hf4⟩ := hf.append_inv
    rw [hf2.lit_inv, hf3.lit_inv]
    rw [hf4.source h2] at h3 h4
    obtain ⟨is', hr', hs', _⟩ := ih s4 h2 hf4
    refine ⟨.strikethrough is', ?_, by simp [keyInline, hs'], fun _ => quietEnd_cons (by decide)⟩
    have := Reads.strike (squash_ne hs' h1) hr' (by
      intro hm
      have := (mem_spaced (c := '~') (by decide) (by decide)).2 hm
      simp [this] at h3) (by rwa [Ne, last_spaced (by decide) (by decide)] at h4)
      (by rwa [Ne, head_spaced (by decide) (by decide)] at h5) hr
    simpa using this
  · -- autolink
    intro l s u is hc hf hr _
    simp only [clearInline] at hc
    simp only [inlineToks] at hf
    rw [hf.lit_inv]
    refine ⟨.autolink l, ?_, rfl, fun _ => quietEnd_cons (by decide)⟩
    have := Reads.autolink (isAutolink_text hc) hr
    simpa using this
  · -- footnote reference
    intro l s u is hc hf hr _
    simp only [clearInline, Bool.and_eq_true, Bool.not_eq_true', List.isEmpty_eq_false_iff, bne_iff_ne,
      decide_eq_true_eq, List.all_eq_true] at hc
    obtain ⟨⟨⟨h1, h2⟩, h3⟩, h4⟩ := hc
    simp only [inlineToks] at hf
    rw [hf.lit_inv]
    refine ⟨.footnoteReference l, ?_, rfl, fun _ => quietEnd_cons (by decide)⟩
    have := Reads.footnote h1 h2 h3 (by rwa [Ne, head_spaced (by decide) (by decide)] at h4) hr
    simpa using this
  · intro s u is hc; simp [clearInline] at hc
  · -- nil
    intro s _ hf
    simp only [inlinesToks] at hf
    cases hf
    exact ⟨[], .nil, rfl, fun _ => quietEnd_nil⟩
  · -- cons
    intro i l ihi ihl s hc hf
    simp only [clearInlines, Bool.and_eq_true, Bool.not_eq_true'] at hc
    obtain ⟨⟨h1, h2⟩, h3⟩ := hc
    simp only [inlinesToks] at hf
    obtain ⟨s1, s2, rfl, hf1, hf2⟩ := hf.append_inv
    obtain ⟨is, hr, hs, hq⟩ := ihl s2 h3 hf2
    rw [hf2.source h3] at h1
    obtain ⟨i', hr', hs', hq'⟩ := ihi s1 s2 is h1 hf1 hr (by
      intro ht
      have hl : textFirst l = false := by simpa [ht] using h2
      refine ⟨notTextFirst_of ?_, closed_of_quiet (hq hl)⟩
      rw [textFirst_squash hs, hl])
    refine ⟨i' :: is, hr', by simp [keyInlines, hs, hs'], fun ht => hq' ?_⟩
    cases i <;> simp_all [textFirst]

end Spec
end Md
end Verif
