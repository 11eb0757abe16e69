import Verif.StartProps
import Verif.PrinterWrap
/-!
# When is a printed text one paragraph? (C45, exact form; uses C80 and C81)
-/
set_option autoImplicit false
set_option linter.unusedVariables false
set_option linter.unusedSimpArgs false
namespace Verif
open Nom

section
variable {x : PExt} {cfg : PConfig}

theorem line_split {a l w r : Str} (hl : '\n' ∉ l) (h : l ++ '\n' :: w = a ++ '\n' :: r) :
    r = w ∨ ∃ a', w = a' ++ '\n' :: r := by
  induction l generalizing a with
  | nil =>
    cases a with
    | nil => simp at h; exact .inl h.symm
    | cons c a => simp at h; exact .inr ⟨a, h.2⟩
  | cons d l ih =>
    cases a with
    | nil => simp at h hl; exact absurd h.1.symm hl.1
    | cons c a => simp at h; exact ih (by simp at hl; exact hl.2) h.2

theorem sp_no_nl {j : Nat} : '\n' ∉ sp j := by simp [sp]

theorem textRun_lines {ls : List Str} {w : Str} (h : TextRun cfg [] ls w) :
    ∀ a r, w = a ++ '\n' :: r → r ≠ [] → ¬ Interrupts cfg r := by
  induction h with
  | @last p l e hp hl hw =>
    intro a r h hr
    exfalso
    obtain ⟨j, _, rfl, _⟩ := hp
    have h1 := hw.one
    have h0 : '\n' ∉ sp j ++ l := by simp [sp, h1]
    rcases hw.ends with (rfl | rfl) | ⟨rfl, _⟩
    · rcases line_split (l := sp j ++ l) (w := []) h0 (by simpa using h) with rfl | ⟨a', h⟩
      · exact hr rfl
      · simp at h
    · rcases line_split (l := sp j ++ l ++ ['\r']) (w := []) (by simp [sp, h1]) (by simpa using h) with rfl | ⟨a', h⟩
      · exact hr rfl
      · simp at h
    · have : '\n' ∈ sp j ++ l := by rw [show sp j ++ l = a ++ '\n' :: r by simpa using h]; simp
      exact h0 this
  | @cons p l e w ls hp hl hw hi ht ih =>
    intro a r h hr
    obtain ⟨j, _, rfl, _⟩ := hp
    have h1 := hw.one
    rw [List.append_nil] at hi
    have fin : r = w ∨ (∃ a', w = a' ++ '\n' :: r) → ¬ Interrupts cfg r := by
      rintro (rfl | ⟨a', h⟩)
      · exact hi
      · exact ih a' r h hr
    rcases hw.ends with (rfl | rfl) | ⟨rfl, h2⟩
    · exact fin (line_split (l := sp j ++ l) (by simp [sp, h1]) (by simpa using h))
    · exact fin (line_split (l := sp j ++ l ++ ['\r']) (by simp [sp, h1]) (by simpa using h))
    · simp at h2; subst h2
      have hw0 : ∀ {ls : List Str} {w : Str}, TextRun cfg [] ls w → w ≠ [] := by
        intro ls w h
        cases h <;> simp_all
      exact absurd rfl (hw0 ht)

theorem textRun_rest {ls : List Str} {w rest : Str} (h : TextRun cfg rest ls w) (hr : rest ≠ []) :
    ∃ a, w = a ++ ['\n'] := by
  induction h with
  | @last p l e hp hl hw =>
    rcases hw.ends with (rfl | rfl) | ⟨rfl, h2⟩
    · exact ⟨p ++ l, by simp⟩
    · exact ⟨p ++ l ++ ['\r'], by simp⟩
    · exact absurd h2 hr
  | @cons p l e w ls hp hl hw hi ht ih =>
    obtain ⟨a, rfl⟩ := ih
    exact ⟨p ++ (l ++ (e ++ a)), by simp⟩

/-- **C81**, for a text without blank lines: it is one paragraph if and only if it does not begin with
another block, none of its other lines begins what interrupts a paragraph, and, if there are other lines, the
first one is not an underline. -/
theorem C81_one (ha : cfg.AllBlocks) {s : Str} (hs : ¬ BlankLineAt s)
    (hb : ∀ a r, s = a ++ '\n' :: r → r = [] ∨ ¬ BlankLineAt r) :
    (∃ is, parseMarkdown x cfg s = some ⟨[.paragraph is]⟩) ↔
      ¬ SpecialAt cfg s ∧ ∀ a r, s = a ++ '\n' :: r → r ≠ [] → ¬ Interrupts cfg r ∧ ¬ ∃ k, UnderlineAt k s := by
  have hrest : ∀ w rest ls, s = w ++ rest → TextRun cfg rest ls w → rest ≠ [] → ∃ a, s = a ++ '\n' :: rest := by
    intro w rest ls h1 h2 hne
    obtain ⟨a, rfl⟩ := textRun_rest h2 hne
    exact ⟨a, by simpa using h1⟩
  constructor
  · rintro ⟨is, hp⟩
    have hsp : ¬ SpecialAt cfg s := by
      obtain ⟨b, bs, h1, h2⟩ := C80_first_block (x := x) ha hs
      rw [hp] at h1
      simp at h1
      obtain ⟨rfl, _⟩ := h1
      exact (h2 .text).2 rfl
    refine ⟨hsp, ?_⟩
    obtain ⟨ls, w, rest, is', h1, h2, _, h4, h5⟩ := C81_text (x := x) ha hs hsp
    have hr0 : parseMarkdown x cfg s = (parseMarkdown x cfg rest).map (fun d => ⟨.paragraph is' :: d.blocks⟩) → rest = [] := by
      intro h
      by_cases hne : rest = []
      · exact hne
      · exfalso
        obtain ⟨a, h6⟩ := hrest w rest ls h1 h2 hne
        have h7 := (hb a rest h6).resolve_left hne
        obtain ⟨b, bs, h8, _⟩ := C80_first_block (x := x) ha h7
        rw [h8, hp] at h
        simp at h
    intro a r h hr
    by_cases hu : ∃ k, UnderlineAt k s
    · exfalso
      obtain ⟨h6, h7⟩ := h4 hu
      obtain rfl := hr0 h7
      rw [List.append_nil] at h1; subst h1
      cases h2 with
      | @cons _ _ _ w' ls' _ _ _ _ ht => cases ht <;> simp at h6
      | @last p l e hi hl hw =>
        obtain ⟨j, _, rfl, _⟩ := hi
        have h1 := hw.one
        have h0 : '\n' ∉ sp j ++ l := by simp [sp, h1]
        rcases hw.ends with (rfl | rfl) | ⟨rfl, _⟩
        · rcases line_split (l := sp j ++ l) (w := []) h0 (by simpa using h) with rfl | ⟨a', h⟩
          · exact hr rfl
          · simp at h
        · rcases line_split (l := sp j ++ l ++ ['\r']) (w := []) (by simp [sp, h1]) (by simpa using h) with rfl | ⟨a', h⟩
          · exact hr rfl
          · simp at h
        · have : '\n' ∈ sp j ++ l := by rw [show sp j ++ l = a ++ '\n' :: r by simpa using h]; simp
          exact h0 this
    · refine ⟨?_, hu⟩
      obtain ⟨_, h6, h7⟩ := h5 hu
      have hu' : ¬ ∃ k, UnderlineAt k rest := by
        rintro ⟨k, u, e, r', g1, g2, g3⟩
        rw [h6 k u e r' g1 g2 g3] at hp
        obtain ⟨d, hd⟩ := everyDoc (x := x) ha r'
        rw [hd] at hp
        simp at hp
      obtain rfl := hr0 (h7 hu')
      rw [List.append_nil] at h1; subst h1
      exact textRun_lines h2 a r h hr
  · rintro ⟨hsp, hall⟩
    obtain ⟨ls, w, rest, is', h1, h2, _, h4, h5⟩ := C81_text (x := x) ha hs hsp
    by_cases hu : ∃ k, UnderlineAt k s
    · obtain ⟨h6, h7⟩ := h4 hu
      have hr : rest = [] := by
        by_cases hne : rest = []
        · exact hne
        · obtain ⟨a, h8⟩ := hrest w rest ls h1 h2 hne
          exact absurd hu (hall a rest h8 hne).2
      subst hr
      exact ⟨is', by rw [h7, parseMarkdown_nil]; rfl⟩
    · obtain ⟨h6, h7, h8⟩ := h5 hu
      have hr : rest = [] := by
        by_cases hne : rest = []
        · exact hne
        · obtain ⟨a, h9⟩ := hrest w rest ls h1 h2 hne
          exact absurd h6 (hall a rest h9 hne).1
      subst hr
      refine ⟨is', ?_⟩
      rw [h8 ?_, parseMarkdown_nil]; rfl
      rintro ⟨k, u, e, r, hu, _, h⟩
      cases hu with
      | @one j n b _ hn _ =>
        obtain ⟨n, rfl⟩ : ∃ m, n = m + 1 := ⟨n - 1, by omega⟩
        simp [List.replicate_succ] at h
      | @two j n b _ hn _ =>
        obtain ⟨n, rfl⟩ : ∃ m, n = m + 1 := ⟨n - 1, by omega⟩
        simp [List.replicate_succ] at h

/-- A character that no block begins with. -/
def HarmlessStart (c : Char) : Prop :=
  isWs c = false ∧ c ∉ cs!"`~#>[<|-*_+=" ∧ isDigit c = false

theorem HarmlessStart.class {c : Char} (h : HarmlessStart c) : charClass c = 0 := by
  obtain ⟨_, h1, h2⟩ := h
  simp at h1
  simp [charClass, h1, h2]

theorem HarmlessStart.ne {c : Char} (h : HarmlessStart c) : c ≠ ' ' ∧ c ≠ '\t' ∧ c ≠ '\n' ∧ c ≠ '\r' := by
  obtain ⟨h1, _⟩ := h
  refine ⟨?_, ?_, ?_, ?_⟩ <;> rintro rfl <;> revert h1 <;> decide

theorem HarmlessStart.underline {c : Char} {t : Str} (h : HarmlessStart c) : ¬ ∃ k, UnderlineAt k (c :: t) := by
  rintro ⟨k, u, e, r, hu, _, he⟩
  have h1 : c ≠ '=' ∧ c ≠ '-' := by have := h.2.1; simp at this; simp [this]
  have h2 := h.ne
  cases hu with
  | @one j n b _ hn _ =>
    obtain ⟨n, rfl⟩ : ∃ m, n = m + 1 := ⟨n - 1, by omega⟩
    cases j <;> simp [sp, List.replicate_succ] at he <;> grind
  | @two j n b _ hn _ =>
    obtain ⟨n, rfl⟩ : ∃ m, n = m + 1 := ⟨n - 1, by omega⟩
    cases j <;> simp [sp, List.replicate_succ] at he <;> grind

theorem HarmlessStart.special (ha : cfg.AllBlocks) {c : Char} {t : Str} (h : HarmlessStart c) : ¬ SpecialAt cfg (c :: t) :=
  C80_plain (k := 0) ha (by omega) h.class ⟨h.ne.1, h.ne.2.1⟩

theorem HarmlessStart.blank {c : Char} {t : Str} (h : HarmlessStart c) : ¬ BlankLineAt (c :: t) :=
  not_blank_of_first (k := 0) h.ne

theorem HarmlessStart.interrupts (ha : cfg.AllBlocks) {c : Char} {t : Str} (h : HarmlessStart c) :
    ¬ Interrupts cfg (c :: t) := by
  have h1 := h.special ha (t := t)
  have h2 := h.underline (t := t)
  have h3 := h.blank (t := t)
  unfold SpecialAt at h1
  unfold Interrupts
  grind

end

namespace Md
open Spec

section
variable {x : PExt} {pc : PConfig}

theorem laid_head (digit : Char → Bool) {t s : Str} {c : Char} (hc : isWs c = false)
    (h : Laid 0 (textToks digit false (c :: t)) s) : ∃ s', s = c :: s' ∧ Laid 0 (textToks digit false t) s' := by
  simp only [textToks, hc, Bool.false_eq_true, if_false] at h
  cases h with
  | char _ h => exact ⟨_, rfl, h⟩

/-- `d` and `v` are what is left of `t` from the beginning of a word on; it is not the first word unless `b`. -/
def WordAt (b : Bool) (t : Str) (d : Char) (v : Str) : Prop :=
  isWs d = false ∧ ∃ u, t = u ++ d :: v ∧ (u = [] ∧ b = true ∨ ∃ c, isWs c = true ∧ u.getLast? = some c)

theorem WordAt.cons {b b' : Bool} {t v : Str} {c d : Char} (hb : b' = true → isWs c = true) (h : WordAt b' t d v) :
    WordAt b (c :: t) d v := by
  obtain ⟨h1, u, h2, h3⟩ := h
  refine ⟨h1, c :: u, by simp [h2], .inr ?_⟩
  rcases h3 with ⟨rfl, h3⟩ | ⟨e, h3, h4⟩
  · exact ⟨c, hb h3, rfl⟩
  · refine ⟨e, h3, ?_⟩
    cases u with
    | nil => simp at h4
    | cons => simpa [List.getLast?_cons] using h4

theorem laid_start (digit : Char → Bool) (t : Str) : ∀ s, Laid 0 (textToks digit true t) s →
    s = [] ∨ ∃ d v s', s = d :: s' ∧ WordAt true t d v := by
  induction t with
  | nil => intro s h; cases h; exact .inl rfl
  | cons c t ih =>
    intro s h
    simp only [textToks] at h
    by_cases hc : isWs c = true
    · simp only [hc, if_true] at h
      rcases ih s h with h | ⟨d, v, s', h1, h2⟩
      · exact .inl h
      · exact .inr ⟨d, v, s', h1, h2.cons fun _ => hc⟩
    · simp only [hc, Bool.false_eq_true, if_false] at h
      cases h with
      | char _ h => exact .inr ⟨c, t, _, rfl, by simpa using hc, [], rfl, .inl ⟨rfl, rfl⟩⟩

/-- A line of a printed text begins with a word of the text. -/
theorem laid_word (digit : Char → Bool) (t : Str) : ∀ (b : Bool) (s a r : Str),
    Laid 0 (textToks digit b t) s → s = a ++ '\n' :: r → r = [] ∨ ∃ d v r', r = d :: r' ∧ WordAt b t d v := by
  induction t with
  | nil => intro b s a r h e; cases h; cases a <;> simp at e
  | cons c t ih =>
    intro b s a r h e
    have lift : ∀ {b'}, (b' = true → isWs c = true) → (r = [] ∨ ∃ d v r', r = d :: r' ∧ WordAt b' t d v) →
        r = [] ∨ ∃ d v r', r = d :: r' ∧ WordAt b (c :: t) d v := by
      rintro b' hb' (h | ⟨d, v, r', h1, h2⟩)
      · exact .inl h
      · exact .inr ⟨d, v, r', h1, h2.cons hb'⟩
    have step : ∀ {d : Char} {s' : Str} {b' : Bool}, (b' = true → isWs c = true) → d ≠ '\n' → s = d :: s' →
        Laid 0 (textToks digit b' t) s' → r = [] ∨ ∃ d v r', r = d :: r' ∧ WordAt b (c :: t) d v := by
      intro d s' b' hb' hd es hl
      subst es
      cases a with
      | nil => simp only [List.nil_append, List.cons.injEq] at e; exact absurd e.1 hd
      | cons a0 a => simp only [List.cons_append, List.cons.injEq] at e; exact lift hb' (ih b' s' a r hl e.2)
    simp only [textToks] at h
    by_cases hc : isWs c = true
    · simp only [hc, if_true] at h
      cases b with
      | true => simp only [if_true] at h; exact lift (fun _ => hc) (ih true s a r h e)
      | false =>
        simp only [Bool.false_eq_true, if_false] at h
        split at h
        · cases h with
          | char _ h => exact step (fun _ => hc) (by decide) rfl h
        · generalize ht : textToks digit true t = t' at h
          cases h with
          | space h => rw [← ht] at h; exact step (fun _ => hc) (by decide) rfl h
          | «break» h =>
            rename_i s'
            rw [← ht] at h
            simp only [newline, List.replicate_zero, List.cons_append, List.nil_append] at e
            cases a with
            | nil =>
              simp only [List.nil_append, List.cons.injEq, true_and] at e
              subst e
              rcases laid_start digit t _ h with h | ⟨d, v, s', h1, h2⟩
              · exact .inl h
              · exact .inr ⟨d, v, s', h1, h2.cons fun _ => hc⟩
            | cons a0 a => simp only [List.cons_append, List.cons.injEq] at e; exact lift (fun _ => hc) (ih true s' a r h e.2)
          | last h =>
            rename_i j
            have hj : j = 0 := by omega
            subst hj
            simp only [newline, List.replicate_zero] at e
            cases a with
            | nil => simp only [List.nil_append, List.cons.injEq, true_and] at e; exact .inl e.symm
            | cons a0 a => simp at e
    · simp only [hc, Bool.false_eq_true, if_false] at h
      cases h with
      | char _ h =>
        refine step (b' := false) (by simp) ?_ rfl h
        rintro rfl
        simp [isWs_nl] at hc

theorem text_laid {y : Ext} {cfg : Config} {t s : Str} (h : renderMarkdown y cfg ⟨[.paragraph [.text t]]⟩ = some s) :
    ∃ digit, Laid 0 (textToks digit false t) s := by
  have := C60_layout y cfg _ _ h
  obtain ⟨sep, p, rest, hsep, hp, hrest, rfl⟩ := this
  cases (hsep : sep = [])
  cases (hrest : rest = [])
  simp only [Printed, inlinesToks, inlineToks, List.append_nil] at hp
  exact ⟨_, by simpa using hp⟩

/-- **C45**, exactly: a text that begins with a visible character, printed at any width, is read as one
paragraph if and only if its beginning does not begin another block and no line after the first begins one
that interrupts a paragraph (nor is the first of several lines an underline). -/
theorem C45_exact (ha : pc.AllBlocks) {y : Ext} {cfg : Config} {c : Char} {t s : Str} (hc : isWs c = false)
    (h : renderMarkdown y cfg ⟨[.paragraph [.text (c :: t)]]⟩ = some s) :
    (∃ is, parseMarkdown x pc s = some ⟨[.paragraph is]⟩) ↔
      ¬ SpecialAt pc s ∧ ∀ a r, s = a ++ '\n' :: r → r ≠ [] → ¬ Interrupts pc r ∧ ¬ ∃ k, UnderlineAt k s := by
  obtain ⟨digit, hl⟩ := text_laid h
  have hv : ∀ {d : Char} {u : Str}, isWs d = false → ¬ BlankLineAt (d :: u) := by
    intro d u hd
    refine not_blank_of_first (k := 0) ⟨?_, ?_, ?_, ?_⟩ <;> rintro rfl <;> revert hd <;> decide
  obtain ⟨s', rfl, _⟩ := laid_head digit hc hl
  refine C81_one ha (hv hc) ?_
  intro a r e
  rcases laid_word digit _ _ _ _ _ hl e with h | ⟨d, v, r', rfl, h2⟩
  · exact .inl h
  · exact .inr (hv h2.1)

/-- **C45**, where it holds for every width: if no word of the text begins with a character that blocks begin
with (a backtick, `~`, `#`, `>`, `[`, `<`, `|`, `-`, `*`, `_`, `+`, `=` or a digit), the printed text is read as
one paragraph. -/
theorem C45_harmless (ha : pc.AllBlocks) {y : Ext} {cfg : Config} {c : Char} {t s : Str} (hc : HarmlessStart c)
    (hw : ∀ u d e v, c :: t = u ++ d :: e :: v → isWs d = true → isWs e = false → HarmlessStart e)
    (h : renderMarkdown y cfg ⟨[.paragraph [.text (c :: t)]]⟩ = some s) :
    ∃ is, parseMarkdown x pc s = some ⟨[.paragraph is]⟩ := by
  refine (C45_exact ha hc.1 h).2 ?_
  obtain ⟨digit, hl⟩ := text_laid h
  obtain ⟨s', rfl, _⟩ := laid_head digit hc.1 hl
  refine ⟨hc.special ha, ?_⟩
  intro a r e hr
  rcases laid_word digit _ _ _ _ _ hl e with h | ⟨d, v, r', rfl, h1, u, h2, h3⟩
  · exact absurd h hr
  · refine ⟨?_, hc.underline⟩
    rcases h3 with ⟨_, h3⟩ | ⟨d', h3, h4⟩
    · simp at h3
    · obtain ⟨u', rfl⟩ := List.getLast?_eq_some_iff.1 h4
      exact (hw u' d' d v (by simpa using h2) h3 h1).interrupts ha

/-- The hypotheses hold of a text with punctuation inside words. -/
example (y : Ext) (cfg : Config) (s : Str) (ent : Str → Option Str)
    (h : renderMarkdown y cfg ⟨[.paragraph [.text cs!"if (a<b) then c=-1, x2"]]⟩ = some s) :
    ∃ is, parseMarkdown x (PConfig.default ent) s = some ⟨[.paragraph is]⟩ := by
  refine C45_harmless (allBlocks_default ent) (by refine ⟨?_, ?_, ?_⟩ <;> decide) ?_ h
  have key : ∀ (t u v : Str) (d e : Char), t = u ++ d :: e :: v → (t.zip t.tail).all (fun p =>
      !(isWs p.1 && !isWs p.2) || (!(cs!"`~#>[<|-*_+=").contains p.2 && !isDigit p.2)) = true →
      isWs d = true → isWs e = false → HarmlessStart e := by
    intro t u v d e ht h hd he
    rw [List.all_eq_true] at h
    have := h (d, e) (by
      subst ht
      clear h
      induction u with
      | nil => simp
      | cons f u ih =>
        cases u with
        | nil => simp
        | cons g u => exact List.mem_cons_of_mem _ ih)
    simp [hd, he] at this
    exact ⟨he, by simpa using this.1, this.2⟩
  intro u d e v ht hd he
  exact key _ u v d e ht (by decide) hd he

end
end Md
end Verif
