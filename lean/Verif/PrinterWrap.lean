import Verif.PrinterLayout
import Verif.ParserReads
/-!
# Markdown printer: C45, wrapping and block syntax
-/
set_option linter.unusedVariables false
set_option linter.unusedSimpArgs false
namespace Verif
namespace Md
open Spec

/-- The word at the beginning of a text. -/
def firstWord (s : Str) : Str := s.takeWhile fun c => !isWs c

theorem laid_firstWord (digit : Char → Bool) (i : Nat) (t : Str) : ∀ (b : Bool) (s : Str),
    Laid i (textToks digit b t) s →
    firstWord s = if b then nextWord t else firstWord t := by
  induction t with
  | nil => intro b s h; cases h; cases b <;> rfl
  | cons c t ih =>
    intro b s h
    simp only [textToks] at h
    by_cases hc : isWs c = true
    · simp only [hc, if_true] at h
      cases b with
      | true =>
        simp only [if_true] at h
        simpa [nextWord_cons_ws hc] using ih true s h
      | false =>
        simp only [Bool.false_eq_true, if_false] at h ⊢
        have e : firstWord (c :: t) = [] := by simp [firstWord, hc]
        rw [e]
        split at h
        · cases h with
          | char _ _ => simp [firstWord, isWs_sp]
        · generalize textToks digit true t = t' at h
          cases h with
          | space _ => simp [firstWord, isWs_sp]
          | «break» _ => simp [firstWord, newline, isWs_nl]
          | last _ => simp [firstWord, newline, isWs_nl]
    · simp only [hc, Bool.false_eq_true, if_false] at h
      cases h with
      | char _ h =>
        have hc' : isWs c = false := by simpa using hc
        have := ih false _ h
        cases b <;> simp_all [firstWord, nextWord]

theorem laid_lines (digit : Char → Bool) (t : Str) : ∀ (b : Bool) (s a r : Str),
    Laid 0 (textToks digit b t) s → s = a ++ '\n' :: r →
    startsBlock digit (firstWord r) = false ∧ (r = [] ∨ ∃ c r', r = c :: r' ∧ isWs c = false) := by
  induction t with
  | nil => intro b s a r h e; cases h; cases a <;> simp at e
  | cons c t ih =>
    intro b s a r h e
    have head : ∀ s', Laid 0 (textToks digit true t) s' →
        s' = [] ∨ ∃ c r', s' = c :: r' ∧ isWs c = false := by
      clear ih h
      induction t with
      | nil => intro s' h; cases h; exact .inl rfl
      | cons d t ih' =>
        intro s' h
        simp only [textToks] at h
        by_cases hd : isWs d = true
        · simp only [hd, if_true] at h; exact ih' s' h
        · simp only [hd, Bool.false_eq_true, if_false] at h
          cases h with
          | char _ h => exact .inr ⟨d, _, rfl, by simpa using hd⟩
    have step : ∀ {d : Char} {s' : Str} {b' : Bool}, d ≠ '\n' → s = d :: s' →
        Laid 0 (textToks digit b' t) s' → startsBlock digit (firstWord r) = false ∧
          (r = [] ∨ ∃ c r', r = c :: r' ∧ isWs c = false) := by
      intro d s' b' hd es hl
      subst es
      cases a with
      | nil => simp only [List.nil_append, List.cons.injEq] at e; exact absurd e.1 hd
      | cons a0 a => simp only [List.cons_append, List.cons.injEq] at e; exact ih b' s' a r hl e.2
    simp only [textToks] at h
    by_cases hc : isWs c = true
    · simp only [hc, if_true] at h
      cases b with
      | true => simp only [if_true] at h; exact ih true s a r h e
      | false =>
        simp only [Bool.false_eq_true, if_false] at h
        split at h
        · cases h with
          | char _ h => exact step (by decide) rfl h
        · rename_i hb
          generalize ht : textToks digit true t = t' at h
          cases h with
          | space h => rw [← ht] at h; exact step (by decide) rfl h
          | «break» h =>
            rename_i s'
            rw [← ht] at h
            simp only [newline, List.replicate_zero, List.cons_append, List.nil_append] at e
            cases a with
            | nil =>
              simp only [List.nil_append, List.cons.injEq, true_and] at e
              subst e
              have := laid_firstWord digit 0 t true _ h
              simp only [if_true] at this
              rw [this]
              exact ⟨by simpa using hb, head _ h⟩
            | cons a0 a => simp only [List.cons_append, List.cons.injEq] at e; exact ih true s' a r h e.2
          | last h =>
            rename_i j
            have hj : j = 0 := by omega
            subst hj
            simp only [newline, List.replicate_zero] at e
            cases a with
            | nil =>
              simp only [List.nil_append, List.cons.injEq, true_and] at e
              subst e
              exact ⟨rfl, .inl rfl⟩
            | cons a0 a => simp at e
    · simp only [hc, Bool.false_eq_true, if_false] at h
      cases h with
      | char _ h =>
        refine step ?_ rfl h
        rintro rfl
        simp [isWs_nl] at hc

/-- **C45** (partial: the words that `startsBlock` lists are not all that the parser reads as block
syntax, see `C45_refuted`).  When a text is printed, no line after the first begins with blanks or
with a bullet, `>`, `|`, a run of `#`, a number and a dot, a thematic break or a code fence. -/
theorem C45_lines_partial (x : Ext) (cfg : Config) (t s a r : Str)
    (h : renderMarkdown x cfg ⟨[.paragraph [.text t]]⟩ = some s) (hs : s = a ++ '\n' :: r) :
    startsBlock x.digit (firstWord r) = false ∧ (r = [] ∨ ∃ c r', r = c :: r' ∧ isWs c = false) := by
  have := C60_layout x cfg _ _ h
  obtain ⟨sep, p, rest, hsep, hp, hrest, rfl⟩ := this
  cases (hsep : sep = [])
  cases (hrest : rest = [])
  simp only [List.nil_append, List.append_nil] at hs
  simp only [Printed, inlinesToks, inlineToks, List.append_nil] at hp
  exact laid_lines _ t false p a r hp hs

example : ∃ s a r, renderMarkdown Ext.ascii ⟨6, 1, true⟩ ⟨[.paragraph [.text cs!"one two - 3 + 4"]]⟩ =
    some s ∧ s = a ++ '\n' :: r := by
  refine ⟨cs!"one\ntwo -\n3 + 4", cs!"one", cs!"two -\n3 + 4", ?_, rfl⟩
  decide +kernel

/-- A text that, printed at a small width, becomes something else when it is parsed again. -/
def WrapChanges (w : Nat) (t out : Str) (bs : List Block) : Prop :=
  parseMarkdown PExt.ascii (PConfig.default fun _ => none) t = some ⟨[.paragraph [.text t]]⟩ ∧
  renderMarkdown Ext.ascii { Config.default with width := w } ⟨[.paragraph [.text t]]⟩ = some out ∧
  parseMarkdown PExt.ascii (PConfig.default fun _ => none) out = some ⟨bs⟩

/-- C45 is false: wrapping makes headings, lists, quotes and link definitions out of text. -/
theorem C45_refuted :
    WrapChanges 4 cs!"aaaa =" cs!"aaaa\n=" [.heading (.setext .level1) [.text cs!"aaaa"]] ∧
    WrapChanges 4 cs!"aaaa --" cs!"aaaa\n--" [.heading (.setext .level2) [.text cs!"aaaa"]] ∧
    WrapChanges 4 cs!"aaaa 1) b" cs!"aaaa\n1) b"
      [.paragraph [.text cs!"aaaa"], .list (.ordered 1) [.mk none [.paragraph [.text cs!"b"]]]] ∧
    WrapChanges 4 cs!"aaaa >b" cs!"aaaa\n>b"
      [.paragraph [.text cs!"aaaa"], .blockQuote [.paragraph [.text cs!"b"]]] := by
  unfold WrapChanges
  decide +kernel

end Md
end Verif
