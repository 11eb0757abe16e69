import Verif.Printer
import Verif.PrinterSpec
import Verif.PrettySkeleton
/-!
# Markdown printer: paragraphs (C44) and tables (C46)
-/
set_option linter.unusedVariables false
namespace Verif
namespace Md
open Spec

/-! ## Splitting a text at its spaces -/

/-- The skeleton of words and spaces: a space of the text is a break opportunity. -/
def wordsSource : List (Option Str) → Str
  | [] => []
  | some w :: l => w ++ wordsSource l
  | none :: l => ' ' :: wordsSource l

theorem wordsSource_append (a b : List (Option Str)) :
    wordsSource (a ++ b) = wordsSource a ++ wordsSource b := by
  induction a with
  | nil => rfl
  | cons o a ih => cases o <;> simp [wordsSource, ih]

theorem splitGo_source (s : Str) : ∀ (word : Str) (res : List (Option Str)),
    wordsSource (Latex.splitGo s word res) =
      wordsSource res ++ word ++ collapse (word.isEmpty && decide (res.getLast? = some none)) s := by
  induction s with
  | nil =>
    intro word res
    simp only [Latex.splitGo, collapse, List.append_nil]
    split
    · rename_i h; simp [List.isEmpty_iff.1 h]
    · simp [wordsSource_append, wordsSource]
  | cons c s ih =>
    intro word res
    simp only [Latex.splitGo]
    by_cases hc : isWs c = true
    · simp only [hc, if_true, collapse]
      by_cases hw : word = []
      · subst hw
        simp only [List.isEmpty_nil, if_true, Bool.true_and]
        cases hr : res.getLast? with
        | none =>
          rw [ih]
          simp [wordsSource_append, wordsSource]
        | some o =>
          cases o with
          | none => simp only; rw [ih]; simp [hr]
          | some w => simp only; rw [ih]; simp [wordsSource_append, wordsSource]
      · have : word.isEmpty = false := by simpa using hw
        simp only [this, Bool.false_eq_true, if_false, List.getLast?_concat, Bool.false_and]
        rw [ih]
        simp [wordsSource_append, wordsSource]
    · simp only [hc, Bool.false_eq_true, if_false, collapse]
      rw [ih]
      have : (word ++ [c]).isEmpty = false := by cases word <;> rfl
      simp [this]

theorem splitWithSpaces_source (s : Str) : wordsSource (splitWithSpaces s) = collapse false s := by
  simp [splitWithSpaces, splitGo_source, wordsSource]

theorem isWs_nl : isWs '\n' = true := by decide
theorem isWs_sp : isWs ' ' = true := by decide

theorem collapse_nlToSpace (b : Bool) (s : Str) : collapse b (Latex.nlToSpace s) = collapse b s := by
  induction s generalizing b with
  | nil => rfl
  | cons c s ih =>
    have : Latex.nlToSpace (c :: s) = (if c = '\n' then ' ' else c) :: Latex.nlToSpace s := rfl
    rw [this]
    by_cases hc : c = '\n'
    · subst hc; simp [collapse, ih, isWs_nl, isWs_sp]
    · simp [collapse, ih, hc]

/-! ## Documents of inlines -/

/-- A simple document whose layouts are `a` with some spaces turned into newlines. -/
structure Lays (d : Doc) (a : Str) : Prop where
  simple : d.Simple
  wrapped : ∀ s, Fills d.skel s → Wrapped a s

theorem Spec.Wrapped.append {a b c d : Str} (h : Wrapped a b) (h' : Wrapped c d) :
    Wrapped (a ++ c) (b ++ d) := by
  induction h with
  | nil => exact h'
  | keep c _ ih => exact .keep c ih
  | wrap _ ih => exact .wrap ih

theorem Spec.Wrapped.refl (a : Str) : Wrapped a a := by
  induction a with
  | nil => exact .nil
  | cons c a ih => exact .keep c ih

theorem Lays.app {d e : Doc} {a b : Str} (h : Lays d a) (h' : Lays e b) :
    Lays (d.app e) (a ++ b) := by
  refine ⟨Doc.simple_app h.simple h'.simple, fun s hs => ?_⟩
  rw [Doc.skel_app] at hs
  obtain ⟨t, u, rfl, h1, h2⟩ := hs.split
  exact (h.wrapped t h1).append (h'.wrapped u h2)

theorem Lays.text (s : Str) : Lays (.text s) s :=
  ⟨trivial, fun t ht => by rw [Fills.some_iff.1 ht]; exact .refl s⟩

theorem Lays.nil : Lays .nil [] := ⟨trivial, fun t ht => by cases ht; exact .nil⟩

theorem Lays.softline : Lays Doc.softline [' '] := by
  refine ⟨rfl, fun t ht => ?_⟩
  simp only [Doc.softline, Doc.skel] at ht
  cases ht with
  | space h => cases h; exact .keep _ .nil
  | newline h => cases h; exact .wrap .nil

/-- The documents of a list lay out the concatenation of texts. -/
inductive LaysL : List Doc → Str → Prop
  | nil : LaysL [] []
  | cons {d : Doc} {l : List Doc} {a b : Str} : Lays d a → LaysL l b → LaysL (d :: l) (a ++ b)

theorem LaysL.concat {l : List Doc} {as : Str} (h : LaysL l as) : Lays (Doc.concat l) as := by
  have : ∀ (d : Doc) (a : Str), Lays d a → Lays (l.foldl Doc.app d) (a ++ as) := by
    induction h with
    | nil => intro d a h; simpa using h
    | cons h1 _ ih =>
      intro d a h
      simpa using ih _ _ (h.app h1)
  simpa [Doc.concat] using this _ _ Lays.nil

theorem safeTextDocs_lays (x : Ext) (l : List (Option Str)) :
    LaysL (safeTextDocs x l) (wordsSource l) := by
  induction l with
  | nil => exact .nil
  | cons o l ih =>
    cases o with
    | some w => exact .cons (.text w) ih
    | none =>
      refine .cons (a := [' ']) ?_ ih
      split
      · split
        · exact .softline
        · exact .text _
      · exact .softline

theorem plainTextDocs_lays (l : List (Option Str)) :
    LaysL (l.map fun
      | some w => Doc.text w
      | none => Doc.text [' ']) (wordsSource l) := by
  induction l with
  | nil => exact .nil
  | cons o l ih =>
    cases o with
    | some w => exact .cons (.text w) ih
    | none => exact .cons (a := [' ']) (.text _) ih

theorem textDoc_lays (x : Ext) (nl : Bool) (t : Str) : Lays (textDoc x nl t) (collapse false t) := by
  rw [← collapse_nlToSpace, ← splitWithSpaces_source]
  simp only [textDoc]
  split
  · exact (safeTextDocs_lays x _).concat
  · exact (plainTextDocs_lays _).concat

theorem titlePart_title (t : Option Str) : titlePart t = title t := by cases t <;> rfl

theorem inline_lays (x : Ext) (nl : Bool) :
    (∀ i, Lays (inlineDoc x nl i) (inlineSource (collapse false) i)) ∧
    (∀ l, LaysL (inlineDocs x nl l) (lineSource l)) := by
  apply Inline.ind
  case text => intro s; exact textDoc_lays x nl s
  case lineBreak => exact .text _
  case code => intro s; exact ((Lays.text _).app (.text _)).app (.text _)
  case html => intro s; exact .text _
  case link =>
    intro d t c ih
    refine ((((((Lays.text _).app (LaysL.concat ih)).app (.text _)).app (.text _)).app ?_).app
      (.text _))
    cases t with
    | none => exact .nil
    | some t => exact ((Lays.text _).app (.text _)).app (.text _)
  case linkReference =>
    intro l t hl ht
    simp only [inlineDoc, inlineSource]
    split
    · exact ((Lays.text _).app (LaysL.concat hl)).app (.text _)
    · exact ((((Lays.text _).app (LaysL.concat ht)).app (.text _)).app
        (LaysL.concat hl)).app (.text _)
  case image =>
    intro d t a
    have ht : Lays (.text (titlePart t)) (title t) := titlePart_title t ▸ Lays.text (titlePart t)
    exact (((((Lays.text _).app (.text _)).app (.text _)).app (.text _)).app ht).app (.text _)
  case emphasis => intro c ih; exact ((Lays.text _).app (LaysL.concat ih)).app (.text _)
  case strong => intro c ih; exact ((Lays.text _).app (LaysL.concat ih)).app (.text _)
  case strikethrough => intro c ih; exact ((Lays.text _).app (LaysL.concat ih)).app (.text _)
  case autolink => intro s; exact .text _
  case footnoteReference => intro s; exact .text _
  case empty => exact .nil
  case nil => exact .nil
  case cons => intro i l hi hl; exact .cons hi hl

theorem inlines_lays (x : Ext) (nl : Bool) (l : List Inline) :
    Lays (inlinesDoc x nl l) (lineSource l) := ((inline_lays x nl).2 l).concat

/-! ## C44: wrapping -/

theorem _root_.Verif.Doc.Simple.safe : ∀ {d : Doc}, d.Simple → d.Safe := by
  intro d
  induction d with
  | append l r hl hr => intro h; exact ⟨hl h.1, hr h.2⟩
  | group d _ => intro h; cases (h : d = Doc.line); exact ⟨trivial, trivial⟩
  | nil => exact fun _ => trivial
  | text => exact fun _ => trivial
  | hardline => exact fun _ => trivial
  | flatAlt => intro h; exact h.elim
  | nest => intro h; exact h.elim
  | column => intro h; exact h.elim
  | panic => intro h; exact h.elim

theorem Lays.renderE {d : Doc} {a : Str} (h : Lays d a) (dw : Str → Nat) (w : Nat) :
    ∃ s, d.renderE dw w = some s ∧ Wrapped a s :=
  ⟨_, Doc.renderE_safe h.simple.safe dw w, h.wrapped _ (Doc.render_simple h.simple dw w)⟩

theorem app_nil_left (d : Doc) : Doc.nil.app d = d := by cases d <;> rfl

/-- **C44.** A paragraph printed at any width is its one-line source with some spaces replaced by
line breaks. -/
theorem C44_paragraph (x : Ext) (cfg : Config) (c : List Inline) :
    ∃ s, renderMarkdown x cfg ⟨[.paragraph c]⟩ = some s ∧ Wrapped (lineSource c) s := by
  simp only [renderMarkdown, blocksDoc, blockDoc, if_true, app_nil_left]
  exact (inlines_lays x true c).renderE x.dw cfg.width

/-- The two texts differ only in the extent of their whitespace runs. -/
inductive Spaced : Str → Str → Prop
  | nil : Spaced [] []
  | keep (c : Char) {a b : Str} : Spaced a b → Spaced (c :: a) (c :: b)
  | space {g h a b : Str} : g ≠ [] → h ≠ [] → (∀ c ∈ g, isWs c = true) → (∀ c ∈ h, isWs c = true) →
      Spaced a b → Spaced (g ++ a) (h ++ b)

theorem Spaced.refl (a : Str) : Spaced a a := by
  induction a with
  | nil => exact .nil
  | cons c a ih => exact .keep c ih

theorem Spaced.append {a b c d : Str} (h : Spaced a b) (h' : Spaced c d) :
    Spaced (a ++ c) (b ++ d) := by
  induction h with
  | nil => exact h'
  | keep c _ ih => exact .keep c ih
  | space h1 h2 h3 h4 _ ih =>
    rw [List.append_assoc, List.append_assoc]
    exact .space h1 h2 h3 h4 ih

theorem splitWsAux_ws_nil (g a : Str) (hg : ∀ c ∈ g, isWs c = true) :
    splitWsAux (g ++ a) [] = splitWsAux a [] := by
  induction g with
  | nil => rfl
  | cons c g ih =>
    simp only [List.cons_append, splitWsAux, hg c (by simp), if_true, List.isEmpty_nil]
    exact ih fun c hc => hg c (by simp [hc])

theorem splitWsAux_ws (g a acc : Str) (hn : g ≠ []) (hg : ∀ c ∈ g, isWs c = true) :
    splitWsAux (g ++ a) acc =
      if acc.isEmpty then splitWsAux a [] else acc :: splitWsAux a [] := by
  cases g with
  | nil => exact absurd rfl hn
  | cons c g =>
    simp only [List.cons_append, splitWsAux, hg c (by simp), if_true]
    rw [splitWsAux_ws_nil g a fun c hc => hg c (by simp [hc])]

theorem Spaced.splitWsAux {a b : Str} (h : Spaced a b) :
    ∀ acc, splitWsAux a acc = splitWsAux b acc := by
  induction h with
  | nil => intro; rfl
  | keep c _ ih => intro acc; simp only [Verif.splitWsAux, ih]
  | space h1 h2 h3 h4 _ ih =>
    intro acc
    rw [splitWsAux_ws _ _ _ h1 h3, splitWsAux_ws _ _ _ h2 h4, ih]

theorem Spaced.words {a b : Str} (h : Spaced a b) : splitWs a = splitWs b := h.splitWsAux []

theorem Spaced.wrapped {a b c : Str} (h : Spaced a b) (h' : Wrapped b c) : splitWs a = splitWs c := by
  refine h.words.trans ?_
  refine Spaced.words ?_
  induction h' generalizing a with
  | nil => exact .nil
  | keep c _ ih => exact .keep c (ih (.refl _))
  | wrap _ ih =>
    exact .space (g := [' ']) (h := ['\n']) (by simp) (by simp) (by simp [isWs_sp])
      (by simp [isWs_nl]) (ih (.refl _))

theorem collapse_spaced (s : Str) : Spaced s (collapse false s) ∧
    ∀ g, g ≠ [] → (∀ c ∈ g, isWs c = true) → Spaced (g ++ s) (' ' :: collapse true s) := by
  induction s with
  | nil =>
    refine ⟨.nil, fun g hn hg => ?_⟩
    exact .space (h := [' ']) hn (by simp) hg (by simp [isWs_sp]) .nil
  | cons c s ih =>
    by_cases hc : isWs c = true
    · simp only [collapse, hc, if_true, Bool.false_eq_true, if_false]
      refine ⟨ih.2 [c] (by simp) (by simpa using hc), fun g hn hg => ?_⟩
      have := ih.2 (g ++ [c]) (by simp) (by
        intro d hd
        rcases List.mem_append.1 hd with h | h
        · exact hg d h
        · rw [List.mem_singleton.1 h]; exact hc)
      simpa using this
    · simp only [collapse, hc, Bool.false_eq_true, if_false]
      refine ⟨.keep c ih.1, fun g hn hg => ?_⟩
      exact .space (h := [' ']) hn (by simp) hg (by simp [isWs_sp]) (.keep c ih.1)

theorem source_spaced : (∀ i, Spaced (inlineSource id i) (inlineSource (collapse false) i)) ∧
    ∀ l, Spaced (rawSource l) (lineSource l) := by
  apply Inline.ind
  case text => intro s; exact (collapse_spaced s).1
  case link =>
    intro d t c ih
    exact ((((Spaced.refl _).append ih).append (.refl _)).append (.refl _)).append (.refl _)
      |>.append (.refl _)
  case linkReference =>
    intro l t hl ht
    simp only [inlineSource]
    split
    · exact ((Spaced.refl _).append hl).append (.refl _)
    · exact ((((Spaced.refl _).append ht).append (.refl _)).append hl).append (.refl _)
  case emphasis => intro c ih; exact ((Spaced.refl _).append ih).append (.refl _)
  case strong => intro c ih; exact ((Spaced.refl _).append ih).append (.refl _)
  case strikethrough => intro c ih; exact ((Spaced.refl _).append ih).append (.refl _)
  case cons => intro i l hi hl; exact hi.append hl
  all_goals intros; exact .refl _

/-- **C44.** A paragraph printed at any width has the words of its source (text nodes as they
are), in order. -/
theorem C44_paragraph_words (x : Ext) (cfg : Config) (c : List Inline) (s : Str)
    (h : renderMarkdown x cfg ⟨[.paragraph c]⟩ = some s) : splitWs s = splitWs (rawSource c) := by
  obtain ⟨t, ht, hw⟩ := C44_paragraph x cfg c
  rw [ht] at h
  cases h
  exact ((source_spaced.2 c).wrapped hw).symm

/-- **C44.** The words do not depend on the width. -/
theorem C44_width_independent (x : Ext) (cfg cfg' : Config) (c : List Inline) (s t : Str)
    (h : renderMarkdown x cfg ⟨[.paragraph c]⟩ = some s)
    (h' : renderMarkdown x cfg' ⟨[.paragraph c]⟩ = some t) : splitWs s = splitWs t := by
  rw [C44_paragraph_words x cfg c s h, C44_paragraph_words x cfg' c t h']

example : renderMarkdown Ext.ascii ⟨12, 1, true⟩
    ⟨[.paragraph [.text cs!"one two ", .emphasis [.text cs!"three\nfour"], .text cs!" - five"]]⟩ =
      some cs!"one two\n*three\nfour* - five" := by decide +kernel

end Md
end Verif
