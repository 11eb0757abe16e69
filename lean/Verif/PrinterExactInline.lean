import Verif.PrinterExact
/-!
# Markdown printer: the pieces of inlines (C86)
-/
set_option autoImplicit false
set_option linter.unusedVariables false
set_option linter.unusedSimpArgs false
namespace Verif
namespace Md
namespace Exact
open Spec

theorem atIndent_append (i : Nat) (a b : List Piece) : atIndent i (a ++ b) = atIndent i a ++ atIndent i b := by
  simp [atIndent]

section
variable (dw : Str → Nat) (w : Nat)

/-- From every column at every indentation the document is printed as the pieces. -/
def U (d : Doc) (L : List Piece) : Prop := (∀ i p, Sem dw w d i p (atIndent i L)) ∧ (d = .nil ↔ L = [])

variable {dw w}

theorem U.nil : U dw w .nil [] := ⟨fun i p => .nil, by simp⟩

theorem U.text (s : Str) : U dw w (.text s) [.word s] := ⟨fun i p => .text s, by simp⟩

theorem U.hardline : U dw w .hardline [.newline] := ⟨fun i p => .hardline, by simp⟩

theorem U.softline (h1 : dw [' '] = 1) : U dw w Doc.softline [.gap] := ⟨fun i p => .softline h1, by simp [Doc.softline]⟩

theorem U.starts {d : Doc} {L : List Piece} (h : U dw w d L) (hd : d ≠ .nil) (i : Nat) : StartsAt i (atIndent i L) := by
  cases L with
  | nil => exact absurd (h.2.2 rfl) hd
  | cons a L => exact ⟨a, atIndent i L, rfl⟩

theorem app_eq_nil {d e : Doc} : d.app e = .nil ↔ d = .nil ∧ e = .nil := by
  cases d <;> cases e <;> simp [Doc.app]

theorem U.app {d e : Doc} {a b : List Piece} (h : U dw w d a) (h' : U dw w e b) : U dw w (d.app e) (a ++ b) := by
  refine ⟨fun i p => ?_, ?_⟩
  · rw [atIndent_append]
    exact (h.1 i p).app (fun e => by rw [h.2.1 e]; rfl) (fun R q _ => h'.1 i q) (fun e => by rw [h'.2.1 e]; rfl)
      (fun hd _ => h'.starts hd i)
  · rw [app_eq_nil, h.2, h'.2]; simp

/-- `U` for a list of documents. -/
inductive UL (dw : Str → Nat) (w : Nat) : List Doc → List Piece → Prop
  | nil : UL dw w [] []
  | cons {d : Doc} {l : List Doc} {a b : List Piece} : U dw w d a → UL dw w l b → UL dw w (d :: l) (a ++ b)

theorem UL.concat {l : List Doc} {as : List Piece} (h : UL dw w l as) : U dw w (Doc.concat l) as := by
  have : ∀ (d : Doc) (a : List Piece), U dw w d a → U dw w (l.foldl Doc.app d) (a ++ as) := by
    induction h with
    | nil => intro d a h; simpa using h
    | cons h1 _ ih =>
      intro d a h
      simpa using ih _ _ (h.app h1)
  simpa [Doc.concat] using this _ _ U.nil

end

/-! ## Text -/

theorem wordsOf_front (s : Str) : ∀ (b : Bool) (word : Str), splitFront b word s =
    if word.isEmpty then (if b then (match wordsOf s with | none :: l => l | l => l) else wordsOf s)
    else match wordsOf s with | some v :: l => some (word ++ v) :: l | l => some word :: l := by
  induction s with
  | nil =>
    intro b word
    cases word <;> cases b <;> rfl
  | cons c s ih =>
    intro b word
    simp only [splitFront, wordsOf]
    by_cases hc : isWs c = true
    · simp only [hc, if_true]
      rw [ih]
      simp only [List.isEmpty_nil, if_true]
      rcases hw : wordsOf s with _ | ⟨_ | v, l⟩ <;> cases word <;> cases b <;> simp
    · simp only [hc, if_false, Bool.false_eq_true]
      rw [ih]
      have : (word ++ [c]).isEmpty = false := by cases word <;> rfl
      simp only [this, if_false, Bool.false_eq_true]
      rcases hw : wordsOf s with _ | ⟨_ | v, l⟩ <;> cases word <;> cases b <;> simp

theorem wordsOf_nlToSpace (s : Str) : wordsOf (Latex.nlToSpace s) = wordsOf s := by
  induction s with
  | nil => rfl
  | cons c s ih =>
    rw [nlToSpace_cons]
    simp only [wordsOf, isWs_nlToSpace, ih]
    by_cases hc : isWs c = true
    · simp only [hc, if_true]
    · have : c ≠ '\n' := by rintro rfl; exact hc (by decide)
      simp only [hc, this, if_false]

/-- No two gaps in a row. -/
def Sep : List (Option Str) → Prop
  | none :: none :: _ => False
  | _ :: l => Sep l
  | [] => True

theorem sep_wordsOf (s : Str) : Sep (wordsOf s) := by
  induction s with
  | nil => trivial
  | cons c s ih =>
    simp only [wordsOf]
    split
    · rcases hw : wordsOf s with _ | ⟨_ | v, l⟩ <;> rw [hw] at ih <;> simp_all [Sep]
    · rcases hw : wordsOf s with _ | ⟨_ | v, l⟩ <;> rw [hw] at ih
      · trivial
      · exact ih
      · exact ih

section
variable (x : Ext) {w : Nat}

theorem dw_space : x.dw [' '] = 1 := by simpa using x.dw_ascii [' '] (by decide)

theorem dw_nil : x.dw [] = 0 := by simpa using x.dw_ascii [] (by simp)

theorem safeTextDocs_pieces (l : List (Option Str)) (hl : Words l) (hs : Sep l) :
    UL x.dw w (safeTextDocs x l) (textPieces x.digit l) := by
  induction l with
  | nil => exact .nil
  | cons o l ih =>
    have hl' : Words l := fun w hw => hl w (List.mem_cons_of_mem _ hw)
    cases o with
    | some v => exact .cons (.text v) (ih hl' hs)
    | none =>
      rcases l with _ | ⟨_ | v, l⟩
      · exact .cons (.softline (dw_space x)) (ih hl' trivial)
      · exact absurd hs (by simp [Sep])
      · have hw := hl' v (by simp)
        have ih := ih hl' hs
        simp only [safeTextDocs, findNextWord, isSafeBreakBefore, isSyntax_eq x hw.1 hw.2, textPieces] at ih ⊢
        by_cases hb : startsBlock x.digit v = true
        · simp only [hb, Bool.not_true, Bool.false_eq_true, if_false, if_true]
          exact .cons (.text [' ']) ih
        · simp only [hb, Bool.not_false, if_true, Bool.false_eq_true, if_false]
          exact .cons (.softline (dw_space x)) ih

theorem split_wordsOf (t : Str) : splitWithSpaces (Latex.nlToSpace t) = wordsOf t := by
  rw [splitWithSpaces, splitGo_front, wordsOf_front, wordsOf_nlToSpace]
  simp

theorem unbroken_append (a b : List Piece) : unbroken (a ++ b) = unbroken a ++ unbroken b := by
  induction a with
  | nil => rfl
  | cons p a ih => cases p <;> simp [unbroken, ih]

theorem lineTextDocs_pieces (l : List (Option Str)) (hs : Sep l) :
    UL x.dw w (l.map fun
      | some w => Doc.text w
      | none => Doc.text [' ']) (unbroken (textPieces x.digit l)) := by
  induction l with
  | nil => exact .nil
  | cons o l ih =>
    cases o with
    | some v => exact .cons (.text v) (ih hs)
    | none =>
      rcases l with _ | ⟨_ | v, l⟩
      · exact .cons (.text [' ']) (ih trivial)
      · exact absurd hs (by simp [Sep])
      · have ih := ih hs
        have : unbroken (textPieces x.digit (none :: some v :: l)) =
            [.word [' ']] ++ unbroken (textPieces x.digit (some v :: l)) := by
          simp only [textPieces]
          split <;> simp [unbroken]
        rw [this]
        exact .cons (.text [' ']) ih

/-- The pieces, on one line or not. -/
def broken (nl : Bool) (L : List Piece) : List Piece := if nl then L else unbroken L

theorem broken_append (nl : Bool) (a b : List Piece) : broken nl (a ++ b) = broken nl a ++ broken nl b := by
  cases nl
  · exact unbroken_append a b
  · rfl

theorem textDoc_pieces (nl : Bool) (t : Str) : U x.dw w (textDoc x nl t) (broken nl (inlinePieces x.digit (.text t))) := by
  have hw := splitGo_words (Latex.nlToSpace t) [] [] (by simp) (by intro w hw; simp at hw)
  have e := split_wordsOf t
  unfold splitWithSpaces at e
  rw [e] at hw
  unfold textDoc
  rw [split_wordsOf]
  cases nl
  · exact (lineTextDocs_pieces x _ (sep_wordsOf t)).concat
  · exact (safeTextDocs_pieces x _ hw (sep_wordsOf t)).concat

theorem inline_pieces (nl : Bool) :
    (∀ i, U x.dw w (inlineDoc x nl i) (broken nl (inlinePieces x.digit i))) ∧
    (∀ l, UL x.dw w (inlineDocs x nl l) (broken nl (inlinesPieces x.digit l))) := by
  have T := fun a => U.text (dw := x.dw) (w := w) a
  have B : ∀ s : Str, broken nl [.word s] = [.word s] := by intro s; cases nl <;> rfl
  have B' : ∀ (s : Str) (l : List Piece), broken nl (.word s :: l) = .word s :: broken nl l := by
    intro s l; cases nl <;> rfl
  have B0 : broken nl [] = [] := by cases nl <;> rfl
  apply Inline.ind
  case text => intro s; exact textDoc_pieces x nl s
  case lineBreak => simp only [inlineDoc, inlinePieces, B]; exact T _
  case code => intro s; simp only [inlineDoc, inlinePieces, B', B0]; exact ((T _).app (T _)).app (T _)
  case html => intro s; simp only [inlineDoc, inlinePieces, B]; exact T _
  case link =>
    intro d t c ih
    have ht : U x.dw w (linkTitleDoc t) (broken nl (titlePieces t)) := by
      cases t with
      | none => simp only [titlePieces, B0]; exact .nil
      | some t => simp only [titlePieces, B', B0]; exact ((T _).app (T _)).app (T _)
    have := (((((T cs!"[").app (UL.concat ih)).app (T cs!"](")).app (T d)).app ht).app (T cs!")")
    simpa [inlineDoc, inlinePieces, broken_append, B, B', B0] using this
  case linkReference =>
    intro l t hl ht
    simp only [inlineDoc, inlinePieces]
    split
    · simp only [broken_append, B]
      exact ((T _).app (UL.concat hl)).app (T _)
    · simp only [broken_append, B]
      exact ((((T _).app (UL.concat ht)).app (T _)).app (UL.concat hl)).app (T _)
  case image =>
    intro d t a
    simp only [inlineDoc, inlinePieces, ← titlePart_title, B', B0]
    exact (((((T _).app (T _)).app (T _)).app (T _)).app (T _)).app (T _)
  case emphasis => intro c ih; simp only [inlineDoc, inlinePieces, broken_append, B]; exact ((T _).app (UL.concat ih)).app (T _)
  case strong => intro c ih; simp only [inlineDoc, inlinePieces, broken_append, B]; exact ((T _).app (UL.concat ih)).app (T _)
  case strikethrough => intro c ih; simp only [inlineDoc, inlinePieces, broken_append, B]; exact ((T _).app (UL.concat ih)).app (T _)
  case autolink => intro s; simp only [inlineDoc, inlinePieces, B]; exact T _
  case footnoteReference => intro s; simp only [inlineDoc, inlinePieces, B]; exact T _
  case empty => simp only [inlineDoc, inlinePieces, B0]; exact .nil
  case nil => simp only [inlineDocs, inlinesPieces, B0]; exact .nil
  case cons => intro i l hi hl; simp only [inlineDocs, inlinesPieces, broken_append]; exact .cons hi hl

theorem inlines_pieces (l : List Inline) : U x.dw w (inlinesDoc x true l) (inlinesPieces x.digit l) :=
  ((inline_pieces x true).2 l).concat

theorem inlines_line (l : List Inline) : U x.dw w (inlinesDoc x false l) (unbroken (inlinesPieces x.digit l)) :=
  ((inline_pieces x false).2 l).concat

end

end Exact
end Md
end Verif
