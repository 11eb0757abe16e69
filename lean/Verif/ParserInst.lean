import Verif.NomLemmas
import Verif.ParserBlock
/-!
# Every parser leaves a suffix of its input, and all the alternatives consume something
-/
set_option linter.unusedVariables false
namespace Verif
open Nom

section
variable {α β : Type}

instance (b : Behavior α) (d : List α) (p : P α) [Suf p] : Suf (conditional b d p) := by
  unfold conditional; cases b <;> infer_instance
instance (b : Behavior α) (d : List α) (p : P α) [Con p] : Con (conditional b d p) := by
  unfold conditional; cases b <;> infer_instance
instance (b) (p : P Inline) [Con p] : Con (conditionalInline b p) := by
  unfold conditionalInline; infer_instance
instance (b) (p : P Block) [Con p] : Con (conditionalBlock b p) := by
  unfold conditionalBlock; infer_instance
instance (b : Behavior α) (p : P β) [Suf p] : Suf (conditionalUnit b p) := by
  unfold conditionalUnit; cases b <;> infer_instance
instance (b) (p : P (List Block)) [Con p] : Con (conditionalBlockVec b p) := by
  unfold conditionalBlockVec; cases b <;> infer_instance
end

section
variable (rec : Str → Option (List Inline)) (x : PExt) (cfg : PConfig)

instance : Con (linkLabelInner rec) := ⟨fun s r l h => by
  unfold linkLabelInner at h
  split at h
  · simp at h
  · rename_i r1 label e
    split at h
    · simp only [Option.some.injEq, Prod.mk.injEq] at h
      rw [← h.1]
      exact Con.out (p := verify (many1 (preceded (notP (chr ']'))
        (value ']' (tag cs!"\\]") <||> anychar))) _) _ _ _ e
    · simp at h⟩
instance : Con (linkLabel rec) := by unfold linkLabel; infer_instance
instance : Con linkEscapedChar := by unfold linkEscapedChar; infer_instance
instance (c) : Suf (linkTitleInner c) := by unfold linkTitleInner; infer_instance
instance : Con linkTitleParenthesized := by unfold linkTitleParenthesized; infer_instance
instance : Con linkTitleSingleQuoted := by unfold linkTitleSingleQuoted; infer_instance
instance : Con linkTitleDoubleQuoted := by unfold linkTitleDoubleQuoted; infer_instance
instance : Con linkTitle := by unfold linkTitle; infer_instance
instance balancedParensF_con : ∀ n, Con (balancedParensF n)
  | 0 => by unfold balancedParensF; infer_instance
  | n + 1 => by
    have := balancedParensF_con n
    unfold balancedParensF; infer_instance
instance : Con balancedParens :=
  ⟨fun s r a h => Con.out (p := balancedParensF (s.length + 1)) s r a h⟩
instance : Con linkDestination1 := by unfold linkDestination1; infer_instance
instance : Con linkDestination2 := ⟨fun s r a h => by
  unfold linkDestination2 at h
  split at h
  · simp at h
  · exact Con.out _ _ _ h⟩
instance : Con linkDestination := by unfold linkDestination; infer_instance
instance : Con scheme := by unfold scheme; infer_instance
instance : Con uri := by unfold uri; infer_instance
instance : Con email := by unfold email; infer_instance
instance : Con autolinkP := by unfold autolinkP; infer_instance
instance : Con destAndTitle := by unfold destAndTitle; infer_instance
instance : Con (inlineLink rec) := by unfold inlineLink; infer_instance
instance : Con footnoteReferenceP := by unfold footnoteReferenceP; infer_instance
instance : Con (referenceLinkFull rec) := by unfold referenceLinkFull; infer_instance
instance : Con (referenceLinkCollapsed rec) := by unfold referenceLinkCollapsed; infer_instance
instance : Con (referenceLinkShortcut rec) := by unfold referenceLinkShortcut; infer_instance
instance : Con (referenceLink rec) := by unfold referenceLink; infer_instance
instance : Con hardNewline := by unfold hardNewline; infer_instance
instance : Con imageP := by unfold imageP; infer_instance
instance (t) : Suf (codeSpanStop t) := by unfold codeSpanStop; infer_instance
instance : Con codeSpan := ⟨fun s r a h => by
  unfold codeSpan at h
  split at h
  · simp at h
  · rename_i r1 t e
    have h1 := Con.out _ _ _ e
    have h2 := Con.out _ _ _ h
    exact ⟨h2.1.trans h1.1, by omega⟩⟩
instance : Con environmentVariable := by unfold environmentVariable; infer_instance
instance (t) : Suf (openTag x t) := ⟨fun s r a h => by
  unfold openTag at h
  split at h
  · rename_i r1 u e
    split at h
    · simp only [Option.some.injEq, Prod.mk.injEq] at h
      rw [← h.1]; exact Suf.out _ _ _ e
    · simp at h
  · simp at h⟩
instance (t) : Suf (closeTag x t) := ⟨fun s r a h => by
  unfold closeTag at h
  split at h
  · rename_i r1 u e
    split at h
    · simp only [Option.some.injEq, Prod.mk.injEq] at h
      rw [← h.1]; exact Suf.out _ _ _ e
    · simp at h
  · simp at h⟩
instance (t) : Con (emphasisContent x rec t) := by unfold emphasisContent; infer_instance
instance (t) : Con (emphasisDelimited x rec t) := by unfold emphasisDelimited; infer_instance
instance : Con (emphasisP x rec) := by unfold emphasisP; infer_instance
instance : Con (strikethroughP rec) := ⟨fun s r a h => by
  unfold strikethroughP at h
  split at h
  · simp at h
  · rename_i s1 u e1
    split at h
    · simp at h
    · rename_i s2 c e2
      split at h
      · simp only [Option.some.injEq, Prod.mk.injEq] at h
        rw [← h.1]
        have h1 := Con.out _ _ _ e1
        have h2 := Con.out _ _ _ e2
        exact ⟨h2.1.trans h1.1, by omega⟩
      · simp at h⟩
instance : Con (htmlEntityAlpha cfg) := by unfold htmlEntityAlpha; infer_instance
instance : Con htmlEntityNumeric := by unfold htmlEntityNumeric; infer_instance
instance : Con (htmlEntity cfg) := by unfold htmlEntity; infer_instance
instance : Con escapedChar := by unfold escapedChar; infer_instance
instance : Con (textPiece x cfg rec) := by unfold textPiece; infer_instance
instance : Con (textP x cfg rec) := by unfold textP; infer_instance

/-- Custom parsers, if any, leave a suffix of their input and consume something. -/
structure PConfig.CustomOk (cfg : PConfig) : Prop where
  inl : Con (customParser cfg.customInline)
  blk : Con (customParser cfg.customBlock)

theorem inlineStep_con (h : cfg.CustomOk) : Con (inlineStep x cfg rec) := by
  have := h.inl
  unfold inlineStep; infer_instance

theorem inlineF_con (h : cfg.CustomOk) : ∀ n, Con (inlineF x cfg n)
  | 0 => by unfold inlineF; infer_instance
  | n + 1 => by unfold inlineF; exact inlineStep_con _ _ _ h
end

section
variable (rec : P (List Block)) (x : PExt) (cfg : PConfig)

instance : Con codeBlockIndented := by unfold codeBlockIndented; infer_instance
instance (f) : Suf (endingFence f) := by unfold endingFence; infer_instance
instance : Con openingFence := by unfold openingFence; infer_instance
instance (f n) : Suf (fencedLines f n) := by unfold fencedLines; infer_instance
instance : Con codeBlockFenced := ⟨fun s r a h => by
  unfold codeBlockFenced at h
  split at h
  · simp at h
  · rename_i s1 sp fence info e1
    split at h
    · simp at h
    · rename_i s2 lines e2
      simp only [Option.some.injEq, Prod.mk.injEq] at h
      rw [← h.1]
      have h1 := Con.out _ _ _ e1
      have h2 := Suf.out _ _ _ e2
      exact ⟨h2.trans h1.1, Nat.lt_of_le_of_lt h2.length_le h1.2⟩⟩
instance : Con codeBlockP := by unfold codeBlockP; infer_instance
instance : Con (headingV1 x cfg) := ⟨fun s r a h => by
  unfold headingV1 at h
  split at h
  · simp at h
  · rename_i r1 hs c e
    split at h
    · simp only [Option.some.injEq, Prod.mk.injEq] at h
      rw [← h.1]
      split at e
      · exact Con.out _ _ _ e
      · exact Con.out _ _ _ e
    · simp at h⟩
instance : Con headingV2Level := by unfold headingV2Level; infer_instance
instance : Con thematicBreakP := by unfold thematicBreakP; infer_instance
instance : Con quotePrefix := by unfold quotePrefix; infer_instance
instance : Con quoteLines := by unfold quoteLines; infer_instance
instance : Con (blockquoteP rec) := by unfold blockquoteP; infer_instance
instance : Con customAlertName := by unfold customAlertName; infer_instance
instance : Con alertMarkerP := by unfold alertMarkerP; infer_instance
instance : Con (githubAlertP x rec) := ⟨fun s r a h => by
  unfold githubAlertP at h
  split at h
  · simp at h
  · split at h
    · simp at h
    · split at h
      · simp at h
      · rename_i r1 lines e
        dsimp only at h
        split at h
        · simp only [Option.some.injEq, Prod.mk.injEq] at h
          rw [← h.1]; exact Con.out _ _ _ e
        · split at h
          · simp only [Option.some.injEq, Prod.mk.injEq] at h
            rw [← h.1]; exact Con.out _ _ _ e
          · simp at h⟩
instance : Con listItemTaskState := by unfold listItemTaskState; infer_instance
instance : Con listMarkerStar := by unfold listMarkerStar; infer_instance
instance : Con listMarkerPlus := by unfold listMarkerPlus; infer_instance
instance : Con listMarkerDash := by unfold listMarkerDash; infer_instance
instance : Con listMarkerOrdered := by unfold listMarkerOrdered; infer_instance
instance : Con listMarker := by unfold listMarker; infer_instance
instance : Con listMarkerFollowedBySpaces := ⟨fun s r a h => by
  unfold listMarkerFollowedBySpaces at h
  split at h
  · simp at h
  · rename_i r1 k e
    have h1 := Con.out _ _ _ e
    have h2 := Suf.out _ _ _ h
    exact ⟨h2.trans h1.1, Nat.lt_of_le_of_lt h2.length_le h1.2⟩⟩
instance : Con listMarkerFollowedByNewline := ⟨fun s r a h => by
  unfold listMarkerFollowedByNewline at h
  split at h
  · simp at h
  · rename_i r1 k e
    have h1 := Con.out _ _ _ e
    split at h
    · rename_i e2
      simp only [Option.some.injEq, Prod.mk.injEq] at h
      rw [← h.1]
      have h2 := Suf.out _ _ _ e2
      exact ⟨h2.trans h1.1, Nat.lt_of_le_of_lt h2.length_le h1.2⟩
    · split at h
      · simp at h
      · rename_i r2 u e2
        have h2 := Suf.out _ _ _ e2
        have h3 := Suf.out _ _ _ h
        exact ⟨(h3.trans h2).trans h1.1,
          Nat.lt_of_le_of_lt (h3.trans h2).length_le h1.2⟩⟩
instance : Con listMarkerWithSpanSize := by unfold listMarkerWithSpanSize; infer_instance
instance (k) : Con (sameKindMarker k) := by
  unfold sameKindMarker; split <;> infer_instance
instance (k n) : Suf (listItemRestLine k n) := ⟨fun s r a h => by
  unfold listItemRestLine at h
  split at h
  · simp at h
  · exact Suf.out _ _ _ h⟩
instance (k n) : Suf (listItemLines k n) := by unfold listItemLines; infer_instance
instance : Con (listItemP rec) := ⟨fun s r a h => by
  unfold listItemP at h
  split at h
  · simp at h
  · rename_i s1 k pl t f e1
    split at h
    · simp at h
    · rename_i s2 rest e2
      split at h
      · simp at h
      · simp only [Option.some.injEq, Prod.mk.injEq] at h
        rw [← h.1]
        have h1 := Con.out _ _ _ e1
        have h2 := Suf.out _ _ _ e2
        exact ⟨h2.trans h1.1, Nat.lt_of_le_of_lt h2.length_le h1.2⟩⟩
instance : Con (listP rec) := ⟨fun s r a h => by
  unfold listP at h
  split at h
  · rename_i r1 k i l e
    simp only [Option.some.injEq, Prod.mk.injEq] at h
    rw [← h.1]; exact Con.out _ _ _ e
  · simp at h⟩
instance {α : Type} (p : P α) : Suf (until_ p) := by unfold until_; infer_instance
instance : Suf html1Tag := by unfold html1Tag; infer_instance
instance : Con html1End := by unfold html1End; infer_instance
instance : Con htmlBlock1 := by unfold htmlBlock1; infer_instance
instance : Con htmlBlock2 := by unfold htmlBlock2; infer_instance
instance : Con htmlBlock3 := by unfold htmlBlock3; infer_instance
instance : Con htmlBlock4 := by unfold htmlBlock4; infer_instance
instance : Con htmlBlock5 := by unfold htmlBlock5; infer_instance
instance anyTagNoCase_suf : ∀ l, Suf (anyTagNoCase l)
  | [] => by unfold anyTagNoCase; infer_instance
  | t :: l => by
    have := anyTagNoCase_suf l
    unfold anyTagNoCase; infer_instance
instance : Suf blankLineOrEof := by unfold blankLineOrEof; infer_instance
instance : Con htmlBlock6 := by unfold htmlBlock6; infer_instance
instance : Con htmlTagName := by unfold htmlTagName; infer_instance
instance : Con htmlTagAttributeName := by unfold htmlTagAttributeName; infer_instance
instance : Con htmlTagAttributeValueUnquoted := by
  unfold htmlTagAttributeValueUnquoted; infer_instance
instance : Con htmlTagAttributeValueSingleQuoted := by
  unfold htmlTagAttributeValueSingleQuoted; infer_instance
instance : Con htmlTagAttributeValueDoubleQuoted := by
  unfold htmlTagAttributeValueDoubleQuoted; infer_instance
instance : Con htmlTagAttributeValue := by unfold htmlTagAttributeValue; infer_instance
instance : Con htmlTagAttributeValueSpecification := by
  unfold htmlTagAttributeValueSpecification; infer_instance
instance : Con htmlTagAttribute := by unfold htmlTagAttribute; infer_instance
instance (l) : Con (completeOpenHtmlTag l) := by unfold completeOpenHtmlTag; infer_instance
instance : Con completeClosingHtmlTag := by unfold completeClosingHtmlTag; infer_instance
instance : Con htmlBlock7 := by unfold htmlBlock7; infer_instance
instance : Con htmlBlockP := by unfold htmlBlockP; infer_instance
instance : Con (footnoteDefinitionP rec) := ⟨fun s r a h => by
  unfold footnoteDefinitionP at h
  split at h
  · simp at h
  · rename_i s1 label e1
    split at h
    · simp at h
    · rename_i s2 first e2
      split at h
      · simp at h
      · rename_i s3 rest e3
        split at h
        · simp at h
        · simp only [Option.some.injEq, Prod.mk.injEq] at h
          rw [← h.1]
          have h1 := Con.out _ _ _ e1
          have h2 := Suf.out _ _ _ e2
          have h3 := Suf.out _ _ _ e3
          exact ⟨(h3.trans h2).trans h1.1, Nat.lt_of_le_of_lt (h3.trans h2).length_le h1.2⟩⟩
instance : Con oneLineWhitespace1 := by unfold oneLineWhitespace1; infer_instance
instance : Con (linkDefinitionP x cfg) := by unfold linkDefinitionP; infer_instance
instance : Con (cellContent x cfg) := by unfold cellContent; infer_instance
instance : Con (tableRow x cfg) := by unfold tableRow; infer_instance
instance : Con alignmentCell := by unfold alignmentCell; infer_instance
instance : Con alignmentRow := by unfold alignmentRow; infer_instance
instance (n) : Suf (tableDataRows x cfg n) := by unfold tableDataRows; infer_instance
instance : Con (tableP x cfg) := ⟨fun s r a h => by
  unfold tableP at h
  split at h
  · simp at h
  · rename_i s1 header e1
    split at h
    · simp at h
    · rename_i s2 al e2
      split at h
      · simp at h
      · split at h
        · simp at h
        · rename_i s3 rows e3
          simp only [Option.some.injEq, Prod.mk.injEq] at h
          rw [← h.1]
          have h1 := Con.out _ _ _ e1
          have h2 := Suf.out _ _ _ e2
          have h3 := Suf.out _ _ _ e3
          exact ⟨(h3.trans h2).trans h1.1, Nat.lt_of_le_of_lt (h3.trans h2).length_le h1.2⟩⟩
instance : Con paragraphLine := by unfold paragraphLine; infer_instance
instance : Suf (paragraphLines x cfg rec) := by unfold paragraphLines; infer_instance
end

end Verif
