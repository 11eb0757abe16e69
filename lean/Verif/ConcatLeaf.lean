import Verif.Concat
/-!
# Blocks made of lines, followed by a blank line
-/
set_option autoImplicit false
set_option linter.unusedVariables false
set_option linter.unusedSimpArgs false
namespace Verif
open Nom

section
variable {t : Str} {x : PExt} {cfg : PConfig} {rec : P (List Block)} {α β : Type}

theorem stays_line0 : StaysOn N ('\n' :: t) (lineTerminated notEofOrEol0) :=
  stays_lineTerminated stays_notEofOrEol0.n into_notEofOrEol0
theorem stays_line1 : StaysOn W ('\n' :: t) (lineTerminated notEofOrEol1) :=
  (stays_lineTerminated stays_notEofOrEol1.n into_notEofOrEol1).all ⟨rfl, rfl⟩
theorem into_line1 : Into N (lineTerminated notEofOrEol1) W := into_lineTerminated
theorem into_line0 : Into N (lineTerminated notEofOrEol0) W := into_lineTerminated

theorem stays_indented : StaysOn W ('\n' :: t) codeBlockIndented := by
  refine stays_mapP (stays_many1 (StaysOn.all ?_ ⟨rfl, rfl⟩) into_suf)
  exact stays_preceded (D' := N) (stays_orElse (stays_value (stays_spaces _ _)) (stays_value (stays_chr (by decide))))
    (into_orElse (into_value (into_spaces _ _)) (into_value (into_chr (by decide)))) stays_line0

theorem stays_headingV1 : StaysOn W ('\n' :: t) (headingV1 x cfg) := by
  have h : StaysOn W ('\n' :: t) (seq (manyMN (chr '#') 1 6)
      (preceded (if cfg.allowNoSpaceInHeadings then space0 else space1)
        (lineTerminated notEofOrEol1))) := by
    refine StaysOn.all ?_ ⟨rfl, rfl⟩
    refine stays_seq (D' := N) (stays_manyMN (stays_chr (by decide)) (into_chr (by decide)) _ _)
      (into_manyMN (into_chr (by decide)) _ _) ?_
    refine stays_preceded (D' := N) ?_ ?_ stays_line1.n
    · split
      · exact stays_space0
      · exact stays_space1
    · split
      · exact into_space0
      · exact into_space1
  intro s hs
  unfold headingV1
  rw [h s hs]
  cases e : seq (manyMN (chr '#') 1 6) (preceded (if cfg.allowNoSpaceInHeadings then space0 else space1)
        (lineTerminated notEofOrEol1)) s with
  | none => rfl
  | some y =>
    obtain ⟨r, a, b⟩ := y
    simp only [Option.map_some]
    cases parseInlines0 x cfg b <;> rfl

theorem stays_underline : StaysOn W ('\n' :: t) headingV2Level := by
  refine (stays_lineTerminated ?_ ?_).all ⟨rfl, rfl⟩
  · exact stays_preceded (D' := N) stays_indent03 into_indent03 (stays_terminated (D' := N)
      (stays_orElse (stays_value (stays_many1 (stays_chr (by decide)) (into_chr (by decide))))
        (stays_value (stays_many1 (stays_chr (by decide)) (into_chr (by decide)))))
      (into_orElse (into_value (into_many1 (into_chr (by decide)))) (into_value (into_many1 (into_chr (by decide)))))
      stays_space0)
  · exact into_preceded into_indent03 (into_terminated
      (into_orElse (into_value (into_many1 (into_chr (by decide)))) (into_value (into_many1 (into_chr (by decide)))))
      into_space0)

theorem stays_thematic : StaysOn W ('\n' :: t) thematicBreakP := by
  have h : ∀ c : Char, c ≠ '\n' → Into N (manyMin 3 (chr c)) N := fun c hc => into_manyMin (into_chr hc) 3
  have h' : ∀ c : Char, c ≠ '\n' → StaysOn N ('\n' :: t) (manyMin 3 (chr c)) := fun c hc =>
    stays_manyMin (stays_chr hc) (into_chr hc) 3
  refine stays_value ((stays_lineTerminated ?_ ?_).all ⟨rfl, rfl⟩)
  · exact stays_preceded (D' := N) stays_indent03 into_indent03 (stays_terminated (D' := N)
      (stays_orElse (h' _ (by decide)) (stays_orElse (h' _ (by decide)) (h' _ (by decide))))
      (into_orElse (h _ (by decide)) (into_orElse (h _ (by decide)) (h _ (by decide)))) stays_space0)
  · exact into_preceded into_indent03 (into_terminated
      (into_orElse (h _ (by decide)) (into_orElse (h _ (by decide)) (h _ (by decide)))) into_space0)

/-! ## Quotes -/

theorem stays_quotePrefix : StaysOn N ('\n' :: t) quotePrefix :=
  stays_preceded (D' := N) stays_indent03 into_indent03 (stays_chr (by decide))
theorem into_quotePrefix : Into N quotePrefix N := into_preceded into_indent03 (into_chr (by decide))

theorem stays_quoteLine : StaysOn W ('\n' :: t) (preceded quotePrefix (lineTerminated notEofOrEol0)) :=
  (stays_preceded stays_quotePrefix into_quotePrefix stays_line0).all ⟨rfl, rfl⟩

theorem stays_quoteLines : StaysOn W ('\n' :: t) quoteLines := stays_many1 stays_quoteLine into_suf

theorem stays_blockquote : StaysOn W ('\n' :: t) (blockquoteP rec) := stays_mapOpt stays_quoteLines

theorem stays_alert : StaysOn W ('\n' :: t) (githubAlertP x rec) := by
  have h : StaysOn W ('\n' :: t) (preceded (seq quotePrefix (opt (chr ' '))) (lineTerminated notEofOrEol0)) := by
    refine StaysOn.all ?_ ⟨rfl, rfl⟩
    exact stays_preceded (D' := N) (stays_seq (D' := N) stays_quotePrefix into_quotePrefix (stays_opt (stays_chr (by decide))))
      (into_seq into_quotePrefix (into_opt (into_chr (by decide)) fun _ h => h)) stays_line0
  intro s hs
  unfold githubAlertP
  rw [h s hs, stays_quoteLines s hs]
  cases e : preceded (seq quotePrefix (opt (chr ' '))) (lineTerminated notEofOrEol0) s with
  | none => rfl
  | some y =>
    simp only [Option.map_some]
    cases parseAlertMarker x (trim y.2) with
    | none => rfl
    | some ty =>
      cases quoteLines s with
      | none => rfl
      | some z =>
        simp only [Option.map_some]
        split
        · rfl
        · cases blocks1 rec (joinWith ['\n'] (z.2.drop 1)) <;> rfl

/-! ## Tables -/

theorem stays_cell : StaysOn W ('\n' :: t) (cellContent x cfg) := by
  refine stays_mapOpt (stays_many1 ?_ into_suf)
  intro s hs
  rcases hs.cases with rfl | hN
  · rfl
  · refine stays_preceded (D := N) (D' := N) (stays_notP (agrees_orElse (agrees_value fun s h => agrees_eofOrEol s h.w)
      (agrees_value (stays_chr (by decide)).agrees))) (into_notP fun _ h => h) ?_ s hN
    exact stays_orElse (stays_value (stays_tag (by decide))) stays_satisfyN

theorem into_cell : Into N (cellContent x cfg) N := by
  refine into_mapOpt (into_many1 (into_of_clean ?_))
  intro s r a h
  obtain ⟨r1, _, h1, h2⟩ := preceded_some.1 h
  obtain ⟨h3, rfl⟩ := notP_some.1 h1
  rcases orElse_some.1 h2 with h2 | ⟨_, h2⟩
  · obtain ⟨_, h4, _⟩ := mapP_some.1 h2
    refine ⟨cs!"\\|", ?_, by decide⟩
    unfold tag at h4
    split at h4
    · rename_i hp
      obtain ⟨r', rfl⟩ := List.isPrefixOf_iff_prefix.1 hp
      simp at h4; simp [h4.1]
    · simp at h4
  · cases r1 with
    | nil => simp [anychar, satisfy] at h2
    | cons c r1 =>
      simp [anychar, satisfy] at h2
      obtain ⟨rfl, rfl⟩ := h2
      refine ⟨[c], rfl, ?_⟩
      rintro hc
      simp at hc; subst hc
      simp [eofOrEol, orElse, lineEnding, value, mapP] at h3

theorem stays_row {p : P α} [Con p] (hp : StaysOn N ('\n' :: t) p) (h : Into N p N) :
    StaysOn W ('\n' :: t) (lineTerminated (preceded indent03
    (delimited (chr '|') (separatedList1 (chr '|') p) (opt (chr '|'))))) := by
  have hb : Into N (chr '|') N := into_chr (by decide)
  have hb' : StaysOn N ('\n' :: t) (chr '|') := stays_chr (by decide)
  refine (stays_lineTerminated ?_ ?_).all ⟨rfl, rfl⟩
  · exact stays_preceded (D' := N) stays_indent03 into_indent03 (stays_delimited (D' := N) (D3 := N) hb' hb
      (stays_separatedList1 hb' hb hp h) (into_separatedList1 hb h) (stays_opt hb'))
  · exact into_preceded into_indent03 (into_delimited (D' := N) (D3 := N) hb (into_separatedList1 hb h)
      (into_opt hb fun _ h => h))

theorem stays_tableRow : StaysOn W ('\n' :: t) (tableRow x cfg) := stays_row stays_cell.n into_cell

theorem stays_alignmentRow : StaysOn W ('\n' :: t) alignmentRow := by
  have hb : ∀ c : Char, c ≠ '\n' → Into N (chr c) N := fun c hc => into_chr hc
  have hb' : ∀ c : Char, c ≠ '\n' → StaysOn N ('\n' :: t) (chr c) := fun c hc => stays_chr hc
  have hd : Into N (many1 (chr '-')) N := into_many1 (hb _ (by decide))
  have hd' : StaysOn N ('\n' :: t) (many1 (chr '-')) := stays_many1 (hb' _ (by decide)) (hb _ (by decide))
  have hcol := hb ':' (by decide)
  have hcol' := hb' ':' (by decide)
  refine stays_row ?_ ?_
  · exact stays_mapP (stays_delimited (D' := N) (D3 := N) stays_space0 into_space0
      (stays_orElse (stays_recognize (stays_delimited hcol' hcol hd' hd hcol'))
        (stays_orElse (stays_recognize (stays_preceded hcol' hcol hd'))
          (stays_orElse (stays_recognize (stays_terminated hd' hd hcol')) (stays_recognize hd'))))
      (into_orElse (into_recognize (into_delimited hcol hd hcol))
        (into_orElse (into_recognize (into_preceded hcol hd))
          (into_orElse (into_recognize (into_terminated hd hcol)) (into_recognize hd))))
      stays_space0)
  · exact into_mapP (into_delimited (D' := N) (D3 := N) into_space0
      (into_orElse (into_recognize (into_delimited hcol hd hcol))
        (into_orElse (into_recognize (into_preceded hcol hd))
          (into_orElse (into_recognize (into_terminated hd hcol)) (into_recognize hd))))
      into_space0)

theorem stays_table : StaysOn W ('\n' :: t) (tableP x cfg) := by
  intro s hs
  unfold tableP
  rw [stays_tableRow s hs]
  cases e : tableRow x cfg s with
  | none => rfl
  | some y =>
    obtain ⟨s1, header⟩ := y
    simp only [Option.map_some]
    have h1 : W s1 := into_suf s s1 _ hs e
    rw [stays_alignmentRow s1 h1]
    cases e2 : alignmentRow s1 with
    | none => rfl
    | some z =>
      obtain ⟨s2, al⟩ := z
      simp only [Option.map_some]
      have h2 : W s2 := into_suf s1 s2 _ h1 e2
      split
      · rfl
      · have h3 : StaysOn W ('\n' :: t) (tableDataRows x cfg header.length) :=
          stays_many0 (stays_mapP stays_tableRow) into_suf
        rw [h3 s2 h2]
        cases tableDataRows x cfg header.length s2 <;> rfl

/-! ## Fences -/

theorem stays_openingFence : StaysOn N ('\n' :: t) openingFence := by
  have h : ∀ c : Char, c ≠ '\n' → Into N (manyMin 3 (chr c)) N := fun c hc => into_manyMin (into_chr hc) 3
  have h' : ∀ c : Char, c ≠ '\n' → StaysOn N ('\n' :: t) (manyMin 3 (chr c)) := fun c hc =>
    stays_manyMin (stays_chr hc) (into_chr hc) 3
  refine stays_lineTerminated ?_ ?_
  · exact stays_seq (D' := N) (stays_recognize (stays_orElse (h' _ (by decide)) (h' _ (by decide))))
      (into_recognize (into_orElse (h _ (by decide)) (h _ (by decide))))
      (stays_opt (stays_recognize stays_notEofOrEol1.n))
  · exact into_seq (into_recognize (into_orElse (h _ (by decide)) (h _ (by decide))))
      (into_opt (into_recognize into_notEofOrEol1) fun _ h => h)

theorem stays_endingFence {fence : Str} (hf : '\n' ∉ fence) (hne : fence ≠ []) :
    StaysOn W ('\n' :: t) (endingFence fence) := by
  have hh : fence.headD '`' ≠ '\n' := by
    cases fence with
    | nil => decide
    | cons c f => intro e; simp at e; subst e; simp at hf
  refine (stays_lineTerminated ?_ ?_).all ?_
  · exact stays_value (stays_seq (D' := N) stays_indent03 into_indent03
      (stays_seq (D' := N) (stays_tag hf) (into_tag hf) (stays_many0 (stays_chr hh) (into_chr hh))))
  · exact into_value (into_seq into_indent03 (into_seq (into_tag hf) (into_many0 (into_chr hh))))
  · cases fence with
    | nil => exact absurd rfl hne
    | cons c f =>
      have hc : ('\n' : Char) ≠ c := by rintro rfl; simp at hf
      have hc2 : (c == '\n') = false := by simpa using fun e => hc e.symm
      constructor
      · simp [lineTerminated, terminated, mapP, seq, value, indent03, manyMN, chr, satisfy, tag]
      · simp [lineTerminated, terminated, mapP, seq, value, indent03, manyMN, chr, satisfy, tag, hc2, List.isPrefixOf_cons_cons]

end
end Verif
