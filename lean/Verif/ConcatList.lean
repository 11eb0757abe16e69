import Verif.ConcatLeaf
/-!
# Fences, lists and footnotes, followed by a blank line
-/
set_option autoImplicit false
set_option linter.unusedVariables false
set_option linter.unusedSimpArgs false
namespace Verif
open Nom

section
variable {t : Str} {x : PExt} {cfg : PConfig} {rec : P (List Block)} {α β : Type}

/-! ## Fences -/

/-- A closed fence is read the same way. -/
theorem fenced_stays {s r : Str} {b : Block} (hs : W s) (h : codeBlockFenced s = some (r, b)) :
    codeBlockFenced (s ++ '\n' :: t) = some (r ++ '\n' :: t, b) := by
  unfold codeBlockFenced at h ⊢
  have h0 : StaysOn W ('\n' :: t) (seq indent03 openingFence) :=
    StaysOn.all (stays_seq (D' := N) stays_indent03 into_indent03 stays_openingFence) ⟨rfl, rfl⟩
  rw [h0 s hs]
  split at h
  · simp at h
  · rename_i s1 ind fence info e1
    rw [e1]
    simp only [Option.map_some]
    have hs1 : W s1 := into_suf _ _ _ hs e1
    obtain ⟨s0, _, h3⟩ := seq_some.1 e1
    have hf : '\n' ∉ fence := (openingFence_marks h3).2
    have hne : fence ≠ [] := by
      obtain ⟨f, n, _, _, hn, rfl, _⟩ := openingFence_some h3
      intro e
      have := congrArg List.length e
      simp at this; omega
    have hfe := stays_endingFence (t := t) hf hne
    split at h
    · simp at h
    · rename_i s2 lines e2
      simp at h
      obtain ⟨rfl, rfl⟩ := h
      obtain ⟨s3, _, h4, h5⟩ := terminated_some.1 e2
      have key : ∀ s r l, fencedLines fence ind.length s = some (r, l) → (∃ y, endingFence fence r = some y) → W s →
          fencedLines fence ind.length (s ++ '\n' :: t) = some (r ++ '\n' :: t, l) := by
        refine many0_induction ?_ ?_
        · intro s hn ⟨y, hy⟩ hs
          refine many0_of_none ?_
          unfold preceded notP
          rw [hfe.some hs hy]
        · intro s r a r' l h1 hlt hm ih hy hs
          have hne : N s := by
            refine ⟨hs, ?_⟩
            rintro rfl
            simp at hlt
          have hstep : StaysOn N ('\n' :: t) (preceded (notP (endingFence fence))
              (preceded (manyMN (chr ' ') 0 ind.length) (lineTerminated notEofOrEol0))) :=
            stays_preceded (D' := N) (stays_notP hfe.n.agrees) (into_notP fun _ h => h)
              (stays_preceded (D' := N) (stays_spaces _ _) (into_spaces _ _) stays_line0)
          refine many0_of_some (hstep.some hne h1) (by simp only [List.length_append]; omega) (ih hy ?_)
          exact hs.suffix (Suf.out _ _ _ h1)
      have hs3 : W s3 := hs1.suffix (Suf.out _ _ _ h4)
      rw [terminated_some.2 ⟨s3 ++ '\n' :: t, (), key s1 s3 lines h4 ⟨_, h5⟩ hs1, hfe.some hs3 h5⟩]

/-! ## Lists -/

theorem stays_u64 : StaysOn N ('\n' :: t) u64P := by
  have h : StaysOn N ('\n' :: t) digit1 := stays_takeWhile1 (by decide)
  intro s hs
  unfold u64P
  rw [h s hs]
  cases digit1 s with
  | none => rfl
  | some y => simp only [Option.map_some]; split <;> rfl

theorem into_u64 : Into N u64P N := by
  have h : Into N digit1 N := into_takeWhile1 (by decide)
  intro s r a hs e
  unfold u64P at e
  split at e
  · simp at e
  · rename_i e1
    split at e
    · simp at e; obtain ⟨rfl, _⟩ := e; exact h _ _ _ hs e1
    · simp at e

theorem stays_ordered : StaysOn N ('\n' :: t) listMarkerOrdered :=
  stays_mapP (stays_terminated (D' := N) stays_u64 into_u64 (stays_oneOf (by decide)))
theorem into_ordered : Into N listMarkerOrdered N :=
  into_mapP (into_terminated into_u64 (into_oneOf (by decide)))

theorem stays_marker : StaysOn N ('\n' :: t) listMarker :=
  stays_orElse stays_ordered (stays_orElse (stays_value (stays_chr (by decide)))
    (stays_orElse (stays_value (stays_chr (by decide))) (stays_value (stays_chr (by decide)))))
theorem into_marker : Into N listMarker N :=
  into_orElse into_ordered (into_orElse (into_value (into_chr (by decide)))
    (into_orElse (into_value (into_chr (by decide))) (into_value (into_chr (by decide)))))

theorem stays_sameKind (k : ListKind) : StaysOn N ('\n' :: t) (sameKindMarker k) := by
  unfold sameKindMarker
  split
  · exact stays_ordered
  · exact stays_value (stays_chr (by decide))
  · exact stays_value (stays_chr (by decide))
  · exact stays_value (stays_chr (by decide))

theorem stays_task : StaysOn N ('\n' :: t) listItemTaskState :=
  stays_delimited (D' := N) (D3 := N) (stays_chr (by decide)) (into_chr (by decide))
    (stays_orElse (stays_value (stays_oneOf (by decide))) (stays_value (stays_chr (by decide))))
    (into_orElse (into_value (into_oneOf (by decide))) (into_value (into_chr (by decide))))
    (stays_chr (by decide))
theorem into_task : Into N listItemTaskState N :=
  into_delimited (D' := N) (D3 := N) (into_chr (by decide))
    (into_orElse (into_value (into_oneOf (by decide))) (into_value (into_chr (by decide))))
    (into_chr (by decide))

theorem stays_bySpaces : StaysOn N ('\n' :: t) listMarkerFollowedBySpaces := by
  have h : StaysOn N ('\n' :: t) (delimited indent03 listMarker (manyMN (chr ' ') 1 4)) :=
    stays_delimited (D' := N) (D3 := N) stays_indent03 into_indent03 stays_marker into_marker (stays_spaces _ _)
  have h' : Into N (delimited indent03 listMarker (manyMN (chr ' ') 1 4)) N :=
    into_delimited (D' := N) (D3 := N) into_indent03 into_marker (into_spaces _ _)
  intro s hs
  unfold listMarkerFollowedBySpaces
  rw [h s hs]
  cases e : delimited indent03 listMarker (manyMN (chr ' ') 1 4) s with
  | none => rfl
  | some y =>
    obtain ⟨r, kind⟩ := y
    simp only [Option.map_some]
    have hl : (s ++ '\n' :: t).length - (r ++ '\n' :: t).length = s.length - r.length := by
      simp only [List.length_append]; omega
    rw [hl]
    have h3 : StaysOn N ('\n' :: t) (mapP (opt (terminated listItemTaskState (chr ' ')))
      (fun t => (kind, s.length - r.length, t))) :=
      stays_mapP (stays_opt (stays_terminated (D' := N) stays_task into_task (stays_chr (by decide))))
    exact h3 r (h' _ _ _ hs e)

theorem into_bySpaces : Into N listMarkerFollowedBySpaces N := by
  have h' : Into N (delimited indent03 listMarker (manyMN (chr ' ') 1 4)) N :=
    into_delimited (D' := N) (D3 := N) into_indent03 into_marker (into_spaces _ _)
  intro s r a hs e
  unfold listMarkerFollowedBySpaces at e
  split at e
  · simp at e
  · rename_i e1
    exact into_mapP (into_opt (into_terminated (D' := N) into_task (into_chr (by decide))) fun _ h => h) _ _ _
      (h' _ _ _ hs e1) e

theorem stays_byNewline : StaysOn N ('\n' :: t) listMarkerFollowedByNewline := by
  have h : StaysOn N ('\n' :: t) (preceded indent03 listMarker) :=
    stays_preceded (D' := N) stays_indent03 into_indent03 stays_marker
  have h' : Into N (preceded indent03 listMarker) N := into_preceded (D' := N) into_indent03 into_marker
  have h1 : StaysOn N ('\n' :: t) (lineTerminated space0) := stays_lineTerminated stays_space0 into_space0
  intro s hs
  unfold listMarkerFollowedByNewline
  rw [h s hs]
  cases e : preceded indent03 listMarker s with
  | none => rfl
  | some y =>
    obtain ⟨r, kind⟩ := y
    have hr := h' _ _ _ hs e
    simp only [Option.map_some]
    have hl : (s ++ '\n' :: t).length - (r ++ '\n' :: t).length = s.length - r.length := by
      simp only [List.length_append]; omega
    rw [hl, h1 r hr]
    cases e2 : lineTerminated space0 r with
    | some z => rfl
    | none =>
      simp only [Option.map_none]
      have h3 : StaysOn N ('\n' :: t) indent03 := stays_indent03
      rw [h3 r hr]
      cases e3 : indent03 r with
      | none => rfl
      | some z =>
        obtain ⟨r2, w⟩ := z
        simp only [Option.map_some]
        have hl : (s ++ '\n' :: t).length - (r2 ++ '\n' :: t).length = s.length - r2.length := by
          simp only [List.length_append]; omega
        rw [hl]
        exact stays_mapP (stays_lineTerminated stays_task into_task) r2 (into_indent03 _ _ _ hr e3)

theorem stays_withSpan : StaysOn W ('\n' :: t) listMarkerWithSpanSize := by
  refine StaysOn.all ?_ ⟨rfl, rfl⟩
  exact stays_orElse (stays_mapP stays_byNewline) (stays_mapP (stays_seq (D' := N) stays_bySpaces into_bySpaces stays_line0))

theorem withSpan_pos {s r first : Str} {kind : ListKind} {pl : Nat} {task : Option TaskState}
    (h : listMarkerWithSpanSize s = some (r, (kind, pl, task, first))) : 0 < pl := by
  rcases orElse_some.1 h with h | ⟨_, h⟩
  · obtain ⟨⟨k, n, t⟩, h1, h2⟩ := mapP_some.1 h
    simp at h2
    obtain ⟨rfl, rfl, rfl, rfl⟩ := h2
    unfold listMarkerFollowedByNewline at h1
    split at h1
    · simp at h1
    · split at h1
      · simp at h1; omega
      · split at h1
        · simp at h1
        · obtain ⟨_, _, h3⟩ := mapP_some.1 h1
          simp at h3; omega
  · obtain ⟨⟨⟨k, n, t⟩, l⟩, h1, h2⟩ := mapP_some.1 h
    simp at h2
    obtain ⟨rfl, rfl, rfl, rfl⟩ := h2
    obtain ⟨r1, h3, _⟩ := seq_some.1 h1
    unfold listMarkerFollowedBySpaces at h3
    split at h3
    · simp at h3
    · rename_i r2 kind e
      obtain ⟨_, _, h4⟩ := mapP_some.1 h3
      simp at h4
      have : r2.length < s.length := Con.lt e
      omega

/-- The blank lines in front of a continuation line. -/
theorem blanks_stay {pl : Nat} (hpl : 0 < pl) (ht : FlushLeft t) :
    StaysOn W ('\n' :: t) (seq (recognize (many1 (lineTerminated space0)))
         (preceded (manyMN (chr ' ') pl pl) notEofOrEol1)) := by
  have hsuf : Suf (lineTerminated space0) := by unfold lineTerminated; infer_instance
  -- at the flush-left text
  have ht0 : lineTerminated space0 t = none ∨ t = [] := by
    cases t with
    | nil => exact .inr rfl
    | cons c t =>
      left
      obtain ⟨h1, h2, h3, h4⟩ := ht c rfl
      simp [lineTerminated, terminated, mapP, seq, space0, Nom.takeWhile, isSpace, h1, h2, eofOrEol, orElse, lineEnding, h3, h4, eof]
  have htail : preceded (manyMN (chr ' ') pl pl) notEofOrEol1 t = none := by
    obtain ⟨n, rfl⟩ : ∃ n, pl = n + 1 := ⟨pl - 1, by omega⟩
    cases t with
    | nil => simp [preceded, manyMN, chr, satisfy]
    | cons c t => simp [preceded, manyMN, chr, satisfy, (ht c rfl).1]
  -- the loop, once inside the blank lines
  have hend : ∀ s, lineTerminated space0 s = some ([], []) → s = [] → many0 (lineTerminated space0) s = none := by
    rintro s h rfl
    rw [many0_eq, h]; rfl
  have hnil : many0 (lineTerminated space0) [] = none := by rw [many0_eq]; rfl
  have hu : many0 (lineTerminated space0) ('\n' :: t) = none ∨
      ∃ l, many0 (lineTerminated space0) ('\n' :: t) = some (t, l) := by
    have h1 : lineTerminated space0 ('\n' :: t) = some (t, []) := rfl
    rcases ht0 with h0 | rfl
    · exact .inr ⟨_, many0_of_some h1 (by simp) (many0_of_none h0)⟩
    · left
      rw [many0_eq, h1]
      simp [hnil]
  have hs0 : StaysOn N ('\n' :: t) (lineTerminated space0) := stays_lineTerminated stays_space0 into_space0
  have loop : ∀ s, W s →
      (many0 (lineTerminated space0) s = none ∧ (many0 (lineTerminated space0) (s ++ '\n' :: t) = none ∨
        ∃ l, many0 (lineTerminated space0) (s ++ '\n' :: t) = some (t, l))) ∨
      ∃ r l, N r ∧ many0 (lineTerminated space0) s = some (r, l) ∧ many0 (lineTerminated space0) (s ++ '\n' :: t) = some (r ++ '\n' :: t, l) := by
    intro s
    induction hn : s.length using Nat.strongRecOn generalizing s with
    | _ n ih =>
    intro hs
    rcases hs.cases with rfl | hN
    · exact .inl ⟨hnil, hu⟩
    · cases e : lineTerminated space0 s with
      | none =>
        exact .inr ⟨s, [], hN, many0_of_none e, many0_of_none (hs0.none hN e)⟩
      | some y =>
        obtain ⟨r, a⟩ := y
        have hlt : r.length < s.length := by
          obtain ⟨r1, e1, h1, h2⟩ := terminated_some.1 e
          have h3 : N r1 := into_space0 _ _ _ hN h1
          have h4 := (Suf.out _ _ _ h1).length_le
          rcases orElse_some.1 h2 with h2 | ⟨_, h2⟩
          · have : r.length < r1.length := Con.lt h2
            omega
          · exact absurd (eof_some.1 h2).1 h3.ne
        have hr : W r := hs.suffix (Suf.out _ _ _ e)
        have hlt' : (r ++ '\n' :: t).length < (s ++ '\n' :: t).length := by simp only [List.length_append]; omega
        rcases ih r.length (by omega) r rfl hr with ⟨h1, h2⟩ | ⟨r', l, h1, h2, h3⟩
        · left
          refine ⟨?_, ?_⟩
          · rw [many0_eq, e]; simp [hlt, h1]
          · rcases h2 with h2 | ⟨l, h2⟩
            · left; rw [many0_eq, hs0.some hN e]; simp only; rw [if_pos hlt', h2]
            · exact .inr ⟨_, many0_of_some (hs0.some hN e) hlt' h2⟩
        · exact .inr ⟨r', _, h1, many0_of_some e hlt h2, many0_of_some (hs0.some hN e) hlt' h3⟩
  intro s hs
  rcases hs.cases with rfl | hN
  · have h1 : many1 (lineTerminated space0) [] = none := by
      unfold many1
      have : lineTerminated space0 [] = some ([], []) := rfl
      rw [this]; simp [hnil]
    have h2 : many1 (lineTerminated space0) ('\n' :: t) = none ∨
        ∃ l, many1 (lineTerminated space0) ('\n' :: t) = some (t, l) := by
      unfold many1
      have : lineTerminated space0 ('\n' :: t) = some (t, []) := rfl
      rw [this]
      rcases ht0 with h0 | rfl
      · right; simp only [many0_of_none h0]; exact ⟨_, rfl⟩
      · left; simp [hnil]
    simp only [seq, recognize, h1, List.nil_append]
    rcases h2 with h2 | ⟨l, h2⟩
    · rw [h2]; rfl
    · rw [h2]; simp only [htail]; rfl
  · -- the first line
    cases e : lineTerminated space0 s with
    | none =>
      simp only [seq, recognize, many1, e, hs0.none hN e]; rfl
    | some y =>
      obtain ⟨r, a⟩ := y
      have hr : W r := hs.suffix (Suf.out _ _ _ e)
      rcases loop r hr with ⟨h1, h2⟩ | ⟨r', l, h1, h2, h3⟩
      · have h4 : many1 (lineTerminated space0) s = none := by unfold many1; rw [e]; simp [h1]
        have h5 : many1 (lineTerminated space0) (s ++ '\n' :: t) = none ∨
            ∃ l, many1 (lineTerminated space0) (s ++ '\n' :: t) = some (t, l) := by
          unfold many1
          rw [hs0.some hN e]
          rcases h2 with h2 | ⟨l, h2⟩
          · left; simp [h2]
          · right; simp only [h2]; exact ⟨_, rfl⟩
        simp only [seq, recognize, h4]
        rcases h5 with h5 | ⟨l, h5⟩
        · rw [h5]; rfl
        · rw [h5]; simp only [htail]; rfl
      · have h4 : many1 (lineTerminated space0) s = some (r', a :: l) := many1_some.2 ⟨_, _, _, e, h2, rfl⟩
        have h5 : many1 (lineTerminated space0) (s ++ '\n' :: t) = some (r' ++ '\n' :: t, a :: l) :=
          many1_some.2 ⟨_, _, _, hs0.some hN e, h3, rfl⟩
        have h6 : StaysOn N ('\n' :: t) (preceded (manyMN (chr ' ') pl pl) notEofOrEol1) :=
          stays_preceded (D' := N) (stays_spaces _ _) (into_spaces _ _) stays_notEofOrEol1.n
        obtain ⟨w, hw⟩ := Suf.out (p := many1 (lineTerminated space0)) _ _ _ h4
        simp only [seq, recognize, h4, h5, h6 r' h1]
        have hrec : (s ++ '\n' :: t).take ((s ++ '\n' :: t).length - (r' ++ '\n' :: t).length) = s.take (s.length - r'.length) := by
          rw [← hw]; simp
        rw [hrec]
        cases preceded (manyMN (chr ' ') pl pl) notEofOrEol1 r' <;> rfl

theorem into_blanks {pl : Nat} : Into N (seq (recognize (many1 (lineTerminated space0)))
         (preceded (manyMN (chr ' ') pl pl) notEofOrEol1)) N := by
  have hsuf : Suf (lineTerminated space0) := by unfold lineTerminated; infer_instance
  intro s r a hs e
  obtain ⟨r1, h1, h2⟩ := seq_some.1 e
  have hw : W r1 := hs.w.suffix (Suf.out _ _ _ h1)
  rcases hw.cases with rfl | hN
  · exfalso
    obtain ⟨r2, _, h3, h4⟩ := preceded_some.1 h2
    have := Suf.out _ _ _ h3
    have h5 : r2 = [] := by simpa using this
    subst h5
    simp [notEofOrEol1, recognize, many1, preceded, notP, eofOrEol, orElse, lineEnding, eof] at h4
  · exact into_preceded (into_spaces _ _) into_notEofOrEol1 _ _ _ hN h2

theorem stays_restLine {kind : ListKind} {pl : Nat} (hpl : 0 < pl) (ht : FlushLeft t) :
    StaysOn W ('\n' :: t) (listItemRestLine kind pl) := by
  have hg : StaysOn N ('\n' :: t) (notP (value () thematicBreakP <||>
      value () (seq (verify (recognize (manyMN (chr ' ') 0 pl)) (fun i => i.length < pl))
        (sameKindMarker kind)))) :=
    stays_notP (stays_orElse (stays_value stays_thematic.n) (stays_value (stays_seq (D' := N)
      (stays_verify (stays_recognize (stays_spaces _ _))) (into_verify (into_recognize (into_spaces _ _)))
      (stays_sameKind kind)))).agrees
  have hb : StaysOn N ('\n' :: t) (preceded (manyMN (chr ' ') 0 pl) (mapP notEofOrEol1 (fun v => [v])) <||>
     mapP (seq (recognize (many1 (lineTerminated space0)))
         (preceded (manyMN (chr ' ') pl pl) notEofOrEol1))
       (fun x => [x.1, x.2])) :=
    stays_orElse (stays_preceded (D' := N) (stays_spaces _ _) (into_spaces _ _) (stays_mapP stays_notEofOrEol1.n))
      (stays_mapP (blanks_stay hpl ht).n)
  have hi : Into N (preceded (manyMN (chr ' ') 0 pl) (mapP notEofOrEol1 (fun v => [v])) <||>
     mapP (seq (recognize (many1 (lineTerminated space0)))
         (preceded (manyMN (chr ' ') pl pl) notEofOrEol1))
       (fun x => [x.1, x.2])) N :=
    into_orElse (into_preceded (into_spaces _ _) (into_mapP into_notEofOrEol1)) (into_mapP into_blanks)
  intro s hs
  rcases hs.cases with rfl | hN
  · simp only [listItemRestLine, List.nil_append, List.isEmpty_nil, List.isEmpty_cons, if_true]
    have h1 : seq (recognize (many1 (lineTerminated space0)))
         (preceded (manyMN (chr ' ') pl pl) notEofOrEol1) ('\n' :: t) = none := by
      have := blanks_stay hpl ht [] hs
      rw [List.nil_append] at this
      rw [this]
      have hnil : many0 (lineTerminated space0) [] = none := by rw [many0_eq]; rfl
      have : many1 (lineTerminated space0) [] = none := by
        unfold many1
        have : lineTerminated space0 [] = some ([], []) := rfl
        rw [this]; simp [hnil]
      simp [seq, recognize, this]
    have h2 : preceded (manyMN (chr ' ') 0 pl) (mapP notEofOrEol1 (fun v => [v])) ('\n' :: t) = none := by
      obtain ⟨n, rfl⟩ : ∃ n, pl = n + 1 := ⟨pl - 1, by omega⟩
      simp [preceded, manyMN, chr, satisfy, mapP, notEofOrEol1, recognize, many1, notP, eofOrEol, orElse, lineEnding]
    simp only [Bool.false_eq_true, if_false, Option.map_none]
    refine terminated_none ?_
    unfold preceded
    split
    · rename_i e
      obtain ⟨_, rfl⟩ := notP_some.1 e
      exact orElse_none.2 ⟨h2, mapP_none.2 h1⟩
    · rfl
  · unfold listItemRestLine
    have h1 : s.isEmpty = false := by simpa using hN.ne
    have h2 : (s ++ '\n' :: t).isEmpty = false := by simp
    rw [h1, h2]
    simp only [Bool.false_eq_true, if_false]
    exact stays_lineTerminated (stays_preceded (D' := N) hg (into_notP fun _ h => h) hb)
      (into_preceded (D' := N) (into_notP fun _ h => h) hi) s hN

instance (k : ListKind) (n : Nat) : Con (listItemRestLine k n) :=
  ⟨fun s r a h => ⟨Suf.out _ _ _ h, listItemRestLine_lt h⟩⟩

theorem stays_item (ht : FlushLeft t) : StaysOn W ('\n' :: t) (listItemP rec) := by
  intro s hs
  unfold listItemP
  rw [stays_withSpan s hs]
  cases e : listMarkerWithSpanSize s with
  | none => rfl
  | some y =>
    obtain ⟨s1, kind, pl, task, first⟩ := y
    simp only [Option.map_some]
    have h1 : StaysOn W ('\n' :: t) (listItemLines kind pl) :=
      stays_many0 (stays_restLine (withSpan_pos e) ht) into_suf
    rw [h1 s1 (into_suf _ _ _ hs e)]
    cases listItemLines kind pl s1 with
    | none => rfl
    | some z =>
      simp only [Option.map_some]
      cases blocks0 rec (itemContent first z.2) <;> rfl

theorem stays_list (ht : FlushLeft t) : StaysOn W ('\n' :: t) (listP rec) := by
  intro s hs
  unfold listP
  rw [stays_many1 (stays_item ht) into_suf s hs]
  cases many1 (listItemP rec) s with
  | none => rfl
  | some y =>
    obtain ⟨r, l⟩ := y
    cases l with
    | nil => rfl
    | cons a l => rfl

/-! ## Footnotes -/

/-- Brackets at the beginning of the text are closed. -/
def Cl0 (s : Str) : Prop := N s ∧ ∀ k l, k ≤ 3 → s = sp k ++ '[' :: l → labelCloses l = true
/-- A bracket in front is closed. -/
def Cl1 (s : Str) : Prop := N s ∧ ∀ l, s = '[' :: l → labelCloses l = true

theorem into_cl1 : Into Cl0 indent03 Cl1 := by
  intro s r a hs h
  refine ⟨into_indent03 _ _ _ hs.1 h, ?_⟩
  rintro l rfl
  obtain ⟨k, hk, _, rfl, _⟩ := indent03_written h
  exact hs.2 k l hk rfl

theorem labelCloses_mem {l : Str} (h : labelCloses l = true) : ']' ∈ l := by
  fun_induction labelCloses l with
  | case1 => simp at h
  | case2 t ih => simp
  | case3 t => simp
  | case4 c t _ _ ih => simp [ih h]

theorem stays_footnote : StaysOn Cl0 ('\n' :: t) (footnoteDefinitionP rec) := by
  have hD : Into Cl1 (tag cs!"[^") (fun s => N s ∧ ']' ∈ s) := by
    intro s r a hs h
    refine ⟨into_tag (by decide) _ _ _ hs.1 h, ?_⟩
    obtain ⟨rfl, _⟩ := tag_some.1 h
    have := labelCloses_mem (hs.2 _ rfl)
    simpa using this
  have hlab : StaysOn (fun s => N s ∧ ']' ∈ s) ('\n' :: t) (noneOf cs!"]") := fun s hs => stays_satisfyN s hs.1
  have hlab' : Into (fun s => N s ∧ ']' ∈ s) (noneOf cs!"]") (fun s => N s ∧ ']' ∈ s) := by
    intro s r a hs h
    have hw : W r := hs.1.w.suffix (Suf.out _ _ _ h)
    have hm : ']' ∈ r := by
      cases s with
      | nil => simp [noneOf, satisfy] at h
      | cons c s =>
        simp [noneOf, satisfy] at h
        obtain ⟨hc, rfl, rfl⟩ := h
        have := hs.2
        simp at this
        rcases this with h | h
        · exact absurd h.symm hc
        · exact h
    exact ⟨⟨hw, by rintro rfl; simp at hm⟩, hm⟩
  have h1 : StaysOn Cl0 ('\n' :: t) (preceded indent03 (preceded (tag cs!"[^")
      (terminated (recognize (many1 (noneOf cs!"]"))) (tag cs!"]:")))) :=
    stays_preceded (D' := Cl1) stays_indent03 into_cl1 (stays_preceded (stays_tag (by decide)) hD
      (stays_terminated (stays_recognize (stays_many1 hlab hlab')) (into_recognize (into_many1 hlab')) (stays_tag (by decide))))
  have h2 : Into Cl0 (preceded indent03 (preceded (tag cs!"[^")
      (terminated (recognize (many1 (noneOf cs!"]"))) (tag cs!"]:")))) N :=
    into_preceded into_cl1 (into_preceded hD (into_terminated (into_recognize (into_many1 hlab'))
      ((into_tag (by decide)).mono fun s h => h.1)))
  have h3 : StaysOn N ('\n' :: t) (preceded indent03 (lineTerminated notEofOrEol1)) :=
    stays_preceded (D' := N) stays_indent03 into_indent03 stays_line1.n
  have h4 : StaysOn W ('\n' :: t) (many0 (preceded (manyMN (chr ' ') 3 3) (lineTerminated notEofOrEol1))) := by
    refine stays_many0 (StaysOn.all ?_ ⟨rfl, rfl⟩) into_suf
    exact stays_preceded (D' := N) (stays_spaces _ _) (into_spaces _ _) stays_line1.n
  intro s hs
  unfold footnoteDefinitionP
  rw [h1 s hs]
  cases e : preceded indent03 (preceded (tag cs!"[^")
      (terminated (recognize (many1 (noneOf cs!"]"))) (tag cs!"]:"))) s with
  | none => rfl
  | some y =>
    obtain ⟨s1, label⟩ := y
    simp only [Option.map_some]
    have hs1 := h2 _ _ _ hs e
    rw [h3 s1 hs1]
    cases e2 : preceded indent03 (lineTerminated notEofOrEol1) s1 with
    | none => rfl
    | some z =>
      obtain ⟨s2, first⟩ := z
      simp only [Option.map_some]
      rw [h4 s2 (into_suf _ _ _ hs1.w e2)]
      cases many0 (preceded (manyMN (chr ' ') 3 3) (lineTerminated notEofOrEol1)) s2 with
      | none => rfl
      | some z' =>
        simp only [Option.map_some]
        cases blocks0 rec (itemContent first (z'.2.map (fun l => [l]))) <;> rfl

end
end Verif
