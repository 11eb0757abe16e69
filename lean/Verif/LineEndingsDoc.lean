import Verif.LineEndingsLink
import Verif.ParserShape
/-!
# Windows and Unix line endings (C76): containers and documents
-/
set_option linter.unusedVariables false
set_option linter.unusedSimpArgs false
namespace Verif
open Nom

section
variable {x : PExt} {cfg : PConfig} {K : Traps}

/-! ## Contents of containers -/

theorem many0_origin {α : Type} {p : P α} [Suf p] {s r : Str} {l : List α} (h : many0 p s = some (r, l)) :
    ∀ a ∈ l, ∃ s' r', s' <:+ s ∧ p s' = some (r', a) := by
  refine many0_induction (p := p) (M := fun s r l => ∀ a ∈ l, ∃ s' r', s' <:+ s ∧ p s' = some (r', a)) ?_ ?_ s r l h
  · intro s _ a ha; simp at ha
  · intro s r a r' l e _ _ ih b hb
    rcases List.mem_cons.1 hb with rfl | hb
    · exact ⟨s, r, List.suffix_refl _, e⟩
    · obtain ⟨s', r'', h1, h2⟩ := ih b hb
      exact ⟨s', r'', h1.trans (Suf.out _ _ _ e), h2⟩

theorem many1_origin {α : Type} {p : P α} [Suf p] {s r : Str} {l : List α} (h : many1 p s = some (r, l)) :
    ∀ a ∈ l, ∃ s' r', s' <:+ s ∧ p s' = some (r', a) := by
  obtain ⟨r1, a, l', h1, h2, rfl⟩ := many1_some.1 h
  intro b hb
  rcases List.mem_cons.1 hb with rfl | hb
  · exact ⟨s, r1, List.suffix_refl _, h1⟩
  · obtain ⟨s', r', h3, h4⟩ := many0_origin h2 b hb
    exact ⟨s', r', h3.trans (Suf.out _ _ _ h1), h4⟩

theorem LineTail.trans {l v s : Str} (h1 : LineTail l v) (h2 : LineTail v s) : LineTail l s := by
  obtain ⟨h3, u, r, rfl, h4⟩ := h1
  obtain ⟨h5, u', r', rfl, h6⟩ := h2
  rcases h4 with rfl | ⟨r1, rfl⟩
  · exact ⟨h3, u' ++ u, r', by simp, h6⟩
  · exfalso; apply h5; simp

theorem Tails.of_line {l s : Str} (h : LineTail l s) : Tails l s := fun _ hk => .inr (hk.trans h)
theorem Tails.nil {s : Str} : Tails [] s := by
  intro l hl
  obtain ⟨_, u, r, h, _⟩ := hl
  left
  have : l = [] := by
    have := congrArg List.length h
    simp at this
    exact List.eq_nil_of_length_eq_zero (by omega)
  subst this; simp
theorem Tails.suffix {t r s : Str} (h : Tails t r) (hr : r <:+ s) : Tails t s := by
  intro l hl
  rcases h l hl with h | h
  · exact .inl h
  · exact .inr (h.suffix hr)

/-- A line followed by its end. -/
theorem line0_tail {s r l : Str} (hs : '\r' ∉ s) (h : lineTerminated notEofOrEol0 s = some (r, l)) :
    LineTail l s := by
  obtain ⟨r1, b, h1, h2⟩ := terminated_some.1 h
  have h3 := notEofOrEol0_append h1
  refine ⟨?_, [], r1, by simp [h3], ?_⟩
  · unfold notEofOrEol0 at h1
    rcases orElse_some.1 h1 with h1 | ⟨_, h1⟩
    · obtain ⟨_, rfl⟩ := notLineEnding_some h1
      intro hm
      exact absurd (List.all_eq_true.1 (List.all_takeWhile (l := s) (p := notCrLf)) _ hm) (by decide)
    · obtain ⟨_, _, rfl⟩ := eof_some.1 h1; simp
  · rcases eofOrEol_some.1 h2 with h4 | h4 | h4
    · exact .inr ⟨r, h4.1⟩
    · exfalso; apply hs; rw [← h3, h4.1]; simp
    · exact .inl h4.1

theorem line1_tail {s r1 r l b : Str} (hs : '\r' ∉ s) (h1 : notEofOrEol1 s = some (r1, l))
    (h2 : eofOrEol r1 = some (r, b)) : LineTail l s := by
  have h3 := notEofOrEol1_append h1
  refine ⟨(notEofOrEol1_ok h1).2, [], r1, by simp [h3], ?_⟩
  rcases eofOrEol_some.1 h2 with h4 | h4 | h4
  · exact .inr ⟨r, h4.1⟩
  · exfalso; apply hs; rw [← h3, h4.1]; simp
  · exact .inl h4.1

theorem noCr_suffix {r s : Str} (h : '\r' ∉ s) (hr : r <:+ s) : '\r' ∉ r := fun hm => h (hr.subset hm)

theorem UOk.of_tails {s t : Str} (hs : UOk K s) (ht : CrOk t) (h : Tails (unix t) (unix s)) : UOk K t :=
  ⟨ht, hs.2.of h⟩

theorem quoteLines_tails {s r : Str} {ls : List Str} (hs : '\r' ∉ s) (h : quoteLines s = some (r, ls)) :
    ∀ l ∈ ls, LineTail l s := by
  intro l hl
  obtain ⟨s', r', h1, h2⟩ := many1_origin h l hl
  obtain ⟨r1, b, h3, h4⟩ := preceded_some.1 h2
  have h5 := (Suf.out _ _ _ h3).trans h1
  exact (line0_tail (noCr_suffix hs h5) h4).suffix h5

theorem LineTail.noCr {l s : Str} (h : LineTail l s) (hs : '\r' ∉ s) : '\r' ∉ l := by
  obtain ⟨_, u, r, rfl, _⟩ := h
  intro hm; apply hs; simp [hm]

theorem joinWith_noCr : ∀ ls : List Str, (∀ l ∈ ls, '\r' ∉ l) → '\r' ∉ joinWith ['\n'] ls
  | [], _ => by simp [joinWith]
  | [a], h => by simpa [joinWith] using h a (by simp)
  | a :: b :: ls, h => by
    have := joinWith_noCr (b :: ls) fun l hl => h l (by simp at hl ⊢; exact .inr hl)
    have h1 := h a (by simp)
    rw [show joinWith ['\n'] (a :: b :: ls) = a ++ ['\n'] ++ joinWith ['\n'] (b :: ls) from rfl]
    simp only [List.mem_append, not_or]
    exact ⟨⟨h1, by decide⟩, this⟩

/-- The text of a quote. -/
theorem quote_ok {s : Str} {ls : List Str} (hs : UOk K s) (h : ∀ l ∈ ls, LineTail l (unix s)) :
    UOk K (joinWith ['\n'] ls) ∧ unix (joinWith ['\n'] ls) = joinWith ['\n'] ls := by
  have h1 : '\r' ∉ joinWith ['\n'] ls := joinWith_noCr ls fun l hl => (h l hl).noCr (unix_noCr s)
  refine ⟨hs.of_tails (.of_noCr h1) ?_, unix_id h1⟩
  rw [unix_id h1]
  intro l hl
  rcases hl.joinWith with rfl | ⟨y, hy, hl⟩
  · exact .inl (by simp)
  · exact .inr (hl.trans (h y hy))

variable {rec : P (List Block)}

theorem flatten_unix (l : List (List Block)) : (l.map (List.map unixBlock)).flatten = unixBlocks l.flatten := by
  rw [unixBlocks_eq, List.map_flatten]

theorem same_blocks1 [Con rec] (hr : Same K (List.map unixBlock) rec) {t : Str} (ht : UOk K t) :
    blocks1 rec (unix t) = (blocks1 rec t).map unixBlocks := by
  unfold blocks1
  rw [same_many1c hr t ht]
  cases many1 rec t with
  | none => rfl
  | some y => simp [flatten_unix]

theorem same_blocks0 [Con rec] (hr : Same K (List.map unixBlock) rec) {t : Str} (ht : UOk K t) :
    blocks0 rec (unix t) = (blocks0 rec t).map unixBlocks := by
  unfold blocks0
  rw [same_many0c hr t ht]
  cases many0 rec t with
  | none => rfl
  | some y => simp [flatten_unix]

/-! ## Quotes -/

theorem same_quotePrefix : Same K id quotePrefix :=
  same_preceded same_indent03 (same_chr (by decide) (by decide))

theorem same_quoteLines : Same K id quoteLines :=
  same_many1_id (same_preceded same_quotePrefix (same_lineTerminated same_line0))

theorem same_blockquote [Con rec] (hr : Same K (List.map unixBlock) rec) : Same K unixBlock (blockquoteP rec) := by
  refine same_mapOpt same_quoteLines ?_
  intro s r ls hs e
  have e2 := same_quoteLines.some hs e
  obtain ⟨h1, h2⟩ := quote_ok (ls := ls) hs (quoteLines_tails (unix_noCr s) e2)
  have := same_blocks1 hr h1
  rw [h2] at this
  simp only [id]
  conv => lhs; rw [this]
  cases blocks1 rec (joinWith ['\n'] ls) <;> simp [unixBlock]

theorem same_alert [Con rec] (hr : Same K (List.map unixBlock) rec) :
    Same K (List.map unixBlock) (githubAlertP x rec) := by
  intro s hs
  unfold githubAlertP
  have h1 : Same K id (preceded (seq quotePrefix (opt (chr ' '))) (lineTerminated notEofOrEol0)) :=
    same_preceded (same_seq same_quotePrefix (same_opt (same_chr (by decide) (by decide))))
      (same_lineTerminated same_line0)
  rw [h1 s hs]
  cases preceded (seq quotePrefix (opt (chr ' '))) (lineTerminated notEofOrEol0) s with
  | none => rfl
  | some y =>
    obtain ⟨r0, first⟩ := y
    simp only [Option.map_some, id]
    cases parseAlertMarker x (trim first) with
    | none => rfl
    | some t =>
      simp only []
      rw [same_quoteLines s hs]
      cases e : quoteLines s with
      | none => rfl
      | some z =>
        obtain ⟨r, ls⟩ := z
        simp only [Option.map_some, id]
        split
        · rfl
        · have e2 := same_quoteLines.some hs e
          obtain ⟨h1, h2⟩ := quote_ok (ls := ls.drop 1) hs
            (fun l hl => quoteLines_tails (unix_noCr s) e2 l (List.drop_subset _ _ hl))
          have := same_blocks1 hr h1
          rw [h2] at this
          conv => lhs; rw [this]
          cases blocks1 rec (joinWith ['\n'] (ls.drop 1)) <;> simp [unixBlock]

/-! ## Lists -/

theorem same_taskState : Same K id listItemTaskState :=
  same_delimited (same_chr (by decide) (by decide)) (same_orElse (same_value (same_oneOf (by decide) (by decide)) rfl)
    (same_value (same_chr (by decide) (by decide)) rfl)) (same_chr (by decide) (by decide))

theorem same_ordered : Same K id listMarkerOrdered :=
  same_mapP (same_terminated same_u64 (same_oneOf (by decide) (by decide))) fun _ => rfl

theorem same_marker : Same K id listMarker :=
  same_orElse same_ordered (same_orElse (same_value (same_chr (by decide) (by decide)) rfl)
    (same_orElse (same_value (same_chr (by decide) (by decide)) rfl) (same_value (same_chr (by decide) (by decide)) rfl)))

theorem dry_u64 : Dry K u64P := by
  intro s r a hs e
  unfold u64P digit1 at e
  cases h : takeWhile1 isDigit s with
  | none => rw [h] at e; cases e
  | some y =>
    rw [h] at e
    simp only [] at e
    split at e
    · cases e; exact dry_takeWhile1 (by decide) s _ _ hs h
    · cases e

theorem dry_marker : Dry K listMarker :=
  dry_orElse (dry_mapP (dry_terminated dry_u64 (dry_oneOf (by decide))))
    (dry_orElse (dry_value (dry_chr (by decide))) (dry_orElse (dry_value (dry_chr (by decide)))
      (dry_value (dry_chr (by decide)))))

theorem same_markerSpaces : Same K id listMarkerFollowedBySpaces := by
  intro s hs
  unfold listMarkerFollowedBySpaces
  have h1 : Same K id (delimited indent03 listMarker (manyMN (chr ' ') 1 4)) :=
    same_delimited same_indent03 same_marker (same_sp 1 4)
  have h2 : Dry K (delimited indent03 listMarker (manyMN (chr ' ') 1 4)) :=
    dry_delimited dry_indent03 dry_marker (dry_manyMN (dry_chr (by decide)) _ _)
  rw [h1 s hs]
  cases e : delimited indent03 listMarker (manyMN (chr ' ') 1 4) s with
  | none => rfl
  | some y =>
    obtain ⟨r, k⟩ := y
    simp only [Option.map_some, id]
    rw [h2.length h1 hs e]
    have hr := hs.suffix (Suf.out _ _ _ e)
    exact same_mapP (h := id) (same_opt (same_terminated same_taskState (same_chr (by decide) (by decide))))
      (fun a => by simp) r hr

theorem same_markerNewline : Same K id listMarkerFollowedByNewline := by
  intro s hs
  unfold listMarkerFollowedByNewline
  have h1 : Same K id (preceded indent03 listMarker) := same_preceded same_indent03 same_marker
  have h2 : Dry K (preceded indent03 listMarker) := dry_preceded dry_indent03 dry_marker
  rw [h1 s hs]
  cases e : preceded indent03 listMarker s with
  | none => rfl
  | some y =>
    obtain ⟨r, k⟩ := y
    simp only [Option.map_some, id]
    have hr := hs.suffix (Suf.out _ _ _ e)
    rw [same_blank r hr]
    cases e2 : lineTerminated space0 r with
    | some z =>
      simp only [Option.map_some]
      rw [h2.length h1 hs e]
    | none =>
      simp only [Option.map_none]
      rw [same_indent03 r hr]
      cases e3 : indent03 r with
      | none => rfl
      | some z =>
        obtain ⟨r2, w⟩ := z
        simp only [Option.map_some, id]
        have h3 : Same K id (seq (preceded indent03 listMarker) indent03) := same_seq h1 same_indent03
        have h4 : Dry K (seq (preceded indent03 listMarker) indent03) := dry_seq h2 dry_indent03
        rw [h4.length h3 hs (r := r2) (a := (k, w)) (seq_some.2 ⟨r, e, e3⟩)]
        exact same_mapP (h := id) (k := fun t => (k, s.length - r2.length + 1, some t)) (same_lineTerminated same_taskState) (fun a => rfl) r2
          (hr.suffix (Suf.out _ _ _ e3))

theorem same_markerWithSize : Same K id listMarkerWithSpanSize :=
  same_orElse (same_mapP same_markerNewline fun _ => rfl)
    (same_mapP (same_seq same_markerSpaces (same_lineTerminated same_line0)) fun _ => rfl)

theorem same_sameKind (k : ListKind) : Same K id (sameKindMarker k) := by
  unfold sameKindMarker
  split
  · exact same_ordered
  · exact same_value (same_chr (by decide) (by decide)) rfl
  · exact same_value (same_chr (by decide) (by decide)) rfl
  · exact same_value (same_chr (by decide) (by decide)) rfl

theorem same_blankLines : Same K unix (recognize (many1 (lineTerminated space0))) :=
  same_recognize (same_many1 same_blank (sameLen_ne same_blank fun s r a => blank_ne))

theorem same_restLine (k : ListKind) (pl : Nat) : Same K (List.map unix) (listItemRestLine k pl) := by
  intro s hs
  unfold listItemRestLine
  have he : (unix s).isEmpty = s.isEmpty := by
    have := unix_eq_nil hs.1
    rw [Bool.eq_iff_iff]; simpa using this
  rw [he]
  split
  · rfl
  · refine same_lineTerminated (same_preceded (same_notP (f := id) ?_) (same_orElse ?_ ?_)) s hs
    · exact same_orElse (same_unit same_thematicBreak) (same_unit (same_seq
        (same_verify (same_recognize_id (same_sp 0 pl) (dry_manyMN (dry_chr (by decide)) _ _)) fun _ => rfl)
        (same_sameKind k)))
    · exact same_preceded (same_sp 0 pl) (same_mapP same_line1_unix fun _ => rfl)
    · exact same_mapP (same_seq same_blankLines (same_preceded (same_sp pl pl) same_line1_unix)) fun _ => rfl

theorem restLine_lt {k : ListKind} {pl : Nat} {s r : Str} {l : List Str}
    (h : listItemRestLine k pl s = some (r, l)) : r.length < s.length := by
  have hne : s ≠ [] := by rintro rfl; rw [listItemRestLine_nil] at h; cases h
  have hpos : 0 < s.length := List.length_pos_iff.2 hne
  rcases listItemRestLine_length h with h | ⟨_, rfl⟩
  · omega
  · simpa using hpos

theorem same_itemLines (k : ListKind) (pl : Nat) :
    Same K (List.map (List.map unix)) (listItemLines k pl) :=
  same_many0 (same_restLine k pl) (sameLen_ne (same_restLine k pl) fun s r a _ => restLine_lt)

/-- The blank lines before a line. -/
theorem blank_run : ∀ s r l, many0 (lineTerminated space0) s = some (r, l) → '\r' ∉ s →
    ∃ u, s = u ++ r ∧ (∀ c ∈ u, isSpace c = true ∨ c = '\n') ∧ (r ≠ [] → u = [] ∨ ∃ u0, u = u0 ++ ['\n']) := by
  refine many0_induction (M := fun s r l => '\r' ∉ s →
    ∃ u, s = u ++ r ∧ (∀ c ∈ u, isSpace c = true ∨ c = '\n') ∧ (r ≠ [] → u = [] ∨ ∃ u0, u = u0 ++ ['\n'])) ?_ ?_
  · intro s _ _; exact ⟨[], rfl, by simp, fun _ => .inl rfl⟩
  · intro s r a r' l e _ hm ih hs
    have hr := Suf.out _ _ _ e
    obtain ⟨u, rfl, h1, h2⟩ := ih (noCr_suffix hs hr)
    obtain ⟨r1, b, h3, h4⟩ := terminated_some.1 e
    have hb : s = a ++ r1 ∧ ∀ c ∈ a, isSpace c = true := by
      simp only [space0, Nom.takeWhile, Option.some.injEq, Prod.mk.injEq] at h3
      rw [← h3.1, ← h3.2]
      exact ⟨by simp, fun c hc => List.all_eq_true.1 (List.all_takeWhile (l := s) (p := isSpace)) _ hc⟩
    obtain ⟨rfl, hb⟩ := hb
    rcases eofOrEol_some.1 h4 with h5 | h5 | h5
    · have := h5.1; subst this
      refine ⟨a ++ ['\n'] ++ u, by simp, ?_, ?_⟩
      · intro c hc
        simp only [List.mem_append, List.mem_singleton] at hc
        rcases hc with (hc | hc) | hc
        · exact .inl (hb c hc)
        · exact .inr hc
        · exact h1 c hc
      · intro hne
        rcases h2 hne with rfl | ⟨u0, rfl⟩
        · exact .inr ⟨a, by simp⟩
        · exact .inr ⟨a ++ ['\n'] ++ u0, by simp⟩
    · have := h5.1; subst this
      exfalso; apply hs; simp
    · obtain ⟨rfl, h6, _⟩ := h5
      have h7 : u = [] ∧ r' = [] := by simpa using h6
      obtain ⟨rfl, rfl⟩ := h7
      exact ⟨a, by simp, fun c hc => .inl (hb c hc), fun h => absurd rfl h⟩

theorem blank_run1 {s r : Str} {l : Str} (h : recognize (many1 (lineTerminated space0)) s = some (r, l)) (hs : '\r' ∉ s)
    (hr : r ≠ []) : s = l ++ r ∧ (∀ c ∈ l, isSpace c = true ∨ c = '\n') ∧ (l = [] ∨ ∃ u0, l = u0 ++ ['\n']) := by
  have happ := recognize_append h
  obtain ⟨v, h1, _⟩ := recognize_some.1 h
  obtain ⟨r1, a, l', h2, h3, _⟩ := many1_some.1 h1
  have hlt : r1.length < s.length := by
    refine blank_ne ?_ h2
    rintro rfl
    have := (Suf.out _ _ _ h3).trans (Suf.out _ _ _ h2)
    exact hr (List.eq_nil_of_length_eq_zero (by simpa using this.length_le))
  have hm : many0 (lineTerminated space0) s = some (r, a :: l') := by
    rw [many0_eq, h2]
    simp only [if_pos hlt, h3]
  obtain ⟨u, hu, h4, h5⟩ := blank_run _ _ _ hm hs
  have : l = u := by
    rw [hu] at happ
    exact List.append_cancel_right happ
  subst this
  exact ⟨happ.symm, h4, h5 hr⟩

/-- The lines of an item in a text without carriage returns. -/
theorem restLine_tails {k : ListKind} {pl : Nat} {s r : Str} {l : List Str} (hs : '\r' ∉ s)
    (h : listItemRestLine k pl s = some (r, l)) : Tails l.flatten s := by
  unfold listItemRestLine at h
  split at h
  · cases h
  · obtain ⟨r1, b, h1, h2⟩ := terminated_some.1 h
    obtain ⟨r2, c, h3, h4⟩ := preceded_some.1 h1
    obtain ⟨_, rfl⟩ := notP_some.1 h3
    rcases orElse_some.1 h4 with h4 | ⟨_, h4⟩
    · obtain ⟨r3, c, h5, h6⟩ := preceded_some.1 h4
      obtain ⟨v, h6', rfl⟩ := mapP_some.1 h6
      have hsuf := Suf.out _ _ _ h5
      have := line1_tail (noCr_suffix hs hsuf) h6' h2
      simp only [List.flatten_cons, List.flatten_nil, List.append_nil]
      exact Tails.of_line (this.suffix hsuf)
    · obtain ⟨⟨u, v⟩, h5, rfl⟩ := mapP_some.1 h4
      obtain ⟨r3, h6, h7⟩ := seq_some.1 h5
      obtain ⟨r4, c, h8, h9⟩ := preceded_some.1 h7
      have hsuf := (Suf.out _ _ _ h8).trans (Suf.out _ _ _ h6)
      have hv := (line1_tail (noCr_suffix hs hsuf) h9 h2).suffix hsuf
      have hr3 : r3 ≠ [] := by
        rintro rfl
        have h10 := Suf.le h8
        have h11 := Con.lt h9
        simp at h10
        subst h10
        simp at h11
      obtain ⟨_, h10, h11⟩ := blank_run1 h6 hs hr3
      simp only [List.flatten_cons, List.flatten_nil, List.append_nil]
      rcases h11 with rfl | ⟨u0, rfl⟩
      · exact Tails.of_line hv
      · intro l hl
        rw [List.append_assoc] at hl
        rcases hl.append with hl | hl
        · left
          obtain ⟨h12, w, w', rfl, _⟩ := hl
          intro c hc
          rcases h10 c (by simp [hc]) with h | rfl
          · exact h
          · exact absurd hc h12
        · exact .inr (hl.trans hv)

theorem restLine_crOk {k : ListKind} {pl : Nat} {s r : Str} {l : List Str} (hs : UOk K s)
    (h : listItemRestLine k pl s = some (r, l)) : CrOk l.flatten := by
  unfold listItemRestLine at h
  split at h
  · cases h
  · obtain ⟨r1, b, h1, h2⟩ := terminated_some.1 h
    obtain ⟨r2, c, h3, h4⟩ := preceded_some.1 h1
    obtain ⟨_, rfl⟩ := notP_some.1 h3
    have line : ∀ s r l, UOk K s → notEofOrEol1 s = some (r, l) → '\r' ∉ l := by
      intro s r l hs h
      have h := notEofOrEol1_append (same_line1.some hs h)
      intro hm
      apply unix_noCr s
      rw [← h]
      simp; exact .inl hm
    rcases orElse_some.1 h4 with h4 | ⟨_, h4⟩
    · obtain ⟨r3, c, h5, h6⟩ := preceded_some.1 h4
      obtain ⟨v, h6', rfl⟩ := mapP_some.1 h6
      simp only [List.flatten_cons, List.flatten_nil, List.append_nil]
      exact .of_noCr (line _ _ _ (hs.suffix (Suf.out _ _ _ h5)) h6')
    · obtain ⟨⟨u, v⟩, h5, rfl⟩ := mapP_some.1 h4
      obtain ⟨r3, h6, h7⟩ := seq_some.1 h5
      obtain ⟨r4, c, h8, h9⟩ := preceded_some.1 h7
      have hr3 := hs.suffix (Suf.out _ _ _ h6)
      have hv := line _ _ _ (hr3.suffix (Suf.out _ _ _ h8)) h9
      simp only [List.flatten_cons, List.flatten_nil, List.append_nil]
      refine CrOk.append ?_ (.of_noCr hv)
      have happ := recognize_append h6
      simp only at happ
      intro t ht
      obtain ⟨w, hw⟩ := ht
      have h10 := hs.1 (t ++ r3) ⟨w, by rw [← happ, ← hw]; simp⟩
      cases t with
      | cons d t => simpa using h10
      | nil =>
        exfalso
        simp only [List.nil_append] at h10
        cases r3 with
        | nil => simp at h10
        | cons d r3 =>
          simp only [List.head?_cons, Option.some.injEq] at h10
          subst h10
          cases pl with
          | zero =>
            simp only [manyMN, Option.some.injEq, Prod.mk.injEq] at h8
            rw [← h8.1] at h9
            exact absurd ((notEofOrEol1_ok h9).2) (by
              have := notEofOrEol1_append h9
              have hne := (notEofOrEol1_ok h9).1
              cases v with
              | nil => exact absurd rfl hne
              | cons e v => simp at this; simp [this.1])
          | succ pl =>
            have : manyMN (chr ' ') (pl + 1) (pl + 1) ('\n' :: r3) = none := by
              simp [manyMN, chr_ne]
            rw [this] at h8
            cases h8

theorem itemContent_cons (first : Str) (l : List Str) (rest : List (List Str)) :
    itemContent first (l :: rest) = first ++ '\n' :: itemContent l.flatten rest := by
  simp [itemContent]

theorem itemContent_tails {s : Str} : ∀ (rest : List (List Str)) (first : Str), Tails first s →
    (∀ l ∈ rest, Tails l.flatten s) → Tails (itemContent first rest) s
  | [], first, h, _ => by simpa [itemContent] using h
  | l :: rest, first, h, hr => by
    intro t ht
    rw [itemContent_cons] at ht
    rcases ht.append with ht | ht
    · exact h t ht
    · exact itemContent_tails rest l.flatten (hr l (by simp)) (fun m hm => hr m (by simp [hm])) t ht

theorem itemContent_crOk : ∀ (rest : List (List Str)) (first : Str), CrOk first →
    (∀ l ∈ rest, CrOk l.flatten) → CrOk (itemContent first rest)
  | [], first, h, _ => by simpa [itemContent] using h
  | l :: rest, first, h, hr => by
    rw [itemContent_cons]
    exact h.append (.cons (fun h => absurd h (by decide)) (itemContent_crOk rest l.flatten (hr l (by simp)) fun m hm => hr m (by simp [hm])))

theorem itemContent_unix : ∀ (rest : List (List Str)) (first : Str), '\r' ∉ first →
    unix (itemContent first rest) = itemContent first (rest.map (List.map unix)) := by
  have key : ∀ (rest : List (List Str)) (a : Str), unix (itemContent a rest) =
      itemContent (unix a) (rest.map (List.map unix)) := by
    intro rest
    induction rest with
    | nil => intro a; simp [itemContent]
    | cons l rest ih =>
      intro a
      rw [itemContent_cons, List.map_cons, itemContent_cons, unix_append, unix_lf, ih]
      have : ∀ l : List Str, unix l.flatten = (l.map unix).flatten := by
        intro l
        induction l with
        | nil => rfl
        | cons b l ih => simp [ih]
      rw [this]
  intro rest first h
  rw [key, unix_id h]

theorem marker_first {s r : Str} {k : ListKind} {pl : Nat} {t : Option TaskState} {first : Str} (hs : '\r' ∉ s)
    (h : listMarkerWithSpanSize s = some (r, (k, pl, t, first))) : Tails first s ∧ '\r' ∉ first := by
  unfold listMarkerWithSpanSize at h
  rcases orElse_some.1 h with h | ⟨_, h⟩
  · obtain ⟨a, h1, h2⟩ := mapP_some.1 h
    simp only [Prod.mk.injEq] at h2
    obtain ⟨_, _, _, rfl⟩ := h2
    exact ⟨Tails.nil, by simp⟩
  · obtain ⟨⟨a, l⟩, h1, h2⟩ := mapP_some.1 h
    simp only [Prod.mk.injEq] at h2
    obtain ⟨_, _, _, rfl⟩ := h2
    obtain ⟨r1, h3, h4⟩ := seq_some.1 h1
    have hsuf := Suf.out _ _ _ h3
    have := (line0_tail (noCr_suffix hs hsuf) h4).suffix hsuf
    exact ⟨Tails.of_line this, this.noCr hs⟩

theorem same_listItem [Con rec] (hr : Same K (List.map unixBlock) rec) :
    Same K (Prod.map id unixItem) (listItemP rec) := by
  intro s hs
  unfold listItemP
  rw [same_markerWithSize s hs]
  cases e : listMarkerWithSpanSize s with
  | none => rfl
  | some y =>
    obtain ⟨s1, k, pl, t, first⟩ := y
    simp only [Option.map_some, id]
    have hs1 := hs.suffix (Con.out _ _ _ e).1
    have eu := same_markerWithSize.some hs e
    obtain ⟨hf, hfr⟩ := marker_first (unix_noCr s) eu
    rw [same_itemLines k pl s1 hs1]
    cases e2 : listItemLines k pl s1 with
    | none => rfl
    | some z =>
      obtain ⟨s2, rest⟩ := z
      simp only [Option.map_some]
      have eu2 := (same_itemLines k pl).some hs1 e2
      have hok : UOk K (itemContent first rest) := by
        refine hs.of_tails (itemContent_crOk rest first (.of_noCr hfr) ?_) ?_
        · intro l hl
          obtain ⟨s', r', h1, h2⟩ := many0_origin e2 l hl
          exact restLine_crOk (hs1.suffix h1) h2
        · rw [itemContent_unix rest first hfr]
          refine itemContent_tails _ _ hf ?_
          intro l hl
          obtain ⟨s', r', h1, h2⟩ := many0_origin eu2 l hl
          have hsuf := h1.trans (unix_suffix (Con.out _ _ _ e).1)
          exact (restLine_tails (noCr_suffix (unix_noCr s) hsuf) h2).suffix hsuf
      have := same_blocks0 hr hok
      rw [itemContent_unix rest first hfr] at this
      rw [this]
      cases blocks0 rec (itemContent first rest) with
      | none => rfl
      | some bs => simp [Prod.map, unixItem]

theorem same_list [Con rec] (hr : Same K (List.map unixBlock) rec) : Same K unixBlock (listP rec) := by
  intro s hs
  unfold listP
  rw [same_many1c (same_listItem hr) s hs]
  cases many1 (listItemP rec) s with
  | none => rfl
  | some y =>
    obtain ⟨r, l⟩ := y
    cases l with
    | nil => rfl
    | cons i l =>
      obtain ⟨k, i⟩ := i
      simp only [Option.map_some, List.map_cons, Prod.map, id, List.map_map]
      simp only [unixBlock, unixItems, unixItems_eq, List.map_map]
      rfl

/-! ## Footnotes -/

theorem noneOf_head : ∀ s r c, noneOf cs!"]" s = some (r, c) → s = c :: r := by
  intro s r c e
  exact (satisfy_some.1 e).1

theorem same_footnoteLabel : Same K unix (recognize (many1 (noneOf cs!"]"))) := by
  rw [recognize_many1_chars noneOf_head]
  refine same_chars1 noneOf_head ?_ ?_
  · intro s hs
    cases s with
    | nil => rfl
    | cons c s =>
      by_cases hc : c = '\r'
      · subst hc
        obtain ⟨t, rfl⟩ := hs.1.cr
        rfl
      · rw [unix_cons hc]
        simp only [noneOf, satisfy]
        split <;> rfl
  · intro t _ _; rfl

theorem same_footnoteRest : Same K id (many0 (preceded (manyMN (chr ' ') 3 3) (lineTerminated notEofOrEol1))) :=
  same_many0_id (same_preceded (same_sp 3 3) (same_lineTerminated same_line1))

theorem same_footnote [Con rec] (hr : Same K (List.map unixBlock) rec) :
    Same K unixBlock (footnoteDefinitionP rec) := by
  intro s hs
  unfold footnoteDefinitionP
  have h1 : Same K unix (preceded indent03 (preceded (tag cs!"[^")
      (terminated (recognize (many1 (noneOf cs!"]"))) (tag cs!"]:")))) :=
    same_preceded same_indent03 (same_preceded (same_tag (by decide) (by decide))
      (same_terminated same_footnoteLabel (same_tag (by decide) (by decide))))
  rw [h1 s hs]
  cases e : preceded indent03 (preceded (tag cs!"[^")
      (terminated (recognize (many1 (noneOf cs!"]"))) (tag cs!"]:"))) s with
  | none => rfl
  | some y =>
    obtain ⟨s1, label⟩ := y
    simp only [Option.map_some]
    have hs1 := hs.suffix (Suf.out _ _ _ e)
    have h2 : Same K id (preceded indent03 (lineTerminated notEofOrEol1)) :=
      same_preceded same_indent03 (same_lineTerminated same_line1)
    rw [h2 s1 hs1]
    cases e2 : preceded indent03 (lineTerminated notEofOrEol1) s1 with
    | none => rfl
    | some z =>
      obtain ⟨s2, first⟩ := z
      simp only [Option.map_some, id]
      have hs2 := hs1.suffix (Suf.out _ _ _ e2)
      rw [same_footnoteRest s2 hs2]
      cases e3 : many0 (preceded (manyMN (chr ' ') 3 3) (lineTerminated notEofOrEol1)) s2 with
      | none => rfl
      | some w =>
        obtain ⟨s3, rest⟩ := w
        simp only [Option.map_some, id]
        have line : ∀ {s r l}, '\r' ∉ s → lineTerminated notEofOrEol1 s = some (r, l) → LineTail l s := by
          intro s r l hs h
          obtain ⟨r1, b, h1, h2⟩ := terminated_some.1 h
          exact line1_tail hs h1 h2
        have hn := unix_noCr s
        have hf : LineTail first (unix s) := by
          have eu := h2.some hs1 e2
          obtain ⟨r1, b, h3, h4⟩ := preceded_some.1 eu
          have hsuf := (Suf.out _ _ _ h3).trans (unix_suffix (Suf.out _ _ _ e))
          exact (line (noCr_suffix hn hsuf) h4).suffix hsuf
        have hrest : ∀ l ∈ rest, LineTail l (unix s) := by
          intro l hl
          obtain ⟨s', r', h3, h4⟩ := many0_origin (same_footnoteRest.some hs2 e3) l hl
          obtain ⟨r1, b, h5, h6⟩ := preceded_some.1 h4
          have hsuf := ((Suf.out _ _ _ h5).trans h3).trans (unix_suffix ((Suf.out _ _ _ e2).trans (Suf.out _ _ _ e)))
          exact (line (noCr_suffix hn hsuf) h6).suffix hsuf
        have hfr := hf.noCr hn
        have hu : unix (itemContent first (rest.map fun l => [l])) = itemContent first (rest.map fun l => [l]) := by
          rw [itemContent_unix _ _ hfr, List.map_map]
          congr 1
          refine List.map_congr_left fun l hl => ?_
          simp [unix_id ((hrest l hl).noCr hn)]
        have hok : UOk K (itemContent first (rest.map fun l => [l])) := by
          refine hs.of_tails (itemContent_crOk _ _ (.of_noCr hfr) ?_) ?_
          · intro l hl
            obtain ⟨m, hm, rfl⟩ := List.mem_map.1 hl
            simpa using CrOk.of_noCr ((hrest m hm).noCr hn)
          · rw [hu]
            refine itemContent_tails _ _ (Tails.of_line hf) ?_
            intro l hl
            obtain ⟨m, hm, rfl⟩ := List.mem_map.1 hl
            simpa using Tails.of_line (hrest m hm)
        have := same_blocks0 hr hok
        rw [hu] at this
        conv => lhs; rw [this]
        cases blocks0 rec (itemContent first (rest.map fun l => [l])) with
        | none => rfl
        | some bs => simp [unixBlock]

end
end Verif
