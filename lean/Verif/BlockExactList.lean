import Verif.BlockExactLeaf
/-!
# List items, exactly (for C85)
-/
set_option autoImplicit false
set_option linter.unusedVariables false
set_option linter.unusedSimpArgs false
namespace Verif.Exact
open Nom

/-! ## The first line -/

theorem visible_of {l : Str} (h : ¬ Blanks l) : Visible l := by
  rw [Blanks] at h
  simp only [Classical.not_forall] at h
  obtain ⟨c, hc, h⟩ := h
  refine ⟨c, hc, ?_⟩
  cases e : isSpace c with
  | false => rfl
  | true => simp [isSpace] at e; exact absurd e h

theorem itemFirst_of {kind : ListKind} {f first e r : Str} {pl : Nat} {task : Option TaskState}
    (h : ItemFirst kind f pl task first) (ho : OneLine first) (he : LineEnd e r) :
    listMarkerWithSpanSize (f ++ (e ++ r)) = some (r, (kind, pl, task, first)) := by
  have hsp : ∀ n, OneLine (List.replicate n ' ') := fun n => OneLine.replicate n (by decide) (by decide)
  cases h with
  | @text k n m first hk hm h1 h4 hf hb hbox hbox3 =>
    unfold listMarkerWithSpanSize
    have hv := visible_of hb
    have e1 : sp k ++ (m ++ (sp n ++ first)) ++ (e ++ r) =
        List.replicate k ' ' ++ (m ++ (List.replicate n ' ' ++ (first ++ (e ++ r)))) := by simp [sp]
    have hu : n = 4 ∨ (first ++ (e ++ r)).head? ≠ some ' ' := by
      refine hf.imp id fun h => ?_
      cases first with
      | nil => obtain ⟨c, hc, _⟩ := hv; simp at hc
      | cons c t => exact h
    have htask : terminated listItemTaskState (chr ' ') (first ++ (e ++ r)) = none := by
      cases h : terminated listItemTaskState (chr ' ') (first ++ (e ++ r)) with
      | none => rfl
      | some y =>
        exfalso
        obtain ⟨r', t⟩ := y
        obtain ⟨s1, e', h2, h3⟩ := terminated_some.1 h
        obtain ⟨b, hbx, h4⟩ := listItemTaskState_some h2
        obtain ⟨rfl, _⟩ := chr_some.1 h3
        have h5 := congrArg (List.takeWhile notCrLf) h4
        rw [(span_oneLine ho).1, (span_oneLine hbx.oneLine).1, he.span.1] at h5
        rw [List.append_nil, List.takeWhile_cons] at h5
        exact hbox t b _ hbx h5
    rw [e1, orElse_of_none]
    · refine mapP_some.2 ⟨((kind, k + m.length + n, none), first), ?_, rfl⟩
      refine seq_some.2 ⟨first ++ (e ++ r), ?_, line0 ho he⟩
      rw [spacesMarker_of hk hm h1 h4 hu]
      refine mapP_some.2 ⟨none, ?_, rfl⟩
      unfold opt
      rw [htask]
    · rw [mapP_none, followedByNewline_eq hk hm, mapP_none]
      · rw [dropSpaces_replicate]
        split
        · rename_i hn
          rw [dropSpaces_head _ (by rcases hu with h | h; · omega
                                    · exact h)]
          cases h : lineTerminated listItemTaskState (first ++ (e ++ r)) with
          | none => rfl
          | some y =>
            exfalso
            obtain ⟨r', t⟩ := y
            obtain ⟨s1, e', h2, h3⟩ := terminated_some.1 h
            obtain ⟨b, hbx, h4⟩ := listItemTaskState_some h2
            obtain ⟨h5, h6⟩ := LineEnd.of_eofOrEol h3
            rw [h6] at h4
            have := (line_unique ho hbx.oneLine he h5 h4).1
            exact hbox3 hn t (this ▸ hbx)
        · have : n - 3 = 1 := by omega
          rw [this]
          exact terminated_none (delimited_none (chr_ne (by decide)))
      · rw [← List.append_assoc]
        exact lineTerminated_space0_none hv.pre ((hsp n).append ho)
  | @task k n m b first t hk hm h1 h4 hb => exact ItemStart.spanSize (.task hk hm h1 h4 hb ho) he
  | @empty k m b hk hm hb => exact ItemStart.spanSize (.empty hk hm hb) he
  | @box k n m b t hk hm hn hb => exact ItemStart.spanSize (.box hk hm hn hb) he

theorem itemFirst_some {s r first : Str} {k : ListKind} {pl : Nat} {t : Option TaskState}
    (h : listMarkerWithSpanSize s = some (r, (k, pl, t, first))) :
    ∃ f e, ItemFirst k f pl t first ∧ OneLine first ∧ LineEnd e r ∧ s = f ++ (e ++ r) := by
  obtain ⟨f, e, h1, h2, h3⟩ := listMarkerWithSpanSize_written h
  refine ⟨f, e, h1, ?_, h2.ends, h3⟩
  rcases orElse_some.1 h with h | ⟨hn, h⟩
  · obtain ⟨⟨k', pl', t'⟩, _, h5⟩ := mapP_some.1 h
    simp at h5
    obtain ⟨_, _, _, rfl⟩ := h5
    intro c hc; simp at hc
  · obtain ⟨⟨⟨k', pl, t'⟩, first'⟩, h4, h5⟩ := mapP_some.1 h
    simp only [Prod.mk.injEq] at h5
    obtain ⟨_, _, _, rfl⟩ := h5
    obtain ⟨s1, _, h6⟩ := seq_some.1 h4
    obtain ⟨_, _, h7, _⟩ := line0_oneLine h6
    exact h7

/-! ## The further lines -/

theorem blankLine_none {l e r : Str} (h : LineWritten l e r) (hb : ¬ Blanks l) : lineTerminated space0 (l ++ (e ++ r)) = none := by
  cases h1 : lineTerminated space0 (l ++ (e ++ r)) with
  | none => rfl
  | some y =>
    exfalso
    obtain ⟨r', w⟩ := y
    obtain ⟨s2, e', h2, h3⟩ := terminated_some.1 h1
    obtain ⟨w', h4, h5⟩ := space0_writes _ _ _ h2
    obtain ⟨h6, rfl⟩ := LineEnd.of_eofOrEol h3
    rcases List.append_eq_append_iff.1 h4 with ⟨z, h7, h8⟩ | ⟨z, h7, h8⟩
    · subst h7
      exact hb (fun c hc => h5 c (by simp [hc]))
    · cases z with
      | nil => simp at h7; subst h7; exact hb h5
      | cons d z =>
        have hd : d ≠ '\n' := by rintro rfl; exact h.one (by rw [h7]; simp)
        rcases h6 with (rfl | rfl) | ⟨rfl, rfl⟩
        · simp at h8; exact hd h8.1.symm
        · simp at h8
          obtain ⟨rfl, h9⟩ := h8
          cases z with
          | cons d z => simp at h9; exact h.one (by rw [h7, ← h9.1]; simp)
          | nil =>
            simp at h9
            rcases h.ends with (rfl | rfl) | ⟨rfl, rfl⟩
            · exact h.cr rfl (by rw [h7]; simp)
            · simp at h9
            · simp at h9
        · simp at h8

theorem manyMN_indented' {pl : Nat} {p l e r : Str} (h : Indented pl p l) (hne : l ≠ []) :
    ∃ y, manyMN (chr ' ') 0 pl (p ++ (l ++ (e ++ r))) = some (l ++ (e ++ r), y) := by
  obtain ⟨j, hj, rfl, hl⟩ := h
  refine ⟨List.replicate j ' ', ?_⟩
  rcases hl with rfl | hl
  · exact manyMN_max (by omega)
  · refine manyMN_chr (by omega) hj ?_
    cases l with
    | nil => simp at hne
    | cons c t => exact hl

theorem restLine_of {kind : ListKind} {pl : Nat} {s l r : Str} (h : RestLine kind pl s l r) :
    ∃ l', listItemRestLine kind pl s = some (r, l') ∧ l = l'.flatten := by
  cases h with
  | @text p _ e _ h1 h2 h3 h4 h5 =>
    refine ⟨[l], ?_, by simp⟩
    unfold listItemRestLine
    have h0 : (p ++ (l ++ (e ++ r))).isEmpty = false := by
      cases l with
      | nil => simp at h2
      | cons c t => simp
    rw [h0]
    have hg : restGuard kind pl (p ++ (l ++ (e ++ r))) = none := by
      refine restGuard_none ?_ h5
      cases h6 : thematicBreakP (p ++ (l ++ (e ++ r))) with
      | none => rfl
      | some y =>
        obtain ⟨r', u⟩ := y
        obtain ⟨l', e', h7, h8, h9⟩ := thematicBreakP_some h6
        exact absurd ⟨l', e', r', h7, h8, h9⟩ h4
    refine terminated_some.2 ⟨e ++ r, e, ?_, h3.ends.eofOrEol⟩
    refine preceded_some.2 ⟨_, (), notP_some.2 ⟨hg, rfl⟩, ?_⟩
    refine orElse_of_some ?_
    obtain ⟨y, hy⟩ := manyMN_indented' (e := e) (r := r) h1 h2
    exact preceded_some.2 ⟨_, y, hy, mapP_some.2 ⟨l, notEofOrEol1_lineWritten h2 h3, rfl⟩⟩
  | @blank j nl b l e _ hj hnl hb hl hw =>
    refine ⟨[sp j ++ (nl ++ b), l], ?_, by simp⟩
    show listItemRestLine kind pl (List.replicate j ' ' ++ (nl ++ (b ++ (sp pl ++ (l ++ (e ++ r)))))) = _
    rw [restLine_blank_eq hj hnl]
    have hlne : l ≠ [] := by rintro rfl; exact hl (fun c hc => by simp at hc)
    refine terminated_some.2 ⟨e ++ r, e, ?_, hw.ends.eofOrEol⟩
    refine mapP_some.2 ⟨(sp j ++ (nl ++ b), l), ?_, rfl⟩
    refine seq_some.2 ⟨sp pl ++ (l ++ (e ++ r)), ?_, ?_⟩
    · have hu : lineTerminated space0 (sp pl ++ (l ++ (e ++ r))) = none := by
        rw [← List.append_assoc]
        refine blankLine_none ⟨?_, ?_, hw.ends⟩ ?_
        · intro hm
          rcases List.mem_append.1 hm with hm | hm
          · have := List.eq_of_mem_replicate hm; simp at this
          · exact hw.one hm
        · intro he
          have := hw.cr he
          rw [List.getLast?_append]
          cases h : l.getLast? with
          | none => simp at h; exact absurd h hlne
          | some c => rw [h] at this; simpa using this
        · intro h'; exact hl (fun c hc => h' c (by simp [hc]))
      have hb' : BlankLines (List.replicate j ' ' ++ (nl ++ b)) := .cons (Blanks.replicate j) hnl hb
      obtain ⟨ws, hws⟩ := many0_blankLines hb' hu
      have e1 : List.replicate j ' ' ++ (nl ++ (b ++ (sp pl ++ (l ++ (e ++ r))))) =
          List.replicate j ' ' ++ (nl ++ b) ++ (sp pl ++ (l ++ (e ++ r))) := by simp
      rw [e1]
      refine recognize_of (many1_of_many0 hws ?_)
      rintro rfl
      have h2 : lineTerminated space0 (List.replicate j ' ' ++ (nl ++ b) ++ (sp pl ++ (l ++ (e ++ r)))) =
          some (b ++ (sp pl ++ (l ++ (e ++ r))), List.replicate j ' ') := by
        have := lineTerminated_space0_of (s := b ++ (sp pl ++ (l ++ (e ++ r))))
          (Blanks.replicate j) (.inl hnl)
        simpa using this
      rw [many0_eq, h2] at hws
      simp only at hws
      split at hws
      · split at hws <;> simp at hws
      · simp at hws
    · exact preceded_some.2 ⟨_, _, manyMN_max (by omega), notEofOrEol1_lineWritten hlne hw⟩

/-- Where no text begins there is an end of the line or of the text. -/
theorem notEofOrEol1_none {s : Str} (h : notEofOrEol1 s = none) : ∃ e r, LineEnd e r ∧ s = e ++ r := by
  cases h1 : eofOrEol s with
  | some y =>
    obtain ⟨h2, h3⟩ := LineEnd.of_eofOrEol (show eofOrEol s = some (y.1, y.2) from h1)
    exact ⟨_, _, h2, h3⟩
  | none =>
    exfalso
    rw [notEofOrEol1, recognize_none, many1_none] at h
    cases s with
    | nil => simp [eofOrEol, eof, lineEnding, Nom.orElse] at h1
    | cons c t =>
      have : preceded (notP eofOrEol) anychar (c :: t) = some (t, c) := preceded_some.2 ⟨_, (), notP_some.2 ⟨h1, rfl⟩, rfl⟩
      rw [this] at h
      simp at h

theorem restLine_some {kind : ListKind} {pl : Nat} {s r : Str} {a : List Str} (hp : listItemRestLine kind pl s = some (r, a)) :
    RestLine kind pl s a.flatten r := by
  unfold listItemRestLine at hp
  split at hp
  · simp at hp
  · rename_i hne
    have hne : s ≠ [] := by simpa using hne
    obtain ⟨s1, e, h1, h2⟩ := terminated_some.1 hp
    obtain ⟨s2, _, h3', h4⟩ := preceded_some.1 h1
    obtain ⟨h3', h30⟩ := notP_some.1 h3'
    rw [h30] at h4
    have h3 : restGuard kind pl s = none := h3'
    rcases orElse_some.1 h4 with h4 | ⟨hno, h4⟩
    · obtain ⟨s3, _, h5, h6⟩ := preceded_some.1 h4
      obtain ⟨l0, h7, rfl⟩ := mapP_some.1 h6
      obtain ⟨j, _, hj, _, rfl, h8⟩ := manyMN_chr_some _ _ _ _ _ (by omega) h5
      obtain ⟨rfl, h9, h10, h11⟩ := notEofOrEol1_written h7
      obtain ⟨rfl, h12⟩ := LineWritten.mk' (u := []) h10 h11 h2
      simp only [List.flatten_cons, List.flatten_nil, List.append_nil]
      refine .text ⟨j, hj, rfl, ?_⟩ h9 h12 ?_ ?_
      · rcases h8 with h8 | h8
        · exact .inl h8
        · right
          cases l0 with
          | nil => simp
          | cons c t => simpa using h8
      · rintro ⟨tl, te, tr, h13, h14, h15⟩
        have := thematicBreakP_line h13 h14
        rw [← h15] at this
        unfold restGuard at h3
        rw [orElse_none, value_none, this] at h3
        simp at h3
      · intro hma
        obtain ⟨y, hy⟩ := restGuard_marker hma
        rw [h3] at hy
        simp at hy
    · obtain ⟨⟨b, l0⟩, h5, rfl⟩ := mapP_some.1 h4
      obtain ⟨s3, h6, h7⟩ := seq_some.1 h5
      have h6' := h6
      obtain ⟨rfl, hb, hb'⟩ := itemBlanks1 hne h6
      obtain ⟨s4, _, h8, h9⟩ := preceded_some.1 h7
      obtain ⟨j, hj, hj', _, rfl, _⟩ := manyMN_chr_some _ _ _ _ _ (by omega) h8
      have : j = pl := by omega
      subst this
      obtain ⟨rfl, h10, h11, h12⟩ := notEofOrEol1_written h9
      obtain ⟨rfl, h13⟩ := LineWritten.mk' (u := []) h11 h12 h2
      simp only [List.flatten_cons, List.flatten_nil, List.append_nil]
      -- the line after the blank ones is not blank
      have hnb : ¬ Blanks l0 := by
        intro hbl
        obtain ⟨l', h14, _⟩ := recognize_some.1 h6'
        obtain ⟨r1, a, l'', _, h16, _⟩ := many1_some.1 h14
        have := many0_stop h16
        have h17 := lineTerminated_space0_of (w := List.replicate j ' ' ++ l0) (e := e) (s := r) (by
          intro c hc
          rcases List.mem_append.1 hc with hc | hc
          · exact .inl (List.eq_of_mem_replicate hc)
          · exact hbl c hc) h13.ends
        simp only [List.append_assoc] at h17
        rw [h17] at this
        simp at this
      -- the first of them
      obtain ⟨y, hy⟩ : ∃ y, manyMN (chr ' ') 0 j (b ++ (List.replicate j ' ' ++ (l0 ++ (e ++ r)))) = some y := by
        obtain ⟨l, h, _⟩ := manyMN_spaces j (b ++ (List.replicate j ' ' ++ (l0 ++ (e ++ r))))
        exact ⟨_, h⟩
      rw [preceded_of_some (r := y.1) (a := y.2) hy, mapP_none] at hno
      obtain ⟨i, _, hi, _, h20, _⟩ := manyMN_chr_some _ _ _ _ _ (by omega) (show _ = some (y.1, y.2) from hy)
      obtain ⟨e', r', h21, h22⟩ := notEofOrEol1_none hno
      rw [h22] at h20
      have key : ∀ w nl b1, Blanks w → IsNewline nl → BlankLines b1 → b = w ++ (nl ++ b1) →
          RestLine kind j (b ++ (List.replicate j ' ' ++ (l0 ++ (e ++ r)))) (b ++ l0) r := by
        rintro w nl b1 hw hnl hb1 rfl
        have hwo : OneLine w := fun c hc => by rcases hw c hc with rfl | rfl <;> decide
        have h23 : w ++ (nl ++ (b1 ++ (List.replicate j ' ' ++ (l0 ++ (e ++ r))))) = List.replicate i ' ' ++ (e' ++ r') := by
          rw [← h20]; simp
        obtain ⟨rfl, _⟩ := line_unique hwo (OneLine.replicate _ (by decide) (by decide)) (.inl hnl) h21 h23
        have := RestLine.blank (kind := kind) hi hnl hb1 hnb h13
        simpa [sp] using this
      cases hb with
      | nil => simp at hb'
      | @lf w b1 hb1 hb2 => exact key w ['\n'] b1 hb1 (.inl rfl) hb2 (by simp)
      | @crlf w b1 hb1 hb2 => exact key w ['\r', '\n'] b1 hb1 (.inr rfl) hb2 (by simp)

theorem restLine_none {kind : ListKind} {pl : Nat} {s : Str} :
    listItemRestLine kind pl s = none ↔ ∀ l r, ¬ RestLine kind pl s l r := by
  constructor
  · intro h l r h'
    obtain ⟨l', h1, _⟩ := restLine_of h'
    rw [h] at h1; simp at h1
  · intro h
    cases e : listItemRestLine kind pl s with
    | none => rfl
    | some y => exact absurd (restLine_some (r := y.1) (a := y.2) e) (h _ _)

theorem restLines_some {kind : ListKind} {pl : Nat} {s r : Str} {l : List (List Str)} (h : listItemLines kind pl s = some (r, l)) :
    RestLines kind pl s (l.map List.flatten) r := by
  unfold listItemLines at h
  refine many0_induction (M := fun s r l => RestLines kind pl s (l.map List.flatten) r) ?_ ?_ s r l h
  · intro s h
    exact .stop (restLine_none.1 h)
  · intro s r a r' l h _ _ ih
    exact .cons (restLine_some h) ih

theorem restLines_of {kind : ListKind} {pl : Nat} {s r : Str} {ls : List Str} (h : RestLines kind pl s ls r) :
    ∃ l, listItemLines kind pl s = some (r, l) ∧ ls = l.map List.flatten := by
  unfold listItemLines
  induction h with
  | stop h => exact ⟨[], many0_of_none (restLine_none.2 h), rfl⟩
  | cons h _ ih =>
    obtain ⟨a, h1, rfl⟩ := restLine_of h
    obtain ⟨l, h2, rfl⟩ := ih
    exact ⟨a :: l, many0_of_some h1 (listItemRestLine_lt h1) h2, rfl⟩

/-! ## Items -/

theorem item_exact {rec : P (List Block)} {s r : Str} {kind : ListKind} {i : ListItem} :
    listItemP rec s = some (r, (kind, i)) ↔ ∃ task ls bs, ItemFrame s kind task ls r ∧
      blocks0 rec (joinWith ['\n'] ls) = some bs ∧ i = .mk task bs := by
  constructor
  · intro h
    unfold listItemP at h
    split at h
    · simp at h
    · rename_i s1 kind' pl task first e1
      split at h
      · simp at h
      · rename_i s2 rest e2
        split at h
        · simp at h
        · rename_i bs e3
          simp at h
          obtain ⟨rfl, rfl, rfl⟩ := h
          obtain ⟨f, e, h1, h2, h3, h4⟩ := itemFirst_some e1
          rw [itemContent_flatten] at e3
          exact ⟨task, _, bs, ⟨f, pl, first, e, s1, _, h1, h2, h3, h4, restLines_some e2, rfl⟩, e3, rfl⟩
  · rintro ⟨task, _, bs, ⟨f, pl, first, e, s1, ls, h1, h2, h3, rfl, h5, rfl⟩, e3, rfl⟩
    obtain ⟨l, h6, rfl⟩ := restLines_of h5
    unfold listItemP
    rw [itemFirst_of h1 h2 h3]
    simp only [h6]
    rw [itemContent_flatten, e3]

theorem item_none {x : PExt} {cfg : PConfig} (hc : cfg.CustomOk) {s : Str} :
    listItemP (blockP x cfg) s = none ↔ ∀ kind, ¬ ItemAt kind s := by
  constructor
  · intro h kind h'
    obtain ⟨r, i, h1⟩ := listItemP_of_at (x := x) hc h'
    rw [h] at h1; simp at h1
  · intro h
    cases e : listItemP (blockP x cfg) s with
    | none => rfl
    | some y => exact absurd (listItemP_kind (r := y.1) (kind := y.2.1) (i := y.2.2) e) (h _)

end Verif.Exact
