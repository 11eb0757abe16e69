import Verif.BlockExactDef
/-!
# Tables, exactly (for C85)
-/
set_option autoImplicit false
set_option linter.unusedVariables false
set_option linter.unusedSimpArgs false
namespace Verif.Exact
open Nom

section
variable {x : PExt} {cfg : PConfig} {R : Str → List Inline → Prop}

theorem cell_of (hR : InlineSem x cfg R) {w t u : Str} {c : List Inline} (hne : w ≠ []) (h : Unescapes '|' w t) (hn : '\n' ∉ w)
    (hu : CellStop u) (hl : u.head? = some '|' → w.getLast? ≠ some '\\')
    (hr : u.head? = some '\n' → w.getLast? ≠ some '\r') (ht : R (trim t) c) :
    cellContent x cfg (w ++ u) = some (u, c) := by
  have hstop : ∃ y, (value () eofOrEol <||> value () (chr '|')) u = some y := by
    rcases hu with ⟨v, rfl⟩ | ⟨e, rest, he, rfl⟩
    · refine ⟨(v, ()), ?_⟩
      rw [orElse_of_none (value_none.2 (eofOrEol_cons (by decide) (by decide)))]
      exact value_some.2 ⟨_, chr_cons _ _, rfl⟩
    · exact ⟨_, orElse_of_some (value_some.2 ⟨_, he.eofOrEol, rfl⟩)⟩
  have hm := escLoop_of (e := '|') (by decide) hstop h hl (by
    intro a c v hw hc
    rw [orElse_none, value_none, value_none]
    refine ⟨?_, chr_ne hc⟩
    have hcn : c ≠ '\n' := by rintro rfl; exact hn (by rw [hw]; simp)
    by_cases hcr : c = '\r'
    · subst hcr
      cases v with
      | nil =>
        have hlast : w.getLast? = some '\r' := by rw [hw]; simp
        cases u with
        | nil => rfl
        | cons d u =>
          exact eofOrEol_cr (by rintro rfl; exact hr rfl hlast)
      | cons d v =>
        exact eofOrEol_cr (by rintro rfl; exact hn (by rw [hw]; simp))
    · exact eofOrEol_cons hcn hcr)
  have htne : t ≠ [] := by rintro rfl; cases h; exact hne rfl
  exact mapOpt_some.2 ⟨t, many1_of_many0 hm htne, (hR.many0 _ _).2 ht⟩

theorem cells_of (hR : InlineSem x cfg R) {e r : Str} (he : LineEnd e r) {ts : List Str} {u : Str} (h : CellsRead e ts u) :
    ∀ {cs : List (List Inline)}, CellsAs R ts cs → ∃ c cs' v last, cs = c :: cs' ∧ u = '|' :: v ∧
      (last = [] ∨ last = ['|']) ∧
      sepLoop (chr '|') (cellContent x cfg) (u ++ (e ++ r)) = some (last ++ (e ++ r), cs) := by
  have stop : sepLoop (chr '|') (cellContent x cfg) (e ++ r) = some (e ++ r, []) := by
    rw [sepLoop_eq, lineEnd_bar he]
  have stop' : sepLoop (chr '|') (cellContent x cfg) ('|' :: (e ++ r)) = some ('|' :: (e ++ r), []) := by
    rw [sepLoop_eq, chr_cons]
    simp [cellContent_stop (cellStop_end he)]
  have step : ∀ {w q : Str} {c : List Inline} {z}, cellContent x cfg (w ++ q) = some (q, c) →
      sepLoop (chr '|') (cellContent x cfg) q = some z →
      sepLoop (chr '|') (cellContent x cfg) ('|' :: (w ++ q)) = some (z.1, c :: z.2) := by
    intro w q c z h1 h2
    rw [sepLoop_eq, chr_cons]
    simp only [h1, h2]
    rw [if_pos (by simp; omega)]
  induction h with
  | @last w t hne hw hn hcr =>
    rintro cs (_ | @⟨_, _, c, cs', ht, hts⟩)
    cases hts
    have h1 := cell_of (x := x) hR (u := e ++ r) hne hw hn (cellStop_end he)
      (fun h => absurd h (lineEnd_headBar he)) (fun h => hcr ((lineEnd_headLf he).1 h)) ht
    exact ⟨c, [], w, [], rfl, rfl, .inl rfl, step h1 stop⟩
  | @closed w t hne hw hn hb =>
    rintro cs (_ | @⟨_, _, c, cs', ht, hts⟩)
    cases hts
    have h1 := cell_of (x := x) hR (u := '|' :: (e ++ r)) hne hw hn (.inl ⟨_, rfl⟩) (fun _ => hb) (by simp) ht
    refine ⟨c, [], w ++ ['|'], ['|'], rfl, rfl, .inr rfl, ?_⟩
    have := step h1 stop'
    simpa using this
  | @cons w t u ts hne hw hn hb hcs ih =>
    rintro cs (_ | @⟨_, _, c, cs', ht, hts⟩)
    obtain ⟨c', cs2, v, last, h2, h3, h4, h5⟩ := ih hts
    have h1 := cell_of (x := x) hR (u := '|' :: u ++ (e ++ r)) hne hw hn (.inl ⟨_, rfl⟩) (fun _ => hb) (by simp) ht
    refine ⟨c, cs', _, last, rfl, rfl, h4, ?_⟩
    have := step h1 h5
    simpa using this

theorem row_of (hR : InlineSem x cfg R) {s r : Str} {cs : List (List Inline)} (h : RowRead R s cs r) :
    tableRow x cfg s = some (r, cs) := by
  obtain ⟨k, u, e, ts, hk, hu, he, hcs, rfl⟩ := h
  obtain ⟨c, cs, v, last, rfl, rfl, h2, h3⟩ := cells_of (x := x) hR he hu hcs
  unfold sp
  refine terminated_some.2 ⟨e ++ r, e, ?_, he.eofOrEol⟩
  show preceded indent03 _ (List.replicate k ' ' ++ '|' :: (v ++ (e ++ r))) = _
  rw [preceded_indent_replicate hk (by decide)]
  refine delimited_some.2 ⟨v ++ (e ++ r), '|', last ++ (e ++ r), (if last = [] then none else some '|'),
    chr_cons _ _, ?_, ?_⟩
  · have h3 : sepLoop (chr '|') (cellContent x cfg) ('|' :: (v ++ (e ++ r))) = some (last ++ (e ++ r), c :: cs) := h3
    rw [sepLoop_eq, chr_cons] at h3
    unfold separatedList1
    simp only at h3
    split at h3
    · simp at h3
    · rename_i r' a h4
      split at h3
      · split at h3
        · rename_i h5
          simp at h3
          obtain ⟨rfl, rfl, rfl⟩ := h3
          rw [h4]; simp only; rw [h5]
        · simp at h3
      · simp at h3
  · rcases h2 with rfl | rfl
    · refine opt_some.2 (.inr ⟨?_, rfl, rfl⟩)
      simpa using lineEnd_bar he
    · exact opt_some.2 (.inl ⟨_, chr_cons _ _, rfl⟩)

theorem cell_read (hR : InlineSem x cfg R) {s r : Str} {c : List Inline} (h : cellContent x cfg s = some (r, c)) :
    ∃ w t, s = w ++ r ∧ w ≠ [] ∧ Unescapes '|' w t ∧ '\n' ∉ w ∧ (r.head? = some '|' → w.getLast? ≠ some '\\') ∧
      (r.head? = some '\n' → w.getLast? ≠ some '\r') ∧ R (trim t) c := by
  obtain ⟨t, h1, h0⟩ := mapOpt_some.1 h
  obtain ⟨w, rfl, h2, h3, h4, h5⟩ := escLoop1_last (by decide) (by
    intro s; simp [orElse_none, value_none, chr, satisfy]) h1
  refine ⟨w, t, rfl, h2, h3, ?_, h4, ?_, (hR.many0 _ _).1 h0⟩
  · intro hm
    obtain ⟨u, v, rfl⟩ := List.append_of_mem hm
    have := h5 u '\n' v rfl (by decide)
    simp [orElse_none, value_none, eofOrEol, lineEnding] at this
  · intro hh hl
    obtain ⟨u, rfl⟩ := List.getLast?_eq_some_iff.1 hl
    have := h5 u '\r' [] rfl (by decide)
    cases r with
    | nil => simp at hh
    | cons d r =>
      simp at hh
      subst hh
      simp [orElse_none, value_none, eofOrEol, lineEnding] at this

theorem cells_read (hR : InlineSem x cfg R) {e rest : Str} (he : LineEnd e rest) : ∀ s r cs,
    sepLoop (chr '|') (cellContent x cfg) s = some (r, cs) → ∀ last, last = [] ∨ last = ['|'] → r = last ++ (e ++ rest) →
      (cs = [] ∧ s = last ++ (e ++ rest)) ∨ ∃ u ts, CellsRead e ts ('|' :: u) ∧ CellsAs R ts cs ∧
        s = '|' :: (u ++ (e ++ rest)) := by
  refine sepLoop_induction ?_ ?_
  · intro s _ last _ h; exact .inl ⟨rfl, h⟩
  · intro s r b r' a r'' l hsep h1 _ _ ih last hl hr
    right
    obtain ⟨rfl, _⟩ := chr_some.1 hsep
    obtain ⟨w, t, rfl, h2, h3, h4, h5, h6, h0⟩ := cell_read hR h1
    rcases ih last hl hr with ⟨rfl, rfl⟩ | ⟨u, ts, h7, h8, rfl⟩
    · rcases hl with rfl | rfl
      · refine ⟨w, [t], .last h2 h3 h4 ?_, .cons h0 .nil, by simp⟩
        intro hen
        exact h6 (by simpa using (lineEnd_headLf he).2 hen)
      · exact ⟨w ++ ['|'], [t], .closed h2 h3 h4 (h5 rfl), .cons h0 .nil, by simp⟩
    · exact ⟨w ++ '|' :: u, t :: ts, .cons h2 h3 h4 (h5 rfl) h7, .cons h0 h8, by simp⟩

theorem row_read (hR : InlineSem x cfg R) {s r : Str} {cs : List (List Inline)} (h : tableRow x cfg s = some (r, cs)) :
    RowRead R s cs r := by
  obtain ⟨s1, e, h1, h2⟩ := terminated_some.1 h
  obtain ⟨hend, rfl⟩ := LineEnd.of_eofOrEol h2
  obtain ⟨s2, _, h3, h4⟩ := preceded_some.1 h1
  obtain ⟨k, hk', _, rfl, _⟩ := indent03_written h3
  obtain ⟨s3, _, s4, _, h5, h6, h7⟩ := delimited_some.1 h4
  obtain ⟨rfl, _⟩ := chr_some.1 h5
  obtain ⟨r1, a, l', h8, h9, rfl⟩ := separatedList1_some.1 h6
  obtain ⟨last, rfl, h15⟩ := lastBar h7
  have hlt : r1.length < ('|' :: s3).length := by
    obtain ⟨w, t, rfl, _⟩ := cellContent_at h8
    simp; omega
  have hs : sepLoop (chr '|') (cellContent x cfg) ('|' :: s3) = some (last ++ (e ++ r), a :: l') := by
    rw [sepLoop_eq, chr_cons]
    simp only [h8, h9]
    rw [if_pos hlt]
  rcases cells_read hR hend _ _ _ hs last h15 rfl with ⟨h, _⟩ | ⟨u, ts, h10, h12, h11⟩
  · simp at h
  · exact ⟨k, '|' :: u, e, ts, hk', h10, hend, h12, by simp [h11, sp]⟩

theorem row_exact (hR : InlineSem x cfg R) {s r : Str} {cs : List (List Inline)} :
    tableRow x cfg s = some (r, cs) ↔ RowRead R s cs r := ⟨row_read hR, row_of hR⟩

theorem row_none (hc : cfg.CustomOk) {s : Str} : tableRow x cfg s = none ↔ ∀ n r, ¬ RowAt n s r := by
  constructor
  · intro h n r h'
    obtain ⟨cs, h1, _⟩ := row_ok (x := x) hc h'
    rw [h] at h1; simp at h1
  · intro h
    cases e : tableRow x cfg s with
    | none => rfl
    | some y => exact absurd (row_at (r := y.1) (cs := y.2) e) (h _ _)

theorem rows_exact (hc : cfg.CustomOk) (hR : InlineSem x cfg R) {n : Nat} {s r : Str} {rows : List (List (List Inline))} :
    tableDataRows x cfg n s = some (r, rows) ↔ RowsRead R n s rows r := by
  unfold tableDataRows
  constructor
  · intro h
    refine many0_induction (M := fun s r rows => RowsRead R n s rows r) ?_ ?_ s r rows h
    · intro s h
      exact .stop ((row_none hc).1 (mapP_none.1 h))
    · intro s r a r' l h _ _ ih
      obtain ⟨row, h', rfl⟩ := mapP_some.1 h
      rw [fitted_eq]
      exact .cons (row_read hR h') ih
  · intro h
    induction h with
    | stop h => exact many0_of_none (mapP_none.2 ((row_none hc).2 h))
    | @cons s s' r row rows h1 _ ih =>
      have h2 := row_of hR h1
      rw [← fitted_eq]
      exact many0_of_some (mapP_some.2 ⟨_, h2, rfl⟩) (row_lt (row_at h2)) ih

theorem alignmentRow_read {s r : Str} {as : List Alignment} (e2 : alignmentRow s = some (r, as)) :
    ∃ a last k e, AlignsWritten as a ∧ as ≠ [] ∧ (last = [] ∨ last = ['|']) ∧ k ≤ 3 ∧ LineEnd e r ∧
      s = sp k ++ (a ++ (last ++ (e ++ r))) := by
  obtain ⟨s4, e, h2, h3⟩ := terminated_some.1 e2
  obtain ⟨hend, rfl⟩ := LineEnd.of_eofOrEol h3
  obtain ⟨s5, _, h4, h5⟩ := preceded_some.1 h2
  obtain ⟨k, hk', _, rfl, _⟩ := indent03_written h4
  obtain ⟨s6, _, s7, _, h6, h7, h8⟩ := delimited_some.1 h5
  obtain ⟨rfl, _⟩ := chr_some.1 h6
  obtain ⟨r1, a, l', h9, h10, rfl⟩ := separatedList1_some.1 h7
  obtain ⟨w2, rfl, h11⟩ := alignmentCell_writes _ _ _ h9
  obtain ⟨o, rfl, h12⟩ := alignsLoop _ _ _ h10
  obtain ⟨last, rfl, h13⟩ := lastBar h8
  exact ⟨'|' :: (w2 ++ o), last, k, e, .cons h11 h12, by simp, h13, hk', hend, by simp [sp]⟩

theorem table_exact (hc : cfg.CustomOk) (hR : InlineSem x cfg R) {s r : Str} {b : Block} : tableP x cfg s = some (r, b) ↔
    ∃ rows as, TableRead R s rows as r ∧ b = .table rows as := by
  constructor
  · intro hp
    unfold tableP at hp
    split at hp
    · simp at hp
    · rename_i s1 header e1
      split at hp
      · simp at hp
      · rename_i s2 aligns e2
        split at hp
        · simp at hp
        · rename_i hlen
          split at hp
          · simp at hp
          · rename_i s3 rows e3
            simp at hp
            obtain ⟨rfl, rfl⟩ := hp
            obtain ⟨a, last, k, e, h1, h2, h3, h4, h5, rfl⟩ := alignmentRow_read e2
            simp only [ne_eq, Decidable.not_not] at hlen
            exact ⟨_, _, ⟨header, rows, a, last, k, e, s2, row_read hR e1, h1, h2, h3, h4, h5, hlen.symm,
              (rows_exact hc hR).1 e3, rfl⟩, rfl⟩
  · rintro ⟨_, as, ⟨h, rs, a, last, k, e, r', h1, h2, h3, h4, h5, h6, h7, h8, rfl⟩, rfl⟩
    unfold tableP
    rw [row_of hR h1]
    simp only
    rw [alignmentRow_ok h5 h6 h4 h3 h2]
    simp only
    rw [if_neg (by simp [h7]), (rows_exact hc hR).2 h8]

end
end Verif.Exact
