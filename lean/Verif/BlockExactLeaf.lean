import Verif.BlockExactSpec
import Verif.StartProps
import Verif.InlineExactMain
/-!
# Code, headings, thematic breaks and quoted lines, exactly (for C85)
-/
set_option autoImplicit false
set_option linter.unusedVariables false
set_option linter.unusedSimpArgs false
namespace Verif.Exact
open Nom

/-! ## Lines -/

theorem linesBack {p : P Str} {Pre : Str → Str → Prop}
    (h : ∀ q l e r, Pre q l → LineWritten l e r → p (q ++ (l ++ (e ++ r))) = some (r, l) ∧ r.length < (q ++ (l ++ (e ++ r))).length)
    {r : Str} (hr : p r = none) {ls : List Str} {w : Str} (hw : LinesWritten Pre r ls w) :
    many0 p (w ++ r) = some (r, ls) := by
  induction hw with
  | nil => exact many0_of_none hr
  | @cons q l e w ls h1 h2 _ ih =>
    obtain ⟨h3, h4⟩ := h q l e (w ++ r) h1 h2
    have e1 : q ++ (l ++ (e ++ w)) ++ r = q ++ (l ++ (e ++ (w ++ r))) := by simp
    rw [e1]
    exact many0_of_some h3 h4 ih

theorem lines_iff {p : P Str} {Pre : Str → Str → Prop}
    (h1 : ∀ s r l, p s = some (r, l) → ∃ q e, s = q ++ (l ++ (e ++ r)) ∧ Pre q l ∧ LineWritten l e r)
    (h2 : ∀ q l e r, Pre q l → LineWritten l e r → p (q ++ (l ++ (e ++ r))) = some (r, l) ∧ r.length < (q ++ (l ++ (e ++ r))).length)
    {s r : Str} {ls : List Str} :
    many0 p s = some (r, ls) ↔ ∃ w, s = w ++ r ∧ LinesWritten Pre r ls w ∧ p r = none := by
  constructor
  · intro h
    obtain ⟨w, e, hw⟩ := linesLoop h1 _ _ _ h
    exact ⟨w, e, hw, many0_stop h⟩
  · rintro ⟨w, rfl, hw, hr⟩
    exact linesBack h2 hr hw

theorem many1_iff {α : Type} {p : P α} (hlt : ∀ s r a, p s = some (r, a) → r.length < s.length) {s r : Str} {l : List α} :
    many1 p s = some (r, l) ↔ many0 p s = some (r, l) ∧ l ≠ [] := by
  constructor
  · intro h
    obtain ⟨r1, a, l', h1, h2, rfl⟩ := many1_some.1 h
    exact ⟨many0_of_some h1 (hlt _ _ _ h1) h2, by simp⟩
  · rintro ⟨h, hne⟩
    exact many1_of_many0 h hne

theorem _root_.Verif.OneLine.written {l e r : Str} (h : OneLine l) (he : LineEnd e r) : LineWritten l e r :=
  ⟨fun hm => (h _ hm).1 rfl, fun _ hl => (h _ (List.mem_of_getLast? hl)).2 rfl, he⟩

/-! ## Indented code -/

theorem codeLine_some {s r l : Str}
    (h : preceded (value () (manyMN (chr ' ') 4 4) <||> value () (chr '\t')) (lineTerminated notEofOrEol0) s = some (r, l)) :
    ∃ q e, s = q ++ (l ++ (e ++ r)) ∧ CodeLine q l ∧ LineWritten l e r := by
  obtain ⟨s1, _, h1, h2⟩ := preceded_some.1 h
  obtain ⟨e, rfl, h3, h4⟩ := line0_oneLine h2
  rcases orElse_some.1 h1 with h5 | ⟨_, h5⟩
  · obtain ⟨v, h5, _⟩ := value_some.1 h5
    obtain ⟨k, h6, h7, _, h8, _⟩ := manyMN_chr_some _ _ _ _ _ (by omega) h5
    obtain rfl : k = 4 := by omega
    exact ⟨sp 4, e, h8, ⟨.inl rfl, h3⟩, h3.written h4⟩
  · obtain ⟨v, h5, _⟩ := value_some.1 h5
    obtain ⟨rfl, _⟩ := chr_some.1 h5
    exact ⟨['\t'], e, rfl, ⟨.inr rfl, h3⟩, h3.written h4⟩

theorem codeLine_of {q l e r : Str} (h : CodeLine q l) (he : LineWritten l e r) :
    preceded (value () (manyMN (chr ' ') 4 4) <||> value () (chr '\t')) (lineTerminated notEofOrEol0) (q ++ (l ++ (e ++ r))) =
      some (r, l) ∧ r.length < (q ++ (l ++ (e ++ r))).length := by
  obtain ⟨h1, h2⟩ := h
  rcases h1 with rfl | rfl
  · have := codeLine (tab := false) h2 he.ends
    refine ⟨by simpa [codeIndent, sp, List.replicate_succ] using this, by simp; omega⟩
  · have := codeLine (tab := true) h2 he.ends
    refine ⟨by simpa [codeIndent] using this, by simp; omega⟩

theorem codeLine_none {s : Str} :
    preceded (value () (manyMN (chr ' ') 4 4) <||> value () (chr '\t')) (lineTerminated notEofOrEol0) s = none ↔
      ¬ IndentedAt s := by
  constructor
  · rintro h ⟨p, l, e, r, h1, h2, h3, rfl⟩
    rw [(codeLine_of ⟨h1, h2⟩ (h2.written h3)).1] at h
    simp at h
  · intro h
    cases e : preceded (value () (manyMN (chr ' ') 4 4) <||> value () (chr '\t')) (lineTerminated notEofOrEol0) s with
    | none => rfl
    | some y =>
      obtain ⟨r, l⟩ := y
      obtain ⟨q, e', h1, h2, h3⟩ := codeLine_some e
      exact absurd ⟨q, l, e', r, h2.1, h2.2, h3.ends, h1⟩ h

theorem codeLine_lt {s r l : Str}
    (h : preceded (value () (manyMN (chr ' ') 4 4) <||> value () (chr '\t')) (lineTerminated notEofOrEol0) s = some (r, l)) :
    r.length < s.length := by
  obtain ⟨q, e, rfl, h2, h3⟩ := codeLine_some h
  exact (codeLine_of h2 h3).2

theorem indentedCode_iff {s r : Str} {b : Block} : codeBlockIndented s = some (r, b) ↔
    ∃ ls w, LinesWritten CodeLine r ls w ∧ ls ≠ [] ∧ ¬ IndentedAt r ∧ s = w ++ r ∧
      b = .codeBlock .indented (joinWith ['\n'] ls) := by
  unfold codeBlockIndented
  rw [mapP_some]
  constructor
  · rintro ⟨ls, h, rfl⟩
    obtain ⟨h1, h2⟩ := (many1_iff fun _ _ _ => codeLine_lt).1 h
    obtain ⟨w, h3, h4, h5⟩ := (lines_iff (fun _ _ _ => codeLine_some) (fun _ _ _ _ => codeLine_of)).1 h1
    exact ⟨ls, w, h4, h2, codeLine_none.1 h5, h3, rfl⟩
  · rintro ⟨ls, w, h1, h2, h3, rfl, rfl⟩
    exact ⟨ls, (many1_iff fun _ _ _ => codeLine_lt).2 ⟨(lines_iff (fun _ _ _ => codeLine_some) (fun _ _ _ _ => codeLine_of)).2
      ⟨w, rfl, h1, codeLine_none.2 h3⟩, h2⟩, rfl⟩

/-! ## Fenced code -/

theorem manyMN_indented {k : Nat} {p l t : Str} (h : Indented k p l) (ht : t.head? ≠ some ' ') :
    manyMN (chr ' ') 0 k (p ++ (l ++ t)) = some (l ++ t, p) := by
  obtain ⟨j, hj, rfl, hd⟩ := h
  rcases hd with rfl | hd
  · exact manyMN_max (by omega)
  · have hh : (l ++ t).head? ≠ some ' ' := by
      cases l with
      | nil => simpa using ht
      | cons c l => simpa using hd
    obtain ⟨l', h1, h2⟩ := manyMN_spaces k (List.replicate j ' ' ++ (l ++ t))
    have h3 : dropSpaces k (List.replicate j ' ' ++ (l ++ t)) = l ++ t := by
      rw [dropSpaces_replicate, if_pos hj, dropSpaces_head _ hh]
    rw [h3] at h1 h2
    rw [h1, List.append_cancel_right h2]

theorem endingFence_lt {f : Char} {n : Nat} {c e r : Str} (hn : 3 ≤ n) (hc : ClosesFence f n c) :
    r.length < (c ++ (e ++ r)).length := by
  obtain ⟨k, m, h1, h2, rfl⟩ := hc
  simp; omega

theorem closes_ending {f : Char} {n : Nat} {c e r : Str} (hf : f = '`' ∨ f = '~') (hn : 3 ≤ n) (hc : ClosesFence f n c)
    (he : LineEnd e r) : endingFence (List.replicate n f) (c ++ (e ++ r)) = some (r, ()) := by
  obtain ⟨k, m, h1, h2, rfl⟩ := hc
  have := endingFence_of (e := e) (rest := r) hf h1 (n := n) (m := m) (by omega) h2 he
  simpa using this

theorem fenceLine_some {f : Char} {n k : Nat} (hf : f = '`' ∨ f = '~') (hn : 3 ≤ n) {s r l : Str}
    (h : preceded (notP (endingFence (List.replicate n f)))
      (preceded (manyMN (chr ' ') 0 k) (lineTerminated notEofOrEol0)) s = some (r, l)) :
    ∃ q e, s = q ++ (l ++ (e ++ r)) ∧ FenceLine f n k q l ∧ LineWritten l e r := by
  obtain ⟨s1, _, h1, h2⟩ := preceded_some.1 h
  obtain ⟨h3, rfl⟩ := notP_some.1 h1
  obtain ⟨s2, _, h4, h5⟩ := preceded_some.1 h2
  obtain ⟨j, _, h6, rfl, rfl, h7⟩ := manyMN_chr_some _ _ _ _ _ (by omega) h4
  obtain ⟨e, rfl, h8, h9⟩ := line0_oneLine h5
  have ho : OneLine (sp j ++ l) := (OneLine.replicate j (by decide) (by decide)).append h8
  refine ⟨sp j, e, rfl, ⟨⟨j, h6, rfl, ?_⟩, h8, ?_⟩, h8.written h9⟩
  · rcases h7 with h7 | h7
    · exact .inl h7
    · right
      cases l with
      | nil => simp
      | cons c l => simpa using h7
  · intro hcl
    have := closes_ending hf hn hcl h9
    rw [List.append_assoc] at this
    rw [h3] at this
    simp at this

theorem fenceLine_of {f : Char} {n k : Nat} (hf : f = '`' ∨ f = '~') (hn : 3 ≤ n) {q l e r : Str} (h : FenceLine f n k q l)
    (he : LineWritten l e r) : preceded (notP (endingFence (List.replicate n f)))
      (preceded (manyMN (chr ' ') 0 k) (lineTerminated notEofOrEol0)) (q ++ (l ++ (e ++ r))) = some (r, l) := by
  obtain ⟨h1, h2, h3⟩ := h
  obtain ⟨j, hj, rfl, hd⟩ := h1
  have ho : OneLine (sp j ++ l) := (OneLine.replicate j (by decide) (by decide)).append h2
  refine preceded_some.2 ⟨_, (), notP_some.2 ⟨?_, rfl⟩, preceded_some.2 ⟨l ++ (e ++ r), sp j,
    manyMN_indented ⟨j, hj, rfl, hd⟩ he.ends.head, line0 h2 he.ends⟩⟩
  cases he' : endingFence (List.replicate n f) (sp j ++ (l ++ (e ++ r))) with
  | none => rfl
  | some y =>
    obtain ⟨r', u⟩ := y
    rw [← List.append_assoc] at he'
    exact absurd (endingFence_closes hf (by omega) ho he.ends he') h3

/-- Lines in front of a closing fence are not at the end of the text. -/
theorem fenceBody_iff {f : Char} {n k : Nat} (hf : f = '`' ∨ f = '~') (hn : 3 ≤ n) {s r : Str} {ls : List Str} :
    terminated (fencedLines (List.replicate n f) k) (endingFence (List.replicate n f)) s = some (r, ls) ↔
      ∃ w c e, LinesWritten (FenceLine f n k) (c ++ (e ++ r)) ls w ∧ ClosesFence f n c ∧ LineEnd e r ∧
        s = w ++ (c ++ (e ++ r)) := by
  constructor
  · intro h
    obtain ⟨s1, _, h1, h2⟩ := terminated_some.1 h
    obtain ⟨c, e, h3, h4, rfl⟩ := endingFence_some hf hn h2
    obtain ⟨w, rfl, hw⟩ := linesLoop (fun _ _ _ => fenceLine_some hf hn) _ _ _ h1
    exact ⟨w, c, e, hw, h3, h4, rfl⟩
  · rintro ⟨w, c, e, hw, hc, he, rfl⟩
    have hend := closes_ending hf hn hc he
    refine terminated_some.2 ⟨c ++ (e ++ r), (), ?_, hend⟩
    unfold fencedLines
    have hstop : preceded (notP (endingFence (List.replicate n f)))
      (preceded (manyMN (chr ' ') 0 k) (lineTerminated notEofOrEol0)) (c ++ (e ++ r)) = none := by
      cases h : preceded (notP (endingFence (List.replicate n f)))
        (preceded (manyMN (chr ' ') 0 k) (lineTerminated notEofOrEol0)) (c ++ (e ++ r)) with
      | none => rfl
      | some y =>
        obtain ⟨_, _, h1, _⟩ := preceded_some.1 h
        rw [(notP_some.1 h1).1] at hend
        simp at hend
    have hcne : c ++ (e ++ r) ≠ [] := by
      intro h
      have := endingFence_lt (e := e) (r := r) hn hc
      rw [h] at this
      simp at this
    generalize c ++ (e ++ r) = u at hstop hw hcne
    clear hend hc he
    induction hw with
    | nil => exact many0_of_none hstop
    | @cons q l e w ls h1 h2 _ ih =>
      have e1 : q ++ (l ++ (e ++ w)) ++ u = q ++ (l ++ (e ++ (w ++ u))) := by simp
      rw [e1]
      refine many0_of_some (fenceLine_of hf hn h1 h2) ?_ ih
      rcases h2.ends with (rfl | rfl) | ⟨_, h⟩
      · simp; omega
      · simp; omega
      · exact absurd (List.append_eq_nil_iff.1 h).2 hcne

theorem openingFence_exact {f : Char} {n : Nat} (hf : f = '`' ∨ f = '~') (hn : 3 ≤ n) {info : Option Str} {e r : Str}
    (hi : info ≠ some []) (hi' : (info.getD []).head? ≠ some f) (hl : LineWritten (info.getD []) e r) :
    openingFence (List.replicate n f ++ (info.getD [] ++ (e ++ r))) = some (r, (List.replicate n f, info)) := by
  obtain ⟨o, ho⟩ := openingFence_line hf hn hi' hl
  have hh : ∀ t : Str, t.head? ≠ some f → (t ++ (e ++ r)).head? ≠ some f := by
    intro t ht
    cases t with
    | nil => rcases hl.ends with (rfl | rfl) | ⟨rfl, rfl⟩ <;> rcases hf with rfl | rfl <;> simp
    | cons c t => simpa using ht
  obtain ⟨s1, e', h1, h2⟩ := terminated_some.1 ho
  obtain ⟨s2, h3, h4⟩ := seq_some.1 h1
  have h5 : s2 = info.getD [] ++ (e ++ r) := by
    have h6 : recognize (manyMin 3 (chr '`') <||> manyMin 3 (chr '~')) (List.replicate n f ++ (info.getD [] ++ (e ++ r))) =
        some (info.getD [] ++ (e ++ r), List.replicate n f) := by
      refine recognize_of (v := List.replicate n f) ?_
      have hrun := manyMin_chr (m := 3) hn (hh _ hi')
      rcases hf with rfl | rfl
      · exact orElse_of_some hrun
      · rw [orElse_of_none]
        · exact hrun
        · obtain ⟨m, rfl⟩ : ∃ j, n = j + 1 := ⟨n - 1, by omega⟩
          rw [List.replicate_succ, List.cons_append]
          exact manyMin_none_of (chr_ne (by decide)) 2
    rw [h6] at h3
    simp at h3
    exact h3.symm
  subst h5
  suffices o = info by rw [ho, this]
  cases info with
  | some t =>
    have hne : t ≠ [] := by rintro rfl; exact hi rfl
    have h7 := notEofOrEol1_lineWritten hne hl
    have h8 : recognize notEofOrEol1 (t ++ (e ++ r)) = some (e ++ r, t) := recognize_of h7
    rw [show ((some t).getD [] : Str) = t from rfl] at h4
    rcases opt_some.1 h4 with ⟨a, h9, rfl⟩ | ⟨h9, _⟩
    · rw [h8] at h9; simp at h9; rw [h9.2]
    · rw [h8] at h9; simp at h9
  | none =>
    rcases opt_some.1 h4 with ⟨a, h9, rfl⟩ | ⟨_, _, rfl⟩
    · exfalso
      obtain ⟨v, h10, _⟩ := recognize_some.1 h9
      obtain ⟨k1, k2, k3, _⟩ := notEofOrEol1_written h10
      rw [show ((none : Option Str).getD []) = [] from rfl, List.nil_append] at h10
      have : notEofOrEol1 (e ++ r) = none := by
        rcases hl.ends with (rfl | rfl) | ⟨rfl, rfl⟩ <;> rfl
      rw [this] at h10
      simp at h10
    · rfl

theorem fencedCode_iff {s r : Str} {b : Block} : codeBlockFenced s = some (r, b) ↔
    ∃ info ls, FencedRead s info ls r ∧ b = .codeBlock (.fenced info) (joinWith ['\n'] ls) := by
  constructor
  · intro h
    unfold codeBlockFenced at h
    split at h
    · simp at h
    · rename_i s1 sps fence info h1
      split at h
      · simp at h
      · rename_i s2 lines h2
        simp at h
        obtain ⟨rfl, rfl⟩ := h
        obtain ⟨s0, h3, h4⟩ := seq_some.1 h1
        obtain ⟨k, hk, rfl, rfl, _⟩ := indent03_written h3
        obtain ⟨f, n, e, hf, hn, rfl, hi, hi', rfl, hl⟩ := openingFence_some h4
        rw [List.length_replicate] at h2
        obtain ⟨w, c, e', h5, h6, h7, rfl⟩ := (fenceBody_iff hf hn).1 h2
        exact ⟨info, lines, ⟨k, n, f, e, w, c, e', hk, hn, hf, hi, hi', hl, h5, h6, h7, rfl⟩, rfl⟩
  · rintro ⟨info, ls, ⟨k, n, f, e, w, c, e', hk, hn, hf, hi, hi', hl, h5, h6, h7, rfl⟩, rfl⟩
    unfold codeBlockFenced
    have h8 : (List.replicate n f ++ (info.getD [] ++ (e ++ (w ++ (c ++ (e' ++ r)))))).head? ≠ some ' ' := by
      obtain ⟨m, rfl⟩ : ∃ j, n = j + 1 := ⟨n - 1, by omega⟩
      rcases hf with rfl | rfl <;> simp [List.replicate_succ]
    have h9 : Nom.seq indent03 openingFence (sp k ++ (List.replicate n f ++ (info.getD [] ++ (e ++ (w ++ (c ++ (e' ++ r))))))) =
        some (w ++ (c ++ (e' ++ r)), (sp k, (List.replicate n f, info))) :=
      seq_some.2 ⟨_, indent03_replicate hk h8, openingFence_exact hf hn hi hi' hl⟩
    rw [h9]
    simp only [List.length_replicate]
    rw [(fenceBody_iff hf hn).2 ⟨w, c, e', h5, h6, h7, rfl⟩]

/-! ## Headings and thematic breaks -/

theorem thematicBreak_iff {s r : Str} : thematicBreakP s = some (r, ()) ↔
    ∃ l e, ThematicLine l ∧ LineEnd e r ∧ s = l ++ (e ++ r) :=
  ⟨thematicBreakP_some, by rintro ⟨l, e, h1, h2, rfl⟩; exact thematicBreakP_line h1 h2⟩

/-! ## Quoted lines -/

theorem quoteFrame_iff {s r : Str} {ls : List Str} :
    quoteLines s = some (r, ls) ↔ QuoteFrame s ls r ∧ ls ≠ [] := by
  unfold quoteLines
  have hlt : ∀ s r l, preceded quotePrefix (lineTerminated notEofOrEol0) s = some (r, l) → r.length < s.length := by
    intro s r l h
    obtain ⟨q, e, rfl, ⟨⟨k, _, rfl⟩, _⟩, _⟩ := quoteLine_oneLine _ _ _ h
    simp; omega
  rw [many1_iff hlt]
  constructor
  · rintro ⟨h, hne⟩
    obtain ⟨w, rfl, hw⟩ := linesLoop quoteLine_oneLine _ _ _ h
    exact ⟨⟨w, hw, quoteEnds_iff.2 (many0_stop h), rfl⟩, hne⟩
  · rintro ⟨⟨w, hw, hr, rfl⟩, hne⟩
    exact ⟨quoteLines_all hr hw, hne⟩

end Verif.Exact
