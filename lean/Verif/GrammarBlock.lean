import Verif.GrammarInline
import Verif.ProvenanceBlock
/-!
# Leaf blocks are read by the grammar (C71)
-/
set_option linter.unusedVariables false
set_option linter.unusedSimpArgs false
namespace Verif
open Nom

/-! ## Lines -/

theorem manyMN_chr_some {c : Char} : ∀ (n m : Nat) (s r : Str) (l : List Char), m ≤ n →
    manyMN (chr c) m n s = some (r, l) →
    ∃ k, m ≤ k ∧ k ≤ n ∧ l = List.replicate k c ∧ s = List.replicate k c ++ r ∧ (k = n ∨ r.head? ≠ some c) := by
  intro n
  induction n with
  | zero =>
    intro m s r l hm h
    simp [manyMN] at h
    obtain ⟨rfl, rfl⟩ := h
    exact ⟨0, by omega, by omega, rfl, rfl, .inl rfl⟩
  | succ n ih =>
    intro m s r l hm h
    rw [manyMN] at h
    cases e : chr c s with
    | none =>
      rw [e] at h
      simp only at h
      split at h
      · rename_i hm0
        simp at h
        obtain ⟨rfl, rfl⟩ := h
        refine ⟨0, by omega, by omega, rfl, rfl, .inr ?_⟩
        intro hs
        cases s with
        | nil => simp at hs
        | cons d s => simp at hs; subst hs; simp [chr, satisfy] at e
      · simp at h
    | some y =>
      obtain ⟨r1, a⟩ := y
      rw [e] at h
      obtain ⟨rfl, rfl⟩ := chr_some.1 e
      simp only [List.length_cons, Nat.lt_add_one, if_true] at h
      cases e2 : manyMN (chr a) (m - 1) n r1 with
      | none => simp [e2] at h
      | some z =>
        obtain ⟨r2, l2⟩ := z
        simp [e2] at h
        obtain ⟨rfl, rfl⟩ := h
        obtain ⟨k, h1, h2, rfl, rfl, h3⟩ := ih _ _ _ _ (by omega) e2
        refine ⟨k + 1, by omega, by omega, rfl, rfl, ?_⟩
        rcases h3 with h3 | h3
        · exact .inl (by omega)
        · exact .inr h3

theorem indent03_written {s r : Str} {l : List Char} (h : indent03 s = some (r, l)) :
    ∃ k, k ≤ 3 ∧ l = sp k ∧ s = sp k ++ r ∧ (k = 3 ∨ r.head? ≠ some ' ') := by
  obtain ⟨k, _, h1, h2, h3, h4⟩ := manyMN_chr_some 3 0 _ _ _ (by omega) h
  exact ⟨k, h1, h2, h3, h4⟩

/-- A text up to a line end. -/
theorem notEofOrEol1_written {s r t : Str} (h : notEofOrEol1 s = some (r, t)) :
    s = t ++ r ∧ t ≠ [] ∧ '\n' ∉ t ∧ (r.head? = some '\n' → t.getLast? ≠ some '\r') := by
  obtain ⟨h1, h2⟩ := notEofOrEol1_ok h
  have hs := notEofOrEol1_append h
  refine ⟨hs.symm, h1, h2, ?_⟩
  intro hr ht
  obtain ⟨l, h3, _⟩ := recognize_some.1 h
  obtain ⟨s1, a, l', h4, h5, rfl⟩ := many1_some.1 h3
  have hlt : s1.length < s.length := by
    obtain ⟨s2, _, h6, h7⟩ := preceded_some.1 h4
    obtain ⟨_, rfl⟩ := notP_some.1 h6
    rw [anychar_some.1 h7]; simp
  obtain ⟨h6, h7⟩ := untilLoop _ _ _ (many0_of_some h4 hlt h5)
  have hl : a :: l' = t := List.append_cancel_right (by rw [← h6, hs])
  rw [hl] at h7
  obtain ⟨t', rfl⟩ : ∃ t', t = t' ++ ['\r'] := by
    rw [List.getLast?_eq_some_iff] at ht
    exact ht
  have := h7 t' ['\r'] rfl (by simp)
  cases r with
  | nil => simp at hr
  | cons d r =>
    simp at hr
    subst hr
    simp [eofOrEol, orElse_none, lineEnding] at this

theorem LineWritten.mk' {l e s r : Str} {u : Str} (h1 : '\n' ∉ l) (h2 : s.head? = some '\n' → l.getLast? ≠ some '\r')
    (h : eofOrEol s = some (r, e)) : s = e ++ r ∧ LineWritten l e r := by
  obtain ⟨h3, rfl⟩ := LineEnd.of_eofOrEol h
  exact ⟨rfl, h1, fun he => h2 (by rw [he]; rfl), h3⟩

theorem line1_written {s r t : Str} (h : lineTerminated notEofOrEol1 s = some (r, t)) :
    ∃ e, s = t ++ (e ++ r) ∧ t ≠ [] ∧ LineWritten t e r := by
  obtain ⟨s1, e, h1, h2⟩ := terminated_some.1 h
  obtain ⟨rfl, h3, h4, h5⟩ := notEofOrEol1_written h1
  obtain ⟨rfl, h6⟩ := LineWritten.mk' (u := []) h4 h5 h2
  exact ⟨e, rfl, h3, h6⟩

theorem line0_written {s r t : Str} (h : lineTerminated notEofOrEol0 s = some (r, t)) :
    ∃ e, s = t ++ (e ++ r) ∧ LineWritten t e r := by
  obtain ⟨s1, e, h1, h2⟩ := terminated_some.1 h
  have hn : s = t ++ s1 ∧ ∀ c ∈ t, notCrLf c = true := by
    rcases orElse_some.1 h1 with h | ⟨_, h⟩
    · obtain ⟨rfl, rfl⟩ := notLineEnding_some h
      exact ⟨(List.takeWhile_append_dropWhile).symm, fun c hc => takeWhile_all c hc⟩
    · obtain ⟨rfl, rfl, rfl⟩ := eof_some.1 h; simp
  obtain ⟨rfl, hn⟩ := hn
  obtain ⟨rfl, h6⟩ := LineWritten.mk' (u := []) (l := t) (fun hc => by simpa [notCrLf] using hn _ hc)
    (fun _ hc => by simpa [notCrLf] using hn _ (List.mem_of_getLast? hc)) h2
  exact ⟨e, rfl, h6⟩

theorem linesLoop {p : P Str} {Pre : Str → Str → Prop}
    (h : ∀ s r l, p s = some (r, l) → ∃ q e, s = q ++ (l ++ (e ++ r)) ∧ Pre q l ∧ LineWritten l e r) :
    ∀ s r ls, many0 p s = some (r, ls) → ∃ w, s = w ++ r ∧ LinesWritten Pre r ls w := by
  refine many0_induction ?_ ?_
  · intro s _; exact ⟨[], rfl, .nil⟩
  · intro s r a r' l hp _ _ ih
    obtain ⟨q, e, rfl, h1, h2⟩ := h _ _ _ hp
    obtain ⟨w, rfl, h3⟩ := ih
    exact ⟨q ++ (a ++ (e ++ w)), by simp, .cons h1 h2 h3⟩

theorem linesLoop1 {p : P Str} {Pre : Str → Str → Prop}
    (h : ∀ s r l, p s = some (r, l) → ∃ q e, s = q ++ (l ++ (e ++ r)) ∧ Pre q l ∧ LineWritten l e r) :
    ∀ s r ls, many1 p s = some (r, ls) → ∃ w, s = w ++ r ∧ ls ≠ [] ∧ LinesWritten Pre r ls w := by
  intro s r ls hp
  obtain ⟨r1, a, l', h1, h2, rfl⟩ := many1_some.1 hp
  obtain ⟨q, e, rfl, h3, h4⟩ := h _ _ _ h1
  obtain ⟨w, rfl, h5⟩ := linesLoop h _ _ _ h2
  exact ⟨q ++ (a ++ (e ++ w)), by simp, by simp, .cons h3 h4 h5⟩

/-! ## Code blocks -/

section
variable {x : PExt} {cfg : PConfig}

theorem codeBlockIndented_writes : Writes codeBlockIndented (BlockWritten x cfg) := by
  refine Writes.mapP ?_
  intro s r ls hp
  have hline : ∀ s r l, preceded (value () (manyMN (chr ' ') 4 4) <||> value () (chr '\t'))
      (lineTerminated notEofOrEol0) s = some (r, l) →
      ∃ q e, s = q ++ (l ++ (e ++ r)) ∧ CodePrefix q l ∧ LineWritten l e r := by
    intro s r l hp
    obtain ⟨s1, _, h1, h2⟩ := preceded_some.1 hp
    obtain ⟨e, rfl, h3⟩ := line0_written h2
    rcases orElse_some.1 h1 with h1 | ⟨_, h1⟩
    · obtain ⟨_, h1', _⟩ := value_some.1 h1
      obtain ⟨k, hk, hk', _, rfl, _⟩ := manyMN_chr_some _ _ _ _ _ (by omega) h1'
      have : k = 4 := by omega
      subst this
      exact ⟨sp 4, e, rfl, .inl rfl, h3⟩
    · obtain ⟨_, h1', _⟩ := value_some.1 h1
      obtain ⟨rfl, _⟩ := chr_some.1 h1'
      exact ⟨['\t'], e, rfl, .inr rfl, h3⟩
  obtain ⟨w, rfl, h1, h2⟩ := linesLoop1 hline _ _ _ hp
  exact ⟨w, rfl, .indented h1 h2⟩

theorem manyMin_chr_all {a : Char} {s r : Str} {l : List Char} {m : Nat}
    (h : manyMin m (chr a) s = some (r, l)) :
    ∃ n, m ≤ n ∧ s = List.replicate n a ++ r ∧ r.head? ≠ some a := by
  obtain ⟨h1, h2⟩ := verify_some.1 h
  obtain ⟨n, rfl, h3, h4⟩ := many0_chr_some h1
  exact ⟨n, by simpa using h2, h3, h4⟩

theorem openingFence_some {s r fence : Str} {info : Option Str} (h : openingFence s = some (r, (fence, info))) :
    ∃ f n e, (f = '`' ∨ f = '~') ∧ 3 ≤ n ∧ fence = List.replicate n f ∧ info ≠ some [] ∧
      (info.getD []).head? ≠ some f ∧ s = List.replicate n f ++ (info.getD [] ++ (e ++ r)) ∧
      LineWritten (info.getD []) e r := by
  obtain ⟨s1, e, h1, h2⟩ := terminated_some.1 h
  obtain ⟨s2, h3, h4⟩ := seq_some.1 h1
  have hf := recognize_append h3
  obtain ⟨l, h5, _⟩ := recognize_some.1 h3
  have h6 : ∃ f n, (f = '`' ∨ f = '~') ∧ 3 ≤ n ∧ s = List.replicate n f ++ s2 ∧ s2.head? ≠ some f := by
    rcases orElse_some.1 h5 with h5 | ⟨_, h5⟩
    · obtain ⟨n, h7, h8, h9⟩ := manyMin_chr_all h5
      exact ⟨'`', n, .inl rfl, h7, h8, h9⟩
    · obtain ⟨n, h7, h8, h9⟩ := manyMin_chr_all h5
      exact ⟨'~', n, .inr rfl, h7, h8, h9⟩
  obtain ⟨f, n, hf', hn, hs, hh⟩ := h6
  simp only at hf
  have hfence : fence = List.replicate n f := List.append_cancel_right (by rw [hf, hs])
  rcases opt_some.1 h4 with ⟨t, h7, h8⟩ | ⟨_, h7, h8⟩
  · simp only at h8
    subst h8
    obtain ⟨t', h9, h10⟩ := recognize_some.1 h7
    obtain ⟨h11, h12, h13, h14⟩ := notEofOrEol1_written h9
    have ht : t = t' := by
      rw [h10, h11, List.length_append, Nat.add_sub_cancel, List.take_left' rfl]
    subst ht
    obtain ⟨h15, h16⟩ := LineWritten.mk' (u := []) h13 h14 h2
    refine ⟨f, n, e, hf', hn, hfence, by simpa using h12, ?_, ?_, h16⟩
    · simp only [Option.getD_some]
      cases t with
      | nil => simp
      | cons c t => rw [h11] at hh; simpa using hh
    · rw [hs, h11, h15]; rfl
  · simp only at h8
    subst h8 h7
    obtain ⟨h15, h16⟩ := LineWritten.mk' (u := []) (l := []) (by simp) (by simp) h2
    exact ⟨f, n, e, hf', hn, hfence, by simp, by simp, by rw [hs, h15]; rfl, h16⟩

theorem endingFence_some {f : Char} {n : Nat} (hf : f = '`' ∨ f = '~') (hn : 3 ≤ n) {s r : Str} {u : Unit}
    (h : endingFence (List.replicate n f) s = some (r, u)) :
    ∃ c e, ClosesFence f n c ∧ LineEnd e r ∧ s = c ++ (e ++ r) := by
  obtain ⟨s1, e, h1, h2⟩ := terminated_some.1 h
  obtain ⟨h3, rfl⟩ := LineEnd.of_eofOrEol h2
  obtain ⟨_, h4, _⟩ := value_some.1 h1
  obtain ⟨s2, h5, h6⟩ := seq_some.1 h4
  obtain ⟨s3, h7, h8⟩ := seq_some.1 h6
  obtain ⟨k, hk, _, rfl, _⟩ := indent03_written h5
  obtain ⟨rfl, _⟩ := tag_some.1 h7
  have hh : (List.replicate n f).headD '`' = f := by
    cases n with
    | zero => omega
    | succ n => rfl
  rw [hh] at h8
  obtain ⟨m, _, rfl, _⟩ := many0_chr_some h8
  refine ⟨sp k ++ List.replicate (n + m) f, e, ⟨k, n + m, hk, by omega, rfl⟩, h3, ?_⟩
  rw [← List.replicate_append_replicate]
  simp only [sp, List.append_assoc]

theorem codeBlockFenced_writes : Writes codeBlockFenced (BlockWritten x cfg) := by
  intro s r b hp
  unfold codeBlockFenced at hp
  split at hp
  · simp at hp
  · rename_i s1 spc fence info e1
    split at hp
    · simp at hp
    · rename_i s2 lines e2
      simp at hp
      obtain ⟨rfl, rfl⟩ := hp
      obtain ⟨s3, h1, h2⟩ := seq_some.1 e1
      obtain ⟨k, hk, h3, rfl, _⟩ := indent03_written h1
      obtain ⟨f, n, e, hf, hn, h4, h5, h6, rfl, h7⟩ := openingFence_some h2
      simp only at h3 h4
      subst h3 h4
      obtain ⟨s4, _, h8, h9⟩ := terminated_some.1 e2
      obtain ⟨c, e', h10, h11, rfl⟩ := endingFence_some hf hn h9
      have hline : ∀ s r l, preceded (notP (endingFence (List.replicate n f)))
          (preceded (manyMN (chr ' ') 0 (sp k).length) (lineTerminated notEofOrEol0)) s = some (r, l) →
          ∃ q e, s = q ++ (l ++ (e ++ r)) ∧ FencedPrefix f n k q l ∧ LineWritten l e r := by
        intro s r l hp
        obtain ⟨s1, _, h1, h2⟩ := preceded_some.1 hp
        obtain ⟨h1, rfl⟩ := notP_some.1 h1
        obtain ⟨s2, _, h3, h4⟩ := preceded_some.1 h2
        obtain ⟨j, _, hj, _, rfl, h5⟩ := manyMN_chr_some _ _ _ _ _ (by omega) h3
        obtain ⟨e, rfl, h6⟩ := line0_written h4
        simp only [sp, List.length_replicate] at hj h5
        refine ⟨sp j, e, rfl, ⟨⟨j, hj, rfl, ?_⟩, ?_⟩, h6⟩
        · rcases h5 with h5 | h5
          · exact .inl h5
          · right
            cases l with
            | nil => simp
            | cons c l => simpa using h5
        · rintro ⟨k', m, hk', hm, hc⟩
          have := endingFence_of hf hk' (by omega) hm h6.ends
          rw [show List.replicate j ' ' ++ (l ++ (e ++ r)) = (sp j ++ l) ++ (e ++ r) by simp [sp], hc,
            List.append_assoc, this] at h1
          simp at h1
      obtain ⟨w, rfl, h12⟩ := linesLoop hline _ _ _ h8
      exact ⟨_, by simp, .fenced hf hk hn h5 h6 h7 h12 h10 h11⟩

/-! ## Headings -/

theorem space0_all {s r w : Str} (h : space0 s = some (r, w)) :
    s = w ++ r ∧ Blanks w ∧ r.head? ≠ some ' ' ∧ r.head? ≠ some '\t' := by
  have : some (s.dropWhile isSpace, s.takeWhile isSpace) = some (r, w) := h
  simp at this
  obtain ⟨rfl, rfl⟩ := this
  have hd : ∀ c, (s.dropWhile isSpace).head? = some c → isSpace c = false := by
    intro c hc
    have := List.head?_dropWhile_not isSpace s
    rw [hc] at this
    simpa using this
  refine ⟨(List.takeWhile_append_dropWhile).symm, fun c hc => ?_, fun hc => ?_, fun hc => ?_⟩
  · have := takeWhile_all c hc; simpa [isSpace] using this
  · simpa [isSpace] using hd _ hc
  · simpa [isSpace] using hd _ hc

theorem space1_all {s r w : Str} (h : space1 s = some (r, w)) :
    s = w ++ r ∧ w ≠ [] ∧ Blanks w ∧ r.head? ≠ some ' ' ∧ r.head? ≠ some '\t' := by
  have h0 : space0 s = some (r, w) := by
    unfold space1 takeWhile1 at h
    split at h
    · simp at h
    · exact h
  obtain ⟨h1, h2, h3, h4⟩ := space0_all h0
  refine ⟨h1, ?_, h2, h3, h4⟩
  obtain ⟨u, hu, h5, _⟩ := space1_writes _ _ _ h
  have : w = u := List.append_cancel_right (by rw [← h1, ← hu])
  rw [this]; exact h5

theorem headingV1_writes (hk : cfg.Keeps) : Writes (headingV1 x cfg) (BlockWritten x cfg) := by
  intro s r b hp
  unfold headingV1 at hp
  split at hp
  · simp at hp
  · rename_i r1 hashes content e1
    split at hp
    · rename_i l e2
      simp at hp
      obtain ⟨rfl, rfl⟩ := hp
      obtain ⟨s1, h1, h2⟩ := seq_some.1 e1
      obtain ⟨n, h3, h4, h5, rfl, h6⟩ := manyMN_chr_some _ _ _ _ _ (by omega) h1
      simp only at h5
      subst h5
      obtain ⟨s2, b, h7, h8⟩ := preceded_some.1 h2
      obtain ⟨e, rfl, h9, h10⟩ := line1_written h8
      have hb : s1 = b ++ (content ++ (e ++ r1)) ∧ Blanks b ∧ (b = [] → cfg.allowNoSpaceInHeadings = true) ∧
          (content ++ (e ++ r1)).head? ≠ some ' ' ∧ (content ++ (e ++ r1)).head? ≠ some '\t' := by
        split at h7
        · rename_i hc
          obtain ⟨h1, h2, h3, h4⟩ := space0_all h7
          exact ⟨h1, h2, fun _ => hc, h3, h4⟩
        · obtain ⟨h1, h2, h3, h4, h5⟩ := space1_all h7
          exact ⟨h1, h3, fun h => absurd h h2, h4, h5⟩
      obtain ⟨rfl, hb1, hb2, hb3, hb4⟩ := hb
      have hr := parseInlines0_reads (x := x) hk _ _ e2
      have hhead : (content ++ (e ++ r1)).head? = content.head? := by
        cases content with
        | nil => exact absurd rfl h9
        | cons c t => rfl
      rw [hhead] at hb3 hb4
      refine ⟨(List.replicate n '#' ++ b) ++ (content ++ e), by simp, ?_⟩
      rw [List.length_replicate]
      refine .atx ⟨h3, h4, b, hb1, hb2, ?_, hb3, hb4, rfl⟩ h9 h10 hr
      rintro rfl hn
      rcases h6 with h6 | h6
      · omega
      · rw [List.nil_append, hhead] at h6; exact h6
    · simp at hp

theorem headingV2Level_writes : Writes headingV2Level (fun k w r => ∃ u e, Underline k u ∧ LineEnd e r ∧ w = u ++ e) := by
  intro s r k hp
  obtain ⟨s1, e, h1, h2⟩ := terminated_some.1 hp
  obtain ⟨h3, rfl⟩ := LineEnd.of_eofOrEol h2
  obtain ⟨s2, _, h4, h5⟩ := preceded_some.1 h1
  obtain ⟨j, hj, _, rfl, _⟩ := indent03_written h4
  obtain ⟨s3, b, h6, h7⟩ := terminated_some.1 h5
  obtain ⟨h8, hb, _, _⟩ := space0_all h7
  subst h8
  have hm : ∀ {c : Char} {s r : Str} {l : List Char}, many1 (chr c) s = some (r, l) →
      ∃ n, 0 < n ∧ s = List.replicate n c ++ r := by
    intro c s r l h
    obtain ⟨s1, a, l', h1, h2, _⟩ := many1_some.1 h
    obtain ⟨rfl, rfl⟩ := chr_some.1 h1
    obtain ⟨n, _, rfl, _⟩ := many0_chr_some h2
    exact ⟨n + 1, by omega, rfl⟩
  rcases orElse_some.1 h6 with h6 | ⟨_, h6⟩
  · obtain ⟨_, h9, rfl⟩ := value_some.1 h6
    obtain ⟨n, hn, rfl⟩ := hm h9
    exact ⟨(sp j ++ (List.replicate n '=' ++ b)) ++ e, by simp [sp], _, e, .one hj hn hb, h3, rfl⟩
  · obtain ⟨_, h9, rfl⟩ := value_some.1 h6
    obtain ⟨n, hn, rfl⟩ := hm h9
    exact ⟨(sp j ++ (List.replicate n '-' ++ b)) ++ e, by simp [sp], _, e, .two hj hn hb, h3, rfl⟩

theorem thematicBreakP_writes : Writes (value Block.thematicBreak thematicBreakP) (BlockWritten x cfg) := by
  intro s r b hp
  obtain ⟨_, h', rfl⟩ := value_some.1 hp
  obtain ⟨l, e, h1, h2, rfl⟩ := thematicBreakP_some h'
  exact ⟨l ++ e, by simp, .thematicBreak h1 h2⟩

/-! ## Paragraphs -/

theorem paragraphLine_some {s r l : Str} (h : paragraphLine s = some (r, l)) :
    ∃ q, s = q ++ (l ++ r) ∧ ParagraphPrefix q l ∧ '\n' ∉ l ∧ (r.head? = some '\n' → l.getLast? ≠ some '\r') := by
  obtain ⟨s1, _, h1, h2⟩ := preceded_some.1 h
  obtain ⟨k, hk, _, rfl, h3⟩ := indent03_written h1
  obtain ⟨rfl, h4, h5, h6⟩ := notEofOrEol1_written h2
  refine ⟨sp k, rfl, ⟨h4, k, hk, rfl, ?_⟩, h5, h6⟩
  rcases h3 with h3 | h3
  · exact .inl h3
  · right
    cases l with
    | nil => simp
    | cons c l => simpa using h3

theorem paragraphSep {p : P Str} (hp : ∀ s r l, p s = some (r, l) → paragraphLine s = some (r, l)) :
    ∀ s r ls, sepLoop lineEnding p s = some (r, ls) → ∀ r2 e, eofOrEol r = some (r2, e) →
      ∃ e0 w, s = e0 ++ (w ++ r2) ∧ LineEnd e0 (w ++ r2) ∧ LinesWritten ParagraphPrefix r2 ls w := by
  refine sepLoop_induction ?_ ?_
  · intro s _ r2 e he
    obtain ⟨h1, rfl⟩ := LineEnd.of_eofOrEol he
    exact ⟨e, [], rfl, h1, .nil⟩
  · intro s r b r' a r'' l hsep h1 _ _ ih r2 e he
    obtain ⟨q, rfl, h2, h3, h4⟩ := paragraphLine_some (hp _ _ _ h1)
    obtain ⟨e0, w, rfl, h5, h6⟩ := ih r2 e he
    obtain ⟨nl, rfl, h7⟩ := lineEnding_writes _ _ _ hsep
    exact ⟨nl, q ++ (a ++ (e0 ++ w)), by simp, .inl h7,
      .cons h2 ⟨h3, fun h => h4 (by rw [h]; rfl), h5⟩ h6⟩

theorem paragraphLines_written {rec : P (List Block)} {s r : Str} {ls : List Str}
    (h : paragraphLines x cfg rec s = some (r, ls)) (hne : ls ≠ []) :
    ∃ w, s = w ++ r ∧ LinesWritten ParagraphPrefix r ls w := by
  obtain ⟨s1, e, h1, h2⟩ := terminated_some.1 h
  have hp : ∀ s r l, preceded (notP (notAParagraphLine x cfg rec)) paragraphLine s = some (r, l) →
      paragraphLine s = some (r, l) := by
    intro s r l h
    obtain ⟨s1, _, h1, h2⟩ := preceded_some.1 h
    obtain ⟨_, rfl⟩ := notP_some.1 h1
    exact h2
  rcases separatedList0_some.1 h1 with ⟨_, _, h⟩ | ⟨r1, a, l', h3, h4, rfl⟩
  · exact absurd h hne
  · obtain ⟨q, rfl, h5, h6, h7⟩ := paragraphLine_some (hp _ _ _ h3)
    obtain ⟨e0, w, rfl, h8, h9⟩ := paragraphSep hp _ _ _ h4 _ _ h2
    exact ⟨q ++ (a ++ (e0 ++ w)), by simp, .cons h5 ⟨h6, fun h => h7 (by rw [h]; rfl), h8⟩ h9⟩

theorem paragraphP_writes (hk : cfg.Keeps) {rec : P (List Block)} {b : Bool} :
    Writes (paragraphP x cfg rec b) (fun l w r => ∃ ls, ls ≠ [] ∧ LinesWritten ParagraphPrefix r ls w ∧
      InlinesWritten x cfg.entities l (joinWith ['\n'] ls)) := by
  intro s r l hp
  obtain ⟨ls, h1, h2⟩ := mapOpt_some.1 hp
  have h3 := parseInlines1_reads (x := x) hk _ _ h2
  have hne : ls ≠ [] := by
    rintro rfl
    have hz : parseInlines1 x cfg (joinWith ['\n'] []) = none := by
      rw [show joinWith ['\n'] [] = [] from rfl, parseInlines1_nil hk.customOk]
    rw [hz] at h2
    simp at h2
  cases b
  · simp only [Bool.false_eq_true, if_false] at h1
    obtain ⟨⟨a, l'⟩, h4, rfl⟩ := mapP_some.1 h1
    obtain ⟨s1, h5, h6⟩ := seq_some.1 h4
    simp only at h5 h6
    obtain ⟨s2, e, h7, h8⟩ := terminated_some.1 h6
    have hl : l' = [] ∧ s2 = s1 := by
      rcases separatedList0_some.1 h7 with ⟨_, h', h⟩ | ⟨r1, a', l'', h9, _, _⟩
      · exact ⟨h, by first | exact h' | exact h'.symm⟩
      · exfalso
        obtain ⟨s3, _, h9', h10⟩ := preceded_some.1 h9
        obtain ⟨_, hs3⟩ := notP_some.1 h9'
        rw [hs3] at h10
        obtain ⟨s4, _, h11, h12⟩ := preceded_some.1 h5
        have h13 := notEofOrEol1_rest h12
        cases h14 : eofOrEol s1 with
        | none => simp [h14] at h13
        | some y => rw [paragraphLine_of_eol h14] at h10; simp at h10
    obtain ⟨rfl, rfl⟩ := hl
    obtain ⟨q, rfl, h9, h10, h11⟩ := paragraphLine_some h5
    obtain ⟨rfl, h12⟩ := LineWritten.mk' (u := []) h10 h11 h8
    exact ⟨q ++ (a ++ (e ++ [])), by simp, [a], by simp, .cons h9 (by simpa using h12) .nil, h3⟩
  · obtain ⟨w, rfl, h4⟩ := paragraphLines_written h1 hne
    exact ⟨w, rfl, ls, hne, h4, h3⟩

theorem headingV2OrParagraph_writes (hk : cfg.Keeps) {rec : P (List Block)} :
    Writes (headingV2OrParagraph x cfg rec) (BlockWritten x cfg) := by
  intro s r b hp
  obtain ⟨⟨l, o⟩, h1, rfl⟩ := mapP_some.1 hp
  obtain ⟨s1, h2, h3⟩ := seq_some.1 h1
  obtain ⟨w, rfl, ls, h4, h5, h6⟩ := paragraphP_writes hk _ _ _ h2
  simp only at h3 h6 ⊢
  rcases opt_some.1 h3 with ⟨k, h7, rfl⟩ | ⟨_, rfl, rfl⟩
  · obtain ⟨v, rfl, u, e, h8, h9, rfl⟩ := headingV2Level_writes _ _ _ h7
    exact ⟨w ++ (u ++ e), by simp, .setext h4 (by simpa using h5) h6 h8 h9⟩
  · exact ⟨w, rfl, .paragraph h4 h5 h6⟩

/-! ## Definitions -/

theorem blankText_blanks {w s : Str} (h : Blanks w) (hs : BlankText s) : BlankText (w ++ s) := by
  induction w with
  | nil => exact hs
  | cons c w ih =>
    have := ih (fun d hd => h d (by simp [hd]))
    rcases h c (by simp) with rfl | rfl
    · exact .space this
    · exact .tab this

theorem oneLineWhitespace1_writes : Writes oneLineWhitespace1 (fun _ w _ => TitleGap w) := by
  intro s r t hp
  obtain ⟨h1, h2⟩ := verify_some.1 hp
  have hs := recognize_append h1
  obtain ⟨l, h3, _⟩ := recognize_some.1 h1
  have hstep : ∀ s r a, (lineEnding <||> space1) s = some (r, a) → ∃ w, s = w ++ r ∧ w ≠ [] ∧
      ∀ v, BlankText v → BlankText (w ++ v) := by
    intro s r a h
    rcases orElse_some.1 h with h | ⟨_, h⟩
    · obtain ⟨w, h4, h5⟩ := lineEnding_writes _ _ _ h
      rcases h5 with rfl | rfl
      · exact ⟨_, h4, by simp, fun v hv => .lf hv⟩
      · exact ⟨_, h4, by simp, fun v hv => .crlf hv⟩
    · obtain ⟨w, h4, h5, h6⟩ := space1_writes _ _ _ h
      exact ⟨w, h4, h5, fun v hv => blankText_blanks h6 hv⟩
  have hloop : ∀ s r l, many0 (lineEnding <||> space1) s = some (r, l) → ∃ w, s = w ++ r ∧ BlankText w := by
    refine many0_induction ?_ ?_
    · intro s _; exact ⟨[], rfl, .nil⟩
    · intro s r a r' l hp _ _ ih
      obtain ⟨w, rfl, _, h1⟩ := hstep _ _ _ hp
      obtain ⟨v, rfl, h2⟩ := ih
      exact ⟨w ++ v, by simp, h1 v h2⟩
  obtain ⟨s1, a, l', h4, h5, _⟩ := many1_some.1 h3
  obtain ⟨w, rfl, hw, h6⟩ := hstep _ _ _ h4
  obtain ⟨v, rfl, h7⟩ := hloop _ _ _ h5
  have ht : t = w ++ v := List.append_cancel_right (by rw [hs]; simp)
  subst ht
  exact ⟨w ++ v, by simp, by simp [hw], h6 v h7, by simpa using h2⟩

theorem linkDefinitionP_writes (hk : cfg.Keeps) : Writes (linkDefinitionP x cfg) (BlockWritten x cfg) := by
  intro s r b hp
  obtain ⟨⟨l, d, t⟩, h1, rfl⟩ := mapP_some.1 hp
  obtain ⟨s1, e, h2, h3⟩ := terminated_some.1 h1
  obtain ⟨hend, rfl⟩ := LineEnd.of_eofOrEol h3
  obtain ⟨s2, h4, h5⟩ := seq_some.1 h2
  obtain ⟨s3, _, h6, h7⟩ := preceded_some.1 h4
  obtain ⟨k, hk', _, rfl, _⟩ := indent03_written h6
  obtain ⟨w, rfl, w', v, rfl, h8, h9⟩ := linkLabel_writes (parseInlines1_reads (x := x) hk) _ _ _ h7
  obtain ⟨s4, _, h10, h11⟩ := preceded_some.1 h5
  obtain ⟨rfl, _⟩ := chr_some.1 h10
  obtain ⟨s5, _, h12, h13⟩ := preceded_some.1 h11
  have hg : ∃ g, s4 = g ++ s5 ∧ Gap g := by
    obtain ⟨s6, h14, h15⟩ := seq_some.1 h12
    obtain ⟨s7, h16, h17⟩ := seq_some.1 h15
    obtain ⟨b1, rfl, hb1⟩ := space0_writes _ _ _ h14
    obtain ⟨b2, rfl, hb2⟩ := space0_writes _ _ _ h17
    rcases opt_some.1 h16 with ⟨_, h18, _⟩ | ⟨_, rfl, _⟩
    · obtain ⟨nl, rfl, hnl⟩ := lineEnding_writes _ _ _ h18
      exact ⟨b1 ++ (nl ++ b2), by simp, .inr ⟨b1, nl, b2, hb1, hnl, hb2, rfl⟩⟩
    · exact ⟨b1 ++ b2, by simp, .inl (by intro c hc; simp at hc; exact hc.elim (hb1 c) (hb2 c))⟩
  obtain ⟨g, rfl, hg⟩ := hg
  obtain ⟨s6, h14, h15⟩ := seq_some.1 h13
  obtain ⟨wd, rfl, hd⟩ := linkDestination_writes _ _ _ h14
  have ht : ∃ wt, s6 = wt ++ (e ++ r) ∧ DefTitle wt t := by
    rcases opt_some.1 h15 with ⟨a, h16, h17⟩ | ⟨_, h16, h17⟩
    · simp only at h17
      subst h17
      obtain ⟨s7, _, h18, h19⟩ := preceded_some.1 h16
      obtain ⟨g', rfl, hg'⟩ := oneLineWhitespace1_writes _ _ _ h18
      obtain ⟨wt, rfl, hwt⟩ := linkTitle_writes _ _ _ h19
      exact ⟨g' ++ wt, by simp, .some hg' hwt⟩
    · simp only at h17
      subst h16 h17
      exact ⟨[], rfl, .none⟩
  obtain ⟨wt, rfl, ht⟩ := ht
  exact ⟨_, by simp [sp], .definition hk' h8 h9 hg hd ht hend⟩

/-! ## Tables -/

theorem cellContent_writes (hk : cfg.Keeps) : Writes (cellContent x cfg) (fun c w _ => ∃ t, w ≠ [] ∧ '\n' ∉ w ∧
    Unescapes '|' w t ∧ InlinesWritten x cfg.entities c (trim t)) := by
  intro s r c hp
  obtain ⟨t, h1, h2⟩ := mapOpt_some.1 hp
  obtain ⟨w, rfl, h3, h4⟩ := unescapes_loop1 (by intro s; simp [orElse_none, value_none, chr, satisfy]) h1
  refine ⟨w, rfl, t, h3, ?_, h4, parseInlines0_reads hk _ _ h2⟩
  have hn : ∀ s r l, many0 (preceded (notP (value () eofOrEol <||> value () (chr '|')))
      (value '|' (tag cs!"\\|") <||> anychar)) s = some (r, l) → ∀ w, s = w ++ r → '\n' ∉ w := by
    refine many0_induction ?_ ?_
    · intro s _ w hw
      have : w = [] := by simpa using hw.symm
      simp [this]
    · intro s r a r' l hp hlt hm ih w hw
      obtain ⟨s1, _, h1, h2⟩ := preceded_some.1 hp
      obtain ⟨h1, rfl⟩ := notP_some.1 h1
      obtain ⟨u, hu⟩ : ∃ u, r = u ++ r' := by
        obtain ⟨v, _, hv, _⟩ := (Gives.many0 (E := fun _ _ => True) (p := preceded (notP (value () eofOrEol <||> value () (chr '|')))
          (value '|' (tag cs!"\\|") <||> anychar)) (Gives.preceded Drops.notP ((escape_gives.orElse anychar_gives).mono
            fun _ _ _ => trivial))) _ _ _ hm
        exact ⟨v, hv⟩
      have := ih u hu
      rcases orElse_some.1 h2 with h2 | ⟨_, h2⟩
      · obtain ⟨_, h3, rfl⟩ := value_some.1 h2
        have h4 := (tag_some.1 h3).1
        rw [hw, hu] at h4
        have : w = cs!"\\|" ++ u := List.append_cancel_right (by rw [h4]; simp)
        rw [this]; simpa using ‹'\n' ∉ u›
      · have h4 := anychar_some.1 h2
        rw [hw, hu] at h4
        have h5 : w = a :: u := List.append_cancel_right (by rw [h4]; rfl)
        rw [h5]
        simp only [List.mem_cons, not_or]
        refine ⟨?_, this⟩
        rintro rfl
        rw [hw, h5] at h1
        simp [orElse_none, value_none, eofOrEol, lineEnding] at h1
  obtain ⟨s1, a, l', h5, h6, rfl⟩ := many1_some.1 h1
  have hlt : s1.length < (w ++ r).length := by
    obtain ⟨s2, _, h7, h8⟩ := preceded_some.1 h5
    obtain ⟨_, h9⟩ := notP_some.1 h7
    rw [← h9]
    rcases orElse_some.1 h8 with h8 | ⟨_, h8⟩
    · obtain ⟨_, h3, rfl⟩ := value_some.1 h8
      rw [(tag_some.1 h3).1]; simp; omega
    · rw [anychar_some.1 h8]; simp
  exact hn _ _ _ (many0_of_some h5 hlt h6) w rfl

theorem cellsLoop (hk : cfg.Keeps) : ∀ s r cs, sepLoop (chr '|') (cellContent x cfg) s = some (r, cs) →
    ∃ o, s = o ++ r ∧ CellsWritten x cfg.entities cs o := by
  refine sepLoop_induction ?_ ?_
  · intro s _; exact ⟨[], rfl, .nil⟩
  · intro s r b r' a r'' l hsep h1 _ _ ih
    obtain ⟨rfl, _⟩ := chr_some.1 hsep
    obtain ⟨w, rfl, t, h2, h3, h4, h5⟩ := cellContent_writes hk _ _ _ h1
    obtain ⟨o, rfl, h6⟩ := ih
    exact ⟨'|' :: (w ++ o), by simp, .cons h2 h3 h4 h5 h6⟩

theorem lastBar {s r : Str} {o : Option Char} (h : Nom.opt (chr '|') s = some (r, o)) :
    ∃ last, s = last ++ r ∧ (last = [] ∨ last = ['|']) := by
  rcases opt_some.1 h with ⟨_, h, _⟩ | ⟨_, rfl, _⟩
  · obtain ⟨rfl, _⟩ := chr_some.1 h
    exact ⟨['|'], rfl, .inr rfl⟩
  · exact ⟨[], rfl, .inl rfl⟩

theorem tableRow_writes (hk : cfg.Keeps) : Writes (tableRow x cfg) (fun cs w r => RowWritten x cfg.entities r cs w) := by
  intro s r cs hp
  obtain ⟨s1, e, h1, h2⟩ := terminated_some.1 hp
  obtain ⟨hend, rfl⟩ := LineEnd.of_eofOrEol h2
  obtain ⟨s2, _, h3, h4⟩ := preceded_some.1 h1
  obtain ⟨k, hk', _, rfl, _⟩ := indent03_written h3
  obtain ⟨s3, _, s4, _, h5, h6, h7⟩ := delimited_some.1 h4
  obtain ⟨rfl, _⟩ := chr_some.1 h5
  obtain ⟨r1, a, l', h8, h9, rfl⟩ := separatedList1_some.1 h6
  obtain ⟨w, rfl, t, h10, h11, h12, h13⟩ := cellContent_writes hk _ _ _ h8
  obtain ⟨o, rfl, h14⟩ := cellsLoop hk _ _ _ h9
  obtain ⟨last, rfl, h15⟩ := lastBar h7
  exact ⟨_, by simp, .mk hk' (by simp) (.cons h10 h11 h12 h13 h14) h15 hend⟩

theorem alignmentCell_writes : Writes alignmentCell (fun a w _ => AlignCell a w) := by
  intro s r a hp
  obtain ⟨m, h1, rfl⟩ := mapP_some.1 hp
  obtain ⟨s1, b1, s2, b2, h2, h3, h4⟩ := delimited_some.1 h1
  obtain ⟨w1, rfl, hb1⟩ := space0_writes _ _ _ h2
  obtain ⟨w2, rfl, hb2⟩ := space0_writes _ _ _ h4
  have hm : ∀ {s r : Str} {l : List Char}, many1 (chr '-') s = some (r, l) →
      ∃ n, 0 < n ∧ s = List.replicate n '-' ++ r := by
    intro s r l h
    obtain ⟨s1, a, l', h1, h2, _⟩ := many1_some.1 h
    obtain ⟨rfl, rfl⟩ := chr_some.1 h1
    obtain ⟨n, _, rfl, _⟩ := many0_chr_some h2
    exact ⟨n + 1, by omega, rfl⟩
  have hmark : ∃ a', AlignMark a' m ∧ s1 = m ++ (w2 ++ r) := by
    rcases orElse_some.1 h3 with h | ⟨_, h⟩
    · have hs := recognize_append h
      obtain ⟨_, h5, _⟩ := recognize_some.1 h
      obtain ⟨s3, _, s4, _, h6, h7, h8⟩ := delimited_some.1 h5
      obtain ⟨h6, _⟩ := chr_some.1 h6
      obtain ⟨h8, _⟩ := chr_some.1 h8
      obtain ⟨n, hn, h7⟩ := hm h7
      have : m = ':' :: (List.replicate n '-' ++ [':']) :=
        List.append_cancel_right (by rw [hs, h6, h7, h8]; simp)
      exact ⟨.center, by rw [this]; exact .center hn, hs.symm⟩
    rcases orElse_some.1 h with h | ⟨_, h⟩
    · have hs := recognize_append h
      obtain ⟨_, h5, _⟩ := recognize_some.1 h
      obtain ⟨s3, _, h6, h7⟩ := preceded_some.1 h5
      obtain ⟨h6, _⟩ := chr_some.1 h6
      obtain ⟨n, hn, h7⟩ := hm h7
      have : m = ':' :: List.replicate n '-' := List.append_cancel_right (by rw [hs, h6, h7]; simp)
      exact ⟨.left, by rw [this]; exact .left hn, hs.symm⟩
    rcases orElse_some.1 h with h | ⟨_, h⟩
    · have hs := recognize_append h
      obtain ⟨_, h5, _⟩ := recognize_some.1 h
      obtain ⟨s3, _, h6, h7⟩ := terminated_some.1 h5
      obtain ⟨h7, _⟩ := chr_some.1 h7
      obtain ⟨n, hn, h6⟩ := hm h6
      have : m = List.replicate n '-' ++ [':'] := List.append_cancel_right (by rw [hs, h6, h7]; simp)
      exact ⟨.right, by rw [this]; exact .right hn, hs.symm⟩
    · have hs := recognize_append h
      obtain ⟨_, h5, _⟩ := recognize_some.1 h
      obtain ⟨n, hn, h6⟩ := hm h5
      have : m = List.replicate n '-' := List.append_cancel_right (by rw [hs, h6])
      exact ⟨.none, by rw [this]; exact .none hn, hs.symm⟩
  obtain ⟨a', h5, rfl⟩ := hmark
  exact ⟨w1 ++ (m ++ w2), by simp, w1, m, w2, hb1, by rw [h5.cellAlignment]; exact h5, hb2, rfl⟩

theorem alignsLoop : ∀ s r as, sepLoop (chr '|') alignmentCell s = some (r, as) →
    ∃ o, s = o ++ r ∧ AlignsWritten as o := by
  refine sepLoop_induction ?_ ?_
  · intro s _; exact ⟨[], rfl, .nil⟩
  · intro s r b r' a r'' l hsep h1 _ _ ih
    obtain ⟨rfl, _⟩ := chr_some.1 hsep
    obtain ⟨w, rfl, h2⟩ := alignmentCell_writes _ _ _ h1
    obtain ⟨o, rfl, h6⟩ := ih
    exact ⟨'|' :: (w ++ o), by simp, .cons h2 h6⟩

theorem tableP_writes (hk : cfg.Keeps) : Writes (tableP x cfg) (BlockWritten x cfg) := by
  intro s r b hp
  unfold tableP at hp
  split at hp
  · simp at hp
  · rename_i s1 header e1
    split at hp
    · simp at hp
    · rename_i s2 aligns e2
      split at hp
      · simp at hp
      · rename_i hlen
        split at hp
        · simp at hp
        · rename_i s3 rows e3
          simp at hp
          obtain ⟨rfl, rfl⟩ := hp
          obtain ⟨w, rfl, h1⟩ := tableRow_writes hk _ _ _ e1
          obtain ⟨s4, e, h2, h3⟩ := terminated_some.1 e2
          obtain ⟨hend, rfl⟩ := LineEnd.of_eofOrEol h3
          obtain ⟨s5, _, h4, h5⟩ := preceded_some.1 h2
          obtain ⟨k, hk', _, rfl, _⟩ := indent03_written h4
          obtain ⟨s6, _, s7, _, h6, h7, h8⟩ := delimited_some.1 h5
          obtain ⟨rfl, _⟩ := chr_some.1 h6
          obtain ⟨r1, a, l', h9, h10, rfl⟩ := separatedList1_some.1 h7
          obtain ⟨w2, rfl, h11⟩ := alignmentCell_writes _ _ _ h9
          obtain ⟨o, rfl, h12⟩ := alignsLoop _ _ _ h10
          obtain ⟨last, rfl, h13⟩ := lastBar h8
          have hrows : ∀ s r rs, tableDataRows x cfg header.length s = some (r, rs) →
              ∃ w, s = w ++ r ∧ RowsWritten x cfg.entities header.length r rs w := by
            refine many0_induction ?_ ?_
            · intro s _; exact ⟨[], rfl, .nil⟩
            · intro s r a r' l hp _ _ ih
              obtain ⟨q, h1, rfl⟩ := mapP_some.1 hp
              obtain ⟨w, rfl, h2⟩ := tableRow_writes hk _ _ _ h1
              obtain ⟨w', rfl, h3⟩ := ih
              rw [fitted_eq]
              exact ⟨w ++ w', by simp, .cons h2 h3⟩
          obtain ⟨w', rfl, h14⟩ := hrows _ _ _ e3
          simp only [ne_eq, Decidable.not_not] at hlen
          refine ⟨w ++ (sp k ++ (('|' :: (w2 ++ o)) ++ (last ++ (e ++ w')))), by simp [sp],
            .table (by simpa [sp] using h1) hk' (.cons h11 h12) h13 hend hlen.symm h14⟩

end
end Verif
