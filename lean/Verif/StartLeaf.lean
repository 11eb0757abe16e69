import Verif.StartSpec
import Verif.RoundTripLeaf
/-!
# Exactly which texts the parsers of leaf blocks and items accept (for C80)
-/
set_option linter.unusedVariables false
set_option linter.unusedSimpArgs false
namespace Verif
open Nom

/-! ## Lines -/

theorem blankLine_iff {s : Str} : (∃ y, lineTerminated space0 s = some y) ↔ BlankLineAt s := by
  constructor
  · rintro ⟨⟨r, w⟩, h⟩
    obtain ⟨s1, e, h1, h2⟩ := terminated_some.1 h
    obtain ⟨b, rfl, hb⟩ := space0_writes _ _ _ h1
    obtain ⟨h3, rfl⟩ := LineEnd.of_eofOrEol h2
    exact ⟨b, e, r, hb, h3, rfl⟩
  · rintro ⟨b, e, r, hb, he, rfl⟩
    exact ⟨_, lineTerminated_space0_of hb he⟩

theorem emptyLine_iff {s : Str} : preceded space0 eofOrEol s = none ↔ ¬ BlankLineAt s := by
  have h : preceded space0 eofOrEol s = none ↔ lineTerminated space0 s = none := by
    have h1 : preceded space0 eofOrEol s = eofOrEol (s.dropWhile isSpace) := rfl
    rw [h1]
    unfold lineTerminated terminated
    rw [mapP_none]
    unfold Nom.seq
    have h2 : space0 s = some (s.dropWhile isSpace, s.takeWhile isSpace) := rfl
    rw [h2]
    simp only
    cases eofOrEol (s.dropWhile isSpace) <;> simp
  rw [h, ← blankLine_iff]
  cases lineTerminated space0 s <;> simp

theorem line0_oneLine {s r t : Str} (h : lineTerminated notEofOrEol0 s = some (r, t)) :
    ∃ e, s = t ++ (e ++ r) ∧ OneLine t ∧ LineEnd e r := by
  obtain ⟨s1, e, h1, h2⟩ := terminated_some.1 h
  obtain ⟨h3, rfl⟩ := LineEnd.of_eofOrEol h2
  have hn : s = t ++ (e ++ r) ∧ ∀ c ∈ t, notCrLf c = true := by
    rcases orElse_some.1 h1 with h | ⟨_, h⟩
    · obtain ⟨h4, h5⟩ := notLineEnding_some h
      refine ⟨?_, ?_⟩
      · rw [h4, h5]; exact (List.takeWhile_append_dropWhile).symm
      · rw [h5]; exact fun c hc => takeWhile_all c hc
    · obtain ⟨h4, h5, h6⟩ := eof_some.1 h
      rw [h4, h5, h6]; simp
  refine ⟨e, hn.1, fun c hc => ?_, h3⟩
  have := hn.2 c hc
  simp [notCrLf] at this
  exact ⟨this.2, this.1⟩

/-! ## Indented code -/

theorem indented_iff {s : Str} : (∃ y, codeBlockIndented s = some y) ↔ IndentedAt s := by
  constructor
  · rintro ⟨⟨r, b⟩, h⟩
    obtain ⟨ls, h1, rfl⟩ := mapP_some.1 h
    obtain ⟨s1, a, l', h2, _, _⟩ := many1_some.1 h1
    obtain ⟨s2, _, h3, h4⟩ := preceded_some.1 h2
    obtain ⟨e, rfl, h5, h6⟩ := line0_oneLine h4
    rcases orElse_some.1 h3 with h3 | ⟨_, h3⟩
    · obtain ⟨_, h3', _⟩ := value_some.1 h3
      obtain ⟨k, hk, hk', _, rfl, _⟩ := manyMN_chr_some _ _ _ _ _ (by omega) h3'
      have : k = 4 := by omega
      subst this
      exact ⟨sp 4, a, e, s1, .inl rfl, h5, h6, rfl⟩
    · obtain ⟨_, h3', _⟩ := value_some.1 h3
      obtain ⟨rfl, _⟩ := chr_some.1 h3'
      exact ⟨['\t'], a, e, s1, .inr rfl, h5, h6, rfl⟩
  · rintro ⟨p, l, e, r, hp, hl, he, rfl⟩
    have h1 : preceded (value () (manyMN (chr ' ') 4 4) <||> value () (chr '\t')) (lineTerminated notEofOrEol0)
        (p ++ (l ++ (e ++ r))) = some (r, l) := by
      refine preceded_some.2 ⟨_, (), ?_, line0 hl he⟩
      rcases hp with rfl | rfl
      · refine orElse_of_some (value_some.2 ⟨sp 4, ?_, rfl⟩)
        simp [sp, List.replicate, manyMN, chr_cons]
      · rw [orElse_of_none (value_none.2 (by simp [manyMN, chr, satisfy]))]
        exact value_some.2 ⟨_, chr_cons _ _, rfl⟩
    have hcon : Con (preceded (value () (manyMN (chr ' ') 4 4) <||> value () (chr '\t')) (lineTerminated notEofOrEol0)) := by
      infer_instance
    obtain ⟨r', l', hm⟩ := many0_ex (p := preceded (value () (manyMN (chr ' ') 4 4) <||> value () (chr '\t'))
      (lineTerminated notEofOrEol0)) r
    exact ⟨_, mapP_some.2 ⟨_, many1_some.2 ⟨_, _, _, h1, hm, rfl⟩, rfl⟩⟩

/-! ## Fenced code -/

theorem CrOk.drop {a s : Str} (h : CrOk (a ++ s)) : CrOk s :=
  fun r hr => h r (hr.trans (List.suffix_append _ _))

theorem CrOk.prepend {a s : Str} (ha : '\r' ∉ a) (h : CrOk s) : CrOk (a ++ s) := by
  induction a with
  | nil => exact h
  | cons c a ih =>
    intro r hr
    rcases List.suffix_cons_iff.1 hr with hr | hr
    · simp at hr; exact absurd (List.mem_cons.2 (.inl hr.1)) ha
    · exact ih (fun hm => ha (by simp [hm])) r hr

theorem CrOk.newline {e s : Str} (he : IsNewline e) (h : CrOk s) : CrOk (e ++ s) := by
  rcases he with rfl | rfl
  · exact CrOk.prepend (by decide) h
  · intro r hr
    rcases List.suffix_cons_iff.1 hr with hr | hr
    · simp at hr; rw [hr]; rfl
    · exact (CrOk.prepend (a := ['\n']) (by decide) h) r hr

theorem WholeLines.split {w : Str} (hw : WholeLines w) (hne : w ≠ []) (hc : CrOk w) :
    ∃ l e w', OneLine l ∧ IsNewline e ∧ w = l ++ (e ++ w') ∧ WholeLines w' ∧ CrOk w' := by
  rcases hw with hw | hw
  · exact absurd hw hne
  · have hs : w = w.takeWhile notCrLf ++ w.dropWhile notCrLf := (List.takeWhile_append_dropWhile).symm
    have ho : OneLine (w.takeWhile notCrLf) := by
      intro c hc
      have := takeWhile_all c hc
      simp [notCrLf] at this
      exact ⟨this.2, this.1⟩
    generalize w.takeWhile notCrLf = l at hs ho
    cases hd : w.dropWhile notCrLf with
    | nil =>
      exfalso
      rw [hd, List.append_nil] at hs
      rw [hs] at hw
      exact (ho _ (List.mem_of_getLast? hw)).1 rfl
    | cons c t =>
      rw [hd] at hs
      have hcd : c = '\r' ∨ c = '\n' := by
        have := List.head?_dropWhile_not notCrLf w
        rw [hd] at this
        simp [notCrLf] at this
        by_cases h : c = '\r'
        · exact .inl h
        · exact .inr (this h)
      have hct : CrOk (c :: t) := by rw [hs] at hc; exact hc.drop
      have hwl : ∀ u v : Str, w = u ++ v → WholeLines v := by
        intro u v huv
        by_cases hv : v = []
        · exact .inl hv
        · right
          rw [huv, List.getLast?_append] at hw
          cases hv' : v.getLast? with
          | none => exact absurd (List.getLast?_eq_none_iff.1 hv') hv
          | some d => rw [hv'] at hw; simpa using hw
      rcases hcd with rfl | rfl
      · have := hct t (List.suffix_refl _)
        cases t with
        | nil => simp at this
        | cons d t =>
          simp at this; subst this
          exact ⟨l, ['\r', '\n'], t, ho, .inr rfl, hs, hwl (l ++ ['\r', '\n']) t (by rw [hs]; simp), hct.tail.tail⟩
      · exact ⟨l, ['\n'], t, ho, .inl rfl, hs, hwl (l ++ ['\n']) t (by rw [hs]; simp), hct.tail⟩

theorem fencedBody_ok {f : Char} {n k : Nat} (hf : f = '`' ∨ f = '~') (hn : 3 ≤ n) {c e r : Str}
    (hc : ClosesFence f n c) (he : LineEnd e r) : ∀ (m : Nat) (w : Str), w.length ≤ m → WholeLines w → CrOk w →
    ∃ y, terminated (fencedLines (List.replicate n f) k) (endingFence (List.replicate n f)) (w ++ (c ++ (e ++ r))) =
      some y := by
  have hstop : ∀ s y, endingFence (List.replicate n f) s = some y →
      ∃ y, terminated (fencedLines (List.replicate n f) k) (endingFence (List.replicate n f)) s = some y := by
    rintro s ⟨r', u⟩ h
    refine ⟨(r', []), terminated_some.2 ⟨s, u, many0_of_none (preceded_none ?_), h⟩⟩
    rw [notP_none]; exact ⟨_, h⟩
  have hclose : ∃ y, endingFence (List.replicate n f) (c ++ (e ++ r)) = some y := by
    obtain ⟨k', m, hk, hm, rfl⟩ := hc
    refine ⟨(r, ()), ?_⟩
    rw [List.append_assoc]
    exact endingFence_of hf hk (by omega) hm he
  intro m
  induction m with
  | zero =>
    intro w hw _ _
    have : w = [] := List.length_eq_zero_iff.1 (by omega)
    subst this
    obtain ⟨y, hy⟩ := hclose
    exact hstop _ _ hy
  | succ m ih =>
    intro w hw h1 h2
    by_cases hne : w = []
    · subst hne
      obtain ⟨y, hy⟩ := hclose
      exact hstop _ _ hy
    · cases hend : endingFence (List.replicate n f) (w ++ (c ++ (e ++ r))) with
      | some y => exact hstop _ _ hend
      | none =>
        obtain ⟨l, nl, w', h3, h4, rfl, h5, h6⟩ := h1.split hne h2
        have hlen : w'.length ≤ m := by
          have : nl ≠ [] := by rcases h4 with rfl | rfl <;> simp
          have := List.length_pos_iff.2 this
          simp at hw; omega
        obtain ⟨⟨r', ls⟩, hy⟩ := ih w' hlen h5 h6
        obtain ⟨s1, u, h7, h8⟩ := terminated_some.1 hy
        refine ⟨(r', dropSpaces k l :: ls), terminated_some.2 ⟨s1, u, ?_, h8⟩⟩
        have hle : LineEnd nl (w' ++ (c ++ (e ++ r))) := .inl h4
        refine many0_of_some (r := w' ++ (c ++ (e ++ r))) ?_ ?_ h7
        · refine preceded_some.2 ⟨_, (), notP_some.2 ⟨hend, rfl⟩, ?_⟩
          obtain ⟨p, hp, _⟩ := manyMN_spaces k (l ++ (nl ++ (w' ++ (c ++ (e ++ r)))))
          have hs : l ++ (nl ++ w') ++ (c ++ (e ++ r)) = l ++ (nl ++ (w' ++ (c ++ (e ++ r)))) := by simp
          rw [hs]
          refine preceded_some.2 ⟨_, _, hp, ?_⟩
          rw [dropSpaces_append k hle.head]
          exact line0 (h3.dropSpaces k) hle
        · have : nl ≠ [] := by rcases h4 with rfl | rfl <;> simp
          have := List.length_pos_iff.2 this
          simp only [List.length_append]; omega

theorem notEofOrEol1_lineWritten {l e r : Str} (hne : l ≠ []) (h : LineWritten l e r) :
    notEofOrEol1 (l ++ (e ++ r)) = some (e ++ r, l) := by
  have hu : until_ eofOrEol (l ++ (e ++ r)) = some (e ++ r, l) := by
    refine until_of ?_ (.inr ⟨_, h.ends.eofOrEol⟩)
    intro a b hab hb
    obtain ⟨c, t, rfl⟩ := List.exists_cons_of_ne_nil hb
    have hc : c ≠ '\n' := by rintro rfl; exact h.one (by rw [hab]; simp)
    by_cases hr : c = '\r'
    · subst hr
      have hn : (t ++ (e ++ r)).head? ≠ some '\n' := by
        cases t with
        | cons d t => simp; rintro rfl; exact h.one (by rw [hab]; simp)
        | nil =>
          rcases h.ends with (rfl | rfl) | ⟨rfl, rfl⟩
          · exact absurd (by rw [hab]; simp) (h.cr rfl)
          · simp
          · simp
      have : eofOrEol ('\r' :: (t ++ (e ++ r))) = none := by
        generalize t ++ (e ++ r) = u at hn
        cases u with
        | nil => rfl
        | cons d u =>
          simp at hn
          unfold eofOrEol
          have h1 : lineEnding ('\r' :: d :: u) = none := by
            unfold lineEnding
            split
            · rename_i h; simp at h
            · rename_i h; simp at h; exact absurd h.1 hn
            · rfl
          rw [orElse_none]
          exact ⟨h1, rfl⟩
      exact this
    · exact eofOrEol_cons hc hr
  unfold notEofOrEol1
  exact recognize_of (many1_of_many0 hu hne)

theorem openingFence_line {f : Char} {n : Nat} (hf : f = '`' ∨ f = '~') (hn : 3 ≤ n) {info e r : Str}
    (hi : info.head? ≠ some f) (hl : LineWritten info e r) :
    ∃ o, openingFence (List.replicate n f ++ (info ++ (e ++ r))) = some (r, (List.replicate n f, o)) := by
  have hhead : (info ++ (e ++ r)).head? ≠ some f := by
    cases info with
    | cons c t => simpa using hi
    | nil =>
      rcases hl.ends with (rfl | rfl) | ⟨rfl, rfl⟩ <;> rcases hf with rfl | rfl <;> simp
  have hrun := manyMin_chr (m := 3) hn hhead
  have hfence : recognize (manyMin 3 (chr '`') <||> manyMin 3 (chr '~')) (List.replicate n f ++ (info ++ (e ++ r))) =
      some (info ++ (e ++ r), List.replicate n f) := by
    have hp : ∃ v, (manyMin 3 (chr '`') <||> manyMin 3 (chr '~')) (List.replicate n f ++ (info ++ (e ++ r))) =
        some (info ++ (e ++ r), v) := by
      rcases hf with rfl | rfl
      · exact ⟨_, orElse_of_some hrun⟩
      · refine ⟨_, (orElse_of_none ?_).trans hrun⟩
        obtain ⟨m, rfl⟩ : ∃ j, n = j + 1 := ⟨n - 1, by omega⟩
        rw [List.replicate_succ, List.cons_append]
        exact manyMin_none_of (chr_ne (by decide)) 2
    obtain ⟨v, hv⟩ := hp
    exact recognize_of hv
  by_cases h0 : info = []
  · subst h0
    refine ⟨none, terminated_some.2 ⟨e ++ r, e, seq_some.2 ⟨e ++ r, hfence, opt_some.2 (.inr ⟨?_, rfl, rfl⟩)⟩, hl.ends.eofOrEol⟩⟩
    rw [recognize_none]
    exact notEofOrEol1_of_some hl.ends.eofOrEol
  · refine ⟨some info, terminated_some.2 ⟨e ++ r, e, seq_some.2 ⟨info ++ (e ++ r), hfence,
      opt_some.2 (.inl ⟨info, recognize_of (v := info) ?_, rfl⟩)⟩, hl.ends.eofOrEol⟩⟩
    exact notEofOrEol1_lineWritten h0 hl

theorem linesWritten_whole {Pre : Str → Str → Prop} (hp : ∀ p l, Pre p l → OneLine (p ++ l)) {s : Str} (hs : s ≠ [])
    {ls : List Str} {w : Str} (h : LinesWritten Pre s ls w) : WholeLines w ∧ CrOk w := by
  induction h with
  | nil => exact ⟨.inl rfl, by intro r hr; simp at hr⟩
  | @cons p l e w ls h1 h2 h3 ih =>
    have hn : IsNewline e := by
      rcases h2.ends with h | ⟨_, h⟩
      · exact h
      · simp at h; exact absurd h.2 hs
    have hcr : '\r' ∉ p ++ l := fun hm => (hp p l h1 _ hm).2 rfl
    rw [← List.append_assoc]
    refine ⟨?_, CrOk.prepend hcr (CrOk.newline hn ih.2)⟩
    right
    rw [List.getLast?_append, List.getLast?_append]
    rcases ih.1 with rfl | h
    · rcases hn with rfl | rfl <;> rfl
    · rw [h]; rfl

theorem fenced_iff {s : Str} : (∃ y, codeBlockFenced s = some y) ↔ FencedAt s := by
  constructor
  · rintro ⟨⟨r, b⟩, hp⟩
    unfold codeBlockFenced at hp
    split at hp
    · simp at hp
    · rename_i s1 spc fence info e1
      split at hp
      · simp at hp
      · rename_i s2 lines e2
        simp at hp
        obtain ⟨rfl, rfl⟩ := hp
        obtain ⟨s3, h1, h2⟩ := seq_some.1 e1
        obtain ⟨k, hk, h3, rfl, _⟩ := indent03_written h1
        obtain ⟨f, n, e, hf, hn, h4, h5, h6, rfl, h7⟩ := openingFence_some h2
        simp only at h3 h4
        subst h3 h4
        obtain ⟨s4, _, h8, h9⟩ := terminated_some.1 e2
        obtain ⟨c, e', h10, h11, rfl⟩ := endingFence_some hf hn h9
        have hline : ∀ s r l, preceded (notP (endingFence (List.replicate n f)))
            (preceded (manyMN (chr ' ') 0 (sp k).length) (lineTerminated notEofOrEol0)) s = some (r, l) →
            ∃ q e, s = q ++ (l ++ (e ++ r)) ∧ OneLine (q ++ l) ∧ LineWritten l e r := by
          intro s r l hp
          obtain ⟨s1, _, h1, h2⟩ := preceded_some.1 hp
          obtain ⟨h1, rfl⟩ := notP_some.1 h1
          obtain ⟨s2, _, h3, h4⟩ := preceded_some.1 h2
          obtain ⟨j, _, hj, _, rfl, h5⟩ := manyMN_chr_some _ _ _ _ _ (by omega) h3
          obtain ⟨e, rfl, h6, h7⟩ := line0_oneLine h4
          exact ⟨sp j, e, rfl, (OneLine.replicate _ (by decide) (by decide)).append h6,
            fun h => (h6 _ h).1 rfl, fun _ h => (h6 _ (List.mem_of_getLast? h)).2 rfl, h7⟩
        obtain ⟨w, rfl, h12⟩ := linesLoop (Pre := fun q l => OneLine (q ++ l)) hline _ _ _ h8
        have hne : c ++ (e' ++ s2) ≠ [] := by
          obtain ⟨k', m, _, hm, rfl⟩ := h10
          obtain ⟨m', rfl⟩ : ∃ j, m = j + 1 := ⟨m - 1, by omega⟩
          simp [List.replicate_succ]
        obtain ⟨h13, h14⟩ := linesWritten_whole (fun _ _ h => h) hne h12
        exact ⟨k, n, f, info.getD [], e, w, c, e', s2, hk, hn, hf, h6, h7, h13, h14, h10, h11, rfl⟩
  · rintro ⟨k, n, f, info, e, w, c, e', r, hk, hn, hf, hi, hl, hw, hcr, hc, he, rfl⟩
    have hfs : f ≠ ' ' := by rcases hf with rfl | rfl <;> decide
    obtain ⟨o, ho⟩ := openingFence_line hf hn hi hl
    have hind : (List.replicate n f ++ (info ++ (e ++ (w ++ (c ++ (e' ++ r)))))).head? ≠ some ' ' := by
      obtain ⟨m, rfl⟩ : ∃ j, n = j + 1 := ⟨n - 1, by omega⟩
      simpa [List.replicate_succ] using hfs
    obtain ⟨⟨r', ls⟩, hy⟩ := fencedBody_ok (k := (sp k).length) hf hn hc he _ w (Nat.le_refl _) hw hcr
    unfold codeBlockFenced
    rw [show seq indent03 openingFence _ = some (_, (sp k, (List.replicate n f, o))) from seq_some.2 ⟨_, indent03_replicate hk hind, ho⟩]
    simp only
    rw [hy]
    exact ⟨_, rfl⟩

/-! ## Headings -/

section
variable {x : PExt} {cfg : PConfig}

theorem parseInlines0_ok (hc : cfg.CustomOk) (s : Str) : ∃ l, parseInlines0 x cfg s = some l := by
  have := inlineF_con x cfg hc (s.length + 1)
  rw [parseInlines0_eq hc]
  have := inlineP_con (x := x) hc
  obtain ⟨r, l, h⟩ := many0_ex (p := inlineP x cfg) s
  rw [h]
  exact ⟨_, rfl⟩

theorem parseInlines1_ok (hc : cfg.CustomOk) (ht : cfg.text ≠ .ignore) {s : Str} (hs : s ≠ []) :
    ∃ l, parseInlines1 x cfg s = some l := parseInlines1_ne_none hc ht hs

theorem headingV1_at {s r : Str} {b : Block} (hp : headingV1 x cfg s = some (r, b)) :
    ∃ n l, b = .heading (.atx n) l ∧ AtxAt cfg n s := by
  unfold headingV1 at hp
  split at hp
  · simp at hp
  · rename_i r1 hashes content e1
    split at hp
    · rename_i l e2
      simp at hp
      obtain ⟨rfl, rfl⟩ := hp
      obtain ⟨s1, h1, h2⟩ := seq_some.1 e1
      obtain ⟨n, h3, h4, h5, rfl, h6⟩ := manyMN_chr_some _ _ _ _ _ (by omega) h1
      simp only at h5
      subst h5
      obtain ⟨s2, b, h7, h8⟩ := preceded_some.1 h2
      obtain ⟨e, rfl, h9, h10⟩ := line1_written h8
      have hb : s1 = b ++ (content ++ (e ++ r1)) ∧ Blanks b ∧ (b = [] → cfg.allowNoSpaceInHeadings = true) ∧
          (content ++ (e ++ r1)).head? ≠ some ' ' ∧ (content ++ (e ++ r1)).head? ≠ some '\t' := by
        split at h7
        · rename_i hc
          obtain ⟨h1, h2, h3, h4⟩ := space0_all h7
          exact ⟨h1, h2, fun _ => hc, h3, h4⟩
        · obtain ⟨h1, h2, h3, h4, h5⟩ := space1_all h7
          exact ⟨h1, h3, fun h => absurd h h2, h4, h5⟩
      obtain ⟨rfl, hb1, hb2, hb3, hb4⟩ := hb
      have hhead : (content ++ (e ++ r1)).head? = content.head? := by
        cases content with
        | nil => exact absurd rfl h9
        | cons c t => rfl
      rw [hhead] at hb3 hb4
      refine ⟨n, l, by rw [List.length_replicate], List.replicate n '#' ++ b, content, e, r1,
        ⟨h3, h4, b, hb1, hb2, ?_, hb3, hb4, rfl⟩, h9, h10, by simp⟩
      rintro rfl hn
      rcases h6 with h6 | h6
      · omega
      · rw [List.nil_append, hhead] at h6; exact h6
    · simp at hp

theorem headingV1_of_at (hc : cfg.CustomOk) {n : Nat} {s : Str} (h : AtxAt cfg n s) :
    ∃ r l, headingV1 x cfg s = some (r, .heading (.atx n) l) := by
  obtain ⟨m, t, e, r, ⟨h1, h2, b, hb, hb1, hb2, hs1, hs2, rfl⟩, hne, hl, rfl⟩ := h
  obtain ⟨l, hil⟩ := parseInlines0_ok (x := x) hc t
  have hhead : (t ++ (e ++ r)).head? = t.head? := by
    cases t with
    | nil => exact absurd rfl hne
    | cons c t => rfl
  have hsp : ∀ c, (t ++ (e ++ r)).head? = some c → isSpace c = false := by
    intro c hc
    rw [hhead] at hc
    rw [hc] at hs1 hs2
    simp at hs1 hs2
    simp [isSpace, hs1, hs2]
  have hblank : ∀ c ∈ b, isSpace c = true := fun c hc => isSpace_iff.2 (hb c hc)
  have h0 : space0 (b ++ (t ++ (e ++ r))) = some (t ++ (e ++ r), b) := by
    obtain ⟨k1, k2⟩ := takeWhile_span' hblank hsp
    show some (_, _) = _
    rw [k1, k2]
  have hgap : (if cfg.allowNoSpaceInHeadings then space0 else space1) (b ++ (t ++ (e ++ r))) =
      some (t ++ (e ++ r), b) := by
    split
    · exact h0
    · rename_i ha
      have hbne : b ≠ [] := fun h => ha (hb1 h)
      exact takeWhile1_run hblank hbne hsp
  have hashes : manyMN (chr '#') 1 6 (List.replicate n '#' ++ (b ++ (t ++ (e ++ r)))) =
      some (b ++ (t ++ (e ++ r)), List.replicate n '#') := by
    by_cases h6 : n < 6
    · refine manyMN_chr h1 h2 ?_
      cases hbb : b with
      | cons c b' =>
        have := hb c (by simp [hbb])
        intro h; simp at h; subst h; simp at this
      | nil =>
        rw [List.nil_append, hhead]
        exact hb2 hbb h6
    · have : n = 6 := by omega
      subst this
      simp [List.replicate, manyMN, chr_cons]
  have hseq : seq (manyMN (chr '#') 1 6)
      (preceded (if cfg.allowNoSpaceInHeadings then space0 else space1) (lineTerminated notEofOrEol1))
      (List.replicate n '#' ++ (b ++ (t ++ (e ++ r)))) = some (r, (List.replicate n '#', t)) :=
    seq_some.2 ⟨b ++ (t ++ (e ++ r)), hashes, preceded_some.2 ⟨_, _, hgap,
      terminated_some.2 ⟨_, _, notEofOrEol1_lineWritten hne hl, hl.ends.eofOrEol⟩⟩⟩
  unfold headingV1
  rw [List.append_assoc, hseq]
  simp only
  rw [hil]
  exact ⟨r, l, by simp⟩

theorem underline_iff {s : Str} {k : SetextHeading} : (∃ r, headingV2Level s = some (r, k)) ↔ UnderlineAt k s := by
  constructor
  · rintro ⟨r, h⟩
    obtain ⟨w, rfl, u, e, h1, h2, rfl⟩ := headingV2Level_writes _ _ _ h
    exact ⟨u, e, r, h1, h2, by simp⟩
  · rintro ⟨u, e, r, hu, he, rfl⟩
    have key : ∀ (j n : Nat) (b : Str) (c : Char) (q : P SetextHeading) , j ≤ 3 → 0 < n → Blanks b → (c = '=' ∨ c = '-') →
        (∀ t : Str, t.head? ≠ some c → q (List.replicate n c ++ t) = some (t, k)) →
        lineTerminated (preceded indent03 (terminated q space0)) (sp j ++ (List.replicate n c ++ b) ++ (e ++ r)) = some (r, k) := by
      intro j n b c q hj hn hb hc hq
      have hcs : c ≠ ' ' := by rcases hc with rfl | rfl <;> decide
      have h2 : ∀ d, (e ++ r).head? = some d → isSpace d = false := by
        intro d hd
        rcases he with (rfl | rfl) | ⟨rfl, rfl⟩ <;> simp at hd <;> subst hd <;> decide
      have hhead : (b ++ (e ++ r)).head? ≠ some c := by
        cases b with
        | nil => rcases he with (rfl | rfl) | ⟨rfl, rfl⟩ <;> rcases hc with rfl | rfl <;> simp
        | cons d b =>
          have := hb d (by simp)
          intro h; simp at h; subst h
          rcases hc with rfl | rfl <;> simp at this
      have hs : sp j ++ (List.replicate n c ++ b) ++ (e ++ r) = sp j ++ (List.replicate n c ++ (b ++ (e ++ r))) := by simp
      rw [hs]
      have hind : (List.replicate n c ++ (b ++ (e ++ r))).head? ≠ some ' ' := by
        obtain ⟨m, rfl⟩ : ∃ j, n = j + 1 := ⟨n - 1, by omega⟩
        simpa [List.replicate_succ] using hcs
      refine terminated_some.2 ⟨e ++ r, e, preceded_some.2 ⟨_, _, indent03_replicate hj hind,
        terminated_some.2 ⟨b ++ (e ++ r), b, hq _ hhead, ?_⟩⟩, he.eofOrEol⟩
      obtain ⟨k1, k2⟩ := takeWhile_span' (fun d hd => isSpace_iff.2 (hb d hd)) h2
      show some (_, _) = _
      rw [k1, k2]
    have hm : ∀ (c : Char) (n : Nat) (t : Str), 0 < n → t.head? ≠ some c →
        many1 (chr c) (List.replicate n c ++ t) = some (t, List.replicate n c) := by
      intro c n t hn ht
      refine many1_of_many0 (many0_chr n ht) ?_
      obtain ⟨m, rfl⟩ : ∃ j, n = j + 1 := ⟨n - 1, by omega⟩
      simp [List.replicate_succ]
    cases hu with
    | @one j n b hj hn hb =>
      exact ⟨r, key j n b '=' _ hj hn hb (.inl rfl) (fun t ht => orElse_of_some (value_some.2 ⟨_, hm _ _ _ hn ht, rfl⟩))⟩
    | @two j n b hj hn hb =>
      refine ⟨r, key j n b '-' _ hj hn hb (.inr rfl) (fun t ht => ?_)⟩
      rw [orElse_of_none]
      · exact value_some.2 ⟨_, hm _ _ _ hn ht, rfl⟩
      · obtain ⟨m, rfl⟩ : ∃ j, n = j + 1 := ⟨n - 1, by omega⟩
        rw [value_none]
        exact many1_none_of (chr_ne (by decide))

theorem thematic_iff {s : Str} : (∃ y, thematicBreakP s = some y) ↔ ThematicAt s := by
  constructor
  · rintro ⟨⟨r, u⟩, h⟩
    obtain ⟨l, e, h1, h2, rfl⟩ := thematicBreakP_some h
    exact ⟨l, e, r, h1, h2, rfl⟩
  · rintro ⟨l, e, r, h1, h2, rfl⟩
    exact ⟨_, thematicBreakP_line h1 h2⟩

end

end Verif
