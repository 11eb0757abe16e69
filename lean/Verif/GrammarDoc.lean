import Verif.GrammarHtml
import Verif.ProvenanceDoc
/-!
# Documents are read by the grammar (C71)
-/
set_option linter.unusedVariables false
set_option linter.unusedSimpArgs false
namespace Verif
open Nom

section
variable {x : PExt} {cfg : PConfig}

/-! ## Blank lines -/

theorem blankPiece {s r : Str} {u : Str} (h : preceded space0 eofOrEol s = some (r, u)) :
    ∃ w e, Blanks w ∧ LineEnd e r ∧ s = w ++ (e ++ r) := by
  obtain ⟨s1, _, h1, h2⟩ := preceded_some.1 h
  obtain ⟨w, rfl, h3⟩ := space0_writes _ _ _ h1
  obtain ⟨h4, rfl⟩ := LineEnd.of_eofOrEol h2
  exact ⟨w, u, h3, h4, rfl⟩

theorem manyEmptyLines0_written : Writes manyEmptyLines0 (fun _ w _ => BlankLines w) := by
  refine many0_induction ?_ ?_
  · intro s _; exact ⟨[], rfl, .nil⟩
  · intro s r a r' l hp hlt hm ih
    obtain ⟨w, e, h1, h2, rfl⟩ := blankPiece hp
    obtain ⟨w', rfl, h3⟩ := ih
    rcases h2 with h2 | ⟨rfl, h2⟩
    · exact ⟨w ++ (e ++ w'), by simp, .cons h1 h2 h3⟩
    · rw [h2] at hm
      have := (manyEmptyLines0_none (s := [])).2 .nil
      rw [show many0 (preceded space0 eofOrEol) [] = none from this] at hm
      simp at hm

theorem itemBlanks : ∀ s r l, many0 (lineTerminated space0) s = some (r, l) → ∃ w, s = w ++ r ∧ BlankLines w := by
  refine many0_induction ?_ ?_
  · intro s _; exact ⟨[], rfl, .nil⟩
  · intro s r a r' l hp hlt hm ih
    obtain ⟨s1, e, h1, h2⟩ := terminated_some.1 hp
    obtain ⟨w, rfl, h3⟩ := space0_writes _ _ _ h1
    obtain ⟨h4, rfl⟩ := LineEnd.of_eofOrEol h2
    obtain ⟨w', rfl, h5⟩ := ih
    rcases h4 with h4 | ⟨rfl, h4⟩
    · exact ⟨w ++ (e ++ w'), by simp, .cons h3 h4 h5⟩
    · rw [h4] at hm
      rw [show many0 (lineTerminated space0) [] = none by decide] at hm
      simp at hm

theorem itemBlanks1 {s r t : Str} (hs : s ≠ []) (h : recognize (many1 (lineTerminated space0)) s = some (r, t)) :
    s = t ++ r ∧ BlankLines t ∧ t ≠ [] := by
  have happ := recognize_append h
  obtain ⟨l, h1, _⟩ := recognize_some.1 h
  obtain ⟨s1, a, l', h2, h3, _⟩ := many1_some.1 h1
  obtain ⟨s2, e, h4, h5⟩ := terminated_some.1 h2
  obtain ⟨w, rfl, h6⟩ := space0_writes _ _ _ h4
  obtain ⟨h7, rfl⟩ := LineEnd.of_eofOrEol h5
  obtain ⟨w', rfl, h8⟩ := itemBlanks _ _ _ h3
  rcases h7 with h7 | ⟨rfl, h7⟩
  · have ht : t = w ++ (e ++ w') := List.append_cancel_right (by rw [happ]; simp)
    subst ht
    refine ⟨by simp, .cons h6 h7 h8, ?_⟩
    rcases h7 with rfl | rfl <;> simp
  · rw [h7, show many0 (lineTerminated space0) [] = none by decide] at h3
    simp at h3

/-! ## Markers of list items -/

theorem listMarkerWithSpanSize_written {s r first : Str} {k : ListKind} {pl : Nat} {t : Option TaskState}
    (h : listMarkerWithSpanSize s = some (r, (k, pl, t, first))) :
    ∃ f e, ItemFirst k f pl t first ∧ LineWritten first e r ∧ s = f ++ (e ++ r) := by
  rcases orElse_some.1 h with h | ⟨hn, h⟩
  · obtain ⟨⟨k', pl', t'⟩, h1, h2⟩ := mapP_some.1 h
    simp at h2
    obtain ⟨rfl, rfl, rfl, rfl⟩ := h2
    unfold listMarkerFollowedByNewline at h1
    split at h1
    · simp at h1
    · rename_i r1 kind e1
      obtain ⟨s1, _, h2, h3⟩ := preceded_some.1 e1
      obtain ⟨j, hj, _, rfl, _⟩ := indent03_written h2
      obtain ⟨m, hm, rfl⟩ := listMarker_some h3
      split at h1
      · rename_i tail v e2
        simp at h1
        obtain ⟨rfl, rfl, rfl, rfl⟩ := h1
        obtain ⟨s2, e, h4, h5⟩ := terminated_some.1 e2
        obtain ⟨b, rfl, hb⟩ := space0_writes _ _ _ h4
        obtain ⟨h6, rfl⟩ := LineEnd.of_eofOrEol h5
        refine ⟨sp j ++ (m ++ b), e, ?_, ⟨by simp, by simp, h6⟩, by simp [sp]⟩
        have := ItemFirst.empty hj hm hb
        simp only [List.length_append, List.length_replicate, sp] at this ⊢
        have hl : j + (m.length + (b.length + (e.length + tail.length))) - (b.length + (e.length + tail.length)) + 1 =
            j + m.length + 1 := by omega
        rw [hl]; exact this
      · split at h1
        · simp at h1
        · rename_i r2 v e3
          obtain ⟨t', h4, h5⟩ := mapP_some.1 h1
          simp at h5
          obtain ⟨rfl, rfl, rfl⟩ := h5
          obtain ⟨n, hn, _, rfl, _⟩ := indent03_written e3
          obtain ⟨s2, e, h6, h7⟩ := terminated_some.1 h4
          obtain ⟨b, hb, rfl⟩ := listItemTaskState_some h6
          obtain ⟨h8, rfl⟩ := LineEnd.of_eofOrEol h7
          refine ⟨sp j ++ (m ++ (sp n ++ b)), e, ?_, ⟨by simp, by simp, h8⟩, by simp [sp]⟩
          have := ItemFirst.box hj hm hn hb
          simp only [List.length_append, List.length_replicate, sp] at this ⊢
          have hl : j + (m.length + (n + (b.length + (e.length + r.length)))) - (b.length + (e.length + r.length)) + 1 =
              j + m.length + n + 1 := by omega
          rw [hl]; exact this
  · obtain ⟨⟨⟨k', pl, t'⟩, first⟩, h1, h2⟩ := mapP_some.1 h
    simp only [Prod.mk.injEq] at h2
    obtain ⟨rfl, rfl, rfl, rfl⟩ := h2
    obtain ⟨s1, h2, h3⟩ := seq_some.1 h1
    simp only at h2 h3
    obtain ⟨e, rfl, h4⟩ := line0_written h3
    unfold listMarkerFollowedBySpaces at h2
    split at h2
    · simp at h2
    · rename_i r1 kind e1
      obtain ⟨s2, _, s3, _, h5, h6, h7⟩ := delimited_some.1 e1
      obtain ⟨j, hj, _, rfl, _⟩ := indent03_written h5
      obtain ⟨m, hm, rfl⟩ := listMarker_some h6
      obtain ⟨n, hn1, hn4, _, rfl, h8⟩ := manyMN_chr_some _ _ _ _ _ (by omega) h7
      obtain ⟨t2, h9, h10⟩ := mapP_some.1 h2
      simp at h10
      obtain ⟨rfl, hpl, rfl⟩ := h10
      rcases opt_some.1 h9 with ⟨t', h11, rfl⟩ | ⟨h11, rfl, rfl⟩
      · obtain ⟨s4, _, h12, h13⟩ := terminated_some.1 h11
        obtain ⟨b, hb, rfl⟩ := listItemTaskState_some h12
        obtain ⟨rfl, _⟩ := chr_some.1 h13
        refine ⟨sp j ++ (m ++ (sp n ++ (b ++ ' ' :: first))), e, ?_, h4, by simp [sp]⟩
        have := ItemFirst.task (first := first) hj hm hn1 hn4 hb
        have hl : pl = j + m.length + n := by
          simp only [List.length_append, List.length_replicate, List.length_cons, sp] at hpl
          omega
        rw [hl]; exact this
      · refine ⟨sp j ++ (m ++ (sp n ++ first)), e, ?_, h4, by simp [sp]⟩
        have hl : pl = j + m.length + n := by
          simp only [List.length_append, List.length_replicate, sp] at hpl
          omega
        rw [hl]
        have hmark : preceded indent03 listMarker (sp j ++ (m ++ (sp n ++ (first ++ (e ++ r))))) =
            some (sp n ++ (first ++ (e ++ r)), kind) := preceded_some.2 ⟨_, _, h5, h6⟩
        have hno : listMarkerFollowedByNewline (sp j ++ (m ++ (sp n ++ (first ++ (e ++ r))))) = none := by
          exact mapP_none.1 hn
        unfold listMarkerFollowedByNewline at hno
        rw [hmark] at hno
        simp only at hno
        refine .text hj hm hn1 hn4 ?_ ?_ ?_ ?_
        · rcases h8 with h8 | h8
          · exact .inl h8
          · right
            cases first with
            | nil => simp
            | cons c t => simpa using h8
        · intro hb
          have : lineTerminated space0 (sp n ++ (first ++ (e ++ r))) = some (r, sp n ++ first) := by
            have := lineTerminated_space0_of (w := sp n ++ first) (e := e) (s := r) (by
              intro c hc
              rcases List.mem_append.1 hc with hc | hc
              · exact .inl (List.eq_of_mem_replicate hc)
              · exact hb c hc) h4.ends
            simpa using this
          rw [this] at hno
          simp at hno
        · intro t b r' hb hf
          subst hf
          have : terminated listItemTaskState (chr ' ') (b ++ ' ' :: r' ++ (e ++ r)) = some (r' ++ (e ++ r), t) := by
            rw [List.append_assoc]
            exact terminated_some.2 ⟨_, _, listItemTaskState_of hb, chr_some.2 ⟨rfl, rfl⟩⟩
          rw [this] at h11
          simp at h11
        · intro hn3 t hb
          have h12 : lineTerminated space0 (sp n ++ (first ++ (e ++ r))) = none := by
            have := lineTerminated_space0_none (l := sp n ++ first) (t := e ++ r)
              (by obtain ⟨c, hc, hv⟩ := hb.visible; exact ⟨c, by simp [hc], hv⟩)
              ((OneLine.replicate _ (by decide) (by decide)).append hb.oneLine)
            simpa using this
          rw [h12] at hno
          have h13 : indent03 (sp n ++ (first ++ (e ++ r))) = some (first ++ (e ++ r), sp n) := by
            refine manyMN_chr (by omega) hn3 ?_
            obtain ⟨c, rfl⟩ := hb.head
            simp
          simp only [h13] at hno
          have h14 : lineTerminated listItemTaskState (first ++ (e ++ r)) = some (r, t) :=
            terminated_some.2 ⟨_, _, listItemTaskState_of hb, h4.ends.eofOrEol⟩
          simp [mapP, h14] at hno

theorem restLines {kind : ListKind} {pl : Nat} : ∀ s r rest, listItemLines kind pl s = some (r, rest) →
    ∃ w, s = w ++ r ∧ ItemRest kind pl r (rest.map List.flatten) w := by
  refine many0_induction ?_ ?_
  · intro s _; exact ⟨[], rfl, .nil⟩
  · intro s r a r' l hp hlt hm ih
    obtain ⟨w, rfl, ih⟩ := ih
    unfold listItemRestLine at hp
    split at hp
    · simp at hp
    · rename_i hne
      have hne : s ≠ [] := by simpa using hne
      obtain ⟨s1, e, h1, h2⟩ := terminated_some.1 hp
      obtain ⟨s2, _, h3', h4⟩ := preceded_some.1 h1
      obtain ⟨h3', h30⟩ := notP_some.1 h3'
      rw [h30] at h4
      have h3 : restGuard kind pl s = none := h3'
      rcases orElse_some.1 h4 with h4 | ⟨_, h4⟩
      · obtain ⟨s3, _, h5, h6⟩ := preceded_some.1 h4
        obtain ⟨l0, h7, rfl⟩ := mapP_some.1 h6
        obtain ⟨j, _, hj, _, rfl, h8⟩ := manyMN_chr_some _ _ _ _ _ (by omega) h5
        obtain ⟨rfl, h9, h10, h11⟩ := notEofOrEol1_written h7
        obtain ⟨rfl, h12⟩ := LineWritten.mk' (u := []) h10 h11 h2
        refine ⟨sp j ++ (l0 ++ (e ++ w)), by simp [sp], ?_⟩
        simp only [List.map_cons, List.flatten_cons, List.flatten_nil, List.append_nil]
        refine .text ⟨j, hj, rfl, ?_⟩ h9 h12 ?_ ?_ ih
        · rcases h8 with h8 | h8
          · exact .inl h8
          · right
            cases l0 with
            | nil => simp
            | cons c t => simpa using h8
        · rintro ⟨tl, te, tr, h13, h14, h15⟩
          have := thematicBreakP_line h13 h14
          rw [← h15] at this
          unfold restGuard at h3
          rw [orElse_none, value_none, this] at h3
          simp at h3
        · intro hma
          obtain ⟨y, hy⟩ := restGuard_marker hma
          rw [h3] at hy
          simp at hy
      · obtain ⟨⟨b, l0⟩, h5, rfl⟩ := mapP_some.1 h4
        obtain ⟨s3, h6, h7⟩ := seq_some.1 h5
        obtain ⟨rfl, hb, hb'⟩ := itemBlanks1 hne h6
        obtain ⟨s4, _, h8, h9⟩ := preceded_some.1 h7
        obtain ⟨j, hj, hj', _, rfl, _⟩ := manyMN_chr_some _ _ _ _ _ (by omega) h8
        have : j = pl := by omega
        subst this
        obtain ⟨rfl, h10, h11, h12⟩ := notEofOrEol1_written h9
        obtain ⟨rfl, h13⟩ := LineWritten.mk' (u := []) h11 h12 h2
        refine ⟨b ++ (sp j ++ (l0 ++ (e ++ w))), by simp [sp], ?_⟩
        simp only [List.map_cons, List.flatten_cons, List.flatten_nil, List.append_nil]
        exact .blank hb hb' h10 h13 ih

/-! ## Containers -/

/-- Nested blocks of texts shorter than `n` are read by the grammar. -/
def BlocksRead (x : PExt) (cfg : PConfig) (n : Nat) (rec : P (List Block)) : Prop :=
  ∀ s, s.length < n → ∀ r bs, rec s = some (r, bs) →
    ∃ g w b, s = g ++ (w ++ r) ∧ BlankLines g ∧ bs = [b] ∧ BlockWritten x cfg b w r

variable {n : Nat} {rec : P (List Block)}

theorem many0_blocks_read (hr : BlocksRead x cfg n rec) : ∀ s r l, many0 rec s = some (r, l) → s.length < n →
    BlankText r → BlocksWritten x cfg l.flatten s := by
  refine many0_induction ?_ ?_
  · intro s _ _ hb; exact .nil hb
  · intro s r a r' l hp hlt hm ih hs hb
    obtain ⟨g, w, b, rfl, h1, rfl, h2⟩ := hr _ hs _ _ hp
    exact .cons h1 h2 (ih (by omega) hb)

theorem blocks0_read (hr : BlocksRead x cfg n rec) (hb : ∀ s, rec s = none → BlankText s) {s : Str}
    {bs : List Block} (hs : s.length < n) (h : blocks0 rec s = some bs) : BlocksWritten x cfg bs s := by
  unfold blocks0 at h
  simp only [Option.map_eq_some_iff] at h
  obtain ⟨⟨r, l⟩, h, rfl⟩ := h
  exact many0_blocks_read hr _ _ _ h hs (hb _ (many0_stop h))

theorem blocks1_read (hr : BlocksRead x cfg n rec) (hb : ∀ s, rec s = none → BlankText s) {s : Str}
    {bs : List Block} (hs : s.length < n) (h : blocks1 rec s = some bs) : BlocksWritten x cfg bs s := by
  unfold blocks1 at h
  simp only [Option.map_eq_some_iff] at h
  obtain ⟨⟨r, l⟩, h, rfl⟩ := h
  obtain ⟨r1, a, l', h1, h2, rfl⟩ := many1_some.1 h
  obtain ⟨g, w, b, rfl, h3, rfl, h4⟩ := hr _ hs _ _ h1
  exact .cons h3 h4 (many0_blocks_read hr _ _ _ h2 (by simp at hs; omega) (hb _ (many0_stop h2)))

theorem quoteLine_written : ∀ s r l, preceded quotePrefix (lineTerminated notEofOrEol0) s = some (r, l) →
    ∃ q e, s = q ++ (l ++ (e ++ r)) ∧ QuotePrefix q l ∧ LineWritten l e r := by
  intro s r l h
  obtain ⟨s1, _, h1, h2⟩ := preceded_some.1 h
  obtain ⟨s2, _, h3, h4⟩ := preceded_some.1 h1
  obtain ⟨k, hk, _, rfl, _⟩ := indent03_written h3
  obtain ⟨rfl, _⟩ := chr_some.1 h4
  obtain ⟨e, rfl, h5⟩ := line0_written h2
  exact ⟨sp k ++ ['>'], e, by simp [sp], ⟨k, hk, rfl⟩, h5⟩

theorem blockquoteP_read (hr : BlocksRead x cfg n rec) (hb : ∀ s, rec s = none → BlankText s)
    {s r : Str} {b : Block} (hs : s.length ≤ n) (h : blockquoteP rec s = some (r, b)) :
    ∃ w, s = w ++ r ∧ BlockWritten x cfg b w r := by
  obtain ⟨lines, h1, h2⟩ := mapOpt_some.1 h
  simp only [Option.map_eq_some_iff] at h2
  obtain ⟨bs, h2, rfl⟩ := h2
  have hl := quoteLines_length h1
  obtain ⟨w, rfl, h3, h4⟩ := linesLoop1 quoteLine_written _ _ _ h1
  exact ⟨w, rfl, .blockQuote h3 h4 (blocks1_read hr hb (by omega) h2)⟩

theorem trim_first {s r1 r2 l first : Str}
    (h1 : preceded quotePrefix (lineTerminated notEofOrEol0) s = some (r1, l))
    (h2 : preceded (Nom.seq quotePrefix (Nom.opt (chr ' '))) (lineTerminated notEofOrEol0) s = some (r2, first)) :
    trim first = trim l := by
  obtain ⟨s1, c, h3, h4⟩ := preceded_some.1 h1
  obtain ⟨s2, y, h5, h6⟩ := preceded_some.1 h2
  obtain ⟨s3, h7, h8⟩ := seq_some.1 h5
  rw [h3] at h7
  simp at h7
  obtain ⟨rfl, _⟩ := h7
  rcases opt_some.1 h8 with ⟨a, h9, _⟩ | ⟨_, rfl, _⟩
  · obtain ⟨rfl, rfl⟩ := chr_some.1 h9
    rw [line0_space h4 h6, trim_space]
  · rw [h4] at h6
    simp at h6
    rw [h6.2]

theorem githubAlertP_read (hr : BlocksRead x cfg n rec) (hb : ∀ s, rec s = none → BlankText s)
    {s r : Str} {bs : List Block} (hs : s.length ≤ n) (h : githubAlertP x rec s = some (r, bs)) :
    ∃ w b, s = w ++ r ∧ bs = [b] ∧ BlockWritten x cfg b w r := by
  unfold githubAlertP at h
  split at h
  · simp at h
  · rename_i r1 first e1
    split at h
    · simp at h
    · rename_i t e2
      split at h
      · simp at h
      · rename_i r2 lines e3
        have hl := quoteLines_tail_length e3
        obtain ⟨w, hw, h3, h4⟩ := linesLoop1 quoteLine_written _ _ _ e3
        obtain ⟨r3, l0, ls, e4, e5, rfl⟩ := many1_some.1 e3
        have hm : x.upperStr (trim l0) = cs!"[!" ++ (alertWord t ++ [']']) := by
          unfold parseAlertMarker at e2
          split at e2
          · rename_i t' e
            simp at e2
            subst e2
            rw [← trim_first e4 e1, ← trim_trim]
            exact alertMarkerP_some e
          · simp at e2
        simp only [List.drop_succ_cons, List.drop_zero] at h hl
        split at h
        · rename_i hi
          simp at h
          obtain ⟨rfl, rfl⟩ := h
          have hi' : joinWith ['\n'] ls = [] := by simpa using hi
          exact ⟨w, _, hw, rfl, .alert h4 hm (by rw [hi']; exact .nil .nil)⟩
        · split at h
          · rename_i bs' e6
            simp at h
            obtain ⟨rfl, rfl⟩ := h
            exact ⟨w, _, hw, rfl, .alert h4 hm (blocks1_read hr hb (by omega) e6)⟩
          · simp at h

theorem listItemP_read (hr : BlocksRead x cfg n rec) (hb : ∀ s, rec s = none → BlankText s)
    {s r : Str} {k : ListKind} {i : ListItem} (hs : s.length ≤ n) (h : listItemP rec s = some (r, (k, i))) :
    ∃ w, s = w ++ r ∧ ItemWritten x cfg k i w r := by
  unfold listItemP at h
  split at h
  · simp at h
  · rename_i s1 kind pl task first e1
    split at h
    · simp at h
    · rename_i s2 rest e2
      split at h
      · simp at h
      · rename_i bs e3
        simp at h
        obtain ⟨rfl, rfl, rfl⟩ := h
        have hl := listItem_content_length e1 e2
        obtain ⟨f, e, h1, h2, rfl⟩ := listMarkerWithSpanSize_written e1
        obtain ⟨w, rfl, h3⟩ := restLines _ _ _ e2
        have h4 := blocks0_read hr hb (by omega) e3
        have hc : itemContent first rest = joinWith ['\n'] (first :: rest.map List.flatten) := by
          rw [joinWith_cons_flatten]; simp [itemContent, Function.comp_def]
        rw [hc] at h4
        exact ⟨f ++ (e ++ w), by simp, .mk h1 h2 h3 h4⟩

theorem many0_items_read (hr : BlocksRead x cfg n rec) (hb : ∀ s, rec s = none → BlankText s) :
    ∀ s r l, many0 (listItemP rec) s = some (r, l) → s.length ≤ n →
      ∃ w, s = w ++ r ∧ ItemsWritten x cfg (l.map Prod.snd) w r := by
  refine many0_induction ?_ ?_
  · intro s _ _; exact ⟨[], rfl, .nil⟩
  · intro s r a r' l hp hlt hm ih hs
    obtain ⟨k, i⟩ := a
    obtain ⟨w, rfl, h1⟩ := listItemP_read hr hb hs hp
    obtain ⟨w', rfl, h2⟩ := ih (by omega)
    exact ⟨w ++ w', by simp, .cons h1 h2⟩

theorem listP_read (hr : BlocksRead x cfg n rec) (hb : ∀ s, rec s = none → BlankText s)
    {s r : Str} {b : Block} (hs : s.length ≤ n) (h : listP rec s = some (r, b)) :
    ∃ w, s = w ++ r ∧ BlockWritten x cfg b w r := by
  unfold listP at h
  split at h
  · rename_i r1 k i l e
    simp at h
    obtain ⟨rfl, rfl⟩ := h
    obtain ⟨r2, a, l', h1, h2, h3⟩ := many1_some.1 e
    simp at h3
    obtain ⟨rfl, rfl⟩ := h3
    obtain ⟨w, rfl, h4⟩ := listItemP_read hr hb hs h1
    obtain ⟨w', rfl, h5⟩ := many0_items_read hr hb _ _ _ h2 (by simp at hs; omega)
    exact ⟨w ++ w', by simp, .list h4 h5⟩
  · simp at h

theorem footnoteDefinitionP_read (hr : BlocksRead x cfg n rec) (hb : ∀ s, rec s = none → BlankText s)
    {s r : Str} {b : Block} (hs : s.length ≤ n) (h : footnoteDefinitionP rec s = some (r, b)) :
    ∃ w, s = w ++ r ∧ BlockWritten x cfg b w r := by
  unfold footnoteDefinitionP at h
  split at h
  · simp at h
  · rename_i s1 label e1
    split at h
    · simp at h
    · rename_i s2 first e2
      split at h
      · simp at h
      · rename_i s3 rest e3
        split at h
        · simp at h
        · rename_i bs e4
          simp at h
          obtain ⟨rfl, rfl⟩ := h
          have hlt := Con.lt e1
          have hlen : (itemContent first (rest.map fun l => [l])).length ≤ s1.length := by
            obtain ⟨u2, o2, rfl, h2, h3⟩ := (LineGives.preceded indent03_drops line1_gives) _ _ _ e2
            have hp := LineGives.preceded (Drops.manyMN (m := 3) (n := 3) (chr_drops (c := ' ') (by decide))) line1_gives
            obtain ⟨u3, rfl, h4⟩ := hp.rest _ _ _ e3
            simp only [id] at h2 h4
            subst h2
            have h5 : (o2 ++ (rest.map (fun a => '\n' :: a)).flatten).length ≤ (u2 ++ u3).length := (h4 u2 o2 h3).length
            have hc : itemContent o2 (rest.map (fun l => [l])) =
                o2 ++ (rest.map (fun a => '\n' :: a)).flatten := by
              simp [itemContent, Function.comp_def]
            rw [hc]
            simp only [List.length_append] at h5 ⊢
            omega
          obtain ⟨s4, _, h1, h2⟩ := preceded_some.1 e1
          obtain ⟨k, hk, _, rfl, _⟩ := indent03_written h1
          obtain ⟨s5, _, h3, h4⟩ := preceded_some.1 h2
          have h3 := (tag_some.1 h3).1
          subst h3
          obtain ⟨s6, _, h5, h6⟩ := terminated_some.1 h4
          have h6 := (tag_some.1 h6).1
          subst h6
          have hlab := recognize_append h5
          obtain ⟨lb, h7, _⟩ := recognize_some.1 h5
          have hloop : ∀ s r l, many0 (noneOf cs!"]") s = some (r, l) → ∃ w, s = w ++ r ∧ ']' ∉ w := by
            refine many0_induction ?_ ?_
            · intro s _; exact ⟨[], rfl, by simp⟩
            · intro s r a r' l hp _ _ ih
              obtain ⟨rfl, hc⟩ := satisfy_some.1 hp
              obtain ⟨w, rfl, h⟩ := ih
              refine ⟨a :: w, rfl, ?_⟩
              simp at hc
              simp [h, Ne.symm hc]
          obtain ⟨s7, a, l', h8, h9, _⟩ := many1_some.1 h7
          obtain ⟨h10, hc⟩ := satisfy_some.1 h8
          obtain ⟨wl, h11, h12⟩ := hloop _ _ _ h9
          have hlabel : label = a :: wl := List.append_cancel_right (by rw [hlab, h10, h11]; rfl)
          rw [← hlab] at *
          obtain ⟨s8, _, h13, h14⟩ := preceded_some.1 e2
          obtain ⟨k', hk', _, rfl, h15⟩ := indent03_written h13
          obtain ⟨e, rfl, h16, h17⟩ := line1_written h14
          have hline : ∀ s r l, preceded (manyMN (chr ' ') 3 3) (lineTerminated notEofOrEol1) s = some (r, l) →
              ∃ q e, s = q ++ (l ++ (e ++ r)) ∧ FootnotePrefix q l ∧ LineWritten l e r := by
            intro s r l h
            obtain ⟨s1, _, h1, h2⟩ := preceded_some.1 h
            obtain ⟨j, hj, hj', _, rfl, _⟩ := manyMN_chr_some _ _ _ _ _ (by omega) h1
            have : j = 3 := by omega
            subst this
            obtain ⟨e, rfl, h3, h4⟩ := line1_written h2
            exact ⟨sp 3, e, rfl, ⟨h3, rfl⟩, h4⟩
          obtain ⟨w, rfl, h18⟩ := linesLoop hline _ _ _ e3
          have h19 := blocks0_read hr hb (by omega) e4
          rw [itemContent_lines] at h19
          refine ⟨_, by simp [sp], .footnote hk ?_ ?_ (p := sp k') ⟨h16, k', hk', rfl, ?_⟩ h17 h18 h19⟩
          · rw [hlabel]; simp
          · rw [hlabel]; simp at hc; simp [h12, Ne.symm hc]
          · rcases h15 with h15 | h15
            · exact .inl h15
            · right
              cases first with
              | nil => simp
              | cons c t => simpa using h15

/-! ## Documents -/

theorem conditionalBlock_read {b : Behavior Block} {p : P Block}
    (hb : b = .parse ∨ b = .ignore) {s r : Str} {bs : List Block}
    (h : ∀ b, p s = some (r, b) → ∃ w, s = w ++ r ∧ BlockWritten x cfg b w r)
    (hc : conditionalBlock b p s = some (r, bs)) :
    ∃ w b, s = w ++ r ∧ bs = [b] ∧ BlockWritten x cfg b w r := by
  rcases hb with rfl | rfl
  · obtain ⟨b, h1, rfl⟩ := mapP_some.1 hc
    obtain ⟨w, h2, h3⟩ := h b h1
    exact ⟨w, b, h2, rfl, h3⟩
  · simp [conditionalBlock, conditional, failP] at hc

theorem blockAlt_read (hk : cfg.Keeps) {n : Nat} {rec : P (List Block)}
    (hr : BlocksRead x cfg n rec) (hb : ∀ s, rec s = none → BlankText s)
    {s r : Str} {bs : List Block} (hs : s.length ≤ n) (h : blockAlt x cfg rec s = some (r, bs)) :
    ∃ w b, s = w ++ r ∧ bs = [b] ∧ BlockWritten x cfg b w r := by
  unfold blockAlt at h
  rcases orElse_some.1 h with h | ⟨_, h⟩
  · refine conditionalBlock_read hk.codeBlock (fun b h => ?_) h
    exact (codeBlockIndented_writes.orElse codeBlockFenced_writes) _ _ _ h
  rcases orElse_some.1 h with h | ⟨_, h⟩
  · exact conditionalBlock_read hk.headingV1 (fun b h => headingV1_writes hk _ _ _ h) h
  rcases orElse_some.1 h with h | ⟨_, h⟩
  · exact conditionalBlock_read hk.headingV2 (fun b h => headingV2OrParagraph_writes hk _ _ _ h) h
  rcases orElse_some.1 h with h | ⟨_, h⟩
  · exact conditionalBlock_read hk.thematicBreak (fun b h => thematicBreakP_writes _ _ _ h) h
  rcases orElse_some.1 h with h | ⟨_, h⟩
  · rcases hk.githubAlert with e | e
    · rw [e] at h; exact githubAlertP_read hr hb hs h
    · rw [e] at h; simp [conditionalBlockVec, failP] at h
  rcases orElse_some.1 h with h | ⟨_, h⟩
  · exact conditionalBlock_read hk.blockquote (fun b h => blockquoteP_read hr hb hs h) h
  rcases orElse_some.1 h with h | ⟨_, h⟩
  · exact conditionalBlock_read hk.list (fun b h => listP_read hr hb hs h) h
  rcases orElse_some.1 h with h | ⟨_, h⟩
  · exact conditionalBlock_read hk.htmlBlock (fun b h => htmlBlockP_writes _ _ _ h) h
  rcases orElse_some.1 h with h | ⟨_, h⟩
  · exact conditionalBlock_read hk.footnoteDefinition (fun b h => footnoteDefinitionP_read hr hb hs h) h
  rcases orElse_some.1 h with h | ⟨_, h⟩
  · exact conditionalBlock_read hk.linkDefinition (fun b h => linkDefinitionP_writes hk _ _ _ h) h
  rcases orElse_some.1 h with h | ⟨_, h⟩
  · exact conditionalBlock_read hk.table (fun b h => tableP_writes hk _ _ _ h) h
  rcases orElse_some.1 h with h | ⟨_, h⟩
  · simp [customParser, hk.customBlock, failP] at h
  · refine conditionalBlock_read (.inl hk.paragraph) (fun b h => ?_) h
    obtain ⟨l, h', rfl⟩ := mapP_some.1 h
    obtain ⟨w, h1, ls, h2, h3, h4⟩ := paragraphP_writes hk _ _ _ h'
    exact ⟨w, h1, .paragraph h2 h3 h4⟩

theorem blockP_reads (hk : cfg.Keeps) : ∀ n, BlocksRead x cfg n (blockP x cfg)
  | 0 => fun s hs => absurd hs (by omega)
  | n + 1 => by
    intro s hs r bs h
    rw [blockP_eq hk.customOk] at h
    obtain ⟨s1, _, h1, h2⟩ := preceded_some.1 h
    obtain ⟨g, rfl, h3⟩ := manyEmptyLines0_written _ _ _ h1
    obtain ⟨w, b, rfl, h4, h5⟩ := blockAlt_read hk (blockP_reads hk n)
      (fun s h => (blockP_none hk.customOk (by rw [hk.text]; simp) (by rw [hk.paragraph]; simp)).1 h)
      (by simp only [List.length_append] at hs ⊢; omega) h2
    exact ⟨g, w, b, rfl, h3, h4, h5⟩

/-- C71: whatever the input, with any configuration that parses or ignores each element (and parses text
and paragraphs), the input is a way of writing the document that is returned: every element is there in
its syntax, in order, and between the blocks there is nothing but blank lines. -/
theorem C71_reads (hk : cfg.Keeps) {s : Str} {d : Document} (h : parseMarkdown x cfg s = some d) :
    BlocksWritten x cfg d.blocks s := by
  unfold parseMarkdown at h
  rw [parseMarkdownF_eq hk.customOk (by omega)] at h
  simp only [Option.map_eq_some_iff] at h
  obtain ⟨⟨r, l⟩, h, rfl⟩ := h
  obtain ⟨s1, _, h1, h2⟩ := terminated_some.1 h
  exact many0_blocks_read (blockP_reads hk (s.length + 1)) _ _ _ h1 (by omega)
    ((blockP_none hk.customOk (by rw [hk.text]; simp) (by rw [hk.paragraph]; simp)).1 (many0_stop h1))

/-- C71 applies to the default configuration and to a document with most kinds of blocks. -/
theorem C71_example :
    let s := cs!"## *a* b\n\n- [x] `d`\n\n  e\n- ![f](g)\n***\n~~~h\ni\n~~~\n> j\n>\n> k\n\n[^l]: m\n\n|n|\n|:-|\n|~~o~~|\n"
    let bs : List Block := [.heading (.atx 2) [.emphasis [.text cs!"a"], .text cs!" b"],
      .list (.bullet .dash) [.mk (some .complete) [.paragraph [.code cs!"d"], .paragraph [.text cs!"e"]],
        .mk none [.paragraph [.image cs!"g" none cs!"f"]]],
      .thematicBreak, .codeBlock (.fenced (some cs!"h")) cs!"i",
      .blockQuote [.paragraph [.text cs!"j"], .paragraph [.text cs!"k"]],
      .footnoteDefinition cs!"l" [.paragraph [.text cs!"m"]],
      .table [[[.text cs!"n"]], [[.strikethrough [.text cs!"o"]]]] [.left]]
    parseMarkdown PExt.ascii (PConfig.default fun _ => none) s = some ⟨bs⟩ ∧
    BlocksWritten PExt.ascii (PConfig.default fun _ => none) bs s := by
  intro s bs
  have h : parseMarkdown PExt.ascii (PConfig.default fun _ => none) s = some ⟨bs⟩ := by decide +kernel
  exact ⟨h, C71_reads (keeps_default _) h⟩

/-- Texts that miss a construct by one character are read as something else. -/
theorem C71_boundaries :
    parseMarkdown PExt.ascii (PConfig.default fun _ => none)
      cs!"--\n\n``\na\n``\n\n####### a\n\n-a\n\n[a](b\n\n*a*b\n\n <a>\n" =
    some ⟨[.paragraph [.text cs!"--"], .paragraph [.code cs!"a"], .paragraph [.text cs!"####### a"],
      .paragraph [.text cs!"-a"], .paragraph [.linkReference [.text cs!"a"] [.text cs!"a"], .text cs!"(b"],
      .paragraph [.text cs!"*a*b"], .htmlBlock cs!"<a>\n"]⟩ ∧
    parseMarkdown PExt.ascii (PConfig.default fun _ => none) cs!"|a|\n|:|\n" =
    some ⟨[.paragraph [.text cs!"|a|\n|:|"]]⟩ := by
  decide +kernel

/-- The grammar is not a tautology: it refuses a rule of two dashes, a fence of two backticks, a heading
of level 7, a link without its last parenthesis, and text between blocks that is in no block. -/
theorem C71_refuses :
    ¬ BlocksWritten x cfg [.thematicBreak] cs!"--" ∧
    (∀ i c, ¬ BlocksWritten x cfg [.codeBlock (.fenced i) c] cs!"``\na\n``") ∧
    (∀ s l, ¬ BlocksWritten x cfg [.heading (.atx 7) l] s) ∧
    (∀ d t l, ¬ InlinesWritten x cfg.entities [.link d t l] cs!"[a](b") ∧
    ¬ BlocksWritten x cfg [] cs!"a" := by
  refine ⟨?_, ?_, ?_, ?_, ?_⟩
  · intro h
    generalize hs : cs!"--" = s at h
    cases h with
    | cons hg hb hr =>
      cases hb with
      | thematicBreak hl he =>
        obtain ⟨k, n, a, b, _, hn, _, _, rfl⟩ := hl
        have := congrArg List.length hs
        simp at this; omega
  · intro i c h
    generalize hs : cs!"``\na\n``" = s at h
    cases h with
    | cons hg hb hr =>
      generalize hbb : Block.codeBlock (.fenced i) c = b at hb
      cases hb with
      | @fenced f _ _ _ _ _ _ _ _ _ hf hk hn h1 h2 h3 h4 h5 h6 =>
        obtain ⟨k', m, _, hm, rfl⟩ := h5
        have := congrArg (List.count f) hs
        rcases hf with rfl | rfl <;>
        · simp [List.count_replicate] at this; omega
      | _ => cases hbb
  · intro s l h
    cases h with
    | cons hg hb hr =>
      cases hb with
      | atx hm => exact absurd hm.2.1 (by decide)
  · intro d t l h
    generalize hs : cs!"[a](b" = s at h
    cases h with
    | cons hi hr =>
      cases hr
      cases hi with
      | link h1 h2 h3 =>
        have := congrArg List.getLast? hs
        cases h3 <;> simp [List.getLast?_append, List.getLast?_cons] at this
  · intro h
    cases h with
    | nil h =>
      cases h <;> simp_all

end
end Verif
