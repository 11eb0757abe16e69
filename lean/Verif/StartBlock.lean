import Verif.StartLeaf
import Verif.LineEndingsDoc
/-!
# Exactly which texts the parsers of quotes, items, footnotes and HTML blocks accept (for C80)
-/
set_option linter.unusedVariables false
set_option linter.unusedSimpArgs false
namespace Verif
open Nom

section
variable {x : PExt} {cfg : PConfig}

/-! ## Quotes -/

theorem quoteLine_oneLine : ∀ s r l, preceded quotePrefix (lineTerminated notEofOrEol0) s = some (r, l) →
    ∃ q e, s = q ++ (l ++ (e ++ r)) ∧ QuotedLine q l ∧ LineWritten l e r := by
  intro s r l h
  obtain ⟨s1, _, h1, h2⟩ := preceded_some.1 h
  obtain ⟨s2, _, h3, h4⟩ := preceded_some.1 h1
  obtain ⟨k, hk, _, rfl, _⟩ := indent03_written h3
  obtain ⟨rfl, _⟩ := chr_some.1 h4
  obtain ⟨e, rfl, h5, h6⟩ := line0_oneLine h2
  exact ⟨sp k ++ ['>'], e, by simp [sp], ⟨⟨k, hk, rfl⟩, h5⟩,
    fun h => (h5 _ h).1 rfl, fun _ h => (h5 _ (List.mem_of_getLast? h)).2 rfl, h6⟩

theorem quotedLine_of {p l e r : Str} (h : QuotedLine p l) (he : LineEnd e r) :
    preceded quotePrefix (lineTerminated notEofOrEol0) (p ++ (l ++ (e ++ r))) = some (r, l) := by
  obtain ⟨⟨k, hk, rfl⟩, hl⟩ := h
  rw [List.append_assoc]
  exact preceded_some.2 ⟨l ++ (e ++ r), '>', preceded_some.2 ⟨_, _, indent03_replicate hk (by simp), chr_cons _ _⟩,
    line0 hl he⟩

/-- The quoted lines a text begins with are among those the parser takes. -/
theorem quoteLines_many0 {r : Str} {ls : List Str} {w : Str} (h : LinesWritten QuotedLine r ls w) :
    ∃ r' ls', many0 (preceded quotePrefix (lineTerminated notEofOrEol0)) (w ++ r) = some (r', ls ++ ls') := by
  induction h with
  | nil =>
    obtain ⟨r', l, h⟩ := many0_ex (p := preceded quotePrefix (lineTerminated notEofOrEol0)) r
    exact ⟨r', l, h⟩
  | @cons p l e w ls h1 h2 h3 ih =>
    obtain ⟨r', ls', h⟩ := ih
    refine ⟨r', ls', ?_⟩
    have hq := quotedLine_of h1 h2.ends
    have : p ++ (l ++ (e ++ w)) ++ r = p ++ (l ++ (e ++ (w ++ r))) := by simp
    rw [this]
    exact many0_of_some hq (Con.lt hq) h

theorem blankText_noCr {s : Str} (h : '\r' ∉ s) : BlankText s ↔ ∀ c ∈ s, c = ' ' ∨ c = '\t' ∨ c = '\n' := by
  constructor
  · intro hb
    induction hb with
    | nil => simp
    | space _ ih | tab _ ih | lf _ ih =>
      intro c hc
      rcases List.mem_cons.1 hc with rfl | hc
      · simp
      · exact ih (fun hm => h (by simp [hm])) c hc
    | crlf _ _ => exact absurd (by simp) h
  · intro ha
    induction s with
    | nil => exact .nil
    | cons c s ih =>
      have ih := ih (fun hm => h (by simp [hm])) (fun d hd => ha d (by simp [hd]))
      rcases ha c (by simp) with rfl | rfl | rfl
      · exact .space ih
      · exact .tab ih
      · exact .lf ih

theorem blankText_join : ∀ {ls : List Str}, (∀ l ∈ ls, OneLine l) →
    (BlankText (joinWith ['\n'] ls) ↔ ∀ l ∈ ls, Blanks l)
  | [], _ => by simp [joinWith]; exact .nil
  | l :: ls, h => by
    have hcr : '\r' ∉ joinWith ['\n'] (l :: ls) := joinWith_noCr _ (fun l hl hm => (h l hl _ hm).2 rfl)
    rw [blankText_noCr hcr]
    have hl := h l (by simp)
    have hone : (∀ c ∈ l, c = ' ' ∨ c = '\t' ∨ c = '\n') ↔ Blanks l := by
      constructor
      · intro hh c hc
        rcases hh c hc with h1 | h1 | h1
        · exact .inl h1
        · exact .inr h1
        · exact absurd h1 (hl c hc).1
      · intro hh c hc
        rcases hh c hc with h1 | h1 <;> simp [h1]
    cases ls with
    | nil => simp only [joinWith, List.mem_singleton, forall_eq]; exact hone
    | cons y ls =>
      have hcr' : '\r' ∉ joinWith ['\n'] (y :: ls) := joinWith_noCr _ (fun l hl hm => (h l (by simp [List.mem_cons.1 hl]) _ hm).2 rfl)
      have ih := blankText_join (ls := y :: ls) (fun l hl => h l (by simp [List.mem_cons.1 hl]))
      rw [blankText_noCr hcr'] at ih
      rw [List.forall_mem_cons, ← ih, ← hone]
      simp only [joinWith, List.append_assoc, List.mem_append, List.mem_singleton]
      constructor
      · intro hh
        exact ⟨fun c hc => hh c (.inl hc), fun c hc => hh c (.inr (.inr hc))⟩
      · rintro ⟨h1, h2⟩ c (hc | rfl | hc)
        · exact h1 c hc
        · simp
        · exact h2 c hc

theorem linesWritten_all {Pre : Str → Str → Prop} {Q : Str → Prop} (hp : ∀ p l, Pre p l → Q l) {s : Str}
    {ls : List Str} {w : Str} (h : LinesWritten Pre s ls w) : ∀ l ∈ ls, Q l := by
  induction h with
  | nil => simp
  | cons h1 _ _ ih =>
    intro l hl
    rcases List.mem_cons.1 hl with rfl | hl
    · exact hp _ _ h1
    · exact ih l hl

theorem blockquote_iff (hc : cfg.CustomOk) (ht : cfg.text ≠ .ignore) (hp : cfg.paragraph ≠ .ignore) {s : Str} :
    (∃ y, blockquoteP (blockP x cfg) s = some y) ↔ QuoteAt s := by
  have := blockP_con (x := x) hc
  constructor
  · rintro ⟨⟨r, b⟩, h⟩
    obtain ⟨lines, h1, h2⟩ := mapOpt_some.1 h
    simp only [Option.map_eq_some_iff] at h2
    obtain ⟨bs, h2, rfl⟩ := h2
    obtain ⟨w, rfl, h3, h4⟩ := linesLoop1 quoteLine_oneLine _ _ _ h1
    refine ⟨lines, w, r, h4, ?_, rfl⟩
    have hnb : ¬ BlankText (joinWith ['\n'] lines) := by
      intro hb
      have := (blockP_none (x := x) hc ht hp).2 hb
      unfold blocks1 at h2
      rw [many1_none_of this] at h2
      simp at h2
    rw [blankText_join (linesWritten_all (fun _ _ h => h.2) h4)] at hnb
    simpa using hnb
  · rintro ⟨ls, w, r, h1, ⟨l, hl, hl'⟩, rfl⟩
    obtain ⟨r', ls', h⟩ := quoteLines_many0 h1
    have hne : ls ++ ls' ≠ [] := by intro h; simp at h; rw [h.1] at hl; simp at hl
    have hq : quoteLines (w ++ r) = some (r', ls ++ ls') := many1_of_many0 h hne
    obtain ⟨w', _, _, h5⟩ := linesLoop1 quoteLine_oneLine _ _ _ hq
    have hb : ¬ BlankText (joinWith ['\n'] (ls ++ ls')) := by
      rw [blankText_join (linesWritten_all (fun _ _ h => h.2) h5)]
      intro hh
      exact hl' (hh l (by simp [hl]))
    have hs : ∃ y, blockP x cfg (joinWith ['\n'] (ls ++ ls')) = some y := by
      cases hh : blockP x cfg (joinWith ['\n'] (ls ++ ls')) with
      | some y => exact ⟨y, rfl⟩
      | none => exact absurd ((blockP_none hc ht hp).1 hh) hb
    obtain ⟨⟨r2, bs⟩, hs⟩ := hs
    obtain ⟨r3, l3, hm⟩ := many0_ex (p := blockP x cfg) r2
    refine ⟨(r', .blockQuote (bs :: l3).flatten), mapOpt_some.2 ⟨_, hq, ?_⟩⟩
    unfold blocks1
    rw [many1_some.2 ⟨_, _, _, hs, hm, rfl⟩]
    rfl

theorem alert_quote (hc : cfg.CustomOk) {s : Str} {y} {rec : P (List Block)}
    (h : githubAlertP x rec s = some y) : QuoteAt s := by
  unfold githubAlertP at h
  split at h
  · simp at h
  · rename_i r1 first e1
    split at h
    · simp at h
    · rename_i t e2
      split at h
      · simp at h
      · rename_i r2 lines e3
        obtain ⟨w, rfl, h3, h4⟩ := linesLoop1 quoteLine_oneLine _ _ _ e3
        obtain ⟨r3, l0, ls, e4, e5, rfl⟩ := many1_some.1 e3
        refine ⟨l0 :: ls, w, r2, h4, ⟨l0, by simp, ?_⟩, rfl⟩
        intro hb
        have hm : x.upperStr (trim l0) = cs!"[!" ++ (alertWord t ++ [']']) := by
          unfold parseAlertMarker at e2
          split at e2
          · rename_i t' e
            simp at e2
            subst e2
            rw [← trim_first e4 e1, ← trim_trim]
            exact alertMarkerP_some e
          · simp at e2
        have : trim l0 = [] := trim_eq_nil.2 (fun c hc => by rcases hb c hc with rfl | rfl <;> decide)
        rw [this] at hm
        simp [PExt.upperStr] at hm

/-! ## Items -/

theorem BlankLineAt.line {u : Str} (h : BlankLineAt u) : ∃ y, lineTerminated space0 u = some y := blankLine_iff.2 h

theorem marker_at {kind : ListKind} {pl : Nat} {t : Option TaskState} {s r first : Str}
    (h : listMarkerWithSpanSize s = some (r, (kind, pl, t, first))) : ItemAt kind s := by
  rcases orElse_some.1 h with h | ⟨hn, h⟩
  · obtain ⟨⟨k', pl', t'⟩, h1, h2⟩ := mapP_some.1 h
    simp at h2
    obtain ⟨rfl, rfl, rfl, rfl⟩ := h2
    unfold listMarkerFollowedByNewline at h1
    split at h1
    · simp at h1
    · rename_i r1 kind e1
      obtain ⟨s1, _, h2, h3⟩ := preceded_some.1 e1
      obtain ⟨j, hj, _, rfl, _⟩ := indent03_written h2
      obtain ⟨m, hm, rfl⟩ := listMarker_some h3
      split at h1
      · rename_i tail v e2
        simp at h1
        obtain ⟨rfl, rfl, rfl, rfl⟩ := h1
        exact ⟨j, m, r1, hj, hm, rfl, .inl (blankLine_iff.1 ⟨_, e2⟩)⟩
      · split at h1
        · simp at h1
        · rename_i r2 v e3
          obtain ⟨t', h4, h5⟩ := mapP_some.1 h1
          simp at h5
          obtain ⟨rfl, rfl, rfl⟩ := h5
          obtain ⟨n, hn, _, rfl, _⟩ := indent03_written e3
          obtain ⟨s2, e, h6, h7⟩ := terminated_some.1 h4
          obtain ⟨b, hb, rfl⟩ := listItemTaskState_some h6
          obtain ⟨h8, rfl⟩ := LineEnd.of_eofOrEol h7
          exact ⟨j, m, _, hj, hm, rfl, .inr (.inr ⟨n, t', b, e, r, hn, hb, h8, rfl⟩)⟩
  · obtain ⟨⟨⟨k', pl, t'⟩, first⟩, h1, h2⟩ := mapP_some.1 h
    simp only [Prod.mk.injEq] at h2
    obtain ⟨rfl, rfl, rfl, rfl⟩ := h2
    obtain ⟨s1, h2, h3⟩ := seq_some.1 h1
    simp only at h2 h3
    obtain ⟨e, rfl, h4, h4'⟩ := line0_oneLine h3
    unfold listMarkerFollowedBySpaces at h2
    split at h2
    · simp at h2
    · rename_i r1 kind e1
      obtain ⟨s2, _, s3, _, h5, h6, h7⟩ := delimited_some.1 e1
      obtain ⟨j, hj, _, rfl, _⟩ := indent03_written h5
      obtain ⟨m, hm, rfl⟩ := listMarker_some h6
      obtain ⟨n, hn1, hn4, _, rfl, h8⟩ := manyMN_chr_some _ _ _ _ _ (by omega) h7
      obtain ⟨t2, h9, h10⟩ := mapP_some.1 h2
      simp at h10
      obtain ⟨rfl, hpl, rfl⟩ := h10
      obtain ⟨n, rfl⟩ : ∃ j, n = j + 1 := ⟨n - 1, by omega⟩
      have hsp : OneLine (sp n) := OneLine.replicate n (by decide) (by decide)
      refine ⟨j, m, _, hj, hm, rfl, .inr (.inl ?_)⟩
      rcases opt_some.1 h9 with ⟨t', h11, rfl⟩ | ⟨h11, rfl, rfl⟩
      · obtain ⟨s4, _, h12, h13⟩ := terminated_some.1 h11
        obtain ⟨b, hb, rfl⟩ := listItemTaskState_some h12
        obtain ⟨rfl, _⟩ := chr_some.1 h13
        refine ⟨sp n ++ (b ++ ' ' :: first), e, r, hsp.append (hb.oneLine.append ?_), h4', by
          simp [sp, List.replicate_succ]⟩
        intro c hc
        rcases List.mem_cons.1 hc with rfl | hc
        · decide
        · exact h4 c hc
      · exact ⟨sp n ++ first, e, r, hsp.append h4, h4', by simp [sp, List.replicate_succ]⟩

theorem marker_of_at {kind : ListKind} {s : Str} (h : ItemAt kind s) :
    ∃ r pl t first, listMarkerWithSpanSize s = some (r, (kind, pl, t, first)) := by
  obtain ⟨k, m, u, hk, hm, rfl, hu⟩ := h
  have hmark := itemMarker_of (u := u) hk hm
  by_cases hnl : ∃ y, listMarkerFollowedByNewline (sp k ++ (m ++ u)) = some y
  · obtain ⟨⟨r, kind', pl, t⟩, hy⟩ := hnl
    have : kind' = kind := by
      unfold listMarkerFollowedByNewline at hy
      rw [hmark] at hy
      simp only at hy
      split at hy
      · simp at hy; exact hy.2.1.symm
      · split at hy
        · simp at hy
        · obtain ⟨t', _, h5⟩ := mapP_some.1 hy
          simp at h5
          exact h5.1.symm
    subst this
    exact ⟨_, _, _, _, orElse_of_some (mapP_some.2 ⟨_, hy, rfl⟩)⟩
  · have hnone : listMarkerFollowedByNewline (sp k ++ (m ++ u)) = none := by
      cases h : listMarkerFollowedByNewline (sp k ++ (m ++ u)) with
      | none => rfl
      | some y => exact absurd ⟨y, h⟩ hnl
    rcases hu with hb | ⟨l, e, r, hl, he, rfl⟩ | ⟨n, t, b, e, r, hn, hb, he, rfl⟩
    · exfalso
      obtain ⟨y, hy⟩ := hb.line
      unfold listMarkerFollowedByNewline at hnone
      rw [hmark, ] at hnone
      simp only [hy] at hnone
      simp at hnone
    · -- the spaces
      obtain ⟨r1, l1, hind, _⟩ := indent03_some (l ++ (e ++ r))
      obtain ⟨n, hn, _, h4, h5⟩ := indent03_written hind
      have hlen : n ≤ l.length ∧ ∃ l2, l = sp n ++ l2 ∧ r1 = l2 ++ (e ++ r) := by
        rcases List.append_eq_append_iff.1 h4 with ⟨z, h6, h7⟩ | ⟨z, h6, h7⟩
        · cases z with
          | nil => simp at h6 h7; refine ⟨by rw [← h6]; simp, [], by simp [h6], by simp [h7]⟩
          | cons d z =>
            exfalso
            have hd : d = ' ' := by
              have hm : d ∈ sp n := by rw [h6]; simp
              exact (List.mem_replicate.1 hm).2
            rcases he with (rfl | rfl) | ⟨rfl, rfl⟩ <;> simp at h7 <;> rw [hd] at h7 <;> simp at h7
        · exact ⟨by rw [h6]; simp, z, h6, h7⟩
      obtain ⟨_, l2, rfl, rfl⟩ := hlen
      have hl2 : OneLine l2 := fun c hc => hl c (by simp [hc])
      have hmk := spacesMarker_of (k := k) (n := n + 1) (kind := kind) (m := m) (u := l2 ++ (e ++ r)) hk hm (by omega)
        (by omega) (h5.imp (fun h => by omega) id)
      have heq : sp k ++ (m ++ (List.replicate (n + 1) ' ' ++ (l2 ++ (e ++ r)))) =
          sp k ++ (m ++ ' ' :: (sp n ++ l2 ++ (e ++ r))) := by
        simp [sp, List.replicate_succ]
      rw [heq] at hmk
      have hfin : ∃ r' t, listMarkerFollowedBySpaces (sp k ++ (m ++ ' ' :: (sp n ++ l2 ++ (e ++ r)))) =
          some (r', (kind, k + m.length + (n + 1), t)) ∧ ∃ l3, OneLine l3 ∧ r' = l3 ++ (e ++ r) := by
        rw [hmk]
        cases hb : terminated listItemTaskState (chr ' ') (l2 ++ (e ++ r)) with
        | none =>
          exact ⟨_, none, mapP_some.2 ⟨none, opt_some.2 (.inr ⟨hb, rfl, rfl⟩), rfl⟩, l2, hl2, rfl⟩
        | some y =>
          obtain ⟨r4, t⟩ := y
          refine ⟨_, some t, mapP_some.2 ⟨some t, opt_some.2 (.inl ⟨t, hb, rfl⟩), rfl⟩, ?_⟩
          obtain ⟨s4, _, h12, h13⟩ := terminated_some.1 hb
          obtain ⟨b, hb, h14⟩ := listItemTaskState_some h12
          obtain ⟨rfl, _⟩ := chr_some.1 h13
          have h14' : l2 ++ (e ++ r) = (b ++ [' ']) ++ r4 := by rw [h14]; simp
          have hob : OneLine (b ++ [' ']) := hb.oneLine.append (by intro c hc; simp at hc; subst hc; decide)
          rcases List.append_eq_append_iff.1 h14' with ⟨z, h6, h7⟩ | ⟨z, h6, h7⟩
          · cases z with
            | nil =>
              simp at h6 h7
              exact ⟨[], by intro c hc; simp at hc, by simp [h7]⟩
            | cons d z =>
              exfalso
              have hd := hob d (by rw [h6]; simp)
              rcases he with (rfl | rfl) | ⟨rfl, rfl⟩ <;> simp at h7 <;> rw [← h7.1] at hd <;> simp at hd
          · exact ⟨z, fun c hc => hl2 c (by rw [h6]; simp [hc]), h7⟩
      obtain ⟨r', t, hfin, l3, hl3, rfl⟩ := hfin
      refine ⟨_, _, _, _, (orElse_of_none (mapP_none.2 hnone)).trans (mapP_some.2 ⟨((kind, k + m.length + (n + 1), t), l3), seq_some.2 ⟨_, hfin, line0 hl3 he⟩, rfl⟩)⟩
    · exfalso
      unfold listMarkerFollowedByNewline at hnone
      rw [hmark] at hnone
      have hind : (b ++ (e ++ r)).head? ≠ some ' ' := by
        obtain ⟨c, rfl⟩ := hb.head; simp
      have ht : lineTerminated listItemTaskState (b ++ (e ++ r)) = some (r, t) :=
        terminated_some.2 ⟨_, _, listItemTaskState_of hb, he.eofOrEol⟩
      simp only at hnone
      split at hnone
      · simp at hnone
      · rw [indent03_replicate hn hind] at hnone
        simp only at hnone
        rw [mapP_none, ht] at hnone
        simp at hnone

theorem listItemRestLine_lt {kind : ListKind} {pl : Nat} {s r : Str} {l : List Str}
    (h : listItemRestLine kind pl s = some (r, l)) : r.length < s.length := by
  rcases listItemRestLine_length h with h1 | ⟨h1, rfl⟩
  · omega
  · cases s with
    | nil => simp [listItemRestLine] at h
    | cons c s => simp

theorem listItemP_kind {rec : P (List Block)} {s r : Str} {kind : ListKind} {i : ListItem}
    (h : listItemP rec s = some (r, (kind, i))) : ItemAt kind s := by
  unfold listItemP at h
  split at h
  · simp at h
  · rename_i s1 kind' pl task first e1
    split at h
    · simp at h
    · split at h
      · simp at h
      · simp at h
        obtain ⟨_, rfl, _⟩ := h
        exact marker_at e1

theorem listItemP_of_at (hc : cfg.CustomOk) {s : Str} {kind : ListKind} (h : ItemAt kind s) :
    ∃ r i, listItemP (blockP x cfg) s = some (r, (kind, i)) := by
  have := blockP_con (x := x) hc
  obtain ⟨r, pl, t, first, hm⟩ := marker_of_at h
  have hrest : ∃ r' ls, listItemLines kind pl r = some (r', ls) := by
    unfold listItemLines
    cases h : many0 (listItemRestLine kind pl) r with
    | none => exact absurd h (many0_ne_none (fun s r a e => listItemRestLine_lt e) r)
    | some y => exact ⟨y.1, y.2, rfl⟩
  obtain ⟨r', ls, hls⟩ := hrest
  obtain ⟨r3, l3, hm3⟩ := many0_ex (p := blockP x cfg) (itemContent first ls)
  unfold listItemP
  rw [hm]
  simp only [hls, blocks0, hm3]
  exact ⟨r', _, rfl⟩

theorem listP_of_at (hc : cfg.CustomOk) {s : Str} {kind : ListKind} (h : ItemAt kind s) :
    ∃ r l, listP (blockP x cfg) s = some (r, .list kind l) := by
  obtain ⟨r, i, hi⟩ := listItemP_of_at (x := x) hc h
  have hm : ∃ r' l, many0 (listItemP (blockP x cfg)) r = some (r', l) := by
    cases h : many0 (listItemP (blockP x cfg)) r with
    | none => exact absurd h (many0_ne_none (fun s r a e => Con.lt e) r)
    | some y => exact ⟨y.1, y.2, rfl⟩
  obtain ⟨r', l, hm⟩ := hm
  unfold listP
  rw [many1_some.2 ⟨_, _, _, hi, hm, rfl⟩]
  exact ⟨_, _, rfl⟩

theorem listP_at {rec : P (List Block)} {s r : Str} {b : Block} (h : listP rec s = some (r, b)) :
    ∃ kind l, b = .list kind l ∧ ItemAt kind s := by
  unfold listP at h
  split at h
  · rename_i r' k i l e
    obtain ⟨r1, a, l', h1, h2, h3⟩ := many1_some.1 e
    simp at h3 h
    obtain ⟨rfl, rfl⟩ := h3
    exact ⟨_, _, h.2.symm, listItemP_kind h1⟩
  · simp at h

/-! ## Footnotes -/

theorem footnote_iff (hc : cfg.CustomOk) {s : Str} :
    (∃ y, footnoteDefinitionP (blockP x cfg) s = some y) ↔ FootnoteAt s := by
  have := blockP_con (x := x) hc
  constructor
  · rintro ⟨⟨r, b⟩, h⟩
    unfold footnoteDefinitionP at h
    split at h
    · simp at h
    · rename_i s1 label e1
      split at h
      · simp at h
      · rename_i s2 first e2
        obtain ⟨s4, _, h1, h2⟩ := preceded_some.1 e1
        obtain ⟨k, hk, _, rfl, _⟩ := indent03_written h1
        obtain ⟨s5, _, h3, h4⟩ := preceded_some.1 h2
        obtain ⟨rfl, _⟩ := tag_some.1 h3
        obtain ⟨s6, _, h5, h6⟩ := terminated_some.1 h4
        have h6 := (tag_some.1 h6).1
        subst h6
        have hlab := recognize_append h5
        obtain ⟨lb, h7, _⟩ := recognize_some.1 h5
        have hloop : ∀ s r l, many0 (noneOf cs!"]") s = some (r, l) → ∃ w, s = w ++ r ∧ ']' ∉ w := by
          refine many0_induction ?_ ?_
          · intro s _; exact ⟨[], rfl, by simp⟩
          · intro s r a r' l hp _ _ ih
            obtain ⟨rfl, hc⟩ := satisfy_some.1 hp
            obtain ⟨w, rfl, h⟩ := ih
            refine ⟨a :: w, rfl, ?_⟩
            simp at hc
            simp [h, Ne.symm hc]
        obtain ⟨s7, a, l', h8, h9, _⟩ := many1_some.1 h7
        obtain ⟨h10, hc⟩ := satisfy_some.1 h8
        obtain ⟨wl, h11, h12⟩ := hloop _ _ _ h9
        have hlabel : label = a :: wl := List.append_cancel_right (by rw [hlab, h10, h11]; rfl)
        rw [← hlab] at *
        obtain ⟨s8, _, h13, h14⟩ := preceded_some.1 e2
        obtain ⟨j, hj, _, rfl, hj'⟩ := indent03_written h13
        obtain ⟨e, rfl, h16, h17⟩ := line1_written h14
        have hne : dropSpaces 3 (sp j ++ first) = first := by
          unfold sp
          rw [dropSpaces_replicate, if_pos hj]
          rcases hj' with rfl | hj'
          · simp [dropSpaces]
          · refine dropSpaces_head _ ?_
            cases first with
            | nil => exact absurd rfl h16
            | cons c t => simpa using hj'
        refine ⟨k, label, sp j ++ first, e, s2, hk, by rw [hlabel]; simp, ?_, ⟨?_, ?_, h17.ends⟩, by rw [hne]; exact h16,
          by simp⟩
        · rw [hlabel]
          simp at hc
          simp [h12, Ne.symm hc]
        · intro hm
          rcases List.mem_append.1 hm with hm | hm
          · simp [sp] at hm
          · exact h17.one hm
        · intro he hl
          rw [List.getLast?_append] at hl
          cases hf : first.getLast? with
          | none => simp at hf; exact h16 hf
          | some d => rw [hf] at hl; simp at hl; subst hl; exact h17.cr he hf
  · rintro ⟨k, label, l, e, r, hk, h1, h2, h3, h4, rfl⟩
    have e1 : preceded indent03 (preceded (tag cs!"[^")
        (terminated (recognize (many1 (noneOf cs!"]"))) (tag cs!"]:")))
        (sp k ++ (cs!"[^" ++ (label ++ (cs!"]:" ++ (l ++ (e ++ r)))))) = some (l ++ (e ++ r), label) := by
      refine preceded_some.2 ⟨_, _, indent03_replicate hk (by simp), ?_⟩
      refine preceded_some.2 ⟨label ++ (cs!"]:" ++ (l ++ (e ++ r))), cs!"[^", tag_append cs!"[^" _, ?_⟩
      refine terminated_some.2 ⟨_, cs!"]:", recognize_of (many1_of_many0 (l := label) ?_ h1),
        tag_append cs!"]:" _⟩
      refine many0_satisfy ?_ ?_
      · intro c hc
        simp
        rintro rfl; exact h2 hc
      · intro c hc; simp at hc; subst hc; rfl
    obtain ⟨p, hp, hp'⟩ := manyMN_spaces 3 l
    have hl : LineWritten (dropSpaces 3 l) e r := by
      refine ⟨fun hm => h3.one (by rw [← hp']; simp [hm]), fun he hl => ?_, h3.ends⟩
      refine h3.cr he ?_
      rw [← hp', List.getLast?_append, hl]
      rfl
    have e2 : preceded indent03 (lineTerminated notEofOrEol1) (l ++ (e ++ r)) = some (r, dropSpaces 3 l) := by
      obtain ⟨p, hp, _⟩ := manyMN_spaces 3 (l ++ (e ++ r))
      refine preceded_some.2 ⟨_, _, hp, ?_⟩
      rw [dropSpaces_append 3 h3.ends.head]
      exact terminated_some.2 ⟨_, _, notEofOrEol1_lineWritten h4 hl, hl.ends.eofOrEol⟩
    obtain ⟨r3, rest, e3⟩ := many0_ex (p := preceded (manyMN (chr ' ') 3 3) (lineTerminated notEofOrEol1)) r
    obtain ⟨r4, l4, e4⟩ := many0_ex (p := blockP x cfg) (itemContent (dropSpaces 3 l) (rest.map (fun l => [l])))
    unfold footnoteDefinitionP
    rw [e1]
    simp only [e2, e3, blocks0, e4]
    exact ⟨_, rfl⟩

/-! ## HTML -/

theorem until_ok {α β : Type} {stop : P α} {q : P β} [Suf stop] (hq : ∀ u, (∃ y, stop u = some y) → ∃ y, q u = some y)
    {a c : Str} (hc : c ≠ []) (hs : ∃ y, stop c = some y) : ∃ y, Nom.seq (until_ stop) q (a ++ c) = some y := by
  obtain ⟨r, l, h⟩ := many0_ex (p := preceded (notP stop) anychar) (a ++ c)
  have hu : until_ stop (a ++ c) = some (r, l) := h
  obtain ⟨h1, h2⟩ := untilLoop _ _ _ h
  obtain ⟨y, hy⟩ := hs
  have hr : r ≠ [] := by
    rintro rfl
    have := h2 a c (by simpa using h1.symm) hc
    rw [List.append_nil, hy] at this
    simp at this
  obtain ⟨z, hz⟩ := hq r (untilLoop_end h hr)
  exact ⟨(z.1, (l, z.2)), seq_some.2 ⟨r, hu, hz⟩⟩

theorem html_ind {α : Type} {p : P α} {k : Nat} {t : Str} (hk : k ≤ 3) (h : ∃ y, p ('<' :: t) = some y) :
    ∃ y, preceded indent03 (recognize p) (sp k ++ '<' :: t) = some y := by
  obtain ⟨⟨r, v⟩, h⟩ := h
  exact ⟨_, preceded_some.2 ⟨_, _, indent03_replicate hk (by simp), recognize_some.2 ⟨v, h, rfl⟩⟩⟩

theorem tail6_ok (u : Str) : ∃ y, Nom.seq (until_ blankLineOrEof) (opt lineEnding) u = some y := by
  obtain ⟨r, l, h⟩ := many0_ex (p := preceded (notP blankLineOrEof) anychar) u
  have hu : until_ blankLineOrEof u = some (r, l) := h
  cases e : lineEnding r with
  | none => exact ⟨(r, (l, none)), seq_some.2 ⟨r, hu, opt_some.2 (.inr ⟨e, rfl, rfl⟩)⟩⟩
  | some z => exact ⟨(z.1, (l, some z.2)), seq_some.2 ⟨r, hu, opt_some.2 (.inl ⟨z.2, e, rfl⟩)⟩⟩

theorem tail7_ok (u : Str) : ∃ y, Nom.seq (until_ blankLineOrEof) blankLineOrEof u = some y := by
  obtain ⟨r, l, h⟩ := many0_ex (p := preceded (notP blankLineOrEof) anychar) u
  have hu : until_ blankLineOrEof u = some (r, l) := h
  have : ∃ y, blankLineOrEof r = some y := by
    by_cases hr : r = []
    · subst hr; exact ⟨([], ()), by decide⟩
    · exact untilLoop_end h hr
  obtain ⟨z, hz⟩ := this
  exact ⟨(z.1, (l, z.2)), seq_some.2 ⟨r, hu, hz⟩⟩

theorem html_alt {s : Str} (h : (∃ y, htmlBlock1 s = some y) ∨ (∃ y, htmlBlock2 s = some y) ∨ (∃ y, htmlBlock3 s = some y) ∨
    (∃ y, htmlBlock4 s = some y) ∨ (∃ y, htmlBlock5 s = some y) ∨ (∃ y, htmlBlock6 s = some y) ∨
    (∃ y, htmlBlock7 s = some y)) : ∃ y, htmlBlockP s = some y := by
  cases e : htmlBlockP s with
  | some y => exact ⟨y, rfl⟩
  | none =>
    exfalso
    unfold htmlBlockP at e
    simp only [orElse_none] at e
    obtain ⟨h1, h2, h3, h4, h5, h6, h7⟩ := e
    simp [h1, h2, h3, h4, h5, h6, h7] at h

theorem anyTag_first {l : List Str} {s r v : Str} (h : anyTagNoCase l s = some (r, v)) :
    ∃ pre t post, l = pre ++ t :: post ∧ v.map asciiLower = t ∧ s = v ++ r ∧
      ∀ t' ∈ pre, ¬ t' <+: t := by
  induction l with
  | nil => simp [anyTagNoCase, failP] at h
  | cons t l ih =>
    unfold anyTagNoCase at h
    rcases orElse_some.1 h with h | ⟨hn, h⟩
    · obtain ⟨h1, rfl, rfl⟩ := tagNoCase_some.1 h
      exact ⟨[], t, l, rfl, h1.symm, (List.take_append_drop _ _).symm, by simp⟩
    · obtain ⟨pre, t', post, rfl, h1, h2, h3⟩ := ih h
      refine ⟨t :: pre, t', post, rfl, h1, h2, ?_⟩
      intro u hu
      rcases List.mem_cons.1 hu with rfl | hu
      · rintro ⟨z, hz⟩
        have : tagNoCase u s = some (s.drop u.length, s.take u.length) := by
          refine tagNoCase_some.2 ⟨?_, rfl, rfl⟩
          rw [h2]
          have hle : u.length ≤ v.length := by
            have := congrArg List.length h1
            rw [← hz] at this
            simp at this
            omega
          rw [List.take_append_of_le_length hle, List.map_take, h1, ← hz]
          simp
        rw [this] at hn
        simp at hn
      · exact h3 u hu

theorem html_of_at {s : Str} (h : HtmlAt s) : ∃ y, htmlBlockP s = some y := by
  obtain ⟨k, u, hk, hu, rfl⟩ := h
  refine html_alt ?_
  cases hu with
  | @raw name sep a close r h1 h2 h3 =>
    refine .inl (html_ind hk ?_)
    obtain ⟨c, t, hsep, g1, g2, g3⟩ := h2.shape
    obtain ⟨n, hn, hcl⟩ := h3
    have hend : ∃ y, html1End (close ++ r) = some y := by
      rw [hcl]; exact ⟨_, html1End_of hn⟩
    obtain ⟨y, hy⟩ := until_ok (stop := html1End) (q := html1End) (fun _ h => h) (a := a) (c := close ++ r)
      (by rw [hcl]; simp) hend
    have htag : html1Tag (name ++ (sep ++ (a ++ (close ++ r)))) = some (sep ++ (a ++ (close ++ r)), name) := by
      rw [hsep]; exact html1Tag_of g1 g2 h1
    exact ⟨(y.1, ('<', (name, ((), y.2)))), seq_some.2 ⟨_, chr_cons _ _, seq_some.2 ⟨_, htag, seq_some.2 ⟨_, g3 _, hy⟩⟩⟩⟩
  | @marked o c a r h1 =>
    cases h1 with
    | comment =>
      obtain ⟨y, hy⟩ := until_ok (stop := tag cs!"-->") (q := tag cs!"-->") (fun _ h => h) (a := a) (c := cs!"-->" ++ r)
        (by simp) ⟨_, tag_append _ _⟩
      exact .inr (.inl (html_ind hk ⟨(y.1, (cs!"<!--", y.2)), seq_some.2 ⟨_, tag_append cs!"<!--" (a ++ (cs!"-->" ++ r)), hy⟩⟩))
    | instruction =>
      obtain ⟨y, hy⟩ := until_ok (stop := tag cs!"?>") (q := tag cs!"?>") (fun _ h => h) (a := a) (c := cs!"?>" ++ r)
        (by simp) ⟨_, tag_append _ _⟩
      exact .inr (.inr (.inl (html_ind hk ⟨(y.1, (cs!"<?", y.2)), seq_some.2 ⟨_, tag_append cs!"<?" (a ++ (cs!"?>" ++ r)), hy⟩⟩)))
    | @declaration X hX =>
      obtain ⟨y, hy⟩ := until_ok (stop := chr '>') (q := tag cs!">") (fun u h => by
        obtain ⟨⟨r, c⟩, h⟩ := h
        obtain ⟨rfl, _⟩ := chr_some.1 h
        exact ⟨_, tag_append cs!">" r⟩) (a := a) (c := cs!">" ++ r) (by simp) ⟨_, chr_cons _ _⟩
      have hx : satisfy isAsciiUpper (X :: (a ++ (cs!">" ++ r))) = some (a ++ (cs!">" ++ r), X) := satisfy_some.2 ⟨rfl, hX⟩
      exact .inr (.inr (.inr (.inl (html_ind hk ⟨(y.1, (cs!"<!", (X, y.2))), seq_some.2 ⟨_,
        tag_append cs!"<!" (X :: (a ++ (cs!">" ++ r))), seq_some.2 ⟨_, hx, hy⟩⟩⟩))))
    | cdata =>
      obtain ⟨y, hy⟩ := until_ok (stop := tag cs!"]]>") (q := tag cs!"]]>") (fun _ h => h) (a := a) (c := cs!"]]>" ++ r)
        (by simp) ⟨_, tag_append _ _⟩
      exact .inr (.inr (.inr (.inr (.inl (html_ind hk ⟨(y.1, (cs!"<![CDATA[", y.2)), seq_some.2 ⟨_, tag_append cs!"<![CDATA[" (a ++ (cs!"]]>" ++ r)), hy⟩⟩)))))
  | @block o name sep r h1 h2 h3 h4 =>
    refine .inr (.inr (.inr (.inr (.inr (.inl ?_)))))
    obtain ⟨y, hy⟩ := tail6_ok r
    have hsep : ∃ c t, sep = c :: t ∧ c ∈ afterTag ∧ (value () (chr ' ') <||> value () lineEnding <||> value () (tag cs!"/>") <||>
          value () (chr '>')) (sep ++ r) = some (r, ()) := by
      rcases h4 with rfl | rfl | rfl | rfl | rfl
      · exact ⟨_, _, rfl, by decide, rfl⟩
      · exact ⟨_, _, rfl, by decide, rfl⟩
      · refine ⟨_, _, rfl, by decide, ?_⟩
        rw [orElse_of_none (by rfl), orElse_of_none (by rfl)]
        exact orElse_of_some (value_some.2 ⟨_, tag_append cs!"/>" _, rfl⟩)
      · exact ⟨_, _, rfl, by decide, rfl⟩
      · exact ⟨_, _, rfl, by decide, rfl⟩
    obtain ⟨c, t, hct, hc, hsep⟩ := hsep
    have htag : anyTagNoCase html6Names (name ++ (sep ++ r)) = some (sep ++ r, name) := by
      rw [hct]; exact anyTagNoCase_of hc (fun t ht => ht) (blockTags_html6Names _ h2) h3
    have hopen : (value () (tag cs!"</") <||> value () (chr '<')) (o ++ (name ++ (sep ++ r))) = some (name ++ (sep ++ r), ()) := by
      rcases h1 with rfl | rfl
      · rw [orElse_of_none]
        · exact value_some.2 ⟨_, chr_cons _ _, rfl⟩
        · rw [value_none, tag_none]
          rintro ⟨z, hz⟩
          simp at hz
          cases name with
          | nil =>
            simp at h2
            revert h2; decide
          | cons d name =>
            simp at hz
            rw [← hz.1] at h2
            have : asciiLower '/' = '/' := by decide
            simp only [List.map_cons, this] at h2
            have hall : ∀ t ∈ blockTags, t.head? ≠ some '/' := by decide
            exact hall _ h2 rfl
      · exact orElse_of_some (value_some.2 ⟨_, tag_append cs!"</" _, rfl⟩)
    have key : ∃ y, Nom.seq (value () (tag cs!"</") <||> value () (chr '<'))
        (Nom.seq (anyTagNoCase html6Names)
          (Nom.seq (value () (chr ' ') <||> value () lineEnding <||> value () (tag cs!"/>") <||> value () (chr '>'))
            (Nom.seq (until_ blankLineOrEof) (opt lineEnding)))) (o ++ (name ++ (sep ++ r))) = some y :=
      ⟨(y.1, ((), (name, ((), y.2)))), seq_some.2 ⟨_, hopen, seq_some.2 ⟨_, htag, seq_some.2 ⟨_, hsep, hy⟩⟩⟩⟩
    rcases h1 with rfl | rfl <;> exact html_ind hk key
  | @tag name t sep r h1 h2 =>
    refine .inr (.inr (.inr (.inr (.inr (.inr ?_)))))
    obtain ⟨y, hy⟩ := tail7_ok r
    have hsep : (value () lineEnding <||> value () (chr ' ')) (sep ++ r) = some (r, ()) := by
      rcases h2 with rfl | rfl | rfl <;> rfl
    have key : ∃ y, Nom.seq (completeOpenHtmlTag [cs!"script", cs!"pre", cs!"style"] <||> completeClosingHtmlTag)
        (Nom.seq (value () lineEnding <||> value () (chr ' '))
          (Nom.seq (until_ blankLineOrEof) blankLineOrEof)) (t ++ (sep ++ r)) = some y :=
      ⟨(y.1, (t, ((), y.2))), seq_some.2 ⟨_, h1.parse _, seq_some.2 ⟨_, hsep, hy⟩⟩⟩
    obtain ⟨_, lt, c, u, hs, _, hlt⟩ := h1.shape
    have : ∃ t', t = '<' :: t' := by
      rcases hlt with ⟨rfl, _⟩ | rfl <;> exact ⟨_, hs⟩
    obtain ⟨t', rfl⟩ := this
    exact html_ind hk key

theorem html_startKind {α : Type} {p : P α} (h : Writes p (fun _ w r => HtmlStart (w ++ r))) {s : Str} {y}
    (hp : preceded indent03 (recognize p) s = some y) : HtmlAt s := by
  obtain ⟨r, t⟩ := y
  obtain ⟨s1, _, h1, h2⟩ := preceded_some.1 hp
  obtain ⟨k, hk, _, rfl, _⟩ := indent03_written h1
  obtain ⟨v, h3, _⟩ := recognize_some.1 h2
  obtain ⟨w, rfl, h4⟩ := h _ _ _ h3
  exact ⟨k, _, hk, h4, rfl⟩

theorem startMarked {c : Str} {α β : Type} {p : P α} {stop : P β}
    (hp : Writes p (fun _ w _ => ∃ o, HtmlMarkers o c ∧ w = o)) :
    Writes (Nom.seq p (Nom.seq (until_ stop) (tag c))) (fun _ w r => HtmlStart (w ++ r)) := by
  refine (Writes.seq hp (Writes.seq until_writes tag_writes)).mono ?_
  rintro y w r ⟨w1, w2, rfl, ⟨o, ho, rfl⟩, w3, w4, rfl, ⟨_, h1, _⟩, rfl⟩
  have := HtmlStart.marked (a := w3) (r := r) ho
  simpa using this

theorem html_at {s : Str} {y} (h : htmlBlockP s = some y) : HtmlAt s := by
  unfold htmlBlockP at h
  simp only [orElse_some] at h
  rcases h with h | ⟨_, h | ⟨_, h | ⟨_, h | ⟨_, h | ⟨_, h | ⟨_, h⟩⟩⟩⟩⟩⟩
  · refine html_startKind ?_ h
    have hsep : Writes (value () (chr ' ') <||> value () (chr '>') <||> value () lineEnding) (fun _ w _ => RawSep w) :=
      .orElse (.unit (chr_writes.mono fun _ _ _ h => .inl h)) (.orElse (.unit (chr_writes.mono fun _ _ _ h => .inr (.inl h)))
        (.unit (lineEnding_writes.mono fun _ _ _ h => .inr (.inr h))))
    refine (Writes.seq chr_writes (Writes.seq html1Tag_writes (Writes.seq hsep (Writes.seq until_writes
      html1End_writes)))).mono ?_
    rintro y w r ⟨w1, w2, rfl, rfl, w3, w4, rfl, h1, w5, w6, rfl, h2, w7, w8, rfl, ⟨_, h3, _⟩, h4⟩
    have := HtmlStart.raw (a := w7) (r := r) h1 h2 h4
    simpa using this
  · exact html_startKind (startMarked (tag_writes.mono fun _ _ _ h => ⟨_, .comment, h⟩)) h
  · exact html_startKind (startMarked (tag_writes.mono fun _ _ _ h => ⟨_, .instruction, h⟩)) h
  · refine html_startKind ((Writes.seq tag_writes (Writes.seq (p := satisfy isAsciiUpper)
      (E := fun _ w _ => ∃ X, isAsciiUpper X = true ∧ w = [X]) ?_ (Writes.seq until_writes tag_writes))).mono ?_) h
    · intro s r a h
      obtain ⟨rfl, h'⟩ := satisfy_some.1 h
      exact ⟨[a], rfl, a, h', rfl⟩
    · rintro y w r ⟨w1, w2, rfl, rfl, w3, w4, rfl, ⟨X, hX, rfl⟩, w5, w6, rfl, ⟨_, h1, _⟩, rfl⟩
      have := HtmlStart.marked (a := w5) (r := r) (HtmlMarkers.declaration hX)
      simpa using this
  · exact html_startKind (startMarked (tag_writes.mono fun _ _ _ h => ⟨_, .cdata, h⟩)) h
  · have hname : Writes (anyTagNoCase html6Names) (fun _ w _ => w.map asciiLower ∈ blockTags ∧ Unshadowed (w.map asciiLower)) := by
      intro s r v h
      obtain ⟨pre, t, post, h1, h2, h3, h4⟩ := anyTag_first h
      refine ⟨v, h3, ?_, ?_⟩
      · show List.map asciiLower v ∈ blockTags
        rw [h2]
        exact html6Names_blockTags t (by rw [h1]; simp)
      · show Unshadowed (List.map asciiLower v)
        rw [h2]
        refine Classical.byContradiction fun hs => ?_
        obtain ⟨t', ht', hp⟩ := html6Names_shadow _ _ _ h1 hs
        exact h4 t' ht' hp
    have hopen : Writes (value () (tag cs!"</") <||> value () (chr '<')) (fun _ w _ => w = cs!"<" ∨ w = cs!"</") :=
      .orElse (.unit (tag_writes.mono fun _ _ _ h => .inr h)) (.unit (chr_writes.mono fun _ _ _ h => .inl h))
    have hsep : Writes (value () (chr ' ') <||> value () lineEnding <||> value () (tag cs!"/>") <||> value () (chr '>'))
        (fun _ w _ => w = [' '] ∨ w = ['>'] ∨ w = cs!"/>" ∨ IsNewline w) :=
      .orElse (.unit (chr_writes.mono fun _ _ _ h => .inl h)) (.orElse (.unit (lineEnding_writes.mono fun _ _ _ h => .inr (.inr (.inr h))))
        (.orElse (.unit (tag_writes.mono fun _ _ _ h => .inr (.inr (.inl h)))) (.unit (chr_writes.mono fun _ _ _ h => .inr (.inl h)))))
    refine html_startKind ((Writes.seq hopen (Writes.seq hname (Writes.seq hsep
      (Writes.seq until_writes lineEnding_writes.opt)))).mono ?_) h
    rintro y w r ⟨w1, w2, rfl, h1, w3, w4, rfl, h2, w5, w6, rfl, h3, w7, w8, rfl, ⟨_, h4, h5⟩, h6⟩
    have := HtmlStart.block (r := w7 ++ (w8 ++ r)) h1 h2.1 h2.2 h3
    simpa using this
  · have hsep : Writes (value () lineEnding <||> value () (chr ' ')) (fun _ w _ => w = [' '] ∨ IsNewline w) :=
      .orElse (.unit (lineEnding_writes.mono fun _ _ _ h => .inr h)) (.unit (chr_writes.mono fun _ _ _ h => .inl h))
    refine html_startKind ((Writes.seq completeTag_writes (Writes.seq hsep (Writes.seq until_writes
      blankLineOrEof_writes))).mono ?_) h
    rintro y w r ⟨w1, w2, rfl, ⟨_, n, h1⟩, w3, w4, rfl, h2, w5, w6, rfl, ⟨_, h3, _⟩, h4⟩
    have := HtmlStart.tag (r := w5 ++ (w6 ++ r)) h1 h2
    simpa using this

theorem html_iff {s : Str} : (∃ y, htmlBlockP s = some y) ↔ HtmlAt s :=
  ⟨fun ⟨_, h⟩ => html_at h, html_of_at⟩

end

end Verif
