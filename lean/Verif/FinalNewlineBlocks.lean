import Verif.FinalNewline
import Verif.ConcatProps
/-!
# The block parsers on a text and on the text followed by a newline (C83)
-/
set_option autoImplicit false
set_option linter.unusedVariables false
set_option linter.unusedSimpArgs false
namespace Verif.Final
open Nom

section
variable {α β γ : Type} {D D' D'' : Str → Prop} {p : P α} {q : P β} {p3 : P γ}
variable {x : PExt} {cfg : PConfig} {rec : P (List Block)}

theorem into_of_endsLine (h : EndsLine p) : Into K p L := by
  intro s r a hs e
  rcases h s r a e with rfl | ⟨w, rfl⟩
  · exact .nil
  · exact (hs.suffix (List.suffix_append _ _)).line

/-- One parser after another, the second depending on what the first has read. -/
theorem ends_bind {k : α → P β} {f : P β} (hp : Ends D p) (h : Into D p D')
    (hf : f = fun s => match p s with | none => none | some (r, a) => k a r)
    (hk : ∀ s r a, p s = some (r, a) → Ends D' (k a)) (hs : ∀ s r a, p s = some (r, a) → Suf (k a)) : Ends D f := by
  subst hf
  intro s hd
  simp only
  rcases hp s hd with e | ⟨a, e1, e2⟩
  · rw [e]
    cases e1 : p s with
    | none => exact .inl rfl
    | some y =>
      obtain ⟨r, a⟩ := y
      simp only [Option.map_some]
      exact hk _ _ _ e1 r (h _ _ _ hd e1)
  · rw [e1, e2]
    simp only
    have := hs _ _ _ e1
    cases e3 : k a [] with
    | none => exact .inl rfl
    | some y =>
      obtain ⟨r', b⟩ := y
      obtain rfl := suf_nil e3
      exact .inr ⟨_, rfl, rfl⟩

/-- Both runs agree on what is read, not on what is left. -/
theorem Ends.val (h : Ends D p) {s : Str} (hs : D s) : (p (s ++ u)).map Prod.snd = (p s).map Prod.snd := by
  rcases h s hs with e | ⟨a, e1, e2⟩
  · rw [e]; cases p s <;> rfl
  · rw [e1, e2]

/-! ## Parsers that may run over the newline, but then fail -/

/-- On the texts in `D` the parser does not see the newline, or reads to the end both times. -/
def Loose (D : Str → Prop) (p : P α) : Prop :=
  ∀ s, D s → p (s ++ u) = (p s).map (fun y => (y.1 ++ u, y.2)) ∨
    ((∀ y, p s = some y → y.1 = []) ∧ ∀ y, p (s ++ u) = some y → y.1 = [])

theorem loose_of_stays (h : StaysOn D u p) : Loose D p := fun s hs => .inl (h s hs)

theorem loose_seq_stays (hp : Loose D p) (h : Into D p D') (hq : StaysOn D' u q) (h0 : q [] = none) :
    StaysOn D u (seq p q) := by
  intro s hs
  unfold seq
  rcases hp s hs with e | ⟨e1, e2⟩
  · rw [e]
    cases e1 : p s with
    | none => rfl
    | some y =>
      obtain ⟨r, a⟩ := y
      simp only [Option.map_some]
      rw [hq r (h _ _ _ hs e1)]
      cases q r <;> rfl
  · have h1 : ∀ o : Option (Str × α), (∀ y, o = some y → y.1 = []) →
        (match o with | none => none | some (r, a) => match q r with | none => none | some (r', b) => some (r', (a, b))) =
          (none : Option (Str × (α × β))) := by
      intro o ho
      cases o with
      | none => rfl
      | some y =>
        obtain ⟨r, a⟩ := y
        have : r = [] := ho _ rfl
        subst this
        simp [h0]
    have a1 := h1 _ e1
    have a2 := h1 _ e2
    revert a1 a2
    cases p s with
    | none =>
      cases p (s ++ u) with
      | none => simp
      | some z => cases hq2 : q z.1 <;> simp [hq2]
    | some y =>
      cases p (s ++ u) with
      | none => cases hq1 : q y.1 <;> simp [hq1]
      | some z => cases hq1 : q y.1 <;> cases hq2 : q z.1 <;> simp [hq1, hq2]

theorem loose_terminated (hp : Loose D p) (h : Into D p D') (hq : StaysOn D' u q) (h0 : q [] = none) :
    StaysOn D u (terminated p q) := stays_mapP (loose_seq_stays hp h hq h0)

theorem loose_preceded (hp : Loose D p) (h : Into D p D') (hq : StaysOn D' u q) (h0 : q [] = none) :
    StaysOn D u (preceded p q) := by
  rw [preceded_seq]
  exact stays_mapP (loose_seq_stays hp h hq h0)

theorem loose_mapOpt {k : α → Option γ} (hp : Loose D p) : Loose D (mapOpt p k) := by
  intro s hs
  rcases hp s hs with e | ⟨e1, e2⟩
  · left
    unfold mapOpt
    rw [e]
    cases p s with
    | none => rfl
    | some y => simp only [Option.map_some]; cases k y.2 <;> rfl
  · right
    refine ⟨fun y h => ?_, fun y h => ?_⟩
    · obtain ⟨r, a⟩ := y
      obtain ⟨b, h1, _⟩ := mapOpt_some.1 h
      exact e1 _ h1
    · obtain ⟨r, a⟩ := y
      obtain ⟨b, h1, _⟩ := mapOpt_some.1 h
      exact e2 _ h1

theorem loose_verify {k : α → Bool} (hp : Loose D p) : Loose D (verify p k) := by
  intro s hs
  rcases hp s hs with e | ⟨e1, e2⟩
  · left
    unfold verify
    rw [e]
    cases p s with
    | none => rfl
    | some y => simp only [Option.map_some]; split <;> rfl
  · right
    refine ⟨fun y h => ?_, fun y h => ?_⟩
    · obtain ⟨r, a⟩ := y
      exact e1 _ (verify_some.1 h).1
    · obtain ⟨r, a⟩ := y
      exact e2 _ (verify_some.1 h).1

theorem recognize_rest {s : Str} {y : Str × Str} (h : recognize p s = some y) : ∃ z, p s = some z ∧ z.1 = y.1 := by
  unfold recognize at h
  split at h
  · rename_i r a e
    simp at h
    subst h
    exact ⟨_, e, rfl⟩
  · simp at h

theorem loose_recognize [Suf p] (hp : Loose D p) : Loose D (recognize p) := by
  intro s hs
  rcases hp s hs with e | ⟨e1, e2⟩
  · left
    exact stays_recognize (D := fun v => v = s) (fun v hv => by subst hv; exact e) s rfl
  · right
    refine ⟨fun y h => ?_, fun y h => ?_⟩
    · obtain ⟨z, h1, h2⟩ := recognize_rest h
      rw [← h2]; exact e1 _ h1
    · obtain ⟨z, h1, h2⟩ := recognize_rest h
      rw [← h2]; exact e2 _ h1

theorem loose_seq [Suf q] (hp : Loose D p) (h : Into D p D') (hq : Loose D' q) : Loose D (seq p q) := by
  intro s hs
  rcases hp s hs with e | ⟨e1, e2⟩
  · cases e3 : p s with
    | none => left; unfold seq; rw [e, e3]; rfl
    | some y =>
      obtain ⟨r, a⟩ := y
      rcases hq r (h _ _ _ hs e3) with e' | ⟨e4, e5⟩
      · left
        unfold seq
        rw [e, e3]
        simp only [Option.map_some]
        rw [e']
        cases q r <;> rfl
      · right
        rw [e3] at e
        refine ⟨fun z hz => ?_, fun z hz => ?_⟩
        · obtain ⟨z1, z2, z3⟩ := z
          obtain ⟨r1, h1, h2⟩ := seq_some.1 hz
          rw [e3] at h1
          simp at h1
          obtain ⟨rfl, _⟩ := h1
          exact e4 _ h2
        · obtain ⟨z1, z2, z3⟩ := z
          obtain ⟨r1, h1, h2⟩ := seq_some.1 hz
          rw [e] at h1
          simp at h1
          obtain ⟨rfl, _⟩ := h1
          exact e5 _ h2
  · right
    refine ⟨fun z hz => ?_, fun z hz => ?_⟩
    · obtain ⟨z1, z2, z3⟩ := z
      obtain ⟨r1, h1, h2⟩ := seq_some.1 hz
      have := e1 _ h1
      simp only at this
      subst this
      exact suf_nil h2
    · obtain ⟨z1, z2, z3⟩ := z
      obtain ⟨r1, h1, h2⟩ := seq_some.1 hz
      have := e2 _ h1
      simp only at this
      subst this
      exact suf_nil h2

/-- A loop over parsers that read one character at a time. -/
theorem loose_many0 [Con p] (hp : ∀ s, s ≠ [] → D s → p (s ++ u) = (p s).map fun y => (y.1 ++ u, y.2))
    (h : Into D p D) (h0 : p [] = none) (hu : ∀ y, p u = some y → y.1 = []) : Loose D (many0 p) := by
  intro s
  induction hn : s.length using Nat.strongRecOn generalizing s with
  | _ n ih =>
  intro hs
  by_cases hne : s = []
  · subst hne
    cases e : p u with
    | none =>
      left
      rw [List.nil_append, many0_of_none h0, many0_of_none e]
      rfl
    | some y =>
      right
      refine ⟨fun z hz => many0_nil_of hz, fun z hz => ?_⟩
      obtain ⟨r, a⟩ := y
      have := hu _ e
      simp only at this
      subst this
      rw [List.nil_append, many0_of_some e (by simp) (many0_of_none h0)] at hz
      simp at hz
      rw [← hz]
  · rw [many0_eq, many0_eq, hp s hne hs]
    cases e : p s with
    | none => exact .inl rfl
    | some y =>
      obtain ⟨r, a⟩ := y
      have hl : r.length < s.length := Con.lt e
      simp only [Option.map_some, List.length_append]
      rw [if_pos hl, if_pos (by omega)]
      rcases ih r.length (by omega) r rfl (h _ _ _ hs e) with e' | ⟨e1, e2⟩
      · rw [e']; left; cases many0 p r <;> rfl
      · right
        constructor
        · intro y hy
          cases e3 : many0 p r with
          | none => rw [e3] at hy; simp at hy
          | some z =>
            rw [e3] at hy
            simp at hy
            rw [← hy]
            exact (e1 z e3 : z.1 = [])
        · intro y hy
          cases e3 : many0 p (r ++ u) with
          | none => rw [e3] at hy; simp at hy
          | some z =>
            rw [e3] at hy
            simp at hy
            rw [← hy]
            exact (e2 z e3 : z.1 = [])

theorem many1_seq : many1 p = mapP (seq p (many0 p)) (fun y => y.1 :: y.2) := by
  funext s
  simp only [many1, seq, mapP]
  cases p s with
  | none => rfl
  | some y => simp only; cases many0 p y.1 <;> rfl

theorem loose_mapP {k : α → γ} (hp : Loose D p) : Loose D (mapP p k) := by
  intro s hs
  rcases hp s hs with e | ⟨e1, e2⟩
  · left
    unfold mapP
    rw [e]
    cases p s <;> rfl
  · right
    refine ⟨fun y h => ?_, fun y h => ?_⟩
    · obtain ⟨r, a⟩ := y
      obtain ⟨b, h1, _⟩ := mapP_some.1 h
      exact e1 _ h1
    · obtain ⟨r, a⟩ := y
      obtain ⟨b, h1, _⟩ := mapP_some.1 h
      exact e2 _ h1

theorem loose_many1 [Con p] (hp : ∀ s, s ≠ [] → D s → p (s ++ u) = (p s).map fun y => (y.1 ++ u, y.2))
    (h : Into D p D) (h0 : p [] = none) (hu : ∀ y, p u = some y → y.1 = []) : Loose D (many1 p) := by
  rw [many1_seq]
  refine loose_mapP (loose_seq (D' := D) ?_ h (loose_many0 hp h h0 hu))
  intro s hs
  by_cases hne : s = []
  · subst hne
    right
    refine ⟨fun y hy => ?_, hu⟩
    rw [h0] at hy
    simp at hy
  · exact .inl (hp s hne hs)

/-! ## Code blocks, headings, breaks -/

theorem ends_fenced : Ends K codeBlockFenced := by
  have h0 : Ends K (seq indent03 openingFence) :=
    ends_seq (D' := K) (ends_of_stays stays_indent03) into_k ends_openingFence
  refine ends_bind (D' := K) (k := fun a => mapP (terminated (fencedLines a.2.1 a.1.length) (endingFence a.2.1))
    (fun lines => .codeBlock (.fenced a.2.2) (joinWith ['\n'] lines))) h0 into_k ?_ ?_ ?_
  · funext s
    simp only [codeBlockFenced, mapP]
    cases seq indent03 openingFence s with
    | none => rfl
    | some y =>
      obtain ⟨s1, sp, fence, info⟩ := y
      simp only
      cases terminated (fencedLines fence sp.length) (endingFence fence) s1 <;> rfl
  · intro s r ⟨sp, fence, info⟩ e
    obtain ⟨s0, _, h3⟩ := seq_some.1 e
    have hf : '\n' ∉ fence := (openingFence_marks h3).2
    have hne : fence ≠ [] := by
      obtain ⟨f, n, _, _, hn, rfl, _⟩ := openingFence_some h3
      intro e
      have := congrArg List.length e
      simp at this; omega
    have hfe := ends_endingFence hf hne
    have h1 : Ends K (preceded (notP (endingFence fence)) (preceded (manyMN (chr ' ') 0 sp.length) (lineTerminated notEofOrEol0))) :=
      ends_preceded (D' := K) (ends_of_stays (stays_value (stays_notP hfe.agrees))) (into_notP fun _ h => h)
        (ends_preceded (D' := K) (ends_of_stays (stays_value (stays_spaces _ _))) into_k ends_line0)
    have dead : ∀ v : Str, v = [] ∨ v = u → endingFence fence v = none := by
      intro v hv
      obtain ⟨c, f, rfl⟩ := List.exists_cons_of_ne_nil hne
      have hc : c ≠ '\n' := fun e => hf (by simp [e])
      rcases hv with rfl | rfl
      · rfl
      · simp [endingFence, lineTerminated, terminated, mapP, seq, value, indent03, manyMN, chr, satisfy, tag, hc]
    have dead0 : many0 (preceded (notP (endingFence fence)) (preceded (manyMN (chr ' ') 0 sp.length) (lineTerminated notEofOrEol0))) [] = none := by
      rw [many0_eq]
      have : preceded (notP (endingFence fence)) (preceded (manyMN (chr ' ') 0 sp.length) (lineTerminated notEofOrEol0)) [] = some ([], []) := by
        have h2 : manyMN (chr ' ') 0 sp.length [] = some ([], []) := by
          cases sp.length <;> rfl
        simp only [preceded, notP, dead [] (.inl rfl), h2]
        rfl
      rw [this]
      simp
    have dead1 : many0 (preceded (notP (endingFence fence)) (preceded (manyMN (chr ' ') 0 sp.length) (lineTerminated notEofOrEol0))) u = none := by
      rw [many0_eq]
      have : preceded (notP (endingFence fence)) (preceded (manyMN (chr ' ') 0 sp.length) (lineTerminated notEofOrEol0)) u = some ([], []) := by
        have h2 : manyMN (chr ' ') 0 sp.length u = some (u, []) := by
          cases sp.length <;> rfl
        simp only [preceded, notP, dead u (.inr rfl), h2]
        rfl
      rw [this]
      simp [dead0]
    refine ends_mapP (ends_terminated (D' := K) (ends_of_stays ?_) into_k (ends_value hfe))
    exact stays_many0_dead h1 into_k dead0 dead1
  · intro s r a e
    infer_instance

theorem ends_headingV1 : Ends K (headingV1 x cfg) := by
  have : headingV1 x cfg = mapOpt (seq (manyMN (chr '#') 1 6)
      (preceded (if cfg.allowNoSpaceInHeadings then space0 else space1) (lineTerminated notEofOrEol1)))
      (fun y => (parseInlines0 x cfg y.2).map fun l => .heading (.atx y.1.length) l) := by
    funext s
    simp only [headingV1, mapOpt]
    cases seq (manyMN (chr '#') 1 6) (preceded (if cfg.allowNoSpaceInHeadings then space0 else space1)
        (lineTerminated notEofOrEol1)) s with
    | none => rfl
    | some y =>
      obtain ⟨r, h, c⟩ := y
      simp only
      cases parseInlines0 x cfg c <;> rfl
  rw [this]
  have hs : StaysOn K u (if cfg.allowNoSpaceInHeadings then space0 else space1) := by
    split
    · exact stays_space0
    · exact stays_space1
  have hi : Suf (if cfg.allowNoSpaceInHeadings then space0 else space1) := by split <;> infer_instance
  exact ends_mapOpt (ends_seq (D' := K) (ends_of_stays (ends_chrs (by decide) _ _)) into_k
    (ends_preceded (D' := K) (ends_of_stays (stays_value hs)) into_k ends_line1))

theorem ends_underline : Ends K headingV2Level := by
  unfold headingV2Level
  refine ends_lineTerminated (ends_of_stays ?_) into_k
  exact stays_preceded (D' := K) stays_indent03 into_k (stays_terminated (D' := K)
    (stays_orElse (stays_value (stays_chrs1 (by decide))) (stays_value (stays_chrs1 (by decide)))) into_k stays_space0)

theorem ends_thematic : Ends K thematicBreakP := by
  unfold thematicBreakP
  refine ends_value (ends_lineTerminated (ends_of_stays ?_) into_k)
  exact stays_preceded (D' := K) stays_indent03 into_k (stays_terminated (D' := K)
    (stays_orElse (stays_chrsMin (by decide) _) (stays_orElse (stays_chrsMin (by decide) _) (stays_chrsMin (by decide) _)))
    into_k stays_space0)

/-! ## Quotes -/

theorem stays_prefix : StaysOn K u quotePrefix := stays_preceded (D' := K) stays_indent03 into_k (stays_chr (by decide))

theorem ends_quoteLines : Ends K quoteLines :=
  ends_many1 (ends_preceded (D' := K) (ends_of_stays (stays_value stays_prefix)) into_k ends_line0) into_k

theorem ends_blockquote : Ends K (blockquoteP rec) := ends_mapOpt ends_quoteLines

theorem ends_alert : Ends K (githubAlertP x rec) := by
  have h1 : Ends K (preceded (seq quotePrefix (opt (chr ' '))) (lineTerminated notEofOrEol0)) :=
    ends_preceded (D' := K) (ends_of_stays (stays_value (stays_seq (D' := K) stays_prefix into_k
      (stays_opt (stays_chr (by decide)))))) into_k ends_line0
  intro s hs
  have hv := h1.val hs
  unfold githubAlertP
  cases e1 : preceded (seq quotePrefix (opt (chr ' '))) (lineTerminated notEofOrEol0) s with
  | none =>
    rw [e1] at hv
    cases e2 : preceded (seq quotePrefix (opt (chr ' '))) (lineTerminated notEofOrEol0) (s ++ u) with
    | none => exact .inl rfl
    | some z => rw [e2] at hv; simp at hv
  | some y =>
    rw [e1] at hv
    cases e2 : preceded (seq quotePrefix (opt (chr ' '))) (lineTerminated notEofOrEol0) (s ++ u) with
    | none => rw [e2] at hv; simp at hv
    | some z =>
      rw [e2] at hv
      obtain ⟨r1, a⟩ := y
      obtain ⟨r2, b⟩ := z
      simp at hv
      subst hv
      simp only
      cases parseAlertMarker x (trim b) with
      | none => exact .inl rfl
      | some t =>
        simp only
        have := ends_mapOpt (k := fun lines => if (joinWith ['\n'] (lines.drop 1)).isEmpty then some [.githubAlert t []]
          else (blocks1 rec (joinWith ['\n'] (lines.drop 1))).map fun bs => [Block.githubAlert t bs]) ends_quoteLines s hs
        have key : ∀ v : Str, mapOpt quoteLines (fun lines => if (joinWith ['\n'] (lines.drop 1)).isEmpty then some [.githubAlert t []]
          else (blocks1 rec (joinWith ['\n'] (lines.drop 1))).map fun bs => [Block.githubAlert t bs]) v =
            match quoteLines v with
            | none => none
            | some (r, lines) =>
              if (joinWith ['\n'] (lines.drop 1)).isEmpty then some (r, [.githubAlert t []])
              else match blocks1 rec (joinWith ['\n'] (lines.drop 1)) with
                | some bs => some (r, [.githubAlert t bs])
                | none => none := by
          intro v
          unfold mapOpt
          cases quoteLines v with
          | none => rfl
          | some y =>
            obtain ⟨r, lines⟩ := y
            simp only
            split <;> split at * <;> simp_all
            all_goals (cases e : blocks1 rec (joinWith ['\n'] (lines.drop 1)) <;> simp_all)
        rw [key, key] at this
        exact this

/-! ## Lists -/

theorem stays_number : StaysOn K u u64P := by
  have h : StaysOn K u digit1 := stays_takeWhile1 (by decide)
  intro s hs
  unfold u64P
  rw [h s hs]
  cases digit1 s with
  | none => rfl
  | some y => simp only [Option.map_some]; split <;> rfl

theorem stays_orderedMark : StaysOn K u listMarkerOrdered :=
  stays_mapP (stays_terminated (D' := K) stays_number into_k (stays_oneOf (by decide)))

theorem stays_mark : StaysOn K u listMarker :=
  stays_orElse stays_orderedMark (stays_orElse (stays_value (stays_chr (by decide)))
    (stays_orElse (stays_value (stays_chr (by decide))) (stays_value (stays_chr (by decide)))))

theorem stays_sameMark (k : ListKind) : StaysOn K u (sameKindMarker k) := by
  unfold sameKindMarker
  split
  · exact stays_orderedMark
  · exact stays_value (stays_chr (by decide))
  · exact stays_value (stays_chr (by decide))
  · exact stays_value (stays_chr (by decide))

theorem stays_taskMark : StaysOn K u listItemTaskState :=
  stays_delimited (D' := K) (D3 := K) (stays_chr (by decide)) into_k
    (stays_orElse (stays_value (stays_oneOf (by decide))) (stays_value (stays_chr (by decide)))) into_k (stays_chr (by decide))

theorem stays_bySpacesMark : StaysOn K u listMarkerFollowedBySpaces := by
  have h : StaysOn K u (delimited indent03 listMarker (manyMN (chr ' ') 1 4)) :=
    stays_delimited (D' := K) (D3 := K) stays_indent03 into_k stays_mark into_k (stays_spaces _ _)
  intro s hs
  unfold listMarkerFollowedBySpaces
  rw [h s hs]
  cases e : delimited indent03 listMarker (manyMN (chr ' ') 1 4) s with
  | none => rfl
  | some y =>
    obtain ⟨r, kind⟩ := y
    have hr : r <:+ s := Suf.out _ _ _ e
    simp only [Option.map_some, List.length_append]
    have hk : s.length + u.length - (r.length + u.length) = s.length - r.length := by omega
    rw [hk]
    exact stays_mapP (stays_opt (stays_terminated (D' := K) stays_taskMark into_k (stays_chr (by decide)))) r (hs.suffix hr)

theorem ends_blank : Ends K (lineTerminated space0) := ends_lineTerminated (ends_of_stays stays_space0) into_k

theorem ends_byNewline : Ends K listMarkerFollowedByNewline := by
  have h : StaysOn K u (preceded indent03 listMarker) := stays_preceded (D' := K) stays_indent03 into_k stays_mark
  intro s hs
  unfold listMarkerFollowedByNewline
  rw [h s hs]
  cases e : preceded indent03 listMarker s with
  | none => exact .inl rfl
  | some y =>
    obtain ⟨r, kind⟩ := y
    have hr : r <:+ s := Suf.out _ _ _ e
    have hkr := hs.suffix hr
    simp only [Option.map_some, List.length_append]
    have hk : s.length + u.length - (r.length + u.length) = s.length - r.length := by omega
    rw [hk]
    rcases ends_blank r hkr with e1 | ⟨a, e1, e2⟩
    · rw [e1]
      cases e2 : lineTerminated space0 r with
      | some z => exact .inl rfl
      | none =>
        simp only [Option.map_none]
        have h2 : StaysOn K u indent03 := stays_indent03
        rw [h2 r hkr]
        cases e3 : indent03 r with
        | none => exact .inl rfl
        | some w =>
          obtain ⟨r2, sp⟩ := w
          have hr2 : r2 <:+ r := Suf.out _ _ _ e3
          simp only [Option.map_some, List.length_append]
          have hk2 : s.length + u.length - (r2.length + u.length) = s.length - r2.length := by omega
          rw [hk2]
          exact ends_mapP (ends_lineTerminated (ends_of_stays stays_taskMark) into_k) r2 (hkr.suffix hr2)
    · rw [e1, e2]
      exact .inr ⟨_, rfl, rfl⟩

theorem ends_withSpan : Ends K listMarkerWithSpanSize :=
  ends_orElse (ends_mapP ends_byNewline)
    (ends_mapP (ends_seq (D' := K) (ends_of_stays stays_bySpacesMark) into_k ends_line0))

theorem blanks_dead : many0 (lineTerminated space0) [] = none ∧ many0 (lineTerminated space0) u = none := by
  have h0 : many0 (lineTerminated space0) [] = none := by
    rw [many0_eq]
    rfl
  refine ⟨h0, ?_⟩
  rw [many0_eq]
  have : lineTerminated space0 u = some ([], []) := rfl
  rw [this]
  simp [h0]

theorem stays_blanks : StaysOn K u (many1 (lineTerminated space0)) := by
  have h := stays_many0_dead ends_blank into_k blanks_dead.1 blanks_dead.2
  intro s hs
  unfold many1
  rcases ends_blank s hs with e | ⟨a, e1, e2⟩
  · rw [e]
    cases e1 : lineTerminated space0 s with
    | none => rfl
    | some y =>
      obtain ⟨r, a⟩ := y
      simp only [Option.map_some]
      rw [h r (hs.suffix (Suf.out _ _ _ e1))]
      cases many0 (lineTerminated space0) r <;> rfl
  · rw [e1, e2]
    simp [blanks_dead.1]

theorem ends_restLine {kind : ListKind} {pl : Nat} : Ends K (listItemRestLine kind pl) := by
  intro s hs
  by_cases hn : s = []
  · subst hn
    left
    have hstop : notEofOrEol1 u = none := rfl
    have hb : many1 (lineTerminated space0) u = none := by
      have : lineTerminated space0 u = some ([], []) := rfl
      unfold many1
      rw [this]
      simp [blanks_dead.1]
    have hsp : manyMN (chr ' ') 0 pl u = some (u, []) := by cases pl <;> rfl
    have key : listItemRestLine kind pl u = none := by
      cases e : listItemRestLine kind pl u with
      | none => rfl
      | some y =>
        exfalso
        obtain ⟨r, a⟩ := y
        unfold listItemRestLine at e
        rw [if_neg (by decide)] at e
        obtain ⟨r1, _, e1, _⟩ := terminated_some.1 e
        obtain ⟨r2, _, e2, e3⟩ := preceded_some.1 e1
        obtain ⟨_, rfl⟩ := notP_some.1 e2
        rcases orElse_some.1 e3 with e4 | ⟨_, e4⟩
        · obtain ⟨r3, _, e5, e6⟩ := preceded_some.1 e4
          rw [hsp] at e5
          simp at e5
          obtain ⟨rfl, _⟩ := e5
          obtain ⟨b, e7, _⟩ := mapP_some.1 e6
          rw [hstop] at e7
          simp at e7
        · obtain ⟨b, e7, _⟩ := mapP_some.1 e4
          obtain ⟨r3, e8, _⟩ := seq_some.1 e7
          obtain ⟨z, e9, _⟩ := recognize_rest e8
          rw [hb] at e9
          simp at e9
    rw [List.nil_append, key]
    rfl
  · have h1 : AgreesOn K u (value () thematicBreakP <||>
        value () (seq (verify (recognize (manyMN (chr ' ') 0 pl)) (fun i => i.length < pl)) (sameKindMarker kind))) :=
      agrees_orElse (ends_value ends_thematic).agrees
        (stays_value (stays_seq (D' := K) (stays_verify (stays_recognize (stays_spaces _ _))) into_k (stays_sameMark kind))).agrees
    have h2 : StaysOn K u (preceded (manyMN (chr ' ') 0 pl) (mapP notEofOrEol1 (fun v => [v])) <||>
        mapP (seq (recognize (many1 (lineTerminated space0))) (preceded (manyMN (chr ' ') pl pl) notEofOrEol1)) (fun x => [x.1, x.2])) :=
      stays_orElse (stays_preceded (D' := K) (stays_spaces _ _) into_k (stays_mapP stays_notEofOrEol1))
        (stays_mapP (stays_seq (D' := K) (stays_recognize stays_blanks) into_k
          (stays_preceded (D' := K) (stays_spaces _ _) into_k stays_notEofOrEol1)))
    have h3 := ends_lineTerminated (ends_of_stays (stays_preceded (D' := K) (stays_notP h1) (into_notP fun _ h => h) h2)) into_k s hs
    have e1 : s.isEmpty = false := by cases s <;> simp_all
    have e2 : (s ++ u).isEmpty = false := by cases s <;> simp
    simp only [listItemRestLine, e1, e2]
    exact h3

instance suf_restLine {kind : ListKind} {pl : Nat} : Suf (listItemRestLine kind pl) := ⟨fun s r a h => by
  unfold listItemRestLine at h
  split at h
  · simp at h
  · exact Suf.out _ _ _ h⟩

theorem ends_item : Ends K (listItemP rec) := by
  refine ends_bind (D' := K) (k := fun a => mapOpt (listItemLines a.1 a.2.1)
    (fun rest => (blocks0 rec (itemContent a.2.2.2 rest)).map fun bs => (a.1, .mk a.2.2.1 bs))) ends_withSpan into_k ?_ ?_ ?_
  · funext s
    simp only [listItemP, mapOpt]
    cases listMarkerWithSpanSize s with
    | none => rfl
    | some y =>
      obtain ⟨s1, kind, pl, task, first⟩ := y
      simp only
      cases listItemLines kind pl s1 with
      | none => rfl
      | some z =>
        simp only
        cases blocks0 rec (itemContent first z.2) <;> rfl
  · intro s r ⟨kind, pl, task, first⟩ e
    exact ends_mapOpt (ends_many0 ends_restLine into_k)
  · intro s r a e
    unfold listItemLines
    infer_instance

instance suf_item : Suf (listItemP rec) := inferInstance

theorem ends_list : Ends K (listP rec) := by
  have : listP rec = mapOpt (many1 (listItemP rec)) (fun l => match l with
      | (k, i) :: l => some (.list k (i :: l.map Prod.snd))
      | [] => none) := by
    funext s
    simp only [listP, mapOpt]
    cases many1 (listItemP rec) s with
    | none => rfl
    | some y =>
      obtain ⟨r, l⟩ := y
      cases l with
      | nil => rfl
      | cons i l => rfl
  rw [this]
  exact ends_mapOpt (ends_many1 ends_item into_k)

/-! ## Definitions -/

theorem ends_footnote : Ends K (footnoteDefinitionP rec) := by
  have h1 : StaysOn K u (preceded indent03 (preceded (tag cs!"[^")
      (terminated (recognize (many1 (noneOf cs!"]"))) (tag cs!"]:")))) := by
    refine stays_preceded (D' := K) stays_indent03 into_k (stays_preceded (D' := K) (stays_tag (by decide)) into_k
      (loose_terminated (D' := K) (loose_recognize (loose_many1 ?_ into_k rfl ?_)) into_k (stays_tag (by decide)) rfl))
    · intro s hn hs
      cases s with
      | nil => exact absurd rfl hn
      | cons c s => simp only [noneOf, satisfy, List.cons_append]; split <;> rfl
    · intro y hy
      obtain ⟨r, a⟩ := y
      simp [noneOf, satisfy] at hy
      exact hy.1
  refine ends_bind (D' := K) (k := fun label => fun s1 => match preceded indent03 (lineTerminated notEofOrEol1) s1 with
    | none => none
    | some (s2, first) => mapOpt (many0 (preceded (manyMN (chr ' ') 3 3) (lineTerminated notEofOrEol1)))
        (fun rest => (blocks0 rec (itemContent first (rest.map (fun l => [l])))).map (Block.footnoteDefinition label)) s2)
    (ends_of_stays h1) into_k ?_ ?_ ?_
  · funext s
    simp only [footnoteDefinitionP, mapOpt]
    cases preceded indent03 (preceded (tag cs!"[^") (terminated (recognize (many1 (noneOf cs!"]"))) (tag cs!"]:"))) s with
    | none => rfl
    | some y =>
      obtain ⟨s1, label⟩ := y
      simp only
      cases preceded indent03 (lineTerminated notEofOrEol1) s1 with
      | none => rfl
      | some z =>
        obtain ⟨s2, first⟩ := z
        simp only
        cases many0 (preceded (manyMN (chr ' ') 3 3) (lineTerminated notEofOrEol1)) s2 with
        | none => rfl
        | some w =>
          simp only
          cases blocks0 rec (itemContent first (w.2.map fun l => [l])) <;> rfl
  · intro s r label e
    refine ends_bind (D' := K) (p := preceded indent03 (lineTerminated notEofOrEol1))
      (k := fun first => mapOpt (many0 (preceded (manyMN (chr ' ') 3 3) (lineTerminated notEofOrEol1)))
        (fun rest => (blocks0 rec (itemContent first (rest.map (fun l => [l])))).map (Block.footnoteDefinition label)))
      (ends_preceded (D' := K) (ends_of_stays (stays_value stays_indent03)) into_k ends_line1) into_k
      (by funext v; cases preceded indent03 (lineTerminated notEofOrEol1) v <;> rfl) ?_ ?_
    · intro s r first e
      exact ends_mapOpt (ends_many0 (ends_preceded (D' := K) (ends_of_stays (stays_value (stays_spaces _ _))) into_k ends_line1) into_k)
    · intro s r a e
      infer_instance
  · intro s r a e
    refine ⟨fun s r b h => ?_⟩
    split at h
    · simp at h
    · rename_i s2 first e1
      exact (Suf.out _ _ _ h).trans (Suf.out _ _ _ e1)

theorem stays_labelPart {f : Str → Option (List Inline)} : StaysOn K u (linkLabel f) := by
  have : linkLabelInner f = mapOpt (verify (many1 (preceded (notP (chr ']')) (value ']' (tag cs!"\\]") <||> anychar)))
      (fun cs => cs.any (fun c => c != ' ' && c != '\n') && cs.length < 1000)) f := by
    funext s
    simp only [linkLabelInner, mapOpt]
    cases verify (many1 (preceded (notP (chr ']')) (value ']' (tag cs!"\\]") <||> anychar)))
      (fun cs => cs.any (fun c => c != ' ' && c != '\n') && cs.length < 1000) s with
    | none => rfl
    | some y => simp only; cases f y.2 <;> rfl
  unfold linkLabel
  rw [this]
  refine stays_preceded (D' := K) (stays_tag (by decide)) into_k (loose_terminated (D' := K)
    (loose_mapOpt (loose_verify (loose_many1 ?_ into_k rfl ?_))) into_k (stays_tag (by decide)) rfl)
  · intro s hn hs
    have h1 : StaysOn (fun v : Str => v ≠ []) u (preceded (notP (chr ']')) (value ']' (tag cs!"\\]") <||> anychar)) :=
      stays_preceded (D' := fun v : Str => v ≠ []) (stays_notP (stays_chr (by decide)).agrees) (into_notP fun _ h => h)
        (stays_orElse (stays_value (stays_tag (by decide))) fun v hv => any_k hv)
    exact h1 s hn
  · intro y hy
    have : preceded (notP (chr ']')) (value ']' (tag cs!"\\]") <||> anychar) u = some ([], '\n') := by decide
    rw [this] at hy
    simp at hy
    rw [← hy]

/-- A backslash is not the last character. -/
theorem stays_esc : StaysOn K u linkEscapedChar := by
  intro s hs
  match s, hs with
  | [], _ => rfl
  | [c], hs =>
    by_cases hc : c = '\\'
    · subst hc; exact absurd rfl hs.1.1
    · have : ('\\' == c) = false := by simpa using fun e => hc e.symm
      simp [linkEscapedChar, preceded, tag, List.isPrefixOf, this]
  | c :: d :: s, hs =>
    by_cases hc : c = '\\'
    · subst hc; rfl
    · have : ('\\' == c) = false := by simpa using fun e => hc e.symm
      simp [linkEscapedChar, preceded, tag, List.isPrefixOf, this]

theorem stays_titleInner {o : P α} {l : P β} {d : Char} (ho : StaysOn K u o) (hi : Into K o K) (hl : StaysOn K u l)
    (h0 : l [] = none) : StaysOn K u (delimited o (linkTitleInner d) l) := by
  refine stays_preceded (D' := K) ho hi (loose_terminated (D' := K)
    (loose_many0 ?_ into_k rfl ?_) into_k hl h0)
  · intro s hn hs
    unfold orElse
    rw [stays_esc s hs]
    cases linkEscapedChar s with
    | some y => rfl
    | none =>
      cases s with
      | nil => exact absurd rfl hn
      | cons c s => simp only [noneOf, satisfy, List.cons_append, Option.map_none]; split <;> rfl
  · intro y hy
    obtain ⟨r, a⟩ := y
    rcases orElse_some.1 hy with h | ⟨_, h⟩
    · have : linkEscapedChar u = none := rfl
      rw [this] at h; simp at h
    · simp only [noneOf, satisfy, u] at h
      split at h
      · simp at h; exact h.1
      · simp at h

theorem stays_titlePart : StaysOn K u linkTitle :=
  stays_orElse (stays_titleInner (stays_tag (by decide)) into_k (stays_tag (by decide)) rfl)
    (stays_orElse (stays_titleInner (stays_chr (by decide)) into_k (stays_chr (by decide)) rfl)
      (stays_titleInner (stays_chr (by decide)) into_k (stays_chr (by decide)) rfl))

theorem stays_parensF : ∀ n, StaysOn K u (balancedParensF n)
  | 0 => stays_fail
  | n + 1 => by
    unfold balancedParensF
    refine stays_delimited (D' := K) (D3 := K) (stays_tag (by decide)) into_k (stays_value (stays_many0 ?_ into_k)) into_k
      (stays_tag (by decide))
    exact stays_orElse (stays_value stays_esc) (stays_orElse (stays_parensF n) (stays_value (stays_satisfy (by decide))))

theorem stays_parens : StaysOn K u balancedParens := by
  intro s hs
  unfold balancedParens
  rw [balancedF_stable (s.length + 1) ((s ++ u).length + 1) s (by omega) (by simp; omega)]
  exact stays_parensF _ s hs

theorem stays_destPart : StaysOn K u linkDestination := by
  refine stays_orElse ?_ ?_
  · refine stays_delimited (D' := K) (D3 := K) (stays_chr (by decide)) into_k (stays_many0 (D := K) ?_ into_k) into_k (stays_chr (by decide))
    refine stays_orElse (stays_preceded (D' := K) (stays_chr (by decide)) into_k (stays_oneOf (by decide))) ?_
    intro s hs
    cases s with
    | nil => rfl
    | cons c s =>
      by_cases hc : c = '\n' ∨ c = '<' ∨ c = '>'
      · simp [preceded, notP, oneOf, satisfy, hc]
      · simp [preceded, notP, oneOf, satisfy, hc, anychar]
  · intro s hs
    unfold linkDestination2
    have h1 : StaysOn K u (satisfy fun c => isValidChar c && c != '<') := stays_satisfy (by decide)
    rw [h1 s hs]
    cases satisfy (fun c => isValidChar c && c != '<') s with
    | none => rfl
    | some y =>
      simp only [Option.map_some]
      exact stays_recognize (stays_many1 (D := K) (stays_orElse (stays_value stays_esc) (stays_orElse stays_parens
        (stays_value (stays_satisfy (by decide))))) into_k) s hs

theorem loose_ws : Loose K oneLineWhitespace1 := by
  refine loose_verify (loose_recognize (loose_many1 ?_ into_k rfl ?_))
  · intro s hn hs
    unfold orElse
    rw [lineEnding_k hs hn]
    cases lineEnding s with
    | some y => rfl
    | none =>
      have h1 : StaysOn K u space1 := stays_space1
      exact h1 s hs
  · intro y hy
    have : (lineEnding <||> space1) u = some ([], ['\n']) := rfl
    rw [this] at hy
    simp at hy
    rw [← hy]

theorem loose_break : Loose K (opt lineEnding) := by
  intro s hs
  by_cases hn : s = []
  · subst hn
    right
    refine ⟨fun y hy => ?_, fun y hy => ?_⟩
    · have : opt lineEnding [] = some ([], none) := rfl
      rw [this] at hy
      simp at hy
      rw [← hy]
    · have : opt lineEnding ([] ++ u) = some ([], some ['\n']) := rfl
      rw [this] at hy
      simp at hy
      rw [← hy]
  · left
    unfold opt
    rw [lineEnding_k hs hn]
    cases lineEnding s <;> rfl

theorem ends_definition : Ends K (linkDefinitionP x cfg) := by
  refine ends_mapP (ends_terminated (D' := K) (ends_of_stays ?_) into_k ends_eofOrEol)
  refine stays_seq (D' := K) (stays_preceded (D' := K) stays_indent03 into_k stays_labelPart) into_k ?_
  refine stays_preceded (D' := K) (stays_chr (by decide)) into_k ?_
  refine loose_preceded (D' := K) (loose_seq (D' := K) (loose_of_stays stays_space0) into_k
    (loose_seq (D' := K) loose_break into_k (loose_of_stays stays_space0))) into_k ?_ rfl
  exact stays_seq (D' := K) stays_destPart into_k (stays_opt (loose_preceded (D' := K) loose_ws into_k stays_titlePart rfl))

/-! ## Tables -/

theorem stays_cellPart : StaysOn K u (cellContent x cfg) := by
  refine stays_mapOpt (stays_many1 (D := K) (stays_until (agrees_orElse (agrees_value agrees_eofOrEol)
    (agrees_value (stays_chr (by decide)).agrees)) rfl ?_) into_k)
  intro s hn hs
  have h1 : StaysOn (fun v : Str => v ≠ []) u (value '|' (tag cs!"\\|") <||> anychar) :=
    stays_orElse (stays_value (stays_tag (by decide))) fun v hv => any_k hv
  exact h1 s hn

theorem ends_rowOf {p : P α} [Con p] (hp : StaysOn K u p) : Ends K (lineTerminated (preceded indent03
    (delimited (chr '|') (separatedList1 (chr '|') p) (opt (chr '|'))))) :=
  ends_lineTerminated (ends_of_stays (stays_preceded (D' := K) stays_indent03 into_k
    (stays_delimited (D' := K) (D3 := K) (stays_chr (by decide)) into_k
      (stays_separatedList1 (D := K) (stays_chr (by decide)) into_k hp into_k) into_k (stays_opt (stays_chr (by decide)))))) into_k

theorem ends_tableRow : Ends K (tableRow x cfg) := ends_rowOf stays_cellPart

theorem ends_alignmentRow : Ends K alignmentRow := by
  have h : StaysOn K u alignmentCell := by
    have h1 : StaysOn K u (many1 (chr '-')) := stays_chrs1 (by decide)
    have h2 : StaysOn K u (chr ':') := stays_chr (by decide)
    refine stays_mapP (stays_delimited (D' := K) (D3 := K) stays_space0 into_k ?_ into_k stays_space0)
    exact stays_orElse (stays_recognize (stays_delimited (D' := K) (D3 := K) h2 into_k h1 into_k h2))
      (stays_orElse (stays_recognize (stays_preceded (D' := K) h2 into_k h1))
        (stays_orElse (stays_recognize (stays_terminated (D' := K) h1 into_k h2)) (stays_recognize h1)))
  have : Con alignmentCell := inferInstance
  exact ends_rowOf h

theorem ends_table : Ends K (tableP x cfg) := by
  refine ends_bind (D' := K) (p := tableRow x cfg) (k := fun header => fun s1 => match alignmentRow s1 with
    | none => none
    | some (s2, aligns) => mapOpt (tableDataRows x cfg header.length)
        (fun rows => if aligns.length ≠ header.length then none else some (Block.table (header :: rows) aligns)) s2)
    ends_tableRow into_k ?_ ?_ ?_
  · funext s
    simp only [tableP, mapOpt]
    cases tableRow x cfg s with
    | none => rfl
    | some y =>
      obtain ⟨s1, header⟩ := y
      simp only
      cases alignmentRow s1 with
      | none => rfl
      | some z =>
        obtain ⟨s2, aligns⟩ := z
        simp only
        cases tableDataRows x cfg header.length s2 with
        | none => simp
        | some w =>
          simp only
          by_cases h : aligns.length ≠ header.length
          · rw [if_pos h, if_pos h]
          · rw [if_neg h, if_neg h]
  · intro s r header e
    refine ends_bind (D' := K) (p := alignmentRow) (k := fun aligns => mapOpt (tableDataRows x cfg header.length)
        (fun rows => if aligns.length ≠ header.length then none else some (Block.table (header :: rows) aligns)))
      ends_alignmentRow into_k (by funext v; cases alignmentRow v <;> rfl) ?_ ?_
    · intro s r a e
      exact ends_mapOpt (ends_many0 (ends_mapP ends_tableRow) into_k)
    · intro s r a e
      unfold tableDataRows
      infer_instance
  · intro s r a e
    refine ⟨fun s r b h => ?_⟩
    split at h
    · simp at h
    · rename_i s2 aligns e1
      refine List.IsSuffix.trans (Suf.out _ _ _ h) (Suf.out _ _ _ e1)

end
end Verif.Final
