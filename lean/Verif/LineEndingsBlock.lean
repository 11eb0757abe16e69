import Verif.LineEndings
/-!
# Windows and Unix line endings (C76): the parsers of leaf blocks
-/
set_option linter.unusedVariables false
set_option linter.unusedSimpArgs false
namespace Verif
open Nom

section
variable {x : PExt} {cfg : PConfig} {K : Traps}

/-! ## Lines -/

theorem same_lineChar : Same K id (preceded (notP eofOrEol) anychar) := by
  intro s hs
  cases s with
  | nil => rfl
  | cons c s =>
    by_cases hc : c = '\r'
    · subst hc
      obtain ⟨t, rfl⟩ := hs.1.cr
      rfl
    · rw [unix_cons hc]
      by_cases hn : c = '\n'
      · subst hn; rfl
      · have e : ∀ t, preceded (notP eofOrEol) anychar (c :: t) = some (t, c) := by
          intro t
          refine preceded_some.2 ⟨c :: t, (), notP_some.2 ⟨?_, rfl⟩, rfl⟩
          unfold eofOrEol
          rw [orElse_none]
          refine ⟨?_, rfl⟩
          unfold lineEnding; split <;> simp_all
        rw [e, e]; rfl

theorem recognize_many1_chars {q : P Char} (hq : ∀ s r c, q s = some (r, c) → s = c :: r) :
    recognize (many1 q) = many1 q := by
  have h0 : ∀ s r l, many0 q s = some (r, l) → s = l ++ r := by
    refine many0_induction (M := fun s r l => s = l ++ r) ?_ ?_
    · intro s _; rfl
    · intro s r a r' l e _ _ ih; rw [hq s r a e, ih]; rfl
  funext s
  unfold recognize
  cases e : many1 q s with
  | none => rfl
  | some y =>
    obtain ⟨r1, a, l, e1, e2, e3⟩ := many1_some.1 e
    have h1 := hq _ _ _ e1
    have h2 := h0 _ _ _ e2
    subst h1 h2
    obtain ⟨r, l'⟩ := y
    simp only at e3 ⊢
    subst e3
    simp only [Option.some.injEq, Prod.mk.injEq, true_and]
    have : (a :: (l ++ r)).length - r.length = (a :: l).length := by simp; omega
    rw [this]
    exact List.take_left (l₁ := a :: l) (l₂ := r)

theorem lineChar_head : ∀ s r c, preceded (notP eofOrEol) anychar s = some (r, c) → s = c :: r := by
  intro s r c e
  obtain ⟨r1, u, e1, e2⟩ := preceded_some.1 e
  obtain ⟨_, rfl⟩ := notP_some.1 e1
  exact anychar_some.1 e2

theorem same_line1 : Same K id notEofOrEol1 := by
  unfold notEofOrEol1
  rw [recognize_many1_chars lineChar_head]
  exact same_many1_id same_lineChar
theorem same_line1_unix : Same K unix notEofOrEol1 := by
  unfold notEofOrEol1
  exact same_recognize (same_many1_id same_lineChar)
theorem same_line0 : Same K id notEofOrEol0 := same_orElse same_notLineEnding same_eof

theorem line0_ne {s r a : Str} (hs : s ≠ []) (e : lineTerminated notEofOrEol0 s = some (r, a)) :
    r.length < s.length := by
  obtain ⟨r1, u, e1, e2⟩ := terminated_some.1 e
  have h1 := (Suf.out _ _ _ e1).length_le
  rcases eofOrEol_some.1 e2 with h | h | h
  · have := h.1; subst this; simp at h1 ⊢; omega
  · have := h.1; subst this; simp at h1 ⊢; omega
  · obtain ⟨rfl, rfl, _⟩ := h
    cases s with
    | nil => exact absurd rfl hs
    | cons c s => simp

theorem blank_ne {s r a : Str} (hs : s ≠ []) (e : lineTerminated space0 s = some (r, a)) :
    r.length < s.length := by
  obtain ⟨r1, u, e1, e2⟩ := terminated_some.1 e
  have h1 := (Suf.out _ _ _ e1).length_le
  rcases eofOrEol_some.1 e2 with h | h | h
  · have := h.1; subst this; simp at h1 ⊢; omega
  · have := h.1; subst this; simp at h1 ⊢; omega
  · obtain ⟨rfl, rfl, _⟩ := h
    cases s with
    | nil => exact absurd rfl hs
    | cons c s => simp

theorem same_blank : Same K id (lineTerminated space0) := same_lineTerminated same_space0

theorem same_emptyLines : Same K (List.map unix) manyEmptyLines0 := by
  have hp : Same K unix (preceded space0 eofOrEol) := same_preceded same_space0 same_eofOrEol
  refine same_many0 hp (sameLen_ne hp ?_)
  intro s r a hs e
  obtain ⟨r1, u, e1, e2⟩ := preceded_some.1 e
  exact blank_ne hs (terminated_some.2 ⟨r1, _, e1, e2⟩)

/-! ## Code blocks, headings, thematic breaks -/

theorem same_sp (m n : Nat) : Same K id (manyMN (chr ' ') m n) :=
  same_manyMN (same_chr (by decide) (by decide)) m n

theorem same_codeIndented : Same K id codeBlockIndented := by
  refine same_mapP (f := List.map id) (same_many1c ?_) (fun a => by simp)
  exact same_preceded (same_orElse (same_unit (same_sp 4 4)) (same_unit (same_chr (by decide) (by decide))))
    (same_lineTerminated same_line0)

theorem same_endingFence {fence : Str} (h1 : '\r' ∉ fence) (h2 : '\n' ∉ fence) :
    Same K id (endingFence fence) := by
  refine same_lineTerminated (same_unit (same_seq same_indent03 (same_seq (same_tag h1 h2)
    (same_many0_id (same_chr ?_ ?_)))))
  · intro e; cases fence with
    | nil => simp at e
    | cons c f => simp at e; simp [e] at h1
  · intro e; cases fence with
    | nil => simp at e
    | cons c f => simp at e; simp [e] at h2

theorem le_many0_chr {c : Char} : ∀ s r l, many0 (chr c) s = some (r, l) → s = l ++ r ∧ ∀ d ∈ l, d = c := by
  refine many0_induction (M := fun s r l => s = l ++ r ∧ ∀ d ∈ l, d = c) ?_ ?_
  · intro s _; simp
  · intro s r a r' l e _ _ ih
    obtain ⟨rfl, rfl⟩ := chr_some.1 e
    obtain ⟨rfl, h2⟩ := ih
    simp
    exact h2

theorem dry_many0chr {c : Char} (h : c ≠ '\r') (m : Nat) : Dry K (manyMin m (chr c)) := by
  intro s r a hs e
  obtain ⟨e, _⟩ := verify_some.1 e
  exact dry_many0 (dry_chr h) s r a hs e

theorem same_openingFence : Same K (Prod.map id (Option.map id)) openingFence := by
  refine same_lineTerminated (same_seq (same_recognize_id (f := id) ?_ ?_) (same_opt ?_))
  · exact same_orElse (same_manyMin (same_chr (by decide) (by decide)) 3)
      (same_manyMin (same_chr (by decide) (by decide)) 3)
  · exact dry_orElse (dry_many0chr (by decide) 3) (dry_many0chr (by decide) 3)
  · have e : recognize notEofOrEol1 = notEofOrEol1 := by
      funext s
      unfold recognize
      cases h : notEofOrEol1 s with
      | none => rfl
      | some y =>
        obtain ⟨r, a⟩ := y
        have := notEofOrEol1_append h
        simp only [Option.some.injEq, Prod.mk.injEq, true_and]
        rw [← this]; simp
    rw [e]; exact same_line1

theorem openingFence_marks {s r f : Str} {i : Option Str} (e : openingFence s = some (r, (f, i))) :
    '\r' ∉ f ∧ '\n' ∉ f := by
  obtain ⟨r1, u, e1, _⟩ := terminated_some.1 e
  obtain ⟨r2, e2, _⟩ := seq_some.1 e1
  obtain ⟨v, e3, e4⟩ := recognize_some.1 e2
  have : f = v := by
    rcases orElse_some.1 e3 with e3 | ⟨_, e3⟩ <;>
    · obtain ⟨e3, _⟩ := verify_some.1 e3
      obtain ⟨rfl, _⟩ := le_many0_chr _ _ _ e3
      simp at e4; exact e4
  subst this
  rcases orElse_some.1 e3 with e3 | ⟨_, e3⟩ <;>
  · obtain ⟨e3, _⟩ := verify_some.1 e3
    obtain ⟨_, h⟩ := le_many0_chr _ _ _ e3
    exact ⟨fun hm => absurd (h _ hm) (by decide), fun hm => absurd (h _ hm) (by decide)⟩

theorem same_fencedLines {fence : Str} (h1 : '\r' ∉ fence) (h2 : '\n' ∉ fence) (pl : Nat) :
    Same K id (fencedLines fence pl) := by
  have hp : Same K id (preceded (notP (endingFence fence))
      (preceded (manyMN (chr ' ') 0 pl) (lineTerminated notEofOrEol0))) :=
    same_preceded (same_notP (same_endingFence h1 h2)) (same_preceded (same_sp 0 pl)
      (same_lineTerminated same_line0))
  have := same_many0 hp (sameLen_ne hp ?_)
  · rwa [map_id_fun] at this
  · intro s r a hs e
    obtain ⟨r1, u, e1, e2⟩ := preceded_some.1 e
    obtain ⟨_, rfl⟩ := notP_some.1 e1
    obtain ⟨r2, v, e3, e4⟩ := preceded_some.1 e2
    have h3 := (Suf.out _ _ _ e3).length_le
    by_cases hn : r2 = []
    · subst hn
      have := (Suf.out _ _ _ e4).length_le
      simp at this
      subst this
      cases r1 with
      | nil => exact absurd rfl hs
      | cons c s => simp
    · have := line0_ne hn e4; omega

theorem same_codeFenced : Same K id codeBlockFenced := by
  intro s hs
  unfold codeBlockFenced
  rw [same_seq same_indent03 same_openingFence s hs]
  cases e : seq indent03 openingFence s with
  | none => rfl
  | some y =>
    obtain ⟨s1, sp, fence, info⟩ := y
    obtain ⟨r1, e1, e2⟩ := seq_some.1 e
    obtain ⟨h1, h2⟩ := openingFence_marks e2
    have hs1 := hs.suffix ((Con.out _ _ _ e).1)
    simp only [Option.map_some, Prod.map, id]
    rw [same_terminated (same_fencedLines h1 h2 sp.length) (same_endingFence h1 h2) s1 hs1]
    cases terminated (fencedLines fence sp.length) (endingFence fence) s1 with
    | none => rfl
    | some z => simp

theorem same_codeBlock : Same K id codeBlockP := same_orElse same_codeIndented same_codeFenced

theorem same_headingV1 : Same K id (headingV1 x cfg) := by
  intro s hs
  unfold headingV1
  have h : Same K id (if cfg.allowNoSpaceInHeadings then space0 else space1) := by
    split
    · exact same_space0
    · exact same_space1
  have hsuf : Suf (if cfg.allowNoSpaceInHeadings then space0 else space1) := by
    split <;> infer_instance
  rw [same_seq (same_manyMN (same_chr (c := '#') (by decide) (by decide)) 1 6)
    (same_preceded h (same_lineTerminated same_line1)) s hs]
  cases seq (manyMN (chr '#') 1 6) (preceded (if cfg.allowNoSpaceInHeadings then space0 else space1)
    (lineTerminated notEofOrEol1)) s with
  | none => rfl
  | some y =>
    simp only [Option.map_some, Prod.map, id]
    cases parseInlines0 x cfg y.2.2 <;> rfl

theorem same_headingV2Level : Same K id headingV2Level :=
  same_lineTerminated (same_preceded same_indent03 (same_terminated
    (same_orElse (same_value (same_many1_id (same_chr (by decide) (by decide))) rfl)
      (same_value (same_many1_id (same_chr (by decide) (by decide))) rfl)) same_space0))

theorem same_thematicBreak : Same K id thematicBreakP :=
  same_unit (same_lineTerminated (same_preceded same_indent03 (same_terminated
    (same_orElse (same_manyMin (same_chr (by decide) (by decide)) 3)
      (same_orElse (same_manyMin (same_chr (by decide) (by decide)) 3)
        (same_manyMin (same_chr (by decide) (by decide)) 3))) same_space0)))

/-! ## HTML blocks -/

theorem same_html1Tag : Same K id html1Tag :=
  same_orElse (same_tagNoCase (by decide) (by decide)) (same_orElse (same_tagNoCase (by decide) (by decide))
    (same_tagNoCase (by decide) (by decide)))

theorem same_html1End : Same K id html1End :=
  same_delimited (same_tag (by decide) (by decide)) same_html1Tag (same_chr (by decide) (by decide))

theorem same_eol : Same K id (value () lineEnding) := same_unit same_lineEnding

theorem head_none {l : Str} (c : Char) (h : c ∉ l.head?) (hl : l ≠ []) (t : Str) : tag l (c :: t) = none := by
  cases l with
  | nil => exact absurd rfl hl
  | cons d l =>
    rw [tag_none]
    rintro ⟨v, hv⟩
    simp only [List.cons_append, List.cons.injEq] at hv
    exact h (by simp [hv.1])

theorem same_htmlBlock1 : Same K unix htmlBlock1 := by
  refine same_preceded same_indent03 (same_recognize (same_seq (same_chr (by decide) (by decide))
    (same_seq same_html1Tag (same_seq (f := id) ?_ (same_seq (f := unix) ?_ same_html1End)))))
  · exact same_orElse (same_unit (same_chr (by decide) (by decide)))
      (same_orElse (same_unit (same_chr (by decide) (by decide))) same_eol)
  · refine same_until same_html1End ?_
    intro t _ _
    unfold html1End delimited preceded
    rw [head_none '\n' (by decide) (by decide)]

theorem same_untilTag {l : Str} (h1 : '\r' ∉ l) (h2 : '\n' ∉ l) (h3 : l ≠ []) :
    Same K unix (until_ (tag l)) := by
  refine same_until (same_tag h1 h2) ?_
  intro t _ _
  refine head_none '\n' ?_ h3 t
  cases l with
  | nil => exact absurd rfl h3
  | cons c l => simp at h2 ⊢; exact fun e => h2.1 e.symm

theorem same_htmlBlock2 : Same K unix htmlBlock2 :=
  same_preceded same_indent03 (same_recognize (same_seq (same_tag (by decide) (by decide))
    (same_seq (same_untilTag (by decide) (by decide) (by decide)) (same_tag (by decide) (by decide)))))

theorem same_htmlBlock3 : Same K unix htmlBlock3 :=
  same_preceded same_indent03 (same_recognize (same_seq (same_tag (by decide) (by decide))
    (same_seq (same_untilTag (by decide) (by decide) (by decide)) (same_tag (by decide) (by decide)))))

theorem same_htmlBlock4 : Same K unix htmlBlock4 :=
  same_preceded same_indent03 (same_recognize (same_seq (same_tag (by decide) (by decide))
    (same_seq (same_satisfy (by decide) (by decide))
    (same_seq (same_until (same_chr (by decide) (by decide)) (fun _ _ _ => by rfl)) (same_tag (by decide) (by decide))))))

theorem same_htmlBlock5 : Same K unix htmlBlock5 :=
  same_preceded same_indent03 (same_recognize (same_seq (same_tag (by decide) (by decide))
    (same_seq (same_untilTag (by decide) (by decide) (by decide)) (same_tag (by decide) (by decide)))))

theorem same_anyTag : ∀ l : List Str, (∀ t ∈ l, '\r' ∉ t ∧ '\n' ∉ t) → Same K id (anyTagNoCase l)
  | [], _ => same_fail
  | t :: l, h => same_orElse (same_tagNoCase (h t (by simp)).1 (h t (by simp)).2)
      (same_anyTag l fun u hu => h u (by simp [hu]))

theorem same_blankLineOrEof : Same K id blankLineOrEof :=
  same_orElse (same_unit (same_seq same_lineEnding (same_seq same_space0 same_lineEnding))) (same_unit same_eof)

theorem same_untilBlank : Same K unix (until_ blankLineOrEof) := by
  refine same_until same_blankLineOrEof ?_
  intro t _ h
  unfold blankLineOrEof at h ⊢
  rw [orElse_none] at h ⊢
  refine ⟨?_, rfl⟩
  rw [value_none] at h ⊢
  have h := h.1
  unfold seq at h ⊢
  simp only [lineEnding] at h ⊢
  split at h
  · cases h
  · rfl

theorem same_htmlBlock6 : Same K unix htmlBlock6 := by
  refine same_preceded same_indent03 (same_recognize (same_seq (f := id) ?_ (same_seq (same_anyTag _ (by decide))
    (same_seq (f := id) ?_ (same_seq same_untilBlank (same_opt same_lineEnding))))))
  · exact same_orElse (same_unit (same_tag (by decide) (by decide))) (same_unit (same_chr (by decide) (by decide)))
  · exact same_orElse (same_unit (same_chr (by decide) (by decide))) (same_orElse same_eol
      (same_orElse (same_unit (same_tag (by decide) (by decide))) (same_unit (same_chr (by decide) (by decide)))))

theorem same_htmlTagName : Same K id htmlTagName :=
  same_recognize_id (same_seq same_alpha1 (same_many0_id
      (same_orElse (same_unit (same_chr (by decide) (by decide))) (same_unit same_alnum1))))
    (dry_seq (dry_takeWhile1 (by decide)) (dry_many0
      (dry_orElse (dry_value (dry_chr (by decide))) (dry_value (dry_takeWhile1 (by decide))))))

theorem same_htmlTagAttributeName : Same K unix htmlTagAttributeName :=
  same_recognize (same_seq (f := id)
    (same_orElse (same_unit same_alpha1) (same_unit (same_oneOf (by decide) (by decide))))
    (same_many0_id (same_orElse (same_unit (same_oneOf (by decide) (by decide))) (same_unit same_alnum1))))

theorem same_unquoted : Same K unix htmlTagAttributeValueUnquoted := by
  have : Same K id (value () space1 <||> value () (oneOf cs!"\"'=<>`")) :=
    same_orElse (same_unit same_space1) (same_unit (same_oneOf (by decide) (by decide)))
  refine same_recognize (same_until1 this ?_)
  intro t _ _
  rfl

/-- A quoted value in front of which a line ending is excluded. -/
theorem quoted_same {k : Char} (hk : k ≠ '\r') (hk2 : k ≠ '\n') {s : Str} (hs : UOk K s)
    (ht : ∀ t, s ≠ k :: '\r' :: t) :
    recognize (delimited (chr k) (preceded (notP (chr k)) anychar) (chr k)) (unix s) =
      (recognize (delimited (chr k) (preceded (notP (chr k)) anychar) (chr k)) s).map
        fun y => (unix y.1, unix y.2) := by
  have hin : delimited (chr k) (preceded (notP (chr k)) anychar) (chr k) (unix s) =
      (delimited (chr k) (preceded (notP (chr k)) anychar) (chr k) s).map fun y => (unix y.1, y.2) := by
    have e0 : ∀ s, delimited (chr k) (preceded (notP (chr k)) anychar) (chr k) s = match s with
        | c :: d :: v => if c = k ∧ d ≠ k then (chr k v).map fun y => (y.1, d) else none
        | _ => none := by
      intro s
      unfold delimited preceded terminated mapP seq notP
      cases s with
      | nil => rfl
      | cons c s =>
        by_cases hc : c = k
        · subst hc
          simp only [chr_cons, true_and]
          cases s with
          | nil => rfl
          | cons d v =>
            by_cases hd : d = c
            · subst hd; simp [chr_cons]
            · simp only [chr_ne hd, anychar, satisfy, if_true, ne_eq, hd, not_false_eq_true]
              cases chr c v <;> rfl
        · simp only [chr_ne hc]
          cases s <;> simp [hc]
    rw [e0, e0]
    cases s with
    | nil => rfl
    | cons c s =>
      by_cases hc : c = k
      · subst hc
        rw [unix_cons hk]
        cases s with
        | nil => rfl
        | cons d s =>
          have hd : d ≠ '\r' := by rintro rfl; exact ht s rfl
          rw [unix_cons hd]
          simp only []
          split
          · rw [same_chr hk hk2 s hs.tail.tail]
            cases chr c s <;> rfl
          · rfl
      · by_cases hr : c = '\r'
        · subst hr
          obtain ⟨t, rfl⟩ := hs.1.cr
          rw [unix_cr, unix_lf]
          simp only [hc, false_and, if_false]
          cases unix t <;> simp [show ¬ '\n' = k from fun e => hk2 e.symm]
        · rw [unix_cons hr]
          cases s with
          | nil => rfl
          | cons d s =>
            simp only [hc, false_and, if_false]
            cases unix (d :: s) <;> simp [hc]
  unfold recognize
  rw [hin]
  cases e : delimited (chr k) (preceded (notP (chr k)) anychar) (chr k) s with
  | none => rfl
  | some y =>
    obtain ⟨u, hu⟩ := Suf.out _ _ _ e
    simp only [Option.map_some, ← hu]
    simp

theorem same_valueSpec (hh : K.html = true) : Same K unix htmlTagAttributeValueSpecification := by
  refine same_recognize (f := Prod.map id (Prod.map id (Prod.map id unix))) (same_seq same_space0 ?_)
  intro s hs
  -- the equals sign
  unfold seq
  rw [same_chr (by decide) (by decide) s hs]
  cases e1 : chr '=' s with
  | none => rfl
  | some y =>
    obtain ⟨s1, c1⟩ := y
    obtain ⟨rfl, rfl⟩ := chr_some.1 e1
    simp only [Option.map_some, id]
    have hs1 := hs.tail
    rw [same_space0 s1 hs1]
    cases e2 : space0 s1 with
    | none => rfl
    | some z =>
      obtain ⟨s2, b⟩ := z
      simp only [Option.map_some, id]
      have hb : s1 = b ++ s2 ∧ ∀ c ∈ b, isSpace c = true := by
        simp only [space0, Nom.takeWhile, Option.some.injEq, Prod.mk.injEq] at e2
        rw [← e2.1, ← e2.2]
        exact ⟨by simp, fun c hc => List.all_eq_true.1 (List.all_takeWhile (l := s1) (p := isSpace)) _ hc⟩
      obtain ⟨rfl, hb⟩ := hb
      have hbr : '\r' ∉ b := fun hm => absurd (hb _ hm) (by decide)
      have hbn : '\n' ∉ b := fun hm => absurd (hb _ hm) (by decide)
      have hs2 := hs1.suffix (List.suffix_append b s2)
      have trap : ∀ (k : Char), (k = '"' ∨ k = '\'') → ∀ t, s2 ≠ k :: '\r' :: t := by
        rintro k hk t rfl
        obtain ⟨t', rfl⟩ := hs2.tail.1.cr
        have hkr : k ≠ '\r' := by rcases hk with rfl | rfl <;> decide
        have hkn : k ≠ '\n' := by rcases hk with rfl | rfl <;> decide
        have := hs.2.value hh b k hb ⟨by
            simp only [List.mem_cons, List.mem_append, List.not_mem_nil, or_false, not_or]
            exact ⟨by decide, hbn, fun e => hkn e.symm⟩,
          [], '\n' :: unix t', by
            rw [unix_cons (by decide), unix_append, unix_id hbr, unix_cons hkr]
            simp, .inr ⟨_, rfl⟩⟩
        rcases hk with rfl | rfl
        · exact this.1 rfl
        · exact this.2 rfl
      have : htmlTagAttributeValue (unix s2) =
          (htmlTagAttributeValue s2).map fun y => (unix y.1, unix y.2) := by
        unfold htmlTagAttributeValue orElse
        rw [same_unquoted s2 hs2]
        cases htmlTagAttributeValueUnquoted s2 with
        | some y => rfl
        | none =>
          simp only [Option.map_none]
          unfold htmlTagAttributeValueSingleQuoted htmlTagAttributeValueDoubleQuoted
          rw [quoted_same (by decide) (by decide) hs2 (trap _ (.inr rfl)),
            quoted_same (by decide) (by decide) hs2 (trap _ (.inl rfl))]
          cases recognize (delimited (chr '\'') (preceded (notP (chr '\'')) anychar) (chr '\'')) s2 <;> rfl
      rw [this]
      cases htmlTagAttributeValue s2 <;> rfl

theorem same_attribute (hh : K.html = true) : Same K unix htmlTagAttribute :=
  same_recognize (same_seq same_space1 (same_seq same_htmlTagAttributeName (same_opt (same_valueSpec hh))))

theorem same_completeOpen (hh : K.html = true) (l : List Str) :
    Same K unix (completeOpenHtmlTag l) :=
  same_recognize (same_seq (same_chr (by decide) (by decide)) (same_seq
    (same_verify same_htmlTagName fun _ => rfl) (same_seq (same_many0c (same_attribute hh))
      (same_seq same_space0 (same_seq (same_opt (same_chr (by decide) (by decide)))
        (same_chr (by decide) (by decide)))))))

theorem same_completeClosing : Same K unix completeClosingHtmlTag :=
  same_recognize (same_seq (same_tag (by decide) (by decide)) (same_seq same_htmlTagName
    (same_seq same_space0 (same_chr (by decide) (by decide)))))

theorem same_htmlBlock7 (hh : K.html = true) : Same K unix htmlBlock7 :=
  same_preceded same_indent03 (same_recognize (same_seq (same_orElse (same_completeOpen hh _) same_completeClosing)
    (same_seq (f := id) (same_orElse same_eol (same_unit (same_chr (by decide) (by decide))))
      (same_seq same_untilBlank same_blankLineOrEof))))

theorem same_htmlBlock (hh : K.html = true) : Same K unix htmlBlockP :=
  same_orElse same_htmlBlock1 (same_orElse same_htmlBlock2 (same_orElse same_htmlBlock3
    (same_orElse same_htmlBlock4 (same_orElse same_htmlBlock5 (same_orElse same_htmlBlock6
      (same_htmlBlock7 hh))))))

/-! ## Tables -/

theorem same_cellChar : Same K id (preceded (notP (value () eofOrEol <||> value () (chr '|')))
    (value '|' (tag cs!"\\|") <||> anychar)) := by
  have hstop : Same K id (value () eofOrEol <||> value () (chr '|')) :=
    same_orElse (same_unit same_eofOrEol) (same_unit (same_chr (by decide) (by decide)))
  intro s hs
  unfold preceded
  rw [same_notP hstop s hs]
  cases e : notP (value () eofOrEol <||> value () (chr '|')) s with
  | none => rfl
  | some y =>
    obtain ⟨r0, u0⟩ := y
    obtain ⟨e1, h0⟩ := notP_some.1 e
    subst h0
    simp only [Option.map_some]
    cases r0 with
    | nil => exact absurd e1 (by decide)
    | cons c s =>
      have hc : c ≠ '\r' := by
        rintro rfl
        obtain ⟨t, rfl⟩ := hs.1.cr
        simp [orElse, value, mapP, eofOrEol, lineEnding] at e1
      have h1 : Same K id (value '|' (tag cs!"\\|")) := same_value (same_tag (by decide) (by decide)) rfl
      unfold orElse
      rw [h1 _ hs]
      cases value '|' (tag cs!"\\|") (c :: s) with
      | some y => rfl
      | none => rw [unix_cons hc]; rfl

theorem same_cell : Same K id (cellContent x cfg) :=
  same_mapOpt (same_many1_id same_cellChar) fun s r a _ _ => by simp

theorem same_tableRow : Same K id (tableRow x cfg) := by
  have := same_separatedList1 (K := K) (q := chr '|') (same_chr (by decide) (by decide)) (same_cell (x := x) (cfg := cfg) (K := K))
  rw [map_id_fun] at this
  exact same_lineTerminated (same_preceded same_indent03 (same_delimited (same_chr (by decide) (by decide))
    this (same_opt (same_chr (by decide) (by decide)))))

theorem same_alignmentCell : Same K id alignmentCell := by
  have d : Same K id (many1 (chr '-')) := same_many1_id (same_chr (by decide) (by decide))
  have dd : Dry K (many1 (chr '-')) := dry_many1 (dry_chr (by decide))
  have c : Same K id (chr ':') := same_chr (by decide) (by decide)
  have dc : Dry K (chr ':') := dry_chr (by decide)
  exact same_mapP (same_delimited same_space0 (same_orElse (same_recognize_id (same_delimited c d c) (dry_delimited dc dd dc))
    (same_orElse (same_recognize_id (same_preceded c d) (dry_preceded dc dd))
      (same_orElse (same_recognize_id (same_terminated d c) (dry_terminated dd dc))
        (same_recognize_id d dd)))) same_space0) fun _ => rfl

theorem same_alignmentRow : Same K id alignmentRow := by
  have := same_separatedList1 (K := K) (q := chr '|') (same_chr (by decide) (by decide)) (same_alignmentCell (K := K))
  rw [map_id_fun] at this
  exact same_lineTerminated (same_preceded same_indent03 (same_delimited (same_chr (by decide) (by decide))
    this (same_opt (same_chr (by decide) (by decide)))))

theorem same_tableDataRows (n : Nat) : Same K id (tableDataRows x cfg n) :=
  same_many0_id (same_mapP same_tableRow fun _ => rfl)

theorem same_table : Same K id (tableP x cfg) := by
  intro s hs
  unfold tableP
  rw [same_tableRow s hs]
  cases e : tableRow x cfg s with
  | none => rfl
  | some y =>
    obtain ⟨s1, header⟩ := y
    simp only [Option.map_some, id]
    have h1 := hs.suffix (Con.out _ _ _ e).1
    rw [same_alignmentRow s1 h1]
    cases e2 : alignmentRow s1 with
    | none => rfl
    | some z =>
      obtain ⟨s2, al⟩ := z
      simp only [Option.map_some, id]
      split
      · rfl
      · rw [same_tableDataRows _ s2 (h1.suffix (Con.out _ _ _ e2).1)]
        cases tableDataRows x cfg header.length s2 <;> rfl

end
end Verif
