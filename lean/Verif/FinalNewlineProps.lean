import Verif.FinalNewlineBlocks
/-!
# A final newline does not matter (C83)
-/
set_option autoImplicit false
set_option linter.unusedVariables false
set_option linter.unusedSimpArgs false
namespace Verif
open Nom
namespace Final

section
variable {α β γ : Type} {D D' D'' : Str → Prop} {p : P α} {q : P β} {p3 : P γ}
variable {x : PExt} {cfg : PConfig} {rec : P (List Block)}

/-! ## HTML -/

theorem html_none {s : Str} (hs : L s) : htmlBlockP (s ++ u) = none ∧ htmlBlockP s = none := by
  constructor
  · cases e : htmlBlockP (s ++ u) with
    | none => rfl
    | some y => exact absurd (html_at e) hs.2
  · cases e : htmlBlockP s with
    | none => rfl
    | some y =>
      obtain ⟨k, v, hk, hv, rfl⟩ := html_at e
      exact absurd ⟨k, v ++ u, hk, hv.append, by simp⟩ hs.2

theorem stays_noHtml : StaysOn L u htmlBlockP := fun s hs => by rw [(html_none hs).1, (html_none hs).2]; rfl
theorem into_noHtml : Into L htmlBlockP L := fun s r a hs h => by rw [(html_none hs).2] at h; simp at h

/-! ## Paragraphs -/

theorem Ends.l (h : Ends K p) : Ends L p := h.mono fun _ hs => hs.k

theorem agrees_unitOf {b : Behavior α} {p : P β} (h : AgreesOn D u p) : AgreesOn D u (conditionalUnit b p) := by
  unfold conditionalUnit
  split
  · exact fun _ _ => rfl
  all_goals exact agrees_value h

theorem agrees_stop (hc : cfg.customBlock = none) : AgreesOn L u (notAParagraphLine x cfg rec) := by
  unfold notAParagraphLine
  rw [hc]
  refine agrees_orElse (agrees_unitOf ends_headingV1.l.agrees) ?_
  refine agrees_orElse (agrees_unitOf ends_underline.l.agrees) ?_
  refine agrees_orElse (agrees_unitOf ends_thematic.l.agrees) ?_
  refine agrees_orElse (agrees_unitOf ends_blockquote.l.agrees) ?_
  refine agrees_orElse (agrees_unitOf ends_item.l.agrees) ?_
  refine agrees_orElse (agrees_unitOf ends_fenced.l.agrees) ?_
  refine agrees_orElse (agrees_unitOf stays_noHtml.agrees) ?_
  refine agrees_orElse (agrees_unitOf ends_definition.l.agrees) ?_
  refine agrees_orElse (agrees_unitOf ends_footnote.l.agrees) ?_
  refine agrees_orElse (agrees_unitOf ends_table.l.agrees) ?_
  refine agrees_orElse (fun _ _ => rfl) (agrees_value ends_blank.l.agrees)

theorem stop_blank {s : Str} {y} (h : lineTerminated space0 s = some y) : (notAParagraphLine x cfg rec s).isSome := by
  unfold notAParagraphLine
  have key : ∀ (p q : P Unit), (q s).isSome → ((p <||> q) s).isSome := by
    intro p q hq
    unfold orElse
    cases p s with
    | none => exact hq
    | some z => rfl
  iterate 11 refine key _ _ ?_
  simp [value, mapP, h]

theorem stays_lineOfText : StaysOn K u paragraphLine := stays_preceded (D' := K) stays_indent03 into_k stays_notEofOrEol1

theorem l_of_eol {s : Str} (h : K s) (h0 : lineEnding s ≠ none ∨ s = []) : L s := by
  refine ⟨h, ?_⟩
  rcases h0 with h1 | rfl
  · intro hh
    cases e : lineEnding s with
    | none => exact h1 e
    | some y =>
      obtain ⟨nl, rfl, hnl⟩ := lineEnding_writes _ _ _ e
      rcases hnl with rfl | rfl
      · rcases htmlAt_head hh with h | h <;> simp at h
      · rcases htmlAt_head hh with h | h <;> simp at h
  · exact notHtml_nil

theorem into_lineOfText : Into K paragraphLine L := by
  intro s r a hs h
  have hk : K r := into_k _ _ _ hs h
  obtain ⟨_, _, _, h4⟩ := preceded_some.1 h
  obtain ⟨⟨r2, e⟩, hz⟩ := Option.ne_none_iff_exists'.1 (notEofOrEol1_rest h4)
  refine l_of_eol hk ?_
  rcases orElse_some.1 hz with h | ⟨_, h⟩
  · left; rw [h]; simp
  · right; exact (eof_some.1 h).1

theorem stays_pieceOf (hc : cfg.customBlock = none) :
    StaysOn L u (preceded (notP (notAParagraphLine x cfg rec)) paragraphLine) :=
  stays_preceded (D' := L) (stays_notP (agrees_stop hc)) (into_notP fun _ h => h) (fun s hs => stays_lineOfText s hs.k)

theorem into_pieceOf : Into L (preceded (notP (notAParagraphLine x cfg rec)) paragraphLine) K :=
  into_preceded (D' := L) (into_notP fun _ h => h) fun s r a hs h => (into_lineOfText s r a hs.k h).k

theorem piece_nil : preceded (notP (notAParagraphLine x cfg rec)) paragraphLine [] = none := by
  have h : (notAParagraphLine x cfg rec []).isSome := stop_blank (s := []) (y := ([], [])) rfl
  obtain ⟨y, hy⟩ := Option.isSome_iff_exists.1 h
  simp [preceded, notP, hy]

theorem stays_loop (hc : cfg.customBlock = none) :
    StaysOn K u (sepLoop lineEnding (preceded (notP (notAParagraphLine x cfg rec)) paragraphLine)) := by
  intro s
  induction hn : s.length using Nat.strongRecOn generalizing s with
  | _ n ih =>
  intro hs
  rw [sepLoop_eq, sepLoop_eq]
  by_cases hne : s = []
  · subst hne
    have h1 : lineEnding ([] ++ u) = some ([], ['\n']) := rfl
    have h2 : lineEnding [] = none := rfl
    rw [h1, h2]
    simp only [piece_nil]
    rfl
  · rw [lineEnding_k hs hne]
    cases e : lineEnding s with
    | none => rfl
    | some y =>
      obtain ⟨r, a⟩ := y
      have hr : L r := into_lineEnding _ _ _ hs e
      simp only [Option.map_some]
      rw [stays_pieceOf hc r hr]
      cases e2 : preceded (notP (notAParagraphLine x cfg rec)) paragraphLine r with
      | none => rfl
      | some z =>
        obtain ⟨r', b⟩ := z
        simp only [Option.map_some, List.length_append]
        have hl1 : r.length < s.length := Con.lt e
        have hl2 : r'.length ≤ r.length := (Suf.out _ _ _ e2).length_le
        rw [if_pos (by omega), if_pos (by omega), ih r'.length (by omega) r' rfl (into_pieceOf _ _ _ hr e2)]
        cases sepLoop lineEnding (preceded (notP (notAParagraphLine x cfg rec)) paragraphLine) r' <;> rfl

theorem ends_lines (hc : cfg.customBlock = none) : Ends L (paragraphLines x cfg rec) := by
  unfold paragraphLines
  have h1 : StaysOn L u (separatedList0 lineEnding (preceded (notP (notAParagraphLine x cfg rec)) paragraphLine)) := by
    intro s hs
    unfold separatedList0
    rw [stays_pieceOf hc s hs]
    cases e : preceded (notP (notAParagraphLine x cfg rec)) paragraphLine s with
    | none => rfl
    | some y =>
      obtain ⟨r, a⟩ := y
      simp only [Option.map_some]
      rw [stays_loop hc r (into_pieceOf _ _ _ hs e)]
      cases sepLoop lineEnding (preceded (notP (notAParagraphLine x cfg rec)) paragraphLine) r <;> rfl
  have := suf_pieces (x := x) (cfg := cfg) (rec := rec)
  exact ends_lineTerminated (ends_of_stays h1) into_lk

theorem ends_paragraph (hc : cfg.customBlock = none) {c : Bool} : Ends L (paragraphP x cfg rec c) := by
  cases c with
  | true => exact ends_mapOpt (ends_lines hc)
  | false =>
    have hs : Suf (paragraphLines x cfg rec) := by
      have := suf_pieces (x := x) (cfg := cfg) (rec := rec)
      unfold paragraphLines
      infer_instance
    exact ends_mapOpt (ends_mapP (ends_seq (D' := L) (ends_of_stays fun s hs => stays_lineOfText s hs.k)
      (fun s r a hs h => into_lineOfText s r a hs.k h) (ends_lines hc)))

theorem ends_text (hc : cfg.customBlock = none) : Ends L (headingV2OrParagraph x cfg rec) :=
  ends_mapP (ends_seq (D' := K) (ends_paragraph hc) (fun s r a hs h => (into_of_endsLine el_paragraph s r a hs.k h).k)
    (ends_opt ends_underline))

/-! ## Blocks -/

theorem ends_cond {b : Behavior α} {d : List α} {p : P α} (h : Ends D p) : Ends D (conditional b d p) := by
  unfold conditional
  split
  · exact ends_fail
  · exact ends_mapP h
  · exact ends_value h
  · exact ends_mapP h
  · exact ends_mapP h

theorem into_cond {b : Behavior α} {d : List α} {p : P α} (h : Into D p D') : Into D (conditional b d p) D' := by
  unfold conditional
  split
  · intro s r a _ e; simp [failP] at e
  · exact into_mapP h
  · exact into_value h
  · exact into_mapP h
  · exact into_mapP h

theorem ends_condVec {b : Behavior Block} {p : P (List Block)} (h : Ends D p) : Ends D (conditionalBlockVec b p) := by
  unfold conditionalBlockVec
  split
  · exact ends_fail
  · exact ends_value h
  all_goals exact h

theorem into_condVec {b : Behavior Block} {p : P (List Block)} (h : Into D p D') : Into D (conditionalBlockVec b p) D' := by
  unfold conditionalBlockVec
  split
  · intro s r a _ e; simp [failP] at e
  · exact into_value h
  all_goals exact h

theorem into_el (h : EndsLine p) : Into L p L := fun s r a hs e => into_of_endsLine h s r a hs.k e

theorem ends_alt (hc : cfg.customBlock = none) : Ends L (blockAlt x cfg rec) := by
  unfold blockAlt
  rw [hc]
  refine ends_orElse (ends_cond (ends_orElse ends_indented.l ends_fenced.l)) ?_
  refine ends_orElse (ends_cond ends_headingV1.l) ?_
  refine ends_orElse (ends_cond (ends_text hc)) ?_
  refine ends_orElse (ends_cond (ends_value ends_thematic.l)) ?_
  refine ends_orElse (ends_condVec ends_alert.l) ?_
  refine ends_orElse (ends_cond ends_blockquote.l) ?_
  refine ends_orElse (ends_cond ends_list.l) ?_
  refine ends_orElse (ends_cond (ends_mapP (ends_of_stays stays_noHtml))) ?_
  refine ends_orElse (ends_cond ends_footnote.l) ?_
  refine ends_orElse (ends_cond ends_definition.l) ?_
  refine ends_orElse (ends_cond ends_table.l) ?_
  exact ends_orElse ends_fail (ends_cond (ends_mapP (ends_paragraph hc)))

theorem into_alt (hc : cfg.customBlock = none) : Into L (blockAlt x cfg rec) L := by
  unfold blockAlt
  rw [hc]
  refine into_orElse (into_cond (into_el (el_orElse el_indented el_fenced))) ?_
  refine into_orElse (into_cond (into_el el_headingV1)) ?_
  refine into_orElse (into_cond (into_el el_text)) ?_
  refine into_orElse (into_cond (into_el (el_value el_thematic))) ?_
  refine into_orElse (into_condVec (into_el el_alert)) ?_
  refine into_orElse (into_cond (into_el (el_mapOpt el_quoteLines))) ?_
  refine into_orElse (into_cond (into_el el_list)) ?_
  refine into_orElse (into_cond (into_mapP into_noHtml)) ?_
  refine into_orElse (into_cond (into_el el_footnote)) ?_
  refine into_orElse (into_cond (into_el el_definition)) ?_
  refine into_orElse (into_cond (into_el el_table)) ?_
  refine into_orElse (fun s r a _ e => by simp [customParser, failP] at e) ?_
  exact into_cond (into_mapP (into_el el_paragraph))

theorem many0_rest : ∀ s, (many0 p s).map Prod.fst = (many0 (value () p) s).map Prod.fst := by
  intro s
  induction hn : s.length using Nat.strongRecOn generalizing s with
  | _ n ih =>
  rw [many0_eq, many0_eq]
  have hv : value () p s = (p s).map fun y => (y.1, ()) := by unfold value mapP; cases p s <;> rfl
  rw [hv]
  cases e : p s with
  | none => rfl
  | some y =>
    simp only [Option.map_some]
    by_cases hl : y.1.length < s.length
    · rw [if_pos hl, if_pos hl]
      have := ih y.1.length (by omega) y.1 rfl
      revert this
      cases many0 p y.1 <;> cases many0 (value () p) y.1 <;> simp
    · rw [if_neg hl, if_neg hl]
      rfl

theorem value_many0 : value () (many0 p) = value () (many0 (value () p)) := by
  funext s
  have := many0_rest (p := p) s
  unfold value mapP
  unfold value mapP at this
  revert this
  generalize many0 p s = a
  generalize many0 _ s = b
  intro h
  cases a <;> cases b <;> simp_all

theorem ends_emptyLine : Ends K (value () (preceded space0 eofOrEol)) := by
  have : value () (preceded space0 eofOrEol) = preceded space0 (value () eofOrEol) := by
    funext s
    simp only [value, mapP, preceded]
    cases space0 s with
    | none => rfl
    | some y => simp only
  rw [this]
  exact ends_preceded (D' := K) (ends_of_stays (stays_value stays_space0)) into_k ends_eofOrEol

theorem stays_emptyLines : StaysOn K u (value () manyEmptyLines0) := by
  unfold manyEmptyLines0
  rw [value_many0]
  have h0 : many0 (value () (preceded space0 eofOrEol)) [] = none := by rw [many0_eq]; rfl
  have h1 : many0 (value () (preceded space0 eofOrEol)) u = none := by
    rw [many0_eq]
    have : value () (preceded space0 eofOrEol) u = some ([], ()) := rfl
    rw [this]
    simp [h0]
  exact stays_value (stays_many0_dead ends_emptyLine into_k h0 h1)

theorem into_emptyLines : Into L manyEmptyLines0 L :=
  into_many0 (into_preceded into_lk into_eofOrEol)

theorem ends_step (hc : cfg.customBlock = none) (hs : Suf (blockAlt x cfg rec)) : Ends L (blockStep x cfg rec) :=
  ends_preceded (D' := L) (ends_of_stays fun s h => stays_emptyLines s h.k) into_emptyLines (ends_alt hc)

theorem into_step (hc : cfg.customBlock = none) : Into L (blockStep x cfg rec) L :=
  into_preceded into_emptyLines (into_alt hc)

/-! ## Documents -/

theorem agrees_tail : AgreesOn K u (seq (many0 (space1 <||> lineEnding)) eof) := by
  intro s
  induction hn : s.length using Nat.strongRecOn generalizing s with
  | _ n ih =>
  intro hs
  by_cases hne : s = []
  · subst hne; decide
  · have hstep : (space1 <||> lineEnding) (s ++ u) = ((space1 <||> lineEnding) s).map fun y => (y.1 ++ u, y.2) := by
      have h1 : StaysOn K u space1 := stays_space1
      unfold orElse
      rw [h1 s hs]
      cases space1 s with
      | some y => rfl
      | none => exact lineEnding_k hs hne
    unfold seq
    rw [many0_eq, many0_eq, hstep]
    cases e : (space1 <||> lineEnding) s with
    | none =>
      simp [eof, hne]
    | some y =>
      obtain ⟨r, a⟩ := y
      have hl : r.length < s.length := Con.lt e
      have := ih r.length (by omega) r rfl (hs.suffix (Suf.out _ _ _ e))
      simp only [Option.map_some, List.length_append]
      rw [if_pos (by omega), if_pos hl]
      unfold seq at this
      revert this
      cases many0 (space1 <||> lineEnding) (r ++ u) with
      | none =>
        cases many0 (space1 <||> lineEnding) r with
        | none => simp
        | some z => cases e3 : eof z.1 <;> simp [e3]
      | some w =>
        cases many0 (space1 <||> lineEnding) r with
        | none => cases e3 : eof w.1 <;> simp [e3]
        | some z => cases e3 : eof z.1 <;> cases e4 : eof w.1 <;> simp [e3, e4]

end
end Final

section
variable {x : PExt} {cfg : PConfig}
open Final

/-- A newline behind the text changes nothing: if the text does not end with a backslash or a carriage
return and no HTML block begins at a line of it. -/
theorem C83_final_newline (hok : cfg.CustomOk) (hc : cfg.customBlock = none) {s : Str} (hl : EndsPlainly s) (hh : NoHtmlLine s) :
    parseMarkdown x cfg (s ++ ['\n']) = parseMarkdown x cfg s := by
  have hL : L s := ⟨⟨hl, hh.2⟩, hh.1⟩
  have hcon := blockP_con (x := x) hok
  have hbp : blockP x cfg = blockStep x cfg (blockP x cfg) := funext fun s => blockP_eq hok s
  have he : Ends L (blockP x cfg) := by
    rw [hbp]
    have := blockAlt_con (x := x) hok (blockP x cfg)
    exact ends_step hc inferInstance
  have hi : Into L (blockP x cfg) L := by
    rw [hbp]
    exact into_step hc
  unfold parseMarkdown
  rw [parseMarkdownF_eq hok (by omega), parseMarkdownF_eq hok (by omega)]
  unfold terminated mapP seq
  rcases ends_many0 he hi s hL with e | ⟨a, e1, e2⟩
  · rw [e]
    cases e1 : many0 (blockP x cfg) s with
    | none => rfl
    | some y =>
      obtain ⟨r, bs⟩ := y
      simp only [Option.map_some]
      have hr : K r := (into_many0 hi _ _ _ hL e1).k
      have ha := agrees_tail r hr
      unfold seq at ha
      revert ha
      cases many0 (space1 <||> lineEnding) (r ++ u) with
      | none =>
        cases many0 (space1 <||> lineEnding) r with
        | none => simp
        | some z => cases e3 : eof z.1 <;> simp [e3]
      | some w =>
        cases many0 (space1 <||> lineEnding) r with
        | none => cases e3 : eof w.1 <;> simp [e3]
        | some z => cases e3 : eof z.1 <;> cases e4 : eof w.1 <;> simp [e3, e4]
  · rw [e1, e2]

theorem htmlStart_shorter {v : Str} (h : HtmlStart (v ++ cs!"\n\n")) : HtmlStart (v ++ cs!"\n") := by
  have key : ∀ {w r : Str}, w ++ r = v ++ cs!"\n\n" → (r = [] → False) → ∃ r', w ++ r' = v ++ cs!"\n" := by
    intro w r e hr
    have hne : r ≠ [] := fun h => hr h
    refine ⟨r.dropLast, ?_⟩
    have := congrArg List.dropLast e
    rw [List.dropLast_append_of_ne_nil hne] at this
    rw [this, show v ++ cs!"\n\n" = (v ++ cs!"\n") ++ ['\n'] by simp, List.dropLast_concat]
  have last : ∀ {w : Str}, w = v ++ cs!"\n\n" → w.getLast? = some '\n' := by
    rintro w rfl
    simp
  have gt : ∀ {a : Str} {c : Str}, c.getLast? = some '>' → a ++ c = v ++ cs!"\n\n" → False := by
    intro a c hc e
    have := last e
    rw [List.getLast?_append, hc] at this
    simp at this
  have gt2 : ∀ {a c sep : Str}, c.getLast? ≠ some '\n' → c ≠ [] → sep = [' '] ∨ IsNewline sep → a ++ (c ++ sep) = v ++ cs!"\n\n" → False := by
    intro a c sep hc hne hs e
    rcases hs with rfl | rfl | rfl
    · have := last e
      simp [List.getLast?_append] at this
    · have h2 : (a ++ c) ++ ['\n'] = (v ++ ['\n']) ++ ['\n'] := by simpa using e
      have h3 := (List.append_inj' h2 rfl).1
      have := congrArg List.getLast? h3
      rw [List.getLast?_append] at this
      cases e4 : c.getLast? with
      | none => exact hne (List.getLast?_eq_none_iff.1 e4)
      | some d =>
        rw [e4] at this
        simp at this
        subst this
        exact hc e4
    · have h2 : (a ++ c) ++ ['\r', '\n'] = v ++ ['\n', '\n'] := by simpa using e
      have h3 := (List.append_inj' h2 rfl).2
      simp at h3
  generalize hw : v ++ cs!"\n\n" = w at h
  cases h with
  | @raw name sep a close r h1 h2 h3 =>
    obtain ⟨r', hr⟩ := key (w := '<' :: (name ++ (sep ++ (a ++ close)))) (r := r) (by rw [hw]; simp) (by
      rintro rfl
      obtain ⟨n, _, rfl⟩ := h3
      exact gt (a := '<' :: (name ++ (sep ++ (a ++ (cs!"</" ++ n))))) (c := ['>']) rfl (by rw [hw]; simp))
    rw [← hr]
    simpa using HtmlStart.raw (a := a) (r := r') h1 h2 h3
  | @marked o c a r h1 =>
    obtain ⟨r', hr⟩ := key (w := o ++ (a ++ c)) (r := r) (by rw [hw]; simp) (by
      rintro rfl
      refine gt (a := o ++ a) (c := c) ?_ (by rw [hw]; simp)
      cases h1 <;> rfl)
    rw [← hr]
    simpa using HtmlStart.marked (a := a) (r := r') h1
  | @block o name sep r h1 h2 h3 h4 =>
    obtain ⟨r', hr⟩ := key (w := o ++ (name ++ sep)) (r := r) (by rw [hw]; simp) (by
      rintro rfl
      have hne : name ≠ [] := by
        rintro rfl
        exact absurd h2 (by decide)
      have hnl : name.getLast? ≠ some '\n' := by
        intro hl
        have hm : (name.map asciiLower).getLast? = some '\n' := by
          rw [List.getLast?_map, hl]; rfl
        have hall : ∀ t ∈ blockTags, t.getLast? ≠ some '\n' := by decide
        exact hall _ h2 hm
      rcases h4 with h4 | rfl | rfl | h4
      · exact gt2 (a := o) hnl hne (.inl h4) (by rw [hw]; simp)
      · exact gt (a := o ++ name) (c := ['>']) rfl (by rw [hw]; simp)
      · exact gt (a := o ++ name) (c := cs!"/>") rfl (by rw [hw]; simp)
      · exact gt2 (a := o) hnl hne (.inr h4) (by rw [hw]; simp))
    rw [← hr]
    simpa using HtmlStart.block (r := r') h1 h2 h3 h4
  | @tag name t sep r h1 h2 =>
    obtain ⟨r', hr⟩ := key (w := t ++ sep) (r := r) (by rw [hw]; simp) (by
      rintro rfl
      have ht : t.getLast? = some '>' := by
        cases h1 <;> simp [List.getLast?_cons, List.getLast?_append]
      exact gt2 (a := []) (c := t) (by rw [ht]; simp) (by rintro rfl; simp at ht) h2 (by rw [hw]; simp))
    rw [← hr]
    simpa using HtmlStart.tag (r := r') h1 h2

theorem notHtml_newline {s : Str} (h : NotHtml s) : NotHtml (s ++ ['\n']) := by
  rintro ⟨k, v, hk, hv, e⟩
  have e1 : sp k ++ v = s ++ cs!"\n\n" := by rw [← e]; simp
  rcases List.append_eq_append_iff.1 e1 with ⟨w, rfl, rfl⟩ | ⟨w, hw, hv'⟩
  · exact h ⟨k, w ++ ['\n'], hk, htmlStart_shorter hv, by simp⟩
  · cases w with
    | nil =>
      simp at hw hv'
      subst hw
      rw [← hv'] at hv
      exact h ⟨k, ['\n'], hk, htmlStart_shorter (v := []) hv, rfl⟩
    | cons c w =>
      simp at hv'
      have : c ∈ sp k := by rw [hw]; simp
      have := (List.mem_replicate.1 this).2
      rw [← hv'.1] at this
      simp at this

theorem noHtmlLine_newline {s : Str} (h : NoHtmlLine s) : NoHtmlLine (s ++ ['\n']) := by
  refine ⟨notHtml_newline h.1, ?_⟩
  intro a r e
  rcases List.append_eq_append_iff.1 e with ⟨w, rfl, hw⟩ | ⟨w, rfl, hw⟩
  · cases w with
    | nil => simp at hw; subst hw; exact notHtml_nil
    | cons c w => simp at hw
  · cases w with
    | nil => simp at hw; subst hw; exact notHtml_nil
    | cons c w =>
      simp at hw
      obtain ⟨rfl, rfl⟩ := hw
      exact notHtml_newline (h.2 a w rfl)

/-- Neither do any number of newlines behind the text. -/
theorem C83_final_newlines (hok : cfg.CustomOk) (hc : cfg.customBlock = none) {s : Str} (hl : EndsPlainly s) (hh : NoHtmlLine s) (n : Nat) :
    parseMarkdown x cfg (s ++ List.replicate n '\n') = parseMarkdown x cfg s := by
  induction n generalizing s with
  | zero => simp
  | succ n ih =>
    rw [List.replicate_succ, show s ++ '\n' :: List.replicate n '\n' = (s ++ ['\n']) ++ List.replicate n '\n' by simp,
      ih ⟨by simp, by simp⟩ (noHtmlLine_newline hh)]
    exact C83_final_newline hok hc hl hh

/-- In particular if the text contains no `<`. -/
theorem C83_plain (hok : cfg.CustomOk) (hc : cfg.customBlock = none) {s : Str} (hl : EndsPlainly s) (hh : '<' ∉ s) (n : Nat) :
    parseMarkdown x cfg (s ++ List.replicate n '\n') = parseMarkdown x cfg s := by
  have key : ∀ r : Str, '<' ∉ r → NotHtml r := by
    rintro r hr ⟨k, v, _, hv, e⟩
    have h1 := html_open hv
    have h2 : '<' ∈ r ++ ['\n'] := by
      rw [e]
      exact List.mem_append_right _ (List.mem_of_mem_head? h1)
    simp at h2
    exact hr h2
  refine C83_final_newlines hok hc hl ⟨key s hh, ?_⟩ n
  rintro a r rfl
  exact key r (by simp at hh; exact hh.2)

/-- The hypothesis on HTML blocks, line by line. -/
theorem noHtmlLine_of {s : Str} (h : ∀ r ∈ s :: lineRests s, htmlBlockP (r ++ ['\n']) = none) : NoHtmlLine s := by
  have key : ∀ r, htmlBlockP (r ++ ['\n']) = none → NotHtml r := by
    intro r hr hh
    obtain ⟨y, hy⟩ := html_of_at hh
    rw [hr] at hy
    simp at hy
  refine ⟨key s (h s (by simp)), ?_⟩
  intro a r e
  exact key r (h r (by simp [lineRests_of e]))

/-- A heading, a paragraph that begins with `<`, a list and a table that ends the text without a newline. -/
theorem C83_example (ent : Str → Option Str) (n : Nat) :
    parseMarkdown x (PConfig.default ent) (cs!"# T\n\n<http://a.b> c\n- x\n  y\n\n| a |\n|---|\n| b" ++ List.replicate n '\n') =
      parseMarkdown x (PConfig.default ent) cs!"# T\n\n<http://a.b> c\n- x\n  y\n\n| a |\n|---|\n| b" :=
  C83_final_newlines (default_customOk ent) rfl ⟨by decide, by decide⟩ (noHtmlLine_of (by decide +kernel)) n

/-- The hypotheses matter: a destination that ends with a backslash takes the newline with it, so does an HTML
block, and a carriage return at the end of the text belongs to the text. -/
theorem C83_needed :
    parseMarkdown PExt.ascii (PConfig.default fun _ => none) cs!"[a]: b\\" = some ⟨[.definition [.text cs!"a"] cs!"b\\" none]⟩ ∧
    parseMarkdown PExt.ascii (PConfig.default fun _ => none) cs!"[a]: b\\\n" =
      some ⟨[.definition [.text cs!"a"] cs!"b\\\n" none]⟩ ∧
    parseMarkdown PExt.ascii (PConfig.default fun _ => none) cs!"<div>\na" = some ⟨[.htmlBlock cs!"<div>\na"]⟩ ∧
    parseMarkdown PExt.ascii (PConfig.default fun _ => none) cs!"<div>\na\n" = some ⟨[.htmlBlock cs!"<div>\na\n"]⟩ ∧
    parseMarkdown PExt.ascii (PConfig.default fun _ => none) cs!"a\r" = some ⟨[.paragraph [.text cs!"a\r"]]⟩ ∧
    parseMarkdown PExt.ascii (PConfig.default fun _ => none) cs!"a\r\n" = some ⟨[.paragraph [.text cs!"a"]]⟩ := by decide +kernel

end
end Verif
