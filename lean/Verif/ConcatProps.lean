import Verif.ConcatDef
/-!
# C82: documents can be put together
-/
set_option autoImplicit false
set_option linter.unusedVariables false
set_option linter.unusedSimpArgs false
namespace Verif
open Nom

/-! ## Blocks end where lines end -/

/-- What is left is empty or begins at the beginning of a line. -/
def EndsLine {α : Type} (p : P α) : Prop := ∀ s r a, p s = some (r, a) → r = [] ∨ ∃ w, s = w ++ '\n' :: r

section
variable {α β γ : Type} {p : P α} {q : P β}

theorem el_tail {s s1 r w : Str} (h : s1 <:+ s) (hr : r = [] ∨ ∃ w, s1 = w ++ '\n' :: r) :
    r = [] ∨ ∃ w, s = w ++ '\n' :: r := by
  obtain ⟨v, rfl⟩ := h
  rcases hr with rfl | ⟨w, rfl⟩
  · exact .inl rfl
  · exact .inr ⟨v ++ w, by simp⟩

theorem el_eofOrEol : EndsLine eofOrEol := by
  intro s r a h
  rcases orElse_some.1 h with h | ⟨_, h⟩
  · obtain ⟨nl, rfl, hnl⟩ := lineEnding_writes _ _ _ h
    rcases hnl with rfl | rfl
    · exact .inr ⟨[], rfl⟩
    · exact .inr ⟨['\r'], rfl⟩
  · obtain ⟨h1, rfl, _⟩ := eof_some.1 h
    exact .inl rfl

theorem el_seq [Suf p] (hq : EndsLine q) : EndsLine (seq p q) := by
  intro s r a h
  obtain ⟨r1, h1, h2⟩ := seq_some.1 h
  exact el_tail (w := []) (Suf.out _ _ _ h1) (hq _ _ _ h2)

theorem el_preceded [Suf p] (hq : EndsLine q) : EndsLine (preceded p q) := by
  intro s r a h
  obtain ⟨r1, _, h1, h2⟩ := preceded_some.1 h
  exact el_tail (w := []) (Suf.out _ _ _ h1) (hq _ _ _ h2)

theorem el_mapP {k : α → γ} (hp : EndsLine p) : EndsLine (mapP p k) := by
  intro s r a h
  obtain ⟨_, h1, _⟩ := mapP_some.1 h
  exact hp _ _ _ h1

theorem el_value {c : γ} (hp : EndsLine p) : EndsLine (value c p) := el_mapP hp

theorem el_mapOpt {k : α → Option γ} (hp : EndsLine p) : EndsLine (mapOpt p k) := by
  intro s r a h
  obtain ⟨_, h1, _⟩ := mapOpt_some.1 h
  exact hp _ _ _ h1

theorem el_orElse {p' : P α} (hp : EndsLine p) (hp' : EndsLine p') : EndsLine (p <||> p') := by
  intro s r a h
  rcases orElse_some.1 h with h | ⟨_, h⟩
  · exact hp _ _ _ h
  · exact hp' _ _ _ h

theorem el_terminated [Suf p] (hq : EndsLine q) : EndsLine (terminated p q) := el_mapP (el_seq hq)
theorem el_line [Suf p] : EndsLine (lineTerminated p) := el_terminated el_eofOrEol

theorem el_many0 (hp : EndsLine p) : ∀ s r l, many0 p s = some (r, l) → r = s ∨ r = [] ∨ ∃ w, s = w ++ '\n' :: r := by
  refine many0_induction (fun _ _ => .inl rfl) ?_
  intro s r a r' l h1 _ _ ih
  right
  rcases ih with rfl | rfl | ⟨w, rfl⟩
  · exact hp _ _ _ h1
  · exact .inl rfl
  · rcases hp _ _ _ h1 with h | ⟨w', rfl⟩
    · simp at h
    · exact .inr ⟨w' ++ '\n' :: w, by simp⟩

theorem el_then {s s1 r : Str} (h : s1 = [] ∨ ∃ w, s = w ++ '\n' :: s1) (hsuf : s1 <:+ s)
    (h' : r = s1 ∨ r = [] ∨ ∃ w, s1 = w ++ '\n' :: r) : r = [] ∨ ∃ w, s = w ++ '\n' :: r := by
  rcases h' with rfl | h'
  · exact h
  · exact el_tail (w := []) hsuf h'

theorem el_many1 [Suf p] (hp : EndsLine p) : EndsLine (many1 p) := by
  intro s r l h
  obtain ⟨r1, a, l', h1, h2, _⟩ := many1_some.1 h
  exact el_then (hp _ _ _ h1) (Suf.out _ _ _ h1) (el_many0 hp _ _ _ h2)

theorem el_opt {s s1 r : Str} {a : Option α} (hp : EndsLine p) [Suf p] (h : s1 = [] ∨ ∃ w, s = w ++ '\n' :: s1)
    (hsuf : s1 <:+ s) (h' : opt p s1 = some (r, a)) : r = [] ∨ ∃ w, s = w ++ '\n' :: r := by
  rcases opt_some.1 h' with ⟨_, h1, _⟩ | ⟨_, rfl, _⟩
  · exact el_tail (w := []) hsuf (hp _ _ _ h1)
  · exact h

end

section
variable {x : PExt} {cfg : PConfig} {rec : P (List Block)}

theorem el_indented : EndsLine codeBlockIndented := el_mapP (el_many1 (el_preceded el_line))

theorem el_fenced : EndsLine codeBlockFenced := by
  intro s r b h
  unfold codeBlockFenced at h
  split at h
  · simp at h
  · rename_i e1
    split at h
    · simp at h
    · rename_i e2
      simp at h
      obtain ⟨rfl, _⟩ := h
      exact el_tail (w := []) (Suf.out _ _ _ e1) (el_terminated (p := fencedLines _ _) el_line _ _ _ e2)

theorem el_headingV1 : EndsLine (headingV1 x cfg) := by
  intro s r b h
  unfold headingV1 at h
  split at h
  · simp at h
  · rename_i e1
    split at h
    · simp at h
      obtain ⟨rfl, _⟩ := h
      have : Suf (if cfg.allowNoSpaceInHeadings then space0 else space1) := by split <;> infer_instance
      exact el_seq (el_preceded el_line) _ _ _ e1
    · simp at h

theorem el_underline : EndsLine headingV2Level := el_line
theorem el_thematic : EndsLine thematicBreakP := el_value el_line
theorem el_quoteLines : EndsLine quoteLines := el_many1 (el_preceded el_line)

theorem el_alert : EndsLine (githubAlertP x rec) := by
  intro s r b h
  unfold githubAlertP at h
  split at h
  · simp at h
  · split at h
    · simp at h
    · split at h
      · simp at h
      · rename_i e
        have := el_quoteLines _ _ _ e
        simp only at h
        split at h
        · simp at h; obtain ⟨rfl, _⟩ := h; exact this
        · split at h
          · simp at h; obtain ⟨rfl, _⟩ := h; exact this
          · simp at h

theorem el_withSpan : EndsLine listMarkerWithSpanSize := by
  refine el_orElse (el_mapP ?_) (el_mapP (el_seq el_line))
  intro s r b h
  unfold listMarkerFollowedByNewline at h
  split at h
  · simp at h
  · rename_i e1
    split at h
    · rename_i e2
      simp at h; obtain ⟨rfl, _⟩ := h
      exact el_tail (w := []) (Suf.out _ _ _ e1) (el_line (p := space0) _ _ _ e2)
    · split at h
      · simp at h
      · rename_i e3
        exact el_tail (w := []) ((Suf.out _ _ _ e3).trans (Suf.out _ _ _ e1)) (el_mapP (el_line (p := listItemTaskState)) _ _ _ h)

theorem el_restLine {kind : ListKind} {pl : Nat} : EndsLine (listItemRestLine kind pl) := by
  intro s r b h
  unfold listItemRestLine at h
  split at h
  · simp at h
  · exact el_line _ _ _ h

theorem el_item : EndsLine (listItemP rec) := by
  intro s r b h
  unfold listItemP at h
  split at h
  · simp at h
  · rename_i e1
    split at h
    · simp at h
    · rename_i e2
      split at h
      · simp at h
      · simp at h
        obtain ⟨rfl, _⟩ := h
        exact el_then (el_withSpan _ _ _ e1) (Suf.out _ _ _ e1) (el_many0 el_restLine _ _ _ e2)

theorem el_list : EndsLine (listP rec) := by
  intro s r b h
  unfold listP at h
  split at h
  · rename_i e
    simp at h
    obtain ⟨rfl, _⟩ := h
    exact el_many1 el_item _ _ _ e
  · simp at h

theorem el_footnote : EndsLine (footnoteDefinitionP rec) := by
  intro s r b h
  unfold footnoteDefinitionP at h
  split at h
  · simp at h
  · rename_i e1
    split at h
    · simp at h
    · rename_i e2
      split at h
      · simp at h
      · rename_i e3
        split at h
        · simp at h
        · simp at h
          obtain ⟨rfl, _⟩ := h
          exact el_tail (w := []) (Suf.out _ _ _ e1) (el_then (el_preceded (p := indent03) el_line _ _ _ e2)
            (Suf.out _ _ _ e2) (el_many0 (el_preceded el_line) _ _ _ e3))

theorem el_definition : EndsLine (linkDefinitionP x cfg) := el_mapP (el_terminated el_eofOrEol)

theorem el_table : EndsLine (tableP x cfg) := by
  intro s r b h
  unfold tableP at h
  split at h
  · simp at h
  · rename_i e1
    split at h
    · simp at h
    · rename_i e2
      split at h
      · simp at h
      · split at h
        · simp at h
        · rename_i e3
          simp at h
          obtain ⟨rfl, _⟩ := h
          exact el_tail (w := []) (Suf.out _ _ _ e1) (el_then (el_line _ _ _ e2) (Suf.out _ _ _ e2)
            (el_many0 (el_mapP el_line) _ _ _ e3))

theorem suf_pieces : Suf (separatedList0 lineEnding (preceded (notP (notAParagraphLine x cfg rec)) paragraphLine)) := by
  infer_instance

theorem el_paragraph {c : Bool} : EndsLine (paragraphP x cfg rec c) := by
  have h1 : EndsLine (paragraphLines x cfg rec) := el_line
  cases c with
  | true => exact el_mapOpt h1
  | false => exact el_mapOpt (el_mapP (el_seq h1))

theorem el_text : EndsLine (headingV2OrParagraph x cfg rec) := by
  intro s r b h
  obtain ⟨_, h1, _⟩ := mapP_some.1 h
  obtain ⟨r1, h2, h3⟩ := seq_some.1 h1
  have hsuf : Suf (paragraphP x cfg rec true) := by
    show Suf (mapOpt (paragraphLines x cfg rec) _)
    infer_instance
  exact el_opt el_underline (el_paragraph _ _ _ h2) (Suf.out _ _ _ h2) h3

end

/-! ## Texts followed by a blank line -/

section
variable {x : PExt} {cfg : PConfig} {t : Str}

theorem LineOf.trans {a b c : Str} (h1 : LineOf a b) (h2 : LineOf b c) : LineOf a c := by
  rcases h1 with rfl | ⟨w, rfl⟩
  · exact h2
  · rcases h2 with rfl | ⟨v, rfl⟩
    · exact .inr ⟨w, rfl⟩
    · exact .inr ⟨v ++ '\n' :: w, by simp⟩

theorem LineOf.suffix {a b : Str} (h : LineOf a b) : a <:+ b := by
  rcases h with rfl | ⟨w, rfl⟩
  · exact List.suffix_refl _
  · exact ⟨w ++ ['\n'], by simp⟩

theorem Complete.w {s : Str} (h : Complete s) : W s := ⟨h.lines, h.backslash⟩
theorem Complete.n {s : Str} (h : Complete s) (hs : s ≠ []) : N s := ⟨h.w, hs⟩

theorem Complete.line {r s : Str} (h : Complete s) (hr : LineOf r s) : Complete r := by
  have hw := h.w.suffix hr.suffix
  exact ⟨hw.1, hw.2, fun r' t h' => h.fence r' t (h'.trans hr), fun r' t h' => h.html r' t (h'.trans hr),
    fun r' k l h' => h.label r' k l (h'.trans hr), fun r' v h' => h.title r' v (h'.trans hr)⟩

theorem complete_nil : Complete [] := by
  have h0 : ∀ r, LineOf r [] → r = [] := by
    rintro r (h | ⟨a, h⟩)
    · exact h
    · simp at h
  refine ⟨.inl rfl, by simp, ?_, ?_, ?_, ?_⟩
  · intro r t hr h
    obtain rfl := h0 r hr
    obtain ⟨k, n, f, info, e, w, c, e', r, hk, hn, hf, _, _, _, _, _, _, h⟩ := h
    exfalso
    obtain ⟨n, rfl⟩ : ∃ m, n = m + 1 := ⟨n - 1, by omega⟩
    cases k with
    | zero => simp [sp, List.replicate_succ] at h; rcases hf with rfl | rfl <;> simp at h
    | succ k => simp [sp, List.replicate_succ] at h
  · intro r t hr h
    obtain rfl := h0 r hr
    obtain ⟨k, u, hk, h1, h2⟩ := h
    cases k with
    | zero =>
      simp [sp] at h2; subst h2
      have : HtmlAt ('\n' :: t) := ⟨0, _, by omega, h1, rfl⟩
      have h3 := this.first
      obtain ⟨k, c, t', _, h5, h6⟩ := h3
      cases k with
      | zero => simp [sp] at h6; obtain ⟨rfl, _⟩ := h6; revert h5; decide
      | succ k => simp [sp, List.replicate_succ] at h6
    | succ k => simp [sp, List.replicate_succ] at h2
  · intro r k l hr hk h
    obtain rfl := h0 r hr
    cases k <;> simp [sp, List.replicate_succ] at h
  · intro r v hr h
    obtain rfl := h0 r hr
    obtain ⟨k, w, l, g, d, b, _, _, _, _, _, _, _, h⟩ := h
    cases k <;> simp [sp, List.replicate_succ] at h

theorem Complete.cl0 {s : Str} (h : Complete s) (hs : s ≠ []) : Cl0 s :=
  ⟨h.n hs, fun k l hk hs => h.label s k l (.inl rfl) hk hs⟩
theorem Complete.cd0 {s : Str} (h : Complete s) (hs : s ≠ []) : Cd0 s :=
  ⟨h.cl0 hs, fun v hv => h.title s v (.inl rfl) hv⟩

/-- Complete lines, at least one. -/
def Cm (s : Str) : Prop := Complete s ∧ s ≠ []

theorem stays_fenced : StaysOn Cm ('\n' :: t) codeBlockFenced := by
  intro s hs
  cases e : codeBlockFenced s with
  | some y =>
    obtain ⟨r, b⟩ := y
    rw [fenced_stays hs.1.w e]; rfl
  | none =>
    cases e' : codeBlockFenced (s ++ '\n' :: t) with
    | none => rfl
    | some y =>
      obtain ⟨z, hz⟩ := fenced_iff.2 (hs.1.fence s t (.inl rfl) (fenced_iff.1 ⟨_, e'⟩))
      rw [e] at hz; simp at hz

theorem HtmlStart.append {u v : Str} (h : HtmlStart u) : HtmlStart (u ++ v) := by
  cases h with
  | @raw name sep a close r h1 h2 h3 =>
    have := HtmlStart.raw (a := a) (r := r ++ v) h1 h2 h3
    simpa using this
  | @marked o c a r h1 =>
    have := HtmlStart.marked (a := a) (r := r ++ v) h1
    simpa using this
  | @block o name sep r h1 h2 h3 h4 =>
    have := HtmlStart.block (r := r ++ v) h1 h2 h3 h4
    simpa using this
  | @tag name t sep r h1 h2 =>
    have := HtmlStart.tag (r := r ++ v) h1 h2
    simpa using this

theorem stays_html : StaysOn Cm ('\n' :: t) htmlBlockP := by
  intro s hs
  have h1 : ¬ HtmlAt (s ++ '\n' :: t) := hs.1.html s t (.inl rfl)
  have h2 : ¬ HtmlAt s := by
    rintro ⟨k, u, hk, h, rfl⟩
    exact h1 ⟨k, u ++ '\n' :: t, hk, h.append, by simp⟩
  rw [← html_iff] at h1 h2
  cases e : htmlBlockP s with
  | some y => exact absurd ⟨y, e⟩ h2
  | none =>
    cases e' : htmlBlockP (s ++ '\n' :: t) with
    | none => rfl
    | some y => exact absurd ⟨y, e'⟩ h1

theorem stays_blankLine : StaysOn N ('\n' :: t) (lineTerminated space0) := stays_lineTerminated stays_space0 into_space0

theorem blankLine_append {s : Str} (hs : N s) : BlankLineAt (s ++ '\n' :: t) ↔ BlankLineAt s := by
  rw [← blankLine_iff, ← blankLine_iff]
  have := stays_blankLine (t := t) s hs
  rw [this]
  cases lineTerminated space0 s <;> simp

theorem Cm.n {s : Str} (h : Cm s) : N s := h.1.n h.2
theorem Cm.w {s : Str} (h : Cm s) : W s := h.1.w

theorem agrees_unit {α β : Type} {D : Str → Prop} {u : Str} {b : Behavior α} {p : P β} (hb : b = .parse) (h : AgreesOn D u p) :
    AgreesOn D u (conditionalUnit b p) := by
  subst hb; exact agrees_value h

theorem agrees_nap (ha : cfg.AllBlocks) (ht : FlushLeft t) {rec : P (List Block)} :
    AgreesOn Cm ('\n' :: t) (notAParagraphLine x cfg rec) := by
  have hw : ∀ {α : Type} {p : P α}, StaysOn W ('\n' :: t) p → AgreesOn Cm ('\n' :: t) p :=
    fun h s hs => h.agrees s hs.w
  unfold notAParagraphLine
  refine agrees_orElse (agrees_unit ha.headingV1 (hw stays_headingV1)) ?_
  refine agrees_orElse (agrees_unit ha.headingV2 (hw stays_underline)) ?_
  refine agrees_orElse (agrees_unit ha.thematicBreak (hw stays_thematic)) ?_
  refine agrees_orElse (agrees_unit ha.blockquote (hw stays_blockquote)) ?_
  refine agrees_orElse (agrees_unit ha.list (hw (stays_item ht))) ?_
  refine agrees_orElse (agrees_unit ha.codeBlock stays_fenced.agrees) ?_
  refine agrees_orElse (agrees_unit ha.htmlBlock stays_html.agrees) ?_
  refine agrees_orElse (agrees_unit ha.linkDefinition fun s hs => stays_definition.agrees s (hs.1.cd0 hs.2)) ?_
  refine agrees_orElse (agrees_unit ha.footnoteDefinition fun s hs => stays_footnote.agrees s (hs.1.cl0 hs.2)) ?_
  refine agrees_orElse (agrees_unit ha.table (hw stays_table)) ?_
  refine agrees_orElse (agrees_value ?_) (agrees_value fun s hs => stays_blankLine.agrees s hs.n)
  intro s hs
  rw [ha.keeps.customBlock]; rfl

/-! ## Paragraphs -/

/-- The text begins with a line end, and what comes after it is complete. -/
def Lb (s : Str) : Prop := N s ∧ BlankLineAt s ∧ ∀ r e, lineEnding s = some (r, e) → Complete r

theorem stays_paraLine : StaysOn W ('\n' :: t) paragraphLine :=
  (stays_preceded (D' := N) stays_indent03 into_indent03 stays_notEofOrEol1.n).all ⟨rfl, rfl⟩

theorem into_paraLine : Into Cm paragraphLine Lb := by
  intro s r a hs h
  have hN : N r := into_preceded into_indent03 into_notEofOrEol1 _ _ _ hs.n h
  refine ⟨hN, ?_, ?_⟩
  · obtain ⟨_, _, _, h4⟩ := preceded_some.1 h
    obtain ⟨⟨r2, e⟩, hz⟩ := Option.ne_none_iff_exists'.1 (notEofOrEol1_rest h4)
    obtain ⟨h5, rfl⟩ := LineEnd.of_eofOrEol hz
    exact ⟨[], e, r2, by simp [Blanks], h5, rfl⟩
  · intro r2 e h2
    obtain ⟨w, rfl⟩ := Suf.out _ _ _ h
    obtain ⟨nl, rfl, hnl⟩ := lineEnding_writes _ _ _ h2
    refine hs.1.line (.inr ?_)
    rcases hnl with rfl | rfl
    · exact ⟨w, rfl⟩
    · exact ⟨w ++ ['\r'], by simp⟩

theorem nap_blank (ha : cfg.AllBlocks) {s : Str} (h : BlankLineAt s) :
    preceded (notP (notAParagraphLine x cfg (blockP x cfg))) paragraphLine s = none := by
  have : notAParagraphLine x cfg (blockP x cfg) s ≠ none := (notAPara_iff ha).2 (.inl h)
  cases e : notAParagraphLine x cfg (blockP x cfg) s with
  | none => exact absurd e this
  | some y => simp [preceded, notP, e]

theorem stays_piece (ha : cfg.AllBlocks) (ht : FlushLeft t) :
    StaysOn Complete ('\n' :: t) (preceded (notP (notAParagraphLine x cfg (blockP x cfg))) paragraphLine) := by
  intro s hs
  by_cases hn : s = []
  · subst hn
    rw [List.nil_append, nap_blank ha (s := []) ⟨[], [], [], by simp [Blanks], .inr ⟨rfl, rfl⟩, rfl⟩,
      nap_blank ha (s := '\n' :: t) ⟨[], ['\n'], t, by simp [Blanks], .inl (.inl rfl), rfl⟩]
    rfl
  · exact stays_preceded (D := Cm) (D' := Cm) (stays_notP (agrees_nap ha ht)) (into_notP fun _ h => h)
      (fun s hs => stays_paraLine s hs.w) s ⟨hs, hn⟩

theorem into_piece (ha : cfg.AllBlocks) :
    Into Complete (preceded (notP (notAParagraphLine x cfg (blockP x cfg))) paragraphLine) Lb := by
  intro s r a hs h
  by_cases hn : s = []
  · subst hn
    rw [nap_blank ha (s := []) ⟨[], [], [], by simp [Blanks], .inr ⟨rfl, rfl⟩, rfl⟩] at h
    simp at h
  · exact into_preceded (D' := Cm) (into_notP fun _ h => h) into_paraLine _ _ _ ⟨hs, hn⟩ h

theorem stays_pieces (ha : cfg.AllBlocks) (ht : FlushLeft t) {s : Str} (hs : Cm s) :
    paragraphLines x cfg (blockP x cfg) (s ++ '\n' :: t) =
      (paragraphLines x cfg (blockP x cfg) s).map fun y => (y.1 ++ '\n' :: t, y.2) := by
  refine stays_terminated (D := Cm) (D' := N) ?_ ?_ stays_eofOrEol s hs
  · intro s hs
    unfold separatedList0
    rw [stays_piece ha ht s hs.1]
    cases e : preceded (notP (notAParagraphLine x cfg (blockP x cfg))) paragraphLine s with
    | none => rfl
    | some y =>
      simp only [Option.map_some]
      have hl : StaysOn Lb ('\n' :: t) (sepLoop lineEnding (preceded (notP (notAParagraphLine x cfg (blockP x cfg))) paragraphLine)) :=
        stays_sepLoop (D' := Complete) (fun s hs => stays_lineEnding s hs.1) (fun s r e hs h => hs.2.2 r e h)
          (stays_piece ha ht) (into_piece ha)
      rw [hl y.1 (into_piece ha _ _ _ hs.1 e)]
      cases sepLoop lineEnding (preceded (notP (notAParagraphLine x cfg (blockP x cfg))) paragraphLine) y.1 <;> rfl
  · intro s r l hs h
    rcases separatedList0_some.1 h with ⟨_, rfl, _⟩ | ⟨r1, a, l', h1, h2, _⟩
    · exact hs.n
    · exact (into_sepLoop (D := Lb) (D' := Complete) (fun s r e hs h => hs.2.2 r e h) (into_piece ha) _ _ _
        (into_piece ha _ _ _ hs.1 h1) h2).1

theorem stays_piecesAfter (ha : cfg.AllBlocks) {s : Str} (hs : Lb s) :
    paragraphLines x cfg (blockP x cfg) (s ++ '\n' :: t) =
      (paragraphLines x cfg (blockP x cfg) s).map fun y => (y.1 ++ '\n' :: t, y.2) := by
  refine stays_terminated (D := Lb) (D' := N) ?_ ?_ stays_eofOrEol s hs
  · intro s hs
    unfold separatedList0
    rw [nap_blank ha hs.2.1, nap_blank ha ((blankLine_append hs.1).2 hs.2.1)]
    rfl
  · intro s r l hs h
    rcases separatedList0_some.1 h with ⟨_, rfl, _⟩ | ⟨r1, a, l', h1, h2, _⟩
    · exact hs.1
    · rw [nap_blank ha hs.2.1] at h1; simp at h1

theorem stays_paragraph (ha : cfg.AllBlocks) (ht : FlushLeft t) {c : Bool} :
    StaysOn Cm ('\n' :: t) (paragraphP x cfg (blockP x cfg) c) := by
  cases c with
  | true => exact stays_mapOpt fun s hs => stays_pieces ha ht hs
  | false =>
    refine stays_mapOpt (stays_mapP (stays_seq (D' := Lb) (fun s hs => stays_paraLine s hs.w) into_paraLine ?_))
    exact fun s hs => stays_piecesAfter ha hs

theorem stays_text (ha : cfg.AllBlocks) (ht : FlushLeft t) :
    StaysOn Cm ('\n' :: t) (headingV2OrParagraph x cfg (blockP x cfg)) := by
  have hsuf : Suf (paragraphP x cfg (blockP x cfg) true) := by
    show Suf (mapOpt (paragraphLines x cfg (blockP x cfg)) _)
    infer_instance
  refine stays_mapP (stays_seq (D' := W) (stays_paragraph ha ht) ?_ (stays_opt stays_underline))
  exact fun s r a hs h => hs.w.suffix (Suf.out _ _ _ h)

/-! ## Blocks and documents -/

theorem stays_cond {D : Str → Prop} {u : Str} {b : Behavior Block} {p : P Block} (hb : b = .parse) (h : StaysOn D u p) :
    StaysOn D u (conditionalBlock b p) := by
  subst hb; exact stays_mapP h
theorem el_cond {b : Behavior Block} {p : P Block} (hb : b = .parse) (h : EndsLine p) : EndsLine (conditionalBlock b p) := by
  subst hb; exact el_mapP h

theorem stays_blockAlt (ha : cfg.AllBlocks) (ht : FlushLeft t) :
    StaysOn Cm ('\n' :: t) (blockAlt x cfg (blockP x cfg)) := by
  have hw : ∀ {α : Type} {p : P α}, StaysOn W ('\n' :: t) p → StaysOn Cm ('\n' :: t) p :=
    fun h s hs => h s hs.w
  unfold blockAlt
  refine stays_orElse (stays_cond ha.codeBlock (stays_orElse (hw stays_indented) stays_fenced)) ?_
  refine stays_orElse (stays_cond ha.headingV1 (hw stays_headingV1)) ?_
  refine stays_orElse (stays_cond ha.headingV2 (stays_text ha ht)) ?_
  refine stays_orElse (stays_cond ha.thematicBreak (stays_value (hw stays_thematic))) ?_
  refine stays_orElse (by rw [ha.githubAlert]; exact hw stays_alert) ?_
  refine stays_orElse (stays_cond ha.blockquote (hw stays_blockquote)) ?_
  refine stays_orElse (stays_cond ha.list (hw (stays_list ht))) ?_
  refine stays_orElse (stays_cond ha.htmlBlock (stays_mapP stays_html)) ?_
  refine stays_orElse (stays_cond ha.footnoteDefinition fun s hs => stays_footnote s (hs.1.cl0 hs.2)) ?_
  refine stays_orElse (stays_cond ha.linkDefinition fun s hs => stays_definition s (hs.1.cd0 hs.2)) ?_
  refine stays_orElse (stays_cond ha.table (hw stays_table)) ?_
  refine stays_orElse ?_ (stays_cond ha.keeps.paragraph (stays_mapP (stays_paragraph ha ht)))
  intro s hs
  rw [ha.keeps.customBlock]; rfl

theorem blockAlt_line (ha : cfg.AllBlocks) {s r : Str} {bs : List Block} (hs : Cm s)
    (h : blockAlt x cfg (blockP x cfg) s = some (r, bs)) : r = [] ∨ ∃ w, s = w ++ '\n' :: r := by
  have hh : htmlBlockP s = none := by
    have h1 : ¬ HtmlAt s := by
      rintro ⟨k, u, hk, hst, rfl⟩
      exact hs.1.html _ [] (.inl rfl) ⟨k, u ++ ['\n'], hk, hst.append, by simp⟩
    cases e : htmlBlockP s with
    | none => rfl
    | some y => exact absurd (html_iff.1 ⟨y, e⟩) h1
  unfold blockAlt at h
  rcases orElse_some.1 h with h | ⟨_, h⟩
  · exact el_cond ha.codeBlock (el_orElse el_indented el_fenced) _ _ _ h
  rcases orElse_some.1 h with h | ⟨_, h⟩
  · exact el_cond ha.headingV1 el_headingV1 _ _ _ h
  rcases orElse_some.1 h with h | ⟨_, h⟩
  · exact el_cond ha.headingV2 el_text _ _ _ h
  rcases orElse_some.1 h with h | ⟨_, h⟩
  · exact el_cond ha.thematicBreak (el_value el_thematic) _ _ _ h
  rcases orElse_some.1 h with h | ⟨_, h⟩
  · rw [ha.githubAlert] at h; exact el_alert _ _ _ h
  rcases orElse_some.1 h with h | ⟨_, h⟩
  · exact el_cond ha.blockquote (el_mapOpt el_quoteLines) _ _ _ h
  rcases orElse_some.1 h with h | ⟨_, h⟩
  · exact el_cond ha.list el_list _ _ _ h
  rcases orElse_some.1 h with h | ⟨_, h⟩
  · rw [(block_none ha.htmlBlock).2 (mapP_none.2 hh)] at h; simp at h
  rcases orElse_some.1 h with h | ⟨_, h⟩
  · exact el_cond ha.footnoteDefinition el_footnote _ _ _ h
  rcases orElse_some.1 h with h | ⟨_, h⟩
  · exact el_cond ha.linkDefinition el_definition _ _ _ h
  rcases orElse_some.1 h with h | ⟨_, h⟩
  · exact el_cond ha.table el_table _ _ _ h
  rcases orElse_some.1 h with h | ⟨_, h⟩
  · rw [ha.keeps.customBlock] at h; simp [customParser, failP] at h
  · exact el_cond ha.keeps.paragraph (el_mapP el_paragraph) _ _ _ h

theorem concat_blocks (ha : cfg.AllBlocks) (ht : FlushLeft t) {bt : List Block}
    (h2 : parseMarkdown x cfg t = some ⟨bt⟩) : ∀ n s, s.length ≤ n → Complete s → ∀ bs,
    parseMarkdown x cfg s = some ⟨bs⟩ → parseMarkdown x cfg (s ++ '\n' :: t) = some ⟨bs ++ bt⟩ := by
  have hc := ha.keeps.customOk
  have htx : cfg.text ≠ .ignore := by rw [ha.keeps.text]; simp
  have hp : cfg.paragraph ≠ .ignore := by rw [ha.keeps.paragraph]; simp
  have hnl : parseMarkdown x cfg ('\n' :: t) = some ⟨bt⟩ := by
    have := C39_leading_blank_lines (x := x) hc (b := ['\n']) (BlankLines.lf (sp := []) (by simp) .nil) t
    rw [← h2, ← this]; rfl
  intro n
  induction n with
  | zero =>
    intro s hs _ bs h
    obtain rfl : s = [] := by simpa using hs
    rw [C39_blank x cfg .nil] at h
    simp at h; subst h
    simpa using hnl
  | succ n ih =>
    intro s hs hcm bs h
    by_cases hn : s = []
    · subst hn
      rw [C39_blank x cfg .nil] at h
      simp at h; subst h
      simpa using hnl
    · have hN := hcm.n hn
      by_cases hb : BlankLineAt s
      · obtain ⟨b, e, r, hb1, he, rfl⟩ := hb
        have hne : IsNewline e := by
          rcases he with he | ⟨rfl, rfl⟩
          · exact he
          · exfalso
            have := hN.mem
            simp at this
            rcases hb1 _ this with h | h <;> simp at h
        have hbl : BlankLines (b ++ e) := by
          rcases hne with rfl | rfl
          · exact BlankLines.lf hb1 .nil
          · exact BlankLines.crlf hb1 .nil
        have h3 := C39_leading_blank_lines (x := x) hc hbl r
        rw [List.append_assoc] at h3
        have h4 := C39_leading_blank_lines (x := x) hc hbl (r ++ '\n' :: t)
        have hlt : r.length < (b ++ (e ++ r)).length := by
          rcases hne with rfl | rfl <;> simp <;> omega
        have hline : LineOf r (b ++ (e ++ r)) := by
          rcases hne with rfl | rfl
          · exact .inr ⟨b, rfl⟩
          · exact .inr ⟨b ++ ['\r'], by simp⟩
        have h5 := ih r (by omega) (hcm.line hline) bs (by rw [← h3]; exact h)
        rw [← h5, ← h4]; simp
      · have hcust : Cm s := ⟨hcm, hn⟩
        obtain ⟨r, b, h3, _⟩ := first_block (x := x) ha hb
        have hlt : r.length < s.length := by
          have := blockP_con (x := x) hc
          exact Con.lt h3
        have h4 := h3
        rw [blockP_alt hc (emptyLine_iff.2 hb)] at h4
        have hb' : ¬ BlankLineAt (s ++ '\n' :: t) := fun h => hb ((blankLine_append hN).1 h)
        have h5 : blockP x cfg (s ++ '\n' :: t) = some (r ++ '\n' :: t, [b]) := by
          rw [blockP_alt hc (emptyLine_iff.2 hb')]
          exact (stays_blockAlt ha ht).some hcust h4
        have hr : Complete r := by
          rcases blockAlt_line ha hcust h4 with rfl | ⟨w, rfl⟩
          · exact complete_nil
          · exact hcm.line (.inr ⟨w, rfl⟩)
        rw [parseMarkdown_cons hc h3] at h
        obtain ⟨⟨bs'⟩, h6⟩ := everyDoc (x := x) ha r
        rw [h6] at h
        simp at h; subst h
        rw [parseMarkdown_cons hc h5, ih r (by omega) hr bs' h6]
        rfl

/-- **C82**: a complete text, a blank line and a text whose first line is not indented are parsed to the
blocks of the one and then the blocks of the other. -/
theorem C82_concat (ha : cfg.AllBlocks) {s : Str} {bs bt : List Block} (hs : Complete s) (ht : FlushLeft t)
    (h1 : parseMarkdown x cfg s = some ⟨bs⟩) (h2 : parseMarkdown x cfg t = some ⟨bt⟩) :
    parseMarkdown x cfg (s ++ '\n' :: t) = some ⟨bs ++ bt⟩ :=
  concat_blocks ha ht h2 s.length s (Nat.le_refl _) hs bs h1

/-! ## Cases that meet the hypotheses -/

/-- No line begins, after spaces, with a backtick, a tilde, `<` or `[`. -/
def SimpleLines (s : Str) : Prop :=
  ∀ r k c l, LineOf r s → r = sp k ++ c :: l → c ≠ '`' ∧ c ≠ '~' ∧ c ≠ '<' ∧ c ≠ '['

theorem firstAt_line {r t : Str} {n : Nat} (hw : WholeLines r) (hn : n ≠ 0) (h : FirstAt n (r ++ '\n' :: t)) :
    ∃ k c l, r = sp k ++ c :: l ∧ charClass c = n := by
  obtain ⟨k, c, l, hk, hc, h⟩ := h
  clear hk
  induction k generalizing r with
  | zero =>
    cases r with
    | nil => simp [sp] at h; rw [← h.1] at hc; exact absurd hc.symm hn
    | cons d r => simp [sp] at h; exact ⟨0, d, r, rfl, by rw [h.1]; exact hc⟩
  | succ k ih =>
    cases r with
    | nil => simp [sp, List.replicate_succ] at h
    | cons d r =>
      simp only [sp, List.replicate_succ, List.cons_append, List.cons.injEq] at h
      obtain ⟨rfl, h⟩ := h
      have hw' : WholeLines r := by
        cases r with
        | nil => exact .inl rfl
        | cons e r => rcases hw with h | h
                      · simp at h
                      · exact .inr (by simpa [List.getLast?_cons] using h)
      obtain ⟨k', c', l', rfl, h2⟩ := ih hw' h
      exact ⟨k' + 1, c', l', by simp [sp, List.replicate_succ], h2⟩

/-- Lines that do not begin with a fence, `<` or `[` are complete. -/
theorem SimpleLines.complete {s : Str} (h : SimpleLines s) (hl : WholeLines s) (hb : ¬ cs!"\\\n" <:+ s) : Complete s := by
  have hcl : ∀ r, LineOf r s → WholeLines r := fun r hr => (W.suffix ⟨hl, hb⟩ hr.suffix).1
  refine ⟨hl, hb, ?_, ?_, ?_, ?_⟩
  · intro r t hr hf
    obtain ⟨k, c, l, h1, h2⟩ := firstAt_line (hcl r hr) (by omega) hf.first
    obtain ⟨g1, g2, g3, g4⟩ := h r k c l hr h1
    unfold charClass at h2
    simp [g1, g2] at h2
    split at h2 <;> grind
  · intro r t hr hf
    obtain ⟨k, c, l, h1, h2⟩ := firstAt_line (hcl r hr) (by omega) hf.first
    obtain ⟨g1, g2, g3, g4⟩ := h r k c l hr h1
    unfold charClass at h2
    simp [g1, g2, g3] at h2
    grind
  · intro r k l hr _ h1
    exact absurd rfl (h r k '[' l hr h1).2.2.2
  · rintro r v hr ⟨k, w, l, g, d, b, _, _, _, _, _, _, _, h1⟩
    exact absurd rfl (h r k '[' _ hr h1).2.2.2

/-- **C82** in other words: a complete text is a document of its own. -/
theorem C82_complete (ha : cfg.AllBlocks) {s : Str} (hs : Complete s) : Standalone x cfg s := by
  intro t ht
  obtain ⟨⟨bs⟩, h1⟩ := everyDoc (x := x) ha s
  obtain ⟨⟨bt⟩, h2⟩ := everyDoc (x := x) ha t
  exact ⟨bs, bt, h1, h2, C82_concat ha hs ht h1 h2⟩

theorem standalone_of (ha : cfg.AllBlocks) {p b : Str} {bs : List Block} (hb : BlankLines b)
    (h : ∀ rest, parseMarkdown x cfg (p ++ rest) = (parseMarkdown x cfg rest).map fun d => ⟨bs ++ d.blocks⟩) :
    Standalone x cfg (p ++ b) := by
  have hc := ha.keeps.customOk
  intro t ht
  obtain ⟨⟨bt⟩, h2⟩ := everyDoc (x := x) ha t
  refine ⟨bs, bt, ?_, h2, ?_⟩
  · have := C39_leading_blank_lines (x := x) hc hb []
    rw [List.append_nil] at this
    rw [h, this, parseMarkdown_nil]
    simp
  · have h3 := C39_leading_blank_lines (x := x) hc hb ('\n' :: t)
    have h4 := C39_leading_blank_lines (x := x) hc (b := ['\n']) (BlankLines.lf (sp := []) (by simp) .nil) t
    simp only [List.singleton_append] at h4
    rw [List.append_assoc, h, h3, h4, h2]
    rfl

/-- **C82**: a fenced code block is a document of its own, whatever its lines. -/
theorem C82_fence (ha : cfg.AllBlocks) {f : Char} {k n k' m : Nat} {nl info e : Str} {ls : List Str} (hk : k ≤ 3)
    (hf : f = '`' ∨ f = '~') (hn : 3 ≤ n) (hi : OneLine info) (hi2 : info.head? ≠ some f) (hk' : k' ≤ 3) (hm : n ≤ m)
    (hnl : IsNewline nl) (hls : ∀ l ∈ ls, OneLine l ∧ ¬ ClosesFence f n l) (he : IsNewline e) :
    Standalone x cfg (sp k ++ (List.replicate n f ++ (info ++ (nl ++ (unlines nl ls ++ (sp k' ++ (List.replicate m f ++ e))))))) := by
  have h : ∀ rest, parseMarkdown x cfg ((sp k ++ (List.replicate n f ++ (info ++ (nl ++ (unlines nl ls ++
      (sp k' ++ (List.replicate m f ++ e))))))) ++ rest) = (parseMarkdown x cfg rest).map fun d =>
        ⟨[.codeBlock (.fenced (if info = [] then none else some info)) (joinWith ['\n'] (ls.map (dropSpaces k)))] ++ d.blocks⟩ := by
    intro rest
    have := C43_fenced (x := x) ha.keeps.customOk ha.codeBlock hk hf hn hi hi2 hk' hm hnl hls (e := e) (rest := rest) (.inl he)
    rw [show (sp k ++ (List.replicate n f ++ (info ++ (nl ++ (unlines nl ls ++ (sp k' ++ (List.replicate m f ++ e))))))) ++ rest =
      List.replicate k ' ' ++ (List.replicate n f ++ (info ++ (nl ++
        (unlines nl ls ++ (List.replicate k' ' ' ++ (List.replicate m f ++ (e ++ rest))))))) by simp [sp], this]
    rfl
  have h' := standalone_of (x := x) ha (b := []) .nil h
  rwa [List.append_nil] at h'

/-- **C82**: so is an HTML comment, processing instruction, declaration or CDATA section. -/
theorem C82_comment (ha : cfg.AllBlocks) {k : Nat} {op cl body b : Str} (hk : k ≤ 3) (hm : HtmlMarkers op cl)
    (hb : ¬ cl <:+: body ++ cl.dropLast) (hbl : BlankLines b) :
    Standalone x cfg (sp k ++ (op ++ body ++ cl) ++ b) := by
  refine standalone_of (x := x) ha (bs := [.htmlBlock (op ++ body ++ cl)]) hbl fun rest => ?_
  have := C54_markers (x := x) ha.keeps.customOk ha.htmlBlock hk hm hb (rest := rest)
  rw [← List.append_assoc] at this
  exact this

/-- **C82**: documents of their own can be put together again and again. -/
theorem C82_join {s : Str} (hs : Standalone x cfg s) (h0 : t ≠ []) (ht : FlushLeft t) (h : Standalone x cfg t) :
    Standalone x cfg (s ++ '\n' :: t) := by
  intro u hu
  obtain ⟨bt, bu, h1, h2, h3⟩ := h u hu
  obtain ⟨bs, bt', h4, h5, h6⟩ := hs t ht
  obtain rfl : bt = bt' := by rw [h1] at h5; simpa using h5
  obtain ⟨bs', b, h7, h8, h9⟩ := hs (t ++ '\n' :: u) (by
    cases t with
    | nil => exact absurd rfl h0
    | cons c t => exact ht)
  obtain rfl : bs = bs' := by rw [h4] at h7; simpa using h7
  obtain rfl : bt ++ bu = b := by rw [h3] at h8; simpa using h8
  refine ⟨bs ++ bt, bu, h6, h2, ?_⟩
  rw [← List.append_assoc] at h9
  simpa using h9

theorem standalone_pieces : ∀ ss : List Str, (∀ s ∈ ss, s ≠ [] ∧ FlushLeft s ∧ Standalone x cfg s) → ∀ s, Standalone x cfg s →
    Standalone x cfg (joinWith ['\n'] (s :: ss)) ∧
    ∀ bs : List (List Block), (s :: ss).map (parseMarkdown x cfg) = bs.map (fun b => some ⟨b⟩) →
      parseMarkdown x cfg (joinWith ['\n'] (s :: ss)) = some ⟨bs.flatten⟩ := by
  intro ss
  induction ss with
  | nil =>
    intro _ s hs
    refine ⟨hs, ?_⟩
    intro bs h
    match bs, h with
    | [b], h => simpa [joinWith] using h
    | [], h => simp at h
    | _ :: _ :: _, h => simp at h
  | cons t ss ih =>
    intro h s hs
    obtain ⟨g1, g2, g3⟩ := h t (by simp)
    obtain ⟨h1, h2⟩ := ih (fun u hu => h u (by simp [hu])) t g3
    have hne : joinWith ['\n'] (t :: ss) ≠ [] := by
      cases ss with
      | nil => exact g1
      | cons u ss => simp [joinWith]
    have hfl : FlushLeft (joinWith ['\n'] (t :: ss)) := by
      cases t with
      | nil => exact absurd rfl g1
      | cons c t => cases ss with
        | nil => exact g2
        | cons u ss => simpa [joinWith, FlushLeft] using g2
    have he : joinWith ['\n'] (s :: t :: ss) = s ++ '\n' :: joinWith ['\n'] (t :: ss) := by simp [joinWith]
    rw [he]
    refine ⟨C82_join hs hne hfl h1, ?_⟩
    intro bs hbs
    match bs, hbs with
    | b :: bs, hbs =>
      rw [List.map_cons, List.map_cons (l := bs), List.cons.injEq] at hbs
      obtain ⟨bs', bt, k1, k2, k3⟩ := hs _ hfl
      rw [h2 bs hbs.2] at k2
      rw [hbs.1] at k1
      simp at k1 k2
      rw [k3, ← k1, ← k2]
      rfl

/-- **C82**: the blocks of documents of their own with blank lines between them are the blocks of the
documents in order. -/
theorem C82_pieces {s : Str} {ss : List Str} {bs : List (List Block)} (hs : Standalone x cfg s)
    (hss : ∀ s ∈ ss, s ≠ [] ∧ FlushLeft s ∧ Standalone x cfg s)
    (h : (s :: ss).map (parseMarkdown x cfg) = bs.map (fun b => some ⟨b⟩)) :
    parseMarkdown x cfg (joinWith ['\n'] (s :: ss)) = some ⟨bs.flatten⟩ :=
  (standalone_pieces ss hss s hs).2 bs h

/-- **C82**, where the hypothesis can be read off the lines: if no line of the first text begins, after
spaces, with a backtick, a tilde, `<` or `[`. -/
theorem C82_simple (ha : cfg.AllBlocks) {s : Str} {bs bt : List Block} (hl : WholeLines s) (hb : ¬ cs!"\\\n" <:+ s)
    (hs : SimpleLines s) (ht : FlushLeft t) (h1 : parseMarkdown x cfg s = some ⟨bs⟩)
    (h2 : parseMarkdown x cfg t = some ⟨bt⟩) : parseMarkdown x cfg (s ++ '\n' :: t) = some ⟨bs ++ bt⟩ :=
  C82_concat ha (hs.complete hl hb) ht h1 h2

/-- What is left of the text from each of its lines on. -/
def lineRests : Str → List Str
  | [] => []
  | '\n' :: r => r :: lineRests r
  | _ :: r => lineRests r

theorem lineRests_of {r s a : Str} (h : s = a ++ '\n' :: r) : r ∈ lineRests s := by
  subst h
  induction a with
  | nil => simp [lineRests]
  | cons c a ih =>
    by_cases hc : c = '\n'
    · subst hc; simp [lineRests, ih]
    · simp only [List.cons_append]; unfold lineRests; split <;> simp_all

theorem simpleLines_of {s : Str} (h : ∀ r ∈ s :: lineRests s, ∀ c, (r.dropWhile (· == ' ')).head? = some c →
    c ≠ '`' ∧ c ≠ '~' ∧ c ≠ '<' ∧ c ≠ '[') : SimpleLines s := by
  intro r k c l hr he
  by_cases hc : c = ' '
  · subst hc; decide
  · refine h r ?_ c ?_
    · rcases hr with rfl | ⟨a, hr⟩
      · simp
      · exact List.mem_cons_of_mem _ (lineRests_of hr)
    · subst he
      rw [List.dropWhile_append_of_pos (by simp [sp])]
      simp [hc]

/-- A heading, a quote, a list and a paragraph. -/
example : SimpleLines cs!"# t\n\n> q\n\n- a\n- b\n\n12 ~`\n" :=
  simpleLines_of (by decide)

/-- A definition and a footnote are complete, a definition that could go on is not. -/
example : labelCloses cs!"a]: b\n" = true ∧ labelCloses cs!"^a]: b\n" = true ∧ labelCloses cs!"a\n" = false := by decide

/-- Five documents: a heading and a list, a code block that contains what looks like a list and a heading, a
comment, a paragraph and a quote. -/
theorem C82_example (ent : Str → Option Str) (bs : List (List Block))
    (h : [cs!"# t\n\n- a\n- b\n", cs!"~~~\n- x\n\n# y\n~~~\n", cs!"<!-- c\n\n-->\n", cs!"p\nq\n", cs!"> r\n"].map
      (parseMarkdown x (PConfig.default ent)) = bs.map (fun b => some ⟨b⟩)) :
    parseMarkdown x (PConfig.default ent)
      cs!"# t\n\n- a\n- b\n\n~~~\n- x\n\n# y\n~~~\n\n<!-- c\n\n-->\n\np\nq\n\n> r\n" = some ⟨bs.flatten⟩ := by
  have ha := allBlocks_default ent
  have hsim : ∀ s, s = cs!"# t\n\n- a\n- b\n" ∨ s = cs!"p\nq\n" ∨ s = cs!"> r\n" → Standalone x (PConfig.default ent) s := by
    rintro s (rfl | rfl | rfl) <;>
      exact C82_complete ha ((simpleLines_of (by decide)).complete (.inr (by decide)) (by decide))
  have hf : Standalone x (PConfig.default ent) cs!"~~~\n- x\n\n# y\n~~~\n" := by
    refine C82_fence (k := 0) (f := '~') (n := 3) (info := []) (nl := ['\n']) (ls := [cs!"- x", [], cs!"# y"]) (k' := 0) (m := 3)
      (e := ['\n']) ha (by omega) (.inr rfl) (by omega) (by intro c hc; simp at hc) (by simp) (by omega) (by omega) (.inl rfl) ?_ (.inl rfl)
    intro l hl
    have hno : '~' ∉ l := by
      simp at hl
      rcases hl with rfl | rfl | rfl <;> decide
    refine ⟨?_, ?_⟩
    · simp at hl
      rcases hl with rfl | rfl | rfl <;> (intro c hc; revert c; decide)
    · rintro ⟨a, b, h1, h2, rfl⟩
      apply hno
      obtain ⟨b, rfl⟩ : ∃ m, b = m + 1 := ⟨b - 1, by omega⟩
      simp [List.replicate_succ]
  have hm : Standalone x (PConfig.default ent) cs!"<!-- c\n\n-->\n" :=
    C82_comment (k := 0) (body := cs!" c\n\n") (b := ['\n']) ha (by omega) .comment (by decide)
      (BlankLines.lf (sp := []) (by simp) .nil)
  rw [show cs!"# t\n\n- a\n- b\n\n~~~\n- x\n\n# y\n~~~\n\n<!-- c\n\n-->\n\np\nq\n\n> r\n" = joinWith ['\n']
    [cs!"# t\n\n- a\n- b\n", cs!"~~~\n- x\n\n# y\n~~~\n", cs!"<!-- c\n\n-->\n", cs!"p\nq\n", cs!"> r\n"] by decide]
  refine C82_pieces (hsim _ (.inl rfl)) ?_ h
  intro s hs
  simp at hs
  rcases hs with rfl | rfl | rfl | rfl
  · exact ⟨by decide, by simp [FlushLeft], hf⟩
  · exact ⟨by decide, by simp [FlushLeft], hm⟩
  · exact ⟨by decide, by simp [FlushLeft], hsim _ (.inr (.inl rfl))⟩
  · exact ⟨by decide, by simp [FlushLeft], hsim _ (.inr (.inr rfl))⟩

/-- The hypotheses matter: a fence that is not closed, a list in front of an indented line, an HTML block that
takes the blank line with it, a bracket that is not closed, a title that is not closed. -/
theorem C82_needed :
    parseMarkdown PExt.ascii (PConfig.default fun _ => none) cs!"~~~\na\n" = some ⟨[.paragraph [.text cs!"~~~\na"]]⟩ ∧
    parseMarkdown PExt.ascii (PConfig.default fun _ => none) cs!"~~~\na\n\n~~~\n" =
      some ⟨[.codeBlock (.fenced none) cs!"a\n"]⟩ ∧
    parseMarkdown PExt.ascii (PConfig.default fun _ => none) cs!"- a\n\n  b\n" =
      some ⟨[.list (.bullet .dash) [.mk none [.paragraph [.text cs!"a"], .paragraph [.text cs!"b"]]]]⟩ ∧
    parseMarkdown PExt.ascii (PConfig.default fun _ => none) cs!"  b\n" = some ⟨[.paragraph [.text cs!"b"]]⟩ ∧
    parseMarkdown PExt.ascii (PConfig.default fun _ => none) cs!"<a>\nb\n" = some ⟨[.htmlBlock cs!"<a>\nb\n"]⟩ ∧
    parseMarkdown PExt.ascii (PConfig.default fun _ => none) cs!"<a>\nb\n\nc" =
      some ⟨[.htmlBlock cs!"<a>\nb\n\n", .paragraph [.text cs!"c"]]⟩ ∧
    parseMarkdown PExt.ascii (PConfig.default fun _ => none) cs!"[a\n\nb]: c\n" =
      some ⟨[.definition [.text cs!"a\n\nb"] cs!"c" none]⟩ ∧
    parseMarkdown PExt.ascii (PConfig.default fun _ => none) cs!"[a]: b \"c\n\nd\"\n" =
      some ⟨[.definition [.text cs!"a"] cs!"b" (some cs!"c\n\nd")]⟩ := by decide +kernel

end

end Verif
