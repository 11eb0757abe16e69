import Verif.BlockExactHtml
import Verif.InlineExactMain
/-!
# Headings and definitions, exactly (for C85)
-/
set_option autoImplicit false
set_option linter.unusedVariables false
set_option linter.unusedSimpArgs false
namespace Verif.Exact
open Nom

section
variable {x : PExt} {cfg : PConfig}

/-- `R` says how the configuration reads texts as inlines. -/
structure InlineSem (x : PExt) (cfg : PConfig) (R : Str → List Inline → Prop) : Prop where
  many0 : ∀ t l, parseInlines0 x cfg t = some l ↔ R t l
  many1 : ∀ t l, t ≠ [] → (parseInlines1 x cfg t = some l ↔ R t l)

theorem sem_readAs (hc : cfg.CustomOk) (hi : InlineParse cfg) : InlineSem x cfg (ReadAs x cfg.entities) :=
  ⟨C84_exact hc hi, fun t l ht => by rw [parse1_eq hc hi ht]; exact C84_exact hc hi _ _⟩

variable {R : Str → List Inline → Prop}

/-! ## Headings -/

theorem atx_exact (hR : InlineSem x cfg R) {s r : Str} {b : Block} : headingV1 x cfg s = some (r, b) ↔
    ∃ n m t e l, HeadingMark cfg n m t ∧ t ≠ [] ∧ LineWritten t e r ∧ R t l ∧
      s = m ++ (t ++ (e ++ r)) ∧ b = .heading (.atx n) l := by
  constructor
  · intro hp
    unfold headingV1 at hp
    split at hp
    · simp at hp
    · rename_i r1 hashes content e1
      split at hp
      · rename_i l e2
        simp at hp
        obtain ⟨rfl, rfl⟩ := hp
        obtain ⟨s1, h1, h2⟩ := seq_some.1 e1
        obtain ⟨n, h3, h4, h5, rfl, h6⟩ := manyMN_chr_some _ _ _ _ _ (by omega) h1
        simp only at h5
        subst h5
        obtain ⟨s2, b, h7, h8⟩ := preceded_some.1 h2
        obtain ⟨e, rfl, h9, h10⟩ := line1_written h8
        have hb : s1 = b ++ (content ++ (e ++ r1)) ∧ Blanks b ∧ (b = [] → cfg.allowNoSpaceInHeadings = true) ∧
            (content ++ (e ++ r1)).head? ≠ some ' ' ∧ (content ++ (e ++ r1)).head? ≠ some '\t' := by
          split at h7
          · rename_i hc
            obtain ⟨h1, h2, h3, h4⟩ := space0_all h7
            exact ⟨h1, h2, fun _ => hc, h3, h4⟩
          · obtain ⟨h1, h2, h3, h4, h5⟩ := space1_all h7
            exact ⟨h1, h3, fun h => absurd h h2, h4, h5⟩
        obtain ⟨rfl, hb1, hb2, hb3, hb4⟩ := hb
        have hhead : (content ++ (e ++ r1)).head? = content.head? := by
          cases content with
          | nil => exact absurd rfl h9
          | cons c t => rfl
        rw [hhead] at hb3 hb4
        refine ⟨n, List.replicate n '#' ++ b, content, e, l, ⟨h3, h4, b, hb1, hb2, ?_, hb3, hb4, rfl⟩, h9, h10,
          (hR.many0 _ _).1 e2, by simp, by rw [List.length_replicate]⟩
        rintro rfl hn
        rcases h6 with h6 | h6
        · omega
        · rw [List.nil_append, hhead] at h6; exact h6
      · simp at hp
  · rintro ⟨n, m, t, e, l, ⟨h1, h2, b, h3, h4, h5, h6, h7, rfl⟩, h8, h9, h10, rfl, rfl⟩
    obtain ⟨c, t, rfl⟩ := List.exists_cons_of_ne_nil h8
    have hrun : manyMN (chr '#') 1 6 (List.replicate n '#' ++ (b ++ (c :: t ++ (e ++ r)))) =
        some (b ++ (c :: t ++ (e ++ r)), List.replicate n '#') := by
      by_cases hn : n < 6
      · refine manyMN_chr h1 h2 ?_
        cases b with
        | nil => simpa using h5 rfl hn
        | cons d b =>
          rcases h3 d (by simp) with rfl | rfl <;> simp
      · have : n = 6 := by omega
        subst this
        exact manyMN_max h1
    obtain ⟨k1, k2⟩ := takeWhile_span' (f := isSpace) (a := b) (t := c :: t ++ (e ++ r)) (fun c hc => isSpace_iff.2 (h3 c hc)) (by
      intro d hd
      simp at hd; subst hd
      simp at h6 h7
      simp [isSpace, h6, h7])
    have hspc : (if cfg.allowNoSpaceInHeadings then space0 else space1) (b ++ (c :: t ++ (e ++ r))) =
        some (c :: t ++ (e ++ r), b) := by
      split
      · show some (_, _) = _
        rw [k1, k2]
      · rename_i hs
        exact takeWhile1_some.2 ⟨k1.symm, k2.symm, fun hb => hs (h4 hb)⟩
    have : Nom.seq (manyMN (chr '#') 1 6)
        (preceded (if cfg.allowNoSpaceInHeadings then space0 else space1)
          (lineTerminated notEofOrEol1)) (List.replicate n '#' ++ b ++ (c :: t ++ (e ++ r))) =
          some (r, (List.replicate n '#', c :: t)) := by
      rw [List.append_assoc]
      exact seq_some.2 ⟨_, hrun, preceded_some.2 ⟨_, _, hspc,
          terminated_some.2 ⟨e ++ r, e, notEofOrEol1_lineWritten (by simp) h9, h9.ends.eofOrEol⟩⟩⟩
    unfold headingV1
    rw [this]
    simp only [(hR.many0 _ _).2 h10, List.length_replicate]

/-! ## Definitions -/

theorem destDef_of {s r d : Str} (h : linkDestination s = some (r, d)) : ∃ w, s = w ++ r ∧ DefDest w r d := by
  obtain ⟨w, hw, h'⟩ := linkDestination_writes _ _ _ h
  cases h' with
  | bare h1 h2 => exact ⟨_, hw, .inl (.bare h1 h2)⟩
  | angle h1 => exact ⟨_, hw, .inl (.angle h1)⟩
  | @back d0 hbd =>
    obtain ⟨w', hw', hd⟩ := destAt_of h
    have : w' = d0 ++ ['\\'] := by
      rw [hw] at hw'
      exact (List.append_cancel_right hw').symm
    subst this
    rcases hd with ⟨d', hd⟩ | ⟨d1, hb, hd1, hd⟩
    · generalize hw0 : d0 ++ ['\\'] = w0 at hd hw h
      cases hd with
      | angle _ =>
        have := congrArg List.getLast? hw0
        simp at this
        rw [List.getLast?_cons] at this
        simp at this
      | bare h1 h2 => exact ⟨_, hw, .inl (.bare h1 h2)⟩
    · exact ⟨_, hw, .inr ⟨hd, rfl, d1, hb, hd1⟩⟩

theorem DefDest.at_ {w v d : Str} (h : DefDest w v d) : DestAt w v := by
  rcases h with h | ⟨rfl, rfl, d', h1, rfl⟩
  · exact .inl ⟨_, h⟩
  · exact .inr ⟨d', h1, rfl, rfl⟩

theorem defDest_ok {w v d : Str} (h : DefDest w v d) (hv : DestStop v) : linkDestination (w ++ v) = some (v, d) := by
  rcases h with h | ⟨rfl, rfl, d', h1, rfl⟩
  · exact linkDestination_of h (.inr hv)
  · obtain ⟨d2, h2⟩ := dest_ok (.inr ⟨d', h1, rfl, rfl⟩) hv
    obtain ⟨w, hw, h3⟩ := destDef_of h2
    simp at hw
    subst hw
    rw [h2]
    rcases h3 with h3 | ⟨_, h3, _⟩
    · generalize hw0 : d' ++ ['\\'] = w0 at h3
      cases h3 with
      | angle _ =>
        have := congrArg List.getLast? hw0
        simp at this
        rw [List.getLast?_cons] at this
        simp at this
      | bare _ _ => rfl
    · rw [h3]

theorem defClose_end {v r : Str} {title : Option Str} (h : DefClose v title r) : DefEnd v := by
  rcases h with ⟨g, w, t, e, h1, h2, h3, h4, _⟩ | ⟨_, ⟨e, h1, h2⟩, h3⟩
  · exact .inl ⟨g, w, t, e, r, h1, h2, h3, h4⟩
  · exact .inr ⟨⟨e, r, h1, h2⟩, h3⟩

theorem definition_exact (hR : InlineSem x cfg R) {s r : Str} {b : Block} :
    linkDefinitionP x cfg s = some (r, b) ↔ ∃ t d title l, DefRead s t d title r ∧ R t l ∧
      b = .definition l d title := by
  have hlab : ∀ {t l}, t ≠ [] → (parseInlines1 x cfg t = some l ↔ R t l) := fun ht => hR.many1 _ _ ht
  constructor
  · intro hp
    obtain ⟨⟨l, d, title⟩, h1, rfl⟩ := mapP_some.1 hp
    obtain ⟨s1, e, h2, h3⟩ := terminated_some.1 h1
    obtain ⟨hend, rfl⟩ := LineEnd.of_eofOrEol h3
    obtain ⟨s2, h4, h5⟩ := seq_some.1 h2
    obtain ⟨s3, _, h6, h7⟩ := preceded_some.1 h4
    obtain ⟨k, hk', _, rfl, _⟩ := indent03_written h6
    obtain ⟨t, h8, h9⟩ := (label_iff).1 h7
    obtain ⟨s4, _, h10, h11⟩ := preceded_some.1 h5
    obtain ⟨rfl, _⟩ := chr_some.1 h10
    obtain ⟨s5, _, h12, h13⟩ := preceded_some.1 h11
    have hg : ∃ g, s4 = g ++ s5 ∧ Gap g := by
      obtain ⟨s6, h14, h15⟩ := seq_some.1 h12
      obtain ⟨s7, h16, h17⟩ := seq_some.1 h15
      obtain ⟨b1, rfl, hb1⟩ := space0_writes _ _ _ h14
      obtain ⟨b2, rfl, hb2⟩ := space0_writes _ _ _ h17
      rcases opt_some.1 h16 with ⟨_, h18, _⟩ | ⟨_, rfl, _⟩
      · obtain ⟨nl, rfl, hnl⟩ := lineEnding_writes _ _ _ h18
        exact ⟨b1 ++ (nl ++ b2), by simp, .inr ⟨b1, nl, b2, hb1, hnl, hb2, rfl⟩⟩
      · exact ⟨b1 ++ b2, by simp, .inl (by intro c hc; simp at hc; exact hc.elim (hb1 c) (hb2 c))⟩
    obtain ⟨g, rfl, hg⟩ := hg
    obtain ⟨s6, h14, h15⟩ := seq_some.1 h13
    obtain ⟨wd, rfl, hd⟩ := destDef_of h14
    have hv : DefClose s6 title r := by
      rcases opt_some.1 h15 with ⟨a, h16, h17⟩ | ⟨hn, h16, h17⟩
      · obtain ⟨s7, _, h18, h19⟩ := preceded_some.1 h16
        obtain ⟨g', rfl, hg'⟩ := oneLineWhitespace1_writes _ _ _ h18
        obtain ⟨wt, rfl, hwt⟩ := linkTitle_writes _ _ _ h19
        exact .inl ⟨g', wt, a, e, hg', hwt, hend, by simp, h17⟩
      · subst h16
        refine .inr ⟨h17, ⟨e, hend, rfl⟩, ?_⟩
        rintro ⟨g, w, t, r', hg, hw, hs⟩
        obtain ⟨c, r'', hcr, hms⟩ := hw.first
        rw [hs, preceded_some.2 ⟨w ++ r', g, ows_of hg.gap hg.1
          (by rw [hcr]; intro d hd; simp at hd; subst hd; exact hms), linkTitle_of hw⟩] at hn
        simp at hn
    exact ⟨t, d, title, l, ⟨k, g, wd, s6, s3, hk', h8, hg, hd, hv, rfl⟩, (hlab h8.ne).1 h9, rfl⟩
  · rintro ⟨t, d, title, l, ⟨k, g, w, v, u, hk, h1, hg, hd, hv, rfl⟩, h2, rfl⟩
    obtain ⟨y, h3⟩ := gap_space (u := w ++ v) hg (destAt_first hd.at_)
    have h4 := defDest_ok hd (defEnd_stop (defClose_end hv))
    have h5 : ∃ e, LineEnd e r ∧ opt (preceded oneLineWhitespace1 linkTitle) v = some (e ++ r, title) := by
      rcases hv with ⟨g, w, t, e, hg, hw, he, rfl, rfl⟩ | ⟨rfl, ⟨e, he, rfl⟩, hn⟩
      · obtain ⟨c, r', hcr, hms⟩ := hw.first
        exact ⟨e, he, opt_some.2 (.inl ⟨t, preceded_some.2 ⟨w ++ (e ++ r), g, ows_of hg.gap hg.1
          (by rw [hcr]; intro d hd; simp at hd; subst hd; exact hms), linkTitle_of hw⟩, rfl⟩)⟩
      · refine ⟨e, he, opt_some.2 (.inr ⟨?_, rfl, rfl⟩)⟩
        cases hp : preceded oneLineWhitespace1 linkTitle (e ++ r) with
        | none => rfl
        | some y =>
          exfalso
          obtain ⟨r', t⟩ := y
          obtain ⟨s1, a, h1, h2⟩ := preceded_some.1 hp
          obtain ⟨g, h3, hg⟩ := oneLineWhitespace1_writes _ _ _ h1
          obtain ⟨w, rfl, hw⟩ := linkTitle_writes _ _ _ h2
          exact hn ⟨g, w, t, r', hg, hw, h3⟩
    obtain ⟨e, he, h5⟩ := h5
    obtain ⟨u', rfl⟩ := h1.head
    have hlabel := (label_iff (rec := parseInlines1 x cfg)).2 ⟨t, h1, (hlab h1.ne).2 h2⟩
    unfold sp
    rw [linkDefinitionP_indent hk (by decide)]
    unfold linkDefinitionP
    refine mapP_some.2 ⟨(l, d, title), terminated_some.2 ⟨e ++ r, e, ?_, he.eofOrEol⟩, rfl⟩
    refine seq_some.2 ⟨':' :: (g ++ (w ++ v)), ?_, ?_⟩
    · rw [preceded_indent (by decide)]
      exact hlabel
    · exact preceded_some.2 ⟨_, _, chr_cons _ _, preceded_some.2 ⟨_, _, h3, seq_some.2 ⟨v, h4, h5⟩⟩⟩

/-! ## Footnotes -/

theorem noteLine_some {s r l : Str} (h : preceded (manyMN (chr ' ') 3 3) (lineTerminated notEofOrEol1) s = some (r, l)) :
    ∃ q e, s = q ++ (l ++ (e ++ r)) ∧ FootnotePrefix q l ∧ LineWritten l e r := by
  obtain ⟨s1, _, h1, h2⟩ := preceded_some.1 h
  obtain ⟨k, h3, h4, _, rfl, _⟩ := manyMN_chr_some _ _ _ _ _ (by omega) h1
  obtain ⟨e, rfl, h5, h6⟩ := line1_written h2
  have : k = 3 := by omega
  subst this
  exact ⟨_, e, rfl, ⟨h5, rfl⟩, h6⟩

theorem noteLine_of {q l e r : Str} (h : FootnotePrefix q l) (he : LineWritten l e r) :
    preceded (manyMN (chr ' ') 3 3) (lineTerminated notEofOrEol1) (q ++ (l ++ (e ++ r))) = some (r, l) ∧
      r.length < (q ++ (l ++ (e ++ r))).length := by
  obtain ⟨h1, rfl⟩ := h
  refine ⟨preceded_some.2 ⟨_, _, manyMN_max (by omega), terminated_some.2 ⟨_, _, notEofOrEol1_lineWritten h1 he, he.ends.eofOrEol⟩⟩, ?_⟩
  simp [sp]
  omega

theorem noteLine_none {s : Str} : preceded (manyMN (chr ' ') 3 3) (lineTerminated notEofOrEol1) s = none ↔
    ¬ ∃ l e r', l ≠ [] ∧ LineWritten l e r' ∧ s = sp 3 ++ (l ++ (e ++ r')) := by
  constructor
  · rintro h ⟨l, e, r', h1, h2, rfl⟩
    rw [(noteLine_of ⟨h1, rfl⟩ h2).1] at h
    simp at h
  · intro h
    cases e : preceded (manyMN (chr ' ') 3 3) (lineTerminated notEofOrEol1) s with
    | none => rfl
    | some y =>
      obtain ⟨q, e, h1, ⟨h2, rfl⟩, h3⟩ := noteLine_some (r := y.1) (l := y.2) e
      exact absurd ⟨y.2, e, y.1, h2, h3, h1⟩ h

theorem footnoteDef_exact {rec : P (List Block)} {s r : Str} {b : Block} : footnoteDefinitionP rec s = some (r, b) ↔
    ∃ label ls bs, FootnoteRead s label ls r ∧ blocks0 rec (joinWith ['\n'] ls) = some bs ∧
      b = .footnoteDefinition label bs := by
  constructor
  · intro h
    unfold footnoteDefinitionP at h
    split at h
    · simp at h
    · rename_i s1 label e1
      split at h
      · simp at h
      · rename_i s2 first e2
        split at h
        · simp at h
        · rename_i s3 rest e3
          split at h
          · simp at h
          · rename_i bs e4
            simp at h
            obtain ⟨rfl, rfl⟩ := h
            rw [itemContent_lines] at e4
            obtain ⟨s4, _, h1, h2⟩ := preceded_some.1 e1
            obtain ⟨k, hk, _, rfl, _⟩ := indent03_written h1
            obtain ⟨s5, _, h3, h4⟩ := preceded_some.1 h2
            have h3 := (tag_some.1 h3).1
            subst h3
            obtain ⟨s6, _, h5, h6⟩ := terminated_some.1 h4
            have h6 := (tag_some.1 h6).1
            subst h6
            have hlab := recognize_append h5
            obtain ⟨lb, h7, _⟩ := recognize_some.1 h5
            have hloop : ∀ s r l, many0 (noneOf cs!"]") s = some (r, l) → ∃ w, s = w ++ r ∧ ']' ∉ w := by
              refine many0_induction ?_ ?_
              · intro s _; exact ⟨[], rfl, by simp⟩
              · intro s r a r' l hp _ _ ih
                obtain ⟨rfl, hc⟩ := satisfy_some.1 hp
                obtain ⟨w, rfl, h⟩ := ih
                refine ⟨a :: w, rfl, ?_⟩
                simp at hc
                simp [h, Ne.symm hc]
            obtain ⟨s7, a, l', h8, h9, _⟩ := many1_some.1 h7
            obtain ⟨h10, hc⟩ := satisfy_some.1 h8
            obtain ⟨wl, h11, h12⟩ := hloop _ _ _ h9
            have hlabel : label = a :: wl := List.append_cancel_right (by rw [hlab, h10, h11]; rfl)
            obtain ⟨s8, _, h13, h14⟩ := preceded_some.1 e2
            obtain ⟨k', hk', _, rfl, h15⟩ := indent03_written h13
            obtain ⟨e, rfl, h16, h17⟩ := line1_written h14
            obtain ⟨w, rfl, h18, h19⟩ := (lines_iff (fun _ _ _ => noteLine_some) (fun _ _ _ _ => noteLine_of)).1 e3
            refine ⟨label, first :: rest, bs, ⟨k, sp k', first, e, w, rest, hk, by rw [hlabel]; simp, ?_, ⟨h16, k', hk', rfl, ?_⟩, h17, h18,
              noteLine_none.1 h19, rfl, ?_⟩, e4, rfl⟩
            · rw [hlabel]
              simp at hc
              simp [h12, Ne.symm hc]
            · rcases h15 with h15 | h15
              · exact .inl h15
              · right
                cases first with
                | nil => exact absurd rfl h16
                | cons c t => simpa using h15
            · rw [← hlab]
  · rintro ⟨label, ls, bs, ⟨k, p, first, e, w, ls', hk, h1, h2, ⟨h3, h3'⟩, h4, h5, h6, rfl, rfl⟩, h7, rfl⟩
    have e1 : preceded indent03 (preceded (tag cs!"[^")
        (terminated (recognize (many1 (noneOf cs!"]"))) (tag cs!"]:")))
        (sp k ++ (cs!"[^" ++ (label ++ (cs!"]:" ++ (p ++ (first ++ (e ++ (w ++ r)))))))) = some (p ++ (first ++ (e ++ (w ++ r))), label) := by
      refine preceded_some.2 ⟨_, _, indent03_replicate hk (by simp), ?_⟩
      refine preceded_some.2 ⟨label ++ (cs!"]:" ++ (p ++ (first ++ (e ++ (w ++ r))))), cs!"[^", tag_append cs!"[^" _, ?_⟩
      refine terminated_some.2 ⟨_, cs!"]:", recognize_of (many1_of_many0 (l := label) ?_ h1),
        tag_append cs!"]:" _⟩
      refine many0_satisfy ?_ ?_
      · intro c hc
        simp
        rintro rfl; exact h2 hc
      · intro c hc; simp at hc; subst hc; rfl
    have e2 : preceded indent03 (lineTerminated notEofOrEol1) (p ++ (first ++ (e ++ (w ++ r)))) = some (w ++ r, first) :=
      preceded_some.2 ⟨_, _, manyMN_indented h3' h4.ends.head, terminated_some.2 ⟨_, _, notEofOrEol1_lineWritten h3 h4, h4.ends.eofOrEol⟩⟩
    have e3 := (lines_iff (fun _ _ _ => noteLine_some) (fun _ _ _ _ => noteLine_of)).2 ⟨w, rfl, h5, noteLine_none.2 h6⟩
    unfold footnoteDefinitionP
    rw [e1]
    simp only [e2, e3, itemContent_lines, h7]

end
end Verif.Exact
