import Verif.ParserTables
/-!
# What link definitions and footnote definitions parse to (C64, C65)
-/
set_option linter.unusedVariables false
namespace Verif
open Nom

/-! ## Specification -/

/-- Spaces and tabs. -/
def Blanks (b : Str) : Prop := ∀ c ∈ b, c = ' ' ∨ c = '\t'

/-- Blanks with at most one line end among them. -/
def Gap (w : Str) : Prop :=
  Blanks w ∨ ∃ b1 nl b2, Blanks b1 ∧ IsNewline nl ∧ Blanks b2 ∧ w = b1 ++ (nl ++ b2)

/-- Text that does not start with a title, apart from white space within a line. -/
def NoTitle (s : Str) : Prop :=
  ∀ b c t, White b → '\n' ∉ b → s = b ++ c :: t → c ≠ '"' ∧ c ≠ '\'' ∧ c ≠ '('

/-- `DefTail s rest t`: after the destination of a definition comes `s`, which is the title `t` if
any, and the end of the line, and then `rest`. -/
inductive DefTail (rest : Str) : Str → Option Str → Prop
  | none {e : Str} : LineEnd e rest → NoTitle rest → DefTail rest (e ++ rest) none
  | title {w src t e : Str} : Gap w → w ≠ [] → LinkTitle src t → LineEnd e rest →
      DefTail rest (w ++ (src ++ (e ++ rest))) (some t)

/-- Text that does not go on with a line of a footnote: three spaces and something. -/
def NotFootnoteLine (s : Str) : Prop :=
  ∀ t, s = List.replicate 3 ' ' ++ t → ∃ e r, LineEnd e r ∧ t = e ++ r

section
variable {x : PExt} {cfg : PConfig}

/-! ## White space -/

theorem Blanks.space {b : Str} (h : Blanks b) : ∀ c ∈ b, isSpace c = true := blanks_space h

theorem space0_of {b u : Str} (h : Blanks b) (hu : ∀ c, u.head? = some c → isSpace c = false) :
    space0 (b ++ u) = some (u, b) := by
  obtain ⟨k1, k2⟩ := takeWhile_span' h.space hu
  show some (_, _) = _
  rw [k1, k2]

theorem newline_head {nl u : Str} (h : IsNewline nl) :
    ∀ c, (nl ++ u).head? = some c → isSpace c = false := by
  intro c hc
  rcases h with rfl | rfl <;> simp at hc <;> subst hc <;> decide

theorem lineEnding_of {nl u : Str} (h : IsNewline nl) : lineEnding (nl ++ u) = some (u, nl) := by
  rcases h with rfl | rfl <;> rfl

theorem lineEnding_none_of {u : Str} (hu : ∀ c, u.head? = some c → isMultispace c = false) :
    lineEnding u = none := by
  cases u with
  | nil => rfl
  | cons c u =>
    have := hu c rfl
    unfold lineEnding
    split
    · simp [isMultispace] at *; simp_all
    · simp [isMultispace] at *; simp_all
    · rfl

theorem notSpace_of {u : Str} (hu : ∀ c, u.head? = some c → isMultispace c = false) :
    ∀ c, u.head? = some c → isSpace c = false := by
  intro c hc
  have := hu c hc
  unfold isMultispace at this
  unfold isSpace
  simp at this ⊢
  exact this.1.1

theorem gap_space {w u : Str} (h : Gap w) (hu : ∀ c, u.head? = some c → isMultispace c = false) :
    ∃ v, seq space0 (seq (opt lineEnding) space0) (w ++ u) = some (u, v) := by
  rcases h with h | ⟨b1, nl, b2, h1, h2, h3, rfl⟩
  · refine ⟨(w, none, []), seq_some.2 ⟨u, space0_of h (notSpace_of hu), seq_some.2 ⟨u, ?_, ?_⟩⟩⟩
    · exact opt_some.2 (.inr ⟨lineEnding_none_of hu, rfl, rfl⟩)
    · exact space0_of (b := []) (by intro c hc; simp at hc) (notSpace_of hu)
  · have hs : b1 ++ (nl ++ b2) ++ u = b1 ++ (nl ++ (b2 ++ u)) := by simp
    rw [hs]
    exact ⟨(b1, some nl, b2), seq_some.2 ⟨_, space0_of h1 (newline_head h2), seq_some.2 ⟨_,
      opt_some.2 (.inl ⟨_, lineEnding_of h2, rfl⟩), space0_of h3 (notSpace_of hu)⟩⟩⟩

theorem ws_blanks {b v u : Str} {l : List Str} (h : Blanks b)
    (hv : ∀ c, v.head? = some c → isSpace c = false)
    (hm : many0 (lineEnding <||> space1) v = some (u, l)) :
    ∃ l', many0 (lineEnding <||> space1) (b ++ v) = some (u, l') ∧ (b ≠ [] → l' ≠ []) ∧ (l ≠ [] → l' ≠ []) := by
  cases hb : b with
  | nil => exact ⟨l, hm, by simp, id⟩
  | cons c b' =>
    rw [← hb]
    obtain ⟨k1, k2⟩ := takeWhile_span' h.space hv
    refine ⟨b :: l, many0_of_some (r := v) ?_ (by rw [hb]; simp; omega) hm, by simp, by simp⟩
    rw [orElse_of_none]
    · exact takeWhile1_some.2 ⟨k1.symm, k2.symm, by rw [hb]; simp⟩
    · have := h c (by rw [hb]; simp)
      rw [hb]
      rcases this with rfl | rfl <;> rfl

theorem ows_of {w u : Str} (h : Gap w) (hne : w ≠ [])
    (hu : ∀ c, u.head? = some c → isMultispace c = false) :
    oneLineWhitespace1 (w ++ u) = some (u, w) := by
  have h0 : many0 (lineEnding <||> space1) u = some (u, []) := by
    refine many0_of_none ?_
    rw [orElse_none]
    refine ⟨lineEnding_none_of hu, ?_⟩
    cases u with
    | nil => rfl
    | cons c u => exact takeWhile1_none_of (notSpace_of hu c rfl)
  have hb0 : ∀ b : Str, Blanks b → b.count '\n' = 0 := by
    intro b hb
    refine List.count_eq_zero.2 (fun hm => ?_)
    rcases hb _ hm with h | h <;> exact absurd h (by decide)
  have key : ∃ l, many0 (lineEnding <||> space1) (w ++ u) = some (u, l) ∧ l ≠ [] ∧ w.count '\n' ≤ 1 := by
    rcases h with h | ⟨b1, nl, b2, h1, h2, h3, rfl⟩
    · obtain ⟨l, h1, h2, _⟩ := ws_blanks h (notSpace_of hu) h0
      exact ⟨l, h1, h2 hne, by rw [hb0 w h]; omega⟩
    · obtain ⟨l, k1, _, _⟩ := ws_blanks h3 (notSpace_of hu) h0
      have k2 : many0 (lineEnding <||> space1) (nl ++ (b2 ++ u)) = some (u, nl :: l) := by
        refine many0_of_some (r := b2 ++ u) (orElse_of_some (lineEnding_of h2)) ?_ k1
        rcases h2 with rfl | rfl <;> simp <;> omega
      obtain ⟨l', k3, _, k4⟩ := ws_blanks h1 (newline_head h2) k2
      have hs : b1 ++ (nl ++ b2) ++ u = b1 ++ (nl ++ (b2 ++ u)) := by simp
      rw [hs]
      refine ⟨l', k3, k4 (by simp), ?_⟩
      rw [List.count_append, List.count_append, hb0 b1 h1, hb0 b2 h3]
      rcases h2 with rfl | rfl <;> decide
  obtain ⟨l, k1, k2, k3⟩ := key
  unfold oneLineWhitespace1
  exact verify_some.2 ⟨recognize_of (many1_of_many0 k1 k2), by simpa using k3⟩

theorem Eats.lineEnding : Eats (fun c => c = ' ' ∨ c = '\t' ∨ c = '\r' ∨ c = '\n') lineEnding := by
  intro s r a h
  unfold Nom.lineEnding at h
  split at h
  · simp at h; exact ⟨['\n'], by simp [h.1], by simp⟩
  · simp at h; exact ⟨['\r', '\n'], by simp [h.1], by simp⟩
  · simp at h

theorem noTitle_of {e rest : Str} (he : LineEnd e rest) (hn : NoTitle rest) :
    preceded oneLineWhitespace1 linkTitle (e ++ rest) = none := by
  cases hp : preceded oneLineWhitespace1 linkTitle (e ++ rest) with
  | none => rfl
  | some y =>
    exfalso
    obtain ⟨r, t⟩ := y
    obtain ⟨s1, w, h1, h2⟩ := preceded_some.1 hp
    unfold oneLineWhitespace1 at h1
    obtain ⟨h3, h4⟩ := verify_some.1 h1
    obtain ⟨l, h5, hw⟩ := recognize_some.1 h3
    obtain ⟨r1, a, l1, h6, h7, _⟩ := many1_some.1 h5
    rcases he with hnl | ⟨rfl, rfl⟩
    · rw [orElse_of_some (lineEnding_of hnl)] at h6
      simp at h6
      obtain ⟨rfl, rfl⟩ := h6
      obtain ⟨b, hb1, hb2⟩ := (Eats.many0 (Eats.lineEnding.orElse (Eats.takeWhile1
        (g := isSpace) (fun c hc => by simp [isSpace] at hc; rcases hc with h | h <;> simp [h])))) _ _ _ h7
      subst hb1
      have hw' : w = e ++ b := by
        rw [hw, ← List.append_assoc, List.length_append, Nat.add_sub_cancel, List.take_left']
        rfl
      have hb3 : '\n' ∉ b := by
        intro hm
        simp only [decide_eq_true_eq] at h4
        rw [hw', List.count_append] at h4
        have := List.count_pos_iff.2 hm
        rcases hnl with rfl | rfl <;> simp at h4 <;> omega
      cases s1 with
      | nil => revert h2; simp [show linkTitle [] = none from rfl]
      | cons c s1 =>
        have := hn b c s1 hb2 hb3 rfl
        rw [linkTitle_none (by simp [this])] at h2
        simp at h2
    · rw [show (lineEnding <||> space1) ([] ++ []) = none from rfl] at h6
      simp at h6

/-! ## Link definitions -/

theorem defTail_opt {s rest : Str} {t : Option Str} (h : DefTail rest s t) :
    ∃ e, LineEnd e rest ∧ opt (preceded oneLineWhitespace1 linkTitle) s = some (e ++ rest, t) := by
  cases h with
  | @none e he hn => exact ⟨e, he, opt_some.2 (.inr ⟨noTitle_of he hn, rfl, rfl⟩)⟩
  | @title w src t e hw hne ht he =>
    refine ⟨e, he, opt_some.2 (.inl ⟨t, preceded_some.2 ⟨src ++ (e ++ rest), w, ?_, linkTitle_of ht⟩, rfl⟩)⟩
    obtain ⟨c, r, hcr, hms⟩ := ht.first
    exact ows_of hw hne (by rw [hcr]; intro d hd; simp at hd; subst hd; exact hms)

theorem Gap.white {w : Str} (h : Gap w) : White w := by
  intro c hc
  rcases h with h | ⟨b1, nl, b2, h1, h2, h3, rfl⟩
  · rcases h c hc with h | h <;> simp [h]
  · rcases List.mem_append.1 hc with h | h
    · rcases h1 c h with h | h <;> simp [h]
    · rcases List.mem_append.1 h with h | h
      · rcases h2 with rfl | rfl
        · simp at h; simp [h]
        · simp at h; rcases h with h | h <;> simp [h]
      · rcases h3 c h with h | h <;> simp [h]

theorem DefTail.destStop {s rest : Str} {t : Option Str} (h : DefTail rest s t) : DestStop s := by
  cases h with
  | @none e he hn =>
    rcases he with (rfl | rfl) | ⟨rfl, rfl⟩ <;> intro c hc <;> simp at hc <;> subst hc <;>
      exact .inl (by decide)
  | @title w src t e hw hne ht he => exact hw.white.destStop (fun h => absurd h hne)

theorem linkDefinitionP_of (hp : AllParse cfg) {k : Nat} {s g src d v rest : Str} {t : Option Str}
    {label : List Inline} (hk : k ≤ 3) (hs : LabelText s) (hr : Reads x cfg.entities s label) (hg : Gap g)
    (hd : LinkDest src d) (hv : DefTail rest v t) :
    linkDefinitionP x cfg (List.replicate k ' ' ++ '[' :: (s ++ (']' :: ':' :: (g ++ (src ++ v))))) =
      some (rest, .definition label d t) := by
  rw [linkDefinitionP_indent hk (by decide)]
  have hne : s ≠ [] := by
    obtain ⟨c, hc, _⟩ := hs.visible
    rintro rfl; simp at hc
  obtain ⟨e, he, hopt⟩ := defTail_opt hv
  obtain ⟨c, r, hcr, hms⟩ := hd.first
  obtain ⟨y, hgap⟩ := gap_space (u := src ++ v) hg
    (by rw [hcr]; intro d hd; simp at hd; subst hd; exact hms)
  unfold linkDefinitionP
  refine mapP_some.2 ⟨(label, d, t), terminated_some.2 ⟨e ++ rest, e, ?_, he.eofOrEol⟩, rfl⟩
  refine seq_some.2 ⟨':' :: (g ++ (src ++ v)), ?_, ?_⟩
  · rw [preceded_indent (by decide)]
    exact linkLabel_of hs (hr.inlines hp.customOk hp.inlines hne)
  · refine preceded_some.2 ⟨_, _, chr_cons _ _, preceded_some.2 ⟨_, _, hgap, ?_⟩⟩
    exact seq_some.2 ⟨v, linkDestination_of hd (.inr hv.destStop), hopt⟩

/-- The alternatives before footnote and link definitions fail on a bracket. -/
theorem late_bracket {k : Nat} {t : Str} (hk : k ≤ 3) :
    lateAlts x cfg (blockP x cfg) (List.replicate k ' ' ++ '[' :: t) =
      (conditionalBlock cfg.footnoteDefinition (footnoteDefinitionP (blockP x cfg)) <||>
      conditionalBlock cfg.linkDefinition (linkDefinitionP x cfg) <||>
      conditionalBlock cfg.table (tableP x cfg) <||>
      customParser cfg.customBlock <||>
      conditionalBlock cfg.paragraph (mapP (paragraphP x cfg (blockP x cfg) false) .paragraph))
        (List.replicate k ' ' ++ '[' :: t) := by
  have h1 : thematicBreakP (List.replicate k ' ' ++ '[' :: t) = none :=
    (thematicBreakP_indent hk (by decide)).trans
      (thematicBreakP_head (by decide) (by decide) (by decide) (by decide))
  unfold lateAlts
  rw [orElse_of_none (conditionalBlock_none (value_none.2 h1)),
    orElse_of_none (conditionalBlockVec_none (githubAlertP_indent_none hk (by decide) (by decide))),
    orElse_of_none (conditionalBlock_none (blockquoteP_indent_none hk (by decide) (by decide))),
    orElse_of_none (conditionalBlock_none (listP_indent_none hk (by decide) (by decide) (by decide)
      (by decide) (by decide))),
    orElse_of_none (conditionalBlock_none (mapP_none.2 ((htmlBlockP_indent hk (by decide)).trans
      (htmlBlockP_head_none (by decide) (by decide)))))]

/-- C64: up to three spaces, a label in brackets (not beginning with `^`), a colon, a destination and
perhaps a title, with at most one line end before the destination and before the title, are a link
definition of the label's inlines, the destination and the title; what follows is parsed on its
own. -/
theorem C64_link_definition (hp : AllParse cfg) (hl : cfg.linkDefinition = .parse) {k : Nat}
    {s g src d v rest : Str} {t : Option Str} {label : List Inline} (hk : k ≤ 3) (hs : LabelText s)
    (hc : s.head? ≠ some '^') (hr : Reads x cfg.entities s label) (hg : Gap g) (hd : LinkDest src d)
    (hv : DefTail rest v t) :
    parseMarkdown x cfg
        (List.replicate k ' ' ++ '[' :: (s ++ (']' :: ':' :: (g ++ (src ++ v))))) =
      (parseMarkdown x cfg rest).map (fun doc => ⟨.definition label d t :: doc.blocks⟩) := by
  have hdef := linkDefinitionP_of hp hk hs hr hg hd hv
  have hfn : footnoteDefinitionP (blockP x cfg)
      (List.replicate k ' ' ++ '[' :: (s ++ (']' :: ':' :: (g ++ (src ++ v))))) = none := by
    rw [footnoteDefinitionP_indent hk (by decide)]
    unfold footnoteDefinitionP
    rw [preceded_indent (by decide), preceded_none]
    rw [tag_none]
    rintro ⟨w, hw⟩
    cases s with
    | nil => simp at hw
    | cons c s => simp at hw hc; exact hc hw.1.symm
  generalize s ++ (']' :: ':' :: (g ++ (src ++ v))) = u at *
  have hn : ∃ y, notAParagraphLine x cfg (blockP x cfg) (List.replicate k ' ' ++ '[' :: u) = some y := by
    cases e : notAParagraphLine x cfg (blockP x cfg) (List.replicate k ' ' ++ '[' :: u) with
    | some y => exact ⟨y, rfl⟩
    | none =>
      exfalso
      unfold notAParagraphLine at e
      simp only [orElse_none, conditionalUnit_none] at e
      obtain ⟨_, _, _, _, _, _, _, h, _⟩ := e
      rw [hl, hdef] at h
      simp at h
  obtain ⟨y, hn⟩ := hn
  refine parseMarkdown_cons hp.customOk (bs := [_]) ?_
  rw [blockP_late hp.customOk hk (by decide) hn, late_bracket hk,
    orElse_of_none (conditionalBlock_none hfn)]
  refine orElse_of_some ?_
  rw [conditionalBlock_parse hl, hdef]
  rfl

/-! ## Footnote definitions -/

theorem footnoteLine_none {s : Str} (h : NotFootnoteLine s) :
    preceded (manyMN (chr ' ') 3 3) (lineTerminated notEofOrEol1) s = none := by
  cases hp : preceded (manyMN (chr ' ') 3 3) (lineTerminated notEofOrEol1) s with
  | none => rfl
  | some y =>
    exfalso
    obtain ⟨r, l⟩ := y
    obtain ⟨s1, w, h1, h2⟩ := preceded_some.1 hp
    have key : ∀ n s r l, manyMN (chr ' ') n n s = some (r, l) → s = List.replicate n ' ' ++ r := by
      intro n
      induction n with
      | zero => intro s r l h; simp [manyMN] at h; simp [h.1]
      | succ n ih =>
        intro s r l h
        rw [manyMN] at h
        cases e : chr ' ' s with
        | none => simp [e] at h
        | some y =>
          obtain ⟨s1, c⟩ := y
          obtain ⟨rfl, rfl⟩ := chr_some.1 e
          simp only [e, List.length_cons, Nat.lt_succ_self, if_true, Nat.add_sub_cancel] at h
          cases e2 : manyMN (chr ' ') n n s1 with
          | none => simp [e2] at h
          | some z =>
            obtain ⟨r', l'⟩ := z
            simp only [e2, Option.some.injEq, Prod.mk.injEq] at h
            obtain ⟨rfl, rfl⟩ := h
            rw [ih _ _ _ e2]; rfl
    obtain ⟨e, r', he, rfl⟩ := h s1 (key 3 s s1 w h1)
    have : lineTerminated notEofOrEol1 (e ++ r') = none :=
      terminated_none (notEofOrEol1_of_some he.eofOrEol)
    rw [this] at h2
    simp at h2

/-- The lines of a footnote: three spaces and a text. -/
inductive FootnoteLines (rest : Str) : Str → List Str → Prop
  | nil : FootnoteLines rest rest []
  | cons {l e s : Str} {ls : List Str} : OneLine l → l ≠ [] → LineEnd e s → FootnoteLines rest s ls →
      FootnoteLines rest (List.replicate 3 ' ' ++ (l ++ (e ++ s))) (l :: ls)

theorem footnoteLines_of {s rest : Str} {ls : List Str} (h : FootnoteLines rest s ls)
    (hr : NotFootnoteLine rest) :
    many0 (preceded (manyMN (chr ' ') 3 3) (lineTerminated notEofOrEol1)) s = some (rest, ls) := by
  induction h with
  | nil => exact many0_of_none (footnoteLine_none hr)
  | @cons l e s ls h1 h2 h3 _ ih =>
    refine many0_of_some (r := s) ?_ (by simp; omega) ih
    refine preceded_some.2 ⟨l ++ (e ++ s), List.replicate 3 ' ', ?_, line1 h1 h2 h3⟩
    simp [List.replicate, manyMN, chr_cons]

theorem itemContent_lines (first : Str) (ls : List Str) :
    itemContent first (ls.map (fun l => [l])) = joinWith ['\n'] (first :: ls) := by
  rw [joinWith_cons_flatten]
  unfold itemContent
  simp [Function.comp_def]

theorem footnoteDefinitionP_of (hc : cfg.CustomOk) {k : Nat} {label first e s rest : Str}
    {ls : List Str} {d : Document} (hk : k ≤ 3) (hl : label ≠ []) (hl' : ']' ∉ label)
    (hf : OneLine first) (hf' : dropSpaces 3 first ≠ []) (he : LineEnd e s)
    (hls : FootnoteLines rest s ls) (hr : NotFootnoteLine rest)
    (hd : parseMarkdown x cfg (joinWith ['\n'] (dropSpaces 3 first :: ls)) = some d) :
    footnoteDefinitionP (blockP x cfg)
        (List.replicate k ' ' ++ '[' :: '^' :: (label ++ (']' :: ':' :: (first ++ (e ++ s))))) =
      some (rest, .footnoteDefinition label d.blocks) := by
  rw [footnoteDefinitionP_indent hk (by decide)]
  unfold footnoteDefinitionP
  have h1 : preceded indent03 (preceded (tag cs!"[^")
      (terminated (recognize (many1 (noneOf cs!"]"))) (tag cs!"]:")))
      ('[' :: '^' :: (label ++ (']' :: ':' :: (first ++ (e ++ s))))) =
      some (first ++ (e ++ s), label) := by
    rw [preceded_indent (by decide)]
    refine preceded_some.2 ⟨label ++ (']' :: ':' :: (first ++ (e ++ s))), cs!"[^", tag_append cs!"[^" _, ?_⟩
    refine terminated_some.2 ⟨_, cs!"]:", recognize_of (many1_of_many0 (l := label) ?_ hl),
      tag_append cs!"]:" _⟩
    refine many0_satisfy ?_ ?_
    · intro c hc
      simp
      rintro rfl; exact hl' hc
    · intro c hc; simp at hc; subst hc; rfl
  rw [h1]
  simp only
  have h2 : preceded indent03 (lineTerminated notEofOrEol1) (first ++ (e ++ s)) =
      some (s, dropSpaces 3 first) := by
    obtain ⟨p, hp, _⟩ := manyMN_spaces 3 (first ++ (e ++ s))
    refine preceded_some.2 ⟨_, _, hp, ?_⟩
    rw [dropSpaces_append 3 he.head]
    exact line1 (hf.dropSpaces 3) hf' he
  rw [h2]
  simp only
  rw [footnoteLines_of hls hr]
  simp only
  rw [itemContent_lines, blocks0_of_parse hc hd]

/-- C65: up to three spaces, `[^label]:`, a first line of text, and lines of text indented by three
spaces, are a footnote definition of the label, whose content is the document the first line
(without up to three leading spaces) and the other lines (without their indentation) parse to; what
follows is parsed on its own. -/
theorem C65_footnote_definition (hc : cfg.CustomOk) (hfd : cfg.footnoteDefinition = .parse) {k : Nat}
    {label first e s rest : Str} {ls : List Str} {d : Document} (hk : k ≤ 3) (hl : label ≠ [])
    (hl' : ']' ∉ label) (hf : OneLine first) (hf' : dropSpaces 3 first ≠ []) (he : LineEnd e s)
    (hls : FootnoteLines rest s ls) (hr : NotFootnoteLine rest)
    (hd : parseMarkdown x cfg (joinWith ['\n'] (dropSpaces 3 first :: ls)) = some d) :
    parseMarkdown x cfg
        (List.replicate k ' ' ++ '[' :: '^' :: (label ++ (']' :: ':' :: (first ++ (e ++ s))))) =
      (parseMarkdown x cfg rest).map (fun doc => ⟨.footnoteDefinition label d.blocks :: doc.blocks⟩) := by
  have hdef := footnoteDefinitionP_of hc hk hl hl' hf hf' he hls hr hd
  generalize '^' :: (label ++ (']' :: ':' :: (first ++ (e ++ s)))) = u at *
  have hn : ∃ y, notAParagraphLine x cfg (blockP x cfg) (List.replicate k ' ' ++ '[' :: u) = some y := by
    cases e : notAParagraphLine x cfg (blockP x cfg) (List.replicate k ' ' ++ '[' :: u) with
    | some y => exact ⟨y, rfl⟩
    | none =>
      exfalso
      unfold notAParagraphLine at e
      simp only [orElse_none, conditionalUnit_none] at e
      obtain ⟨_, _, _, _, _, _, _, _, h, _⟩ := e
      rw [hfd, hdef] at h
      simp at h
  obtain ⟨y, hn⟩ := hn
  refine parseMarkdown_cons hc (bs := [_]) ?_
  rw [blockP_late hc hk (by decide) hn, late_bracket hk]
  refine orElse_of_some ?_
  rw [conditionalBlock_parse hfd, hdef]
  rfl

/-- C64, the limits: blanks after the destination, or text after the title, and it is no definition. -/
theorem C64_boundaries :
    parseMarkdown PExt.ascii (PConfig.default fun _ => none) cs!"[a]: b " =
      some ⟨[.paragraph [.linkReference [.text ['a']] [.text ['a']], .text cs!": b "]]⟩ ∧
    parseMarkdown PExt.ascii (PConfig.default fun _ => none) cs!"[a]: b\n'c' d" =
      some ⟨[.paragraph [.linkReference [.text ['a']] [.text ['a']], .text cs!": b\n'c' d"]]⟩ := by
  decide +kernel

/-- C65, the limits: a blank line ends the footnote, even in front of an indented line (GitHub goes on
with it); a fourth space stays in the content. -/
theorem C65_boundaries :
    parseMarkdown PExt.ascii (PConfig.default fun _ => none) cs!"[^a]: b\n\n    c" =
      some ⟨[.footnoteDefinition ['a'] [.paragraph [.text ['b']]], .codeBlock .indented ['c']]⟩ ∧
    parseMarkdown PExt.ascii (PConfig.default fun _ => none) cs!"[^a]: b\n    # c" =
      some ⟨[.footnoteDefinition ['a'] [.paragraph [.text cs!"b\n# c"]]]⟩ ∧
    parseMarkdown PExt.ascii (PConfig.default fun _ => none) cs!"[^a]: b\n   # c" =
      some ⟨[.footnoteDefinition ['a'] [.paragraph [.text ['b']], .heading (.atx 1) [.text ['c']]]]⟩ := by
  decide +kernel

/-- A definition whose destination and title are on their own lines meets the hypotheses. -/
example (ent : Str → Option Str) :
    parseMarkdown x (PConfig.default ent) cs!" [a b]:\n <c\\> d>\t\n'e\\'f'\n" =
      some ⟨[.definition [.text cs!"a b"] cs!"c> d" (some cs!"e'f")]⟩ := by
  have h := C64_link_definition (x := x) (cfg := PConfig.default ent) (allParse_default ent) rfl
    (k := 1) (s := cs!"a b") (g := cs!"\n ") (src := cs!"<c\\> d>") (d := cs!"c> d")
    (v := cs!"\t\n'e\\'f'\n") (rest := []) (t := some cs!"e'f") (label := [.text cs!"a b"])
    (by decide) (labelText_of (by decide)) (by decide)
    (.text1 (t := cs!"a b") (by simp) (plainText_of (by decide) (by decide)))
    (.inr ⟨[], ['\n'], [' '], by intro c hc; simp at hc, .inl rfl, by intro c hc; simp at hc; simp [hc], rfl⟩)
    (.angle (s := cs!"c\\> d") (.chr (by decide) (.esc (by decide) (.chr (by decide) (.chr (by decide) .nil)))))
    (.title (w := cs!"\t\n") (src := cs!"'e\\'f'") (e := ['\n'])
      (.inr ⟨['\t'], ['\n'], [], by intro c hc; simp at hc; simp [hc], .inl rfl, by intro c hc; simp at hc, rfl⟩)
      (by simp) (.single (s := cs!"e\\'f") (.chr (by decide) (by decide) (.esc (.chr (by decide) (by decide) .nil))))
      (.inl (.inl rfl)))
  rw [parseMarkdown_nil] at h
  exact h

/-- A footnote of two lines meets the hypotheses. -/
example (ent : Str → Option Str) (d d' : Document)
    (hd : parseMarkdown x (PConfig.default ent) cs!"- b\n- c" = some d)
    (hd' : parseMarkdown x (PConfig.default ent) cs!"\ne" = some d') :
    parseMarkdown x (PConfig.default ent) cs!"[^a]:  - b\n   - c\n\ne" =
      some ⟨.footnoteDefinition ['a'] d.blocks :: d'.blocks⟩ := by
  have h := C65_footnote_definition (x := x) (cfg := PConfig.default ent) (default_customOk _) rfl
    (k := 0) (label := ['a']) (first := cs!"  - b") (e := ['\n']) (s := cs!"   - c\n\ne") (rest := cs!"\ne")
    (ls := [cs!"- c"]) (d := d) (by decide) (by simp) (by decide) (by intro c hc; revert c; decide)
    (by decide) (.inl (.inl rfl))
    (.cons (l := cs!"- c") (e := ['\n']) (s := cs!"\ne") (by intro c hc; revert c; decide) (by simp)
      (.inl (.inl rfl)) .nil)
    (by intro t ht; simp [List.replicate] at ht) hd
  rw [hd'] at h
  exact h

end
end Verif
