import Verif.InlineProps
/-!
# HTML blocks are kept verbatim (C54)
-/
set_option linter.unusedVariables false
namespace Verif
open Nom

/-! ## Specification -/

/-- The tag names of block-level HTML elements (CommonMark 0.30, HTML block of type 6, plus `source`). -/
def blockTags : List Str :=
  [cs!"address", cs!"article", cs!"aside", cs!"base", cs!"basefont", cs!"blockquote", cs!"body",
   cs!"caption", cs!"center", cs!"col", cs!"colgroup", cs!"dd", cs!"details", cs!"dialog", cs!"dir",
   cs!"div", cs!"dl", cs!"dt", cs!"fieldset", cs!"figcaption", cs!"figure", cs!"footer", cs!"form",
   cs!"frame", cs!"frameset", cs!"h1", cs!"h2", cs!"h3", cs!"h4", cs!"h5", cs!"h6", cs!"head",
   cs!"header", cs!"hr", cs!"html", cs!"iframe", cs!"legend", cs!"li", cs!"link", cs!"main",
   cs!"menu", cs!"menuitem", cs!"nav", cs!"noframes", cs!"ol", cs!"optgroup", cs!"option", cs!"p",
   cs!"param", cs!"section", cs!"source", cs!"summary", cs!"table", cs!"tbody", cs!"td", cs!"tfoot",
   cs!"th", cs!"thead", cs!"title", cs!"tr", cs!"track", cs!"ul"]

/-- No other block tag is the beginning of this one. -/
def Unshadowed (name : Str) : Prop := ∀ t ∈ blockTags, t <+: name → t = name

/-- The rest `l` of the line after the tag name, followed by the lines `ls`: a space, `>`, `/>` or
the end of a line that is not the last one. -/
def TagEnd (l : Str) (ls : List Str) : Prop :=
  (∃ c t, l = c :: t ∧ (c = ' ' ∨ c = '>')) ∨ (∃ t, l = cs!"/>" ++ t) ∨ (l = [] ∧ ls ≠ [])

/-- A line with a visible character. -/
def VisibleLine (l : Str) : Prop := OneLine l ∧ ∃ c ∈ l, isSpace c = false

/-- What ends the block: the end of the input, or a blank line. -/
def BlankAfter (e rest : Str) : Prop :=
  (e = [] ∧ rest = []) ∨
  (IsNewline e ∧ ∃ sp nl r, rest = sp ++ nl ++ r ∧ (∀ c ∈ sp, isSpace c = true) ∧ IsNewline nl)

/-! ## Indented beginnings -/

section
variable {x : PExt} {cfg : PConfig} {rec : P (List Block)} {k : Nat} {c : Char} {t : Str}

theorem preceded_indent_rep {α : Type} {p : P α} (hk : k ≤ 3) (h : c ≠ ' ') :
    preceded indent03 p (List.replicate k ' ' ++ c :: t) = p (c :: t) := by
  unfold preceded
  rw [indent03_replicate hk (by simp [h])]

theorem openingFence_head (h2 : c ≠ '`') (h3 : c ≠ '~') : openingFence (c :: t) = none := by
  unfold openingFence lineTerminated
  refine terminated_none (seq_none ?_)
  rw [recognize_none, orElse_none]
  exact ⟨manyMin_none_of (chr_ne h2) 2, manyMin_none_of (chr_ne h3) 2⟩

theorem codeBlockP_ind (hk : k ≤ 3) (h1 : c ≠ ' ') (h1' : c ≠ '\t') (h2 : c ≠ '`') (h3 : c ≠ '~') :
    codeBlockP (List.replicate k ' ' ++ c :: t) = none := by
  unfold codeBlockP
  rw [orElse_none]
  refine ⟨codeBlockIndented_indent hk h1 h1', ?_⟩
  have : seq indent03 openingFence (List.replicate k ' ' ++ c :: t) = none := by
    unfold seq
    rw [indent03_replicate hk (by simp [h1])]
    simp only
    rw [openingFence_head h2 h3]
  unfold codeBlockFenced
  rw [this]

theorem headingV1_ind (h : c ≠ '#') : headingV1 x cfg (List.replicate k ' ' ++ c :: t) = none := by
  cases k with
  | zero => exact headingV1_head h
  | succ k => exact headingV1_head (by decide)

theorem thematicBreakP_ind (hk : k ≤ 3) (h1 : c ≠ ' ') (h2 : c ≠ '-') (h3 : c ≠ '_') (h4 : c ≠ '*') :
    thematicBreakP (List.replicate k ' ' ++ c :: t) = none := by
  unfold thematicBreakP lineTerminated
  rw [value_none]
  refine terminated_none ?_
  rw [preceded_indent_rep hk h1]
  refine terminated_none ?_
  rw [orElse_none, orElse_none]
  exact ⟨manyMin_none_of (chr_ne h2) 2, manyMin_none_of (chr_ne h3) 2, manyMin_none_of (chr_ne h4) 2⟩

theorem quotePrefix_ind (hk : k ≤ 3) (h1 : c ≠ ' ') (h2 : c ≠ '>') :
    quotePrefix (List.replicate k ' ' ++ c :: t) = none := by
  unfold quotePrefix
  rw [preceded_indent_rep hk h1]
  exact chr_ne h2

theorem blockquoteP_ind (hk : k ≤ 3) (h1 : c ≠ ' ') (h2 : c ≠ '>') :
    blockquoteP rec (List.replicate k ' ' ++ c :: t) = none :=
  mapOpt_none (many1_none_of (preceded_none (quotePrefix_ind hk h1 h2)))

theorem githubAlertP_ind (hk : k ≤ 3) (h1 : c ≠ ' ') (h2 : c ≠ '>') :
    githubAlertP x rec (List.replicate k ' ' ++ c :: t) = none := by
  unfold githubAlertP
  rw [preceded_none (seq_none (quotePrefix_ind hk h1 h2))]

theorem listItemP_ind (hk : k ≤ 3) (h0 : c ≠ ' ') (h1 : isDigit c = false) (h2 : c ≠ '*')
    (h3 : c ≠ '+') (h4 : c ≠ '-') : listItemP rec (List.replicate k ' ' ++ c :: t) = none := by
  have hm : listMarker (c :: t) = none := listMarker_head h1 h2 h3 h4
  have : listMarkerWithSpanSize (List.replicate k ' ' ++ c :: t) = none := by
    unfold listMarkerWithSpanSize
    rw [orElse_none, mapP_none, mapP_none]
    constructor
    · unfold listMarkerFollowedByNewline
      have : preceded indent03 listMarker (List.replicate k ' ' ++ c :: t) = none := by
        rw [preceded_indent_rep hk h0]; exact hm
      rw [this]
    · refine seq_none ?_
      unfold listMarkerFollowedBySpaces
      have : delimited indent03 listMarker (manyMN (chr ' ') 1 4)
          (List.replicate k ' ' ++ c :: t) = none := by
        unfold delimited; rw [preceded_indent_rep hk h0]; exact terminated_none hm
      rw [this]
  unfold listItemP
  rw [this]

theorem listP_ind (hk : k ≤ 3) (h0 : c ≠ ' ') (h1 : isDigit c = false) (h2 : c ≠ '*')
    (h3 : c ≠ '+') (h4 : c ≠ '-') : listP rec (List.replicate k ' ' ++ c :: t) = none := by
  unfold listP
  rw [many1_none_of (listItemP_ind hk h0 h1 h2 h3 h4)]

theorem conditionalBlockVec_none {b : Behavior Block} {p : P (List Block)} {s : Str}
    (h : p s = none) : conditionalBlockVec b p s = none := by
  cases b <;> unfold conditionalBlockVec
  · exact h
  · rfl
  · exact value_none.2 h
  · exact h
  · exact h

/-- An HTML block is reached when it can be read. -/
theorem htmlBlock_block (hc : cfg.CustomOk) (hh : cfg.htmlBlock = .parse) (hk : k ≤ 3) {r w : Str}
    (h : htmlBlockP (List.replicate k ' ' ++ '<' :: t) = some (r, w)) :
    blockP x cfg (List.replicate k ' ' ++ '<' :: t) = some (r, [.htmlBlock w]) := by
  rw [blockP_alt hc (notBlankLine (by decide) (by decide) (by decide))]
  unfold blockAlt
  have hnp : ∃ z, notAParagraphLine x cfg (blockP x cfg) (List.replicate k ' ' ++ '<' :: t) =
      some z := by
    cases en : notAParagraphLine x cfg (blockP x cfg) (List.replicate k ' ' ++ '<' :: t) with
    | some z => exact ⟨z, rfl⟩
    | none =>
      unfold notAParagraphLine at en
      simp only [orElse_none, conditionalUnit_none] at en
      obtain ⟨_, _, _, _, _, _, h', _⟩ := en
      rcases h' with h' | h'
      · rw [hh] at h'; cases h'
      · rw [h] at h'; simp at h'
  obtain ⟨z, hnp⟩ := hnp
  rw [orElse_of_none (conditionalBlock_none (codeBlockP_ind hk (by decide) (by decide) (by decide)
      (by decide))),
    orElse_of_none (conditionalBlock_none (headingV1_ind (by decide))),
    orElse_of_none (conditionalBlock_none (headingV2OrParagraph_none hc hnp)),
    orElse_of_none (conditionalBlock_none (value_none.2 (thematicBreakP_ind hk (by decide) (by decide)
      (by decide) (by decide)))),
    orElse_of_none (conditionalBlockVec_none (githubAlertP_ind hk (by decide) (by decide))),
    orElse_of_none (conditionalBlock_none (blockquoteP_ind hk (by decide) (by decide))),
    orElse_of_none (conditionalBlock_none (listP_ind hk (by decide) (by decide) (by decide)
      (by decide) (by decide)))]
  refine orElse_of_some ?_
  rw [conditionalBlock_parse hh]
  unfold mapP
  rw [h]; rfl

end

/-! ## Reading up to a stop -/

theorem until_of {α : Type} {stop : P α} {t u : Str}
    (h : ∀ a b, t = a ++ b → b ≠ [] → stop (b ++ u) = none) (hu : u = [] ∨ ∃ y, stop u = some y) :
    until_ stop (t ++ u) = some (u, t) := by
  unfold until_
  induction t with
  | nil =>
    refine many0_of_none ?_
    rcases hu with rfl | ⟨y, hy⟩
    · show preceded (notP stop) anychar [] = none
      cases e : preceded (notP stop) anychar [] with
      | none => rfl
      | some y =>
        obtain ⟨s1, _, h1, h2⟩ := preceded_some.1 e
        obtain ⟨_, rfl⟩ := notP_some.1 h1
        simp [anychar, satisfy] at h2
    · refine preceded_none ?_
      rw [notP_none]; exact ⟨y, hy⟩
  | cons c t ih =>
    refine many0_of_some (r := t ++ u) ?_ (by simp) (ih ?_)
    · refine preceded_some.2 ⟨c :: (t ++ u), (), ?_, rfl⟩
      exact notP_some.2 ⟨h [] (c :: t) rfl (by simp), rfl⟩
    · intro a b hab hb
      exact h (c :: a) b (by rw [hab]; rfl) hb

/-! ## Lines without a blank one -/

theorem visible_notBlank {l t : Str} (h : VisibleLine l) : seq space0 lineEnding (l ++ t) = none := by
  have h1 := visible_notBlankLine (t := t) h.2 h.1
  cases e : seq space0 lineEnding (l ++ t) with
  | none => rfl
  | some y =>
    exfalso
    obtain ⟨r, a, b⟩ := y
    obtain ⟨s1, h2, h3⟩ := seq_some.1 e
    unfold preceded at h1
    rw [h2] at h1
    simp only at h1
    unfold eofOrEol at h1
    rw [orElse_none] at h1
    rw [h1.1] at h3
    simp at h3

/-- The first line of the rest and further lines. -/
def linesOf (nl l : Str) (ls : List Str) : Str := l ++ (ls.map (nl ++ ·)).flatten

theorem blank_none_of_line {l t : Str} (hl : OneLine l) (hne : l ≠ []) :
    blankLineOrEof (l ++ t) = none := by
  unfold blankLineOrEof
  rw [orElse_none, value_none, value_none]
  cases l with
  | nil => exact absurd rfl hne
  | cons c l =>
    have := hl c (by simp)
    refine ⟨seq_none ?_, rfl⟩
    have := eofOrEol_cons (t := l ++ t) this.1 this.2
    unfold eofOrEol at this
    rw [orElse_none] at this
    exact this.1

theorem blank_none_of_newline {nl l t b : Str} (hnl : IsNewline nl) (hl : VisibleLine l)
    (hb : b <:+ nl) (hne : b ≠ []) : blankLineOrEof (b ++ (l ++ t)) = none := by
  unfold blankLineOrEof
  rw [orElse_none, value_none, value_none]
  have hb' : lineEnding (b ++ (l ++ t)) = some (l ++ t, b) := by
    rcases hnl with rfl | rfl
    · rcases List.suffix_cons_iff.1 hb with rfl | h
      · rfl
      · simp at h; exact absurd h hne
    · rcases List.suffix_cons_iff.1 hb with rfl | h
      · rfl
      · rcases List.suffix_cons_iff.1 h with rfl | h
        · rfl
        · simp at h; exact absurd h hne
  constructor
  · have := visible_notBlank (t := t) hl
    generalize seq space0 lineEnding = q at this ⊢
    unfold seq
    rw [hb']
    simp only
    rw [this]
  · cases b with
    | nil => exact absurd rfl hne
    | cons c b => rfl

theorem linesOf_noBlank {nl l : Str} {ls : List Str} (hnl : IsNewline nl) (hl : OneLine l)
    (hls : ∀ y ∈ ls, VisibleLine y) (u : Str) : ∀ a b, linesOf nl l ls = a ++ b → b ≠ [] →
    blankLineOrEof (b ++ u) = none := by
  induction ls generalizing l with
  | nil =>
    intro a b h hb
    simp [linesOf] at h
    subst h
    exact blank_none_of_line (fun c hc => hl c (by simp [hc])) hb
  | cons l' ls ih =>
    intro a b h hb
    have heq : linesOf nl l (l' :: ls) = l ++ (nl ++ linesOf nl l' ls) := by simp [linesOf]
    rw [heq] at h
    rcases List.append_eq_append_iff.1 h with ⟨b', h1, h2⟩ | ⟨b', h1, h2⟩
    · -- the suffix starts after `l`
      rcases List.append_eq_append_iff.1 h2 with ⟨b'', h3, h4⟩ | ⟨b'', h3, h4⟩
      · exact ih (hls l' (by simp)).1 (fun y hy => hls y (by simp [hy])) b'' b h4 hb
      · subst h4
        by_cases hb2 : b'' = []
        · subst hb2
          exact ih (hls l' (by simp)).1 (fun y hy => hls y (by simp [hy])) [] _ rfl (by
            simpa using hb)
        · have : linesOf nl l' ls = l' ++ (ls.map (nl ++ ·)).flatten := rfl
          rw [this, List.append_assoc, List.append_assoc]
          exact blank_none_of_newline hnl (hls l' (by simp)) ⟨b', h3.symm⟩ hb2
    · subst h2
      by_cases hb2 : b' = []
      · subst hb2
        have : linesOf nl l' ls = l' ++ (ls.map (nl ++ ·)).flatten := rfl
        rw [List.nil_append, this, List.append_assoc, List.append_assoc]
        refine blank_none_of_newline hnl (hls l' (by simp)) (List.suffix_refl _) ?_
        rcases hnl with rfl | rfl <;> simp
      · rw [List.append_assoc]
        exact blank_none_of_line (fun c hc => hl c (by rw [h1]; simp [hc])) hb2

/-! ## Tag names -/

theorem tagNoCase_some {t s r u : Str} : tagNoCase t s = some (r, u) ↔
    t = (s.take t.length).map asciiLower ∧ r = s.drop t.length ∧ u = s.take t.length := by
  unfold tagNoCase
  split
  · rename_i h
    rw [beq_iff_eq] at h
    simp only [Option.some.injEq, Prod.mk.injEq]
    constructor
    · rintro ⟨rfl, rfl⟩; exact ⟨h, rfl, rfl⟩
    · rintro ⟨_, rfl, rfl⟩; exact ⟨rfl, rfl⟩
  · rename_i h
    rw [beq_iff_eq] at h
    simp only [reduceCtorEq, false_iff]
    intro h2; exact h h2.1

/-- The characters that can follow a tag name. -/
def afterTag : Str := [' ', '>', '/', '\n', '\r']

theorem asciiLower_afterTag : ∀ c ∈ afterTag, asciiLower c = c := by decide

theorem html6Names_afterTag : ∀ t ∈ html6Names, ∀ c ∈ afterTag, c ∉ t := by decide +kernel

theorem html6Names_blockTags : ∀ t ∈ html6Names, t ∈ blockTags := by decide +kernel

theorem blockTags_html6Names : ∀ t ∈ blockTags, t ∈ html6Names := by decide +kernel

theorem blockTags_letters : ∀ t ∈ blockTags, t ≠ [] ∧ ∀ c ∈ t, isAlnum c = true := by decide +kernel

/-- A tag name that reads a text starting with `w` and then a character that ends tags is a beginning
of `w`. -/
theorem tagNoCase_prefix {t w u : Str} {c : Char} (hc : c ∈ afterTag) (ht : c ∉ t) {r v : Str}
    (h : tagNoCase t (w ++ c :: u) = some (r, v)) : t <+: w.map asciiLower := by
  obtain ⟨h1, _, _⟩ := tagNoCase_some.1 h
  by_cases hl : t.length ≤ w.length
  · rw [List.take_append_of_le_length hl] at h1
    exact ⟨(w.drop t.length).map asciiLower, by
      conv => lhs; lhs; rw [h1]
      rw [← List.map_append, List.take_append_drop]⟩
  · exfalso
    apply ht
    rw [h1]
    refine List.mem_map.2 ⟨c, ?_, asciiLower_afterTag c hc⟩
    obtain ⟨n, hn⟩ : ∃ n, t.length = w.length + (n + 1) := ⟨t.length - w.length - 1, by omega⟩
    rw [hn, List.take_append]
    simp

theorem anyTagNoCase_of {w u : Str} {c : Char} (hc : c ∈ afterTag) {l : List Str}
    (hl : ∀ t ∈ l, t ∈ html6Names) (hw : w.map asciiLower ∈ l) (hs : Unshadowed (w.map asciiLower)) :
    anyTagNoCase l (w ++ c :: u) = some (c :: u, w) := by
  induction l with
  | nil => simp at hw
  | cons t l ih =>
    unfold anyTagNoCase
    cases e : tagNoCase t (w ++ c :: u) with
    | some y =>
      obtain ⟨r, v⟩ := y
      rw [orElse_of_some e]
      have hp := tagNoCase_prefix hc (html6Names_afterTag t (hl t (by simp)) c hc) e
      have ht := hs t (html6Names_blockTags t (hl t (by simp))) hp
      obtain ⟨_, rfl, rfl⟩ := tagNoCase_some.1 e
      have hlen : t.length = w.length := by rw [ht, List.length_map]
      simp [hlen]
    | none =>
      rw [orElse_of_none e]
      refine ih (fun t ht => hl t (by simp [ht])) ?_
      rcases List.mem_cons.1 hw with h | h
      · exfalso
        have : tagNoCase t (w ++ c :: u) = some (c :: u, w) := by
          refine tagNoCase_some.2 ?_
          have hlen : t.length = w.length := by rw [← h, List.length_map]
          simp [hlen, h]
        rw [this] at e; simp at e
      · exact h

theorem html1_afterTag : ∀ t ∈ [cs!"script", cs!"pre", cs!"style"], (∀ c ∈ afterTag, c ∉ t) ∧
    ∀ n ∈ blockTags, ¬ t <+: n := by decide +kernel

theorem html1Tag_none {w u : Str} {c : Char} (hc : c ∈ afterTag) (hw : w.map asciiLower ∈ blockTags) :
    html1Tag (w ++ c :: u) = none := by
  unfold html1Tag
  rw [orElse_none, orElse_none]
  have key : ∀ t ∈ [cs!"script", cs!"pre", cs!"style"], tagNoCase t (w ++ c :: u) = none := by
    intro t ht
    cases e : tagNoCase t (w ++ c :: u) with
    | none => rfl
    | some y =>
      obtain ⟨r, v⟩ := y
      exact absurd (tagNoCase_prefix hc ((html1_afterTag t ht).1 c hc) e)
        ((html1_afterTag t ht).2 _ hw)
  exact ⟨key _ (by simp), key _ (by simp), key _ (by simp)⟩

/-! ## C54 -/

/-- What `html_block6` reads after the name. -/
def html6Sep : P Unit :=
  value () (chr ' ') <||> value () lineEnding <||> value () (tag cs!"/>") <||> value () (chr '>')

theorem TagEnd.split {nl l : Str} {ls : List Str} (hnl : IsNewline nl) (h : TagEnd l ls)
    (hl : OneLine l) (hls : ∀ y ∈ ls, VisibleLine y) :
    ∃ c sep l1 ls1, linesOf nl l ls = c :: sep ++ linesOf nl l1 ls1 ∧ OneLine l1 ∧
      (∀ y ∈ ls1, VisibleLine y) ∧ c ∈ afterTag ∧ ∀ u, html6Sep (c :: sep ++ u) = some (u, ()) := by
  rcases h with ⟨c, t, rfl, hc⟩ | ⟨t, rfl⟩ | ⟨rfl, hne⟩
  · refine ⟨c, [], t, ls, by simp [linesOf], fun d hd => hl d (by simp [hd]), hls, ?_, ?_⟩
    · rcases hc with rfl | rfl <;> decide
    · intro u; rcases hc with rfl | rfl <;> rfl
  · refine ⟨'/', ['>'], t, ls, by simp [linesOf], fun d hd => hl d (by simp [hd]), hls, by decide, ?_⟩
    intro u; rfl
  · cases ls with
    | nil => exact absurd rfl hne
    | cons l1 ls1 =>
      have h2 : ∀ y ∈ ls1, VisibleLine y := fun y hy => hls y (by simp [hy])
      rcases hnl with rfl | rfl
      · exact ⟨'\n', [], l1, ls1, by simp [linesOf], (hls l1 (by simp)).1, h2, by decide,
          fun u => rfl⟩
      · exact ⟨'\r', ['\n'], l1, ls1, by simp [linesOf], (hls l1 (by simp)).1, h2, by decide,
          fun u => rfl⟩

theorem BlankAfter.stop {e rest : Str} (h : BlankAfter e rest) :
    (e ++ rest = [] ∨ ∃ y, blankLineOrEof (e ++ rest) = some y) ∧
    ∃ o, opt lineEnding (e ++ rest) = some (rest, o) := by
  rcases h with ⟨rfl, rfl⟩ | ⟨he, sp, nl, r, rfl, hsp, hnl⟩
  · exact ⟨.inl rfl, none, rfl⟩
  · have hle : ∀ (nl u : Str), IsNewline nl → lineEnding (nl ++ u) = some (u, nl) := by
      rintro nl u (rfl | rfl) <;> rfl
    refine ⟨.inr ⟨(r, ()), orElse_of_some (value_some.2 ⟨(e, sp, nl), ?_, rfl⟩)⟩, some e, ?_⟩
    · refine seq_some.2 ⟨_, hle _ _ he, seq_some.2 ⟨nl ++ r, ?_, hle _ _ hnl⟩⟩
      show some (_, _) = _
      rw [List.append_assoc]
      rcases hnl with rfl | rfl
      · obtain ⟨h1, h2⟩ := takeWhile_span (f := isSpace) (a := sp) (c := '\n') (t := r) hsp (by decide)
        simp only [List.cons_append, List.nil_append] at *
        rw [h1, h2]
      · obtain ⟨h1, h2⟩ := takeWhile_span (f := isSpace) (a := sp) (c := '\r') (t := '\n' :: r) hsp
          (by decide)
        simp only [List.cons_append, List.nil_append] at *
        rw [h1, h2]
    · unfold opt; rw [hle _ _ he]

theorem htmlBlock_open_none {k : Nat} {lt w u : Str} {c : Char} (hk : k ≤ 3)
    (hlt : lt = ['<'] ∨ lt = ['<', '/']) (hw : w.map asciiLower ∈ blockTags) (hc : c ∈ afterTag) :
    htmlBlock1 (List.replicate k ' ' ++ (lt ++ (w ++ c :: u))) = none ∧
    htmlBlock2 (List.replicate k ' ' ++ (lt ++ (w ++ c :: u))) = none ∧
    htmlBlock3 (List.replicate k ' ' ++ (lt ++ (w ++ c :: u))) = none ∧
    htmlBlock4 (List.replicate k ' ' ++ (lt ++ (w ++ c :: u))) = none ∧
    htmlBlock5 (List.replicate k ' ' ++ (lt ++ (w ++ c :: u))) = none := by
  -- the character after `<`
  have hd : ∃ d v, lt ++ (w ++ c :: u) = '<' :: d :: v ∧ d ≠ '!' ∧ d ≠ '?' := by
    rcases hlt with rfl | rfl
    · cases w with
      | nil => exact absurd rfl (blockTags_letters _ hw).1
      | cons d w =>
        refine ⟨d, w ++ c :: u, rfl, ?_, ?_⟩ <;>
        · rintro rfl
          have := (blockTags_letters _ hw).2
          simp only [List.map_cons, List.mem_cons] at this
          exact absurd (this _ (.inl rfl)) (by decide)
    · exact ⟨'/', w ++ c :: u, rfl, by decide, by decide⟩
  have h1 : seq (chr '<') (seq html1Tag
    (seq (value () (chr ' ') <||> value () (chr '>') <||> value () lineEnding)
      (seq (until_ html1End) html1End))) (lt ++ (w ++ c :: u)) = none := by
    have : html1Tag ((lt ++ (w ++ c :: u)).drop 1) = none := by
      rcases hlt with rfl | rfl
      · exact html1Tag_none hc hw
      · unfold html1Tag
        rw [orElse_none, orElse_none]
        have key : ∀ t ∈ [cs!"script", cs!"pre", cs!"style"], tagNoCase t ('/' :: (w ++ c :: u)) = none := by
          intro t ht
          cases e : tagNoCase t ('/' :: (w ++ c :: u)) with
          | none => rfl
          | some y =>
            obtain ⟨r, v⟩ := y
            have := (tagNoCase_some.1 e).1
            simp at ht
            rcases ht with rfl | rfl | rfl <;> simp at this <;>
              exact absurd this.1 (by decide)
        exact ⟨key _ (by simp), key _ (by simp), key _ (by simp)⟩
    obtain ⟨d, v, hs, _⟩ := hd
    rw [hs] at this ⊢
    simp only [List.drop_succ_cons, List.drop_zero] at this
    generalize (seq (value () (chr ' ') <||> value () (chr '>') <||> value () lineEnding)
      (seq (until_ html1End) html1End)) = q
    have h2 : seq html1Tag q (d :: v) = none := seq_none this
    generalize seq html1Tag q = q' at h2
    unfold seq
    rw [chr_cons]
    simp only
    rw [h2]
  obtain ⟨d, v, hs, hd1, hd2⟩ := hd
  unfold htmlBlock1 htmlBlock2 htmlBlock3 htmlBlock4 htmlBlock5
  rw [hs] at h1 ⊢
  have tg : ∀ (a : Char) (m : Str), a ≠ d → tag ('<' :: a :: m) ('<' :: d :: v) = none := by
    intro a m ha
    rw [tag_none]
    rintro ⟨z, hz⟩
    simp at hz
    exact ha hz.1
  simp only [preceded_indent_rep hk (show '<' ≠ ' ' by decide), recognize_none]
  exact ⟨h1, seq_none (tg _ _ hd1.symm), seq_none (tg _ _ hd2.symm), seq_none (tg _ _ hd1.symm),
    seq_none (tg _ _ hd1.symm)⟩

theorem tag_core {x : PExt} {cfg : PConfig} (hc : cfg.CustomOk) (hh : cfg.htmlBlock = .parse)
    {k : Nat} {lt w nl l e rest : Str} {ls : List Str} (hk : k ≤ 3)
    (hlt : lt = ['<'] ∨ lt = ['<', '/']) (hw : w.map asciiLower ∈ blockTags)
    (hs : Unshadowed (w.map asciiLower)) (hnl : IsNewline nl) (hl : OneLine l)
    (hls : ∀ y ∈ ls, VisibleLine y) (he : TagEnd l ls) (hr : BlankAfter e rest ∨ IsNewline e ∧ rest = []) :
    parseMarkdown x cfg
        (List.replicate k ' ' ++ (lt ++ w ++ l ++ (ls.map (nl ++ ·)).flatten ++ e) ++ rest) =
      (parseMarkdown x cfg rest).map
        (fun d => ⟨.htmlBlock (lt ++ w ++ l ++ (ls.map (nl ++ ·)).flatten ++ e) :: d.blocks⟩) := by
  refine parseMarkdown_cons hc (bs := [_]) ?_
  obtain ⟨c, sep, l1, ls1, h1, h2, h3, h4, h5⟩ := he.split hnl hl hls
  have htext : lt ++ w ++ l ++ (ls.map (nl ++ ·)).flatten ++ e =
      lt ++ (w ++ (c :: sep ++ (linesOf nl l1 ls1 ++ e))) := by
    have h1' : l ++ (ls.map (nl ++ ·)).flatten = c :: sep ++ linesOf nl l1 ls1 := h1
    rw [List.append_assoc (lt ++ w), h1']
    simp
  rw [htext]
  generalize hu : sep ++ (linesOf nl l1 ls1 ++ e) = u
  have hu' : c :: sep ++ (linesOf nl l1 ls1 ++ e) = c :: u := by rw [← hu]; rfl
  rw [hu', List.append_assoc, List.append_assoc, List.append_assoc, List.cons_append]
  have hlt' : ∃ v, lt ++ (w ++ c :: (u ++ rest)) = '<' :: v := by
    rcases hlt with rfl | rfl <;> exact ⟨_, rfl⟩
  obtain ⟨v, hv⟩ := hlt'
  have key : htmlBlockP (List.replicate k ' ' ++ (lt ++ (w ++ c :: (u ++ rest)))) =
      some (rest, lt ++ (w ++ c :: u)) := by
    obtain ⟨n1, n2, n3, n4, n5⟩ := htmlBlock_open_none (u := u ++ rest) hk hlt hw h4
    unfold htmlBlockP
    rw [orElse_of_none n1, orElse_of_none n2, orElse_of_none n3, orElse_of_none n4, orElse_of_none n5]
    refine orElse_of_some ?_
    unfold htmlBlock6
    rw [hv, preceded_indent_rep hk (by decide), ← hv]
    have hassoc : lt ++ (w ++ c :: (u ++ rest)) = lt ++ (w ++ c :: u) ++ rest := by simp
    rw [hassoc]
    obtain ⟨r1, body, o, hun, ho⟩ : ∃ r1 body o, until_ blankLineOrEof (linesOf nl l1 ls1 ++ (e ++ rest)) = some (r1, body) ∧
        opt lineEnding r1 = some (rest, o) := by
      rcases hr with hr | ⟨hr, rfl⟩
      · obtain ⟨hstop, o, ho⟩ := hr.stop
        exact ⟨_, _, o, until_of (linesOf_noBlank hnl h2 h3 (e ++ rest)) hstop, ho⟩
      · refine ⟨[], linesOf nl l1 ls1 ++ e, none, ?_, rfl⟩
        have := until_of (stop := blankLineOrEof) (t := linesOf nl l1 ls1 ++ e) (u := []) ?_ (.inl rfl)
        · rw [List.append_nil] at this ⊢; exact this
        · intro a b hab hb
          rw [List.append_nil]
          have fin : ∀ v, v <:+ e → v ≠ [] → blankLineOrEof v = none := by
            intro v hv hne
            rcases hr with rfl | rfl
            · rcases List.suffix_cons_iff.1 hv with rfl | h
              · rfl
              · exact absurd (List.suffix_nil.1 h) hne
            · rcases List.suffix_cons_iff.1 hv with rfl | h
              · rfl
              · rcases List.suffix_cons_iff.1 h with rfl | h
                · rfl
                · exact absurd (List.suffix_nil.1 h) hne
          rcases List.append_eq_append_iff.1 hab with ⟨b', g1, g2⟩ | ⟨b', g1, g2⟩
          · exact fin b ⟨b', g2.symm⟩ hb
          · subst g2
            by_cases hb' : b' = []
            · subst hb'; exact fin _ (List.suffix_refl _) (by simpa using hb)
            · exact linesOf_noBlank hnl h2 h3 e a b' g1 hb'
    refine recognize_of (v := ((), w, (), body, o)) ?_
    refine seq_some.2 ⟨w ++ c :: (u ++ rest), ?_, ?_⟩
    · rcases hlt with rfl | rfl
      · rw [orElse_of_none]
        · simp only [List.cons_append, List.nil_append, List.append_assoc]; rfl
        · rw [value_none, tag_none]
          rintro ⟨z, hz⟩
          cases w with
          | nil => exact absurd rfl (blockTags_letters _ hw).1
          | cons d w =>
            simp at hz
            have := (blockTags_letters _ hw).2
            simp only [List.map_cons, List.mem_cons] at this
            have := this _ (.inl rfl)
            rw [← hz.1] at this
            exact absurd this (by decide)
      · refine orElse_of_some ?_
        simp only [List.cons_append, List.nil_append, List.append_assoc]; rfl
    · refine seq_some.2 ⟨c :: (u ++ rest), anyTagNoCase_of h4 (fun t ht => ht)
        (blockTags_html6Names _ hw) hs, ?_⟩
      refine seq_some.2 ⟨linesOf nl l1 ls1 ++ (e ++ rest), ?_, ?_⟩
      · have := h5 (linesOf nl l1 ls1 ++ (e ++ rest))
        rw [← hu]
        simpa [html6Sep] using this
      · exact seq_some.2 ⟨r1, hun, ho⟩
  rw [hv] at key ⊢
  exact htmlBlock_block hc hh hk key

/-- C54, tags: a line that starts (after at most three spaces) with an opening or closing tag of a
block-level element, in any letter case, followed by non-blank lines, and then by a blank line or
the end of the input, parses to one HTML block, whose content is exactly that text without the
indentation; what follows is parsed on its own.  The name must not start with another name of the
list: `C54_refuted_names`. -/
theorem C54_tag_partial {x : PExt} {cfg : PConfig} (hc : cfg.CustomOk) (hh : cfg.htmlBlock = .parse)
    {k : Nat} {lt w nl l e rest : Str} {ls : List Str} (hk : k ≤ 3)
    (hlt : lt = ['<'] ∨ lt = ['<', '/']) (hw : w.map asciiLower ∈ blockTags)
    (hs : Unshadowed (w.map asciiLower)) (hnl : IsNewline nl) (hl : OneLine l)
    (hls : ∀ y ∈ ls, VisibleLine y) (he : TagEnd l ls) (hr : BlankAfter e rest) :
    parseMarkdown x cfg
        (List.replicate k ' ' ++ (lt ++ w ++ l ++ (ls.map (nl ++ ·)).flatten ++ e) ++ rest) =
      (parseMarkdown x cfg rest).map
        (fun d => ⟨.htmlBlock (lt ++ w ++ l ++ (ls.map (nl ++ ·)).flatten ++ e) :: d.blocks⟩) :=
  tag_core hc hh hk hlt hw hs hnl hl hls he (.inl hr)

/-- C54, tags, at the end of the input: a last line end belongs to the block. -/
theorem C54_tag_final {x : PExt} {cfg : PConfig} (hc : cfg.CustomOk) (hh : cfg.htmlBlock = .parse)
    {k : Nat} {lt w nl l e : Str} {ls : List Str} (hk : k ≤ 3)
    (hlt : lt = ['<'] ∨ lt = ['<', '/']) (hw : w.map asciiLower ∈ blockTags)
    (hs : Unshadowed (w.map asciiLower)) (hnl : IsNewline nl) (hl : OneLine l)
    (hls : ∀ y ∈ ls, VisibleLine y) (he : TagEnd l ls) (hr : IsNewline e) :
    parseMarkdown x cfg (List.replicate k ' ' ++ (lt ++ w ++ l ++ (ls.map (nl ++ ·)).flatten ++ e)) =
      some ⟨[.htmlBlock (lt ++ w ++ l ++ (ls.map (nl ++ ·)).flatten ++ e)]⟩ := by
  have := tag_core (x := x) hc hh hk hlt hw hs hnl hl hls he (e := e) (rest := []) (.inr ⟨hr, rfl⟩)
  rw [List.append_nil, parseMarkdown_nil] at this
  exact this

/-- The names `C54_tag_partial` leaves out. -/
theorem C54_shadowed_names : blockTags.filter (fun n => blockTags.any (fun t => t.isPrefixOf n && t != n)) =
    [cs!"basefont", cs!"colgroup", cs!"frameset", cs!"header", cs!"link", cs!"menuitem", cs!"param",
     cs!"thead", cs!"track"] := by decide +kernel

/-- C54 is false for those names: the shorter name is tried first and never reconsidered. -/
theorem C54_refuted_names :
    ∀ n ∈ [cs!"basefont", cs!"colgroup", cs!"frameset", cs!"header", cs!"link", cs!"menuitem",
        cs!"param", cs!"thead", cs!"track"],
      parseMarkdown PExt.ascii (PConfig.default fun _ => none) ('<' :: n ++ cs!" id=ab>x") =
        some ⟨[.paragraph [.text ('<' :: n ++ cs!" id=ab>x")]]⟩ ∧
      parseMarkdown PExt.ascii (PConfig.default fun _ => none) cs!"<div id=ab>x" =
        some ⟨[.htmlBlock cs!"<div id=ab>x"]⟩ := by decide +kernel

/-! ### Comments, processing instructions, declarations, CDATA sections -/

/-- The markers of these blocks. -/
inductive HtmlMarkers : Str → Str → Prop
  | comment : HtmlMarkers cs!"<!--" cs!"-->"
  | instruction : HtmlMarkers cs!"<?" cs!"?>"
  | declaration {X : Char} : isAsciiUpper X = true → HtmlMarkers (cs!"<!" ++ [X]) cs!">"
  | cdata : HtmlMarkers cs!"<![CDATA[" cs!"]]>"

/-- Text up to the first occurrence of a marker. -/
theorem until_tag {body close rest : Str} (hc : close ≠ [])
    (h : ¬ close <:+: body ++ close.dropLast) :
    until_ (tag close) (body ++ (close ++ rest)) = some (close ++ rest, body) := by
  refine until_of ?_ (.inr ⟨_, tag_append close rest⟩)
  intro a b hab hb
  rw [tag_none]
  rintro ⟨z, hz⟩
  apply h
  have hlen : close.length ≤ (b ++ close.dropLast).length := by
    have : 0 < b.length := List.length_pos_iff.2 hb
    simp; omega
  have hp : close <+: b ++ close.dropLast := by
    have h1 : close <+: b ++ (close ++ rest) := ⟨z, hz⟩
    have h2 : b ++ close.dropLast <+: b ++ (close ++ rest) := by
      refine (List.prefix_append_right_inj b).2 ?_
      exact (List.dropLast_prefix close).trans (List.prefix_append _ _)
    exact List.prefix_of_prefix_length_le h1 h2 hlen
  rw [hab, List.append_assoc]
  exact hp.isInfix.trans (List.suffix_append _ _).isInfix

theorem until_chr {body rest : Str} {c : Char} (h : c ∉ body) :
    until_ (chr c) (body ++ (c :: rest)) = some (c :: rest, body) := by
  refine until_of ?_ (.inr ⟨_, chr_cons c rest⟩)
  intro a b hab hb
  cases b with
  | nil => exact absurd rfl hb
  | cons d b =>
    refine chr_ne ?_
    rintro rfl
    exact h (by rw [hab]; simp)

theorem html1_bang {d : Char} {v : Str} (h : d = '!' ∨ d = '?') : html1Tag (d :: v) = none := by
  unfold html1Tag
  rw [orElse_none, orElse_none]
  have key : ∀ t ∈ [cs!"script", cs!"pre", cs!"style"], tagNoCase t (d :: v) = none := by
    intro t ht
    cases e : tagNoCase t (d :: v) with
    | none => rfl
    | some y =>
      obtain ⟨r, w⟩ := y
      have := (tagNoCase_some.1 e).1
      simp at ht
      rcases ht with rfl | rfl | rfl <;> rcases h with rfl | rfl <;> simp at this <;>
        exact absurd this.1 (by decide)
  exact ⟨key _ (by simp), key _ (by simp), key _ (by simp)⟩

theorem htmlBlock1_bang {k : Nat} {d : Char} {v : Str} (hk : k ≤ 3) (h : d = '!' ∨ d = '?') :
    htmlBlock1 (List.replicate k ' ' ++ '<' :: d :: v) = none := by
  unfold htmlBlock1
  rw [preceded_indent_rep hk (by decide), recognize_none]
  generalize (seq (value () (chr ' ') <||> value () (chr '>') <||> value () lineEnding)
      (seq (until_ html1End) html1End)) = q
  have h2 : seq html1Tag q (d :: v) = none := seq_none (html1_bang h)
  generalize seq html1Tag q = q' at h2
  unfold seq
  rw [chr_cons]
  simp only
  rw [h2]

theorem tag_cons_cons_ne {a d : Char} {m v : Str} (ha : a ≠ d) :
    tag ('<' :: a :: m) ('<' :: d :: v) = none := by
  rw [tag_none]
  rintro ⟨z, hz⟩
  simp at hz
  exact ha hz.1

theorem HtmlMarkers.parse {op cl body rest : Str} {k : Nat} (h : HtmlMarkers op cl) (hk : k ≤ 3)
    (hb : ¬ cl <:+: body ++ cl.dropLast) :
    htmlBlockP (List.replicate k ' ' ++ (op ++ body ++ cl ++ rest)) =
      some (rest, op ++ body ++ cl) := by
  have hcl : cl ≠ [] := by cases h <;> simp
  have hun := until_tag (rest := rest) hcl hb
  unfold htmlBlockP
  cases h with
  | comment =>
    rw [orElse_of_none (by
      have := htmlBlock1_bang (v := cs!"--" ++ body ++ cs!"-->" ++ rest) hk (.inl (rfl : '!' = '!'))
      simpa using this)]
    refine orElse_of_some ?_
    unfold htmlBlock2
    refine (preceded_indent_rep (t := _) hk (by decide)).trans ?_
    refine recognize_of (a := cs!"<!--" ++ body ++ cs!"-->") (r := rest)
      (v := (cs!"<!--", body, cs!"-->")) ?_
    refine seq_some.2 ⟨body ++ (cs!"-->" ++ rest), ?_, seq_some.2 ⟨cs!"-->" ++ rest, hun, tag_append _ _⟩⟩
    exact tag_some.2 ⟨by simp, rfl⟩
  | instruction =>
    rw [orElse_of_none (by
      have := htmlBlock1_bang (v := body ++ cs!"?>" ++ rest) hk (.inr (rfl : '?' = '?'))
      simpa using this)]
    rw [orElse_of_none (by
      unfold htmlBlock2
      refine (preceded_indent_rep (t := _) hk (by decide)).trans ?_
      rw [recognize_none]
      exact seq_none (tag_cons_cons_ne (by decide)))]
    refine orElse_of_some ?_
    unfold htmlBlock3
    refine (preceded_indent_rep (t := _) hk (by decide)).trans ?_
    refine recognize_of (a := cs!"<?" ++ body ++ cs!"?>") (r := rest)
      (v := (cs!"<?", body, cs!"?>")) ?_
    refine seq_some.2 ⟨body ++ (cs!"?>" ++ rest), ?_, seq_some.2 ⟨cs!"?>" ++ rest, hun, tag_append _ _⟩⟩
    exact tag_some.2 ⟨by simp, rfl⟩
  | @declaration X hX =>
    have hX' : X ≠ '-' ∧ X ≠ '[' := by
      constructor <;> rintro rfl <;> exact absurd hX (by decide)
    rw [orElse_of_none (by
      have := htmlBlock1_bang (v := X :: body ++ cs!">" ++ rest) hk (.inl (rfl : '!' = '!'))
      simpa using this)]
    rw [orElse_of_none (by
      unfold htmlBlock2
      refine (preceded_indent_rep (t := _) hk (by decide)).trans ?_
      rw [recognize_none]
      refine seq_none ?_
      rw [tag_none]
      rintro ⟨z, hz⟩
      simp at hz
      exact hX'.1 hz.1.symm)]
    rw [orElse_of_none (by
      unfold htmlBlock3
      refine (preceded_indent_rep (t := _) hk (by decide)).trans ?_
      rw [recognize_none]
      exact seq_none (tag_cons_cons_ne (by decide)))]
    refine orElse_of_some ?_
    unfold htmlBlock4
    refine (preceded_indent_rep (t := _) hk (by decide)).trans ?_
    refine recognize_of (a := cs!"<!" ++ [X] ++ body ++ cs!">") (r := rest)
      (v := (cs!"<!", X, body, cs!">")) ?_
    refine seq_some.2 ⟨X :: (body ++ (cs!">" ++ rest)), tag_some.2 ⟨by simp, rfl⟩, ?_⟩
    refine seq_some.2 ⟨body ++ (cs!">" ++ rest), satisfy_some.2 ⟨rfl, hX⟩, ?_⟩
    refine seq_some.2 ⟨cs!">" ++ rest, ?_, tag_append _ _⟩
    refine until_chr ?_
    intro hm
    obtain ⟨a, b, rfl⟩ := List.append_of_mem hm
    exact hb ⟨a, b, by simp⟩
  | cdata =>
    rw [orElse_of_none (by
      have := htmlBlock1_bang (v := cs!"[CDATA[" ++ body ++ cs!"]]>" ++ rest) hk
        (.inl (rfl : '!' = '!'))
      simpa using this)]
    rw [orElse_of_none (by
      unfold htmlBlock2
      refine (preceded_indent_rep (t := _) hk (by decide)).trans ?_
      rw [recognize_none]
      refine seq_none ?_
      rw [tag_none]
      rintro ⟨z, hz⟩
      simp at hz)]
    rw [orElse_of_none (by
      unfold htmlBlock3
      refine (preceded_indent_rep (t := _) hk (by decide)).trans ?_
      rw [recognize_none]
      exact seq_none (tag_cons_cons_ne (by decide)))]
    rw [orElse_of_none (by
      unfold htmlBlock4
      refine (preceded_indent_rep (t := _) hk (by decide)).trans ?_
      rw [recognize_none]
      rfl)]
    refine orElse_of_some ?_
    unfold htmlBlock5
    refine (preceded_indent_rep (t := _) hk (by decide)).trans ?_
    refine recognize_of (a := cs!"<![CDATA[" ++ body ++ cs!"]]>") (r := rest)
      (v := (cs!"<![CDATA[", body, cs!"]]>")) ?_
    refine seq_some.2 ⟨body ++ (cs!"]]>" ++ rest), ?_, seq_some.2 ⟨cs!"]]>" ++ rest, hun, tag_append _ _⟩⟩
    exact tag_some.2 ⟨by simp, rfl⟩

/-- C54, comments, processing instructions, declarations and CDATA sections: the block is exactly the
text from the opening marker to the first closing marker, blank lines and markup in it included;
what follows the closing marker is parsed on its own. -/
theorem C54_markers {x : PExt} {cfg : PConfig} (hc : cfg.CustomOk) (hh : cfg.htmlBlock = .parse)
    {k : Nat} {op cl body rest : Str} (hk : k ≤ 3) (hm : HtmlMarkers op cl)
    (hb : ¬ cl <:+: body ++ cl.dropLast) :
    parseMarkdown x cfg (List.replicate k ' ' ++ (op ++ body ++ cl ++ rest)) =
      (parseMarkdown x cfg rest).map (fun d => ⟨.htmlBlock (op ++ body ++ cl) :: d.blocks⟩) := by
  refine parseMarkdown_cons hc (bs := [_]) ?_
  have h := hm.parse (rest := rest) hk hb
  have : ∃ v, op ++ body ++ cl ++ rest = '<' :: v := by cases hm <;> exact ⟨_, rfl⟩
  obtain ⟨v, hv⟩ := this
  rw [hv] at h ⊢
  exact htmlBlock_block hc hh hk h

/-- A closing tag in mixed case with two more lines and a following paragraph meets the hypotheses of
`C54_tag_partial`. -/
example (x : PExt) (ent : Str → Option Str) :
    parseMarkdown x (PConfig.default ent) cs!"  </dIV>a\n*b*\n# c\n\nd" =
      (parseMarkdown x (PConfig.default ent) cs!"\nd").map
        (fun d => ⟨.htmlBlock cs!"</dIV>a\n*b*\n# c\n" :: d.blocks⟩) := by
  refine C54_tag_partial (default_customOk _) rfl (k := 2) (lt := cs!"</") (w := cs!"dIV")
    (l := cs!">a") (ls := [cs!"*b*", cs!"# c"]) (nl := ['\n']) (e := ['\n']) (rest := cs!"\nd")
    (by decide) (.inr rfl) (by decide +kernel) ?_ (.inl rfl) ?_ ?_ (.inl ⟨'>', ['a'], rfl, .inr rfl⟩)
    (.inr ⟨.inl rfl, [], ['\n'], ['d'], rfl, by simp, .inl rfl⟩)
  · intro t ht hp
    have key : ∀ t ∈ blockTags, t.isPrefixOf (cs!"dIV".map asciiLower) = true →
      t = cs!"dIV".map asciiLower := by decide +kernel
    exact key t ht (List.isPrefixOf_iff_prefix.2 hp)
  · intro c hc; revert c; decide
  · intro y hy
    simp at hy
    rcases hy with rfl | rfl
    · exact ⟨by intro c hc; revert c; decide, '*', by decide, by decide⟩
    · exact ⟨by intro c hc; revert c; decide, '#', by decide, by decide⟩

/-- A comment with a blank line and dashes. -/
example (x : PExt) (ent : Str → Option Str) :
    parseMarkdown x (PConfig.default ent) cs!"<!-- a\n\n-- > b -->" =
      some ⟨[.htmlBlock cs!"<!-- a\n\n-- > b -->"]⟩ := by
  have := C54_markers (x := x) (default_customOk ent) rfl (k := 0) (body := cs!" a\n\n-- > b ")
    (rest := []) (by decide) .comment (by
      intro h
      have := List.isInfixOf_internal_iff_isInfix.2 h
      exact absurd this (by decide))
  rw [parseMarkdown_nil] at this
  exact this

end Verif
