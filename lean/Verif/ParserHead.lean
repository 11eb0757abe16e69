import Verif.ParserProps
/-!
# Which characters the parsers can start with
-/
set_option linter.unusedVariables false
namespace Verif
open Nom

section
variable {x : PExt} {cfg : PConfig} {rec : P (List Block)} {irec : Str → Option (List Inline)}
  {c : Char} {t : Str}

theorem satisfy_none_of {f : Char → Bool} (h : f c = false) : satisfy f (c :: t) = none := by
  simp [satisfy, h]

theorem manyMN_zero_of_none {α : Type} {p : P α} {s : Str} (h : p s = none) (n : Nat) :
    manyMN p 0 n s = some (s, []) := by
  cases n with
  | zero => rfl
  | succ n => rw [manyMN]; simp [h]

theorem manyMN_pos_of_none {α : Type} {p : P α} {s : Str} (h : p s = none) (m n : Nat) :
    manyMN p (m + 1) (n + 1) s = none := by
  rw [manyMN]; simp [h]

theorem indent03_cons (h : c ≠ ' ') : indent03 (c :: t) = some (c :: t, []) :=
  manyMN_zero_of_none (chr_ne h) 3

theorem preceded_indent {α : Type} {p : P α} (h : c ≠ ' ') :
    preceded indent03 p (c :: t) = p (c :: t) := by
  unfold preceded; rw [indent03_cons h]

theorem preceded_none {α β : Type} {p : P α} {q : P β} {s : Str} (h : p s = none) :
    preceded p q s = none := by unfold preceded; rw [h]

theorem seq_none {α β : Type} {p : P α} {q : P β} {s : Str} (h : p s = none) :
    seq p q s = none := by unfold seq; rw [h]

theorem terminated_none {α β : Type} {p : P α} {q : P β} {s : Str} (h : p s = none) :
    terminated p q s = none := by unfold terminated mapP; rw [seq_none h]

theorem delimited_none {α β γ : Type} {p : P α} {q : P β} {r : P γ} {s : Str} (h : p s = none) :
    delimited p q r s = none := preceded_none h

theorem mapOpt_none {α β : Type} {p : P α} {f : α → Option β} {s : Str} (h : p s = none) :
    mapOpt p f s = none := by unfold mapOpt; rw [h]

theorem verify_none {α : Type} {p : P α} {f : α → Bool} {s : Str} (h : p s = none) :
    verify p f s = none := by unfold verify; rw [h]

theorem many1_none_of {α : Type} {p : P α} {s : Str} (h : p s = none) : many1 p s = none := by
  unfold many1; rw [h]

theorem manyMin_none_of {p : P Char} {s : Str} (h : p s = none) (m : Nat) :
    manyMin (m + 1) p s = none := by
  unfold manyMin verify; rw [many0_of_none h]; simp

theorem tag_cons_ne {d : Char} {u : Str} (h : c ≠ d) : tag (d :: u) (c :: t) = none := by
  rw [tag_none]
  rintro ⟨v, hv⟩
  simp at hv
  exact h hv.1.symm

theorem takeWhile1_none_of {f : Char → Bool} (h : f c = false) : takeWhile1 f (c :: t) = none := by
  unfold takeWhile1; rw [List.takeWhile_cons, h]; rfl

theorem codeBlockIndented_head (h1 : c ≠ ' ') (h2 : c ≠ '\t') :
    codeBlockIndented (c :: t) = none := by
  unfold codeBlockIndented
  rw [mapP_none]
  refine many1_none_of (preceded_none ?_)
  rw [orElse_none, value_none, value_none]
  exact ⟨manyMN_pos_of_none (chr_ne h1) 3 3, chr_ne h2⟩

theorem codeBlockFenced_head (h1 : c ≠ ' ') (h2 : c ≠ '`') (h3 : c ≠ '~') :
    codeBlockFenced (c :: t) = none := by
  have : seq indent03 openingFence (c :: t) = none := by
    unfold seq
    rw [indent03_cons h1]
    simp only
    have : openingFence (c :: t) = none := by
      unfold openingFence lineTerminated
      refine terminated_none (seq_none ?_)
      rw [recognize_none, orElse_none]
      exact ⟨manyMin_none_of (chr_ne h2) 2, manyMin_none_of (chr_ne h3) 2⟩
    rw [this]
  unfold codeBlockFenced
  rw [this]

theorem headingV1_head (h : c ≠ '#') : headingV1 x cfg (c :: t) = none := by
  unfold headingV1
  rw [seq_none (manyMN_pos_of_none (chr_ne h) 0 5)]

theorem headingV2Level_head (h1 : c ≠ ' ') (h2 : c ≠ '=') (h3 : c ≠ '-') :
    headingV2Level (c :: t) = none := by
  unfold headingV2Level lineTerminated
  refine terminated_none ?_
  rw [preceded_indent h1]
  refine terminated_none ?_
  rw [orElse_none, value_none, value_none]
  exact ⟨many1_none_of (chr_ne h2), many1_none_of (chr_ne h3)⟩

theorem thematicBreakP_head (h1 : c ≠ ' ') (h2 : c ≠ '-') (h3 : c ≠ '_') (h4 : c ≠ '*') :
    thematicBreakP (c :: t) = none := by
  unfold thematicBreakP lineTerminated
  rw [value_none]
  refine terminated_none ?_
  rw [preceded_indent h1]
  refine terminated_none ?_
  rw [orElse_none, orElse_none]
  exact ⟨manyMin_none_of (chr_ne h2) 2, manyMin_none_of (chr_ne h3) 2, manyMin_none_of (chr_ne h4) 2⟩

theorem quotePrefix_head (h1 : c ≠ ' ') (h2 : c ≠ '>') : quotePrefix (c :: t) = none := by
  unfold quotePrefix
  rw [preceded_indent h1]
  exact chr_ne h2

theorem blockquoteP_head (h1 : c ≠ ' ') (h2 : c ≠ '>') : blockquoteP rec (c :: t) = none :=
  mapOpt_none (many1_none_of (preceded_none (quotePrefix_head h1 h2)))

theorem githubAlertP_head (h1 : c ≠ ' ') (h2 : c ≠ '>') : githubAlertP x rec (c :: t) = none := by
  unfold githubAlertP
  rw [preceded_none (seq_none (quotePrefix_head h1 h2))]

theorem listMarker_head (h1 : isDigit c = false) (h2 : c ≠ '*') (h3 : c ≠ '+') (h4 : c ≠ '-') :
    listMarker (c :: t) = none := by
  unfold listMarker listMarkerOrdered listMarkerStar listMarkerPlus listMarkerDash
  simp only [orElse_none, value_none, mapP_none]
  refine ⟨terminated_none ?_, chr_ne h2, chr_ne h3, chr_ne h4⟩
  unfold u64P
  have : digit1 (c :: t) = none := takeWhile1_none_of h1
  rw [this]

theorem listItemP_head (h0 : c ≠ ' ') (h1 : isDigit c = false) (h2 : c ≠ '*') (h3 : c ≠ '+')
    (h4 : c ≠ '-') : listItemP rec (c :: t) = none := by
  have hm : listMarker (c :: t) = none := listMarker_head h1 h2 h3 h4
  have : listMarkerWithSpanSize (c :: t) = none := by
    unfold listMarkerWithSpanSize
    rw [orElse_none, mapP_none, mapP_none]
    constructor
    · unfold listMarkerFollowedByNewline
      have : preceded indent03 listMarker (c :: t) = none := by rw [preceded_indent h0]; exact hm
      rw [this]
    · refine seq_none ?_
      unfold listMarkerFollowedBySpaces
      have : delimited indent03 listMarker (manyMN (chr ' ') 1 4) (c :: t) = none := by
        unfold delimited; rw [preceded_indent h0]; exact terminated_none hm
      rw [this]
  unfold listItemP
  rw [this]

theorem listP_head (h0 : c ≠ ' ') (h1 : isDigit c = false) (h2 : c ≠ '*') (h3 : c ≠ '+')
    (h4 : c ≠ '-') : listP rec (c :: t) = none := by
  unfold listP
  rw [many1_none_of (listItemP_head h0 h1 h2 h3 h4)]

theorem htmlBlockP_head_none (h1 : c ≠ ' ') (h2 : c ≠ '<') : htmlBlockP (c :: t) = none := by
  cases e : htmlBlockP (c :: t) with
  | none => rfl
  | some y =>
    exfalso
    have key : ∀ {α : Type} {p : P α} {s r : Str} {a : Str} [Suf p],
        s.head? = some c → preceded indent03 (recognize p) s = some (r, a) →
        a.head? = some '<' → False := by
      intro α p s r a _ hs h ha
      cases s with
      | nil => simp at hs
      | cons d s =>
        simp at hs; subst hs
        rw [preceded_indent h1] at h
        have := recognize_append h
        cases a with
        | nil => simp at ha
        | cons b a => simp at ha this; exact h2 (by rw [← this.1, ha])
    obtain ⟨r, a⟩ := y
    have ha := htmlBlockP_head e
    unfold htmlBlockP htmlBlock1 htmlBlock2 htmlBlock3 htmlBlock4 htmlBlock5 htmlBlock6
      htmlBlock7 at e
    simp only [orElse_some] at e
    rcases e with e | ⟨_, e | ⟨_, e | ⟨_, e | ⟨_, e | ⟨_, e | ⟨_, e⟩⟩⟩⟩⟩⟩ <;> exact key rfl e ha

theorem linkDefinitionP_head (h1 : c ≠ ' ') (h2 : c ≠ '[') :
    linkDefinitionP x cfg (c :: t) = none := by
  unfold linkDefinitionP
  rw [mapP_none]
  refine terminated_none (seq_none ?_)
  rw [preceded_indent h1]
  exact delimited_none (tag_cons_ne h2)

theorem footnoteDefinitionP_head (h1 : c ≠ ' ') (h2 : c ≠ '[') :
    footnoteDefinitionP rec (c :: t) = none := by
  unfold footnoteDefinitionP
  have : preceded indent03 (preceded (tag cs!"[^")
      (terminated (recognize (many1 (noneOf cs!"]"))) (tag cs!"]:"))) (c :: t) = none := by
    rw [preceded_indent h1]
    exact preceded_none (tag_cons_ne h2)
  rw [this]

theorem tableP_head (h1 : c ≠ ' ') (h2 : c ≠ '|') : tableP x cfg (c :: t) = none := by
  have : tableRow x cfg (c :: t) = none := by
    unfold tableRow lineTerminated
    refine terminated_none ?_
    rw [preceded_indent h1]
    exact delimited_none (chr_ne h2)
  unfold tableP
  rw [this]

theorem blankLine_head (h1 : c ≠ ' ') (h2 : c ≠ '\t') (h3 : c ≠ '\n') (h4 : c ≠ '\r') :
    lineTerminated space0 (c :: t) = none ∧ preceded space0 eofOrEol (c :: t) = none := by
  have hs : isSpace c = false := by simp [isSpace, h1, h2]
  have hsp : space0 (c :: t) = some (c :: t, []) := by
    show takeWhile _ _ = _
    simp [Nom.takeWhile, List.dropWhile_cons, List.takeWhile_cons, hs]
  have he : eofOrEol (c :: t) = none := by
    cases e : eofOrEol (c :: t) with
    | none => rfl
    | some y =>
      obtain ⟨a, b⟩ := y
      rcases eofOrEol_some.1 e with ⟨h, _⟩ | ⟨h, _⟩ | ⟨h, _⟩ <;> simp at h
      · exact absurd h.1 h3
      · exact absurd h.1 h4
  constructor
  · unfold lineTerminated terminated mapP seq; rw [hsp]; simp only [he]
  · unfold preceded; rw [hsp]; exact he

/-- The characters that can start something other than a paragraph. -/
def blockStart : Str := cs!" \t\r\n#=-_*>+[|<`~0123456789"

theorem notMem_blockStart (h : c ∉ blockStart) : (c ≠ ' ' ∧ c ≠ '\t' ∧ c ≠ '\r' ∧ c ≠ '\n' ∧
    c ≠ '#' ∧ c ≠ '=' ∧ c ≠ '-' ∧ c ≠ '_' ∧ c ≠ '*' ∧ c ≠ '>' ∧ c ≠ '+' ∧ c ≠ '[' ∧ c ≠ '|' ∧
    c ≠ '<' ∧ c ≠ '`' ∧ c ≠ '~') ∧ isDigit c = false := by
  constructor
  · refine ⟨?_, ?_, ?_, ?_, ?_, ?_, ?_, ?_, ?_, ?_, ?_, ?_, ?_, ?_, ?_, ?_⟩ <;> rintro rfl <;>
      exact h (by decide)
  · cases e : isDigit c with
    | false => rfl
    | true =>
      exfalso
      simp only [isDigit, Bool.and_eq_true, decide_eq_true_eq] at e
      have h1 : 48 ≤ c.toNat := e.1
      have h2 : c.toNat ≤ 57 := e.2
      have : c = Char.ofNat c.toNat := by simp
      rw [this] at h
      generalize c.toNat = n at h h1 h2
      have : n = 48 ∨ n = 49 ∨ n = 50 ∨ n = 51 ∨ n = 52 ∨ n = 53 ∨ n = 54 ∨ n = 55 ∨ n = 56 ∨
        n = 57 := by omega
      rcases this with rfl | rfl | rfl | rfl | rfl | rfl | rfl | rfl | rfl | rfl <;>
        exact h (by decide)

/-- Without custom block parsers, a line starting with an unremarkable character is a paragraph
line. -/
theorem notAParagraphLine_head (hcb : cfg.customBlock = none) (h : c ∉ blockStart) :
    notAParagraphLine x cfg rec (c :: t) = none := by
  obtain ⟨⟨h1, h2, h3, h4, h5, h6, h7, h8, h9, h10, h11, h12, h13, h14, h15, h16⟩, h17⟩ :=
    notMem_blockStart h
  unfold notAParagraphLine
  simp only [orElse_none, conditionalUnit_none, value_none]
  refine ⟨.inr (headingV1_head h5), .inr (headingV2Level_head h1 h6 h7),
    .inr (thematicBreakP_head h1 h7 h8 h9), .inr (blockquoteP_head h1 h10),
    .inr (listItemP_head h1 h17 h9 h11 h7), .inr (codeBlockFenced_head h1 h15 h16),
    .inr (htmlBlockP_head_none h1 h14), .inr (linkDefinitionP_head h1 h12),
    .inr (footnoteDefinitionP_head h1 h12), .inr (tableP_head h1 h13), ?_,
    (blankLine_head h1 h2 h4 h3).1⟩
  rw [hcb]; rfl

end
end Verif
