import Verif.ParserDepth
/-!
# Parsing is total; blank input (C32, C33, C39)
-/
set_option linter.unusedVariables false
namespace Verif
open Nom

/-! ## Specification: blank strings -/

/-- Strings made of spaces, tabs and line endings (`\n`, `\r\n`) only. -/
inductive BlankText : Str → Prop
  | nil : BlankText []
  | space {s : Str} : BlankText s → BlankText (' ' :: s)
  | tab {s : Str} : BlankText s → BlankText ('\t' :: s)
  | lf {s : Str} : BlankText s → BlankText ('\n' :: s)
  | crlf {s : Str} : BlankText s → BlankText ('\r' :: '\n' :: s)

/-! ## Lemmas on blank lines -/

theorem isSpace_iff {c : Char} : isSpace c = true ↔ c = ' ' ∨ c = '\t' := by
  simp [isSpace]

theorem BlankText.spaces {s t : Str} (h : ∀ c ∈ s, isSpace c = true) (ht : BlankText t) :
    BlankText (s ++ t) := by
  induction s with
  | nil => exact ht
  | cons c s ih =>
    have := ih (fun d hd => h d (by simp [hd]))
    rcases isSpace_iff.1 (h c (by simp)) with rfl | rfl
    · exact .space this
    · exact .tab this

theorem BlankText.of_spaces {s t : Str} (h : ∀ c ∈ s, isSpace c = true) (ht : BlankText (s ++ t)) :
    BlankText t := by
  induction s with
  | nil => exact ht
  | cons c s ih =>
    refine ih (fun d hd => h d (by simp [hd])) ?_
    rcases isSpace_iff.1 (h c (by simp)) with rfl | rfl
    · cases ht; assumption
    · cases ht; assumption

theorem takeWhile_all {f : Char → Bool} {s : Str} : ∀ c ∈ s.takeWhile f, f c = true := by
  induction s with
  | nil => simp
  | cons a s ih =>
    rw [List.takeWhile_cons]
    split
    · rename_i h; intro c hc; rcases List.mem_cons.1 hc with rfl | hc
      · exact h
      · exact ih c hc
    · simp

/-- A blank line (or the blank end of the input) at the start of `s`. -/
theorem emptyLine_some {s r u : Str} :
    preceded space0 eofOrEol s = some (r, u) ↔ eofOrEol (s.dropWhile isSpace) = some (r, u) := by
  rfl

theorem many0_ws_blank {s : Str} (h : BlankText s) :
    ∃ l, many0 (space1 <||> lineEnding) s = some ([], l) := by
  generalize hn : s.length = n
  induction n using Nat.strongRecOn generalizing s with
  | ind n ih =>
    have key : ∀ {c r}, s = c :: r → isSpace c = true → ∃ l, many0 (space1 <||> lineEnding) s =
        some ([], l) := by
      intro c r hs hc
      subst hs
      have hb : BlankText ((c :: r).dropWhile isSpace) := by
        rw [← List.takeWhile_append_dropWhile (p := isSpace) (l := c :: r)] at h
        exact h.of_spaces takeWhile_all
      have hl : ((c :: r).dropWhile isSpace).length < (c :: r).length := by
        rw [List.dropWhile_cons, if_pos hc]
        have := (List.dropWhile_suffix isSpace (l := r)).length_le
        simp only [List.length_cons]; omega
      obtain ⟨l, hl'⟩ := ih _ (by rw [← hn]; exact hl) hb rfl
      refine ⟨_, many0_of_some (a := (c :: r).takeWhile isSpace) ?_ hl hl'⟩
      apply orElse_of_some
      show takeWhile1 _ _ = _
      unfold takeWhile1
      rw [List.takeWhile_cons, if_pos hc]; rfl
    cases h with
    | nil => exact ⟨[], many0_of_none rfl⟩
    | space h => exact key rfl rfl
    | tab h => exact key rfl rfl
    | @lf t h =>
      obtain ⟨l, hl⟩ := ih t.length (by rw [← hn]; simp) h rfl
      exact ⟨_, many0_of_some (r := t) (a := ['\n']) rfl (by simp) hl⟩
    | @crlf t h =>
      obtain ⟨l, hl⟩ := ih t.length (by rw [← hn]; simp; omega) h rfl
      exact ⟨_, many0_of_some (r := t) (a := ['\r', '\n']) rfl (by simp; omega) hl⟩

/-- `many_empty_lines0` fails exactly on blank input (it meets the end of the input and stops
consuming). -/
theorem manyEmptyLines0_none {s : Str} : manyEmptyLines0 s = none ↔ BlankText s := by
  generalize hn : s.length = n
  induction n using Nat.strongRecOn generalizing s with
  | ind n ih =>
    unfold manyEmptyLines0
    have hsplit := List.takeWhile_append_dropWhile (p := isSpace) (l := s)
    have hlen : s.length = (s.takeWhile isSpace).length + (s.dropWhile isSpace).length := by
      have := congrArg List.length hsplit
      simp only [List.length_append] at this; omega
    cases e : preceded space0 eofOrEol s with
    | none =>
      rw [many0_of_none e]
      simp only [reduceCtorEq, false_iff]
      intro hb
      have hb' : BlankText (s.dropWhile isSpace) := by
        rw [← hsplit] at hb; exact hb.of_spaces takeWhile_all
      have e' : eofOrEol (s.dropWhile isSpace) = none := e
      generalize hd : s.dropWhile isSpace = d at hb' e'
      cases hb' with
      | nil => simp [eofOrEol, orElse, lineEnding, eof] at e'
      | lf _ => simp [eofOrEol, orElse, lineEnding] at e'
      | crlf _ => simp [eofOrEol, orElse, lineEnding] at e'
      | space _ =>
        have := List.head?_dropWhile_not isSpace s
        rw [hd] at this; simp [isSpace] at this
      | tab _ =>
        have := List.head?_dropWhile_not isSpace s
        rw [hd] at this; simp [isSpace] at this
    | some y =>
      obtain ⟨r, u⟩ := y
      have e' : eofOrEol (s.dropWhile isSpace) = some (r, u) := e
      have hbl : BlankText s ↔ BlankText (s.dropWhile isSpace) := by
        constructor
        · intro hb; rw [← hsplit] at hb; exact hb.of_spaces takeWhile_all
        · intro hb; rw [← hsplit]; exact BlankText.spaces takeWhile_all hb
      have step : ∀ {k : Str}, s.dropWhile isSpace = k ++ r → k ≠ [] →
          (BlankText (k ++ r) ↔ BlankText r) →
          (many0 (preceded space0 eofOrEol) s = none ↔ BlankText s) := by
        intro k hk hk0 hkr
        have hlt : r.length < s.length := by
          rw [hlen, hk]
          have : 0 < k.length := List.length_pos_iff.2 hk0
          simp; omega
        rw [hbl, hk, hkr, many0_eq, e]
        have ih' := ih r.length (by omega) (s := r) rfl
        rw [← ih']
        unfold manyEmptyLines0
        simp only [hlt, if_true]
        cases many0 (preceded space0 eofOrEol) r <;> simp
      rcases eofOrEol_some.1 e' with ⟨h1, h2⟩ | ⟨h1, h2⟩ | ⟨h1, h2, h3⟩
      · exact step (k := ['\n']) h1 (by simp)
          ⟨fun h => by cases h; assumption, fun h => .lf h⟩
      · exact step (k := ['\r', '\n']) h1 (by simp)
          ⟨fun h => by cases h; assumption, fun h => .crlf h⟩
      · subst h2
        have hb : BlankText s := hbl.2 (by rw [h1]; exact .nil)
        simp only [hb, iff_true]
        have hnil : many0 (preceded space0 eofOrEol) [] = none := by rw [many0_eq]; rfl
        rw [many0_eq, e]
        simp only [hnil, ite_self]

/-! ## Totality -/

section
variable {x : PExt} {cfg : PConfig}

theorem preceded_not_anychar {α : Type} {p : P α} {c : Char} {s : Str} (h : p (c :: s) = none) :
    preceded (notP p) anychar (c :: s) = some (s, c) := by
  unfold preceded notP; rw [h]; rfl

theorem conditional_none {α : Type} {b : Behavior α} {d : List α} {p : P α} {s : Str} :
    conditional b d p s = none ↔ (b = .ignore ∨ p s = none) := by
  cases b <;> simp [conditional, failP, mapP_none, value_none]

theorem conditionalUnit_none {α β : Type} {b : Behavior α} {p : P β} {s : Str} :
    conditionalUnit b p s = none ↔ (b = .ignore ∨ p s = none) := by
  cases b <;> simp [conditionalUnit, failP, value_none]

/-- `inline` accepts every non-empty input. -/
theorem inlineStep_ne_none (ht : cfg.text ≠ .ignore) (rec : Str → Option (List Inline))
    {s : Str} (hs : s ≠ []) : inlineStep x cfg rec s ≠ none := by
  intro h
  unfold inlineStep conditionalInline at h
  simp only [orElse_none, conditional_none, mapP_none] at h
  obtain ⟨h1, h2, h3, h4, h5, h6, h7, h8, h9, h10, h11, h12⟩ := h
  rcases h12 with h12 | h12
  · exact ht h12
  unfold textP at h12
  rw [mapP_none, many1_none] at h12
  unfold textPiece at h12
  simp only [orElse_none] at h12
  obtain ⟨_, h13, h14⟩ := h12
  rw [recognize_none] at h14
  obtain ⟨c, s, rfl⟩ := List.exists_cons_of_ne_nil hs
  have hn : notAText x cfg rec (c :: s) = none := by
    unfold notAText
    simp only [orElse_none, conditionalUnit_none, value_none]
    exact ⟨h1, h4, h5, .inr h13, h6, h2, h7, h9, h3, h10, h8⟩
  have : preceded (notP (notAText x cfg rec)) anychar (c :: s) = some (s, c) :=
    preceded_not_anychar hn
  rw [many1_none, this] at h14
  simp at h14

theorem inlineF_ne_none (ht : cfg.text ≠ .ignore) {n : Nat} {s : Str} (hs : s ≠ []) :
    inlineF x cfg (n + 1) s ≠ none := inlineStep_ne_none ht _ hs

theorem parseInlines1_ne_none (hc : cfg.CustomOk) (ht : cfg.text ≠ .ignore) {s : Str}
    (hs : s ≠ []) : ∃ l, parseInlines1 x cfg s = some l := by
  have := inlineF_con x cfg hc (s.length + 1)
  unfold parseInlines1 inlineMany1With
  cases e : mapP (many1 (inlineF x cfg (s.length + 1))) (fun l => mergeText l.flatten) s with
  | none =>
    rw [mapP_none, many1_none] at e
    exact absurd e (inlineF_ne_none ht hs)
  | some y => exact ⟨_, rfl⟩

/-- Every string is consumed completely by the inline parser. -/
theorem inlineMany1_rest (hc : cfg.CustomOk) (ht : cfg.text ≠ .ignore) {s r : Str}
    {l : List Inline} {n : Nat}
    (h : inlineMany1With (inlineF x cfg (n + 1)) s = some (r, l)) : r = [] := by
  unfold inlineMany1With at h
  obtain ⟨a, h1, _⟩ := mapP_some.1 h
  obtain ⟨r1, _, _, _, h2, _⟩ := many1_some.1 h1
  have := many0_stop h2
  false_or_by_contra
  rename_i hr
  exact inlineF_ne_none ht hr this

theorem indent03_some (s : Str) : ∃ r l, indent03 s = some (r, l) ∧
    r.dropWhile isSpace = s.dropWhile isSpace := by
  have key : ∀ n s r l, manyMN (chr ' ') 0 n s = some (r, l) →
      r.dropWhile isSpace = s.dropWhile isSpace := by
    intro n
    induction n with
    | zero => intro s r l h; simp [manyMN] at h; rw [h.1]
    | succ n ih =>
      intro s r l h
      rw [manyMN] at h
      cases e : chr ' ' s with
      | none => simp [e] at h; rw [h.1]
      | some y =>
        obtain ⟨s1, c⟩ := y
        obtain ⟨h1, h2⟩ := chr_some.1 e
        subst h1
        simp only [e, List.length_cons, Nat.lt_succ_self, if_true, Nat.zero_sub] at h
        cases e2 : manyMN (chr ' ') 0 n s1 with
        | none => simp [e2] at h
        | some z =>
          obtain ⟨r', l'⟩ := z
          simp only [e2, Option.some.injEq, Prod.mk.injEq] at h
          obtain ⟨rfl, rfl⟩ := h
          rw [ih _ _ _ e2, List.dropWhile_cons]; rfl
  cases e : indent03 s with
  | none => exact absurd e (indent03_ne_none s)
  | some y => exact ⟨y.1, y.2, rfl, key 3 s y.1 y.2 e⟩

theorem notEofOrEol1_rest {s r t : Str} (h : notEofOrEol1 s = some (r, t)) :
    eofOrEol r ≠ none := by
  unfold notEofOrEol1 at h
  obtain ⟨l, h1, _⟩ := recognize_some.1 h
  obtain ⟨r1, _, _, _, h2, _⟩ := many1_some.1 h1
  have h3 := many0_stop h2
  intro hn
  cases r with
  | nil => simp [eofOrEol, orElse, lineEnding, eof] at hn
  | cons c r =>
    rw [preceded_not_anychar hn] at h3
    simp at h3

theorem notEofOrEol1_of_some {s : Str} {y} (h : eofOrEol s = some y) : notEofOrEol1 s = none := by
  unfold notEofOrEol1
  rw [recognize_none, many1_none]
  cases e : preceded (notP eofOrEol) anychar s with
  | none => rfl
  | some z =>
    obtain ⟨_, _, h1, _⟩ := preceded_some.1 e
    rw [(notP_some.1 h1).1] at h; simp at h

theorem eofOrEol_dropWhile {r : Str} {y} (h : eofOrEol r = some y) :
    r.dropWhile isSpace = r := by
  obtain ⟨a, b⟩ := y
  rcases eofOrEol_some.1 h with ⟨rfl, _⟩ | ⟨rfl, _⟩ | ⟨rfl, _⟩ <;> rfl

theorem paragraphLine_of_eol {s : Str} {y} (h : eofOrEol s = some y) : paragraphLine s = none := by
  cases e : paragraphLine s with
  | none => rfl
  | some z =>
    obtain ⟨r1, _, h1, h2⟩ := preceded_some.1 e
    obtain ⟨r, l, h3, h4⟩ := indent03_some s
    rw [h3] at h1
    simp only [Option.some.injEq, Prod.mk.injEq] at h1
    obtain ⟨rfl, _⟩ := h1
    rw [eofOrEol_dropWhile h] at h4
    have hsuf : r <:+ s := Suf.out _ _ _ h3
    have : s <:+ r := by rw [← h4]; exact List.dropWhile_suffix _
    have : r = s := by
      have h5 := this.length_le
      have h6 := hsuf.length_le
      exact hsuf.eq_of_length (by omega)
    subst this
    rw [notEofOrEol1_of_some h] at h2; simp at h2

theorem paragraphLine_ne_none {s : Str} (h : preceded space0 eofOrEol s = none) :
    ∃ r t, paragraphLine s = some (r, t) ∧ t ≠ [] := by
  obtain ⟨r, l, h1, h2⟩ := indent03_some s
  have h3 : eofOrEol (r.dropWhile isSpace) = none := by rw [h2]; exact h
  have h4 : eofOrEol r = none := by
    cases e : eofOrEol r with
    | none => rfl
    | some y => rw [eofOrEol_dropWhile e, e] at h3; simp at h3
  have h5 : notEofOrEol1 r ≠ none := by
    unfold notEofOrEol1
    rw [Ne, recognize_none, many1_none]
    cases r with
    | nil => simp [eofOrEol, orElse, lineEnding, eof] at h4
    | cons c r =>
      rw [preceded_not_anychar h4]; simp
  cases e : notEofOrEol1 r with
  | none => exact absurd e h5
  | some y =>
    obtain ⟨r', t⟩ := y
    refine ⟨r', t, preceded_some.2 ⟨_, _, h1, e⟩, ?_⟩
    rintro rfl
    have h6 := Con.lt (p := notEofOrEol1) e
    have := congrArg List.length (notEofOrEol1_append e)
    simp at this; omega

/-- `paragraph(false)` accepts every input that does not start with a blank line. -/
theorem paragraphP_ne_none (hc : cfg.CustomOk) (ht : cfg.text ≠ .ignore) (rec : P (List Block))
    {s : Str} (h : preceded space0 eofOrEol s = none) : paragraphP x cfg rec false s ≠ none := by
  obtain ⟨r, t, h1, h2⟩ := paragraphLine_ne_none h
  have h3 : eofOrEol r ≠ none := by
    obtain ⟨_, _, _, h4⟩ := preceded_some.1 h1
    exact notEofOrEol1_rest h4
  obtain ⟨y, h4⟩ := Option.ne_none_iff_exists'.1 h3
  have h5 : preceded (notP (notAParagraphLine x cfg rec)) paragraphLine r = none := by
    cases e : preceded (notP (notAParagraphLine x cfg rec)) paragraphLine r with
    | none => rfl
    | some z =>
      obtain ⟨_, _, h6, h7⟩ := preceded_some.1 e
      rw [(notP_some.1 h6).2, paragraphLine_of_eol h4] at h7; simp at h7
  have h6 : paragraphLines x cfg rec r = some (y.1, []) := by
    unfold paragraphLines lineTerminated
    refine terminated_some.2 ⟨r, y.2, ?_, h4⟩
    unfold separatedList0
    rw [h5]
  obtain ⟨l, h7⟩ := parseInlines1_ne_none (x := x) hc ht h2
  have : paragraphP x cfg rec false s = some (y.1, l) := by
    unfold paragraphP
    refine mapOpt_some.2 ⟨[t], ?_, h7⟩
    exact mapP_some.2 ⟨(t, []), seq_some.2 ⟨r, h1, h6⟩, rfl⟩
  rw [this]; simp

/-- `block` accepts every input that is not blank, and no blank input. -/
theorem blockStep_none (hc : cfg.CustomOk) (ht : cfg.text ≠ .ignore) (hp : cfg.paragraph ≠ .ignore)
    (rec : P (List Block)) {s : Str} : blockStep x cfg rec s = none ↔ BlankText s := by
  rw [← manyEmptyLines0_none]
  unfold blockStep
  constructor
  · intro h
    cases e : manyEmptyLines0 s with
    | none => rfl
    | some y =>
      obtain ⟨r, l⟩ := y
      exfalso
      have h1 : preceded space0 eofOrEol r = none := many0_stop e
      unfold preceded at h
      rw [e] at h
      simp only [blockAlt, orElse_none] at h
      obtain ⟨_, _, _, _, _, _, _, _, _, _, _, _, h2⟩ := h
      unfold conditionalBlock at h2
      rw [conditional_none, mapP_none] at h2
      rcases h2 with h2 | h2
      · exact hp h2
      · exact paragraphP_ne_none hc ht rec h1 h2
  · intro h; unfold preceded; rw [h]

theorem blockP_none (hc : cfg.CustomOk) (ht : cfg.text ≠ .ignore) (hp : cfg.paragraph ≠ .ignore)
    {s : Str} : blockP x cfg s = none ↔ BlankText s := by
  rw [blockP_eq hc]; exact blockStep_none hc ht hp _

/-! ## C32 -/

/-- C32, general form: `parse_markdown` succeeds on every input, for every configuration in which
texts and paragraphs are not ignored (custom parsers, if any, must consume what they accept). -/
theorem C32_parse_total_of_config (hc : cfg.CustomOk) (ht : cfg.text ≠ .ignore)
    (hp : cfg.paragraph ≠ .ignore) (s : Str) : ∃ d, parseMarkdown x cfg s = some d := by
  unfold parseMarkdown
  rw [parseMarkdownF_eq hc (by omega)]
  have := blockP_con (x := x) hc
  obtain ⟨r, l, h⟩ := many0_ex (p := blockP x cfg) s
  have hb := (blockP_none hc ht hp).1 (many0_stop h)
  obtain ⟨l', h'⟩ := many0_ws_blank hb
  have : terminated (many0 (blockP x cfg)) (seq (many0 (space1 <||> lineEnding)) eof) s =
      some ([], l) :=
    terminated_some.2 ⟨r, (l', []), h, seq_some.2 ⟨[], h', rfl⟩⟩
  rw [this]
  exact ⟨_, rfl⟩

end

/-- Custom parsers are absent, so they are fine. -/
theorem CustomOk_of_none {cfg : PConfig} (h1 : cfg.customInline = none)
    (h2 : cfg.customBlock = none) : cfg.CustomOk where
  inl := by rw [h1]; unfold customParser; infer_instance
  blk := by rw [h2]; unfold customParser; infer_instance

theorem default_customOk (e : Str → Option Str) : (PConfig.default e).CustomOk :=
  CustomOk_of_none rfl rfl

/-- C32: `parse_markdown` with the default configuration returns `Ok` for every input string,
whatever the table of named entities. -/
theorem C32_parse_total (x : PExt) (entities : Str → Option Str) (s : Str) :
    ∃ d, parseMarkdown x (PConfig.default entities) s = some d :=
  C32_parse_total_of_config (default_customOk _) (by intro h; cases h) (by intro h; cases h) s

/-- The two conditions on the configuration are needed: ignoring texts makes `a` an error. -/
theorem C32_text_needed :
    parseMarkdown PExt.ascii { entities := fun _ => none, text := .ignore } cs!"a" = none := by
  decide +kernel

/-- The two conditions on the configuration are needed: ignoring paragraphs (and setext headings,
whose parser also reads paragraphs) makes `a` an error. -/
theorem C32_paragraph_needed :
    parseMarkdown PExt.ascii { entities := fun _ => none, paragraph := .ignore, headingV2 := .ignore }
      cs!"a" = none := by
  decide +kernel

/-! ## C33 -/

/-- C33: more block depth than the input is long never changes the result (any configuration whose
custom parsers consume what they accept). -/
theorem C33_block_depth {x : PExt} {cfg : PConfig} (hc : cfg.CustomOk) (n : Nat) (s : Str)
    (h : s.length < n) : parseMarkdownF x cfg n s = parseMarkdown x cfg s := by
  unfold parseMarkdown
  rw [parseMarkdownF_eq hc h, parseMarkdownF_eq hc (by omega)]

/-- C33 for inlines: `inline_many1` and `inline_many0` with more depth than the input is long. -/
theorem C33_inline_depth {x : PExt} {cfg : PConfig} (hc : cfg.CustomOk) (n : Nat) (s : Str)
    (h : s.length < n) :
    (inlineMany1With (inlineF x cfg n) s).map Prod.snd = parseInlines1 x cfg s ∧
    (inlineMany0With (inlineF x cfg n) s).map Prod.snd = parseInlines0 x cfg s :=
  ⟨parseInlines1_depth hc n s h, parseInlines0_depth hc n s h⟩

/-! ## C39 -/

/-- C39: a blank input parses to the empty document, whatever the configuration. -/
theorem C39_blank (x : PExt) (cfg : PConfig) {s : Str} (h : BlankText s) :
    parseMarkdown x cfg s = some ⟨[]⟩ := by
  have hn : blockF x cfg (s.length + 1) s = none := by
    unfold blockF blockStep preceded
    rw [manyEmptyLines0_none.2 h]
  obtain ⟨l', h'⟩ := many0_ws_blank h
  unfold parseMarkdown parseMarkdownF
  have : terminated (many0 (blockF x cfg (s.length + 1)))
      (seq (many0 (space1 <||> lineEnding)) eof) s = some ([], []) :=
    terminated_some.2 ⟨s, (l', []), many0_of_none hn, seq_some.2 ⟨[], h', rfl⟩⟩
  rw [this]; rfl

/-- BlankText lines: each one spaces and tabs followed by a line ending. -/
inductive BlankLines : Str → Prop
  | nil : BlankLines []
  | lf {sp s : Str} : (∀ c ∈ sp, c = ' ' ∨ c = '\t') → BlankLines s → BlankLines (sp ++ '\n' :: s)
  | crlf {sp s : Str} : (∀ c ∈ sp, c = ' ' ∨ c = '\t') → BlankLines s →
      BlankLines (sp ++ '\r' :: '\n' :: s)

theorem dropWhile_isSpace_append {sp : Str} {c : Char} {s : Str}
    (h : ∀ d ∈ sp, d = ' ' ∨ d = '\t') (hc : isSpace c = false) :
    (sp ++ c :: s).dropWhile isSpace = c :: s ∧ (sp ++ c :: s).takeWhile isSpace = sp := by
  induction sp with
  | nil => simp [List.dropWhile_cons, List.takeWhile_cons, hc]
  | cons d sp ih =>
    have hd : isSpace d = true := isSpace_iff.2 (h d (by simp))
    have := ih (fun e he => h e (by simp [he]))
    simp only [List.cons_append, List.dropWhile_cons, List.takeWhile_cons, hd, if_true]
    exact ⟨this.1, by rw [this.2]⟩

theorem emptyLine_rest {sp e s : Str} (h : ∀ d ∈ sp, d = ' ' ∨ d = '\t')
    (he : e = ['\n'] ∨ e = ['\r', '\n']) :
    preceded space0 eofOrEol (sp ++ (e ++ s)) = some (s, e) ∧
    (many0 (space1 <||> lineEnding) (sp ++ (e ++ s))).map Prod.fst =
      (many0 (space1 <||> lineEnding) s).map Prod.fst := by
  have hl : lineEnding (e ++ s) = some (s, e) := by
    rcases he with rfl | rfl <;> rfl
  have hlen : s.length < (e ++ s).length := by rcases he with rfl | rfl <;> simp <;> omega
  obtain ⟨c, t, hce, hc⟩ : ∃ c t, e ++ s = c :: t ∧ isSpace c = false := by
    rcases he with rfl | rfl
    · exact ⟨_, _, rfl, rfl⟩
    · exact ⟨_, _, rfl, rfl⟩
  have hd : (sp ++ (e ++ s)).dropWhile isSpace = e ++ s ∧
      (sp ++ (e ++ s)).takeWhile isSpace = sp := by
    rw [hce]; exact dropWhile_isSpace_append h hc
  constructor
  · rw [emptyLine_some, hd.1]; exact orElse_of_some hl
  · obtain ⟨r, l, hm⟩ := many0_ex (p := space1 <||> lineEnding) s
    have h1 : many0 (space1 <||> lineEnding) (e ++ s) = some (r, e :: l) := by
      refine many0_of_some ?_ hlen hm
      rw [orElse_of_none, hl]
      show takeWhile1 _ _ = _
      unfold takeWhile1
      rw [hce, List.takeWhile_cons, hc]; rfl
    rw [hm]
    by_cases hsp : sp = []
    · subst hsp; rw [List.nil_append, h1]; rfl
    · have h2 : many0 (space1 <||> lineEnding) (sp ++ (e ++ s)) = some (r, sp :: e :: l) := by
        refine many0_of_some (r := e ++ s) ?_ ?_ h1
        · apply orElse_of_some
          show takeWhile1 _ _ = _
          unfold takeWhile1
          rw [hd.1, hd.2]
          simp [hsp]
        · have := List.length_pos_iff.2 hsp
          simp only [List.length_append] at *; omega
      rw [h2]; rfl

theorem BlankLines.rest {b : Str} (h : BlankLines b) (s : Str) :
    (manyEmptyLines0 (b ++ s)).map Prod.fst = (manyEmptyLines0 s).map Prod.fst ∧
    (many0 (space1 <||> lineEnding) (b ++ s)).map Prod.fst =
      (many0 (space1 <||> lineEnding) s).map Prod.fst := by
  have step : ∀ {sp e t : Str}, (∀ d ∈ sp, d = ' ' ∨ d = '\t') →
      (e = ['\n'] ∨ e = ['\r', '\n']) →
      (manyEmptyLines0 (sp ++ (e ++ t))).map Prod.fst = (manyEmptyLines0 t).map Prod.fst := by
    intro sp e t h1 h2
    unfold manyEmptyLines0
    conv => lhs; rw [many0_eq, (emptyLine_rest (s := t) h1 h2).1]
    have : t.length < (sp ++ (e ++ t)).length := by
      rcases h2 with rfl | rfl <;> simp <;> omega
    simp only [this, if_true]
    cases many0 (preceded space0 eofOrEol) t <;> rfl
  induction h with
  | nil => exact ⟨rfl, rfl⟩
  | @lf sp t h1 h2 ih =>
    have e : (sp ++ '\n' :: t) ++ s = sp ++ (['\n'] ++ (t ++ s)) := by simp
    rw [e, step h1 (.inl rfl), (emptyLine_rest h1 (.inl rfl)).2]; exact ih
  | @crlf sp t h1 h2 ih =>
    have e : (sp ++ '\r' :: '\n' :: t) ++ s = sp ++ (['\r', '\n'] ++ (t ++ s)) := by simp
    rw [e, step h1 (.inr rfl), (emptyLine_rest h1 (.inr rfl)).2]; exact ih

/-- C39: blank lines before a document do not change it. -/
theorem C39_leading_blank_lines {x : PExt} {cfg : PConfig} (hc : cfg.CustomOk) {b : Str}
    (h : BlankLines b) (s : Str) : parseMarkdown x cfg (b ++ s) = parseMarkdown x cfg s := by
  unfold parseMarkdown
  rw [parseMarkdownF_eq hc (by omega), parseMarkdownF_eq hc (by omega)]
  have := blockP_con (x := x) hc
  obtain ⟨h1, h2⟩ := h.rest s
  have hb : blockP x cfg (b ++ s) = blockP x cfg s := by
    rw [blockP_eq hc, blockP_eq hc]
    unfold blockStep preceded
    cases e1 : manyEmptyLines0 (b ++ s) <;> cases e2 : manyEmptyLines0 s <;> rw [e1, e2] at h1 <;>
      simp at h1
    · rename_i y z; obtain ⟨a, _⟩ := y; obtain ⟨a', _⟩ := z; simp at h1; rw [h1]
  have ht : (terminated (many0 (blockP x cfg)) (seq (many0 (space1 <||> lineEnding)) eof)
      (b ++ s)).map Prod.snd =
      (terminated (many0 (blockP x cfg)) (seq (many0 (space1 <||> lineEnding)) eof) s).map
        Prod.snd := by
    unfold terminated mapP seq
    cases e : blockP x cfg s with
    | none =>
      rw [many0_of_none e, many0_of_none (hb.trans e)]
      cases e1 : many0 (space1 <||> lineEnding) (b ++ s) <;>
        cases e2 : many0 (space1 <||> lineEnding) s <;> rw [e1, e2] at h2 <;> simp at h2
      · simp only [e1, e2]
      · rename_i y z; obtain ⟨a, _⟩ := y; obtain ⟨a', _⟩ := z; simp at h2; subst h2
        simp only [e1, e2]
        cases eof a <;> rfl
    | some y =>
      obtain ⟨r, a⟩ := y
      have hlt := Con.lt (p := blockP x cfg) e
      obtain ⟨r', l, hm⟩ := many0_ex (p := blockP x cfg) r
      rw [many0_of_some e hlt hm, many0_of_some (hb.trans e) (by simp; omega) hm]
  generalize terminated (many0 (blockP x cfg)) (seq (many0 (space1 <||> lineEnding)) eof)
    (b ++ s) = p at ht ⊢
  generalize terminated (many0 (blockP x cfg)) (seq (many0 (space1 <||> lineEnding)) eof) s = q
    at ht ⊢
  cases p <;> cases q <;> simp at ht ⊢
  rw [ht]

/-- Three blank lines of different kinds meet the hypothesis. -/
example : BlankLines cs!" \n\t\r\n\n" :=
  .lf (sp := [' ']) (by simp) (.crlf (sp := ['\t']) (by simp) (.lf (sp := []) (by simp) .nil))

/-- BlankText lines after a document can change it: `<a>` is a paragraph, with a final line ending it is
an HTML block. -/
theorem C39_trailing_newline_matters :
    parseMarkdown PExt.ascii (PConfig.default fun _ => none) cs!"<a>" =
      some ⟨[.paragraph [.text cs!"<a>"]]⟩ ∧
    parseMarkdown PExt.ascii (PConfig.default fun _ => none) cs!"<a>\n" =
      some ⟨[.htmlBlock cs!"<a>\n"]⟩ := by
  decide +kernel

end Verif
