import Verif.LatexProps
/-!
# LaTeX renderer: C29 (whole documents), C30, C31
-/
namespace Verif
namespace Latex

variable {raw : List Char} {code t : Bool}

/-- What `block_tex` needs of one block. -/
structure BlockOK (raw : List Char) (code : Bool) (st : State) (b : Block) : Prop where
  alert : ∀ name bs, b = .githubAlert (.custom name) bs → ∀ c ∈ name, c ∉ special ∨ c ∈ raw
  codeOk : ∀ k s, b = .codeBlock k s → code = true ∧ (∀ name ∈ codeNames, ¬ endEnv name <:+: s) ∧
    ∀ lang, k = .fenced (some lang) → Plain lang
  refs : linkDef b = none → Refs raw st (Inline.preL b.directInlines)

theorem headingCommand_mem (k : HeadingKind) : headingCommand k ∈ commandNames := by
  unfold headingCommand
  split <;> decide

theorem block_tex (st : State) :
    (∀ b, (∀ c ∈ b.pre, BlockOK raw code st c) → ∀ t, TexDoc raw code t (blockDoc st b)) ∧
    (∀ i, (∀ c ∈ ListItem.pre i, BlockOK raw code st c) → TexDoc raw code false (itemDoc st i)) ∧
    (∀ l, (∀ c ∈ Block.preL l, BlockOK raw code st c) → ∀ t first acc, TexDoc raw code t acc →
      TexDoc raw code t (blocksDoc st first acc l)) ∧
    (∀ l, (∀ c ∈ ListItem.preL l, BlockOK raw code st c) → ∀ acc, TexDoc raw code false acc →
      TexDoc raw code false (itemsDoc st acc l)) := by
  apply Block.ind
  case paragraph =>
    intro c h t
    exact inlines_tex ((h (.paragraph c) (by simp [Block.pre])).refs rfl)
  case heading =>
    intro k c h t
    exact .command (headingCommand_mem k) (inlines_tex ((h (.heading k c) (by simp [Block.pre])).refs rfl))
  case thematicBreak => intro _ t; exact .command (by decide) .nil
  case blockQuote =>
    intro b ih h t
    simp only [blockDoc]
    exact .environment (by decide) (by simp)
      (.app (ih (fun c hc => h c (by simp [Block.pre, hc])) _ _ _ .nil) .hardline)
  case list =>
    intro k b ih h t
    have : ∀ k, listEnv k ∈ environmentNames ∧ decide (listEnv k ∈ tableNames) = false := by
      intro k
      cases k
      · exact ⟨by simp [listEnv, environmentNames], rfl⟩
      · exact ⟨by simp [listEnv, environmentNames], rfl⟩
    simp only [blockDoc]
    refine .environment (this k).1 (by simp) ?_
    rw [(this k).2]
    exact .app (ih (fun c hc => h c (by simp [Block.pre, hc])) _ .nil) .hardline
  case codeBlock =>
    intro k s h t
    obtain ⟨h1, h2, h3⟩ := (h _ (by simp [Block.pre])).codeOk k s rfl
    exact codeBlock_tex h1 h2 h3
  case htmlBlock => intro s _ t; exact .text (Tex.escape ..)
  case definition => intro _ _ _ _ t; exact .nil
  case table =>
    intro rows al h t
    exact table_tex ((h (.table rows al) (by simp [Block.pre])).refs rfl)
  case footnoteDefinition =>
    intro l b ih h t
    simp only [blockDoc]
    split
    · refine .command (by decide) (.app (.text ?_)
        (ih (fun c hc => h c (by simp [Block.pre, hc])) _ _ _ .nil))
      exact ((Tex.lit (s := cs!"[") (by decide)).append (Tex.natStr _)).append (Tex.lit (by decide))
    · exact .nil
  case githubAlert =>
    intro ty b ih h t
    simp only [blockDoc]
    refine .command (by decide) (.app (.text (Tex.append ?_ (Tex.lit (by decide))))
        (ih (fun c hc => h c (by simp [Block.pre, hc])) _ _ _ .nil))
    cases ty with
    | custom name => exact Tex.plain ((h _ (by simp [Block.pre])).alert name b rfl)
    | _ => exact Tex.lit (by decide)
  case empty => intro _ t; exact .nil
  case item =>
    intro task b ih h
    simp only [itemDoc]
    refine .app (.app ?_ (ih (fun c hc => h c (by simp [ListItem.pre, hc])) _ _ _ .nil)) .hardline
    have hi : TexDoc raw code false (.text cs!"\\item ") :=
      .text (.word _ cs!"item" ' ' [] (by decide) (.inl rfl) (.nil _))
    have sp : Tex raw code false [' '] := .char _ _ _ (.inl (by decide)) (.nil _)
    unfold checkbox
    split
    · exact hi.app (.text (.math _ cs!"boxtimes" _ (by decide) sp))
    · exact hi.app (.text (.math _ cs!"square" _ (by decide) sp))
    · exact hi
  case nilB => intro _ t _ _ h; exact h
  case consB =>
    intro b l hb hl h t first acc ha
    refine hl (fun c hc => h c (by simp [Block.preL, hc])) t _ _ (.app ?_
      (hb (fun c hc => h c (by simp [Block.preL, hc])) t))
    cases first
    · exact (ha.app .hardline).app .hardline
    · exact ha
  case nilI => intro _ _ h; exact h
  case consI =>
    intro i l hi hl h acc ha
    exact hl (fun c hc => h c (by simp [ListItem.preL, hc])) _
      (ha.app (hi (fun c hc => h c (by simp [ListItem.preL, hc]))))

theorem render_tex (dw : Str → Nat) (cfg : Config) (d : Document)
    (h : ∀ b, d.HasBlock b → BlockOK raw code (State.new cfg d) b) :
    Tex raw code false (renderLatex dw cfg d) := by
  refine (block_tex (State.new cfg d)).2.2.1 d.blocks ?_ false true .nil .nil _
    (render_fills dw cfg d)
  intro c hc
  exact h c ((Document.mem_allBlocks d c).1 hc)

/-- **C29.** Whatever the document (code blocks included), the table and code block styles and the
width, the output is well-formed LaTeX over a fixed vocabulary: every group and environment is
closed, `&` occurs unescaped only between table cells, code environments end at their own end
marker, and no user text can introduce a command.  Custom alert names must be free of special
characters and code free of end markers, since the renderer escapes neither.  (`^` is tolerated:
a dangling footnote reference prints it raw, see `C29_dangling_caret`.) -/
theorem C29_well_formed (dw : Str → Nat) (cfg : Config) (d : Document) (ha : PlainAlerts d)
    (hc : SafeCode d) : Tex ['^'] true false (renderLatex dw cfg d) := by
  refine render_tex dw cfg d fun b hb => ⟨?_, ?_, fun _ => .inl (by simp)⟩
  · rintro name bs rfl c hc; exact .inl (ha name bs hb c hc)
  · rintro k s rfl
    exact ⟨rfl, hc k s hb⟩

/-! ### Brace balance -/

theorem groups_cons {c : Char} (h1 : c ≠ '\\') (h2 : c ≠ '{') (h3 : c ≠ '}') (n : Nat) (s : Str) :
    groups n (c :: s) = groups n s := by
  rw [groups] <;> simp_all

theorem groups_plain {s : Str} (h : ∀ c ∈ s, c ≠ '\\' ∧ c ≠ '{' ∧ c ≠ '}') (n : Nat) (r : Str) :
    groups n (s ++ r) = groups n r := by
  induction s with
  | nil => rfl
  | cons c s ih =>
    obtain ⟨h1, h2, h3⟩ := h c (by simp)
    rw [List.cons_append, groups_cons h1 h2 h3]
    exact ih fun x hx => h x (by simp [hx])

/-- A command name after a backslash. -/
theorem groups_name {c : Char} {s : Str} (h : ∀ c ∈ s, c ≠ '\\' ∧ c ≠ '{' ∧ c ≠ '}') (n : Nat)
    (r : Str) : groups n ('\\' :: c :: s ++ r) = groups n r := by
  show groups n ('\\' :: c :: (s ++ r)) = _
  rw [groups, groups_plain h]

theorem groups_command {name : Str} (h : name ∈ commandNames ++ wordNames ++ mathNames) (n : Nat)
    (r : Str) : groups n ('\\' :: name ++ r) = groups n r := by
  have : ∀ name ∈ commandNames ++ wordNames ++ mathNames, name ≠ [] ∧
      ∀ c ∈ name, c ≠ '\\' ∧ c ≠ '{' ∧ c ≠ '}' := by decide
  obtain ⟨h1, h2⟩ := this name h
  cases name with
  | nil => exact absurd rfl h1
  | cons c s => exact groups_name (fun x hx => h2 x (by simp [hx])) n r

theorem groups_open (n : Nat) (r : Str) : groups n ('{' :: r) = groups (n + 1) r := by
  rw [groups]

theorem groups_close (n : Nat) (r : Str) : groups (n + 1) ('}' :: r) = groups n r := by
  rw [groups]

theorem groups_env {name : Str} (h : name ∈ environmentNames) (n : Nat) (r : Str) :
    groups n (beginEnv name ++ r) = groups n r ∧ groups n (endEnv name ++ r) = groups n r := by
  have : ∀ name ∈ environmentNames, ∀ c ∈ name, c ≠ '\\' ∧ c ≠ '{' ∧ c ≠ '}' := by decide
  have h' := this name h
  constructor
  · have e : beginEnv name ++ r = '\\' :: 'b' :: cs!"egin" ++ ('{' :: (name ++ ('}' :: r))) := by
      simp [beginEnv]
    rw [e, groups_name (by decide), groups_open, groups_plain h', groups_close]
  · have e : endEnv name ++ r = '\\' :: 'e' :: cs!"nd" ++ ('{' :: (name ++ ('}' :: r))) := by
      simp [endEnv]
    rw [e, groups_name (by decide), groups_open, groups_plain h', groups_close]

/-- The special characters other than braces and backslash. -/
def rawOk : List Char := ['$', '&', '%', '#', '^', '_', '~']

theorem Tex.groups {t : Bool} {s : Str} (h : Tex rawOk false t s) (n : Nat) (r : Str) :
    groups n (s ++ r) = groups n r := by
  induction h generalizing n r with
  | nil => rfl
  | char t c s hc _ ih =>
    rw [List.cons_append, groups_cons, ih]
    all_goals
      rintro rfl
      exact absurd hc (by decide)
  | symbol t c s hc _ ih =>
    show Latex.groups n ('\\' :: c :: (s ++ r)) = _
    rw [Latex.groups, ih]
  | ampersand s _ ih => rw [List.cons_append, groups_cons, ih] <;> decide
  | math t name s hn _ ih =>
    have e : ('$' :: '\\' :: name ++ '$' :: s) ++ r = '$' :: ('\\' :: name ++ ('$' :: (s ++ r))) := by
      simp
    rw [e, groups_cons (by decide) (by decide) (by decide), groups_command (by simp [hn]),
      groups_cons (by decide) (by decide) (by decide), ih]
  | word t name c s hn hc _ ih =>
    have e : ('\\' :: name ++ c :: s) ++ r = '\\' :: name ++ (c :: (s ++ r)) := by simp
    rw [e, groups_command (by simp [hn])]
    rcases hc with rfl | rfl <;> rw [groups_cons (by decide) (by decide) (by decide), ih]
  | command t name inner s hn _ _ ih1 ih2 =>
    have e : ('\\' :: name ++ cs!"{" ++ inner ++ cs!"}" ++ s) ++ r =
      '\\' :: name ++ ('{' :: (inner ++ ('}' :: (s ++ r)))) := by simp
    rw [e, groups_command (by simp [hn]), groups_open, ih1, groups_close, ih2]
  | group t inner s _ _ ih1 ih2 =>
    have e : (cs!"{" ++ inner ++ cs!"}" ++ s) ++ r = ('{' :: (inner ++ ('}' :: (s ++ r)))) := by
      simp
    rw [e, groups_open, ih1, groups_close, ih2]
  | env t name inner s hn _ _ ih1 ih2 =>
    have e : (beginEnv name ++ inner ++ endEnv name ++ s) ++ r =
      beginEnv name ++ (inner ++ (endEnv name ++ (s ++ r))) := by simp
    rw [e, (groups_env hn _ _).1, ih1, (groups_env hn _ _).2, ih2]
  | code t name inner s hc => exact absurd hc (by decide)

/-- **C29.** In the output for a document without code blocks, for all table styles and widths, the
unescaped braces nest properly. -/
theorem C29_balanced (dw : Str → Nat) (cfg : Config) (d : Document)
    (hc : ∀ k s, ¬ d.HasBlock (.codeBlock k s))
    (ha : ∀ name b, d.HasBlock (.githubAlert (.custom name) b) →
      '\\' ∉ name ∧ '{' ∉ name ∧ '}' ∉ name) :
    Balanced (renderLatex dw cfg d) := by
  have : Tex rawOk false false (renderLatex dw cfg d) := by
    refine render_tex dw cfg d fun b hb => ⟨?_, ?_, fun _ => .inl (by decide)⟩
    · rintro name bs rfl c hc
      obtain ⟨h1, h2, h3⟩ := ha name bs hb
      by_cases hs : c ∈ special
      · right
        simp only [special, List.mem_cons, List.not_mem_nil, or_false] at hs
        rcases hs with rfl | rfl | rfl | rfl | rfl | rfl | rfl | rfl | rfl | rfl
        · exact absurd hc h1
        · exact absurd hc h2
        · exact absurd hc h3
        all_goals decide
      · exact .inl hs
    · rintro k s rfl
      exact absurd hb (hc k s)
  have h := this.groups 0 []
  rwa [List.append_nil] at h

/-- **C29.** If moreover every footnote reference has a numbered definition, no special character at
all is left unescaped in running text. -/
theorem C29_no_raw_special (dw : Str → Nat) (cfg : Config) (d : Document) (ha : PlainAlerts d)
    (hc : SafeCode d)
    (hf : ∀ l, d.HasInline (.footnoteReference l) → (State.new cfg d).getFootnoteIndex l ≠ none) :
    Tex [] true false (renderLatex dw cfg d) := by
  refine render_tex dw cfg d fun b hb => ⟨?_, ?_, fun _ => .inr ?_⟩
  · rintro name bs rfl c hc; exact .inl (ha name bs hb c hc)
  · rintro k s rfl
    exact ⟨rfl, hc k s hb⟩
  · intro l hl
    refine hf l ((Document.mem_allInlines d _).1 (List.mem_flatMap.2 ⟨b, ?_, hl⟩))
    exact (Document.mem_allBlocks d b).2 hb

/-- A non-trivial document meets the hypotheses of the C29 theorems. -/
def sample : Document :=
  ⟨[.heading (.atx 2) [.text cs!"50% {off} \\ now"],
    .list (.bullet .dash) [.mk (some .complete) [.paragraph [.emphasis [.text cs!"a_b"],
      .footnoteReference cs!"n", .link cs!"u&v" (some cs!"t~") [.code cs!"x^2"]]]],
    .table [[[.text cs!"h1"], [.text cs!"h2"]], [[.text cs!"1"], []]] [.left, .right],
    .codeBlock (.fenced (some cs!"rust")) cs!"fn f() { x & y }",
    .footnoteDefinition cs!"n" [.paragraph [.text cs!"note"]],
    .githubAlert (.custom cs!"Danger") [.paragraph [.text cs!"#1"]]]⟩

theorem sample_alerts : PlainAlerts sample := by
  intro name b h
  have := (Document.mem_allBlocks _ _).2 h
  simp [Document.allBlocks, sample, Block.preL, Block.pre, ListItem.preL, ListItem.pre] at this
  rw [this.1]
  unfold Plain; decide

theorem sample_code : SafeCode sample := by
  intro k s h
  have := (Document.mem_allBlocks _ _).2 h
  simp [Document.allBlocks, sample, Block.preL, Block.pre, ListItem.preL, ListItem.pre] at this
  obtain ⟨rfl, rfl⟩ := this
  refine ⟨by decide, ?_⟩
  rintro lang ⟨⟩
  unfold Plain; decide

example (dw : Str → Nat) (cfg : Config) : Tex ['^'] true false (renderLatex dw cfg sample) :=
  C29_well_formed dw cfg sample sample_alerts sample_code

example (dw : Str → Nat) (cfg : Config) : Tex [] true false (renderLatex dw cfg sample) := by
  refine C29_no_raw_special dw cfg sample sample_alerts sample_code fun l h => ?_
  have := (Document.mem_allInlines _ _).2 h
  simp [Document.allInlines, Document.allBlocks, sample, Block.preL, Block.pre, ListItem.preL,
    ListItem.pre, Block.directInlines, Inline.preL, Inline.pre] at this
  rw [this]
  have : (State.new cfg sample).getFootnoteIndex cs!"n" = some 1 := rfl
  rw [this]
  exact Option.some_ne_none _

/-- A dangling footnote reference leaves a raw `^` in running text, which LaTeX rejects outside
math mode; the hypothesis of `C29_no_raw_special` cannot be dropped. -/
theorem C29_dangling_caret (dw : Str → Nat) :
    renderLatex dw Config.default ⟨[.paragraph [.footnoteReference cs!"n"]]⟩ = cs!"[^n]" := by
  rfl

/-- Custom alert names are not escaped: a name with a brace unbalances the output. -/
theorem C29_alert_not_escaped :
    ¬ Balanced (renderLatex List.length Config.default ⟨[.githubAlert (.custom cs!"}") []]⟩) := by
  unfold Balanced; decide +kernel

/-- Code is not escaped: a code block can close its own environment. -/
theorem C29_code_not_escaped :
    renderLatex List.length Config.default
      ⟨[.codeBlock (.fenced none) cs!"\\end{verbatim}\\input{secret}"]⟩ =
    cs!"\\begin{verbatim}\n\\end{verbatim}\\input{secret}\n\\end{verbatim}" := by
  decide +kernel

/-! ## C30: the width only moves whitespace -/

section Width
variable (w w' : Nat) (ts : TableStyle) (cb : CodeBlockStyle) (fi : List (Str × Nat))
  (ld : List (List Inline × (Str × Option Str)))

theorem inline_width :
    (∀ i, inlineDoc ⟨⟨w, ts, cb⟩, fi, ld⟩ i = inlineDoc ⟨⟨w', ts, cb⟩, fi, ld⟩ i) ∧
    (∀ l, inlineDocs ⟨⟨w, ts, cb⟩, fi, ld⟩ l = inlineDocs ⟨⟨w', ts, cb⟩, fi, ld⟩ l) := by
  apply Inline.ind <;> intros <;>
    simp only [inlineDoc, inlineDocs, State.getFootnoteIndex, State.getLinkDefinition, *]

theorem inlines_width (l : List Inline) :
    inlinesDoc ⟨⟨w, ts, cb⟩, fi, ld⟩ l = inlinesDoc ⟨⟨w', ts, cb⟩, fi, ld⟩ l := by
  simp only [inlinesDoc, (inline_width w w' ts cb fi ld).2]

theorem rowCells_width (row : List (List Inline)) : ∀ first acc,
    rowCells ⟨⟨w, ts, cb⟩, fi, ld⟩ first acc row = rowCells ⟨⟨w', ts, cb⟩, fi, ld⟩ first acc row := by
  induction row with
  | nil => intros; rfl
  | cons c row ih => intros; simp only [rowCells, inlines_width w w', ih]

theorem dataRows_width (sep : Doc) (rows : List (List (List Inline))) : ∀ acc,
    dataRows ⟨⟨w, ts, cb⟩, fi, ld⟩ sep acc rows = dataRows ⟨⟨w', ts, cb⟩, fi, ld⟩ sep acc rows := by
  induction rows with
  | nil => intros; rfl
  | cons c row ih => intros; simp only [dataRows, tableRowDoc, rowCells_width w w', ih]

theorem headerRow_width (rule : Str) (acc : Doc) (rows : List (List (List Inline))) :
    headerRow ⟨⟨w, ts, cb⟩, fi, ld⟩ rule acc rows =
      headerRow ⟨⟨w', ts, cb⟩, fi, ld⟩ rule acc rows := by
  unfold headerRow
  cases rows.head? with
  | none => rfl
  | some h => simp only [tableRowDoc, rowCells_width w w']

theorem table_width (rows : List (List (List Inline))) (al : List Alignment) :
    tableDoc ⟨⟨w, ts, cb⟩, fi, ld⟩ rows al = tableDoc ⟨⟨w', ts, cb⟩, fi, ld⟩ rows al := by
  simp only [tableDoc, tabularDoc, longtabuDoc, booktabsDoc, dataRows_width w w', headerRow_width w w']

theorem block_width :
    (∀ b, blockDoc ⟨⟨w, ts, cb⟩, fi, ld⟩ b = blockDoc ⟨⟨w', ts, cb⟩, fi, ld⟩ b) ∧
    (∀ i, itemDoc ⟨⟨w, ts, cb⟩, fi, ld⟩ i = itemDoc ⟨⟨w', ts, cb⟩, fi, ld⟩ i) ∧
    (∀ l, ∀ first acc, blocksDoc ⟨⟨w, ts, cb⟩, fi, ld⟩ first acc l =
      blocksDoc ⟨⟨w', ts, cb⟩, fi, ld⟩ first acc l) ∧
    (∀ l, ∀ acc, itemsDoc ⟨⟨w, ts, cb⟩, fi, ld⟩ acc l = itemsDoc ⟨⟨w', ts, cb⟩, fi, ld⟩ acc l) := by
  apply Block.ind <;> intros <;>
    simp only [blockDoc, itemDoc, blocksDoc, itemsDoc, State.getFootnoteIndex, codeBlockDoc,
      inlines_width w w', table_width w w', *]

end Width

theorem docSkel_width (cfg : Config) (w : Nat) (d : Document) :
    docSkel { cfg with width := w } d = docSkel cfg d := by
  obtain ⟨w', ts, cb⟩ := cfg
  simp only [docSkel, State.new, (block_width w w' ts cb _ _).2.2.1]

/-- **C30.** Changing the width (and the way text is measured) changes nothing but spaces into
newlines and back, position by position. -/
theorem C30_width_only_whitespace (dw dw' : Str → Nat) (cfg : Config) (w : Nat) (d : Document) :
    (renderLatex dw { cfg with width := w } d).map (fun c => if c = '\n' then ' ' else c) =
    (renderLatex dw' cfg d).map (fun c => if c = '\n' then ' ' else c) := by
  have h := render_fills dw { cfg with width := w } d
  rw [docSkel_width] at h
  exact h.flat (render_fills dw' cfg d)

end Latex
end Verif
