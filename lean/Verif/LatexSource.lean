import Verif.LatexSourceSpec
import Verif.LatexProps3
import Verif.PrinterWords
/-!
# LaTeX renderer: C59, the output is the LaTeX text of the document
-/
set_option linter.unusedVariables false
set_option linter.unusedSimpArgs false
namespace Verif
namespace Latex
open Source

theorem escapeChar_spell (c : Char) : escapeChar c = (spelling.lookup c).getD [c] := by
  by_cases h : c ∈ special
  · simp only [special, List.mem_cons, List.not_mem_nil, or_false] at h
    rcases h with rfl | rfl | rfl | rfl | rfl | rfl | rfl | rfl | rfl | rfl <;> decide
  · rw [escapeChar_plain h]
    have : spelling.lookup c = none := by
      simp only [special, List.mem_cons, List.not_mem_nil, or_false, not_or] at h
      obtain ⟨h1, h2, h3, h4, h5, h6, h7, h8, h9, h10⟩ := h
      simp [spelling, List.lookup, beq_false_of_ne h1, beq_false_of_ne h2, beq_false_of_ne h3,
        beq_false_of_ne h4, beq_false_of_ne h5, beq_false_of_ne h6, beq_false_of_ne h7,
        beq_false_of_ne h8, beq_false_of_ne h9, beq_false_of_ne h10]
    rw [this]; rfl

theorem escape_spell (s : Str) : escape s = spell s := by
  have : escapeChar = fun c => (spelling.lookup c).getD [c] := funext escapeChar_spell
  simp [escape, spell, this]

/-- The text of words and blanks. -/
def wordsText : List (Option Str) → Text
  | [] => []
  | some w :: l => spelled w ++ wordsText l
  | none :: l => none :: wordsText l

theorem wordsText_append (a b : List (Option Str)) : wordsText (a ++ b) = wordsText a ++ wordsText b := by
  induction a with
  | nil => rfl
  | cons o a ih => cases o <;> simp [wordsText, ih]

theorem spelled_append (a b : Str) : spelled (a ++ b) = spelled a ++ spelled b := by
  simp [spelled, spell, lit]

theorem splitGo_text (s : Str) : ∀ (word : Str) (res : List (Option Str)),
    wordsText (splitGo s word res) = wordsText res ++ spelled word ++
      running (word.isEmpty && decide (res.getLast? = some none)) s := by
  induction s with
  | nil =>
    intro word res
    simp only [splitGo, running, List.append_nil]
    split
    · rename_i h; simp [List.isEmpty_iff.1 h, spelled, spell, lit]
    · simp [wordsText_append, wordsText]
  | cons c s ih =>
    intro word res
    simp only [splitGo]
    by_cases hc : isWs c = true
    · simp only [hc, if_true, running]
      by_cases hw : word = []
      · subst hw
        simp only [List.isEmpty_nil, if_true, Bool.true_and]
        cases hr : res.getLast? with
        | none =>
          rw [ih]
          simp [wordsText_append, wordsText, spelled, spell, lit]
        | some o =>
          cases o with
          | none => simp only; rw [ih]; simp [hr]
          | some w => simp only; rw [ih]; simp [wordsText_append, wordsText, spelled, spell, lit]
      · have : word.isEmpty = false := by simpa using hw
        simp only [this, Bool.false_eq_true, if_false, List.getLast?_concat, Bool.false_and]
        rw [ih]
        simp [wordsText_append, wordsText, spelled, spell, lit]
    · simp only [hc, Bool.false_eq_true, if_false, running]
      rw [ih]
      have : (word ++ [c]).isEmpty = false := by cases word <;> rfl
      simp [this, spelled_append]

theorem running_nlToSpace (b : Bool) (s : Str) : running b (nlToSpace s) = running b s := by
  induction s generalizing b with
  | nil => rfl
  | cons c s ih =>
    have : nlToSpace (c :: s) = (if c = '\n' then ' ' else c) :: nlToSpace s := rfl
    rw [this]
    by_cases hc : c = '\n'
    · subst hc; simp [running, ih, Md.isWs_nl, Md.isWs_sp]
    · simp [running, ih, hc]

theorem all_nlToSpace (s : Str) : (nlToSpace s).all isWs = s.all isWs := by
  induction s with
  | nil => rfl
  | cons c s ih =>
    have : nlToSpace (c :: s) = (if c = '\n' then ' ' else c) :: nlToSpace s := rfl
    rw [this]
    by_cases hc : c = '\n'
    · subst hc; simp [ih, Md.isWs_nl, Md.isWs_sp]
    · simp [ih, hc]

theorem dropWhile_all {p : Char → Bool} {s : Str} (h : ∀ c ∈ s, p c = true) : s.dropWhile p = [] := by
  induction s with
  | nil => rfl
  | cons c s ih => simp [List.dropWhile, h c (by simp), ih fun d hd => h d (by simp [hd])]

theorem mem_of_dropWhile {p : Char → Bool} : ∀ (s : Str) (c : Char), c ∈ s → p c = false →
    c ∈ s.dropWhile p := by
  intro s
  induction s with
  | nil => intro c h; cases h
  | cons d s ih =>
    intro c hc hp
    by_cases hd : p d = true
    · simp only [List.dropWhile, hd]
      rcases List.mem_cons.1 hc with rfl | h
      · simp [hp] at hd
      · exact ih c h hp
    · simpa [List.dropWhile, hd] using hc

theorem trim_blank (s : Str) : (trim s).isEmpty = s.all isWs := by
  by_cases h : ∀ c ∈ s, isWs c = true
  · have : s.all isWs = true := List.all_eq_true.2 h
    rw [this]
    simp [trim, trimStart, dropWhile_all h, trimEnd]
  · have h2 : s.all isWs = false := by simpa using h
    rw [h2]
    have ⟨c, hc, hp⟩ : ∃ c, c ∈ s ∧ isWs c = false := by simpa using h
    have hm : c ∈ trim s := by
      simp only [trim, trimEnd, trimStart, List.mem_reverse]
      refine mem_of_dropWhile _ c ?_ hp
      rw [List.mem_reverse]
      exact mem_of_dropWhile _ c hc hp
    cases ht : trim s with
    | nil => rw [ht] at hm; cases hm
    | cons _ _ => rfl

theorem words_skel (f : Option Str → Doc) (h1 : ∀ w, f (some w) = .text (escape w))
    (h2 : f none = .softline) (l : List (Option Str)) :
    (Doc.concat (l.map f)).skel = wordsText l := by
  rw [Doc.skel_concat]
  induction l with
  | nil => rfl
  | cons o l ih =>
    rw [List.map_cons, List.map_cons, List.flatten_cons, ih]
    cases o with
    | some w => rw [h1, Doc.skel, escape_spell]; rfl
    | none => rw [h2]; rfl

theorem textDoc_skel (t : Str) : (textDoc t).skel = textNode t := by
  simp only [textDoc, textNode, trim_blank, all_nlToSpace]
  split
  · simp only [Doc.skel, escape_spell]; rfl
  · rw [words_skel _ (fun _ => rfl) rfl, ← running_nlToSpace]
    simp [splitWithSpaces, splitGo_text, wordsText, spelled, spell, lit]

theorem skel_text (s : Str) : (Doc.text s).skel = lit s := rfl
theorem skel_hardline : Doc.hardline.skel = lit cs!"\n" := rfl
theorem skel_nil : Doc.nil.skel = [] := rfl
theorem lit_append (a b : Str) : lit (a ++ b) = lit a ++ lit b := by simp [lit]
theorem lit_escape (s : Str) : lit (escape s) = spelled s := by rw [escape_spell]; rfl

theorem command_skel (name : Str) (d : Doc) : (command name d).skel = call name d.skel := by
  simp [command, Doc.skel_app, skel_text, call, braces]

theorem hrefDoc_skel (u : Str) (d : Doc) :
    (hrefDoc u d).skel = call cs!"href" (spelled u) ++ braces d.skel := by
  simp [hrefDoc, Doc.skel_app, skel_text, braces, command_skel, lit_escape]

theorem environment_skel (name : Str) (o : Option Str) (d : Doc) :
    (environment name o d).skel = env name (match o with
      | some o => cs!"[" ++ o ++ cs!"]"
      | none => []) d.skel := by
  cases o <;>
    simp [environment, Doc.skel_app, skel_text, skel_hardline, env, lit, beginEnv, endEnv]

/-- What the text of a document depends on, in the state of the renderer. -/
def State.context (st : State) : Context := ⟨st.getFootnoteIndex, st.getLinkDefinition⟩

theorem inline_skel (st : State) :
    (∀ i, (inlineDoc st i).skel = inlineText st.context i) ∧
    (∀ l, ((inlineDocs st l).map Doc.skel).flatten = inlineTexts st.context l) := by
  apply Inline.ind
  case text => intro s; exact textDoc_skel s
  case lineBreak => rfl
  case code => intro s; simp [inlineDoc, inlineText, command_skel, skel_text, lit_escape]
  case html => intro s; simp [inlineDoc, inlineText, skel_text, lit_escape]
  case link =>
    intro d t c ih
    cases t with
    | none => simp [inlineDoc, inlineText, hrefDoc_skel, Doc.skel_concat, ih]
    | some t =>
      simp [inlineDoc, inlineText, hrefDoc_skel, Doc.skel_concat, ih, Doc.skel_app, command_skel,
        skel_text, lit_escape]
  case linkReference =>
    intro l t hl ht
    simp only [inlineDoc, inlineText, State.context] at *
    cases st.getLinkDefinition l with
    | some p => simp [hrefDoc_skel, Doc.skel_concat, ht]
    | none => simp [Doc.skel_app, skel_text, Doc.skel_concat, ht, hl]
  case image =>
    intro d t a
    cases a with
    | nil => simp [inlineDoc, inlineText, Doc.skel_app, command_skel, skel_text, skel_nil, lit_escape,
        braces]
    | cons c a => simp [inlineDoc, inlineText, Doc.skel_app, command_skel, skel_text, skel_nil,
        lit_escape, braces]
  case emphasis => intro c ih; simp [inlineDoc, inlineText, command_skel, Doc.skel_concat, ih]
  case strong => intro c ih; simp [inlineDoc, inlineText, command_skel, Doc.skel_concat, ih]
  case strikethrough => intro c ih; simp [inlineDoc, inlineText, command_skel, Doc.skel_concat, ih]
  case autolink => intro s; simp [inlineDoc, inlineText, command_skel, skel_text, lit_escape]
  case footnoteReference =>
    intro s
    simp only [inlineDoc, inlineText, State.context]
    cases st.getFootnoteIndex s with
    | some n => simp [command_skel, skel_text, natStr, digits]
    | none => simp [Doc.skel_app, skel_text, lit_escape]
  case empty => rfl
  case nil => rfl
  case cons => intro i l hi hl; simp [inlineDocs, inlineTexts, hi, hl]

theorem inlines_skel (st : State) (l : List Inline) :
    (inlinesDoc st l).skel = inlineTexts st.context l := by
  rw [inlinesDoc, Doc.skel_concat, (inline_skel st).2]

theorem rowCells_skel (st : State) (r : List (List Inline)) : ∀ first acc,
    (rowCells st first acc r).skel = acc.skel ++
      (if first || r.isEmpty then [] else lit cs!" & ") ++
      joined (lit cs!" & ") (r.map (inlineTexts st.context)) := by
  induction r with
  | nil => intro f acc; simp [rowCells, joined]
  | cons c r ih =>
    intro f acc
    simp only [rowCells, ih]
    cases f <;> cases r <;> simp [joined, Doc.skel_app, skel_text, inlines_skel]

theorem row_skel (st : State) (r : List (List Inline)) :
    (tableRowDoc st r).skel = row st.context r := by
  simp [tableRowDoc, Doc.skel_app, rowCells_skel, row, skel_nil, skel_text]

theorem dataRows_skel (st : State) (last : Str) (sep : Doc) (hs : sep.skel = lit last)
    (rows : List (List (List Inline))) : ∀ acc, (dataRows st sep acc rows).skel =
      acc.skel ++ (rows.map fun r => row st.context r ++ lit (last ++ cs!"\n")).flatten := by
  induction rows with
  | nil => intro acc; simp [dataRows]
  | cons r rows ih =>
    intro acc
    simp [dataRows, ih, Doc.skel_app, row_skel, hs, skel_hardline, lit_append]

theorem rows_skel (st : State) (rule last : Str) (sep acc : Doc) (hs : sep.skel = lit last)
    (rows : List (List (List Inline))) :
    (dataRows st sep (headerRow st rule acc rows) (rows.drop 1)).skel =
      acc.skel ++ rowsText st.context rule last rows := by
  rw [dataRows_skel st last sep hs]
  cases rows with
  | nil => simp [headerRow, rowsText]
  | cons r rows =>
    simp [headerRow, rowsText, Doc.skel_app, row_skel, skel_hardline, skel_text, lit]

theorem columnSpec_eq (al : List Alignment) : columnSpec al = al.map column := by
  unfold columnSpec
  exact List.map_congr_left fun a _ => by cases a <;> rfl

theorem table_skel (st : State) (rows : List (List (List Inline))) (al : List Alignment) :
    (tableDoc st rows al).skel = tableText st.context rows al st.config.tableStyle := by
  unfold tableDoc
  cases st.config.tableStyle with
  | tabular =>
    simp only [tabularDoc, tableText, environment_skel, rows_skel st _ [] .nil .nil rfl, columnSpec_eq,
      skel_nil, List.nil_append]
  | longtabu =>
    simp only [longtabuDoc, tableText, environment_skel, rows_skel st _ cs!" \\\\" (.text cs!" \\\\") .nil rfl,
      columnSpec_eq, skel_nil, List.nil_append]
    simp
  | booktabs =>
    simp only [booktabsDoc, tableText, environment_skel, Doc.skel_app,
      rows_skel st _ [] .nil _ rfl, columnSpec_eq, skel_text, skel_hardline]
    simp [lit]

theorem codeBlock_skel (st : State) (k : CodeBlockKind) (s : Str) :
    (codeBlockDoc st k s).skel = codeText k s st.config.codeBlockStyle := by
  unfold codeBlockDoc
  cases st.config.codeBlockStyle with
  | verbatim => simp [codeText, environment_skel, skel_text]
  | listings =>
    cases k with
    | indented => simp [codeText, environment_skel, skel_text, language]
    | fenced l => cases l <;> simp [codeText, environment_skel, skel_text, language]
  | minted =>
    cases k with
    | indented => simp [codeText, skel_text, language, Doc.skel_app, skel_hardline, env, lit,
        beginEnv, endEnv]
    | fenced l => cases l <;> simp [codeText, skel_text, language, Doc.skel_app, skel_hardline, env,
        lit, beginEnv, endEnv]

theorem headingCommand_eq (k : HeadingKind) : headingCommand k = sectioning k := by
  cases k with
  | atx n =>
    unfold headingCommand sectioning
    rcases n with _ | _ | _ | _ | _ | n <;> rfl
  | setext l => cases l <;> rfl

theorem block_skel (st : State) :
    (∀ b, (blockDoc st b).skel = blockText st.config st.context b) ∧
    (∀ i, (itemDoc st i).skel = itemText st.config st.context i) ∧
    (∀ l, ∀ first acc, (blocksDoc st first acc l).skel = acc.skel ++
      (if first || l.isEmpty then [] else lit cs!"\n\n") ++
      joined (lit cs!"\n\n") (blockTexts st.config st.context l)) ∧
    (∀ l, ∀ acc, (itemsDoc st acc l).skel = acc.skel ++ itemsText st.config st.context l) := by
  apply Block.ind
  case paragraph => intro c; exact inlines_skel st c
  case heading =>
    intro k c
    simp [blockDoc, blockText, command_skel, inlines_skel, headingCommand_eq]
  case thematicBreak => simp [blockDoc, blockText, command_skel, skel_nil]
  case blockQuote =>
    intro b ih
    simp [blockDoc, blockText, environment_skel, ih, skel_nil]
  case list =>
    intro k b ih
    cases k <;> simp [blockDoc, blockText, environment_skel, ih, skel_nil, listEnv, listName]
  case codeBlock => intro k s; exact codeBlock_skel st k s
  case htmlBlock => intro s; simp [blockDoc, blockText, skel_text, lit_escape]
  case definition => intros; rfl
  case table => intro r a; exact table_skel st r a
  case footnoteDefinition =>
    intro l b ih
    simp only [blockDoc, blockText, State.context] at *
    cases st.getFootnoteIndex l with
    | some n => simp [command_skel, Doc.skel_app, skel_text, natStr, digits, ih, skel_nil]
    | none => rfl
  case githubAlert =>
    intro t b ih
    have : alertTitle t = alertName t := by cases t <;> rfl
    simp [blockDoc, blockText, command_skel, Doc.skel_app, skel_text, ih, skel_nil, this]
  case empty => rfl
  case item =>
    intro t b ih
    rcases t with _ | _ | _ <;>
      simp [itemDoc, itemText, checkbox, Doc.skel_app, skel_text, skel_hardline, ih, skel_nil, box, lit]
  case nilB => intro f acc; simp [blocksDoc, blockTexts, joined]
  case consB =>
    intro b l hb hl f acc
    simp only [blocksDoc, hl]
    cases f <;> cases l <;> simp [joined, Doc.skel_app, skel_hardline, hb, blockTexts, lit]
  case nilI => intro acc; simp [itemsDoc, itemsText]
  case consI => intro i l hi hl acc; simp [itemsDoc, itemsText, hl, hi, Doc.skel_app]

/-- **C59.** The output of `render_latex` is the LaTeX text of the document, with each break
opportunity a space or a newline, whatever the width. -/
theorem C59_source (dw : Str → Nat) (cfg : Config) (d : Document) :
    Fills (documentText cfg d) (renderLatex dw cfg d) := by
  have h := render_fills dw cfg d
  have e1 : (State.new cfg d).getFootnoteIndex = footnoteNumber d := funext (footnoteIndex_eq cfg d)
  have e2 : (State.new cfg d).getLinkDefinition = lastDefinition d := funext (linkDefinition_eq cfg d)
  have e : docSkel cfg d = documentText cfg d := by
    unfold docSkel
    rw [(block_skel _).2.2.1]
    simp only [State.context, e1, e2]
    simp [documentText, skel_nil]
    rfl
  rwa [e] at h

/-- **C59.** Without running text that can be broken, the output is that text exactly. -/
theorem C59_exact (dw : Str → Nat) (cfg : Config) (d : Document) (s : Str)
    (h : documentText cfg d = s.map some) : renderLatex dw cfg d = s := by
  have := C59_source dw cfg d
  rw [h] at this
  exact Fills.some_iff.1 this

/-- The order of blocks is the order of their texts. -/
example : documentText .default ⟨[.heading (.setext .level2) [.text cs!"a_b"],
    .list (.bullet .dash) [.mk (some .incomplete) [.paragraph [.strong [.text cs!"x"]]]],
    .table [[[.text cs!"h"], [.text cs!"k"]], [[.emphasis [.text cs!"1"]], [.text cs!"2"]]]
      [.right, .center]]⟩ =
  cs!"\\subsection{a\\_b}\n\n\\begin{itemize}\n\\item $\\square$ \\textbf{x}\n\n\\end{itemize}\n\n\\begin{tabular}[rc]\nh & k \\\\\n\\hline\n\\textit{1} & 2 \\\\\n\n\\end{tabular}".map some := by
  decide +kernel
example : documentText .default ⟨[.paragraph [.text cs!"a  b"]]⟩ = [some 'a', none, some 'b'] := by
  decide +kernel

end Latex
end Verif
