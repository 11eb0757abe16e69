import Verif.LatexExactSpec
import Verif.LatexSource
import Verif.PrinterExactInline
/-!
# LaTeX renderer: C87, the exact output
-/
set_option autoImplicit false
set_option linter.unusedVariables false
set_option linter.unusedSimpArgs false
namespace Verif
namespace Latex
namespace Exact
open Md.Spec (Piece wordsOf atIndent lay)
open Md.Exact (U UL Sem)
open Source

section
variable {dw : Str → Nat} {w : Nat} (h1 : dw [' '] = 1)
include h1

theorem textDoc_pieces (t : Str) : U dw w (textDoc t) (textPieces t) := by
  unfold textDoc textPieces
  simp only [trim_blank, all_nlToSpace]
  split
  · rw [escape_spell]; exact .text _
  · have e : splitWithSpaces (nlToSpace t) = wordsOf t := Md.Exact.split_wordsOf t
    rw [e]
    refine UL.concat ?_
    generalize wordsOf t = l
    induction l with
    | nil => exact .nil
    | cons o l ih =>
      cases o with
      | some v =>
        refine .cons (a := [_]) (b := _) ?_ ih
        simp only [escape_spell]
        exact .text _
      | none => exact .cons (a := [_]) (.softline h1) ih

omit h1 in
theorem command_pieces {name : Str} {d : Doc} {L : List Piece} (h : U dw w d L) : U dw w (command name d) (callP name L) :=
  (((U.text _).app (.text _)).app h).app (.text _)

omit h1 in
theorem spelled_pieces (s : Str) : U dw w (.text (escape s)) [spelledWord s] := by
  rw [escape_spell]; exact .text _

omit h1 in
theorem href_pieces {u : Str} {d : Doc} {L : List Piece} (h : U dw w d L) :
    U dw w (hrefDoc u d) (callP cs!"href" [spelledWord u] ++ bracesP L) := by
  simpa [bracesP, hrefDoc] using (((command_pieces (spelled_pieces u)).app (.text cs!"{")).app h).app (.text cs!"}")

omit h1 in
theorem environment_pieces {name : Str} {o : Option Str} {d : Doc} {L : List Piece} (h : U dw w d L) :
    U dw w (environment name o d) (envP name (match o with
      | some o => cs!"[" ++ o ++ cs!"]"
      | none => []) L) := by
  cases o with
  | none =>
    have := ((((U.text (beginEnv name)).app .hardline).app h).app .hardline).app (.text (endEnv name))
    simpa [envP, environment, beginEnv, endEnv] using this
  | some o =>
    have := ((((U.text (beginEnv name ++ (cs!"[" ++ o ++ cs!"]"))).app .hardline).app h).app .hardline).app (.text (endEnv name))
    simpa [envP, environment, beginEnv, endEnv] using this

theorem inline_pieces (st : State) :
    (∀ i, U dw w (inlineDoc st i) (inlinePieces st.context i)) ∧
    (∀ l, UL dw w (inlineDocs st l) (inlinesPieces st.context l)) := by
  have T := fun a => U.text (dw := dw) (w := w) a
  apply Inline.ind
  case text => intro s; exact textDoc_pieces h1 s
  case lineBreak => exact (T _).app .hardline
  case code => intro s; exact command_pieces (spelled_pieces s)
  case html => intro s; exact spelled_pieces s
  case link =>
    intro d t c ih
    cases t with
    | none => exact href_pieces (UL.concat ih)
    | some t => exact (href_pieces (UL.concat ih)).app (command_pieces (spelled_pieces t))
  case linkReference =>
    intro l t hl ht
    simp only [inlineDoc, inlinePieces, State.context] at *
    cases st.getLinkDefinition l with
    | some p => exact href_pieces (UL.concat ht)
    | none => exact ((((T _).app (UL.concat ht)).app (T _)).app (UL.concat hl)).app (T _)
  case image =>
    intro d t a
    have hc : U dw w ((((command cs!"includegraphics" .nil).app (.text cs!"{")).app
      (.text (escape d))).app (.text cs!"}")) (callP cs!"includegraphics" [] ++ bracesP [spelledWord d]) := by
      simpa [bracesP] using (((command_pieces (name := cs!"includegraphics") .nil).app (T cs!"{")).app (spelled_pieces d)).app (T cs!"}")
    cases a with
    | nil => simpa [inlineDoc, inlinePieces] using hc
    | cons c a => exact hc.app (command_pieces (spelled_pieces _))
  case emphasis => intro c ih; exact command_pieces (UL.concat ih)
  case strong => intro c ih; exact command_pieces (UL.concat ih)
  case strikethrough => intro c ih; exact command_pieces (UL.concat ih)
  case autolink => intro s; exact command_pieces (spelled_pieces s)
  case footnoteReference =>
    intro s
    simp only [inlineDoc, inlinePieces, State.context]
    cases st.getFootnoteIndex s with
    | some n => exact command_pieces (T _)
    | none => exact ((T _).app (spelled_pieces s)).app (T _)
  case empty => exact .nil
  case nil => exact .nil
  case cons => intro i l hi hl; exact .cons hi hl

theorem inlines_pieces (st : State) (l : List Inline) : U dw w (inlinesDoc st l) (inlinesPieces st.context l) :=
  ((inline_pieces h1 st).2 l).concat

theorem rowCells_pieces (st : State) (r : List (List Inline)) : ∀ first acc L, U dw w acc L →
    U dw w (rowCells st first acc r) (L ++ (if first || r.isEmpty then [] else [.word cs!" & "]) ++
      joinedP [.word cs!" & "] (r.map (inlinesPieces st.context))) := by
  induction r with
  | nil => intro f acc L h; simpa [rowCells, joinedP] using h
  | cons c r ih =>
    intro f acc L h
    simp only [rowCells]
    cases f
    · have := ih false _ _ ((h.app (.text cs!" & ")).app (inlines_pieces h1 st c))
      cases r <;> simpa [joinedP] using this
    · have := ih false _ _ (h.app (inlines_pieces h1 st c))
      cases r <;> simpa [joinedP] using this

theorem row_pieces (st : State) (r : List (List Inline)) : U dw w (tableRowDoc st r) (rowP st.context r) := by
  simpa [tableRowDoc, rowP] using (rowCells_pieces h1 st r true .nil [] .nil).app (.text cs!" \\\\")

theorem dataRows_pieces (st : State) {sep : Doc} {last : List Piece} (hs : U dw w sep last)
    (rows : List (List (List Inline))) : ∀ acc L, U dw w acc L → U dw w (dataRows st sep acc rows)
      (L ++ (rows.map fun r => rowP st.context r ++ last ++ [.newline]).flatten) := by
  induction rows with
  | nil => intro acc L h; simpa [dataRows] using h
  | cons r rows ih =>
    intro acc L h
    simpa [dataRows] using ih _ _ (((h.app (row_pieces h1 st r)).app hs).app .hardline)

theorem rows_pieces (st : State) (rule : Str) {sep acc : Doc} {last L : List Piece} (hs : U dw w sep last)
    (ha : U dw w acc L) (rows : List (List (List Inline))) :
    U dw w (dataRows st sep (headerRow st rule acc rows) (rows.drop 1)) (L ++ rowsP st.context rule last rows) := by
  cases rows with
  | nil => simpa [headerRow, rowsP, dataRows] using ha
  | cons r rows =>
    simpa [headerRow, rowsP] using dataRows_pieces h1 st hs rows _ _
      ((((ha.app (row_pieces h1 st r)).app .hardline).app (.text rule)).app .hardline)

theorem table_pieces (st : State) (rows : List (List (List Inline))) (al : List Alignment) :
    U dw w (tableDoc st rows al) (tableP st.context rows al st.config.tableStyle) := by
  unfold tableDoc
  cases st.config.tableStyle with
  | tabular =>
    simpa [tabularDoc, tableP, columnSpec_eq] using
      environment_pieces (name := cs!"tabular") (o := some (columnSpec al)) (rows_pieces h1 st cs!"\\hline" .nil .nil rows)
  | longtabu =>
    simpa [longtabuDoc, tableP, columnSpec_eq] using
      environment_pieces (name := cs!"longtabu") (o := some (cs!"X[l] to \\textwidth {" ++ columnSpec al ++ cs!"}"))
        (rows_pieces h1 st cs!"\\\\ \\hline" (.text cs!" \\\\") .nil rows)
  | booktabs =>
    simpa [booktabsDoc, tableP, columnSpec_eq] using
      environment_pieces (name := cs!"tabular") (o := some (columnSpec al))
        ((rows_pieces h1 st cs!"\\midrule" .nil ((U.text cs!"\\toprule").app .hardline) rows).app (.text cs!"\\bottomrule"))

omit h1 in
theorem codeBlock_pieces (st : State) (k : CodeBlockKind) (s : Str) :
    U dw w (codeBlockDoc st k s) (codeP k s st.config.codeBlockStyle) := by
  have E := fun (name : Str) (o : Option Str) => environment_pieces (name := name) (o := o) (U.text (dw := dw) (w := w) s)
  have M : ∀ l : Str, U dw w (((((Doc.text (cs!"\\begin{minted}{" ++ l ++ cs!"}")).app .hardline).app
      (.text s)).app .hardline).app (.text cs!"\\end{minted}")) (envP cs!"minted" (cs!"{" ++ l ++ cs!"}") [.word s]) := by
    intro l
    have := ((((U.text (dw := dw) (w := w) (cs!"\\begin{minted}{" ++ l ++ cs!"}")).app .hardline).app
      (.text s)).app .hardline).app (.text cs!"\\end{minted}")
    simpa [envP, beginEnv, endEnv] using this
  unfold codeBlockDoc
  cases st.config.codeBlockStyle with
  | verbatim => exact E _ none
  | listings =>
    cases k with
    | indented => exact E _ none
    | fenced l =>
      cases l with
      | none => exact E _ none
      | some l => simpa [codeP, language] using E cs!"lstlisting" (some (cs!"language=" ++ l))
  | minted =>
    cases k with
    | indented => exact M _
    | fenced l => cases l <;> exact M _

theorem block_pieces (st : State) :
    (∀ b, U dw w (blockDoc st b) (blockPieces st.config st.context b)) ∧
    (∀ i, U dw w (itemDoc st i) (itemPieces st.config st.context i)) ∧
    (∀ l, ∀ first acc L, U dw w acc L → U dw w (blocksDoc st first acc l) (L ++
      (if first || l.isEmpty then [] else [.newline, .newline]) ++
      joinedP [.newline, .newline] (blocksPieces st.config st.context l))) ∧
    (∀ l, ∀ acc L, U dw w acc L → U dw w (itemsDoc st acc l) (L ++ itemsPieces st.config st.context l)) := by
  apply Block.ind
  case paragraph => intro c; exact inlines_pieces h1 st c
  case heading =>
    intro k c
    simp only [blockDoc, blockPieces, headingCommand_eq]
    exact command_pieces (inlines_pieces h1 st c)
  case thematicBreak => exact command_pieces .nil
  case blockQuote =>
    intro b ih
    simpa [blockDoc, blockPieces] using environment_pieces (name := cs!"quote") (o := none) (ih true .nil [] .nil)
  case list =>
    intro k b ih
    have hk : listEnv k = listName k := by cases k <;> rfl
    simpa [blockDoc, blockPieces, hk] using environment_pieces (name := listName k) (o := none) (ih .nil [] .nil)
  case codeBlock => intro k s; exact codeBlock_pieces st k s
  case htmlBlock => intro s; exact spelled_pieces s
  case definition => intros; exact .nil
  case table => intro r a; exact table_pieces h1 st r a
  case footnoteDefinition =>
    intro l b ih
    simp only [blockDoc, blockPieces, State.context] at *
    cases st.getFootnoteIndex l with
    | some n =>
      have := command_pieces (name := cs!"footnotetext") ((U.text (cs!"[" ++ natStr n ++ cs!"] ")).app (ih true .nil [] .nil))
      simpa [natStr, digits] using this
    | none => exact .nil
  case githubAlert =>
    intro t b ih
    have e : alertTitle t = alertName t := by cases t <;> rfl
    have := command_pieces (name := cs!"footnote") ((U.text (alertName t ++ cs!": ")).app (ih true .nil [] .nil))
    simpa [blockDoc, blockPieces, e] using this
  case empty => exact .nil
  case item =>
    intro t b ih
    have hb : U dw w (checkbox (.text cs!"\\item ") t) (.word cs!"\\item " :: boxP t) := by
      rcases t with _ | _ | _
      · exact .text _
      · exact (U.text _).app (.text _)
      · exact (U.text _).app (.text _)
    simpa [itemDoc, itemPieces] using (hb.app (ih true .nil [] .nil)).app .hardline
  case nilB => intro f acc L h; simpa [blocksDoc, blocksPieces, joinedP] using h
  case consB =>
    intro b l hb hl f acc L h
    simp only [blocksDoc]
    cases f
    · have := hl false _ _ (((h.app .hardline).app .hardline).app hb)
      cases l <;> simpa [joinedP, blocksPieces] using this
    · have := hl false _ _ (h.app hb)
      cases l <;> simpa [joinedP, blocksPieces] using this
  case nilI => intro acc L h; simpa [itemsDoc, itemsPieces] using h
  case consI =>
    intro i l hi hl acc L h
    simpa [itemsDoc, itemsPieces] using hl _ _ (h.app hi)

omit h1 in
theorem renderE_lay {d : Doc} {T : Md.Spec.Pieces} (h : Sem dw w d 0 0 T) {s : Str} (hs : d.renderE dw w = some s) :
    s = lay dw w 0 T := by
  unfold Doc.renderE at hs
  simp only [Option.map_eq_some_iff] at hs
  obtain ⟨r, hr, rfl⟩ := hs
  have := h.best _ [] none (by
    intro q _ hq b hb
    simp only [Option.some.injEq] at hb
    subst hb
    simp [Md.Spec.ahead, hq]) (by intro _ i; rfl) r hr
  rw [this, Md.Exact.layGo_lay]

/-- **C87.** The LaTeX text of a document: each line is filled as long as the next unbreakable piece fits. -/
theorem C87_exact (cfg : Config) (d : Document) : renderLatex dw cfg d = latexText dw cfg d := by
  have hS := ((block_simple (State.new cfg d)).2.2.1 d.blocks true .nil trivial).safe
  have hU := (block_pieces (w := cfg.width) h1 (State.new cfg d)).2.2.1 d.blocks true .nil [] .nil
  have := renderE_lay (hU.1 0 0) (Doc.renderE_safe hS dw cfg.width)
  have e1 : (State.new cfg d).getFootnoteIndex = footnoteNumber d := funext (footnoteIndex_eq cfg d)
  have e2 : (State.new cfg d).getLinkDefinition = lastDefinition d := funext (linkDefinition_eq cfg d)
  rw [renderLatex, this]
  simp only [State.context, e1, e2]
  simp [latexText]
  rfl

end

/-! ## Concrete cases -/

/-- Words that belong together are not divided; literal text is not broken; a gap that does not fit is a line break. -/
theorem C87_examples :
    let text := fun w bs => latexText List.length { Config.default with width := w } ⟨bs⟩
    text 12 [.paragraph [.text cs!"some text & ", .strong [.text cs!"bold words"], .text cs!"."]] =
      cs!"some text \\&\n\\textbf{bold\nwords}." ∧
    text 5 [.heading (.atx 1) [.text cs!"a b"], .list (.ordered 3) [.mk (some .complete) [.paragraph [.text cs!"x y"]]],
      .codeBlock .indented cs!"long code line"] =
      cs!"\\section{a\nb}\n\n\\begin{enumerate}\n\\item $\\boxtimes$ x\ny\n\n\\end{enumerate}\n\n\\begin{verbatim}\nlong code line\n\\end{verbatim}" ∧
    text 80 [.paragraph [.text cs!"a\nb  c"], .definition [] [] none, .thematicBreak] = cs!"a b c\n\n\n\n\\hrule{}" := by
  decide +kernel

end Exact
end Latex
end Verif
