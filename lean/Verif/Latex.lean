import Verif.Ast
import Verif.Pretty
/-!
# The LaTeX renderer (`src/latex_printer/`)

`HashMap` is an association list, newest entry first: `insert` of an existing key overwrites.
-/
namespace Verif
namespace Latex

/-- A Rust integer in decimal (`format!("{n}")`). -/
def natStr (n : Nat) : Str := Nat.toDigits 10 n

/-- `escape_latex` on one character, `src/latex_printer/util.rs:39-51`. -/
def escapeChar : Char → Str
  | '\\' => cs!"\\textbackslash{}"
  | '{' => cs!"\\{"
  | '}' => cs!"\\}"
  | '$' => cs!"\\$"
  | '&' => cs!"\\&"
  | '%' => cs!"\\%"
  | '#' => cs!"\\#"
  | '^' => cs!"\\textasciicircum{}"
  | '_' => cs!"\\_"
  | '~' => cs!"\\textasciitilde{}"
  | c => [c]

/-- `escape_latex`, `src/latex_printer/util.rs:36-52`. -/
def escape (s : Str) : Str := s.flatMap escapeChar

/-- `TableStyle`, `src/latex_printer/config.rs:12-66`. -/
inductive TableStyle where
  | tabular | longtabu | booktabs
  deriving DecidableEq, Repr

/-- `CodeBlockStyle`, `src/latex_printer/config.rs:74-126`. -/
inductive CodeBlockStyle where
  | verbatim | listings | minted
  deriving DecidableEq, Repr

/-- `latex_printer::Config`, `src/latex_printer/config.rs:148-152`. -/
structure Config where
  width : Nat
  tableStyle : TableStyle
  codeBlockStyle : CodeBlockStyle

/-- `Config::default`, `src/latex_printer/config.rs:161-167`. -/
def Config.default : Config := ⟨80, .tabular, .verbatim⟩

/-- The two maps and the counter of `get_indices`, `src/latex_printer/mod.rs:232-235`. -/
structure Index where
  footnotes : List (Str × Nat)
  defs : List (List Inline × (Str × Option Str))
  counter : Nat

mutual
/-- One iteration of `process_blocks`, `src/latex_printer/mod.rs:244-274`. -/
def processBlock (ix : Index) : Block → Index
  | .footnoteDefinition l _ =>
    { ix with footnotes := (l, ix.counter) :: ix.footnotes, counter := ix.counter + 1 }
  | .definition l d t => { ix with defs := (l, (d, t)) :: ix.defs }
  | .list _ items => processItems ix items
  | .blockQuote b => processBlocks ix b
  | .githubAlert _ b => processBlocks ix b
  | .paragraph _ => ix
  | .heading _ _ => ix
  | .thematicBreak => ix
  | .codeBlock _ _ => ix
  | .htmlBlock _ => ix
  | .table _ _ => ix
  | .empty => ix
termination_by structural b => b
/-- `process_blocks`, `src/latex_printer/mod.rs:237-276`. -/
def processBlocks (ix : Index) : List Block → Index
  | [] => ix
  | b :: l => processBlocks (processBlock ix b) l
termination_by structural l => l
/-- The body of the item loop, `src/latex_printer/mod.rs:254-259`. -/
def processItem (ix : Index) : ListItem → Index
  | .mk _ b => processBlocks ix b
termination_by structural i => i
/-- `for item in &list.items`, `src/latex_printer/mod.rs:253-260`. -/
def processItems (ix : Index) : List ListItem → Index
  | [] => ix
  | i :: l => processItems (processItem ix i) l
termination_by structural l => l
end

/-- `get_indices`, `src/latex_printer/mod.rs:232-286`. -/
def getIndices (doc : Document) : Index := processBlocks ⟨[], [], 1⟩ doc.blocks

/-- `State`, `src/latex_printer/mod.rs:93-98` (the arena is left out). -/
structure State where
  config : Config
  footnoteIndex : List (Str × Nat)
  linkDefs : List (List Inline × (Str × Option Str))

/-- `State::new`, `src/latex_printer/mod.rs:107-116`. -/
def State.new (config : Config) (ast : Document) : State :=
  let ix := getIndices ast
  ⟨config, ix.footnotes, ix.defs⟩

/-- `State::get_footnote_index`, `src/latex_printer/mod.rs:121-123`. -/
def State.getFootnoteIndex (st : State) (label : Str) : Option Nat :=
  st.footnoteIndex.lookup label

/-- `State::get_link_definition`, `src/latex_printer/mod.rs:128-130`. -/
def State.getLinkDefinition (st : State) (label : List Inline) : Option (Str × Option Str) :=
  st.linkDefs.lookup label

/-- `environment`, `src/latex_printer/util.rs:86-105`. -/
def environment (name : Str) (options : Option Str) (content : Doc) : Doc :=
  let begin' := match options with
    | some opts => Doc.text (cs!"\\begin{" ++ name ++ cs!"}[" ++ opts ++ cs!"]")
    | none => Doc.text (cs!"\\begin{" ++ name ++ cs!"}")
  let end' := Doc.text (cs!"\\end{" ++ name ++ cs!"}")
  (((begin'.app .hardline).app content).app .hardline).app end'

/-- `command`, `src/latex_printer/util.rs:140-155`; every caller passes no `[..]` arguments, so
the argument loop is left out. -/
def command (name : Str) (content : Doc) : Doc :=
  (((Doc.text ('\\' :: name)).app (.text cs!"{")).app content).app (.text cs!"}")

/-- The loop of `split_with_spaces`, `src/latex_printer/inline.rs:162-175`: `word` is the pending
word (empty: none), `result` the vector so far. -/
def splitGo : Str → (word : Str) → (result : List (Option Str)) → List (Option Str)
  | [], word, result => if word.isEmpty then result else result ++ [some word]
  | c :: s, word, result =>
    if isWs c then
      let result := if word.isEmpty then result else result ++ [some word]
      let result := match result.getLast? with
        | none => result ++ [none]
        | some none => result
        | some (some _) => result ++ [none]
      splitGo s [] result
    else splitGo s (word ++ [c]) result

/-- `split_with_spaces`, `src/latex_printer/inline.rs:158-183`. -/
def splitWithSpaces (s : Str) : List (Option Str) := splitGo s [] []

/-- `text.replace('\n', " ")`. -/
def nlToSpace (s : Str) : Str := s.map fun c => if c = '\n' then ' ' else c

/-- The text case, `src/latex_printer/inline.rs:17-34`. -/
def textDoc (t : Str) : Doc :=
  let text := nlToSpace t
  if (trim text).isEmpty then .text (escape text)
  else
    Doc.concat ((splitWithSpaces text).map fun
      | some word => Doc.text (escape word)
      | none => Doc.softline)

/-- `\href{url}{text}`, `src/latex_printer/inline.rs:68-71`. -/
def hrefDoc (dest : Str) (text : Doc) : Doc :=
  (((command cs!"href" (.text (escape dest))).app (.text cs!"{")).app text).app (.text cs!"}")

mutual
/-- `impl ToDoc for Inline`, `src/latex_printer/inline.rs:15-146`. -/
def inlineDoc (st : State) : Inline → Doc
  | .text t => textDoc t
  | .lineBreak => (Doc.text cs!"\\\\").app .hardline
  | .code c => command cs!"texttt" (.text (escape c))
  | .html h => .text (escape h)
  | .link d t c =>
    let text := Doc.concat (inlineDocs st c)
    match t with
    | some title => (hrefDoc d text).app (command cs!"footnote" (.text (escape title)))
    | none => hrefDoc d text
  | .linkReference l t =>
    match st.getLinkDefinition l with
    | some (dest, _) => hrefDoc dest (Doc.concat (inlineDocs st t))
    | none =>
      ((((Doc.text cs!"[").app (Doc.concat (inlineDocs st t))).app (.text cs!"][")).app
        (Doc.concat (inlineDocs st l))).app (.text cs!"]")
  | .image d _ a =>
    let cmd := (((command cs!"includegraphics" .nil).app (.text cs!"{")).app
      (.text (escape d))).app (.text cs!"}")
    if a.isEmpty then cmd else cmd.app (command cs!"caption" (.text (escape a)))
  | .emphasis c => command cs!"textit" (Doc.concat (inlineDocs st c))
  | .strong c => command cs!"textbf" (Doc.concat (inlineDocs st c))
  | .strikethrough c => command cs!"sout" (Doc.concat (inlineDocs st c))
  | .autolink u => command cs!"url" (.text (escape u))
  | .footnoteReference l =>
    match st.getFootnoteIndex l with
    | some n => command cs!"footnotemark" (.text (cs!"[" ++ natStr n ++ cs!"]"))
    | none => ((Doc.text cs!"[^").app (.text (escape l))).app (.text cs!"]")
  | .empty => .nil
termination_by structural i => i
/-- The iterator of `impl ToDoc for Vec<Inline>`, `src/latex_printer/inline.rs:6-12`. -/
def inlineDocs (st : State) : List Inline → List Doc
  | [] => []
  | i :: l => inlineDoc st i :: inlineDocs st l
termination_by structural l => l
end

/-- `impl ToDoc for Vec<Inline>`, `src/latex_printer/inline.rs:6-12`. -/
def inlinesDoc (st : State) (l : List Inline) : Doc := Doc.concat (inlineDocs st l)

/-- The cell loop of `render_table_row`, `src/latex_printer/table.rs:106-111`. -/
def rowCells (st : State) : (first : Bool) → Doc → List (List Inline) → Doc
  | _, acc, [] => acc
  | first, acc, cell :: l =>
    let acc := if first then acc else acc.app (.text cs!" & ")
    rowCells st false (acc.app (inlinesDoc st cell)) l

/-- `render_table_row`, `src/latex_printer/table.rs:100-114`. -/
def tableRowDoc (st : State) (row : List (List Inline)) : Doc :=
  (rowCells st true .nil row).app (.text cs!" \\\\")

/-- `create_column_spec`, `src/latex_printer/table.rs:116-125`. -/
def columnSpec (al : List Alignment) : Str :=
  al.map fun
    | .left => 'l'
    | .none => 'l'
    | .center => 'c'
    | .right => 'r'

/-- The data row loop, `src/latex_printer/table.rs:35-38`, `src/latex_printer/table.rs:62-66` and
`src/latex_printer/table.rs:90-93`; `sep` is what follows each row. -/
def dataRows (st : State) (sep : Doc) (acc : Doc) : List (List (List Inline)) → Doc
  | [] => acc
  | row :: l => dataRows st sep (((acc.app (tableRowDoc st row)).app sep).app .hardline) l

/-- The header row followed by a rule, `src/latex_printer/table.rs:27-32`. -/
def headerRow (st : State) (rule : Str) (acc : Doc) (rows : List (List (List Inline))) : Doc :=
  match rows.head? with
  | some h => (((acc.app (tableRowDoc st h)).app .hardline).app (.text rule)).app .hardline
  | none => acc

/-- `render_tabular`, `src/latex_printer/table.rs:17-41`. -/
def tabularDoc (st : State) (rows : List (List (List Inline))) (al : List Alignment) : Doc :=
  let content := headerRow st cs!"\\hline" .nil rows
  let content := dataRows st .nil content (rows.drop 1)
  environment cs!"tabular" (some (columnSpec al)) content

/-- `render_longtabu`, `src/latex_printer/table.rs:43-69`. -/
def longtabuDoc (st : State) (rows : List (List (List Inline))) (al : List Alignment) : Doc :=
  let opts := cs!"X[l] to \\textwidth {" ++ columnSpec al ++ cs!"}"
  let content := headerRow st cs!"\\\\ \\hline" .nil rows
  let content := dataRows st (.text cs!" \\\\") content (rows.drop 1)
  environment cs!"longtabu" (some opts) content

/-- `render_booktabs`, `src/latex_printer/table.rs:72-98`. -/
def booktabsDoc (st : State) (rows : List (List (List Inline))) (al : List Alignment) : Doc :=
  let content := (Doc.text cs!"\\toprule").app .hardline
  let content := headerRow st cs!"\\midrule" content rows
  let content := dataRows st .nil content (rows.drop 1)
  let content := content.app (.text cs!"\\bottomrule")
  environment cs!"tabular" (some (columnSpec al)) content

/-- `impl ToDoc for Table`, `src/latex_printer/table.rs:7-15`. -/
def tableDoc (st : State) (rows : List (List (List Inline))) (al : List Alignment) : Doc :=
  match st.config.tableStyle with
  | .tabular => tabularDoc st rows al
  | .longtabu => longtabuDoc st rows al
  | .booktabs => booktabsDoc st rows al

/-- `render_code_block`, `src/latex_printer/block.rs:152-192`. -/
def codeBlockDoc (st : State) (kind : CodeBlockKind) (literal : Str) : Doc :=
  match st.config.codeBlockStyle with
  | .verbatim => environment cs!"verbatim" none (.text literal)
  | .listings =>
    let options := match kind with
      | .fenced (some lang) => some (cs!"language=" ++ lang)
      | _ => none
    environment cs!"lstlisting" options (.text literal)
  | .minted =>
    let lang := match kind with
      | .fenced (some lang) => lang
      | _ => cs!"text"
    ((((Doc.text (cs!"\\begin{minted}{" ++ lang ++ cs!"}")).app .hardline).app
      (.text literal)).app .hardline).app (.text cs!"\\end{minted}")

/-- The heading command, `src/latex_printer/block.rs:35-48`. -/
def headingCommand (kind : HeadingKind) : Str :=
  match (match kind with | .atx n => n | .setext .level1 => 1 | .setext .level2 => 2 : Nat) with
  | 1 => cs!"section"
  | 2 => cs!"subsection"
  | 3 => cs!"subsubsection"
  | 4 => cs!"paragraph"
  | _ => cs!"subparagraph"

/-- The alert title, `src/latex_printer/block.rs:93-100`. -/
def alertTitle : AlertType → Str
  | .note => cs!"Note"
  | .tip => cs!"Tip"
  | .important => cs!"Important"
  | .warning => cs!"Warning"
  | .caution => cs!"Caution"
  | .custom s => s

/-- The checkbox, `src/latex_printer/block.rs:139-145`. -/
def checkbox (acc : Doc) : Option TaskState → Doc
  | some .complete => acc.app (.text cs!"$\\boxtimes$ ")
  | some .incomplete => acc.app (.text cs!"$\\square$ ")
  | none => acc

/-- `ListKind` to environment, `src/latex_printer/block.rs:120-123`. -/
def listEnv : ListKind → Str
  | .ordered _ => cs!"enumerate"
  | .bullet _ => cs!"itemize"

mutual
/-- `impl ToDoc for Block`, `src/latex_printer/block.rs:29-116` (and `impl ToDoc for List`,
`src/latex_printer/block.rs:118-132`). -/
def blockDoc (st : State) : Block → Doc
  | .paragraph c => inlinesDoc st c
  | .heading k c => command (headingCommand k) (inlinesDoc st c)
  | .thematicBreak => command cs!"hrule" .nil
  | .blockQuote b => environment cs!"quote" none (blocksDoc st true .nil b)
  | .list k items => environment (listEnv k) none (itemsDoc st .nil items)
  | .codeBlock k s => codeBlockDoc st k s
  | .htmlBlock s => .text (escape s)
  | .definition _ _ _ => .nil
  | .table rows al => tableDoc st rows al
  | .footnoteDefinition l b =>
    match st.getFootnoteIndex l with
    | some n =>
      command cs!"footnotetext"
        ((Doc.text (cs!"[" ++ natStr n ++ cs!"] ")).app (blocksDoc st true .nil b))
    | none => .nil
  | .githubAlert t b =>
    command cs!"footnote"
      ((Doc.text (alertTitle t ++ cs!": ")).app (blocksDoc st true .nil b))
  | .empty => .nil
termination_by structural b => b
/-- `impl ToDoc for Vec<Block>`, `src/latex_printer/block.rs:14-27`. -/
def blocksDoc (st : State) (first : Bool) (acc : Doc) : List Block → Doc
  | [] => acc
  | b :: l =>
    blocksDoc st false
      ((if first then acc else (acc.app .hardline).app .hardline).app (blockDoc st b)) l
termination_by structural l => l
/-- `impl ToDoc for ListItem`, `src/latex_printer/block.rs:134-150`. -/
def itemDoc (st : State) : ListItem → Doc
  | .mk task b =>
    ((checkbox (.text cs!"\\item ") task).app (blocksDoc st true .nil b)).app .hardline
termination_by structural i => i
/-- The item loop, `src/latex_printer/block.rs:125-128`. -/
def itemsDoc (st : State) (acc : Doc) : List ListItem → Doc
  | [] => acc
  | i :: l => itemsDoc st (acc.app (itemDoc st i)) l
termination_by structural l => l
end

/-- `render_latex`, `src/latex_printer/mod.rs:199-206`; `dw` is the display width of a text. -/
def renderLatex (dw : Str → Nat) (config : Config) (ast : Document) : Str :=
  (blocksDoc (State.new config ast) true .nil ast.blocks).render dw config.width

end Latex
end Verif
