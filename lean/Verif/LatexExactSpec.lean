import Verif.LatexSourceSpec
import Verif.PrinterExactSpec
/-!
# The exact LaTeX text of a document (specification for C87)

Words, gaps and line breaks, laid out as in `PrinterExactSpec` (without any indentation).  Nothing here refers to
the printer.
-/
set_option autoImplicit false
namespace Verif
namespace Latex
namespace Exact
open Md.Spec (Piece wordsOf atIndent lay)
open Source

/-- A text with its special characters spelled, as one word. -/
def spelledWord (s : Str) : Piece := .word (spell s)

/-- A text node: its words and the gaps between them; white space alone is kept as it is, with blanks for newlines. -/
def textPieces (s : Str) : List Piece :=
  if s.all isWs then [spelledWord (s.map fun c => if c = '\n' then ' ' else c)]
  else (wordsOf s).map fun
    | some v => spelledWord v
    | none => .gap

/-- `{x}`. -/
def bracesP (x : List Piece) : List Piece := [.word cs!"{"] ++ x ++ [.word cs!"}"]

/-- `\name{x}`. -/
def callP (name : Str) (x : List Piece) : List Piece := .word ('\\' :: name) :: bracesP x

mutual
/-- The pieces of an inline. -/
def inlinePieces (x : Context) : Inline → List Piece
  | .text s => textPieces s
  | .lineBreak => [.word cs!"\\\\", .newline]
  | .code s => callP cs!"texttt" [spelledWord s]
  | .html s => [spelledWord s]
  | .link d none c => callP cs!"href" [spelledWord d] ++ bracesP (inlinesPieces x c)
  | .link d (some t) c =>
    callP cs!"href" [spelledWord d] ++ bracesP (inlinesPieces x c) ++ callP cs!"footnote" [spelledWord t]
  | .linkReference l t =>
    match x.target l with
    | some (d, _) => callP cs!"href" [spelledWord d] ++ bracesP (inlinesPieces x t)
    | none => [.word cs!"["] ++ inlinesPieces x t ++ [.word cs!"]["] ++ inlinesPieces x l ++ [.word cs!"]"]
  | .image d _ a =>
    callP cs!"includegraphics" [] ++ bracesP [spelledWord d] ++
      if a = [] then [] else callP cs!"caption" [spelledWord a]
  | .emphasis c => callP cs!"textit" (inlinesPieces x c)
  | .strong c => callP cs!"textbf" (inlinesPieces x c)
  | .strikethrough c => callP cs!"sout" (inlinesPieces x c)
  | .autolink u => callP cs!"url" [spelledWord u]
  | .footnoteReference l =>
    match x.number l with
    | some n => callP cs!"footnotemark" [.word (cs!"[" ++ digits n ++ cs!"]")]
    | none => [.word cs!"[^", spelledWord l, .word cs!"]"]
  | .empty => []
termination_by structural i => i
/-- The pieces of inlines. -/
def inlinesPieces (x : Context) : List Inline → List Piece
  | [] => []
  | i :: l => inlinePieces x i ++ inlinesPieces x l
termination_by structural l => l
end

/-- Pieces joined by a separator. -/
def joinedP (sep : List Piece) : List (List Piece) → List Piece
  | [] => []
  | [a] => a
  | a :: b :: l => a ++ sep ++ joinedP sep (b :: l)

/-- `\begin{name}opts`, the content and `\end{name}` on lines of their own. -/
def envP (name opts : Str) (x : List Piece) : List Piece :=
  [.word (beginEnv name ++ opts), .newline] ++ x ++ [.newline, .word (endEnv name)]

/-- A table row. -/
def rowP (x : Context) (r : List (List Inline)) : List Piece :=
  joinedP [.word cs!" & "] (r.map (inlinesPieces x)) ++ [.word cs!" \\\\"]

/-- The rows of a table, with `rule` after the header and `last` at the end of the other rows. -/
def rowsP (x : Context) (rule : Str) (last : List Piece) : List (List (List Inline)) → List Piece
  | [] => []
  | h :: l => rowP x h ++ [.newline, .word rule, .newline] ++ (l.map fun r => rowP x r ++ last ++ [.newline]).flatten

/-- A table in each of the three styles. -/
def tableP (x : Context) (rows : List (List (List Inline))) (al : List Alignment) : TableStyle → List Piece
  | .tabular => envP cs!"tabular" (cs!"[" ++ al.map column ++ cs!"]") (rowsP x cs!"\\hline" [] rows)
  | .longtabu =>
    envP cs!"longtabu" (cs!"[X[l] to \\textwidth {" ++ al.map column ++ cs!"}]")
      (rowsP x cs!"\\\\ \\hline" [.word cs!" \\\\"] rows)
  | .booktabs =>
    envP cs!"tabular" (cs!"[" ++ al.map column ++ cs!"]")
      ([.word cs!"\\toprule", .newline] ++ rowsP x cs!"\\midrule" [] rows ++ [.word cs!"\\bottomrule"])

/-- A code block in each of the three styles. -/
def codeP (k : CodeBlockKind) (s : Str) : CodeBlockStyle → List Piece
  | .verbatim => envP cs!"verbatim" [] [.word s]
  | .listings =>
    envP cs!"lstlisting" (match language k with
      | some l => cs!"[language=" ++ l ++ cs!"]"
      | none => []) [.word s]
  | .minted => envP cs!"minted" (cs!"{" ++ (language k).getD cs!"text" ++ cs!"}") [.word s]

/-- The check box of a task. -/
def boxP : Option TaskState → List Piece
  | none => []
  | t => [.word (box t)]

mutual
/-- The pieces of a block. -/
def blockPieces (cfg : Config) (x : Context) : Block → List Piece
  | .paragraph c => inlinesPieces x c
  | .heading k c => callP (sectioning k) (inlinesPieces x c)
  | .thematicBreak => callP cs!"hrule" []
  | .blockQuote b => envP cs!"quote" [] (joinedP [.newline, .newline] (blocksPieces cfg x b))
  | .list k items => envP (listName k) [] (itemsPieces cfg x items)
  | .codeBlock k s => codeP k s cfg.codeBlockStyle
  | .htmlBlock s => [spelledWord s]
  | .definition _ _ _ => []
  | .table rows al => tableP x rows al cfg.tableStyle
  | .footnoteDefinition l b =>
    match x.number l with
    | some n => callP cs!"footnotetext"
        (.word (cs!"[" ++ digits n ++ cs!"] ") :: joinedP [.newline, .newline] (blocksPieces cfg x b))
    | none => []
  | .githubAlert t b =>
    callP cs!"footnote" (.word (alertName t ++ cs!": ") :: joinedP [.newline, .newline] (blocksPieces cfg x b))
  | .empty => []
termination_by structural b => b
/-- The pieces of blocks. -/
def blocksPieces (cfg : Config) (x : Context) : List Block → List (List Piece)
  | [] => []
  | b :: l => blockPieces cfg x b :: blocksPieces cfg x l
termination_by structural l => l
/-- The pieces of a list item. -/
def itemPieces (cfg : Config) (x : Context) : ListItem → List Piece
  | .mk t b => .word cs!"\\item " :: boxP t ++ joinedP [.newline, .newline] (blocksPieces cfg x b) ++ [.newline]
termination_by structural i => i
/-- The pieces of list items. -/
def itemsPieces (cfg : Config) (x : Context) : List ListItem → List Piece
  | [] => []
  | i :: l => itemPieces cfg x i ++ itemsPieces cfg x l
termination_by structural l => l
end

/-- The LaTeX text of a document: its pieces on lines of the configured width. -/
def latexText (dw : Str → Nat) (cfg : Config) (d : Document) : Str :=
  lay dw cfg.width 0
    (atIndent 0 (joinedP [.newline, .newline] (blocksPieces cfg ⟨footnoteNumber d, lastDefinition d⟩ d.blocks)))

end Exact
end Latex
end Verif
