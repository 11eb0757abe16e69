import Verif.Latex
import Verif.LatexSpec
import Verif.PrettySkeleton
/-!
# The LaTeX text of a document

What a reader of `render_latex` output expects: a text over `Option Char`, where `none` is a blank
at which the line may be broken.  Only the configuration types are taken from the model.
-/
namespace Verif
namespace Latex
namespace Source

/-- LaTeX text with break opportunities. -/
abbrev Text := List (Option Char)

/-- Text printed as it is. -/
def lit (s : Str) : Text := s.map some

/-- A text with its special characters spelled. -/
def spell (s : Str) : Str := s.flatMap fun c => (spelling.lookup c).getD [c]

/-- Spelled text printed without line breaks. -/
def spelled (s : Str) : Text := lit (spell s)

/-- Running text: each run of whitespace is one blank (`after`: a blank has just been printed). -/
def running (after : Bool) : Str → Text
  | [] => []
  | c :: s =>
    if isWs c then (if after then running true s else none :: running true s)
    else spelled [c] ++ running false s

/-- A text node; whitespace alone is kept as it is, with blanks for newlines. -/
def textNode (s : Str) : Text :=
  if s.all isWs then spelled (s.map fun c => if c = '\n' then ' ' else c) else running false s

/-- `{x}`. -/
def braces (x : Text) : Text := lit cs!"{" ++ x ++ lit cs!"}"

/-- `\name{x}`. -/
def call (name : Str) (x : Text) : Text := lit ('\\' :: name) ++ braces x

/-- What the text of a document depends on besides the document. -/
structure Context where
  number : Str → Option Nat
  target : List Inline → Option (Str × Option Str)

/-- A number in decimal. -/
def digits (n : Nat) : Str := Nat.toDigits 10 n

mutual
/-- The LaTeX text of an inline. -/
def inlineText (x : Context) : Inline → Text
  | .text s => textNode s
  | .lineBreak => lit cs!"\\\\\n"
  | .code s => call cs!"texttt" (spelled s)
  | .html s => spelled s
  | .link d none c => call cs!"href" (spelled d) ++ braces (inlineTexts x c)
  | .link d (some t) c =>
    call cs!"href" (spelled d) ++ braces (inlineTexts x c) ++ call cs!"footnote" (spelled t)
  | .linkReference l t =>
    match x.target l with
    | some (d, _) => call cs!"href" (spelled d) ++ braces (inlineTexts x t)
    | none => lit cs!"[" ++ inlineTexts x t ++ lit cs!"][" ++ inlineTexts x l ++ lit cs!"]"
  | .image d _ a =>
    call cs!"includegraphics" [] ++ braces (spelled d) ++
      if a = [] then [] else call cs!"caption" (spelled a)
  | .emphasis c => call cs!"textit" (inlineTexts x c)
  | .strong c => call cs!"textbf" (inlineTexts x c)
  | .strikethrough c => call cs!"sout" (inlineTexts x c)
  | .autolink u => call cs!"url" (spelled u)
  | .footnoteReference l =>
    match x.number l with
    | some n => call cs!"footnotemark" (lit (cs!"[" ++ digits n ++ cs!"]"))
    | none => lit cs!"[^" ++ spelled l ++ lit cs!"]"
  | .empty => []
termination_by structural i => i
/-- The LaTeX text of inlines. -/
def inlineTexts (x : Context) : List Inline → Text
  | [] => []
  | i :: l => inlineText x i ++ inlineTexts x l
termination_by structural l => l
end

/-- Texts joined by a separator. -/
def joined (sep : Text) : List Text → Text
  | [] => []
  | [a] => a
  | a :: b :: l => a ++ sep ++ joined sep (b :: l)

/-- `\begin{name}opts`, the content and `\end{name}` on lines of their own. -/
def env (name opts : Str) (x : Text) : Text :=
  lit (beginEnv name ++ opts ++ cs!"\n") ++ x ++ lit (cs!"\n" ++ endEnv name)

/-- The column letter of an alignment. -/
def column : Alignment → Char
  | .left | .none => 'l'
  | .center => 'c'
  | .right => 'r'

/-- A table row. -/
def row (x : Context) (r : List (List Inline)) : Text :=
  joined (lit cs!" & ") (r.map (inlineTexts x)) ++ lit cs!" \\\\"

/-- The rows of a table, with `rule` after the header and `last` at the end of the other rows. -/
def rowsText (x : Context) (rule last : Str) : List (List (List Inline)) → Text
  | [] => []
  | h :: l => row x h ++ lit (cs!"\n" ++ rule ++ cs!"\n") ++
      (l.map fun r => row x r ++ lit (last ++ cs!"\n")).flatten

/-- A table in each of the three styles. -/
def tableText (x : Context) (rows : List (List (List Inline))) (al : List Alignment) :
    TableStyle → Text
  | .tabular => env cs!"tabular" (cs!"[" ++ al.map column ++ cs!"]") (rowsText x cs!"\\hline" [] rows)
  | .longtabu =>
    env cs!"longtabu" (cs!"[X[l] to \\textwidth {" ++ al.map column ++ cs!"}]")
      (rowsText x cs!"\\\\ \\hline" cs!" \\\\" rows)
  | .booktabs =>
    env cs!"tabular" (cs!"[" ++ al.map column ++ cs!"]")
      (lit cs!"\\toprule\n" ++ rowsText x cs!"\\midrule" [] rows ++ lit cs!"\\bottomrule")

/-- The language of a code block. -/
def language : CodeBlockKind → Option Str
  | .fenced l => l
  | .indented => none

/-- A code block in each of the three styles. -/
def codeText (k : CodeBlockKind) (s : Str) : CodeBlockStyle → Text
  | .verbatim => env cs!"verbatim" [] (lit s)
  | .listings =>
    env cs!"lstlisting" (match language k with
      | some l => cs!"[language=" ++ l ++ cs!"]"
      | none => []) (lit s)
  | .minted => env cs!"minted" (cs!"{" ++ (language k).getD cs!"text" ++ cs!"}") (lit s)

/-- The sectioning command of a heading: from level 5 on all headings look the same. -/
def sectioning : HeadingKind → Str
  | .atx 1 | .setext .level1 => cs!"section"
  | .atx 2 | .setext .level2 => cs!"subsection"
  | .atx 3 => cs!"subsubsection"
  | .atx 4 => cs!"paragraph"
  | .atx _ => cs!"subparagraph"

/-- The title of an alert. -/
def alertName : AlertType → Str
  | .note => cs!"Note"
  | .tip => cs!"Tip"
  | .important => cs!"Important"
  | .warning => cs!"Warning"
  | .caution => cs!"Caution"
  | .custom s => s

/-- The environment of a list. -/
def listName : ListKind → Str
  | .ordered _ => cs!"enumerate"
  | .bullet _ => cs!"itemize"

/-- The check box of a task. -/
def box : Option TaskState → Str
  | some .complete => cs!"$\\boxtimes$ "
  | some .incomplete => cs!"$\\square$ "
  | none => []

mutual
/-- The LaTeX text of a block. -/
def blockText (cfg : Config) (x : Context) : Block → Text
  | .paragraph c => inlineTexts x c
  | .heading k c => call (sectioning k) (inlineTexts x c)
  | .thematicBreak => call cs!"hrule" []
  | .blockQuote b => env cs!"quote" [] (joined (lit cs!"\n\n") (blockTexts cfg x b))
  | .list k items => env (listName k) [] (itemsText cfg x items)
  | .codeBlock k s => codeText k s cfg.codeBlockStyle
  | .htmlBlock s => spelled s
  | .definition _ _ _ => []
  | .table rows al => tableText x rows al cfg.tableStyle
  | .footnoteDefinition l b =>
    match x.number l with
    | some n => call cs!"footnotetext"
        (lit (cs!"[" ++ digits n ++ cs!"] ") ++ joined (lit cs!"\n\n") (blockTexts cfg x b))
    | none => []
  | .githubAlert t b =>
    call cs!"footnote"
      (lit (alertName t ++ cs!": ") ++ joined (lit cs!"\n\n") (blockTexts cfg x b))
  | .empty => []
termination_by structural b => b
/-- The LaTeX texts of blocks. -/
def blockTexts (cfg : Config) (x : Context) : List Block → List Text
  | [] => []
  | b :: l => blockText cfg x b :: blockTexts cfg x l
termination_by structural l => l
/-- The LaTeX text of a list item. -/
def itemText (cfg : Config) (x : Context) : ListItem → Text
  | .mk t b => lit (cs!"\\item " ++ box t) ++ joined (lit cs!"\n\n") (blockTexts cfg x b) ++ lit cs!"\n"
termination_by structural i => i
/-- The LaTeX text of list items. -/
def itemsText (cfg : Config) (x : Context) : List ListItem → Text
  | [] => []
  | i :: l => itemText cfg x i ++ itemsText cfg x l
termination_by structural l => l
end

/-- The LaTeX text of a document: blocks separated by blank lines. -/
def documentText (cfg : Config) (d : Document) : Text :=
  joined (lit cs!"\n\n") (blockTexts cfg ⟨footnoteNumber d, lastDefinition d⟩ d.blocks)

end Source
end Latex
end Verif
