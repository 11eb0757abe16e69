import Verif.TraverseSpec
/-!
# Specification vocabulary for LaTeX output

Nothing here refers to the renderer: a decoder of the LaTeX escapes, a grammar of well-formed
LaTeX over a fixed vocabulary, the brace-balance automaton, and the numbering of footnotes.
-/
namespace Verif
namespace Latex

/-- The characters with a meaning in LaTeX text. -/
def special : List Char := ['\\', '{', '}', '$', '&', '%', '#', '^', '_', '~']

/-- The LaTeX spelling of each special character. -/
def spelling : List (Char × Str) :=
  [('\\', cs!"\\textbackslash{}"), ('{', cs!"\\{"), ('}', cs!"\\}"), ('$', cs!"\\$"),
   ('&', cs!"\\&"), ('%', cs!"\\%"), ('#', cs!"\\#"), ('^', cs!"\\textasciicircum{}"),
   ('_', cs!"\\_"), ('~', cs!"\\textasciitilde{}")]

/-- Decode the ten spellings, left to right: the counter is the number of characters to drop. -/
def decodeAux : Nat → Str → Str
  | _, [] => []
  | n + 1, _ :: s => decodeAux n s
  | 0, c :: s =>
    match spelling.find? fun e => e.2.isPrefixOf (c :: s) with
    | some (x, sp) => x :: decodeAux (sp.length - 1) s
    | none => c :: decodeAux 0 s

/-- What LaTeX typesets for an escaped text. -/
def decode (s : Str) : Str := decodeAux 0 s

/-- Depth of brace nesting after a string; `\x` is skipped; `none`: a `}` without `{`, or a lone
backslash at the end. -/
def groups : Nat → Str → Option Nat
  | n, [] => some n
  | _, ['\\'] => none
  | n, '\\' :: _ :: s => groups n s
  | n, '{' :: s => groups (n + 1) s
  | 0, '}' :: _ => none
  | n + 1, '}' :: s => groups n s
  | n, _ :: s => groups n s

/-- The unescaped braces of `s` nest properly. -/
def Balanced (s : Str) : Prop := groups 0 s = some 0

/-- Commands the renderer may call with a brace argument. -/
def commandNames : List Str :=
  [cs!"section", cs!"subsection", cs!"subsubsection", cs!"paragraph", cs!"subparagraph",
   cs!"hrule", cs!"footnotetext", cs!"footnote", cs!"footnotemark", cs!"texttt", cs!"textit",
   cs!"textbf", cs!"sout", cs!"url", cs!"href", cs!"includegraphics", cs!"caption",
   cs!"textbackslash", cs!"textasciicircum", cs!"textasciitilde"]

/-- Commands the renderer may use bare, followed by whitespace. -/
def wordNames : List Str :=
  [cs!"item", cs!"hline", cs!"toprule", cs!"midrule", cs!"bottomrule", cs!"textwidth"]

/-- Math symbols of task list check boxes. -/
def mathNames : List Str := [cs!"boxtimes", cs!"square"]

/-- Control symbols. -/
def controlSymbols : List Char := ['\\', '{', '}', '$', '&', '%', '#', '_']

/-- Environments for running text. -/
def environmentNames : List Str :=
  [cs!"quote", cs!"enumerate", cs!"itemize", cs!"tabular", cs!"longtabu"]

/-- Environments in which `&` separates columns. -/
def tableNames : List Str := [cs!"tabular", cs!"longtabu"]

/-- Environments whose content is copied literally up to the first `\end`. -/
def codeNames : List Str := [cs!"verbatim", cs!"lstlisting", cs!"minted"]

/-- `\begin{name}`. -/
def beginEnv (name : Str) : Str := cs!"\\begin{" ++ name ++ cs!"}"
/-- `\end{name}`. -/
def endEnv (name : Str) : Str := cs!"\\end{" ++ name ++ cs!"}"

/-- Well-formed LaTeX over the vocabulary above. `raw`: special characters tolerated unescaped in
running text; `code`: whether literal code environments may occur; the index says whether `&` may
occur (inside a table). -/
inductive Tex (raw : List Char) (code : Bool) : Bool → Str → Prop
  | nil (t : Bool) : Tex raw code t []
  | char (t : Bool) (c : Char) (s : Str) : c ∉ special ∨ c ∈ raw → Tex raw code t s →
      Tex raw code t (c :: s)
  | symbol (t : Bool) (c : Char) (s : Str) : c ∈ controlSymbols → Tex raw code t s →
      Tex raw code t ('\\' :: c :: s)
  | ampersand (s : Str) : Tex raw code true s → Tex raw code true ('&' :: s)
  | math (t : Bool) (name s : Str) : name ∈ mathNames → Tex raw code t s →
      Tex raw code t ('$' :: '\\' :: name ++ '$' :: s)
  | word (t : Bool) (name : Str) (c : Char) (s : Str) : name ∈ wordNames → c = ' ' ∨ c = '\n' →
      Tex raw code t s → Tex raw code t ('\\' :: name ++ c :: s)
  | command (t : Bool) (name inner s : Str) : name ∈ commandNames → Tex raw code false inner →
      Tex raw code t s → Tex raw code t ('\\' :: name ++ cs!"{" ++ inner ++ cs!"}" ++ s)
  | group (t : Bool) (inner s : Str) : Tex raw code false inner → Tex raw code t s →
      Tex raw code t (cs!"{" ++ inner ++ cs!"}" ++ s)
  | env (t : Bool) (name inner s : Str) : name ∈ environmentNames →
      Tex raw code (decide (name ∈ tableNames)) inner → Tex raw code t s →
      Tex raw code t (beginEnv name ++ inner ++ endEnv name ++ s)
  | code (t : Bool) (name inner s : Str) : code = true → name ∈ codeNames →
      (∀ pre post, inner ++ endEnv name = pre ++ endEnv name ++ post → post = []) →
      Tex raw code t s → Tex raw code t (beginEnv name ++ inner ++ endEnv name ++ s)

/-- No character with a meaning in LaTeX. -/
def Plain (s : Str) : Prop := ∀ c ∈ s, c ∉ special

/-- Custom alert names have no special characters (the renderer does not escape them). -/
def PlainAlerts (d : Document) : Prop :=
  ∀ name b, d.HasBlock (.githubAlert (.custom name) b) → Plain name

/-- No code block contains the end marker of a code environment, and languages have no special
characters (the renderer escapes neither). -/
def SafeCode (d : Document) : Prop :=
  ∀ k s, d.HasBlock (.codeBlock k s) →
    (∀ name ∈ codeNames, ¬ endEnv name <:+: s) ∧ ∀ lang, k = .fenced (some lang) → Plain lang

mutual
/-- A block and the blocks inside it, in document order, except the content of footnote
definitions. -/
def outer : Block → List Block
  | .blockQuote b => .blockQuote b :: outerL b
  | .list k i => .list k i :: outerItems i
  | .githubAlert t b => .githubAlert t b :: outerL b
  | .footnoteDefinition l b => [.footnoteDefinition l b]
  | .paragraph c => [.paragraph c]
  | .heading k c => [.heading k c]
  | .thematicBreak => [.thematicBreak]
  | .codeBlock k s => [.codeBlock k s]
  | .htmlBlock s => [.htmlBlock s]
  | .definition l d t => [.definition l d t]
  | .table r a => [.table r a]
  | .empty => [.empty]
termination_by structural b => b
/-- `outer` on a list of blocks. -/
def outerL : List Block → List Block
  | [] => []
  | b :: l => outer b ++ outerL l
termination_by structural l => l
/-- `outer` on an item. -/
def outerItem : ListItem → List Block
  | .mk _ b => outerL b
termination_by structural i => i
/-- `outer` on items. -/
def outerItems : List ListItem → List Block
  | [] => []
  | i :: l => outerItem i ++ outerItems l
termination_by structural l => l
end

/-- The label of a footnote definition. -/
def footnoteLabel : Block → Option Str
  | .footnoteDefinition l _ => some l
  | _ => none

/-- The labels of the footnotes defined outside other footnotes, in document order. -/
def footnoteLabels (d : Document) : List Str := (outerL d.blocks).filterMap footnoteLabel

/-- The rank, from 1, of the last occurrence of a label. -/
def lastRank : List Str → Nat → Str → Option Nat
  | [], _, _ => none
  | a :: l, n, x =>
    match lastRank l (n + 1) x with
    | some m => some m
    | none => if a = x then some n else none

/-- The number of a footnote: the rank of the last definition of its label among the footnote
definitions standing outside other footnotes. -/
def footnoteNumber (d : Document) (l : Str) : Option Nat := lastRank (footnoteLabels d) 1 l

/-- Label and target of a link definition. -/
def linkDef : Block → Option (List Inline × (Str × Option Str))
  | .definition l dest title => some (l, (dest, title))
  | _ => none

/-- The last link definition with exactly this label standing outside footnote definitions. -/
def lastDefinition (d : Document) (l : List Inline) : Option (Str × Option Str) :=
  (((outerL d.blocks).filterMap linkDef).reverse.find? fun e => e.1 = l).map (·.2)

/-- `b` is `c`, or is reached from `c` without entering a footnote definition that has no
number: such a definition is not part of the output. -/
inductive Rendered (num : Str → Option Nat) : Block → Block → Prop
  | self (b) : Rendered num b b
  | child (b c e) : e ∈ c.childBlocks →
      (∀ l bs, c = .footnoteDefinition l bs → num l ≠ none) → Rendered num b e → Rendered num b c

/-- Block `b` is part of the rendered document. -/
def RenderedIn (d : Document) (b : Block) : Prop :=
  ∃ c ∈ d.blocks, Rendered (footnoteNumber d) b c

/-- `i` is `j` or part of what `j` displays: the label of a reference link is displayed only if
it has no definition. -/
inductive Shown (defined : List Inline → Bool) : Inline → Inline → Prop
  | self (i) : Shown defined i i
  | link (i k d t c) : k ∈ c → Shown defined i k → Shown defined i (.link d t c)
  | emphasis (i k c) : k ∈ c → Shown defined i k → Shown defined i (.emphasis c)
  | strong (i k c) : k ∈ c → Shown defined i k → Shown defined i (.strong c)
  | strikethrough (i k c) : k ∈ c → Shown defined i k → Shown defined i (.strikethrough c)
  | refText (i k l t) : k ∈ t → Shown defined i k → Shown defined i (.linkReference l t)
  | refLabel (i k l t) : defined l = false → k ∈ l → Shown defined i k →
      Shown defined i (.linkReference l t)

/-- Inline `i` is part of the rendered document (link definitions are not). -/
def ShownIn (d : Document) (i : Inline) : Prop :=
  ∃ b, RenderedIn d b ∧ linkDef b = none ∧ ∃ j ∈ b.directInlines,
    Shown (fun l => (lastDefinition d l).isSome) i j

mutual
/-- Replace every reference link that has a definition by the link it stands for (the title of the
definition is not used); references without definition stay. -/
def resolveInline (defs : List Inline → Option (Str × Option Str)) : Inline → Inline
  | .linkReference l t =>
    match defs l with
    | some (dest, _) => .link dest none (resolveInlines defs t)
    | none => .linkReference l (resolveInlines defs t)
  | .link d t c => .link d t (resolveInlines defs c)
  | .emphasis c => .emphasis (resolveInlines defs c)
  | .strong c => .strong (resolveInlines defs c)
  | .strikethrough c => .strikethrough (resolveInlines defs c)
  | .text s => .text s
  | .lineBreak => .lineBreak
  | .code s => .code s
  | .html s => .html s
  | .image d t a => .image d t a
  | .autolink s => .autolink s
  | .footnoteReference s => .footnoteReference s
  | .empty => .empty
termination_by structural i => i
/-- `resolveInline` on a list. -/
def resolveInlines (defs : List Inline → Option (Str × Option Str)) : List Inline → List Inline
  | [] => []
  | i :: l => resolveInline defs i :: resolveInlines defs l
termination_by structural l => l
end

mutual
/-- `resolveInline` in every rendered inline of a block (definitions are left alone). -/
def resolveBlock (defs : List Inline → Option (Str × Option Str)) : Block → Block
  | .paragraph c => .paragraph (resolveInlines defs c)
  | .heading k c => .heading k (resolveInlines defs c)
  | .thematicBreak => .thematicBreak
  | .blockQuote b => .blockQuote (resolveBlocks defs b)
  | .list k i => .list k (resolveItems defs i)
  | .codeBlock k s => .codeBlock k s
  | .htmlBlock s => .htmlBlock s
  | .definition l d t => .definition l d t
  | .table rows al => .table (rows.map fun r => r.map (resolveInlines defs)) al
  | .footnoteDefinition l b => .footnoteDefinition l (resolveBlocks defs b)
  | .githubAlert t b => .githubAlert t (resolveBlocks defs b)
  | .empty => .empty
termination_by structural b => b
/-- `resolveBlock` on a list. -/
def resolveBlocks (defs : List Inline → Option (Str × Option Str)) : List Block → List Block
  | [] => []
  | b :: l => resolveBlock defs b :: resolveBlocks defs l
termination_by structural l => l
/-- `resolveBlock` in an item. -/
def resolveItem (defs : List Inline → Option (Str × Option Str)) : ListItem → ListItem
  | .mk t b => .mk t (resolveBlocks defs b)
termination_by structural i => i
/-- `resolveBlock` in items. -/
def resolveItems (defs : List Inline → Option (Str × Option Str)) : List ListItem → List ListItem
  | [] => []
  | i :: l => resolveItem defs i :: resolveItems defs l
termination_by structural l => l
end

end Latex
end Verif
