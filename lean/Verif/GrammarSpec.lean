import Verif.ParserLists
import Verif.ProvenanceSpec
import Verif.ParserTables
import Verif.ParserDefs
import Verif.HtmlTagProps
/-!
# The grammar of the dialect (specification for C71)

Specification only.  `DocumentWritten s bs` says that the text `s` is a way of writing the blocks
`bs`: every element of the document is there in its syntax, with its delimiters, indentation and
markers, and nothing is left over.  The grammar is ambiguous on purpose (any text is a way of writing
a paragraph of that text): it says what an element looks like, not which reading wins.
-/
namespace Verif
open Nom

/-! ## Inlines -/

/-- `TextWritten ent w t`: a text `t` written `w`: characters, escaped ASCII punctuation and character
references. -/
inductive TextWritten (ent : Str → Option Str) : Str → Str → Prop
  | nil : TextWritten ent [] []
  | char {c : Char} {w t : Str} : TextWritten ent w t → TextWritten ent (c :: w) (c :: t)
  | esc {c : Char} {w t : Str} : c ∈ escapable → TextWritten ent w t → TextWritten ent ('\\' :: c :: w) (c :: t)
  | ref {r v w t : Str} : CharRef ent r v → TextWritten ent w t → TextWritten ent (r ++ w) (v ++ t)

/-- `Unescapes e w t`: `t` written `w` in front of a delimiter `e`, which must be escaped inside. -/
inductive Unescapes (e : Char) : Str → Str → Prop
  | nil : Unescapes e [] []
  | char {c : Char} {w t : Str} : c ≠ e → Unescapes e w t → Unescapes e (c :: w) (c :: t)
  | esc {w t : Str} : Unescapes e w t → Unescapes e ('\\' :: e :: w) (e :: t)

/-- A text `t` written `w` between brackets. -/
structure BracketText (w t : Str) : Prop where
  text : Unescapes ']' w t
  visible : ∃ c ∈ t, c ≠ ' ' ∧ c ≠ '\n'
  short : t.length < 1000

/-- A destination `d` written `w`.  A bare one may end in a lone backslash. -/
inductive DestWritten : Str → Str → Prop
  | bare {d : Str} : d ≠ [] → BareDest d → DestWritten d d
  | back {d : Str} : BareDest d → DestWritten (d ++ ['\\']) (d ++ ['\\'])
  | angle {w d : Str} : AngleDest w d → DestWritten ('<' :: (w ++ ['>'])) d

/-- A destination and a title between parentheses. -/
inductive DestTitleWritten : Str → Str → Option Str → Prop
  | plain {w1 w d w2 : Str} : White w1 → DestWritten w d → White w2 →
      DestTitleWritten ('(' :: (w1 ++ (w ++ (w2 ++ [')'])))) d none
  | title {w1 w d w2 wt t w3 : Str} : White w1 → DestWritten w d → White w2 → LinkTitle wt t → White w3 →
      DestTitleWritten ('(' :: (w1 ++ (w ++ (w2 ++ (wt ++ (w3 ++ [')'])))))) d (some t)

/-- Line ends as spaces. -/
inductive LinesAsSpaces : Str → Str → Prop
  | nil : LinesAsSpaces [] []
  | newline {e w t : Str} : IsNewline e → LinesAsSpaces w t → LinesAsSpaces (e ++ w) (' ' :: t)
  | char {c : Char} {w t : Str} : c ≠ '\n' → (c = '\r' → w.head? ≠ some '\n') → LinesAsSpaces w t →
      LinesAsSpaces (c :: w) (c :: t)

/-- One space of padding on both sides is removed, unless all is white space. -/
inductive Unpadded : Str → Str → Prop
  | padded {t : Str} : (∃ c ∈ t, isWs c = false) → Unpadded (' ' :: (t ++ [' '])) t
  | bare {t : Str} : (∀ u, t = ' ' :: (u ++ [' ']) → ∀ c ∈ u, isWs c = true) → Unpadded t t

/-- `CodeWritten s w c`: a code span with the text `c` written `w` in front of `s`: a run of backticks,
a text that does not begin with a backtick and has no blank line, and the first run of as many
backticks that is not followed by one more. -/
inductive CodeWritten (s : Str) : Str → Str → Prop
  | mk {n : Nat} {o t c : Str} : 0 < n → o ≠ [] → o.head? ≠ some '`' → ¬ HasBlankLine o → s.head? ≠ some '`' →
      (∀ a b, o ++ (List.replicate n '`' ++ s) = a ++ (List.replicate n '`' ++ b) → a.length < o.length →
        b.head? = some '`') →
      LinesAsSpaces o t → Unpadded t c →
      CodeWritten s (List.replicate n '`' ++ (o ++ List.replicate n '`')) c

/-- The content `o` of an emphasis in `n` characters `m`, in front of `s`: it begins with a visible
character (no punctuation with underscores), and ends at the first place (with stars: not behind a
backslash) where `n` characters `m` are followed by the end, white space or punctuation. -/
structure EmphasisText (x : PExt) (m : Char) (n : Nat) (o s : Str) : Prop where
  start : ∃ c, o.head? = some c ∧ isWs c = false ∧ (m = '_' → ¬ Separates x c)
  finish : EmphEnd x s
  first : ∀ a b, o ++ (List.replicate n m ++ s) = a ++ (List.replicate n m ++ b) → a.length < o.length →
    (m = '*' → a.getLast? ≠ some '\\') → ¬ EmphEnd x b

/-- The content `o` of a strikethrough in front of `s`: up to the first `~~`, not behind a backslash,
that is not followed by one more `~`. -/
structure StrikeText (o s : Str) : Prop where
  start : ∃ c, o.head? = some c ∧ c ≠ '~'
  finish : s.head? ≠ some '~'
  first : ∀ a b, o ++ (cs!"~~" ++ s) = a ++ (cs!"~~" ++ b) → a.length < o.length →
    a.getLast? ≠ some '\\' → b.head? = some '~'

/-- A delimiter of emphasis. -/
def EmphMark (m : Char) : Prop := m = '*' ∨ m = '_'

mutual
/-- `InlineWritten x ent i w s`: the inline `i` is written `w` in front of `s`. -/
inductive InlineWritten (x : PExt) (ent : Str → Option Str) : Inline → Str → Str → Prop
  | text {w t s : Str} : w ≠ [] → TextWritten ent w t → InlineWritten x ent (.text t) w s
  | backslashBreak {e s : Str} : IsNewline e → InlineWritten x ent .lineBreak ('\\' :: e) s
  | spaceBreak {n : Nat} {e s : Str} : 2 ≤ n → IsNewline e →
      InlineWritten x ent .lineBreak (List.replicate n ' ' ++ e) s
  | code {w c s : Str} : CodeWritten s w c → InlineWritten x ent (.code c) w s
  | link {w t wd d s : Str} {title : Option Str} {l : List Inline} : BracketText w t →
      InlinesWritten x ent l t → DestTitleWritten wd d title →
      InlineWritten x ent (.link d title l) ('[' :: (w ++ (']' :: wd))) s
  | reference {w t w' t' s : Str} {l l' : List Inline} : BracketText w t → InlinesWritten x ent l t →
      BracketText w' t' → InlinesWritten x ent l' t' →
      InlineWritten x ent (.linkReference l' l) ('[' :: (w ++ (']' :: '[' :: (w' ++ [']'])))) s
  | collapsed {w t s : Str} {l : List Inline} : BracketText w t → InlinesWritten x ent l t →
      InlineWritten x ent (.linkReference l l) ('[' :: (w ++ cs!"][]")) s
  | shortcut {w t s : Str} {l : List Inline} : BracketText w t → InlinesWritten x ent l t →
      InlineWritten x ent (.linkReference l l) ('[' :: (w ++ [']'])) s
  | image {alt wd d s : Str} {title : Option Str} : ']' ∉ alt → DestTitleWritten wd d title →
      InlineWritten x ent (.image d title alt) ('!' :: '[' :: (alt ++ (']' :: wd))) s
  | emphasis {m : Char} {o s : Str} {l : List Inline} : EmphMark m → EmphasisText x m 1 o s →
      InlinesWritten x ent l o → InlineWritten x ent (.emphasis l) (m :: (o ++ [m])) s
  | strong {m : Char} {o s : Str} {l : List Inline} : EmphMark m → EmphasisText x m 2 o s →
      InlinesWritten x ent l o → InlineWritten x ent (.strong l) (m :: m :: (o ++ [m, m])) s
  | both {m : Char} {o s : Str} {l : List Inline} : EmphMark m → EmphasisText x m 3 o s →
      InlinesWritten x ent l o →
      InlineWritten x ent (.strong [.emphasis l]) (m :: m :: m :: (o ++ [m, m, m])) s
  | strikethrough {o s : Str} {l : List Inline} : StrikeText o s → InlinesWritten x ent l o →
      InlineWritten x ent (.strikethrough l) (cs!"~~" ++ (o ++ cs!"~~")) s
  | autolink {u s : Str} : AutolinkText u → InlineWritten x ent (.autolink u) ('<' :: (u ++ ['>'])) s
  | footnoteReference {n s : Str} : n ≠ [] → (∀ c ∈ n, isAlnum c = true) →
      InlineWritten x ent (.footnoteReference n) (cs!"[^" ++ (n ++ [']'])) s
/-- A text that writes a list of inlines, one after the other. -/
inductive InlinesWritten (x : PExt) (ent : Str → Option Str) : List Inline → Str → Prop
  | nil : InlinesWritten x ent [] []
  | cons {i : Inline} {l : List Inline} {w s : Str} : InlineWritten x ent i w s →
      InlinesWritten x ent l s → InlinesWritten x ent (i :: l) (w ++ s)
end

/-! ## Lines -/

/-- `k` spaces. -/
abbrev sp (k : Nat) : Str := List.replicate k ' '

/-- `l` is a line with the line ending `e` (none at the end of the text) in front of `s`. -/
structure LineWritten (l e s : Str) : Prop where
  one : '\n' ∉ l
  cr : e = ['\n'] → l.getLast? ≠ some '\r'
  ends : LineEnd e s

/-- `LinesWritten Pre ls w s`: the lines `ls`, each after a prefix that `Pre` allows, are written `w` in
front of `s`. -/
inductive LinesWritten (Pre : Str → Str → Prop) (s : Str) : List Str → Str → Prop
  | nil : LinesWritten Pre s [] []
  | cons {p l e w : Str} {ls : List Str} : Pre p l → LineWritten l e (w ++ s) → LinesWritten Pre s ls w →
      LinesWritten Pre s (l :: ls) (p ++ (l ++ (e ++ w)))

/-- Up to `n` spaces, as many as there are, in front of a line. -/
def Indented (n : Nat) (p l : Str) : Prop := ∃ j, j ≤ n ∧ p = sp j ∧ (j = n ∨ l.head? ≠ some ' ')

/-- The prefix of a line of indented code. -/
def CodePrefix (p l : Str) : Prop := p = sp 4 ∨ p = ['\t']

/-- The prefix of a quoted line. -/
def QuotePrefix (p l : Str) : Prop := ∃ k, k ≤ 3 ∧ p = sp k ++ ['>']

/-- The prefix of a line of a paragraph. -/
def ParagraphPrefix (p l : Str) : Prop := l ≠ [] ∧ Indented 3 p l

/-- The prefix of a line of a footnote. -/
def FootnotePrefix (p l : Str) : Prop := l ≠ [] ∧ p = sp 3

/-- The prefix of a line in a code block fenced by `n` characters `f` indented by `k`. -/
def FencedPrefix (f : Char) (n k : Nat) (p l : Str) : Prop :=
  Indented k p l ∧ ¬ ClosesFence f n (p ++ l)

/-! ## HTML blocks -/

/-- `HtmlWritten h s`: the text `h` in front of `s` is an HTML block. -/
inductive HtmlWritten (s : Str) : Str → Prop
  | raw {name sep body close : Str} : name.map asciiLower ∈ rawTags → RawSep sep → RawClose close →
      (∀ a c b, RawClose c → body ++ (close ++ s) = a ++ (c ++ b) → body.length ≤ a.length) →
      HtmlWritten s ('<' :: (name ++ (sep ++ (body ++ close))))
  | marked {o c body : Str} : HtmlMarkers o c →
      (∀ a b, body ++ (c ++ s) = a ++ (c ++ b) → body.length ≤ a.length) →
      HtmlWritten s (o ++ (body ++ c))
  | block {o name sep body e : Str} : o = cs!"<" ∨ o = cs!"</" → name.map asciiLower ∈ blockTags →
      sep = [' '] ∨ sep = ['>'] ∨ sep = cs!"/>" ∨ IsNewline sep → ¬ HasBlankLine (body ++ e) → BlankAfter e s →
      HtmlWritten s (o ++ (name ++ (sep ++ (body ++ e))))
  | tag {name t sep body e : Str} : CompleteTag name t → sep = [' '] ∨ IsNewline sep →
      ¬ HasBlankLine body → BlankEnd e s → HtmlWritten s (t ++ (sep ++ (body ++ e)))

/-! ## Lists -/

/-- The first line of a list item without its line ending: the column of the content, the task state
and the text. -/
inductive ItemFirst (kind : ListKind) : Str → Nat → Option TaskState → Str → Prop
  | text {k n : Nat} {m first : Str} : k ≤ 3 → Marker kind m → 1 ≤ n → n ≤ 4 → n = 4 ∨ first.head? ≠ some ' ' →
      ¬ Blanks first → (∀ t b r, Box t b → first ≠ b ++ ' ' :: r) → (n ≤ 3 → ∀ t, ¬ Box t first) →
      ItemFirst kind (sp k ++ (m ++ (sp n ++ first))) (k + m.length + n) none first
  | task {k n : Nat} {m b first : Str} {t : TaskState} : k ≤ 3 → Marker kind m → 1 ≤ n → n ≤ 4 → Box t b →
      ItemFirst kind (sp k ++ (m ++ (sp n ++ (b ++ ' ' :: first)))) (k + m.length + n) (some t) first
  | empty {k : Nat} {m b : Str} : k ≤ 3 → Marker kind m → Blanks b →
      ItemFirst kind (sp k ++ (m ++ b)) (k + m.length + 1) none []
  | box {k n : Nat} {m b : Str} {t : TaskState} : k ≤ 3 → Marker kind m → n ≤ 3 → Box t b →
      ItemFirst kind (sp k ++ (m ++ (sp n ++ b))) (k + m.length + n + 1) (some t) []

/-- A text that begins with a thematic break. -/
def ThematicAt (s : Str) : Prop := ∃ l e r, ThematicLine l ∧ LineEnd e r ∧ s = l ++ (e ++ r)

/-- `ItemRest kind pl s ls w`: the further lines of an item with the content at column `pl` are written
`w` in front of `s`: they do not begin with a thematic break or a marker of the same kind further left. -/
inductive ItemRest (kind : ListKind) (pl : Nat) (s : Str) : List Str → Str → Prop
  | nil : ItemRest kind pl s [] []
  | text {p l e w : Str} {ls : List Str} : Indented pl p l → l ≠ [] → LineWritten l e (w ++ s) →
      ¬ ThematicAt (p ++ (l ++ (e ++ (w ++ s)))) → ¬ MarkerAt kind pl (p ++ (l ++ (e ++ (w ++ s)))) →
      ItemRest kind pl s ls w → ItemRest kind pl s (l :: ls) (p ++ (l ++ (e ++ w)))
  | blank {b l e w : Str} {ls : List Str} : BlankLines b → b ≠ [] → l ≠ [] → LineWritten l e (w ++ s) →
      ItemRest kind pl s ls w → ItemRest kind pl s ((b ++ l) :: ls) (b ++ (sp pl ++ (l ++ (e ++ w))))

/-! ## Tables -/

/-- The cells of a row: each after a bar. -/
inductive CellsWritten (x : PExt) (ent : Str → Option Str) : List (List Inline) → Str → Prop
  | nil : CellsWritten x ent [] []
  | cons {w t o : Str} {c : List Inline} {cs : List (List Inline)} : w ≠ [] → '\n' ∉ w → Unescapes '|' w t →
      InlinesWritten x ent c (trim t) → CellsWritten x ent cs o →
      CellsWritten x ent (c :: cs) ('|' :: (w ++ o))

/-- A row in front of `s`: up to three spaces, the cells and perhaps a last bar. -/
inductive RowWritten (x : PExt) (ent : Str → Option Str) (s : Str) : List (List Inline) → Str → Prop
  | mk {k : Nat} {cs : List (List Inline)} {o last e : Str} : k ≤ 3 → cs ≠ [] → CellsWritten x ent cs o →
      last = [] ∨ last = ['|'] → LineEnd e s → RowWritten x ent s cs (sp k ++ (o ++ (last ++ e)))

/-- The cells of a delimiter row: each after a bar. -/
inductive AlignsWritten : List Alignment → Str → Prop
  | nil : AlignsWritten [] []
  | cons {a : Alignment} {as : List Alignment} {w o : Str} : AlignCell a w → AlignsWritten as o →
      AlignsWritten (a :: as) ('|' :: (w ++ o))

/-- Data rows in front of `s` of a table with `n` columns. -/
inductive RowsWritten (x : PExt) (ent : Str → Option Str) (n : Nat) (s : Str) :
    List (List (List Inline)) → Str → Prop
  | nil : RowsWritten x ent n s [] []
  | cons {r : List (List Inline)} {rs : List (List (List Inline))} {w w' : Str} :
      RowWritten x ent (w' ++ s) r w → RowsWritten x ent n s rs w' →
      RowsWritten x ent n s (fitted n r :: rs) (w ++ w')

/-! ## Blocks -/

/-- `n` characters `#` in front of the text `t` of a heading and the blanks after them, which a
configuration can make optional: all the blanks, and all the `#` up to six. -/
def HeadingMark (cfg : PConfig) (n : Nat) (w t : Str) : Prop :=
  1 ≤ n ∧ n ≤ 6 ∧ ∃ b, Blanks b ∧ (b = [] → cfg.allowNoSpaceInHeadings = true) ∧
    (b = [] → n < 6 → t.head? ≠ some '#') ∧ t.head? ≠ some ' ' ∧ t.head? ≠ some '\t' ∧
    w = List.replicate n '#' ++ b

/-- The line under a heading. -/
inductive Underline : SetextHeading → Str → Prop
  | one {k n : Nat} {b : Str} : k ≤ 3 → 0 < n → Blanks b → Underline .level1 (sp k ++ (List.replicate n '=' ++ b))
  | two {k n : Nat} {b : Str} : k ≤ 3 → 0 < n → Blanks b → Underline .level2 (sp k ++ (List.replicate n '-' ++ b))

/-- Blanks and line ends with at most one line feed. -/
def TitleGap (w : Str) : Prop := w ≠ [] ∧ BlankText w ∧ w.count '\n' ≤ 1

/-- The title of a definition, if any. -/
inductive DefTitle : Str → Option Str → Prop
  | none : DefTitle [] none
  | some {g w t : Str} : TitleGap g → LinkTitle w t → DefTitle (g ++ w) (some t)

mutual
/-- `BlockWritten x cfg b w s`: the block `b` is written `w` in front of `s`. -/
inductive BlockWritten (x : PExt) (cfg : PConfig) : Block → Str → Str → Prop
  | paragraph {ls : List Str} {l : List Inline} {w s : Str} : ls ≠ [] → LinesWritten ParagraphPrefix s ls w →
      InlinesWritten x cfg.entities l (joinWith ['\n'] ls) → BlockWritten x cfg (.paragraph l) w s
  | atx {n : Nat} {m t e s : Str} {l : List Inline} : HeadingMark cfg n m t → t ≠ [] → LineWritten t e s →
      InlinesWritten x cfg.entities l t → BlockWritten x cfg (.heading (.atx n) l) (m ++ (t ++ e)) s
  | setext {ls : List Str} {l : List Inline} {k : SetextHeading} {w u e s : Str} : ls ≠ [] →
      LinesWritten ParagraphPrefix (u ++ (e ++ s)) ls w → InlinesWritten x cfg.entities l (joinWith ['\n'] ls) →
      Underline k u → LineEnd e s → BlockWritten x cfg (.heading (.setext k) l) (w ++ (u ++ e)) s
  | thematicBreak {l e s : Str} : ThematicLine l → LineEnd e s → BlockWritten x cfg .thematicBreak (l ++ e) s
  | blockQuote {ls : List Str} {bs : List Block} {w s : Str} : ls ≠ [] → LinesWritten QuotePrefix s ls w →
      BlocksWritten x cfg bs (joinWith ['\n'] ls) → BlockWritten x cfg (.blockQuote bs) w s
  | alert {t : AlertType} {l : Str} {ls : List Str} {bs : List Block} {w s : Str} :
      LinesWritten QuotePrefix s (l :: ls) w → x.upperStr (trim l) = cs!"[!" ++ (alertWord t ++ [']']) →
      BlocksWritten x cfg bs (joinWith ['\n'] ls) → BlockWritten x cfg (.githubAlert t bs) w s
  | list {k : ListKind} {i : ListItem} {l : List ListItem} {w w' s : Str} : ItemWritten x cfg k i w (w' ++ s) →
      ItemsWritten x cfg l w' s → BlockWritten x cfg (.list k (i :: l)) (w ++ w') s
  | indented {ls : List Str} {w s : Str} : ls ≠ [] → LinesWritten CodePrefix s ls w →
      BlockWritten x cfg (.codeBlock .indented (joinWith ['\n'] ls)) w s
  | fenced {f : Char} {k n : Nat} {info : Option Str} {ls : List Str} {e w c e' s : Str} : f = '`' ∨ f = '~' →
      k ≤ 3 → 3 ≤ n → info ≠ some [] → (info.getD []).head? ≠ some f →
      LineWritten (info.getD []) e (w ++ (c ++ (e' ++ s))) →
      LinesWritten (FencedPrefix f n k) (c ++ (e' ++ s)) ls w → ClosesFence f n c → LineEnd e' s →
      BlockWritten x cfg (.codeBlock (.fenced info) (joinWith ['\n'] ls))
        (sp k ++ (List.replicate n f ++ (info.getD [] ++ (e ++ (w ++ (c ++ e')))))) s
  | html {k : Nat} {h s : Str} : k ≤ 3 → HtmlWritten s h → BlockWritten x cfg (.htmlBlock h) (sp k ++ h) s
  | definition {k : Nat} {w t g wd d wt e s : Str} {title : Option Str} {l : List Inline} : k ≤ 3 →
      BracketText w t → InlinesWritten x cfg.entities l t → Gap g → DestWritten wd d → DefTitle wt title →
      LineEnd e s →
      BlockWritten x cfg (.definition l d title) (sp k ++ ('[' :: (w ++ (cs!"]:" ++ (g ++ (wd ++ (wt ++ e))))))) s
  | footnote {k : Nat} {label p first e w s : Str} {ls : List Str} {bs : List Block} : k ≤ 3 →
      label ≠ [] → ']' ∉ label → ParagraphPrefix p first → LineWritten first e (w ++ s) → LinesWritten FootnotePrefix s ls w →
      BlocksWritten x cfg bs (joinWith ['\n'] (first :: ls)) →
      BlockWritten x cfg (.footnoteDefinition label bs)
        (sp k ++ (cs!"[^" ++ (label ++ (cs!"]:" ++ (p ++ (first ++ (e ++ w))))))) s
  | table {h : List (List Inline)} {rs : List (List (List Inline))} {as : List Alignment} {w a last e w' s : Str}
      {k : Nat} : RowWritten x cfg.entities (sp k ++ (a ++ (last ++ (e ++ (w' ++ s))))) h w → k ≤ 3 →
      AlignsWritten as a → last = [] ∨ last = ['|'] → LineEnd e (w' ++ s) → h.length = as.length →
      RowsWritten x cfg.entities h.length s rs w' →
      BlockWritten x cfg (.table (h :: rs) as) (w ++ (sp k ++ (a ++ (last ++ (e ++ w'))))) s
/-- `BlocksWritten x cfg bs s`: the text `s` consists of the blocks `bs`, with blank lines before, between
and after them. -/
inductive BlocksWritten (x : PExt) (cfg : PConfig) : List Block → Str → Prop
  | nil {s : Str} : BlankText s → BlocksWritten x cfg [] s
  | cons {b : Block} {bs : List Block} {g w s : Str} : BlankLines g → BlockWritten x cfg b w s →
      BlocksWritten x cfg bs s → BlocksWritten x cfg (b :: bs) (g ++ (w ++ s))
/-- An item of a list with the kind of its marker. -/
inductive ItemWritten (x : PExt) (cfg : PConfig) : ListKind → ListItem → Str → Str → Prop
  | mk {k : ListKind} {pl : Nat} {t : Option TaskState} {bs : List Block} {f first e w s : Str} {ls : List Str} :
      ItemFirst k f pl t first → LineWritten first e (w ++ s) → ItemRest k pl s ls w →
      BlocksWritten x cfg bs (joinWith ['\n'] (first :: ls)) →
      ItemWritten x cfg k (.mk t bs) (f ++ (e ++ w)) s
/-- Further items of a list, with any markers. -/
inductive ItemsWritten (x : PExt) (cfg : PConfig) : List ListItem → Str → Str → Prop
  | nil {s : Str} : ItemsWritten x cfg [] [] s
  | cons {k : ListKind} {i : ListItem} {l : List ListItem} {w w' s : Str} : ItemWritten x cfg k i w (w' ++ s) →
      ItemsWritten x cfg l w' s → ItemsWritten x cfg (i :: l) (w ++ w') s
end

end Verif
