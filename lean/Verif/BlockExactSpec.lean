import Verif.StartSpec
import Verif.InlineExactSpec
/-!
# How a text is read as blocks, exactly (specification for C85)

Specification only.  `DocRead x cfg s bs` says that the text `s` is read as the blocks `bs`.  The
grammar of `GrammarSpec.lean` says what a block looks like and `StartSpec.lean` which kind of block a text
begins with; here is where each block ends and what is in it.
-/
set_option autoImplicit false
namespace Verif.Exact
open Nom

/-! ## Code -/

/-- A line of indented code: `p` is four spaces or a tab. -/
def CodeLine (p l : Str) : Prop := (p = sp 4 ∨ p = ['\t']) ∧ OneLine l

/-- A line of fenced code: up to `k` spaces are not part of it, and it does not close the fence. -/
def FenceLine (f : Char) (n k : Nat) (p l : Str) : Prop := Indented k p l ∧ OneLine l ∧ ¬ ClosesFence f n (p ++ l)

/-- Fenced code: the opening fence with its info string, the lines and the closing fence. -/
def FencedRead (s : Str) (info : Option Str) (ls : List Str) (r : Str) : Prop :=
  ∃ k n f e w c e', k ≤ 3 ∧ 3 ≤ n ∧ (f = '`' ∨ f = '~') ∧ info ≠ some [] ∧ (info.getD []).head? ≠ some f ∧
    LineWritten (info.getD []) e (w ++ (c ++ (e' ++ r))) ∧ LinesWritten (FenceLine f n k) (c ++ (e' ++ r)) ls w ∧
    ClosesFence f n c ∧ LineEnd e' r ∧
    s = sp k ++ (List.replicate n f ++ (info.getD [] ++ (e ++ (w ++ (c ++ (e' ++ r))))))

/-! ## HTML -/

/-- A line end in front of a blank line. -/
def BlankNext (v : Str) : Prop :=
  ∃ e b e' r, IsNewline e ∧ Blanks b ∧ IsNewline e' ∧ v = e ++ (b ++ (e' ++ r))

/-- `body` goes up to the first blank line of `body ++ v`, or up to the end of the text. -/
def UpToBlank (body v : Str) : Prop :=
  (v = [] ∨ BlankNext v) ∧ ∀ a b, body = a ++ b → b ≠ [] → ¬ BlankNext (b ++ v)

/-- `body` ends at the first place where `c` holds of the rest of `body ++ v`. -/
def UpTo (c : Str → Prop) (body v : Str) : Prop :=
  c v ∧ ∀ a b, body = a ++ b → b ≠ [] → ¬ c (b ++ v)

/-- The opening or closing tag of a block-level element up to the character after the name. -/
def BlockTag (w : Str) : Prop :=
  ∃ o name sep, (o = cs!"<" ∨ o = cs!"</") ∧ name.map asciiLower ∈ blockTags ∧ Unshadowed (name.map asciiLower) ∧
    (sep = [' '] ∨ sep = ['>'] ∨ sep = cs!"/>" ∨ IsNewline sep) ∧ w = o ++ (name ++ sep)

/-- `HtmlRead h r`: the text `h ++ r` begins with the HTML block `h`. -/
inductive HtmlRead : Str → Str → Prop
  | raw {name sep body close r : Str} : name.map asciiLower ∈ rawTags → RawSep sep → RawClose close →
      UpTo (fun v => ∃ c b, RawClose c ∧ v = c ++ b) body (close ++ r) →
      HtmlRead ('<' :: (name ++ (sep ++ (body ++ close)))) r
  | marked {o c body r : Str} : HtmlMarkers o c → UpTo (fun v => c <+: v) body (c ++ r) →
      HtmlRead (o ++ (body ++ c)) r
  | block {w body e r : Str} : BlockTag w → UpToBlank body (e ++ r) → (e = [] ∧ r = []) ∨ IsNewline e →
      HtmlRead (w ++ (body ++ e)) r
  | tag {name t sep body e r : Str} : CompleteTag name t → sep = [' '] ∨ IsNewline sep →
      (∀ w, BlockTag w → ¬ w <+: t ++ (sep ++ (body ++ (e ++ r)))) → UpToBlank body (e ++ r) → BlankEnd e r →
      HtmlRead (t ++ (sep ++ (body ++ e))) r

/-! ## List items -/

/-- A further line `l` of an item with its content at column `pl`: less indented lines belong to it, too,
unless they are a thematic break or begin with a marker of the kind; but after blank lines (which are part
of `l`) only a line that is indented does. -/
inductive RestLine (kind : ListKind) (pl : Nat) : Str → Str → Str → Prop
  | text {p l e r : Str} : Indented pl p l → l ≠ [] → LineWritten l e r →
      ¬ ThematicAt (p ++ (l ++ (e ++ r))) → ¬ MarkerAt kind pl (p ++ (l ++ (e ++ r))) →
      RestLine kind pl (p ++ (l ++ (e ++ r))) l r
  | blank {j : Nat} {nl b l e r : Str} : j ≤ pl → IsNewline nl → BlankLines b → ¬ Blanks l → LineWritten l e r →
      RestLine kind pl (sp j ++ (nl ++ (b ++ (sp pl ++ (l ++ (e ++ r)))))) (sp j ++ (nl ++ (b ++ l))) r

/-- The further lines of an item, all of them. -/
inductive RestLines (kind : ListKind) (pl : Nat) : Str → List Str → Str → Prop
  | stop {s : Str} : (∀ l r, ¬ RestLine kind pl s l r) → RestLines kind pl s [] s
  | cons {s l s' r : Str} {ls : List Str} : RestLine kind pl s l s' → RestLines kind pl s' ls r →
      RestLines kind pl s (l :: ls) r

/-- An item of a list: its first line and its further lines. -/
def ItemFrame (s : Str) (kind : ListKind) (task : Option TaskState) (ls : List Str) (r : Str) : Prop :=
  ∃ f pl first e s' ls', ItemFirst kind f pl task first ∧ OneLine first ∧ LineEnd e s' ∧ s = f ++ (e ++ s') ∧
    RestLines kind pl s' ls' r ∧ ls = first :: ls'

/-! ## Definitions -/

/-- A footnote: the label, the rest of its line and the lines after it that are indented by three spaces. -/
def FootnoteRead (s label : Str) (ls : List Str) (r : Str) : Prop :=
  ∃ k p first e w ls', k ≤ 3 ∧ label ≠ [] ∧ ']' ∉ label ∧ ParagraphPrefix p first ∧ LineWritten first e (w ++ r) ∧
    LinesWritten FootnotePrefix r ls' w ∧ (¬ ∃ l e r', l ≠ [] ∧ LineWritten l e r' ∧ r = sp 3 ++ (l ++ (e ++ r'))) ∧
    ls = first :: ls' ∧ s = sp k ++ (cs!"[^" ++ (label ++ (cs!"]:" ++ (p ++ (first ++ (e ++ (w ++ r)))))))

/-- The destination `d` written `w` in front of `v`: a bare one may end in a lone backslash at the end of
the text. -/
def DefDest (w v d : Str) : Prop := LinkDest w d ∨ (v = [] ∧ w = d ∧ ∃ d', BareDest d' ∧ d = d' ++ ['\\'])

/-- What follows the destination of a definition: a title if there is one, and the end of the line. -/
def DefClose (v : Str) (title : Option Str) (r : Str) : Prop :=
  (∃ g w t e, TitleGap g ∧ LinkTitle w t ∧ LineEnd e r ∧ v = g ++ (w ++ (e ++ r)) ∧ title = some t) ∨
  (title = none ∧ (∃ e, LineEnd e r ∧ v = e ++ r) ∧ ¬ ∃ g w t r', TitleGap g ∧ LinkTitle w t ∧ v = g ++ (w ++ r'))

/-- A link reference definition with the label `t`. -/
def DefRead (s t d : Str) (title : Option Str) (r : Str) : Prop :=
  ∃ k g w v u, k ≤ 3 ∧ LabelAt u t (':' :: (g ++ (w ++ v))) ∧ Gap g ∧ DefDest w v d ∧ DefClose v title r ∧ s = sp k ++ u

/-! ## Tables -/

/-- The cells of a row with the texts `ts`, each after a bar, and perhaps a last bar. -/
inductive CellsRead (e : Str) : List Str → Str → Prop
  | last {w t : Str} : w ≠ [] → Unescapes '|' w t → '\n' ∉ w → (e = ['\n'] → w.getLast? ≠ some '\r') →
      CellsRead e [t] ('|' :: w)
  | closed {w t : Str} : w ≠ [] → Unescapes '|' w t → '\n' ∉ w → w.getLast? ≠ some '\\' →
      CellsRead e [t] ('|' :: (w ++ ['|']))
  | cons {w t u : Str} {ts : List Str} : w ≠ [] → Unescapes '|' w t → '\n' ∉ w → w.getLast? ≠ some '\\' →
      CellsRead e ts ('|' :: u) → CellsRead e (t :: ts) ('|' :: (w ++ '|' :: u))

/-- The texts of the cells are read as inlines; `R t l` says that the text `t` is read as the inlines `l`. -/
inductive CellsAs (R : Str → List Inline → Prop) : List Str → List (List Inline) → Prop
  | nil : CellsAs R [] []
  | cons {t : Str} {ts : List Str} {c : List Inline} {cs : List (List Inline)} : R (trim t) c →
      CellsAs R ts cs → CellsAs R (t :: ts) (c :: cs)

/-- A row in front of `r`. -/
def RowRead (R : Str → List Inline → Prop) (s : Str) (cs : List (List Inline)) (r : Str) : Prop :=
  ∃ k u e ts, k ≤ 3 ∧ CellsRead e ts u ∧ LineEnd e r ∧ CellsAs R ts cs ∧ s = sp k ++ (u ++ (e ++ r))

/-- All the rows that follow, cut or filled up to `n` cells. -/
inductive RowsRead (R : Str → List Inline → Prop) (n : Nat) : Str → List (List (List Inline)) → Str → Prop
  | stop {s : Str} : (∀ n r, ¬ RowAt n s r) → RowsRead R n s [] s
  | cons {s s' r : Str} {row : List (List Inline)} {rows : List (List (List Inline))} : RowRead R s row s' →
      RowsRead R n s' rows r → RowsRead R n s (fitted n row :: rows) r

/-- A table: the header, the delimiter row with as many cells, and the rows. -/
def TableRead (R : Str → List Inline → Prop) (s : Str) (rows : List (List (List Inline))) (as : List Alignment) (r : Str) : Prop :=
  ∃ h rs a last k e r', RowRead R s h (sp k ++ (a ++ (last ++ (e ++ r')))) ∧ AlignsWritten as a ∧ as ≠ [] ∧
    (last = [] ∨ last = ['|']) ∧ k ≤ 3 ∧ LineEnd e r' ∧ h.length = as.length ∧ RowsRead R h.length r' rs r ∧
    rows = h :: rs

/-! ## Blocks -/

/-- Quoted lines, all of them. -/
def QuoteFrame (s : Str) (ls : List Str) (r : Str) : Prop :=
  ∃ w, LinesWritten QuotedLine r ls w ∧ QuoteEnds r ∧ s = w ++ r

mutual
/-- `DocRead x cfg s bs`: the text `s` is read as the blocks `bs`. -/
inductive DocRead (x : PExt) (cfg : PConfig) : Str → List Block → Prop
  | nil {s : Str} : BlankText s → DocRead x cfg s []
  | cons {g s r : Str} {b : Block} {bs : List Block} : BlankLines g → ¬ BlankLineAt s → BlockRead x cfg s b r →
      DocRead x cfg r bs → DocRead x cfg (g ++ s) (b :: bs)
/-- `BlockRead x cfg s b r`: the text `s` begins with the block `b`, and `r` is the rest. -/
inductive BlockRead (x : PExt) (cfg : PConfig) : Str → Block → Str → Prop
  | indented {w r : Str} {ls : List Str} : LinesWritten CodeLine r ls w → ls ≠ [] → ¬ IndentedAt r →
      BlockRead x cfg (w ++ r) (.codeBlock .indented (joinWith ['\n'] ls)) r
  | fenced {s r : Str} {info : Option Str} {ls : List Str} : FencedRead s info ls r →
      BlockRead x cfg s (.codeBlock (.fenced info) (joinWith ['\n'] ls)) r
  | atx {n : Nat} {m t e r : Str} {l : List Inline} : HeadingMark cfg n m t → t ≠ [] → LineWritten t e r →
      ReadAs x cfg.entities t l → BlockRead x cfg (m ++ (t ++ (e ++ r))) (.heading (.atx n) l) r
  | thematic {l e r : Str} : ThematicLine l → LineEnd e r → BlockRead x cfg (l ++ (e ++ r)) .thematicBreak r
  | quote {s r : Str} {ls : List Str} {bs : List Block} : QuoteFrame s ls r → (∃ l ∈ ls, ¬ Blanks l) →
      (¬ ∃ t, AlertAt x t s) → DocRead x cfg (joinWith ['\n'] ls) bs → BlockRead x cfg s (.blockQuote bs) r
  | alert {s l r : Str} {ls : List Str} {t : AlertType} {bs : List Block} : QuoteFrame s (l :: ls) r →
      AlertLine x t l → (ls = [] ∨ ls = [[]] ∨ ∃ l ∈ ls, ¬ Blanks l) → DocRead x cfg (joinWith ['\n'] ls) bs →
      BlockRead x cfg s (.githubAlert t bs) r
  | list {s s' r : Str} {kind : ListKind} {i : ListItem} {l : List ListItem} : ItemRead x cfg s kind i s' →
      ItemsRead x cfg s' l r → BlockRead x cfg s (.list kind (i :: l)) r
  | html {k : Nat} {h r : Str} : k ≤ 3 → HtmlRead h r → BlockRead x cfg (sp k ++ (h ++ r)) (.htmlBlock h) r
  | footnote {s label r : Str} {ls : List Str} {bs : List Block} : FootnoteRead s label ls r →
      DocRead x cfg (joinWith ['\n'] ls) bs → BlockRead x cfg s (.footnoteDefinition label bs) r
  | definition {s t d r : Str} {title : Option Str} {l : List Inline} : DefRead s t d title r → ¬ FootnoteAt s →
      ReadAs x cfg.entities t l → BlockRead x cfg s (.definition l d title) r
  | table {s r : Str} {rows : List (List (List Inline))} {as : List Alignment} :
      TableRead (ReadAs x cfg.entities) s rows as r → BlockRead x cfg s (.table rows as) r
  | paragraph {w r : Str} {ls : List Str} {l : List Inline} : ¬ SpecialAt cfg (w ++ r) →
      (¬ ∃ k, UnderlineAt k (w ++ r)) → TextRun cfg r ls w → Interrupts cfg r → (¬ ∃ k, UnderlineAt k r) →
      ReadAs x cfg.entities (joinWith ['\n'] ls) l → BlockRead x cfg (w ++ r) (.paragraph l) r
  | setext {w u e r : Str} {k : SetextHeading} {ls : List Str} {l : List Inline} :
      ¬ SpecialAt cfg (w ++ (u ++ (e ++ r))) → (¬ ∃ k, UnderlineAt k (w ++ (u ++ (e ++ r)))) →
      TextRun cfg (u ++ (e ++ r)) ls w → Underline k u → LineEnd e r → ReadAs x cfg.entities (joinWith ['\n'] ls) l →
      BlockRead x cfg (w ++ (u ++ (e ++ r))) (.heading (.setext k) l) r
  /-- An underline with nothing above it is a paragraph of one line. -/
  | stray {w r t : Str} {l : List Inline} : ¬ SpecialAt cfg (w ++ r) → (∃ k, UnderlineAt k (w ++ r)) →
      TextRun cfg r [t] w → ReadAs x cfg.entities t l → BlockRead x cfg (w ++ r) (.paragraph l) r
/-- An item of a list. -/
inductive ItemRead (x : PExt) (cfg : PConfig) : Str → ListKind → ListItem → Str → Prop
  | mk {s r : Str} {kind : ListKind} {task : Option TaskState} {ls : List Str} {bs : List Block} :
      ItemFrame s kind task ls r → DocRead x cfg (joinWith ['\n'] ls) bs → ItemRead x cfg s kind (.mk task bs) r
/-- All the items that follow, whatever their markers. -/
inductive ItemsRead (x : PExt) (cfg : PConfig) : Str → List ListItem → Str → Prop
  | stop {s : Str} : (∀ kind, ¬ ItemAt kind s) → ItemsRead x cfg s [] s
  | cons {s s' r : Str} {kind : ListKind} {i : ListItem} {l : List ListItem} : ItemRead x cfg s kind i s' →
      ItemsRead x cfg s' l r → ItemsRead x cfg s (i :: l) r
end

end Verif.Exact
