import Verif.HtmlBlockProps
/-!
# A grammar of unambiguous inline Markdown

Specification only: which source texts mean which inlines.  `InlineGrammarProps.lean` proves that the
parser agrees.
-/
namespace Verif
open Nom

/-- A blank line inside a text. -/
def HasBlankLine (s : Str) : Prop :=
  ∃ a e sp e' b, IsNewline e ∧ IsNewline e' ∧ (∀ c ∈ sp, isSpace c = true) ∧
    s = a ++ (e ++ (sp ++ (e' ++ b)))

/-- Line ends as spaces. -/
def spacedLines (s : Str) : Str := s.map (fun c => if c = '\n' then ' ' else c)

/-- The text of a code span with the given content: line ends are spaces, and one space of padding is
removed from both ends, unless the content is blank. -/
inductive CodeText : Str → Str → Prop
  | padded {c m : Str} : spacedLines c = ' ' :: (m ++ [' ']) → (∃ d ∈ m, isWs d = false) →
      CodeText c m
  | bare {c : Str} : (∀ m, spacedLines c = ' ' :: (m ++ [' ']) → ∀ d ∈ m, isWs d = true) →
      CodeText c (spacedLines c)

/-- The content of a code span delimited by `n` backticks. -/
structure CodeContent (n : Nat) (c : Str) : Prop where
  nonempty : c ≠ []
  start : c.head? ≠ some '`'
  finish : c.getLast? ≠ some '`'
  noRun : ¬ List.replicate n '`' <:+: c
  noCr : '\r' ∉ c
  noBlank : ¬ HasBlankLine c

/-- The text of an autolink: an absolute URI or an e-mail address. -/
inductive AutolinkText : Str → Prop
  | uri {a : Char} {sch r : Str} : isAlpha a = true → sch ≠ [] → (∀ c ∈ sch, isAlnum c = true ∨ c = '+' ∨ c = '.' ∨ c = '-') →
      (∀ c ∈ r, isAsciiControl c = false ∧ isAsciiWs c = false ∧ c ≠ '<' ∧ c ≠ '>') →
      AutolinkText (a :: sch ++ ':' :: r)
  | email {u d : Str} : u ≠ [] → d ≠ [] →
      (∀ c ∈ u, isAlnum c = true ∨ c = '_' ∨ c = '-' ∨ c = '.') →
      (∀ c ∈ d, isAlnum c = true ∨ c = '.' ∨ c = '-') → AutolinkText (u ++ '@' :: d)

/-- Text between brackets. -/
structure LabelText (s : Str) : Prop where
  noClose : ']' ∉ s
  noEscape : s.getLast? ≠ some '\\'
  visible : ∃ c ∈ s, c ≠ ' ' ∧ c ≠ '\n'
  short : s.length < 1000

/-- A link destination without spaces, parentheses and escapes. -/
def DestText (s : Str) : Prop :=
  s ≠ [] ∧ ∀ c ∈ s, isAsciiControl c = false ∧ c ∉ cs!" <()\\"

/-- A destination without angle brackets: no blanks or control characters, parentheses in pairs, a
backslash in front of any character. -/
inductive BareDest : Str → Prop
  | nil : BareDest []
  | chr {c : Char} {s : Str} : isAsciiControl c = false → c ∉ cs!" <()\\" → BareDest s →
      BareDest (c :: s)
  | esc {c : Char} {s : Str} : BareDest s → BareDest ('\\' :: c :: s)
  | parens {a b : Str} : BareDest a → BareDest b → BareDest ('(' :: (a ++ (')' :: b)))

/-- `AngleDest src d`: between angle brackets `src` stands for `d`; brackets are escaped. -/
inductive AngleDest : Str → Str → Prop
  | nil : AngleDest [] []
  | chr {c : Char} {s t : Str} : c ∉ cs!"\n<>\\" → AngleDest s t → AngleDest (c :: s) (c :: t)
  | back {d : Char} {s t : Str} : d ∉ cs!"<>" → AngleDest (d :: s) t →
      AngleDest ('\\' :: d :: s) ('\\' :: t)
  | esc {d : Char} {s t : Str} : d ∈ cs!"<>" → AngleDest s t → AngleDest ('\\' :: d :: s) (d :: t)

/-- `LinkDest src d`: the source of a destination `d`; in a bare one, escapes stay as they are. -/
inductive LinkDest : Str → Str → Prop
  | bare {d : Str} : d ≠ [] → BareDest d → LinkDest d d
  | angle {s d : Str} : AngleDest s d → LinkDest ('<' :: (s ++ ['>'])) d

/-- `TitleText q src t`: the text `t` of a title closed by `q`; a backslash stands for the character
after it. -/
inductive TitleText (q : Char) : Str → Str → Prop
  | nil : TitleText q [] []
  | chr {c : Char} {s t : Str} : c ≠ q → c ≠ '\\' → TitleText q s t → TitleText q (c :: s) (c :: t)
  | esc {c : Char} {s t : Str} : TitleText q s t → TitleText q ('\\' :: c :: s) (c :: t)

/-- The source of a title. -/
inductive LinkTitle : Str → Str → Prop
  | double {s t : Str} : TitleText '"' s t → LinkTitle ('"' :: (s ++ ['"'])) t
  | single {s t : Str} : TitleText '\'' s t → LinkTitle ('\'' :: (s ++ ['\''])) t
  | paren {s t : Str} : TitleText ')' s t → LinkTitle ('(' :: (s ++ [')'])) t

/-- Blanks and line ends. -/
def White (s : Str) : Prop := ∀ c ∈ s, c = ' ' ∨ c = '\t' ∨ c = '\r' ∨ c = '\n'

/-- The source of a destination and a title between parentheses. -/
inductive DestTitle : Str → Str → Option Str → Prop
  | plain {w1 src d w2 : Str} : White w1 → LinkDest src d → White w2 →
      DestTitle ('(' :: (w1 ++ (src ++ (w2 ++ [')'])))) d none
  | title {w1 src d w2 tsrc t w3 : Str} : White w1 → LinkDest src d → White w2 →
      (w2 = [] → src.head? = some '<') → LinkTitle tsrc t → White w3 →
      DestTitle ('(' :: (w1 ++ (src ++ (w2 ++ (tsrc ++ (w3 ++ [')'])))))) d (some t)

/-- The list does not begin with text. -/
def NotTextFirst (l : List Inline) : Prop := ∀ t r, l ≠ .text t :: r

/-- Text in front of inlines; two text nodes in a row are one. -/
def addText (t : Str) : List Inline → List Inline
  | .text s :: l => .text (t ++ s) :: l
  | l => .text t :: l

/-- White space or punctuation. -/
def Separates (x : PExt) (c : Char) : Prop :=
  isWs c = true ∨ isAsciiPunct c = true ∨ x.uniPunct c = true

/-- Nothing, white space or punctuation follows. -/
def EmphEnd (x : PExt) (u : Str) : Prop := ∀ c, u.head? = some c → Separates x c

/-- The content of an emphasis in stars. -/
structure EmphContent (s : Str) : Prop where
  start : ∀ c, s.head? = some c → isWs c = false
  noStar : '*' ∉ s
  noEscape : s.getLast? ≠ some '\\'

/-- The content of a strong emphasis in double stars, or of one in triple stars (`n`). -/
structure StarsContent (n : Nat) (s : Str) : Prop where
  start : ∀ c, s.head? = some c → isWs c = false ∧ c ≠ '*'
  finish : s.getLast? ≠ some '*'
  noStars : ¬ List.replicate n '*' <:+: s
  noEscape : ¬ cs!"\\*" <:+: s ++ ['*']

/-- The content of a strong emphasis in double stars. -/
abbrev StrongContent (s : Str) : Prop := StarsContent 2 s

/-- The content of an emphasis in `n` underscores. -/
structure UnderContent (x : PExt) (n : Nat) (s : Str) : Prop where
  start : ∀ c, s.head? = some c → ¬ Separates x c
  finish : s.getLast? ≠ some '_'
  noUnders : ¬ List.replicate n '_' <:+: s

/-- An identifier with underscores inside. -/
structure Identifier (w : Str) : Prop where
  start : ∀ c, w.head? = some c → isAlpha c = true
  word : ∀ c ∈ w, isAlnum c = true ∨ c = '_'
  under : '_' ∈ w
  finish : w.getLast? ≠ some '_'
  single : ¬ cs!"__" <:+: w
  short : w.length ≤ 50

/-- No letter, digit or underscore follows. -/
def WordEnd (u : Str) : Prop := ∀ c, u.head? = some c → isAlnum c = false ∧ c ≠ '_'

/-- A character that means nothing in front of the given text. -/
def Loose (ent : Str → Option Str) (c : Char) (next : Str) : Prop :=
  c ∉ inlineSpecial ∨
  c = '!' ∧ next.head? ≠ some '[' ∨
  c = '~' ∧ next.head? ≠ some '~' ∨
  c = '*' ∧ (∀ d, next.head? = some d → isWs d = true) ∨
  c = '<' ∧ (∀ d, next.head? = some d → isAlnum d = false ∧ d ∉ cs!"_-.") ∨
  c = '\\' ∧ (∀ d, next.head? = some d → d ∉ escapable ∧ d ≠ '\n' ∧ d ≠ '\r') ∨
  c = '&' ∧ (∀ w out, CharRef ent w out → ¬ w <+: c :: next)

/-- `t`, followed by `u`, stands for itself. -/
def PlainRun (ent : Str → Option Str) (t u : Str) : Prop :=
  (∀ a c b, t = a ++ c :: b → Loose ent c (b ++ u)) ∧ ¬ HasHardBreak t

/-- A hard line break made of spaces. -/
def SpaceBreak (u : Str) : Prop := ∃ n v, 2 ≤ n ∧ u = List.replicate n ' ' ++ '\n' :: v

/-- What may follow text that stands for itself: nothing, a character with a meaning (but escapes are
not recognised after text), a hard line break or an identifier. -/
def Opens (ent : Str → Option Str) (u : Str) : Prop :=
  u = [] ∨ (∃ c v, u = c :: v ∧ ¬ Loose ent c v ∧ (c = '\\' → v.head? = some '\n')) ∨
  SpaceBreak u ∨ ∃ w v, u = w ++ v ∧ Identifier w ∧ WordEnd v

/-- The text does not run into what follows: no identifier or underscore directly after a letter or a
digit, and no hard line break directly after a space. -/
def Apart (t u : Str) : Prop :=
  (∀ c, u.head? = some c → isAlnum c = true ∨ c = '_' → ∀ d, t.getLast? = some d → isAlnum d = false) ∧
  (u.head? = some ' ' → t.getLast? ≠ some ' ')

/-- `Reads x ent s is`: the source text `s` means the inlines `is`; `ent` is the table of named
character references. -/
inductive Reads (x : PExt) (ent : Str → Option Str) : Str → List Inline → Prop
  | nil : Reads x ent [] []
  | run {t u : Str} {is : List Inline} : t ≠ [] → PlainRun ent t u → Opens ent u → Apart t u →
      Reads x ent u is → Reads x ent (t ++ u) (addText t is)
  | identifier {w u : Str} {is : List Inline} : Identifier w → WordEnd u → Reads x ent u is →
      Reads x ent (w ++ u) (addText w is)
  | reference_char {w out u : Str} {is : List Inline} : CharRef ent w out → Reads x ent u is →
      Reads x ent (w ++ u) (addText out is)
  | escape {p : Char} {u : Str} {is : List Inline} : p ∈ escapable → Reads x ent u is →
      Reads x ent ('\\' :: p :: u) (addText [p] is)
  | code {n : Nat} {c out u : Str} {is : List Inline} : 0 < n → CodeContent n c → CodeText c out →
      u.head? ≠ some '`' → Reads x ent u is →
      Reads x ent (List.replicate n '`' ++ (c ++ (List.replicate n '`' ++ u))) (.code out :: is)
  | autolink {l u : Str} {is : List Inline} : AutolinkText l → Reads x ent u is →
      Reads x ent ('<' :: (l ++ ('>' :: u))) (.autolink l :: is)
  | lineBreak {u : Str} {is : List Inline} : Reads x ent u is →
      Reads x ent ('\\' :: '\n' :: u) (.lineBreak :: is)
  | spaceBreak {n : Nat} {u : Str} {is : List Inline} : 2 ≤ n → Reads x ent u is →
      Reads x ent (List.replicate n ' ' ++ '\n' :: u) (.lineBreak :: is)
  | emphasis {s u : Str} {inner is : List Inline} : inner ≠ [] → Reads x ent s inner → EmphContent s →
      EmphEnd x u → Reads x ent u is → Reads x ent ('*' :: (s ++ ('*' :: u))) (.emphasis inner :: is)
  | strong {s u : Str} {inner is : List Inline} : inner ≠ [] → Reads x ent s inner → StrongContent s →
      EmphEnd x u → Reads x ent u is → Reads x ent (cs!"**" ++ (s ++ (cs!"**" ++ u))) (.strong inner :: is)
  | both {s u : Str} {inner is : List Inline} : inner ≠ [] → Reads x ent s inner → StarsContent 3 s →
      EmphEnd x u → Reads x ent u is →
      Reads x ent (cs!"***" ++ (s ++ (cs!"***" ++ u))) (.strong [.emphasis inner] :: is)
  | emphasisU {s u : Str} {inner is : List Inline} : inner ≠ [] → Reads x ent s inner → UnderContent x 1 s →
      EmphEnd x u → Reads x ent u is → Reads x ent ('_' :: (s ++ ('_' :: u))) (.emphasis inner :: is)
  | strongU {s u : Str} {inner is : List Inline} : inner ≠ [] → Reads x ent s inner → UnderContent x 2 s →
      EmphEnd x u → Reads x ent u is → Reads x ent (cs!"__" ++ (s ++ (cs!"__" ++ u))) (.strong inner :: is)
  | bothU {s u : Str} {inner is : List Inline} : inner ≠ [] → Reads x ent s inner → UnderContent x 3 s →
      EmphEnd x u → Reads x ent u is →
      Reads x ent (cs!"___" ++ (s ++ (cs!"___" ++ u))) (.strong [.emphasis inner] :: is)
  | strike {s u : Str} {inner is : List Inline} : inner ≠ [] → Reads x ent s inner → '~' ∉ s →
      s.getLast? ≠ some '\\' → u.head? ≠ some '~' → Reads x ent u is →
      Reads x ent (cs!"~~" ++ (s ++ (cs!"~~" ++ u))) (.strikethrough inner :: is)
  | link {s w d u : Str} {t : Option Str} {inner is : List Inline} : Reads x ent s inner → LabelText s →
      DestTitle w d t → Reads x ent u is →
      Reads x ent ('[' :: (s ++ (']' :: (w ++ u)))) (.link d t inner :: is)
  | image {s w d u : Str} {t : Option Str} {is : List Inline} : ']' ∉ s → DestTitle w d t →
      Reads x ent u is → Reads x ent (cs!"![" ++ (s ++ (']' :: (w ++ u)))) (.image d t s :: is)
  | footnote {l u : Str} {is : List Inline} : l ≠ [] → l.length < 999 → (∀ c ∈ l, isAlnum c = true) →
      u.head? ≠ some '(' → Reads x ent u is →
      Reads x ent (cs!"[^" ++ (l ++ (']' :: u))) (.footnoteReference l :: is)
  | shortcut {s u : Str} {inner is : List Inline} : Reads x ent s inner → LabelText s →
      s.head? ≠ some '^' → u.head? ≠ some '(' → u.head? ≠ some '[' → Reads x ent u is →
      Reads x ent ('[' :: (s ++ (']' :: u))) (.linkReference inner inner :: is)
  | collapsed {s u : Str} {inner is : List Inline} : Reads x ent s inner → LabelText s →
      s.head? ≠ some '^' → Reads x ent u is →
      Reads x ent ('[' :: (s ++ (']' :: '[' :: ']' :: u))) (.linkReference inner inner :: is)
  | reference {s l u : Str} {inner label is : List Inline} : Reads x ent s inner → LabelText s →
      s.head? ≠ some '^' → Reads x ent l label → LabelText l → Reads x ent u is →
      Reads x ent ('[' :: (s ++ (']' :: '[' :: (l ++ (']' :: u))))) (.linkReference label inner :: is)

end Verif
