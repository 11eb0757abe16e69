import Verif.GrammarSpec
/-!
# How a text is read as inlines, exactly (specification for C84)

Specification only.  The grammar of `GrammarSpec.lean` says what each element looks like; here is which
reading wins.  The predicates `…At` say of a text, in terms of its characters, that an element begins at
its front, and where it ends; `ReadAs` puts them in order of precedence.
-/
set_option autoImplicit false
namespace Verif.Exact
open Nom

/-- `<u>` with a URI or an e-mail address. -/
def AutolinkAt (s u r : Str) : Prop := AutolinkText u ∧ s = '<' :: (u ++ '>' :: r)

/-- A label between brackets: `t` without the backslashes in front of closing brackets.  The first closing
bracket without a backslash ends it. -/
def LabelAt (s t r : Str) : Prop :=
  ∃ w, BracketText w t ∧ w.getLast? ≠ some '\\' ∧ s = '[' :: (w ++ ']' :: r)

/-- An opening parenthesis that a destination cannot contain: what follows it is not closed, or has
characters that a destination cannot have. -/
def UnbalancedAt (v : Str) : Prop :=
  v.head? = some '(' ∧ ¬ ∃ b r, BareDest b ∧ v = '(' :: (b ++ ')' :: r)

/-- A destination and perhaps a title between parentheses.  White space must separate the title from the
destination, unless the destination is in angle brackets or could not go on. -/
inductive DestTitleAt : Str → Str → Option Str → Str → Prop
  | plain {w1 src d w2 r : Str} : White w1 → LinkDest src d → White w2 →
      DestTitleAt ('(' :: (w1 ++ (src ++ (w2 ++ ')' :: r)))) d none r
  | title {w1 src d w2 ts t w3 r : Str} : White w1 → LinkDest src d → White w2 → LinkTitle ts t → White w3 →
      (w2 = [] → src.head? = some '<' ∨ UnbalancedAt (ts ++ (w3 ++ ')' :: r))) →
      DestTitleAt ('(' :: (w1 ++ (src ++ (w2 ++ (ts ++ (w3 ++ ')' :: r)))))) d (some t) r

/-- A reference to a footnote. -/
def NoteAt (s n r : Str) : Prop := n ≠ [] ∧ (∀ c ∈ n, isAlnum c = true) ∧ s = cs!"[^" ++ (n ++ ']' :: r)

/-- A hard line break: a backslash, or two or more spaces, at the end of a line. -/
def BreakAt (s r : Str) : Prop :=
  (∃ e, IsNewline e ∧ s = '\\' :: (e ++ r)) ∨ ∃ n e, 2 ≤ n ∧ IsNewline e ∧ s = List.replicate n ' ' ++ (e ++ r)

/-- An image: everything up to the first closing bracket is its description. -/
def ImageAt (s alt d : Str) (title : Option Str) (r : Str) : Prop :=
  ∃ v, ']' ∉ alt ∧ DestTitleAt v d title r ∧ s = '!' :: '[' :: (alt ++ ']' :: v)

/-- A code span. -/
def CodeAt (s c r : Str) : Prop := ∃ w, CodeWritten r w c ∧ s = w ++ r

/-- An identifier with underscores inside: they are not markup. -/
def IdentifierAt (s w r : Str) : Prop := Identifier w ∧ WordEnd r ∧ s = w ++ r

/-- The text `o` between `n` characters `m`. -/
def EmphAt (x : PExt) (m : Char) (n : Nat) (s o r : Str) : Prop :=
  EmphasisText x m n o r ∧ (m = '*' → o.getLast? ≠ some '\\') ∧
    s = List.replicate n m ++ (o ++ (List.replicate n m ++ r))

/-- The text `o` between two pairs of tildes. -/
def StrikeAt (s o r : Str) : Prop :=
  StrikeText o r ∧ o.getLast? ≠ some '\\' ∧ s = cs!"~~" ++ (o ++ (cs!"~~" ++ r))

/-- A character reference for `v`. -/
def RefAt (ent : Str → Option Str) (s v r : Str) : Prop := ∃ w, CharRef ent w v ∧ s = w ++ r

/-- A backslash in front of ASCII punctuation. -/
def EscapeAt (s : Str) (c : Char) (r : Str) : Prop := c ∈ escapable ∧ s = '\\' :: c :: r

/-- Something begins at the front of the text that ends a run of ordinary characters.  A backslash in
front of punctuation does not. -/
inductive Ends (x : PExt) (ent : Str → Option Str) (s : Str) : Prop
  | autolink {u r : Str} : AutolinkAt s u r → Ends x ent s
  | label {t r : Str} : LabelAt s t r → Ends x ent s
  | footnote {n r : Str} : NoteAt s n r → Ends x ent s
  | lineBreak {r : Str} : BreakAt s r → Ends x ent s
  | image {alt d r : Str} {title : Option Str} : ImageAt s alt d title r → Ends x ent s
  | code {c r : Str} : CodeAt s c r → Ends x ent s
  | identifier {w r : Str} : IdentifierAt s w r → Ends x ent s
  | emphasis {m : Char} {n : Nat} {o r : Str} : EmphMark m → 1 ≤ n → n ≤ 3 → EmphAt x m n s o r → Ends x ent s
  | strike {o r : Str} : StrikeAt s o r → Ends x ent s
  | ref {v r : Str} : RefAt ent s v r → Ends x ent s

/-- A run of ordinary characters, as long as possible, where no backslash escapes the first one. -/
structure RunAt (x : PExt) (ent : Str → Option Str) (s t r : Str) : Prop where
  eq : s = t ++ r
  ne : t ≠ []
  plain : ∀ a b, t = a ++ b → b ≠ [] → ¬ Ends x ent (b ++ r)
  stop : r = [] ∨ Ends x ent r
  escape : ∀ c v, ¬ EscapeAt s c v

/-- `ReadAs x ent s l`: the text `s` is read as the inlines `l`; `ent` is the table of named character
references. -/
inductive ReadAs (x : PExt) (ent : Str → Option Str) : Str → List Inline → Prop
  | nil : ReadAs x ent [] []
  | autolink {s u r : Str} {l : List Inline} : AutolinkAt s u r → ReadAs x ent r l →
      ReadAs x ent s (.autolink u :: l)
  | link {s t v d r : Str} {title : Option Str} {k l : List Inline} : LabelAt s t v → DestTitleAt v d title r →
      ReadAs x ent t k → ReadAs x ent r l → ReadAs x ent s (.link d title k :: l)
  | footnote {s n r : Str} {l : List Inline} : NoteAt s n r →
      (∀ t v d title r', LabelAt s t v → ¬ DestTitleAt v d title r') →
      ReadAs x ent r l → ReadAs x ent s (.footnoteReference n :: l)
  | reference {s t v t' r : Str} {k k' l : List Inline} : LabelAt s t v → LabelAt v t' r →
      (∀ n r', ¬ NoteAt s n r') → ReadAs x ent t k → ReadAs x ent t' k' → ReadAs x ent r l →
      ReadAs x ent s (.linkReference k' k :: l)
  | collapsed {s t r : Str} {k l : List Inline} : LabelAt s t ('[' :: ']' :: r) → (∀ n r', ¬ NoteAt s n r') →
      ReadAs x ent t k → ReadAs x ent r l → ReadAs x ent s (.linkReference k k :: l)
  | shortcut {s t r : Str} {k l : List Inline} : LabelAt s t r → (∀ d title r', ¬ DestTitleAt r d title r') →
      (∀ n r', ¬ NoteAt s n r') → (∀ t' r', ¬ LabelAt r t' r') → (∀ r', r ≠ '[' :: ']' :: r') →
      ReadAs x ent t k → ReadAs x ent r l → ReadAs x ent s (.linkReference k k :: l)
  | lineBreak {s r : Str} {l : List Inline} : BreakAt s r → ReadAs x ent r l → ReadAs x ent s (.lineBreak :: l)
  | image {s alt d r : Str} {title : Option Str} {l : List Inline} : ImageAt s alt d title r → ReadAs x ent r l →
      ReadAs x ent s (.image d title alt :: l)
  | code {s c r : Str} {l : List Inline} : CodeAt s c r → ReadAs x ent r l → ReadAs x ent s (.code c :: l)
  | identifier {s w r : Str} {l : List Inline} : IdentifierAt s w r → ReadAs x ent r l →
      ReadAs x ent s (addText w l)
  | both {m : Char} {s o r : Str} {k l : List Inline} : EmphMark m → EmphAt x m 3 s o r → ReadAs x ent o k →
      ReadAs x ent r l → ReadAs x ent s (.strong [.emphasis k] :: l)
  | strong {m : Char} {s o r : Str} {k l : List Inline} : EmphMark m → EmphAt x m 2 s o r →
      (∀ o' r', ¬ EmphAt x m 3 s o' r') → ReadAs x ent o k → ReadAs x ent r l → ReadAs x ent s (.strong k :: l)
  | emphasis {m : Char} {s o r : Str} {k l : List Inline} : EmphMark m → EmphAt x m 1 s o r →
      (∀ o' r', ¬ EmphAt x m 3 s o' r') → (∀ o' r', ¬ EmphAt x m 2 s o' r') → ReadAs x ent o k →
      ReadAs x ent r l → ReadAs x ent s (.emphasis k :: l)
  | strike {s o r : Str} {k l : List Inline} : StrikeAt s o r → ReadAs x ent o k → ReadAs x ent r l →
      ReadAs x ent s (.strikethrough k :: l)
  | escape {s r : Str} {c : Char} {l : List Inline} : EscapeAt s c r → ReadAs x ent r l →
      ReadAs x ent s (addText [c] l)
  | ref {s v r : Str} {l : List Inline} : RefAt ent s v r → ReadAs x ent r l → ReadAs x ent s (addText v l)
  | run {s t r : Str} {l : List Inline} : RunAt x ent s t r → ReadAs x ent r l → ReadAs x ent s (addText t l)

end Verif.Exact
