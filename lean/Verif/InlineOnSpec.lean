import Verif.InlineExactSpec
/-!
# How a text is read as inlines when constructs are switched off (specification for C88)

Specification only.  As `InlineExactSpec.lean`, but an element is read only if the configuration parses its kind,
and a custom parser may read others.
-/
set_option autoImplicit false
namespace Verif.Exact
open Nom

/-- A configuration that parses or ignores each construct, texts and paragraphs being parsed; custom parsers take at
least a character and leave the rest of the text. -/
structure _root_.Verif.PConfig.Tries (cfg : PConfig) : Prop where
  blockquote : cfg.blockquote = .parse ∨ cfg.blockquote = .ignore
  githubAlert : cfg.githubAlert = .parse ∨ cfg.githubAlert = .ignore
  headingV1 : cfg.headingV1 = .parse ∨ cfg.headingV1 = .ignore
  headingV2 : cfg.headingV2 = .parse ∨ cfg.headingV2 = .ignore
  thematicBreak : cfg.thematicBreak = .parse ∨ cfg.thematicBreak = .ignore
  list : cfg.list = .parse ∨ cfg.list = .ignore
  codeBlock : cfg.codeBlock = .parse ∨ cfg.codeBlock = .ignore
  htmlBlock : cfg.htmlBlock = .parse ∨ cfg.htmlBlock = .ignore
  footnoteDefinition : cfg.footnoteDefinition = .parse ∨ cfg.footnoteDefinition = .ignore
  linkDefinition : cfg.linkDefinition = .parse ∨ cfg.linkDefinition = .ignore
  table : cfg.table = .parse ∨ cfg.table = .ignore
  paragraph : cfg.paragraph = .parse
  autolink : cfg.autolink = .parse ∨ cfg.autolink = .ignore
  link : cfg.link = .parse ∨ cfg.link = .ignore
  footnoteReference : cfg.footnoteReference = .parse ∨ cfg.footnoteReference = .ignore
  referenceLink : cfg.referenceLink = .parse ∨ cfg.referenceLink = .ignore
  hardNewline : cfg.hardNewline = .parse ∨ cfg.hardNewline = .ignore
  image : cfg.image = .parse ∨ cfg.image = .ignore
  codeSpan : cfg.codeSpan = .parse ∨ cfg.codeSpan = .ignore
  emphasis : cfg.emphasis = .parse ∨ cfg.emphasis = .ignore
  strikethrough : cfg.strikethrough = .parse ∨ cfg.strikethrough = .ignore
  text : cfg.text = .parse
  custom : cfg.CustomOk

/-- A custom parser reads `is` at the front of the text. -/
def CustomInline (cfg : PConfig) (s : Str) (is : List Inline) (r : Str) : Prop :=
  ∃ p, cfg.customInline = some p ∧ p s = some (r, is)

/-- Something that the configuration parses begins at the front of the text.  Identifiers with underscores
cannot be switched off. -/
inductive BeginsOn (x : PExt) (cfg : PConfig) (s : Str) : Prop
  | autolink {u r : Str} : cfg.autolink = .parse → AutolinkAt s u r → BeginsOn x cfg s
  | link {t v d r : Str} {title : Option Str} : cfg.link = .parse → LabelAt s t v → DestTitleAt v d title r → BeginsOn x cfg s
  | label {t r : Str} : cfg.referenceLink = .parse → LabelAt s t r → BeginsOn x cfg s
  | footnote {n r : Str} : cfg.footnoteReference = .parse → NoteAt s n r → BeginsOn x cfg s
  | lineBreak {r : Str} : cfg.hardNewline = .parse → BreakAt s r → BeginsOn x cfg s
  | image {alt d r : Str} {title : Option Str} : cfg.image = .parse → ImageAt s alt d title r → BeginsOn x cfg s
  | code {c r : Str} : cfg.codeSpan = .parse → CodeAt s c r → BeginsOn x cfg s
  | identifier {w r : Str} : IdentifierAt s w r → BeginsOn x cfg s
  | emphasis {m : Char} {n : Nat} {o r : Str} : cfg.emphasis = .parse → EmphMark m → 1 ≤ n → n ≤ 3 → EmphAt x m n s o r →
      BeginsOn x cfg s
  | strike {o r : Str} : cfg.strikethrough = .parse → StrikeAt s o r → BeginsOn x cfg s

/-- What ends a run of ordinary characters: an element, or a character reference. -/
inductive EndsOn (x : PExt) (cfg : PConfig) (s : Str) : Prop
  | node : BeginsOn x cfg s → EndsOn x cfg s
  | ref {v r : Str} : RefAt cfg.entities s v r → EndsOn x cfg s

/-- A run of ordinary characters, as long as possible, where no backslash escapes the first one. -/
structure RunOn (x : PExt) (cfg : PConfig) (s t r : Str) : Prop where
  eq : s = t ++ r
  ne : t ≠ []
  plain : ∀ a b, t = a ++ b → b ≠ [] → ¬ EndsOn x cfg (b ++ r)
  stop : r = [] ∨ EndsOn x cfg r
  escape : ∀ c v, ¬ EscapeAt s c v

/-- Inlines in front of inlines; text nodes in a row are one. -/
def addInlines : List Inline → List Inline → List Inline
  | [], l => l
  | .text t :: k, l => addText t (addInlines k l)
  | i :: k, l => i :: addInlines k l

/-- Where in a text: at its start or behind an element, or behind ordinary characters. -/
inductive Place
  | fresh
  | behindText

/-- `ReadFrom x cfg p s l`: with the configuration `cfg`, the text `s`, standing at such a place, is read as the
inlines `l`.  A custom parser is not asked behind ordinary characters. -/
inductive ReadFrom (x : PExt) (cfg : PConfig) : Place → Str → List Inline → Prop
  | nil {p : Place} : ReadFrom x cfg p [] []
  | autolink {p : Place} {s u r : Str} {l : List Inline} : cfg.autolink = .parse → AutolinkAt s u r → ReadFrom x cfg .fresh r l →
      ReadFrom x cfg p s (.autolink u :: l)
  | link {p : Place} {s t v d r : Str} {title : Option Str} {k l : List Inline} : cfg.link = .parse → LabelAt s t v →
      DestTitleAt v d title r → ReadFrom x cfg .fresh t k → ReadFrom x cfg .fresh r l → ReadFrom x cfg p s (.link d title k :: l)
  | footnote {p : Place} {s n r : Str} {l : List Inline} : cfg.footnoteReference = .parse → NoteAt s n r →
      (cfg.link = .parse → ∀ t v d title r', LabelAt s t v → ¬ DestTitleAt v d title r') →
      ReadFrom x cfg .fresh r l → ReadFrom x cfg p s (.footnoteReference n :: l)
  | reference {p : Place} {s t v t' r : Str} {k k' l : List Inline} : cfg.referenceLink = .parse → LabelAt s t v → LabelAt v t' r →
      (cfg.footnoteReference = .parse → ∀ n r', ¬ NoteAt s n r') → ReadFrom x cfg .fresh t k → ReadFrom x cfg .fresh t' k' →
      ReadFrom x cfg .fresh r l → ReadFrom x cfg p s (.linkReference k' k :: l)
  | collapsed {p : Place} {s t r : Str} {k l : List Inline} : cfg.referenceLink = .parse → LabelAt s t ('[' :: ']' :: r) →
      (cfg.footnoteReference = .parse → ∀ n r', ¬ NoteAt s n r') → ReadFrom x cfg .fresh t k → ReadFrom x cfg .fresh r l →
      ReadFrom x cfg p s (.linkReference k k :: l)
  | shortcut {p : Place} {s t r : Str} {k l : List Inline} : cfg.referenceLink = .parse → LabelAt s t r →
      (cfg.link = .parse → ∀ d title r', ¬ DestTitleAt r d title r') →
      (cfg.footnoteReference = .parse → ∀ n r', ¬ NoteAt s n r') → (∀ t' r', ¬ LabelAt r t' r') →
      (∀ r', r ≠ '[' :: ']' :: r') → ReadFrom x cfg .fresh t k → ReadFrom x cfg .fresh r l → ReadFrom x cfg p s (.linkReference k k :: l)
  | lineBreak {p : Place} {s r : Str} {l : List Inline} : cfg.hardNewline = .parse → BreakAt s r → ReadFrom x cfg .fresh r l →
      ReadFrom x cfg p s (.lineBreak :: l)
  | image {p : Place} {s alt d r : Str} {title : Option Str} {l : List Inline} : cfg.image = .parse → ImageAt s alt d title r →
      ReadFrom x cfg .fresh r l → ReadFrom x cfg p s (.image d title alt :: l)
  | code {p : Place} {s c r : Str} {l : List Inline} : cfg.codeSpan = .parse → CodeAt s c r → ReadFrom x cfg .fresh r l →
      ReadFrom x cfg p s (.code c :: l)
  | identifier {p : Place} {s w r : Str} {l : List Inline} : IdentifierAt s w r → ReadFrom x cfg .fresh r l → ReadFrom x cfg p s (addText w l)
  | both {p : Place} {m : Char} {s o r : Str} {k l : List Inline} : cfg.emphasis = .parse → EmphMark m → EmphAt x m 3 s o r →
      ReadFrom x cfg .fresh o k → ReadFrom x cfg .fresh r l → ReadFrom x cfg p s (.strong [.emphasis k] :: l)
  | strong {p : Place} {m : Char} {s o r : Str} {k l : List Inline} : cfg.emphasis = .parse → EmphMark m → EmphAt x m 2 s o r →
      (∀ o' r', ¬ EmphAt x m 3 s o' r') → ReadFrom x cfg .fresh o k → ReadFrom x cfg .fresh r l → ReadFrom x cfg p s (.strong k :: l)
  | emphasis {p : Place} {m : Char} {s o r : Str} {k l : List Inline} : cfg.emphasis = .parse → EmphMark m → EmphAt x m 1 s o r →
      (∀ o' r', ¬ EmphAt x m 3 s o' r') → (∀ o' r', ¬ EmphAt x m 2 s o' r') → ReadFrom x cfg .fresh o k →
      ReadFrom x cfg .fresh r l → ReadFrom x cfg p s (.emphasis k :: l)
  | strike {p : Place} {s o r : Str} {k l : List Inline} : cfg.strikethrough = .parse → StrikeAt s o r → ReadFrom x cfg .fresh o k →
      ReadFrom x cfg .fresh r l → ReadFrom x cfg p s (.strikethrough k :: l)
  | escape {p : Place} {s r : Str} {c : Char} {l : List Inline} :
      (p = .fresh → ∀ is r', ¬ CustomInline cfg s is r') → EscapeAt s c r → ReadFrom x cfg .behindText r l → ReadFrom x cfg p s (addText [c] l)
  | ref {p : Place} {s v r : Str} {l : List Inline} :
      (p = .fresh → ∀ is r', ¬ CustomInline cfg s is r') → RefAt cfg.entities s v r → ReadFrom x cfg .behindText r l → ReadFrom x cfg p s (addText v l)
  | run {p : Place} {s t r : Str} {l : List Inline} :
      (p = .fresh → ∀ is r', ¬ CustomInline cfg s is r') → RunOn x cfg s t r → ReadFrom x cfg .behindText r l → ReadFrom x cfg p s (addText t l)
  | custom {s r : Str} {is l : List Inline} : CustomInline cfg s is r → ¬ BeginsOn x cfg s →
      ReadFrom x cfg .fresh r l → ReadFrom x cfg .fresh s (addInlines is l)

/-- `ReadOn x cfg s l`: with the configuration `cfg`, the text `s` is read as the inlines `l`. -/
def ReadOn (x : PExt) (cfg : PConfig) (s : Str) (l : List Inline) : Prop := ReadFrom x cfg .fresh s l

end Verif.Exact
