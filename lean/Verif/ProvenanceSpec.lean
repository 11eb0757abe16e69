import Verif.InlineProps
/-!
# What a document spells (specification for C70)

Specification only.  `Spells` reads a document off as a text: its texts, codes, destinations, titles,
labels and literals in order, together with the few things that a document keeps in another form
(the number of a list item, the mark of a task, the marker of an alert) or not at all (the surplus
cells of a table row).
-/
namespace Verif
open Nom

/-- White space and ASCII punctuation. -/
def isMarkup (c : Char) : Bool := isWs c || isAsciiPunct c

/-- `o` is `s` without some of its white space and punctuation: nothing is added or moved, and every
other character stays. -/
structure LosesOnlyMarkup (s o : Str) : Prop where
  sub : o.Sublist s
  letters : o.filter (fun c => !isMarkup c) = s.filter (fun c => !isMarkup c)

/-- `DecodesTo ent o t`: `t` is `o` with some character references replaced by their characters. -/
inductive DecodesTo (ent : Str → Option Str) : Str → Str → Prop
  | nil : DecodesTo ent [] []
  | char {c : Char} {o t : Str} : DecodesTo ent o t → DecodesTo ent (c :: o) (c :: t)
  | ref {w v o t : Str} : CharRef ent w v → DecodesTo ent o t → DecodesTo ent (w ++ o) (v ++ t)

/-- What inlines spell.  A reference link whose label is its text (`[a]`, `[a][]`) may spell it once.
There is no case for inline HTML, which the parser never produces, and for empty inlines. -/
inductive SpellsInlines (ent : Str → Option Str) : List Inline → Str → Prop
  | nil : SpellsInlines ent [] []
  | text {t o o' : Str} {l : List Inline} : DecodesTo ent o t → SpellsInlines ent l o' →
      SpellsInlines ent (.text t :: l) (o ++ o')
  | lineBreak {o' : Str} {l : List Inline} : SpellsInlines ent l o' →
      SpellsInlines ent (.lineBreak :: l) o'
  | code {o o' : Str} {l : List Inline} : SpellsInlines ent l o' →
      SpellsInlines ent (.code (o.map (fun c => if c = '\n' then ' ' else c)) :: l) (o ++ o')
  | link {d o o' : Str} {t : Option Str} {c l : List Inline} : SpellsInlines ent c o →
      SpellsInlines ent l o' → SpellsInlines ent (.link d t c :: l) (o ++ (d ++ (t.getD [] ++ o')))
  | reference {o1 o2 o' : Str} {label text l : List Inline} : SpellsInlines ent text o1 →
      SpellsInlines ent label o2 → SpellsInlines ent l o' →
      SpellsInlines ent (.linkReference label text :: l) (o1 ++ (o2 ++ o'))
  | shortcut {o1 o' : Str} {text l : List Inline} : SpellsInlines ent text o1 →
      SpellsInlines ent l o' → SpellsInlines ent (.linkReference text text :: l) (o1 ++ o')
  | image {d a o' : Str} {t : Option Str} {l : List Inline} : SpellsInlines ent l o' →
      SpellsInlines ent (.image d t a :: l) (a ++ (d ++ (t.getD [] ++ o')))
  | emphasis {o o' : Str} {c l : List Inline} : SpellsInlines ent c o → SpellsInlines ent l o' →
      SpellsInlines ent (.emphasis c :: l) (o ++ o')
  | strong {o o' : Str} {c l : List Inline} : SpellsInlines ent c o → SpellsInlines ent l o' →
      SpellsInlines ent (.strong c :: l) (o ++ o')
  | strikethrough {o o' : Str} {c l : List Inline} : SpellsInlines ent c o → SpellsInlines ent l o' →
      SpellsInlines ent (.strikethrough c :: l) (o ++ o')
  | autolink {u o' : Str} {l : List Inline} : SpellsInlines ent l o' →
      SpellsInlines ent (.autolink u :: l) (u ++ o')
  | footnoteReference {n o' : Str} {l : List Inline} : SpellsInlines ent l o' →
      SpellsInlines ent (.footnoteReference n :: l) (n ++ o')

/-- The number of the first item of a list: none for bullets. -/
def FirstNumber : ListKind → Str → Prop
  | .ordered n, d => d ≠ [] ∧ (∀ c ∈ d, isDigit c = true) ∧ numVal 10 d = n
  | .bullet _, d => d = []

/-- The mark of a task. -/
def TaskMark : Option TaskState → Str → Prop
  | none, m => m = []
  | some .incomplete, m => m = []
  | some .complete, m => m = ['x'] ∨ m = ['X']

/-- The name of an alert in its marker. -/
def alertWord : AlertType → Str
  | .note => cs!"NOTE"
  | .tip => cs!"TIP"
  | .important => cs!"IMPORTANT"
  | .warning => cs!"WARNING"
  | .caution => cs!"CAUTION"
  | .custom n => n

/-- What the cells of a table row spell, with the bar before each of them. -/
inductive SpellsCells (ent : Str → Option Str) : List (List Inline) → Str → Prop
  | nil : SpellsCells ent [] []
  | cons {c : List Inline} {cs : List (List Inline)} {o o' : Str} : SpellsInlines ent c o → '\n' ∉ o →
      SpellsCells ent cs o' → SpellsCells ent (c :: cs) ('|' :: (o ++ o'))

/-- What the data rows of a table of `n` columns spell.  A written row `q` keeps its first `n` cells
and gets empty cells if it is short; the document does not keep surplus cells. -/
inductive SpellsRows (ent : Str → Option Str) (n : Nat) : List (List (List Inline)) → Str → Prop
  | nil : SpellsRows ent n [] []
  | row {q : List (List Inline)} {rs : List (List (List Inline))} {o o' : Str} :
      SpellsCells ent q o → SpellsRows ent n rs o' →
      SpellsRows ent n ((q.take n ++ List.replicate (n - q.length) [.text []]) :: rs) (o ++ o')

mutual
/-- What blocks spell. -/
inductive SpellsBlocks (x : PExt) (ent : Str → Option Str) : List Block → Str → Prop
  | nil : SpellsBlocks x ent [] []
  | cons {b : Block} {l : List Block} {o o' : Str} : SpellsBlock x ent b o → SpellsBlocks x ent l o' →
      SpellsBlocks x ent (b :: l) (o ++ o')
/-- What a block spells. -/
inductive SpellsBlock (x : PExt) (ent : Str → Option Str) : Block → Str → Prop
  | paragraph {l : List Inline} {o : Str} : SpellsInlines ent l o → SpellsBlock x ent (.paragraph l) o
  | heading {k : HeadingKind} {l : List Inline} {o : Str} : SpellsInlines ent l o →
      SpellsBlock x ent (.heading k l) o
  | thematicBreak : SpellsBlock x ent .thematicBreak []
  | blockQuote {bs : List Block} {o : Str} : SpellsBlocks x ent bs o → SpellsBlock x ent (.blockQuote bs) o
  | alert {t : AlertType} {bs : List Block} {m o : Str} :
      x.upperStr m = cs!"[!" ++ (alertWord t ++ [']']) → SpellsBlocks x ent bs o →
      SpellsBlock x ent (.githubAlert t bs) (m ++ o)
  | list {k : ListKind} {i : ListItem} {l : List ListItem} {d o o' : Str} : FirstNumber k d →
      SpellsItem x ent i o → SpellsItems x ent l o' → SpellsBlock x ent (.list k (i :: l)) (d ++ (o ++ o'))
  | indented {s : Str} : SpellsBlock x ent (.codeBlock .indented s) s
  | fenced {info : Option Str} {s : Str} : SpellsBlock x ent (.codeBlock (.fenced info) s) (info.getD [] ++ s)
  | html {s : Str} : SpellsBlock x ent (.htmlBlock s) s
  | definition {label : List Inline} {d o : Str} {t : Option Str} : SpellsInlines ent label o →
      SpellsBlock x ent (.definition label d t) (o ++ (d ++ t.getD []))
  | footnote {label o : Str} {bs : List Block} : SpellsBlocks x ent bs o →
      SpellsBlock x ent (.footnoteDefinition label bs) (label ++ o)
  | table {h : List (List Inline)} {rs : List (List (List Inline))} {as : List Alignment} {o o' : Str} :
      SpellsCells ent h o → h.length = as.length → SpellsRows ent as.length rs o' →
      SpellsBlock x ent (.table (h :: rs) as) (o ++ o')
/-- What a list item spells: the mark of its task and its blocks. -/
inductive SpellsItem (x : PExt) (ent : Str → Option Str) : ListItem → Str → Prop
  | mk {t : Option TaskState} {bs : List Block} {m o : Str} : TaskMark t m → SpellsBlocks x ent bs o →
      SpellsItem x ent (.mk t bs) (m ++ o)
/-- What the items after the first spell; each may have a number, which the document does not keep. -/
inductive SpellsItems (x : PExt) (ent : Str → Option Str) : List ListItem → Str → Prop
  | nil : SpellsItems x ent [] []
  | cons {i : ListItem} {l : List ListItem} {d o o' : Str} : (∀ c ∈ d, isDigit c = true) →
      SpellsItem x ent i o → SpellsItems x ent l o' → SpellsItems x ent (i :: l) (d ++ (o ++ o'))
end

/-- A configuration that parses or ignores each element, and in which text and paragraphs are
parsed. -/
structure PConfig.Keeps (cfg : PConfig) : Prop where
  blockquote : cfg.blockquote = .parse ∨ cfg.blockquote = .ignore
  githubAlert : cfg.githubAlert = .parse ∨ cfg.githubAlert = .ignore
  headingV1 : cfg.headingV1 = .parse ∨ cfg.headingV1 = .ignore
  headingV2 : cfg.headingV2 = .parse ∨ cfg.headingV2 = .ignore
  thematicBreak : cfg.thematicBreak = .parse ∨ cfg.thematicBreak = .ignore
  list : cfg.list = .parse ∨ cfg.list = .ignore
  codeBlock : cfg.codeBlock = .parse ∨ cfg.codeBlock = .ignore
  htmlBlock : cfg.htmlBlock = .parse ∨ cfg.htmlBlock = .ignore
  footnoteDefinition : cfg.footnoteDefinition = .parse ∨ cfg.footnoteDefinition = .ignore
  linkDefinition : cfg.linkDefinition = .parse ∨ cfg.linkDefinition = .ignore
  table : cfg.table = .parse ∨ cfg.table = .ignore
  paragraph : cfg.paragraph = .parse
  autolink : cfg.autolink = .parse ∨ cfg.autolink = .ignore
  link : cfg.link = .parse ∨ cfg.link = .ignore
  footnoteReference : cfg.footnoteReference = .parse ∨ cfg.footnoteReference = .ignore
  referenceLink : cfg.referenceLink = .parse ∨ cfg.referenceLink = .ignore
  hardNewline : cfg.hardNewline = .parse ∨ cfg.hardNewline = .ignore
  image : cfg.image = .parse ∨ cfg.image = .ignore
  codeSpan : cfg.codeSpan = .parse ∨ cfg.codeSpan = .ignore
  emphasis : cfg.emphasis = .parse ∨ cfg.emphasis = .ignore
  strikethrough : cfg.strikethrough = .parse ∨ cfg.strikethrough = .ignore
  text : cfg.text = .parse
  customBlock : cfg.customBlock = none
  customInline : cfg.customInline = none

end Verif
