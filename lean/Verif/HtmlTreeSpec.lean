import Verif.HtmlSpec
/-!
# Specification vocabulary for C58: HTML as a tree

How an HTML text is read as a tree, and the tree of a document.  Nothing here refers to the
renderer.
-/
namespace Verif
namespace Html

/-- A node of an HTML tree: a character, an element, or raw HTML that is not looked into. -/
inductive Node where
  | char (c : Char)
  | el (name : Str) (attrs : List (Str × Str)) (children : List Node)
  | raw (s : Str)

/-- The character references. -/
def references : List (Char × Str) :=
  [('&', cs!"&amp;"), ('<', cs!"&lt;"), ('>', cs!"&gt;"), ('"', cs!"&quot;"), ('\'', cs!"&apos;")]

/-- The HTML text `s` is read as these nodes.  Attribute values are decoded.  Raw nodes are allowed
only if `raws`. -/
inductive Reads (raws : Prop) : Str → List Node → Prop
  | nil : Reads raws [] []
  | char (c : Char) {s : Str} {l : List Node} : c ≠ '<' → c ≠ '>' → c ≠ '&' → Reads raws s l →
      Reads raws (c :: s) (.char c :: l)
  | reference (c : Char) (r : Str) {s : Str} {l : List Node} : (c, r) ∈ references →
      Reads raws s l → Reads raws (r ++ s) (.char c :: l)
  | element (name : Str) (attrs : List (Str × Str)) {inner s : Str} {children l : List Node} :
      name ∈ elementNames → (∀ a ∈ attrs, GoodAttr a) → Reads raws inner children → Reads raws s l →
      Reads raws (element name attrs inner ++ s)
        (.el name (attrs.map fun a => (a.1, decode a.2)) children :: l)
  | raw (h : Str) {s : Str} {l : List Node} : raws → Reads raws s l → Reads raws (h ++ s) (.raw h :: l)

/-- The characters of a text. -/
def chars (s : Str) : List Node := s.map .char

/-- A text with its special characters as references. -/
def encode (s : Str) : Str := s.flatMap fun c => (references.lookup c).getD [c]

/-- What the tree of a document depends on. -/
structure Context where
  /-- the numbers of the footnotes -/
  num : Str → Option Nat
  /-- the link definitions -/
  defs : List Inline → Option (Str × Option Str)
  /-- the prefix of the anchors -/
  anchor : Str
  /-- the icons of the alerts -/
  icon : AlertType → Node
  /-- the titles of the alerts -/
  title : AlertType → List Node

/-- The attributes of a link.  (The values are encoded once more than they should, see C22.) -/
def linkAttrs (dest : Str) (title : Option Str) : List (Str × Str) :=
  (cs!"href", encode dest) :: title.toList.map fun t => (cs!"title", encode t)

mutual
/-- The nodes of an inline. -/
def inlineNodes (x : Context) : Inline → List Node
  | .text s => chars s
  | .lineBreak => [.el cs!"br" [] []]
  | .code s => [.el cs!"code" [] (chars s)]
  | .html h => [.raw h]
  | .emphasis c => [.el cs!"em" [] (inlinesNodes x c)]
  | .strong c => [.el cs!"b" [] (inlinesNodes x c)]
  | .strikethrough c => [.el cs!"s" [] (inlinesNodes x c)]
  | .link d t c => [.el cs!"a" (linkAttrs d t) (inlinesNodes x c)]
  | .image d t a =>
    [.el cs!"img" ((cs!"src", encode d) :: (cs!"alt", encode a) ::
      t.toList.map fun t => (cs!"title", encode t)) []]
  | .autolink l => [.el cs!"a" (linkAttrs l none) (chars l)]
  | .footnoteReference l =>
    match x.num l with
    | some n => [.el cs!"a" [(cs!"class", cs!"markdown-footnote-reference"),
        (cs!"href", encode (cs!"#" ++ x.anchor ++ decimal n))] (chars (cs!"[" ++ decimal n ++ cs!"]"))]
    | none => []
  | .linkReference l t =>
    match x.defs l with
    | some (d, title) => [.el cs!"a" (linkAttrs d title) (inlinesNodes x t)]
    | none => []
  | .empty => []
termination_by structural i => i
/-- The nodes of inlines. -/
def inlinesNodes (x : Context) : List Inline → List Node
  | [] => []
  | i :: l => inlineNodes x i ++ inlinesNodes x l
termination_by structural l => l
end

/-- The element of a heading: `h1` to `h6`. -/
def headingName : HeadingKind → Str
  | .atx n => 'h' :: decimal (if 1 ≤ n ∧ n ≤ 6 then n else 6)
  | .setext .level1 => cs!"h1"
  | .setext .level2 => cs!"h2"

/-- The class of a table cell. -/
def alignClass : Alignment → Str
  | .left => cs!"markdown-table-align-left"
  | .none => cs!"markdown-table-align-left"
  | .right => cs!"markdown-table-align-right"
  | .center => cs!"markdown-table-align-center"

/-- A row of a table whose cells have the element `name`; cells without an alignment are aligned
left. -/
def rowNode (x : Context) (name : Str) (al : List Alignment) (row : List (List Inline)) : Node :=
  .el cs!"tr" [] (row.mapIdx fun i cell =>
    .el name [(cs!"class", alignClass (al[i]?.getD .left))] (inlinesNodes x cell))

/-- The text of the title of an alert.  (The name of a custom one is not encoded, see C21.) -/
def titleNodes : AlertType → List Node
  | .note => chars cs!"Note"
  | .tip => chars cs!"Tip"
  | .important => chars cs!"Important"
  | .warning => chars cs!"Warning"
  | .caution => chars cs!"Caution"
  | .custom s => if '<' ∈ s ∨ '>' ∈ s ∨ '&' ∈ s then [.raw s] else chars s

/-- The kind in the class of an alert. -/
def alertKind : AlertType → Str
  | .note => cs!"note"
  | .tip => cs!"tip"
  | .important => cs!"important"
  | .warning => cs!"warning"
  | .caution => cs!"caution"
  | .custom _ => cs!"custom"

/-- The kind in the class of the icon of an alert. -/
def iconKind : AlertType → Str
  | .note => cs!"info"
  | .tip => cs!"light-bulb"
  | .important => cs!"report"
  | .warning => cs!"alert"
  | .caution => cs!"stop"
  | .custom _ => cs!"info"

/-- The icon of this kind of alert, with some path. -/
def IsIcon (t : AlertType) (n : Node) : Prop :=
  ∃ path, n = .el cs!"svg" [(cs!"class", cs!"octicon octicon-" ++ iconKind t ++ cs!" mr-2"),
    (cs!"viewBox", cs!"0 0 16 16"), (cs!"version", cs!"1.1"), (cs!"width", cs!"16"),
    (cs!"height", cs!"16"), (cs!"aria-hidden", cs!"true")] [.el cs!"path" [(cs!"d", path)] []]

/-- The element of a list. -/
def listNode (k : ListKind) (items : List Node) : Node :=
  match k with
  | .ordered start => .el cs!"ol" [(cs!"start", decimal start)] items
  | .bullet .dash => .el cs!"ul" [(cs!"class", cs!"markdown-list-kind-dash")] items
  | .bullet .star => .el cs!"ul" [(cs!"class", cs!"markdown-list-kind-star")] items
  | .bullet .plus => .el cs!"ul" [(cs!"class", cs!"markdown-list-kind-plus")] items

/-- The task marker of an item. -/
def taskNodes : Option TaskState → List Node
  | some .complete => [.el cs!"span" [(cs!"class", cs!"markdown-list-task-complete")] (chars cs!"[X] ")]
  | some .incomplete =>
    [.el cs!"span" [(cs!"class", cs!"markdown-list-task-incomplete")] (chars cs!"[ ] ")]
  | none => []

mutual
/-- The nodes of a block. -/
def blockNodes (x : Context) : Block → List Node
  | .paragraph c => [.el cs!"p" [] (inlinesNodes x c)]
  | .heading k c => [.el (headingName k) [] (inlinesNodes x c)]
  | .thematicBreak => [.el cs!"hr" [] []]
  | .blockQuote b => [.el cs!"blockquote" [] (blocksNodes x b)]
  | .list k items => [listNode k (itemsNodes x items)]
  | .codeBlock _ s => [.el cs!"pre" [] [.el cs!"code" [] (chars s)]]
  | .htmlBlock h => [.raw h]
  | .definition _ _ _ => []
  | .empty => []
  | .table rows al =>
    [.el cs!"table" [] [.el cs!"thead" [] (rows.head?.toList.map (rowNode x cs!"th" al)),
      .el cs!"tbody" [] (rows.tail.map (rowNode x cs!"td" al))]]
  | .footnoteDefinition l b =>
    match x.num l with
    | some n => [.el cs!"div" [(cs!"class", cs!"markdown-footnote-definition")]
        [.el cs!"span" [(cs!"class", cs!"markdown-footnote-definition-index")]
          (chars (decimal n ++ cs!". ")),
         .el cs!"span" [(cs!"class", cs!"markdown-footnote-definition-content")] (blocksNodes x b)]]
    | none => []
  | .githubAlert t b =>
    [.el cs!"div" [(cs!"class", cs!"markdown-alert markdown-alert-" ++ alertKind t)]
      (.el cs!"p" [(cs!"class", cs!"markdown-alert-title")] (x.icon t :: x.title t) ::
        blocksNodes x b)]
termination_by structural b => b
/-- The nodes of blocks. -/
def blocksNodes (x : Context) : List Block → List Node
  | [] => []
  | b :: l => blockNodes x b ++ blocksNodes x l
termination_by structural l => l
/-- The node of an item. -/
def itemNode (x : Context) : ListItem → Node
  | .mk t b => .el cs!"li" [] (taskNodes t ++ blocksNodes x b)
termination_by structural i => i
/-- The nodes of items. -/
def itemsNodes (x : Context) : List ListItem → List Node
  | [] => []
  | i :: l => itemNode x i :: itemsNodes x l
termination_by structural l => l
end

end Html
end Verif
