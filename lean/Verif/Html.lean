import Verif.Ast
import Verif.Pretty
/-!
# The HTML renderer (`src/html_printer/`)

A panic is `none`.  `HashMap` is an association list, newest entry first.
-/
namespace Verif
namespace Html

/-- A Rust integer in decimal (`format!("{n}")`). -/
def natStr (n : Nat) : Str := Nat.toDigits 10 n

/-- `escape` on one character, `src/html_printer/util.rs:6-13`. -/
def escapeChar : Char → Str
  | '&' => cs!"&amp;"
  | '<' => cs!"&lt;"
  | '>' => cs!"&gt;"
  | '"' => cs!"&quot;"
  | '\'' => cs!"&apos;"
  | c => [c]

/-- `escape`, `src/html_printer/util.rs:3-16`. -/
def escape (s : Str) : Str := s.flatMap escapeChar

/-- `html_printer::Config`, `src/html_printer/config.rs:2-5`. -/
structure Config where
  width : Nat
  anchorPrefix : Str

/-- `Config::default`, `src/html_printer/config.rs:8-13`. -/
def Config.default : Config := ⟨80, []⟩

/-- `Index`, `src/html_printer/index.rs:4-8`. -/
structure Index where
  footnotes : List (Str × Nat)
  defs : List (List Inline × (Str × Option Str))
  last : Nat

/-- `Index::new`, `src/html_printer/index.rs:11-17`. -/
def Index.new : Index := ⟨[], [], 1⟩

/-- `Index::add_footnote`, `src/html_printer/index.rs:19-24`. -/
def Index.addFootnote (ix : Index) (label : Str) : Index :=
  match ix.footnotes.lookup label with
  | none => { ix with footnotes := (label, ix.last) :: ix.footnotes, last := ix.last + 1 }
  | some _ => ix

/-- `get_inline_indicies`, `src/html_printer/index.rs:95-99`. -/
def inlineIndices (ix : Index) : Inline → Index
  | .footnoteReference label => ix.addFootnote label
  | _ => ix

mutual
/-- `get_block_indicies`, `src/html_printer/index.rs:39-93`. -/
def blockIndices (ix : Index) : Block → Index
  | .paragraph c => c.foldl inlineIndices ix
  | .heading _ c => c.foldl inlineIndices ix
  | .thematicBreak => ix
  | .blockQuote b => blocksIndices ix b
  | .list _ items => itemsIndices ix items
  | .codeBlock _ _ => ix
  | .htmlBlock _ => ix
  | .definition l d t =>
    l.foldl inlineIndices { ix with defs := (l, (d, t)) :: ix.defs }
  | .table rows _ =>
    rows.foldl (fun ix row => row.foldl (fun ix cell => cell.foldl inlineIndices ix) ix) ix
  | .footnoteDefinition _ b => blocksIndices ix b
  | .empty => ix
  | .githubAlert _ b => blocksIndices ix b
termination_by structural b => b
/-- The `for block in ..` loops of `get_block_indicies`, `src/html_printer/index.rs:39-93`. -/
def blocksIndices (ix : Index) : List Block → Index
  | [] => ix
  | b :: l => blocksIndices (blockIndices ix b) l
termination_by structural l => l
/-- The body of the item loop, `src/html_printer/index.rs:57-61`. -/
def itemIndices (ix : Index) : ListItem → Index
  | .mk _ b => blocksIndices ix b
termination_by structural i => i
/-- `for item in &v.items`, `src/html_printer/index.rs:57-61`. -/
def itemsIndices (ix : Index) : List ListItem → Index
  | [] => ix
  | i :: l => itemsIndices (itemIndices ix i) l
termination_by structural l => l
end

/-- `get_indicies`, `src/html_printer/index.rs:27-37`. -/
def getIndices (doc : Document) : Index := doc.blocks.foldl blockIndices Index.new

/-- `State`, `src/html_printer/mod.rs:74-83` (the arena is left out). -/
structure State where
  config : Config
  footnoteIndex : List (Str × Nat)
  linkDefs : List (List Inline × (Str × Option Str))

/-- `State::new`, `src/html_printer/mod.rs:86-95`. -/
def State.new (config : Config) (ast : Document) : State :=
  let ix := getIndices ast
  ⟨config, ix.footnotes, ix.defs⟩

/-- `State::get_footnote_index`, `src/html_printer/mod.rs:97-99`. -/
def State.getFootnoteIndex (st : State) (label : Str) : Option Nat :=
  st.footnoteIndex.lookup label

/-- `State::get_link_definition`, `src/html_printer/mod.rs:101-103`. -/
def State.getLinkDefinition (st : State) (label : List Inline) : Option (Str × Option Str) :=
  st.linkDefs.lookup label

/-- The attribute loop of `tag`, `src/html_printer/util.rs:25-33`. -/
def attrDoc (kv : Str × Str) : Doc :=
  ((((Doc.text cs!" ").app (.text kv.1)).app (.text cs!"=\"")).app (.text (escape kv.2))).app
    (.text cs!"\"")

/-- `tag`, `src/html_printer/util.rs:18-47`. -/
def tag (name : Str) (attributes : List (Str × Str)) (inner : Doc) : Doc :=
  let attrs := attributes.foldl (fun acc kv => acc.app (attrDoc kv)) Doc.nil
  let openTag := (((Doc.text cs!"<").app (.text name)).app attrs).app (.text cs!">")
  let closeTag := ((Doc.text cs!"</").app (.text name)).app (.text cs!">")
  (openTag.app inner).app closeTag

/-- The optional `title` attribute, `src/html_printer/inline.rs:31-33`. -/
def titleAttr (title : Option Str) : List (Str × Str) :=
  match title with
  | some t => [(cs!"title", escape t)]
  | none => []

mutual
/-- `impl ToDoc for Inline`, `src/html_printer/inline.rs:16-90`. -/
def inlineDoc (st : State) : Inline → Doc
  | .text t => .text (escape t)
  | .lineBreak => tag cs!"br" [] .nil
  | .code c => tag cs!"code" [] (.text (escape c))
  | .html h => .text h
  | .emphasis c => tag cs!"em" [] (Doc.concat (inlineDocs st c))
  | .strong c => tag cs!"b" [] (Doc.concat (inlineDocs st c))
  | .strikethrough c => tag cs!"s" [] (Doc.concat (inlineDocs st c))
  | .link d t c =>
    tag cs!"a" ((cs!"href", escape d) :: titleAttr t) (Doc.concat (inlineDocs st c))
  | .image d t a =>
    tag cs!"img" ((cs!"src", escape d) :: (cs!"alt", escape a) :: titleAttr t) .nil
  | .autolink l => tag cs!"a" [(cs!"href", escape l)] (.text (escape l))
  | .footnoteReference label =>
    match st.getFootnoteIndex label with
    | none => .nil
    | some index =>
      tag cs!"a"
        [(cs!"class", cs!"markdown-footnote-reference"),
         (cs!"href", escape ('#' :: (st.config.anchorPrefix ++ natStr index)))]
        (.text ('[' :: (natStr index ++ cs!"]")))
  | .empty => .nil
  | .linkReference label text =>
    match st.getLinkDefinition label with
    | none => .nil
    | some (dest, title) =>
      tag cs!"a" ((cs!"href", escape dest) :: titleAttr title) (Doc.concat (inlineDocs st text))
termination_by structural i => i
/-- `self.iter().map(|inline| inline.to_doc(state))`, `src/html_printer/inline.rs:6-14`. -/
def inlineDocs (st : State) : List Inline → List Doc
  | [] => []
  | i :: l => inlineDoc st i :: inlineDocs st l
termination_by structural l => l
end

/-- `impl ToDoc for Vec<Inline>`, `src/html_printer/inline.rs:6-14`. -/
def inlinesDoc (st : State) (l : List Inline) : Doc := Doc.concat (inlineDocs st l)

/-- The tag of a heading, `src/html_printer/block.rs:34-43`. -/
def headingTag : HeadingKind → Str
  | .atx 1 => cs!"h1"
  | .atx 2 => cs!"h2"
  | .atx 3 => cs!"h3"
  | .atx 4 => cs!"h4"
  | .atx 5 => cs!"h5"
  | .atx _ => cs!"h6"
  | .setext .level1 => cs!"h1"
  | .setext .level2 => cs!"h2"

/-- The class of a bullet list, `src/html_printer/block.rs:84-88`. -/
def bulletClass : BulletKind → Str
  | .dash => cs!"markdown-list-kind-dash"
  | .star => cs!"markdown-list-kind-star"
  | .plus => cs!"markdown-list-kind-plus"

/-- The list element, `impl ToDoc for List`, `src/html_printer/block.rs:71-98`. -/
def listTag (kind : ListKind) (items : Doc) : Doc :=
  match kind with
  | .ordered start => tag cs!"ol" [(cs!"start", natStr start)] items
  | .bullet k => tag cs!"ul" [(cs!"class", bulletClass k)] items

/-- The task marker of an item, `src/html_printer/block.rs:103-120`. -/
def taskDoc : Option TaskState → Doc
  | some .complete => tag cs!"span" [(cs!"class", cs!"markdown-list-task-complete")] (.text cs!"[X] ")
  | some .incomplete =>
    tag cs!"span" [(cs!"class", cs!"markdown-list-task-incomplete")] (.text cs!"[ ] ")
  | none => .nil

/-- The alignment name of a column, `src/html_printer/block.rs:179-184`. -/
def alignName : Option Alignment → Str
  | some .left => cs!"left"
  | some .none => cs!"left"
  | some .right => cs!"right"
  | some .center => cs!"center"
  | none => cs!"left"

/-- The cell loop of `table_row_to_doc`, `src/html_printer/block.rs:158-178`. -/
def cellDocs (st : State) (rowTag : Str) (alignments : List Alignment) :
    Nat → List (List Inline) → List Doc
  | _, [] => []
  | i, cell :: row =>
    tag rowTag [(cs!"class", cs!"markdown-table-align-" ++ alignName alignments[i]?)]
      (inlinesDoc st cell) :: cellDocs st rowTag alignments (i + 1) row

/-- `table_row_to_doc`, `src/html_printer/block.rs:158-178`. -/
def rowDoc (st : State) (row : List (List Inline)) (rowTag : Str) (alignments : List Alignment) :
    Doc :=
  tag cs!"tr" [] ((cellDocs st rowTag alignments 0 row).foldl Doc.app .nil)

/-- `impl ToDoc for Table`, `src/html_printer/block.rs:156-169`; `rows.first().unwrap()` panics
on a table without rows. -/
def tableDoc (st : State) (rows : List (List (List Inline))) (alignments : List Alignment) :
    Option Doc :=
  match rows with
  | [] => none
  | first :: rest =>
    let firstRow := rowDoc st first cs!"th" alignments
    let acc := rest.foldl (fun acc row => acc.app (rowDoc st row cs!"td" alignments)) Doc.nil
    some (tag cs!"table" [] ((tag cs!"thead" [] firstRow).app (tag cs!"tbody" [] acc)))

/-- `html_title`, `src/html_printer/github_alert.rs:7-16`. -/
def alertTitle : AlertType → Str
  | .note => cs!"Note"
  | .tip => cs!"Tip"
  | .important => cs!"Important"
  | .warning => cs!"Warning"
  | .caution => cs!"Caution"
  | .custom s => s

/-- `css_classes`, `src/html_printer/github_alert.rs:19-28`. -/
def alertClasses : AlertType → Str
  | .note => cs!"markdown-alert markdown-alert-note"
  | .tip => cs!"markdown-alert markdown-alert-tip"
  | .important => cs!"markdown-alert markdown-alert-important"
  | .warning => cs!"markdown-alert markdown-alert-warning"
  | .caution => cs!"markdown-alert markdown-alert-caution"
  | .custom _ => cs!"markdown-alert markdown-alert-custom"

/-- `svg_icon`, `src/html_printer/github_alert.rs:31-52`. -/
def svgIcon : AlertType → Str
  | .note =>
    cs!"<svg class=\"octicon octicon-info mr-2\" viewBox=\"0 0 16 16\" version=\"1.1\" width=\"16\" height=\"16\" aria-hidden=\"true\"><path d=\"M0 8a8 8 0 1 1 16 0A8 8 0 0 1 0 8Zm8-6.5a6.5 6.5 0 1 0 0 13 6.5 6.5 0 0 0 0-13ZM6.5 7.75A.75.75 0 0 1 7.25 7h1a.75.75 0 0 1 .75.75v2.75h.25a.75.75 0 0 1 0 1.5h-2a.75.75 0 0 1 0-1.5h.25v-2h-.25a.75.75 0 0 1-.75-.75ZM8 6a1 1 0 1 1 0-2 1 1 0 0 1 0 2Z\"></path></svg>"
  | .tip =>
    cs!"<svg class=\"octicon octicon-light-bulb mr-2\" viewBox=\"0 0 16 16\" version=\"1.1\" width=\"16\" height=\"16\" aria-hidden=\"true\"><path d=\"M8 1.5c-2.363 0-4 1.69-4 3.75 0 .984.424 1.625.984 2.304l.214.253c.223.264.47.556.673.848.284.411.537.896.621 1.49a.75.75 0 0 1-1.484.211c-.04-.282-.163-.547-.37-.847a8.456 8.456 0 0 0-.542-.68c-.084-.1-.173-.205-.268-.32C3.201 7.75 2.5 6.766 2.5 5.25 2.5 2.31 4.863 0 8 0s5.5 2.31 5.5 5.25c0 1.516-.701 2.5-1.328 3.259-.095.115-.184.22-.268.319-.207.245-.383.453-.541.681-.208.3-.33.565-.37.847a.751.751 0 0 1-1.485-.212c.084-.593.337-1.078.621-1.489.203-.292.45-.584.673-.848.075-.088.147-.173.213-.253.561-.679.985-1.32.985-2.304 0-2.06-1.637-3.75-4-3.75ZM5.75 12h4.5a.75.75 0 0 1 0 1.5h-4.5a.75.75 0 0 1 0-1.5ZM6 15.25a.75.75 0 0 1 .75-.75h2.5a.75.75 0 0 1 0 1.5h-2.5a.75.75 0 0 1-.75-.75Z\"></path></svg>"
  | .important =>
    cs!"<svg class=\"octicon octicon-report mr-2\" viewBox=\"0 0 16 16\" version=\"1.1\" width=\"16\" height=\"16\" aria-hidden=\"true\"><path d=\"M0 1.75C0 .784.784 0 1.75 0h12.5C15.216 0 16 .784 16 1.75v9.5A1.75 1.75 0 0 1 14.25 13H8.06l-2.573 2.573A1.458 1.458 0 0 1 3 14.543V13H1.75A1.75 1.75 0 0 1 0 11.25Zm1.75-.25a.25.25 0 0 0-.25.25v9.5c0 .138.112.25.25.25h2a.75.75 0 0 1 .75.75v2.19l2.72-2.72a.749.749 0 0 1 .53-.22h6.5a.25.25 0 0 0 .25-.25v-9.5a.25.25 0 0 0-.25-.25Zm7 2.25v2.5a.75.75 0 0 1-1.5 0v-2.5a.75.75 0 0 1 1.5 0ZM9 9a1 1 0 1 1-2 0 1 1 0 0 1 2 0Z\"></path></svg>"
  | .warning =>
    cs!"<svg class=\"octicon octicon-alert mr-2\" viewBox=\"0 0 16 16\" version=\"1.1\" width=\"16\" height=\"16\" aria-hidden=\"true\"><path d=\"M6.457 1.047c.659-1.234 2.427-1.234 3.086 0l6.082 11.378A1.75 1.75 0 0 1 14.082 15H1.918a1.75 1.75 0 0 1-1.543-2.575Zm1.763.707a.25.25 0 0 0-.44 0L1.698 13.132a.25.25 0 0 0 .22.368h12.164a.25.25 0 0 0 .22-.368Zm.53 3.996v2.5a.75.75 0 0 1-1.5 0v-2.5a.75.75 0 0 1 1.5 0ZM9 11a1 1 0 1 1-2 0 1 1 0 0 1 2 0Z\"></path></svg>"
  | .caution =>
    cs!"<svg class=\"octicon octicon-stop mr-2\" viewBox=\"0 0 16 16\" version=\"1.1\" width=\"16\" height=\"16\" aria-hidden=\"true\"><path d=\"M4.47.22A.749.749 0 0 1 5 0h6c.199 0 .389.079.53.22l4.25 4.25c.141.14.22.331.22.53v6a.749.749 0 0 1-.22.53l-4.25 4.25A.749.749 0 0 1 11 16H5a.749.749 0 0 1-.53-.22L.22 11.53A.749.749 0 0 1 0 11V5c0-.199.079-.389.22-.53Zm.84 1.28L1.5 5.31v5.38l3.81 3.81h5.38l3.81-3.81V5.31L10.69 1.5ZM8 4a.75.75 0 0 1 .75.75v3.5a.75.75 0 0 1-1.5 0v-3.5A.75.75 0 0 1 8 4Zm0 8a1 1 0 1 1 0-2 1 1 0 0 1 0 2Z\"></path></svg>"
  | .custom _ =>
    cs!"<svg class=\"octicon octicon-info mr-2\" viewBox=\"0 0 16 16\" version=\"1.1\" width=\"16\" height=\"16\" aria-hidden=\"true\"><path d=\"M0 8a8 8 0 1 1 16 0A8 8 0 0 1 0 8Zm8-6.5a6.5 6.5 0 1 0 0 13 6.5 6.5 0 0 0 0-13ZM6.5 7.75A.75.75 0 0 1 7.25 7h1a.75.75 0 0 1 .75.75v2.75h.25a.75.75 0 0 1 0 1.5h-2a.75.75 0 0 1 0-1.5h.25v-2h-.25a.75.75 0 0 1-.75-.75ZM8 6a1 1 0 1 1 0-2 1 1 0 0 1 0 2Z\"></path></svg>"

/-- `impl ToDoc for GitHubAlert`, `src/html_printer/github_alert.rs:55-77`. -/
def alertDoc (t : AlertType) (content : Doc) : Doc :=
  let title := tag cs!"p" [(cs!"class", cs!"markdown-alert-title")]
    ((Doc.text (svgIcon t)).app (.text (alertTitle t)))
  tag cs!"div" [(cs!"class", alertClasses t)] (title.app content)

/-- The element of a footnote definition, `src/html_printer/block.rs:199-212`. -/
def footnoteDefDoc (index : Nat) (content : Doc) : Doc :=
  tag cs!"div" [(cs!"class", cs!"markdown-footnote-definition")]
    ((tag cs!"span" [(cs!"class", cs!"markdown-footnote-definition-index")]
        (.text (natStr index ++ cs!". "))).app
     (tag cs!"span" [(cs!"class", cs!"markdown-footnote-definition-content")] content))

mutual
/-- `impl ToDoc for Block`, `src/html_printer/block.rs:22-66`. -/
def blockDoc (st : State) : Block → Option Doc
  | .paragraph c => some (tag cs!"p" [] (inlinesDoc st c))
  | .heading k c => some (tag (headingTag k) [] (inlinesDoc st c))
  | .thematicBreak => some (tag cs!"hr" [] .nil)
  | .blockQuote b => do some (tag cs!"blockquote" [] (Doc.concat (← blockDocs st b)))
  | .list k items => do some (listTag k (Doc.concat (← itemDocs st items)))
  | .codeBlock _ s => some (tag cs!"pre" [] (tag cs!"code" [] (.text (escape s))))
  | .htmlBlock h => some (.text h)
  | .definition _ _ _ => some .nil
  | .empty => some .nil
  | .table rows al => tableDoc st rows al
  | .footnoteDefinition label b =>
    match st.getFootnoteIndex label with
    | none => some .nil
    | some index => do some (footnoteDefDoc index (Doc.concat (← blockDocs st b)))
  | .githubAlert t b => do some (alertDoc t (Doc.concat (← blockDocs st b)))
termination_by structural b => b
/-- `self.iter().map(|block| block.to_doc(state))`, `src/html_printer/block.rs:6-12`. -/
def blockDocs (st : State) : List Block → Option (List Doc)
  | [] => some []
  | b :: l => do
    let d ← blockDoc st b
    let ds ← blockDocs st l
    some (d :: ds)
termination_by structural l => l
/-- `impl ToDoc for ListItem`, `src/html_printer/block.rs:101-129`. -/
def itemDoc (st : State) : ListItem → Option Doc
  | .mk task b => do some (tag cs!"li" [] ((taskDoc task).app (Doc.concat (← blockDocs st b))))
termination_by structural i => i
/-- `self.items.iter().map(|item| item.to_doc(state))`, `src/html_printer/block.rs:73-75`. -/
def itemDocs (st : State) : List ListItem → Option (List Doc)
  | [] => some []
  | i :: l => do
    let d ← itemDoc st i
    let ds ← itemDocs st l
    some (d :: ds)
termination_by structural l => l
end

/-- `impl ToDoc for Document`, `src/html_printer/mod.rs:177-181`. -/
def documentDoc (st : State) (doc : Document) : Option Doc := do
  some (Doc.concat (← blockDocs st doc.blocks))

/-- `render_html`, `src/html_printer/mod.rs:164-171`; `dw` is the display width of a text. -/
def renderHtml (dw : Str → Nat) (ast : Document) (config : Config) : Option Str := do
  let st := State.new config ast
  let d ← documentDoc st ast
  some (d.render dw st.config.width)

end Html
end Verif
