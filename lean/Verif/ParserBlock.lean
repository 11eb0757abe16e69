import Verif.ParserInline
/-!
# The block parser (`src/parser/blocks/*`, `src/parser/mod.rs`)

Recursion of the Rust functions through `block` on the content of a container (quotes, alerts,
list items, footnotes) is the argument `rec` here; `blockF` ties the knot with a depth counter, and
`ParserDepth` proves that the depth used is always enough.
-/
namespace Verif
open Nom

/-- `conditional_block`, `parser/util.rs:125-136` -/
def conditionalBlock (b : Behavior Block) (p : P Block) : P (List Block) :=
  conditional b [.empty] p

/-- `conditional_block_vec`, `parser/util.rs:151-177` -/
def conditionalBlockVec (b : Behavior Block) (p : P (List Block)) : P (List Block) :=
  match b with
  | .ignore => failP
  | .skip => value [.empty] p
  | .parse | .map _ | .flatMap _ => p

/-! ## Code blocks -/

/-- `code_block_indented`, `code_block.rs:27-46` -/
def codeBlockIndented : P Block :=
  mapP (many1 (preceded (value () (manyMN (chr ' ') 4 4) <||> value () (chr '\t'))
      (lineTerminated notEofOrEol0)))
    (fun lines => .codeBlock .indented (joinWith ['\n'] lines))

/-- The closing fence, `code_block.rs:63-69`; `fence` is a non-empty run of one character. -/
def endingFence (fence : Str) : P Unit :=
  lineTerminated (value () (seq indent03 (seq (tag fence) (many0 (chr (fence.headD '`'))))))

/-- The opening line of a fenced code block, `code_block.rs:55-62` -/
def openingFence : P (Str × Option Str) :=
  lineTerminated (seq (recognize (manyMin 3 (chr '`') <||> manyMin 3 (chr '~')))
    (opt (recognize notEofOrEol1)))

/-- The lines of a fenced code block whose fence is indented by `pl` spaces,
`code_block.rs:71-78` -/
def fencedLines (fence : Str) (pl : Nat) : P (List Str) :=
  many0 (preceded (notP (endingFence fence))
    (preceded (manyMN (chr ' ') 0 pl) (lineTerminated notEofOrEol0)))

/-- `code_block_fenced`, `code_block.rs:48-91` -/
def codeBlockFenced : P Block := fun s =>
  match seq indent03 openingFence s with
  | none => none
  | some (s1, (sp, (fence, info))) =>
    match terminated (fencedLines fence sp.length) (endingFence fence) s1 with
    | none => none
    | some (s2, lines) => some (s2, .codeBlock (.fenced info) (joinWith ['\n'] lines))

/-- `code_block`, `code_block.rs:15-25` -/
def codeBlockP : P Block := codeBlockIndented <||> codeBlockFenced

/-! ## Headings, thematic breaks -/

/-- `heading_v1`, `blocks/heading.rs:16-42` -/
def headingV1 (x : PExt) (cfg : PConfig) : P Block := fun s =>
  match seq (manyMN (chr '#') 1 6)
      (preceded (if cfg.allowNoSpaceInHeadings then space0 else space1)
        (lineTerminated notEofOrEol1)) s with
  | none => none
  | some (r, (hashes, content)) => match parseInlines0 x cfg content with
    | some l => some (r, .heading (.atx hashes.length) l)
    | none => none

/-- `heading_v2_level`, `blocks/heading.rs:69-86` -/
def headingV2Level : P SetextHeading :=
  lineTerminated (preceded indent03 (terminated
    (value .level1 (many1 (chr '=')) <||> value .level2 (many1 (chr '-'))) space0))

/-- `thematic_break`, `thematic_break.rs:13-33` -/
def thematicBreakP : P Unit :=
  value () (lineTerminated (preceded indent03
    (terminated (manyMin 3 (chr '-') <||> manyMin 3 (chr '_') <||> manyMin 3 (chr '*')) space0)))

/-! ## Quotes and alerts -/

/-- `preceded(many_m_n(0, 3, char(' ')), char('>'))`, `blocks/blockquote.rs:16` -/
def quotePrefix : P Char := preceded indent03 (chr '>')

/-- The lines of a quote without their prefix, `blocks/blockquote.rs:18-19` -/
def quoteLines : P (List Str) := many1 (preceded quotePrefix (lineTerminated notEofOrEol0))

/-- `many1(block)` on the content of a container, rest dropped, e.g. `blocks/blockquote.rs:22-26` -/
def blocks1 (rec : P (List Block)) (s : Str) : Option (List Block) :=
  (many1 rec s).map (fun x => x.2.flatten)

/-- `many0(block)` on the content of a container, rest dropped, e.g. `blocks/list.rs:218-222` -/
def blocks0 (rec : P (List Block)) (s : Str) : Option (List Block) :=
  (many0 rec s).map (fun x => x.2.flatten)

/-- `blockquote`, `blocks/blockquote.rs:12-30` -/
def blockquoteP (rec : P (List Block)) : P Block :=
  mapOpt quoteLines (fun lines => (blocks1 rec (joinWith ['\n'] lines)).map .blockQuote)

/-- `parse_custom_alert_name`, `blocks/github_alert.rs:16-22` -/
def customAlertName : P Str :=
  recognize (seq alpha1 (many0 (satisfy (fun c => isAlnum c || c == '_'))))

/-- The parser in `parse_alert_marker`, `blocks/github_alert.rs:28-39` -/
def alertMarkerP : P AlertType :=
  delimited (tag cs!"[!")
    (value .note (tag cs!"NOTE") <||>
     value .tip (tag cs!"TIP") <||>
     value .important (tag cs!"IMPORTANT") <||>
     value .warning (tag cs!"WARNING") <||>
     value .caution (tag cs!"CAUTION") <||>
     mapP customAlertName .custom)
    (tag cs!"]")

/-- `str::to_uppercase` -/
def PExt.upperStr (x : PExt) (s : Str) : Str := s.flatMap x.upper

/-- `parse_alert_marker`, `blocks/github_alert.rs:25-45` -/
def parseAlertMarker (x : PExt) (marker : Str) : Option AlertType :=
  match alertMarkerP (x.upperStr (trim marker)) with
  | some ([], t) => some t
  | _ => none

/-- `github_alert`, `blocks/github_alert.rs:47-94` -/
def githubAlertP (x : PExt) (rec : P (List Block)) : P (List Block) := fun s =>
  match preceded (seq quotePrefix (opt (chr ' '))) (lineTerminated notEofOrEol0) s with
  | none => none
  | some (_, firstLine) => match parseAlertMarker x (trim firstLine) with
    | none => none
    | some t => match quoteLines s with
      | none => none
      | some (r, lines) =>
        let inner := joinWith ['\n'] (lines.drop 1)
        if inner.isEmpty then some (r, [.githubAlert t []])
        else match blocks1 rec inner with
          | some bs => some (r, [.githubAlert t bs])
          | none => none

/-! ## Lists -/

/-- `list_item_task_state`, `blocks/list.rs:15-25` -/
def listItemTaskState : P TaskState :=
  delimited (chr '[')
    (value .complete (oneOf cs!"xX") <||> value .incomplete (chr ' ')) (chr ']')

/-- `list_marker_star`, `blocks/list.rs:37-39` -/
def listMarkerStar : P ListKind := value (.bullet .star) (chr '*')
/-- `list_marker_plus`, `blocks/list.rs:41-43` -/
def listMarkerPlus : P ListKind := value (.bullet .plus) (chr '+')
/-- `list_marker_dash`, `blocks/list.rs:45-47` -/
def listMarkerDash : P ListKind := value (.bullet .dash) (chr '-')
/-- `list_marker_ordered`, `blocks/list.rs:49-55` -/
def listMarkerOrdered : P ListKind := mapP (terminated u64P (oneOf cs!".)")) .ordered

/-- `list_marker`, `blocks/list.rs:27-35` -/
def listMarker : P ListKind :=
  listMarkerOrdered <||> listMarkerStar <||> listMarkerPlus <||> listMarkerDash

/-- `list_marker_followed_by_spaces`, `blocks/list.rs:57-72` (the consumed text is ASCII) -/
def listMarkerFollowedBySpaces : P (ListKind × Nat × Option TaskState) := fun s =>
  match delimited indent03 listMarker (manyMN (chr ' ') 1 4) s with
  | none => none
  | some (r, kind) =>
    mapP (opt (terminated listItemTaskState (chr ' ')))
      (fun t => (kind, s.length - r.length, t)) r

/-- `list_marker_followed_by_newline`, `blocks/list.rs:74-95` -/
def listMarkerFollowedByNewline : P (ListKind × Nat × Option TaskState) := fun s =>
  match preceded indent03 listMarker s with
  | none => none
  | some (r, kind) => match lineTerminated space0 r with
    | some (tail, _) => some (tail, (kind, s.length - r.length + 1, none))
    | none => match indent03 r with
      | none => none
      | some (r2, _) =>
        mapP (lineTerminated listItemTaskState)
          (fun t => (kind, s.length - r2.length + 1, some t)) r2

/-- `list_marker_with_span_size`, `blocks/list.rs:97-118` -/
def listMarkerWithSpanSize : P (ListKind × Nat × Option TaskState × Str) :=
  mapP listMarkerFollowedByNewline (fun (k, n, t) => (k, n, t, [])) <||>
  mapP (seq listMarkerFollowedBySpaces (lineTerminated notEofOrEol0))
    (fun ((k, n, t), l) => (k, n, t, l))

/-- The marker of the same kind, `blocks/list.rs:134-139` -/
def sameKindMarker : ListKind → P ListKind
  | .ordered _ => listMarkerOrdered
  | .bullet .star => listMarkerStar
  | .bullet .plus => listMarkerPlus
  | .bullet .dash => listMarkerDash

/-- `list_item_rest_line`, `blocks/list.rs:120-179` -/
def listItemRestLine (kind : ListKind) (pl : Nat) : P (List Str) := fun s =>
  if s.isEmpty then none else
  lineTerminated (preceded
    (notP (value () thematicBreakP <||>
      value () (seq (verify (recognize (manyMN (chr ' ') 0 pl)) (fun i => i.length < pl))
        (sameKindMarker kind))))
    (preceded (manyMN (chr ' ') 0 pl) (mapP notEofOrEol1 (fun v => [v])) <||>
     mapP (seq (recognize (many1 (lineTerminated space0)))
         (preceded (manyMN (chr ' ') pl pl) notEofOrEol1))
       (fun x => [x.1, x.2]))) s

/-- `list_item_lines`, `blocks/list.rs:181-194` -/
def listItemLines (kind : ListKind) (pl : Nat) : P (List (List Str)) :=
  many0 (listItemRestLine kind pl)

/-- The text of an item, `blocks/list.rs:206-216` (and of a footnote, `footnote_definition.rs:30-38`) -/
def itemContent (first : Str) (rest : List (List Str)) : Str :=
  first ++ (rest.map (fun l => '\n' :: l.flatten)).flatten

/-- `list_item`, `blocks/list.rs:196-230` -/
def listItemP (rec : P (List Block)) : P (ListKind × ListItem) := fun s =>
  match listMarkerWithSpanSize s with
  | none => none
  | some (s1, (kind, pl, task, first)) => match listItemLines kind pl s1 with
    | none => none
    | some (s2, rest) => match blocks0 rec (itemContent first rest) with
      | none => none
      | some bs => some (s2, (kind, .mk task bs))

/-- `list`, `blocks/list.rs:232-248` -/
def listP (rec : P (List Block)) : P Block := fun s =>
  match many1 (listItemP rec) s with
  | some (r, (k, i) :: l) => some (r, .list k (i :: l.map Prod.snd))
  | _ => none

/-! ## HTML blocks -/

/-- `pair(peek(not(stop)), anychar)` repeated, e.g. `html_block.rs:54` -/
def until_ {α : Type} (stop : P α) : P (List Char) := many0 (preceded (notP stop) anychar)

/-- Local tag_variant_parser, `html_block.rs:34-40` -/
def html1Tag : P Str := tagNoCase cs!"script" <||> tagNoCase cs!"pre" <||> tagNoCase cs!"style"

/-- Local end_parser, `html_block.rs:42` -/
def html1End : P Str := delimited (tag cs!"</") html1Tag (chr '>')

/-- `html_block1`, `html_block.rs:32-60` -/
def htmlBlock1 : P Str :=
  preceded indent03 (recognize (seq (chr '<') (seq html1Tag
    (seq (value () (chr ' ') <||> value () (chr '>') <||> value () lineEnding)
      (seq (until_ html1End) html1End)))))

/-- `html_block2`, `html_block.rs:62-74` -/
def htmlBlock2 : P Str :=
  preceded indent03 (recognize (seq (tag cs!"<!--")
    (seq (until_ (tag cs!"-->")) (tag cs!"-->"))))

/-- `html_block3`, `html_block.rs:76-88` -/
def htmlBlock3 : P Str :=
  preceded indent03 (recognize (seq (tag cs!"<?") (seq (until_ (tag cs!"?>")) (tag cs!"?>"))))

/-- `html_block4`, `html_block.rs:90-103` -/
def htmlBlock4 : P Str :=
  preceded indent03 (recognize (seq (tag cs!"<!") (seq (satisfy isAsciiUpper)
    (seq (until_ (chr '>')) (tag cs!">")))))

/-- `html_block5`, `html_block.rs:105-117` -/
def htmlBlock5 : P Str :=
  preceded indent03 (recognize (seq (tag cs!"<![CDATA[")
    (seq (until_ (tag cs!"]]>")) (tag cs!"]]>"))))

/-- The tag names of `html_block6`, in the order of the alternatives, `html_block.rs:121-194` -/
def html6Names : List Str :=
  [cs!"address", cs!"article", cs!"aside", cs!"base", cs!"basefont", cs!"blockquote", cs!"body",
   cs!"caption", cs!"center", cs!"col", cs!"colgroup",
   cs!"dd", cs!"details", cs!"dialog", cs!"dir", cs!"div", cs!"dl", cs!"dt", cs!"fieldset",
   cs!"figcaption", cs!"figure", cs!"footer", cs!"form", cs!"frame", cs!"frameset",
   cs!"h1", cs!"h2", cs!"h3", cs!"h4", cs!"h5", cs!"h6", cs!"head", cs!"header", cs!"hr",
   cs!"html", cs!"iframe", cs!"legend",
   cs!"li", cs!"link", cs!"main", cs!"menu", cs!"menuitem", cs!"nav", cs!"noframes", cs!"ol",
   cs!"optgroup", cs!"option", cs!"p", cs!"param",
   cs!"section", cs!"source", cs!"summary", cs!"table", cs!"tbody", cs!"td", cs!"tfoot", cs!"th",
   cs!"thead", cs!"title", cs!"tr", cs!"track", cs!"ul"]

/-- `alt` over `tag_no_case` of a list of names. -/
def anyTagNoCase : List Str → P Str
  | [] => failP
  | t :: l => tagNoCase t <||> anyTagNoCase l

/-- Local end_parser, `html_block.rs:195-200`, the same as `html_block.rs:223-228` -/
def blankLineOrEof : P Unit :=
  value () (seq lineEnding (seq space0 lineEnding)) <||> value () eof

/-- `html_block6`, `html_block.rs:119-219` -/
def htmlBlock6 : P Str :=
  preceded indent03 (recognize (seq (value () (tag cs!"</") <||> value () (chr '<'))
    (seq (anyTagNoCase html6Names)
      (seq (value () (chr ' ') <||> value () lineEnding <||> value () (tag cs!"/>") <||>
          value () (chr '>'))
        (seq (until_ blankLineOrEof) (opt lineEnding))))))

/-- `html_tag_name`, `html_block.rs:270-276` -/
def htmlTagName : P Str :=
  recognize (seq alpha1 (many0 (value () (chr '-') <||> value () alphanumeric1)))

/-- `html_tag_attribute_name`, `html_block.rs:287-293` -/
def htmlTagAttributeName : P Str :=
  recognize (seq (value () alpha1 <||> value () (oneOf cs!"_:"))
    (many0 (value () (oneOf cs!"_.:-") <||> value () alphanumeric1)))

/-- `html_tag_attribute_value_unquoted`, `html_block.rs:308-314` -/
def htmlTagAttributeValueUnquoted : P Str :=
  recognize (many1 (preceded (notP (value () space1 <||> value () (oneOf cs!"\"'=<>`"))) anychar))

/-- `html_tag_attribute_value_single_quoted`, `html_block.rs:316-323` -/
def htmlTagAttributeValueSingleQuoted : P Str :=
  recognize (delimited (chr '\'') (preceded (notP (chr '\'')) anychar) (chr '\''))

/-- `html_tag_attribute_value_double_quoted`, `html_block.rs:325-332` -/
def htmlTagAttributeValueDoubleQuoted : P Str :=
  recognize (delimited (chr '"') (preceded (notP (chr '"')) anychar) (chr '"'))

/-- `html_tag_attribute_value`, `html_block.rs:299-306` -/
def htmlTagAttributeValue : P Str :=
  htmlTagAttributeValueUnquoted <||> htmlTagAttributeValueSingleQuoted <||>
  htmlTagAttributeValueDoubleQuoted

/-- `html_tag_attribute_value_specification`, `html_block.rs:295-297` -/
def htmlTagAttributeValueSpecification : P Str :=
  recognize (seq space0 (seq (chr '=') (seq space0 htmlTagAttributeValue)))

/-- `html_tag_attribute`, `html_block.rs:278-285` -/
def htmlTagAttribute : P Str :=
  recognize (seq space1 (seq htmlTagAttributeName (opt htmlTagAttributeValueSpecification)))

/-- `complete_open_html_tag`, `html_block.rs:246-264` -/
def completeOpenHtmlTag (restricted : List Str) : P Str :=
  recognize (seq (chr '<')
    (seq (verify htmlTagName (fun s => !restricted.any (fun t => t == s.map asciiLower)))
      (seq (many0 htmlTagAttribute) (seq space0 (seq (opt (chr '/')) (chr '>'))))))

/-- `complete_closing_html_tag`, `html_block.rs:266-268` -/
def completeClosingHtmlTag : P Str :=
  recognize (seq (tag cs!"</") (seq htmlTagName (seq space0 (chr '>'))))

/-- `html_block7`, `html_block.rs:221-244` -/
def htmlBlock7 : P Str :=
  preceded indent03 (recognize
    (seq (completeOpenHtmlTag [cs!"script", cs!"pre", cs!"style"] <||> completeClosingHtmlTag)
      (seq (value () lineEnding <||> value () (chr ' '))
        (seq (until_ blankLineOrEof) blankLineOrEof))))

/-- `html_block`, `html_block.rs:15-30` -/
def htmlBlockP : P Str :=
  htmlBlock1 <||> htmlBlock2 <||> htmlBlock3 <||> htmlBlock4 <||> htmlBlock5 <||> htmlBlock6 <||>
  htmlBlock7

/-! ## Footnote and link definitions -/

/-- `footnote_definition`, `footnote_definition.rs:14-53` -/
def footnoteDefinitionP (rec : P (List Block)) : P Block := fun s =>
  match preceded indent03 (preceded (tag cs!"[^")
      (terminated (recognize (many1 (noneOf cs!"]"))) (tag cs!"]:"))) s with
  | none => none
  | some (s1, label) => match preceded indent03 (lineTerminated notEofOrEol1) s1 with
    | none => none
    | some (s2, first) =>
      match many0 (preceded (manyMN (chr ' ') 3 3) (lineTerminated notEofOrEol1)) s2 with
      | none => none
      | some (s3, rest) => match blocks0 rec (itemContent first (rest.map (fun l => [l]))) with
        | none => none
        | some bs => some (s3, .footnoteDefinition label bs)

/-- Local one_line_whitespace1, `link_definition.rs:20-31` -/
def oneLineWhitespace1 : P Str :=
  verify (recognize (many1 (lineEnding <||> space1))) (fun cs => cs.count '\n' ≤ 1)

/-- `link_definition`, `link_definition.rs:15-49` -/
def linkDefinitionP (x : PExt) (cfg : PConfig) : P Block :=
  mapP (terminated
      (seq (preceded indent03 (linkLabel (parseInlines1 x cfg)))
        (preceded (chr ':') (preceded (seq space0 (seq (opt lineEnding) space0))
          (seq linkDestination (opt (preceded oneLineWhitespace1 linkTitle))))))
      eofOrEol)
    (fun y => .definition y.1 y.2.1 y.2.2)

/-! ## Tables -/

/-- `cell_content`, `blocks/table.rs:118-136` -/
def cellContent (x : PExt) (cfg : PConfig) : P (List Inline) :=
  mapOpt (many1 (preceded (notP (value () eofOrEol <||> value () (chr '|')))
      (value '|' (tag cs!"\\|") <||> anychar)))
    (fun cs => parseInlines0 x cfg (trim cs))

/-- `parse_table_row`, `blocks/table.rs:102-116` -/
def tableRow (x : PExt) (cfg : PConfig) : P (List (List Inline)) :=
  lineTerminated (preceded indent03
    (delimited (chr '|') (separatedList1 (chr '|') (cellContent x cfg)) (opt (chr '|'))))

/-- `parse_cell_alignment`, `blocks/table.rs:67-78` -/
def cellAlignment (cell : Str) : Alignment :=
  match (trim cell).head? == some ':', (trim cell).getLast? == some ':' with
  | true, true => .center
  | true, false => .left
  | false, true => .right
  | false, false => .none

/-- Local alignment_parser, `blocks/table.rs:80-89` -/
def alignmentCell : P Alignment :=
  mapP (delimited space0
    (recognize (delimited (chr ':') (many1 (chr '-')) (chr ':')) <||>
     recognize (preceded (chr ':') (many1 (chr '-'))) <||>
     recognize (terminated (many1 (chr '-')) (chr ':')) <||>
     recognize (many1 (chr '-')))
    space0) cellAlignment

/-- `parse_alignment_row`, `blocks/table.rs:66-100` -/
def alignmentRow : P (List Alignment) :=
  lineTerminated (preceded indent03
    (delimited (chr '|') (separatedList1 (chr '|') alignmentCell) (opt (chr '|'))))

/-- The adjustment of a data row to the width of the header, `blocks/table.rs:48-61` -/
def fitRow (n : Nat) (row : List (List Inline)) : List (List Inline) :=
  if row.length < n then row ++ List.replicate (n - row.length) [.text []]
  else if n < row.length then row.take n
  else row

/-- `parse_table_data_rows`, `blocks/table.rs:43-64` -/
def tableDataRows (x : PExt) (cfg : PConfig) (n : Nat) : P (List (List (List Inline))) :=
  many0 (mapP (tableRow x cfg) (fitRow n))

/-- `table`, `blocks/table.rs:16-41` -/
def tableP (x : PExt) (cfg : PConfig) : P Block := fun s =>
  match tableRow x cfg s with
  | none => none
  | some (s1, header) => match alignmentRow s1 with
    | none => none
    | some (s2, aligns) =>
      if aligns.length ≠ header.length then none
      else match tableDataRows x cfg header.length s2 with
        | none => none
        | some (s3, rows) => some (s3, .table (header :: rows) aligns)

/-! ## Paragraphs -/

/-- The alternatives of `is_paragraph_line_start`, `paragraph.rs:54-121` -/
def notAParagraphLine (x : PExt) (cfg : PConfig) (rec : P (List Block)) : P Unit :=
  conditionalUnit cfg.headingV1 (headingV1 x cfg) <||>
  conditionalUnit cfg.headingV2 headingV2Level <||>
  conditionalUnit cfg.thematicBreak thematicBreakP <||>
  conditionalUnit cfg.blockquote (blockquoteP rec) <||>
  conditionalUnit cfg.list (listItemP rec) <||>
  conditionalUnit cfg.codeBlock codeBlockFenced <||>
  conditionalUnit cfg.htmlBlock htmlBlockP <||>
  conditionalUnit cfg.linkDefinition (linkDefinitionP x cfg) <||>
  conditionalUnit cfg.footnoteDefinition (footnoteDefinitionP rec) <||>
  conditionalUnit cfg.table (tableP x cfg) <||>
  value () (customParser cfg.customBlock) <||>
  value () (lineTerminated space0)

/-- A line of a paragraph: up to three spaces, dropped, and the text, e.g. `paragraph.rs:34` -/
def paragraphLine : P Str := preceded indent03 notEofOrEol1

/-- The lines of a paragraph after the first position, `paragraph.rs:30-37` (with
`is_paragraph_line_start`, `paragraph.rs:50-124`) -/
def paragraphLines (x : PExt) (cfg : PConfig) (rec : P (List Block)) : P (List Str) :=
  lineTerminated (separatedList0 lineEnding
    (preceded (notP (notAParagraphLine x cfg rec)) paragraphLine))

/-- `paragraph`, `paragraph.rs:14-48` -/
def paragraphP (x : PExt) (cfg : PConfig) (rec : P (List Block)) (checkFirst : Bool) :
    P (List Inline) :=
  mapOpt
    (if checkFirst then paragraphLines x cfg rec
     else mapP (seq paragraphLine (paragraphLines x cfg rec)) (fun y => y.1 :: y.2))
    (fun lines => parseInlines1 x cfg (joinWith ['\n'] lines))

/-- `heading_v2_or_paragraph`, `blocks/heading.rs:47-67` -/
def headingV2OrParagraph (x : PExt) (cfg : PConfig) (rec : P (List Block)) : P Block :=
  mapP (seq (paragraphP x cfg rec true) (opt headingV2Level))
    (fun y => match y.2 with
      | some level => .heading (.setext level) y.1
      | none => .paragraph y.1)

/-! ## Blocks and documents -/

/-- The alternatives of `block`, `blocks/mod.rs:30-114` -/
def blockAlt (x : PExt) (cfg : PConfig) (rec : P (List Block)) : P (List Block) :=
  conditionalBlock cfg.codeBlock codeBlockP <||>
  conditionalBlock cfg.headingV1 (headingV1 x cfg) <||>
  conditionalBlock cfg.headingV2 (headingV2OrParagraph x cfg rec) <||>
  conditionalBlock cfg.thematicBreak (value .thematicBreak thematicBreakP) <||>
  conditionalBlockVec cfg.githubAlert (githubAlertP x rec) <||>
  conditionalBlock cfg.blockquote (blockquoteP rec) <||>
  conditionalBlock cfg.list (listP rec) <||>
  conditionalBlock cfg.htmlBlock (mapP htmlBlockP .htmlBlock) <||>
  conditionalBlock cfg.footnoteDefinition (footnoteDefinitionP rec) <||>
  conditionalBlock cfg.linkDefinition (linkDefinitionP x cfg) <||>
  conditionalBlock cfg.table (tableP x cfg) <||>
  customParser cfg.customBlock <||>
  conditionalBlock cfg.paragraph (mapP (paragraphP x cfg rec false) .paragraph)

/-- `block`, `blocks/mod.rs:24-118` -/
def blockStep (x : PExt) (cfg : PConfig) (rec : P (List Block)) : P (List Block) :=
  preceded manyEmptyLines0 (blockAlt x cfg rec)

/-- `block`, `blocks/mod.rs:24-118`, with at most `n` nested calls. -/
def blockF (x : PExt) (cfg : PConfig) : Nat → P (List Block)
  | 0 => failP
  | n + 1 => blockStep x cfg (blockF x cfg n)

/-- `parse_markdown`, `parser/mod.rs:180-194`, with at most `n` nested block levels. -/
def parseMarkdownF (x : PExt) (cfg : PConfig) (n : Nat) (s : Str) : Option Document :=
  match terminated (many0 (blockF x cfg n)) (seq (many0 (space1 <||> lineEnding)) eof) s with
  | some (_, bs) => some ⟨bs.flatten⟩
  | none => none

/-- `parse_markdown`, `parser/mod.rs:180-194`: `none` is the error result. -/
def parseMarkdown (x : PExt) (cfg : PConfig) (s : Str) : Option Document :=
  parseMarkdownF x cfg (s.length + 1) s

end Verif
