import Verif.ParserBlock
/-!
# The parser with closures that have side effects

`Map` and `FlatMap` behaviours and custom parsers are `FnMut` closures behind `Rc<RefCell<..>>`.  Here they take and
return a state (`σ` stands for everything that the closures can reach).  A parser that runs closures takes the state and
returns it, also when it fails: what was called in an abandoned attempt stays called.  The parsers that run no closures
are those of `ParserInline` and `ParserBlock`, lifted.  Closures are called outside of every other borrow of the same
closure (`conditional` borrows after its inner parser has returned), so that no `RefCell` panics, unless a closure itself
starts a parser with the same configuration, which is not modelled.

nom 8 does not compute values that are not asked for, but a function passed as a parser is always called, and all closures
are called from such functions (`conditional`, `custom_parser`).
-/
set_option autoImplicit false
namespace Verif
namespace Fx
open Nom

/-- A parser that can run closures (`fn(&str) -> IResult<&str, α>`). -/
abbrev S (σ α : Type) := Str → σ → Option (Str × α) × σ

/-- A parser applied to a whole string, the rest dropped. -/
abbrev R (σ α : Type) := Str → σ → Option α × σ

section
variable {σ α β γ : Type}

/-- A parser that runs no closure. -/
def lift (p : P α) : S σ α := fun s st => (p s, st)

/-- `alt((p, q))`, with the state: `nom` 8 `alt`. -/
def orElse (p q : S σ α) : S σ α := fun s st =>
  match p s st with
  | (some x, st1) => (some x, st1)
  | (none, st1) => q s st1

@[inherit_doc] infixr:20 " <or> " => orElse

/-- `nom::combinator::map` with a function that has no effect, with the state. -/
def mapS (p : S σ α) (f : α → β) : S σ β := fun s st =>
  match p s st with
  | (some (r, a), st1) => (some (r, f a), st1)
  | (none, st1) => (none, st1)

/-- A parser, then something with effects computed from its value, the rest of the input unchanged. -/
def bindS (p : S σ α) (k : α → σ → Option β × σ) : S σ β := fun s st =>
  match p s st with
  | (some (r, a), st1) => match k a st1 with
    | (some b, st2) => (some (r, b), st2)
    | (none, st2) => (none, st2)
  | (none, st1) => (none, st1)

/-- `nom::combinator::not`, with the state. -/
def notS (p : S σ α) : S σ Unit := fun s st =>
  match p s st with
  | (some _, st1) => (none, st1)
  | (none, st1) => (some (s, ()), st1)

/-- `nom::combinator::recognize`, with the state. -/
def recognizeS (p : S σ α) : S σ Str := fun s st =>
  match p s st with
  | (some (r, _), st1) => (some (r, s.take (s.length - r.length)), st1)
  | (none, st1) => (none, st1)

/-- A pair of parsers in sequence, with the state. -/
def seqS (p : S σ α) (q : S σ β) : S σ (α × β) := fun s st =>
  match p s st with
  | (some (r, a), st1) => match q r st1 with
    | (some (r', b), st2) => (some (r', (a, b)), st2)
    | (none, st2) => (none, st2)
  | (none, st1) => (none, st1)

/-- `nom::sequence::preceded`, with the state. -/
def precededS (p : S σ α) (q : S σ β) : S σ β := fun s st =>
  match p s st with
  | (some (r, _), st1) => q r st1
  | (none, st1) => (none, st1)

/-- `nom::sequence::terminated`, with the state. -/
def terminatedS (p : S σ α) (q : S σ β) : S σ α := mapS (seqS p q) Prod.fst

/-- `nom::sequence::delimited`, with the state. -/
def delimitedS (p : S σ α) (q : S σ β) (t : S σ γ) : S σ β := precededS p (terminatedS q t)

/-- `many0`, worker with the number of rounds left, with the state. -/
def many0FS (p : S σ α) : Nat → S σ (List α)
  | 0, _, st => (none, st)
  | n + 1, s, st => match p s st with
    | (none, st1) => (some (s, []), st1)
    | (some (r, a), st1) =>
      if r.length < s.length then
        match many0FS p n r st1 with
        | (some (r', l), st2) => (some (r', a :: l), st2)
        | (none, st2) => (none, st2)
      else (none, st1)

/-- `nom::multi::many0`, with the state. -/
def many0S (p : S σ α) : S σ (List α) := fun s st => many0FS p (s.length + 1) s st

/-- `nom::multi::many1`, with the state. -/
def many1S (p : S σ α) : S σ (List α) := fun s st =>
  match p s st with
  | (none, st1) => (none, st1)
  | (some (r, a), st1) => match many0S p r st1 with
    | (some (r', l), st2) => (some (r', a :: l), st2)
    | (none, st2) => (none, st2)

/-- The loop of `separated_list0`/`separated_list1`, with the state; the separators run no closure. -/
def sepLoopFS (sep : P β) (p : S σ α) : Nat → S σ (List α)
  | 0, _, st => (none, st)
  | n + 1, s, st => match sep s with
    | none => (some (s, []), st)
    | some (r, _) => match p r st with
      | (none, st1) => (some (s, []), st1)
      | (some (r', a), st1) =>
        if r'.length < s.length then
          match sepLoopFS sep p n r' st1 with
          | (some (r'', l), st2) => (some (r'', a :: l), st2)
          | (none, st2) => (none, st2)
        else (none, st1)

/-- The loop of `separated_list0`/`separated_list1`, with the state. -/
def sepLoopS (sep : P β) (p : S σ α) : S σ (List α) := fun s st => sepLoopFS sep p (s.length + 1) s st

/-- `nom::multi::separated_list1`, with the state. -/
def separatedList1S (sep : P β) (p : S σ α) : S σ (List α) := fun s st =>
  match p s st with
  | (none, st1) => (none, st1)
  | (some (r, a), st1) => match sepLoopS sep p r st1 with
    | (some (r', l), st2) => (some (r', a :: l), st2)
    | (none, st2) => (none, st2)

/-- `nom::multi::separated_list0`, with the state. -/
def separatedList0S (sep : P β) (p : S σ α) : S σ (List α) := fun s st =>
  match p s st with
  | (none, st1) => (some (s, []), st1)
  | (some (r, a), st1) => match sepLoopS sep p r st1 with
    | (some (r', l), st2) => (some (r', a :: l), st2)
    | (none, st2) => (none, st2)

end

/-- `ElementBehavior`, `parser/config.rs:22-38`, with the effects of the closures. -/
inductive Behavior (σ α : Type) where
  | parse
  | ignore
  | skip
  | map (f : α → σ → α × σ)
  | flatMap (f : α → σ → List α × σ)

/-- `MarkdownParserConfig`, `parser/config.rs:42-120`, with the effects of the closures. -/
structure Config (σ : Type) where
  allowNoSpaceInHeadings : Bool := false
  entities : Str → Option Str
  blockquote : Behavior σ Block := .parse
  githubAlert : Behavior σ Block := .parse
  headingV1 : Behavior σ Block := .parse
  headingV2 : Behavior σ Block := .parse
  thematicBreak : Behavior σ Block := .parse
  list : Behavior σ Block := .parse
  codeBlock : Behavior σ Block := .parse
  htmlBlock : Behavior σ Block := .parse
  footnoteDefinition : Behavior σ Block := .parse
  linkDefinition : Behavior σ Block := .parse
  table : Behavior σ Block := .parse
  paragraph : Behavior σ Block := .parse
  autolink : Behavior σ Inline := .parse
  link : Behavior σ Inline := .parse
  footnoteReference : Behavior σ Inline := .parse
  referenceLink : Behavior σ Inline := .parse
  hardNewline : Behavior σ Inline := .parse
  image : Behavior σ Inline := .parse
  codeSpan : Behavior σ Inline := .parse
  emphasis : Behavior σ Inline := .parse
  strikethrough : Behavior σ Inline := .parse
  text : Behavior σ Inline := .parse
  customBlock : Option (S σ (List Block)) := none
  customInline : Option (S σ (List Inline)) := none

section
variable {σ α β : Type}

/-- `conditional`, `parser/util.rs:52-82`: the inner parser runs first, then the closure is called with its value. -/
def conditional (b : Behavior σ α) (dflt : List α) (p : S σ α) : S σ (List α) :=
  match b with
  | .ignore => lift failP
  | .parse => mapS p (fun v => [v])
  | .skip => mapS p (fun _ => dflt)
  | .map f => bindS p (fun v st => (some [(f v st).1], (f v st).2))
  | .flatMap f => bindS p (fun v st => (some (f v st).1, (f v st).2))

/-- `conditional_inline`, `parser/util.rs:138-149` -/
def conditionalInline (b : Behavior σ Inline) (p : S σ Inline) : S σ (List Inline) := conditional b [.empty] p

/-- `conditional_block`, `parser/util.rs:125-136` -/
def conditionalBlock (b : Behavior σ Block) (p : S σ Block) : S σ (List Block) := conditional b [.empty] p

/-- `conditional_block_vec`, `parser/util.rs:151-177`: the closure is not called. -/
def conditionalBlockVec (b : Behavior σ Block) (p : S σ (List Block)) : S σ (List Block) :=
  match b with
  | .ignore => lift failP
  | .skip => mapS p (fun _ => [.empty])
  | .parse | .map _ | .flatMap _ => p

/-- `conditional_inline_unit`, `parser/util.rs:105-123`; also `conditional_block_unit`,
`parser/util.rs:85-103`: the closure of the element is not called (those of elements inside are). -/
def conditionalUnit (b : Behavior σ α) (p : S σ β) : S σ Unit :=
  match b with
  | .ignore => lift failP
  | .parse | .skip | .map _ | .flatMap _ => mapS p (fun _ => ())

/-- `custom_parser`, `inline/mod.rs:142-151`; also `custom_parser`, `blocks/mod.rs:120-131` -/
def customParser (p : Option (S σ (List α))) : S σ (List α) :=
  match p with
  | some p => p
  | none => lift failP

/-! ## Inlines -/

/-- `link_label_inner`, `link_util.rs:22-43` -/
def linkLabelInner (rec : R σ (List Inline)) : S σ (List Inline) :=
  bindS (lift (verify (many1 (preceded (notP (chr ']')) (value ']' (tag cs!"\\]") <||> anychar)))
      (fun cs => cs.any (fun c => c != ' ' && c != '\n') && cs.length < 1000)))
    rec

/-- `link_label`, `link_util.rs:14-20` -/
def linkLabel (rec : R σ (List Inline)) : S σ (List Inline) :=
  delimitedS (lift (tag cs!"[")) (linkLabelInner rec) (lift (tag cs!"]"))

/-- `inline_link`, `inline_link.rs:12-37` -/
def inlineLink (rec : R σ (List Inline)) : S σ Inline :=
  mapS (seqS (linkLabel rec) (lift destAndTitle)) (fun x => .link x.2.1 x.2.2 x.1)

/-- `reference_link_full`, `reference_link.rs:20-29` -/
def referenceLinkFull (rec : R σ (List Inline)) : S σ Inline :=
  mapS (seqS (linkLabel rec) (linkLabel rec)) (fun x => .linkReference x.2 x.1)

/-- `reference_link_collapsed`, `reference_link.rs:31-42` -/
def referenceLinkCollapsed (rec : R σ (List Inline)) : S σ Inline :=
  mapS (terminatedS (linkLabel rec) (lift (tag cs!"[]"))) (fun t => .linkReference t t)

/-- `reference_link_shortcut`, `reference_link.rs:44-55` -/
def referenceLinkShortcut (rec : R σ (List Inline)) : S σ Inline :=
  mapS (linkLabel rec) (fun t => .linkReference t t)

/-- `reference_link`, `reference_link.rs:7-18` -/
def referenceLink (rec : R σ (List Inline)) : S σ Inline :=
  referenceLinkFull rec <or> referenceLinkCollapsed rec <or> referenceLinkShortcut rec

/-- `emphasis_content`, `emphasis.rs:69-92` -/
def emphasisContent (x : PExt) (rec : R σ (List Inline)) (t : Str) : S σ (List Inline) :=
  bindS (lift (recognize (many1 (preceded (notP (closeTag x t))
    (value () (tag cs!"\\*") <||> value () anychar))))) rec

/-- One `delimited(open_tag, emphasis_content, close_tag)` of `emphasis`, e.g. `emphasis.rs:21-25` -/
def emphasisDelimited (x : PExt) (rec : R σ (List Inline)) (t : Str) : S σ (List Inline) :=
  delimitedS (lift (openTag x t)) (emphasisContent x rec t) (lift (closeTag x t))

/-- `emphasis`, `emphasis.rs:14-67` -/
def emphasisP (x : PExt) (rec : R σ (List Inline)) : S σ Inline :=
  mapS (emphasisDelimited x rec cs!"***" <or> emphasisDelimited x rec cs!"___")
    (fun i => .strong [.emphasis i]) <or>
  mapS (emphasisDelimited x rec cs!"**" <or> emphasisDelimited x rec cs!"__") .strong <or>
  mapS (emphasisDelimited x rec cs!"*" <or> emphasisDelimited x rec cs!"_") .emphasis

/-- The part of `strikethrough` that runs no closure, `strikethrough.rs:18-27`: the content between the tags. -/
def strikeContent : P Str := fun s =>
  match terminated (tag cs!"~~") (notP (chr '~')) s with
  | none => none
  | some (s1, _) => terminated (recognize (many1 (preceded (notP strikeClose)
        (value '~' (tag cs!"\\~") <||> anychar)))) (tag cs!"~~") s1

/-- `strikethrough`, `strikethrough.rs:14-32` -/
def strikethroughP (rec : R σ (List Inline)) : S σ Inline :=
  mapS (bindS (lift strikeContent) rec) .strikethrough

/-- `not_a_text`, `text.rs:39-116` -/
def notAText (x : PExt) (cfg : Config σ) (rec : R σ (List Inline)) : S σ Unit :=
  conditionalUnit cfg.autolink (lift autolinkP) <or>
  conditionalUnit cfg.referenceLink (referenceLink rec) <or>
  conditionalUnit cfg.hardNewline (lift hardNewline) <or>
  conditionalUnit cfg.text (lift (htmlEntity (PConfig.default cfg.entities))) <or>
  conditionalUnit cfg.image (lift imageP) <or>
  conditionalUnit cfg.link (inlineLink rec) <or>
  conditionalUnit cfg.codeSpan (lift codeSpan) <or>
  conditionalUnit cfg.emphasis (emphasisP x rec) <or>
  conditionalUnit cfg.footnoteReference (lift footnoteReferenceP) <or>
  conditionalUnit cfg.strikethrough (strikethroughP rec) <or>
  lift (value () environmentVariable)

/-- The pieces of a text, `text.rs:18-28` -/
def textPiece (x : PExt) (cfg : Config σ) (rec : R σ (List Inline)) : S σ Str :=
  lift (mapP escapedChar (fun c => [c])) <or>
  lift (htmlEntity (PConfig.default cfg.entities)) <or>
  recognizeS (many1S (precededS (notS (notAText x cfg rec)) (lift anychar)))

/-- `text`, `text.rs:13-33` (with `is_text`, `text.rs:35-37`) -/
def textP (x : PExt) (cfg : Config σ) (rec : R σ (List Inline)) : S σ Inline :=
  mapS (many1S (textPiece x cfg rec)) (fun l => .text l.flatten)

/-- `inline`, `inline/mod.rs:84-140` -/
def inlineStep (x : PExt) (cfg : Config σ) (rec : R σ (List Inline)) : S σ (List Inline) :=
  conditionalInline cfg.autolink (lift (mapP autolinkP .autolink)) <or>
  conditionalInline cfg.link (inlineLink rec) <or>
  conditionalInline cfg.footnoteReference (lift footnoteReferenceP) <or>
  conditionalInline cfg.referenceLink (referenceLink rec) <or>
  conditionalInline cfg.hardNewline (lift hardNewline) <or>
  conditionalInline cfg.image (lift imageP) <or>
  conditionalInline cfg.codeSpan (lift (mapP codeSpan .code)) <or>
  lift (mapP environmentVariable (fun v => [v])) <or>
  conditionalInline cfg.emphasis (emphasisP x rec) <or>
  conditionalInline cfg.strikethrough (strikethroughP rec) <or>
  customParser cfg.customInline <or>
  conditionalInline cfg.text (textP x cfg rec)

/-- The value of a parser, the rest of the input dropped. -/
def whole (p : S σ α) : R σ α := fun s st => ((p s st).1.map Prod.snd, (p s st).2)

/-- `inline_many1`, `inline/mod.rs:73-82`, for a given `inline`. -/
def inlineMany1With (inl : S σ (List Inline)) : S σ (List Inline) :=
  mapS (many1S inl) (fun l => mergeText l.flatten)

/-- `inline_many0`, `inline/mod.rs:62-71`, for a given `inline`. -/
def inlineMany0With (inl : S σ (List Inline)) : S σ (List Inline) :=
  mapS (many0S inl) (fun l => mergeText l.flatten)

/-- `inline`, `inline/mod.rs:84-140`, with at most `n` nested calls. -/
def inlineF (x : PExt) (cfg : Config σ) : Nat → S σ (List Inline)
  | 0 => lift failP
  | n + 1 => inlineStep x cfg (whole (inlineMany1With (inlineF x cfg n)))

/-- The inlines of a string read by `inline_many1`, the rest of the input being dropped: `inline/mod.rs:73-82`. -/
def parseInlines1 (x : PExt) (cfg : Config σ) : R σ (List Inline) := fun s =>
  whole (inlineMany1With (inlineF x cfg (s.length + 1))) s

/-- The inlines of a string read by `inline_many0`, the rest of the input being dropped: `inline/mod.rs:62-71`. -/
def parseInlines0 (x : PExt) (cfg : Config σ) : R σ (List Inline) := fun s =>
  whole (inlineMany0With (inlineF x cfg (s.length + 1))) s

/-! ## Blocks -/

/-- `heading_v1`, `blocks/heading.rs:16-42` -/
def headingV1 (x : PExt) (cfg : Config σ) : S σ Block :=
  bindS (lift (seq (manyMN (chr '#') 1 6)
      (preceded (if cfg.allowNoSpaceInHeadings then space0 else space1) (lineTerminated notEofOrEol1))))
    (fun y st => ((parseInlines0 x cfg y.2 st).1.map (.heading (.atx y.1.length)), (parseInlines0 x cfg y.2 st).2))

/-- `many1(block)` on the content of a container, rest dropped, e.g. `blocks/blockquote.rs:22-26` -/
def blocks1 (rec : S σ (List Block)) : R σ (List Block) := whole (mapS (many1S rec) List.flatten)

/-- `many0(block)` on the content of a container, rest dropped, e.g. `blocks/list.rs:218-222` -/
def blocks0 (rec : S σ (List Block)) : R σ (List Block) := whole (mapS (many0S rec) List.flatten)

/-- `blockquote`, `blocks/blockquote.rs:12-30` -/
def blockquoteP (rec : S σ (List Block)) : S σ Block :=
  mapS (bindS (lift quoteLines) (fun lines => blocks1 rec (joinWith ['\n'] lines))) .blockQuote

/-- `github_alert`, `blocks/github_alert.rs:47-94` -/
def githubAlertP (x : PExt) (rec : S σ (List Block)) : S σ (List Block) := fun s st =>
  match preceded (seq quotePrefix (Nom.opt (chr ' '))) (lineTerminated notEofOrEol0) s with
  | none => (none, st)
  | some (_, firstLine) => match parseAlertMarker x (trim firstLine) with
    | none => (none, st)
    | some t => match quoteLines s with
      | none => (none, st)
      | some (r, lines) =>
        let inner := joinWith ['\n'] (lines.drop 1)
        if inner.isEmpty then (some (r, [.githubAlert t []]), st)
        else match blocks1 rec inner st with
          | (some bs, st1) => (some (r, [.githubAlert t bs]), st1)
          | (none, st1) => (none, st1)

/-- `list_item`, `blocks/list.rs:196-230` -/
def listItemP (rec : S σ (List Block)) : S σ (ListKind × ListItem) := fun s st =>
  match listMarkerWithSpanSize s with
  | none => (none, st)
  | some (s1, (kind, pl, task, first)) => match listItemLines kind pl s1 with
    | none => (none, st)
    | some (s2, rest) => match blocks0 rec (itemContent first rest) st with
      | (none, st1) => (none, st1)
      | (some bs, st1) => (some (s2, (kind, .mk task bs)), st1)

/-- `list`, `blocks/list.rs:232-248` -/
def listP (rec : S σ (List Block)) : S σ Block := fun s st =>
  match many1S (listItemP rec) s st with
  | (some (r, (k, i) :: l), st1) => (some (r, .list k (i :: l.map Prod.snd)), st1)
  | (_, st1) => (none, st1)

/-- `footnote_definition`, `footnote_definition.rs:14-53` -/
def footnoteDefinitionP (rec : S σ (List Block)) : S σ Block := fun s st =>
  match preceded indent03 (preceded (tag cs!"[^")
      (terminated (recognize (many1 (noneOf cs!"]"))) (tag cs!"]:"))) s with
  | none => (none, st)
  | some (s1, label) => match preceded indent03 (lineTerminated notEofOrEol1) s1 with
    | none => (none, st)
    | some (s2, first) =>
      match many0 (preceded (manyMN (chr ' ') 3 3) (lineTerminated notEofOrEol1)) s2 with
      | none => (none, st)
      | some (s3, rest) => match blocks0 rec (itemContent first (rest.map (fun l => [l]))) st with
        | (none, st1) => (none, st1)
        | (some bs, st1) => (some (s3, .footnoteDefinition label bs), st1)

/-- `link_definition`, `link_definition.rs:15-49` -/
def linkDefinitionP (x : PExt) (cfg : Config σ) : S σ Block :=
  mapS (terminatedS
      (seqS (precededS (lift indent03) (linkLabel (parseInlines1 x cfg)))
        (lift (preceded (chr ':') (preceded (seq space0 (seq (Nom.opt lineEnding) space0))
          (seq linkDestination (Nom.opt (preceded oneLineWhitespace1 linkTitle)))))))
      (lift eofOrEol))
    (fun y => .definition y.1 y.2.1 y.2.2)

/-- `cell_content`, `blocks/table.rs:118-136` -/
def cellContent (x : PExt) (cfg : Config σ) : S σ (List Inline) :=
  bindS (lift (many1 (preceded (notP (value () eofOrEol <||> value () (chr '|')))
      (value '|' (tag cs!"\\|") <||> anychar))))
    (fun cs => parseInlines0 x cfg (trim cs))

/-- `parse_table_row`, `blocks/table.rs:102-116` -/
def tableRow (x : PExt) (cfg : Config σ) : S σ (List (List Inline)) :=
  terminatedS (precededS (lift indent03)
    (delimitedS (lift (chr '|')) (separatedList1S (chr '|') (cellContent x cfg)) (lift (Nom.opt (chr '|')))))
    (lift eofOrEol)

/-- `parse_table_data_rows`, `blocks/table.rs:43-64` -/
def tableDataRows (x : PExt) (cfg : Config σ) (n : Nat) : S σ (List (List (List Inline))) :=
  many0S (mapS (tableRow x cfg) (fitRow n))

/-- `table`, `blocks/table.rs:16-41` -/
def tableP (x : PExt) (cfg : Config σ) : S σ Block := fun s st =>
  match tableRow x cfg s st with
  | (none, st1) => (none, st1)
  | (some (s1, header), st1) => match alignmentRow s1 with
    | none => (none, st1)
    | some (s2, aligns) =>
      if aligns.length ≠ header.length then (none, st1)
      else match tableDataRows x cfg header.length s2 st1 with
        | (none, st2) => (none, st2)
        | (some (s3, rows), st2) => (some (s3, .table (header :: rows) aligns), st2)

/-- The alternatives of `is_paragraph_line_start`, `paragraph.rs:54-121` -/
def notAParagraphLine (x : PExt) (cfg : Config σ) (rec : S σ (List Block)) : S σ Unit :=
  conditionalUnit cfg.headingV1 (headingV1 x cfg) <or>
  conditionalUnit cfg.headingV2 (lift headingV2Level) <or>
  conditionalUnit cfg.thematicBreak (lift thematicBreakP) <or>
  conditionalUnit cfg.blockquote (blockquoteP rec) <or>
  conditionalUnit cfg.list (listItemP rec) <or>
  conditionalUnit cfg.codeBlock (lift codeBlockFenced) <or>
  conditionalUnit cfg.htmlBlock (lift htmlBlockP) <or>
  conditionalUnit cfg.linkDefinition (linkDefinitionP x cfg) <or>
  conditionalUnit cfg.footnoteDefinition (footnoteDefinitionP rec) <or>
  conditionalUnit cfg.table (tableP x cfg) <or>
  mapS (customParser cfg.customBlock) (fun _ => ()) <or>
  lift (value () (lineTerminated space0))

/-- The lines of a paragraph after the first position, `paragraph.rs:30-37` (with
`is_paragraph_line_start`, `paragraph.rs:50-124`) -/
def paragraphLines (x : PExt) (cfg : Config σ) (rec : S σ (List Block)) : S σ (List Str) :=
  terminatedS (separatedList0S lineEnding
    (precededS (notS (notAParagraphLine x cfg rec)) (lift paragraphLine))) (lift eofOrEol)

/-- `paragraph`, `paragraph.rs:14-48` -/
def paragraphP (x : PExt) (cfg : Config σ) (rec : S σ (List Block)) (checkFirst : Bool) : S σ (List Inline) :=
  bindS
    (if checkFirst then paragraphLines x cfg rec
     else mapS (seqS (lift paragraphLine) (paragraphLines x cfg rec)) (fun y => y.1 :: y.2))
    (fun lines => parseInlines1 x cfg (joinWith ['\n'] lines))

/-- `heading_v2_or_paragraph`, `blocks/heading.rs:47-67` -/
def headingV2OrParagraph (x : PExt) (cfg : Config σ) (rec : S σ (List Block)) : S σ Block :=
  mapS (seqS (paragraphP x cfg rec true) (lift (Nom.opt headingV2Level)))
    (fun y => match y.2 with
      | some level => .heading (.setext level) y.1
      | none => .paragraph y.1)

/-- The alternatives of `block`, `blocks/mod.rs:30-114` -/
def blockAlt (x : PExt) (cfg : Config σ) (rec : S σ (List Block)) : S σ (List Block) :=
  conditionalBlock cfg.codeBlock (lift codeBlockP) <or>
  conditionalBlock cfg.headingV1 (headingV1 x cfg) <or>
  conditionalBlock cfg.headingV2 (headingV2OrParagraph x cfg rec) <or>
  conditionalBlock cfg.thematicBreak (lift (value .thematicBreak thematicBreakP)) <or>
  conditionalBlockVec cfg.githubAlert (githubAlertP x rec) <or>
  conditionalBlock cfg.blockquote (blockquoteP rec) <or>
  conditionalBlock cfg.list (listP rec) <or>
  conditionalBlock cfg.htmlBlock (lift (mapP htmlBlockP .htmlBlock)) <or>
  conditionalBlock cfg.footnoteDefinition (footnoteDefinitionP rec) <or>
  conditionalBlock cfg.linkDefinition (linkDefinitionP x cfg) <or>
  conditionalBlock cfg.table (tableP x cfg) <or>
  customParser cfg.customBlock <or>
  conditionalBlock cfg.paragraph (mapS (paragraphP x cfg rec false) .paragraph)

/-- `block`, `blocks/mod.rs:24-118` -/
def blockStep (x : PExt) (cfg : Config σ) (rec : S σ (List Block)) : S σ (List Block) :=
  precededS (lift manyEmptyLines0) (blockAlt x cfg rec)

/-- `block`, `blocks/mod.rs:24-118`, with at most `n` nested calls. -/
def blockF (x : PExt) (cfg : Config σ) : Nat → S σ (List Block)
  | 0 => lift failP
  | n + 1 => blockStep x cfg (blockF x cfg n)

/-- `parse_markdown`, `parser/mod.rs:180-194`: the result and the state of the closures after it. -/
def parseMarkdown (x : PExt) (cfg : Config σ) (s : Str) (st : σ) : Option Document × σ :=
  match terminatedS (many0S (blockF x cfg (s.length + 1))) (lift (seq (many0 (space1 <||> lineEnding)) eof)) s st with
  | (some (_, bs), st1) => (some ⟨bs.flatten⟩, st1)
  | (none, st1) => (none, st1)

end
end Fx
end Verif
