import Verif.Nom
import Verif.Ast
/-!
# The inline parser (`src/parser/inline/*`, `src/parser/link_util.rs`, `src/parser/config.rs`)

Recursion of the Rust functions through `inline_many1` on a shorter string (link labels, emphasis
and strikethrough contents) is the argument `rec` here; `inlineF` ties the knot with a depth
counter, and `ParserDepth` proves that the depth used is always enough.
-/
namespace Verif
open Nom

/-- `ElementBehavior`, `parser/config.rs:22-38`.  The `FnMut` closures are pure functions. -/
inductive Behavior (α : Type) where
  | parse
  | ignore
  | skip
  | map (f : α → α)
  | flatMap (f : α → List α)

/-- What the parser takes from outside the repository: the Unicode `P*` categories
(`unicode_categories`) and the upper-case form of a character (`char::to_uppercase`), of which
proofs use only that it is the ASCII upper case of an ASCII character, and that for another
character it is not empty and has no ASCII characters but letters (such as `SS` for `ß`). -/
structure PExt where
  uniPunct : Char → Bool
  upper : Char → Str
  upper_ascii : ∀ c, c.toNat < 128 → upper c = [c.toUpper]
  upper_nonascii : ∀ c, 128 ≤ c.toNat → upper c ≠ [] ∧
    ∀ d ∈ upper c, d.toNat < 128 → isAlpha d = true

/-- An instance of `PExt`: ASCII only. -/
def PExt.ascii : PExt where
  uniPunct := isAsciiPunct
  upper := fun c => [c.toUpper]
  upper_ascii := fun _ _ => rfl
  upper_nonascii := fun c hc => by
    refine ⟨by simp, ?_⟩
    intro d hd hd2
    have hcu : c.toUpper = c := by
      unfold Char.toUpper
      rw [dif_neg]
      intro h
      have h2 : c.val.toNat ≤ 122 := h.2
      have : c.toNat = c.val.toNat := rfl
      omega
    simp only [hcu, List.mem_singleton] at hd
    subst hd
    omega

/-- `MarkdownParserConfig`, `parser/config.rs:42-120`.  `html_entities_map` is a partial function from
`&name;` to its characters. -/
structure PConfig where
  allowNoSpaceInHeadings : Bool := false
  entities : Str → Option Str
  blockquote : Behavior Block := .parse
  githubAlert : Behavior Block := .parse
  headingV1 : Behavior Block := .parse
  headingV2 : Behavior Block := .parse
  thematicBreak : Behavior Block := .parse
  list : Behavior Block := .parse
  codeBlock : Behavior Block := .parse
  htmlBlock : Behavior Block := .parse
  footnoteDefinition : Behavior Block := .parse
  linkDefinition : Behavior Block := .parse
  table : Behavior Block := .parse
  paragraph : Behavior Block := .parse
  autolink : Behavior Inline := .parse
  link : Behavior Inline := .parse
  footnoteReference : Behavior Inline := .parse
  referenceLink : Behavior Inline := .parse
  hardNewline : Behavior Inline := .parse
  image : Behavior Inline := .parse
  codeSpan : Behavior Inline := .parse
  emphasis : Behavior Inline := .parse
  strikethrough : Behavior Inline := .parse
  text : Behavior Inline := .parse
  customBlock : Option (P (List Block)) := none
  customInline : Option (P (List Inline)) := none

/-- `default`, `parser/config.rs:123-152`, for a given table of named entities. -/
def PConfig.default (entities : Str → Option Str) : PConfig := { entities := entities }

/-- `conditional`, `parser/util.rs:52-82` -/
def conditional {α : Type} (b : Behavior α) (dflt : List α) (p : P α) : P (List α) :=
  match b with
  | .ignore => failP
  | .parse => mapP p (fun v => [v])
  | .skip => value dflt p
  | .map f => mapP p (fun v => [f v])
  | .flatMap f => mapP p f

/-- `conditional_inline`, `parser/util.rs:138-149` -/
def conditionalInline (b : Behavior Inline) (p : P Inline) : P (List Inline) :=
  conditional b [.empty] p

/-- `conditional_inline_unit`, `parser/util.rs:105-123`; also `conditional_block_unit`,
`parser/util.rs:85-103`.  Only success and the rest of the input matter to the callers. -/
def conditionalUnit {α β : Type} (b : Behavior α) (p : P β) : P Unit :=
  match b with
  | .ignore => failP
  | .parse | .skip | .map _ | .flatMap _ => value () p

/-! ## `link_util.rs` -/

/-- `link_label_inner`, `link_util.rs:22-43`.  The text between the brackets, and its inlines. -/
def linkLabelInner (rec : Str → Option (List Inline)) : P (List Inline) := fun s =>
  match verify (many1 (preceded (notP (chr ']')) (value ']' (tag cs!"\\]") <||> anychar)))
      (fun cs => cs.any (fun c => c != ' ' && c != '\n') && cs.length < 1000) s with
  | none => none
  | some (r, label) => match rec label with
    | some l => some (r, l)
    | none => none

/-- `link_label`, `link_util.rs:14-20` -/
def linkLabel (rec : Str → Option (List Inline)) : P (List Inline) :=
  delimited (tag cs!"[") (linkLabelInner rec) (tag cs!"]")

/-- `escaped_char`, `link_util.rs:83-85` -/
def linkEscapedChar : P Char := preceded (tag cs!"\\") anychar

/-- `link_title_inner`, `link_util.rs:66-81`; `fold_many0` with string concatenation is `many0`
followed by joining. -/
def linkTitleInner (endDelim : Char) : P Str :=
  many0 (linkEscapedChar <||> noneOf [endDelim, '\\'])

/-- `link_title_parenthesized`, `link_util.rs:54-56` -/
def linkTitleParenthesized : P Str := delimited (chr '(') (linkTitleInner ')') (chr ')')
/-- `link_title_single_quoted`, `link_util.rs:58-60` -/
def linkTitleSingleQuoted : P Str := delimited (chr '\'') (linkTitleInner '\'') (chr '\'')
/-- `link_title_double_quoted`, `link_util.rs:62-64` -/
def linkTitleDoubleQuoted : P Str := delimited (tag cs!"\"") (linkTitleInner '"') (tag cs!"\"")

/-- `link_title`, `link_util.rs:45-52` -/
def linkTitle : P Str :=
  linkTitleDoubleQuoted <||> linkTitleSingleQuoted <||> linkTitleParenthesized

/-- `is_valid_char`, `link_util.rs:145-147` -/
def isValidChar (c : Char) : Bool := !isAsciiControl c && c != ' ' && c != '<'

/-- `balanced_parens`, `link_util.rs:120-143`, with the nesting depth left.  Its value is only used
through `value((), ..)`/`recognize`, so it is dropped. -/
def balancedParensF : Nat → P Unit
  | 0 => failP
  | n + 1 => delimited (tag cs!"(")
      (value () (many0 (value () linkEscapedChar <||> balancedParensF n <||>
        value () (satisfy (fun c => isValidChar c && c != '(' && c != ')')))))
      (tag cs!")")

/-- `balanced_parens`, `link_util.rs:120-143` -/
def balancedParens : P Unit := fun s => balancedParensF (s.length + 1) s

/-- `link_destination1`, `link_util.rs:91-104` -/
def linkDestination1 : P Str :=
  delimited (chr '<')
    (many0 (preceded (chr '\\') (oneOf cs!"<>") <||>
      preceded (notP (oneOf cs!"\n<>")) anychar))
    (chr '>')

/-- `link_destination2`, `link_util.rs:106-118` -/
def linkDestination2 : P Str := fun s =>
  match satisfy (fun c => isValidChar c && c != '<') s with
  | none => none
  | some _ =>
    recognize (many1 (value () linkEscapedChar <||> balancedParens <||>
      value () (satisfy (fun c => isValidChar c && c != '(' && c != ')')))) s

/-- `link_destination`, `link_util.rs:87-89` -/
def linkDestination : P Str := linkDestination1 <||> linkDestination2

/-! ## The alternatives -/

/-- `is_scheme_char`, `autolink.rs:53-55` -/
def isSchemeChar (c : Char) : Bool := isAlnum c || c == '+' || c == '.' || c == '-'

/-- `scheme`, `autolink.rs:49-51` (with `is_scheme_start`, `autolink.rs:57-59`) -/
def scheme : P Str := recognize (seq (satisfy isAlpha) (takeWhile1 isSchemeChar))

/-- `uri`, `autolink.rs:15-31` -/
def uri : P Str :=
  mapP (seq (terminated scheme (chr ':'))
      (takeWhile (fun c => !isAsciiControl c && !isAsciiWs c && c != '<' && c != '>')))
    (fun x => x.1 ++ [':'] ++ x.2)

/-- `email`, `autolink.rs:34-46` -/
def email : P Str :=
  recognize (seq (takeWhile1 (fun c => isAlnum c || c == '_' || c == '-' || c == '.'))
    (seq (chr '@') (takeWhile1 (fun c => isAlnum c || c == '.' || c == '-'))))

/-- `autolink`, `autolink.rs:10-12` -/
def autolinkP : P Str := delimited (chr '<') (uri <||> email) (chr '>')

/-- The destination and title between parentheses, `inline_link.rs:18-25` and `image.rs:27-35`. -/
def destAndTitle : P (Str × Option Str) :=
  delimited (chr '(')
    (seq (preceded multispace0 linkDestination) (opt (preceded multispace0 linkTitle)))
    (preceded multispace0 (chr ')'))

/-- `inline_link`, `inline_link.rs:12-37` -/
def inlineLink (rec : Str → Option (List Inline)) : P Inline :=
  mapP (seq (linkLabel rec) destAndTitle) (fun x => .link x.2.1 x.2.2 x.1)

/-- `footnote_reference`, `footnote_reference.rs:10-16` -/
def footnoteReferenceP : P Inline :=
  mapP (delimited (tag cs!"[^") alphanumeric1 (chr ']')) .footnoteReference

/-- `reference_link_full`, `reference_link.rs:20-29` -/
def referenceLinkFull (rec : Str → Option (List Inline)) : P Inline :=
  mapP (seq (linkLabel rec) (linkLabel rec)) (fun x => .linkReference x.2 x.1)

/-- `reference_link_collapsed`, `reference_link.rs:31-42` -/
def referenceLinkCollapsed (rec : Str → Option (List Inline)) : P Inline :=
  mapP (terminated (linkLabel rec) (tag cs!"[]")) (fun t => .linkReference t t)

/-- `reference_link_shortcut`, `reference_link.rs:44-55` -/
def referenceLinkShortcut (rec : Str → Option (List Inline)) : P Inline :=
  mapP (linkLabel rec) (fun t => .linkReference t t)

/-- `reference_link`, `reference_link.rs:7-18` -/
def referenceLink (rec : Str → Option (List Inline)) : P Inline :=
  referenceLinkFull rec <||> referenceLinkCollapsed rec <||> referenceLinkShortcut rec

/-- `hard_newline`, `hard_newline.rs:11-20` -/
def hardNewline : P Inline :=
  value .lineBreak
    (value () (seq (chr '\\') lineEnding) <||>
     value () (seq (manyMin 2 (chr ' ')) lineEnding))

/-- `image`, `image.rs:17-46` -/
def imageP : P Inline :=
  mapP (seq (preceded (chr '!') (delimited (chr '[') (takeWhile (fun c => c != ']')) (chr ']')))
      destAndTitle)
    (fun x => .image x.2.1 x.2.2 x.1)

/-- `content.replace("\r\n", " ").replace("\n", " ")`, `code_span.rs:30` -/
def codeNewlines : Str → Str
  | '\r' :: '\n' :: r => ' ' :: codeNewlines r
  | '\n' :: r => ' ' :: codeNewlines r
  | c :: r => c :: codeNewlines r
  | [] => []

/-- The end of the content of a code span, `code_span.rs:16-23`: a backtick run of exactly the
opening length at this position (a longer run does not close here), or a blank line. -/
def codeSpanStop (ticks : Str) : P Unit :=
  value () (preceded (notP (seq (tag ticks) (chr '`'))) (tag ticks)) <||>
  value () (seq lineEnding (seq space0 lineEnding))

/-- Removal of one space of padding, `code_span.rs:31-33` -/
def codeStrip (c : Str) : Str :=
  if c.head? = some ' ' ∧ c.getLast? = some ' ' ∧ trim c ≠ [] then (c.drop 1).dropLast else c

/-- `code_span`, `code_span.rs:11-36` -/
def codeSpan : P Str := fun s =>
  match recognize (many1 (chr '`')) s with
  | none => none
  | some (r, ticks) =>
    mapP (terminated (recognize (many1 (preceded (notP (codeSpanStop ticks)) anychar))) (tag ticks))
      (fun c => codeStrip (codeNewlines c)) r

/-- `s.contains("__")` -/
def hasDoubleUnderscore : Str → Bool
  | '_' :: '_' :: _ => true
  | _ :: r => hasDoubleUnderscore r
  | [] => false

/-- `is_likely_env_var`, `environment_variable.rs:25-47` (lengths in bytes; the text is ASCII) -/
def isLikelyEnvVar (s : Str) : Bool :=
  s.contains '_' && !(s.head? == some '_' || s.getLast? == some '_') && !hasDoubleUnderscore s &&
  !(s.length < 3 || s.length > 50)

/-- `environment_variable`, `environment_variable.rs:11-23` -/
def environmentVariable : P Inline :=
  mapP (verify (recognize (seq alpha1 (many0 (alphanumeric1 <||> recognize (chr '_')))))
    isLikelyEnvVar) .text

/-- `is_punctuation`, `emphasis.rs:146-149` -/
def isPunctuation (x : PExt) (c : Char) : Bool := isAsciiPunct c || x.uniPunct c

/-- `can_open`, `emphasis.rs:106-117` -/
def canOpen (x : PExt) (marker : Char) (next : Option Char) : Bool :=
  let leftFlanking := next.any (fun c => !isWs c) &&
    (next.any (fun c => !isPunctuation x c) || next.any (isPunctuation x))
  if !leftFlanking then false
  else if marker == '_' then
    !(next.all (fun c => isWs c || isPunctuation x c))
  else true

/-- `can_close`, `emphasis.rs:131-144` -/
def canClose (x : PExt) (marker : Char) (next : Option Char) : Bool :=
  let rightFlanking := next.all (fun c => isWs c || isPunctuation x c)
  if !rightFlanking then false
  else if marker == '_' then
    let leftFlanking := (next.any (fun c => !isWs c) && next.any (fun c => !isPunctuation x c)) ||
      next.any (isPunctuation x)
    !leftFlanking || next.any (isPunctuation x)
  else true

/-- `open_tag`, `emphasis.rs:94-104`; the tags are non-empty runs of one ASCII character. -/
def openTag (x : PExt) (t : Str) : P Unit := fun s =>
  match tag t s with
  | some (r, _) => if canOpen x (t.headD '*') s[t.length]? then some (r, ()) else none
  | none => none

/-- `close_tag`, `emphasis.rs:119-129` -/
def closeTag (x : PExt) (t : Str) : P Unit := fun s =>
  match tag t s with
  | some (r, _) => if canClose x (t.headD '*') s[t.length]? then some (r, ()) else none
  | none => none

/-- `emphasis_content`, `emphasis.rs:69-92` -/
def emphasisContent (x : PExt) (rec : Str → Option (List Inline)) (t : Str) : P (List Inline) :=
  mapOpt (recognize (many1 (preceded (notP (closeTag x t))
    (value () (tag cs!"\\*") <||> value () anychar)))) rec

/-- One `delimited(open_tag, emphasis_content, close_tag)` of `emphasis`, e.g. `emphasis.rs:21-25` -/
def emphasisDelimited (x : PExt) (rec : Str → Option (List Inline)) (t : Str) : P (List Inline) :=
  delimited (openTag x t) (emphasisContent x rec t) (closeTag x t)

/-- `emphasis`, `emphasis.rs:14-67` -/
def emphasisP (x : PExt) (rec : Str → Option (List Inline)) : P Inline :=
  mapP (emphasisDelimited x rec cs!"***" <||> emphasisDelimited x rec cs!"___")
    (fun i => .strong [.emphasis i]) <||>
  mapP (emphasisDelimited x rec cs!"**" <||> emphasisDelimited x rec cs!"__") .strong <||>
  mapP (emphasisDelimited x rec cs!"*" <||> emphasisDelimited x rec cs!"_") .emphasis

/-- The closing tag of a strikethrough, `strikethrough.rs:19-20` -/
def strikeClose : P Str := preceded (notP (seq (tag cs!"~~") (chr '~'))) (tag cs!"~~")

/-- `strikethrough`, `strikethrough.rs:14-32` -/
def strikethroughP (rec : Str → Option (List Inline)) : P Inline := fun s =>
  match terminated (tag cs!"~~") (notP (chr '~')) s with
  | none => none
  | some (s1, _) =>
    match terminated (recognize (many1 (preceded (notP strikeClose)
        (value '~' (tag cs!"\\~") <||> anychar)))) (tag cs!"~~") s1 with
    | none => none
    | some (s2, content) => match rec content with
      | some l => some (s2, .strikethrough l)
      | none => none

/-! ## Text -/

/-- `html_entity_alpha`, `html_entity.rs:18-30` -/
def htmlEntityAlpha (cfg : PConfig) : P Str :=
  mapOpt (recognize (seq (chr '&') (seq alpha1 (chr ';')))) cfg.entities

/-- `char::from_u32` -/
def charFromU32 (n : Nat) : Option Char :=
  if n.isValidChar then some (Char.ofNat n) else none

/-- `u32::from_str_radix(s, base).ok()` for a non-empty string of digits of that base -/
def parseU32 (base : Nat) (s : Str) : Option Nat :=
  if numVal base s < 2 ^ 32 then some (numVal base s) else none

/-- `html_entity_numeric`, `html_entity.rs:32-46` -/
def htmlEntityNumeric : P Str :=
  mapP (mapOpt (delimited (tag cs!"&#")
      (mapOpt digit1 (parseU32 10) <||>
       mapOpt (preceded (oneOf cs!"xX") hexDigit1) (parseU32 16))
      (chr ';')) charFromU32) (fun c => [c])

/-- `html_entity`, `html_entity.rs:12-16` -/
def htmlEntity (cfg : PConfig) : P Str := htmlEntityAlpha cfg <||> htmlEntityNumeric

/-- `escaped_char`, `text.rs:118-120`: a backslash and an ASCII punctuation character. -/
def escapedChar : P Char :=
  preceded (chr '\\') (oneOf cs!"!\"#$%&'()*+,-./:;<=>?@[\\]^_`{|}~")

/-- `not_a_text`, `text.rs:39-116` -/
def notAText (x : PExt) (cfg : PConfig) (rec : Str → Option (List Inline)) : P Unit :=
  conditionalUnit cfg.autolink autolinkP <||>
  conditionalUnit cfg.referenceLink (referenceLink rec) <||>
  conditionalUnit cfg.hardNewline hardNewline <||>
  conditionalUnit cfg.text (htmlEntity cfg) <||>
  conditionalUnit cfg.image imageP <||>
  conditionalUnit cfg.link (inlineLink rec) <||>
  conditionalUnit cfg.codeSpan codeSpan <||>
  conditionalUnit cfg.emphasis (emphasisP x rec) <||>
  conditionalUnit cfg.footnoteReference footnoteReferenceP <||>
  conditionalUnit cfg.strikethrough (strikethroughP rec) <||>
  value () environmentVariable

/-- The pieces of a text, `text.rs:18-28` -/
def textPiece (x : PExt) (cfg : PConfig) (rec : Str → Option (List Inline)) : P Str :=
  mapP escapedChar (fun c => [c]) <||>
  htmlEntity cfg <||>
  recognize (many1 (preceded (notP (notAText x cfg rec)) anychar))

/-- `text`, `text.rs:13-33` (with `is_text`, `text.rs:35-37`) -/
def textP (x : PExt) (cfg : PConfig) (rec : Str → Option (List Inline)) : P Inline :=
  mapP (many1 (textPiece x cfg rec)) (fun l => .text l.flatten)

/-! ## `inline/mod.rs` -/

/-- `merge_consecutive_text_elements`, `inline/mod.rs:30-60`; `acc` is `current_text` when
`has_text`. -/
def mergeTextAux : Option Str → List Inline → List Inline
  | none, [] => []
  | some t, [] => [.text t]
  | none, .text s :: l => mergeTextAux (some s) l
  | some t, .text s :: l => mergeTextAux (some (t ++ s)) l
  | none, i :: l => i :: mergeTextAux none l
  | some t, i :: l => .text t :: i :: mergeTextAux none l

/-- `merge_consecutive_text_elements`, `inline/mod.rs:30-60` -/
def mergeText (l : List Inline) : List Inline := mergeTextAux none l

/-- `custom_parser`, `inline/mod.rs:142-151`; also `custom_parser`, `blocks/mod.rs:120-131` -/
def customParser {α : Type} (p : Option (P (List α))) : P (List α) :=
  match p with
  | some p => p
  | none => failP

/-- `inline`, `inline/mod.rs:84-140` -/
def inlineStep (x : PExt) (cfg : PConfig) (rec : Str → Option (List Inline)) : P (List Inline) :=
  conditionalInline cfg.autolink (mapP autolinkP .autolink) <||>
  conditionalInline cfg.link (inlineLink rec) <||>
  conditionalInline cfg.footnoteReference footnoteReferenceP <||>
  conditionalInline cfg.referenceLink (referenceLink rec) <||>
  conditionalInline cfg.hardNewline hardNewline <||>
  conditionalInline cfg.image imageP <||>
  conditionalInline cfg.codeSpan (mapP codeSpan .code) <||>
  mapP environmentVariable (fun v => [v]) <||>
  conditionalInline cfg.emphasis (emphasisP x rec) <||>
  conditionalInline cfg.strikethrough (strikethroughP rec) <||>
  customParser cfg.customInline <||>
  conditionalInline cfg.text (textP x cfg rec)

/-- `inline_many1`, `inline/mod.rs:73-82`, for a given `inline`. -/
def inlineMany1With (inl : P (List Inline)) : P (List Inline) :=
  mapP (many1 inl) (fun l => mergeText l.flatten)

/-- `inline_many0`, `inline/mod.rs:62-71`, for a given `inline`. -/
def inlineMany0With (inl : P (List Inline)) : P (List Inline) :=
  mapP (many0 inl) (fun l => mergeText l.flatten)

/-- `inline`, `inline/mod.rs:84-140`, with at most `n` nested calls. -/
def inlineF (x : PExt) (cfg : PConfig) : Nat → P (List Inline)
  | 0 => failP
  | n + 1 => inlineStep x cfg (fun t => (inlineMany1With (inlineF x cfg n) t).map Prod.snd)

/-- The inlines of a string read by `inline_many1`, the rest of the input being dropped, as all
callers do: `inline/mod.rs:73-82`. -/
def parseInlines1 (x : PExt) (cfg : PConfig) (s : Str) : Option (List Inline) :=
  (inlineMany1With (inlineF x cfg (s.length + 1)) s).map Prod.snd

/-- The inlines of a string read by `inline_many0`, the rest of the input being dropped, as all
callers do: `inline/mod.rs:62-71`. -/
def parseInlines0 (x : PExt) (cfg : PConfig) (s : Str) : Option (List Inline) :=
  (inlineMany0With (inlineF x cfg (s.length + 1)) s).map Prod.snd

end Verif
