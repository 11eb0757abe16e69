import Verif.Effects
/-!
# Specification of C93: the calls that a document needs

A configuration whose closures write down what they are called with, and the calls that the elements of a document stand
for, in document order (what an element contains before the element itself).
-/
set_option autoImplicit false
namespace Verif
namespace Fx

/-- The closures of a configuration.  Those for `heading_v2` and `paragraph` are not told apart: a paragraph is passed to the
one for `heading_v2` where that reads it. -/
inductive Closure where
  | blockquote | headingV1 | headingV2OrParagraph | thematicBreak | list | codeBlock | htmlBlock | footnoteDefinition
  | linkDefinition | table | githubAlert
  | autolink | link | footnoteReference | referenceLink | hardNewline | image | codeSpan | emphasis | strikethrough
  deriving DecidableEq

/-- Which closure was called, and with what: a block or an inline. -/
inductive Call where
  | block (k : Closure) (b : Block)
  | inline (k : Closure) (i : Inline)
  deriving DecidableEq

/-- A closure that returns its block and writes down the call. -/
def logBlock (k : Closure) : Behavior (List Call) Block := .map (fun b log => (b, log ++ [.block k b]))

/-- A closure that returns its inline and writes down the call. -/
def logInline (k : Closure) : Behavior (List Call) Inline := .map (fun i log => (i, log ++ [.inline k i]))

/-- The configuration in which every closure (but that for texts) writes down its calls. -/
def logging (allow : Bool) (entities : Str → Option Str) : Config (List Call) :=
  { allowNoSpaceInHeadings := allow, entities := entities, blockquote := logBlock .blockquote,
    githubAlert := logBlock .githubAlert, headingV1 := logBlock .headingV1, headingV2 := logBlock .headingV2OrParagraph,
    thematicBreak := logBlock .thematicBreak, list := logBlock .list, codeBlock := logBlock .codeBlock,
    htmlBlock := logBlock .htmlBlock, footnoteDefinition := logBlock .footnoteDefinition,
    linkDefinition := logBlock .linkDefinition, table := logBlock .table, paragraph := logBlock .headingV2OrParagraph,
    autolink := logInline .autolink, link := logInline .link, footnoteReference := logInline .footnoteReference,
    referenceLink := logInline .referenceLink, hardNewline := logInline .hardNewline, image := logInline .image,
    codeSpan := logInline .codeSpan, emphasis := logInline .emphasis, strikethrough := logInline .strikethrough }

mutual
/-- The calls for an inline: those for what it contains, then itself; none for texts.  What is between three marks is strong
text that contains nothing but emphasis, for which there is one call, with the strong text.  For a reference those for its
text (which is parsed only once if it is the label too). -/
def inlineCalls : Inline → List Call
  | .text _ => []
  | .empty => []
  | .html _ => []
  | .emphasis c => inlinesCalls c ++ [.inline .emphasis (.emphasis c)]
  | .lineBreak => [.inline .hardNewline .lineBreak]
  | .code s => [.inline .codeSpan (.code s)]
  | .autolink s => [.inline .autolink (.autolink s)]
  | .footnoteReference l => [.inline .footnoteReference (.footnoteReference l)]
  | .image d t a => [.inline .image (.image d t a)]
  | .link d t c => inlinesCalls c ++ [.inline .link (.link d t c)]
  | .linkReference l t => inlinesCalls t ++ [.inline .referenceLink (.linkReference l t)]
  | .strong [.emphasis c] => inlinesCalls c ++ [.inline .emphasis (.strong [.emphasis c])]
  | .strong c => inlinesCalls c ++ [.inline .emphasis (.strong c)]
  | .strikethrough c => inlinesCalls c ++ [.inline .strikethrough (.strikethrough c)]
/-- The calls for inlines, one after the other. -/
def inlinesCalls : List Inline → List Call
  | [] => []
  | i :: l => inlineCalls i ++ inlinesCalls l
end

mutual
/-- The calls for a block: those for what it contains, then itself; none for an alert itself, whose closure is never
called. -/
def blockCalls : Block → List Call
  | .paragraph c => inlinesCalls c ++ [.block .headingV2OrParagraph (.paragraph c)]
  | .heading (.atx k) c => inlinesCalls c ++ [.block .headingV1 (.heading (.atx k) c)]
  | .heading (.setext k) c => inlinesCalls c ++ [.block .headingV2OrParagraph (.heading (.setext k) c)]
  | .thematicBreak => [.block .thematicBreak .thematicBreak]
  | .blockQuote bs => blocksCalls bs ++ [.block .blockquote (.blockQuote bs)]
  | .list k items => itemsCalls items ++ [.block .list (.list k items)]
  | .codeBlock k s => [.block .codeBlock (.codeBlock k s)]
  | .htmlBlock s => [.block .htmlBlock (.htmlBlock s)]
  | .definition l d t => inlinesCalls l ++ [.block .linkDefinition (.definition l d t)]
  | .table rows al => rows.flatMap (fun row => row.flatMap inlinesCalls) ++ [.block .table (.table rows al)]
  | .footnoteDefinition l bs => blocksCalls bs ++ [.block .footnoteDefinition (.footnoteDefinition l bs)]
  | .githubAlert _ bs => blocksCalls bs
  | .empty => []
/-- The calls for blocks, one after the other. -/
def blocksCalls : List Block → List Call
  | [] => []
  | b :: l => blockCalls b ++ blocksCalls l
/-- The calls for the items of a list. -/
def itemsCalls : List ListItem → List Call
  | [] => []
  | .mk _ bs :: l => blocksCalls bs ++ itemsCalls l
end

end Fx
end Verif
