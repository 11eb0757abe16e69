import Verif.Transform
import Verif.TraverseSpec
/-!
# Specification vocabulary for transforms

What a transform is *about*: the strings of a document it targets (in document order), and what
is left of the document when those strings are blanked out.
-/
namespace Verif

/-- The kinds of string the convenience transforms target. -/
inductive Target where
  | text | imageUrl | linkUrl | autolink | code | html
  deriving DecidableEq, Repr

/-- The targeted string of an inline, if it is of that kind. -/
def Target.ofInline : Target → Inline → Option Str
  | .text, .text t => some t
  | .imageUrl, .image d _ _ => some d
  | .linkUrl, .link d _ _ => some d
  | .autolink, .autolink l => some l
  | .code, .code c => some c
  | .html, .html h => some h
  | _, _ => none

/-- The targeted string of a block, if it is of that kind. -/
def Target.ofBlock : Target → Block → Option Str
  | .html, .htmlBlock h => some h
  | _, _ => none

/-- Replace the targeted string of one node. -/
def Target.setInline (f : Str → Str) : Target → Inline → Inline
  | .text, .text t => .text (f t)
  | .imageUrl, .image d t a => .image (f d) t a
  | .linkUrl, .link d t c => .link (f d) t c
  | .autolink, .autolink l => .autolink (f l)
  | .code, .code c => .code (f c)
  | .html, .html h => .html (f h)
  | _, i => i

/-- Replace the targeted string of one block. -/
def Target.setBlock (f : Str → Str) : Target → Block → Block
  | .html, .htmlBlock h => .htmlBlock (f h)
  | _, b => b

/-- The targeted strings of a document in document order: those in inlines, those in blocks. -/
def Document.strings (k : Target) (d : Document) : List Str × List Str :=
  (d.allInlines.filterMap k.ofInline, d.allBlocks.filterMap k.ofBlock)

/-- The document with every targeted string blanked out: its shape and all its other content. -/
def Document.skeleton (k : Target) (d : Document) : Document :=
  d.mapNodes (k.setInline fun _ => []) (k.setBlock fun _ => [])

/-- The public convenience transform for each target. -/
def Document.transform (k : Target) (f : Str → Str) (d : Document) : Document :=
  match k with
  | .text => d.transformText f
  | .imageUrl => d.transformImageUrls f
  | .linkUrl => d.transformLinkUrls f
  | .autolink => d.transformAutolinkUrls f
  | .code => d.transformCode f
  | .html => d.transformHtml f

/-- Blank: nothing but whitespace. -/
def Blank (t : Str) : Prop := ∀ c ∈ t, isWs c = true

/-- Canonical spacing: the only whitespace character is the space, it does not occur first or
last, and never twice in a row. -/
structure CanonicalSpacing (t : Str) : Prop where
  onlySpace : ∀ c ∈ t, isWs c = true → c = ' '
  first : t.head? ≠ some ' '
  last : t.getLast? ≠ some ' '
  single : ¬ [' ', ' '] <:+: t

/-- `IsWords t ws`: `ws` are the words of `t` in order: maximal runs of non-whitespace. -/
inductive IsWords : Str → List Str → Prop
  | blank {t : Str} : Blank t → IsWords t []
  | word {gap w rest : Str} {ws : List Str} : Blank gap → w ≠ [] → (∀ c ∈ w, isWs c = false) →
      (∀ c ∈ rest.head?, isWs c = true) → IsWords rest ws → IsWords (gap ++ w ++ rest) (w :: ws)

end Verif
