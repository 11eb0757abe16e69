import Verif.Generic
/-!
# Specification vocabulary for the generic AST

`GDocument.data` lists the user data of every node of a document, each node after its children
and siblings from left to right; the document's own data is last.
-/
namespace Verif

mutual
/-- All user data of an inline: children left to right, the node itself last. -/
def GInline.data {T : Type} : GInline T → List T
  | .text _ x => [x]
  | .lineBreak x => [x]
  | .code _ x => [x]
  | .html _ x => [x]
  | .link _ _ c x => GInline.dataL c ++ [x]
  | .linkReference l t x => GInline.dataL l ++ GInline.dataL t ++ [x]
  | .image _ _ _ x => [x]
  | .emphasis c x => GInline.dataL c ++ [x]
  | .strong c x => GInline.dataL c ++ [x]
  | .strikethrough c x => GInline.dataL c ++ [x]
  | .autolink _ x => [x]
  | .footnoteReference _ x => [x]
  | .empty x => [x]
/-- All user data of a list of inlines, left to right. -/
def GInline.dataL {T : Type} : List (GInline T) → List T
  | [] => []
  | i :: l => GInline.data i ++ GInline.dataL l
end

mutual
/-- All user data of a block: children left to right, the node itself last. -/
def GBlock.data {T : Type} : GBlock T → List T
  | .paragraph c x => GInline.dataL c ++ [x]
  | .heading _ c x => GInline.dataL c ++ [x]
  | .thematicBreak x => [x]
  | .blockQuote b x => GBlock.dataL b ++ [x]
  | .list _ i x => GListItem.dataL i ++ [x]
  | .codeBlock _ _ x => [x]
  | .htmlBlock _ x => [x]
  | .definition l _ _ x => GInline.dataL l ++ [x]
  | .table r _ x => (r.flatten.map GInline.dataL).flatten ++ [x]
  | .footnoteDefinition _ b x => GBlock.dataL b ++ [x]
  | .githubAlert _ b x => GBlock.dataL b ++ [x]
  | .empty x => [x]
/-- All user data of a list of blocks, left to right. -/
def GBlock.dataL {T : Type} : List (GBlock T) → List T
  | [] => []
  | b :: l => GBlock.data b ++ GBlock.dataL l
/-- All user data of a list item. -/
def GListItem.data {T : Type} : GListItem T → List T
  | .mk _ b x => GBlock.dataL b ++ [x]
/-- All user data of a list of items. -/
def GListItem.dataL {T : Type} : List (GListItem T) → List T
  | [] => []
  | i :: l => GListItem.data i ++ GListItem.dataL l
end

/-- Every node's user data, in document order with each node after its children. -/
def GDocument.data {T : Type} (d : GDocument T) : List T := GBlock.dataL d.blocks ++ [d.userData]

/-- One call of the id generator's API. -/
inductive IdOp where
  | generate | peek | reset
  deriving DecidableEq, Repr

/-- The id the next call should see after the history `h` (oldest call first) of a generator
created at `start`: number of `generate`s since the last `reset`, counted from 1 if there was a
`reset` and from `start` otherwise. -/
def IdOp.expected (start : Nat) (h : List IdOp) : Nat :=
  (if IdOp.reset ∈ h then 1 else start) +
    (h.reverse.takeWhile (· ≠ IdOp.reset)).count IdOp.generate

/-- Perform one call: the id returned (none for `reset`) and the new generator; `none` is a
panic. -/
def IdOp.exec (ar : Arith) (g : IdGenerator) : IdOp → Option (Option Nat × IdGenerator)
  | .generate => (g.generate ar).map fun p => (some p.1, p.2)
  | .peek => some (some g.peek, g)
  | .reset => some (none, g.reset)

/-- Perform a history of calls; `none` when some call panics. -/
def IdOp.run (ar : Arith) (g : IdGenerator) : List IdOp → Option (List (Option Nat) × IdGenerator)
  | [] => some ([], g)
  | o :: os => do
    let (r, g') ← o.exec ar g
    let (rs, g'') ← IdOp.run ar g' os
    pure (r :: rs, g'')

/-- What each call of a history must return. -/
def IdOp.expectedOutputs (start : Nat) (done : List IdOp) : List IdOp → List (Option Nat)
  | [] => []
  | .reset :: os => none :: IdOp.expectedOutputs start (done ++ [.reset]) os
  | o :: os => some (IdOp.expected start done) :: IdOp.expectedOutputs start (done ++ [o]) os

end Verif
