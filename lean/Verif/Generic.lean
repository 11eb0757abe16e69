import Verif.Ast
/-!
# The generic AST, conversions and data mapping

`src/ast/generic.rs`, `src/ast/convert.rs`, `src/ast/map_data_visitor.rs`,
`src/ast_specialized/element_id.rs`, `src/ast_specialized/utilities.rs`.
-/
namespace Verif

/-- `src/ast/generic.rs:293-424`; the last argument of each constructor is `user_data`. -/
inductive GInline (T : Type) where
  | text (content : Str) (userData : T)
  | lineBreak (userData : T)
  | code (content : Str) (userData : T)
  | html (content : Str) (userData : T)
  | link (destination : Str) (title : Option Str) (children : List (GInline T)) (userData : T)
  | linkReference (label : List (GInline T)) (text : List (GInline T)) (userData : T)
  | image (destination : Str) (title : Option Str) (alt : Str) (userData : T)
  | emphasis (content : List (GInline T)) (userData : T)
  | strong (content : List (GInline T)) (userData : T)
  | strikethrough (content : List (GInline T)) (userData : T)
  | autolink (url : Str) (userData : T)
  | footnoteReference (label : Str) (userData : T)
  | empty (userData : T)

mutual
/-- `src/ast/generic.rs:64-286` -/
inductive GBlock (T : Type) where
  | paragraph (content : List (GInline T)) (userData : T)
  | heading (kind : HeadingKind) (content : List (GInline T)) (userData : T)
  | thematicBreak (userData : T)
  | blockQuote (blocks : List (GBlock T)) (userData : T)
  | list (kind : ListKind) (items : List (GListItem T)) (userData : T)
  | codeBlock (kind : CodeBlockKind) (literal : Str) (userData : T)
  | htmlBlock (content : Str) (userData : T)
  | definition (label : List (GInline T)) (destination : Str) (title : Option Str) (userData : T)
  | table (rows : List (List (List (GInline T)))) (alignments : List Alignment) (userData : T)
  | footnoteDefinition (label : Str) (blocks : List (GBlock T)) (userData : T)
  | githubAlert (alertType : AlertType) (blocks : List (GBlock T)) (userData : T)
  | empty (userData : T)
/-- `src/ast/generic.rs:169-180` -/
inductive GListItem (T : Type) where
  | mk (task : Option TaskState) (blocks : List (GBlock T)) (userData : T)
end

/-- `src/ast/generic.rs:48-57` -/
structure GDocument (T : Type) where
  blocks : List (GBlock T)
  userData : T

/-! ## Induction principles (proof-side only) -/

/-- Induction over generic inlines together with lists of them. -/
theorem GInline.ind {T : Type} {P : GInline T → Prop} {PL : List (GInline T) → Prop}
    (text : ∀ s u, P (.text s u)) (lineBreak : ∀ u, P (.lineBreak u))
    (code : ∀ s u, P (.code s u))
    (html : ∀ s u, P (.html s u)) (link : ∀ d t c u, PL c → P (.link d t c u))
    (linkReference : ∀ l t u, PL l → PL t → P (.linkReference l t u))
    (image : ∀ d t a u, P (.image d t a u)) (emphasis : ∀ c u, PL c → P (.emphasis c u))
    (strong : ∀ c u, PL c → P (.strong c u))
    (strikethrough : ∀ c u, PL c → P (.strikethrough c u))
    (autolink : ∀ s u, P (.autolink s u))
    (footnoteReference : ∀ s u, P (.footnoteReference s u))
    (empty : ∀ u, P (.empty u)) (nil : PL []) (cons : ∀ i l, P i → PL l → PL (i :: l)) :
    (∀ i, P i) ∧ (∀ l, PL l) := by
  have h : ∀ i, P i := fun i => GInline.rec (motive_1 := P) (motive_2 := PL)
    text lineBreak code html link linkReference image emphasis strong strikethrough autolink
    footnoteReference empty nil cons i
  refine ⟨h, fun l => ?_⟩
  induction l with
  | nil => exact nil
  | cons i l ih => exact cons i l (h i) ih

/-- Induction over generic blocks, list items and lists of both. -/
theorem GBlock.ind {T : Type} {P : GBlock T → Prop} {PI : GListItem T → Prop}
    {PL : List (GBlock T) → Prop} {PIL : List (GListItem T) → Prop}
    (paragraph : ∀ c u, P (.paragraph c u)) (heading : ∀ k c u, P (.heading k c u))
    (thematicBreak : ∀ u, P (.thematicBreak u)) (blockQuote : ∀ b u, PL b → P (.blockQuote b u))
    (list : ∀ k i u, PIL i → P (.list k i u)) (codeBlock : ∀ k s u, P (.codeBlock k s u))
    (htmlBlock : ∀ s u, P (.htmlBlock s u)) (definition : ∀ l d t u, P (.definition l d t u))
    (table : ∀ r a u, P (.table r a u))
    (footnoteDefinition : ∀ l b u, PL b → P (.footnoteDefinition l b u))
    (githubAlert : ∀ t b u, PL b → P (.githubAlert t b u)) (empty : ∀ u, P (.empty u))
    (item : ∀ t b u, PL b → PI (.mk t b u))
    (nilB : PL []) (consB : ∀ b l, P b → PL l → PL (b :: l))
    (nilI : PIL []) (consI : ∀ i l, PI i → PIL l → PIL (i :: l)) :
    (∀ b, P b) ∧ (∀ i, PI i) ∧ (∀ l, PL l) ∧ (∀ l, PIL l) := by
  have h : ∀ b, P b := fun b =>
    GBlock.rec (motive_1 := P) (motive_2 := PI) (motive_3 := PL) (motive_4 := PIL)
      paragraph heading thematicBreak blockQuote list codeBlock htmlBlock definition table
      footnoteDefinition githubAlert empty item nilB consB nilI consI b
  have hL : ∀ l, PL l := fun l => by
    induction l with
    | nil => exact nilB
    | cons b l ih => exact consB b l (h b) ih
  have hI : ∀ i, PI i := fun ⟨t, b, u⟩ => item t b u (hL b)
  refine ⟨h, hI, hL, fun l => ?_⟩
  induction l with
  | nil => exact nilI
  | cons i l ih => exact consI i l (hI i) ih

/-! ## `with_data`: regular AST to generic AST

Rust's `T::default()` is the parameter `dflt`. -/

mutual
/-- `src/ast/convert.rs:108-163`, with `Link` 298-313, `Image` 315-326, `LinkReference`
328-346. -/
def Inline.withData {T : Type} (dflt : T) : Inline → T → GInline T
  | .text c, x => .text c x
  | .lineBreak, x => .lineBreak x
  | .code c, x => .code c x
  | .html c, x => .html c x
  | .link d t c, x => .link d t (Inline.withDataL dflt c) x
  | .linkReference l t, x => .linkReference (Inline.withDataL dflt l) (Inline.withDataL dflt t) x
  | .image d t a, x => .image d t a x
  | .emphasis c, x => .emphasis (Inline.withDataL dflt c) x
  | .strong c, x => .strong (Inline.withDataL dflt c) x
  | .strikethrough c, x => .strikethrough (Inline.withDataL dflt c) x
  | .autolink u, x => .autolink u x
  | .footnoteReference l, x => .footnoteReference l x
  | .empty, x => .empty x
/-- `.into_iter().map(|i| i.with_data(T::default())).collect()` (e.g. `convert.rs:76-79`). -/
def Inline.withDataL {T : Type} (dflt : T) : List Inline → List (GInline T)
  | [] => []
  | i :: l => Inline.withData dflt i dflt :: Inline.withDataL dflt l
end

mutual
/-- `src/ast/convert.rs:70-106` with the impls for the struct payloads 165-296. -/
def Block.withData {T : Type} (dflt : T) : Block → T → GBlock T
  | .paragraph c, x => .paragraph (Inline.withDataL dflt c) x
  | .heading k c, x => .heading k (Inline.withDataL dflt c) x
  | .thematicBreak, x => .thematicBreak x
  | .blockQuote b, x => .blockQuote (Block.withDataL dflt b) x
  | .list k i, x => .list k (ListItem.withDataL dflt i) x
  | .codeBlock k s, x => .codeBlock k s x
  | .htmlBlock s, x => .htmlBlock s x
  | .definition l d t, x => .definition (Inline.withDataL dflt l) d t x
  | .table r a, x => .table (r.map fun row => row.map fun cell => Inline.withDataL dflt cell) a x
  | .footnoteDefinition l b, x => .footnoteDefinition l (Block.withDataL dflt b) x
  | .githubAlert t b, x => .githubAlert t (Block.withDataL dflt b) x
  | .empty, x => .empty x
/-- `.into_iter().map(|b| b.with_data(T::default())).collect()` (e.g. `convert.rs:60-64`). -/
def Block.withDataL {T : Type} (dflt : T) : List Block → List (GBlock T)
  | [] => []
  | b :: l => Block.withData dflt b dflt :: Block.withDataL dflt l
/-- `src/ast/convert.rs:197-211` -/
def ListItem.withData {T : Type} (dflt : T) : ListItem → T → GListItem T
  | .mk t b, x => .mk t (Block.withDataL dflt b) x
/-- `src/ast/convert.rs:187-191` -/
def ListItem.withDataL {T : Type} (dflt : T) : List ListItem → List (GListItem T)
  | [] => []
  | i :: l => ListItem.withData dflt i dflt :: ListItem.withDataL dflt l
end

/-- `src/ast/convert.rs:55-68` -/
def Document.withData {T : Type} (dflt : T) (d : Document) (x : T) : GDocument T :=
  { blocks := Block.withDataL dflt d.blocks, userData := x }

/-- `with_default_data`, `src/ast/convert.rs:22-27` -/
def Document.withDefaultData {T : Type} (dflt : T) (d : Document) : GDocument T :=
  d.withData dflt dflt

/-! ## `strip_data`: generic AST to regular AST -/

mutual
/-- `src/ast/convert.rs:389-417`, `Link` 516-526, `Image` 528-538, `LinkReference` 540-549 -/
def GInline.strip {T : Type} : GInline T → Inline
  | .text c _ => .text c
  | .lineBreak _ => .lineBreak
  | .code c _ => .code c
  | .html c _ => .html c
  | .link d t c _ => .link d t (GInline.stripL c)
  | .linkReference l t _ => .linkReference (GInline.stripL l) (GInline.stripL t)
  | .image d t a _ => .image d t a
  | .emphasis c _ => .emphasis (GInline.stripL c)
  | .strong c _ => .strong (GInline.stripL c)
  | .strikethrough c _ => .strikethrough (GInline.stripL c)
  | .autolink u _ => .autolink u
  | .footnoteReference l _ => .footnoteReference l
  | .empty _ => .empty
/-- `.into_iter().map(|i| i.strip_data()).collect()` (e.g. `convert.rs:368`) -/
def GInline.stripL {T : Type} : List (GInline T) → List Inline
  | [] => []
  | i :: l => GInline.strip i :: GInline.stripL l
end

mutual
/-- `src/ast/convert.rs:362-387` with the impls for the struct payloads 419-514 -/
def GBlock.strip {T : Type} : GBlock T → Block
  | .paragraph c _ => .paragraph (GInline.stripL c)
  | .heading k c _ => .heading k (GInline.stripL c)
  | .thematicBreak _ => .thematicBreak
  | .blockQuote b _ => .blockQuote (GBlock.stripL b)
  | .list k i _ => .list k (GListItem.stripL i)
  | .codeBlock k s _ => .codeBlock k s
  | .htmlBlock s _ => .htmlBlock s
  | .definition l d t _ => .definition (GInline.stripL l) d t
  | .table r a _ => .table (r.map fun row => row.map fun cell => GInline.stripL cell) a
  | .footnoteDefinition l b _ => .footnoteDefinition l (GBlock.stripL b)
  | .githubAlert t b _ => .githubAlert t (GBlock.stripL b)
  | .empty _ => .empty
/-- `.into_iter().map(|b| b.strip_data()).collect()` (e.g. `convert.rs:357`) -/
def GBlock.stripL {T : Type} : List (GBlock T) → List Block
  | [] => []
  | b :: l => GBlock.strip b :: GBlock.stripL l
/-- `src/ast/convert.rs:441-450` -/
def GListItem.strip {T : Type} : GListItem T → ListItem
  | .mk t b _ => .mk t (GBlock.stripL b)
/-- `src/ast/convert.rs:436` -/
def GListItem.stripL {T : Type} : List (GListItem T) → List ListItem
  | [] => []
  | i :: l => GListItem.strip i :: GListItem.stripL l
end

/-- `src/ast/convert.rs:352-360` -/
def GDocument.strip {T : Type} (d : GDocument T) : Document := { blocks := GBlock.stripL d.blocks }

/-- `src/ast/convert.rs:837-839` (`Default for ()` is `()`) -/
def toGeneric (d : Document) : GDocument Unit := d.withDefaultData ()

/-- `src/ast/convert.rs:842-844` -/
def fromGeneric (d : GDocument Unit) : Document := d.strip

/-! ## `map_user_data`

A Rust closure `FnMut(T) -> U` is a function on a state `σ` (whatever the closure captures) that
may panic: `T → σ → Option (U × σ)`, i.e. `T → StateT σ Option U`.  A panic aborts the whole
mapping. -/

/-- `iter.map(f).collect()` with a stateful closure: left to right. -/
def mapMList {σ α β : Type} (f : α → StateT σ Option β) : List α → StateT σ Option (List β)
  | [] => pure []
  | a :: l => do
    let b ← f a
    let m ← mapMList f l
    pure (b :: m)

mutual
/-- `src/ast/map_data_visitor.rs:67-117`, `visit_link` 234-245, `visit_image` 248-255,
`visit_link_reference` 258-275.  Rust evaluates struct fields in the order written: children
first, then `user_data`. -/
def visitInline {σ T U : Type} (f : T → StateT σ Option U) : GInline T → StateT σ Option (GInline U)
  | .text c x => do let y ← f x; pure (.text c y)
  | .lineBreak x => do let y ← f x; pure (.lineBreak y)
  | .code c x => do let y ← f x; pure (.code c y)
  | .html c x => do let y ← f x; pure (.html c y)
  | .link d t c x => do
    let c' ← visitInlines f c
    let y ← f x
    pure (.link d t c' y)
  | .linkReference l t x => do
    let l' ← visitInlines f l
    let t' ← visitInlines f t
    let y ← f x
    pure (.linkReference l' t' y)
  | .image d t a x => do let y ← f x; pure (.image d t a y)
  | .emphasis c x => do
    let c' ← visitInlines f c
    let y ← f x
    pure (.emphasis c' y)
  | .strong c x => do
    let c' ← visitInlines f c
    let y ← f x
    pure (.strong c' y)
  | .strikethrough c x => do
    let c' ← visitInlines f c
    let y ← f x
    pure (.strikethrough c' y)
  | .autolink u x => do let y ← f x; pure (.autolink u y)
  | .footnoteReference l x => do let y ← f x; pure (.footnoteReference l y)
  | .empty x => do let y ← f x; pure (.empty y)
/-- `content.into_iter().map(|i| self.visit_inline(i)).collect()` -/
def visitInlines {σ T U : Type} (f : T → StateT σ Option U) :
    List (GInline T) → StateT σ Option (List (GInline U))
  | [] => pure []
  | i :: l => do
    let i' ← visitInline f i
    let l' ← visitInlines f l
    pure (i' :: l')
end

mutual
/-- `src/ast/map_data_visitor.rs:26-64`, with the struct payloads 120-231. -/
def visitBlock {σ T U : Type} (f : T → StateT σ Option U) : GBlock T → StateT σ Option (GBlock U)
  | .paragraph c x => do
    let c' ← visitInlines f c
    let y ← f x
    pure (.paragraph c' y)
  | .heading k c x => do
    let c' ← visitInlines f c
    let y ← f x
    pure (.heading k c' y)
  | .thematicBreak x => do let y ← f x; pure (.thematicBreak y)
  | .blockQuote b x => do
    let b' ← visitBlocks f b
    let y ← f x
    pure (.blockQuote b' y)
  | .list k i x => do
    let i' ← visitItems f i
    let y ← f x
    pure (.list k i' y)
  | .codeBlock k s x => do let y ← f x; pure (.codeBlock k s y)
  | .htmlBlock s x => do let y ← f x; pure (.htmlBlock s y)
  | .definition l d t x => do
    let l' ← visitInlines f l
    let y ← f x
    pure (.definition l' d t y)
  | .table r a x => do
    let r' ← mapMList (mapMList (visitInlines f)) r
    let y ← f x
    pure (.table r' a y)
  | .footnoteDefinition l b x => do
    let b' ← visitBlocks f b
    let y ← f x
    pure (.footnoteDefinition l b' y)
  | .githubAlert t b x => do
    let b' ← visitBlocks f b
    let y ← f x
    pure (.githubAlert t b' y)
  | .empty x => do let y ← f x; pure (.empty y)
/-- `blocks.into_iter().map(|b| self.visit_block(b)).collect()` -/
def visitBlocks {σ T U : Type} (f : T → StateT σ Option U) :
    List (GBlock T) → StateT σ Option (List (GBlock U))
  | [] => pure []
  | b :: l => do
    let b' ← visitBlock f b
    let l' ← visitBlocks f l
    pure (b' :: l')
/-- `src/ast/map_data_visitor.rs:146-156` -/
def visitItem {σ T U : Type} (f : T → StateT σ Option U) :
    GListItem T → StateT σ Option (GListItem U)
  | .mk t b x => do
    let b' ← visitBlocks f b
    let y ← f x
    pure (.mk t b' y)
/-- `src/ast/map_data_visitor.rs:136-140` -/
def visitItems {σ T U : Type} (f : T → StateT σ Option U) :
    List (GListItem T) → StateT σ Option (List (GListItem U))
  | [] => pure []
  | i :: l => do
    let i' ← visitItem f i
    let l' ← visitItems f l
    pure (i' :: l')
end

/-- `map_user_data`, `src/ast/map_data_visitor.rs:309-315`, with `visit_document`,
`src/ast/map_data_visitor.rs:14-23`. -/
def mapUserData {σ T U : Type} (f : T → StateT σ Option U) (d : GDocument T) :
    StateT σ Option (GDocument U) := do
  let b' ← visitBlocks f d.blocks
  let y ← f d.userData
  pure { blocks := b', userData := y }

/-! ## Element ids -/

/-- How `u64 + 1` behaves: `checked` panics on overflow (debug builds), `wrapping` wraps (release
builds). -/
inductive Arith where
  | checked | wrapping
  deriving DecidableEq

/-- `IdGenerator { next_id: u64 }`, `src/ast_specialized/element_id.rs:56-58` -/
structure IdGenerator where
  nextId : Nat
  deriving DecidableEq, Repr

/-- `IdGenerator::new`, `element_id.rs:62-64` -/
def IdGenerator.new : IdGenerator := ⟨1⟩

/-- `IdGenerator::starting_from`, `element_id.rs:67-69` -/
def IdGenerator.startingFrom (n : Nat) : IdGenerator := ⟨n⟩

/-- `IdGenerator::generate`, `element_id.rs:72-76`. -/
def IdGenerator.generate (ar : Arith) (g : IdGenerator) : Option (Nat × IdGenerator) :=
  if g.nextId + 1 < u64Bound then some (g.nextId, ⟨g.nextId + 1⟩)
  else match ar with
    | .checked => none
    | .wrapping => some (g.nextId, ⟨(g.nextId + 1) % u64Bound⟩)

/-- `IdGenerator::peek`, `element_id.rs:79-81` -/
def IdGenerator.peek (g : IdGenerator) : Nat := g.nextId

/-- `IdGenerator::reset`, `element_id.rs:84-86` -/
def IdGenerator.reset (_ : IdGenerator) : IdGenerator := ⟨1⟩

/-- The closure `|_| id_gen.generate()` (`utilities.rs:42,49,79`). -/
def idClosure (ar : Arith) {T : Type} (_ : T) : StateT IdGenerator Option Nat :=
  fun g => g.generate ar

/-- `add_ids_from`, `src/ast_specialized/utilities.rs:46-50` -/
def addIdsFrom (ar : Arith) (d : Document) (start : Nat) : Option (GDocument Nat) :=
  (mapUserData (idClosure ar) (d.withDefaultData ()) (IdGenerator.startingFrom start)).map (·.1)

/-- `add_ids_to_document`, `src/ast_specialized/utilities.rs:39-43` -/
def addIdsToDocument (ar : Arith) (d : Document) : Option (GDocument Nat) :=
  (mapUserData (idClosure ar) (d.withDefaultData ()) IdGenerator.new).map (·.1)

/-- `add_ids_to_generic_document`, `src/ast_specialized/utilities.rs:84-87` -/
def addIdsToGenericDocument (ar : Arith) {T : Type} (d : GDocument T) : Option (GDocument Nat) :=
  (mapUserData (idClosure ar) d IdGenerator.new).map (·.1)

end Verif
