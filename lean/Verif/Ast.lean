import Verif.Basic
/-!
# The AST (`src/ast/mod.rs`, `src/ast/github_alerts.rs`)

Rust wraps the payload of several enum variants in a struct (`Inline::Link(Link { .. })`); here
the fields are the constructor's arguments, in declaration order.
-/
namespace Verif

/-- `src/ast/mod.rs:114-121` -/
inductive SetextHeading where
  | level1 | level2
  deriving DecidableEq, Repr

/-- `src/ast/mod.rs:103-110`; the `u8` is a `Nat`. -/
inductive HeadingKind where
  | atx (level : Nat)
  | setext (s : SetextHeading)
  deriving DecidableEq, Repr

/-- `src/ast/mod.rs:160-169` -/
inductive BulletKind where
  | dash | star | plus
  deriving DecidableEq, Repr

/-- `src/ast/mod.rs:141-156`; the `u64` start is a `Nat` (values below `2^64`). -/
inductive ListKind where
  | ordered (start : Nat)
  | bullet (k : BulletKind)
  deriving DecidableEq, Repr

/-- `src/ast/mod.rs:185-192` -/
inductive TaskState where
  | incomplete | complete
  deriving DecidableEq, Repr

/-- `src/ast/mod.rs:211-221` -/
inductive CodeBlockKind where
  | indented
  | fenced (info : Option Str)
  deriving DecidableEq, Repr

/-- `src/ast/mod.rs:265-279` -/
inductive Alignment where
  | none | left | center | right
  deriving DecidableEq, Repr

/-- `src/ast/github_alerts.rs:4-17` -/
inductive AlertType where
  | note | tip | important | warning | caution
  | custom (label : Str)
  deriving DecidableEq, Repr

/-- `src/ast/mod.rs:302-382` -/
inductive Inline where
  | text (s : Str)
  | lineBreak
  | code (s : Str)
  | html (s : Str)
  | link (destination : Str) (title : Option Str) (children : List Inline)
  | linkReference (label : List Inline) (text : List Inline)
  | image (destination : Str) (title : Option Str) (alt : Str)
  | emphasis (children : List Inline)
  | strong (children : List Inline)
  | strikethrough (children : List Inline)
  | autolink (s : Str)
  | footnoteReference (label : Str)
  | empty
  deriving Repr, Inhabited

mutual
/-- `src/ast/mod.rs:51-89` with `Heading` 92-100, `List` 129-137, `CodeBlock` 200-208,
`LinkDefinition` 229-239, `Table` 248-262, `FootnoteDefinition` 287-295, `GitHubAlert`
(`github_alerts.rs:22-27`). -/
inductive Block where
  | paragraph (content : List Inline)
  | heading (kind : HeadingKind) (content : List Inline)
  | thematicBreak
  | blockQuote (blocks : List Block)
  | list (kind : ListKind) (items : List ListItem)
  | codeBlock (kind : CodeBlockKind) (literal : Str)
  | htmlBlock (s : Str)
  | definition (label : List Inline) (destination : Str) (title : Option Str)
  | table (rows : List (List (List Inline))) (alignments : List Alignment)
  | footnoteDefinition (label : Str) (blocks : List Block)
  | githubAlert (alertType : AlertType) (blocks : List Block)
  | empty
/-- `src/ast/mod.rs:174-181` -/
inductive ListItem where
  | mk (task : Option TaskState) (blocks : List Block)
end

deriving instance Repr for Block, ListItem
deriving instance Inhabited for Block, ListItem

/-- The task state of an item (`src/ast/mod.rs:176`). -/
def ListItem.task : ListItem → Option TaskState | .mk t _ => t
/-- The blocks of an item (`src/ast/mod.rs:179`). -/
def ListItem.blocks : ListItem → List Block | .mk _ b => b

/-- `src/ast/mod.rs:39-44` -/
structure Document where
  blocks : List Block
  deriving Repr, Inhabited

/-! ## Induction principles (proof-side only) -/

/-- Induction over inlines together with lists of inlines. -/
theorem Inline.ind {P : Inline → Prop} {PL : List Inline → Prop}
    (text : ∀ s, P (.text s)) (lineBreak : P .lineBreak) (code : ∀ s, P (.code s))
    (html : ∀ s, P (.html s)) (link : ∀ d t c, PL c → P (.link d t c))
    (linkReference : ∀ l t, PL l → PL t → P (.linkReference l t))
    (image : ∀ d t a, P (.image d t a)) (emphasis : ∀ c, PL c → P (.emphasis c))
    (strong : ∀ c, PL c → P (.strong c)) (strikethrough : ∀ c, PL c → P (.strikethrough c))
    (autolink : ∀ s, P (.autolink s)) (footnoteReference : ∀ s, P (.footnoteReference s))
    (empty : P .empty) (nil : PL []) (cons : ∀ i l, P i → PL l → PL (i :: l)) :
    (∀ i, P i) ∧ (∀ l, PL l) := by
  have h : ∀ i, P i := fun i => Inline.rec (motive_1 := P) (motive_2 := PL)
    text lineBreak code html link linkReference image emphasis strong strikethrough autolink
    footnoteReference empty nil cons i
  refine ⟨h, fun l => ?_⟩
  induction l with
  | nil => exact nil
  | cons i l ih => exact cons i l (h i) ih

/-- Induction over blocks, list items and lists of both. -/
theorem Block.ind {P : Block → Prop} {PI : ListItem → Prop} {PL : List Block → Prop}
    {PIL : List ListItem → Prop}
    (paragraph : ∀ c, P (.paragraph c)) (heading : ∀ k c, P (.heading k c))
    (thematicBreak : P .thematicBreak) (blockQuote : ∀ b, PL b → P (.blockQuote b))
    (list : ∀ k i, PIL i → P (.list k i)) (codeBlock : ∀ k s, P (.codeBlock k s))
    (htmlBlock : ∀ s, P (.htmlBlock s)) (definition : ∀ l d t, P (.definition l d t))
    (table : ∀ r a, P (.table r a))
    (footnoteDefinition : ∀ l b, PL b → P (.footnoteDefinition l b))
    (githubAlert : ∀ t b, PL b → P (.githubAlert t b)) (empty : P .empty)
    (item : ∀ t b, PL b → PI (.mk t b))
    (nilB : PL []) (consB : ∀ b l, P b → PL l → PL (b :: l))
    (nilI : PIL []) (consI : ∀ i l, PI i → PIL l → PIL (i :: l)) :
    (∀ b, P b) ∧ (∀ i, PI i) ∧ (∀ l, PL l) ∧ (∀ l, PIL l) := by
  have h : ∀ b, P b := fun b =>
    Block.rec (motive_1 := P) (motive_2 := PI) (motive_3 := PL) (motive_4 := PIL)
      paragraph heading thematicBreak blockQuote list codeBlock htmlBlock definition table
      footnoteDefinition githubAlert empty item nilB consB nilI consI b
  have hL : ∀ l, PL l := fun l => by
    induction l with
    | nil => exact nilB
    | cons b l ih => exact consB b l (h b) ih
  have hI : ∀ i, PI i := fun ⟨t, b⟩ => item t b (hL b)
  refine ⟨h, hI, hL, fun l => ?_⟩
  induction l with
  | nil => exact nilI
  | cons i l ih => exact consI i l (hI i) ih

/-! ## Decidable equality (`#[derive(PartialEq, Eq)]`) -/

mutual
/-- Derived `PartialEq` of `Inline` (`src/ast/mod.rs:302`). -/
def Inline.beq : Inline → Inline → Bool
  | .text a, .text b => decide (a = b)
  | .lineBreak, .lineBreak => true
  | .code a, .code b => decide (a = b)
  | .html a, .html b => decide (a = b)
  | .link d t c, .link d' t' c' => decide (d = d') && decide (t = t') && Inline.beqL c c'
  | .linkReference l t, .linkReference l' t' => Inline.beqL l l' && Inline.beqL t t'
  | .image d t a, .image d' t' a' => decide (d = d') && decide (t = t') && decide (a = a')
  | .emphasis c, .emphasis c' => Inline.beqL c c'
  | .strong c, .strong c' => Inline.beqL c c'
  | .strikethrough c, .strikethrough c' => Inline.beqL c c'
  | .autolink a, .autolink b => decide (a = b)
  | .footnoteReference a, .footnoteReference b => decide (a = b)
  | .empty, .empty => true
  | _, _ => false
/-- Equality of inline lists. -/
def Inline.beqL : List Inline → List Inline → Bool
  | [], [] => true
  | a :: l, b :: m => Inline.beq a b && Inline.beqL l m
  | _, _ => false
end

theorem Inline.beq_iff_aux :
    (∀ a b, Inline.beq a b = true ↔ a = b) ∧ (∀ a b, Inline.beqL a b = true ↔ a = b) := by
  apply Inline.ind
  case nil => intro m; cases m <;> simp [Inline.beqL]
  case cons => intro b l hb hl m; cases m <;> simp [Inline.beqL, hb, hl]
  all_goals (intros; rename_i b; cases b <;> simp [Inline.beq, *, and_assoc])

theorem Inline.beq_iff (a b : Inline) : Inline.beq a b = true ↔ a = b :=
  Inline.beq_iff_aux.1 a b

instance : DecidableEq Inline := fun a b =>
  decidable_of_iff (Inline.beq a b = true) (Inline.beq_iff a b)

mutual
/-- Derived `PartialEq` of `Block` (`src/ast/mod.rs:51`). -/
def Block.beq : Block → Block → Bool
  | .paragraph a, .paragraph b => decide (a = b)
  | .heading k a, .heading k' b => decide (k = k') && decide (a = b)
  | .thematicBreak, .thematicBreak => true
  | .blockQuote a, .blockQuote b => Block.beqL a b
  | .list k a, .list k' b => decide (k = k') && ListItem.beqL a b
  | .codeBlock k a, .codeBlock k' b => decide (k = k') && decide (a = b)
  | .htmlBlock a, .htmlBlock b => decide (a = b)
  | .definition l d t, .definition l' d' t' =>
    decide (l = l') && decide (d = d') && decide (t = t')
  | .table r a, .table r' a' => decide (r = r') && decide (a = a')
  | .footnoteDefinition l a, .footnoteDefinition l' b => decide (l = l') && Block.beqL a b
  | .githubAlert l a, .githubAlert l' b => decide (l = l') && Block.beqL a b
  | .empty, .empty => true
  | _, _ => false
termination_by structural a => a
/-- Equality of block lists. -/
def Block.beqL : List Block → List Block → Bool
  | [], [] => true
  | a :: l, b :: m => Block.beq a b && Block.beqL l m
  | _, _ => false
termination_by structural a => a
/-- Derived `PartialEq` of `ListItem` (`src/ast/mod.rs:174`). -/
def ListItem.beq : ListItem → ListItem → Bool
  | .mk t a, .mk t' b => decide (t = t') && Block.beqL a b
termination_by structural a => a
/-- Equality of item lists. -/
def ListItem.beqL : List ListItem → List ListItem → Bool
  | [], [] => true
  | a :: l, b :: m => ListItem.beq a b && ListItem.beqL l m
  | _, _ => false
termination_by structural a => a
end

private theorem Block.beq_iff_aux :
    (∀ a b, Block.beq a b = true ↔ a = b) ∧ (∀ a b, ListItem.beq a b = true ↔ a = b) ∧
    (∀ a b, Block.beqL a b = true ↔ a = b) ∧ (∀ a b, ListItem.beqL a b = true ↔ a = b) := by
  apply Block.ind
  case item => intro t b ih j; cases j; simp [ListItem.beq, ih]
  case nilB => intro m; cases m <;> simp [Block.beqL]
  case nilI => intro m; cases m <;> simp [ListItem.beqL]
  case consB => intro b l hb hl m; cases m <;> simp [Block.beqL, hb, hl]
  case consI => intro b l hb hl m; cases m <;> simp [ListItem.beqL, hb, hl]
  all_goals (intros; rename_i b; cases b <;> simp [Block.beq, *, and_assoc])

theorem Block.beq_iff (a b : Block) : Block.beq a b = true ↔ a = b := Block.beq_iff_aux.1 a b

instance : DecidableEq Block := fun a b =>
  decidable_of_iff (Block.beq a b = true) (Block.beq_iff a b)

theorem ListItem.beq_iff (i j : ListItem) : ListItem.beq i j = true ↔ i = j :=
  Block.beq_iff_aux.2.1 i j

instance : DecidableEq ListItem := fun a b =>
  decidable_of_iff (ListItem.beq a b = true) (ListItem.beq_iff a b)

deriving instance DecidableEq for Document

end Verif
