import Verif.GenericTransform
/-!
# What overriding a transformer's methods does (specification for C72 and C73)

Specification only.  `InOrder` and `InOrderConcat` process a list from left to right, passing the
transformer's state along.
-/
namespace Verif
universe u

/-- The elements of a list, one after the other, become one element each. -/
inductive InOrder {α β : Type} {σ : Type u} (R : α → σ → β → σ → Prop) : List α → σ → List β → σ → Prop
  | nil {s : σ} : InOrder R [] s [] s
  | cons {a : α} {b : β} {l : List α} {l' : List β} {s s1 s2 : σ} : R a s b s1 → InOrder R l s1 l' s2 →
      InOrder R (a :: l) s (b :: l') s2

/-- The elements of a list, one after the other, become any number of elements each. -/
inductive InOrderConcat {α β : Type} {σ : Type u} (R : α → σ → List β → σ → Prop) :
    List α → σ → List β → σ → Prop
  | nil {s : σ} : InOrderConcat R [] s [] s
  | cons {a : α} {bs : List β} {l : List α} {l' : List β} {s s1 s2 : σ} : R a s bs s1 →
      InOrderConcat R l s1 l' s2 → InOrderConcat R (a :: l) s (bs ++ l') s2

/-! ## `transform_with` -/

/-- User code that takes over some blocks and inlines (with the state), leaves the others to the
default, and rewrites texts. -/
structure Overrides (σ : Type u) where
  block : Block → σ → Option (Block × σ)
  inline : Inline → σ → Option (Inline × σ)
  text : Str → σ → Str × σ

/-- An inline with no children and no text. -/
def Inline.Atom : Inline → Prop
  | .lineBreak | .code _ | .html _ | .autolink _ | .footnoteReference _ | .empty | .image _ _ _ => True
  | _ => False

/-- A block without children. -/
def Block.Atom : Block → Prop
  | .codeBlock _ _ | .thematicBreak | .htmlBlock _ | .empty => True
  | _ => False

/-- What becomes of an inline. -/
inductive InlineBecomes {σ : Type u} (o : Overrides σ) : Inline → σ → Inline → σ → Prop
  | own {i j : Inline} {s s' : σ} : o.inline i s = some (j, s') → InlineBecomes o i s j s'
  | text {t t' : Str} {s s' : σ} : o.inline (.text t) s = none → o.text t s = (t', s') →
      InlineBecomes o (.text t) s (.text t') s'
  | atom {i : Inline} {s : σ} : o.inline i s = none → i.Atom → InlineBecomes o i s i s
  | emphasis {c c' : List Inline} {s s' : σ} : o.inline (.emphasis c) s = none →
      InOrder (InlineBecomes o) c s c' s' → InlineBecomes o (.emphasis c) s (.emphasis c') s'
  | strong {c c' : List Inline} {s s' : σ} : o.inline (.strong c) s = none →
      InOrder (InlineBecomes o) c s c' s' → InlineBecomes o (.strong c) s (.strong c') s'
  | strikethrough {c c' : List Inline} {s s' : σ} : o.inline (.strikethrough c) s = none →
      InOrder (InlineBecomes o) c s c' s' → InlineBecomes o (.strikethrough c) s (.strikethrough c') s'
  | link {d : Str} {t : Option Str} {c c' : List Inline} {s s' : σ} : o.inline (.link d t c) s = none →
      InOrder (InlineBecomes o) c s c' s' → InlineBecomes o (.link d t c) s (.link d t c') s'
  | linkReference {l l' t t' : List Inline} {s s1 s' : σ} : o.inline (.linkReference l t) s = none →
      InOrder (InlineBecomes o) l s l' s1 → InOrder (InlineBecomes o) t s1 t' s' →
      InlineBecomes o (.linkReference l t) s (.linkReference l' t') s'

/-- Cells, rows: the inlines in order. -/
def CellBecomes {σ : Type u} (o : Overrides σ) : List Inline → σ → List Inline → σ → Prop :=
  InOrder (InlineBecomes o)
def RowBecomes {σ : Type u} (o : Overrides σ) : List (List Inline) → σ → List (List Inline) → σ → Prop :=
  InOrder (CellBecomes o)

mutual
/-- What becomes of a block. -/
inductive BlockBecomes {σ : Type u} (o : Overrides σ) : Block → σ → Block → σ → Prop
  | own {i j : Block} {s s' : σ} : o.block i s = some (j, s') → BlockBecomes o i s j s'
  | atom {i : Block} {s : σ} : o.block i s = none → i.Atom → BlockBecomes o i s i s
  | paragraph {c c' : List Inline} {s s' : σ} : o.block (.paragraph c) s = none →
      InOrder (InlineBecomes o) c s c' s' → BlockBecomes o (.paragraph c) s (.paragraph c') s'
  | heading {k : HeadingKind} {c c' : List Inline} {s s' : σ} : o.block (.heading k c) s = none →
      InOrder (InlineBecomes o) c s c' s' → BlockBecomes o (.heading k c) s (.heading k c') s'
  | definition {l l' : List Inline} {d : Str} {t : Option Str} {s s' : σ} :
      o.block (.definition l d t) s = none → InOrder (InlineBecomes o) l s l' s' →
      BlockBecomes o (.definition l d t) s (.definition l' d t) s'
  | table {r r' : List (List (List Inline))} {a : List Alignment} {s s' : σ} :
      o.block (.table r a) s = none → InOrder (RowBecomes o) r s r' s' →
      BlockBecomes o (.table r a) s (.table r' a) s'
  | blockQuote {b b' : List Block} {s s' : σ} : o.block (.blockQuote b) s = none →
      InOrder (BlockBecomes o) b s b' s' → BlockBecomes o (.blockQuote b) s (.blockQuote b') s'
  | footnoteDefinition {l : Str} {b b' : List Block} {s s' : σ} :
      o.block (.footnoteDefinition l b) s = none → InOrder (BlockBecomes o) b s b' s' →
      BlockBecomes o (.footnoteDefinition l b) s (.footnoteDefinition l b') s'
  | githubAlert {t : AlertType} {b b' : List Block} {s s' : σ} : o.block (.githubAlert t b) s = none →
      InOrder (BlockBecomes o) b s b' s' → BlockBecomes o (.githubAlert t b) s (.githubAlert t b') s'
  | list {k : ListKind} {i i' : List ListItem} {s s' : σ} : o.block (.list k i) s = none →
      InOrder (ItemBecomes o) i s i' s' → BlockBecomes o (.list k i) s (.list k i') s'
/-- What becomes of a list item: its blocks in order. -/
inductive ItemBecomes {σ : Type u} (o : Overrides σ) : ListItem → σ → ListItem → σ → Prop
  | mk {t : Option TaskState} {b b' : List Block} {s s' : σ} : InOrder (BlockBecomes o) b s b' s' →
      ItemBecomes o (.mk t b) s (.mk t b') s'
end

/-! ## `expand_with` -/

/-- User code that replaces some blocks and inlines by any number of them. -/
structure Expansion (σ : Type u) where
  block : Block → σ → Option (List Block × σ)
  inline : Inline → σ → List Inline × σ
  itemBlock : Block → σ → List Block × σ

/-- What becomes of an inline: what the user code makes of it. -/
def InlineExpands {σ : Type u} (o : Expansion σ) (i : Inline) (s : σ) (l : List Inline) (s' : σ) : Prop :=
  o.inline i s = (l, s')

/-- What becomes of a block in a list item. -/
def ItemBlockExpands {σ : Type u} (o : Expansion σ) (i : Block) (s : σ) (l : List Block) (s' : σ) : Prop :=
  o.itemBlock i s = (l, s')

/-- A list item stays one item. -/
inductive ItemExpands {σ : Type u} (o : Expansion σ) : ListItem → σ → ListItem → σ → Prop
  | mk {t : Option TaskState} {b b' : List Block} {s s' : σ} : InOrderConcat (ItemBlockExpands o) b s b' s' →
      ItemExpands o (.mk t b) s (.mk t b') s'

/-- What becomes of a block. -/
inductive BlockExpands {σ : Type u} (o : Expansion σ) : Block → σ → List Block → σ → Prop
  | own {i : Block} {l : List Block} {s s' : σ} : o.block i s = some (l, s') → BlockExpands o i s l s'
  | atom {i : Block} {s : σ} : o.block i s = none → i.Atom → BlockExpands o i s [i] s
  | paragraph {c c' : List Inline} {s s' : σ} : o.block (.paragraph c) s = none →
      InOrderConcat (InlineExpands o) c s c' s' → BlockExpands o (.paragraph c) s [.paragraph c'] s'
  | heading {k : HeadingKind} {c c' : List Inline} {s s' : σ} : o.block (.heading k c) s = none →
      InOrderConcat (InlineExpands o) c s c' s' → BlockExpands o (.heading k c) s [.heading k c'] s'
  | definition {l l' : List Inline} {d : Str} {t : Option Str} {s s' : σ} :
      o.block (.definition l d t) s = none → InOrderConcat (InlineExpands o) l s l' s' →
      BlockExpands o (.definition l d t) s [.definition l' d t] s'
  | table {r : List (List (List Inline))} {a : List Alignment} {s : σ} :
      o.block (.table r a) s = none → BlockExpands o (.table r a) s [.table r a] s
  | blockQuote {b b' : List Block} {s s' : σ} : o.block (.blockQuote b) s = none →
      InOrderConcat (BlockExpands o) b s b' s' → BlockExpands o (.blockQuote b) s [.blockQuote b'] s'
  | footnoteDefinition {l : Str} {b b' : List Block} {s s' : σ} :
      o.block (.footnoteDefinition l b) s = none → InOrderConcat (BlockExpands o) b s b' s' →
      BlockExpands o (.footnoteDefinition l b) s [.footnoteDefinition l b'] s'
  | githubAlert {t : AlertType} {b b' : List Block} {s s' : σ} : o.block (.githubAlert t b) s = none →
      InOrderConcat (BlockExpands o) b s b' s' → BlockExpands o (.githubAlert t b) s [.githubAlert t b'] s'
  | list {k : ListKind} {i i' : List ListItem} {s s' : σ} : o.block (.list k i) s = none →
      InOrder (ItemExpands o) i s i' s' → BlockExpands o (.list k i) s [.list k i'] s'

/-! ## The same for trees with user data

`expand_with` reaches into inlines here (but not into links, headings, list items, tables, footnote
definitions and alerts, which are transformed, not expanded). -/

structure GOverrides (T : Type) (σ : Type u) where
  block : GBlock T → σ → Option (GBlock T × σ)
  inline : GInline T → σ → Option (GInline T × σ)

/-- An inline without children. -/
def GInline.Atom {T : Type} : GInline T → Prop
  | .text _ _ | .lineBreak _ | .code _ _ | .html _ _ | .autolink _ _ | .footnoteReference _ _ | .empty _
  | .image _ _ _ _ => True
  | _ => False

/-- A block without children. -/
def GBlock.Atom {T : Type} : GBlock T → Prop
  | .codeBlock _ _ _ | .thematicBreak _ | .htmlBlock _ _ | .empty _ => True
  | _ => False

/-- What becomes of an inline. -/
inductive GInlineBecomes {T : Type} {σ : Type u} (o : GOverrides T σ) : GInline T → σ → GInline T → σ → Prop
  | own {i j : GInline T} {s s' : σ} : o.inline i s = some (j, s') → GInlineBecomes o i s j s'
  | atom {i : GInline T} {s : σ} : o.inline i s = none → i.Atom → GInlineBecomes o i s i s
  | emphasis {c c' : List (GInline T)} {x : T} {s s' : σ} : o.inline (.emphasis c x) s = none →
      InOrder (GInlineBecomes o) c s c' s' → GInlineBecomes o (.emphasis c x) s (.emphasis c' x) s'
  | strong {c c' : List (GInline T)} {x : T} {s s' : σ} : o.inline (.strong c x) s = none →
      InOrder (GInlineBecomes o) c s c' s' → GInlineBecomes o (.strong c x) s (.strong c' x) s'
  | strikethrough {c c' : List (GInline T)} {x : T} {s s' : σ} : o.inline (.strikethrough c x) s = none →
      InOrder (GInlineBecomes o) c s c' s' → GInlineBecomes o (.strikethrough c x) s (.strikethrough c' x) s'
  | link {d : Str} {t : Option Str} {c c' : List (GInline T)} {x : T} {s s' : σ} :
      o.inline (.link d t c x) s = none → InOrder (GInlineBecomes o) c s c' s' →
      GInlineBecomes o (.link d t c x) s (.link d t c' x) s'
  | linkReference {l l' t t' : List (GInline T)} {x : T} {s s1 s' : σ} :
      o.inline (.linkReference l t x) s = none →
      InOrder (GInlineBecomes o) l s l' s1 → InOrder (GInlineBecomes o) t s1 t' s' →
      GInlineBecomes o (.linkReference l t x) s (.linkReference l' t' x) s'

mutual
/-- What becomes of a block. -/
inductive GBlockBecomes {T : Type} {σ : Type u} (o : GOverrides T σ) : GBlock T → σ → GBlock T → σ → Prop
  | own {i j : GBlock T} {s s' : σ} : o.block i s = some (j, s') → GBlockBecomes o i s j s'
  | atom {i : GBlock T} {s : σ} : o.block i s = none → i.Atom → GBlockBecomes o i s i s
  | paragraph {c c' : List (GInline T)} {x : T} {s s' : σ} : o.block (.paragraph c x) s = none →
      InOrder (GInlineBecomes o) c s c' s' → GBlockBecomes o (.paragraph c x) s (.paragraph c' x) s'
  | heading {k : HeadingKind} {c c' : List (GInline T)} {x : T} {s s' : σ} :
      o.block (.heading k c x) s = none → InOrder (GInlineBecomes o) c s c' s' →
      GBlockBecomes o (.heading k c x) s (.heading k c' x) s'
  | definition {l l' : List (GInline T)} {d : Str} {t : Option Str} {x : T} {s s' : σ} :
      o.block (.definition l d t x) s = none → InOrder (GInlineBecomes o) l s l' s' →
      GBlockBecomes o (.definition l d t x) s (.definition l' d t x) s'
  | table {r r' : List (List (List (GInline T)))} {a : List Alignment} {x : T} {s s' : σ} :
      o.block (.table r a x) s = none → InOrder (InOrder (InOrder (GInlineBecomes o))) r s r' s' →
      GBlockBecomes o (.table r a x) s (.table r' a x) s'
  | blockQuote {b b' : List (GBlock T)} {x : T} {s s' : σ} : o.block (.blockQuote b x) s = none →
      InOrder (GBlockBecomes o) b s b' s' → GBlockBecomes o (.blockQuote b x) s (.blockQuote b' x) s'
  | footnoteDefinition {l : Str} {b b' : List (GBlock T)} {x : T} {s s' : σ} :
      o.block (.footnoteDefinition l b x) s = none → InOrder (GBlockBecomes o) b s b' s' →
      GBlockBecomes o (.footnoteDefinition l b x) s (.footnoteDefinition l b' x) s'
  | githubAlert {t : AlertType} {b b' : List (GBlock T)} {x : T} {s s' : σ} :
      o.block (.githubAlert t b x) s = none → InOrder (GBlockBecomes o) b s b' s' →
      GBlockBecomes o (.githubAlert t b x) s (.githubAlert t b' x) s'
  | list {k : ListKind} {i i' : List (GListItem T)} {x : T} {s s' : σ} : o.block (.list k i x) s = none →
      InOrder (GItemBecomes o) i s i' s' → GBlockBecomes o (.list k i x) s (.list k i' x) s'
/-- What becomes of a list item: its blocks in order. -/
inductive GItemBecomes {T : Type} {σ : Type u} (o : GOverrides T σ) : GListItem T → σ → GListItem T → σ → Prop
  | mk {t : Option TaskState} {b b' : List (GBlock T)} {x : T} {s s' : σ} :
      InOrder (GBlockBecomes o) b s b' s' → GItemBecomes o (.mk t b x) s (.mk t b' x) s'
end

structure GExpansion (T : Type) (σ : Type u) where
  block : GBlock T → σ → Option (List (GBlock T) × σ)
  inline : GInline T → σ → Option (List (GInline T) × σ)

/-- What becomes of an inline. -/
inductive GInlineExpands {T : Type} {σ : Type u} (o : GExpansion T σ) :
    GInline T → σ → List (GInline T) → σ → Prop
  | own {i : GInline T} {l : List (GInline T)} {s s' : σ} : o.inline i s = some (l, s') →
      GInlineExpands o i s l s'
  | atom {i : GInline T} {s : σ} : o.inline i s = none → i.Atom → GInlineExpands o i s [i] s
  | link {d : Str} {t : Option Str} {c : List (GInline T)} {x : T} {s : σ} : o.inline (.link d t c x) s = none →
      GInlineExpands o (.link d t c x) s [.link d t c x] s
  | emphasis {c c' : List (GInline T)} {x : T} {s s' : σ} : o.inline (.emphasis c x) s = none →
      InOrderConcat (GInlineExpands o) c s c' s' → GInlineExpands o (.emphasis c x) s [.emphasis c' x] s'
  | strong {c c' : List (GInline T)} {x : T} {s s' : σ} : o.inline (.strong c x) s = none →
      InOrderConcat (GInlineExpands o) c s c' s' → GInlineExpands o (.strong c x) s [.strong c' x] s'
  | strikethrough {c c' : List (GInline T)} {x : T} {s s' : σ} : o.inline (.strikethrough c x) s = none →
      InOrderConcat (GInlineExpands o) c s c' s' →
      GInlineExpands o (.strikethrough c x) s [.strikethrough c' x] s'
  | linkReference {l l' t t' : List (GInline T)} {x : T} {s s1 s' : σ} :
      o.inline (.linkReference l t x) s = none →
      InOrderConcat (GInlineExpands o) l s l' s1 → InOrderConcat (GInlineExpands o) t s1 t' s' →
      GInlineExpands o (.linkReference l t x) s [.linkReference l' t' x] s'

/-- A block that is not expanded inside. -/
def GBlock.Opaque {T : Type} : GBlock T → Prop
  | .heading _ _ _ | .list _ _ _ | .table _ _ _ | .footnoteDefinition _ _ _ | .githubAlert _ _ _ => True
  | b => b.Atom

/-- What becomes of a block. -/
inductive GBlockExpands {T : Type} {σ : Type u} (o : GExpansion T σ) : GBlock T → σ → List (GBlock T) → σ → Prop
  | own {i : GBlock T} {l : List (GBlock T)} {s s' : σ} : o.block i s = some (l, s') → GBlockExpands o i s l s'
  | opaque {i : GBlock T} {s : σ} : o.block i s = none → i.Opaque → GBlockExpands o i s [i] s
  | paragraph {c c' : List (GInline T)} {x : T} {s s' : σ} : o.block (.paragraph c x) s = none →
      InOrderConcat (GInlineExpands o) c s c' s' → GBlockExpands o (.paragraph c x) s [.paragraph c' x] s'
  | definition {l l' : List (GInline T)} {d : Str} {t : Option Str} {x : T} {s s' : σ} :
      o.block (.definition l d t x) s = none → InOrderConcat (GInlineExpands o) l s l' s' →
      GBlockExpands o (.definition l d t x) s [.definition l' d t x] s'
  | blockQuote {b b' : List (GBlock T)} {x : T} {s s' : σ} : o.block (.blockQuote b x) s = none →
      InOrderConcat (GBlockExpands o) b s b' s' → GBlockExpands o (.blockQuote b x) s [.blockQuote b' x] s'

end Verif
