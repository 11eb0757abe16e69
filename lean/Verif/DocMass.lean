import Verif.DocSize
import Verif.RoundTripList
/-!
# How much is in a document (C98)

The strings of the document of a text, its references, list items, table rows and empty cells together are at most four
times as many as the characters of the text, if this has no escaped closing bracket.  From the grammar of C71.
-/
set_option autoImplicit false
namespace Verif
open Nom

/-! ## Specification -/

/-- The number of characters an inline has itself: those of its text, destination, title or label. -/
def Inline.letters : Inline → Nat
  | .text s => s.length
  | .code s => s.length
  | .html s => s.length
  | .autolink s => s.length
  | .footnoteReference s => s.length
  | .link d t _ => d.length + (t.getD []).length
  | .image d t a => d.length + (t.getD []).length + a.length
  | _ => 0

/-- The number of characters a block has itself. -/
def Block.letters : Block → Nat
  | .codeBlock k s => s.length + (match k with | .fenced info => (info.getD []).length | .indented => 0)
  | .htmlBlock s => s.length
  | .definition _ d t => d.length + (t.getD []).length
  | .footnoteDefinition l _ => l.length
  | .githubAlert (.custom n) _ => n.length
  | .list (.ordered n) _ => (Nat.toDigits 10 n).length
  | _ => 0

/-- 1 for what has a label: references. -/
def Inline.labels : Inline → Nat
  | .linkReference _ _ => 1
  | .footnoteReference _ => 1
  | _ => 0

/-- 1 for what has a label: footnotes. -/
def Block.labels : Block → Nat
  | .footnoteDefinition _ _ => 1
  | _ => 0

/-- The number of items of a list; the number of rows and of empty cells of a table. -/
def Block.frames : Block → Nat
  | .list _ items => items.length
  | .table rows _ => rows.length + (rows.flatten.map fun c => if c = [] then 1 else 0).sum
  | _ => 0

/-- The number of characters in the strings of a document. -/
def Document.letters (d : Document) : Nat := (d.allBlocks.map Block.letters).sum + (d.allInlines.map Inline.letters).sum

/-- The number of references and footnotes of a document. -/
def Document.labels (d : Document) : Nat := (d.allBlocks.map Block.labels).sum + (d.allInlines.map Inline.labels).sum

/-- The number of list items, table rows and empty cells of a document. -/
def Document.frames (d : Document) : Nat := (d.allBlocks.map Block.frames).sum

/-- No entity is longer than its name, and no character has more than three capital letters. -/
structure Modest (x : PExt) (ent : Str → Option Str) : Prop where
  entity : ∀ name v, ent name = some v → v.length ≤ name.length
  upper : ∀ c, (x.upper c).length ≤ 3

/-! ## Sums -/

/-- What an inline has itself. -/
def Inline.own (i : Inline) : Nat := i.letters + i.labels

/-- What a block has itself. -/
def Block.own (b : Block) : Nat := b.letters + b.labels + b.frames

/-- What there is in inlines. -/
def inlineMass (l : List Inline) : Nat := ((Inline.preL l).map Inline.own).sum

/-- What there is in blocks, given in order. -/
def mass (l : List Block) : Nat := (l.map fun b => b.own + inlineMass b.directInlines).sum

theorem sum_map_add {α : Type} (f g : α → Nat) (l : List α) : (l.map fun a => f a + g a).sum = (l.map f).sum + (l.map g).sum := by
  induction l with
  | nil => rfl
  | cons a l ih => simp only [List.map_cons, List.sum_cons, ih]; omega

theorem sum_flatMap {α β : Type} (f : β → Nat) (g : α → List β) (l : List α) :
    ((l.flatMap g).map f).sum = (l.map fun a => ((g a).map f).sum).sum := by
  induction l with
  | nil => rfl
  | cons a l ih => simp [List.flatMap_cons, ih]

theorem Document.mass_eq (d : Document) : d.letters + d.labels + d.frames = mass (Block.preL d.blocks) := by
  have h1 : (d.allInlines.map Inline.own).sum = (d.allInlines.map Inline.letters).sum + (d.allInlines.map Inline.labels).sum :=
    sum_map_add _ _ _
  have h2 : (d.allBlocks.map Block.own).sum = (d.allBlocks.map Block.letters).sum + (d.allBlocks.map Block.labels).sum +
      (d.allBlocks.map Block.frames).sum := by
    rw [← sum_map_add, ← sum_map_add]; rfl
  have h3 : mass (Block.preL d.blocks) = (d.allBlocks.map Block.own).sum + (d.allInlines.map Inline.own).sum := by
    rw [Document.allInlines, sum_flatMap, ← sum_map_add]; rfl
  rw [h3, h1, h2, Document.letters, Document.labels, Document.frames]
  omega

theorem mass_append (l m : List Block) : mass (l ++ m) = mass l + mass m := by simp [mass]

theorem mass_cons (b : Block) (l : List Block) : mass (b :: l) = b.own + inlineMass b.directInlines + mass l := by
  simp [mass]

theorem inlineMass_cons (i : Inline) (l : List Inline) : inlineMass (i :: l) = (i.pre.map Inline.own).sum + inlineMass l := by
  simp [inlineMass, Inline.preL]

theorem inlineMass_append (l m : List Inline) : inlineMass (l ++ m) = inlineMass l + inlineMass m := by
  induction l with
  | nil => simp [inlineMass, Inline.preL]
  | cons i l ih => rw [List.cons_append, inlineMass_cons, ih, inlineMass_cons]; omega

/-! ## Texts are no longer than they are written -/

section
variable {x : PExt} {ent : Str → Option Str}

theorem TextWritten.length_le (hm : Modest x ent) {w t : Str} (h : TextWritten ent w t) : t.length ≤ w.length := by
  induction h with
  | nil => simp
  | char _ ih => simpa using ih
  | esc _ _ ih => simp only [List.length_cons]; omega
  | ref hr _ ih =>
    cases hr with
    | dec => simp only [List.length_append, List.length_cons, List.length_nil]; omega
    | hex => simp only [List.length_append, List.length_cons, List.length_nil]; omega
    | named _ _ he =>
      have := hm.entity _ _ he
      simp only [List.length_append, List.length_cons, List.length_nil] at this ⊢
      omega

theorem LinesAsSpaces.length_le {w t : Str} (h : LinesAsSpaces w t) : t.length ≤ w.length := by
  induction h with
  | nil => simp
  | newline he _ ih => rcases he with rfl | rfl <;> simp only [List.length_append, List.length_cons, List.length_nil] <;> omega
  | char _ _ _ ih => simp only [List.length_cons]; omega

theorem Unpadded.length_le {w t : Str} (h : Unpadded w t) : t.length ≤ w.length := by
  cases h with
  | padded => simp only [List.length_cons, List.length_append, List.length_nil]; omega
  | bare => simp

theorem AngleDest.length_le {w t : Str} (h : AngleDest w t) : t.length ≤ w.length := by
  induction h with
  | nil => simp
  | chr _ _ ih => simpa using ih
  | back _ _ ih => simp only [List.length_cons] at ih ⊢; omega
  | esc _ _ ih => simp only [List.length_cons]; omega

theorem TitleText.length_le {q : Char} {w t : Str} (h : TitleText q w t) : t.length ≤ w.length := by
  induction h with
  | nil => simp
  | chr _ _ _ ih => simpa using ih
  | esc _ ih => simp only [List.length_cons]; omega

theorem LinkTitle.length_le {w t : Str} (h : LinkTitle w t) : t.length ≤ w.length := by
  cases h with
  | double h => have := h.length_le; simp; omega
  | single h => have := h.length_le; simp; omega
  | paren h => have := h.length_le; simp; omega

theorem DestWritten.length_le {w d : Str} (h : DestWritten w d) : d.length ≤ w.length := by
  cases h with
  | bare => simp
  | back => simp
  | angle h => have := h.length_le; simp; omega

theorem DestTitleWritten.length_le {w d : Str} {t : Option Str} (h : DestTitleWritten w d t) :
    d.length + (t.getD []).length ≤ w.length := by
  cases h with
  | plain _ h _ => have := h.length_le; simp; omega
  | title _ h _ h' _ => have := h.length_le; have := h'.length_le; simp; omega

theorem DefTitle.length_le {w : Str} {t : Option Str} (h : DefTitle w t) : (t.getD []).length ≤ w.length := by
  cases h with
  | none => simp
  | some _ h => have := h.length_le; simp; omega

/-! ## Inlines -/

theorem inlines_mass (hm : Modest x ent) {l : List Inline} {t : Str} (h : InlinesWritten x ent l t) : CountText (inlineMass l) t := by
  refine InlinesWritten.rec (motive_1 := fun i w _ _ => CountText (i.pre.map Inline.own).sum w)
    (motive_2 := fun l t _ => CountText (inlineMass l) t)
    ?_ ?_ ?_ ?_ ?_ ?_ ?_ ?_ ?_ ?_ ?_ ?_ ?_ ?_ ?_ ?_ ?_ h
  · intro w t s hw ht
    have := ht.length_le hm
    exact .of_le (by simpa [Inline.pre, Inline.own, Inline.letters, Inline.labels] using this)
  · intros; exact .of_le (by simp [Inline.pre, Inline.own, Inline.letters, Inline.labels])
  · intro n e s hn _; exact .of_le (by simp [Inline.pre, Inline.own, Inline.letters, Inline.labels])
  · intro w c s hc
    cases hc with
    | mk hn _ _ _ _ _ hl hu =>
      have := hl.length_le
      have := hu.length_le
      exact .of_le (by simp [Inline.pre, Inline.own, Inline.letters, Inline.labels]; omega)
  · intro w t wd d s title l hb _ hd ih
    refine ⟨fun h => by simp at h, fun hn => ?_⟩
    have := hb.count ih (fun he => hn (he.mono ⟨['['], ']' :: wd, by simp⟩))
    have := hd.length_le
    simp only [Inline.pre, List.map_cons, List.sum_cons, Inline.own, Inline.letters, Inline.labels, List.length_cons,
      List.length_append, inlineMass] at *
    omega
  · intro w t w' t' s l l' hb _ hb' _ ih ih'
    refine ⟨fun h => by simp at h, fun hn => ?_⟩
    have h1 := hb'.count ih' (fun he => hn (he.mono ⟨'[' :: (w ++ [']', '[']), [']'], by simp⟩))
    have h2 := hb.count ih (fun he => hn (he.mono ⟨['['], ']' :: '[' :: (w' ++ [']']), by simp⟩))
    simp only [Inline.pre, List.map_cons, List.sum_cons, List.map_append, List.sum_append, Inline.letters, Inline.labels,
      List.length_cons, List.length_append, inlineMass, Inline.own] at *
    omega
  · intro w t s l hb _ ih
    refine ⟨fun h => by simp at h, fun hn => ?_⟩
    have h1 := hb.count ih (fun he => hn (he.mono ⟨['['], cs!"][]", by simp⟩))
    simp only [Inline.pre, List.map_cons, List.sum_cons, List.map_append, List.sum_append, Inline.letters, Inline.labels,
      List.length_cons, List.length_append, inlineMass, Inline.own] at *
    omega
  · intro w t s l hb _ ih
    refine ⟨fun h => by simp at h, fun hn => ?_⟩
    have h1 := hb.count ih (fun he => hn (he.mono ⟨['['], [']'], by simp⟩))
    simp only [Inline.pre, List.map_cons, List.sum_cons, List.map_append, List.sum_append, Inline.letters, Inline.labels,
      List.length_cons, List.length_append, inlineMass, Inline.own] at *
    omega
  · intro alt wd d s title _ hd
    have := hd.length_le
    exact .of_le (by simp [Inline.pre, Inline.own, Inline.letters, Inline.labels]; omega)
  · intro m o s l _ _ _ ih
    have := ih.inner (k := 0) (w := m :: (o ++ [m])) ⟨[m], [m], by simp⟩ (by simp; omega)
    simpa [Inline.pre, inlineMass, Inline.own, Inline.letters, Inline.labels] using this
  · intro m o s l _ _ _ ih
    have := ih.inner (k := 0) (w := m :: m :: (o ++ [m, m])) ⟨[m, m], [m, m], by simp⟩ (by simp; omega)
    simpa [Inline.pre, inlineMass, Inline.own, Inline.letters, Inline.labels] using this
  · intro m o s l _ _ _ ih
    have := ih.inner (k := 0) (w := m :: m :: m :: (o ++ [m, m, m])) ⟨[m, m, m], [m, m, m], by simp⟩ (by simp; omega)
    simpa [Inline.pre, Inline.preL, inlineMass, Inline.own, Inline.letters, Inline.labels] using this
  · intro o s l _ _ ih
    have := ih.inner (k := 0) (w := cs!"~~" ++ (o ++ cs!"~~")) ⟨cs!"~~", cs!"~~", by simp⟩ (by simp; omega)
    simpa [Inline.pre, inlineMass, Inline.own, Inline.letters, Inline.labels] using this
  · intros; exact .of_le (by simp only [Inline.pre, Inline.own, Inline.letters, Inline.labels, List.map_cons, List.map_nil, List.sum_cons, List.sum_nil, List.length_cons, List.length_append, List.length_nil]; omega)
  · intros; exact .of_le (by simp only [Inline.pre, Inline.own, Inline.letters, Inline.labels, List.map_cons, List.map_nil, List.sum_cons, List.sum_nil, List.length_cons, List.length_append, List.length_nil]; omega)
  · exact .of_le (by simp [inlineMass, Inline.preL])
  · intro i l w s _ _ ih1 ih2
    rw [inlineMass_cons]
    constructor
    · intro hn
      simp only [List.mem_append, not_or] at hn
      have h1 := ih1.none hn.1
      have h2 := ih2.none hn.2
      simp only [List.length_append]
      omega
    · intro hn
      have h1 := ih1.two (fun h => hn (h.mono ⟨[], s, by simp⟩))
      have h2 := ih2.two (fun h => hn (h.mono ⟨w, [], by simp⟩))
      simp only [List.length_append]
      omega

theorem inline_mass (hm : Modest x ent) {l : List Inline} {t : Str} (h : InlinesWritten x ent l t) (ht : ¬ HasEscapedBracket t) :
    inlineMass l ≤ 2 * t.length := (inlines_mass hm h).two ht

/-! ## Tables -/

/-- What there is in cells. -/
def cellsMass (cs : List (List Inline)) : Nat := (cs.map fun c => inlineMass c + if c = [] then 1 else 0).sum

theorem cellsMass_eq (cs : List (List Inline)) :
    cellsMass cs = inlineMass cs.flatten + (cs.map fun c => if c = [] then 1 else 0).sum := by
  induction cs with
  | nil => simp [inlineMass, Inline.preL, cellsMass]
  | cons c cs ih =>
    rw [List.flatten_cons, inlineMass_append, List.map_cons, List.sum_cons]
    have : cellsMass (c :: cs) = (inlineMass c + if c = [] then 1 else 0) + cellsMass cs := by simp [cellsMass]
    rw [this, ih]
    omega

theorem cellsMass_append (a b : List (List Inline)) : cellsMass (a ++ b) = cellsMass a + cellsMass b := by
  simp [cellsMass]

theorem cells_mass (hm : Modest x ent) {cs : List (List Inline)} {o : Str} (h : CellsWritten x ent cs o)
    (ho : ¬ HasEscapedBracket o) : cellsMass cs + cs.length ≤ 2 * o.length := by
  induction h with
  | nil => simp [cellsMass]
  | @cons w t o c cs hw _ hu hi _ ih =>
    have h1 := ih (fun he => ho (he.mono ⟨'|' :: w, [], by simp⟩))
    obtain ⟨a, b, ht, _⟩ := trim_spec t
    have h2 := inline_mass hm hi (fun he => hu.bar (fun he' => ho (he'.mono ⟨['|'], o, by simp⟩))
      (he.mono ⟨a, b, by rw [List.append_assoc]; exact ht.symm⟩))
    have h3 : t.length = a.length + ((trim t).length + b.length) := by
      simpa using congrArg List.length ht
    have h4 := hu.length_le
    have h5 : (if c = [] then 1 else 0) ≤ 1 := by split <;> omega
    simp only [cellsMass, List.map_cons, List.sum_cons, List.length_cons, List.length_append] at h1 ⊢
    omega

theorem row_mass (hm : Modest x ent) {cs : List (List Inline)} {s w : Str} (h : RowWritten x ent s cs w)
    (hw : ¬ HasEscapedBracket w) : cellsMass cs + 1 ≤ 2 * w.length := by
  cases h with
  | @mk k cs o last e _ hne hc _ _ =>
    have := cells_mass hm hc (fun he => hw (he.mono ⟨sp k, last ++ e, by simp⟩))
    have := List.length_pos_iff.2 hne
    simp only [List.length_append]
    omega

theorem cellsMass_fitted (n : Nat) (r : List (List Inline)) : cellsMass (fitted n r) ≤ cellsMass r := by
  have h1 : ∀ m a, cellsMass (a.take m) ≤ cellsMass a := by
    intro m a
    have := cellsMass_append (a.take m) (a.drop m)
    rw [List.take_append_drop] at this
    omega
  refine Nat.le_trans (h1 _ _) ?_
  rw [cellsMass_append]
  have : ∀ k, cellsMass (List.replicate k [.text []]) = 0 := by
    intro k
    simp [cellsMass, inlineMass, Inline.preL, Inline.pre, Inline.own, Inline.letters, Inline.labels]
  rw [this]
  omega

theorem rows_mass (hm : Modest x ent) {n : Nat} {rs : List (List (List Inline))} {s w : Str}
    (h : RowsWritten x ent n s rs w) (hw : ¬ HasEscapedBracket w) : cellsMass rs.flatten + rs.length ≤ 2 * w.length := by
  induction h with
  | nil => simp [cellsMass]
  | @cons r rs w w' hr _ ih =>
    have h1 := row_mass hm hr (fun he => hw (he.mono ⟨[], w', by simp⟩))
    have h2 := ih (fun he => hw (he.mono ⟨w, [], by simp⟩))
    have h3 := cellsMass_fitted n r
    rw [List.flatten_cons, cellsMass_append, List.length_append, List.length_cons]
    omega

/-! ## Blocks -/

theorem digits_length {ds : Str} (h : ds ≠ []) (hd : ∀ c ∈ ds, isDigit c = true) :
    (Nat.toDigits 10 (numVal 10 ds)).length ≤ ds.length := by
  rw [Nat.length_toDigits_le_iff (by decide) (List.length_pos_iff.2 h)]
  have key : ∀ (ds : Str) (v : Nat), (∀ c ∈ ds, isDigit c = true) →
      ds.foldl (fun v c => 10 * v + hexVal c) v < (v + 1) * 10 ^ ds.length := by
    intro ds
    induction ds with
    | nil => intro v _; simp
    | cons c ds ih =>
      intro v hd
      have h1 := ih (10 * v + hexVal c) fun d h => hd d (by simp [h])
      have h2 : hexVal c ≤ 9 := by
        have := hd c (by simp)
        rw [Md.Spec.hexVal_digit this]
        simp only [isDigit, Bool.and_eq_true, decide_eq_true_eq] at this
        have h9 : c.toNat ≤ '9'.toNat := this.2
        have e9 : '9'.toNat = 57 := rfl
        have e0 : '0'.toNat = 48 := rfl
        omega
      rw [List.foldl_cons, List.length_cons, Nat.pow_succ']
      refine Nat.lt_of_lt_of_le h1 ?_
      rw [← Nat.mul_assoc]
      exact Nat.mul_le_mul (by omega) (Nat.le_refl _)
  simpa [numVal] using key ds 0 hd

/-- The number of characters of the number of a list. -/
def startDigits : ListKind → Nat
  | .ordered n => (Nat.toDigits 10 n).length
  | .bullet _ => 0

theorem Marker.start {k : ListKind} {m : Str} (h : Marker k m) : startDigits k + 1 ≤ m.length := by
  cases h with
  | dash => simp [startDigits]
  | star => simp [startDigits]
  | plus => simp [startDigits]
  | ordered h1 h2 _ _ =>
    have := digits_length h1 h2
    simp only [startDigits, List.length_append, List.length_cons, List.length_nil]
    omega

theorem itemFirst_mass {kind : ListKind} {f : Str} {pl : Nat} {t : Option TaskState} {first : Str}
    (h : ItemFirst kind f pl t first) : first.length + startDigits kind + 1 ≤ f.length := by
  cases h with
  | text _ h => have := h.start; simp only [List.length_append]; omega
  | task _ h => have := h.start; simp only [List.length_append, List.length_cons]; omega
  | empty _ h => have := h.start; simp only [List.length_append, List.length_nil]; omega
  | box _ h => have := h.start; simp only [List.length_append, List.length_nil]; omega

theorem upper_length (hm : Modest x ent) (s : Str) : (x.upperStr s).length ≤ 3 * s.length := by
  induction s with
  | nil => simp [PExt.upperStr]
  | cons c s ih =>
    have := hm.upper c
    simp only [PExt.upperStr, List.flatMap_cons, List.length_append, List.length_cons] at ih ⊢
    omega

theorem alert_letters (hm : Modest x ent) {t : AlertType} {l : Str} (bs : List Block)
    (h : x.upperStr (trim l) = cs!"[!" ++ (alertWord t ++ [']'])) : (Block.githubAlert t bs).own ≤ 3 * l.length := by
  have h1 := upper_length hm (trim l)
  obtain ⟨a, b, ht, _⟩ := trim_spec l
  have h3 : l.length = a.length + ((trim l).length + b.length) := by
    simpa using congrArg List.length ht
  rw [h] at h1
  cases t <;> simp [Block.own, Block.letters, Block.labels, Block.frames, alertWord] at h1 ⊢
  omega

variable {cfg : PConfig}

theorem lines_before {Pre : Str → Str → Prop} {s : Str} (hs : s ≠ []) {ls : List Str} {w : Str}
    (h : LinesWritten Pre s ls w) : linesLength ls ≤ w.length := by
  induction h with
  | nil => simp [linesLength]
  | @cons p l e w ls _ hl _ ih =>
    simp only [linesLength, List.map_cons, List.sum_cons, List.length_append] at ih ⊢
    rcases hl.ends.cases_length with he | ⟨_, hw⟩
    · omega
    · exact absurd (List.append_eq_nil_iff.1 hw).2 hs

theorem mass_leaf {b : Block} (h : b.pre = [b]) : mass b.pre = b.own + inlineMass b.directInlines := by
  rw [h]; simp [mass]

theorem inlineMass_nil : inlineMass [] = 0 := by simp [inlineMass, Inline.preL]

theorem blocks_mass (hm : Modest x cfg.entities) {bs : List Block} {s : Str} (h : BlocksWritten x cfg bs s) :
    Sized False True s → mass (Block.preL bs) ≤ 3 * s.length := by
  refine BlocksWritten.rec (motive_1 := fun b w _ _ => Sized False True w → mass b.pre ≤ 3 * w.length)
    (motive_2 := fun bs s _ => Sized False True s → mass (Block.preL bs) ≤ 3 * s.length)
    (motive_3 := fun k i w _ _ => Sized False True w → mass i.pre + 1 + startDigits k ≤ 3 * w.length)
    (motive_4 := fun is w _ _ => Sized False True w → mass (ListItem.preL is) + is.length ≤ 3 * w.length)
    ?_ ?_ ?_ ?_ ?_ ?_ ?_ ?_ ?_ ?_ ?_ ?_ ?_ ?_ ?_ ?_ ?_ ?_ h
  · intro ls l w s hne hl hi hw
    have h1 := inline_mass hm hi ((Sized.join (hw.lines hl)).esc.resolve_left id)
    have h2 := join_length ls
    have h3 := lines_length paragraphPrefix_ne 0 (by simp) hl
    rw [mass_leaf (by simp [Block.pre])]
    simp only [Block.directInlines, Block.own, Block.letters, Block.labels, Block.frames]
    omega
  · intro n m t e s l _ hne _ hi hw
    have h1 := inline_mass hm hi ((hw.mono ⟨m, e, by simp⟩).esc.resolve_left id)
    rw [mass_leaf (by simp [Block.pre])]
    simp only [Block.directInlines, Block.own, Block.letters, Block.labels, Block.frames, List.length_append]
    omega
  · intro ls l k w u e s hne hl hi _ _ hw
    have hw' := hw.mono (s := w) ⟨[], u ++ e, by simp⟩
    have h1 := inline_mass hm hi ((Sized.join (hw'.lines hl)).esc.resolve_left id)
    have h2 := join_length ls
    have h3 := lines_length paragraphPrefix_ne 0 (by simp) hl
    rw [mass_leaf (by simp [Block.pre])]
    simp only [Block.directInlines, Block.own, Block.letters, Block.labels, Block.frames, List.length_append]
    omega
  · intro l e s ht _ hw
    rw [mass_leaf (by simp [Block.pre])]
    simp [Block.directInlines, Block.own, Block.letters, Block.labels, Block.frames, inlineMass_nil]
  · intro ls bs w s hne hl _ ih hw
    have h1 := ih (Sized.join (hw.lines hl))
    have h2 := join_length ls
    have h3 := lines_length quotePrefix_ne 1 quotePrefix_length hl
    rw [Block.pre, mass_cons]
    simp only [Block.directInlines, Block.own, Block.letters, Block.labels, Block.frames, inlineMass_nil]
    omega
  · intro t l ls bs w s hl ha _ ih hw
    have h1 := ih (Sized.join (fun m hm => hw.lines hl m (by simp [hm])))
    have h2 := join_length ls
    have h3 := lines_length quotePrefix_ne 1 quotePrefix_length hl
    simp only [linesLength, List.map_cons, List.sum_cons, List.length_cons] at h2 h3
    have h4 := alert_letters hm bs ha
    rw [Block.pre, mass_cons]
    simp only [Block.directInlines, inlineMass_nil]
    omega
  · intro k i l w w' s _ _ ih1 ih2 hw
    have h1 := ih1 (hw.mono ⟨[], w', by simp⟩)
    have h2 := ih2 (hw.mono ⟨w, [], by simp⟩)
    have h3 : (Block.list k (i :: l)).own = startDigits k + (l.length + 1) := by
      cases k <;> simp [Block.own, Block.letters, Block.labels, Block.frames, startDigits]
    rw [Block.pre, mass_cons, ListItem.preL, mass_append, List.length_append, h3]
    simp only [Block.directInlines, inlineMass_nil]
    omega
  · intro ls w s hne hl hw
    rw [mass_leaf (by simp [Block.pre])]
    have h2 := join_length ls
    have h3 := lines_length codePrefix_ne 0 (by simp) hl
    simp only [Block.directInlines, Block.own, Block.letters, Block.labels, Block.frames, inlineMass_nil]
    omega
  · intro f k n info ls e w c e' s _ _ hn _ _ _ hl hc _ hw
    rw [mass_leaf (by simp [Block.pre])]
    have h2 := join_length ls
    have hne : c ≠ [] := by
      obtain ⟨k, m, _, hnm, rfl⟩ := hc
      intro he
      have := congrArg List.length he
      simp only [List.length_append, List.length_replicate, List.length_nil] at this
      omega
    have h3 : linesLength ls ≤ w.length := lines_before (by simp [hne]) hl
    simp only [Block.directInlines, Block.own, Block.letters, Block.labels, Block.frames, inlineMass_nil, List.length_append, List.length_replicate]
    omega
  · intro k h s _ hh hw
    rw [mass_leaf (by simp [Block.pre])]
    simp only [Block.directInlines, Block.own, Block.letters, Block.labels, Block.frames, inlineMass_nil, List.length_append]
    omega
  · intro k w t g wd d wt e s title l _ hb hi _ hd ht _ hw
    have h1 := inline_mass hm hi (by
      have hw' := (hw.mono (s := w) ⟨sp k ++ ['['], cs!"]:" ++ (g ++ (wd ++ (wt ++ e))), by simp⟩).esc.resolve_left id
      obtain ⟨rfl, _⟩ := hb.text.plain hw'
      exact hw')
    have h2 := hb.text.length_le
    have h3 := hd.length_le
    have h4 := ht.length_le
    rw [mass_leaf (by simp [Block.pre])]
    simp only [Block.directInlines, Block.own, Block.letters, Block.labels, Block.frames, List.length_append, List.length_cons]
    omega
  · intro k label p first e w s ls bs _ _ _ _ _ hl _ ih hw
    have h1 := ih (Sized.join (fun m hm => hw.mono ?_))
    · have h2 := join_length (first :: ls)
      have h3 := lines_length footnotePrefix_ne 0 (by simp) hl
      simp only [linesLength, List.map_cons, List.sum_cons] at h2 h3
      rw [Block.pre, mass_cons]
      simp only [Block.directInlines, Block.own, Block.letters, Block.labels, Block.frames, inlineMass_nil, List.length_append,
        List.length_cons, List.length_nil]
      omega
    · rcases List.mem_cons.1 hm with rfl | hm
      · exact ⟨sp k ++ (cs!"[^" ++ (label ++ (cs!"]:" ++ p))), e ++ w, by simp⟩
      · exact (lines_infix hl m hm).trans ⟨sp k ++ (cs!"[^" ++ (label ++ (cs!"]:" ++ (p ++ (first ++ e))))), [], by simp⟩
  · intro h rs as w a last e w' s k hr _ ha _ _ hlen hrs hw
    have h1 := row_mass hm hr ((hw.mono ⟨[], sp k ++ (a ++ (last ++ (e ++ w'))), by simp⟩).esc.resolve_left id)
    have h2 := rows_mass hm hrs ((hw.mono ⟨w ++ (sp k ++ (a ++ (last ++ e))), [], by simp⟩).esc.resolve_left id)
    rw [mass_leaf (by simp [Block.pre])]
    have h3 := cellsMass_eq (h :: rs).flatten
    rw [List.flatten_cons, cellsMass_append] at h3
    simp only [Block.directInlines, Block.own, Block.letters, Block.labels, Block.frames, List.length_cons, List.flatten_cons,
      List.length_append] at h3 ⊢
    omega
  · intro s _ _
    simp [Block.preL, mass]
  · intro b bs g w s _ _ _ ih1 ih2 hw
    have h1 := ih1 (hw.mono ⟨g, s, by simp⟩)
    have h2 := ih2 (hw.mono ⟨g ++ w, [], by simp⟩)
    rw [Block.preL, mass_append]
    simp only [List.length_append]
    omega
  · intro k pl t bs f first e w s ls hf hle hr _ ih hw
    have h1 := ih (Sized.join (fun m hm => ?_))
    · have h2 := join_length (first :: ls)
      have h3 := item_length hr
      have h6 := itemFirst_mass hf
      simp only [linesLength, List.map_cons, List.sum_cons] at h2 h3
      have h5 : (joinWith ['\n'] (first :: ls)).length + startDigits k + 1 ≤ (f ++ (e ++ w)).length := by
        simp only [List.length_append]
        rcases hle.ends.cases_length with he | ⟨rfl, hws⟩
        · omega
        · rw [List.append_eq_nil_iff] at hws
          have := h3.2 hws.1
          subst this
          simp only [List.map_nil, List.sum_nil] at h2
          omega
      rw [ListItem.pre]
      omega
    · rcases List.mem_cons.1 hm with rfl | hm
      · exact hw.mono ((item_first hf).trans ⟨[], e ++ w, by simp⟩)
      · exact (hw.mono ⟨f ++ e, [], by simp⟩).items hr m hm
  · intro s _
    simp [ListItem.preL, mass]
  · intro k i l w w' s _ _ ih1 ih2 hw
    have h1 := ih1 (hw.mono ⟨[], w', by simp⟩)
    have h2 := ih2 (hw.mono ⟨w, [], by simp⟩)
    rw [ListItem.preL, mass_append, List.length_append, List.length_cons]
    omega

/-- **C98.** The strings of the document of a text without an escaped closing bracket, its references and footnotes, list
items, table rows and empty cells are together at most three times as many as the characters of the text. -/
theorem C98_linear (hk : cfg.Keeps) (hm : Modest x cfg.entities) {s : Str} {d : Document} (h : parseMarkdown x cfg s = some d)
    (hs : ¬ HasEscapedBracket s) : d.letters + d.labels + d.frames ≤ 3 * s.length := by
  rw [Document.mass_eq]
  exact blocks_mass hm (C71_reads hk h) ⟨.inr hs, .inl trivial⟩

end

end Verif
