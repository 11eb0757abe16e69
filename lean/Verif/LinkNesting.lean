import Verif.GrammarDoc
import Verif.TraverseProps
import Verif.CharClasses
/-!
# Links do not nest (C94)

Links, references, images and footnote references all need a closing bracket, and the label of a link ends at the first one
that is not escaped.  So in a text without an escaped closing bracket nothing of this kind is inside a link.
-/
set_option autoImplicit false
namespace Verif
open Nom

/-! ## Specification -/

/-- What is written with a closing bracket. -/
def Inline.Bracketed : Inline → Prop
  | .link _ _ _ => True
  | .linkReference _ _ => True
  | .image _ _ _ => True
  | .footnoteReference _ => True
  | _ => False

/-- A link, inline or by reference. -/
def Inline.IsLink : Inline → Prop
  | .link _ _ _ => True
  | .linkReference _ _ => True
  | _ => False

/-- Nothing that is written with a closing bracket occurs in the inlines, at any depth. -/
def Unbracketed (l : List Inline) : Prop := ∀ j ∈ l, ∀ k : Inline, k.Within j → ¬ k.Bracketed

/-- The text contains an escaped closing bracket. -/
def HasEscapedBracket (s : Str) : Prop := ['\\', ']'] <:+: s

/-! ## Texts -/

theorem HasEscapedBracket.mono {s t : Str} (h : s <:+: t) (hs : HasEscapedBracket s) : HasEscapedBracket t :=
  List.IsInfix.trans hs h

theorem escaped_cons {c : Char} {s : Str} :
    HasEscapedBracket (c :: s) ↔ (c = '\\' ∧ s.head? = some ']') ∨ HasEscapedBracket s := by
  unfold HasEscapedBracket
  rw [List.infix_cons_iff]
  constructor
  · rintro (h | h)
    · left
      obtain ⟨r, hr⟩ := h
      simp only [List.cons_append, List.nil_append, List.cons.injEq] at hr
      exact ⟨hr.1.symm, by rw [← hr.2]; rfl⟩
    · exact .inr h
  · rintro (⟨rfl, h⟩ | h)
    · left
      cases s with
      | nil => simp at h
      | cons d s =>
        simp only [List.head?_cons, Option.some.injEq] at h
        subst h
        exact ⟨s, rfl⟩
    · exact .inr h

theorem not_escaped_append {s t : Str} (hs : ¬ HasEscapedBracket s) (ht : ¬ HasEscapedBracket t)
    (h : t.head? ≠ some ']') : ¬ HasEscapedBracket (s ++ t) := by
  induction s with
  | nil => exact ht
  | cons c s ih =>
    rw [List.cons_append, escaped_cons]
    rw [escaped_cons] at hs
    rintro (⟨rfl, h1⟩ | h1)
    · cases s with
      | nil => exact h h1
      | cons d s => exact hs (.inl ⟨rfl, h1⟩)
    · exact ih (fun h2 => hs (.inr h2)) h1

theorem not_escaped_nil : ¬ HasEscapedBracket [] := by simp [HasEscapedBracket]

theorem not_escaped_join {ls : List Str} (h : ∀ l ∈ ls, ¬ HasEscapedBracket l) : ¬ HasEscapedBracket (joinWith ['\n'] ls) := by
  induction ls with
  | nil => exact not_escaped_nil
  | cons l ls ih =>
    cases ls with
    | nil => simpa [joinWith] using h l (by simp)
    | cons m ls =>
      have : joinWith ['\n'] (l :: m :: ls) = l ++ ('\n' :: joinWith ['\n'] (m :: ls)) := by simp [joinWith]
      rw [this]
      refine not_escaped_append (h l (by simp)) ?_ (by simp)
      rw [escaped_cons]
      rintro (h1 | h1)
      · exact absurd h1.1 (by decide)
      · exact ih (fun l hl => h l (by simp [hl])) h1

theorem Unescapes.plain {w t : Str} (h : Unescapes ']' w t) (hw : ¬ HasEscapedBracket w) : t = w ∧ ']' ∉ w := by
  induction h with
  | nil => simp
  | char hc _ ih =>
    obtain ⟨rfl, h2⟩ := ih (fun h => hw (escaped_cons.2 (.inr h)))
    exact ⟨rfl, by simp [h2, Ne.symm hc]⟩
  | esc _ _ => exact absurd (escaped_cons.2 (.inl ⟨rfl, rfl⟩)) hw

theorem Unescapes.bar {w t : Str} (h : Unescapes '|' w t) (hw : ¬ HasEscapedBracket w) : ¬ HasEscapedBracket t := by
  have key : (t.head? = some ']' → w.head? = some ']') ∧ (¬ HasEscapedBracket w → ¬ HasEscapedBracket t) := by
    clear hw
    induction h with
    | nil => simp
    | char hc _ ih =>
      refine ⟨fun h => h, fun hw => ?_⟩
      rw [escaped_cons] at hw ⊢
      rintro (⟨rfl, h⟩ | h)
      · exact hw (.inl ⟨rfl, ih.1 h⟩)
      · exact ih.2 (fun h' => hw (.inr h')) h
    | esc _ ih =>
      refine ⟨fun h => by simp at h, fun hw => ?_⟩
      rw [escaped_cons]
      rintro (h | h)
      · exact absurd h.1 (by decide)
      · exact ih.2 (fun h' => hw (escaped_cons.2 (.inr (escaped_cons.2 (.inr h'))))) h
  exact key.2 hw

/-! ## Inlines -/

/-- No link in the inline, at any depth, contains anything bracketed. -/
def FlatInline (i : Inline) : Prop := ∀ k : Inline, k.Within i → k.IsLink → Unbracketed k.children

theorem within_leaf {i k : Inline} (hi : i.children = []) (h : k.Within i) : k = i := by
  cases h with
  | self => rfl
  | child _ _ hk _ => rw [hi] at hk; simp at hk

theorem flat_of_children {i : Inline} (hi : i.IsLink → Unbracketed i.children) (h : ∀ j ∈ i.children, FlatInline j) :
    FlatInline i := by
  intro k hk
  cases hk with
  | self => exact hi
  | child _ j hj hk => exact h j hj k hk

theorem unbracketed_one {i : Inline} (hi : ¬ i.Bracketed) (h : Unbracketed i.children) : ∀ k : Inline, k.Within i → ¬ k.Bracketed := by
  intro k hk
  cases hk with
  | self => exact hi
  | child _ j hj hk => exact h j hj k hk

theorem flat_of_unbracketed {l : List Inline} (h : Unbracketed l) : ∀ i ∈ l, FlatInline i := by
  intro i hi k hk hl
  have := h i hi k hk
  cases k <;> simp_all [Inline.IsLink, Inline.Bracketed]

section
variable {x : PExt} {ent : Str → Option Str}

/-- What is known of the inlines of a text. -/
structure TextFlat (l : List Inline) (t : Str) : Prop where
  none : ']' ∉ t → Unbracketed l
  flat : ¬ HasEscapedBracket t → ∀ i ∈ l, FlatInline i

/-- What is known of an inline and its text. -/
structure OneFlat (i : Inline) (w : Str) : Prop where
  none : ']' ∉ w → ∀ k : Inline, k.Within i → ¬ k.Bracketed
  flat : ¬ HasEscapedBracket w → FlatInline i

theorem oneFlat_leaf {i : Inline} {w : Str} (hi : i.children = []) (hb : i.Bracketed → ']' ∈ w) : OneFlat i w :=
  ⟨fun h k hk => by rw [within_leaf hi hk]; exact fun h' => h (hb h'),
   fun _ => flat_of_children (fun _ => by simp [hi, Unbracketed]) (by simp [hi])⟩

theorem oneFlat_inner {i : Inline} {o w : Str} (hi : ¬ i.Bracketed) (hl : ¬ i.IsLink) (ho : o <:+: w)
    (h : TextFlat i.children o) : OneFlat i w :=
  ⟨fun hw => unbracketed_one hi (h.none (fun hm => hw (ho.subset hm))),
   fun hw => flat_of_children (fun h' => absurd h' hl) (h.flat (fun he => hw (he.mono ho)))⟩

theorem BracketText.inner {w t : Str} {l : List Inline} (hb : BracketText w t) (h : TextFlat l t)
    (hw : ¬ HasEscapedBracket w) : Unbracketed l := by
  obtain ⟨rfl, h2⟩ := hb.text.plain hw
  exact h.none h2

theorem unbracketed_append {l m : List Inline} (hl : Unbracketed l) (hm : Unbracketed m) : Unbracketed (l ++ m) := by
  intro j hj
  rcases List.mem_append.1 hj with hj | hj
  · exact hl j hj
  · exact hm j hj

theorem oneFlat_link {i : Inline} {w : Str} (hw : ']' ∈ w)
    (h : ¬ HasEscapedBracket w → Unbracketed i.children) : OneFlat i w :=
  ⟨fun h' => absurd hw h', fun hn => flat_of_children (fun _ => h hn) (flat_of_unbracketed (h hn))⟩

theorem inlines_flat {l : List Inline} {t : Str} (h : InlinesWritten x ent l t) : TextFlat l t := by
  refine InlinesWritten.rec (motive_1 := fun i w _ _ => OneFlat i w) (motive_2 := fun l t _ => TextFlat l t)
    ?_ ?_ ?_ ?_ ?_ ?_ ?_ ?_ ?_ ?_ ?_ ?_ ?_ ?_ ?_ ?_ ?_ h
  · intro w t s _ _
    exact oneFlat_leaf rfl (fun h => h.elim)
  · intros; exact oneFlat_leaf rfl (fun h => h.elim)
  · intros; exact oneFlat_leaf rfl (fun h => h.elim)
  · intros; exact oneFlat_leaf rfl (fun h => h.elim)
  · intro w t wd d s title l hb _ _ ih
    exact oneFlat_link (by simp) (fun hn => hb.inner ih (fun he => hn (he.mono ⟨['['], ']' :: wd, by simp⟩)))
  · intro w t w' t' s l l' hb _ hb' _ ih ih'
    exact oneFlat_link (by simp) (fun hn => unbracketed_append
      (hb'.inner ih' (fun he => hn (he.mono ⟨'[' :: (w ++ [']', '[']), [']'], by simp⟩)))
      (hb.inner ih (fun he => hn (he.mono ⟨['['], ']' :: '[' :: (w' ++ [']']), by simp⟩))))
  · intro w t s l hb _ ih
    have h (hn : ¬ HasEscapedBracket ('[' :: (w ++ cs!"][]"))) := hb.inner ih (fun he => hn (he.mono ⟨['['], cs!"][]", by simp⟩))
    exact oneFlat_link (by simp) (fun hn => unbracketed_append (h hn) (h hn))
  · intro w t s l hb _ ih
    have h (hn : ¬ HasEscapedBracket ('[' :: (w ++ [']']))) := hb.inner ih (fun he => hn (he.mono ⟨['['], [']'], by simp⟩))
    exact oneFlat_link (by simp) (fun hn => unbracketed_append (h hn) (h hn))
  · intros; exact oneFlat_leaf rfl (fun _ => by simp)
  · intro m o s l _ _ _ ih
    exact oneFlat_inner (fun h => h) (fun h => h) ⟨[m], [m], by simp⟩ ih
  · intro m o s l _ _ _ ih
    exact oneFlat_inner (fun h => h) (fun h => h) ⟨[m, m], [m, m], by simp⟩ ih
  · intro m o s l _ _ _ ih
    have h : OneFlat (.emphasis l) o := oneFlat_inner (fun h => h) (fun h => h) (List.infix_refl _) ih
    exact oneFlat_inner (fun h => h) (fun h => h) (o := o) ⟨[m, m, m], [m, m, m], by simp⟩
      ⟨fun hn => by simpa [Unbracketed, Inline.children] using h.none hn,
       fun hn => by simpa [Inline.children] using h.flat hn⟩
  · intro o s l _ _ ih
    exact oneFlat_inner (fun h => h) (fun h => h) ⟨cs!"~~", cs!"~~", by simp⟩ ih
  · intros; exact oneFlat_leaf rfl (fun h => h.elim)
  · intros; exact oneFlat_leaf rfl (fun _ => by simp)
  · exact ⟨fun _ => by simp [Unbracketed], fun _ => by simp⟩
  · intro i l w s _ _ ih1 ih2
    constructor
    · intro hn j hj
      simp only [List.mem_append, not_or] at hn
      rcases List.mem_cons.1 hj with rfl | hj
      · exact ih1.none hn.1
      · exact ih2.none hn.2 j hj
    · intro hn j hj
      rcases List.mem_cons.1 hj with rfl | hj
      · exact ih1.flat (fun h => hn (h.mono ⟨[], s, by simp⟩))
      · exact ih2.flat (fun h => hn (h.mono ⟨w, [], by simp⟩)) j hj

/-! ## Blocks -/

/-- No link in the block, at any depth, contains anything bracketed, and no label of a definition does. -/
def FlatBlock (b : Block) : Prop := ∀ c : Block, c.Within b →
  (∀ i ∈ c.directInlines, FlatInline i) ∧ ∀ l d t, c = .definition l d t → Unbracketed l

theorem flatBlock_of {b : Block} (h : ∀ i ∈ b.directInlines, FlatInline i)
    (hd : ∀ l d t, b = .definition l d t → Unbracketed l) (hc : ∀ c ∈ b.childBlocks, FlatBlock c) : FlatBlock b := by
  intro c hcb
  cases hcb with
  | self => exact ⟨h, hd⟩
  | child _ e he hw => exact hc e he c hw

theorem flatBlock_leaf {b : Block} (h : b.directInlines = []) (hc : b.childBlocks = [])
    (hd : ∀ l d t, b ≠ .definition l d t) : FlatBlock b :=
  flatBlock_of (by simp [h]) (fun l d t e => absurd e (hd l d t)) (by simp [hc])

theorem lines_infix {Pre : Str → Str → Prop} {s : Str} {ls : List Str} {w : Str} (h : LinesWritten Pre s ls w) :
    ∀ l ∈ ls, l <:+: w := by
  induction h with
  | nil => simp
  | @cons p l e w ls _ _ _ ih =>
    intro m hm
    rcases List.mem_cons.1 hm with rfl | hm
    · exact ⟨p, e ++ w, by simp⟩
    · exact (ih m hm).trans ⟨p ++ (l ++ e), [], by simp⟩

theorem lines_join {Pre : Str → Str → Prop} {s : Str} {ls : List Str} {w : Str} (h : LinesWritten Pre s ls w)
    (hw : ¬ HasEscapedBracket w) : ¬ HasEscapedBracket (joinWith ['\n'] ls) :=
  not_escaped_join (fun l hl he => hw (he.mono (lines_infix h l hl)))

theorem cells_flat {cs : List (List Inline)} {o : Str} (h : CellsWritten x ent cs o) (ho : ¬ HasEscapedBracket o) :
    ∀ c ∈ cs, ∀ i ∈ c, FlatInline i := by
  induction h with
  | nil => simp
  | @cons w t o c cs _ _ hu hi _ ih =>
    intro d hd
    rcases List.mem_cons.1 hd with rfl | hd
    · refine (inlines_flat hi).flat (fun he => ?_)
      refine hu.bar (fun he' => ho (he'.mono ⟨['|'], o, by simp⟩)) (he.mono ?_)
      obtain ⟨a, b, h, _⟩ := trim_spec t
      exact ⟨a, b, by rw [List.append_assoc]; exact h.symm⟩
    · exact ih (fun he => ho (he.mono ⟨'|' :: w, [], by simp⟩)) d hd

theorem row_flat {cs : List (List Inline)} {s w : Str} (h : RowWritten x ent s cs w) (hw : ¬ HasEscapedBracket w) :
    ∀ c ∈ cs, ∀ i ∈ c, FlatInline i := by
  cases h with
  | @mk k cs o last e _ _ hc _ _ => exact cells_flat hc (fun he => hw (he.mono ⟨sp k, last ++ e, by simp⟩))

theorem rows_flat {n : Nat} {rs : List (List (List Inline))} {s w : Str} (h : RowsWritten x ent n s rs w)
    (hw : ¬ HasEscapedBracket w) : ∀ r ∈ rs, ∀ c ∈ r, ∀ i ∈ c, FlatInline i := by
  induction h with
  | nil => simp
  | @cons r rs w w' hr _ ih =>
    intro q hq
    rcases List.mem_cons.1 hq with rfl | hq
    · have := row_flat hr (fun he => hw (he.mono ⟨[], w', by simp⟩))
      intro c hc i hi
      have hc := List.mem_of_mem_take hc
      rcases List.mem_append.1 hc with hc | hc
      · exact this c hc i hi
      · obtain ⟨-, rfl⟩ := List.mem_replicate.1 hc
        simp only [List.mem_singleton] at hi
        subst hi
        exact flat_of_children (fun h => h.elim) (by simp [Inline.children])
    · exact ih (fun he => hw (he.mono ⟨w, [], by simp⟩)) q hq

theorem not_escaped_plain {b l : Str} (hb : '\\' ∉ b) (hl : ¬ HasEscapedBracket l) : ¬ HasEscapedBracket (b ++ l) := by
  induction b with
  | nil => exact hl
  | cons c b ih =>
    simp only [List.mem_cons, not_or] at hb
    rw [List.cons_append, escaped_cons]
    rintro (h | h)
    · exact hb.1 h.1.symm
    · exact ih hb.2 h

theorem BlankLines.noBackslash {b : Str} (h : BlankLines b) : '\\' ∉ b := by
  induction h with
  | nil => simp
  | lf hs _ ih =>
    simp only [List.mem_append, List.mem_cons, not_or]
    exact ⟨fun hm => by rcases hs _ hm with h | h <;> exact absurd h (by decide), by decide, ih⟩
  | crlf hs _ ih =>
    simp only [List.mem_append, List.mem_cons, not_or]
    exact ⟨fun hm => by rcases hs _ hm with h | h <;> exact absurd h (by decide), by decide, by decide, ih⟩

theorem item_first {kind : ListKind} {f : Str} {pl : Nat} {t : Option TaskState} {first : Str}
    (h : ItemFirst kind f pl t first) : first <:+: f := by
  cases h with
  | @text k n m _ => exact ⟨sp k ++ (m ++ sp n), [], by simp⟩
  | @task k n m b _ => exact ⟨sp k ++ (m ++ (sp n ++ (b ++ [' ']))), [], by simp⟩
  | empty => exact List.nil_infix
  | box => exact List.nil_infix

theorem item_lines {kind : ListKind} {pl : Nat} {s : Str} {ls : List Str} {w : Str} (h : ItemRest kind pl s ls w)
    (hw : ¬ HasEscapedBracket w) : ∀ l ∈ ls, ¬ HasEscapedBracket l := by
  induction h with
  | nil => simp
  | @text p l e w ls _ _ _ _ _ _ ih =>
    intro m hm
    rcases List.mem_cons.1 hm with rfl | hm
    · exact fun he => hw (he.mono ⟨p, e ++ w, by simp⟩)
    · exact ih (fun he => hw (he.mono ⟨p ++ (l ++ e), [], by simp⟩)) m hm
  | @blank b l e w ls hb _ _ _ _ ih =>
    intro m hm
    rcases List.mem_cons.1 hm with rfl | hm
    · exact not_escaped_plain hb.noBackslash (fun he => hw (he.mono ⟨b ++ sp pl, e ++ w, by simp⟩))
    · exact ih (fun he => hw (he.mono ⟨b ++ (sp pl ++ (l ++ e)), [], by simp⟩)) m hm

variable {cfg : PConfig}

theorem blocks_flat {bs : List Block} {s : Str} (h : BlocksWritten x cfg bs s) : ¬ HasEscapedBracket s → ∀ b ∈ bs, FlatBlock b := by
  refine BlocksWritten.rec (motive_1 := fun b w _ _ => ¬ HasEscapedBracket w → FlatBlock b)
    (motive_2 := fun bs s _ => ¬ HasEscapedBracket s → ∀ b ∈ bs, FlatBlock b)
    (motive_3 := fun _ i w _ _ => ¬ HasEscapedBracket w → ∀ b ∈ i.blocks, FlatBlock b)
    (motive_4 := fun is w _ _ => ¬ HasEscapedBracket w → ∀ i ∈ is, ∀ b ∈ i.blocks, FlatBlock b)
    ?_ ?_ ?_ ?_ ?_ ?_ ?_ ?_ ?_ ?_ ?_ ?_ ?_ ?_ ?_ ?_ ?_ ?_ h
  · intro ls l w s _ hl hi hw
    exact flatBlock_of ((inlines_flat hi).flat (lines_join hl hw)) (fun _ _ _ h => by cases h) (by simp [Block.childBlocks])
  · intro n m t e s l _ _ _ hi hw
    exact flatBlock_of ((inlines_flat hi).flat (fun he => hw (he.mono ⟨m, e, by simp⟩))) (fun _ _ _ h => by cases h)
      (by simp [Block.childBlocks])
  · intro ls l k w u e s _ hl hi _ _ hw
    exact flatBlock_of ((inlines_flat hi).flat (lines_join hl (fun he => hw (he.mono ⟨[], u ++ e, by simp⟩))))
      (fun _ _ _ h => by cases h) (by simp [Block.childBlocks])
  · intros
    exact flatBlock_leaf rfl rfl (fun _ _ _ h => by cases h)
  · intro ls bs w s _ hl _ ih hw
    exact flatBlock_of (by simp [Block.directInlines]) (fun _ _ _ h => by cases h) (ih (lines_join hl hw))
  · intro t l ls bs w s hl _ _ ih hw
    refine flatBlock_of (by simp [Block.directInlines]) (fun _ _ _ h => by cases h) (ih ?_)
    exact not_escaped_join (fun m hm he => hw (he.mono (lines_infix hl m (by simp [hm]))))
  · intro k i l w w' s _ _ ih1 ih2 hw
    refine flatBlock_of (by simp [Block.directInlines]) (fun _ _ _ h => by cases h) (fun c hc => ?_)
    simp only [Block.childBlocks, List.flatMap_cons, List.mem_append, List.mem_flatMap] at hc
    rcases hc with hc | ⟨i, hi, hc⟩
    · exact ih1 (fun he => hw (he.mono ⟨[], w', by simp⟩)) c hc
    · exact ih2 (fun he => hw (he.mono ⟨w, [], by simp⟩)) i hi c hc
  · intros
    exact flatBlock_leaf rfl rfl (fun _ _ _ h => by cases h)
  · intros
    exact flatBlock_leaf rfl rfl (fun _ _ _ h => by cases h)
  · intros
    exact flatBlock_leaf rfl rfl (fun _ _ _ h => by cases h)
  · intro k w t g wd d wt e s title l _ hb hi _ _ _ _ hw
    have hu : Unbracketed l := hb.inner (inlines_flat hi) (fun he => hw (he.mono ⟨sp k ++ ['['], cs!"]:" ++ (g ++ (wd ++ (wt ++ e))), by simp⟩))
    refine flatBlock_of (flat_of_unbracketed hu) (fun l' d' t' h => ?_) (by simp [Block.childBlocks])
    cases h
    exact hu
  · intro k label p first e w s ls bs _ _ _ _ _ hl _ ih hw
    refine flatBlock_of (by simp [Block.directInlines]) (fun _ _ _ h => by cases h) (ih ?_)
    refine not_escaped_join (fun m hm he => hw (he.mono ?_))
    rcases List.mem_cons.1 hm with rfl | hm
    · exact ⟨sp k ++ (cs!"[^" ++ (label ++ (cs!"]:" ++ p))), e ++ w, by simp⟩
    · exact (lines_infix hl m hm).trans ⟨sp k ++ (cs!"[^" ++ (label ++ (cs!"]:" ++ (p ++ (first ++ e))))), [], by simp⟩
  · intro h rs as w a last e w' s k hr _ _ _ _ _ hrs hw
    refine flatBlock_of (fun i hi => ?_) (fun _ _ _ h => by cases h) (by simp [Block.childBlocks])
    simp only [Block.directInlines, List.flatten_cons, List.flatten_append, List.mem_append, List.mem_flatten] at hi
    rcases hi with ⟨c, hc, hi⟩ | ⟨c, ⟨r, hrm, hc⟩, hi⟩
    · exact row_flat hr (fun he => hw (he.mono ⟨[], sp k ++ (a ++ (last ++ (e ++ w'))), by simp⟩)) c hc i hi
    · exact rows_flat hrs (fun he => hw (he.mono ⟨w ++ (sp k ++ (a ++ (last ++ e))), [], by simp⟩)) r hrm c hc i hi
  · intros
    simp_all
  · intro b bs g w s _ _ _ ih1 ih2 hw c hc
    rcases List.mem_cons.1 hc with rfl | hc
    · exact ih1 (fun he => hw (he.mono ⟨g, s, by simp⟩))
    · exact ih2 (fun he => hw (he.mono ⟨g ++ w, [], by simp⟩)) c hc
  · intro k pl t bs f first e w s ls hf _ hr _ ih hw
    refine ih (not_escaped_join (fun m hm => ?_))
    rcases List.mem_cons.1 hm with rfl | hm
    · exact fun he => hw (he.mono ((item_first hf).trans ⟨[], e ++ w, by simp⟩))
    · exact item_lines hr (fun he => hw (he.mono ⟨f ++ e, [], by simp⟩)) m hm
  · intros
    simp_all
  · intro k i l w w' s _ _ ih1 ih2 hw j hj
    rcases List.mem_cons.1 hj with rfl | hj
    · exact ih1 (fun he => hw (he.mono ⟨[], w', by simp⟩))
    · exact ih2 (fun he => hw (he.mono ⟨w, [], by simp⟩)) j hj

/-- **C94.** In the document of a text without an escaped closing bracket, no link (inline or by reference) contains a
link, a reference, an image or a footnote reference, at any depth, and no label of a definition does. -/
theorem C94_links (hk : cfg.Keeps) {s : Str} {d : Document} (h : parseMarkdown x cfg s = some d)
    (hs : ¬ HasEscapedBracket s) : (∀ i, d.HasInline i → i.IsLink → Unbracketed i.children) ∧
      ∀ l dest t, d.HasBlock (.definition l dest t) → Unbracketed l := by
  have hf := blocks_flat (C71_reads hk h) hs
  constructor
  · rintro i ⟨b, ⟨c, hc, hw⟩, j, hj, hij⟩ hl
    exact (hf c hc b hw).1 j hj i hij hl
  · rintro l dest t ⟨c, hc, hw⟩
    exact (hf c hc _ hw).2 l dest t rfl

end

/-- **C94**, a case: an image in a link, as usually written, is no image: the label of the link ends at the first bracket. -/
theorem C94_badge : parseMarkdown PExt.ascii (PConfig.default fun _ => none) cs!"[![a](b)](c)" =
    some ⟨[.paragraph [.link cs!"b" none [.text cs!"![a"], .text cs!"](c)"]]⟩ := by decide +kernel

/-- **C94**: the hypothesis is needed: with escaped brackets links are nested, as deep as there are backslashes; and
autolinks, which need no bracket, are read in links as well, so that anchors are nested in the HTML. -/
theorem C94_nested :
    parseMarkdown PExt.ascii (PConfig.default fun _ => none) cs!"[a [b\\](c) d](e)" =
      some ⟨[.paragraph [.link cs!"e" none [.text cs!"a ", .link cs!"c" none [.text cs!"b"], .text cs!" d"]]]⟩ ∧
    parseMarkdown PExt.ascii (PConfig.default fun _ => none) cs!"[a\\]" = some ⟨[.paragraph [.text cs!"[a\\]"]]⟩ ∧
    parseMarkdown PExt.ascii (PConfig.default fun _ => none) cs!"[<ab:c>](d)" =
      some ⟨[.paragraph [.link cs!"d" none [.autolink cs!"ab:c"]]]⟩ := by
  decide +kernel

end Verif
