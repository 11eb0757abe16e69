import Verif.LinkNesting
import Verif.Needs
/-!
# C100: every element of a document is written by its construct

For each element of a document, at any depth, there is a text that writes it by the grammar of C71, with no characters but
those of the input (and the line ends between the lines of a container).  So the elements that C77 leaves out need their
characters as well.
-/
set_option autoImplicit false
namespace Verif
open Nom

section
variable {x : PExt} {cfg : PConfig} {ent : Str → Option Str} {A : Char → Prop}

theorem Over.infix {s r : Str} (h : Over A s) (hr : r <:+: s) : Over A r := fun c hc => h c (hr.subset hc)

theorem Over.unescapes {e : Char} {w t : Str} (hu : Unescapes e w t) (h : Over A w) : Over A t := by
  induction hu with
  | nil => exact .nil
  | char _ _ ih => exact .cons (h _ (by simp)) (ih fun c hc => h c (by simp [hc]))
  | esc _ ih => exact .cons (h _ (by simp)) (ih fun c hc => h c (by simp [hc]))

/-- An inline is written with characters of `A`.  Texts without characters fill up the rows of tables, and the emphasis in
three marks is written together with the strong around it. -/
def InlineOver (x : PExt) (ent : Str → Option Str) (A : Char → Prop) (i : Inline) : Prop :=
  i = .text [] ∨ (∃ l, i = .emphasis l) ∨ ∃ w s, Over A w ∧ InlineWritten x ent i w s

/-- So is everything in it. -/
def AllOver (x : PExt) (ent : Str → Option Str) (A : Char → Prop) (i : Inline) : Prop :=
  ∀ k : Inline, k.Within i → InlineOver x ent A k

theorem allOver_of {i : Inline} (hi : InlineOver x ent A i) (h : ∀ j ∈ i.children, AllOver x ent A j) :
    AllOver x ent A i := by
  intro k hk
  cases hk with
  | self => exact hi
  | child _ j hj hk => exact h j hj k hk

theorem inlines_over {l : List Inline} {t : Str} (h : InlinesWritten x ent l t) :
    Over A t → ∀ i ∈ l, AllOver x ent A i := by
  refine InlinesWritten.rec (motive_1 := fun i w _ _ => Over A w → ∀ j ∈ i.children, AllOver x ent A j)
    (motive_2 := fun l t _ => Over A t → ∀ i ∈ l, AllOver x ent A i)
    ?_ ?_ ?_ ?_ ?_ ?_ ?_ ?_ ?_ ?_ ?_ ?_ ?_ ?_ ?_ ?_ ?_ h
  · intros; simp_all [Inline.children]
  · intros; simp_all [Inline.children]
  · intros; simp_all [Inline.children]
  · intros; simp_all [Inline.children]
  · intro w t wd d s title l hb _ _ ih hw
    exact ih (.unescapes hb.text (hw.infix ⟨['['], ']' :: wd, by simp⟩))
  · intro w t w' t' s l l' hb _ hb' _ ih ih' hw j hj
    rcases List.mem_append.1 hj with hj | hj
    · exact ih' (.unescapes hb'.text (hw.infix ⟨'[' :: (w ++ [']', '[']), [']'], by simp⟩)) j hj
    · exact ih (.unescapes hb.text (hw.infix ⟨['['], ']' :: '[' :: (w' ++ [']']), by simp⟩)) j hj
  · intro w t s l hb _ ih hw j hj
    have := ih (.unescapes hb.text (hw.infix ⟨['['], cs!"][]", by simp⟩))
    rcases List.mem_append.1 hj with hj | hj
    · exact this j hj
    · exact this j hj
  · intro w t s l hb _ ih hw j hj
    have := ih (.unescapes hb.text (hw.infix ⟨['['], [']'], by simp⟩))
    rcases List.mem_append.1 hj with hj | hj
    · exact this j hj
    · exact this j hj
  · intros; simp_all [Inline.children]
  · intro m o s l _ _ _ ih hw
    exact ih (hw.infix ⟨[m], [m], by simp⟩)
  · intro m o s l _ _ _ ih hw
    exact ih (hw.infix ⟨[m, m], [m, m], by simp⟩)
  · intro m o s l _ _ _ ih hw j hj
    simp only [Inline.children, List.mem_singleton] at hj
    subst hj
    exact allOver_of (.inr (.inl ⟨l, rfl⟩)) (ih (hw.infix ⟨[m, m, m], [m, m, m], by simp⟩))
  · intro o s l _ _ ih hw
    exact ih (hw.infix ⟨cs!"~~", cs!"~~", by simp⟩)
  · intros; simp_all [Inline.children]
  · intros; simp_all [Inline.children]
  · intro _; simp
  · intro i l w s hi _ ih1 ih2 hw j hj
    rcases List.mem_cons.1 hj with rfl | hj
    · have hw' : Over A w := hw.infix ⟨[], s, by simp⟩
      exact allOver_of (.inr (.inr ⟨w, s, hw', hi⟩)) (ih1 hw')
    · exact ih2 (hw.infix ⟨w, [], by simp⟩) j hj

/-- A block and everything in it is written with characters of `A`. -/
def BlockOver (x : PExt) (cfg : PConfig) (A : Char → Prop) (b : Block) : Prop := ∀ c : Block, c.Within b →
  (∃ w s, Over A w ∧ BlockWritten x cfg c w s) ∧ ∀ i ∈ c.directInlines, AllOver x cfg.entities A i

theorem blockOver_of {b : Block} (h0 : ∃ w s, Over A w ∧ BlockWritten x cfg b w s)
    (h : (∀ i ∈ b.directInlines, AllOver x cfg.entities A i) ∧ ∀ c ∈ b.childBlocks, BlockOver x cfg A c) :
    BlockOver x cfg A b := by
  intro c hcb
  cases hcb with
  | self => exact ⟨h0, h.1⟩
  | child _ e he hw => exact h.2 e he c hw

theorem lines_over {Pre : Str → Str → Prop} {s : Str} {ls : List Str} {w : Str} (hn : A '\n')
    (h : LinesWritten Pre s ls w) (hw : Over A w) : Over A (joinWith ['\n'] ls) :=
  .join hn fun l hl => hw.infix (lines_infix h l hl)

theorem cells_over {cs : List (List Inline)} {o : Str} (h : CellsWritten x ent cs o) (ho : Over A o) :
    ∀ c ∈ cs, ∀ i ∈ c, AllOver x ent A i := by
  induction h with
  | nil => simp
  | @cons w t o c cs _ _ hu hi _ ih =>
    intro d hd
    rcases List.mem_cons.1 hd with rfl | hd
    · refine inlines_over hi ?_
      have : Over A t := .unescapes hu (ho.infix ⟨['|'], o, by simp⟩)
      obtain ⟨a, b, h, _⟩ := trim_spec t
      exact this.infix ⟨a, b, by rw [List.append_assoc]; exact h.symm⟩
    · exact ih (ho.infix ⟨'|' :: w, [], by simp⟩) d hd

theorem row_over {cs : List (List Inline)} {s w : Str} (h : RowWritten x ent s cs w) (hw : Over A w) :
    ∀ c ∈ cs, ∀ i ∈ c, AllOver x ent A i := by
  cases h with
  | @mk k cs o last e _ _ hc _ _ => exact cells_over hc (hw.infix ⟨sp k, last ++ e, by simp⟩)

theorem rows_over {n : Nat} {rs : List (List (List Inline))} {s w : Str} (h : RowsWritten x ent n s rs w)
    (hw : Over A w) : ∀ r ∈ rs, ∀ c ∈ r, ∀ i ∈ c, AllOver x ent A i := by
  induction h with
  | nil => simp
  | @cons r rs w w' hr _ ih =>
    intro q hq
    rcases List.mem_cons.1 hq with rfl | hq
    · have := row_over hr (hw.infix ⟨[], w', by simp⟩)
      intro c hc i hi
      have hc := List.mem_of_mem_take hc
      rcases List.mem_append.1 hc with hc | hc
      · exact this c hc i hi
      · obtain ⟨-, rfl⟩ := List.mem_replicate.1 hc
        simp only [List.mem_singleton] at hi
        subst hi
        exact allOver_of (.inl rfl) (by simp [Inline.children])
    · exact ih (hw.infix ⟨w, [], by simp⟩) q hq

theorem item_over {kind : ListKind} {pl : Nat} {s : Str} {ls : List Str} {w : Str} (h : ItemRest kind pl s ls w)
    (hw : Over A w) : ∀ l ∈ ls, Over A l := by
  induction h with
  | nil => simp
  | @text p l e w ls _ _ _ _ _ _ ih =>
    intro m hm
    rcases List.mem_cons.1 hm with rfl | hm
    · exact hw.infix ⟨p, e ++ w, by simp⟩
    · exact ih (hw.infix ⟨p ++ (l ++ e), [], by simp⟩) m hm
  | @blank b l e w ls hb _ _ _ _ ih =>
    intro m hm
    rcases List.mem_cons.1 hm with rfl | hm
    · exact .append (hw.infix ⟨[], sp pl ++ (l ++ (e ++ w)), by simp⟩) (hw.infix ⟨b ++ sp pl, e ++ w, by simp⟩)
    · exact ih (hw.infix ⟨b ++ (sp pl ++ (l ++ e)), [], by simp⟩) m hm

theorem blocks_over (hn : A '\n') {bs : List Block} {s : Str} (h : BlocksWritten x cfg bs s) :
    Over A s → ∀ b ∈ bs, BlockOver x cfg A b := by
  refine BlocksWritten.rec
    (motive_1 := fun b w _ _ => Over A w → (∀ i ∈ b.directInlines, AllOver x cfg.entities A i) ∧
      ∀ c ∈ b.childBlocks, BlockOver x cfg A c)
    (motive_2 := fun bs s _ => Over A s → ∀ b ∈ bs, BlockOver x cfg A b)
    (motive_3 := fun _ i w _ _ => Over A w → ∀ b ∈ i.blocks, BlockOver x cfg A b)
    (motive_4 := fun is w _ _ => Over A w → ∀ i ∈ is, ∀ b ∈ i.blocks, BlockOver x cfg A b)
    ?_ ?_ ?_ ?_ ?_ ?_ ?_ ?_ ?_ ?_ ?_ ?_ ?_ ?_ ?_ ?_ ?_ ?_ h
  · intro ls l w s _ hl hi hw
    exact ⟨inlines_over hi (lines_over hn hl hw), by simp [Block.childBlocks]⟩
  · intro n m t e s l _ _ _ hi hw
    exact ⟨inlines_over hi (hw.infix ⟨m, e, by simp⟩), by simp [Block.childBlocks]⟩
  · intro ls l k w u e s _ hl hi _ _ hw
    exact ⟨inlines_over hi (lines_over hn hl (hw.infix ⟨[], u ++ e, by simp⟩)), by simp [Block.childBlocks]⟩
  · intros
    exact ⟨by simp [Block.directInlines], by simp [Block.childBlocks]⟩
  · intro ls bs w s _ hl _ ih hw
    exact ⟨by simp [Block.directInlines], ih (lines_over hn hl hw)⟩
  · intro t l ls bs w s hl _ _ ih hw
    exact ⟨by simp [Block.directInlines], ih (.join hn fun m hm => hw.infix (lines_infix hl m (by simp [hm])))⟩
  · intro k i l w w' s _ _ ih1 ih2 hw
    refine ⟨by simp [Block.directInlines], fun c hc => ?_⟩
    simp only [Block.childBlocks, List.flatMap_cons, List.mem_append, List.mem_flatMap] at hc
    rcases hc with hc | ⟨i, hi, hc⟩
    · exact ih1 (hw.infix ⟨[], w', by simp⟩) c hc
    · exact ih2 (hw.infix ⟨w, [], by simp⟩) i hi c hc
  · intros
    exact ⟨by simp [Block.directInlines], by simp [Block.childBlocks]⟩
  · intros
    exact ⟨by simp [Block.directInlines], by simp [Block.childBlocks]⟩
  · intros
    exact ⟨by simp [Block.directInlines], by simp [Block.childBlocks]⟩
  · intro k w t g wd d wt e s title l _ hb hi _ _ _ _ hw
    exact ⟨inlines_over hi (.unescapes hb.text
      (hw.infix ⟨sp k ++ ['['], cs!"]:" ++ (g ++ (wd ++ (wt ++ e))), by simp⟩)), by simp [Block.childBlocks]⟩
  · intro k label p first e w s ls bs _ _ _ _ _ hl _ ih hw
    refine ⟨by simp [Block.directInlines], ih (.join hn fun m hm => ?_)⟩
    rcases List.mem_cons.1 hm with rfl | hm
    · exact hw.infix ⟨sp k ++ (cs!"[^" ++ (label ++ (cs!"]:" ++ p))), e ++ w, by simp⟩
    · exact hw.infix ((lines_infix hl m hm).trans ⟨sp k ++ (cs!"[^" ++ (label ++ (cs!"]:" ++ (p ++ (first ++ e))))), [], by simp⟩)
  · intro h rs as w a last e w' s k hr _ _ _ _ _ hrs hw
    refine ⟨fun i hi => ?_, by simp [Block.childBlocks]⟩
    simp only [Block.directInlines, List.flatten_cons, List.flatten_append, List.mem_append, List.mem_flatten] at hi
    rcases hi with ⟨c, hc, hi⟩ | ⟨c, ⟨r, hrm, hc⟩, hi⟩
    · exact row_over hr (hw.infix ⟨[], sp k ++ (a ++ (last ++ (e ++ w'))), by simp⟩) c hc i hi
    · exact rows_over hrs (hw.infix ⟨w ++ (sp k ++ (a ++ (last ++ e))), [], by simp⟩) r hrm c hc i hi
  · intros
    simp_all
  · intro b bs g w s _ hb _ ih1 ih2 hw c hc
    rcases List.mem_cons.1 hc with rfl | hc
    · have hw' : Over A w := hw.infix ⟨g, s, by simp⟩
      exact blockOver_of ⟨w, s, hw', hb⟩ (ih1 hw')
    · exact ih2 (hw.infix ⟨g ++ w, [], by simp⟩) c hc
  · intro k pl t bs f first e w s ls hf _ hr _ ih hw
    refine ih (.join hn fun m hm => ?_)
    rcases List.mem_cons.1 hm with rfl | hm
    · exact hw.infix ((item_first hf).trans ⟨[], e ++ w, by simp⟩)
    · exact item_over hr (hw.infix ⟨f ++ e, [], by simp⟩) m hm
  · intros
    simp_all
  · intro k i l w w' s _ _ ih1 ih2 hw j hj
    rcases List.mem_cons.1 hj with rfl | hj
    · exact ih1 (hw.infix ⟨[], w', by simp⟩)
    · exact ih2 (hw.infix ⟨w, [], by simp⟩) j hj

variable {s : Str} {d : Document}

/-- **C100.** Every block of a document, at any depth, is written by its construct with characters of the input and line
ends. -/
theorem C100_written_block (hk : cfg.Keeps) (h : parseMarkdown x cfg s = some d) {b : Block} (hb : d.HasBlock b) :
    ∃ w r, (∀ c ∈ w, c ∈ s ∨ c = '\n') ∧ BlockWritten x cfg b w r := by
  obtain ⟨c, hc, hw⟩ := hb
  exact (blocks_over (A := fun c => c ∈ s ∨ c = '\n') (.inr rfl) (C71_reads hk h) (fun c hc => .inl hc) c hc b hw).1

/-- **C100.** So is every inline, but for the emphasis that is written together with the strong around it, and the cells
that fill up the rows of tables. -/
theorem C100_written_inline (hk : cfg.Keeps) (h : parseMarkdown x cfg s = some d) {i : Inline} (hi : d.HasInline i) :
    i = .text [] ∨ (∃ l, i = .emphasis l) ∨
      ∃ w r, (∀ c ∈ w, c ∈ s ∨ c = '\n') ∧ InlineWritten x cfg.entities i w r := by
  obtain ⟨b, ⟨c, hc, hw⟩, j, hj, hij⟩ := hi
  exact (blocks_over (A := fun c => c ∈ s ∨ c = '\n') (.inr rfl) (C71_reads hk h) (fun c hc => .inl hc) c hc b hw).2 j hj i hij

/-- **C100**, the constructs that are not covered by C77: an underlined heading, code blocks and hard line breaks. -/
theorem C100_rest (hk : cfg.Keeps) (h : parseMarkdown x cfg s = some d) :
    (∀ c, d.HasBlock (.heading (.setext .level1) c) → '=' ∈ s) ∧
    (∀ c, d.HasBlock (.heading (.setext .level2) c) → '-' ∈ s) ∧
    (∀ t, d.HasBlock (.codeBlock .indented t) → ' ' ∈ s ∨ '\t' ∈ s) ∧
    (∀ info t, d.HasBlock (.codeBlock (.fenced info) t) → '`' ∈ s ∨ '~' ∈ s) ∧
    (d.HasInline .lineBreak → '\\' ∈ s ∨ ' ' ∈ s) := by
  have f : ∀ {w : Str} {c : Char}, c ≠ '\n' → c ∈ w → (∀ c ∈ w, c ∈ s ∨ c = '\n') → c ∈ s := by
    intro w c hc hm hw
    rcases hw c hm with h | h
    · exact h
    · exact absurd h hc
  refine ⟨?_, ?_, ?_, ?_, ?_⟩
  · intro c hb
    obtain ⟨w, r, hw, hb⟩ := C100_written_block hk h hb
    cases hb with
    | setext _ _ _ hu _ =>
      cases hu with
      | @one k n b _ hn _ =>
        refine f (by decide) ?_ hw
        simp only [List.mem_append, List.mem_replicate]
        exact .inr (.inl (.inr (.inl ⟨by omega, trivial⟩)))
  · intro c hb
    obtain ⟨w, r, hw, hb⟩ := C100_written_block hk h hb
    cases hb with
    | setext _ _ _ hu _ =>
      cases hu with
      | @two k n b _ hn _ =>
        refine f (by decide) ?_ hw
        simp only [List.mem_append, List.mem_replicate]
        exact .inr (.inl (.inr (.inl ⟨by omega, trivial⟩)))
  · intro t hb
    obtain ⟨w, r, hw, hb⟩ := C100_written_block hk h hb
    cases hb with
    | @indented ls w _ hls hl =>
      cases hl with
      | nil => exact absurd rfl hls
      | cons hp _ _ =>
        rcases hp with rfl | rfl
        · exact .inl (f (by decide) (by simp) hw)
        · exact .inr (f (by decide) (by simp) hw)
  · intro info t hb
    obtain ⟨w, r, hw, hb⟩ := C100_written_block hk h hb
    cases hb with
    | @fenced g k n info ls e w c e' _ hg _ hn _ _ _ _ _ _ =>
      have : g ∈ sp k ++ (List.replicate n g ++ (info.getD [] ++ (e ++ (w ++ (c ++ e'))))) := by
        simp only [List.mem_append, List.mem_replicate]
        exact .inr (.inl ⟨by omega, trivial⟩)
      rcases hg with rfl | rfl
      · exact .inl (f (by decide) this hw)
      · exact .inr (f (by decide) this hw)
  · intro hb
    rcases C100_written_inline hk h hb with hb | ⟨l, hb⟩ | ⟨w, r, hw, hb⟩
    · cases hb
    · cases hb
    · cases hb with
      | backslashBreak _ => exact .inl (f (by decide) (by simp) hw)
      | @spaceBreak n e _ hn _ =>
        refine .inr (f (by decide) ?_ hw)
        simp only [List.mem_append, List.mem_replicate]
        exact .inl ⟨by omega, trivial⟩

end

/-- **C100**, a case: a quoted list item with an underlined heading and a hard line break, in a configuration that keeps
texts. -/
theorem C100_written_example :
    (PConfig.default fun _ => none).Keeps ∧
    parseMarkdown PExt.ascii (PConfig.default fun _ => none) cs!"> - a\\\n>   b\n>   ===" =
      some ⟨[.blockQuote [.list (.bullet .dash) [.mk none [.heading (.setext .level1) [.text cs!"a", .lineBreak, .text cs!"b"]]]]]⟩ := by
  refine ⟨?_, by decide +kernel⟩
  constructor <;> first | exact .inl rfl | rfl

end Verif
