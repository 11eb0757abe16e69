import Verif.LinkNesting
/-!
# How large a document is (C95)

The number of blocks and inlines of the document of a text without escaped closing brackets is at most three times the
square of the length of the text; without a bar (so without tables) it is at most three times the length.  The bounds come
from the grammar of C71.  With escaped brackets the document can be exponentially large (`DocSizeExp.lean`).
-/
set_option autoImplicit false
namespace Verif
open Nom

/-- The number of blocks and inlines of a document, at any depth (each time an element occurs). -/
def Document.size (d : Document) : Nat := d.allBlocks.length + d.allInlines.length

/-- The number of inlines, at any depth. -/
def inlineCount (l : List Inline) : Nat := (Inline.preL l).length

/-- The number of blocks and inlines of blocks, given in order. -/
def weight (l : List Block) : Nat := (l.map fun b => 1 + inlineCount b.directInlines).sum

theorem weight_append (l m : List Block) : weight (l ++ m) = weight l + weight m := by simp [weight]

theorem weight_cons (b : Block) (l : List Block) : weight (b :: l) = 1 + inlineCount b.directInlines + weight l := by
  simp [weight]

theorem weight_eq (l : List Block) :
    l.length + (l.flatMap fun b => Inline.preL b.directInlines).length = weight l := by
  induction l with
  | nil => rfl
  | cons b l ih => rw [weight_cons, ← ih]; simp [inlineCount]; omega

theorem Document.size_eq (d : Document) : d.size = weight (Block.preL d.blocks) := weight_eq _

theorem inlineCount_cons (i : Inline) (l : List Inline) : inlineCount (i :: l) = i.pre.length + inlineCount l := by
  simp [inlineCount, Inline.preL]

theorem inlineCount_append (l m : List Inline) : inlineCount (l ++ m) = inlineCount l + inlineCount m := by
  induction l with
  | nil => simp [inlineCount, Inline.preL]
  | cons i l ih => rw [List.cons_append, inlineCount_cons, ih, inlineCount_cons]; omega

section
variable {x : PExt} {ent : Str → Option Str}

/-- What is known of the number of inlines of a text: at most the length without closing brackets, at most twice the length
without escaped ones. -/
structure CountText (n : Nat) (t : Str) : Prop where
  none : ']' ∉ t → n ≤ t.length
  two : ¬ HasEscapedBracket t → n ≤ 2 * t.length

theorem CountText.of_le {n : Nat} {t : Str} (h : n ≤ t.length) : CountText n t := ⟨fun _ => h, fun _ => by omega⟩

theorem CountText.inner {n k : Nat} {o w : Str} (h : CountText n o) (ho : o <:+: w) (hk : o.length + k ≤ w.length) :
    CountText (n + k) w :=
  ⟨fun hw => by have := h.none (fun hm => hw (ho.subset hm)); omega,
   fun hw => by have := h.two (fun he => hw (he.mono ho)); omega⟩

theorem BracketText.count {w t : Str} {n : Nat} (hb : BracketText w t) (h : CountText n t) (hw : ¬ HasEscapedBracket w) :
    n ≤ w.length := by
  obtain ⟨rfl, h2⟩ := hb.text.plain hw
  exact h.none h2

theorem inlines_count {l : List Inline} {t : Str} (h : InlinesWritten x ent l t) : CountText (inlineCount l) t := by
  refine InlinesWritten.rec (motive_1 := fun i w _ _ => CountText i.pre.length w)
    (motive_2 := fun l t _ => CountText (inlineCount l) t)
    ?_ ?_ ?_ ?_ ?_ ?_ ?_ ?_ ?_ ?_ ?_ ?_ ?_ ?_ ?_ ?_ ?_ h
  · intro w t s hw _
    refine .of_le ?_
    cases w with
    | nil => exact absurd rfl hw
    | cons => simp [Inline.pre]
  · intros; exact .of_le (by simp [Inline.pre])
  · intro n e s hn _; exact .of_le (by simp [Inline.pre]; omega)
  · intro w c s hc
    cases hc with
    | mk hn => exact .of_le (by simp [Inline.pre]; omega)
  · intro w t wd d s title l hb _ _ ih
    refine ⟨fun h => by simp at h, fun hn => ?_⟩
    have := hb.count ih (fun he => hn (he.mono ⟨['['], ']' :: wd, by simp⟩))
    simp only [Inline.pre, List.length_cons, List.length_append, inlineCount] at *
    omega
  · intro w t w' t' s l l' hb _ hb' _ ih ih'
    refine ⟨fun h => by simp at h, fun hn => ?_⟩
    have h1 := hb'.count ih' (fun he => hn (he.mono ⟨'[' :: (w ++ [']', '[']), [']'], by simp⟩))
    have h2 := hb.count ih (fun he => hn (he.mono ⟨['['], ']' :: '[' :: (w' ++ [']']), by simp⟩))
    simp only [Inline.pre, List.length_cons, List.length_append, inlineCount] at *
    omega
  · intro w t s l hb _ ih
    refine ⟨fun h => by simp at h, fun hn => ?_⟩
    have h1 := hb.count ih (fun he => hn (he.mono ⟨['['], cs!"][]", by simp⟩))
    simp only [Inline.pre, List.length_cons, List.length_append, inlineCount] at *
    omega
  · intro w t s l hb _ ih
    refine ⟨fun h => by simp at h, fun hn => ?_⟩
    have h1 := hb.count ih (fun he => hn (he.mono ⟨['['], [']'], by simp⟩))
    simp only [Inline.pre, List.length_cons, List.length_append, inlineCount] at *
    omega
  · intros; exact .of_le (by simp [Inline.pre])
  · intro m o s l _ _ _ ih
    have := ih.inner (k := 1) (w := m :: (o ++ [m])) ⟨[m], [m], by simp⟩ (by simp)
    simpa [Inline.pre, inlineCount] using this
  · intro m o s l _ _ _ ih
    have := ih.inner (k := 1) (w := m :: m :: (o ++ [m, m])) ⟨[m, m], [m, m], by simp⟩ (by simp)
    simpa [Inline.pre, inlineCount] using this
  · intro m o s l _ _ _ ih
    have := ih.inner (k := 2) (w := m :: m :: m :: (o ++ [m, m, m])) ⟨[m, m, m], [m, m, m], by simp⟩ (by simp)
    simpa [Inline.pre, Inline.preL, inlineCount] using this
  · intro o s l _ _ ih
    have := ih.inner (k := 1) (w := cs!"~~" ++ (o ++ cs!"~~")) ⟨cs!"~~", cs!"~~", by simp⟩ (by simp)
    simpa [Inline.pre, inlineCount] using this
  · intros; exact .of_le (by simp [Inline.pre])
  · intros; exact .of_le (by simp [Inline.pre])
  · exact .of_le (by simp [inlineCount, Inline.preL])
  · intro i l w s _ _ ih1 ih2
    rw [inlineCount_cons]
    constructor
    · intro hn
      simp only [List.mem_append, not_or] at hn
      have h1 := ih1.none hn.1
      have h2 := ih2.none hn.2
      simp only [List.length_append]
      omega
    · intro hn
      have h1 := ih1.two (fun h => hn (h.mono ⟨[], s, by simp⟩))
      have h2 := ih2.two (fun h => hn (h.mono ⟨w, [], by simp⟩))
      simp only [List.length_append]
      omega

theorem Unescapes.length_le {e : Char} {w t : Str} (h : Unescapes e w t) : t.length ≤ w.length := by
  induction h with
  | nil => simp
  | char _ _ ih => simpa using ih
  | esc _ ih => simp; omega

/-- At most `2 ^ length` inlines in any case. -/
theorem inlines_count_pow {l : List Inline} {t : Str} (h : InlinesWritten x ent l t) : inlineCount l + 1 ≤ 2 ^ t.length := by
  have mono : ∀ {a b : Nat}, a ≤ b → 2 ^ a ≤ 2 ^ b := fun h => Nat.pow_le_pow_right (by decide) h
  have leaf : ∀ {w : Str}, 1 ≤ w.length → 1 + 1 ≤ 2 ^ w.length := fun h => mono h
  have inner : ∀ {l : List Inline} {k : Nat} {o w : Str}, 1 ≤ k → inlineCount l + 1 ≤ 2 ^ o.length → o.length + k ≤ w.length →
      1 + inlineCount l + 1 ≤ 2 ^ w.length := by
    intro l k o w hk ih hw
    have h1 := mono hw
    have h2 := mono (show o.length + 1 ≤ o.length + k by omega)
    have h3 := Nat.two_pow_pos o.length
    rw [Nat.pow_succ] at h2
    omega
  have two : ∀ {l l' : List Inline} {a b n : Nat}, inlineCount l + 1 ≤ 2 ^ a → inlineCount l' + 1 ≤ 2 ^ b → a + 1 ≤ n → b + 1 ≤ n →
      1 + inlineCount l + inlineCount l' + 1 ≤ 2 ^ n := by
    intro l l' a b n h1 h2 h3 h4
    have h5 := mono h3
    have h6 := mono h4
    rw [Nat.pow_succ] at h5 h6
    omega
  refine InlinesWritten.rec (motive_1 := fun i w _ _ => i.pre.length + 1 ≤ 2 ^ w.length)
    (motive_2 := fun l t _ => inlineCount l + 1 ≤ 2 ^ t.length)
    ?_ ?_ ?_ ?_ ?_ ?_ ?_ ?_ ?_ ?_ ?_ ?_ ?_ ?_ ?_ ?_ ?_ h
  · intro w t s hw _
    have := leaf (List.length_pos_iff.2 hw)
    simpa [Inline.pre] using this
  · intro e s _; simpa [Inline.pre] using leaf (w := '\\' :: e) (by simp)
  · intro n e s hn _; simpa [Inline.pre] using leaf (w := List.replicate n ' ' ++ e) (by simp; omega)
  · intro w c s hc
    cases hc with
    | @mk n o _ _ hn => simpa [Inline.pre] using leaf (w := List.replicate n '`' ++ (o ++ List.replicate n '`')) (by simp; omega)
  · intro w t wd d s title l hb _ _ ih
    have := inner (k := 2) (w := '[' :: (w ++ (']' :: wd))) (by omega) ih (by have := hb.text.length_le; simp; omega)
    simpa [Inline.pre, inlineCount, Nat.add_comm] using this
  · intro w t w' t' s l l' hb _ hb' _ ih ih'
    have h1 := hb.text.length_le
    have h2 := hb'.text.length_le
    have := two (n := ('[' :: (w ++ (']' :: '[' :: (w' ++ [']'])))).length) ih' ih (by simp; omega) (by simp; omega)
    simp only [Inline.pre, List.length_cons, List.length_append, inlineCount] at *
    omega
  · intro w t s l hb _ ih
    have h1 := hb.text.length_le
    have := two (n := ('[' :: (w ++ cs!"][]")).length) ih ih (by simp; omega) (by simp; omega)
    simp only [Inline.pre, List.length_cons, List.length_append, inlineCount] at *
    omega
  · intro w t s l hb _ ih
    have h1 := hb.text.length_le
    have := two (n := ('[' :: (w ++ [']'])).length) ih ih (by simp; omega) (by simp; omega)
    simp only [Inline.pre, List.length_cons, List.length_append, inlineCount] at *
    omega
  · intro alt wd d s title _ _
    simpa [Inline.pre] using leaf (w := '!' :: '[' :: (alt ++ (']' :: wd))) (by simp)
  · intro m o s l _ _ _ ih
    have := inner (k := 2) (w := m :: (o ++ [m])) (by omega) ih (by simp)
    simpa [Inline.pre, inlineCount, Nat.add_comm] using this
  · intro m o s l _ _ _ ih
    have := inner (k := 4) (w := m :: m :: (o ++ [m, m])) (by omega) ih (by simp)
    simpa [Inline.pre, inlineCount, Nat.add_comm] using this
  · intro m o s l _ _ _ ih
    have h1 := inner (k := 2) (w := m :: (o ++ [m])) (by omega) ih (by simp)
    have h2 : 1 + inlineCount [.emphasis l] + 1 ≤ 2 ^ (m :: m :: m :: (o ++ [m, m, m])).length :=
      inner (k := 4) (o := m :: (o ++ [m])) (by omega) (by simpa [inlineCount, Inline.preL, Inline.pre, Nat.add_comm] using h1) (by simp)
    simpa [Inline.pre, Inline.preL, inlineCount, Nat.add_comm] using h2
  · intro o s l _ _ ih
    have := inner (k := 4) (w := cs!"~~" ++ (o ++ cs!"~~")) (by omega) ih (by simp)
    simpa [Inline.pre, inlineCount, Nat.add_comm] using this
  · intro u s _; simpa [Inline.pre] using leaf (w := '<' :: (u ++ ['>'])) (by simp)
  · intro n s _ _; simpa [Inline.pre] using leaf (w := cs!"[^" ++ (n ++ [']'])) (by simp)
  · simp [inlineCount, Inline.preL]
  · intro i l w s _ _ ih1 ih2
    rw [inlineCount_cons, List.length_append, Nat.pow_add]
    obtain ⟨a, ha⟩ : ∃ a, 2 ^ w.length = a + 1 := ⟨2 ^ w.length - 1, by omega⟩
    obtain ⟨b, hb⟩ : ∃ b, 2 ^ s.length = b + 1 := ⟨2 ^ s.length - 1, by omega⟩
    rw [ha] at ih1 ⊢
    rw [hb] at ih2 ⊢
    simp only [Nat.add_mul, Nat.mul_add]
    omega

/-! ## Lines -/

/-- The length of lines, each with one more character. -/
def linesLength (ls : List Str) : Nat := (ls.map (·.length + 1)).sum

theorem join_length (ls : List Str) : (joinWith ['\n'] ls).length ≤ linesLength ls - 1 := by
  induction ls with
  | nil => simp [joinWith]
  | cons l ls ih =>
    cases ls with
    | nil => simp [joinWith, linesLength]
    | cons m ls =>
      have : joinWith ['\n'] (l :: m :: ls) = l ++ ('\n' :: joinWith ['\n'] (m :: ls)) := by simp [joinWith]
      rw [this]
      simp only [linesLength, List.map_cons, List.sum_cons, List.length_append, List.length_cons] at ih ⊢
      omega

theorem LineEnd.cases_length {e s : Str} (h : LineEnd e s) : 1 ≤ e.length ∨ (e = [] ∧ s = []) := by
  rcases h with (rfl | rfl) | h
  · exact .inl (by simp)
  · exact .inl (by simp)
  · exact .inr h

theorem lines_length {Pre : Str → Str → Prop} (hp : ∀ p l, Pre p l → p ++ l ≠ []) (m : Nat) (hm : ∀ p l, Pre p l → m ≤ p.length)
    {s : Str} {ls : List Str} {w : Str} (h : LinesWritten Pre s ls w) : linesLength ls + m * ls.length ≤ w.length + 1 := by
  induction h with
  | nil => simp [linesLength]
  | @cons p l e w ls hpl hl hr ih =>
    have h1 := hm p l hpl
    simp only [linesLength, List.map_cons, List.sum_cons, List.length_append, List.length_cons] at ih ⊢
    rcases hl.ends.cases_length with he | ⟨rfl, hw⟩
    · rw [Nat.mul_add]; omega
    · rw [List.append_eq_nil_iff] at hw
      obtain ⟨rfl, rfl⟩ := hw
      cases ls with
      | nil => simp; omega
      | cons l' ls =>
        exfalso
        generalize hw : ([] : Str) = w at hr
        cases hr with
        | cons hpl' _ _ =>
          have h := hp _ _ hpl'
          simp only [List.nil_eq, List.append_eq_nil_iff] at hw
          exact h (by simp [hw.1, hw.2.1])

theorem item_length {kind : ListKind} {pl : Nat} {s : Str} {ls : List Str} {w : Str} (h : ItemRest kind pl s ls w) :
    linesLength ls ≤ w.length + 1 ∧ (w = [] → ls = []) := by
  induction h with
  | nil => simp [linesLength]
  | @text p l e w ls _ hl hle _ _ hr ih =>
    have hl' : 0 < l.length := List.length_pos_iff.2 hl
    refine ⟨?_, fun h => by simp only [List.append_eq_nil_iff] at h; exact absurd h.2.1 hl⟩
    simp only [linesLength, List.map_cons, List.sum_cons, List.length_append] at ih ⊢
    rcases hle.ends.cases_length with he | ⟨rfl, hw⟩
    · omega
    · rw [List.append_eq_nil_iff] at hw
      obtain rfl := ih.2 hw.1
      simp
      omega
  | @blank b l e w ls _ hb hl hle hr ih =>
    refine ⟨?_, fun h => by simp only [List.append_eq_nil_iff] at h; exact absurd h.1 hb⟩
    simp only [linesLength, List.map_cons, List.sum_cons, List.length_append] at ih ⊢
    rcases hle.ends.cases_length with he | ⟨rfl, hw⟩
    · omega
    · rw [List.append_eq_nil_iff] at hw
      obtain rfl := ih.2 hw.1
      simp
      omega

theorem lines_ne {Pre : Str → Str → Prop} (hp : ∀ p l, Pre p l → p ++ l ≠ []) {s : Str} {ls : List Str} {w : Str}
    (h : LinesWritten Pre s ls w) (hl : ls ≠ []) : 1 ≤ w.length := by
  cases h with
  | nil => exact absurd rfl hl
  | @cons p l e w ls hpl _ _ =>
    have := List.length_pos_iff.2 (hp p l hpl)
    simp only [List.length_append] at this ⊢
    omega

theorem paragraphPrefix_ne (p l : Str) (h : ParagraphPrefix p l) : p ++ l ≠ [] := fun he =>
  h.1 (List.append_eq_nil_iff.1 he).2

theorem footnotePrefix_ne (p l : Str) (h : FootnotePrefix p l) : p ++ l ≠ [] := fun he =>
  h.1 (List.append_eq_nil_iff.1 he).2

theorem quotePrefix_length (p l : Str) (h : QuotePrefix p l) : 1 ≤ p.length := by
  obtain ⟨k, _, rfl⟩ := h
  simp

theorem quotePrefix_ne (p l : Str) (h : QuotePrefix p l) : p ++ l ≠ [] := fun he => by
  have := quotePrefix_length p l h
  rw [(List.append_eq_nil_iff.1 he).1] at this
  simp at this

theorem codePrefix_ne (p l : Str) (h : CodePrefix p l) : p ++ l ≠ [] := by
  rcases h with rfl | rfl <;> simp

theorem itemFirst_length {kind : ListKind} {f : Str} {pl : Nat} {t : Option TaskState} {first : Str}
    (h : ItemFirst kind f pl t first) : first.length + 1 ≤ f.length := by
  have hm : ∀ m, Marker kind m → 1 ≤ m.length := by
    intro m hm
    cases hm <;> simp
  cases h with
  | text _ h => have := hm _ h; simp only [List.length_append]; omega
  | task _ h => have := hm _ h; simp only [List.length_append, List.length_cons]; omega
  | empty _ h => have := hm _ h; simp only [List.length_append, List.length_nil]; omega
  | box _ h => have := hm _ h; simp only [List.length_append, List.length_nil]; omega

/-! ## Tables -/

/-- The number of inlines of cells. -/
def cellsCount (cs : List (List Inline)) : Nat := (cs.map inlineCount).sum

theorem inlineCount_flatten (cs : List (List Inline)) : inlineCount cs.flatten = cellsCount cs := by
  induction cs with
  | nil => simp [inlineCount, Inline.preL, cellsCount]
  | cons c cs ih => rw [List.flatten_cons, inlineCount_append, ih]; simp [cellsCount]

/-- A bound for the number of inlines by the length of the text (without escaped closing brackets unless `E`). -/
structure InlineBound (x : PExt) (ent : Str → Option Str) (E : Prop) (G : Nat → Nat) : Prop where
  add : ∀ a b, G a + G b ≤ G (a + b)
  count : ∀ {l : List Inline} {t : Str}, InlinesWritten x ent l t → E ∨ ¬ HasEscapedBracket t → inlineCount l ≤ G t.length

theorem InlineBound.mono {E : Prop} {G : Nat → Nat} (h : InlineBound x ent E G) {a b : Nat} (hab : a ≤ b) : G a ≤ G b := by
  have := h.add a (b - a)
  rw [Nat.add_sub_cancel' hab] at this
  omega

theorem inlineBound_two : InlineBound x ent False (2 * ·) :=
  ⟨fun a b => by omega, fun h ht => (inlines_count h).two (ht.resolve_left id)⟩

theorem inlineBound_pow : InlineBound x ent True (2 ^ · - 1) := by
  refine ⟨fun a b => ?_, fun h _ => by have := inlines_count_pow h; omega⟩
  obtain ⟨i, hi⟩ : ∃ i, 2 ^ a = i + 1 := ⟨2 ^ a - 1, by have := Nat.two_pow_pos a; omega⟩
  obtain ⟨j, hj⟩ : ∃ j, 2 ^ b = j + 1 := ⟨2 ^ b - 1, by have := Nat.two_pow_pos b; omega⟩
  rw [Nat.pow_add, hi, hj]
  simp only [Nat.add_mul, Nat.mul_add]
  omega

theorem cells_count {E : Prop} {G : Nat → Nat} (hG : InlineBound x ent E G) {cs : List (List Inline)} {o : Str}
    (h : CellsWritten x ent cs o) (ho : E ∨ ¬ HasEscapedBracket o) : cellsCount cs ≤ G o.length ∧ 2 * cs.length ≤ o.length := by
  induction h with
  | nil => simp [cellsCount]
  | @cons w t o c cs hw _ hu hi _ ih =>
    have h1 := ih (ho.imp id fun ho he => ho (he.mono ⟨'|' :: w, [], by simp⟩))
    obtain ⟨a, b, ht, _⟩ := trim_spec t
    have h2 := hG.count hi (ho.imp id fun ho he => hu.bar (fun he' => ho (he'.mono ⟨['|'], o, by simp⟩))
      (he.mono ⟨a, b, by rw [List.append_assoc]; exact ht.symm⟩))
    have h3 : t.length = a.length + ((trim t).length + b.length) := by
      simpa using congrArg List.length ht
    have h4 := hu.length_le
    have h5 := List.length_pos_iff.2 hw
    have h6 := hG.add w.length o.length
    have h7 := hG.mono (show (trim t).length ≤ w.length by omega)
    have h8 := hG.mono (show w.length + o.length ≤ ('|' :: (w ++ o)).length by simp)
    simp only [List.length_cons, List.length_append] at h8
    simp only [cellsCount, List.map_cons, List.sum_cons, List.length_cons, List.length_append] at h1 ⊢
    omega

theorem row_count {E : Prop} {G : Nat → Nat} (hG : InlineBound x ent E G) {cs : List (List Inline)} {s w : Str}
    (h : RowWritten x ent s cs w) (hw : E ∨ ¬ HasEscapedBracket w) : cellsCount cs ≤ G w.length ∧ 2 * cs.length ≤ w.length ∧ 1 ≤ w.length := by
  cases h with
  | @mk k cs o last e _ hne hc _ _ =>
    have := cells_count hG hc (hw.imp id fun hw he => hw (he.mono ⟨sp k, last ++ e, by simp⟩))
    have := List.length_pos_iff.2 hne
    have := hG.mono (show o.length ≤ (sp k ++ (o ++ (last ++ e))).length by simp only [List.length_append]; omega)
    simp only [List.length_append] at this
    simp only [List.length_append]
    omega

theorem cellsCount_append (a b : List (List Inline)) : cellsCount (a ++ b) = cellsCount a + cellsCount b := by
  simp [cellsCount]

theorem cellsCount_take (n : Nat) (a : List (List Inline)) : cellsCount (a.take n) ≤ cellsCount a := by
  have := cellsCount_append (a.take n) (a.drop n)
  rw [List.take_append_drop] at this
  omega

theorem cellsCount_fitted (n : Nat) (r : List (List Inline)) : cellsCount (fitted n r) ≤ cellsCount r + n := by
  refine Nat.le_trans (cellsCount_take _ _) ?_
  rw [cellsCount_append]
  have : ∀ k, cellsCount (List.replicate k [.text []]) = k := by
    intro k
    simp [cellsCount, inlineCount, Inline.preL, Inline.pre]
  have := this n
  omega

theorem rows_count {E : Prop} {G : Nat → Nat} (hG : InlineBound x ent E G) {n : Nat} {rs : List (List (List Inline))} {s w : Str}
    (h : RowsWritten x ent n s rs w) (hw : E ∨ ¬ HasEscapedBracket w) : cellsCount rs.flatten ≤ G w.length + n * w.length := by
  induction h with
  | nil => simp [cellsCount]
  | @cons r rs w w' hr _ ih =>
    have h1 := row_count hG hr (hw.imp id fun hw he => hw (he.mono ⟨[], w', by simp⟩))
    have h2 := ih (hw.imp id fun hw he => hw (he.mono ⟨w, [], by simp⟩))
    have h3 := cellsCount_fitted n r
    have h4 := hG.add w.length w'.length
    rw [List.flatten_cons, cellsCount_append, List.length_append]
    have : n * 1 ≤ n * w.length := Nat.mul_le_mul (Nat.le_refl _) h1.2.2
    rw [Nat.mul_add]
    omega

/-! ## Blocks -/

/-- A text without escaped closing brackets unless `E`, and without bars unless `Q`. -/
structure Sized (E Q : Prop) (s : Str) : Prop where
  esc : E ∨ ¬ HasEscapedBracket s
  bar : Q ∨ '|' ∉ s

theorem Sized.mono {E Q : Prop} {s t : Str} (h : Sized E Q t) (hs : s <:+: t) : Sized E Q s :=
  ⟨h.esc.imp id fun h he => h (he.mono hs), h.bar.imp id fun hb hm => hb (hs.subset hm)⟩

theorem mem_joinWith {c : Char} {ls : List Str} (h : c ∈ joinWith ['\n'] ls) (hc : c ≠ '\n') : ∃ l ∈ ls, c ∈ l := by
  induction ls with
  | nil => simp [joinWith] at h
  | cons l ls ih =>
    cases ls with
    | nil => exact ⟨l, by simp, by simpa [joinWith] using h⟩
    | cons m ls =>
      have : joinWith ['\n'] (l :: m :: ls) = l ++ ('\n' :: joinWith ['\n'] (m :: ls)) := by simp [joinWith]
      rw [this] at h
      rcases List.mem_append.1 h with h | h
      · exact ⟨l, by simp, h⟩
      · rcases List.mem_cons.1 h with h | h
        · exact absurd h hc
        · obtain ⟨a, ha, hm⟩ := ih h
          exact ⟨a, List.mem_cons_of_mem _ ha, hm⟩

theorem Sized.join {E Q : Prop} {ls : List Str} (h : ∀ l ∈ ls, Sized E Q l) : Sized E Q (joinWith ['\n'] ls) := by
  refine ⟨?_, ?_⟩
  · by_cases hb : HasEscapedBracket (joinWith ['\n'] ls)
    · refine .inl (Classical.byContradiction fun hE => not_escaped_join (fun l hl => ?_) hb)
      exact (h l hl).esc.resolve_left hE
    · exact .inr hb
  by_cases hb : '|' ∈ joinWith ['\n'] ls
  · obtain ⟨l, hl, hm⟩ := mem_joinWith hb (by decide)
    exact .inl ((h l hl).bar.resolve_right fun hn => hn hm)
  · exact .inr hb

theorem Sized.lines {E Q : Prop} {Pre : Str → Str → Prop} {s : Str} {ls : List Str} {w : Str}
    (h : LinesWritten Pre s ls w) (hw : Sized E Q w) : ∀ l ∈ ls, Sized E Q l := fun l hl => hw.mono (lines_infix h l hl)

theorem BlankLines.noBar {b : Str} (h : BlankLines b) : '|' ∉ b := by
  induction h with
  | nil => simp
  | lf hs _ ih =>
    simp only [List.mem_append, List.mem_cons, not_or]
    exact ⟨fun hm => by rcases hs _ hm with h | h <;> exact absurd h (by decide), by decide, ih⟩
  | crlf hs _ ih =>
    simp only [List.mem_append, List.mem_cons, not_or]
    exact ⟨fun hm => by rcases hs _ hm with h | h <;> exact absurd h (by decide), by decide, by decide, ih⟩

theorem Sized.items {E Q : Prop} {kind : ListKind} {pl : Nat} {s : Str} {ls : List Str} {w : Str}
    (h : ItemRest kind pl s ls w) (hw : Sized E Q w) : ∀ l ∈ ls, Sized E Q l := by
  induction h with
  | nil => simp
  | @text p l e w ls _ _ _ _ _ _ ih =>
    intro m hm
    rcases List.mem_cons.1 hm with rfl | hm
    · exact hw.mono ⟨p, e ++ w, by simp⟩
    · exact ih (hw.mono ⟨p ++ (l ++ e), [], by simp⟩) m hm
  | @blank b l e w ls hb _ _ _ _ ih =>
    intro m hm
    rcases List.mem_cons.1 hm with rfl | hm
    · have hl : Sized E Q l := hw.mono ⟨b ++ sp pl, e ++ w, by simp⟩
      refine ⟨hl.esc.imp id (not_escaped_plain hb.noBackslash), hl.bar.imp id fun hn hm => ?_⟩
      exact (List.mem_append.1 hm).elim hb.noBar hn
    · exact ih (hw.mono ⟨b ++ (sp pl ++ (l ++ e)), [], by simp⟩) m hm

/-- A bound for the size by the length: superadditive, and enough for paragraphs and (if `Q`) tables. -/
structure Bound (Q : Prop) (G F : Nat → Nat) : Prop where
  add : ∀ a b, F a + F b ≤ F (a + b)
  one : ∀ n, 1 ≤ n → 1 + G n ≤ F n
  table : Q → ∀ a b, 1 ≤ a → 1 + G a + G b + a * b ≤ F (a + b)

theorem Bound.mono {Q : Prop} {G F : Nat → Nat} (h : Bound Q G F) {a b : Nat} (hab : a ≤ b) : F a ≤ F b := by
  have := h.add a (b - a)
  rw [Nat.add_sub_cancel' hab] at this
  omega

theorem Bound.step {Q : Prop} {G F : Nat → Nat} (h : Bound Q G F) {a b : Nat} (hab : a + 1 ≤ b) : F a + 1 ≤ F b := by
  have h1 := h.add a 1
  have h2 := h.one 1 (Nat.le_refl _)
  have h3 := h.mono hab
  omega

theorem Bound.leaf {Q : Prop} {G F : Nat → Nat} (h : Bound Q G F) {b : Nat} (hb : 1 ≤ b) : 1 ≤ F b := by
  have := h.one b hb
  omega

variable {cfg : PConfig}

theorem weight_leaf {b : Block} (h : b.pre = [b]) : weight b.pre = 1 + inlineCount b.directInlines := by
  rw [h]; simp [weight]

theorem html_ne {s h : Str} (hh : HtmlWritten s h) : 1 ≤ h.length := by
  cases hh with
  | raw => simp
  | marked hm => cases hm <;> simp <;> omega
  | block ho => rcases ho with rfl | rfl <;> simp
  | tag ht => cases ht <;> simp <;> omega

theorem blocks_weight {E Q : Prop} {G F : Nat → Nat} (hG : InlineBound x cfg.entities E G) (hF : Bound Q G F) {bs : List Block} {s : Str} (h : BlocksWritten x cfg bs s) :
    Sized E Q s → weight (Block.preL bs) ≤ F s.length := by
  refine BlocksWritten.rec (motive_1 := fun b w _ _ => Sized E Q w → weight b.pre ≤ F w.length)
    (motive_2 := fun bs s _ => Sized E Q s → weight (Block.preL bs) ≤ F s.length)
    (motive_3 := fun _ i w _ _ => Sized E Q w → weight i.pre + 1 ≤ F w.length)
    (motive_4 := fun is w _ _ => Sized E Q w → weight (ListItem.preL is) ≤ F w.length)
    ?_ ?_ ?_ ?_ ?_ ?_ ?_ ?_ ?_ ?_ ?_ ?_ ?_ ?_ ?_ ?_ ?_ ?_ h
  · intro ls l w s hne hl hi hw
    have h1 := hG.count hi (Sized.join (hw.lines hl)).esc
    have h2 := join_length ls
    have h3 := lines_length paragraphPrefix_ne 0 (by simp) hl
    have h4 := lines_ne paragraphPrefix_ne hl hne
    rw [weight_leaf (by simp [Block.pre])]
    simp only [Block.directInlines]
    have h5 := hG.mono (show (joinWith ['\n'] ls).length ≤ w.length by omega)
    have h6 := hF.one _ h4
    omega
  · intro n m t e s l _ hne _ hi hw
    have h1 := hG.count hi (hw.mono ⟨m, e, by simp⟩).esc
    have h4 := List.length_pos_iff.2 hne
    rw [weight_leaf (by simp [Block.pre])]
    simp only [Block.directInlines]
    have h5 := hG.mono (show t.length ≤ (m ++ (t ++ e)).length by simp only [List.length_append]; omega)
    have h6 := hF.one (m ++ (t ++ e)).length (by simp only [List.length_append]; omega)
    omega
  · intro ls l k w u e s hne hl hi _ _ hw
    have hw' := hw.mono (s := w) ⟨[], u ++ e, by simp⟩
    have h1 := hG.count hi (Sized.join (hw'.lines hl)).esc
    have h2 := join_length ls
    have h3 := lines_length paragraphPrefix_ne 0 (by simp) hl
    have h4 := lines_ne paragraphPrefix_ne hl hne
    rw [weight_leaf (by simp [Block.pre])]
    simp only [Block.directInlines]
    have h5 := hG.mono (show (joinWith ['\n'] ls).length ≤ (w ++ (u ++ e)).length by simp only [List.length_append]; omega)
    have h6 := hF.one (w ++ (u ++ e)).length (by simp only [List.length_append]; omega)
    omega
  · intro l e s ht _ hw
    rw [weight_leaf (by simp [Block.pre])]
    have : 1 ≤ l.length := by
      obtain ⟨k, n, a, b, _, hn, _, _, rfl⟩ := ht
      simp only [List.length_append, List.length_replicate]
      omega
    simp only [Block.directInlines, inlineCount, Inline.preL, List.length_append, List.length_nil]
    exact hF.leaf (by omega)
  · intro ls bs w s hne hl _ ih hw
    have h1 := ih (Sized.join (hw.lines hl))
    have h2 := join_length ls
    have h3 := lines_length quotePrefix_ne 1 quotePrefix_length hl
    have h4 := List.length_pos_iff.2 hne
    have h6 := lines_ne quotePrefix_ne hl hne
    have h5 := hF.step (show (joinWith ['\n'] ls).length + 1 ≤ w.length by omega)
    rw [Block.pre, weight_cons]
    simp only [Block.directInlines, inlineCount, Inline.preL, List.length_nil]
    omega
  · intro t l ls bs w s hl _ _ ih hw
    have h1 := ih (Sized.join (fun m hm => hw.lines hl m (by simp [hm])))
    have h2 := join_length ls
    have h3 := lines_length quotePrefix_ne 1 quotePrefix_length hl
    simp only [linesLength, List.map_cons, List.sum_cons, List.length_cons] at h2 h3
    have h5 := hF.step (show (joinWith ['\n'] ls).length + 1 ≤ w.length by omega)
    rw [Block.pre, weight_cons]
    simp only [Block.directInlines, inlineCount, Inline.preL, List.length_nil]
    omega
  · intro k i l w w' s _ _ ih1 ih2 hw
    have h1 := ih1 (hw.mono ⟨[], w', by simp⟩)
    have h2 := ih2 (hw.mono ⟨w, [], by simp⟩)
    have h3 := hF.add w.length w'.length
    rw [Block.pre, weight_cons, ListItem.preL, weight_append, List.length_append]
    simp only [Block.directInlines, inlineCount, Inline.preL, List.length_nil]
    omega
  · intro ls w s hne hl hw
    rw [weight_leaf (by simp [Block.pre])]
    have := lines_ne codePrefix_ne hl hne
    simp only [Block.directInlines, inlineCount, Inline.preL, List.length_nil]
    exact hF.leaf (by omega)
  · intro f k n info ls e w c e' s _ _ hn _ _ _ _ _ _ hw
    rw [weight_leaf (by simp [Block.pre])]
    simp only [Block.directInlines, inlineCount, Inline.preL, List.length_nil, List.length_append, List.length_replicate]
    exact hF.leaf (by omega)
  · intro k h s _ hh hw
    rw [weight_leaf (by simp [Block.pre])]
    have := html_ne hh
    simp only [Block.directInlines, inlineCount, Inline.preL, List.length_nil, List.length_append]
    exact hF.leaf (by omega)
  · intro k w t g wd d wt e s title l _ hb hi _ _ _ _ hw
    have h1 := hG.count hi ((hw.mono (s := w) ⟨sp k ++ ['['], cs!"]:" ++ (g ++ (wd ++ (wt ++ e))), by simp⟩).esc.imp id fun h => by
      obtain ⟨rfl, _⟩ := hb.text.plain h
      exact h)
    have h2 := hb.text.length_le
    rw [weight_leaf (by simp [Block.pre])]
    simp only [Block.directInlines]
    have h3 : t.length + 1 ≤ (sp k ++ ('[' :: (w ++ (cs!"]:" ++ (g ++ (wd ++ (wt ++ e))))))).length := by
      simp only [List.length_append, List.length_cons]; omega
    have h5 := hG.mono (show t.length ≤ _ by exact Nat.le_of_succ_le h3)
    have h6 := hF.one _ (show 1 ≤ _ by exact Nat.le_trans (by omega) h3)
    omega
  · intro k label p first e w s ls bs _ _ _ _ _ hl _ ih hw
    have h1 := ih (Sized.join (fun m hm => hw.mono ?_))
    · have h2 := join_length (first :: ls)
      have h3 := lines_length footnotePrefix_ne 0 (by simp) hl
      simp only [linesLength, List.map_cons, List.sum_cons] at h2 h3
      have h5 := hF.step (b := (sp k ++ (cs!"[^" ++ (label ++ (cs!"]:" ++ (p ++ (first ++ (e ++ w))))))).length)
        (show (joinWith ['\n'] (first :: ls)).length + 1 ≤ _ by
          simp only [List.length_append, List.length_cons, List.length_nil]; omega)
      rw [Block.pre, weight_cons]
      simp only [Block.directInlines, inlineCount, Inline.preL, List.length_nil]
      omega
    · rcases List.mem_cons.1 hm with rfl | hm
      · exact ⟨sp k ++ (cs!"[^" ++ (label ++ (cs!"]:" ++ p))), e ++ w, by simp⟩
      · exact (lines_infix hl m hm).trans ⟨sp k ++ (cs!"[^" ++ (label ++ (cs!"]:" ++ (p ++ (first ++ e))))), [], by simp⟩
  · intro h rs as w a last e w' s k hr _ ha _ _ hlen hrs hw
    have h1 := row_count hG hr (hw.mono ⟨[], sp k ++ (a ++ (last ++ (e ++ w'))), by simp⟩).esc
    have h2 := rows_count hG hrs (hw.mono ⟨w ++ (sp k ++ (a ++ (last ++ e))), [], by simp⟩).esc
    have hbar : '|' ∈ w := by
      cases hr with
      | mk _ hne hc _ _ =>
        cases hc with
        | nil => exact absurd rfl hne
        | cons => simp
    have hQ : Q := hw.bar.resolve_right (fun hn => hn (by simp [hbar]))
    rw [weight_leaf (by simp [Block.pre])]
    simp only [Block.directInlines]
    rw [inlineCount_flatten, List.flatten_cons, cellsCount_append]
    have h3 := hF.table hQ w.length (sp k ++ (a ++ (last ++ (e ++ w')))).length h1.2.2
    rw [← List.length_append] at h3
    refine Nat.le_trans ?_ h3
    have h4 : w'.length ≤ (sp k ++ (a ++ (last ++ (e ++ w')))).length := by simp only [List.length_append]; omega
    have h5 : h.length * w'.length ≤ w.length * (sp k ++ (a ++ (last ++ (e ++ w')))).length :=
      Nat.mul_le_mul (by omega) h4
    have h6 := hG.mono h4
    omega
  · intro s _ _
    simp [Block.preL, weight]
  · intro b bs g w s _ _ _ ih1 ih2 hw
    have h1 := ih1 (hw.mono ⟨g, s, by simp⟩)
    have h2 := ih2 (hw.mono ⟨g ++ w, [], by simp⟩)
    have h3 := hF.add w.length s.length
    have h4 := hF.mono (show w.length + s.length ≤ (g ++ (w ++ s)).length by simp)
    rw [Block.preL, weight_append]
    omega
  · intro k pl t bs f first e w s ls hf hle hr _ ih hw
    have h1 := ih (Sized.join (fun m hm => ?_))
    · have h2 := join_length (first :: ls)
      have h3 := item_length hr
      have h6 := itemFirst_length hf
      simp only [linesLength, List.map_cons, List.sum_cons] at h2 h3
      have h5 := hF.step (b := (f ++ (e ++ w)).length)
        (show (joinWith ['\n'] (first :: ls)).length + 1 ≤ _ by
          simp only [List.length_append]
          rcases hle.ends.cases_length with he | ⟨rfl, hws⟩
          · omega
          · rw [List.append_eq_nil_iff] at hws
            have := h3.2 hws.1
            subst this
            simp only [List.map_nil, List.sum_nil] at h2
            omega)
      rw [ListItem.pre]
      omega
    · rcases List.mem_cons.1 hm with rfl | hm
      · exact hw.mono ((item_first hf).trans ⟨[], e ++ w, by simp⟩)
      · exact (hw.mono ⟨f ++ e, [], by simp⟩).items hr m hm
  · intro s _
    simp [ListItem.preL, weight]
  · intro k i l w w' s _ _ ih1 ih2 hw
    have h1 := ih1 (hw.mono ⟨[], w', by simp⟩)
    have h2 := ih2 (hw.mono ⟨w, [], by simp⟩)
    have h3 := hF.add w.length w'.length
    rw [ListItem.preL, weight_append, List.length_append]
    omega

/-- **C95.** The document of a text without an escaped closing bracket and without a bar has at most three times as many
blocks and inlines as the text has characters. -/
theorem C95_linear (hk : cfg.Keeps) {s : Str} {d : Document} (h : parseMarkdown x cfg s = some d)
    (hs : ¬ HasEscapedBracket s) (hb : '|' ∉ s) : d.size ≤ 3 * s.length := by
  rw [Document.size_eq]
  exact blocks_weight (Q := False) (F := (3 * ·)) inlineBound_two ⟨fun a b => by omega, fun n _ => by omega, fun h => h.elim⟩
    (C71_reads hk h) ⟨.inr hs, .inr hb⟩

/-- **C95.** The document of a text without an escaped closing bracket has at most three times as many blocks and inlines
as the square of the number of characters. -/
theorem C95_quadratic (hk : cfg.Keeps) {s : Str} {d : Document} (h : parseMarkdown x cfg s = some d)
    (hs : ¬ HasEscapedBracket s) : d.size ≤ 3 * (s.length * s.length) := by
  rw [Document.size_eq]
  refine blocks_weight (Q := True) (F := fun n => 3 * (n * n)) inlineBound_two ⟨fun a b => ?_, fun n hn => ?_, fun _ a b h => ?_⟩
    (C71_reads hk h) ⟨.inr hs, .inl trivial⟩
  · simp only [Nat.add_mul, Nat.mul_add]; omega
  · have h1 : 1 * n ≤ n * n := Nat.mul_le_mul hn (Nat.le_refl _)
    omega
  · have h1 : 1 * b ≤ a * b := Nat.mul_le_mul h (Nat.le_refl _)
    have h2 : 1 * a ≤ a * a := Nat.mul_le_mul h (Nat.le_refl _)
    have h3 := Nat.mul_comm a b
    simp only [Nat.add_mul, Nat.mul_add]
    omega

/-- **C95.** The document of any text has less than `2 ^ (n + 1)` blocks and inlines, where `n` is the number of characters. -/
theorem C95_bound (hk : cfg.Keeps) {s : Str} {d : Document} (h : parseMarkdown x cfg s = some d) :
    d.size < 2 ^ (s.length + 1) := by
  rw [Document.size_eq]
  have hp : ∀ n, ∃ i, 2 ^ n = i + 1 ∧ n ≤ i := fun n => ⟨2 ^ n - 1, by
    have := Nat.lt_two_pow_self (n := n)
    omega⟩
  have := blocks_weight (Q := True) (F := fun n => 2 * (2 ^ n - 1)) inlineBound_pow ⟨fun a b => ?_, fun n hn => ?_, fun _ a b h => ?_⟩
    (C71_reads hk h) ⟨.inl trivial, .inl trivial⟩
  · have h1 := Nat.two_pow_pos s.length
    rw [Nat.pow_succ]
    omega
  · obtain ⟨i, hi, _⟩ := hp a
    obtain ⟨j, hj, _⟩ := hp b
    rw [Nat.pow_add, hi, hj]
    simp only [Nat.add_mul, Nat.mul_add]
    omega
  · obtain ⟨i, hi, _⟩ := hp n
    rw [hi]
    omega
  · obtain ⟨i, hi, hia⟩ := hp a
    obtain ⟨j, hj, hjb⟩ := hp b
    have h1 : a * b ≤ i * j := Nat.mul_le_mul hia hjb
    rw [Nat.pow_add, hi, hj]
    simp only [Nat.add_mul, Nat.mul_add]
    omega

end
end Verif
