import Verif.CleanupMarkdown
import Verif.LatexLength
import Verif.RoundTripList
/-!
# C119: how many characters of the Markdown are not layout
-/
set_option autoImplicit false
set_option linter.unusedSimpArgs false
namespace Verif

/-! ## Specification -/

/-- The characters that layout consists of: whitespace, `>` before the lines of quotes, dashes under the headers of tables. -/
def isLayout (c : Char) : Bool := isWs c || c == '>' || c == '-'

/-- The number of marks of a heading. -/
def Block.marks : Block → Nat
  | .heading (.atx n) _ => n
  | _ => 0

/-- The number of characters in the name of an alert that has a name of its own. -/
def Block.called : Block → Nat
  | .githubAlert (.custom n) _ => n.length
  | _ => 0

/-- The number of characters in the names of the alerts of a document that have names of their own. -/
def Document.called (d : Document) : Nat := (d.allBlocks.map Block.called).sum

/-- The number of marks of the headings of a document. -/
def Document.marks (d : Document) : Nat := (d.allBlocks.map Block.marks).sum

namespace Md
namespace InkLen
open Md.Spec Clean
open Latex (ink ink_append squeeze_app ink_lay)

theorem lay_ws : ∀ c, isWs c = true → isLayout c = true := fun c h => by simp [isLayout, h]

theorem squeeze_le (q : Char → Bool) (t : Str) : (squeeze q t).length ≤ t.length := List.length_filter_le ..

/-- What an inline costs. -/
def ic (i : Inline) : Nat := 10 + i.letters
/-- What inlines cost. -/
def ics (l : List Inline) : Nat := ((Inline.preL l).map ic).sum

theorem collapse_len (t : Str) : ∀ b, (collapse b t).length ≤ t.length := by
  induction t with
  | nil => intro b; simp [collapse]
  | cons c t ih =>
    intro b
    have h1 := ih true
    have h2 := ih false
    rw [collapse]
    split
    · split <;> simp only [List.length_cons] <;> omega
    · simp only [List.length_cons]; omega

theorem title_len (t : Option Str) : (title t).length ≤ 3 + (t.getD []).length := by
  cases t <;> simp [title] <;> omega

theorem source_len :
    (∀ i, (inlineSource (collapse false) i).length + (Inline.pre i).length ≤ (i.pre.map ic).sum) ∧
    ∀ l, (lineSource l).length + (Inline.preL l).length ≤ ics l := by
  apply Inline.ind
  case text =>
    intro t
    have := collapse_len t false
    simp [inlineSource, Inline.pre, ic, Inline.letters]
    omega
  case link =>
    intro d t c ih
    have := title_len t
    simp [inlineSource, Inline.pre, ic, Inline.letters, ics, lineSource] at ih ⊢
    omega
  case image =>
    intro d t a
    have := title_len t
    simp [inlineSource, Inline.pre, ic, Inline.letters]
    omega
  case linkReference =>
    intro l t h1 h2
    simp only [inlineSource]
    split <;> simp [Inline.pre, ic, Inline.letters, ics, lineSource] at h1 h2 ⊢ <;> omega
  case nil => simp [lineSource, inlinesSource, Inline.preL, ics]
  case cons =>
    intro i l h1 h2
    simp [lineSource, inlinesSource, Inline.preL, ics] at h1 h2 ⊢
    omega
  all_goals
    intros
    simp_all [inlineSource, Inline.pre, ic, Inline.letters, ics, lineSource]
    try omega

theorem inl_len (dg : Char → Bool) (l : List Inline) : (ink isLayout (inlinesPieces dg l)).length ≤ ics l := by
  rw [(inline_source lay_ws dg).2]
  have := source_len.2 l
  have := squeeze_le isLayout (lineSource l)
  omega

theorem ics_append (l m : List Inline) : ics (l ++ m) = ics l + ics m := by
  induction l with
  | nil => simp [ics, Inline.preL]
  | cons i l ih => simp [ics, Inline.preL] at ih ⊢; omega

/-! ## Tables -/

theorem join_bar (l : List Str) : (joinWith cs!"|" l).length ≤ (l.map fun c => c.length + 1).sum := by
  fun_induction joinWith cs!"|" l with
  | case1 => simp
  | case2 x => simp
  | case3 x y l ih => simp at ih ⊢; omega

theorem row_len (cells : List Str) : (squeeze isLayout (Spec.row cells)).length ≤ 2 + (cells.map fun c => (squeeze isLayout c).length + 1).sum := by
  have e1 : squeeze isLayout cs!"| " = ['|'] := by decide
  have e2 : squeeze isLayout cs!" | " = ['|'] := by decide
  have e3 : squeeze isLayout cs!" |" = ['|'] := by decide
  have := join_bar (cells.map (squeeze isLayout))
  simp only [Spec.row, squeeze_app, join_squeeze, e1, e2, e3, List.length_append, List.map_map, Function.comp_def, List.length_cons, List.length_nil] at this ⊢
  omega

theorem delimiter_len (a : Alignment) (w : Nat) : (squeeze isLayout (delimiter a w)).length ≤ 2 := by
  rw [delimiter_squeeze (by decide) a w 2]
  cases a <;> decide

theorem cell_len (c : List Inline) : (squeeze isLayout (lineSource c)).length + 1 ≤ (if c = [] then 1 else 0) + ics c := by
  have h1 := source_len.2 c
  have h2 := squeeze_le isLayout (lineSource c)
  cases c with
  | nil => simp [lineSource, inlinesSource, squeeze]
  | cons i l =>
    have : 1 ≤ (Inline.preL (i :: l)).length := by
      simp only [Inline.preL, List.length_append]
      cases i <;> simp [Inline.pre] <;> omega
    simp
    omega

theorem cells_len (r : List (List Inline)) :
    ((r.map lineSource).map fun c => (squeeze isLayout c).length + 1).sum ≤ (r.map fun c => if c = [] then 1 else 0).sum + ics r.flatten := by
  induction r with
  | nil => simp [ics, Inline.preL]
  | cons c r ih =>
    have := cell_len c
    rw [List.flatten_cons, ics_append]
    simp only [List.map_cons, List.sum_cons] at ih ⊢
    omega

theorem line_len (al : List Alignment) (g : Nat → Nat) (r : List (List Inline)) :
    (squeeze isLayout (Spec.row ((r.map lineSource).mapIdx fun i c => pad (al[i]?.getD .none) (g i) c))).length ≤
      2 + (r.map fun c => if c = [] then 1 else 0).sum + ics r.flatten := by
  have h := row_squeeze (q := isLayout) (a := (r.map lineSource).mapIdx fun i c => pad (al[i]?.getD .none) (g i) c)
    (b := r.map lineSource) (cells_squeeze lay_ws _ _ _)
  rw [h]
  have := row_len (r.map lineSource)
  have := cells_len r
  omega

theorem rows_len (al : List Alignment) (g : Nat → Nat) (rows : List (List (List Inline))) :
    ((rows.map fun r => (squeeze isLayout (Spec.row ((r.map lineSource).mapIdx fun i c => pad (al[i]?.getD .none) (g i) c))).length).sum) ≤
      2 * rows.length + (rows.flatten.map fun c => if c = [] then 1 else 0).sum + ics rows.flatten.flatten := by
  induction rows with
  | nil => simp [ics, Inline.preL]
  | cons r rows ih =>
    have := line_len al g r
    rw [List.flatten_cons, List.flatten_append, ics_append]
    simp only [List.map_cons, List.sum_cons, List.map_append, List.sum_append, List.length_cons] at ih ⊢
    omega

theorem rule_len (al : List Alignment) (g : Nat → Nat) :
    (squeeze isLayout (Spec.row (al.mapIdx fun i a => delimiter a (g i)))).length ≤ 2 + 3 * al.length := by
  have h := row_len (al.mapIdx fun i a => delimiter a (g i))
  have : ((al.mapIdx fun i a => delimiter a (g i)).map fun c => (squeeze isLayout c).length + 1).sum ≤ 3 * al.length := by
    have : ∀ l : List Str, (∀ c ∈ l, (squeeze isLayout c).length ≤ 2) → (l.map fun c => (squeeze isLayout c).length + 1).sum ≤ 3 * l.length := by
      intro l hl
      induction l with
      | nil => simp
      | cons c l ih =>
        have h1 := hl c (by simp)
        have h2 := ih fun d hd => hl d (by simp [hd])
        simp only [List.map_cons, List.sum_cons, List.length_cons]
        omega
    have := this (al.mapIdx fun i a => delimiter a (g i)) (by
      intro c hc
      obtain ⟨i, hi, rfl⟩ := List.mem_mapIdx.1 hc
      exact delimiter_len _ _)
    simpa using this
  omega

theorem lines_len (l : List Str) : (squeeze isLayout (joinWith cs!"\n" l)).length = (l.map fun s => (squeeze isLayout s).length).sum := by
  rw [join_squeeze, show squeeze isLayout cs!"\n" = [] by decide]
  induction l with
  | nil => rfl
  | cons s l ih =>
    cases l with
    | nil => simp [joinWith]
    | cons t l => simp [joinWith] at ih ⊢; omega

theorem table_len (al : List Alignment) (rows : List (List (List Inline))) :
    (squeeze isLayout (joinWith cs!"\n" (anyTableLines al (rows.map (·.map lineSource))))).length ≤
      2 + 3 * al.length + 2 * rows.length + (rows.flatten.map fun c => if c = [] then 1 else 0).sum + ics rows.flatten.flatten := by
  rw [lines_len]
  cases rows with
  | nil => simp [anyTableLines]
  | cons r rows =>
    simp only [List.map_cons, anyTableLines, List.sum_cons, List.map_map, Function.comp_def]
    generalize widthOf al (r.map lineSource :: rows.map (·.map lineSource)) = g
    have h1 := line_len al g r
    have h2 := rows_len al g rows
    have h3 := rule_len al g
    rw [List.flatten_cons, List.flatten_append, ics_append]
    simp only [List.map_append, List.sum_append, List.length_cons]
    omega


/-! ## Blocks -/

/-- The numbers of the lists are within the machine's range. -/
def Numbered (l : List Block) : Prop := ∀ k items, Block.list k items ∈ l → NumbersOk k items.length

theorem Numbered.sub {a b : List Block} (f : Numbered a) (k : ∀ c ∈ b, c ∈ a) : Numbered b := fun v i hc => f v i (k _ hc)

theorem numbered (dw : Str → Nat) (sp : Nat) :
    (∀ b, ∀ w ind col, Printable dw w sp ind col b → Numbered b.pre) ∧
    (∀ i, ∀ w ind col, PrintableItem dw w sp ind col i → Numbered (ListItem.pre i)) ∧
    (∀ l, ∀ w ind col, PrintableL dw w sp ind col l → Numbered (Block.preL l)) ∧
    ∀ l, ∀ w k inner ind n col, PrintableItems dw w sp k inner ind n col l → Numbered (ListItem.preL l) := by
  apply Block.ind
  case blockQuote =>
    intro b ih w ind col h k i hm
    simp only [Printable] at h
    simp only [Block.pre, List.mem_cons, reduceCtorEq, false_or] at hm
    exact ih _ _ _ h.2 k i hm
  case list =>
    intro v l ih w ind col h k i hm
    simp only [Printable] at h
    simp only [Block.pre, List.mem_cons, Block.list.injEq] at hm
    rcases hm with ⟨rfl, rfl⟩ | hm
    · exact h.1
    · exact ih _ _ _ _ _ _ h.2 k i hm
  case githubAlert =>
    intro v b ih w ind col h k i hm
    simp only [Printable] at h
    simp only [Block.pre, List.mem_cons, reduceCtorEq, false_or] at hm
    exact ih _ _ _ h k i hm
  case footnoteDefinition =>
    intro l b ih w ind col h k i hm
    simp only [Printable] at h
    simp only [Block.pre, List.mem_cons, reduceCtorEq, false_or] at hm
    exact ih _ _ _ h k i hm
  case item =>
    intro t b ih w ind col h
    simp only [PrintableItem] at h
    rw [ListItem.pre]
    exact ih _ _ _ h
  case nilB => intro _ _ _ _ k i hm; simp [Block.preL] at hm
  case consB =>
    intro b l h1 h2 w ind col h k i hm
    simp only [PrintableL] at h
    rw [Block.preL, List.mem_append] at hm
    exact hm.elim (h1 _ _ _ h.1 k i) (h2 _ _ _ h.2 k i)
  case nilI => intro _ _ _ _ _ _ _ k i hm; simp [ListItem.preL] at hm
  case consI =>
    intro b l h1 h2 w v inner ind n col h k i hm
    simp only [PrintableItems] at h
    rw [ListItem.preL, List.mem_append] at hm
    exact hm.elim (h1 _ _ _ h.1 k i) (h2 _ _ _ _ _ _ h.2 k i)
  all_goals intros; intro k i hm; simp [Block.pre] at hm

theorem marker_len {k : ListKind} {i n : Nat} (h : NumbersOk k n) (hi : i < n) : (Spec.marker k i).length ≤ 21 := by
  cases k with
  | bullet b => cases b <;> simp [Spec.marker]
  | ordered s =>
    simp only [NumbersOk] at h
    have := digits_mono (a := s + i) (b := 2 ^ 64) (by omega)
    have e : (Nat.toDigits 10 (2 ^ 64)).length = 20 := by decide +kernel
    rw [e] at this
    simp only [Spec.marker, List.length_append, List.length_cons, List.length_nil]
    omega

theorem item_len (sp : Nat) {k : ListKind} {i n : Nat} (h : NumbersOk k n) (hi : i < n) (t : Option TaskState) :
    (ink isLayout (itemPieces sp k i t)).length ≤ 30 := by
  have h1 := marker_len h hi
  have h2 := squeeze_le isLayout (Spec.marker k i)
  have e : squeeze isLayout [' '] = [] := by decide
  have e1 : squeeze isLayout cs!"[X]" = cs!"[X]" := by decide
  have e2 : squeeze isLayout cs!"[ ]" = cs!"[]" := by decide
  rcases t with _ | _ | _ <;>
    simp only [itemPieces, ink_append, ink, spaces_squeeze lay_ws, e, e1, e2, List.length_append, List.length_cons, List.length_nil] <;> omega

/-- What a block costs, without the blocks in it. -/
def own (b : Block) : Nat := 60 + 30 * b.frames + b.letters + 2 * b.called + 3 * b.columns + b.marks + ics b.directInlines

/-- What blocks cost. -/
def cost (l : List Block) : Nat := (l.map own).sum

theorem cost_append (a b : List Block) : cost (a ++ b) = cost a + cost b := by simp [cost]
theorem cost_cons (a : Block) (b : List Block) : cost (a :: b) = own a + cost b := by simp [cost]

theorem alert_len {up : Str → Str} (hu : ∀ s, (up s).length ≤ 3 * s.length) (t : AlertType) (b : List Block) :
    (Spec.alertName up t).length ≤ 9 + (Block.githubAlert t b).letters + 2 * (Block.githubAlert t b).called := by
  cases t <;> simp [Spec.alertName, Block.letters, Block.called]
  exact Nat.le_trans (hu _) (by omega)

theorem block_len (dw : Str → Nat) (w : Nat) (y : Style) (hu : ∀ s, (y.upper s).length ≤ 3 * s.length) :
    (∀ b, Numbered b.pre → ∀ ind col, (inkP isLayout (blockPieces dw w y ind col b)).length ≤ cost b.pre) ∧
    (∀ i, Numbered (ListItem.pre i) → ∀ ind col, (inkP isLayout (contentPieces dw w y ind col i)).length ≤ cost (ListItem.pre i)) ∧
    (∀ l, Numbered (Block.preL l) → ∀ ind col first,
      (inkP isLayout (blocksPieces dw w y ind col first l)).length ≤ cost (Block.preL l)) ∧
    ∀ l, Numbered (ListItem.preL l) → ∀ k i inner ind col, NumbersOk k (i + l.length) →
      (inkP isLayout (itemsPieces dw w y k inner ind i col l)).length ≤ 30 * l.length + cost (ListItem.preL l) := by
  have tl : ∀ {b : Block} {l : List Block}, Numbered (b :: l) → Numbered l := fun f => f.sub fun c hc => List.mem_cons_of_mem _ hc
  have inl := inl_len y.digit
  have sl := squeeze_le isLayout
  apply Block.ind
  case paragraph =>
    intro c _ _ _
    have := inl c
    simp only [blockPieces, inkP_at, Block.pre, cost_cons, own, Block.directInlines]
    omega
  case heading =>
    intro v c _ _ _
    have := inl c
    cases v with
    | atx n =>
      have h := sl (List.replicate n '#')
      have e : squeeze isLayout [' '] = [] := by decide
      simp only [List.length_replicate] at h
      simp only [blockPieces, inkP_at, ink_append, ink, ink_unbroken lay_ws, e, List.length_append, List.length_nil, Block.pre, cost_cons, own,
        Block.directInlines, Block.marks]
      omega
    | setext v =>
      have h := sl (underline v)
      have e : (underline v).length = 10 := by cases v <;> rfl
      simp only [blockPieces, inkP_at, ink_append, ink, List.length_append, List.length_nil, Block.pre, cost_cons, own, Block.directInlines]
      omega
  case thematicBreak =>
    intro _ _ _
    have e : squeeze isLayout cs!"---" = [] := by decide
    simp only [blockPieces, inkP_at, ink, e, List.append_nil, List.length_nil]
    omega
  case definition =>
    intro l d t _ _ _
    have := inl l
    have h1 := sl (d ++ title t)
    have h2 := title_len t
    have h3 := sl cs!"["
    have h4 := sl cs!"]: "
    simp only [List.length_append, List.length_cons, List.length_nil] at h1 h3 h4
    simp only [blockPieces, inkP_at, ink_append, ink, List.length_append, List.length_nil, Block.pre, cost_cons, own, Block.directInlines,
      Block.letters]
    omega
  case blockQuote =>
    intro b ih k _ _
    simp only [blockPieces, inkP_at, quote_ink lay_ws (show isLayout '>' = true by decide), ink_lay lay_ws, Block.pre, cost_cons]
    exact Nat.le_trans (ih (tl k) 0 0 true) (by omega)
  case githubAlert =>
    intro v b ih k _ _
    have h0 := ih (tl k) 0 0 true
    have e := alert_ink lay_ws (show isLayout '>' = true by decide) (lay dw 80 0 (blocksPieces dw w y 0 0 true b))
    have h1 := sl (cs!"> [!" ++ Spec.alertName y.upper v ++ cs!"]")
    have h2 := alert_len hu v b
    simp only [List.length_append, List.length_cons, List.length_nil] at h1
    simp only [blockPieces, inkP_at, ink_onLines, List.map_cons, List.map_map, List.flatten_cons, Function.comp_def, Block.pre, cost_cons]
    rw [e, ink_lay lay_ws]
    simp only [ink, List.append_nil, List.length_append, own]
    rw [← inkP]
    omega
  case list =>
    intro v i ih k _ _
    have h0 := k v i (List.mem_cons_self ..)
    simp only [blockPieces, Block.pre, cost_cons, own]
    refine Nat.le_trans (ih (tl k) v 0 _ _ _ (by simpa using h0)) ?_
    simp only [Block.frames]
    omega
  case table =>
    intro rows al k ind col
    have := table_len al rows
    simp only [blockPieces, Block.pre, cost_cons, own, Block.directInlines, Block.frames, Block.columns]
    split
    · simp [inkP, ink]
    · simp only [inkP_at, ink, List.append_nil]
      omega
  case footnoteDefinition =>
    intro l b ih k ind col
    have h0 := ih (tl k) ind (col + dw (cs!"[^" ++ l ++ cs!"]: ")) true
    have h1 := sl (cs!"[^" ++ l ++ cs!"]: ")
    simp only [List.length_append, List.length_cons, List.length_nil] at h1
    have e : ∀ p ps, inkP isLayout ((ind, .word p) :: ps) = squeeze isLayout p ++ inkP isLayout ps := fun _ _ => rfl
    simp only [blockPieces, e, List.length_append, Block.pre, cost_cons, own, Block.letters]
    omega
  case codeBlock =>
    intro v t _ _ _
    have h0 := sl t
    cases v with
    | fenced info =>
      have h1 := sl (cs!"```" ++ info.getD [] ++ cs!"\n")
      have h2 := sl cs!"\n```"
      simp only [List.length_append, List.length_cons, List.length_nil] at h1 h2
      simp only [blockPieces, inkP_at, ink, List.length_append, List.length_nil, Block.pre, cost_cons, own, Block.letters]
      omega
    | indented =>
      have e : ((rustLines t).map fun s => (squeeze isLayout (cs!"    " ++ s)).length).sum = (squeeze isLayout t).length := by
        rw [← lines_squeeze lay_ws t, List.length_flatten, List.map_map]
        rfl
      simp only [blockPieces, inkP_at, ink, List.append_nil, lines_len, List.map_map, Function.comp_def, e, Block.pre, cost_cons, own,
        Block.letters]
      omega
  case htmlBlock =>
    intro t _ _ _
    have := sl t
    simp only [blockPieces, inkP_at, ink, List.append_nil, Block.pre, cost_cons, own, Block.letters]
    omega
  case empty => intros; simp [blockPieces, inkP, ink]
  case item =>
    intro t b ih k ind col
    simp only [contentPieces, ListItem.pre]
    exact ih k _ _ _
  case nilB => intros; simp [blocksPieces, inkP, ink]
  case consB =>
    intro b l ihb ihl k ind col first
    have h1 := ihb (k.sub fun c hc => List.mem_append_left _ hc) ind col
    have h2 := ihl (k.sub fun c hc => List.mem_append_right _ hc) ind ind false
    have e : inkP isLayout (if first then [] else atIndent ind (gapBefore y b)) = [] := by
      cases first
      · simp only [Bool.false_eq_true, if_false, inkP_at, gap_ink]
      · rfl
    simp only [blocksPieces, inkP_append, e, List.length_append, List.length_nil, Block.preL, cost_append]
    omega
  case nilI => intros; simp [itemsPieces, inkP, ink]
  case consI =>
    intro b l ihb ihl k v i inner ind col hn
    rw [List.length_cons] at hn
    have h1 := ihb (k.sub fun c hc => List.mem_append_left _ hc) inner (col + itemColumns y.spaces v i b.task)
    have h2 := ihl (k.sub fun c hc => List.mem_append_right _ hc) v (i + 1) inner ind ind (by rwa [show i + 1 + l.length = i + (l.length + 1) by omega])
    have h3 := item_len y.spaces hn (i := i) (by omega) b.task
    have e : inkP isLayout (if i = 0 then [] else [(ind, .newline)]) = [] := by split <;> rfl
    simp only [itemsPieces, inkP_append, inkP_at, e, List.length_append, List.length_nil, ListItem.preL, cost_append, List.length_cons]
    omega

theorem cost_total (d : Document) : cost (Block.preL d.blocks) ≤ 60 * (d.size + d.frames) + d.letters + 2 * d.called + 3 * d.columns + d.marks := by
  have h1 : ∀ l : List Inline, (l.map ic).sum = 10 * l.length + (l.map Inline.letters).sum := by
    intro l
    induction l with
    | nil => simp
    | cons i l ih => simp only [List.map_cons, List.sum_cons, ih, ic, List.length_cons]; omega
  have h2 : ∀ l : List Block, cost l = 60 * l.length + 30 * (l.map Block.frames).sum + (l.map Block.letters).sum + 2 * (l.map Block.called).sum +
      3 * (l.map Block.columns).sum + (l.map Block.marks).sum + ((l.flatMap fun b => Inline.preL b.directInlines).map ic).sum := by
    intro l
    induction l with
    | nil => simp [cost]
    | cons b l ih =>
      rw [cost_cons, ih]
      simp only [List.map_cons, List.sum_cons, own, ics, List.length_cons, List.flatMap_cons, List.map_append, List.sum_append]
      omega
  have h3 := h2 d.allBlocks
  have h4 := h1 d.allInlines
  have e1 : d.allBlocks = Block.preL d.blocks := rfl
  have e2 : (d.allBlocks.flatMap fun b => Inline.preL b.directInlines) = d.allInlines := rfl
  rw [e2, h4] at h3
  rw [← e1, h3, Document.size, Document.letters, Document.frames, Document.columns, Document.marks, Document.called]
  omega

end InkLen

/-- **C119.** The characters of the Markdown text of a document that are not layout — whitespace, `>`, `-` — are at most sixty for
every node, item, row and empty cell, one for every character of its strings, two more for those of the names of alerts, which are
in capitals, three for every column, and the marks of its headings; whatever the configuration. -/
theorem C119_ink (x : Ext) (cfg : Config) (hu : ∀ c, (x.toPExt.upper c).length ≤ 3) {d : Document} {s : Str}
    (hs : renderMarkdown x cfg d = some s) :
    (s.filter fun c => !isLayout c).length ≤ 60 * (d.size + d.frames) + d.letters + 2 * d.called + 3 * d.columns + d.marks := by
  rw [Exact.C86_exact] at hs
  have hu : ∀ s, (x.toPExt.upperStr s).length ≤ 3 * s.length := by
    intro s
    induction s with
    | nil => simp [PExt.upperStr]
    | cons c s ih =>
      have := hu c
      simp only [PExt.upperStr, List.flatMap_cons, List.length_append, List.length_cons] at ih ⊢
      omega
  have h := InkLen.block_len x.dw cfg.width (style x cfg) hu |>.2.2.1 d.blocks ((InkLen.numbered x.dw _).2.2.1 _ _ _ _ hs.1) 0 0 true
  have e : s.filter (fun c => !isLayout c) = squeeze isLayout s := rfl
  rw [e, hs.2]
  unfold Spec.markdownText
  rw [Latex.ink_lay InkLen.lay_ws]
  exact Nat.le_trans h (InkLen.cost_total d)

/-- **C119**, a document with a nested list, a quote, a table, an alert and code that meets the hypotheses; and a table whose text
is longer than the bound on what is not layout: the layout of a text has no such bound. -/
theorem C119_example :
    let x := Ext.ascii
    let d : Document := ⟨[
      .heading (.atx 3) [.text cs!"a > b", .emphasis [.code cs!"x - y"]],
      .list (.ordered 9) [.mk none [.paragraph [.link cs!"/u" (some cs!"t") [.text cs!"c"]], .list (.bullet .star) [.mk (some .complete) [.blockQuote [.paragraph [.text cs!"q"]]]]],
        .mk none [.codeBlock (.fenced (some cs!"rs")) cs!"let x;"]],
      .githubAlert (.custom cs!"beware") [.paragraph [.text cs!"stop"]],
      .table [[[.text cs!"h"], []], [[], [.text cs!"k"]]] [.left, .center]]⟩
    let t : Document := ⟨[.table [[[.text (List.replicate 500 'a')]], [[]], [[]], [[]]] [.none]]⟩
    (∀ c, (x.toPExt.upper c).length ≤ 3) ∧ (renderMarkdown x Config.default d).isSome = true ∧
    (((renderMarkdown x Config.default t).getD []).filter fun c => !isLayout c).length = 510 ∧
    60 * (t.size + t.frames) + t.letters + 2 * t.called + 3 * t.columns + t.marks = 1043 ∧
    1043 < ((renderMarkdown x Config.default t).getD []).length := by
  refine ⟨fun c => ?_, ?_, ?_, ?_, ?_⟩
  · exact Nat.le_add_left 1 2
  all_goals decide +kernel

end Md
end Verif
