import Verif.PrinterExactInline
import Verif.PrinterPanic
/-!
# Markdown printer: C86, the exact output
-/
set_option autoImplicit false
set_option linter.unusedVariables false
set_option linter.unusedSimpArgs false
namespace Verif
namespace Md
namespace Exact
open Spec

section
variable {dw : Str → Nat} {w : Nat}

/-- The document is printed as the pieces, which begin at the indentation. -/
def At (dw : Str → Nat) (w : Nat) (d : Doc) (i p : Nat) (T : Pieces) : Prop :=
  Sem dw w d i p T ∧ (d = .nil → T = []) ∧ (d ≠ .nil → StartsAt i T)

theorem U.at {d : Doc} {L : List Piece} (h : U dw w d L) (i p : Nat) : At dw w d i p (atIndent i L) :=
  ⟨h.1 i p, fun e => by rw [h.2.1 e]; rfl, fun e => h.starts e i⟩

theorem Sem.panic {i p : Nat} {T : Pieces} : Sem dw w .panic i p T where
  flat k h := by cases h
  fit k R hk hp b h := by cases h
  best k R n hk hn r h := by cases h

theorem StartsAt.append {i : Nat} {a b : Pieces} (h : StartsAt i a) : StartsAt i (a ++ b) := by
  obtain ⟨p, t, rfl⟩ := h
  exact ⟨p, t ++ b, rfl⟩

/-- As `Sem.app`. -/
theorem At.app {d e : Doc} {i p : Nat} {a b : Pieces} (h : At dw w d i p a)
    (h' : ∀ R q, Pos dw (b ++ R) p a q → At dw w e i q b) : At dw w (d.app e) i p (a ++ b) := by
  have hb := h' [] _ (layGo_pos (dw := dw) (w := w) (b ++ []) a p)
  refine ⟨h.1.app h.2.1 (fun R q hq => (h' R q hq).1) hb.2.1 (fun he _ => hb.2.2 he), ?_, ?_⟩
  · intro e
    have e := app_eq_nil.1 e
    rw [h.2.1 e.1, hb.2.1 e.2]; rfl
  · intro he
    by_cases hd : d = .nil
    · rw [h.2.1 hd]
      exact hb.2.2 (fun e => he (app_eq_nil.2 ⟨hd, e⟩))
    · exact (h.2.2 hd).append

theorem pos_newline {R : Pieces} {i q : Nat} (a : Pieces) : ∀ {p : Nat}, Pos dw R p (a ++ [(i, .newline)]) q →
    q = nextIndent i R := by
  induction a with
  | nil => intro p h; exact h
  | cons o a ih =>
    intro p h
    obtain ⟨j, o⟩ := o
    cases o
    · exact ih h
    · obtain ⟨p', h⟩ := h; exact ih h
    · exact ih h

/-- After a line break the column is the indentation. -/
theorem At.app_newline {d e : Doc} {i p : Nat} {a b : Pieces} (h : At dw w d i p (a ++ [(i, .newline)]))
    (h' : At dw w e i i b) : At dw w (d.app e) i p (a ++ [(i, .newline)] ++ b) := by
  refine h.app fun R q hq => ?_
  have hq := pos_newline a hq
  by_cases he : e = .nil
  · subst he
    rw [h'.2.1 rfl]
    exact ⟨.nil, fun _ => rfl, fun h => absurd rfl h⟩
  · obtain ⟨o, t, rfl⟩ := h'.2.2 he
    cases (hq : q = i)
    exact h'

theorem At.newline {d : Doc} {i p : Nat} {a : Pieces} (h : At dw w d i p a) :
    At dw w (d.app .hardline) i p (a ++ [(i, .newline)]) :=
  h.app fun R q _ => U.at .hardline i q

/-- Words only. -/
theorem pos_words {R : Pieces} {i q : Nat} (l : List Str) : ∀ {p : Nat}, Pos dw R p (atIndent i (l.map .word)) q →
    q = p + (l.map dw).sum := by
  induction l with
  | nil => intro p h; exact h
  | cons s l ih =>
    intro p h
    have := ih (p := p + dw s) h
    simp only [List.map_cons, List.sum_cons]; omega

theorem At.app_words {d e : Doc} {i p : Nat} {l : List Str} {b : Pieces} (h : U dw w d (l.map .word))
    (h' : At dw w e i (p + (l.map dw).sum) b) : At dw w (d.app e) i p (atIndent i (l.map .word) ++ b) := by
  refine (h.at i p).app fun R q hq => ?_
  rw [pos_words l hq]
  exact h'

/-! ## Lines -/

/-- Pieces, each after a line break. -/
def afterLines (ls : List (List Piece)) : List Piece := (ls.map (.newline :: ·)).flatten

theorem onLines_cons (l : List Piece) (ls : List (List Piece)) : onLines (l :: ls) = l ++ afterLines ls := by
  induction ls generalizing l with
  | nil => simp [onLines, afterLines]
  | cons l' ls ih =>
    rw [onLines, ih]
    · simp [afterLines]
    · simp

/-- `U` for lists. -/
inductive Us (dw : Str → Nat) (w : Nat) : List Doc → List (List Piece) → Prop
  | nil : Us dw w [] []
  | cons {d : Doc} {l : List Doc} {a : List Piece} {as : List (List Piece)} : U dw w d a → Us dw w l as →
      Us dw w (d :: l) (a :: as)

theorem Us.map {α : Type} {f : α → Doc} {g : α → List Piece} (l : List α) (h : ∀ a, U dw w (f a) (g a)) :
    Us dw w (l.map f) (l.map g) := by
  induction l with
  | nil => exact .nil
  | cons a l ih => exact .cons (h a) ih

theorem Us.foldl {ds : List Doc} {ls : List (List Piece)} (h : Us dw w ds ls) : ∀ {d : Doc} {a : List Piece},
    U dw w d a → U dw w (ds.foldl (fun acc e => (acc.app .hardline).app e) d) (a ++ afterLines ls) := by
  induction h with
  | nil => intro d a h; simpa [afterLines] using h
  | cons h1 _ ih =>
    intro d a h
    simpa [afterLines] using ih ((h.app .hardline).app h1)

theorem Us.intersperse {d : Doc} {ds : List Doc} {a : List Piece} {ls : List (List Piece)} (h : Us dw w (d :: ds) (a :: ls)) :
    U dw w (Doc.intersperse (d :: ds) .hardline) (onLines (a :: ls)) := by
  cases h with
  | cons h1 h2 =>
    rw [onLines_cons]
    exact h2.foldl h1

end

/-! ## Blocks -/

section
variable (x : Ext) (cfg : Config)

theorem renderE_pieces {w : Nat} {d : Doc} {T : Pieces} (h : Sem x.dw w d 0 0 T) {s : Str} (hs : d.renderE x.dw w = some s) :
    s = lay x.dw w 0 T := by
  unfold Doc.renderE at hs
  simp only [Option.map_eq_some_iff] at hs
  obtain ⟨r, hr, rfl⟩ := hs
  have := h.best _ [] none (by
    intro q _ hq b hb
    simp only [Option.some.injEq] at hb
    subst hb
    simp [ahead, hq]) (by intro _ i; rfl) r hr
  rw [this, layGo_lay]

theorem separate_pieces {w i p : Nat} {acc : Doc} {T : Pieces} (b : Block) (h : At x.dw w acc i p T) :
    ∃ T', T ++ atIndent i (gapBefore (style x cfg) b) = T' ++ [(i, .newline)] ∧
      At x.dw w (separate cfg acc b) i p (T' ++ [(i, .newline)]) := by
  have two : ∃ T', T ++ atIndent i [.newline, .newline] = T' ++ [(i, .newline)] ∧
      At x.dw w ((acc.app .hardline).app .hardline) i p (T' ++ [(i, .newline)]) :=
    ⟨T ++ [(i, .newline)], by simp [atIndent], h.newline.newline⟩
  have one : ∃ T', T ++ atIndent i [.newline] = T' ++ [(i, .newline)] ∧
      At x.dw w (acc.app .hardline) i p (T' ++ [(i, .newline)]) := ⟨T, by simp [atIndent], h.newline⟩
  cases b with
  | list k items =>
    simp only [separate, isList, if_true, gapBefore, style]
    by_cases he : cfg.emptyLineBeforeList = true
    · simp only [he, if_true]; exact two
    · simp only [he, if_false, Bool.false_eq_true]; exact one
  | _ => exact two

/-- What is to be proved for a block. -/
def BlockOk (b : Block) : Prop := ∀ w d i p, blockDoc x cfg b = some d →
  At x.dw w d i p (blockPieces x.dw cfg.width (style x cfg) i p b)

theorem more_blocks (l : List Block) (ih : ∀ b ∈ l, BlockOk x cfg b) : ∀ w i p acc T d,
    At x.dw w acc i p T → blocksDoc x cfg false acc l = some d →
    At x.dw w d i p (T ++ blocksPieces x.dw cfg.width (style x cfg) i i false l) := by
  induction l with
  | nil =>
    intro w i p acc T d ha h
    cases h
    simpa [blocksPieces] using ha
  | cons b l ihl =>
    intro w i p acc T d ha h
    simp only [blocksDoc] at h
    split at h
    · cases h
    · rename_i db hb
      simp only [Bool.false_eq_true, if_false] at h
      obtain ⟨T', e, ht⟩ := separate_pieces x cfg b ha
      have h1 := ht.app_newline (ih b (by simp) w db i i hb)
      have h2 := ihl (fun b' hb' => ih b' (by simp [hb'])) w i p _ _ d h1 h
      rw [← e] at h2
      simpa [blocksPieces] using h2

theorem blocks_pieces (l : List Block) (ih : ∀ b ∈ l, BlockOk x cfg b) (w i p : Nat) {d : Doc}
    (h : blocksDoc x cfg true .nil l = some d) : At x.dw w d i p (blocksPieces x.dw cfg.width (style x cfg) i p true l) := by
  cases l with
  | nil => cases h; exact U.at .nil i p
  | cons b l =>
    simp only [blocksDoc] at h
    split at h
    · cases h
    · rename_i db hb
      simp only [if_true, app_nil_left] at h
      have h1 := ih b (by simp) w db i p hb
      have := more_blocks x cfg l (fun b' hb' => ih b' (by simp [hb'])) w i p _ _ d h1 h
      simpa [blocksPieces] using this

/-! ## Lists -/

/-- The words in front of an item. -/
def itemWordsOf (spaces : Nat) (k : ListKind) (n : Nat) (task : Option TaskState) : List Str :=
  [List.replicate spaces ' ', Spec.marker k n, [' ']] ++
    match task with
    | none => []
    | some .complete => [cs!"[X]", [' ']]
    | some .incomplete => [cs!"[ ]", [' ']]

theorem itemPieces_words (spaces : Nat) (k : ListKind) (n : Nat) (task : Option TaskState) :
    itemPieces spaces k n task = (itemWordsOf spaces k n task).map .word := by
  rcases task with _ | _ | _ <;> rfl

theorem ascii_marker (k : ListKind) (n : Nat) : ∀ c ∈ Spec.marker k n, c.toNat < 128 := by
  rw [← marker_eq]
  intro c hc
  rcases k with start | b
  · simp only [Md.marker, List.mem_append, List.mem_singleton] at hc
    rcases hc with hc | rfl
    · have := Nat.isDigit_of_mem_toDigits (b := 10) (by omega) (by omega) hc
      simp only [Char.isDigit, Bool.and_eq_true, decide_eq_true_eq] at this
      have h2 : c.toNat ≤ 57 := this.2
      omega
    · decide
  · cases b <;> · simp only [Md.marker, List.mem_singleton] at hc; subst hc; decide

theorem item_width (spaces : Nat) (k : ListKind) (n : Nat) (task : Option TaskState) :
    ((itemWordsOf spaces k n task).map x.dw).sum = itemColumns spaces k n task := by
  have h1 : x.dw (List.replicate spaces ' ') = spaces := by
    rw [x.dw_ascii _ (by intro c hc; rw [List.eq_of_mem_replicate hc]; decide)]; simp
  have h2 : x.dw (Spec.marker k n) = (Spec.marker k n).length := x.dw_ascii _ (ascii_marker k n)
  have h3 := dw_space x
  have h4 : x.dw cs!"[X]" = 3 := x.dw_ascii _ (by decide)
  have h5 : x.dw cs!"[ ]" = 3 := x.dw_ascii _ (by decide)
  rcases task with _ | _ | _ <;> simp [itemWordsOf, itemColumns, taskBox, h1, h2, h3, h4, h5] <;> omega

theorem taskDoc_pieces {w : Nat} (k : ListKind) (n : Nat) (task : Option TaskState) :
    U x.dw w ((((Doc.text (List.replicate cfg.spacesBeforeListItem ' ')).app (.text (Md.marker k (firstCounter k + n)))).app
      (.text cs!" ")).app (taskDoc task)) ((itemWordsOf cfg.spacesBeforeListItem k n task).map .word) := by
  have T := fun a => U.text (dw := x.dw) (w := w) a
  rw [marker_eq]
  have h := ((T (List.replicate cfg.spacesBeforeListItem ' ')).app (T (Spec.marker k n))).app (T cs!" ")
  rcases task with _ | _ | _
  · exact h.app .nil
  · exact h.app ((T _).app (T _))
  · exact h.app ((T _).app (T _))

/-- What is to be proved for an item. -/
def ItemOk (it : ListItem) : Prop := ∀ w d i p, itemBlocksDoc x cfg it = some d →
  Sem x.dw w d i p (contentPieces x.dw cfg.width (style x cfg) i p it)

theorem item_pieces {it : ListItem} (ih : ItemOk x cfg it) (k : ListKind) (pl n : Nat) {d : Doc}
    (h : itemBlocksDoc x cfg it = some d) (w i p : Nat) :
    At x.dw w (itemDoc cfg k pl (firstCounter k + n) it.task d) i p
      (atIndent i (itemPieces cfg.spacesBeforeListItem k n it.task) ++
        contentPieces x.dw cfg.width (style x cfg) (i + pl) (p + itemColumns cfg.spacesBeforeListItem k n it.task) it) := by
  have h1 := ih w d (i + pl) (p + itemColumns cfg.spacesBeforeListItem k n it.task) h
  rw [itemPieces_words]
  unfold itemDoc
  have hp := taskDoc_pieces x cfg (w := w) k n it.task
  have hs : Sem x.dw w _ i p _ := (hp.1 i p).app (e := .group (.nest pl d))
    (b := contentPieces x.dw cfg.width (style x cfg) (i + pl) (p + itemColumns cfg.spacesBeforeListItem k n it.task) it)
    (fun e => by rw [hp.2.1 e]; rfl) (fun R q hq => by
      rw [pos_words _ hq, item_width]
      exact h1.nest.group) (by simp) (by
      rintro _ ⟨j, hj⟩
      rcases ht : it.task with _ | _ | _ <;> simp [ht, itemWordsOf, atIndent] at hj)
  refine ⟨hs, fun e => absurd e (itemDoc_ne_nil cfg _ _ _ _ _), fun _ => ?_⟩
  exact ⟨.word (List.replicate cfg.spacesBeforeListItem ' '), _, rfl⟩

/-- One step of the list. -/
theorem itemDocs_cons {k : ListKind} {pl j : Nat} {it : ListItem} {l : List ListItem} {ds : List Doc}
    (h : itemDocs x cfg k pl (firstCounter k + j) (it :: l) = some ds) : ∃ d ds', itemBlocksDoc x cfg it = some d ∧
      ds = itemDoc cfg k pl (firstCounter k + j) it.task d :: ds' ∧
      itemDocs x cfg k pl (firstCounter k + (j + 1)) l = some ds' := by
  simp only [itemDocs] at h
  split at h
  · cases h
  · rename_i d hd
    split at h
    · cases h
    · rename_i c hc
      split at h
      · cases h
      · rename_i ds' hds'
        cases h
        refine ⟨d, ds', hd, rfl, ?_⟩
        rcases k with start | b
        · simp only [nextCounter] at hc
          split at hc
          · cases hc; exact hds'
          · cases hc
        · cases hc
          rw [itemDocs_bullet x cfg b pl l _ (firstCounter (.bullet b) + j)]; exact hds'

theorem more_items (k : ListKind) (pl : Nat) (items : List ListItem) (ih : ∀ it ∈ items, ItemOk x cfg it) :
    ∀ w i p j acc T ds, At x.dw w acc i p T →
    itemDocs x cfg k pl (firstCounter k + (j + 1)) items = some ds →
    At x.dw w (ds.foldl (fun acc e => (acc.app .hardline).app e) acc) i p
      (T ++ itemsPieces x.dw cfg.width (style x cfg) k (i + pl) i (j + 1) i items) := by
  induction items with
  | nil =>
    intro w i p j acc T ds ha h
    cases h
    simpa [itemsPieces] using ha
  | cons it l ihl =>
    intro w i p j acc T ds ha h
    obtain ⟨d, ds', hd, rfl, h'⟩ := itemDocs_cons x cfg h
    have h1 := ha.newline.app_newline (item_pieces x cfg (ih it (by simp)) k pl (j + 1) hd w i i)
    have h2 := ihl (fun b' hb' => ih b' (by simp [hb'])) w i p (j + 1) _ _ ds' h1 h'
    simpa [itemsPieces, style] using h2

theorem items_pieces (k : ListKind) (pl : Nat) (items : List ListItem) (ih : ∀ it ∈ items, ItemOk x cfg it)
    (w i p : Nat) {ds : List Doc} (h : itemDocs x cfg k pl (firstCounter k) items = some ds) :
    At x.dw w (Doc.intersperse ds .hardline) i p
      (itemsPieces x.dw cfg.width (style x cfg) k (i + pl) i 0 p items) := by
  cases items with
  | nil => cases h; exact U.at .nil i p
  | cons it l =>
    obtain ⟨d, ds', hd, rfl, h'⟩ := itemDocs_cons x cfg (j := 0) h
    have h1 := item_pieces x cfg (ih it (by simp)) k pl 0 hd w i p
    have := more_items x cfg k pl l (fun b' hb' => ih b' (by simp [hb'])) w i p 0 _ _ ds' h1 h'
    simpa [itemsPieces, style, Doc.intersperse] using this

/-! ## Tables -/

theorem width_any {t : List (List Str)} {al : List Alignment} (j : Nat) :
    (columnsWidth t al)[j]?.getD 3 = widthOf al t j := by
  unfold widthOf
  split
  · rename_i hj
    have : (columnsWidth t al)[j]? = some (Md.columnWidth t al j) := by
      simp only [columnsWidth, List.getElem?_map]
      rw [List.getElem?_range hj]; rfl
    rw [this, Option.getD_some]
    cases ha : al[j]? with
    | some a => exact columnWidth_eq ha
    | none =>
      simp only [Md.columnWidth, Spec.columnWidth, columnContentWidth_eq, ha, Option.getD_none]
      rw [foldr_max_need _ (need .none)]
      exact ite_max _ _
  · rename_i hj
    have : (columnsWidth t al)[j]? = none := by
      simp only [columnsWidth, List.getElem?_map]
      rw [List.getElem?_eq_none (by simpa using hj)]; rfl
    rw [this]; rfl

theorem need_le_widthOf {t : List (List Str)} {al : List Alignment} {j : Nat} {a : Alignment} (h : al[j]? = some a) :
    need a ≤ widthOf al t j := by
  unfold widthOf
  split
  · rw [h]; exact need_le_columnWidth t a j
  · cases a <;> decide

theorem pad_left (al : List Alignment) (j : Nat) (w : Nat) (c : Str) :
    pad (al[j]?.getD .left) w c = pad (al[j]?.getD .none) w c := by
  cases al[j]? <;> rfl

theorem rowDoc_any {t : List (List Str)} {al : List Alignment} {r : List Str} {d : Doc}
    (h : rowDoc r (columnsWidth t al) al = some d) :
    Prints d (row (r.mapIdx fun i c => pad (al[i]?.getD .none) (widthOf al t i) c)) := by
  obtain ⟨d', hd, hs⟩ := rowDoc_says (widths := columnsWidth t al) (al := al) (cells := r) (rowDoc_some_iff.1 ⟨d, h⟩)
  cases h.symm.trans hd
  simp only [width_any, pad_left] at hs
  exact hs.prints

theorem mapM_prints {f : List Str → Option Doc} {g : List Str → Str} (h : ∀ r d, f r = some d → Prints d (g r)) :
    ∀ {l : List (List Str)} {ds : List Doc}, l.mapM f = some ds → PrintsL ds (l.map g) := by
  intro l
  induction l with
  | nil => intro ds e; cases e; exact .nil
  | cons r l ih =>
    intro ds e
    simp only [List.mapM_cons, Option.bind_eq_bind, Option.bind_eq_some_iff] at e
    obtain ⟨d, hd, ds', hds, e⟩ := e
    cases e
    exact .cons (h r d hd) (ih hds)

theorem tableDoc_any {rows : List (List (List Inline))} {al : List Alignment} {d : Doc} (h : tableDoc x rows al = some d) :
    d = if rows = [] then .nil else .text (joinWith cs!"\n" (anyTableLines al (rows.map (·.map lineSource)))) := by
  cases rows with
  | nil => cases h; rfl
  | cons hd tl =>
    simp only [tableDoc, tableContent_eq, List.map_cons, Option.bind_eq_bind, Option.bind_eq_some_iff] at h
    obtain ⟨d1, h1, ds, h2, h⟩ := h
    cases h
    have hsep : Prints (alignmentsRowDoc al (columnsWidth (hd.map lineSource :: tl.map (·.map lineSource)) al))
        (row (al.mapIdx fun i a => delimiter a (widthOf al (hd.map lineSource :: tl.map (·.map lineSource)) i))) := by
      have hs := alignmentsRowDoc_says (widths := columnsWidth (hd.map lineSource :: tl.map (·.map lineSource)) al) (al := al)
        (by
          intro j b hb
          rw [width_any]
          exact alignmentDoc_says (need_le_widthOf hb))
      simp only [width_any] at hs
      exact hs.prints
    have hall := (PrintsL.cons (rowDoc_any h1) (.cons hsep (mapM_prints (fun r d => rowDoc_any) h2))).intersperse
    rw [hall.render]
    rfl

/-! ## All blocks -/

theorem block_pieces :
    (∀ b : Block, BlockOk x cfg b) ∧ (∀ it : ListItem, ItemOk x cfg it) ∧
    (∀ l : List Block, ∀ b ∈ l, BlockOk x cfg b) ∧ (∀ l : List ListItem, ∀ it ∈ l, ItemOk x cfg it) := by
  apply Block.ind
  case paragraph =>
    intro c w d i p h
    cases h
    exact (inlines_pieces x c).at i p
  case heading =>
    intro k c w d i p h
    cases h
    cases k with
    | atx m => exact U.at (((U.text _).app (.text _)).app (inlines_line x c)) i p
    | setext v =>
      have T := fun u => U.at (((inlines_pieces x (w := w) c).app .hardline).app (U.text u)) i p
      cases v <;> simpa [blockPieces, headingDoc, underline, style] using T _
  case thematicBreak => intro w d i p h; cases h; exact U.at (.text _) i p
  case blockQuote =>
    intro b ih w d i p h
    cases h
    have hst : StartsAt i (atIndent i (quotePieces (rustLines (lay x.dw (cfg.width - p - 2) 0
        (blocksPieces x.dw cfg.width (style x cfg) 0 0 true b))))) := by
      unfold quotePieces
      split
      · exact ⟨_, _, rfl⟩
      · rename_i hne
        obtain ⟨l, ls, e⟩ := List.exists_cons_of_ne_nil hne
        rw [e, List.map_cons, onLines_cons]
        exact ⟨_, _, rfl⟩
    refine ⟨Sem.column ?_, ⟨(fun e => by cases e), fun _ => hst⟩⟩
    show Sem x.dw w _ i p (atIndent i (quotePieces (rustLines (lay x.dw (cfg.width - p - 2) 0
        (blocksPieces x.dw cfg.width (style x cfg) 0 0 true b)))))
    unfold quoteDoc
    split
    · exact .panic
    · rename_i inner hin
      split
      · split
        · exact .panic
        · rename_i text ht
          have e := renderE_pieces x (blocks_pieces x cfg b ih _ 0 0 hin).1 ht
          rw [← e]
          unfold quotePieces
          split
          · rename_i hnil
            rw [hnil]
            exact Sem.nil' (dw_nil x)
          · rename_i hne
            have hm := Us.map (dw := x.dw) (w := w) (rustLines text)
              (f := fun l => (Doc.text cs!"> ").app (.text l)) (g := fun l => [.word cs!"> ", .word l])
              (fun l => (U.text _).app (.text _))
            obtain ⟨l, ls, e⟩ := List.exists_cons_of_ne_nil hne
            rw [e] at hm ⊢
            exact (Us.intersperse hm).1 i p
      · exact .panic
  case list =>
    intro k items ih w d i p h
    simp only [blockDoc] at h
    split at h
    · cases h
    · rename_i pl hpl
      split at h
      · cases h
      · rename_i ds hds
        cases h
        have := items_pieces x cfg k pl items ih w i p hds
        rw [prefixLength_eq hpl] at this
        exact this
  case codeBlock =>
    intro k t w d i p h
    cases h
    cases k with
    | indented => exact U.at (.text _) i p
    | fenced info => exact U.at (((U.text _).app (.text _)).app (.text _)) i p
  case htmlBlock => intro t w d i p h; cases h; exact U.at (.text _) i p
  case definition =>
    intro l ds t w d i p h
    cases h
    have := U.at ((((U.text cs!"[").app (inlines_pieces x (w := w) l)).app (.text cs!"]: ")).app (.text (ds ++ titlePart t))) i p
    simpa [blockPieces, titlePart_title, style] using this
  case table =>
    intro rows al w d i p h
    cases tableDoc_any x h
    cases rows with
    | nil => exact U.at .nil i p
    | cons r rows => exact U.at (.text _) i p
  case footnoteDefinition =>
    intro l b ih w d i p h
    simp only [blockDoc] at h
    split at h
    · cases h
    · rename_i d' hd'
      cases h
      have := At.app_words (l := [cs!"[^" ++ l ++ cs!"]: "]) (i := i) (p := p) (U.text (dw := x.dw) (w := w) _)
        (blocks_pieces x cfg b ih w i _ hd')
      simpa [blockPieces, atIndent] using this
  case githubAlert =>
    intro t b ih w d i p h
    simp only [blockDoc] at h
    split at h
    · cases h
    · rename_i d' hd'
      have key : ∀ rest : List Str, U x.dw w (Doc.intersperse (((cs!"> [!" ++ x.toPExt.upperStr (alertName t) ++
          cs!"]") :: rest).map .text) .hardline)
          (onLines (((cs!"> [!" ++ Spec.alertName x.toPExt.upperStr t ++ cs!"]") :: rest).map fun l => [.word l])) := by
        intro rest
        rw [upper_name]
        exact Us.intersperse (Us.cons (.text _) (Us.map rest fun l => U.text l))
      cases b with
      | nil =>
        cases h
        exact (key []).at i p
      | cons b1 b2 =>
        simp only [alertDoc, List.isEmpty_cons, Bool.false_eq_true, if_false, Option.bind_eq_bind,
          Option.bind_eq_some_iff, Option.map_eq_some_iff] at h
        obtain ⟨rest, ⟨text, ht, rfl⟩, h⟩ := h
        cases h
        have e := renderE_pieces x (blocks_pieces x cfg _ ih _ 0 0 hd').1 ht
        have := (key ((rustLines text).map Spec.alertLine)).at i p
        rw [List.map_congr_left (fun l _ => alertLine_eq l)]
        rw [e] at this ⊢
        simpa [blockPieces, style, Function.comp_def] using this
  case empty => intro w d i p h; cases h; exact U.at .nil i p
  case item =>
    intro t b ih w d i p h
    exact (blocks_pieces x cfg b ih w i p h).1
  case nilB => intro b hb; cases hb
  case consB =>
    intro b l hb hl b' hm
    rcases List.mem_cons.1 hm with rfl | hm
    · exact hb
    · exact hl b' hm
  case nilI => intro b hb; cases hb
  case consI =>
    intro b l hb hl b' hm
    rcases List.mem_cons.1 hm with rfl | hm
    · exact hb
    · exact hl b' hm

theorem render_pieces (ast : Document) (s : Str) (h : renderMarkdown x cfg ast = some s) :
    s = markdownText x.dw cfg.width (style x cfg) ast.blocks := by
  unfold renderMarkdown at h
  split at h
  · cases h
  · rename_i d hd
    exact renderE_pieces x (blocks_pieces x cfg _ (fun b _ => (block_pieces x cfg).1 b) _ 0 0 hd).1 h

/-- **C86.** What `render_markdown` gives for any document and any configuration: the text of the specification if the
document is printable, and a panic otherwise. -/
theorem C86_exact (ast : Document) (s : Str) :
    renderMarkdown x cfg ast = some s ↔
      PrintableL x.dw cfg.width cfg.spacesBeforeListItem 0 0 ast.blocks ∧
        s = markdownText x.dw cfg.width (style x cfg) ast.blocks := by
  constructor
  · intro h
    exact ⟨(C47_exact x cfg ast).1 ⟨s, h⟩, render_pieces x cfg ast s h⟩
  · rintro ⟨h, rfl⟩
    obtain ⟨s, hs⟩ := (C47_exact x cfg ast).2 h
    rw [hs, render_pieces x cfg ast s hs]

/-- **C86.** A paragraph is filled greedily. -/
theorem C86_paragraph (c : List Inline) :
    renderMarkdown x cfg ⟨[.paragraph c]⟩ = some (lay x.dw cfg.width 0 (atIndent 0 (inlinesPieces x.digit c))) := by
  rw [C86_exact]
  refine ⟨⟨trivial, trivial⟩, ?_⟩
  simp [markdownText, blocksPieces, blockPieces, style]

end

/-! ## Concrete cases -/

/-- Lines are filled up to the width; the text of a quote has the width that is left in its column, that of a nested
quote is not narrowed further; no line break before a word that could start a block; white space at the end of
an item can leave a line break with the indentation of the next line; a ragged table; an alert and a footnote. -/
theorem C86_examples :
    let y := style Ext.ascii Config.default
    let text := fun w => markdownText Ext.ascii.dw w y
    text 10 [.paragraph [.text cs!"aaa bbb ccc - ddd", .emphasis [.text cs!"e f"]]] = cs!"aaa bbb\nccc -\nddd*e f*" ∧
    text 12 [.list (.bullet .dash) [.mk none [.blockQuote [.paragraph [.text cs!"a b c d e f"]]]]] =
      cs!" - > a b c d\n   > e f" ∧
    text 10 [.blockQuote [.blockQuote [.paragraph [.text cs!"a b c d e f"]]]] = cs!"> > a b c d\n> > e f" ∧
    text 6 [.list (.bullet .dash) [.mk none [.paragraph [.text cs!"abc "]], .mk none [.paragraph [.text cs!"d"]]]] =
      cs!" - abc\n\n - d" ∧
    text 80 [.table [[[.text ['a']]], [[.text ['b']], [.text ['c']]]] [.right]] = cs!"|  a |\n| -: |\n|  b | c   |" ∧
    text 9 [.githubAlert .tip [.paragraph [.text cs!"aaaa bbbb cccc"], .thematicBreak],
      .footnoteDefinition ['n'] [.paragraph [.text cs!"a b c"]]] =
      cs!"> [!TIP]\n> aaaa bbbb cccc\n>\n> ---\n\n[^n]: a b\nc" := by
  decide +kernel

/-- The same for the model. -/
theorem C86_example_printed :
    renderMarkdown Ext.ascii ⟨10, 1, true⟩ ⟨[.blockQuote [.blockQuote [.paragraph [.text cs!"a b c d e f"]]]]⟩ =
      some cs!"> > a b c d\n> > e f" ∧
    renderMarkdown Ext.ascii ⟨3, 1, true⟩ ⟨[.list (.bullet .dash) [.mk none [.blockQuote []]]]⟩ = none := by
  decide +kernel

end Exact
end Md
end Verif
