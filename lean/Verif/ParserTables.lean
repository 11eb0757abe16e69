import Verif.ParserBlocks
/-!
# What tables parse to (C63)
-/
set_option linter.unusedVariables false
namespace Verif
open Nom

/-! ## Specification -/

/-- `CellText src t`: a cell written `src` has the text `t`: `\|` stands for a bar, everything else
for itself. -/
inductive CellText : Str → Str → Prop
  | nil : CellText [] []
  | chr {c : Char} {s t : Str} : c ∉ cs!"|\\\r\n" → CellText s t → CellText (c :: s) (c :: t)
  | back {d : Char} {s t : Str} : d ∉ cs!"|\r\n" → CellText (d :: s) t →
      CellText ('\\' :: d :: s) ('\\' :: t)
  | bar {s t : Str} : CellText s t → CellText ('\\' :: '|' :: s) ('|' :: t)

/-- A cell with the inlines `is`: white space around the text does not count. -/
def Cell (x : PExt) (ent : Str → Option Str) (src : Str) (is : List Inline) : Prop :=
  src ≠ [] ∧ ∃ t, CellText src t ∧ Reads x ent (trim t) is

/-- The cells of a row. -/
inductive Cells (x : PExt) (ent : Str → Option Str) : List Str → List (List Inline) → Prop
  | nil : Cells x ent [] []
  | cons {s : Str} {is : List Inline} {l : List Str} {r : List (List Inline)} :
      Cell x ent s is → Cells x ent l r → Cells x ent (s :: l) (is :: r)

/-- A row: up to three spaces, a bar, the cells separated by bars, and perhaps a last bar. -/
def rowText (k : Nat) (cells : List Str) (closed : Bool) : Str :=
  List.replicate k ' ' ++ '|' :: (joinWith ['|'] cells ++ (if closed then ['|'] else []))

/-- The mark of an alignment. -/
inductive AlignMark : Alignment → Str → Prop
  | none {n : Nat} : 0 < n → AlignMark .none (List.replicate n '-')
  | left {n : Nat} : 0 < n → AlignMark .left (':' :: List.replicate n '-')
  | right {n : Nat} : 0 < n → AlignMark .right (List.replicate n '-' ++ [':'])
  | center {n : Nat} : 0 < n → AlignMark .center (':' :: (List.replicate n '-' ++ [':']))

/-- A cell of the delimiter row: an alignment mark between blanks. -/
def AlignCell (a : Alignment) (src : Str) : Prop :=
  ∃ b1 m b2, (∀ c ∈ b1, c = ' ' ∨ c = '\t') ∧ AlignMark a m ∧ (∀ c ∈ b2, c = ' ' ∨ c = '\t') ∧
    src = b1 ++ (m ++ b2)

/-- The cells of the delimiter row. -/
inductive AlignCells : List Str → List Alignment → Prop
  | nil : AlignCells [] []
  | cons {s : Str} {a : Alignment} {l : List Str} {r : List Alignment} :
      AlignCell a s → AlignCells l r → AlignCells (s :: l) (a :: r)

/-- A data row, as wide as the header: missing cells hold an empty text, excess cells are dropped. -/
def fitted (n : Nat) (row : List (List Inline)) : List (List Inline) :=
  (row ++ List.replicate n [Inline.text []]).take n

/-- `Rows x ent s rs`: the text `s` consists of rows with the cells `rs`, each on its line; `rest` is
what follows. -/
inductive Rows (x : PExt) (ent : Str → Option Str) (rest : Str) : Str → List (List (List Inline)) → Prop
  | nil : Rows x ent rest rest []
  | cons {k : Nat} {cells : List Str} {closed : Bool} {is : List (List Inline)} {e s : Str}
      {rs : List (List (List Inline))} : k ≤ 3 → cells ≠ [] → Cells x ent cells is →
      LineEnd e s → Rows x ent rest s rs → Rows x ent rest (rowText k cells closed ++ (e ++ s)) (is :: rs)

/-- Text that does not go on with a row. -/
def NotRow (s : Str) : Prop := ∀ k t, k ≤ 3 → s ≠ List.replicate k ' ' ++ '|' :: t

/-! ## Cells -/

section
variable {x : PExt} {cfg : PConfig}

/-- Where a cell ends. -/
def CellStop (u : Str) : Prop := (∃ v, u = '|' :: v) ∨ ∃ e rest, LineEnd e rest ∧ u = e ++ rest

/-- One character of a cell. -/
def cellChar : P Char :=
  preceded (notP (value () eofOrEol <||> value () (chr '|'))) (value '|' (tag cs!"\\|") <||> anychar)

theorem cellChar_stop {u : Str} (h : CellStop u) : cellChar u = none := by
  unfold cellChar
  refine preceded_none ?_
  rw [notP_none]
  rcases h with ⟨v, rfl⟩ | ⟨e, rest, he, rfl⟩
  · refine ⟨(v, ()), ?_⟩
    rw [orElse_of_none (value_none.2 (eofOrEol_cons (by decide) (by decide)))]
    exact value_some.2 ⟨_, chr_cons _ _, rfl⟩
  · exact ⟨_, orElse_of_some (value_some.2 ⟨_, he.eofOrEol, rfl⟩)⟩

theorem cellChar_guard {c : Char} {t : Str} (h : c ∉ cs!"|\r\n") :
    notP (value () eofOrEol <||> value () (chr '|')) (c :: t) = some (c :: t, ()) := by
  have h' : c ≠ '|' ∧ c ≠ '\r' ∧ c ≠ '\n' := by
    refine ⟨?_, ?_, ?_⟩ <;> rintro rfl <;> exact h (by decide)
  refine notP_some.2 ⟨?_, rfl⟩
  rw [orElse_none, value_none, value_none]
  exact ⟨eofOrEol_cons h'.2.2 h'.2.1, chr_ne h'.1⟩

theorem cellChar_plain {c : Char} {t : Str} (h : c ∉ cs!"|\r\n") (h2 : ¬ cs!"\\|" <+: c :: t) :
    cellChar (c :: t) = some (t, c) := by
  unfold cellChar
  refine preceded_some.2 ⟨_, _, cellChar_guard h, ?_⟩
  rw [orElse_of_none (value_none.2 (tag_none.2 h2))]
  rfl

theorem cell_many0 {src t u : Str} (h : CellText src t) (hu : CellStop u) :
    many0 cellChar (src ++ u) = some (u, t) := by
  induction h with
  | nil => exact many0_of_none (cellChar_stop hu)
  | @chr c s t hc _ ih =>
    refine many0_of_some (cellChar_plain ?_ ?_) (by simp) ih
    · intro hm; exact hc (by revert hm; simp only [List.mem_cons, List.not_mem_nil]; rintro (h | h | h | h) <;> simp_all)
    · rintro ⟨v, hv⟩
      simp at hv
      exact hc (by rw [← hv.1]; decide)
  | @back d s t hd _ ih =>
    refine many0_of_some (cellChar_plain (by decide) ?_) (by simp) ih
    rintro ⟨v, hv⟩
    simp at hv
    exact hd (by rw [← hv.1]; decide)
  | @bar s t _ ih =>
    refine many0_of_some (r := s ++ u) ?_ (by simp; omega) ih
    unfold cellChar
    refine preceded_some.2 ⟨_, _, cellChar_guard (by decide), orElse_of_some ?_⟩
    exact value_some.2 ⟨_, tag_append cs!"\\|" (s ++ u), rfl⟩

theorem CellText.ne {src t : Str} (h : CellText src t) (hs : src ≠ []) : t ≠ [] := by
  cases h <;> simp_all

theorem cellContent_of (hp : AllParse cfg) {src u : Str} {is : List Inline} (h : Cell x cfg.entities src is)
    (hu : CellStop u) : cellContent x cfg (src ++ u) = some (u, is) := by
  obtain ⟨hne, t, h1, h2⟩ := h
  unfold cellContent
  exact mapOpt_some.2 ⟨t, many1_of_many0 (cell_many0 h1 hu) (h1.ne hne),
    h2.inlines0 hp.customOk hp.inlines⟩

theorem cellContent_stop {u : Str} (hu : CellStop u) : cellContent x cfg u = none :=
  mapOpt_none (many1_none_of (cellChar_stop hu))

/-! ## Rows, of cells of any kind -/

/-- What `separated_list1` makes of cells. -/
theorem row_sep {α : Type} {p : P α} {close : Bool} {e rest : Str} (he : LineEnd e rest)
    (hstop : p (e ++ rest) = none) {cells : List Str} {is : List α}
    (hc : cells.length = is.length)
    (hp : ∀ y ∈ cells.zip is, ∀ u, CellStop u → p (y.1 ++ u) = some (u, y.2)) :
    sepLoop (chr '|') p ((cells.map ('|' :: ·)).flatten ++ ((if close then ['|'] else []) ++ (e ++ rest))) =
      some ((if close then ['|'] else []) ++ (e ++ rest), is) := by
  induction cells generalizing is with
  | nil =>
    cases is with
    | cons a is => simp at hc
    | nil =>
      rw [sepLoop_eq]
      cases close with
      | false =>
        have : chr '|' (e ++ rest) = none := by
          rcases he with (rfl | rfl) | ⟨rfl, rfl⟩ <;> rfl
        simp [this]
      | true =>
        have : chr '|' ('|' :: (e ++ rest)) = some (e ++ rest, '|') := chr_cons _ _
        simp [this, hstop]
  | cons s cells ih =>
    cases is with
    | nil => simp at hc
    | cons a is =>
      have ih := ih (is := is) (by simpa using hc) (fun y hy => hp y (by simp [hy]))
      have hu : CellStop ((cells.map ('|' :: ·)).flatten ++
          ((if close then ['|'] else []) ++ (e ++ rest))) := by
        cases cells with
        | cons s' cells => exact .inl ⟨_, rfl⟩
        | nil =>
          cases close with
          | true => exact .inl ⟨_, rfl⟩
          | false => exact .inr ⟨e, rest, he, rfl⟩
      have h1 := hp (s, a) (by simp) _ hu
      rw [sepLoop_eq]
      have hs : ((s :: cells).map ('|' :: ·)).flatten ++ ((if close then ['|'] else []) ++ (e ++ rest)) =
          '|' :: (s ++ ((cells.map ('|' :: ·)).flatten ++ ((if close then ['|'] else []) ++ (e ++ rest)))) := by
        simp
      rw [hs, chr_cons]
      simp only at h1 ⊢
      rw [h1]
      simp only
      rw [ih]
      simp only [List.length_cons, List.length_append]
      rw [if_pos (by omega)]

theorem joinWith_bars (s : Str) (l : List Str) :
    joinWith ['|'] (s :: l) = s ++ (l.map ('|' :: ·)).flatten := by
  induction l generalizing s with
  | nil => simp [joinWith]
  | cons t l ih => rw [joinWith, ih]; simp

theorem row_of {α : Type} {p : P α} {k : Nat} {close : Bool} {e rest : Str} (hk : k ≤ 3)
    (he : LineEnd e rest) (hstop : p (e ++ rest) = none) {cells : List Str} {is : List α}
    (hne : cells ≠ []) (hc : cells.length = is.length)
    (hp : ∀ y ∈ cells.zip is, ∀ u, CellStop u → p (y.1 ++ u) = some (u, y.2)) :
    lineTerminated (preceded indent03 (delimited (chr '|') (separatedList1 (chr '|') p) (opt (chr '|'))))
      (rowText k cells close ++ (e ++ rest)) = some (rest, is) := by
  obtain ⟨s, cells, rfl⟩ := List.exists_cons_of_ne_nil hne
  obtain ⟨a, is, rfl⟩ : ∃ a l, is = a :: l := by
    cases is with
    | nil => simp at hc
    | cons a l => exact ⟨a, l, rfl⟩
  have hsep := row_sep (close := close) he hstop (cells := cells) (is := is) (by simpa using hc)
    (fun y hy => hp y (by simp [hy]))
  generalize hu : (cells.map ('|' :: ·)).flatten ++ ((if close then ['|'] else []) ++ (e ++ rest)) = u at hsep
  have hstop' : CellStop u := by
    rw [← hu]
    cases cells with
    | cons s' cells => exact .inl ⟨_, rfl⟩
    | nil =>
      cases close with
      | true => exact .inl ⟨_, rfl⟩
      | false => exact .inr ⟨e, rest, he, rfl⟩
  have hsrc : rowText k (s :: cells) close ++ (e ++ rest) =
      List.replicate k ' ' ++ '|' :: (s ++ u) := by
    rw [← hu]
    unfold rowText
    rw [joinWith_bars]
    simp
  rw [hsrc]
  refine terminated_some.2 ⟨e ++ rest, e, ?_, he.eofOrEol⟩
  rw [preceded_indent_replicate hk (by decide)]
  refine delimited_some.2 ⟨s ++ u, '|', (if close then ['|'] else []) ++ (e ++ rest),
    (if close then some '|' else none), chr_cons _ _, ?_, ?_⟩
  · unfold separatedList1
    rw [hp (s, a) (by simp) u hstop']
    simp only [hsep]
  · cases close with
    | true => exact opt_some.2 (.inl ⟨_, chr_cons _ _, rfl⟩)
    | false =>
      refine opt_some.2 (.inr ⟨?_, rfl, rfl⟩)
      rcases he with (rfl | rfl) | ⟨rfl, rfl⟩ <;> rfl

theorem Cells.length {l : List Str} {r : List (List Inline)} (h : Cells x cfg.entities l r) : l.length = r.length := by
  induction h with
  | nil => rfl
  | cons _ _ ih => simp [ih]

theorem Cells.zip {l : List Str} {r : List (List Inline)} (h : Cells x cfg.entities l r) :
    ∀ y ∈ l.zip r, Cell x cfg.entities y.1 y.2 := by
  induction h with
  | nil => simp
  | cons h1 _ ih =>
    intro y hy
    simp only [List.zip_cons_cons, List.mem_cons] at hy
    rcases hy with rfl | hy
    · exact h1
    · exact ih y hy

theorem AlignCells.length {l : List Str} {r : List Alignment} (h : AlignCells l r) :
    l.length = r.length := by
  induction h with
  | nil => rfl
  | cons _ _ ih => simp [ih]

theorem AlignCells.zip {l : List Str} {r : List Alignment} (h : AlignCells l r) :
    ∀ y ∈ l.zip r, AlignCell y.2 y.1 := by
  induction h with
  | nil => simp
  | cons h1 _ ih =>
    intro y hy
    simp only [List.zip_cons_cons, List.mem_cons] at hy
    rcases hy with rfl | hy
    · exact h1
    · exact ih y hy

theorem tableRow_of (hp : AllParse cfg) {k : Nat} {cells : List Str} {close : Bool}
    {is : List (List Inline)} {e rest : Str} (hk : k ≤ 3) (hne : cells ≠ []) (hc : Cells x cfg.entities cells is)
    (he : LineEnd e rest) :
    tableRow x cfg (rowText k cells close ++ (e ++ rest)) = some (rest, is) :=
  row_of hk he (cellContent_stop (.inr ⟨e, rest, he, rfl⟩)) hne hc.length
    (fun y hy u hu => cellContent_of hp (hc.zip y hy) hu)

/-! ## The delimiter row -/

theorem many1_dashes {n : Nat} {t : Str} (hn : 0 < n) (ht : t.head? ≠ some '-') :
    many1 (chr '-') (List.replicate n '-' ++ t) = some (t, List.replicate n '-') :=
  many1_of_many0 (many0_chr n ht) (by
    obtain ⟨m, rfl⟩ : ∃ j, n = j + 1 := ⟨n - 1, by omega⟩
    simp [List.replicate_succ])

theorem alignCell_mark {a : Alignment} {m t : Str} (h : AlignMark a m)
    (ht : ∀ c, t.head? = some c → c ≠ '-' ∧ c ≠ ':') :
    (recognize (delimited (chr ':') (many1 (chr '-')) (chr ':')) <||>
     recognize (preceded (chr ':') (many1 (chr '-'))) <||>
     recognize (terminated (many1 (chr '-')) (chr ':')) <||>
     recognize (many1 (chr '-'))) (m ++ t) = some (t, m) := by
  have ht1 : t.head? ≠ some '-' := fun h => (ht _ h).1 rfl
  have ht2 : chr ':' t = none := by
    cases t with
    | nil => rfl
    | cons c t => exact chr_ne (ht c rfl).2
  have hdash : ∀ {n : Nat} {t : Str}, 0 < n → chr ':' (List.replicate n '-' ++ t) = none := by
    intro n t hn
    obtain ⟨m, rfl⟩ : ∃ j, n = j + 1 := ⟨n - 1, by omega⟩
    exact chr_ne (by decide)
  have hcol : ∀ {v : Str}, many1 (chr '-') (':' :: v) = none := many1_none_of (chr_ne (by decide))
  cases h with
  | @none n hn =>
    rw [orElse_of_none (recognize_none.2 (delimited_none (hdash hn))),
      orElse_of_none (recognize_none.2 (preceded_none (hdash hn))), orElse_of_none]
    · exact recognize_of (many1_dashes hn ht1)
    · rw [recognize_none]
      unfold terminated
      rw [mapP_none]
      unfold seq
      rw [many1_dashes hn ht1]
      simp only [ht2]
  | @left n hn =>
    rw [orElse_of_none]
    · refine orElse_of_some (recognize_of (v := List.replicate n '-') ?_)
      exact preceded_some.2 ⟨_, _, chr_cons _ _, many1_dashes hn ht1⟩
    · rw [recognize_none]
      unfold delimited preceded
      rw [List.cons_append, chr_cons]
      unfold terminated
      rw [mapP_none]
      unfold seq
      rw [many1_dashes hn ht1]
      simp only [ht2]
  | @right n hn =>
    have hd : many1 (chr '-') (List.replicate n '-' ++ (':' :: t)) =
      some (':' :: t, List.replicate n '-') := many1_dashes hn (by simp)
    have hs : List.replicate n '-' ++ [':'] ++ t = List.replicate n '-' ++ (':' :: t) := by simp
    rw [orElse_of_none (recognize_none.2 (delimited_none (by rw [hs]; exact hdash hn))),
      orElse_of_none (recognize_none.2 (preceded_none (by rw [hs]; exact hdash hn)))]
    refine orElse_of_some (recognize_of (v := List.replicate n '-') ?_)
    rw [hs]
    exact terminated_some.2 ⟨_, _, hd, chr_cons _ _⟩
  | @center n hn =>
    have hd : many1 (chr '-') (List.replicate n '-' ++ (':' :: t)) =
      some (':' :: t, List.replicate n '-') := many1_dashes hn (by simp)
    refine orElse_of_some (recognize_of (v := List.replicate n '-') ?_)
    have hs : ':' :: (List.replicate n '-' ++ [':']) ++ t =
      ':' :: (List.replicate n '-' ++ (':' :: t)) := by simp
    rw [hs]
    exact delimited_some.2 ⟨_, _, _, _, chr_cons _ _, hd, chr_cons _ _⟩

theorem trim_noWs {s : Str} (h : ∀ c ∈ s, isWs c = false) : trim s = s := by
  have key : ∀ s : Str, (∀ c ∈ s, isWs c = false) → s.dropWhile isWs = s := by
    intro s h
    cases s with
    | nil => rfl
    | cons c s => rw [List.dropWhile_cons, h c (by simp)]; rfl
  unfold trim trimStart trimEnd
  rw [key s h, key _ (fun c hc => h c (by simpa using hc)), List.reverse_reverse]

theorem AlignMark.chars {a : Alignment} {m : Str} (h : AlignMark a m) : ∀ c ∈ m, c = '-' ∨ c = ':' := by
  cases h <;> intro c hc <;> simp [List.mem_replicate] at hc <;> grind

theorem AlignMark.cellAlignment {a : Alignment} {m : Str} (h : AlignMark a m) :
    cellAlignment m = a := by
  have ht : trim m = m := trim_noWs (fun c hc => by
    rcases h.chars c hc with rfl | rfl <;> decide)
  unfold Verif.cellAlignment
  rw [ht]
  cases h with
  | @none n hn =>
    obtain ⟨m, rfl⟩ : ∃ j, n = j + 1 := ⟨n - 1, by omega⟩
    have h1 : (List.replicate (m + 1) '-').head? = some '-' := by simp [List.replicate_succ]
    have h2 : (List.replicate (m + 1) '-').getLast? = some '-' := by simp [List.getLast?_replicate]
    rw [h1, h2]; rfl
  | @left n hn =>
    obtain ⟨m, rfl⟩ : ∃ j, n = j + 1 := ⟨n - 1, by omega⟩
    have h2 : (':' :: List.replicate (m + 1) '-').getLast? = some '-' := by
      rw [List.getLast?_cons]; simp [List.getLast?_replicate]
    rw [h2]; rfl
  | @right n hn =>
    obtain ⟨m, rfl⟩ : ∃ j, n = j + 1 := ⟨n - 1, by omega⟩
    have h1 : (List.replicate (m + 1) '-' ++ [':']).head? = some '-' := by simp [List.replicate_succ]
    have h2 : (List.replicate (m + 1) '-' ++ [':']).getLast? = some ':' := by simp
    rw [h1, h2]; rfl
  | @center n hn =>
    have h2 : (':' :: (List.replicate n '-' ++ [':'])).getLast? = some ':' := by
      rw [← List.cons_append, List.getLast?_append]; rfl
    rw [h2]; rfl

theorem AlignMark.ne {a : Alignment} {m : Str} (h : AlignMark a m) : m ≠ [] := by
  cases h <;> simp <;> omega

theorem blanks_space {b : Str} (h : ∀ c ∈ b, c = ' ' ∨ c = '\t') : ∀ c ∈ b, isSpace c = true := by
  intro c hc
  rcases h c hc with rfl | rfl <;> rfl

theorem CellStop.head {u : Str} (h : CellStop u) :
    ∀ c, u.head? = some c → isSpace c = false ∧ c ≠ '-' ∧ c ≠ ':' := by
  intro c hc
  rcases h with ⟨v, rfl⟩ | ⟨e, rest, (rfl | rfl) | ⟨rfl, rfl⟩, rfl⟩ <;> simp at hc <;> subst hc <;> decide

theorem alignmentCell_of {a : Alignment} {src u : Str} (h : AlignCell a src) (hu : CellStop u) :
    alignmentCell (src ++ u) = some (u, a) := by
  obtain ⟨b1, m, b2, h1, h2, h3, rfl⟩ := h
  have hs0 : ∀ (b v : Str), (∀ c ∈ b, isSpace c = true) →
      (∀ c, v.head? = some c → isSpace c = false) → space0 (b ++ v) = some (v, b) := by
    intro b v hb hv
    obtain ⟨k1, k2⟩ := takeWhile_span' hb hv
    show some (_, _) = _
    rw [k1, k2]
  unfold alignmentCell
  refine mapP_some.2 ⟨m, ?_, h2.cellAlignment⟩
  have hsrc : b1 ++ (m ++ b2) ++ u = b1 ++ (m ++ (b2 ++ u)) := by simp
  rw [hsrc]
  refine delimited_some.2 ⟨m ++ (b2 ++ u), b1, b2 ++ u, b2, hs0 _ _ (blanks_space h1) ?_, ?_,
    hs0 _ _ (blanks_space h3) (fun c hc => (hu.head c hc).1)⟩
  · intro c hc
    obtain ⟨d, m, rfl⟩ := List.exists_cons_of_ne_nil h2.ne
    simp at hc; subst hc
    rcases h2.chars d (by simp) with rfl | rfl <;> rfl
  · refine alignCell_mark h2 ?_
    intro c hc
    cases b2 with
    | nil => exact (hu.head c hc).2
    | cons d b2 =>
      simp at hc; subst hc
      rcases h3 d (by simp) with rfl | rfl <;> decide

theorem alignmentCell_stop {e rest : Str} (he : LineEnd e rest) : alignmentCell (e ++ rest) = none := by
  unfold alignmentCell
  rw [mapP_none]
  rcases he with (rfl | rfl) | ⟨rfl, rfl⟩ <;> rfl

theorem alignmentRow_of {k : Nat} {cells : List Str} {close : Bool} {as : List Alignment}
    {e rest : Str} (hk : k ≤ 3) (hne : cells ≠ []) (hc : AlignCells cells as) (he : LineEnd e rest) :
    alignmentRow (rowText k cells close ++ (e ++ rest)) = some (rest, as) :=
  row_of hk he (alignmentCell_stop he) hne hc.length
    (fun y hy u hu => alignmentCell_of (hc.zip y hy) hu)

/-! ## Tables -/

theorem fitted_eq (n : Nat) (row : List (List Inline)) : fitRow n row = fitted n row := by
  unfold fitRow fitted
  split
  · rename_i h
    rw [List.take_append, List.take_of_length_le (by omega), List.take_replicate]
    congr 2; omega
  · rename_i h
    rw [List.take_append_of_le_length (by omega)]
    split
    · rfl
    · exact (List.take_of_length_le (by omega)).symm

theorem tableRow_notRow {s : Str} (h : NotRow s) : tableRow x cfg s = none := by
  unfold tableRow lineTerminated
  refine terminated_none ?_
  cases e : preceded indent03 (delimited (chr '|') (separatedList1 (chr '|') (cellContent x cfg))
      (opt (chr '|'))) s with
  | none => rfl
  | some y =>
    obtain ⟨r, l⟩ := y
    obtain ⟨s1, l1, h1, h2⟩ := preceded_some.1 e
    obtain ⟨k, hk, _, hs⟩ := indent03_spec h1
    obtain ⟨s2, _, _, _, h3, _⟩ := delimited_some.1 h2
    obtain ⟨h4, rfl⟩ := chr_some.1 h3
    exact absurd (hs.trans (by rw [h4])) (h k s2 hk)

theorem dataRows_of (hp : AllParse cfg) {n : Nat} {s rest : Str} {rs : List (List (List Inline))}
    (h : Rows x cfg.entities rest s rs) (hr : NotRow rest) :
    tableDataRows x cfg n s = some (rest, rs.map (fitted n)) := by
  unfold tableDataRows
  induction h with
  | nil => exact many0_of_none (mapP_none.2 (tableRow_notRow hr))
  | @cons k cells closed is e s rs hk hne hc he _ ih =>
    refine many0_of_some (r := s) (mapP_some.2 ⟨is, tableRow_of hp hk hne hc he, fitted_eq _ _⟩)
      ?_ ih
    simp [rowText]; omega

theorem rowText_head {k : Nat} {cells : List Str} {closed : Bool} {u : Str} :
    ∃ t, rowText k cells closed ++ u = List.replicate k ' ' ++ '|' :: t := by
  refine ⟨joinWith ['|'] cells ++ ((if closed then ['|'] else []) ++ u), ?_⟩
  simp [rowText]

/-- C63: a header row, a delimiter row with as many cells, and data rows, up to a line that is not a
row, are a table: its rows are the inlines of the cells, the data rows being fitted to the width of
the header, and its alignments those of the delimiter row; what follows is parsed on its own. -/
theorem C63_table (hp : AllParse cfg) (ht : cfg.table = .parse) {k k' : Nat} {hs ds : List Str}
    {closed closed' : Bool} {header : List (List Inline)} {aligns : List Alignment} {nl e s rest : Str}
    {rows : List (List (List Inline))} (hk : k ≤ 3) (hk' : k' ≤ 3) (hne : hs ≠ [])
    (hh : Cells x cfg.entities hs header) (hnl : IsNewline nl) (hd : AlignCells ds aligns)
    (hw : ds.length = hs.length) (he : LineEnd e s) (hrows : Rows x cfg.entities rest s rows) (hr : NotRow rest) :
    parseMarkdown x cfg (rowText k hs closed ++ (nl ++ (rowText k' ds closed' ++ (e ++ s)))) =
      (parseMarkdown x cfg rest).map (fun d =>
        ⟨.table (header :: rows.map (fitted header.length)) aligns :: d.blocks⟩) := by
  have hne' : ds ≠ [] := by
    rintro rfl; exact hne (List.eq_nil_of_length_eq_zero hw.symm)
  have htab : tableP x cfg (rowText k hs closed ++ (nl ++ (rowText k' ds closed' ++ (e ++ s)))) =
      some (rest, .table (header :: rows.map (fitted header.length)) aligns) := by
    unfold tableP
    rw [tableRow_of hp hk hne hh (.inl hnl)]
    simp only
    rw [alignmentRow_of hk' hne' hd he]
    simp only
    rw [if_neg (by rw [← hd.length, ← hh.length]; simp [hw]), dataRows_of hp hrows hr]
  refine parseMarkdown_cons hp.customOk (bs := [_]) ?_
  obtain ⟨t, hsrc⟩ := rowText_head (k := k) (cells := hs) (closed := closed)
    (u := nl ++ (rowText k' ds closed' ++ (e ++ s)))
  rw [hsrc] at htab ⊢
  have hn : ∃ y, notAParagraphLine x cfg (blockP x cfg) (List.replicate k ' ' ++ '|' :: t) = some y := by
    cases e : notAParagraphLine x cfg (blockP x cfg) (List.replicate k ' ' ++ '|' :: t) with
    | some y => exact ⟨y, rfl⟩
    | none =>
      exfalso
      unfold notAParagraphLine at e
      simp only [orElse_none, conditionalUnit_none] at e
      obtain ⟨_, _, _, _, _, _, _, _, _, h, _⟩ := e
      rw [ht, htab] at h
      simp at h
  obtain ⟨y, hn⟩ := hn
  rw [blockP_late hp.customOk hk (by decide) hn]
  unfold lateAlts
  have h1 : thematicBreakP (List.replicate k ' ' ++ '|' :: t) = none :=
    (thematicBreakP_indent hk (by decide)).trans
      (thematicBreakP_head (by decide) (by decide) (by decide) (by decide))
  rw [orElse_of_none (conditionalBlock_none (value_none.2 h1)),
    orElse_of_none (conditionalBlockVec_none (githubAlertP_indent_none hk (by decide) (by decide))),
    orElse_of_none (conditionalBlock_none (blockquoteP_indent_none hk (by decide) (by decide))),
    orElse_of_none (conditionalBlock_none (listP_indent_none hk (by decide) (by decide) (by decide)
      (by decide) (by decide))),
    orElse_of_none (conditionalBlock_none (mapP_none.2 ((htmlBlockP_indent hk (by decide)).trans
      (htmlBlockP_head_none (by decide) (by decide))))),
    orElse_of_none (conditionalBlock_none ((footnoteDefinitionP_indent hk (by decide)).trans
      (footnoteDefinitionP_head (by decide) (by decide)))),
    orElse_of_none (conditionalBlock_none ((linkDefinitionP_indent hk (by decide)).trans
      (linkDefinitionP_head (by decide) (by decide))))]
  refine orElse_of_some ?_
  rw [conditionalBlock_parse ht, htab]
  rfl

/-- C63, the limits: blanks after the last bar are one more cell, and in the delimiter row they are
the end of the table; cells without any character do not make a row; a bar inside a code span ends
the cell. -/
theorem C63_boundaries :
    parseMarkdown PExt.ascii (PConfig.default fun _ => none) cs!"|a| \n|-|\n" =
      some ⟨[.paragraph [.text cs!"|a| \n|-|"]]⟩ ∧
    parseMarkdown PExt.ascii (PConfig.default fun _ => none) cs!"|a|\n|-| \n" =
      some ⟨[.paragraph [.text cs!"|a|\n|-| "]]⟩ ∧
    parseMarkdown PExt.ascii (PConfig.default fun _ => none) cs!"|a||\n|-|-|\n" =
      some ⟨[.paragraph [.text cs!"|a||\n|-|-|"]]⟩ ∧
    parseMarkdown PExt.ascii (PConfig.default fun _ => none) cs!"|`|`|\n|-|-|\n" =
      some ⟨[.table [[[.text cs!"`"], [.text cs!"`"]]] [.none, .none]]⟩ := by
  decide +kernel

theorem cellText_plain {s : Str} (h : ∀ c ∈ s, c ∉ cs!"|\\\r\n") : CellText s s := by
  induction s with
  | nil => exact .nil
  | cons c s ih => exact .chr (h c (by simp)) (ih (fun d hd => h d (by simp [hd])))

/-- A header with an escaped bar, two alignments, a longer and a shorter row meet the hypotheses. -/
example (ent : Str → Option Str) :
    parseMarkdown x (PConfig.default ent) cs!" | a | \\| |\n|:-|-:\n|b|c|d|\n| |\n" =
      some ⟨[.table [[[.text ['a']], [.text ['|']]], [[.text ['b']], [.text ['c']]], [[], [.text []]]]
        [.left, .right]]⟩ := by
  have hcell : ∀ c : Char, c ∉ inlineSpecial → c ∉ cs!"|\\\r\n" → isWs c = false →
      Cell x ent [c] [.text [c]] := by
    intro c h1 h2 h3
    refine ⟨by simp, [c], .chr h2 .nil, ?_⟩
    rw [trim_noWs (by simpa using h3)]
    exact .text1 (t := [c]) (by simp) (plainText_of (by simpa using h1) (by
      rintro ⟨a, b, hab⟩
      have := congrArg List.length hab
      simp at this; omega))
  have h := C63_table (x := x) (cfg := PConfig.default ent) (allParse_default ent) rfl (k := 1) (k' := 0)
    (hs := [cs!" a ", cs!" \\| "]) (ds := [cs!":-", cs!"-:"]) (closed := true) (closed' := false)
    (header := [[.text ['a']], [.text ['|']]]) (aligns := [.left, .right]) (nl := ['\n']) (e := ['\n'])
    (s := cs!"|b|c|d|\n| |\n") (rest := [])
    (rows := [[[.text ['b']], [.text ['c']], [.text ['d']]], [[]]])
    (by decide) (by decide) (by simp)
    (.cons ⟨by simp, cs!" a ", cellText_plain (by decide),
        .text1 (t := ['a']) (by simp) (plainText_of (by decide) (by decide))⟩
      (.cons ⟨by simp, cs!" | ", .chr (by decide) (.bar (.chr (by decide) .nil)),
        .text1 (t := ['|']) (by simp) (plainText_of (by decide) (by decide))⟩ .nil))
    (.inl rfl)
    (.cons ⟨[], cs!":-", [], by simp, .left (n := 1) (by decide), by simp, rfl⟩
      (.cons ⟨[], cs!"-:", [], by simp, .right (n := 1) (by decide), by simp, rfl⟩ .nil))
    rfl (.inl (.inl rfl))
    (.cons (k := 0) (cells := [['b'], ['c'], ['d']]) (closed := true) (e := ['\n']) (s := cs!"| |\n")
      (by decide) (by simp)
      (.cons (hcell _ (by decide) (by decide) (by decide)) (.cons (hcell _ (by decide) (by decide) (by decide))
        (.cons (hcell _ (by decide) (by decide) (by decide)) .nil))) (.inl (.inl rfl))
      (.cons (k := 0) (cells := [[' ']]) (closed := true) (e := ['\n']) (s := []) (by decide) (by simp)
        (.cons ⟨by simp, [' '], .chr (by decide) .nil, .nil⟩ .nil) (.inl (.inl rfl)) .nil))
    (by intro k t _ h; cases k <;> simp [List.replicate] at h)
  rw [parseMarkdown_nil] at h
  exact h

end
end Verif
