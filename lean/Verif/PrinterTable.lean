import Verif.PrinterWords
/-!
# Markdown printer: tables (C46)
-/
set_option linter.unusedVariables false
namespace Verif
namespace Md
open Spec

/-! ## Inlines on one line -/

/-- A document of texts only that says `a`. -/
structure Says (d : Doc) (a : Str) : Prop where
  textOnly : d.TextOnly
  texts : d.texts = a

theorem Says.app {d e : Doc} {a b : Str} (h : Says d a) (h' : Says e b) :
    Says (d.app e) (a ++ b) :=
  ⟨Doc.textOnly_app h.1 h'.1, by rw [Doc.texts_app, h.2, h'.2]⟩

theorem Says.text (s : Str) : Says (.text s) s := ⟨trivial, rfl⟩
theorem Says.nil : Says .nil [] := ⟨trivial, rfl⟩

/-- The documents of a list say a text one after another. -/
inductive SaysL : List Doc → Str → Prop
  | nil : SaysL [] []
  | cons {d : Doc} {l : List Doc} {a b : Str} : Says d a → SaysL l b → SaysL (d :: l) (a ++ b)

theorem SaysL.concat {l : List Doc} {as : Str} (h : SaysL l as) : Says (Doc.concat l) as := by
  have : ∀ (d : Doc) (a : Str), Says d a → Says (l.foldl Doc.app d) (a ++ as) := by
    induction h with
    | nil => intro d a h; simpa using h
    | cons h1 _ ih =>
      intro d a h
      simpa using ih _ _ (h.app h1)
  simpa [Doc.concat] using this _ _ Says.nil

theorem plainTextDocs_says (l : List (Option Str)) :
    SaysL (l.map fun
      | some w => Doc.text w
      | none => Doc.text [' ']) (wordsSource l) := by
  induction l with
  | nil => exact .nil
  | cons o l ih =>
    cases o with
    | some w => exact .cons (.text w) ih
    | none => exact .cons (a := [' ']) (.text _) ih

theorem textDoc_says (x : Ext) (t : Str) : Says (textDoc x false t) (collapse false t) := by
  rw [← collapse_nlToSpace, ← splitWithSpaces_source]
  exact (plainTextDocs_says _).concat

theorem inline_says (x : Ext) :
    (∀ i, Says (inlineDoc x false i) (inlineSource (collapse false) i)) ∧
    (∀ l, SaysL (inlineDocs x false l) (lineSource l)) := by
  apply Inline.ind
  case text => intro s; exact textDoc_says x s
  case lineBreak => exact .text _
  case code => intro s; exact ((Says.text _).app (.text _)).app (.text _)
  case html => intro s; exact .text _
  case link =>
    intro d t c ih
    refine ((((((Says.text _).app (SaysL.concat ih)).app (.text _)).app (.text _)).app ?_).app
      (.text _))
    cases t with
    | none => exact .nil
    | some t => exact ((Says.text _).app (.text _)).app (.text _)
  case linkReference =>
    intro l t hl ht
    simp only [inlineDoc, inlineSource]
    split
    · exact ((Says.text _).app (SaysL.concat hl)).app (.text _)
    · exact ((((Says.text _).app (SaysL.concat ht)).app (.text _)).app
        (SaysL.concat hl)).app (.text _)
  case image =>
    intro d t a
    have ht : Says (.text (titlePart t)) (title t) := titlePart_title t ▸ Says.text (titlePart t)
    exact (((((Says.text _).app (.text _)).app (.text _)).app (.text _)).app ht).app (.text _)
  case emphasis => intro c ih; exact ((Says.text _).app (SaysL.concat ih)).app (.text _)
  case strong => intro c ih; exact ((Says.text _).app (SaysL.concat ih)).app (.text _)
  case strikethrough => intro c ih; exact ((Says.text _).app (SaysL.concat ih)).app (.text _)
  case autolink => intro s; exact .text _
  case footnoteReference => intro s; exact .text _
  case empty => exact .nil
  case nil => exact .nil
  case cons => intro i l hi hl; exact .cons hi hl

theorem inlines_says (x : Ext) (l : List Inline) : Says (inlinesDoc x false l) (lineSource l) :=
  ((inline_says x).2 l).concat

theorem renderCell_eq (x : Ext) (c : List Inline) : renderCell x c = lineSource c := by
  rw [renderCell, Doc.render_textOnly (inlines_says x c).1, (inlines_says x c).2]

theorem tableContent_eq (x : Ext) (rows : List (List (List Inline))) :
    tableContent x rows = rows.map (·.map lineSource) := by
  simp only [tableContent]
  refine List.map_congr_left fun r _ => List.map_congr_left fun c _ => renderCell_eq x c

/-! ## Column widths -/

theorem foldl_max (l : List Nat) : ∀ a, l.foldl (fun m n => if n > m then n else m) a =
    l.foldr max a := by
  induction l with
  | nil => intro a; rfl
  | cons n l ih =>
    intro a
    simp only [List.foldl_cons, List.foldr_cons, ih]
    have : ∀ (k : List Nat) (p q : Nat), k.foldr max (max p q) = max q (k.foldr max p) := by
      intro k p q
      induction k with
      | nil => simp [Nat.max_comm]
      | cons m k ih => simp only [List.foldr_cons, ih]; omega
    have hm : (if n > a then n else a) = max a n := by split <;> omega
    rw [hm, this]

theorem columnContentWidth_eq (t : List (List Str)) (i : Nat) :
    columnContentWidth t i = (t.map fun r => (r[i]?.getD []).length).foldr max 0 := by
  rw [← foldl_max, List.foldl_map]
  unfold columnContentWidth
  congr 1
  funext m r
  cases r[i]? with
  | none => simp
  | some c => rfl

theorem foldr_max_need (l : List Nat) (n : Nat) : l.foldr max n = max (l.foldr max 0) n := by
  induction l with
  | nil => simp
  | cons m l ih => simp only [List.foldr_cons, ih]; omega

theorem ite_max (n m : Nat) : (if n > m then n else m) = max n m := by split <;> omega

theorem columnWidth_eq {t : List (List Str)} {al : List Alignment} {i : Nat} {a : Alignment}
    (h : al[i]? = some a) : Md.columnWidth t al i = Spec.columnWidth t a i := by
  simp only [Md.columnWidth, Spec.columnWidth, columnContentWidth_eq, h]
  rw [foldr_max_need _ (need a)]
  generalize (t.map fun r => (r[i]?.getD []).length).foldr max 0 = n
  cases a <;> exact ite_max n _

theorem mem_foldr_max {l : List Nat} {n m : Nat} (h : n ∈ l) : n ≤ l.foldr max m := by
  induction l with
  | nil => exact absurd h (by simp)
  | cons k l ih =>
    simp only [List.foldr_cons]
    rcases List.mem_cons.1 h with rfl | h
    · omega
    · have := ih h; omega

theorem le_foldr_max (l : List Nat) (m : Nat) : m ≤ l.foldr max m := by
  induction l with
  | nil => simp
  | cons k l ih => simp only [List.foldr_cons]; omega

theorem cell_le_columnWidth {t : List (List Str)} {a : Alignment} {i : Nat} {r : List Str} {c : Str}
    (hr : r ∈ t) (hc : r[i]? = some c) : c.length ≤ Spec.columnWidth t a i := by
  refine mem_foldr_max (List.mem_map.2 ⟨r, hr, ?_⟩)
  rw [hc]; rfl

theorem need_le_columnWidth (t : List (List Str)) (a : Alignment) (i : Nat) :
    need a ≤
      Spec.columnWidth t a i := by
  unfold Spec.columnWidth
  exact le_foldr_max _ _

/-! ## Rows -/

theorem cellText_pad {c : Str} {w : Nat} (h : c.length ≤ w) (a : Alignment) :
    cellText c w a = some (pad a w c) := by
  cases a <;> simp [cellText, padding, h, pad]

theorem joinWith_cons (sep a : Str) (l : List Str) :
    joinWith sep (a :: l) = a ++ (l.map (sep ++ ·)).flatten := by
  induction l generalizing a with
  | nil => simp [joinWith]
  | cons b l ih => simp [joinWith, ih]

theorem map_mapIdx' {α β γ : Type} (f : Nat → α → β) (g : β → γ) (l : List α) :
    (l.mapIdx f).map g = l.mapIdx fun i a => g (f i a) := by
  apply List.ext_getElem?
  intro i
  simp [List.getElem?_mapIdx, Function.comp_def]

theorem rowCells_says {widths : List Nat} {al : List Alignment} {cells : List Str} :
    ∀ {i : Nat} {acc : Doc} {a : Str}, 0 < i → Says acc a →
    (∀ j c, cells[j]? = some c → c.length ≤ widths[i + j]?.getD 3) →
    ∃ d, rowCells widths al i acc cells = some d ∧ Says d (a ++ ((cells.mapIdx fun j c =>
      cs!" | " ++ pad (al[i + j]?.getD .left) (widths[i + j]?.getD 3) c)).flatten) := by
  induction cells with
  | nil => intro i acc a _ h _; exact ⟨acc, rfl, by simpa using h⟩
  | cons c cells ih =>
    intro i acc a hi h hw
    have hc := hw 0 c rfl
    simp only [rowCells, hi, if_true, Nat.add_zero] at hc ⊢
    obtain ⟨d, hd, hs⟩ := ih (i := i + 1) (acc := (acc.app (.text cs!" | ")).app
      (.text (pad (al[i]?.getD .left) (widths[i]?.getD 3) c))) (Nat.succ_pos i)
      ((h.app (.text _)).app (.text _)) (by
        intro j e he
        have := hw (j + 1) e (by simpa using he)
        rwa [show i + 1 + j = i + (j + 1) by omega])
    refine ⟨d, ?_, ?_⟩
    · rw [cellText_pad hc]; exact hd
    · have hidx : ∀ j, i + 1 + j = i + (j + 1) := by intro j; omega
      simpa [List.mapIdx_cons, hidx] using hs

theorem rowDoc_says {widths : List Nat} {al : List Alignment} {cells : List Str}
    (hw : ∀ (j : Nat) (c : Str), cells[j]? = some c → c.length ≤ widths[j]?.getD 3) :
    ∃ d, rowDoc cells widths al = some d ∧ Says d (row (cells.mapIdx fun j c =>
      pad (al[j]?.getD .left) (widths[j]?.getD 3) c)) := by
  cases cells with
  | nil => exact ⟨_, rfl, (Says.text _).app (.text _)⟩
  | cons c cells =>
    have hc := hw 0 c rfl
    obtain ⟨d, hd, hs⟩ := rowCells_says (widths := widths) (al := al) (cells := cells) (i := 1)
      Nat.one_pos ((Says.text cs!"| ").app (.text (pad (al[0]?.getD .left) (widths[0]?.getD 3) c)))
      (by
        intro j e he
        have := hw (j + 1) e (by simpa using he)
        rwa [Nat.add_comm 1 j])
    refine ⟨d.app (.text cs!" |"), ?_, ?_⟩
    · simp only [rowDoc, rowCells, Nat.lt_irrefl, if_false, gt_iff_lt]
      rw [cellText_pad hc]
      simp only [Option.bind_eq_bind, Option.bind_some, Nat.zero_add]
      rw [hd]; rfl
    · have := hs.app (.text cs!" |")
      simp only [row, List.mapIdx_cons, joinWith_cons]
      simpa [map_mapIdx', Function.comp_def, Nat.add_comm] using this

theorem alignmentDoc_says {a : Alignment} {w : Nat}
    (h : need a ≤ w) :
    Says (alignmentDoc a w) (delimiter a w) := by
  cases a <;> simp only [need] at h <;> simp only [alignmentDoc, delimiter]
  · refine (?_ : _ = List.replicate w '-') ▸ Says.text _
    congr 1; split <;> omega
  · refine (?_ : _ = List.replicate w '-') ▸ Says.text _
    congr 1; split <;> omega
  · rw [if_pos (by omega)]
    exact ((Says.text _).app (.text _)).app (.text _)
  · rw [if_pos (by omega)]
    exact (Says.text _).app (.text _)

theorem alignmentCells_says {widths : List Nat} {al : List Alignment} :
    ∀ {i : Nat} {acc : Doc} {a : Str}, 0 < i → Says acc a →
    (∀ j b, al[j]? = some b → Says (alignmentDoc b (widths[i + j]?.getD 3))
      (delimiter b (widths[i + j]?.getD 3))) →
    Says (alignmentCells widths i acc al) (a ++ ((al.mapIdx fun j b =>
      cs!" | " ++ delimiter b (widths[i + j]?.getD 3))).flatten) := by
  induction al with
  | nil => intro i acc a _ h _; simpa [alignmentCells] using h
  | cons b al ih =>
    intro i acc a hi h hw
    simp only [alignmentCells, gt_iff_lt, hi, if_true]
    have := ih (i := i + 1) (Nat.succ_pos i) ((h.app (.text cs!" | ")).app (hw 0 b rfl)) (by
        intro j e he
        have := hw (j + 1) e (by simpa using he)
        rwa [show i + 1 + j = i + (j + 1) by omega])
    have hidx : ∀ j, i + 1 + j = i + (j + 1) := by intro j; omega
    simpa [List.mapIdx_cons, hidx] using this

theorem alignmentsRowDoc_says {widths : List Nat} {al : List Alignment}
    (hw : ∀ (j : Nat) (b : Alignment), al[j]? = some b → Says (alignmentDoc b (widths[j]?.getD 3))
      (delimiter b (widths[j]?.getD 3))) :
    Says (alignmentsRowDoc al widths) (row (al.mapIdx fun j b =>
      delimiter b (widths[j]?.getD 3))) := by
  cases al with
  | nil => exact (Says.text _).app (.text _)
  | cons b al =>
    simp only [alignmentsRowDoc, alignmentCells, gt_iff_lt, Nat.lt_irrefl, if_false, Nat.zero_add]
    have := (alignmentCells_says (widths := widths) (al := al) (i := 1)
      Nat.one_pos ((Says.text cs!"| ").app (hw 0 b rfl)) (by
        intro j e he
        have := hw (j + 1) e (by simpa using he)
        rwa [Nat.add_comm 1 j])).app (.text cs!" |")
    simp only [row, List.mapIdx_cons, joinWith_cons]
    simpa [map_mapIdx', Function.comp_def, Nat.add_comm] using this

/-! ## The table -/

theorem says_simple : ∀ {d : Doc}, d.TextOnly → d.Simple ∧ d.skel = d.texts.map some := by
  intro d
  induction d with
  | nil => intro _; exact ⟨trivial, rfl⟩
  | append l r hl hr =>
    intro h
    exact ⟨⟨(hl h.1).1, (hr h.2).1⟩, by simp [Doc.skel, Doc.texts, (hl h.1).2, (hr h.2).2]⟩
  | text s => intro _; exact ⟨trivial, rfl⟩
  | _ => intro h; exact h.elim

/-- A simple document with a single layout. -/
structure Prints (d : Doc) (a : Str) : Prop where
  simple : d.Simple
  skel : d.skel = a.map some

theorem Says.prints {d : Doc} {a : Str} (h : Says d a) : Prints d a :=
  ⟨(says_simple h.1).1, by rw [(says_simple h.1).2, h.2]⟩

theorem Prints.app {d e : Doc} {a b : Str} (h : Prints d a) (h' : Prints e b) :
    Prints (d.app e) (a ++ b) :=
  ⟨Doc.simple_app h.1 h'.1, by rw [Doc.skel_app, h.2, h'.2]; simp⟩

theorem Prints.hardline : Prints .hardline ['\n'] := ⟨trivial, rfl⟩

theorem Prints.render {d : Doc} {a : Str} (h : Prints d a) (dw : Str → Nat) (w : Nat) :
    d.render dw w = a := by
  have := Doc.render_simple h.1 dw w
  rw [h.2] at this
  exact Fills.some_iff.1 this

/-- Documents printed one per line. -/
inductive PrintsL : List Doc → List Str → Prop
  | nil : PrintsL [] []
  | cons {d : Doc} {l : List Doc} {a : Str} {as : List Str} :
      Prints d a → PrintsL l as → PrintsL (d :: l) (a :: as)

theorem PrintsL.foldl {l : List Doc} {as : List Str} (h : PrintsL l as) :
    ∀ {d : Doc} {a : Str}, Prints d a →
    Prints (l.foldl (fun acc e => (acc.app .hardline).app e) d)
      (a ++ (as.map (['\n'] ++ ·)).flatten) := by
  induction h with
  | nil => intro d a h; simpa using h
  | cons h2 _ ih =>
    intro d a h1
    simpa using ih ((h1.app .hardline).app h2)

theorem PrintsL.intersperse {l : List Doc} {as : List Str} (h : PrintsL l as) :
    Prints (Doc.intersperse l .hardline) (joinWith ['\n'] as) := by
  cases h with
  | nil => exact ⟨trivial, rfl⟩
  | cons h1 h =>
    rename_i l a as
    rw [joinWith_cons]
    simp only [Doc.intersperse]
    exact PrintsL.foldl h h1

/-- The content of a table as text, one line per cell. -/
abbrev cellTexts (rows : List (List (List Inline))) : List (List Str) :=
  rows.map (·.map lineSource)

theorem mapM_some {α β : Type} {f : α → Option β} {P : α → β → Prop} :
    ∀ {l : List α}, (∀ a ∈ l, ∃ b, f a = some b ∧ P a b) →
    ∃ bs, l.mapM f = some bs ∧ bs.length = l.length ∧ ∀ (i : Nat) a b, l[i]? = some a →
      bs[i]? = some b → P a b := by
  intro l
  induction l with
  | nil => intro _; exact ⟨[], rfl, rfl, by simp⟩
  | cons a l ih =>
    intro h
    obtain ⟨b, hb, hp⟩ := h a (by simp)
    obtain ⟨bs, hbs, hl, hi⟩ := ih fun c hc => h c (by simp [hc])
    refine ⟨b :: bs, by simp [List.mapM_cons, hb, hbs], by simp [hl], ?_⟩
    intro i c e hc he
    cases i with
    | zero => simp at hc he; subst hc he; exact hp
    | succ i => exact hi i c e (by simpa using hc) (by simpa using he)

theorem printsL_of {ds : List Doc} {as : List Str} (hl : ds.length = as.length)
    (h : ∀ (i : Nat) a d, as[i]? = some a → ds[i]? = some d → Prints d a) : PrintsL ds as := by
  induction ds generalizing as with
  | nil => cases as with
    | nil => exact .nil
    | cons => simp at hl
  | cons d ds ih => cases as with
    | nil => simp at hl
    | cons a as =>
      exact .cons (h 0 a d rfl rfl) (ih (by simpa using hl) fun i b e hb he =>
        h (i + 1) b e (by simpa using hb) (by simpa using he))

theorem tableDoc_eq (x : Ext) {rows : List (List (List Inline))} {al : List Alignment}
    (h : Rectangular rows al) :
    tableDoc x rows al = match rows with
      | [] => some .nil
      | _ :: _ => some (.text (joinWith ['\n'] (tableLines al (cellTexts rows)))) := by
  cases rows with
  | nil => rfl
  | cons hd tl =>
    simp only [tableDoc, tableContent_eq, List.map_cons]
    generalize ht : (hd.map lineSource :: tl.map (·.map lineSource)) = t
    have ht' : t = cellTexts (hd :: tl) := by rw [← ht]; rfl
    have hrect : ∀ r ∈ t, r.length = al.length := by
      intro r hr
      rw [ht', List.mem_map] at hr
      obtain ⟨q, hq, rfl⟩ := hr
      simpa using h q hq
    have hlen : (t.headD []).length = al.length := by
      rw [← ht]
      simpa using h hd (by simp)
    have hwid : ∀ (j : Nat) a, al[j]? = some a →
        (columnsWidth t al)[j]?.getD 3 = Spec.columnWidth t a j := by
      intro j a ha
      have hj : j < al.length := by
        rcases Nat.lt_or_ge j al.length with h | h
        · exact h
        · rw [List.getElem?_eq_none h] at ha; exact absurd ha (by simp)
      have : (columnsWidth t al)[j]? = some (Md.columnWidth t al j) := by
        simp only [columnsWidth, List.getElem?_map, hlen]
        rw [List.getElem?_range hj]; rfl
      rw [this, Option.getD_some, columnWidth_eq ha]
    have hal : ∀ r ∈ t, ∀ (j : Nat) (c : Str), r[j]? = some c → ∃ a, al[j]? = some a := by
      intro r hr j c hc
      have hj : j < r.length := by
        rcases Nat.lt_or_ge j r.length with h | h
        · exact h
        · rw [List.getElem?_eq_none h] at hc; exact absurd hc (by simp)
      rw [hrect r hr] at hj
      exact ⟨_, List.getElem?_eq_getElem hj⟩
    have hrow : ∀ r ∈ t, ∃ d, rowDoc r (columnsWidth t al) al = some d ∧
        Prints d (row (r.mapIdx fun i c => pad (al[i]?.getD .none)
          (Spec.columnWidth t (al[i]?.getD .none) i) c)) := by
      intro r hr
      obtain ⟨d, hd, hs⟩ := rowDoc_says (widths := columnsWidth t al) (al := al) (cells := r) (by
        intro j c hc
        obtain ⟨a, ha⟩ := hal r hr j c hc
        rw [hwid j a ha]
        exact cell_le_columnWidth hr hc)
      refine ⟨d, hd, ?_⟩
      have e : (r.mapIdx fun j c => pad (al[j]?.getD .left) ((columnsWidth t al)[j]?.getD 3) c) =
          r.mapIdx fun i c => pad (al[i]?.getD .none)
            (Spec.columnWidth t (al[i]?.getD .none) i) c := by
        apply List.ext_getElem?
        intro j
        simp only [List.getElem?_mapIdx]
        cases hc : r[j]? with
        | none => rfl
        | some c =>
          obtain ⟨a, ha⟩ := hal r hr j c hc
          simp [ha, hwid j a ha]
      rw [e] at hs
      exact hs.prints
    have hsep : Prints (alignmentsRowDoc al (columnsWidth t al))
        (row (al.mapIdx fun i a => delimiter a (Spec.columnWidth t (al[i]?.getD .none) i))) := by
      have hs := alignmentsRowDoc_says (widths := columnsWidth t al) (al := al) (by
        intro j b hb
        rw [hwid j b hb]
        exact alignmentDoc_says (need_le_columnWidth t b j))
      have e : (al.mapIdx fun j b => delimiter b ((columnsWidth t al)[j]?.getD 3)) =
          al.mapIdx fun i a => delimiter a (Spec.columnWidth t (al[i]?.getD .none) i) := by
        apply List.ext_getElem?
        intro j
        simp only [List.getElem?_mapIdx]
        cases hc : al[j]? with
        | none => rfl
        | some a => simp [hwid j a hc]
      rw [e] at hs
      exact hs.prints
    obtain ⟨d, hd1, hd2⟩ := hrow (hd.map lineSource) (by rw [← ht]; simp)
    obtain ⟨ds, hds, hl, hp⟩ := mapM_some (l := tl.map (·.map lineSource)) fun r hr =>
      hrow r (by rw [← ht]; simp [List.mem_map.1 hr]) 
    have hbody : PrintsL ds ((tl.map (·.map lineSource)).map fun r => row (r.mapIdx fun i c =>
        pad (al[i]?.getD .none) (Spec.columnWidth t (al[i]?.getD .none) i) c)) := by
      refine printsL_of (by rw [hl]; simp) ?_
      intro i a e ha he
      rw [List.getElem?_map] at ha
      cases hq : (tl.map (·.map lineSource))[i]? with
      | none => rw [hq] at ha; exact absurd ha (by simp)
      | some q =>
        rw [hq] at ha
        simp at ha
        subst ha
        exact hp i q e hq he
    have hall := (PrintsL.cons hd2 (.cons hsep hbody)).intersperse
    rw [hd1, Option.bind_eq_bind, Option.bind_some, Option.bind_eq_bind]
    rw [hds, Option.bind_some, hall.render]
    subst ht
    rfl

/-- **C46.** A rectangular table is printed, without a panic, as the lines of its specification:
every cell with its text unchanged and padded to the width of its column. -/
theorem C46_table (x : Ext) (cfg : Config) (rows : List (List (List Inline))) (al : List Alignment)
    (h : Rectangular rows al) :
    renderMarkdown x cfg ⟨[.table rows al]⟩ =
      some (joinWith ['\n'] (tableLines al (rows.map (·.map lineSource)))) := by
  simp only [renderMarkdown, blocksDoc, blockDoc, if_true, tableDoc_eq x h]
  cases rows with
  | nil => rfl
  | cons r rows => rfl

theorem pad_length {a : Alignment} {w : Nat} {c : Str} (h : c.length ≤ w) :
    (pad a w c).length = w := by
  cases a <;> simp [pad] <;> omega

theorem delimiter_length {a : Alignment} {w : Nat} (h : need a ≤ w) :
    (delimiter a w).length = w := by
  cases a <;> simp [need] at h <;> simp [delimiter] <;> omega

theorem joinWith_length (sep : Str) : ∀ {l l' : List Str}, l.length = l'.length →
    (∀ (i : Nat) a b, l[i]? = some a → l'[i]? = some b → a.length = b.length) →
    (joinWith sep l).length = (joinWith sep l').length := by
  have aux : ∀ {l l' : List Str}, l.length = l'.length →
      (∀ (i : Nat) a b, l[i]? = some a → l'[i]? = some b → a.length = b.length) →
      ((l.map (sep ++ ·)).flatten).length = ((l'.map (sep ++ ·)).flatten).length := by
    intro l
    induction l with
    | nil => intro l' hl _; cases l' with
      | nil => rfl
      | cons => simp at hl
    | cons a l ih => intro l' hl h; cases l' with
      | nil => simp at hl
      | cons b l' =>
        have h0 := h 0 a b rfl rfl
        have := ih (l' := l') (by simpa using hl) fun i c d hc hd =>
          h (i + 1) c d (by simpa using hc) (by simpa using hd)
        simp only [List.map_cons, List.flatten_cons, List.length_append, this, h0]
  intro l l' hl h
  cases l with
  | nil => cases l' with
    | nil => rfl
    | cons => simp at hl
  | cons a l => cases l' with
    | nil => simp at hl
    | cons b l' =>
      have h0 := h 0 a b rfl rfl
      rw [joinWith_cons, joinWith_cons, List.length_append, List.length_append, h0,
        aux (by simpa using hl) fun i c d hc hd =>
          h (i + 1) c d (by simpa using hc) (by simpa using hd)]

/-- **C46.** All lines of a rectangular table have the same number of characters. -/
theorem C46_aligned (al : List Alignment) (cells : List (List Str)) (h : Rectangular cells al) :
    ∀ l ∈ tableLines al cells, ∀ l' ∈ tableLines al cells, l.length = l'.length := by
  cases cells with
  | nil => intro l hl; exact absurd hl (by simp [tableLines])
  | cons hd tl =>
    have key : ∀ l ∈ tableLines al (hd :: tl), ∃ cs : List Str, l = row cs ∧
        cs.length = al.length ∧ ∀ (i : Nat) c a, cs[i]? = some c → al[i]? = some a →
          c.length = Spec.columnWidth (hd :: tl) a i := by
      intro l hl
      have hrow : ∀ r ∈ hd :: tl, ∃ cs : List Str,
          row (r.mapIdx fun i c => pad (al[i]?.getD .none)
            (Spec.columnWidth (hd :: tl) (al[i]?.getD .none) i) c) = row cs ∧
          cs.length = al.length ∧ ∀ (i : Nat) c a, cs[i]? = some c → al[i]? = some a →
            c.length = Spec.columnWidth (hd :: tl) a i := by
        intro r hr
        refine ⟨_, rfl, by simpa using h r hr, ?_⟩
        intro i c a hc ha
        simp only [List.getElem?_mapIdx] at hc
        cases hq : r[i]? with
        | none => rw [hq] at hc; exact absurd hc (by simp)
        | some q =>
          rw [hq] at hc
          simp only [Option.map_some, Option.some.injEq, ha, Option.getD_some] at hc
          rw [← hc]
          exact pad_length (cell_le_columnWidth hr hq)
      simp only [tableLines, List.mem_cons, List.mem_map] at hl
      rcases hl with rfl | rfl | ⟨r, hr, rfl⟩
      · exact hrow hd (by simp)
      · refine ⟨_, rfl, by simp, ?_⟩
        intro i c a hc ha
        simp only [List.getElem?_mapIdx, ha, Option.map_some, Option.some.injEq,
          Option.getD_some] at hc
        rw [← hc]
        exact delimiter_length (need_le_columnWidth _ a i)
      · exact hrow r (by simp [hr])
    intro l hl l' hl'
    obtain ⟨cs, rfl, h1, h2⟩ := key l hl
    obtain ⟨cs', rfl, h1', h2'⟩ := key l' hl'
    simp only [row, List.length_append]
    rw [joinWith_length cs!" | " (h1.trans h1'.symm)]
    intro i a b ha hb
    have hi : i < al.length := by
      rcases Nat.lt_or_ge i cs.length with h | h
      · rwa [h1] at h
      · rw [List.getElem?_eq_none h] at ha; exact absurd ha (by simp)
    rw [h2 i a _ ha (List.getElem?_eq_getElem hi), h2' i b _ hb (List.getElem?_eq_getElem hi)]

/-- **C46.** The delimiter row shows the alignment of a column: a colon at the end for `right`, at
both ends for `center`, none otherwise, and at least one dash. -/
theorem C46_delimiter (t : List (List Str)) (a : Alignment) (i : Nat) :
    ∃ n, 1 ≤ n ∧ delimiter a (Spec.columnWidth t a i) = match a with
      | .none | .left => List.replicate n '-'
      | .right => List.replicate n '-' ++ cs!":"
      | .center => cs!":" ++ List.replicate n '-' ++ cs!":" := by
  have h := need_le_columnWidth t a i
  cases a <;> simp only [need] at h
  · exact ⟨_, h, rfl⟩
  · exact ⟨_, h, rfl⟩
  · exact ⟨_, by omega, rfl⟩
  · exact ⟨_, by omega, rfl⟩

example : renderMarkdown Ext.ascii Config.default ⟨[.table
    [[[.text cs!"a"], [.text cs!"bb cc"]], [[.code cs!"x y"], []]] [.right, .center]]⟩ =
    some cs!"|     a | bb cc |\n| ----: | :---: |\n| `x y` |       |" := by decide +kernel

end Md
end Verif
