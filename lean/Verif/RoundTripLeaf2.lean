import Verif.RoundTripLeaf
/-!
# Definitions, footnotes and tables are read back
-/
set_option linter.unusedVariables false
set_option linter.unusedSimpArgs false
namespace Verif
namespace Md
namespace Spec
open Nom

variable {x : PExt} {cfg : PConfig} {y : Style} {item : Bool} {p : Place} {l0 : Str} {ls ls' : List Str} {u rest : Str}

theorem After.noTitle {b : Block} (h : After y p b u rest) : NoTitle rest := by
  rintro w c t hw hn e
  have : c ≠ '"' ∧ c ≠ '\'' ∧ c ≠ '(' := by
    rcases h with ⟨rfl, rfl⟩ | ⟨r, V, rfl, rfl, _⟩
    · simp at e
    · rcases List.append_eq_append_iff.1 e with ⟨a, ha, hb⟩ | ⟨a, ha, hb⟩
      · cases a with
        | nil => simp at hb; rw [← hb.1]; decide
        | cons d a =>
          simp at hb
          exact absurd (by rw [ha, ← hb.1]; simp) hn
      · have hc : c ∈ List.replicate r ' ' ++ ['\n'] := by
          cases a with
          | nil => simp at hb; simp [hb.1]
          | cons d a =>
            simp at hb
            rw [ha, hb.1]; simp
        simp at hc
        rcases hc with ⟨_, rfl⟩ | rfl <;> decide
  exact this

theorem definition_back (hp : EveryParse cfg) {l : List Inline} {d : Str} {t : Option Str}
    (hf : fitsBlock (isPunctuation x) y item (.definition l d t) p = true)
    (hc : CanonB y (.definition l d t) (l0 :: ls))
    (hs : Shown item p ls ls') (ha : After y p (.definition l d t) u rest) :
    ∃ b', keyBlock b' = keyBlock (.definition l d t) ∧
      parseMarkdown x cfg (List.replicate p.first ' ' ++ (l0 ++ tailText ls' u)) =
        (parseMarkdown x cfg rest).map (fun d => ⟨b' :: d.blocks⟩) := by
  have hnt := ha.noTitle
  obtain ⟨e, he, rfl⟩ := ha.lineEnd
  simp only [fitsBlock, Bool.and_eq_true, decide_eq_true_eq, bne_iff_ne] at hf
  simp only [CanonB] at hc
  obtain ⟨⟨⟨⟨⟨⟨h1, h2⟩, h3⟩, h4⟩, h5⟩, h6⟩, h7⟩ := hf
  cases hc
  cases hs
  obtain ⟨is, hr, hsq⟩ := line_reads (cfg := cfg) h2
  have hl : LabelText (lineSource l) := plainLabel_text (by
    rw [spacedLines_oneLine ((clear_oneLine _).2 l h2)]; exact h4)
  have hd := plainDest_spec h7
  refine ⟨.definition is d t, by simp [keyBlock, hsq], ?_⟩
  have htail : DefTail rest (title t ++ (e ++ rest)) t := by
    cases t with
    | none => exact .none he hnt
    | some t =>
      have := DefTail.title (rest := rest) (w := [' ']) (.inl (by intro c hc; simp at hc; exact .inl hc)) (by simp)
        (.double (titleText_plain (by simpa using hd.2))) he
      simpa [title] using this
  have := C64_link_definition (x := x) hp.all hp.linkDefinition h1 hl h5 hr (g := [' ']) (.inl (by intro c hc; simp at hc; exact .inl hc))
    (.bare hd.1.1 hd.1.2) htail
  rw [← this]
  simp [tailText]

theorem footnote_back (hp : EveryParse cfg) {l : Str} {b : List Block}
    (hf : fitsBlock (isPunctuation x) y item (.footnoteDefinition l b) p = true)
    (hc : CanonB y (.footnoteDefinition l b) (l0 :: ls))
    (hs : Shown item p ls ls') (ha : After y p (.footnoteDefinition l b) u rest) :
    ∃ b', keyBlock b' = keyBlock (.footnoteDefinition l b) ∧
      parseMarkdown x cfg (List.replicate p.first ' ' ++ (l0 ++ tailText ls' u)) =
        (parseMarkdown x cfg rest).map (fun d => ⟨b' :: d.blocks⟩) := by
  have hnf : NotFootnoteLine rest := by
    rintro t e
    rcases ha with ⟨rfl, rfl⟩ | ⟨r, V, rfl, rfl, hr, hb, _⟩
    · simp [List.replicate_succ] at e
    · have hr3 : r ≤ 3 := by
        simp only [blockEnds, Bool.and_eq_true, decide_eq_true_eq] at hb
        omega
      have : r = 0 ∨ r = 1 ∨ r = 2 ∨ r = 3 := by omega
      rcases this with rfl | rfl | rfl | rfl <;> simp [List.replicate_succ] at e
      subst e
      exact ⟨['\n'], V, .inl (.inl rfl), rfl⟩
  obtain ⟨e, he, rfl⟩ := ha.lineEnd
  simp only [fitsBlock, Bool.and_eq_true, decide_eq_true_eq] at hf
  simp only [CanonB] at hc
  obtain ⟨c, rfl, hc⟩ := hc
  cases hc
  cases hs
  obtain ⟨⟨⟨h1, h2⟩, h3⟩, h4⟩ := hf
  simp only [Bool.and_eq_true, fitsText] at h4
  obtain ⟨⟨⟨g1, g2⟩, g3⟩, g4⟩ := h4
  have hol := (clear_oneLine _).2 c g1
  have hfill : Fill (inlinesToks y.digit c) (lineSource c) := by
    have := flat_fill (inlinesToks y.digit c)
    rwa [(flat_inlines y.digit).2] at this
  obtain ⟨l1, ls1, e1, _, h5, h6⟩ := hfill.firm g1 g2 g3
  rw [splitNl_oneLine hol] at e1
  cases e1
  obtain ⟨is, hr, hsq⟩ := line_reads g1
  have hpar := C56_paragraph_indented (x := x) hp.all (h6 0 0 (by decide) (by decide)) (u := []) (rest := []) (.inl ⟨rfl, rfl⟩) (by simpa [joinWith] using hr)
  have hbeg := (h5 (lineSource c) (by simp)).2
  have hdrop : dropSpaces 3 (' ' :: lineSource c) = lineSource c := by
    obtain ⟨d, t, hdt, hw⟩ := hbeg
    rw [hdt]
    have : d ≠ ' ' := by rintro rfl; exact absurd hw (by decide)
    show dropSpaces 2 (d :: t) = d :: t
    unfold dropSpaces
    split
    · rename_i h; simp at h; exact absurd h.1 this
    · rfl
  have hlb : ']' ∉ l := by
    intro hm
    have := List.all_eq_true.1 h3 _ hm
    simp at this
  refine ⟨.footnoteDefinition l [.paragraph is], by simp [keyBlock, keyBlocks, hsq], ?_⟩
  have := C65_footnote_definition (x := x) hp.all.customOk hp.footnoteDefinition h1 (by simpa using h2) hlb
    (first := ' ' :: lineSource c) (oneLine_cons.2 ⟨by decide, hol⟩) (by
      rw [hdrop]
      obtain ⟨d, t, hdt, _⟩ := hbeg
      rw [hdt]; simp) he .nil hnf (d := ⟨[.paragraph is]⟩) (by
      rw [hdrop]
      simpa [indentedLines, joinWith, parseMarkdown_nil] using hpar)
  rw [← this]
  simp [tailText]

/-! ## Tables -/

theorem pad_spaces (a : Alignment) (w : Nat) (c : Str) :
    ∃ i j, pad a w c = List.replicate i ' ' ++ (c ++ List.replicate j ' ') := by
  cases a with
  | none => exact ⟨0, _, by simp [pad]; rfl⟩
  | left => exact ⟨0, _, by simp [pad]; rfl⟩
  | right => exact ⟨_, 0, by simp [pad]; rfl⟩
  | center => exact ⟨_, _, by simp only [pad, List.append_assoc]; rfl⟩

theorem trim_padded {s : Str} (h1 : s.head?.all (!isWs ·) = true) (h2 : s.getLast?.all (!isWs ·) = true) (i j : Nat) :
    trim (List.replicate i ' ' ++ (s ++ List.replicate j ' ')) = s := by
  have hd : ∀ (i : Nat) (t : Str), (List.replicate i ' ' ++ t).dropWhile isWs = t.dropWhile isWs := by
    intro i t
    rw [List.dropWhile_append_of_pos]
    intro c hc; rw [List.eq_of_mem_replicate hc]; decide
  unfold trim trimEnd trimStart
  rw [hd]
  cases s with
  | nil =>
    have := hd j []
    simp only [List.append_nil] at this
    rw [List.nil_append, this]; rfl
  | cons c s =>
    have hc : isWs c = false := by simpa using h1
    rw [List.cons_append, List.dropWhile_cons_of_neg (by simp [hc]), ← List.cons_append, List.reverse_append,
      List.reverse_replicate, hd]
    cases hr : (c :: s).reverse with
    | nil => simp at hr
    | cons d r =>
      have hl : (c :: s).getLast? = some d := by
        rw [List.getLast?_eq_head?_reverse, hr]; rfl
      rw [hl] at h2
      have hd' : isWs d = false := by simpa using h2
      rw [List.dropWhile_cons_of_neg (by simp [hd']), ← hr, List.reverse_reverse]

theorem cellText_self {s : Str} (h : ∀ c ∈ s, c ∉ cs!"|\\\r\n") : CellText s s := by
  induction s with
  | nil => exact .nil
  | cons c s ih => exact .chr (h c (by simp)) (ih fun d hd => h d (by simp [hd]))

/-- A cell between spaces. -/
def wrapCell (c : Str) : Str := ' ' :: (c ++ [' '])

theorem row_wrap {c : Str} {cells : List Str} (k : Nat) :
    List.replicate k ' ' ++ row (c :: cells) = rowText k ((c :: cells).map wrapCell) true := by
  have key : ∀ (cells : List Str) (c : Str),
      ' ' :: (joinWith cs!" | " (c :: cells) ++ [' ']) = joinWith ['|'] ((c :: cells).map wrapCell) := by
    intro cells
    induction cells with
    | nil => intro c; simp [joinWith, wrapCell]
    | cons d cells ih =>
      intro c
      rw [List.map_cons, List.map_cons, joinWith, joinWith, ← List.map_cons, ← ih d]
      simp [wrapCell]
  unfold rowText
  rw [← key]
  simp [row]

theorem cells_back {r : List (List Inline)} (h : r.all (fitsCell (isPunctuation x)) = true) (f : Nat → Alignment) (g : Nat → Nat) :
    ∃ is, Cells x cfg.entities (((r.map lineSource).mapIdx fun i c => pad (f i) (g i) c).map wrapCell) is ∧
      is.map keyInlines = r.map keyInlines := by
  induction r generalizing f g with
  | nil => exact ⟨[], .nil, rfl⟩
  | cons c r ih =>
    simp only [List.all_cons, Bool.and_eq_true] at h
    obtain ⟨is, h1, h2⟩ := ih h.2 (fun i => f (i + 1)) (fun i => g (i + 1))
    have hc := h.1
    simp only [fitsCell, Bool.and_eq_true] at hc
    obtain ⟨⟨⟨g1, g2⟩, g3⟩, g4⟩ := hc
    obtain ⟨ic, hr, hsq⟩ := line_reads g1
    obtain ⟨i, j, hij⟩ := pad_spaces (f 0) (g 0) (lineSource c)
    refine ⟨ic :: is, ?_, by simp [hsq, h2]⟩
    rw [List.map_cons, List.mapIdx_cons, List.map_cons]
    refine .cons ⟨by simp [wrapCell], _, cellText_self ?_, ?_⟩ h1
    · intro d hd
      rw [hij] at hd
      have hol := (clear_oneLine _).2 c g1
      have hbad := List.all_eq_true.1 g2
      simp [wrapCell] at hd
      have hsp : ' ' ∉ cs!"|\\\r\n" := by decide
      rcases hd with rfl | ⟨_, rfl⟩ | hd | ⟨_, rfl⟩ | rfl
      · exact hsp
      · exact hsp
      · have q1 := hol d hd
        have q2 := hbad d hd
        simp at q2
        simp [q1, q2]
      · exact hsp
      · exact hsp
    · rw [hij]
      have e : wrapCell (List.replicate i ' ' ++ (lineSource c ++ List.replicate j ' ')) =
          List.replicate (i + 1) ' ' ++ (lineSource c ++ List.replicate (j + 1) ' ') := by
        rw [List.replicate_succ, List.replicate_succ' (n := j)]
        simp [wrapCell]
      rw [e, trim_padded g3 g4]
      exact hr

theorem le_foldr_max (l : List Nat) (a : Nat) : a ≤ l.foldr max a := by
  induction l with
  | nil => exact Nat.le_refl _
  | cons b l ih => exact Nat.le_trans ih (Nat.le_max_right _ _)

theorem delimiter_back {a : Alignment} {w : Nat} (ha : a ≠ .left) (hw : need a ≤ w) :
    AlignCell a (wrapCell (delimiter a w)) := by
  have hb : ∀ c ∈ [' '], c = ' ' ∨ c = '\t' := by simp
  refine ⟨[' '], delimiter a w, [' '], hb, ?_, hb, rfl⟩
  cases a with
  | left => exact absurd rfl ha
  | none => exact .none hw
  | right =>
    have : 2 ≤ w := hw
    have : 0 < w - 1 := by omega
    simpa [delimiter] using AlignMark.right this
  | center =>
    have : 3 ≤ w := hw
    have : 0 < w - 2 := by omega
    simpa [delimiter] using AlignMark.center this

theorem delimiters_back {al : List Alignment} (h : al.all (· != .left) = true) (g : Nat → Alignment → Nat) (hg : ∀ i a, al[i]? = some a → need a ≤ g i a) :
    AlignCells ((al.mapIdx fun i a => delimiter a (g i a)).map wrapCell) al := by
  induction al generalizing g with
  | nil => exact .nil
  | cons a al ih =>
    simp only [List.all_cons, Bool.and_eq_true] at h
    rw [List.mapIdx_cons, List.map_cons]
    exact .cons (delimiter_back (by simpa using h.1) (hg 0 a rfl)) (ih h.2 (fun i => g (i + 1)) fun i a hi => hg (i + 1) a (by simpa using hi))

theorem cells_length {l : List Str} {r : List (List Inline)} (h : Cells x cfg.entities l r) : l.length = r.length := by
  induction h with
  | nil => rfl
  | cons _ _ ih => simp [ih]

theorem table_back (hp : EveryParse cfg) {rows : List (List (List Inline))} {al : List Alignment}
    (hf : fitsBlock (isPunctuation x) y item (.table rows al) p = true)
    (hc : CanonB y (.table rows al) (l0 :: ls))
    (hs : Shown item p ls ls') (ha : After y p (.table rows al) u rest) :
    ∃ b', keyBlock b' = keyBlock (.table rows al) ∧
      parseMarkdown x cfg (List.replicate p.first ' ' ++ (l0 ++ tailText ls' u)) =
        (parseMarkdown x cfg rest).map (fun d => ⟨b' :: d.blocks⟩) := by
  have hnr : NotRow rest := fun k t _ => ha.not_mark (a := '|') (by decide) k t
  obtain ⟨e, he, rfl⟩ := ha.lineEnd
  obtain ⟨m0, ms, hL, hshape⟩ := (shape (isPunctuation x) y).1 (.table rows al) item p _ hf hc
  cases hL
  simp only [fitsBlock, Bool.and_eq_true, decide_eq_true_eq] at hf
  simp only [CanonB] at hc
  obtain ⟨⟨⟨⟨⟨⟨⟨h1, h2⟩, h3⟩, h4⟩, h5⟩, h6⟩, h7⟩, h8⟩ := hf
  obtain ⟨r0, rs, rfl⟩ := List.exists_cons_of_ne_nil (l := rows) (by simpa using h4)
  have hlen : ∀ r ∈ r0 :: rs, r.length = al.length := by
    intro r hr
    have := List.all_eq_true.1 h7 r hr
    simpa using this
  have hne : al ≠ [] := by simpa using h5
  have hvis : ∀ l ∈ l0 :: ls, ∃ c ∈ l, c ≠ ' ' := by
    rw [hc]
    intro l hl
    obtain ⟨t, rfl⟩ := (table_firm (al := al) (by
      intro r hr c hc
      obtain ⟨r', hr', rfl⟩ := List.mem_map.1 hr
      obtain ⟨c', hc', rfl⟩ := List.mem_map.1 hc
      have := List.all_eq_true.1 (List.all_eq_true.1 h8 r' hr') c' hc'
      simp only [fitsCell, Bool.and_eq_true] at this
      exact (clear_oneLine _).2 c' this.1.1.1) l hl).2
    exact ⟨'|', by simp, by decide⟩
  obtain rfl := hs.of_visible fun l hl => hvis l (by simp [hl])
  simp only [List.map_cons, tableLines] at hc
  generalize hwd : (fun i => columnWidth (r0.map lineSource :: rs.map (·.map lineSource)) (al[i]?.getD .none) i) = width at hc
  have hwd' : ∀ i, columnWidth (r0.map lineSource :: rs.map (·.map lineSource)) (al[i]?.getD .none) i = width i := by
    intro i; rw [← hwd]
  simp only [hwd'] at hc
  cases hc
  -- a row as cells
  have hrow : ∀ r ∈ r0 :: rs, ∀ k, ∃ cells is, List.replicate k ' ' ++
      row ((r.map lineSource).mapIdx fun i c => pad (al[i]?.getD .none) (width i) c) = rowText k cells true ∧
      cells ≠ [] ∧ Cells x cfg.entities cells is ∧ is.map keyInlines = r.map keyInlines ∧ cells.length = al.length := by
    intro r hr k
    obtain ⟨is, hcs, hsq⟩ := cells_back (List.all_eq_true.1 h8 r hr) (fun i => al[i]?.getD .none) width
    have hl : (((r.map lineSource).mapIdx fun i c => pad (al[i]?.getD .none) (width i) c).map wrapCell).length = al.length := by
      simp [hlen r hr]
    obtain ⟨c, cs, hcc⟩ := List.exists_cons_of_ne_nil (l := (r.map lineSource).mapIdx fun i c => pad (al[i]?.getD .none) (width i) c) (by
      intro h
      rw [h] at hl
      exact hne (List.eq_nil_of_length_eq_zero hl.symm))
    refine ⟨_, is, ?_, ?_, hcs, hsq, hl⟩
    · rw [hcc]; exact row_wrap k
    · rw [hcc]; simp
  obtain ⟨hcells, his, hh1, hh2, hh3, hh4, hh5⟩ := hrow r0 (by simp) p.first
  -- the delimiter row
  have hdel : List.replicate p.others ' ' ++ row (al.mapIdx fun i a => delimiter a (width i)) =
      rowText p.others ((al.mapIdx fun i a => delimiter a (width i)).map wrapCell) true := by
    obtain ⟨a, al', rfl⟩ := List.exists_cons_of_ne_nil hne
    rw [List.mapIdx_cons]; exact row_wrap _
  have hal := delimiters_back h6 (fun i a => width i) (by
    intro i a hi
    rw [← hwd' i, hi]
    exact le_foldr_max _ _)
  -- the body
  have hbody : ∀ rs' : List (List (List Inline)), (∀ r ∈ rs', r ∈ r0 :: rs) → ∃ e' s isr,
      tailText ((rs'.map (fun r => row ((r.map lineSource).mapIdx fun i c => pad (al[i]?.getD .none) (width i) c))).map
        (List.replicate p.others ' ' ++ ·)) (e ++ rest) = e' ++ s ∧ LineEnd e' s ∧ Rows x cfg.entities rest s isr ∧
      isr.map (·.map keyInlines) = rs'.map (·.map keyInlines) ∧ ∀ r ∈ isr, r.length = al.length := by
    intro rs'
    induction rs' with
    | nil => intro _; exact ⟨e, rest, [], rfl, he, .nil, rfl, by simp⟩
    | cons r rs' ih =>
      intro hm
      obtain ⟨e', s, isr, i1, i2, i3, i4, i5⟩ := ih fun r hr => hm r (by simp [hr])
      obtain ⟨cells, is, j1, j2, j3, j4, j5⟩ := hrow r (hm r (by simp)) p.others
      refine ⟨['\n'], _, is :: isr, rfl, .inl (.inl rfl), ?_, by simp [i4, j4], ?_⟩
      · have := Rows.cons (closed := true) h3 j2 j3 i2 i3
        rw [← j1, ← i1] at this
        exact this
      · intro r' hr'
        rcases List.mem_cons.1 hr' with rfl | hr'
        · rw [← cells_length j3, j5]
        · exact i5 r' hr'
  obtain ⟨e', s, isr, i1, i2, i3, i4, i5⟩ := hbody rs (by simp +contextual)
  have hlenh : his.length = al.length := by rw [← cells_length hh3, hh5]
  have := C63_table (x := x) hp.all hp.table (closed := true) (closed' := true) (nl := ['\n']) h2 h3 hh2 hh3 (.inl rfl) hal
    (by rw [hh5]; simp) i2 i3 hnr
  have hfit : isr.map (fitted his.length) = isr := by
    have : ∀ r ∈ isr, fitted his.length r = r := by
      intro r hr
      unfold fitted
      rw [List.take_append_of_le_length (by rw [i5 r hr, hlenh]; exact Nat.le_refl _), List.take_of_length_le (by rw [i5 r hr, hlenh]; exact Nat.le_refl _)]
    exact (List.map_congr_left this).trans (List.map_id _)
  rw [hfit] at this
  refine ⟨.table (his :: isr) al, by simp [keyBlock, hh4, i4], ?_⟩
  rw [← this, ← hh1, ← hdel, ← i1]
  simp [tailText, Function.comp_def]

end Spec
end Md
end Verif
