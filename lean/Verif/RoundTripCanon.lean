import Verif.RoundTripText
/-!
# The lines of a printed document

`CanonB y b L`: the text of the block `b` consists of the lines `L`, before containers indent or
quote them.  `Shape` is what every such list of lines has in common.
-/
set_option linter.unusedVariables false
set_option linter.unusedSimpArgs false
namespace Verif
namespace Md
namespace Spec
open Nom

mutual
/-- The lines of a block. -/
def CanonB (y : Style) : Block → List Str → Prop
  | .paragraph c => fun L => ∃ s, Fill (inlinesToks y.digit c) s ∧ L = splitNl s
  | .heading (.atx n) c => fun L => L = [List.replicate n '#' ++ cs!" " ++ lineSource c]
  | .heading (.setext v) c => fun L => ∃ s, Fill (inlinesToks y.digit c) s ∧ L = splitNl s ++ [underline v]
  | .thematicBreak => fun L => L = [cs!"---"]
  | .blockQuote b => fun L => ∃ M, CanonL y b M ∧ L = M.map (cs!"> " ++ ·)
  | .list k items => fun L => CanonItems y k items.length 0 items L
  | .codeBlock (.fenced info) t => fun L => L = (cs!"```" ++ info.getD []) :: (splitNl t ++ [cs!"```"])
  | .codeBlock .indented t => fun L => L = (splitNl t).map (cs!"    " ++ ·)
  | .htmlBlock h => fun L => L = splitNl h
  | .empty => fun _ => False
  | .definition l d t => fun L => L = [cs!"[" ++ lineSource l ++ (cs!"]: " ++ d ++ title t)]
  | .table rows al => fun L => L = tableLines al (rows.map (·.map lineSource))
  | .footnoteDefinition l b => fun L => ∃ c, b = [.paragraph c] ∧ L = [cs!"[^" ++ l ++ cs!"]: " ++ lineSource c]
  | .githubAlert t b => fun L =>
    ∃ M, CanonL y b M ∧ L = (cs!"> [!" ++ alertName y.upper t ++ cs!"]") :: M.map alertLine
termination_by structural b => b
/-- The lines of blocks. -/
def CanonL (y : Style) : List Block → List Str → Prop
  | [] => fun L => L = []
  | b :: l => fun L => ∃ A R, CanonB y b A ∧ CanonL y l R ∧ L = A ++ (if l.isEmpty then [] else [] :: R)
termination_by structural l => l
/-- The lines of the blocks of an item. -/
def CanonItem (y : Style) : ListItem → List Str → Prop
  | .mk _ b => fun M => CanonL y b M
termination_by structural i => i
/-- The lines of the items of a list of `n` items from the `i`-th on. -/
def CanonItems (y : Style) (k : ListKind) (n i : Nat) : List ListItem → List Str → Prop
  | [] => fun L => L = []
  | it :: l => fun L => ∃ M R, CanonItem y it M ∧ CanonItems y k n (i + 1) l R ∧
      L = itemText y.spaces k i it.task (M.headD []) ::
        ((M.drop 1).map (List.replicate (contentIndent y.spaces k n) ' ' ++ ·) ++ R)
termination_by structural l => l
end

/-! ## Shape -/

/-- A line with something visible that is no thematic break, however it is indented. -/
def Firm (l : Str) : Prop :=
  OneLine l ∧ (∃ c ∈ l, isWs c = false) ∧ ∀ k, ¬ ThematicLine (List.replicate k ' ' ++ l)

/-- Firm lines, maybe with single lines of spaces between them. -/
inductive Tail : List Str → Prop
  | nil : Tail []
  | firm {l : Str} {ls : List Str} : Firm l → Tail ls → Tail (l :: ls)
  | blank {k : Nat} {l : Str} {ls : List Str} : Firm l → Tail ls → Tail (List.replicate k ' ' :: l :: ls)

theorem Tail.append {a b : List Str} (ha : Tail a) (hb : Tail b) : Tail (a ++ b) := by
  induction ha with
  | nil => exact hb
  | firm h _ ih => exact .firm h ih
  | blank h _ ih => exact .blank h ih

theorem Firm.indent (n : Nat) {l : Str} (h : Firm l) : Firm (List.replicate n ' ' ++ l) := by
  obtain ⟨h1, ⟨c, h2, h3⟩, h4⟩ := h
  refine ⟨oneLine_append.2 ⟨oneLine_spaces n, h1⟩, ⟨c, by simp [h2], h3⟩, fun k hk => ?_⟩
  rw [← List.append_assoc, List.replicate_append_replicate] at hk
  exact h4 _ hk

theorem Tail.indent (n : Nat) {ls : List Str} (h : Tail ls) : Tail (ls.map (List.replicate n ' ' ++ ·)) := by
  induction h with
  | nil => exact .nil
  | firm h _ ih => exact .firm (h.indent n) ih
  | @blank k _ _ h _ ih =>
    simp only [List.map_cons, List.replicate_append_replicate]
    exact .blank (h.indent n) ih

theorem Tail.of_firm {ls : List Str} (h : ∀ l ∈ ls, Firm l) : Tail ls := by
  induction ls with
  | nil => exact .nil
  | cons l ls ih => exact .firm (h l (by simp)) (ih fun m hm => h m (by simp [hm]))

theorem Tail.oneLine {ls : List Str} (h : Tail ls) : ∀ l ∈ ls, OneLine l := by
  induction h with
  | nil => simp
  | firm h _ ih =>
    intro m hm
    rcases List.mem_cons.1 hm with rfl | hm
    · exact h.1
    · exact ih m hm
  | @blank k _ _ h _ ih =>
    intro m hm
    rcases List.mem_cons.1 hm with rfl | hm
    · exact oneLine_spaces k
    rcases List.mem_cons.1 hm with rfl | hm
    · exact h.1
    · exact ih m hm

theorem Firm.not_ws {l : Str} (h : Firm l) : l.all isWs = false := by
  obtain ⟨_, ⟨c, h2, h3⟩, _⟩ := h
  cases ha : l.all isWs with
  | false => rfl
  | true => rw [List.all_eq_true.1 ha c h2] at h3; exact absurd h3 (by decide)

theorem Firm.ne {l : Str} (h : Firm l) : l ≠ [] := by
  obtain ⟨_, ⟨c, h2, h3⟩, _⟩ := h
  rintro rfl; simp at h2

theorem Tail.blanks {ls : List Str} (h : Tail ls) :
    ∀ l ∈ ls, l.all isWs = true → ∃ k, l = List.replicate k ' ' := by
  induction h with
  | nil => simp
  | firm h _ ih =>
    intro m hm
    rcases List.mem_cons.1 hm with rfl | hm
    · rw [h.not_ws]; simp
    · exact ih m hm
  | @blank k _ _ h _ ih =>
    intro m hm
    rcases List.mem_cons.1 hm with rfl | hm
    · exact fun _ => ⟨k, rfl⟩
    rcases List.mem_cons.1 hm with rfl | hm
    · rw [h.not_ws]; simp
    · exact ih m hm

theorem thematic_spaces {k : Nat} {c : Char} {t : Str} (hc : c ≠ ' ')
    (h : ThematicLine (List.replicate k ' ' ++ c :: t)) : ThematicLine (c :: t) := by
  obtain ⟨j, n, a, sp, h1, h2, h3, h4, e⟩ := h
  obtain ⟨n, rfl⟩ : ∃ m, n = m + 1 := ⟨n - 1, by omega⟩
  have ha : a ≠ ' ' := by rcases h3 with rfl | rfl | rfl <;> decide
  have key : ∀ (k j : Nat) (u v : Str), List.replicate k ' ' ++ c :: u = List.replicate j ' ' ++ a :: v →
      c :: u = a :: v := by
    intro k
    induction k with
    | zero =>
      intro j u v e
      cases j with
      | zero => simpa using e
      | succ j => simp [List.replicate_succ] at e; exact absurd e.1 hc
    | succ k ih =>
      intro j u v e
      cases j with
      | zero => simp [List.replicate_succ] at e; exact absurd e.1.symm ha
      | succ j => simp [List.replicate_succ] at e; exact ih j u v (by simpa using e)
  have := key k j t (List.replicate n a ++ sp) (by simpa [List.replicate_succ] using e)
  exact ⟨0, n + 1, a, sp, by omega, h2, h3, h4, by simpa [List.replicate_succ] using this⟩

theorem firm_of_head {c : Char} {t : Str} (ho : OneLine (c :: t)) (hw : isWs c = false) (hc : c ∉ cs!" *-_") :
    Firm (c :: t) :=
  ⟨ho, ⟨c, by simp, hw⟩, fun k hk =>
    not_thematic_head hc (thematic_spaces (by rintro rfl; exact hc (by decide)) hk)⟩

theorem textLines_not_thematic {ys : List (Nat × Str)} (h : TextLines ys) :
    ∀ y ∈ ys, ∀ k, ¬ ThematicLine (List.replicate k ' ' ++ y.2) := by
  have key : ∀ {l e s : Str}, LineEnd e s → TextStart (l ++ (e ++ s)) → l ≠ [] →
      ∀ k, ¬ ThematicLine (List.replicate k ' ' ++ l) := by
    intro l e s he ht hne k hk
    obtain ⟨c, t, rfl⟩ := List.exists_cons_of_ne_nil hne
    obtain ⟨c', t', h1, hm⟩ := ht.marks (x := PExt.ascii) (cfg := PConfig.default fun _ => none) (rec := failP)
    have hc : c ≠ ' ' := by
      have := hm.head
      simp at h1
      rintro rfl
      exact this (by rw [← h1.1]; decide)
    have := thematicBreakP_line (thematic_spaces hc hk) he
    rw [h1, hm.rule] at this
    exact absurd this (by simp)
  induction h with
  | @one k l _ _ ht =>
    intro y hy
    rw [List.mem_singleton] at hy
    subst hy
    refine key (e := []) (s := []) (.inr ⟨rfl, rfl⟩) ?_ ht.ne
    simpa using ht
  | @cons k l y ys h1 h2 ht h3 ih =>
    intro z hz
    rcases List.mem_cons.1 hz with rfl | hz
    · refine key (e := ['\n']) (s := indentedLines (y :: ys)) (.inl (.inl rfl)) (by simpa using ht) ?_
      rintro h
      simp only at h
      subst h
      obtain ⟨c, t, hct, hc⟩ := ht.head
      simp at hct
      exact hc (by rw [← hct.1]; decide)
    · exact ih z hz

/-- The lines of a printed paragraph are firm. -/
theorem Fill.firm {punct digit : Char → Bool} {c : List Inline} {s : Str} (h : Fill (inlinesToks digit c) s)
    (hc : clearInlines punct c = true) (hs : startsText (lineSource c) = true)
    (hb : breaksText (inlinesToks digit c) = true) :
    ∃ l ls, splitNl s = l :: ls ∧ s = joinWith ['\n'] (l :: ls) ∧ (∀ m ∈ l :: ls, Firm m ∧ Begins m) ∧
      ∀ k o, k ≤ 3 → o ≤ 3 → TextLines ((k, l) :: ls.map fun m => (o, m)) := by
  obtain ⟨l, ls, rfl, h1, h2⟩ := h.para hc hs hb
  have ht := textLines_not_thematic (h2 0 0 (by decide) (by decide))
  refine ⟨l, ls, splitNl_join (h1 l (by simp)).1 (fun m hm => (h1 m (by simp [hm])).1), rfl, ?_, h2⟩
  intro m hm
  refine ⟨⟨(h1 m hm).1, ?_, ?_⟩, (h1 m hm).2⟩
  · obtain ⟨c, t, rfl, hw⟩ := (h1 m hm).2
    exact ⟨c, by simp, hw⟩
  · rcases List.mem_cons.1 hm with rfl | hm
    · exact ht (0, m) (by simp)
    · exact ht (0, m) (by simp [hm])

/-- How the first line opens. -/
def Opens (y : Style) (bs : List Block) (l0 : Str) : Prop :=
  ∃ i c t, l0 = List.replicate i ' ' ++ c :: t ∧ isWs c = false ∧ (i ≤ if listFirst bs then y.spaces else 0) ∧
    (beginsWith [cs!"[!"] bs = false → ¬ cs!"[!" <+: c :: t) ∧
    (beginsWith [cs!"[x]", cs!"[X]", cs!"[ ]"] bs = false → NoBox (c :: t))

/-- What the lines of blocks have in common. -/
structure Shape (y : Style) (item : Bool) (p : Place) (bs : List Block) (l0 : Str) (ls : List Str) : Prop where
  oneLine : ∀ l ∈ l0 :: ls, OneLine l
  ne : l0 ≠ []
  last : p.others ≠ 0 → (l0 :: ls).getLast? ≠ some []
  body : item = true → Firm l0 ∧ Tail ls
  blanks : item = false → p.blank ≠ p.others → ∀ l ∈ l0 :: ls, l.all isWs = true → ∃ k, l = List.replicate k ' '
  opens : codeFirst bs = false → Opens y bs l0

theorem opens_of_head {y : Style} {bs : List Block} {c : Char} {t : Str} (hw : isWs c = false) (hc : c ≠ '[') :
    Opens y bs (c :: t) :=
  ⟨0, c, t, rfl, hw, by omega, fun _ h => by
    obtain ⟨u, h⟩ := h; simp at h; exact hc h.1.symm, fun _ => NoBox.of_head (by simpa using hc)⟩

/-- Only firm lines. -/
theorem Shape.of_firm {y : Style} {item : Bool} {p : Place} {bs : List Block} {l0 : Str} {ls : List Str}
    (h : ∀ l ∈ l0 :: ls, Firm l) (ho : Opens y bs l0) : Shape y item p bs l0 ls where
  oneLine l hl := (h l hl).1
  ne := (h l0 (by simp)).ne
  last _ e := (h _ (List.mem_of_getLast? e)).ne rfl
  body _ := ⟨h l0 (by simp), .of_firm fun l hl => h l (by simp [hl])⟩
  blanks _ _ l hl hw := by rw [(h l hl).not_ws] at hw; exact absurd hw (by decide)
  opens _ := ho

theorem prefix_spaced {w s : Str} (hw : OneLine w) (h : w <+: s) : w <+: spacedLines s := by
  obtain ⟨t, rfl⟩ := h
  rw [spacedLines_append, spacedLines_oneLine hw]
  exact List.prefix_append _ _

/-- How the text of a paragraph opens. -/
theorem opens_text {y : Style} {b : Block} {bs : List Block} {c : List Inline} {l : Str}
    (pre : ∀ w, OneLine w → w.getLast? ≠ some ' ' → w <+: l → w <+: lineSource c) (hl : Begins l)
    (hb : ∀ ws, beginsWith ws (b :: bs) = ws.any (·.isPrefixOf (lineSource c))) : Opens y (b :: bs) l := by
  obtain ⟨d, t, rfl, hw⟩ := hl
  have non : ∀ {w v : Str}, w.isPrefixOf v = false → ¬ w <+: v := by
    intro w v h hp
    rw [List.isPrefixOf_iff_prefix.2 hp] at h
    exact absurd h (by decide)
  refine ⟨0, d, t, rfl, hw, by omega, ?_, ?_⟩
  · intro h hp
    rw [hb] at h
    have := pre _ (by intro c hc; simp at hc; rcases hc with rfl | rfl <;> decide) (by decide) hp
    simp at h
    exact non h this
  · intro h t' b' r hbx hr he'
    rw [hb] at h
    have := pre b' (by unfold OneLine; cases hbx <;> decide) (by cases hbx <;> decide) ⟨r, he'.symm⟩
    simp at h
    cases hbx
    · exact non h.1 this
    · exact non h.2.1 this
    · exact non h.2.2 this

theorem splitNl_mem {t l : Str} (h : l ∈ splitNl t) : ∀ c ∈ l, c ≠ '\n' ∧ c ∈ t := by
  induction t generalizing l with
  | nil => simp [splitNl] at h; subst h; simp
  | cons d t ih =>
    rw [splitNl] at h
    split at h
    · rcases List.mem_cons.1 h with rfl | h
      · simp
      · intro c hc; exact ⟨(ih h c hc).1, by simp [(ih h c hc).2]⟩
    · rename_i hd
      have ⟨m, ms, hm⟩ := List.exists_cons_of_ne_nil (splitNl_ne t)
      rw [hm] at h ih
      rcases List.mem_cons.1 h with rfl | h
      · intro c hc
        rcases List.mem_cons.1 hc with rfl | hc
        · exact ⟨hd, by simp⟩
        · have := ih (l := m) (by simp) c hc
          exact ⟨this.1, by simp [this.2]⟩
      · intro c hc
        have := ih (l := l) (by simp [h]) c hc
        exact ⟨this.1, by simp [this.2]⟩

theorem splitNl_lines {t : Str} (h : t.contains '\r' = false) : ∀ l ∈ splitNl t, OneLine l := by
  intro l hl c hc
  have := splitNl_mem hl c hc
  refine ⟨this.1, ?_⟩
  rintro rfl
  simp at h
  exact h this.2

theorem join_splitNl (t : Str) : joinWith ['\n'] (splitNl t) = t := by
  induction t with
  | nil => rfl
  | cons d t ih =>
    rw [splitNl]
    have ⟨m, ms, hm⟩ := List.exists_cons_of_ne_nil (splitNl_ne t)
    rw [hm] at ih ⊢
    split
    · rename_i h; subst h
      rw [joinWith, ih]; rfl
    · simp only
      rw [joinWith_cons_sep] at ih ⊢
      rw [← ih]; rfl

theorem oneLine_join {sep : Str} {L : List Str} (hs : OneLine sep) (h : ∀ l ∈ L, OneLine l) :
    OneLine (joinWith sep L) := by
  cases L with
  | nil => exact oneLine_nil
  | cons l L =>
    rw [joinWith_cons_sep]
    refine oneLine_append.2 ⟨h l (by simp), ?_⟩
    intro c hc
    obtain ⟨m, hm, hc⟩ := List.mem_flatten.1 hc
    obtain ⟨m', hm', rfl⟩ := List.mem_map.1 hm
    exact (oneLine_append.2 ⟨hs, h m' (by simp [hm'])⟩) c hc

theorem oneLine_replicate {n : Nat} {a : Char} (h : a ≠ '\n' ∧ a ≠ '\r') : OneLine (List.replicate n a) := by
  intro c hc
  rw [List.eq_of_mem_replicate hc]
  exact h

theorem oneLine_pad {a : Alignment} {w : Nat} {c : Str} (h : OneLine c) : OneLine (pad a w c) := by
  have hs : ∀ n, OneLine (List.replicate n ' ') := oneLine_spaces
  cases a <;> simp only [pad, oneLine_append] <;> simp [h, hs]

theorem oneLine_delimiter {a : Alignment} {w : Nat} : OneLine (delimiter a w) := by
  have hs : ∀ n, OneLine (List.replicate n '-') := fun n => oneLine_replicate (by decide)
  have hc : OneLine cs!":" := by unfold OneLine; decide
  cases a <;> simp only [delimiter, oneLine_append] <;> simp [hs, hc]

theorem row_firm {cells : List Str} (h : ∀ c ∈ cells, OneLine c) : Firm (row cells) := by
  refine firm_of_head ?_ (by decide) (by decide)
  have : OneLine (row cells) := by
    unfold row
    simp only [oneLine_append]
    exact ⟨⟨by unfold OneLine; decide, oneLine_join (by unfold OneLine; decide) h⟩, by unfold OneLine; decide⟩
  exact this

theorem table_firm {al : List Alignment} {rows : List (List Str)} (h : ∀ r ∈ rows, ∀ c ∈ r, OneLine c) :
    ∀ l ∈ tableLines al rows, Firm l ∧ ∃ t, l = '|' :: t := by
  cases rows with
  | nil => simp [tableLines]
  | cons header body =>
    have key : ∀ r ∈ header :: body, ∀ (f : Nat → Alignment) (g : Nat → Nat),
        Firm (row (r.mapIdx fun i c => pad (f i) (g i) c)) := by
      intro r hr f g
      refine row_firm ?_
      intro c hc
      obtain ⟨i, hi, rfl⟩ := List.mem_mapIdx.1 hc
      exact oneLine_pad (h r hr _ (List.getElem_mem _))
    intro l hl
    simp only [tableLines, List.mem_cons, List.mem_map] at hl
    rcases hl with rfl | rfl | ⟨r, hr, rfl⟩
    · exact ⟨key header (by simp) _ _, _, rfl⟩
    · refine ⟨row_firm ?_, _, rfl⟩
      intro c hc
      obtain ⟨i, hi, rfl⟩ := List.mem_mapIdx.1 hc
      exact oneLine_delimiter
    · exact ⟨key r (by simp [hr]) _ _, _, rfl⟩

theorem quoteMark_firm {l : Str} (h : OneLine l) : Firm (cs!"> " ++ l) :=
  firm_of_head (oneLine_cons.2 ⟨by decide, oneLine_cons.2 ⟨by decide, h⟩⟩) (by decide) (by decide)

theorem alertLine_firm {l : Str} (h : OneLine l) : Firm (alertLine l) := by
  unfold alertLine
  split
  · exact firm_of_head (by unfold OneLine; decide) (by decide) (by decide)
  · exact quoteMark_firm h

theorem alertLine_head (l : Str) : ∃ t, alertLine l = '>' :: t := by
  unfold alertLine
  split
  · exact ⟨_, rfl⟩
  · exact ⟨_, rfl⟩

theorem isDigit_of {c : Char} (h : c.isDigit = true) : isDigit c = true := by
  simp only [Char.isDigit, Bool.and_eq_true, decide_eq_true_eq] at h
  simp only [isDigit, Bool.and_eq_true, decide_eq_true_eq]
  exact ⟨h.1, h.2⟩

theorem toDigits_digit {n : Nat} {c : Char} (h : c ∈ Nat.toDigits 10 n) : isDigit c = true :=
  isDigit_of (Nat.isDigit_of_mem_toDigits (by decide) (by decide) h)

theorem digit_oneLine {c : Char} (h : isDigit c = true) : c ≠ '\n' ∧ c ≠ '\r' := ws_newline (digit_visible h)

/-- The characters of a marker. -/
theorem marker_cases (k : ListKind) (i : Nat) :
    (∃ c, marker k i = [c] ∧ (c = '-' ∨ c = '*' ∨ c = '+')) ∨
    ∃ c t, marker k i = c :: t ∧ isDigit c = true ∧ OneLine t := by
  cases k with
  | bullet b => cases b <;> exact .inl ⟨_, rfl, by simp⟩
  | ordered s =>
    refine .inr ?_
    obtain ⟨c, t, h⟩ := List.exists_cons_of_ne_nil (Nat.toDigits_ne_nil (b := 10) (n := s + i))
    have hd : ∀ d ∈ c :: t, isDigit d = true := by
      intro d hd; rw [← h] at hd; exact toDigits_digit hd
    refine ⟨c, t ++ cs!".", by simp [marker, h], hd c (by simp), ?_⟩
    refine oneLine_append.2 ⟨fun d hm => digit_oneLine (hd d (by simp [hm])), by unfold OneLine; decide⟩

theorem taskBox_oneLine (t : Option TaskState) : OneLine (taskBox t) := by
  unfold OneLine
  cases t with
  | none => decide
  | some t => cases t <;> decide

/-- The first line of an item. -/
theorem itemText_firm (sp : Nat) (k : ListKind) (i : Nat) (task : Option TaskState) {m : Str} (hm : OneLine m) :
    Firm (itemText sp k i task m) ∧
      ∃ c t, itemText sp k i task m = List.replicate sp ' ' ++ c :: t ∧ isWs c = false ∧ c ≠ '[' := by
  have e : itemText sp k i task m = List.replicate sp ' ' ++ (marker k i ++ ' ' :: (taskBox task ++ m)) := by
    simp [itemText]
  have ho : OneLine (' ' :: (taskBox task ++ m)) :=
    oneLine_cons.2 ⟨by decide, oneLine_append.2 ⟨taskBox_oneLine task, hm⟩⟩
  rw [e]
  rcases marker_cases k i with ⟨c, h, hc⟩ | ⟨c, t, h, hc, ht⟩
  · rw [h]
    have hc' : isWs c = false ∧ c ≠ '[' ∧ c ≠ ' ' ∧ c ≠ '\n' ∧ c ≠ '\r' := by
      rcases hc with rfl | rfl | rfl <;> decide
    refine ⟨.indent sp ⟨oneLine_cons.2 ⟨hc'.2.2.2, ho⟩, ⟨c, by simp, hc'.1⟩, ?_⟩, c, _, rfl, hc'.1, hc'.2.1⟩
    intro n hn
    obtain ⟨k', n', a, spc, h1, h2, h3, h4, e'⟩ := thematic_spaces hc'.2.2.1 hn
    obtain ⟨n', rfl⟩ : ∃ j, n' = j + 2 := ⟨n' - 2, by omega⟩
    cases k' with
    | succ k' => simp [List.replicate_succ] at e'; exact hc'.2.2.1 e'.1
    | zero =>
      simp [List.replicate_succ] at e'
      rcases h3 with rfl | rfl | rfl <;> simp at e'
  · rw [h]
    have hv := digit_visible hc
    have hd := digit_mem hc
    have hnn : c ∉ cs!" *-_" ∧ c ≠ '[' := by
      have : ∀ c ∈ cs!"0123456789", c ∉ cs!" *-_" ∧ c ≠ '[' := by decide
      exact this c hd
    refine ⟨.indent sp (firm_of_head (oneLine_cons.2 ⟨ws_newline hv, oneLine_append.2 ⟨ht, ho⟩⟩) hv hnn.1),
      c, _, rfl, hv, hnn.2⟩

theorem Tail.last {l : Str} {ls : List Str} (hl : Firm l) (h : Tail ls) : (l :: ls).getLast? ≠ some [] := by
  induction h generalizing l with
  | nil => simpa using hl.ne
  | firm h _ ih => rw [List.getLast?_cons_cons]; exact ih h
  | blank h _ ih => rw [List.getLast?_cons_cons, List.getLast?_cons_cons]; exact ih h

theorem getLast_append_cons {α : Type} (a : List α) (b : α) (c : List α) :
    (a ++ b :: c).getLast? = (b :: c).getLast? := by
  rw [List.getLast?_append]
  cases h : (b :: c).getLast? with
  | none => simp at h
  | some _ => rfl

end Spec
end Md
end Verif
