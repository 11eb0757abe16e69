import Verif.RoundTripParse
/-!
# Lists are read back, and the whole document
-/
set_option linter.unusedVariables false
set_option linter.unusedSimpArgs false
namespace Verif
namespace Md
namespace Spec
open Nom

variable {x : PExt} {cfg : PConfig} {y : Style} {item : Bool} {p : Place} {l0 : Str} {ls ls' : List Str} {u rest : Str}

/-- The kind of the list that begins with the `i`-th item. -/
def kindAt : ListKind → Nat → ListKind
  | .bullet b, _ => .bullet b
  | .ordered s, i => .ordered (s + i)

theorem hexVal_digit {c : Char} (h : isDigit c = true) : hexVal c = c.toNat - '0'.toNat := by
  unfold hexVal; rw [if_pos h]; rfl

theorem numVal_toDigits (n : Nat) : numVal 10 (Nat.toDigits 10 n) = n := by
  have key : ∀ (l : Str) (v : Nat), (∀ c ∈ l, isDigit c = true) →
      l.foldl (fun v c => 10 * v + hexVal c) v = Nat.ofDigitChars 10 l v := by
    intro l
    induction l with
    | nil => intro v _; rfl
    | cons c l ih =>
      intro v h
      simp only [Nat.ofDigitChars, List.foldl_cons]
      rw [hexVal_digit (h c (by simp))]
      exact ih _ fun d hd => h d (by simp [hd])
  unfold numVal
  rw [key _ _ fun c hc => toDigits_digit hc]
  exact Nat.ofDigitChars_ten_toDigits

theorem marker_back (k : ListKind) (i : Nat) (h : (match k with | .bullet _ => true | .ordered s => decide (s + i < 2 ^ 64)) = true) :
    Marker (kindAt k i) (marker k i) := by
  cases k with
  | bullet b => cases b <;> constructor
  | ordered s =>
    simp only [decide_eq_true_eq] at h
    have := Marker.ordered (ds := Nat.toDigits 10 (s + i)) (d := '.') Nat.toDigits_ne_nil (fun c hc => toDigits_digit hc)
      (by rw [numVal_toDigits]; exact h) (.inl rfl)
    rw [numVal_toDigits] at this
    exact this

theorem digits_mono {a b : Nat} (h : a ≤ b) : (Nat.toDigits 10 a).length ≤ (Nat.toDigits 10 b).length := by
  have h0 : 0 < (Nat.toDigits 10 b).length := List.length_pos_iff.2 Nat.toDigits_ne_nil
  rw [Nat.length_toDigits_le_iff (by decide) h0]
  have := (Nat.length_toDigits_le_iff (b := 10) (n := b) (by decide) h0).1 (Nat.le_refl _)
  omega

theorem marker_length (k : ListKind) {n i : Nat} (h : i < n) :
    (marker k i).length + 1 + y.spaces ≤ contentIndent y.spaces k n := by
  cases k with
  | bullet b => cases b <;> simp [marker, contentIndent] <;> omega
  | ordered s =>
    have := digits_mono (a := s + i) (b := s + n - 1) (by omega)
    simp [marker, contentIndent]
    omega

/-- What follows a list. -/
def EndItems (y : Style) (p : Place) (k : ListKind) (n : Nat) (u rest : Str) : Prop :=
  (u = [] ∧ rest = []) ∨
  ∃ r j c t, u = '\n' :: rest ∧ rest = List.replicate r ' ' ++ '\n' :: (List.replicate j ' ' ++ c :: t) ∧
    isWs c = false ∧ r ≤ itemColumn y k (if n = 1 then p.first else p.others) (n - 1) ∧
    j < itemColumn y k (if n = 1 then p.first else p.others) (n - 1)

theorem noItem_blank {r : Nat} {V : Str} : NoItem (List.replicate r ' ' ++ '\n' :: V) := by
  intro k m kind t hk hm e
  obtain ⟨c, m, rfl, hc⟩ := hm.head
  have := spaces_cancel (by decide) (by rintro rfl; exact hc (by decide)) e
  rw [← this.2.1] at hc
  exact absurd (by decide) hc

/-- What the content of an item is read as. -/
def ItemBack (x : PExt) (cfg : PConfig) (y : Style) (i : ListItem) : Prop :=
  ∀ (p : Place) M cs, p.first = 0 → fitsItem (isPunctuation x) y i p = true → CanonItem y i M →
    Shown true p (M.drop 1) cs →
    ∃ bs, keyBlocks bs = keyBlocks i.blocks ∧ parseMarkdown x cfg (M.headD [] ++ tailText cs []) = some ⟨bs⟩

theorem item_back {t : Option TaskState} {b : List Block} (ih : BlocksBack x cfg y b) : ItemBack x cfg y (.mk t b) := by
  intro p M cs hp hf hc hs
  simp only [fitsItem, Bool.and_eq_true] at hf
  simp only [CanonItem] at hc
  by_cases hb : b = []
  · subst hb
    simp only [CanonL] at hc
    subst hc
    cases hs
    exact ⟨[], rfl, parseMarkdown_nil⟩
  · obtain ⟨m0, ms, rfl, _⟩ := (shape (isPunctuation x) y).2.2.1 b true p M hb hf.2 hc
    obtain ⟨bs, h1, h2⟩ := ih true p m0 ms cs (by omega) hb hf.2 hc hs
    refine ⟨bs, h1, ?_⟩
    rw [hp] at h2
    simpa using h2

theorem visible_of {c : Char} {t : Str} (hw : isWs c = false) : Visible (c :: t) := by
  refine ⟨c, by simp, ?_⟩
  cases hsp : isSpace c with
  | false => rfl
  | true =>
    simp [isSpace] at hsp
    rcases hsp with rfl | rfl <;> exact absurd hw (by decide)

/-- The first line of an item. -/
theorem item_start {it : ListItem} {k : ListKind} {i fi : Nat} {M : List Str} {p' : Place}
    (hm : Marker (kindAt k i) (marker k i)) (hfi : fi + y.spaces ≤ 3)
    (hf : fitsItem (isPunctuation x) y it p' = true) (hc : CanonItem y it M) :
    ItemStart (kindAt k i) (List.replicate fi ' ' ++ itemText y.spaces k i it.task (M.headD []))
      (itemColumn y k fi i) it.task (M.headD []) := by
  obtain ⟨t, b⟩ := it
  simp only [fitsItem, Bool.and_eq_true] at hf
  simp only [CanonItem] at hc
  obtain ⟨⟨f1, f2⟩, f3⟩ := hf
  have hho : OneLine (M.headD []) := by
    by_cases hb : b = []
    · subst hb; simp only [CanonL] at hc; subst hc; exact oneLine_nil
    · obtain ⟨m0, ms, rfl, hsh⟩ := (shape (isPunctuation x) y).2.2.1 b true p' M hb f3 hc
      exact hsh.oneLine m0 (by simp)
  have e : ∀ w, List.replicate fi ' ' ++ itemText y.spaces k i t w =
      List.replicate (fi + y.spaces) ' ' ++ (marker k i ++ (List.replicate 1 ' ' ++ (taskBox t ++ w))) := by
    intro w
    rw [← List.replicate_append_replicate]
    simp [itemText, -List.replicate_append_replicate]
  show ItemStart _ (List.replicate fi ' ' ++ itemText y.spaces k i t (M.headD [])) _ t _
  rw [e]
  cases t with
  | some t =>
    have key : ∀ b, Box t b → taskBox (some t) = b ++ [' '] → ItemStart (kindAt k i)
        (List.replicate (fi + y.spaces) ' ' ++ (marker k i ++ (List.replicate 1 ' ' ++ (taskBox (some t) ++ M.headD []))))
        (itemColumn y k fi i) (some t) (M.headD []) := by
      intro b hb hbox
      have := ItemStart.task (n := 1) hfi hm (by decide) (by decide) hb hho
      rw [hbox]
      simpa [itemColumn] using this
    cases t with
    | complete => exact key cs!"[X]" .X rfl
    | incomplete => exact key cs!"[ ]" .space rfl
  | none =>
    by_cases hb : b = []
    · subst hb; simp only [CanonL] at hc; subst hc
      have := ItemStart.empty (b := [' ']) hfi hm (by intro c hc; simp at hc; exact .inl hc)
      simpa [itemColumn, taskBox] using this
    · obtain ⟨m0, ms, rfl, hsh⟩ := (shape (isPunctuation x) y).2.2.1 b true p' M hb f3 hc
      have hcf : codeFirst b = false := by
        cases b with
        | nil => rfl
        | cons a b =>
          cases a with
          | codeBlock k t =>
            cases k with
            | fenced => rfl
            | indented => simp [fitsBlocks, fitsBlock] at f3
          | _ => rfl
      obtain ⟨j, c, t, hm0, hw, hj, _, hbox⟩ := hsh.opens hcf
      have hj0 : j = 0 := by
        split at hj
        · rename_i hl; rw [hl] at f1; simp at f1; omega
        · omega
      subst hj0
      simp at hm0
      subst hm0
      have hcs : c ≠ ' ' := by rintro rfl; exact absurd hw (by decide)
      have := ItemStart.text (n := 1) (first := c :: t) hfi hm (by decide) (by decide) (.inr (by simpa using hcs)) hho
        (visible_of hw) (hbox (by simpa using f2))
      simpa [itemColumn, taskBox] using this

theorem sameKind_at (k : ListKind) (i j : Nat) : SameKind (kindAt k i) (kindAt k j) := by
  cases k with
  | bullet b => exact rfl
  | ordered s => exact trivial

/-- What the printed items of a list are read as. -/
def ItemsBack (x : PExt) (cfg : PConfig) (y : Style) (items : List ListItem) : Prop :=
  ∀ item k n i (p : Place) l0 ls ls' u rest, items ≠ [] → n = i + items.length → p.first ≤ p.others →
    p.others + y.spaces ≤ 3 → fitsItems (isPunctuation x) y k n i items p = true →
    CanonItems y k n i items (l0 :: ls) → Shown item p ls ls' → EndItems y p k n u rest →
    ∃ items', keyItems items' = keyItems items ∧
      Items x cfg rest (List.replicate (if i = 0 then p.first else p.others) ' ' ++ (l0 ++ tailText ls' u)) (kindAt k i) items'

theorem items_nil : ItemsBack x cfg y [] := by
  intro item k n i p l0 ls ls' u rest h; exact absurd rfl h

theorem items_cons {it : ListItem} {l : List ListItem} (hi : ItemBack x cfg y it) (hl : ItemsBack x cfg y l) :
    ItemsBack x cfg y (it :: l) := by
  intro item k n i p l0 ls ls' u rest _ hn hpp hsp hf hc hs hend
  simp only [fitsItems, Bool.and_eq_true] at hf
  obtain ⟨⟨⟨f1, f2⟩, f3⟩, f4⟩ := hf
  simp only [CanonItems] at hc
  obtain ⟨M, R, c1, c2, hL⟩ := hc
  injection hL with e1 e2
  subst e1; subst e2
  simp only [List.length_cons] at hn
  have hin : i < n := by omega
  have hm := marker_back k i f1
  generalize hfi : (if i = 0 then p.first else p.others) = fi at *
  have hfile : fi ≤ p.others := by rw [← hfi]; split <;> omega
  have hst := item_start (fi := fi) hm (by omega) f2 c1
  have hml := marker_length (y := y) k hin
  have hplace : itemPlace y p k n i = ⟨0, p.others + contentIndent y.spaces k n - itemColumn y k fi i,
      if p.others + contentIndent y.spaces k n - itemColumn y k fi i = 0 then itemColumn y k fi i
        else p.others + contentIndent y.spaces k n - itemColumn y k fi i⟩ := by
    unfold itemPlace; rw [hfi]
  have htail : Tail (M.drop 1) := by
    rcases (shape (isPunctuation x) y).2.1 it _ M f2 c1 with rfl | ⟨_, _, rfl, _, ht⟩
    · exact .nil
    · exact ht
  obtain ⟨A, B, rfl, s1, s2⟩ := hs.append_inv
  have hci : 0 < contentIndent y.spaces k n := by omega
  have hlines : ∀ {e rest : Str}, LineEnd e rest → ∃ e' S cs d, tailText A (e ++ rest) = e' ++ S ∧ LineEnd e' S ∧
      ItemLines (kindAt k i) (itemColumn y k fi i) rest S cs ∧
      parseMarkdown x cfg (joinWith ['\n'] (M.headD [] :: cs)) = some ⟨d⟩ ∧ keyBlocks d = keyBlocks it.blocks := by
    intro e rest he
    obtain ⟨e', S, cs, cs0, g1, g2, g3, g4, g5⟩ := item_lines (kind := kindAt k i) (p := p) (p' := itemPlace y p k n i) (item := item) hci
      (col := itemColumn y k fi i) (by unfold itemColumn; omega) (by rw [hplace]) (by
        rw [hplace]; intro h; simp only at h ⊢; rw [if_pos h]; exact Nat.le_refl _) htail s1 he
    obtain ⟨bs, q1, q2⟩ := hi _ M cs0 (by rw [hplace]) f2 c1 g4
    exact ⟨e', S, cs, bs, g1, g2, g3, by rw [g5, q2], q1⟩
  cases l with
  | nil =>
    simp only [CanonItems] at c2
    subst c2
    cases s2
    have hcol : itemColumn y k (if n = 1 then p.first else p.others) (n - 1) = itemColumn y k fi i := by
      have : n - 1 = i := by simp at hn; omega
      rw [this, ← hfi]
      have : n = 1 ↔ i = 0 := by simp at hn; omega
      simp [this]
    have he : ∃ e, LineEnd e rest ∧ u = e ++ rest := by
      rcases hend with ⟨rfl, rfl⟩ | ⟨r, j, c, t, rfl, _⟩
      · exact ⟨[], .inr ⟨rfl, rfl⟩, rfl⟩
      · exact ⟨['\n'], .inl (.inl rfl), rfl⟩
    obtain ⟨e, he, rfl⟩ := he
    obtain ⟨e', S, cs, d, g1, g2, g3, g4, g5⟩ := hlines he
    refine ⟨[.mk it.task d], ?_, ?_⟩
    · obtain ⟨t, b⟩ := it
      simp only [keyItems, keyItem]
      rw [g5]; rfl
    · have hstop : ItemStop (kindAt k i) (itemColumn y k fi i) rest ∧ NoItem rest := by
        rcases hend with ⟨_, rfl⟩ | ⟨r, j, c, t, _, rfl, hw, hr, hj⟩
        · exact ⟨.eof, NoItem.nil⟩
        · rw [hcol] at hr hj
          refine ⟨?_, noItem_blank⟩
          have := ItemStop.blank (kind := kindAt k i) (nl := ['\n']) (b := []) (l := [c]) (s := t) hr (.inl rfl) .nil hj
            (by simp; rintro rfl; exact absurd hw (by decide)) (visible_of hw) (oneLine_cons.2 ⟨ws_newline hw, oneLine_nil⟩)
          simpa using this
      have := Items.last hst g2 g3 hstop.1 hstop.2 g4
      rw [← g1] at this
      simpa [tailText, List.append_assoc] using this
  | cons it2 l2 =>
    have hsh := (shape (isPunctuation x) y).2.2.2 (it2 :: l2) k n (i + 1) p R (by simp) f4 c2
    obtain ⟨r0, rs, rfl, hfirm, _, _⟩ := hsh
    obtain ⟨r0', rs', rfl, s3, s4⟩ := s2.cons_inv
    obtain rfl := s3.of_visible hfirm.visible
    obtain ⟨items', q1, q2⟩ := hl item k n (i + 1) p r0 rs rs' u rest (by simp) (by simp at hn ⊢; omega) hpp hsp f4 c2 s4 hend
    rw [if_neg (by omega)] at q2
    obtain ⟨e', S, cs, d, g1, g2, g3, g4, g5⟩ := hlines (e := ['\n'])
      (rest := List.replicate p.others ' ' ++ (r0 ++ tailText rs' u)) (.inl (.inl rfl))
    have hmk : MarkerAt (kindAt k i) (itemColumn y k fi i) (List.replicate p.others ' ' ++ (r0 ++ tailText rs' u)) := by
      simp only [CanonItems] at c2
      obtain ⟨M2, R2, _, _, hL2⟩ := c2
      injection hL2 with e3 e4
      simp only [fitsItems, Bool.and_eq_true] at f4
      refine ⟨p.others + y.spaces, marker k (i + 1), kindAt k (i + 1), cs!" " ++ taskBox it2.task ++ M2.headD [] ++ tailText rs' u,
        by simpa using f3, sameKind_at _ _ _, marker_back k (i + 1) f4.1.1.1, ?_⟩
      rw [e3, ← List.replicate_append_replicate]
      simp [itemText, -List.replicate_append_replicate]
    refine ⟨.mk it.task d :: items', ?_, ?_⟩
    · obtain ⟨t, b⟩ := it
      simp only [keyItems, keyItem] at q1 ⊢
      rw [q1, g5]; rfl
    · have := Items.cons hst g2 g3 hmk g4 q2
      rw [← g1] at this
      rw [tailText_append]
      simpa [tailText, List.append_assoc] using this

theorem list_back (hp : EveryParse cfg) {k : ListKind} {items : List ListItem} (ih : ItemsBack x cfg y items) :
    BlockBack x cfg y (.list k items) := by
  intro item p l0 ls ls' u rest hpp hf hc hs ha
  simp only [fitsBlock, Bool.and_eq_true, decide_eq_true_eq] at hf
  obtain ⟨⟨⟨f1, f2⟩, f3⟩, f4⟩ := hf
  simp only [CanonB] at hc
  have hend : EndItems y p k items.length u rest := by
    rcases ha with ⟨rfl, rfl⟩ | ⟨r, V, rfl, rfl, hr, hb, hv⟩
    · exact .inl ⟨rfl, rfl⟩
    · obtain ⟨j, c, t, rfl, hw, hj⟩ := hv rfl
      simp only [blockEnds, Bool.and_eq_true, decide_eq_true_eq] at hb
      exact .inr ⟨r, j, c, t, rfl, rfl, hw, by omega, by omega⟩
  obtain ⟨items', g1, g2⟩ := ih item k items.length 0 p l0 ls ls' u rest (by simpa using f2) (by simp) hpp f1 f4 hc hs hend
  refine ⟨.list k items', by simp [keyBlock, g1], ?_⟩
  have hk : kindAt k 0 = k := by cases k <;> rfl
  rw [hk, if_pos rfl] at g2
  exact C66_list hp.all.customOk hp.list g2

/-- Printed blocks are read back. -/
theorem blocks_back (x : PExt) (y : Style) (hp : EveryParse cfg) :
    (∀ b, BlockBack x cfg y b) ∧ (∀ i, ItemBack x cfg y i) ∧ (∀ l, BlocksBack x cfg y l) ∧ ∀ l, ItemsBack x cfg y l := by
  refine Block.ind ?_ ?_ ?_ ?_ ?_ ?_ ?_ ?_ ?_ ?_ ?_ ?_ ?_ ?_ ?_ ?_ ?_
  · exact fun c _ _ _ _ _ _ _ _ h1 h2 h3 h4 => paragraph_back hp h1 h2 h3 h4
  · exact fun k c _ _ _ _ _ _ _ _ h1 h2 h3 h4 => heading_back hp h1 h2 h3 h4
  · exact fun _ _ _ _ _ _ _ _ h1 h2 h3 h4 => thematic_back hp h1 h2 h3 h4
  · exact fun b ih => quote_back hp ih
  · exact fun k i ih => list_back hp ih
  · intro k t _ _ _ _ _ _ _ _ h1 h2 h3 h4
    cases k with
    | fenced info => exact fenced_back hp h1 h2 h3 h4
    | indented => exact indented_back hp h1 h2 h3 h4
  · exact fun s _ _ _ _ _ _ _ _ h1 h2 h3 h4 => html_back hp h1 h2 h3 h4
  · exact fun l d t _ _ _ _ _ _ _ _ h1 h2 h3 h4 => definition_back hp h1 h2 h3 h4
  · exact fun r a _ _ _ _ _ _ _ _ h1 h2 h3 h4 => table_back hp h1 h2 h3 h4
  · exact fun l b _ _ _ _ _ _ _ _ _ h1 h2 h3 h4 => footnote_back hp h1 h2 h3 h4
  · exact fun t b ih => alert_back hp ih
  · intro _ _ _ _ _ _ _ _ h1
    simp [fitsBlock] at h1
  · exact fun t b ih => item_back ih
  · exact blocks_nil
  · exact fun b l h1 h2 => blocks_cons hp h1 h2
  · exact items_nil
  · exact fun i l h1 h2 => items_cons h1 h2

end Spec
end Md
end Verif
