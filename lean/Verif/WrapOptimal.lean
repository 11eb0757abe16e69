import Verif.PrinterFill
/-!
# C101: wrapped paragraphs take as few lines as possible

Greedy filling (C61) is optimal: no other way to put the unbreakable pieces of the paragraph on lines of the width takes
fewer lines.  So a wider page never takes more lines.
-/
set_option autoImplicit false
namespace Verif
namespace Md
open Spec

/-! ## Specification -/

/-- A way to put pieces on lines: the pieces are kept, in order, no line is without one, and a line with more than one
piece is not wider than `w`, with a blank between the pieces. -/
structure OnLines (w : Nat) (ps : List Str) (page : List (List Str)) : Prop where
  pieces : page.flatten = ps
  nonempty : ∀ line ∈ page, line ≠ []
  fits : ∀ line ∈ page, line.length = 1 ∨ (joinWith cs!" " line).length ≤ w

/-- The text of a page. -/
def pageText (page : List (List Str)) : Str := joinWith cs!"\n" (page.map (joinWith cs!" "))

/-! ## Proof -/

/-- The width of further pieces. -/
def more (l : List Str) : Nat := (l.map fun p => 1 + p.length).sum

theorem join_cons (sep p : Str) (l : List Str) : joinWith sep (p :: l) = p ++ l.flatMap (sep ++ ·) := by
  induction l generalizing p with
  | nil => simp [joinWith]
  | cons q l ih => rw [joinWith, ih]; simp

theorem length_join (p : Str) (l : List Str) : (joinWith cs!" " (p :: l)).length = p.length + more l := by
  rw [join_cons, List.length_append, more]
  congr 1
  induction l with
  | nil => rfl
  | cons q l ih =>
    simp only [List.flatMap_cons, List.length_append, List.map_cons, List.sum_cons, ih]
    rfl

/-- Greedy: the rest of the line that is `col` wide, and the further lines. -/
def greedy (w : Nat) : Nat → List Str → List Str × List (List Str)
  | _, [] => ([], [])
  | col, p :: ps =>
    if col + 1 + p.length ≤ w then (p :: (greedy w (col + 1 + p.length) ps).1, (greedy w (col + 1 + p.length) ps).2)
    else ([], (p :: (greedy w p.length ps).1) :: (greedy w p.length ps).2)

theorem greedy_flat (w : Nat) (ps : List Str) : ∀ col, (greedy w col ps).1 ++ (greedy w col ps).2.flatten = ps := by
  induction ps with
  | nil => intro col; rfl
  | cons p ps ih =>
    intro col
    simp only [greedy]
    split
    · simp [ih]
    · simp [ih]

theorem greedy_fits (w : Nat) (ps : List Str) : ∀ col,
    ((greedy w col ps).1 = [] ∨ col + more (greedy w col ps).1 ≤ w) ∧
    ∀ line ∈ (greedy w col ps).2, line ≠ [] ∧ (line.length = 1 ∨ (joinWith cs!" " line).length ≤ w) := by
  induction ps with
  | nil => intro col; exact ⟨.inl rfl, by simp [greedy]⟩
  | cons p ps ih =>
    intro col
    simp only [greedy]
    split
    · rename_i h
      refine ⟨.inr ?_, (ih _).2⟩
      simp only [more, List.map_cons, List.sum_cons]
      rcases (ih (col + 1 + p.length)).1 with e | e
      · rw [e]; simp; omega
      · simp only [more] at e; omega
    · refine ⟨.inl rfl, ?_⟩
      intro line hl
      rcases List.mem_cons.1 hl with rfl | hl
      · refine ⟨by simp, ?_⟩
        rcases (ih p.length).1 with e | e
        · rw [e]; exact .inl rfl
        · exact .inr (by rw [length_join]; exact e)
      · exact (ih _).2 line hl

/-- The number of lines after the first hardly depends on the column. -/
theorem greedy_column (w : Nat) (ps : List Str) :
    (∀ c c', (greedy w c ps).2.length ≤ (greedy w c' ps).2.length + 1) ∧
    ∀ c c', c ≤ c' → (greedy w c ps).2.length ≤ (greedy w c' ps).2.length := by
  induction ps with
  | nil => simp [greedy]
  | cons p ps ih =>
    have a := ih.1
    have b := ih.2
    constructor
    · intro c c'
      simp only [greedy]
      split <;> split <;> simp only [List.length_cons]
      · exact a _ _
      · have := a (c + 1 + p.length) p.length; omega
      · have := b p.length (c' + 1 + p.length) (by omega); omega
      · omega
    · intro c c' hc
      simp only [greedy]
      split <;> split <;> simp only [List.length_cons]
      · exact b _ _ (by omega)
      · exact a _ _
      · omega
      · omega

theorem greedy_least (w : Nat) (ps : List Str) : ∀ (c c' : Nat) (cur : List Str) (page : List (List Str)), c ≤ c' →
    cur ++ page.flatten = ps → (cur = [] ∨ c' + more cur ≤ w) →
    (∀ line ∈ page, line ≠ [] ∧ (line.length = 1 ∨ (joinWith cs!" " line).length ≤ w)) →
    (greedy w c ps).2.length ≤ page.length := by
  induction ps with
  | nil => intro c c' cur page _ _ _ _; simp [greedy]
  | cons p ps ih =>
    intro c c' cur page hc e hf hp
    cases cur with
    | cons q cur =>
      simp only [List.cons_append, List.cons.injEq] at e
      obtain ⟨rfl, e⟩ := e
      rcases hf with hf | hf
      · cases hf
      · simp only [more, List.map_cons, List.sum_cons] at hf
        have : c + 1 + q.length ≤ w := by omega
        simp only [greedy, this, if_true]
        exact ih _ (c' + 1 + q.length) cur page (by omega) e (.inr (by simp only [more]; omega)) hp
    | nil =>
      simp only [List.nil_append] at e
      cases page with
      | nil => simp at e
      | cons line page =>
        have hl := hp line (by simp)
        cases line with
        | nil => exact absurd rfl hl.1
        | cons q cur =>
          simp only [List.flatten_cons, List.cons_append, List.cons.injEq] at e
          obtain ⟨rfl, e⟩ := e
          have hm : (greedy w q.length ps).2.length ≤ page.length := by
            refine ih _ q.length cur page (Nat.le_refl _) e ?_ fun l h => hp l (by simp [h])
            rcases hl.2 with h | h
            · left
              simpa using h
            · right
              rwa [length_join] at h
          simp only [greedy, List.length_cons]
          split
          · have := (greedy_column w ps).1 (c + 1 + q.length) q.length
            simp only
            omega
          · simp only [List.length_cons]; omega

/-- What is written after the first piece. -/
def restText (r : List Str × List (List Str)) : Str :=
  r.1.flatMap (cs!" " ++ ·) ++ r.2.flatMap fun line => cs!"\n" ++ joinWith cs!" " line

theorem fill_greedy (w : Nat) (t : Text) : ∀ col, fill w col t =
    (pieces t).headD [] ++ restText (greedy w (col + ((pieces t).headD []).length) (pieces t).tail) := by
  induction t with
  | nil => intro col; simp [fill, Spec.pieces, greedy, restText]
  | cons o t ih =>
    intro col
    cases o with
    | some c =>
      rw [fill, ih, pieces_some]
      simp only [List.headD_cons, List.tail_cons, List.length_cons, List.cons_append]
      congr 4
      omega
    | none =>
      have e : pieces t = (pieces t).headD [] :: (pieces t).tail := by
        cases h : pieces t with
        | nil => exact absurd h (pieces_ne t)
        | cons p l => rfl
      simp only [fill, Spec.pieces, List.headD_cons, List.tail_cons, List.length_nil, Nat.add_zero, List.nil_append]
      generalize hp : (pieces t).headD [] = p at e ih ⊢
      generalize hps : (pieces t).tail = ps at e ih ⊢
      rw [e, greedy]
      split
      · rw [ih]
        simp [restText]
      · rw [ih]
        simp [restText, join_cons]

/-- The page of a text. -/
def greedyPage (w : Nat) (ps : List Str) : List (List Str) :=
  match ps with
  | [] => []
  | p :: ps => (p :: (greedy w p.length ps).1) :: (greedy w p.length ps).2

theorem greedyPage_text (w : Nat) (t : Text) : fill w 0 t = pageText (greedyPage w (pieces t)) := by
  rw [fill_greedy]
  cases h : pieces t with
  | nil => exact absurd h (pieces_ne t)
  | cons p ps =>
    simp [greedyPage, pageText, join_cons, restText, List.flatMap_map]

theorem greedyPage_lays (w : Nat) (ps : List Str) : OnLines w ps (greedyPage w ps) := by
  cases ps with
  | nil => exact ⟨rfl, by simp [greedyPage], by simp [greedyPage]⟩
  | cons p ps =>
    have h := greedy_fits w ps p.length
    refine ⟨by simp [greedyPage, greedy_flat], ?_, ?_⟩ <;> intro line hl <;> rcases List.mem_cons.1 hl with rfl | hl
    · simp
    · exact (h.2 line hl).1
    · rcases h.1 with e | e
      · rw [e]; exact .inl rfl
      · exact .inr (by rw [length_join]; exact e)
    · exact (h.2 line hl).2

theorem greedyPage_least {w : Nat} {ps : List Str} {page : List (List Str)} (h : OnLines w ps page) :
    (greedyPage w ps).length ≤ page.length := by
  cases ps with
  | nil => simp [greedyPage]
  | cons p ps =>
    cases page with
    | nil => exact absurd h.pieces (by simp)
    | cons line page =>
      have h1 := h.nonempty line (by simp)
      have h2 := h.fits line (by simp)
      have h3 := h.pieces
      cases line with
      | nil => exact absurd rfl h1
      | cons q cur =>
        simp only [List.flatten_cons, List.cons_append, List.cons.injEq] at h3
        obtain ⟨rfl, e⟩ := h3
        simp only [greedyPage, List.length_cons, Nat.add_le_add_iff_right]
        refine greedy_least w ps q.length q.length cur page (Nat.le_refl _) e ?_
          fun l hl => ⟨h.nonempty l (by simp [hl]), h.fits l (by simp [hl])⟩
        rcases h2 with h | h
        · left; simpa using h
        · right; rwa [length_join] at h

theorem OnLines.wider {w w' : Nat} {ps : List Str} {page : List (List Str)} (h : OnLines w ps page) (hw : w ≤ w') :
    OnLines w' ps page :=
  ⟨h.pieces, h.nonempty, fun l hl => (h.fits l hl).imp id fun h => Nat.le_trans h hw⟩

/-- The line ends of a page are those of its pieces and those between its lines. -/
theorem pageText_count {w : Nat} {ps : List Str} {page : List (List Str)} (h : OnLines w ps page) :
    (pageText page).count '\n' = (page.length - 1) + ps.flatten.count '\n' := by
  have line : ∀ l : List Str, (joinWith cs!" " l).count '\n' = l.flatten.count '\n' := by
    intro l
    cases l with
    | nil => rfl
    | cons p l =>
      rw [join_cons, List.flatten_cons, List.count_append, List.count_append]
      congr 1
      induction l with
      | nil => rfl
      | cons q l ih =>
        simp only [List.flatMap_cons, List.count_append, List.flatten_cons, ih]
        simp
  rw [← h.pieces]
  clear h
  cases page with
  | nil => rfl
  | cons l page =>
    simp only [pageText, List.map_cons, join_cons, List.count_append, line, List.flatten_cons,
      List.flatten_append, List.length_cons, Nat.add_sub_cancel]
    rw [← Nat.add_assoc, Nat.add_comm page.length, Nat.add_assoc]
    congr 1
    induction page with
    | nil => rfl
    | cons m page ih =>
      simp only [List.map_cons, List.flatMap_cons, List.count_append, ih, line, List.length_cons, List.flatten_cons,
        List.flatten_append]
      have : List.count '\n' cs!"\n" = 1 := by decide
      omega

section
variable (x : Ext)

/-- **C101.** A printed paragraph of ASCII text is its unbreakable pieces on lines of the width, and there is no way to put
them on fewer lines. -/
theorem C101_fewest (cfg : Config) (c : List Inline) (ha : ∀ a, some a ∈ inlinesToks x.digit c → a.toNat < 128) :
    ∃ page, renderMarkdown x cfg ⟨[.paragraph c]⟩ = some (pageText page) ∧
      OnLines cfg.width (pieces (inlinesToks x.digit c)) page ∧
      ∀ page', OnLines cfg.width (pieces (inlinesToks x.digit c)) page' → page.length ≤ page'.length :=
  ⟨greedyPage cfg.width _, by rw [C61_fill x cfg c ha, greedyPage_text], greedyPage_lays _ _, fun _ => greedyPage_least⟩

/-- **C101.** At a greater width a paragraph of ASCII text takes at most as many lines. -/
theorem C101_wider (cfg cfg' : Config) (hw : cfg.width ≤ cfg'.width) (c : List Inline)
    (ha : ∀ a, some a ∈ inlinesToks x.digit c → a.toNat < 128) {s s' : Str}
    (h : renderMarkdown x cfg ⟨[.paragraph c]⟩ = some s) (h' : renderMarkdown x cfg' ⟨[.paragraph c]⟩ = some s') :
    s'.count '\n' ≤ s.count '\n' := by
  obtain ⟨page, e, hp, _⟩ := C101_fewest x cfg c ha
  obtain ⟨page', e', hp', hl⟩ := C101_fewest x cfg' c ha
  rw [h] at e
  rw [h'] at e'
  cases e
  cases e'
  rw [pageText_count hp, pageText_count hp']
  have := hl page (hp.wider hw)
  omega

end

/-- **C101**, a case, with a hard line break; the same paragraph in two widths. -/
theorem C101_example :
    renderMarkdown Ext.ascii { Config.default with width := 10 } ⟨[.paragraph [.text cs!"some words and ",
      .emphasis [.text cs!"more of them"], .lineBreak, .text cs!"the end"]]⟩ =
      some cs!"some words\nand *more\nof\nthem*  \nthe\nend" ∧
    renderMarkdown Ext.ascii { Config.default with width := 20 } ⟨[.paragraph [.text cs!"some words and ",
      .emphasis [.text cs!"more of them"], .lineBreak, .text cs!"the end"]]⟩ =
      some cs!"some words and *more\nof them*  \nthe end" ∧
    ∀ o ∈ inlinesToks Ext.ascii.digit [.text cs!"some words and ", .emphasis [.text cs!"more of them"], .lineBreak,
      .text cs!"the end"], ∀ a ∈ o, a.toNat < 128 := by
  decide +kernel

end Md
end Verif
