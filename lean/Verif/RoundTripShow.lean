import Verif.RoundTripShape
/-!
# Printed lines inside containers

`Shown item p ls ls'`: the lines `ls` of a block (all but the first one) stand in a container at the
place `p` as the lines `ls'`.  The lines of a list item come out of the item again.
-/
set_option linter.unusedVariables false
set_option linter.unusedSimpArgs false
namespace Verif
namespace Md
namespace Spec
open Nom

/-- Lines, each after a newline, and then `u`. -/
def tailText : List Str → Str → Str
  | [], u => u
  | l :: ls, u => '\n' :: (l ++ tailText ls u)

theorem tailText_append (a b : List Str) (u : Str) : tailText (a ++ b) u = tailText a (tailText b u) := by
  induction a with
  | nil => rfl
  | cons l a ih => simp [tailText, ih]

theorem join_tailText (l : Str) (ls : List Str) (u : Str) :
    joinWith ['\n'] (l :: ls) ++ u = l ++ tailText ls u := by
  induction ls generalizing l with
  | nil => simp [joinWith, tailText]
  | cons m ls ih => rw [joinWith, List.append_assoc, ih m]; simp [tailText]

theorem join_tailText_nil (l : Str) (ls : List Str) : joinWith ['\n'] (l :: ls) = l ++ tailText ls [] := by
  have := join_tailText l ls []
  simpa using this

theorem flatten_tailText (ls : List Str) (u : Str) : (ls.map ('\n' :: ·)).flatten ++ u = tailText ls u := by
  induction ls with
  | nil => rfl
  | cons l ls ih => simp [tailText, ← ih]

/-- The last one of some lines. -/
theorem unlines_tailText {α : Type} (a : α) (l : List α) :
    ∃ init last, a :: l = init ++ [last] ∧
      ∀ (g : α → Str) (w : Str), unlines ['\n'] (init.map g) ++ (g last ++ w) = g a ++ tailText (l.map g) w := by
  induction l generalizing a with
  | nil => exact ⟨[], a, rfl, fun g w => by simp [unlines, tailText]⟩
  | cons b l ih =>
    obtain ⟨init, last, h1, h2⟩ := ih b
    refine ⟨a :: init, last, by rw [h1]; rfl, fun g w => ?_⟩
    have := h2 g w
    simp only [unlines, List.map_cons, List.flatten_cons, List.append_assoc, tailText] at this ⊢
    rw [this]; simp

/-- How a container shows a line. -/
inductive ShowLine (item : Bool) (p : Place) : Str → Str → Prop
  | text (l : Str) : ShowLine item p l (List.replicate p.others ' ' ++ l)
  | blank {j : Nat} : j ≤ p.blank → ShowLine item p [] (List.replicate j ' ')
  | zero {k : Nat} : item = true ∨ p.blank ≠ p.others → ShowLine item p (List.replicate k ' ') []

/-- How a container shows lines. -/
inductive Shown (item : Bool) (p : Place) : List Str → List Str → Prop
  | nil : Shown item p [] []
  | cons {l l' : Str} {ls ls' : List Str} : ShowLine item p l l' → Shown item p ls ls' →
      Shown item p (l :: ls) (l' :: ls')

theorem Shown.append_inv {item : Bool} {p : Place} {a b c : List Str} (h : Shown item p (a ++ b) c) :
    ∃ a' b', c = a' ++ b' ∧ Shown item p a a' ∧ Shown item p b b' := by
  induction a generalizing c with
  | nil => exact ⟨[], c, rfl, .nil, h⟩
  | cons l a ih =>
    cases h with
    | cons h1 h2 =>
      obtain ⟨a', b', rfl, h3, h4⟩ := ih h2
      exact ⟨_, b', rfl, .cons h1 h3, h4⟩

theorem ShowLine.of_visible {item : Bool} {p : Place} {l l' : Str} (h : ShowLine item p l l')
    (hl : ∃ c ∈ l, c ≠ ' ') : l' = List.replicate p.others ' ' ++ l := by
  obtain ⟨c, hc, hw⟩ := hl
  cases h with
  | text => rfl
  | blank _ => simp at hc
  | zero _ => exact absurd (List.eq_of_mem_replicate hc) hw

theorem Shown.of_visible {item : Bool} {p : Place} {ls ls' : List Str} (h : Shown item p ls ls')
    (hl : ∀ l ∈ ls, ∃ c ∈ l, c ≠ ' ') : ls' = ls.map (List.replicate p.others ' ' ++ ·) := by
  induction h with
  | nil => rfl
  | cons h1 _ ih =>
    rw [List.map_cons, ← ih fun l hm => hl l (by simp [hm]), h1.of_visible (hl _ (by simp))]

theorem Shown.cons_inv {item : Bool} {p : Place} {l : Str} {ls A : List Str} (h : Shown item p (l :: ls) A) :
    ∃ l' A', A = l' :: A' ∧ ShowLine item p l l' ∧ Shown item p ls A' := by
  cases h with
  | cons h1 h2 => exact ⟨_, _, rfl, h1, h2⟩

theorem ShowLine.inv {item : Bool} {p : Place} {l l' : Str} (h : ShowLine item p l l') :
    l' = List.replicate p.others ' ' ++ l ∨ (l = [] ∧ ∃ j, j ≤ p.blank ∧ l' = List.replicate j ' ') ∨
      ((item = true ∨ p.blank ≠ p.others) ∧ ∃ k, l = List.replicate k ' ' ∧ l' = []) := by
  cases h with
  | text => exact .inl rfl
  | blank h => exact .inr (.inl ⟨rfl, _, h, rfl⟩)
  | zero h => exact .inr (.inr ⟨h, _, rfl, rfl⟩)

theorem ShowLine.of_spaces {item : Bool} {p : Place} {ci k : Nat} {l' : Str} (hci : 0 < ci)
    (h : ShowLine item p (List.replicate ci ' ' ++ List.replicate k ' ') l') :
    l' = [] ∨ l' = List.replicate (p.others + (ci + k)) ' ' := by
  generalize hg : List.replicate ci ' ' ++ List.replicate k ' ' = g at h
  cases h with
  | text => exact .inr (by rw [← hg, List.replicate_append_replicate, List.replicate_append_replicate])
  | blank _ =>
    have := congrArg List.length hg
    simp at this; omega
  | zero _ => exact .inl rfl

theorem Firm.visible {l : Str} (h : Firm l) : ∃ c ∈ l, c ≠ ' ' := by
  obtain ⟨_, ⟨c, hc, hw⟩, _⟩ := h
  exact ⟨c, hc, by rintro rfl; exact absurd hw (by decide)⟩

theorem Shown.text (item : Bool) (p : Place) (ls : List Str) :
    Shown item p ls (ls.map (List.replicate p.others ' ' ++ ·)) := by
  induction ls with
  | nil => exact .nil
  | cons l ls ih => exact .cons (.text l) ih

/-! ## The lines of an item -/

theorem not_markerAt_indent {kind : ListKind} {pl : Nat} {l : Str} :
    ¬ MarkerAt kind pl (List.replicate pl ' ' ++ l) := by
  rintro ⟨j, m, k', r, hj, _, hm, h⟩
  obtain ⟨c, t, rfl, hc⟩ := hm.head
  have h1 : (List.replicate pl ' ' ++ l)[j]? = some ' ' := by
    rw [List.getElem?_append_left (by simpa using hj)]
    simp [hj]
  rw [h, List.getElem?_append_right (by simp)] at h1
  simp at h1
  subst h1
  exact absurd hc (by decide)

/-- The lines of an item, from the second one on, and their contents. -/
theorem item_lines {item : Bool} {p p' : Place} {kind : ListKind} {ci col : Nat} (hci : 0 < ci)
    (hcol : col ≤ p.others + ci) (ho : p'.others = p.others + ci - col) (hb : p'.others = 0 → col ≤ p'.blank)
    {ms A : List Str} (ht : Tail ms) (hs : Shown item p (ms.map (List.replicate ci ' ' ++ ·)) A)
    {e rest : Str} (he : LineEnd e rest) :
    ∃ e' S cs cs0, tailText A (e ++ rest) = e' ++ S ∧ LineEnd e' S ∧ ItemLines kind col rest S cs ∧
      Shown true p' ms cs0 ∧ ∀ f, joinWith ['\n'] (f :: cs) = f ++ tailText cs0 [] := by
  have split : ∀ l, List.replicate p.others ' ' ++ (List.replicate ci ' ' ++ l) =
      List.replicate col ' ' ++ (List.replicate p'.others ' ' ++ l) := by
    intro l
    rw [← List.append_assoc, ← List.append_assoc, List.replicate_append_replicate, List.replicate_append_replicate]
    congr 2; omega
  induction ht generalizing A with
  | nil =>
    cases hs
    exact ⟨e, rest, [], [], rfl, he, .nil, .nil, fun f => by simp [joinWith, tailText]⟩
  | @firm l ls hf _ ih =>
    obtain ⟨l', A, rfl, h1, h2⟩ := hs.cons_inv
    obtain ⟨e', S, cs, cs0, g1, g2, g3, g4, g5⟩ := ih h2
    obtain rfl := h1.of_visible (hf.indent ci).visible
    refine ⟨['\n'], _, (List.replicate p'.others ' ' ++ l) :: cs, (List.replicate p'.others ' ' ++ l) :: cs0,
      rfl, .inl (.inl rfl), ?_, .cons (.text l) g4, ?_⟩
    · have h3 := ItemLines.text (kind := kind) (Nat.le_refl col) (.inl rfl) (by simp [hf.ne]) (hf.indent p'.others).1
        ((hf.indent _).2.2 _) not_markerAt_indent g2 g3
      show ItemLines kind col rest ((List.replicate p.others ' ' ++ (List.replicate ci ' ' ++ l)) ++ tailText A (e ++ rest)) _
      rw [split l, g1, List.append_assoc]
      exact h3
    · intro f
      rw [joinWith, g5]; simp [tailText]
  | @blank k l ls hf _ ih =>
    obtain ⟨l0, A, rfl, h0, h2⟩ := hs.cons_inv
    obtain ⟨l', A, rfl, h1, h2⟩ := h2.cons_inv
    obtain ⟨e', S, cs, cs0, g1, g2, g3, g4, g5⟩ := ih h2
    obtain rfl := h1.of_visible (hf.indent ci).visible
    have hvis : Visible (List.replicate p'.others ' ' ++ l) := by
      obtain ⟨_, ⟨c, hc, hw⟩, _⟩ := hf.indent p'.others
      refine ⟨c, hc, ?_⟩
      cases hsp : isSpace c with
      | false => rfl
      | true =>
        exfalso
        simp [isSpace] at hsp
        rcases hsp with rfl | rfl <;> exact absurd hw (by decide)
    -- a kept blank line of `j` spaces
    have kept : ∀ j, j ≤ col → ShowLine true p' (List.replicate k ' ') (List.replicate j ' ') →
        ∃ e'' S' cs' cs0', tailText (List.replicate j ' ' :: (List.replicate p.others ' ' ++ (List.replicate ci ' ' ++ l)) :: A)
            (e ++ rest) = e'' ++ S' ∧ LineEnd e'' S' ∧ ItemLines kind col rest S' cs' ∧
          Shown true p' (List.replicate k ' ' :: l :: ls) cs0' ∧
          ∀ f, joinWith ['\n'] (f :: cs') = f ++ tailText cs0' [] := by
      intro j hj hsl
      refine ⟨['\n'], _, (List.replicate j ' ' ++ (['\n'] ++ ([] ++ (List.replicate p'.others ' ' ++ l)))) :: cs,
        List.replicate j ' ' :: (List.replicate p'.others ' ' ++ l) :: cs0, rfl, .inl (.inl rfl), ?_,
        .cons hsl (.cons (.text l) g4), ?_⟩
      · have := ItemLines.blank (kind := kind) (b := []) hj (.inl rfl) .nil hvis (hf.indent _).1 g2 g3
        show ItemLines kind col rest (List.replicate j ' ' ++ ('\n' :: ((List.replicate p.others ' ' ++ (List.replicate ci ' ' ++ l)) ++ tailText A (e ++ rest)))) _
        rw [split l, g1]
        simpa using this
      · intro f
        rw [joinWith, g5]; simp [tailText]
    rcases h0.of_spaces hci with rfl | rfl
    · exact kept 0 (Nat.zero_le _) (.zero (.inl rfl))
    · by_cases hk : p.others + (ci + k) ≤ col
      · obtain ⟨rfl, h3⟩ : k = 0 ∧ p'.others = 0 := by omega
        exact kept _ hk (.blank (by have := hb h3; omega))
      · refine ⟨['\n'], _, List.replicate (p'.others + k) ' ' :: (List.replicate p'.others ' ' ++ l) :: cs,
          List.replicate (p'.others + k) ' ' :: (List.replicate p'.others ' ' ++ l) :: cs0, rfl, .inl (.inl rfl), ?_,
          .cons ?_ (.cons (.text l) g4), ?_⟩
        · have h4 := ItemLines.text (kind := kind) (Nat.le_refl col) (.inl rfl) (by simp [hf.ne]) (hf.indent p'.others).1
            ((hf.indent _).2.2 _) not_markerAt_indent g2 g3
          have h5 := ItemLines.text (kind := kind) (j := col) (l := List.replicate (p'.others + k) ' ') (e := ['\n']) (Nat.le_refl col) (.inl rfl)
            (by simp; omega) (oneLine_spaces _)
            (by rw [List.replicate_append_replicate]; exact not_thematic_spaces _) not_markerAt_indent (.inl (.inl rfl)) h4
          show ItemLines kind col rest (List.replicate (p.others + (ci + k)) ' ' ++ ('\n' :: ((List.replicate p.others ' ' ++ (List.replicate ci ' ' ++ l)) ++ tailText A (e ++ rest)))) _
          rw [split l, g1]
          have e2 : List.replicate (p.others + (ci + k)) ' ' = List.replicate col ' ' ++ List.replicate (p'.others + k) ' ' := by
            rw [List.replicate_append_replicate]; congr 1; omega
          rw [e2]
          simpa [-List.replicate_append_replicate] using h5
        · rw [← List.replicate_append_replicate]; exact .text _
        · intro f
          rw [joinWith, joinWith, g5]; simp [tailText]

end Spec
end Md
end Verif
