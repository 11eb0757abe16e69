import Verif.RoundTripSpec
/-!
# Documents that are printed alike

`keyBlocks` refines `squashBlocks`: it also tells whether the label and the text of a reference are
the same, which is when the printer leaves one of them out.
-/
set_option linter.unusedVariables false
set_option linter.unusedSimpArgs false
namespace Verif
namespace Md
namespace Spec
open Nom

mutual
/-- The inline up to runs of whitespace in text nodes, and whether references have the same label
and text. -/
def keyInline : Inline → Inline
  | .text t => .text (collapse false t)
  | .emphasis c => .emphasis (keyInlines c)
  | .strong c => .strong (keyInlines c)
  | .strikethrough c => .strikethrough (keyInlines c)
  | .link d t c => .link d t (keyInlines c)
  | .linkReference l t => if l = t then .linkReference (keyInlines l) [.text cs!"  "]
      else .linkReference (keyInlines l) (keyInlines t)
  | .lineBreak => .lineBreak
  | .code c => .code c
  | .html h => .html h
  | .image d t a => .image d t a
  | .autolink l => .autolink l
  | .footnoteReference l => .footnoteReference l
  | .empty => .empty
termination_by structural i => i
/-- `keyInline` for inlines. -/
def keyInlines : List Inline → List Inline
  | [] => []
  | i :: l => keyInline i :: keyInlines l
termination_by structural l => l
end

mutual
/-- `keyInline` for a block. -/
def keyBlock : Block → Block
  | .paragraph c => .paragraph (keyInlines c)
  | .heading k c => .heading k (keyInlines c)
  | .thematicBreak => .thematicBreak
  | .blockQuote b => .blockQuote (keyBlocks b)
  | .list k items => .list k (keyItems items)
  | .codeBlock k t => .codeBlock k t
  | .htmlBlock h => .htmlBlock h
  | .definition l d t => .definition (keyInlines l) d t
  | .table rows al => .table (rows.map (·.map keyInlines)) al
  | .footnoteDefinition l b => .footnoteDefinition l (keyBlocks b)
  | .githubAlert t b => .githubAlert t (keyBlocks b)
  | .empty => .empty
termination_by structural b => b
/-- `keyInline` for blocks. -/
def keyBlocks : List Block → List Block
  | [] => []
  | b :: l => keyBlock b :: keyBlocks l
termination_by structural l => l
/-- `keyInline` for an item. -/
def keyItem : ListItem → ListItem
  | .mk t b => .mk t (keyBlocks b)
termination_by structural i => i
/-- `keyInline` for items. -/
def keyItems : List ListItem → List ListItem
  | [] => []
  | i :: l => keyItem i :: keyItems l
termination_by structural l => l
end

theorem collapse_no_two (t : Str) (b : Bool) : ¬ cs!"  " <+: collapse b t := by
  induction t generalizing b with
  | nil => simp [collapse]
  | cons c t ih =>
    rw [collapse]
    split
    · split
      · exact ih true
      · rintro ⟨u, h⟩
        cases t with
        | nil => simp [collapse] at h
        | cons d t =>
          simp only [collapse] at h
          split at h
          · simp at h
            have key : ∀ (t : Str), (collapse true t).head? ≠ some ' ' := by
              intro t
              induction t with
              | nil => simp [collapse]
              | cons e t ih =>
                simp only [collapse]
                split
                · exact ih
                · rename_i he
                  intro h; simp at h; subst h; exact he (by decide)
            exact key t (by rw [← h]; rfl)
          · simp at h
            rename_i hd
            rw [← h.1] at hd; exact hd (by decide)
    · rintro ⟨u, h⟩
      simp at h
      rename_i hc
      rw [← h.1] at hc; exact hc (by decide)

/-- The mark of a reference is not the key of anything. -/
theorem key_mark (t : List Inline) : keyInlines t ≠ [.text cs!"  "] := by
  intro h
  cases t with
  | nil => simp [keyInlines] at h
  | cons i t =>
    simp only [keyInlines] at h
    injection h with h1 _
    cases i with
    | text t =>
      simp only [keyInline] at h1
      injection h1 with h1
      exact collapse_no_two t false (by rw [h1]; exact List.prefix_refl _)
    | linkReference l t =>
      simp only [keyInline] at h1
      split at h1 <;> simp at h1
    | _ => simp [keyInline] at h1

/-- Equal keys of references. -/
theorem key_reference {l t l' t' : List Inline}
    (h : keyInline (.linkReference l t) = keyInline (.linkReference l' t')) :
    keyInlines l = keyInlines l' ∧ keyInlines t = keyInlines t' ∧ (l = t ↔ l' = t') := by
  simp only [keyInline] at h
  split at h <;> split at h
  · rename_i h1 h2; subst h1; subst h2
    simp at h
    exact ⟨h, h, by simp⟩
  · injection h with h1 h2
    exact absurd h2.symm (key_mark _)
  · injection h with h1 h2
    exact absurd h2 (key_mark _)
  · rename_i h1 h2
    injection h with h3 h4
    exact ⟨h3, h4, by simp [h1, h2]⟩

/-- Inlines with the same key are the same up to whitespace. -/
theorem key_squash :
    (∀ i j, keyInline i = keyInline j → squashInline i = squashInline j) ∧
    ∀ l m, keyInlines l = keyInlines m → squashInlines l = squashInlines m := by
  refine Inline.ind ?text ?lineBreak ?code ?html ?link ?linkReference ?image ?emphasis ?strong ?strikethrough
    ?autolink ?footnoteReference ?empty ?nil ?cons
  case linkReference =>
    intro l t ihl iht j h
    cases j with
    | linkReference l' t' =>
      obtain ⟨h1, h2, _⟩ := key_reference h
      simp only [squashInline]
      rw [ihl _ h1, iht _ h2]
    | _ => simp only [keyInline] at h; split at h <;> simp at h
  case nil =>
    intro m h
    cases m with
    | nil => rfl
    | cons j m => simp [keyInlines] at h
  case cons =>
    intro i l ih ihl m h
    cases m with
    | nil => simp [keyInlines] at h
    | cons j m =>
      simp only [keyInlines] at h
      injection h with h1 h2
      simp only [squashInlines]
      rw [ih j h1, ihl m h2]
  all_goals
    intros
    rename_i j h
    cases j <;> simp only [keyInline] at h <;> (try (split at h)) <;> (try simp at h) <;> simp only [squashInline] <;> grind

theorem key_squash_blocks :
    (∀ b c, keyBlock b = keyBlock c → squashBlock b = squashBlock c) ∧
    (∀ i j, keyItem i = keyItem j → squashItem i = squashItem j) ∧
    (∀ l m, keyBlocks l = keyBlocks m → squashBlocks l = squashBlocks m) ∧
    ∀ l m, keyItems l = keyItems m → squashItems l = squashItems m := by
  have hi := key_squash.2
  have rows : ∀ (a b : List (List (List Inline))), a.map (·.map keyInlines) = b.map (·.map keyInlines) →
      a.map (·.map squashInlines) = b.map (·.map squashInlines) := by
    have row : ∀ (a b : List (List Inline)), a.map keyInlines = b.map keyInlines →
        a.map squashInlines = b.map squashInlines := by
      intro a
      induction a with
      | nil => intro b h; cases b <;> simp_all
      | cons c a ih =>
        intro b h
        cases b with
        | nil => simp at h
        | cons d b =>
          simp at h
          simp [hi _ _ h.1, ih _ h.2]
    intro a
    induction a with
    | nil => intro b h; cases b <;> simp_all
    | cons c a ih =>
      intro b h
      cases b with
      | nil => simp at h
      | cons d b =>
        rw [List.map_cons, List.map_cons] at h ⊢
        injection h with h1 h2
        rw [row _ _ h1, ih _ h2]
  refine Block.ind ?paragraph ?heading ?thematicBreak ?blockQuote ?list ?codeBlock ?htmlBlock ?definition ?table
    ?footnoteDefinition ?githubAlert ?empty ?item ?nilB ?consB ?nilI ?consI
  case table =>
    intro r a c h
    cases c with
    | table r' a' =>
      simp only [keyBlock] at h
      injection h with h1 h2
      simp only [squashBlock]
      rw [rows _ _ h1, h2]
    | _ => simp [keyBlock] at h
  case nilB => intro m h; cases m <;> simp_all [keyBlocks]
  case nilI => intro m h; cases m <;> simp_all [keyItems]
  case consB =>
    intro b l ih ihl m h
    cases m with
    | nil => simp [keyBlocks] at h
    | cons j m =>
      simp only [keyBlocks] at h
      injection h with h1 h2
      simp only [squashBlocks]
      rw [ih j h1, ihl m h2]
  case consI =>
    intro b l ih ihl m h
    cases m with
    | nil => simp [keyItems] at h
    | cons j m =>
      simp only [keyItems] at h
      injection h with h1 h2
      simp only [squashItems]
      rw [ih j h1, ihl m h2]
  case item =>
    intro t b ih j h
    cases j with
    | mk t' b' =>
      simp only [keyItem] at h
      injection h with h1 h2
      simp only [squashItem]
      rw [h1, ih _ h2]
  all_goals
    intros
    rename_i j h
    cases j <;> simp only [keyBlock] at h <;> (try simp at h) <;> simp only [squashBlock] <;> grind

end Spec
end Md
end Verif
