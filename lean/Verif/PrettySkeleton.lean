import Verif.Pretty
/-!
# Layouts of documents without indentation

`Fills sk s`: the string `s` is the skeleton `sk` with every break opportunity (`none`) turned
into a space or a newline.
-/
namespace Verif

/-- `s` is `sk` with each `none` replaced by a space or a newline. -/
inductive Fills : List (Option Char) → Str → Prop
  | nil : Fills [] []
  | char (c : Char) {sk : List (Option Char)} {s : Str} : Fills sk s → Fills (some c :: sk) (c :: s)
  | space {sk : List (Option Char)} {s : Str} : Fills sk s → Fills (none :: sk) (' ' :: s)
  | newline {sk : List (Option Char)} {s : Str} : Fills sk s → Fills (none :: sk) ('\n' :: s)

theorem Fills.append {a b : List (Option Char)} {s t : Str} (h : Fills a s) (h' : Fills b t) :
    Fills (a ++ b) (s ++ t) := by
  induction h with
  | nil => exact h'
  | char c _ ih => exact .char c ih
  | space _ ih => exact .space ih
  | newline _ ih => exact .newline ih

theorem Fills.split {a b : List (Option Char)} {s : Str} (h : Fills (a ++ b) s) :
    ∃ t u, s = t ++ u ∧ Fills a t ∧ Fills b u := by
  induction a generalizing s with
  | nil => exact ⟨[], s, rfl, .nil, h⟩
  | cons o a ih =>
    cases h with
    | char c h =>
      obtain ⟨t, u, rfl, h1, h2⟩ := ih h
      exact ⟨_ :: t, u, rfl, .char c h1, h2⟩
    | space h =>
      obtain ⟨t, u, rfl, h1, h2⟩ := ih h
      exact ⟨_ :: t, u, rfl, .space h1, h2⟩
    | newline h =>
      obtain ⟨t, u, rfl, h1, h2⟩ := ih h
      exact ⟨_ :: t, u, rfl, .newline h1, h2⟩

theorem Fills.some_iff {a s : Str} : Fills (a.map some) s ↔ s = a := by
  induction a generalizing s with
  | nil => exact ⟨fun h => by cases h; rfl, by rintro rfl; exact .nil⟩
  | cons c a ih =>
    constructor
    · intro h
      cases h with
      | char _ h => rw [ih.1 h]
    · rintro rfl
      exact .char _ (ih.2 rfl)

theorem Fills.infix' {a : Str} {sk : List (Option Char)} {s : Str} (h : Fills sk s)
    (hi : a.map some <:+: sk) : a <:+: s := by
  obtain ⟨p, q, rfl⟩ := hi
  obtain ⟨t, u, rfl, h1, -⟩ := h.split
  obtain ⟨v, w, rfl, -, h3⟩ := h1.split
  rw [Fills.some_iff.1 h3]
  exact ⟨v, u, rfl⟩

theorem Fills.flat {sk : List (Option Char)} {s t : Str} (h : Fills sk s) (h' : Fills sk t) :
    s.map (fun c => if c = '\n' then ' ' else c) = t.map fun c => if c = '\n' then ' ' else c := by
  induction h generalizing t with
  | nil => cases h'; rfl
  | char c _ ih => cases h' with | char _ h' => simp [ih h']
  | space _ ih => cases h' <;> rename_i h' <;> simp [ih h']
  | newline _ ih => cases h' <;> rename_i h' <;> simp [ih h']

theorem Fills.unique {sk : List (Option Char)} (hn : none ∉ sk) {s t : Str} (h : Fills sk s)
    (h' : Fills sk t) : s = t := by
  induction h generalizing t with
  | nil => cases h'; rfl
  | char c _ ih => cases h' with | char _ h' => rw [ih (by simp_all) h']
  | space _ _ => simp at hn
  | newline _ _ => simp at hn

namespace Doc

/-- Nothing but texts, hard line breaks and soft breaks (no indentation, no columns). -/
def Simple : Doc → Prop
  | .nil => True
  | .append l r => l.Simple ∧ r.Simple
  | .text _ => True
  | .hardline => True
  | .group d => d = line
  | _ => False

/-- The skeleton of a simple document. -/
def skel : Doc → List (Option Char)
  | .append l r => l.skel ++ r.skel
  | .text s => s.map some
  | .hardline => [some '\n']
  | .group _ => [none]
  | _ => []

theorem best_simple (dw : Str → Nat) (w : Nat) : ∀ (d : Doc), d.Simple →
    ∀ m p n k, n.getD 0 = 0 → Fills d.skel (best dw w d 0 m p n k).1 := by
  intro d
  induction d with
  | nil => intros; exact .nil
  | append l r hl hr =>
    intro h m p n k hn
    simp only [best, skel]
    exact (hl h.1 _ _ _ _ rfl).append (hr h.2 _ _ _ _ hn)
  | text s => intros; exact Fills.some_iff.2 rfl
  | hardline =>
    intro _ m p n k hn
    simp only [best, hn, skel]
    exact .char _ .nil
  | group d ih =>
    intro h m p n k hn
    cases (h : d = line)
    simp only [skel]
    cases m with
    | flat => exact .space .nil
    | brk =>
      simp only [best]
      split
      · exact .space .nil
      · simp only [line, best, hn]; exact .newline .nil
  | flatAlt => intro h; exact h.elim
  | nest => intro h; exact h.elim
  | column => intro h; exact h.elim
  | panic => intro h; exact h.elim

theorem render_simple {d : Doc} (h : d.Simple) (dw : Str → Nat) (w : Nat) :
    Fills d.skel (d.render dw w) := best_simple dw w d h _ _ _ _ rfl

theorem skel_app (a b : Doc) : (a.app b).skel = a.skel ++ b.skel := by
  cases a <;> cases b <;> simp [app, skel]

theorem simple_app {a b : Doc} (ha : a.Simple) (hb : b.Simple) : (a.app b).Simple := by
  cases a <;> cases b <;> simp_all [app, Simple]

theorem skel_foldl (l : List Doc) : ∀ a : Doc,
    (l.foldl app a).skel = a.skel ++ (l.map skel).flatten := by
  induction l with
  | nil => simp
  | cons d l ih => intro a; simp [ih, skel_app]

theorem skel_concat (l : List Doc) : (concat l).skel = (l.map skel).flatten := by
  simp [concat, skel_foldl, skel]

theorem simple_foldl (l : List Doc) : ∀ a : Doc, a.Simple → (∀ d ∈ l, d.Simple) →
    (l.foldl app a).Simple := by
  induction l with
  | nil => intro a h _; exact h
  | cons d l ih =>
    intro a h hl
    exact ih _ (simple_app h (hl d (by simp))) fun e he => hl e (by simp [he])

theorem simple_concat {l : List Doc} (h : ∀ d ∈ l, d.Simple) : (concat l).Simple :=
  simple_foldl l _ trivial h

end Doc
end Verif
