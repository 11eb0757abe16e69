import Verif.Basic
/-!
# The `pretty` 0.12 document algebra and renderer (dependency, read semantically)

The crates.io dependency `pretty` is not in /repo; this is our reading of the part the printers
use (`Arena::{nil, text, hardline, softline, concat, column, ...}`, `DocBuilder::{append, group,
nest}`, `render`).  `pretty` renders with an explicit stack of pending commands; here the pending
stack is represented by the two things the renderer ever asks of it: the indentation of the next
pending command (`next`, used by a hard line break) and whether the rest, laid out with line
breaks allowed, fits up to its first line break (`k`).  Annotations, `Union` and `Fail`
are never produced by this code base and are left out.
-/
namespace Verif

/-- `pretty::Doc` as built in /repo: every constructor used by `src/printer/inline.rs:46-51`,
`src/printer/blockquote.rs:8-28`, `src/html_printer/util.rs:18-47` and the LaTeX printer. -/
inductive Doc where
  | nil
  | append (l r : Doc)
  | text (s : Str)
  | hardline
  | flatAlt (broken flat : Doc)
  | group (d : Doc)
  | nest (n : Nat) (d : Doc)
  | column (f : Nat → Doc)
  /-- Rust code run by the renderer (the closure of a `column`) that panics. -/
  | panic

/-- Layout mode of `pretty`'s renderer. -/
inductive Mode where
  | flat | brk
  deriving DecidableEq, Repr

namespace Doc

/-- `DocBuilder::append`: `Nil` is a unit. -/
def app : Doc → Doc → Doc
  | .nil, d => d
  | d, .nil => d
  | d, e => .append d e

/-- `DocAllocator::concat`. -/
def concat (l : List Doc) : Doc := l.foldl app .nil

/-- `DocAllocator::line`: a line break, or a space when flat. -/
def line : Doc := .flatAlt .hardline (.text [' '])

/-- `DocAllocator::softline`. -/
def softline : Doc := .group line

/-- `DocAllocator::intersperse`. -/
def intersperse : List Doc → Doc → Doc
  | [], _ => .nil
  | d :: l, sep => l.foldl (fun acc e => (acc.app sep).app e) d

/-- `pretty`'s `fitting`: do the document `d` and then the rest `k` fit in width `w` from column
`pos`, up to the first line break outside the group?  `dw` is the display width of a text. -/
def fits (dw : Str → Nat) (w : Nat) : Doc → Mode → Nat → (Nat → Bool) → Bool
  | .nil, _, p, k => k p
  | .append l r, m, p, k => fits dw w l m p fun p' => fits dw w r m p' k
  | .text s, _, p, k => decide (p + dw s ≤ w) && k (p + dw s)
  | .hardline, m, _, _ => decide (m = .brk)
  | .flatAlt b f, m, p, k =>
    match m with
    | .brk => fits dw w b m p k
    | .flat => fits dw w f m p k
  | .group d, m, p, k => fits dw w d m p k
  | .nest _ d, m, p, k => fits dw w d m p k
  | .column f, m, p, k => fits dw w (f p) m p k
  | .panic, _, p, k => k p

/-- `pretty`'s `best`: output and final column. `ind` is the current indentation, `next` the
indentation of the next pending command, `k` whether the pending commands fit. -/
def best (dw : Str → Nat) (w : Nat) :
    Doc → (ind : Nat) → Mode → (pos : Nat) → (next : Option Nat) → (k : Nat → Bool) → Str × Nat
  | .nil, _, _, p, _, _ => ([], p)
  | .append l r, i, m, p, n, k =>
    let a := best dw w l i m p (some i) fun p' => fits dw w r .brk p' k
    let b := best dw w r i m a.2 n k
    (a.1 ++ b.1, b.2)
  | .text s, _, _, p, _, _ => (s, p + dw s)
  | .hardline, i, _, _, n, _ => ('\n' :: List.replicate (n.getD i) ' ', n.getD i)
  | .flatAlt b f, i, m, p, n, k =>
    match m with
    | .brk => best dw w b i m p n k
    | .flat => best dw w f i m p n k
  | .group d, i, m, p, n, k =>
    match m with
    | .flat => best dw w d i .flat p n k
    | .brk => if fits dw w d .flat p k then best dw w d i .flat p n k
              else best dw w d i .brk p n k
  | .nest o d, i, m, p, n, k => best dw w d (i + o) m p n k
  | .column f, i, m, p, n, k => best dw w (f p) i m p n k
  | .panic, _, _, p, _, _ => ([], p)

/-- `DocBuilder::render` into a string, for documents without closures that may panic (the HTML
and LaTeX printers); see `renderE` for the others. -/
def render (dw : Str → Nat) (w : Nat) (d : Doc) : Str :=
  (best dw w d 0 .brk 0 none fun _ => true).1

/-- `fits` when closures may panic (`none`). -/
def fitsE (dw : Str → Nat) (w : Nat) :
    Doc → Mode → Nat → (Nat → Option Bool) → Option Bool
  | .nil, _, p, k => k p
  | .append l r, m, p, k => fitsE dw w l m p fun p' => fitsE dw w r m p' k
  | .text s, _, p, k => if p + dw s ≤ w then k (p + dw s) else some false
  | .hardline, m, _, _ => some (decide (m = .brk))
  | .flatAlt b f, m, p, k =>
    match m with
    | .brk => fitsE dw w b m p k
    | .flat => fitsE dw w f m p k
  | .group d, m, p, k => fitsE dw w d m p k
  | .nest _ d, m, p, k => fitsE dw w d m p k
  | .column f, m, p, k => fitsE dw w (f p) m p k
  | .panic, _, _, _ => none

/-- `best` when closures may panic (`none`). -/
def bestE (dw : Str → Nat) (w : Nat) :
    Doc → (ind : Nat) → Mode → (pos : Nat) → (next : Option Nat) → (k : Nat → Option Bool) →
      Option (Str × Nat)
  | .nil, _, _, p, _, _ => some ([], p)
  | .append l r, i, m, p, n, k =>
    match bestE dw w l i m p (some i) fun p' => fitsE dw w r .brk p' k with
    | none => none
    | some a => match bestE dw w r i m a.2 n k with
      | none => none
      | some b => some (a.1 ++ b.1, b.2)
  | .text s, _, _, p, _, _ => some (s, p + dw s)
  | .hardline, i, _, _, n, _ => some ('\n' :: List.replicate (n.getD i) ' ', n.getD i)
  | .flatAlt b f, i, m, p, n, k =>
    match m with
    | .brk => bestE dw w b i m p n k
    | .flat => bestE dw w f i m p n k
  | .group d, i, m, p, n, k =>
    match m with
    | .flat => bestE dw w d i .flat p n k
    | .brk => match fitsE dw w d .flat p k with
      | none => none
      | some true => bestE dw w d i .flat p n k
      | some false => bestE dw w d i .brk p n k
  | .nest o d, i, m, p, n, k => bestE dw w d (i + o) m p n k
  | .column f, i, m, p, n, k => bestE dw w (f p) i m p n k
  | .panic, _, _, _, _, _ => none

/-- `DocBuilder::render` into a string; `none` is a panic of a closure. -/
def renderE (dw : Str → Nat) (w : Nat) (d : Doc) : Option Str :=
  (bestE dw w d 0 .brk 0 none fun _ => some true).map Prod.fst

/-- No closure of the document panics. -/
def Safe : Doc → Prop
  | .append l r => l.Safe ∧ r.Safe
  | .flatAlt b f => b.Safe ∧ f.Safe
  | .group d => d.Safe
  | .nest _ d => d.Safe
  | .column f => ∀ c, (f c).Safe
  | .panic => False
  | _ => True

theorem fitsE_safe (dw : Str → Nat) (w : Nat) : ∀ (d : Doc), d.Safe → ∀ m p k kE,
    (∀ q, kE q = some (k q)) → fitsE dw w d m p kE = some (fits dw w d m p k) := by
  intro d
  induction d with
  | nil => intro _ m p k kE h; exact h p
  | append l r hl hr =>
    intro hs m p k kE h
    exact hl hs.1 m p _ _ fun q => hr hs.2 m q k kE h
  | text s =>
    intro _ m p k kE h
    simp only [fitsE, fits]
    split
    · rename_i hc; simp [h, hc]
    · rename_i hc; simp [hc]
  | hardline => intros; rfl
  | flatAlt b f hb hf =>
    intro hs m p k kE h
    cases m
    · exact hf hs.2 _ p k kE h
    · exact hb hs.1 _ p k kE h
  | group d ih => intro hs m p k kE h; exact ih hs m p k kE h
  | nest o d ih => intro hs m p k kE h; exact ih hs m p k kE h
  | column f ih => intro hs m p k kE h; exact ih p (hs p) m p k kE h
  | panic => intro hs; exact hs.elim

theorem bestE_safe (dw : Str → Nat) (w : Nat) : ∀ (d : Doc), d.Safe → ∀ i m p n k kE,
    (∀ q, kE q = some (k q)) → bestE dw w d i m p n kE = some (best dw w d i m p n k) := by
  intro d
  induction d with
  | nil => intros; rfl
  | append l r hl hr =>
    intro hs i m p n k kE h
    simp only [bestE, best]
    rw [hl hs.1 i m p (some i) (fun p' => fits dw w r .brk p' k) _
      fun q => fitsE_safe dw w r hs.2 .brk q k kE h]
    simp only
    rw [hr hs.2 i m _ n k kE h]
  | text s => intros; rfl
  | hardline => intros; rfl
  | flatAlt b f hb hf =>
    intro hs i m p n k kE h
    cases m
    · exact hf hs.2 i _ p n k kE h
    · exact hb hs.1 i _ p n k kE h
  | group d ih =>
    intro hs i m p n k kE h
    cases m
    · exact ih hs i _ p n k kE h
    · simp only [bestE, best, fitsE_safe dw w d hs .flat p k kE h]
      cases fits dw w d .flat p k
      · exact ih hs i _ p n k kE h
      · exact ih hs i _ p n k kE h
  | nest o d ih => intro hs i m p n k kE h; exact ih hs _ m p n k kE h
  | column f ih => intro hs i m p n k kE h; exact ih p (hs p) i m p n k kE h
  | panic => intro hs; exact hs.elim

/-- Without panicking closures `renderE` is `render`. -/
theorem renderE_safe {d : Doc} (h : d.Safe) (dw : Str → Nat) (w : Nat) :
    d.renderE dw w = some (d.render dw w) := by
  simp [renderE, render, bestE_safe dw w d h 0 .brk 0 none (fun _ => true) _ fun _ => rfl]

/-! ## Documents made of texts only -/

/-- Built from `nil`, `text` and `append` only. -/
def TextOnly : Doc → Prop
  | .nil => True
  | .append l r => l.TextOnly ∧ r.TextOnly
  | .text _ => True
  | _ => False

/-- The texts of a document in order. -/
def texts : Doc → Str
  | .append l r => l.texts ++ r.texts
  | .text s => s
  | _ => []

theorem best_textOnly (dw : Str → Nat) (w : Nat) : ∀ (d : Doc), d.TextOnly →
    ∀ i m p n k, (best dw w d i m p n k).1 = d.texts := by
  intro d
  induction d with
  | nil => intros; rfl
  | append l r hl hr =>
    intro h i m p n k
    simp only [best, texts, hl h.1, hr h.2]
  | text s => intros; rfl
  | _ => intro h; exact h.elim

/-- The width plays no role for a text-only document. -/
theorem render_textOnly {d : Doc} (h : d.TextOnly) (dw : Str → Nat) (w : Nat) :
    d.render dw w = d.texts := best_textOnly dw w d h ..

theorem texts_app (a b : Doc) : (a.app b).texts = a.texts ++ b.texts := by
  cases a <;> cases b <;> simp [app, texts]

theorem textOnly_app {a b : Doc} (ha : a.TextOnly) (hb : b.TextOnly) : (a.app b).TextOnly := by
  cases a <;> cases b <;> simp_all [app, TextOnly]

theorem texts_foldl (l : List Doc) : ∀ a : Doc,
    (l.foldl app a).texts = a.texts ++ (l.map texts).flatten := by
  induction l with
  | nil => simp
  | cons d l ih => intro a; simp [ih, texts_app]

theorem texts_concat (l : List Doc) : (concat l).texts = (l.map texts).flatten := by
  simp [concat, texts_foldl, texts]

theorem textOnly_foldl (l : List Doc) : ∀ a : Doc, a.TextOnly → (∀ d ∈ l, d.TextOnly) →
    (l.foldl app a).TextOnly := by
  induction l with
  | nil => intro a h _; exact h
  | cons d l ih =>
    intro a h hl
    exact ih _ (textOnly_app h (hl d (by simp))) fun e he => hl e (by simp [he])

theorem textOnly_concat {l : List Doc} (h : ∀ d ∈ l, d.TextOnly) : (concat l).TextOnly :=
  textOnly_foldl l _ trivial h

end Doc
end Verif
