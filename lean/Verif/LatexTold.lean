import Verif.MarkdownTold
/-!
# C121: the characters of the strings of a document are in its LaTeX
-/
set_option autoImplicit false
set_option linter.unusedSimpArgs false
namespace Verif

/-! ## Specification -/

mutual
/-- The characters of the strings of an inline that its LaTeX shows: texts, code, raw HTML, addresses, titles of links, captions of images;
of a reference its text. -/
def Inline.shown : Inline → Str
  | .text t => t
  | .code c => c
  | .html h => h
  | .autolink l => l
  | .link d t c => d ++ t.getD [] ++ Inline.shownL c
  | .image d _ a => d ++ a
  | .emphasis c => Inline.shownL c
  | .strong c => Inline.shownL c
  | .strikethrough c => Inline.shownL c
  | .linkReference _ t => Inline.shownL t
  | .lineBreak => []
  | .footnoteReference _ => []
  | .empty => []
termination_by structural i => i
/-- The characters of the strings of inlines. -/
def Inline.shownL : List Inline → Str
  | [] => []
  | i :: l => Inline.shown i ++ Inline.shownL l
termination_by structural l => l
end

mutual
/-- The characters of the strings of a block that its LaTeX shows; footnotes without a number are not printed. -/
def Block.shown (number : Str → Option Nat) : Block → Str
  | .paragraph c => Inline.shownL c
  | .heading _ c => Inline.shownL c
  | .codeBlock _ s => s
  | .htmlBlock s => s
  | .table rows _ => Inline.shownL rows.flatten.flatten
  | .blockQuote b => Block.shownL number b
  | .list _ items => ListItem.shownL number items
  | .githubAlert _ b => Block.shownL number b
  | .footnoteDefinition l b => if (number l).isSome then Block.shownL number b else []
  | .definition _ _ _ => []
  | .thematicBreak => []
  | .empty => []
termination_by structural b => b
/-- The characters of the strings of blocks. -/
def Block.shownL (number : Str → Option Nat) : List Block → Str
  | [] => []
  | b :: l => Block.shown number b ++ Block.shownL number l
termination_by structural l => l
/-- The characters of the strings of a list item. -/
def ListItem.shown (number : Str → Option Nat) : ListItem → Str
  | .mk _ b => Block.shownL number b
termination_by structural i => i
/-- The characters of the strings of list items. -/
def ListItem.shownL (number : Str → Option Nat) : List ListItem → Str
  | [] => []
  | i :: l => ListItem.shown number i ++ ListItem.shownL number l
termination_by structural l => l
end

namespace Latex
namespace Told
open Verif.Latex.Exact Source
open Md.Spec (Piece)
open Md.Told (n n_app n_nil sum_le)

variable {q : Char → Bool}

/-- The characters of pieces that count. -/
def m (q : Char → Bool) (l : List Piece) : Nat := (ink q l).length

theorem m_app (a b : List Piece) : m q (a ++ b) = m q a + m q b := by simp [m, ink_append]
theorem m_nil : m q [] = 0 := rfl
theorem m_word (s : Str) (l : List Piece) : m q (.word s :: l) = n q s + m q l := by simp [m, ink, n]
theorem m_newline (l : List Piece) : m q (.newline :: l) = m q l := rfl
theorem m_spelled (s : Str) (l : List Piece) : m q (spelledWord s :: l) = n q (spell s) + m q l := m_word _ _
theorem m_call (a : Str) (l : List Piece) : m q l ≤ m q (callP a l) := by
  simp only [callP, bracesP, m_word, m_app, List.singleton_append]; omega
theorem m_braces (l : List Piece) : m q l ≤ m q (bracesP l) := by simp only [bracesP, m_app]; omega
theorem m_env (a b : Str) (l : List Piece) : m q l ≤ m q (envP a b l) := by simp only [envP, m_app]; omega

theorem spell_n (hs : ∀ c, n q [c] ≤ n q (spell [c])) (t : Str) : n q t ≤ n q (spell t) := by
  induction t with
  | nil => simp [n_nil]
  | cons c t ih =>
    have := hs c
    rw [← List.singleton_append, spell_append, n_app, n_app]
    omega

theorem text_n (hq : ∀ c, isWs c = true → q c = true) (hs : ∀ c, n q [c] ≤ n q (spell [c])) (t : Str) : n q t ≤ m q (textPieces t) := by
  rw [m, ink_text hq]
  exact spell_n hs t

theorem shownL_append (a b : List Inline) : Inline.shownL (a ++ b) = Inline.shownL a ++ Inline.shownL b := by
  induction a with
  | nil => rfl
  | cons i a ih => simp [Inline.shownL, ih]

theorem inline_n (hq : ∀ c, isWs c = true → q c = true) (hs : ∀ c, n q [c] ≤ n q (spell [c])) (x : Context) :
    (∀ i, n q (Inline.shown i) ≤ m q (inlinePieces x i)) ∧ ∀ l, n q (Inline.shownL l) ≤ m q (inlinesPieces x l) := by
  have sp := spell_n hs
  have w1 : ∀ s, n q s ≤ m q [spelledWord s] := fun s => by rw [m_spelled]; have := sp s; omega
  apply Inline.ind
  case text => intro t; exact text_n hq hs t
  case code =>
    intro s
    exact Nat.le_trans (w1 s) (m_call _ _)
  case html => intro s; exact w1 s
  case autolink => intro s; exact Nat.le_trans (w1 s) (m_call _ _)
  case link =>
    intro d t c ih
    have h1 := Nat.le_trans (w1 d) (m_call cs!"href" _)
    have h2 := Nat.le_trans ih (m_braces _)
    cases t with
    | none =>
      simp only [Inline.shown, inlinePieces, Option.getD, n_app, m_app, n_nil]
      omega
    | some t =>
      have h3 := Nat.le_trans (w1 t) (m_call cs!"footnote" _)
      simp only [Inline.shown, inlinePieces, Option.getD, n_app, m_app]
      omega
  case image =>
    intro d t a
    have h1 := Nat.le_trans (w1 d) (m_braces _)
    have h3 := Nat.le_trans (w1 a) (m_call cs!"caption" _)
    simp only [Inline.shown, inlinePieces, n_app, m_app]
    split
    · rename_i e; subst e; rw [n_nil]; omega
    · omega
  case emphasis => intro c ih; exact Nat.le_trans ih (m_call _ _)
  case strong => intro c ih; exact Nat.le_trans ih (m_call _ _)
  case strikethrough => intro c ih; exact Nat.le_trans ih (m_call _ _)
  case linkReference =>
    intro l t h1 h2
    have h3 := m_braces (q := q) (inlinesPieces x t)
    simp only [Inline.shown, inlinePieces]
    split <;> simp only [m_app] <;> omega
  case nil => simp [Inline.shownL, n_nil]
  case cons =>
    intro i l h1 h2
    simp only [Inline.shownL, inlinesPieces, n_app, m_app]
    omega
  all_goals intros; simp [Inline.shown, n_nil]

theorem joined_m (sep : List Piece) (l : List (List Piece)) : (l.map (m q)).sum ≤ m q (joinedP sep l) := by
  fun_induction joinedP sep l with
  | case1 => simp
  | case2 a => simp
  | case3 a b l ih => simp only [List.map_cons, List.sum_cons, m_app] at ih ⊢; omega

theorem flatten_m (l : List (List Piece)) : m q l.flatten = (l.map (m q)).sum := by
  induction l with
  | nil => rfl
  | cons a l ih => simp [m_app, ih]

section
variable (hq : ∀ c, isWs c = true → q c = true) (hs : ∀ c, n q [c] ≤ n q (spell [c])) (x : Context)

include hq hs in
theorem row_n (r : List (List Inline)) : n q (Inline.shownL r.flatten) ≤ m q (rowP x r) := by
  have h : n q (Inline.shownL r.flatten) ≤ ((r.map (inlinesPieces x)).map (m q)).sum := by
    induction r with
    | nil => simp [Inline.shownL, n_nil]
    | cons c r ih =>
      have := (inline_n hq hs x).2 c
      rw [List.flatten_cons, shownL_append, n_app]
      simp only [List.map_cons, List.sum_cons]
      omega
  have := joined_m (q := q) [.word cs!" & "] (r.map (inlinesPieces x))
  simp only [rowP, m_app]
  omega

include hq hs in
theorem rows_n (rule : Str) (last : List Piece) (rows : List (List (List Inline))) :
    n q (Inline.shownL rows.flatten.flatten) ≤ m q (rowsP x rule last rows) := by
  cases rows with
  | nil => simp [Inline.shownL, n_nil]
  | cons h l =>
    have h1 := row_n hq hs x h
    have h2 : n q (Inline.shownL l.flatten.flatten) ≤ ((l.map fun r => rowP x r ++ last ++ [.newline]).map (m q)).sum := by
      induction l with
      | nil => simp [Inline.shownL, n_nil]
      | cons r l ih =>
        have := row_n hq hs x r
        rw [List.flatten_cons, List.flatten_append, shownL_append, n_app]
        simp only [List.map_cons, List.sum_cons, m_app]
        omega
    rw [List.flatten_cons, List.flatten_append, shownL_append, n_app]
    simp only [rowsP, m_app, flatten_m]
    omega

include hq hs in
theorem block_n (cfg : Config) :
    (∀ b, n q (Block.shown x.number b) ≤ m q (blockPieces cfg x b)) ∧
    (∀ i, n q (ListItem.shown x.number i) ≤ m q (itemPieces cfg x i)) ∧
    (∀ l, n q (Block.shownL x.number l) ≤ ((blocksPieces cfg x l).map (m q)).sum) ∧
    ∀ l, n q (ListItem.shownL x.number l) ≤ m q (itemsPieces cfg x l) := by
  have inl := (inline_n hq hs x).2
  have j := fun l => joined_m (q := q) [.newline, .newline] l
  apply Block.ind
  case paragraph => intro c; exact inl c
  case heading => intro v c; exact Nat.le_trans (inl c) (m_call _ _)
  case codeBlock =>
    intro k s
    have h : n q s ≤ m q [.word s] := by rw [m_word]; omega
    simp only [Block.shown, blockPieces]
    cases cfg.codeBlockStyle <;> exact Nat.le_trans h (m_env _ _ _)
  case htmlBlock =>
    intro s
    simp only [Block.shown, blockPieces, m_spelled]
    exact Nat.le_trans (spell_n hs s) (by omega)
  case table =>
    intro rows al
    simp only [Block.shown, blockPieces]
    cases cfg.tableStyle with
    | tabular => exact Nat.le_trans (rows_n hq hs x _ _ _) (m_env _ _ _)
    | longtabu => exact Nat.le_trans (rows_n hq hs x _ _ _) (m_env _ _ _)
    | booktabs =>
      refine Nat.le_trans (rows_n hq hs x cs!"\\midrule" [] rows) (Nat.le_trans ?_ (m_env _ _ _))
      simp only [m_app]
      omega
  case blockQuote =>
    intro b ih
    exact Nat.le_trans (Nat.le_trans ih (j _)) (m_env _ _ _)
  case list =>
    intro k i ih
    exact Nat.le_trans ih (m_env _ _ _)
  case githubAlert =>
    intro t b ih
    refine Nat.le_trans (Nat.le_trans ih (j _)) (Nat.le_trans ?_ (m_call _ _))
    rw [m_word]; omega
  case footnoteDefinition =>
    intro l b ih
    simp only [Block.shown, blockPieces]
    cases e : x.number l with
    | none => simp [n_nil]
    | some k =>
      simp only [Option.isSome, if_true]
      refine Nat.le_trans (Nat.le_trans ih (j _)) (Nat.le_trans ?_ (m_call _ _))
      rw [m_word]; omega
  case item =>
    intro t b ih
    have := j (blocksPieces cfg x b)
    simp only [ListItem.shown, itemPieces, m_app, m_word, List.cons_append]
    omega
  case nilB => simp [Block.shownL, n_nil]
  case consB =>
    intro b l h1 h2
    simp only [Block.shownL, blocksPieces, n_app, List.map_cons, List.sum_cons]
    omega
  case nilI => simp [ListItem.shownL, n_nil]
  case consI =>
    intro i l h1 h2
    simp only [ListItem.shownL, itemsPieces, n_app, m_app]
    omega
  all_goals intros; simp [Block.shown, n_nil]

end
end Told

/-- **C121.** Every character but whitespace and `^`, `~`, which have names in LaTeX, is in the LaTeX of a document at least as often as in
the strings of it that LaTeX shows, whatever the configuration. -/
theorem C121_told {dw : Str → Nat} (hw : dw [' '] = 1) (cfg : Config) (d : Document) {c : Char} (hc : isWs c = false) (h1 : c ≠ '^')
    (h2 : c ≠ '~') : (Block.shownL (footnoteNumber d) d.blocks).count c ≤ (renderLatex dw cfg d).count c := by
  have hq : ∀ a, isWs a = true → (fun x => x != c) a = true := fun a ha => by
    have : a ≠ c := by rintro rfl; simp [ha] at hc
    simpa using this
  have hs : ∀ a, Md.Told.n (fun x => x != c) [a] ≤ Md.Told.n (fun x => x != c) (Source.spell [a]) := by
    intro a
    rw [← Md.Told.count_n, ← Md.Told.count_n]
    by_cases e : a = c
    · subst e
      rw [List.count_singleton_self]
      apply List.count_pos_iff.2
      simp only [Source.spell, List.flatMap_cons, List.flatMap_nil, List.append_nil, spelling, List.lookup]
      repeat' split
      all_goals simp_all
    · rw [List.count_singleton, if_neg (by simpa using e)]
      exact Nat.zero_le _
  have h := (Told.block_n hq hs ⟨footnoteNumber d, lastDefinition d⟩ cfg).2.2.1 d.blocks
  have e := Exact.C87_exact hw cfg d
  rw [Md.Told.count_n, Md.Told.count_n, e]
  unfold Md.Told.n Exact.latexText
  rw [ink_lay hq, map_snd]
  exact Nat.le_trans h (Told.joined_m _ _)

/-- **C121**, a document with a nested list, a quote, a footnote with a number and one without, a table, an alert and a reference: with the
counts of a character in what LaTeX shows and in the LaTeX; and a character that has a name in LaTeX. -/
theorem C121_example :
    let d : Document := ⟨[
      .heading (.atx 3) [.text cs!"z {z}", .emphasis [.code cs!"x_z"], .footnoteReference cs!"n"],
      .list (.ordered 9) [.mk none [.paragraph [.link cs!"/z" (some cs!"z") [.text cs!"c"]]],
        .mk none [.codeBlock (.fenced (some cs!"rz")) cs!"let z;"]],
      .githubAlert .note [.paragraph [.linkReference [.text cs!"z"] [.code cs!"z"]]],
      .footnoteDefinition cs!"n" [.paragraph [.text cs!"z"], .footnoteDefinition cs!"in" [.paragraph [.text cs!"z"]]],
      .table [[[.text cs!"h"], []], [[], [.text cs!"z"]]] [.left, .center]]⟩
    (Block.shownL (footnoteNumber d) d.blocks).count 'z' = 9 ∧ (renderLatex List.length .default d).count 'z' = 10 ∧
    (Block.shownL (footnoteNumber d) d.blocks).count '{' = 1 ∧ '{' ∈ renderLatex List.length .default d ∧
    renderLatex List.length .default ⟨[.paragraph [.text cs!"^"]]⟩ = cs!"\\textasciicircum{}" := by
  decide +kernel

end Latex
end Verif
