import Verif.LatexSource
import Verif.HtmlLength
import Verif.EndToEnd
/-!
# C104: how long the LaTeX of a document is
-/
set_option autoImplicit false
set_option linter.unusedSimpArgs false
namespace Verif

/-! ## Specification -/

/-- The number of columns of a table. -/
def Block.columns : Block → Nat
  | .table _ al => al.length
  | _ => 0

/-- The number of columns of the tables of a document. -/
def Document.columns (d : Document) : Nat := (d.allBlocks.map Block.columns).sum

/-! ## Proof -/

namespace Latex
open Source

theorem lit_length (s : Str) : (lit s).length = s.length := by simp [lit]

theorem spell_char (c : Char) : ((spelling.lookup c).getD [c]).length ≤ 18 := by
  simp only [spelling, List.lookup]
  repeat' split
  all_goals simp

theorem spelled_length (s : Str) : (spelled s).length ≤ 18 * s.length := by
  rw [spelled, lit_length, spell]
  induction s with
  | nil => simp
  | cons c s ih =>
    have := spell_char c
    rw [List.flatMap_cons, List.length_append, List.length_cons]
    omega

theorem running_length (a : Bool) (s : Str) : (running a s).length ≤ 18 * s.length := by
  induction s generalizing a with
  | nil => simp [running]
  | cons c s ih =>
    have h1 := ih true
    have h2 := ih false
    have h3 := spelled_length [c]
    simp only [List.length_cons, List.length_nil] at h3
    simp only [running]
    split
    · split
      · rw [List.length_cons]; omega
      · rw [List.length_cons, List.length_cons]; omega
    · rw [List.length_append, List.length_cons]; omega

theorem textNode_length (s : Str) : (textNode s).length ≤ 18 * s.length := by
  unfold textNode
  split
  · have := spelled_length (s.map fun c => if c = '\n' then ' ' else c)
    rwa [List.length_map] at this
  · exact running_length _ _

theorem braces_length (t : Text) : (braces t).length = 2 + t.length := by simp [braces, lit]; omega
theorem call_length (n : Str) (t : Text) : (call n t).length = 3 + n.length + t.length := by
  simp [call, braces_length, lit]; omega
theorem env_length (n o : Str) (t : Text) : (env n o t).length = 16 + 2 * n.length + o.length + t.length := by
  simp [env, beginEnv, endEnv, lit]; omega

/-- What a document defines is not too long. -/
structure Within (x : Context) (D N : Nat) : Prop where
  target : ∀ l d t, x.target l = some (d, t) → d.length ≤ D
  number : ∀ l n, x.number l = some n → (digits n).length ≤ N

/-- What an inline costs. -/
def inlineCost (B : Nat) (i : Inline) : Nat := 40 + 18 * i.letters + i.labels * B

/-- What inlines cost. -/
def inlinesCost (B : Nat) (l : List Inline) : Nat := ((Inline.preL l).map (inlineCost B)).sum

theorem inlinesCost_cons (B : Nat) (i : Inline) (l : List Inline) :
    inlinesCost B (i :: l) = (i.pre.map (inlineCost B)).sum + inlinesCost B l := by
  simp [inlinesCost, Inline.preL]

theorem inlinesCost_append (B : Nat) (l m : List Inline) : inlinesCost B (l ++ m) = inlinesCost B l + inlinesCost B m := by
  induction l with
  | nil => simp [inlinesCost, Inline.preL]
  | cons i l ih => rw [List.cons_append, inlinesCost_cons, ih, inlinesCost_cons]; omega

section
variable {x : Context} {D N : Nat}

theorem inlines_length (hx : Within x D N) :
    (∀ i, (inlineText x i).length ≤ (i.pre.map (inlineCost (18 * D + N))).sum) ∧
    (∀ l, (inlineTexts x l).length ≤ inlinesCost (18 * D + N) l) := by
  generalize hB : 18 * D + N = B
  apply Inline.ind
  case text =>
    intro s
    have := textNode_length s
    simp [inlineText, Inline.pre, inlineCost, Inline.letters, Inline.labels]
    omega
  case lineBreak => simp [inlineText, Inline.pre, inlineCost, Inline.letters, Inline.labels, lit]
  case code =>
    intro s
    have := spelled_length s
    simp [inlineText, Inline.pre, inlineCost, Inline.letters, Inline.labels, call_length]
    omega
  case html =>
    intro s
    have := spelled_length s
    simp [inlineText, Inline.pre, inlineCost, Inline.letters, Inline.labels]
    omega
  case link =>
    intro d t c ih
    have h1 := spelled_length d
    cases t with
    | none =>
      simp [inlineText, Inline.pre, inlineCost, Inline.letters, Inline.labels, call_length, braces_length, inlinesCost] at ih ⊢
      omega
    | some t =>
      have h2 := spelled_length t
      simp [inlineText, Inline.pre, inlineCost, Inline.letters, Inline.labels, call_length, braces_length, inlinesCost] at ih ⊢
      omega
  case linkReference =>
    intro l t h1 h2
    simp only [inlineText, Inline.pre, List.map_cons, List.sum_cons, List.map_append, List.sum_append]
    split
    · rename_i d title e
      have h3 := spelled_length d
      have h4 := hx.target _ _ _ e
      simp [inlineCost, Inline.letters, Inline.labels, call_length, braces_length, inlinesCost] at h1 h2 ⊢
      omega
    · simp [inlineCost, Inline.letters, Inline.labels, lit, inlinesCost] at h1 h2 ⊢
      omega
  case image =>
    intro d t a
    have h1 := spelled_length d
    have h2 := spelled_length a
    simp only [inlineText, Inline.pre]
    split
    · simp [inlineCost, Inline.letters, Inline.labels, call_length, braces_length]
      omega
    · simp [inlineCost, Inline.letters, Inline.labels, call_length, braces_length]
      omega
  case emphasis =>
    intro c ih
    simp [inlineText, Inline.pre, inlineCost, Inline.letters, Inline.labels, call_length, inlinesCost] at ih ⊢
    omega
  case strong =>
    intro c ih
    simp [inlineText, Inline.pre, inlineCost, Inline.letters, Inline.labels, call_length, inlinesCost] at ih ⊢
    omega
  case strikethrough =>
    intro c ih
    simp [inlineText, Inline.pre, inlineCost, Inline.letters, Inline.labels, call_length, inlinesCost] at ih ⊢
    omega
  case autolink =>
    intro s
    have := spelled_length s
    simp [inlineText, Inline.pre, inlineCost, Inline.letters, Inline.labels, call_length]
    omega
  case footnoteReference =>
    intro s
    simp only [inlineText, Inline.pre]
    split
    · rename_i n e
      have h1 := hx.number _ _ e
      simp [inlineCost, Inline.letters, Inline.labels, call_length, lit]
      omega
    · have h1 := spelled_length s
      simp [inlineCost, Inline.letters, Inline.labels, lit]
      omega
  case empty => simp [inlineText]
  case nil => simp [inlineTexts]
  case cons =>
    intro i l h1 h2
    rw [inlineTexts, List.length_append, inlinesCost_cons]
    omega

theorem cells_length (hx : Within x D N) (r : List (List Inline)) :
    (joined (lit cs!" & ") (r.map (inlineTexts x))).length ≤ 3 * r.length + inlinesCost (18 * D + N) r.flatten := by
  induction r with
  | nil => simp [joined]
  | cons c r ih =>
    have h1 := (inlines_length hx).2 c
    rw [List.flatten_cons, inlinesCost_append]
    cases r with
    | nil => simp [joined]; omega
    | cons c' r =>
      simp only [List.map_cons, joined, List.length_append, lit_length, List.length_cons, List.length_nil] at ih ⊢
      omega

theorem row_length (hx : Within x D N) (r : List (List Inline)) :
    (row x r).length ≤ 3 + 3 * r.length + inlinesCost (18 * D + N) r.flatten := by
  have := cells_length hx r
  rw [row, List.length_append, lit_length]
  simp only [List.length_cons, List.length_nil]
  omega

theorem rows_length (hx : Within x D N) (rule last : Str) (rows : List (List (List Inline))) :
    (rowsText x rule last rows).length ≤ 2 + rule.length + (4 + last.length) * rows.length + 3 * rows.flatten.length +
      inlinesCost (18 * D + N) rows.flatten.flatten := by
  have key : ∀ l : List (List (List Inline)), ((l.map fun r => row x r ++ lit (last ++ cs!"\n")).flatten).length ≤
      (4 + last.length) * l.length + 3 * l.flatten.length + inlinesCost (18 * D + N) l.flatten.flatten := by
    intro l
    induction l with
    | nil => simp
    | cons r l ih =>
      have := row_length hx r
      simp only [List.map_cons, List.flatten_cons, List.length_append, lit_length, List.length_cons, List.length_nil,
        inlinesCost_append, List.flatten_append, Nat.mul_add] at ih ⊢
      omega
  cases rows with
  | nil => simp [rowsText]
  | cons h l =>
    have h1 := row_length hx h
    have h2 := key l
    simp only [rowsText, List.flatten_cons, List.length_append, lit_length, List.length_cons, List.length_nil,
      inlinesCost_append, List.flatten_append, Nat.mul_add] at h2 ⊢
    omega

/-- What a block costs. -/
def blockCost (B : Nat) (b : Block) : Nat :=
  80 + 30 * b.frames + 18 * b.letters + b.labels * B + b.columns + 3 * inlineCount b.directInlines + inlinesCost B b.directInlines

/-- What blocks cost. -/
def blocksCost (B : Nat) (l : List Block) : Nat := (l.map (blockCost B)).sum

theorem blocksCost_append (B : Nat) (l m : List Block) : blocksCost B (l ++ m) = blocksCost B l + blocksCost B m := by
  simp [blocksCost]

theorem blocksCost_cons (B : Nat) (b : Block) (l : List Block) : blocksCost B (b :: l) = blockCost B b + blocksCost B l := by
  simp [blocksCost]

theorem cost_leaf (B : Nat) {b : Block} (h : b.pre = [b]) : blocksCost B b.pre = blockCost B b := by
  rw [h]; simp [blocksCost]

theorem joined_length (l : List Text) : (joined (lit cs!"\n\n") l).length ≤ (l.map fun t => 2 + t.length).sum := by
  induction l with
  | nil => simp [joined]
  | cons a l ih =>
    cases l with
    | nil => simp [joined]
    | cons b l =>
      simp only [joined, List.length_append, lit_length, List.length_cons, List.length_nil, List.map_cons, List.sum_cons] at ih ⊢
      omega

theorem blocks_length (cfg : Config) (hx : Within x D N) :
    (∀ b, 2 + (blockText cfg x b).length ≤ blocksCost (18 * D + N) b.pre) ∧
    (∀ i, (itemText cfg x i).length ≤ 30 + blocksCost (18 * D + N) i.pre) ∧
    (∀ l, ((blockTexts cfg x l).map fun t => 2 + t.length).sum ≤ blocksCost (18 * D + N) (Block.preL l)) ∧
    (∀ l, (itemsText cfg x l).length ≤ 30 * l.length + blocksCost (18 * D + N) (ListItem.preL l)) := by
  have hrows := fun rule last rows => rows_length hx rule last rows
  have hinl := (inlines_length hx).2
  have hfoot := hx.number
  obtain ⟨B, hB, hN⟩ : ∃ B, B = 18 * D + N ∧ N ≤ B := ⟨_, rfl, by omega⟩
  rw [← hB] at hrows hinl ⊢
  apply Block.ind
  case paragraph =>
    intro c
    have := hinl c
    rw [cost_leaf _ (by simp [Block.pre])]
    simp [blockText, blockCost, Block.directInlines]
    omega
  case heading =>
    intro k c
    have := hinl c
    have hk : (sectioning k).length ≤ 13 := by
      unfold sectioning
      split <;> decide
    rw [cost_leaf _ (by simp [Block.pre])]
    simp [blockText, call_length, blockCost, Block.directInlines]
    omega
  case thematicBreak =>
    rw [cost_leaf _ (by simp [Block.pre])]
    simp [blockText, call_length, blockCost]
    omega
  case blockQuote =>
    intro b ih
    have := joined_length (blockTexts cfg x b)
    rw [Block.pre, blocksCost_cons]
    simp only [blockText, env_length, blockCost, List.length_cons, List.length_nil]
    omega
  case list =>
    intro k i ih
    have h1 : (listName k).length ≤ 9 := by cases k <;> simp [listName]
    have h2 : (Block.list k i).frames = i.length := rfl
    rw [Block.pre, blocksCost_cons]
    simp only [blockText, env_length, blockCost, h2, List.length_nil]
    omega
  case codeBlock =>
    intro k s
    rw [cost_leaf _ (by simp [Block.pre])]
    have h1 : ((language k).getD []).length + s.length = (Block.codeBlock k s).letters := by
      cases k <;> simp [language, Block.letters]; omega
    simp only [blockText, blockCost]
    cases cfg.codeBlockStyle with
    | verbatim => simp only [codeText, env_length, lit_length, List.length_cons, List.length_nil]; omega
    | listings =>
      cases e : language k <;> rw [e] at h1 <;>
        simp only [codeText, e, env_length, lit_length, List.length_cons, List.length_nil, List.length_append, Option.getD] at h1 ⊢ <;> omega
    | minted =>
      cases e : language k <;> rw [e] at h1 <;>
        simp only [codeText, e, env_length, lit_length, List.length_cons, List.length_nil, List.length_append, Option.getD] at h1 ⊢ <;> omega
  case htmlBlock =>
    intro s
    have := spelled_length s
    rw [cost_leaf _ (by simp [Block.pre])]
    simp only [blockText, blockCost, Block.letters]
    omega
  case definition =>
    intro l d t
    rw [cost_leaf _ (by simp [Block.pre])]
    simp only [blockText, blockCost, List.length_nil]
    omega
  case table =>
    intro rows al
    rw [cost_leaf _ (by simp [Block.pre])]
    have h7 := Html.cells_count_le rows.flatten
    have h1 := hrows cs!"\\hline" [] rows
    have h2 := hrows cs!"\\\\ \\hline" cs!" \\\\" rows
    have h3 := hrows cs!"\\midrule" [] rows
    simp only [List.length_cons, List.length_nil] at h1 h2 h3
    simp only [blockText, blockCost, Block.frames, Block.columns, Block.directInlines]
    cases cfg.tableStyle <;>
      simp only [tableText, env_length, List.length_append, List.length_cons, List.length_nil, List.length_map, lit_length] <;> omega
  case footnoteDefinition =>
    intro l b ih
    have h0 := joined_length (blockTexts cfg x b)
    rw [Block.pre, blocksCost_cons]
    simp only [blockText]
    split
    · rename_i n e
      have h1 := hfoot _ _ e
      simp only [call_length, List.length_append, lit_length, List.length_cons, List.length_nil, blockCost, Block.labels]
      omega
    · simp only [List.length_nil, blockCost]; omega
  case githubAlert =>
    intro t b ih
    have h0 := joined_length (blockTexts cfg x b)
    have h1 : (alertName t).length ≤ 9 + (Block.githubAlert t b).letters := by
      cases t <;> simp [alertName, Block.letters]
    rw [Block.pre, blocksCost_cons]
    simp only [blockText, call_length, List.length_append, lit_length, List.length_cons, List.length_nil, blockCost]
    omega
  case empty =>
    rw [cost_leaf _ (by simp [Block.pre])]
    simp [blockText, blockCost]
    omega
  case item =>
    intro t b ih
    have h0 := joined_length (blockTexts cfg x b)
    have h1 : (box t).length ≤ 14 := by rcases t with _ | _ | _ <;> decide
    rw [ListItem.pre]
    simp only [itemText, List.length_append, lit_length, List.length_cons, List.length_nil]
    omega
  case nilB => simp [blockTexts]
  case consB =>
    intro b l h1 h2
    rw [Block.preL, blocksCost_append]
    simp only [blockTexts, List.map_cons, List.sum_cons]
    omega
  case nilI => simp [itemsText]
  case consI =>
    intro i l h1 h2
    rw [ListItem.preL, blocksCost_append, List.length_cons]
    simp only [itemsText, List.length_append]
    omega

end

theorem cost_eq (B : Nat) (d : Document) : blocksCost B (Block.preL d.blocks) ≤
    80 * (d.size + d.frames) + 18 * d.letters + d.labels * B + d.columns := by
  have h1 : ∀ l : List Inline, (l.map (inlineCost B)).sum = 40 * l.length + 18 * (l.map Inline.letters).sum + (l.map Inline.labels).sum * B := by
    intro l
    induction l with
    | nil => simp
    | cons i l ih =>
      simp only [List.map_cons, List.sum_cons, ih, inlineCost, List.length_cons, Nat.add_mul]
      omega
  have h2 : ∀ l : List Block, blocksCost B l = 80 * l.length + 30 * (l.map Block.frames).sum + 18 * (l.map Block.letters).sum +
      (l.map Block.labels).sum * B + (l.map Block.columns).sum + (3 * (l.flatMap fun b => Inline.preL b.directInlines).length +
        ((l.flatMap fun b => Inline.preL b.directInlines).map (inlineCost B)).sum) := by
    intro l
    induction l with
    | nil => simp [blocksCost]
    | cons b l ih =>
      rw [blocksCost_cons, ih]
      simp only [List.map_cons, List.sum_cons, blockCost, List.length_cons, Nat.add_mul, List.flatMap_cons, List.length_append,
        List.map_append, List.sum_append, inlineCount, inlinesCost]
      omega
  have h3 := h2 d.allBlocks
  have h4 := h1 d.allInlines
  have e1 : d.allBlocks = Block.preL d.blocks := rfl
  have e2 : (d.allBlocks.flatMap fun b => Inline.preL b.directInlines) = d.allInlines := rfl
  rw [e2, h4] at h3
  rw [← e1, h3, Document.size, Document.letters, Document.labels, Document.frames, Document.columns, Nat.add_mul]
  omega

theorem outer_sub : (∀ b, (outer b).Sublist b.pre) ∧ (∀ i, (outerItem i).Sublist (ListItem.pre i)) ∧
    (∀ l, (outerL l).Sublist (Block.preL l)) ∧ (∀ l, (outerItems l).Sublist (ListItem.preL l)) := by
  apply Block.ind
  case blockQuote => intro b ih; simpa [outer, Block.pre] using ih
  case list => intro k i ih; simpa [outer, Block.pre] using ih
  case githubAlert => intro t b ih; simpa [outer, Block.pre] using ih
  case footnoteDefinition => intro l b ih; simp [outer, Block.pre]
  case item => intro t b ih; simpa [outerItem, ListItem.pre] using ih
  case nilB => simp [outerL]
  case consB => intro b l h1 h2; simpa [outerL, Block.preL] using h1.append h2
  case nilI => simp [outerItems]
  case consI => intro i l h1 h2; simpa [outerItems, ListItem.preL] using h1.append h2
  all_goals intros; simp [outer, Block.pre]

theorem target_length {d : Document} {l : List Inline} {u : Str} {t : Option Str} (h : lastDefinition d l = some (u, t)) :
    u.length ≤ d.letters := by
  simp only [lastDefinition, Option.map_eq_some_iff] at h
  obtain ⟨e, he, h2⟩ := h
  have h3 := List.mem_of_find?_eq_some he
  rw [List.mem_reverse, List.mem_filterMap] at h3
  obtain ⟨b, hb, hb2⟩ := h3
  cases b <;> simp only [linkDef, Option.some.injEq, reduceCtorEq] at hb2
  rename_i l' u' t'
  subst hb2
  simp only [Prod.mk.injEq] at h2
  obtain ⟨rfl, rfl⟩ := h2
  have h4 : Block.definition l' u' t' ∈ d.allBlocks := (outer_sub.2.2.1 d.blocks).subset hb
  have := Html.mem_sum_le (f := Block.letters) h4
  simp only [Block.letters] at this
  rw [Document.letters]
  omega

theorem lastRank_le (l : List Str) (n : Nat) {x : Str} {m : Nat} (h : lastRank l n x = some m) : m < n + l.length := by
  induction l generalizing n with
  | nil => simp [lastRank] at h
  | cons a l ih =>
    rw [List.length_cons]
    simp only [lastRank] at h
    split at h
    · rename_i k e
      simp only [Option.some.injEq] at h
      subst h
      have := ih _ e
      omega
    · split at h
      · simp only [Option.some.injEq] at h
        omega
      · cases h

theorem number_length {d : Document} {l : Str} {n : Nat} (h : footnoteNumber d l = some n) : (digits n).length ≤ d.labels := by
  have h1 := lastRank_le _ _ h
  have h2 : (footnoteLabels d).length ≤ d.labels := by
    have h3 : ∀ l : List Block, (l.filterMap footnoteLabel).length ≤ (l.map Block.labels).sum := by
      intro l
      induction l with
      | nil => simp
      | cons b l ih =>
        rw [List.filterMap_cons]
        cases b <;> simp only [footnoteLabel, List.map_cons, List.sum_cons, Block.labels, List.length_cons] <;> omega
    have h4 := (List.Sublist.filterMap footnoteLabel (outer_sub.2.2.1 d.blocks)).length_le
    have h5 := h3 d.allBlocks
    have e1 : d.allBlocks = Block.preL d.blocks := rfl
    rw [e1] at h5
    rw [footnoteLabels, Document.labels, e1]
    omega
  have h3 : ∀ l n x m, lastRank l n x = some m → n ≤ m := by
    intro l
    induction l with
    | nil => intro n x m h; simp [lastRank] at h
    | cons a l ih =>
      intro n x m h
      simp only [lastRank] at h
      split at h
      · rename_i k e
        have := ih _ _ _ e
        simp only [Option.some.injEq] at h
        omega
      · split at h
        · simp only [Option.some.injEq] at h
          omega
        · cases h
  have h4 := h3 _ _ _ _ h
  refine Nat.le_trans ?_ (show n ≤ d.labels by omega)
  rw [digits, Nat.length_toDigits_le_iff (by decide) (by omega)]
  exact Nat.lt_pow_self (by decide)

theorem fills_length {t : Text} {s : Str} (h : Fills t s) : s.length = t.length := by
  induction h with
  | nil => rfl
  | _ => simp [*]

/-- **C104.** The LaTeX of a document has at most 80 characters for each block, inline, list item, row and empty cell, 18 for
each character of its strings, for each reference and footnote again 18 for each of these characters and one for each
reference and footnote, and one for each column, whatever the styles and the width. -/
theorem C104_latex (dw : Str → Nat) (cfg : Config) (d : Document) :
    (renderLatex dw cfg d).length ≤
      80 * (d.size + d.frames) + 18 * d.letters + d.labels * (18 * d.letters + d.labels) + d.columns := by
  rw [fills_length (C59_source dw cfg d), documentText]
  refine Nat.le_trans (joined_length _) (Nat.le_trans ((blocks_length (D := d.letters) (N := d.labels) cfg ⟨?_, ?_⟩).2.2.1 d.blocks)
    (cost_eq _ d))
  · intro l u t h
    have := target_length h
    exact this
  · intro l n h
    exact number_length h

/-- The tables of a parsed document have no more columns than it has inlines and empty cells. -/
theorem columns_le {d : Document} (h : ∀ rows al, d.HasBlock (.table rows al) → rows ≠ [] ∧ ∀ row ∈ rows, row.length = al.length) :
    d.columns ≤ d.size + d.frames := by
  have key : ∀ b, d.HasBlock b → b.columns ≤ inlineCount b.directInlines + b.frames := by
    intro b hb
    cases b <;> simp only [Block.columns, Nat.zero_le]
    rename_i rows al
    obtain ⟨h1, h2⟩ := h rows al hb
    cases rows with
    | nil => exact absurd rfl h1
    | cons r rows =>
      have h3 := h2 r (by simp)
      have h4 := Html.cells_count_le (r :: rows).flatten
      simp only [List.flatten_cons, List.length_append] at h4
      simp only [Block.directInlines, Block.frames, List.flatten_cons]
      omega
  have h1 : ∀ l : List Block, (∀ b ∈ l, b.columns ≤ inlineCount b.directInlines + b.frames) →
      (l.map Block.columns).sum ≤ (l.flatMap fun b => Inline.preL b.directInlines).length + (l.map Block.frames).sum := by
    intro l
    induction l with
    | nil => simp
    | cons b l ih =>
      intro h
      have h2 := h b (by simp)
      have h3 := ih fun c hc => h c (by simp [hc])
      simp only [List.map_cons, List.sum_cons, List.flatMap_cons, List.length_append, inlineCount] at h2 ⊢
      omega
  have h2 := h1 d.allBlocks fun b hb => key b ((Document.mem_allBlocks d b).1 hb)
  have e2 : (d.allBlocks.flatMap fun b => Inline.preL b.directInlines) = d.allInlines := rfl
  rw [e2] at h2
  rw [Document.columns, Document.size, Document.frames]
  omega

section
variable {x : PExt} {pc : PConfig}

/-- **C104.** The LaTeX of a text of `n` characters without an escaped closing bracket has at most `1000 n²` characters. -/
theorem C104_text (hk : pc.Keeps) (hm : Modest x pc.entities) {s : Str} {d : Document} (h : parseMarkdown x pc s = some d)
    (hs : ¬ HasEscapedBracket s) (dw : Str → Nat) (cfg : Config) :
    (renderLatex dw cfg d).length ≤ 1000 * (s.length * s.length) := by
  have h1 := C98_linear hk hm h hs
  have h2 := C95_quadratic hk h hs
  have h3 := C104_latex dw cfg d
  have h4 := columns_le fun rows al ht => ⟨(C34_tables_rectangular hk.plain h ht).1, (C34_tables_rectangular hk.plain h ht).2.2⟩
  generalize d.letters = a at *
  generalize d.labels = b at *
  generalize s.length = n at *
  have h5 : b * (18 * a + b) ≤ (3 * n) * (54 * n) := Nat.mul_le_mul (by omega) (by omega)
  have h6 : (3 * n) * (54 * n) = 162 * (n * n) := by
    rw [Nat.mul_assoc, Nat.mul_left_comm n 54 n, ← Nat.mul_assoc]
  have h7 : n ≤ n * n := Nat.le_mul_self n
  omega

/-- **C104.** The LaTeX of a text of `n` characters without an escaped closing bracket and a bar, if its document has no
references and footnotes, has at most `550 n` characters. -/
theorem C104_plain (hk : pc.Keeps) (hm : Modest x pc.entities) {s : Str} {d : Document} (h : parseMarkdown x pc s = some d)
    (hs : ¬ HasEscapedBracket s) (hb : '|' ∉ s) (hd : d.labels = 0) (dw : Str → Nat) (cfg : Config) :
    (renderLatex dw cfg d).length ≤ 550 * s.length := by
  have h1 := C98_linear hk hm h hs
  have h2 := C95_linear hk h hs hb
  have h3 := C104_latex dw cfg d
  have h4 := columns_le fun rows al ht => ⟨(C34_tables_rectangular hk.plain h ht).1, (C34_tables_rectangular hk.plain h ht).2.2⟩
  rw [hd, Nat.zero_mul] at h3
  omega

end

theorem row_min (x : Source.Context) (r : List (List Inline)) : 3 * r.length ≤ (row x r).length := by
  have key : ∀ r : List (List Inline), 3 * r.length ≤ (joined (lit cs!" & ") (r.map (inlineTexts x))).length + 3 := by
    intro r
    induction r with
    | nil => simp
    | cons c r ih =>
      cases r with
      | nil => simp
      | cons c' r =>
        simp only [List.map_cons, joined, List.length_append, lit_length, List.length_cons, List.length_nil] at ih ⊢
        omega
  have := key r
  rw [row, List.length_append, lit_length]
  exact this

theorem rows_min (x : Source.Context) (rule last : Str) (rows : List (List (List Inline))) :
    3 * rows.flatten.length ≤ (rowsText x rule last rows).length := by
  have key : ∀ l : List (List (List Inline)), 3 * l.flatten.length ≤
      ((l.map fun r => row x r ++ lit (last ++ cs!"\n")).flatten).length := by
    intro l
    induction l with
    | nil => simp
    | cons r l ih =>
      have := row_min x r
      simp only [List.map_cons, List.flatten_cons, List.length_append] at ih ⊢
      omega
  cases rows with
  | nil => simp
  | cons h l =>
    have h1 := row_min x h
    have h2 := key l
    simp only [rowsText, List.flatten_cons, List.length_append] at h2 ⊢
    omega

theorem table_min (dw : Str → Nat) (cfg : Config) (rows : List (List (List Inline))) (al : List Alignment) :
    3 * rows.flatten.length ≤ (renderLatex dw cfg ⟨[.table rows al]⟩).length := by
  rw [fills_length (C59_source dw cfg _)]
  simp only [documentText, blockTexts, joined, blockText]
  generalize (⟨footnoteNumber _, lastDefinition _⟩ : Source.Context) = x
  cases cfg.tableStyle <;> simp only [tableText, env_length, List.length_append]
  · have := rows_min x cs!"\\hline" [] rows; omega
  · have := rows_min x cs!"\\\\ \\hline" cs!" \\\\" rows; omega
  · have := rows_min x cs!"\\midrule" [] rows; omega

end Latex

/-- **C104**, lower bound: a text of `4 n + 3 m + 2` characters whose LaTeX has at least `3 n (m + 1)` characters. -/
theorem C104_quadratic (x : PExt) (ent : Str → Option Str) {n : Nat} (m : Nat) (hn : 1 ≤ n) (dw : Str → Nat) (cfg : Latex.Config) :
    (wideTable n m).length = 4 * n + 3 * m + 2 ∧
    ∃ d, parseMarkdown x (PConfig.default ent) (wideTable n m) = some d ∧
      3 * (n * (m + 1)) ≤ (Latex.renderLatex dw cfg d).length := by
  refine ⟨(C95_table x ent m hn).1, ?_⟩
  have h := C63_table (x := x) (cfg := PConfig.default ent) (allParse_default ent) rfl (k := 0) (k' := 0)
    (hs := List.replicate n ['a']) (ds := List.replicate n ['-']) (closed := false) (closed' := false)
    (header := List.replicate n [.text ['a']]) (aligns := List.replicate n .none) (nl := ['\n']) (e := ['\n'])
    (by omega) (by omega) (by cases n <;> simp_all [List.replicate_succ]) (cells_a x ent n) (.inl rfl) (aligns_dash n) (by simp)
    (.inl (.inl rfl)) (rows_a x ent m) (by intro k t _ he; cases k <;> simp [List.replicate_succ] at he)
  rw [rowText_replicate _ _ hn, rowText_replicate _ _ hn] at h
  have h0 : parseMarkdown x (PConfig.default ent) [] = some ⟨[]⟩ := C39_blank x _ .nil
  rw [h0] at h
  have h1 : ∀ d : Document, d = ⟨[.table (List.replicate n [.text ['a']] ::
      ((List.replicate m [[.text ['a']]]).map (fitted (List.replicate n [Inline.text ['a']]).length))) (List.replicate n .none)]⟩ →
      3 * (n * (m + 1)) ≤ (Latex.renderLatex dw cfg d).length → ∃ d, parseMarkdown x (PConfig.default ent) (wideTable n m) = some d ∧
      3 * (n * (m + 1)) ≤ (Latex.renderLatex dw cfg d).length := by
    rintro d rfl hd
    exact ⟨_, h, hd⟩
  refine h1 _ rfl (Nat.le_trans ?_ (Latex.table_min dw cfg _ _))
  have h3 : (fitted n [[.text ['a']]]).length = n := by simp [fitted]
  have h4 : ∀ k, (List.replicate k (fitted n [[Inline.text ['a']]])).flatten.length = k * n := by
    intro k
    simp [List.length_flatten, h3]
  rw [List.flatten_cons, List.length_append, List.map_replicate, List.length_replicate, h4, Nat.mul_add, Nat.mul_comm m n]
  omega

/-- A text to which all this applies, and how long its LaTeX is. -/
theorem C104_example :
    let s := cs!"- a &amp; [b]\n- \n\n[b]: c \"d\"\n\n|e| |\n|-|-|\n|f|\n"
    let cfg := PConfig.default fun n => if n = cs!"&amp;" then some ['&'] else none
    cfg.Keeps ∧ Modest PExt.ascii cfg.entities ∧ ¬ HasEscapedBracket s ∧ s.length = 46 ∧
    (parseMarkdown PExt.ascii cfg s).map (fun d => (d.size, d.letters, d.labels, d.frames, d.columns)) = some (12, 11, 1, 5, 2) ∧
    (parseMarkdown PExt.ascii cfg s).map (fun d => (Latex.renderLatex List.length Latex.Config.default d).length) = some 121 := by
  refine ⟨keeps_default _, modest_ascii, ?_, ?_, ?_, ?_⟩
  · show ¬ ['\\', ']'] <:+: _
    decide +kernel
  all_goals decide +kernel

end Verif
