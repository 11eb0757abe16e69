import Verif.DocSize
import Verif.InlineExactMain
/-!
# How large a document can be (C95, lower bounds)

The bounds of `DocSize.lean` are of the right order: a table can have as many cells as the product of two numbers of
characters, and with escaped closing brackets references double at each level of nesting.
-/
set_option autoImplicit false
namespace Verif
open Nom Exact

/-! ## Tables -/

/-- A header of `n` cells `a`, a delimiter row, and `m` rows with one cell. -/
def wideTable (n m : Nat) : Str :=
  (List.replicate n cs!"|a").flatten ++ '\n' :: ((List.replicate n cs!"|-").flatten ++ '\n' :: (List.replicate m cs!"|a\n").flatten)

theorem rowText_replicate (c : Char) (n : Nat) (hn : 1 ≤ n) :
    rowText 0 (List.replicate n [c]) false = (List.replicate n ['|', c]).flatten := by
  have : ∀ n, '|' :: joinWith ['|'] (List.replicate (n + 1) [c]) = (List.replicate (n + 1) ['|', c]).flatten := by
    intro n
    induction n with
    | zero => rfl
    | succ n ih =>
      rw [List.replicate_succ (n := n + 1), List.replicate_succ (n := n + 1) (a := ['|', c]), List.flatten_cons, ← ih]
      simp [joinWith, List.replicate_succ]
  obtain ⟨n, rfl⟩ : ∃ k, n = k + 1 := ⟨n - 1, by omega⟩
  rw [← this n]
  simp [rowText]

theorem cell_a (x : PExt) (ent : Str → Option Str) : Cell x ent ['a'] [.text ['a']] :=
  ⟨by simp, ['a'], .chr (by decide) .nil, .text1 (t := ['a']) (by simp) (plainText_of (by decide) (by decide))⟩

theorem cells_a (x : PExt) (ent : Str → Option Str) (n : Nat) :
    Cells x ent (List.replicate n ['a']) (List.replicate n [.text ['a']]) := by
  induction n with
  | zero => exact .nil
  | succ n ih => exact .cons (cell_a x ent) ih

theorem aligns_dash (n : Nat) : AlignCells (List.replicate n ['-']) (List.replicate n .none) := by
  induction n with
  | zero => exact .nil
  | succ n ih => exact .cons ⟨[], ['-'], [], by simp, .none (n := 1) (by decide), by simp, rfl⟩ ih

theorem rows_a (x : PExt) (ent : Str → Option Str) (m : Nat) :
    Rows x ent [] (List.replicate m cs!"|a\n").flatten (List.replicate m [[.text ['a']]]) := by
  induction m with
  | zero => exact .nil
  | succ m ih =>
    exact .cons (k := 0) (cells := [['a']]) (closed := false) (e := ['\n']) (by omega) (by simp) (.cons (cell_a x ent) .nil)
      (.inl (.inl rfl)) ih

/-- **C95**, tables: a text of `4 n + 3 m + 2` characters without brackets with `n (m + 1)` cells. -/
theorem C95_table (x : PExt) (ent : Str → Option Str) {n : Nat} (m : Nat) (hn : 1 ≤ n) :
    (wideTable n m).length = 4 * n + 3 * m + 2 ∧
    ∃ d, parseMarkdown x (PConfig.default ent) (wideTable n m) = some d ∧ d.size = n * (m + 1) + 1 := by
  constructor
  · simp [wideTable]; omega
  have h := C63_table (x := x) (cfg := PConfig.default ent) (allParse_default ent) rfl (k := 0) (k' := 0)
    (hs := List.replicate n ['a']) (ds := List.replicate n ['-']) (closed := false) (closed' := false)
    (header := List.replicate n [.text ['a']]) (aligns := List.replicate n .none) (nl := ['\n']) (e := ['\n'])
    (by omega) (by omega) (by cases n <;> simp_all [List.replicate_succ]) (cells_a x ent n) (.inl rfl) (aligns_dash n) (by simp)
    (.inl (.inl rfl)) (rows_a x ent m) (by intro k t _ he; cases k <;> simp [List.replicate_succ] at he)
  rw [rowText_replicate _ _ hn, rowText_replicate _ _ hn] at h
  have h0 : parseMarkdown x (PConfig.default ent) [] = some ⟨[]⟩ := C39_blank x _ .nil
  rw [h0] at h
  refine ⟨_, h, ?_⟩
  rw [Document.size_eq]
  simp only [Block.preL, Block.pre, List.append_nil]
  rw [weight_cons]
  simp only [Block.directInlines]
  rw [inlineCount_flatten, List.flatten_cons, cellsCount_append]
  have h1 : ∀ k c, cellsCount (List.replicate k [.text c]) = k := by
    intro k c
    simp [cellsCount, inlineCount, Inline.preL, Inline.pre]
  have h2 : ∀ k, cellsCount (List.replicate k (fitted n [[.text ['a']]])).flatten = k * n := by
    intro k
    have : fitted n [[.text ['a']]] = [.text ['a']] :: List.replicate (n - 1) [.text []] := by
      obtain ⟨n, rfl⟩ : ∃ k, n = k + 1 := ⟨n - 1, by omega⟩
      simp [fitted, List.take_replicate]
    induction k with
    | zero => simp [cellsCount]
    | succ k ih =>
      rw [List.replicate_succ, List.flatten_cons, cellsCount_append, ih, this]
      have h3 := cellsCount_append [[.text ['a']]] (List.replicate (n - 1) [.text []])
      have h4 := h1 1 ['a']
      simp only [List.replicate_one] at h4
      rw [List.singleton_append] at h3
      rw [h3, h1, h4, Nat.add_mul]
      omega
  rw [h1, List.map_replicate, List.length_replicate, h2]
  simp only [weight, List.map_nil, List.sum_nil]
  rw [Nat.mul_add, Nat.mul_comm m n]
  omega

/-! ## References -/

/-- Every closing bracket behind a backslash. -/
def escapeBrackets (s : Str) : Str := s.flatMap fun c => if c = ']' then ['\\', ']'] else [c]

/-- `a` in `n` pairs of brackets, those inside escaped: `[a]`, `[[a\]]`, `[[[a\\]\]]`. -/
def nestedText : Nat → Str
  | 0 => ['a']
  | n + 1 => '[' :: (escapeBrackets (nestedText n) ++ [']'])

/-- `n` references, each in the text and in the label of the next. -/
def nestedReferences : Nat → List Inline
  | 0 => [.text ['a']]
  | n + 1 => [.linkReference (nestedReferences n) (nestedReferences n)]

theorem unescapes_escapeBrackets (s : Str) : Unescapes ']' (escapeBrackets s) s := by
  induction s with
  | nil => exact .nil
  | cons c s ih =>
    unfold escapeBrackets
    rw [List.flatMap_cons]
    split
    · next h => subst h; exact .esc ih
    · next h => exact .char h ih

theorem escapeBrackets_append (s t : Str) : escapeBrackets (s ++ t) = escapeBrackets s ++ escapeBrackets t := by
  simp [escapeBrackets]

theorem escapeBrackets_length (s : Str) : (escapeBrackets s).length = s.length + s.count ']' := by
  induction s with
  | nil => rfl
  | cons c s ih =>
    unfold escapeBrackets at ih ⊢
    rw [List.flatMap_cons, List.length_append, ih, List.count_cons]
    split
    · next h => subst h; simp; omega
    · next h => simp [h]; omega

theorem escapeBrackets_count (s : Str) : (escapeBrackets s).count ']' = s.count ']' := by
  induction s with
  | nil => rfl
  | cons c s ih =>
    unfold escapeBrackets at ih ⊢
    rw [List.flatMap_cons, List.count_append, ih, List.count_cons]
    split
    · next h => subst h; simp; omega
    · next h => simp [h]

theorem nestedText_count (n : Nat) : (nestedText n).count ']' = n := by
  induction n with
  | zero => rfl
  | succ n ih => simp [nestedText, escapeBrackets_count, ih]

theorem nestedText_length (n : Nat) : 2 * (nestedText n).length = (n + 1) * (n + 2) := by
  induction n with
  | zero => rfl
  | succ n ih =>
    simp only [nestedText, List.length_cons, List.length_append, escapeBrackets_length, nestedText_count, List.length_nil]
    simp only [Nat.add_mul, Nat.mul_add] at ih ⊢
    omega

/-- The text begins with `[` or `a`, ends with `]` or `a`, and is one line. -/
theorem nestedText_ends (n : Nat) : (∃ t, nestedText n = '[' :: t ∨ nestedText n = 'a' :: t) ∧
    (∃ t, nestedText n = t ++ [']'] ∨ nestedText n = t ++ ['a']) := by
  cases n with
  | zero => exact ⟨⟨[], .inr rfl⟩, ⟨[], .inr rfl⟩⟩
  | succ n => exact ⟨⟨_, .inl rfl⟩, ⟨'[' :: escapeBrackets (nestedText n), .inl (by simp [nestedText])⟩⟩

theorem nestedText_chars (n : Nat) : ∀ c ∈ nestedText n, c ∈ cs!"[a\\]" := by
  induction n with
  | zero => decide
  | succ n ih =>
    intro c hc
    simp only [nestedText, List.mem_cons, List.mem_append, List.not_mem_nil, or_false, escapeBrackets, List.mem_flatMap] at hc
    rcases hc with rfl | ⟨d, hd, hc⟩ | rfl
    · decide
    · have := ih d hd
      split at hc
      · simp only [List.mem_cons, List.not_mem_nil, or_false] at hc
        rcases hc with rfl | rfl <;> decide
      · simp only [List.mem_singleton] at hc
        exact hc ▸ this
    · decide

theorem readAs_a (x : PExt) (ent : Str → Option Str) : ReadAs x ent ['a'] [.text ['a']] :=
  (C84_exact (cfg := PConfig.default ent) (default_customOk ent) (inlineParse_default ent) _ _).1
    (by rfl)

theorem readAs_nested (x : PExt) (ent : Str → Option Str) (n : Nat) (hn : n ≤ 44) :
    ReadAs x ent (nestedText n) (nestedReferences n) := by
  induction n with
  | zero => exact readAs_a x ent
  | succ n ih =>
    have hl := nestedText_length n
    have hb : n * n ≤ 43 * 43 := Nat.mul_le_mul (by omega) (by omega)
    simp only [Nat.add_mul, Nat.mul_add] at hl
    have he : escapeBrackets (nestedText n) = escapeBrackets (nestedText n) ++ [] := by simp
    obtain ⟨⟨t, h1⟩, ⟨u, h2⟩⟩ := nestedText_ends n
    refine .shortcut (t := nestedText n) (r := []) ⟨escapeBrackets (nestedText n), ⟨unescapes_escapeBrackets _, ?_, by omega⟩, ?_, ?_⟩
      ?_ ?_ ?_ ?_ (ih (by omega)) .nil
    · rcases h1 with h1 | h1 <;> rw [h1]
      · exact ⟨'[', by simp, by decide, by decide⟩
      · exact ⟨'a', by simp, by decide, by decide⟩
    · rcases h2 with h2 | h2 <;> rw [h2, escapeBrackets_append] <;> simp [escapeBrackets, List.getLast?_append]
    · rfl
    · intro d title r' h
      generalize hr : ([] : Str) = r at h
      cases h <;> cases hr
    · rintro m r' ⟨_, _, h⟩
      rcases h1 with h1 | h1 <;> rw [nestedText, h1] at h <;> simp [escapeBrackets] at h
    · rintro t' r' ⟨_, _, _, h⟩
      cases h
    · intro r' h
      cases h

theorem nestedReferences_count (n : Nat) : inlineCount (nestedReferences n) + 1 = 2 ^ (n + 1) := by
  induction n with
  | zero => rfl
  | succ n ih =>
    simp only [nestedReferences, inlineCount, Inline.preL, Inline.pre, List.length_append, List.length_cons, List.length_nil] at ih ⊢
    rw [Nat.pow_succ]
    omega

/-- **C95**, references: for every `n` up to 44 the document of a heading of `(n + 1) (n + 2) / 2 + 2` characters has
`2 ^ (n + 1)` blocks and inlines.  (At 44 the text is 1037 characters long, and the label reaches the limit of 999.) -/
theorem C95_exponential (x : PExt) (ent : Str → Option Str) {n : Nat} (hn : n ≤ 44) :
    2 * (cs!"# " ++ nestedText n).length = (n + 1) * (n + 2) + 4 ∧
    parseMarkdown x (PConfig.default ent) (cs!"# " ++ nestedText n) = some ⟨[.heading (.atx 1) (nestedReferences n)]⟩ ∧
    (Document.mk [.heading (.atx 1) (nestedReferences n)]).size = 2 ^ (n + 1) := by
  refine ⟨?_, ?_, ?_⟩
  · have := nestedText_length n
    simp only [List.length_append, List.length_cons, List.length_nil]
    omega
  · obtain ⟨⟨t, h1⟩, -⟩ := nestedText_ends n
    obtain ⟨l, hl, h⟩ := C84_heading (x := x) (cfg := PConfig.default ent) (allParse_default ent) (n := 1) (b := [' ']) (t := nestedText n)
      (e := []) (r := []) (by omega) (by omega) (by simp) (by simp; decide) (by rcases h1 with h1 | h1 <;> simp [h1])
      (fun c hc => by
        have := nestedText_chars n c hc
        simp only [List.mem_cons, List.not_mem_nil, or_false] at this
        rcases this with rfl | rfl | rfl | rfl <;> decide)
      (by intro c hc; rcases h1 with h1 | h1 <;> rw [h1] at hc <;> simp at hc <;> subst hc <;> decide)
      (.inr ⟨rfl, rfl⟩)
    have h0 : parseMarkdown x (PConfig.default ent) [] = some ⟨[]⟩ := C39_blank x _ .nil
    have := C84_unique hl (readAs_nested x ent n hn)
    subst this
    rw [h0] at h
    simpa using h
  · have := nestedReferences_count n
    rw [Document.size_eq]
    simp only [Block.preL, Block.pre, List.append_nil]
    rw [weight_cons]
    simp only [Block.directInlines, weight, List.map_nil, List.sum_nil]
    omega

end Verif
