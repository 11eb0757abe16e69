import Verif.Nom
/-!
# Lemmas about the combinators

`Suf p`: what `p` leaves is a suffix of its input.  `Con p`: moreover it consumes at least one
character.  Both are classes, so that the facts about a composed parser are found by instance search.
-/
set_option linter.unusedVariables false
namespace Verif
namespace Nom

/-- The rest is a suffix of the input. -/
class Suf {α : Type} (p : P α) : Prop where
  out : ∀ s r a, p s = some (r, a) → r <:+ s

/-- The rest is a proper suffix of the input. -/
class Con {α : Type} (p : P α) : Prop where
  out : ∀ s r a, p s = some (r, a) → r <:+ s ∧ r.length < s.length

instance (priority := low) Con.suf {α : Type} (p : P α) [Con p] : Suf p :=
  ⟨fun s r a h => (Con.out s r a h).1⟩

theorem Suf.le {α : Type} {p : P α} [Suf p] {s r : Str} {a : α} (h : p s = some (r, a)) :
    r.length ≤ s.length := (Suf.out s r a h).length_le

theorem Con.lt {α : Type} {p : P α} [Con p] {s r : Str} {a : α} (h : p s = some (r, a)) :
    r.length < s.length := (Con.out s r a h).2

/-! ## Characterisations -/

section
variable {α β γ : Type}

theorem seq_some {p : P α} {q : P β} {s r : Str} {x : α × β} :
    seq p q s = some (r, x) ↔ ∃ r1, p s = some (r1, x.1) ∧ q r1 = some (r, x.2) := by
  unfold seq
  constructor
  · intro h
    split at h
    · rename_i r1 a e
      split at h
      · rename_i r2 b e2
        simp only [Option.some.injEq, Prod.mk.injEq] at h
        obtain ⟨rfl, rfl⟩ := h
        exact ⟨r1, e, e2⟩
      · simp at h
    · simp at h
  · rintro ⟨r1, e, e2⟩
    rw [e]; simp only [e2]

theorem preceded_some {p : P α} {q : P β} {s r : Str} {b : β} :
    preceded p q s = some (r, b) ↔ ∃ r1 a, p s = some (r1, a) ∧ q r1 = some (r, b) := by
  unfold preceded
  constructor
  · intro h
    split at h
    · rename_i r1 a e; exact ⟨r1, a, e, h⟩
    · simp at h
  · rintro ⟨r1, a, e, e2⟩; rw [e]; exact e2

theorem mapP_some {p : P α} {f : α → β} {s r : Str} {b : β} :
    mapP p f s = some (r, b) ↔ ∃ a, p s = some (r, a) ∧ f a = b := by
  unfold mapP
  constructor
  · intro h
    split at h
    · rename_i r1 a e
      simp only [Option.some.injEq, Prod.mk.injEq] at h
      obtain ⟨rfl, rfl⟩ := h
      exact ⟨a, e, rfl⟩
    · simp at h
  · rintro ⟨a, e, rfl⟩; rw [e]

theorem mapP_none {p : P α} {f : α → β} {s : Str} : mapP p f s = none ↔ p s = none := by
  unfold mapP; split
  · rename_i e; simp [e]
  · rename_i e; simp [e]

theorem value_some {b b' : β} {p : P α} {s r : Str} :
    value b p s = some (r, b') ↔ ∃ a, p s = some (r, a) ∧ b = b' := by
  unfold value; rw [mapP_some]

theorem value_none {b : β} {p : P α} {s : Str} : value b p s = none ↔ p s = none := mapP_none

theorem mapOpt_some {p : P α} {f : α → Option β} {s r : Str} {b : β} :
    mapOpt p f s = some (r, b) ↔ ∃ a, p s = some (r, a) ∧ f a = some b := by
  unfold mapOpt
  constructor
  · intro h
    split at h
    · rename_i r1 a e
      split at h
      · rename_i b' e2
        simp only [Option.some.injEq, Prod.mk.injEq] at h
        obtain ⟨rfl, rfl⟩ := h
        exact ⟨a, e, e2⟩
      · simp at h
    · simp at h
  · rintro ⟨a, e, e2⟩; rw [e]; simp only [e2]

theorem terminated_some {p : P α} {q : P β} {s r : Str} {a : α} :
    terminated p q s = some (r, a) ↔ ∃ r1 b, p s = some (r1, a) ∧ q r1 = some (r, b) := by
  unfold terminated
  rw [mapP_some]
  constructor
  · rintro ⟨⟨a', b⟩, h, rfl⟩
    obtain ⟨r1, h1, h2⟩ := seq_some.1 h
    exact ⟨r1, b, h1, h2⟩
  · rintro ⟨r1, b, h1, h2⟩
    exact ⟨(a, b), seq_some.2 ⟨r1, h1, h2⟩, rfl⟩

theorem delimited_some {p : P α} {q : P β} {t : P γ} {s r : Str} {b : β} :
    delimited p q t s = some (r, b) ↔
      ∃ r1 a r2 c, p s = some (r1, a) ∧ q r1 = some (r2, b) ∧ t r2 = some (r, c) := by
  unfold delimited
  rw [preceded_some]
  constructor
  · rintro ⟨r1, a, h1, h2⟩
    obtain ⟨r2, c, h3, h4⟩ := terminated_some.1 h2
    exact ⟨r1, a, r2, c, h1, h3, h4⟩
  · rintro ⟨r1, a, r2, c, h1, h3, h4⟩
    exact ⟨r1, a, h1, terminated_some.2 ⟨r2, c, h3, h4⟩⟩

theorem orElse_some {p q : P α} {s : Str} {y : Str × α} :
    orElse p q s = some y ↔ p s = some y ∨ (p s = none ∧ q s = some y) := by
  unfold orElse
  split
  · rename_i x e; simp [e]
  · rename_i e; simp [e]

theorem orElse_none {p q : P α} {s : Str} :
    orElse p q s = none ↔ p s = none ∧ q s = none := by
  unfold orElse
  split
  · rename_i x e; simp [e]
  · rename_i e; simp [e]

theorem orElse_of_none {p q : P α} {s : Str} (h : p s = none) : orElse p q s = q s := by
  unfold orElse; rw [h]

theorem orElse_of_some {p q : P α} {s : Str} {y} (h : p s = some y) :
    orElse p q s = some y := by
  unfold orElse; rw [h]

theorem verify_some {p : P α} {f : α → Bool} {s r : Str} {a : α} :
    verify p f s = some (r, a) ↔ p s = some (r, a) ∧ f a = true := by
  unfold verify
  constructor
  · intro h
    split at h
    · rename_i r1 a' e
      split at h
      · rename_i hf
        simp only [Option.some.injEq, Prod.mk.injEq] at h
        obtain ⟨rfl, rfl⟩ := h
        exact ⟨e, hf⟩
      · simp at h
    · simp at h
  · rintro ⟨e, hf⟩; rw [e]; simp [hf]

theorem notP_some {p : P α} {s r : Str} {u : Unit} :
    notP p s = some (r, u) ↔ p s = none ∧ r = s := by
  unfold notP
  split
  · rename_i e; simp [e]
  · rename_i e; simp [e, eq_comm]

theorem notP_none {p : P α} {s : Str} : notP p s = none ↔ ∃ y, p s = some y := by
  unfold notP
  split
  · rename_i x e; simp [e]
  · rename_i e; simp [e]

theorem opt_some {p : P α} {s r : Str} {o : Option α} :
    opt p s = some (r, o) ↔
      (∃ a, p s = some (r, a) ∧ o = some a) ∨ (p s = none ∧ r = s ∧ o = none) := by
  unfold opt
  split
  · rename_i r1 a e
    simp only [Option.some.injEq, Prod.mk.injEq, e]
    constructor
    · rintro ⟨rfl, rfl⟩; exact .inl ⟨a, ⟨rfl, rfl⟩, rfl⟩
    · rintro (⟨a', ⟨rfl, rfl⟩, rfl⟩ | h)
      · exact ⟨rfl, rfl⟩
      · simp at h
  · rename_i e
    simp only [Option.some.injEq, Prod.mk.injEq, e]
    constructor
    · rintro ⟨rfl, rfl⟩; exact .inr ⟨trivial, rfl, rfl⟩
    · rintro (⟨a', h, _⟩ | ⟨_, rfl, rfl⟩)
      · simp at h
      · exact ⟨rfl, rfl⟩

theorem opt_ne_none {p : P α} {s : Str} : opt p s ≠ none := by
  unfold opt; split <;> simp

theorem recognize_some {p : P α} {s r t : Str} :
    recognize p s = some (r, t) ↔
      ∃ a, p s = some (r, a) ∧ t = s.take (s.length - r.length) := by
  unfold recognize
  constructor
  · intro h
    split at h
    · rename_i r1 a e
      simp only [Option.some.injEq, Prod.mk.injEq] at h
      obtain ⟨rfl, rfl⟩ := h
      exact ⟨a, e, rfl⟩
    · simp at h
  · rintro ⟨a, e, rfl⟩; rw [e]

theorem recognize_none {p : P α} {s : Str} : recognize p s = none ↔ p s = none := by
  unfold recognize; split
  · rename_i e; simp [e]
  · rename_i e; simp [e]

theorem take_suffix {s r : Str} (h : r <:+ s) : s.take (s.length - r.length) ++ r = s := by
  obtain ⟨t, rfl⟩ := h
  simp

/-- For a parser that leaves a suffix, `recognize` returns the part before it. -/
theorem recognize_append {p : P α} [Suf p] {s r t : Str} (h : recognize p s = some (r, t)) :
    t ++ r = s := by
  obtain ⟨a, h1, rfl⟩ := recognize_some.1 h
  exact take_suffix (Suf.out _ _ _ h1)

theorem satisfy_some {f : Char → Bool} {s r : Str} {c : Char} :
    satisfy f s = some (r, c) ↔ s = c :: r ∧ f c = true := by
  unfold satisfy
  cases s with
  | nil => simp
  | cons d s =>
    dsimp only
    by_cases hf : f d = true
    · rw [if_pos hf]
      simp only [Option.some.injEq, Prod.mk.injEq, List.cons.injEq]
      constructor
      · rintro ⟨rfl, rfl⟩; exact ⟨⟨rfl, rfl⟩, hf⟩
      · rintro ⟨⟨rfl, rfl⟩, _⟩; exact ⟨rfl, rfl⟩
    · rw [if_neg hf]
      simp only [List.cons.injEq, reduceCtorEq, false_iff]
      rintro ⟨⟨rfl, rfl⟩, h⟩
      exact hf h

theorem chr_some {d : Char} {s r : Str} {c : Char} :
    chr d s = some (r, c) ↔ s = d :: r ∧ c = d := by
  unfold chr
  rw [satisfy_some]
  constructor
  · rintro ⟨rfl, h⟩; simp at h; exact ⟨by rw [h], h⟩
  · rintro ⟨rfl, rfl⟩; simp

theorem chr_cons (d : Char) (r : Str) : chr d (d :: r) = some (r, d) := chr_some.2 ⟨rfl, rfl⟩

theorem chr_ne {d c : Char} {r : Str} (h : c ≠ d) : chr d (c :: r) = none := by
  simp [chr, satisfy, h]

theorem chr_nil (d : Char) : chr d [] = none := rfl

theorem anychar_some {s r : Str} {c : Char} : anychar s = some (r, c) ↔ s = c :: r := by
  unfold anychar; rw [satisfy_some]; simp

theorem tag_some {t s r u : Str} : tag t s = some (r, u) ↔ s = t ++ r ∧ u = t := by
  unfold tag
  split
  · rename_i h
    rw [List.isPrefixOf_iff_prefix] at h
    obtain ⟨w, rfl⟩ := h
    simp [eq_comm]
  · rename_i h
    simp only [reduceCtorEq, false_iff]
    rintro ⟨rfl, _⟩
    exact h (List.isPrefixOf_iff_prefix.2 ⟨r, rfl⟩)

theorem tag_append (t r : Str) : tag t (t ++ r) = some (r, t) := tag_some.2 ⟨rfl, rfl⟩

theorem tag_none {t s : Str} : tag t s = none ↔ ¬ t <+: s := by
  unfold tag
  split
  · rename_i h; simp [List.isPrefixOf_iff_prefix.1 h]
  · rename_i h
    simp only [true_iff]
    exact fun h' => h (List.isPrefixOf_iff_prefix.2 h')

theorem takeWhile1_some {f : Char → Bool} {s r t : Str} :
    takeWhile1 f s = some (r, t) ↔ t = s.takeWhile f ∧ r = s.dropWhile f ∧ t ≠ [] := by
  unfold takeWhile1
  split
  · rename_i h
    simp only [List.isEmpty_iff] at h
    simp only [reduceCtorEq, false_iff]
    rintro ⟨rfl, _, h3⟩
    exact h3 h
  · rename_i h
    simp only [List.isEmpty_iff] at h
    simp only [Option.some.injEq, Prod.mk.injEq]
    constructor
    · rintro ⟨rfl, rfl⟩; exact ⟨rfl, rfl, h⟩
    · rintro ⟨rfl, rfl, _⟩; exact ⟨rfl, rfl⟩

theorem eof_some {s r u : Str} : eof s = some (r, u) ↔ s = [] ∧ r = [] ∧ u = [] := by
  unfold eof
  cases s <;> simp [eq_comm]

theorem lineEnding_some {s r u : Str} :
    lineEnding s = some (r, u) ↔
      (s = '\n' :: r ∧ u = ['\n']) ∨ (s = '\r' :: '\n' :: r ∧ u = ['\r', '\n']) := by
  unfold lineEnding
  split
  · simp [eq_comm]
  · simp [eq_comm]
  · rename_i h1 h2
    simp only [reduceCtorEq, false_iff]
    rintro (⟨rfl, _⟩ | ⟨rfl, _⟩)
    · exact h1 _ rfl
    · exact h2 _ rfl

theorem eofOrEol_some {s r u : Str} :
    eofOrEol s = some (r, u) ↔
      (s = '\n' :: r ∧ u = ['\n']) ∨ (s = '\r' :: '\n' :: r ∧ u = ['\r', '\n']) ∨
      (s = [] ∧ r = [] ∧ u = []) := by
  unfold eofOrEol
  rw [orElse_some, lineEnding_some, eof_some]
  constructor
  · rintro ((h | h) | ⟨_, h⟩)
    · exact .inl h
    · exact .inr (.inl h)
    · exact .inr (.inr h)
  · rintro (h | h | h)
    · exact .inl (.inl h)
    · exact .inl (.inr h)
    · refine .inr ⟨?_, h⟩
      rw [h.1]; rfl

theorem notLineEnding_some {s r t : Str} (h : notLineEnding s = some (r, t)) :
    r = s.dropWhile notCrLf ∧ t = s.takeWhile notCrLf := by
  unfold notLineEnding at h
  split at h
  · split at h
    · simp only [Option.some.injEq, Prod.mk.injEq] at h; exact ⟨h.1.symm, h.2.symm⟩
    · simp at h
  · simp only [Option.some.injEq, Prod.mk.injEq] at h; exact ⟨h.1.symm, h.2.symm⟩

/-! ## Loops -/

theorem many0F_stable (p : P α) : ∀ n m s, s.length < n → s.length < m →
    many0F p n s = many0F p m s := by
  intro n
  induction n with
  | zero => intro m s h; omega
  | succ n ih =>
    intro m s h1 h2
    obtain ⟨m, rfl⟩ : ∃ k, m = k + 1 := ⟨m - 1, by omega⟩
    unfold many0F
    cases e : p s with
    | none => rfl
    | some y =>
      obtain ⟨r, a⟩ := y
      by_cases hlt : r.length < s.length
      · simp only [hlt, if_true]
        rw [ih m r (by omega) (by omega)]
      · simp only [hlt, if_false]

/-- The defining equation of `many0`. -/
theorem many0_eq (p : P α) (s : Str) : many0 p s = match p s with
    | none => some (s, [])
    | some (r, a) =>
      if r.length < s.length then
        match many0 p r with
        | some (r', l) => some (r', a :: l)
        | none => none
      else none := by
  unfold many0
  rw [many0F]
  cases e : p s with
  | none => rfl
  | some y =>
    obtain ⟨r, a⟩ := y
    by_cases hlt : r.length < s.length
    · simp only [hlt, if_true]
      rw [many0F_stable p s.length (r.length + 1) r hlt (by omega)]
      cases many0F p (r.length + 1) r <;> rfl
    · simp only [hlt, if_false]

theorem many0_of_none {p : P α} {s : Str} (h : p s = none) : many0 p s = some (s, []) := by
  rw [many0_eq, h]

theorem many0_of_some {p : P α} {s r r' : Str} {a : α} {l : List α} (h : p s = some (r, a))
    (hlt : r.length < s.length) (h' : many0 p r = some (r', l)) :
    many0 p s = some (r', a :: l) := by
  rw [many0_eq, h]; simp only [hlt, if_true, h']

theorem many1_some {p : P α} {s r : Str} {l : List α} :
    many1 p s = some (r, l) ↔
      ∃ r1 a l', p s = some (r1, a) ∧ many0 p r1 = some (r, l') ∧ l = a :: l' := by
  unfold many1
  constructor
  · intro h
    split at h
    · simp at h
    · rename_i r1 a e
      split at h
      · rename_i r2 l' e2
        simp only [Option.some.injEq, Prod.mk.injEq] at h
        obtain ⟨rfl, rfl⟩ := h
        exact ⟨r1, a, l', e, e2, rfl⟩
      · simp at h
  · rintro ⟨r1, a, l', e, e2, rfl⟩
    rw [e]; simp only [e2]

/-- Induction on a successful `many0`. -/
theorem many0_induction {p : P α} {M : Str → Str → List α → Prop}
    (stop : ∀ s, p s = none → M s s [])
    (step : ∀ s r a r' l, p s = some (r, a) → r.length < s.length → many0 p r = some (r', l) →
      M r r' l → M s r' (a :: l)) :
    ∀ s r l, many0 p s = some (r, l) → M s r l := by
  intro s
  induction hn : s.length using Nat.strongRecOn generalizing s with
  | _ n ih =>
    intro r l h
    rw [many0_eq] at h
    split at h
    · rename_i e
      simp only [Option.some.injEq, Prod.mk.injEq] at h
      obtain ⟨rfl, rfl⟩ := h
      exact stop _ e
    · rename_i r1 a e
      split at h
      · rename_i hlt
        split at h
        · rename_i r2 l' e2
          simp only [Option.some.injEq, Prod.mk.injEq] at h
          obtain ⟨rfl, rfl⟩ := h
          exact step _ _ _ _ _ e hlt e2 (ih r1.length (hn ▸ hlt) r1 rfl _ _ e2)
        · simp at h
      · simp at h

theorem many0_length {p : P α} {s r : Str} {l : List α} (h : many0 p s = some (r, l)) :
    l.length + r.length ≤ s.length := by
  refine many0_induction (M := fun s r l => l.length + r.length ≤ s.length) ?_ ?_ s r l h
  · intro s _; simp
  · intro s r a r' l _ hlt _ ih; simp only [List.length_cons]; omega

theorem many0_all {p : P α} {Q : α → Prop} {s r : Str} {l : List α}
    (h : many0 p s = some (r, l)) (hQ : ∀ s r a, p s = some (r, a) → Q a) : ∀ a ∈ l, Q a := by
  refine many0_induction (M := fun _ _ l => ∀ a ∈ l, Q a) ?_ ?_ s r l h
  · intro s _ a ha; simp at ha
  · intro s r a r' l e _ _ ih b hb
    rcases List.mem_cons.1 hb with rfl | hb
    · exact hQ _ _ _ e
    · exact ih b hb

theorem many1_all {p : P α} {Q : α → Prop} {s r : Str} {l : List α}
    (h : many1 p s = some (r, l)) (hQ : ∀ s r a, p s = some (r, a) → Q a) : ∀ a ∈ l, Q a := by
  obtain ⟨r1, a, l', e1, e2, rfl⟩ := many1_some.1 h
  intro b hb
  rcases List.mem_cons.1 hb with rfl | hb
  · exact hQ _ _ _ e1
  · exact many0_all e2 hQ b hb

/-- A `many0` whose inner parser always consumes never fails. -/
theorem many0_ne_none {p : P α} (hc : ∀ s r a, p s = some (r, a) → r.length < s.length) :
    ∀ s, many0 p s ≠ none := by
  intro s
  induction hn : s.length using Nat.strongRecOn generalizing s with
  | _ n ih =>
    rw [many0_eq]
    split
    · simp
    · rename_i r a e
      have hlt := hc _ _ _ e
      rw [if_pos hlt]
      split
      · simp
      · rename_i e2; exact absurd e2 (ih r.length (hn ▸ hlt) r rfl)

theorem many0_ex {p : P α} [Con p] (s : Str) : ∃ r l, many0 p s = some (r, l) := by
  cases h : many0 p s with
  | none => exact absurd h (many0_ne_none (fun s r a e => Con.lt e) s)
  | some y => exact ⟨y.1, y.2, rfl⟩

theorem many1_none {p : P α} [Con p] {s : Str} : many1 p s = none ↔ p s = none := by
  constructor
  · intro h
    unfold many1 at h
    cases e : p s with
    | none => rfl
    | some y =>
      rw [e] at h
      obtain ⟨r, l, e2⟩ := many0_ex (p := p) y.1
      simp only [e2] at h
      simp at h
  · intro h; unfold many1; rw [h]

/-- `many0` stops where the inner parser fails. -/
theorem many0_stop {p : P α} {s r : Str} {l : List α} (h : many0 p s = some (r, l)) :
    p r = none := by
  refine many0_induction (M := fun _ r _ => p r = none) ?_ ?_ s r l h
  · intro s h; exact h
  · intro s r a r' l _ _ _ ih; exact ih

theorem manyMN_le {p : P α} : ∀ n m s r l, manyMN p m n s = some (r, l) → l.length ≤ n := by
  intro n
  induction n with
  | zero =>
    intro m s r l h
    simp only [manyMN, Option.some.injEq, Prod.mk.injEq] at h
    obtain ⟨_, rfl⟩ := h; simp
  | succ n ih =>
    intro m s r l h
    rw [manyMN] at h
    split at h
    · split at h
      · split at h
        · rename_i e
          simp only [Option.some.injEq, Prod.mk.injEq] at h
          obtain ⟨rfl, rfl⟩ := h
          have := ih _ _ _ _ e
          simp only [List.length_cons]; omega
        · simp at h
      · simp at h
    · split at h
      · simp only [Option.some.injEq, Prod.mk.injEq] at h
        obtain ⟨_, rfl⟩ := h; simp
      · simp at h

theorem manyMN_ge {p : P α} : ∀ n m s r l, m ≤ n → manyMN p m n s = some (r, l) →
    m ≤ l.length := by
  intro n
  induction n with
  | zero => intro m s r l hm _; omega
  | succ n ih =>
    intro m s r l hm h
    rw [manyMN] at h
    split at h
    · split at h
      · split at h
        · rename_i e
          simp only [Option.some.injEq, Prod.mk.injEq] at h
          obtain ⟨rfl, rfl⟩ := h
          have := ih _ _ _ _ (by omega) e
          simp only [List.length_cons]; omega
        · simp at h
      · simp at h
    · split at h
      · omega
      · simp at h

theorem manyMN_length {p : P α} : ∀ n m s r l, manyMN p m n s = some (r, l) →
    l.length + r.length ≤ s.length := by
  intro n
  induction n with
  | zero =>
    intro m s r l h
    simp only [manyMN, Option.some.injEq, Prod.mk.injEq] at h
    obtain ⟨rfl, rfl⟩ := h; simp
  | succ n ih =>
    intro m s r l h
    rw [manyMN] at h
    split at h
    · split at h
      · split at h
        · rename_i e
          simp only [Option.some.injEq, Prod.mk.injEq] at h
          obtain ⟨rfl, rfl⟩ := h
          have := ih _ _ _ _ e
          simp only [List.length_cons]; omega
        · simp at h
      · simp at h
    · split at h
      · simp only [Option.some.injEq, Prod.mk.injEq] at h
        obtain ⟨rfl, rfl⟩ := h; simp
      · simp at h

theorem manyMN_suf {p : P α} [Suf p] : ∀ n m s r l, manyMN p m n s = some (r, l) → r <:+ s := by
  intro n
  induction n with
  | zero =>
    intro m s r l h
    simp only [manyMN, Option.some.injEq, Prod.mk.injEq] at h
    obtain ⟨rfl, rfl⟩ := h; exact List.suffix_refl _
  | succ n ih =>
    intro m s r l h
    rw [manyMN] at h
    split at h
    · rename_i e1
      split at h
      · split at h
        · rename_i e
          simp only [Option.some.injEq, Prod.mk.injEq] at h
          obtain ⟨rfl, rfl⟩ := h
          exact (ih _ _ _ _ e).trans (Suf.out _ _ _ e1)
        · simp at h
      · simp at h
    · split at h
      · simp only [Option.some.injEq, Prod.mk.injEq] at h
        obtain ⟨rfl, rfl⟩ := h; exact List.suffix_refl _
      · simp at h

theorem sepLoopF_stable {sep : P β} {p : P α} : ∀ n m s, s.length < n → s.length < m →
    sepLoopF sep p n s = sepLoopF sep p m s := by
  intro n
  induction n with
  | zero => intro m s h; omega
  | succ n ih =>
    intro m s h1 h2
    obtain ⟨m, rfl⟩ : ∃ k, m = k + 1 := ⟨m - 1, by omega⟩
    unfold sepLoopF
    cases e : sep s with
    | none => rfl
    | some y =>
      obtain ⟨r, b⟩ := y
      dsimp only
      cases e2 : p r with
      | none => rfl
      | some z =>
        obtain ⟨r', a⟩ := z
        by_cases hlt : r'.length < s.length
        · simp only [hlt, if_true]
          rw [ih m r' (by omega) (by omega)]
        · simp only [hlt, if_false]

/-- The defining equation of the separated loop. -/
theorem sepLoop_eq (sep : P β) (p : P α) (s : Str) : sepLoop sep p s = match sep s with
    | none => some (s, [])
    | some (r, _) => match p r with
      | none => some (s, [])
      | some (r', a) =>
        if r'.length < s.length then
          match sepLoop sep p r' with
          | some (r'', l) => some (r'', a :: l)
          | none => none
        else none := by
  unfold sepLoop
  rw [sepLoopF]
  cases e : sep s with
  | none => rfl
  | some y =>
    obtain ⟨r, b⟩ := y
    dsimp only
    cases e2 : p r with
    | none => rfl
    | some z =>
      obtain ⟨r', a⟩ := z
      by_cases hlt : r'.length < s.length
      · simp only [hlt, if_true]
        rw [sepLoopF_stable s.length (r'.length + 1) r' hlt (by omega)]
        cases sepLoopF sep p (r'.length + 1) r' <;> rfl
      · simp only [hlt, if_false]

theorem sepLoop_induction {sep : P β} {p : P α} {M : Str → Str → List α → Prop}
    (stop : ∀ s, (sep s = none ∨ ∃ r b, sep s = some (r, b) ∧ p r = none) → M s s [])
    (step : ∀ s r b r' a r'' l, sep s = some (r, b) → p r = some (r', a) → r'.length < s.length →
      sepLoop sep p r' = some (r'', l) → M r' r'' l → M s r'' (a :: l)) :
    ∀ s r l, sepLoop sep p s = some (r, l) → M s r l := by
  intro s
  induction hn : s.length using Nat.strongRecOn generalizing s with
  | _ n ih =>
    intro r l h
    rw [sepLoop_eq] at h
    split at h
    · rename_i e
      simp only [Option.some.injEq, Prod.mk.injEq] at h
      obtain ⟨rfl, rfl⟩ := h
      exact stop _ (.inl e)
    · rename_i r1 b e
      split at h
      · rename_i e2
        simp only [Option.some.injEq, Prod.mk.injEq] at h
        obtain ⟨rfl, rfl⟩ := h
        exact stop _ (.inr ⟨_, _, e, e2⟩)
      · rename_i r2 a e2
        split at h
        · rename_i hlt
          split at h
          · rename_i r3 l' e3
            simp only [Option.some.injEq, Prod.mk.injEq] at h
            obtain ⟨rfl, rfl⟩ := h
            exact step _ _ _ _ _ _ _ e e2 hlt e3 (ih r2.length (hn ▸ hlt) r2 rfl _ _ e3)
          · simp at h
        · simp at h

theorem sepLoop_ne_none {sep : P β} {p : P α} [Con sep] [Suf p] :
    ∀ s, sepLoop sep p s ≠ none := by
  intro s
  induction hn : s.length using Nat.strongRecOn generalizing s with
  | _ n ih =>
    rw [sepLoop_eq]
    split
    · simp
    · rename_i r b e
      split
      · simp
      · rename_i r' a e2
        have hlt : r'.length < s.length := Nat.lt_of_le_of_lt (Suf.le e2) (Con.lt e)
        rw [if_pos hlt]
        split
        · simp
        · rename_i e3; exact absurd e3 (ih r'.length (hn ▸ hlt) r' rfl)

theorem sepLoop_all {sep : P β} {p : P α} {Q : α → Prop} {s r : Str} {l : List α}
    (h : sepLoop sep p s = some (r, l)) (hQ : ∀ s r a, p s = some (r, a) → Q a) :
    ∀ a ∈ l, Q a := by
  refine sepLoop_induction (M := fun _ _ l => ∀ a ∈ l, Q a) ?_ ?_ s r l h
  · intro s _ a ha; simp at ha
  · intro s r b r' a r'' l _ e _ _ ih c hc
    rcases List.mem_cons.1 hc with rfl | hc
    · exact hQ _ _ _ e
    · exact ih c hc

theorem separatedList1_some {sep : P β} {p : P α} {s r : Str} {l : List α} :
    separatedList1 sep p s = some (r, l) ↔
      ∃ r1 a l', p s = some (r1, a) ∧ sepLoop sep p r1 = some (r, l') ∧ l = a :: l' := by
  unfold separatedList1
  constructor
  · intro h
    split at h
    · simp at h
    · rename_i r1 a e
      split at h
      · rename_i r2 l' e2
        simp only [Option.some.injEq, Prod.mk.injEq] at h
        obtain ⟨rfl, rfl⟩ := h
        exact ⟨r1, a, l', e, e2, rfl⟩
      · simp at h
  · rintro ⟨r1, a, l', e, e2, rfl⟩
    rw [e]; simp only [e2]

theorem separatedList0_some {sep : P β} {p : P α} {s r : Str} {l : List α} :
    separatedList0 sep p s = some (r, l) ↔
      (p s = none ∧ r = s ∧ l = []) ∨
      ∃ r1 a l', p s = some (r1, a) ∧ sepLoop sep p r1 = some (r, l') ∧ l = a :: l' := by
  unfold separatedList0
  constructor
  · intro h
    split at h
    · rename_i e
      simp only [Option.some.injEq, Prod.mk.injEq] at h
      exact .inl ⟨e, h.1.symm, h.2.symm⟩
    · rename_i r1 a e
      split at h
      · rename_i r2 l' e2
        simp only [Option.some.injEq, Prod.mk.injEq] at h
        obtain ⟨rfl, rfl⟩ := h
        exact .inr ⟨r1, a, l', e, e2, rfl⟩
      · simp at h
  · rintro (⟨e, rfl, rfl⟩ | ⟨r1, a, l', e, e2, rfl⟩)
    · rw [e]
    · rw [e]; simp only [e2]

/-! ## Instances -/

instance : Suf (failP : P α) := ⟨fun _ _ _ h => by simp [failP] at h⟩
instance : Con (failP : P α) := ⟨fun _ _ _ h => by simp [failP] at h⟩
instance (f) : Con (satisfy f) := ⟨fun s r a h => by
  obtain ⟨rfl, _⟩ := satisfy_some.1 h
  exact ⟨List.suffix_cons _ _, by simp⟩⟩
instance (c) : Con (chr c) := by unfold chr; infer_instance
instance : Con anychar := by unfold anychar; infer_instance
instance (l) : Con (oneOf l) := by unfold oneOf; infer_instance
instance (l) : Con (noneOf l) := by unfold noneOf; infer_instance
instance (t : Str) : Suf (tag t) := ⟨fun s r a h => by
  obtain ⟨rfl, _⟩ := tag_some.1 h; exact List.suffix_append _ _⟩
instance (c : Char) (t : Str) : Con (tag (c :: t)) := ⟨fun s r a h => by
  obtain ⟨rfl, _⟩ := tag_some.1 h
  exact ⟨List.suffix_append _ _, by simp only [List.length_append, List.length_cons]; omega⟩⟩
instance : Suf eof := ⟨fun s r a h => by
  obtain ⟨rfl, rfl, _⟩ := eof_some.1 h; exact List.suffix_refl _⟩
instance (f) : Suf (takeWhile f) := ⟨fun s r a h => by
  simp only [takeWhile, Option.some.injEq, Prod.mk.injEq] at h
  rw [← h.1]; exact List.dropWhile_suffix _⟩
instance (f) : Con (takeWhile1 f) := ⟨fun s r a h => by
  obtain ⟨h1, rfl, h3⟩ := takeWhile1_some.1 h
  refine ⟨List.dropWhile_suffix _, ?_⟩
  have := congrArg List.length (List.takeWhile_append_dropWhile (p := f) (l := s))
  rw [← h1, List.length_append] at this
  have := List.length_pos_iff.2 h3
  omega⟩
instance : Suf space0 := by unfold space0; infer_instance
instance : Con space1 := by unfold space1; infer_instance
instance : Suf multispace0 := by unfold multispace0; infer_instance
instance : Con alpha1 := by unfold alpha1; infer_instance
instance : Con alphanumeric1 := by unfold alphanumeric1; infer_instance
instance : Con digit1 := by unfold digit1; infer_instance
instance : Con hexDigit1 := by unfold hexDigit1; infer_instance
instance : Con lineEnding := ⟨fun s r a h => by
  rcases lineEnding_some.1 h with ⟨rfl, _⟩ | ⟨rfl, _⟩
  · exact ⟨List.suffix_cons _ _, by simp⟩
  · exact ⟨(List.suffix_cons _ _).trans (List.suffix_cons _ _), by simp only [List.length_cons]; omega⟩⟩
instance : Suf notLineEnding := ⟨fun s r a h => by
  rw [(notLineEnding_some h).1]; exact List.dropWhile_suffix _⟩
instance : Con u64P := ⟨fun s r a h => by
  unfold u64P at h
  split at h
  · simp at h
  · rename_i r1 d e
    split at h
    · simp only [Option.some.injEq, Prod.mk.injEq] at h
      rw [← h.1]; exact Con.out _ _ _ e
    · simp at h⟩

instance (p q : P α) [Suf p] [Suf q] : Suf (orElse p q) := ⟨fun s r a h => by
  rcases orElse_some.1 h with h | ⟨_, h⟩
  · exact Suf.out _ _ _ h
  · exact Suf.out _ _ _ h⟩
instance (p q : P α) [Con p] [Con q] : Con (orElse p q) := ⟨fun s r a h => by
  rcases orElse_some.1 h with h | ⟨_, h⟩
  · exact Con.out _ _ _ h
  · exact Con.out _ _ _ h⟩
instance (p : P α) [Suf p] : Suf (opt p) := ⟨fun s r a h => by
  rcases opt_some.1 h with ⟨_, h, _⟩ | ⟨_, rfl, _⟩
  · exact Suf.out _ _ _ h
  · exact List.suffix_refl _⟩
instance (p : P α) (f : α → β) [Suf p] : Suf (mapP p f) := ⟨fun s r a h => by
  obtain ⟨_, h, _⟩ := mapP_some.1 h; exact Suf.out _ _ _ h⟩
instance (p : P α) (f : α → β) [Con p] : Con (mapP p f) := ⟨fun s r a h => by
  obtain ⟨_, h, _⟩ := mapP_some.1 h; exact Con.out _ _ _ h⟩
instance (p : P α) (f : α → Option β) [Suf p] : Suf (mapOpt p f) := ⟨fun s r a h => by
  obtain ⟨_, h, _⟩ := mapOpt_some.1 h; exact Suf.out _ _ _ h⟩
instance (p : P α) (f : α → Option β) [Con p] : Con (mapOpt p f) := ⟨fun s r a h => by
  obtain ⟨_, h, _⟩ := mapOpt_some.1 h; exact Con.out _ _ _ h⟩
instance (p : P α) (b : β) [Suf p] : Suf (value b p) := by unfold value; infer_instance
instance (p : P α) (b : β) [Con p] : Con (value b p) := by unfold value; infer_instance
instance (p : P α) (f) [Suf p] : Suf (verify p f) := ⟨fun s r a h =>
  Suf.out _ _ _ (verify_some.1 h).1⟩
instance (p : P α) (f) [Con p] : Con (verify p f) := ⟨fun s r a h =>
  Con.out _ _ _ (verify_some.1 h).1⟩
instance (p : P α) : Suf (notP p) := ⟨fun s r a h => by
  rw [(notP_some.1 h).2]; exact List.suffix_refl _⟩
instance (p : P α) [Suf p] : Suf (recognize p) := ⟨fun s r a h => by
  obtain ⟨_, h, _⟩ := recognize_some.1 h; exact Suf.out _ _ _ h⟩
instance (p : P α) [Con p] : Con (recognize p) := ⟨fun s r a h => by
  obtain ⟨_, h, _⟩ := recognize_some.1 h; exact Con.out _ _ _ h⟩
instance (p : P α) (q : P β) [Suf p] [Suf q] : Suf (seq p q) := ⟨fun s r a h => by
  obtain ⟨_, h1, h2⟩ := seq_some.1 h
  exact (Suf.out _ _ _ h2).trans (Suf.out _ _ _ h1)⟩
instance (p : P α) (q : P β) [Con p] [Suf q] : Con (seq p q) := ⟨fun s r a h => by
  obtain ⟨_, h1, h2⟩ := seq_some.1 h
  exact ⟨(Suf.out _ _ _ h2).trans (Suf.out _ _ _ h1),
    Nat.lt_of_le_of_lt (Suf.le h2) (Con.lt h1)⟩⟩
instance (p : P α) (q : P β) [Suf p] [Con q] : Con (seq p q) := ⟨fun s r a h => by
  obtain ⟨_, h1, h2⟩ := seq_some.1 h
  exact ⟨(Suf.out _ _ _ h2).trans (Suf.out _ _ _ h1),
    Nat.lt_of_lt_of_le (Con.lt h2) (Suf.le h1)⟩⟩
instance (p : P α) (q : P β) [Suf p] [Suf q] : Suf (preceded p q) := ⟨fun s r a h => by
  obtain ⟨_, _, h1, h2⟩ := preceded_some.1 h
  exact (Suf.out _ _ _ h2).trans (Suf.out _ _ _ h1)⟩
instance (p : P α) (q : P β) [Con p] [Suf q] : Con (preceded p q) := ⟨fun s r a h => by
  obtain ⟨_, _, h1, h2⟩ := preceded_some.1 h
  exact ⟨(Suf.out _ _ _ h2).trans (Suf.out _ _ _ h1),
    Nat.lt_of_le_of_lt (Suf.le h2) (Con.lt h1)⟩⟩
instance (p : P α) (q : P β) [Suf p] [Con q] : Con (preceded p q) := ⟨fun s r a h => by
  obtain ⟨_, _, h1, h2⟩ := preceded_some.1 h
  exact ⟨(Suf.out _ _ _ h2).trans (Suf.out _ _ _ h1),
    Nat.lt_of_lt_of_le (Con.lt h2) (Suf.le h1)⟩⟩
instance (p : P α) (q : P β) [Suf p] [Suf q] : Suf (terminated p q) := by
  unfold terminated; infer_instance
instance (p : P α) (q : P β) [Con p] [Suf q] : Con (terminated p q) := by
  unfold terminated; infer_instance
instance (p : P α) (q : P β) [Suf p] [Con q] : Con (terminated p q) := by
  unfold terminated; infer_instance
instance (p : P α) (q : P β) (t : P γ) [Suf p] [Suf q] [Suf t] : Suf (delimited p q t) := by
  unfold delimited; infer_instance
instance (p : P α) (q : P β) (t : P γ) [Con p] [Suf q] [Suf t] : Con (delimited p q t) := by
  unfold delimited; infer_instance
instance (p : P α) (q : P β) (t : P γ) [Suf p] [Con q] [Suf t] : Con (delimited p q t) := by
  unfold delimited; infer_instance
instance (p : P α) [Suf p] : Suf (many0 p) := ⟨fun s r l h => by
  refine many0_induction (M := fun s r _ => r <:+ s) ?_ ?_ s r l h
  · intro s _; exact List.suffix_refl _
  · intro s r a r' l e _ _ ih; exact ih.trans (Suf.out _ _ _ e)⟩
instance (p : P α) [Suf p] : Suf (many1 p) := ⟨fun s r l h => by
  obtain ⟨r1, a, l', e1, e2, rfl⟩ := many1_some.1 h
  exact (Suf.out _ _ _ e2).trans (Suf.out _ _ _ e1)⟩
instance (p : P α) [Con p] : Con (many1 p) := ⟨fun s r l h => by
  obtain ⟨r1, a, l', e1, e2, rfl⟩ := many1_some.1 h
  exact ⟨(Suf.out _ _ _ e2).trans (Suf.out _ _ _ e1), Nat.lt_of_le_of_lt (Suf.le e2) (Con.lt e1)⟩⟩
instance (p : P α) (m n) [Suf p] : Suf (manyMN p m n) := ⟨fun s r l h => manyMN_suf _ _ _ _ _ h⟩
theorem manyMN_con (p : P α) {m n : Nat} [Suf p] (h1 : 0 < m) (h2 : m ≤ n) :
    Con (manyMN p m n) := ⟨fun s r l h => by
  have := manyMN_ge _ _ _ _ _ h2 h
  have := manyMN_length _ _ _ _ _ h
  exact ⟨Suf.out _ _ _ h, by omega⟩⟩
instance (p : P α) [Suf p] : Con (manyMN p 1 6) := manyMN_con p (by omega) (by omega)
instance (p : P α) [Suf p] : Con (manyMN p 1 4) := manyMN_con p (by omega) (by omega)
instance (p : P α) [Suf p] : Con (manyMN p 3 3) := manyMN_con p (by omega) (by omega)
instance (p : P α) [Suf p] : Con (manyMN p 4 4) := manyMN_con p (by omega) (by omega)
instance (p : P α) (m) [Suf p] : Suf (manyMin m p) := by unfold manyMin; infer_instance
theorem manyMin_con (p : P α) {m : Nat} [Suf p] (h1 : 0 < m) : Con (manyMin m p) :=
  ⟨fun s r l h => by
  refine ⟨Suf.out _ _ _ h, ?_⟩
  unfold manyMin at h
  obtain ⟨h2, h3⟩ := verify_some.1 h
  have := many0_length h2
  simp only [decide_eq_true_eq] at h3
  omega⟩
instance (p : P α) [Suf p] : Con (manyMin 2 p) := manyMin_con p (by omega)
instance (p : P α) [Suf p] : Con (manyMin 3 p) := manyMin_con p (by omega)
instance (sep : P β) (p : P α) [Suf sep] [Suf p] : Suf (sepLoop sep p) := ⟨fun s r l h => by
  refine sepLoop_induction (M := fun s r _ => r <:+ s) ?_ ?_ s r l h
  · intro s _; exact List.suffix_refl _
  · intro s r b r' a r'' l e1 e2 _ _ ih
    exact ih.trans ((Suf.out _ _ _ e2).trans (Suf.out _ _ _ e1))⟩
instance (sep : P β) (p : P α) [Suf sep] [Suf p] : Suf (separatedList1 sep p) := ⟨fun s r l h => by
  obtain ⟨r1, a, l', e1, e2, rfl⟩ := separatedList1_some.1 h
  exact (Suf.out _ _ _ e2).trans (Suf.out _ _ _ e1)⟩
instance (sep : P β) (p : P α) [Suf sep] [Con p] : Con (separatedList1 sep p) := ⟨fun s r l h => by
  obtain ⟨r1, a, l', e1, e2, rfl⟩ := separatedList1_some.1 h
  exact ⟨(Suf.out _ _ _ e2).trans (Suf.out _ _ _ e1), Nat.lt_of_le_of_lt (Suf.le e2) (Con.lt e1)⟩⟩
instance (sep : P β) (p : P α) [Suf sep] [Suf p] : Suf (separatedList0 sep p) := ⟨fun s r l h => by
  rcases separatedList0_some.1 h with ⟨_, rfl, _⟩ | ⟨r1, a, l', e1, e2, rfl⟩
  · exact List.suffix_refl _
  · exact (Suf.out _ _ _ e2).trans (Suf.out _ _ _ e1)⟩
instance : Suf indent03 := by unfold indent03; infer_instance
instance (t : Str) : Suf (tagNoCase t) := ⟨fun s r a h => by
  unfold tagNoCase at h
  split at h
  · simp only [Option.some.injEq, Prod.mk.injEq] at h
    rw [← h.1]; exact List.drop_suffix _ _
  · simp at h⟩
instance : Suf eofOrEol := by unfold eofOrEol; infer_instance
instance : Suf manyEmptyLines0 := by unfold manyEmptyLines0; infer_instance
instance : Con notEofOrEol1 := by unfold notEofOrEol1; infer_instance
instance : Suf notEofOrEol0 := by unfold notEofOrEol0; infer_instance
instance (p : P α) [Suf p] : Suf (lineTerminated p) := by unfold lineTerminated; infer_instance
instance (p : P α) [Con p] : Con (lineTerminated p) := by unfold lineTerminated; infer_instance

theorem indent03_ne_none (s : Str) : indent03 s ≠ none := by
  unfold indent03
  rw [manyMN]
  split
  · rename_i r a e
    rw [if_pos (Con.lt e)]
    rw [manyMN]
    split
    · simp
    · rename_i e2
      split at e2
      · rename_i r2 a2 e3
        rw [if_pos (Con.lt e3)] at e2
        rw [manyMN] at e2
        split at e2
        · simp at e2
        · rename_i e4
          split at e4
          · rename_i e5
            rw [if_pos (Con.lt e5)] at e4
            simp [manyMN] at e4
          · simp at e4
      · simp at e2
  · simp

/-! ## Congruence -/

theorem many0_congr {p q : P α} [Suf p] : ∀ s, (∀ t, t <:+ s → p t = q t) →
    many0 p s = many0 q s := by
  intro s
  induction hn : s.length using Nat.strongRecOn generalizing s with
  | _ n ih =>
    intro h
    rw [many0_eq, many0_eq, h s (List.suffix_refl _)]
    cases e : q s with
    | none => rfl
    | some y =>
      obtain ⟨r, a⟩ := y
      dsimp only
      have hs : r <:+ s := Suf.out (p := p) _ _ _ ((h s (List.suffix_refl _)).trans e)
      by_cases hlt : r.length < s.length
      · rw [if_pos hlt, if_pos hlt, ih r.length (hn ▸ hlt) r rfl (fun t ht => h t (ht.trans hs))]
      · rw [if_neg hlt, if_neg hlt]

theorem many1_congr {p q : P α} [Suf p] (s : Str) (h : ∀ t, t <:+ s → p t = q t) :
    many1 p s = many1 q s := by
  unfold many1
  rw [h s (List.suffix_refl _)]
  cases e : q s with
  | none => rfl
  | some y =>
    obtain ⟨r, a⟩ := y
    dsimp only
    rw [many0_congr r]
    intro t ht
    exact h t (ht.trans (Suf.out (p := p) _ _ _ ((h s (List.suffix_refl _)).trans e)))

theorem sepLoop_congr {sep : P β} {p q : P α} [Suf sep] [Suf p] : ∀ s,
    (∀ t, t <:+ s → p t = q t) → sepLoop sep p s = sepLoop sep q s := by
  intro s
  induction hn : s.length using Nat.strongRecOn generalizing s with
  | _ n ih =>
    intro h
    rw [sepLoop_eq, sepLoop_eq]
    cases e : sep s with
    | none => rfl
    | some y =>
      obtain ⟨r, b⟩ := y
      dsimp only
      have hs : r <:+ s := Suf.out _ _ _ e
      rw [h r hs]
      cases e2 : q r with
      | none => rfl
      | some z =>
        obtain ⟨r', a⟩ := z
        dsimp only
        have hs' : r' <:+ s := (Suf.out (p := p) _ _ _ ((h r hs).trans e2)).trans hs
        by_cases hlt : r'.length < s.length
        · rw [if_pos hlt, if_pos hlt,
            ih r'.length (hn ▸ hlt) r' rfl (fun t ht => h t (ht.trans hs'))]
        · rw [if_neg hlt, if_neg hlt]

theorem separatedList0_congr {sep : P β} {p q : P α} [Suf sep] [Suf p] (s : Str)
    (h : ∀ t, t <:+ s → p t = q t) : separatedList0 sep p s = separatedList0 sep q s := by
  unfold separatedList0
  rw [h s (List.suffix_refl _)]
  cases e : q s with
  | none => rfl
  | some y =>
    obtain ⟨r, a⟩ := y
    dsimp only
    rw [sepLoop_congr r]
    intro t ht
    exact h t (ht.trans (Suf.out (p := p) _ _ _ ((h s (List.suffix_refl _)).trans e)))

theorem seq_congr {p p' : P α} {q q' : P β} {s : Str} (h1 : p s = p' s)
    (h2 : ∀ r a, p s = some (r, a) → q r = q' r) : seq p q s = seq p' q' s := by
  unfold seq
  rw [← h1]
  cases e : p s with
  | none => rfl
  | some y => obtain ⟨r, a⟩ := y; dsimp only; rw [h2 r a e]

theorem preceded_congr {p p' : P α} {q q' : P β} {s : Str} (h1 : p s = p' s)
    (h2 : ∀ r a, p s = some (r, a) → q r = q' r) : preceded p q s = preceded p' q' s := by
  unfold preceded
  rw [← h1]
  cases e : p s with
  | none => rfl
  | some y => obtain ⟨r, a⟩ := y; dsimp only; rw [h2 r a e]

theorem mapP_congr {p p' : P α} {f : α → β} {s : Str} (h1 : p s = p' s) :
    mapP p f s = mapP p' f s := by
  unfold mapP; rw [h1]

theorem value_congr {p p' : P α} {b : β} {s : Str} (h1 : p s = p' s) :
    value b p s = value b p' s := mapP_congr h1

theorem notP_congr {p p' : P α} {s : Str} (h1 : p s = p' s) : notP p s = notP p' s := by
  unfold notP; rw [h1]

theorem recognize_congr {p p' : P α} {s : Str} (h1 : p s = p' s) :
    recognize p s = recognize p' s := by
  unfold recognize; rw [h1]

theorem mapOpt_congr {p p' : P α} {f f' : α → Option β} {s : Str} (h1 : p s = p' s)
    (h2 : ∀ r a, p s = some (r, a) → f a = f' a) : mapOpt p f s = mapOpt p' f' s := by
  unfold mapOpt
  rw [← h1]
  cases e : p s with
  | none => rfl
  | some y => obtain ⟨r, a⟩ := y; dsimp only; rw [h2 r a e]

theorem orElse_congr {p p' q q' : P α} {s : Str} (h1 : p s = p' s) (h2 : q s = q' s) :
    orElse p q s = orElse p' q' s := by
  unfold orElse; rw [h1, h2]

theorem terminated_congr {p p' : P α} {q q' : P β} {s : Str} (h1 : p s = p' s)
    (h2 : ∀ r a, p s = some (r, a) → q r = q' r) : terminated p q s = terminated p' q' s :=
  mapP_congr (seq_congr h1 h2)

end
end Nom
end Verif
