import Verif.ConcatSpec
/-!
# Parsers on a text and on the text followed by a blank line
-/
set_option autoImplicit false
set_option linter.unusedVariables false
set_option linter.unusedSimpArgs false
namespace Verif
open Nom

/-- Whole lines, the last of which does not end with a backslash. -/
def W (s : Str) : Prop := WholeLines s ∧ ¬ cs!"\\\n" <:+ s
/-- Such lines, at least one. -/
def N (s : Str) : Prop := W s ∧ s ≠ []

theorem W.suffix {r s : Str} (h : W s) (hr : r <:+ s) : W r := by
  obtain ⟨⟨h1, h2⟩⟩ := (⟨h⟩ : PLift (W s))
  refine ⟨?_, fun h' => h2 (h'.trans hr)⟩
  by_cases hn : r = []
  · exact .inl hn
  · obtain ⟨a, rfl⟩ := hr
    refine .inr ?_
    rcases h1 with h1 | h1
    · simp at h1; exact absurd h1.2 hn
    · rw [List.getLast?_append] at h1
      cases e : r.getLast? with
      | none => exact absurd (List.getLast?_eq_none_iff.1 e) hn
      | some c => rw [e] at h1; simpa using h1

theorem N.w {s : Str} (h : N s) : W s := h.1
theorem N.ne {s : Str} (h : N s) : s ≠ [] := h.2
theorem N.last {s : Str} (h : N s) : s.getLast? = some '\n' := h.1.1.resolve_left h.2
theorem W.cases {s : Str} (h : W s) : s = [] ∨ N s := by
  by_cases hn : s = []
  · exact .inl hn
  · exact .inr ⟨h, hn⟩

/-- After a character that is no line feed there is more. -/
theorem N.tail {c : Char} {s : Str} (h : N (c :: s)) (hc : c ≠ '\n') : N s := by
  refine ⟨h.1.suffix (List.suffix_cons _ _), ?_⟩
  rintro rfl
  have := h.last
  simp at this; exact hc this

theorem N.mem {s : Str} (h : N s) : '\n' ∈ s := List.mem_of_getLast? h.last

/-- On the texts in `D` the parser does not see what follows. -/
def StaysOn {α : Type} (D : Str → Prop) (u : Str) (p : P α) : Prop :=
  ∀ s, D s → p (s ++ u) = (p s).map fun y => (y.1 ++ u, y.2)

/-- On the texts in `D` whether the parser succeeds does not depend on what follows. -/
def AgreesOn {α : Type} (D : Str → Prop) (u : Str) (p : P α) : Prop :=
  ∀ s, D s → (p (s ++ u)).isSome = (p s).isSome

/-- From texts in `D` the parser leads to texts in `D'`. -/
def Into {α : Type} (D : Str → Prop) (p : P α) (D' : Str → Prop) : Prop :=
  ∀ s r a, D s → p s = some (r, a) → D' r

/-- The parser fails at the end and before a blank line. -/
def DeadAt {α : Type} (u : Str) (p : P α) : Prop := p [] = none ∧ p u = none

section
variable {α β γ : Type} {D D' D'' : Str → Prop} {u : Str} {p : P α} {q : P β} {p3 : P γ}

theorem StaysOn.some (hp : StaysOn D u p) {s r : Str} {a : α} (hs : D s) (e : p s = some (r, a)) :
    p (s ++ u) = some (r ++ u, a) := by rw [hp s hs, e]; rfl
theorem StaysOn.none (hp : StaysOn D u p) {s : Str} (hs : D s) (e : p s = none) :
    p (s ++ u) = none := by rw [hp s hs, e]; rfl
theorem StaysOn.agrees (hp : StaysOn D u p) : AgreesOn D u p := by
  intro s hs; rw [hp s hs]; cases p s <;> rfl
theorem StaysOn.mono (hp : StaysOn D u p) (h : ∀ s, D' s → D s) : StaysOn D' u p := fun s hs => hp s (h s hs)
theorem StaysOn.n (hp : StaysOn W u p) : StaysOn N u p := fun s hs => hp s hs.w
theorem StaysOn.all (hp : StaysOn N u p) (hd : DeadAt u p) : StaysOn W u p := by
  intro s hs
  rcases hs.cases with rfl | h
  · rw [hd.1]; exact hd.2
  · exact hp s h

theorem into_suf [Suf p] : Into W p W := fun s r a hs h => hs.suffix (Suf.out _ _ _ h)
theorem into_sufN [Suf p] : Into N p W := fun s r a hs h => hs.w.suffix (Suf.out _ _ _ h)
theorem Into.mono (hp : Into D p D') (h : ∀ s, D'' s → D s) : Into D'' p D' := fun s r a hs => hp s r a (h s hs)
theorem Into.weaken (hp : Into D p D') (h : ∀ s, D' s → D'' s) : Into D p D'' := fun s r a hs e => h _ (hp s r a hs e)

theorem stays_fail : StaysOn D u (failP : P α) := fun _ _ => rfl

/-! ## Characters -/

theorem stays_satisfy {k : Char → Bool} {t : Str} (h2 : k '\n' = false) : StaysOn D ('\n' :: t) (satisfy k) := by
  intro s hs
  cases s with
  | nil => simp [satisfy, h2]
  | cons c s =>
    simp only [satisfy, List.cons_append]
    split <;> rfl

theorem stays_satisfyN {k : Char → Bool} : StaysOn N u (satisfy k) := by
  intro s hs
  cases s with
  | nil => exact absurd rfl hs.ne
  | cons c s =>
    simp only [satisfy, List.cons_append]
    split <;> rfl

theorem into_satisfy {k : Char → Bool} (h2 : k '\n' = false) : Into N (satisfy k) N := by
  intro s r a hs h
  cases s with
  | nil => simp [satisfy] at h
  | cons c s =>
    simp only [satisfy] at h
    split at h
    · rename_i hk
      simp at h; obtain ⟨rfl, rfl⟩ := h
      exact hs.tail (by rintro rfl; rw [h2] at hk; simp at hk)
    · simp at h

theorem stays_chr {c : Char} {t : Str} (h2 : c ≠ '\n') : StaysOn D ('\n' :: t) (chr c) :=
  stays_satisfy (by simpa using fun e => h2 e.symm)
theorem into_chr {c : Char} (h2 : c ≠ '\n') : Into N (chr c) N :=
  into_satisfy (by simpa using fun e => h2 e.symm)
theorem stays_oneOf {l : Str} {t : Str} (h2 : '\n' ∉ l) : StaysOn D ('\n' :: t) (oneOf l) :=
  stays_satisfy (by simpa using h2)
theorem into_oneOf {l : Str} (h2 : '\n' ∉ l) : Into N (oneOf l) N :=
  into_satisfy (by simpa using h2)

theorem stays_tag {l t : Str} (h2 : '\n' ∉ l) : StaysOn D ('\n' :: t) (tag l) := by
  have key : ∀ (l s : Str), '\n' ∉ l → l.isPrefixOf (s ++ '\n' :: t) = l.isPrefixOf s := by
    intro l
    induction l with
    | nil => intro s _; simp
    | cons c l ih =>
      intro s h
      simp only [List.mem_cons, not_or] at h
      cases s with
      | nil =>
        have : (c == '\n') = false := by simpa using fun e => h.1 e.symm
        simp [List.isPrefixOf_cons_cons, this]
      | cons d s => simp [List.isPrefixOf_cons_cons, ih s h.2]
  intro s hs
  unfold tag
  rw [key l s h2]
  split
  · rename_i h
    have : l.length ≤ s.length := (List.isPrefixOf_iff_prefix.1 h).length_le
    simp [List.drop_append_of_le_length this]
  · rfl

theorem into_of_clean (h : ∀ s r a, p s = some (r, a) → ∃ w, s = w ++ r ∧ '\n' ∉ w) : Into N p N := by
  intro s r a hs e
  obtain ⟨w, rfl, hw⟩ := h s r a e
  refine ⟨hs.w.suffix ⟨w, rfl⟩, ?_⟩
  rintro rfl
  have := hs.mem
  simp at this; exact hw this

theorem into_tag {l : Str} (h2 : '\n' ∉ l) : Into N (tag l) N :=
  into_of_clean (fun s r a h => ⟨l, by
    unfold tag at h
    split at h
    · rename_i hp
      obtain ⟨r', rfl⟩ := List.isPrefixOf_iff_prefix.1 hp
      simp at h; simp [h.1]
    · simp at h, h2⟩)

theorem takeWhile_nl {k : Char → Bool} {t : Str} (h2 : k '\n' = false) (s : Str) :
    (s ++ '\n' :: t).takeWhile k = s.takeWhile k ∧ (s ++ '\n' :: t).dropWhile k = s.dropWhile k ++ '\n' :: t := by
  induction s with
  | nil => simp [h2]
  | cons c s ih =>
    simp only [List.cons_append, List.takeWhile_cons, List.dropWhile_cons]
    split
    · simp [ih]
    · simp

theorem stays_takeWhile {k : Char → Bool} {t : Str} (h2 : k '\n' = false) :
    StaysOn D ('\n' :: t) (Nom.takeWhile k) := by
  intro s _
  simp [Nom.takeWhile, takeWhile_nl h2]

theorem stays_takeWhile1 {k : Char → Bool} {t : Str} (h2 : k '\n' = false) :
    StaysOn D ('\n' :: t) (takeWhile1 k) := by
  intro s _
  simp only [takeWhile1, takeWhile_nl h2]
  split <;> simp_all

theorem clean_takeWhile {k : Char → Bool} (h2 : k '\n' = false) (s : Str) :
    s = s.takeWhile k ++ s.dropWhile k ∧ '\n' ∉ s.takeWhile k := by
  refine ⟨(List.takeWhile_append_dropWhile).symm, fun h => ?_⟩
  have := List.all_eq_true.1 (List.all_takeWhile (p := k) (l := s)) _ h
  rw [h2] at this; simp at this

theorem into_takeWhile {k : Char → Bool} (h2 : k '\n' = false) : Into N (Nom.takeWhile k) N :=
  into_of_clean (fun s r a h => by
    simp [Nom.takeWhile] at h
    obtain ⟨rfl, rfl⟩ := h
    exact ⟨_, clean_takeWhile h2 s⟩)

theorem into_takeWhile1 {k : Char → Bool} (h2 : k '\n' = false) : Into N (takeWhile1 k) N :=
  into_of_clean (fun s r a h => by
    unfold takeWhile1 at h
    split at h
    · simp at h
    · simp at h
      obtain ⟨rfl, rfl⟩ := h
      exact ⟨_, clean_takeWhile h2 s⟩)

theorem stays_space0 {t : Str} : StaysOn D ('\n' :: t) space0 := stays_takeWhile (by decide)
theorem stays_space1 {t : Str} : StaysOn D ('\n' :: t) space1 := stays_takeWhile1 (by decide)
theorem into_space0 : Into N space0 N := into_takeWhile (by decide)
theorem into_space1 : Into N space1 N := into_takeWhile1 (by decide)

/-! ## Combinators -/

theorem stays_orElse {p' : P α} (hp : StaysOn D u p) (hp' : StaysOn D u p') : StaysOn D u (p <||> p') := by
  intro s hs
  unfold orElse
  rw [hp s hs, hp' s hs]
  cases p s <;> rfl

theorem into_orElse {p' : P α} (hp : Into D p D') (hp' : Into D p' D') : Into D (p <||> p') D' := by
  intro s r a hs h
  rcases orElse_some.1 h with h | ⟨_, h⟩
  · exact hp _ _ _ hs h
  · exact hp' _ _ _ hs h

theorem agrees_orElse {p' : P α} (hp : AgreesOn D u p) (hp' : AgreesOn D u p') : AgreesOn D u (p <||> p') := by
  intro s hs
  have h1 := hp s hs
  have h2 := hp' s hs
  unfold orElse
  cases e : p s <;> cases e' : p (s ++ u) <;> simp_all

theorem stays_mapP {k : α → γ} (hp : StaysOn D u p) : StaysOn D u (mapP p k) := by
  intro s hs
  unfold mapP
  rw [hp s hs]
  cases p s <;> rfl

theorem into_mapP {k : α → γ} (hp : Into D p D') : Into D (mapP p k) D' := by
  intro s r a hs h
  obtain ⟨b, h', rfl⟩ := mapP_some.1 h
  exact hp _ _ _ hs h'

theorem agrees_mapP {k : α → γ} (hp : AgreesOn D u p) : AgreesOn D u (mapP p k) := by
  intro s hs
  have h1 := hp s hs
  unfold mapP
  cases e : p s <;> cases e' : p (s ++ u) <;> simp_all

theorem stays_value {c : γ} (hp : StaysOn D u p) : StaysOn D u (value c p) := stays_mapP hp
theorem into_value {c : γ} (hp : Into D p D') : Into D (value c p) D' := into_mapP hp
theorem agrees_value {c : γ} (hp : AgreesOn D u p) : AgreesOn D u (value c p) := agrees_mapP hp

theorem stays_mapOpt {k : α → Option γ} (hp : StaysOn D u p) : StaysOn D u (mapOpt p k) := by
  intro s hs
  unfold mapOpt
  rw [hp s hs]
  cases e : p s with
  | none => rfl
  | some y =>
    simp only [Option.map_some]
    cases k y.2 <;> rfl

theorem into_mapOpt {k : α → Option γ} (hp : Into D p D') : Into D (mapOpt p k) D' := by
  intro s r a hs h
  obtain ⟨b, h, _⟩ := mapOpt_some.1 h
  exact hp _ _ _ hs h

theorem stays_verify {k : α → Bool} (hp : StaysOn D u p) : StaysOn D u (verify p k) := by
  intro s hs
  unfold verify
  rw [hp s hs]
  cases e : p s with
  | none => rfl
  | some y => simp only [Option.map_some]; split <;> rfl

theorem into_verify {k : α → Bool} (hp : Into D p D') : Into D (verify p k) D' := by
  intro s r a hs h
  exact hp _ _ _ hs (verify_some.1 h).1

theorem stays_opt (hp : StaysOn D u p) : StaysOn D u (opt p) := by
  intro s hs
  unfold opt
  rw [hp s hs]
  cases e : p s <;> rfl

theorem into_opt (hp : Into D p D') (h : ∀ s, D s → D' s) : Into D (opt p) D' := by
  intro s r a hs e
  unfold opt at e
  split at e
  · rename_i e1
    simp at e; obtain ⟨rfl, _⟩ := e
    exact hp _ _ _ hs e1
  · simp at e; obtain ⟨rfl, _⟩ := e; exact h _ hs

theorem stays_notP (hp : AgreesOn D u p) : StaysOn D u (notP p) := by
  intro s hs
  have := hp s hs
  unfold notP
  cases e : p s <;> cases e' : p (s ++ u) <;> simp_all

theorem into_notP (h : ∀ s, D s → D' s) : Into D (notP p) D' := by
  intro s r a hs e
  obtain ⟨_, rfl⟩ := notP_some.1 e
  exact h _ hs

theorem stays_recognize [Suf p] (hp : StaysOn D u p) : StaysOn D u (recognize p) := by
  intro s hs
  unfold recognize
  rw [hp s hs]
  cases e : p s with
  | none => rfl
  | some y =>
    obtain ⟨u, hu⟩ := Suf.out _ _ _ e
    simp only [Option.map_some, ← hu]
    simp

theorem into_recognize (hp : Into D p D') : Into D (recognize p) D' := by
  intro s r a hs h
  unfold recognize at h
  split at h
  · rename_i e
    simp at h; obtain ⟨rfl, _⟩ := h
    exact hp _ _ _ hs e
  · simp at h

theorem stays_seq (hp : StaysOn D u p) (h : Into D p D') (hq : StaysOn D' u q) : StaysOn D u (seq p q) := by
  intro s hs
  unfold seq
  rw [hp s hs]
  cases e : p s with
  | none => rfl
  | some y =>
    simp only [Option.map_some]
    rw [hq y.1 (h _ _ _ hs e)]
    cases q y.1 <;> rfl

theorem into_seq (h : Into D p D') (h' : Into D' q D'') : Into D (seq p q) D'' := by
  intro s r a hs e
  obtain ⟨r1, h1, h2⟩ := seq_some.1 e
  exact h' _ _ _ (h _ _ _ hs h1) h2

theorem stays_preceded (hp : StaysOn D u p) (h : Into D p D') (hq : StaysOn D' u q) : StaysOn D u (preceded p q) := by
  intro s hs
  unfold preceded
  rw [hp s hs]
  cases e : p s with
  | none => rfl
  | some y =>
    simp only [Option.map_some]
    rw [hq y.1 (h _ _ _ hs e)]

theorem into_preceded (h : Into D p D') (h' : Into D' q D'') : Into D (preceded p q) D'' := by
  intro s r a hs e
  obtain ⟨r1, _, h1, h2⟩ := preceded_some.1 e
  exact h' _ _ _ (h _ _ _ hs h1) h2

theorem stays_terminated (hp : StaysOn D u p) (h : Into D p D') (hq : StaysOn D' u q) :
    StaysOn D u (terminated p q) := stays_mapP (stays_seq hp h hq)
theorem into_terminated (h : Into D p D') (h' : Into D' q D'') : Into D (terminated p q) D'' :=
  into_mapP (into_seq h h')

theorem stays_delimited {D3 : Str → Prop} (hp : StaysOn D u p) (h : Into D p D') (hq : StaysOn D' u q)
    (h' : Into D' q D3) (h3 : StaysOn D3 u p3) :
    StaysOn D u (delimited p q p3) := stays_preceded hp h (stays_terminated hq h' h3)
theorem into_delimited {D3 : Str → Prop} (h : Into D p D') (h' : Into D' q D3) (h3 : Into D3 p3 D'') :
    Into D (delimited p q p3) D'' := into_preceded h (into_terminated h' h3)

theorem stays_many0 [Con p] (hp : StaysOn D u p) (h : Into D p D) : StaysOn D u (many0 p) := by
  intro s
  induction hn : s.length using Nat.strongRecOn generalizing s with
  | _ n ih =>
  intro hs
  rw [many0_eq, many0_eq, hp s hs]
  cases e : p s with
  | none => rfl
  | some y =>
    obtain ⟨r, a⟩ := y
    simp only [Option.map_some]
    have h2 : r.length < s.length := Con.lt e
    rw [if_pos h2, if_pos (by simp only [List.length_append]; omega)]
    rw [ih r.length (by omega) r rfl (h _ _ _ hs e)]
    cases many0 p r <;> rfl

theorem into_many0 (h : Into D p D) : Into D (many0 p) D := by
  have : ∀ s r l, many0 p s = some (r, l) → D s → D r :=
    many0_induction (M := fun s r _ => D s → D r) (fun _ _ h => h)
      (fun s r a r' l h1 _ _ ih hs => ih (h _ _ _ hs h1))
  exact fun s r l hs e => this s r l e hs

theorem stays_many1 [Con p] (hp : StaysOn D u p) (h : Into D p D) : StaysOn D u (many1 p) := by
  intro s hs
  unfold many1
  rw [hp s hs]
  cases e : p s with
  | none => rfl
  | some y =>
    simp only [Option.map_some]
    rw [stays_many0 hp h y.1 (h _ _ _ hs e)]
    cases many0 p y.1 <;> rfl

theorem into_many1 (h : Into D p D) : Into D (many1 p) D := by
  intro s r l hs e
  unfold many1 at e
  split at e
  · simp at e
  · rename_i e1
    split at e
    · rename_i e2
      simp at e; obtain ⟨rfl, _⟩ := e
      exact into_many0 h _ _ _ (h _ _ _ hs e1) e2
    · simp at e

theorem stays_manyMN [Con p] (hp : StaysOn D u p) (h : Into D p D) (m n : Nat) : StaysOn D u (manyMN p m n) := by
  intro s
  induction n generalizing m s with
  | zero => intro hs; rfl
  | succ n ih =>
    intro hs
    simp only [manyMN]
    rw [hp s hs]
    cases e : p s with
    | none => simp only [Option.map_none]; split <;> rfl
    | some y =>
      obtain ⟨r, a⟩ := y
      simp only [Option.map_some]
      have h2 : r.length < s.length := Con.lt e
      rw [if_pos h2, if_pos (by simp only [List.length_append]; omega), ih (m - 1) r (h _ _ _ hs e)]
      cases manyMN p (m - 1) n r <;> rfl

theorem into_manyMN (h : Into D p D) (m n : Nat) : Into D (manyMN p m n) D := by
  intro s r l hs e
  induction n generalizing m s l with
  | zero => simp [manyMN] at e; obtain ⟨rfl, _⟩ := e; exact hs
  | succ n ih =>
    simp only [manyMN] at e
    split at e
    · rename_i e1
      split at e
      · split at e
        · rename_i e2
          simp at e; obtain ⟨rfl, _⟩ := e
          exact ih _ _ _ (h _ _ _ hs e1) e2
        · simp at e
      · simp at e
    · split at e
      · simp at e; obtain ⟨rfl, _⟩ := e; exact hs
      · simp at e

theorem stays_manyMin [Con p] (hp : StaysOn D u p) (h : Into D p D) (m : Nat) : StaysOn D u (manyMin m p) :=
  stays_verify (stays_many0 hp h)
theorem into_manyMin (h : Into D p D) (m : Nat) : Into D (manyMin m p) D := into_verify (into_many0 h)

theorem stays_spaces {t : Str} (m n : Nat) : StaysOn D ('\n' :: t) (manyMN (chr ' ') m n) := fun s hs =>
  stays_manyMN (D := fun _ => True) (stays_chr (by decide)) (fun _ _ _ _ _ => trivial) m n s trivial
theorem into_spaces (m n : Nat) : Into N (manyMN (chr ' ') m n) N := into_manyMN (into_chr (by decide)) m n
theorem stays_indent03 {t : Str} : StaysOn D ('\n' :: t) indent03 := stays_spaces _ _
theorem into_indent03 : Into N indent03 N := into_spaces _ _

theorem stays_sepLoop [Suf p] [Con q] (hq : StaysOn D u q) (h : Into D q D') (hp : StaysOn D' u p) (h' : Into D' p D) :
    StaysOn D u (sepLoop q p) := by
  intro s
  induction hn : s.length using Nat.strongRecOn generalizing s with
  | _ n ih =>
  intro hs
  rw [sepLoop_eq, sepLoop_eq, hq s hs]
  cases e : q s with
  | none => rfl
  | some y =>
    obtain ⟨r, a⟩ := y
    simp only [Option.map_some]
    have hr := h _ _ _ hs e
    rw [hp r hr]
    cases e2 : p r with
    | none => rfl
    | some z =>
      obtain ⟨r', b⟩ := z
      simp only [Option.map_some]
      have h1 : r.length < s.length := Con.lt e
      have h3 := (Suf.out _ _ _ e2).length_le
      rw [if_pos (by simp only [List.length_append]; omega), if_pos (by omega),
        ih r'.length (by omega) r' rfl (h' _ _ _ hr e2)]
      cases sepLoop q p r' <;> rfl

theorem into_sepLoop (h : Into D q D') (h' : Into D' p D) : Into D (sepLoop q p) D := by
  have : ∀ s r l, sepLoop q p s = some (r, l) → D s → D r :=
    sepLoop_induction (M := fun s r _ => D s → D r) (fun _ _ h => h)
      (fun s r b r' a r'' l h1 h2 _ _ ih hs => ih (h' _ _ _ (h _ _ _ hs h1) h2))
  exact fun s r l hs e => this s r l e hs

theorem stays_separatedList1 [Suf p] [Con q] (hq : StaysOn D u q) (h : Into D q D) (hp : StaysOn D u p)
    (h' : Into D p D) : StaysOn D u (separatedList1 q p) := by
  intro s hs
  unfold separatedList1
  rw [hp s hs]
  cases e : p s with
  | none => rfl
  | some y =>
    simp only [Option.map_some]
    rw [stays_sepLoop hq h hp h' y.1 (h' _ _ _ hs e)]
    cases sepLoop q p y.1 <;> rfl

theorem into_separatedList1 (h : Into D q D) (h' : Into D p D) : Into D (separatedList1 q p) D := by
  intro s r l hs e
  unfold separatedList1 at e
  split at e
  · simp at e
  · rename_i e1
    split at e
    · rename_i e2
      simp at e; obtain ⟨rfl, _⟩ := e
      exact into_sepLoop h h' _ _ _ (h' _ _ _ hs e1) e2
    · simp at e

/-! ## Lines -/

theorem stays_lineEnding : StaysOn N u lineEnding := by
  intro s hs
  match s, hs with
  | [], hs => exact absurd rfl hs.ne
  | [c], hs =>
    have := hs.last
    simp at this; subst this; rfl
  | c :: d :: s, hs =>
    by_cases hc : c = '\n'
    · subst hc; rfl
    · by_cases hr : c = '\r'
      · subst hr
        by_cases hd : d = '\n'
        · subst hd; rfl
        · simp [lineEnding, hd]
      · simp [lineEnding, hc, hr]

theorem stays_eof : StaysOn N u eof := by
  intro s hs
  unfold eof
  have := hs.ne
  simp [this]

theorem stays_eofOrEol : StaysOn N u eofOrEol := stays_orElse stays_lineEnding stays_eof

theorem agrees_eofOrEol {t : Str} : AgreesOn W ('\n' :: t) eofOrEol := by
  intro s hs
  rcases hs.cases with rfl | h
  · rfl
  · exact stays_eofOrEol.agrees s h

theorem stays_lineTerminated (hp : StaysOn N u p) (h : Into N p N) : StaysOn N u (lineTerminated p) :=
  stays_terminated hp h stays_eofOrEol

theorem into_lineTerminated [Suf p] : Into N (lineTerminated p) W := by
  have : Suf (lineTerminated p) := by unfold lineTerminated; infer_instance
  exact into_sufN

theorem stays_anyUntil {t : Str} {stop : P β} (h : AgreesOn W ('\n' :: t) stop) (h1 : (stop ('\n' :: t)).isSome) :
    StaysOn W ('\n' :: t) (preceded (notP stop) anychar) := by
  intro s hs
  rcases hs.cases with rfl | hN
  · have h0 : (stop []).isSome := by rw [← h [] hs]; exact h1
    cases e : stop [] with
    | none => rw [e] at h0; simp at h0
    | some y =>
      cases e' : stop ('\n' :: t) with
      | none => rw [e'] at h1; simp at h1
      | some z => simp [preceded, notP, e, e']
  · exact stays_preceded (D := N) (D' := N) (stays_notP (fun s hs => h s hs.w)) (into_notP fun _ h => h)
      stays_satisfyN s hN

theorem stays_notEofOrEol1 {t : Str} : StaysOn W ('\n' :: t) notEofOrEol1 :=
  stays_recognize (stays_many1 (stays_anyUntil agrees_eofOrEol rfl) into_suf)

theorem into_notEofOrEol1 : Into N notEofOrEol1 N := by
  refine into_recognize (into_many1 (into_of_clean ?_))
  intro s r a h
  obtain ⟨r1, _, h1, h2⟩ := preceded_some.1 h
  obtain ⟨h3, rfl⟩ := notP_some.1 h1
  cases r1 with
  | nil => simp [anychar, satisfy] at h2
  | cons c r1 =>
    simp [anychar, satisfy] at h2
    obtain ⟨rfl, rfl⟩ := h2
    refine ⟨[c], rfl, ?_⟩
    rintro hc
    simp at hc; subst hc
    simp [eofOrEol, orElse, lineEnding] at h3

theorem stays_notEofOrEol0 {t : Str} : StaysOn W ('\n' :: t) notEofOrEol0 := by
  have hk : notCrLf '\n' = false := by decide
  intro s hs
  have key : notLineEnding (s ++ '\n' :: t) = (notLineEnding s).map fun y => (y.1 ++ '\n' :: t, y.2) := by
    unfold notLineEnding
    rw [(takeWhile_nl hk s).1, (takeWhile_nl hk s).2]
    have hw : W (s.dropWhile notCrLf) := hs.suffix (List.dropWhile_suffix _)
    match e : s.dropWhile notCrLf, hw with
    | [], _ => rfl
    | ['\r'], hw => exact absurd hw.1 (by simp [WholeLines])
    | '\r' :: d :: r, hw =>
      by_cases hd : d = '\n'
      · subst hd; rfl
      · simp [hd]
    | c :: r, hw =>
      by_cases hc : c = '\r'
      · subst hc
        cases r with
        | nil => exact absurd hw.1 (by simp [WholeLines])
        | cons d r =>
          by_cases hd : d = '\n'
          · subst hd; rfl
          · simp [hd]
      · simp [hc]
  unfold notEofOrEol0 orElse
  rw [key]
  cases e : notLineEnding s with
  | some y => rfl
  | none =>
    have hne : s ≠ [] := by rintro rfl; simp [notLineEnding] at e
    simp [eof, hne]

theorem into_notEofOrEol0 : Into N notEofOrEol0 N := by
  refine into_orElse (into_of_clean ?_) ?_
  · intro s r a h
    have : s.dropWhile notCrLf = r := by
      unfold notLineEnding at h
      split at h
      · split at h
        · simp at h; exact h.1
        · simp at h
      · simp at h; exact h.1
    subst this
    exact ⟨_, clean_takeWhile (by decide) s⟩
  · intro s r a hs h
    exact absurd (eof_some.1 h).1 hs.ne

end
end Verif
