import Verif.ParserDepth
/-!
# Windows and Unix line endings (C76): the specification, and combinators
-/
set_option linter.unusedVariables false
set_option linter.unusedSimpArgs false
namespace Verif
open Nom

/-! ## Specification -/

/-- The text with `\n` for `\r\n`: carriage returns removed. -/
def unix (s : Str) : Str := s.filter (· != '\r')

/-- Every carriage return is part of a line ending `\r\n`. -/
def CrOk (s : Str) : Prop := ∀ r, ('\r' :: r) <:+ s → r.head? = some '\n'

/-- The bracket is closed before the end of the line, by a bracket without a backslash in front of
it. -/
def labelCloses : Str → Bool
  | [] => false
  | '\\' :: ']' :: t => labelCloses t
  | ']' :: _ => true
  | _ :: t => labelCloses t

/-- `l` is what is left of a line of `s` from some place on. -/
def LineTail (l s : Str) : Prop :=
  '\n' ∉ l ∧ ∃ u r, s = u ++ (l ++ r) ∧ (r = [] ∨ ∃ r', r = '\n' :: r')

/-- `]:` occurs in the text, as it must if there is a link definition. -/
def MayDefine (s : Str) : Prop := ∃ l, LineTail (cs!"]:" ++ l) s

/-- The few places where the parser takes `\r\n` for something else than a line ending.  In a text that
may contain link definitions: a backslash at the end of a line, or a label that goes on in the next line;
in a text that may contain HTML blocks: an attribute value of one character, a line ending. -/
structure NoTraps (cfg : PConfig) (s : Str) : Prop where
  backslash : cfg.linkDefinition ≠ .ignore → MayDefine s → ∀ l, LineTail l s → l ≠ ['\\']
  label : cfg.linkDefinition ≠ .ignore → MayDefine s → ∀ l, LineTail ('[' :: l) s → labelCloses l = true
  value : cfg.htmlBlock ≠ .ignore → ∀ b q, (∀ c ∈ b, isSpace c = true) →
    LineTail ('=' :: (b ++ [q])) s → q ≠ '"' ∧ q ≠ '\''

mutual
/-- The block with `\n` for `\r\n` in what is copied from the input. -/
def unixBlock : Block → Block
  | .htmlBlock h => .htmlBlock (unix h)
  | .definition l d t => .definition l (unix d) (t.map unix)
  | .footnoteDefinition l b => .footnoteDefinition (unix l) (unixBlocks b)
  | .blockQuote b => .blockQuote (unixBlocks b)
  | .list k items => .list k (unixItems items)
  | .githubAlert t b => .githubAlert t (unixBlocks b)
  | .paragraph c => .paragraph c
  | .heading k c => .heading k c
  | .thematicBreak => .thematicBreak
  | .codeBlock k t => .codeBlock k t
  | .table rows al => .table rows al
  | .empty => .empty
termination_by structural b => b
/-- `unixBlock` for blocks. -/
def unixBlocks : List Block → List Block
  | [] => []
  | b :: l => unixBlock b :: unixBlocks l
termination_by structural l => l
/-- `unixBlock` for an item. -/
def unixItem : ListItem → ListItem
  | .mk t b => .mk t (unixBlocks b)
termination_by structural i => i
/-- `unixBlock` for items. -/
def unixItems : List ListItem → List ListItem
  | [] => []
  | i :: l => unixItem i :: unixItems l
termination_by structural l => l
end

/-- `unixBlock` for documents. -/
def unixDoc (d : Document) : Document := ⟨unixBlocks d.blocks⟩

theorem unixBlocks_eq (l : List Block) : unixBlocks l = l.map unixBlock := by
  induction l with
  | nil => rfl
  | cons b l ih => rw [unixBlocks, List.map_cons, ih]

theorem unixItems_eq (l : List ListItem) : unixItems l = l.map unixItem := by
  induction l with
  | nil => rfl
  | cons b l ih => rw [unixItems, List.map_cons, ih]

/-! ## Texts -/

@[simp] theorem unix_nil : unix [] = [] := rfl
@[simp] theorem unix_cr (s : Str) : unix ('\r' :: s) = unix s := rfl
theorem unix_cons {c : Char} (h : c ≠ '\r') (s : Str) : unix (c :: s) = c :: unix s := by
  simp [unix, h]
@[simp] theorem unix_lf (s : Str) : unix ('\n' :: s) = '\n' :: unix s := unix_cons (by decide) s
@[simp] theorem unix_append (a b : Str) : unix (a ++ b) = unix a ++ unix b := by simp [unix]
theorem unix_id {s : Str} (h : '\r' ∉ s) : unix s = s := by
  unfold unix; rw [List.filter_eq_self]; intro c hc; simp; rintro rfl; exact h hc
theorem unix_noCr (s : Str) : '\r' ∉ unix s := by simp [unix]
theorem unix_suffix {r s : Str} (h : r <:+ s) : unix r <:+ unix s := by
  obtain ⟨u, rfl⟩ := h; exact ⟨unix u, by simp⟩

theorem CrOk.suffix {r s : Str} (h : CrOk s) (hr : r <:+ s) : CrOk r :=
  fun t ht => h t (ht.trans hr)
theorem CrOk.of_noCr {s : Str} (h : '\r' ∉ s) : CrOk s := by
  rintro r ⟨u, rfl⟩; simp at h
theorem CrOk.tail {c : Char} {s : Str} (h : CrOk (c :: s)) : CrOk s := h.suffix (List.suffix_cons _ _)
theorem CrOk.cr {s : Str} (h : CrOk ('\r' :: s)) : ∃ t, s = '\n' :: t := by
  have := h s (List.suffix_refl _)
  cases s with
  | nil => simp at this
  | cons c t => simp at this; exact ⟨t, by rw [this]⟩

theorem CrOk.cons {c : Char} {s : Str} (hc : c = '\r' → s.head? = some '\n') (h : CrOk s) :
    CrOk (c :: s) := by
  intro r hr
  rcases List.suffix_cons_iff.1 hr with h1 | h1
  · cases h1; exact hc rfl
  · exact h r h1

/-- Two texts, the first of which does not end with a carriage return. -/
theorem CrOk.append {a b : Str} (ha : CrOk a) (hb : CrOk b) : CrOk (a ++ b) := by
  induction a with
  | nil => exact hb
  | cons c a ih =>
    refine CrOk.cons ?_ (ih ha.tail)
    rintro rfl
    obtain ⟨t, rfl⟩ := ha.cr
    rfl

/-! ## Tails of lines -/

theorem LineTail.suffix {l r s : Str} (h : LineTail l r) (hr : r <:+ s) : LineTail l s := by
  obtain ⟨v, rfl⟩ := hr
  obtain ⟨h1, u, r', rfl, h2⟩ := h
  exact ⟨h1, v ++ u, r', by simp, h2⟩

theorem LineTail.append {l a b : Str} (h : LineTail l (a ++ '\n' :: b)) : LineTail l a ∨ LineTail l b := by
  obtain ⟨h1, u, r, h2, h3⟩ := h
  rcases List.append_eq_append_iff.1 h2 with ⟨a', rfl, h4⟩ | ⟨c', rfl, h4⟩
  · cases a' with
    | nil =>
      simp only [List.nil_append] at h4
      cases l with
      | nil => exact .inl ⟨by simp, a, [], by simp, .inl rfl⟩
      | cons c l => simp only [List.cons_append, List.cons.injEq] at h4; rw [← h4.1] at h1; simp at h1
    | cons c a' =>
      simp only [List.cons_append, List.cons.injEq] at h4
      exact .inr ⟨h1, a', r, h4.2, h3⟩
  · rcases List.append_eq_append_iff.1 h4 with ⟨d, rfl, h5⟩ | ⟨d, rfl, h5⟩
    · refine .inl ⟨h1, u, d, by simp, ?_⟩
      cases d with
      | nil => exact .inl rfl
      | cons c d =>
        rcases h3 with rfl | ⟨r', rfl⟩
        · simp at h5
        · simp only [List.cons_append, List.cons.injEq] at h5
          exact .inr ⟨d, by rw [h5.1]⟩
    · cases d with
      | nil => exact .inl ⟨by simpa using h1, u, [], by simp, .inl rfl⟩
      | cons c d =>
        simp only [List.cons_append, List.cons.injEq] at h5
        rw [← h5.1] at h1; simp at h1

theorem LineTail.joinWith {l : Str} {ls : List Str} (h : LineTail l (joinWith ['\n'] ls)) :
    l = [] ∨ ∃ y ∈ ls, LineTail l y := by
  induction ls with
  | nil =>
    obtain ⟨_, u, r, h2, _⟩ := h
    simp [Verif.joinWith] at h2; exact .inl h2.2.1
  | cons a ls ih =>
    cases ls with
    | nil => exact .inr ⟨a, by simp, h⟩
    | cons b ls =>
      have e : Verif.joinWith ['\n'] (a :: b :: ls) = a ++ '\n' :: Verif.joinWith ['\n'] (b :: ls) := by
        simp [Verif.joinWith]
      rw [e] at h
      rcases h.append with h | h
      · exact .inr ⟨a, by simp, h⟩
      · rcases ih h with h | ⟨y, hy, h⟩
        · exact .inl h
        · exact .inr ⟨y, by simp at hy ⊢; exact .inr hy, h⟩

/-- Every tail of a line of `t` is empty or one of `s`. -/
def Tails (t s : Str) : Prop := ∀ l, LineTail l t → (∀ c ∈ l, isSpace c = true) ∨ LineTail l s

/-- Whether the link definitions are switched off, absent, or without traps. -/
inductive Defs
  | off
  | absent
  | strict

/-- Which traps are excluded. -/
structure Traps where
  defs : Defs
  html : Bool

/-- The text contains none of the excluded traps. -/
structure Free (K : Traps) (s : Str) : Prop where
  absent : K.defs = .absent → ∀ l, ¬ LineTail (cs!"]:" ++ l) s
  backslash : K.defs = .strict → ∀ l, LineTail l s → l ≠ ['\\']
  label : K.defs = .strict → ∀ l, LineTail ('[' :: l) s → labelCloses l = true
  value : K.html = true → ∀ b q, (∀ c ∈ b, isSpace c = true) →
    LineTail ('=' :: (b ++ [q])) s → q ≠ '"' ∧ q ≠ '\''

theorem Free.of {K : Traps} {s t : Str} (h : Free K s) (ht : Tails t s) : Free K t where
  absent hi l hl := by
    rcases ht _ hl with h1 | h1
    · exact absurd (h1 ']' (by simp)) (by decide)
    · exact h.absent hi l h1
  backslash hi l hl := by
    rcases ht l hl with h1 | h1
    · rintro rfl; exact absurd (h1 '\\' (by simp)) (by decide)
    · exact h.backslash hi l h1
  label hi l hl := by
    rcases ht _ hl with h1 | h1
    · exact absurd (h1 '[' (by simp)) (by decide)
    · exact h.label hi l h1
  value hi b q hb hl := by
    rcases ht _ hl with h1 | h1
    · exact absurd (h1 '=' (by simp)) (by decide)
    · exact h.value hi b q hb h1

theorem Free.suffix {K : Traps} {s r : Str} (h : Free K s) (hr : r <:+ s) : Free K r :=
  h.of fun l hl => .inr (hl.suffix hr)

/-- What is asked of an input. -/
def UOk (K : Traps) (s : Str) : Prop := CrOk s ∧ Free K (unix s)

theorem UOk.suffix {K : Traps} {s r : Str} (h : UOk K s) (hr : r <:+ s) : UOk K r :=
  ⟨h.1.suffix hr, h.2.suffix (unix_suffix hr)⟩
theorem UOk.tail {K : Traps} {c : Char} {s : Str} (h : UOk K (c :: s)) : UOk K s :=
  h.suffix (List.suffix_cons _ _)

/-! ## Parsers -/

/-- The parser does the same with `\n` for `\r\n`. -/
def Same {α : Type} (K : Traps) (f : α → α) (p : P α) : Prop :=
  ∀ s, UOk K s → p (unix s) = (p s).map fun y => (unix y.1, f y.2)

section
variable {α β γ : Type} {K : Traps} {f : α → α} {g : β → β} {h : γ → γ} {p : P α} {q : P β} {t : P γ}

theorem Same.some (hp : Same K f p) {s r : Str} {a : α} (hs : UOk K s) (e : p s = some (r, a)) :
    p (unix s) = some (unix r, f a) := by rw [hp s hs, e]; rfl
theorem Same.none (hp : Same K f p) {s : Str} (hs : UOk K s) (e : p s = none) :
    p (unix s) = none := by rw [hp s hs, e]; rfl
theorem Same.isSome (hp : Same K f p) {s : Str} (hs : UOk K s) : (p (unix s)).isSome = (p s).isSome := by
  rw [hp s hs]; simp
theorem Same.of_eq {p' : P α} (hp : Same K f p) (e : p = p') : Same K f p' := e ▸ hp

theorem same_fail : Same K f (failP : P α) := fun _ _ => rfl

theorem same_satisfy {k : Char → Bool} (h1 : k '\r' = false) (h2 : k '\n' = false) :
    Same K id (satisfy k) := by
  intro s hs
  cases s with
  | nil => rfl
  | cons c s =>
    by_cases hc : c = '\r'
    · subst hc
      obtain ⟨t, rfl⟩ := hs.1.cr
      simp [satisfy, h1, h2]
    · rw [unix_cons hc]
      simp only [satisfy]
      split <;> rfl

theorem same_chr {c : Char} (h1 : c ≠ '\r') (h2 : c ≠ '\n') : Same K id (chr c) :=
  same_satisfy (by simpa using fun e => h1 e.symm) (by simpa using fun e => h2 e.symm)
theorem same_oneOf {l : Str} (h1 : '\r' ∉ l) (h2 : '\n' ∉ l) : Same K id (oneOf l) :=
  same_satisfy (by simpa using h1) (by simpa using h2)

theorem same_tag {l : Str} (h1 : '\r' ∉ l) (h2 : '\n' ∉ l) : Same K id (tag l) := by
  intro s hs
  induction l generalizing s with
  | nil => simp [tag]
  | cons c l ih =>
    simp only [List.mem_cons, not_or] at h1 h2
    cases s with
    | nil => simp [tag]
    | cons d s =>
      have ih := ih h1.2 h2.2 s hs.tail
      by_cases hd : d = '\r'
      · subst hd
        obtain ⟨t, rfl⟩ := hs.1.cr
        simp only [unix_cr, unix_lf, tag, List.isPrefixOf_cons_cons]
        have e1 : (c == '\n') = false := by simpa using fun e => h2.1 e.symm
        have e2 : (c == '\r') = false := by simpa using fun e => h1.1 e.symm
        simp [e1, e2]
      · rw [unix_cons hd]
        by_cases hcd : c = d
        · subst hcd
          simp only [tag, List.isPrefixOf_cons_cons, List.length_cons, List.drop_succ_cons] at ih ⊢
          simp only [beq_self_eq_true, Bool.true_and]
          split at ih <;> split at ih <;> simp_all
        · simp [tag, List.isPrefixOf_cons_cons, hcd]

theorem same_eof : Same K id eof := by
  intro s hs
  cases s with
  | nil => rfl
  | cons c s =>
    by_cases hc : c = '\r'
    · subst hc
      obtain ⟨t, rfl⟩ := hs.1.cr
      simp [eof]
    · simp [unix_cons hc, eof]

theorem same_lineEnding : Same K unix lineEnding := by
  intro s hs
  cases s with
  | nil => rfl
  | cons c s =>
    by_cases hc : c = '\r'
    · subst hc
      obtain ⟨t, rfl⟩ := hs.1.cr
      simp [lineEnding]
    · rw [unix_cons hc]
      by_cases hn : c = '\n'
      · subst hn; simp [lineEnding]
      · have e : ∀ t, lineEnding (c :: t) = Option.none := by
          intro t; unfold lineEnding; split <;> simp_all
        rw [e, e]; rfl

theorem takeWhile_unix {k : Char → Bool} (h1 : k '\r' = false) (h2 : k '\n' = false) {s : Str} (hs : CrOk s) :
    (unix s).takeWhile k = s.takeWhile k ∧ (unix s).dropWhile k = unix (s.dropWhile k) := by
  induction s with
  | nil => exact ⟨rfl, rfl⟩
  | cons c s ih =>
    by_cases hc : c = '\r'
    · subst hc
      obtain ⟨t, rfl⟩ := hs.cr
      simp [List.takeWhile_cons, List.dropWhile_cons, h1, h2]
    · rw [unix_cons hc, List.takeWhile_cons, List.takeWhile_cons, List.dropWhile_cons, List.dropWhile_cons]
      split
      · exact ⟨by rw [(ih hs.tail).1], (ih hs.tail).2⟩
      · exact ⟨rfl, by rw [unix_cons hc]⟩

theorem same_takeWhile {k : Char → Bool} (h1 : k '\r' = false) (h2 : k '\n' = false) :
    Same K id (Nom.takeWhile k) := by
  intro s hs
  simp [Nom.takeWhile, takeWhile_unix h1 h2 hs.1]
theorem same_takeWhile1 {k : Char → Bool} (h1 : k '\r' = false) (h2 : k '\n' = false) :
    Same K id (takeWhile1 k) := by
  intro s hs
  simp only [takeWhile1, takeWhile_unix h1 h2 hs.1]
  split <;> rfl
theorem same_space0 : Same K id space0 := same_takeWhile (by decide) (by decide)
theorem same_space1 : Same K id space1 := same_takeWhile1 (by decide) (by decide)
theorem same_alpha1 : Same K id alpha1 := same_takeWhile1 (by decide) (by decide)
theorem same_alnum1 : Same K id alphanumeric1 := same_takeWhile1 (by decide) (by decide)

theorem same_notLineEnding : Same K id notLineEnding := by
  intro s hs
  simp only [notLineEnding, takeWhile_unix (k := notCrLf) (by decide) (by decide) hs.1]
  have hsuf : CrOk (s.dropWhile notCrLf) := hs.1.suffix (List.dropWhile_suffix _)
  cases e : s.dropWhile notCrLf with
  | nil => rfl
  | cons c r =>
    rw [e] at hsuf
    by_cases hc : c = '\r'
    · subst hc
      obtain ⟨t, rfl⟩ := hsuf.cr
      rfl
    · rw [unix_cons hc]
      split
      · rename_i heq; cases heq; exact absurd rfl hc
      · split
        · rename_i heq; cases heq; exact absurd rfl hc
        · simp [unix_cons hc]

theorem same_u64 : Same K id u64P := by
  intro s hs
  unfold u64P digit1
  rw [same_takeWhile1 (k := isDigit) (by decide) (by decide) s hs]
  cases takeWhile1 isDigit s with
  | none => rfl
  | some y => simp only [Option.map_some, id]; split <;> rfl

theorem same_tagNoCase {l : Str} (h1 : '\r' ∉ l) (h2 : '\n' ∉ l) : Same K id (tagNoCase l) := by
  intro s hs
  induction l generalizing s with
  | nil => simp [tagNoCase]
  | cons c l ih =>
    simp only [List.mem_cons, not_or] at h1 h2
    cases s with
    | nil => simp [tagNoCase]
    | cons d s =>
      have ih := ih h1.2 h2.2 s hs.tail
      by_cases hd : d = '\r'
      · subst hd
        obtain ⟨t, rfl⟩ := hs.1.cr
        simp only [unix_cr, unix_lf, tagNoCase, List.length_cons, List.take_succ_cons, List.map_cons]
        have e1 : asciiLower '\n' = '\n' := by decide
        have e2 : asciiLower '\r' = '\r' := by decide
        have e3 : (c == '\n') = false := by simpa using fun e => h2.1 e.symm
        have e4 : (c == '\r') = false := by simpa using fun e => h1.1 e.symm
        simp [e1, e2, e3, e4]
      · rw [unix_cons hd]
        simp only [tagNoCase, List.length_cons, List.take_succ_cons, List.map_cons, List.drop_succ_cons,
          List.cons_beq_cons] at ih ⊢
        by_cases hcd : c = asciiLower d
        · rw [← hcd]
          simp only [beq_self_eq_true, Bool.true_and]
          split at ih <;> split at ih <;> rename_i i1 i2
          · rw [if_pos i1, if_pos i2]; simpa [unix_cons hd] using ih
          · simp at ih
          · simp at ih
          · rw [if_neg i1, if_neg i2]; rfl
        · simp [hcd]

theorem same_orElse {p' : P α} (hp : Same K f p) (hp' : Same K f p') : Same K f (p <||> p') := by
  intro s hs
  unfold orElse
  rw [hp s hs, hp' s hs]
  cases p s <;> rfl

theorem same_mapP {k : α → γ} (hp : Same K f p) (hk : ∀ a, k (f a) = h (k a)) : Same K h (mapP p k) := by
  intro s hs
  unfold mapP
  rw [hp s hs]
  cases p s with
  | none => rfl
  | some y => simp [hk]

theorem same_value {c : γ} (hp : Same K f p) (hk : h c = c) : Same K h (value c p) :=
  same_mapP hp fun _ => hk.symm
theorem same_unit (hp : Same K f p) : Same K id (value () p) := same_value hp rfl

theorem same_mapOpt {k : α → Option γ} (hp : Same K f p)
    (hk : ∀ s r a, UOk K s → p s = some (r, a) → k (f a) = (k a).map h) : Same K h (mapOpt p k) := by
  intro s hs
  unfold mapOpt
  rw [hp s hs]
  cases e : p s with
  | none => rfl
  | some y =>
    simp only [Option.map_some]
    rw [hk s y.1 y.2 hs e]
    cases k y.2 <;> rfl

theorem same_verify {k : α → Bool} (hp : Same K f p) (hk : ∀ a, k (f a) = k a) : Same K f (verify p k) := by
  intro s hs
  unfold verify
  rw [hp s hs]
  cases e : p s with
  | none => rfl
  | some y => simp only [Option.map_some, hk]; split <;> rfl

theorem same_opt (hp : Same K f p) : Same K (Option.map f) (opt p) := by
  intro s hs
  unfold opt
  rw [hp s hs]
  cases e : p s <;> rfl
theorem same_opt_id (hp : Same K id p) : Same K id (opt p) := by
  have := same_opt hp
  rwa [show (Option.map id : Option α → Option α) = id by funext o; simp] at this

theorem same_notP (hp : Same K f p) : Same K id (notP p) := by
  intro s hs
  unfold notP
  rw [hp s hs]
  cases e : p s <;> rfl

theorem same_recognize [Suf p] (hp : Same K f p) : Same K unix (recognize p) := by
  intro s hs
  unfold recognize
  rw [hp s hs]
  cases e : p s with
  | none => rfl
  | some y =>
    obtain ⟨u, hu⟩ := Suf.out _ _ _ e
    simp only [Option.map_some, ← hu]
    simp

/-- What is read contains no carriage return. -/
def Dry (K : Traps) (p : P α) : Prop :=
  ∀ s r a, UOk K s → p s = some (r, a) → ∃ u, s = u ++ r ∧ '\r' ∉ u

/-- `recognize` when nothing with a carriage return is read. -/
theorem same_recognize_id (hp : Same K f p) (hn : Dry K p) : Same K id (recognize p) := by
  intro s hs
  unfold recognize
  rw [hp s hs]
  cases e : p s with
  | none => rfl
  | some y =>
    obtain ⟨u, hu, hc⟩ := hn s y.1 y.2 hs e
    simp only [Option.map_some, hu]
    simp [unix_id hc]

theorem dry_satisfy {k : Char → Bool} (h1 : k '\r' = false) : Dry K (satisfy k) := by
  intro s r a hs e
  obtain ⟨rfl, h2⟩ := satisfy_some.1 e
  refine ⟨[a], rfl, ?_⟩
  simp only [List.mem_singleton]
  rintro rfl
  rw [h1] at h2; cases h2
theorem dry_chr {c : Char} (h1 : c ≠ '\r') : Dry K (chr c) := dry_satisfy (by simpa using fun e => h1 e.symm)
theorem dry_oneOf {l : Str} (h1 : '\r' ∉ l) : Dry K (oneOf l) := dry_satisfy (by simpa using h1)
theorem dry_takeWhile {k : Char → Bool} (h1 : k '\r' = false) : Dry K (Nom.takeWhile k) := by
  intro s r a hs e
  simp only [Nom.takeWhile, Option.some.injEq, Prod.mk.injEq] at e
  refine ⟨s.takeWhile k, by rw [← e.1, List.takeWhile_append_dropWhile], ?_⟩
  intro hm
  have := List.all_eq_true.1 (List.all_takeWhile (l := s) (p := k)) _ hm
  rw [h1] at this; cases this
theorem dry_takeWhile1 {k : Char → Bool} (h1 : k '\r' = false) : Dry K (takeWhile1 k) := by
  intro s r a hs e
  unfold takeWhile1 at e
  split at e
  · cases e
  · exact dry_takeWhile h1 s r a hs e
theorem dry_mapP {k : α → γ} (hp : Dry K p) : Dry K (mapP p k) := by
  intro s r a hs e
  obtain ⟨b, e, _⟩ := mapP_some.1 e
  exact hp s r b hs e
theorem dry_value {c : γ} (hp : Dry K p) : Dry K (value c p) := dry_mapP hp
theorem dry_orElse {p' : P α} (hp : Dry K p) (hp' : Dry K p') : Dry K (p <||> p') := by
  intro s r a hs e
  rcases orElse_some.1 e with e | ⟨_, e⟩
  · exact hp s r a hs e
  · exact hp' s r a hs e
theorem dry_seq (hp : Dry K p) (hq : Dry K q) : Dry K (seq p q) := by
  intro s r a hs e
  obtain ⟨r1, e1, e2⟩ := seq_some.1 e
  obtain ⟨u, rfl, h1⟩ := hp s r1 _ hs e1
  obtain ⟨v, rfl, h2⟩ := hq r1 r _ (hs.suffix (List.suffix_append _ _)) e2
  exact ⟨u ++ v, by simp, by simp [h1, h2]⟩
theorem dry_preceded (hp : Dry K p) (hq : Dry K q) : Dry K (preceded p q) := by
  intro s r a hs e
  obtain ⟨r1, b, e1, e2⟩ := preceded_some.1 e
  exact dry_seq hp hq s r (b, a) hs (seq_some.2 ⟨r1, e1, e2⟩)
theorem dry_terminated (hp : Dry K p) (hq : Dry K q) : Dry K (terminated p q) := dry_mapP (dry_seq hp hq)
theorem dry_delimited (hp : Dry K p) (hq : Dry K q) (ht : Dry K t) : Dry K (delimited p q t) :=
  dry_preceded hp (dry_terminated hq ht)
theorem dry_manyMN (hp : Dry K p) (m n : Nat) : Dry K (manyMN p m n) := by
  intro s
  induction n generalizing m s with
  | zero => intro r a hs e; simp only [manyMN, Option.some.injEq, Prod.mk.injEq] at e; exact ⟨[], by simp [e.1], by simp⟩
  | succ n ih =>
    intro r a hs e
    simp only [manyMN] at e
    split at e
    · rename_i r1 b e1
      obtain ⟨u, rfl, h1⟩ := hp s r1 b hs e1
      split at e
      · split at e
        · rename_i r2 l e2
          obtain ⟨v, rfl, h2⟩ := ih (m - 1) r1 r2 l (hs.suffix (List.suffix_append _ _)) e2
          simp only [Option.some.injEq, Prod.mk.injEq] at e
          exact ⟨u ++ v, by simp [e.1], by simp [h1, h2]⟩
        · cases e
      · cases e
    · split at e
      · simp only [Option.some.injEq, Prod.mk.injEq] at e; exact ⟨[], by simp [e.1], by simp⟩
      · cases e
theorem dry_indent03 : Dry K indent03 := dry_manyMN (dry_chr (by decide)) _ _
theorem dry_many0 (hp : Dry K p) : Dry K (many0 p) := by
  have : ∀ s r l, many0 p s = some (r, l) → UOk K s → ∃ u, s = u ++ r ∧ '\r' ∉ u := by
    refine many0_induction (p := p) (M := fun s r l => UOk K s → ∃ u, s = u ++ r ∧ '\r' ∉ u) ?_ ?_
    · intro s _ _; exact ⟨[], rfl, by simp⟩
    · intro s r a r' l e _ _ ih hs
      obtain ⟨u, rfl, h1⟩ := hp s r a hs e
      obtain ⟨v, rfl, h2⟩ := ih (hs.suffix (List.suffix_append _ _))
      exact ⟨u ++ v, by simp, by simp [h1, h2]⟩
  exact fun s r l hs e => this s r l e hs
theorem dry_many1 (hp : Dry K p) : Dry K (many1 p) := by
  intro s r l hs e
  obtain ⟨r1, a, l', e1, e2, _⟩ := many1_some.1 e
  exact dry_seq hp (dry_many0 hp) s r (a, l') hs (seq_some.2 ⟨r1, e1, e2⟩)

/-- How much is read by a parser that reads no carriage return. -/
theorem Dry.length (hp : Same K f p) (hn : Dry K p) {s r : Str} {a : α} (hs : UOk K s)
    (e : p s = some (r, a)) : (unix s).length - (unix r).length = s.length - r.length := by
  obtain ⟨u, rfl, h⟩ := hn s r a hs e
  simp [unix_id h]

theorem same_seq [Suf p] (hp : Same K f p) (hq : Same K g q) :
    Same K (Prod.map f g) (seq p q) := by
  intro s hs
  unfold seq
  rw [hp s hs]
  cases e : p s with
  | none => rfl
  | some y =>
    simp only [Option.map_some]
    rw [hq y.1 (hs.suffix (Suf.out _ _ _ e))]
    cases q y.1 <;> rfl

theorem same_preceded [Suf p] (hp : Same K f p) (hq : Same K g q) : Same K g (preceded p q) := by
  intro s hs
  unfold preceded
  rw [hp s hs]
  cases e : p s with
  | none => rfl
  | some y =>
    simp only [Option.map_some]
    rw [hq y.1 (hs.suffix (Suf.out _ _ _ e))]

theorem same_terminated [Suf p] (hp : Same K f p) (hq : Same K g q) : Same K f (terminated p q) :=
  same_mapP (same_seq hp hq) fun _ => rfl

theorem same_delimited [Suf p] [Suf q] (hp : Same K f p) (hq : Same K g q) (ht : Same K h t) :
    Same K g (delimited p q t) := same_preceded hp (same_terminated hq ht)

theorem same_eofOrEol : Same K unix eofOrEol := by
  refine same_orElse same_lineEnding ?_
  intro s hs
  rw [same_eof s hs]
  unfold eof
  split <;> simp_all

theorem same_lineTerminated [Suf p] (hp : Same K f p) : Same K f (lineTerminated p) :=
  same_terminated hp same_eofOrEol

/-- Whether something is consumed does not depend on the line endings. -/
def SameLen (K : Traps) (p : P α) : Prop := ∀ s r a, UOk K s → p s = some (r, a) →
  (r.length < s.length ↔ (unix r).length < (unix s).length)

theorem sameLen_con [Con p] (hp : Same K f p) : SameLen K p := by
  intro s r a hs e
  have h1 := Con.lt e
  have h2 := Con.lt (hp.some hs e)
  simp [h1, h2]

theorem same_many0 [Suf p] (hp : Same K f p) (hl : SameLen K p) : Same K (List.map f) (many0 p) := by
  intro s
  induction hn : s.length using Nat.strongRecOn generalizing s with
  | _ n ih =>
  intro hs
  rw [many0_eq, many0_eq, hp s hs]
  cases e : p s with
  | none => rfl
  | some y =>
    obtain ⟨r, a⟩ := y
    simp only [Option.map_some]
    have h1 := hl s r a hs e
    by_cases h2 : r.length < s.length
    · rw [if_pos h2, if_pos (h1.1 h2)]
      rw [ih r.length (by omega) r rfl (hs.suffix (Suf.out _ _ _ e))]
      cases many0 p r <;> rfl
    · rw [if_neg h2, if_neg (fun h => h2 (h1.2 h))]; rfl

theorem same_many0c [Con p] (hp : Same K f p) : Same K (List.map f) (many0 p) :=
  same_many0 hp (sameLen_con hp)
theorem map_id_fun : (List.map id : List α → List α) = id := by funext o; simp
theorem same_many0_id [Con p] (hp : Same K id p) : Same K id (many0 p) := by
  have := same_many0c hp
  rwa [map_id_fun] at this

theorem same_many1 [Suf p] (hp : Same K f p) (hl : SameLen K p) : Same K (List.map f) (many1 p) := by
  intro s hs
  unfold many1
  rw [hp s hs]
  cases e : p s with
  | none => rfl
  | some y =>
    simp only [Option.map_some]
    rw [same_many0 hp hl y.1 (hs.suffix (Suf.out _ _ _ e))]
    cases many0 p y.1 <;> rfl
theorem same_many1c [Con p] (hp : Same K f p) : Same K (List.map f) (many1 p) :=
  same_many1 hp (sameLen_con hp)
theorem same_many1_id [Con p] (hp : Same K id p) : Same K id (many1 p) := by
  have := same_many1c hp
  rwa [map_id_fun] at this

theorem same_manyMN [Con p] (hp : Same K id p) (m n : Nat) : Same K id (manyMN p m n) := by
  intro s
  induction n generalizing m s with
  | zero => intro hs; rfl
  | succ n ih =>
    intro hs
    simp only [manyMN]
    rw [hp s hs]
    cases e : p s with
    | none => simp only [Option.map_none]; split <;> rfl
    | some y =>
      obtain ⟨r, a⟩ := y
      simp only [Option.map_some]
      rw [if_pos (Con.lt e), if_pos (Con.lt (hp.some hs e)), ih (m - 1) r (hs.suffix (Con.out _ _ _ e).1)]
      cases manyMN p (m - 1) n r <;> rfl

theorem same_manyMin [Con p] (hp : Same K id p) (m : Nat) : Same K id (manyMin m p) :=
  same_verify (same_many0_id hp) fun _ => rfl

theorem same_indent03 : Same K id indent03 := same_manyMN (same_chr (by decide) (by decide)) _ _

theorem same_sepLoop [Suf p] [Con q] (hq : Same K g q) (hp : Same K f p) :
    Same K (List.map f) (sepLoop q p) := by
  intro s
  induction hn : s.length using Nat.strongRecOn generalizing s with
  | _ n ih =>
  intro hs
  rw [sepLoop_eq, sepLoop_eq, hq s hs]
  cases e : q s with
  | none => rfl
  | some y =>
    obtain ⟨r, a⟩ := y
    simp only [Option.map_some]
    have hr := hs.suffix (Con.out _ _ _ e).1
    rw [hp r hr]
    cases e2 : p r with
    | none => rfl
    | some z =>
      obtain ⟨r', b⟩ := z
      simp only [Option.map_some]
      have h1 := Con.lt e
      have h2 := Con.lt (hq.some hs e)
      have h3 := (Suf.out _ _ _ e2).length_le
      have h4 := (unix_suffix (Suf.out _ _ _ e2)).length_le
      rw [if_pos (by omega), if_pos (by omega), ih r'.length (by omega) r' rfl (hr.suffix (Suf.out _ _ _ e2))]
      cases sepLoop q p r' <;> rfl

theorem same_separatedList1 [Suf p] [Con q] (hq : Same K g q) (hp : Same K f p) :
    Same K (List.map f) (separatedList1 q p) := by
  intro s hs
  unfold separatedList1
  rw [hp s hs]
  cases e : p s with
  | none => rfl
  | some y =>
    simp only [Option.map_some]
    rw [same_sepLoop hq hp y.1 (hs.suffix (Suf.out _ _ _ e))]
    cases sepLoop q p y.1 <;> rfl

theorem same_separatedList0 [Suf p] [Con q] (hq : Same K g q) (hp : Same K f p) :
    Same K (List.map f) (separatedList0 q p) := by
  intro s hs
  unfold separatedList0
  rw [hp s hs]
  cases e : p s with
  | none => rfl
  | some y =>
    simp only [Option.map_some]
    rw [same_sepLoop hq hp y.1 (hs.suffix (Suf.out _ _ _ e))]
    cases sepLoop q p y.1 <;> rfl

theorem sameLen_ne (hp : Same K f p) (h : ∀ s r a, s ≠ [] → p s = some (r, a) → r.length < s.length) :
    SameLen K p := by
  intro s r a hs e
  by_cases hn : s = []
  · subst hn
    have h2 := hp.some hs e
    constructor
    · intro h3; simp at h3
    · intro h3; simp at h3
  · have : unix s ≠ [] := by
      cases s with
      | nil => exact absurd rfl hn
      | cons c s =>
        by_cases hc : c = '\r'
        · subst hc; obtain ⟨t, rfl⟩ := hs.1.cr; simp
        · simp [unix_cons hc]
    have h1 := h s r a hn e
    have h2 := h _ _ _ this (hp.some hs e)
    simp [h1, h2]

theorem unix_eq_nil {s : Str} (hs : CrOk s) : unix s = [] ↔ s = [] := by
  cases s with
  | nil => simp
  | cons c s =>
    by_cases hc : c = '\r'
    · subst hc; obtain ⟨t, rfl⟩ := hs.cr; simp
    · simp [unix_cons hc]

/-- Loops that read character by character, also over line endings. -/
theorem same_chars {q : P Char} (hq : ∀ s r c, q s = some (r, c) → s = c :: r)
    (h1 : ∀ s, UOk K s → (q (unix s)).isSome = (q s).isSome)
    (h2 : ∀ t, UOk K ('\r' :: '\n' :: t) → (q ('\r' :: '\n' :: t)).isSome = true →
      (q ('\n' :: t)).isSome = true) : Same K unix (many0 q) := by
  have step : ∀ {s : Str}, (q s).isSome = true → ∃ c r, s = c :: r ∧ q s = some (r, c) := by
    intro s h
    cases e : q s with
    | none => rw [e] at h; simp at h
    | some y => exact ⟨y.2, y.1, hq s y.1 y.2 e, rfl⟩
  have one : ∀ {s r : Str} {c : Char}, q s = some (r, c) → many0 q s = (many0 q r).map (fun y => (y.1, c :: y.2)) := by
    intro s r c e
    rw [many0_eq, e]
    have := hq s r c e
    subst this
    simp only [List.length_cons, Nat.lt_succ_self, if_true]
    cases many0 q r <;> rfl
  intro s
  induction hn : s.length using Nat.strongRecOn generalizing s with
  | _ n ih =>
  intro hs
  cases e : q s with
  | none =>
    have : q (unix s) = none := by
      have := h1 s hs; rw [e] at this; simpa using this
    rw [many0_of_none e, many0_of_none this]; rfl
  | some y =>
    obtain ⟨r, c⟩ := y
    have hc := hq s r c e
    subst hc
    have hu : (q (unix (c :: r))).isSome = true := by rw [h1 _ hs, e]; rfl
    by_cases hcr : c = '\r'
    · subst hcr
      obtain ⟨t, rfl⟩ := hs.1.cr
      obtain ⟨c', r', e1, e2⟩ := step (h2 t hs (by rw [e]; rfl))
      cases e1
      obtain ⟨c', r', e1, e3⟩ := step hu
      simp only [unix_cr, unix_lf] at e1 e3 ⊢
      cases e1
      rw [one e, one e2, one e3, ih t.length (by simp at hn; omega) t rfl hs.tail.tail]
      cases many0 q t <;> rfl
    · obtain ⟨c', r', e1, e3⟩ := step hu
      rw [unix_cons hcr] at e1 e3 ⊢
      cases e1
      rw [one e, one e3, ih r.length (by simp at hn; omega) r rfl hs.tail]
      cases many0 q r with
      | none => rfl
      | some y => simp [unix_cons hcr]

theorem many1_cases {q : P Char} [Con q] (s : Str) :
    many1 q s = if (q s).isSome then many0 q s else none := by
  unfold many1
  cases e : q s with
  | none => rfl
  | some y =>
    rw [many0_eq, e]
    simp only [Option.isSome_some, if_true]
    rw [if_pos (Con.lt e)]
    cases many0 q y.1 <;> rfl

theorem same_chars1 {q : P Char} [Con q] (hq : ∀ s r c, q s = some (r, c) → s = c :: r)
    (h1 : ∀ s, UOk K s → (q (unix s)).isSome = (q s).isSome)
    (h2 : ∀ t, UOk K ('\r' :: '\n' :: t) → (q ('\r' :: '\n' :: t)).isSome = true →
      (q ('\n' :: t)).isSome = true) : Same K unix (many1 q) := by
  intro s hs
  rw [many1_cases, many1_cases, h1 s hs, same_chars hq h1 h2 s hs]
  split <;> rfl

/-- Everything up to a stop. -/
theorem stop_chars (hp : Same K f p)
    (h2 : ∀ t, UOk K ('\r' :: '\n' :: t) → p ('\r' :: '\n' :: t) = none → p ('\n' :: t) = none) :
    (∀ s r c, preceded (notP p) anychar s = some (r, c) → s = c :: r) ∧
    (∀ s, UOk K s → (preceded (notP p) anychar (unix s)).isSome = (preceded (notP p) anychar s).isSome) ∧
    (∀ t, UOk K ('\r' :: '\n' :: t) → (preceded (notP p) anychar ('\r' :: '\n' :: t)).isSome = true →
      (preceded (notP p) anychar ('\n' :: t)).isSome = true) := by
  have key : ∀ s, (preceded (notP p) anychar s).isSome = ((p s).isNone && !s.isEmpty) := by
    intro s
    unfold preceded notP
    cases p s with
    | some y => rfl
    | none => cases s <;> rfl
  refine ⟨?_, ?_, ?_⟩
  · intro s r c e
    obtain ⟨r1, u, e1, e2⟩ := preceded_some.1 e
    obtain ⟨_, rfl⟩ := notP_some.1 e1
    exact anychar_some.1 e2
  · intro s hs
    rw [key, key, hp s hs]
    have := unix_eq_nil hs.1
    have e : (unix s).isEmpty = s.isEmpty := by
      rw [Bool.eq_iff_iff]; simpa using this
    rw [e]; simp
  · intro t ht
    rw [key, key]
    simp only [List.isEmpty_cons, Bool.not_false, Bool.and_true, Option.isNone_iff_eq_none]
    exact h2 t ht

theorem same_until (hp : Same K f p)
    (h2 : ∀ t, UOk K ('\r' :: '\n' :: t) → p ('\r' :: '\n' :: t) = none → p ('\n' :: t) = none) :
    Same K unix (many0 (preceded (notP p) anychar)) :=
  same_chars (stop_chars hp h2).1 (stop_chars hp h2).2.1 (stop_chars hp h2).2.2
theorem same_until1 (hp : Same K f p)
    (h2 : ∀ t, UOk K ('\r' :: '\n' :: t) → p ('\r' :: '\n' :: t) = none → p ('\n' :: t) = none) :
    Same K unix (many1 (preceded (notP p) anychar)) :=
  same_chars1 (stop_chars hp h2).1 (stop_chars hp h2).2.1 (stop_chars hp h2).2.2

end
end Verif
