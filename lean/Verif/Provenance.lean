import Verif.ProvenanceSpec
import Verif.ParserQuote
/-!
# No text is lost, invented, duplicated or moved (C70)
-/
set_option linter.unusedVariables false
set_option linter.unusedSimpArgs false
namespace Verif
open Nom

/-! ## Losing markup only -/

/-- `o` is `s` without some of its markup characters. -/
inductive Er : Str → Str → Prop
  | nil : Er [] []
  | keep (c : Char) {s o : Str} : Er s o → Er (c :: s) (c :: o)
  | drop {c : Char} {s o : Str} : isMarkup c = true → Er s o → Er (c :: s) o

namespace Er

theorem refl : ∀ s, Er s s
  | [] => .nil
  | c :: s => .keep c (refl s)

theorem append {a b c d : Str} (h : Er a b) (h' : Er c d) : Er (a ++ c) (b ++ d) := by
  induction h with
  | nil => exact h'
  | keep c _ ih => exact .keep c ih
  | drop hm _ ih => exact .drop hm ih

theorem trans {a b c : Str} (h : Er a b) (h' : Er b c) : Er a c := by
  induction h generalizing c with
  | nil => exact h'
  | keep d _ ih =>
    cases h' with
    | keep _ h' => exact .keep d (ih h')
    | drop hm h' => exact .drop hm (ih h')
  | drop hm _ ih => exact .drop hm (ih h')

theorem all {u : Str} (h : ∀ c ∈ u, isMarkup c = true) : Er u [] := by
  induction u with
  | nil => exact .nil
  | cons c u ih => exact .drop (h c (by simp)) (ih fun d hd => h d (by simp [hd]))

theorem loses {s o : Str} (h : Er s o) : LosesOnlyMarkup s o := by
  induction h with
  | nil => exact ⟨.slnil, rfl⟩
  | keep c _ ih => exact ⟨ih.sub.cons_cons c, by simp [List.filter_cons, ih.letters]⟩
  | drop hm _ ih => exact ⟨ih.sub.cons _, by simp [List.filter_cons, ih.letters, hm]⟩

end Er

/-- The parser `p`, having read `u` and returned `a`, has lost nothing but markup: `a` spells the
rest. -/
def Gives {α : Type} (p : P α) (E : α → Str → Prop) : Prop :=
  ∀ s r a, p s = some (r, a) → ∃ u o, s = u ++ r ∧ E a o ∧ Er u o

/-- What the parser reads is markup. -/
def Drops {α : Type} (p : P α) : Prop := Gives p (fun _ o => o = [])

/-- What the parser reads is what it returns. -/
def Copies (p : P Str) : Prop := Gives p (fun a o => o = a)

section
variable {α β γ : Type} {p q : P α}

theorem Gives.mono {E E' : α → Str → Prop} (h : Gives p E) (hE : ∀ a o, E a o → E' a o) : Gives p E' := by
  intro s r a hp
  obtain ⟨u, o, h1, h2, h3⟩ := h s r a hp
  exact ⟨u, o, h1, hE _ _ h2, h3⟩

theorem Gives.orElse {E : α → Str → Prop} (h : Gives p E) (h' : Gives q E) : Gives (p <||> q) E := by
  intro s r a hp
  rcases orElse_some.1 hp with hp | ⟨_, hp⟩
  · exact h _ _ _ hp
  · exact h' _ _ _ hp

theorem Gives.failP {E : α → Str → Prop} : Gives (failP : P α) E := by
  intro s r a hp; simp [Nom.failP] at hp

theorem Gives.mapP {E : β → Str → Prop} {f : α → β} (h : Gives p (fun a o => E (f a) o)) :
    Gives (mapP p f) E := by
  intro s r b hp
  obtain ⟨a, hp', rfl⟩ := mapP_some.1 hp
  exact h _ _ _ hp'

theorem Gives.value {E : β → Str → Prop} {b : β} (h : Gives p (fun _ o => E b o)) :
    Gives (value b p) E := Gives.mapP h

theorem Gives.verify {E : α → Str → Prop} {f : α → Bool} (h : Gives p E) : Gives (verify p f) E := by
  intro s r b hp
  exact h _ _ _ (verify_some.1 hp).1

theorem Gives.mapOpt {E : α → Str → Prop} {E' : β → Str → Prop} {f : α → Option β} (h : Gives p E)
    (hf : ∀ a b o, f a = some b → E a o → ∃ o', E' b o' ∧ Er o o') : Gives (mapOpt p f) E' := by
  intro s r b hp
  obtain ⟨a, hp, hb⟩ := mapOpt_some.1 hp
  obtain ⟨u, o, h1, h2, h3⟩ := h _ _ _ hp
  obtain ⟨o', h4, h5⟩ := hf _ _ _ hb h2
  exact ⟨u, o', h1, h4, h3.trans h5⟩

theorem Gives.seq {q : P β} {E : α → Str → Prop} {E' : β → Str → Prop} (h : Gives p E) (h' : Gives q E') :
    Gives (seq p q) (fun y o => ∃ o1 o2, E y.1 o1 ∧ E' y.2 o2 ∧ o = o1 ++ o2) := by
  intro s r y hp
  obtain ⟨s1, hp, hq⟩ := seq_some.1 hp
  obtain ⟨u1, o1, rfl, h1, h2⟩ := h _ _ _ hp
  obtain ⟨u2, o2, rfl, h3, h4⟩ := h' _ _ _ hq
  exact ⟨u1 ++ u2, o1 ++ o2, by simp, ⟨_, _, h1, h3, rfl⟩, h2.append h4⟩

theorem Gives.preceded {q : P β} {E : β → Str → Prop} (h : Drops p) (h' : Gives q E) :
    Gives (preceded p q) E := by
  intro s r y hp
  obtain ⟨s1, _, hp, hq⟩ := preceded_some.1 hp
  obtain ⟨u1, o1, rfl, rfl, h2⟩ := h _ _ _ hp
  obtain ⟨u2, o2, rfl, h3, h4⟩ := h' _ _ _ hq
  exact ⟨u1 ++ u2, o2, by simp, h3, h2.append h4⟩

theorem Gives.terminated {q : P β} {E : α → Str → Prop} (h : Gives p E) (h' : Drops q) :
    Gives (terminated p q) E := by
  intro s r y hp
  obtain ⟨s1, _, hp, hq⟩ := terminated_some.1 hp
  obtain ⟨u1, o1, rfl, h1, h2⟩ := h _ _ _ hp
  obtain ⟨u2, o2, rfl, rfl, h4⟩ := h' _ _ _ hq
  exact ⟨u1 ++ u2, o1, by simp, h1, by simpa using h2.append h4⟩

theorem Gives.delimited {q : P β} {t : P γ} {E : β → Str → Prop} (h : Drops p) (h' : Gives q E)
    (h'' : Drops t) : Gives (delimited p q t) E := Gives.preceded h (Gives.terminated h' h'')

theorem Gives.opt {E : α → Str → Prop} (h : Gives p E) :
    Gives (opt p) (fun a o => match a with | none => o = [] | some a => E a o) := by
  intro s r a hp
  rcases opt_some.1 hp with ⟨a, hp', rfl⟩ | ⟨_, rfl, rfl⟩
  · exact h _ _ _ hp'
  · exact ⟨[], [], rfl, rfl, .nil⟩

theorem Drops.opt (h : Drops p) : Drops (opt p) := by
  refine (Gives.opt h).mono ?_
  intro a o; cases a <;> exact id

theorem Drops.of (h : ∀ s r a, p s = some (r, a) → ∃ u, s = u ++ r ∧ ∀ c ∈ u, isMarkup c = true) :
    Drops p := by
  intro s r a hp
  obtain ⟨u, h1, h2⟩ := h _ _ _ hp
  exact ⟨u, [], h1, rfl, .all h2⟩

theorem Drops.notP : Drops (notP p) := by
  intro s r a hp
  obtain ⟨_, rfl⟩ := notP_some.1 hp
  exact ⟨[], [], rfl, rfl, .nil⟩

theorem Drops.mapP {f : α → β} (h : Drops p) : Drops (mapP p f) := Gives.mapP h
theorem Drops.value {b : β} (h : Drops p) : Drops (value b p) := Gives.mapP h
theorem Drops.orElse (h : Drops p) (h' : Drops q) : Drops (p <||> q) := Gives.orElse h h'
theorem Drops.preceded {q : P β} (h : Drops p) (h' : Drops q) : Drops (preceded p q) := Gives.preceded h h'
theorem Drops.terminated {q : P β} (h : Drops p) (h' : Drops q) : Drops (terminated p q) :=
  Gives.terminated h h'
theorem Drops.delimited {q : P β} {t : P γ} (h : Drops p) (h' : Drops q) (h'' : Drops t) :
    Drops (delimited p q t) := Gives.delimited h h' h''
theorem Drops.seq {q : P β} (h : Drops p) (h' : Drops q) : Drops (seq p q) := by
  refine (Gives.seq h h').mono ?_
  rintro _ _ ⟨_, _, rfl, rfl, rfl⟩; rfl
theorem Drops.recognize (h : Drops p) : Drops (recognize p) := by
  intro s r t hp
  obtain ⟨a, hp, _⟩ := recognize_some.1 hp
  exact h _ _ _ hp
theorem Drops.verify {f : α → Bool} (h : Drops p) : Drops (verify p f) := Gives.verify h

/-- What a list spells. -/
inductive ListE (E : α → Str → Prop) : List α → Str → Prop
  | nil : ListE E [] []
  | cons {a : α} {l : List α} {o o' : Str} : E a o → ListE E l o' → ListE E (a :: l) (o ++ o')

theorem Gives.many0 {E : α → Str → Prop} (h : Gives p E) : Gives (many0 p) (ListE E) := by
  refine many0_induction ?_ ?_
  · intro s _; exact ⟨[], [], rfl, .nil, .nil⟩
  · intro s r a r' l hp _ _ ih
    obtain ⟨u, o, rfl, h1, h2⟩ := h _ _ _ hp
    obtain ⟨u', o', rfl, h3, h4⟩ := ih
    exact ⟨u ++ u', o ++ o', by simp, .cons h1 h3, h2.append h4⟩

theorem Gives.many1 {E : α → Str → Prop} (h : Gives p E) : Gives (many1 p) (ListE E) := by
  intro s r l hp
  obtain ⟨r1, a, l', hp', hm, rfl⟩ := many1_some.1 hp
  obtain ⟨u, o, rfl, h1, h2⟩ := h _ _ _ hp'
  obtain ⟨u', o', rfl, h3, h4⟩ := h.many0 _ _ _ hm
  exact ⟨u ++ u', o ++ o', by simp, .cons h1 h3, h2.append h4⟩

theorem ListE.nothing {l : List α} {o : Str} (h : ListE (fun _ o => o = []) l o) : o = [] := by
  induction h with
  | nil => rfl
  | cons h _ ih => rw [h, ih]; rfl

theorem Drops.many0 (h : Drops p) : Drops (many0 p) := (Gives.many0 h).mono fun _ _ => ListE.nothing
theorem Drops.many1 (h : Drops p) : Drops (many1 p) := (Gives.many1 h).mono fun _ _ => ListE.nothing
theorem Drops.manyMin {n : Nat} (h : Drops p) : Drops (manyMin n p) := Drops.verify (Drops.many0 h)

theorem Drops.manyMN (h : Drops p) : ∀ {m n : Nat}, Drops (manyMN p m n) := by
  intro m n
  induction n generalizing m with
  | zero =>
    intro s r l hp; simp [Nom.manyMN] at hp; obtain ⟨rfl, rfl⟩ := hp
    exact ⟨[], [], rfl, rfl, .nil⟩
  | succ n ih =>
    intro s r l hp
    unfold Nom.manyMN at hp
    cases e : p s with
    | none =>
      simp only [e] at hp
      split at hp
      · simp at hp; obtain ⟨rfl, rfl⟩ := hp; exact ⟨[], [], rfl, rfl, .nil⟩
      · simp at hp
    | some y =>
      obtain ⟨r1, a⟩ := y
      rw [e] at hp
      simp only at hp
      split at hp
      · cases e2 : Nom.manyMN p (m - 1) n r1 with
        | none => simp [e2] at hp
        | some z =>
          obtain ⟨r2, l2⟩ := z
          simp [e2] at hp
          obtain ⟨rfl, rfl⟩ := hp
          obtain ⟨u, o, rfl, rfl, h2⟩ := h _ _ _ e
          obtain ⟨u', o', rfl, rfl, h4⟩ := ih _ _ _ e2
          exact ⟨u ++ u', [], by simp, rfl, h2.append h4⟩
      · simp at hp

/-- Parts of a joined list. -/
theorem Gives.sepLoop {sep : P β} {E : α → Str → Prop} (hs : Drops sep) (h : Gives p E) :
    Gives (sepLoop sep p) (ListE E) := by
  refine sepLoop_induction ?_ ?_
  · intro s _; exact ⟨[], [], rfl, .nil, .nil⟩
  · intro s r b r' a r'' l hsep hp _ _ ih
    obtain ⟨u0, o0, rfl, rfl, h0⟩ := hs _ _ _ hsep
    obtain ⟨u, o, rfl, h1, h2⟩ := h _ _ _ hp
    obtain ⟨u', o', rfl, h3, h4⟩ := ih
    exact ⟨u0 ++ (u ++ u'), o ++ o', by simp, .cons h1 h3, h0.append (h2.append h4)⟩

theorem Gives.separatedList1 {sep : P β} {E : α → Str → Prop} (hs : Drops sep) (h : Gives p E) :
    Gives (separatedList1 sep p) (ListE E) := by
  intro s r l hp
  obtain ⟨r1, a, l', hp', hm, rfl⟩ := separatedList1_some.1 hp
  obtain ⟨u, o, rfl, h1, h2⟩ := h _ _ _ hp'
  obtain ⟨u', o', rfl, h3, h4⟩ := Gives.sepLoop hs h _ _ _ hm
  exact ⟨u ++ u', o ++ o', by simp, .cons h1 h3, h2.append h4⟩

/-! ## Primitive parsers -/

theorem satisfy_gives {f : Char → Bool} : Gives (satisfy f) (fun c o => o = [c] ∧ f c = true) := by
  intro s r c hp
  obtain ⟨rfl, h⟩ := satisfy_some.1 hp
  exact ⟨[c], [c], rfl, ⟨rfl, h⟩, .refl _⟩

theorem satisfy_drops {f : Char → Bool} (h : ∀ c, f c = true → isMarkup c = true) : Drops (satisfy f) := by
  intro s r c hp
  obtain ⟨rfl, hc⟩ := satisfy_some.1 hp
  exact ⟨[c], [], rfl, rfl, .drop (h c hc) .nil⟩

theorem anychar_gives : Gives anychar (fun c o => o = [c]) := satisfy_gives.mono fun _ _ h => h.1

theorem chr_drops {c : Char} (h : isMarkup c = true) : Drops (chr c) :=
  satisfy_drops fun d hd => by simp at hd; exact hd ▸ h

theorem oneOf_drops {l : Str} (h : ∀ c ∈ l, isMarkup c = true) : Drops (oneOf l) :=
  satisfy_drops fun d hd => h d (by simpa using hd)

theorem oneOf_gives {l : Str} : Gives (oneOf l) (fun c o => o = [c]) := satisfy_gives.mono fun _ _ h => h.1
theorem noneOf_gives {l : Str} : Gives (noneOf l) (fun c o => o = [c]) := satisfy_gives.mono fun _ _ h => h.1

theorem tag_drops {t : Str} (h : ∀ c ∈ t, isMarkup c = true) : Drops (tag t) :=
  Drops.of fun s r a hp => ⟨t, (tag_some.1 hp).1, h⟩

theorem recognize_copies [Suf p] : Copies (recognize p) := by
  intro s r t hp
  exact ⟨t, t, (recognize_append hp).symm, rfl, .refl t⟩

theorem takeWhile_copies {f : Char → Bool} :
    Gives (takeWhile f) (fun t o => o = t ∧ ∀ c ∈ t, f c = true) := by
  intro s r t hp
  simp [Nom.takeWhile] at hp
  obtain ⟨rfl, rfl⟩ := hp
  exact ⟨_, _, List.takeWhile_append_dropWhile.symm, ⟨rfl, takeWhile_all⟩, .refl _⟩

theorem takeWhile1_copies {f : Char → Bool} :
    Gives (takeWhile1 f) (fun t o => o = t ∧ t ≠ [] ∧ ∀ c ∈ t, f c = true) := by
  intro s r t hp
  obtain ⟨rfl, rfl, h⟩ := takeWhile1_some.1 hp
  exact ⟨_, _, List.takeWhile_append_dropWhile.symm, ⟨rfl, h, takeWhile_all⟩, .refl _⟩

theorem takeWhile_drops {f : Char → Bool} (h : ∀ c, f c = true → isMarkup c = true) :
    Drops (takeWhile f) := by
  intro s r t hp
  obtain ⟨u, o, h1, ⟨rfl, h2⟩, h3⟩ := takeWhile_copies _ _ _ hp
  exact ⟨u, [], h1, rfl, h3.trans (.all fun c hc => h c (h2 c hc))⟩

theorem takeWhile1_drops {f : Char → Bool} (h : ∀ c, f c = true → isMarkup c = true) :
    Drops (takeWhile1 f) := by
  intro s r t hp
  obtain ⟨u, o, h1, ⟨rfl, _, h2⟩, h3⟩ := takeWhile1_copies _ _ _ hp
  exact ⟨u, [], h1, rfl, h3.trans (.all fun c hc => h c (h2 c hc))⟩

theorem isSpace_markup (c : Char) (h : isSpace c = true) : isMarkup c = true := by
  simp [isSpace] at h; rcases h with rfl | rfl <;> decide

theorem isMultispace_markup (c : Char) (h : isMultispace c = true) : isMarkup c = true := by
  simp [isMultispace, or_assoc] at h; rcases h with rfl | rfl | rfl | rfl <;> decide

theorem space0_drops : Drops space0 := takeWhile_drops isSpace_markup
theorem space1_drops : Drops space1 := takeWhile1_drops isSpace_markup
theorem multispace0_drops : Drops multispace0 := takeWhile_drops isMultispace_markup

theorem lineEnding_drops : Drops lineEnding := Drops.of fun s r a hp => by
  rcases lineEnding_some.1 hp with ⟨rfl, _⟩ | ⟨rfl, _⟩
  · exact ⟨['\n'], rfl, by decide⟩
  · exact ⟨['\r', '\n'], rfl, by decide⟩

theorem eof_drops : Drops eof := Drops.of fun s r a hp => by
  obtain ⟨rfl, rfl, _⟩ := eof_some.1 hp
  exact ⟨[], rfl, by simp⟩

theorem eofOrEol_drops : Drops eofOrEol := lineEnding_drops.orElse eof_drops
theorem indent03_drops : Drops indent03 := (chr_drops (by decide)).manyMN
theorem manyEmptyLines0_drops : Drops manyEmptyLines0 := (space0_drops.preceded eofOrEol_drops).many0

theorem notEofOrEol1_copies : Copies notEofOrEol1 := recognize_copies
theorem notEofOrEol0_copies : Copies notEofOrEol0 := by
  intro s r t hp
  exact ⟨t, t, (notEofOrEol0_append hp).symm, rfl, .refl t⟩

theorem Gives.lineTerminated {E : α → Str → Prop} (h : Gives p E) : Gives (lineTerminated p) E :=
  h.terminated eofOrEol_drops

end

end Verif
