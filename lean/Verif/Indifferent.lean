import Verif.ParserDepth
import Verif.InlineForward
/-!
# Configuring a construct has no effect on inputs without its characters (C77)
-/
set_option linter.unusedVariables false
set_option linter.unusedSimpArgs false
namespace Verif
open Nom

/-! ## Specification -/

/-- One of the characters of `l` is missing in `s`. -/
def Lacks (s l : Str) : Prop := ∃ c ∈ l, c ∉ s

/-- The two configurations treat alike every construct that can be written with the characters of `s`: for
each construct they agree, or a character that is needed to write it is not in `s`. -/
structure Indifferent (s : Str) (a b : PConfig) : Prop where
  headingV2 : a.headingV2 = b.headingV2
  paragraph : a.paragraph = b.paragraph
  codeBlock : a.codeBlock = b.codeBlock
  hardNewline : a.hardNewline = b.hardNewline
  text : a.text = b.text
  allowNoSpace : a.allowNoSpaceInHeadings = b.allowNoSpaceInHeadings ∨ '#' ∉ s
  entities : a.entities = b.entities ∨ Lacks s cs!"&;"
  blockquote : a.blockquote = b.blockquote ∨ '>' ∉ s
  githubAlert : a.githubAlert = b.githubAlert ∨ '>' ∉ s
  headingV1 : a.headingV1 = b.headingV1 ∨ '#' ∉ s
  thematicBreak : a.thematicBreak = b.thematicBreak ∨ ('-' ∉ s ∧ '_' ∉ s ∧ '*' ∉ s)
  list : a.list = b.list ∨ ('-' ∉ s ∧ '+' ∉ s ∧ '*' ∉ s ∧ (('.' ∉ s ∧ ')' ∉ s) ∨ ∀ c ∈ s, isDigit c = false))
  htmlBlock : a.htmlBlock = b.htmlBlock ∨ '<' ∉ s
  footnoteDefinition : a.footnoteDefinition = b.footnoteDefinition ∨ Lacks s cs!"[^]:"
  linkDefinition : a.linkDefinition = b.linkDefinition ∨ Lacks s cs!"[]:"
  table : a.table = b.table ∨ Lacks s cs!"|-"
  autolink : a.autolink = b.autolink ∨ Lacks s cs!"<>"
  link : a.link = b.link ∨ Lacks s cs!"[]()"
  footnoteReference : a.footnoteReference = b.footnoteReference ∨ Lacks s cs!"[^]"
  referenceLink : a.referenceLink = b.referenceLink ∨ Lacks s cs!"[]"
  image : a.image = b.image ∨ Lacks s cs!"![]()"
  codeSpan : a.codeSpan = b.codeSpan ∨ '`' ∉ s
  emphasis : a.emphasis = b.emphasis ∨ ('*' ∉ s ∧ '_' ∉ s)
  strikethrough : a.strikethrough = b.strikethrough ∨ '~' ∉ s
  /-- The user's own parsers do the same on all texts with the characters of `s`. -/
  customBlock : ∀ t : Str, (∀ c ∈ t, c ∈ s ∨ c = '\n') → customParser a.customBlock t = customParser b.customBlock t
  customInline : ∀ t : Str, (∀ c ∈ t, c ∈ s ∨ c = '\n') → customParser a.customInline t = customParser b.customInline t

/-! ## Texts over an alphabet -/

/-- The characters of `s` are in `A`. -/
def Over (A : Char → Prop) (s : Str) : Prop := ∀ c ∈ s, A c

section
variable {A : Char → Prop} {α β γ : Type}

theorem Over.suffix {s r : Str} (h : Over A s) (hr : r <:+ s) : Over A r := fun c hc => h c (hr.subset hc)
theorem Over.prefix {s r : Str} (h : Over A s) (hr : r <+: s) : Over A r := fun c hc => h c (hr.subset hc)
theorem Over.nil : Over A [] := by intro c hc; simp at hc
theorem Over.cons {c : Char} {s : Str} (hc : A c) (h : Over A s) : Over A (c :: s) := by
  intro d hd; rcases List.mem_cons.1 hd with rfl | hd; exact hc; exact h d hd
theorem Over.append {s t : Str} (h : Over A s) (ht : Over A t) : Over A (s ++ t) := by
  intro c hc; rcases List.mem_append.1 hc with hc | hc; exact h c hc; exact ht c hc

theorem Over.rest {p : P α} [Suf p] {s r : Str} {a : α} (hs : Over A s) (h : p s = some (r, a)) : Over A r :=
  hs.suffix (Suf.out _ _ _ h)

theorem Over.join {l : List Str} (hn : A '\n') (h : ∀ t ∈ l, Over A t) : Over A (joinWith ['\n'] l) := by
  match l with
  | [] => exact .nil
  | [t] => simpa [joinWith] using h t (by simp)
  | t :: u :: l =>
    rw [joinWith]
    have ih := Over.join (l := u :: l) hn fun v hv => h v (List.mem_cons_of_mem _ hv)
    exact ((h t (by simp)).append (.cons hn .nil)).append ih

theorem Over.flatten {l : List Str} (h : ∀ t ∈ l, Over A t) : Over A l.flatten := by
  intro c hc
  obtain ⟨t, ht, hct⟩ := List.mem_flatten.1 hc
  exact h t ht c hct

/-! ## What a parser gives is over the alphabet -/

/-- On texts over `A`, what `p` gives satisfies `Q`. -/
def Outs (A : Char → Prop) (p : P α) (Q : α → Prop) : Prop :=
  ∀ s, Over A s → ∀ r a, p s = some (r, a) → Q a

theorem outs_recognize {p : P α} : Outs A (recognize p) (Over A) := by
  intro s hs r a h
  unfold recognize at h
  split at h
  · simp only [Option.some.injEq, Prod.mk.injEq] at h
    rw [← h.2]
    exact hs.prefix (List.take_prefix _ _)
  · simp at h

theorem outs_anychar : Outs A anychar A := by
  intro s hs r a h
  rw [anychar_some] at h
  exact hs a (by rw [h]; simp)

theorem outs_orElse {p q : P α} {Q : α → Prop} (hp : Outs A p Q) (hq : Outs A q Q) : Outs A (p <||> q) Q := by
  intro s hs r a h
  rcases orElse_some.1 h with h | ⟨_, h⟩
  · exact hp s hs r a h
  · exact hq s hs r a h

theorem outs_preceded {p : P α} {q : P β} [Suf p] {Q : β → Prop} (hq : Outs A q Q) : Outs A (preceded p q) Q := by
  intro s hs r a h
  obtain ⟨r1, b, h1, h2⟩ := preceded_some.1 h
  exact hq _ (hs.rest h1) _ _ h2

theorem outs_terminated {p : P α} {q : P β} {Q : α → Prop} (hp : Outs A p Q) : Outs A (terminated p q) Q := by
  intro s hs r a h
  obtain ⟨r1, b, h1, h2⟩ := terminated_some.1 h
  exact hp _ hs _ _ h1

theorem outs_mapP {p : P α} {f : α → β} {Q : α → Prop} {R : β → Prop} (hp : Outs A p Q) (h : ∀ a, Q a → R (f a)) :
    Outs A (mapP p f) R := by
  intro s hs r b hb
  obtain ⟨a, ha, rfl⟩ := mapP_some.1 hb
  exact h a (hp s hs r a ha)

theorem outs_seq {p : P α} {q : P β} [Suf p] {Q : α → Prop} {R : β → Prop} (hp : Outs A p Q) (hq : Outs A q R) :
    Outs A (seq p q) fun y => Q y.1 ∧ R y.2 := by
  intro s hs r b hb
  obtain ⟨r1, h1, h2⟩ := seq_some.1 hb
  exact ⟨hp s hs _ _ h1, hq _ (hs.rest h1) _ _ h2⟩

theorem outs_verify {p : P α} {f : α → Bool} {Q : α → Prop} (hp : Outs A p Q) : Outs A (verify p f) Q := by
  intro s hs r a h
  exact hp s hs r a (verify_some.1 h).1

theorem outs_many0F {p : P α} [Suf p] {Q : α → Prop} (hp : Outs A p Q) :
    ∀ n, Outs A (many0F p n) fun l => ∀ a ∈ l, Q a
  | 0 => by intro s _ r a h; simp [many0F] at h
  | n + 1 => by
    intro s hs r l h
    unfold many0F at h
    split at h
    · simp only [Option.some.injEq, Prod.mk.injEq] at h; rw [← h.2]; simp
    · rename_i r1 a e
      split at h
      · split at h
        · rename_i r2 l' e2
          simp only [Option.some.injEq, Prod.mk.injEq] at h
          rw [← h.2]
          intro b hb
          rcases List.mem_cons.1 hb with rfl | hb
          · exact hp s hs _ _ e
          · exact outs_many0F hp n _ (hs.rest e) _ _ e2 b hb
        · simp at h
      · simp at h

theorem outs_many0 {p : P α} [Suf p] {Q : α → Prop} (hp : Outs A p Q) : Outs A (many0 p) fun l => ∀ a ∈ l, Q a :=
  fun s hs => outs_many0F hp _ s hs

theorem outs_many1 {p : P α} [Suf p] {Q : α → Prop} (hp : Outs A p Q) : Outs A (many1 p) fun l => ∀ a ∈ l, Q a := by
  intro s hs r l h
  unfold many1 at h
  split at h
  · simp at h
  · rename_i r1 a e
    split at h
    · rename_i r2 l' e2
      simp only [Option.some.injEq, Prod.mk.injEq] at h
      rw [← h.2]
      intro b hb
      rcases List.mem_cons.1 hb with rfl | hb
      · exact hp s hs _ _ e
      · exact outs_many0 hp _ (hs.rest e) _ _ e2 b hb
    · simp at h

theorem outs_sepLoopF {sep : P β} {p : P α} [Suf sep] [Suf p] {Q : α → Prop} (hp : Outs A p Q) :
    ∀ n, Outs A (sepLoopF sep p n) fun l => ∀ a ∈ l, Q a
  | 0 => by intro s _ r a h; simp [sepLoopF] at h
  | n + 1 => by
    intro s hs r l h
    unfold sepLoopF at h
    split at h
    · simp only [Option.some.injEq, Prod.mk.injEq] at h; rw [← h.2]; simp
    · rename_i r1 u e
      split at h
      · simp only [Option.some.injEq, Prod.mk.injEq] at h; rw [← h.2]; simp
      · rename_i r2 a e2
        split at h
        · split at h
          · rename_i r3 l' e3
            simp only [Option.some.injEq, Prod.mk.injEq] at h
            rw [← h.2]
            have h1 := hs.rest e
            intro b hb
            rcases List.mem_cons.1 hb with rfl | hb
            · exact hp _ h1 _ _ e2
            · exact outs_sepLoopF hp n _ (h1.rest e2) _ _ e3 b hb
          · simp at h
        · simp at h

theorem outs_separatedList0 {sep : P β} {p : P α} [Suf sep] [Suf p] {Q : α → Prop} (hp : Outs A p Q) :
    Outs A (separatedList0 sep p) fun l => ∀ a ∈ l, Q a := by
  intro s hs r l h
  unfold separatedList0 at h
  split at h
  · simp only [Option.some.injEq, Prod.mk.injEq] at h; rw [← h.2]; simp
  · rename_i r1 a e
    split at h
    · rename_i r2 l' e2
      simp only [Option.some.injEq, Prod.mk.injEq] at h
      rw [← h.2]
      intro b hb
      rcases List.mem_cons.1 hb with rfl | hb
      · exact hp _ hs _ _ e
      · exact outs_sepLoopF hp _ _ (hs.rest e) _ _ e2 b hb
    · simp at h

theorem outs_notEofOrEol1 : Outs A notEofOrEol1 (Over A) := outs_recognize

theorem outs_notEofOrEol0 : Outs A notEofOrEol0 (Over A) := by
  refine outs_orElse ?_ ?_
  · intro s hs r a h
    obtain ⟨-, h1⟩ := notLineEnding_some h
    exact fun c hc => hs c ((List.takeWhile_prefix _).subset (h1 ▸ hc))
  · intro s hs r a h
    obtain ⟨_, _, rfl⟩ := eof_some.1 h
    exact .nil

theorem outs_quoteLines : Outs A quoteLines fun l => ∀ t ∈ l, Over A t :=
  outs_many1 (outs_preceded (outs_terminated outs_notEofOrEol0))

/-! ## Parsers that need a character -/

/-- `p` fails on every text without the character `c`. -/
def Needs (c : Char) (p : P α) : Prop := ∀ s, c ∉ s → p s = none

theorem needs_mapP {c : Char} {p : P α} {f : α → β} (h : Needs c p) : Needs c (mapP p f) :=
  fun s hs => mapP_none.2 (h s hs)

theorem needs_value {c : Char} {p : P α} {b : β} (h : Needs c p) : Needs c (value b p) := needs_mapP h

theorem needs_mapOpt {c : Char} {p : P α} {f : α → Option β} (h : Needs c p) : Needs c (mapOpt p f) := by
  intro s hs; unfold mapOpt; rw [h s hs]

theorem needs_verify {c : Char} {p : P α} {f : α → Bool} (h : Needs c p) : Needs c (verify p f) := by
  intro s hs; unfold verify; rw [h s hs]

theorem needs_recognize {c : Char} {p : P α} (h : Needs c p) : Needs c (recognize p) := by
  intro s hs; unfold recognize; rw [h s hs]

theorem needs_many1 {c : Char} {p : P α} (h : Needs c p) : Needs c (many1 p) := by
  intro s hs; unfold many1; rw [h s hs]

theorem needs_orElse {c : Char} {p q : P α} (hp : Needs c p) (hq : Needs c q) : Needs c (p <||> q) :=
  fun s hs => orElse_none.2 ⟨hp s hs, hq s hs⟩

theorem needs_chr {c : Char} : Needs c (chr c) := by
  intro s hs
  cases s with
  | nil => rfl
  | cons d s => simp only [List.mem_cons, not_or] at hs; simp [chr, satisfy, Ne.symm hs.1]

theorem needs_tag {c : Char} {t : Str} (h : c ∈ t) : Needs c (tag t) := by
  intro s hs
  cases e : tag t s with
  | none => rfl
  | some y =>
    obtain ⟨h1, -⟩ := tag_some.1 (show tag t s = some (y.1, y.2) from e)
    exact absurd (by rw [h1]; simp [h]) hs

theorem needs_preceded_left {c : Char} {p : P α} {q : P β} (h : Needs c p) : Needs c (preceded p q) := by
  intro s hs; unfold preceded; rw [h s hs]

theorem needs_preceded_right {c : Char} {p : P α} {q : P β} [Suf p] (h : Needs c q) : Needs c (preceded p q) := by
  intro s hs; unfold preceded
  split
  · rename_i r a e; exact h r fun hr => hs ((Suf.out _ _ _ e).subset hr)
  · rfl

theorem needs_seq_left {c : Char} {p : P α} {q : P β} (h : Needs c p) : Needs c (seq p q) := by
  intro s hs; unfold seq; rw [h s hs]

theorem needs_seq_right {c : Char} {p : P α} {q : P β} [Suf p] (h : Needs c q) : Needs c (seq p q) := by
  intro s hs; unfold seq
  split
  · rename_i r a e; rw [h r fun hr => hs ((Suf.out _ _ _ e).subset hr)]
  · rfl

theorem needs_terminated_left {c : Char} {p : P α} {q : P β} (h : Needs c p) : Needs c (terminated p q) :=
  needs_mapP (needs_seq_left h)

theorem needs_terminated_right {c : Char} {p : P α} {q : P β} [Suf p] (h : Needs c q) : Needs c (terminated p q) :=
  needs_mapP (needs_seq_right h)

theorem needs_separatedList1 {c : Char} {sep : P β} {p : P α} (h : Needs c p) : Needs c (separatedList1 sep p) := by
  intro s hs; unfold separatedList1; rw [h s hs]

/-! ## Parsers that agree -/

/-- `p` and `q` do the same on texts over `A`. -/
def Agree (A : Char → Prop) (p q : P α) : Prop := ∀ s, Over A s → p s = q s

theorem Agree.refl {p : P α} : Agree A p p := fun _ _ => rfl

theorem Agree.of_needs {c : Char} {p q : P α} (hc : ¬ A c) (hp : Needs c p) (hq : Needs c q) : Agree A p q := by
  intro s hs
  have : c ∉ s := fun h => hc (hs c h)
  rw [hp s this, hq s this]

theorem agree_orElse {p q p' q' : P α} (hp : Agree A p p') (hq : Agree A q q') : Agree A (p <||> q) (p' <||> q') := by
  intro s hs; unfold orElse; rw [hp s hs, hq s hs]

theorem agree_mapP {p p' : P α} {f : α → β} (hp : Agree A p p') : Agree A (mapP p f) (mapP p' f) := by
  intro s hs; unfold mapP; rw [hp s hs]

theorem agree_value {p p' : P α} {b : β} (hp : Agree A p p') : Agree A (value b p) (value b p') := agree_mapP hp

theorem agree_verify {p p' : P α} {f : α → Bool} (hp : Agree A p p') : Agree A (verify p f) (verify p' f) := by
  intro s hs; unfold verify; rw [hp s hs]

theorem agree_notP {p p' : P α} (hp : Agree A p p') : Agree A (notP p) (notP p') := by
  intro s hs; unfold notP; rw [hp s hs]

theorem agree_opt {p p' : P α} (hp : Agree A p p') : Agree A (opt p) (opt p') := by
  intro s hs; unfold opt; rw [hp s hs]

theorem agree_recognize {p p' : P α} (hp : Agree A p p') : Agree A (recognize p) (recognize p') := by
  intro s hs; unfold recognize; rw [hp s hs]

theorem agree_mapOpt {p p' : P α} {f f' : α → Option β} {Q : α → Prop} (hp : Agree A p p') (ho : Outs A p Q)
    (hf : ∀ a, Q a → f a = f' a) : Agree A (mapOpt p f) (mapOpt p' f') := by
  intro s hs; unfold mapOpt; rw [← hp s hs]
  cases e : p s with
  | none => rfl
  | some y => simp only [hf _ (ho s hs _ _ e)]

theorem agree_seq {p p' : P α} {q q' : P β} [Suf p] (hp : Agree A p p') (hq : Agree A q q') :
    Agree A (seq p q) (seq p' q') := by
  intro s hs; unfold seq; rw [← hp s hs]
  cases e : p s with
  | none => rfl
  | some y => simp only [hq _ (hs.rest e)]

theorem agree_preceded {p p' : P α} {q q' : P β} [Suf p] (hp : Agree A p p') (hq : Agree A q q') :
    Agree A (preceded p q) (preceded p' q') := by
  intro s hs; unfold preceded; rw [← hp s hs]
  cases e : p s with
  | none => rfl
  | some y => simp only [hq _ (hs.rest e)]

theorem agree_terminated {p p' : P α} {q q' : P β} [Suf p] (hp : Agree A p p') (hq : Agree A q q') :
    Agree A (terminated p q) (terminated p' q') := agree_mapP (agree_seq hp hq)

theorem agree_delimited {p p' : P α} {q q' : P β} {t t' : P γ} [Suf p] [Suf q] (hp : Agree A p p')
    (hq : Agree A q q') (ht : Agree A t t') : Agree A (delimited p q t) (delimited p' q' t') :=
  agree_preceded hp (agree_terminated hq ht)

theorem agree_lineTerminated {p p' : P α} [Suf p] (hp : Agree A p p') : Agree A (lineTerminated p) (lineTerminated p') :=
  agree_terminated hp .refl

theorem agree_many0F {p p' : P α} [Suf p] (hp : Agree A p p') : ∀ n, Agree A (many0F p n) (many0F p' n)
  | 0 => .refl
  | n + 1 => by
    intro s hs; unfold many0F; rw [← hp s hs]
    cases e : p s with
    | none => rfl
    | some y => simp only [agree_many0F hp n _ (hs.rest e)]

theorem agree_many0 {p p' : P α} [Suf p] (hp : Agree A p p') : Agree A (many0 p) (many0 p') :=
  fun s hs => agree_many0F hp _ s hs

theorem agree_many1 {p p' : P α} [Suf p] (hp : Agree A p p') : Agree A (many1 p) (many1 p') := by
  intro s hs; unfold many1; rw [← hp s hs]
  cases e : p s with
  | none => rfl
  | some y => simp only [agree_many0 hp _ (hs.rest e)]

theorem agree_sepLoopF {p p' : P α} {sep sep' : P β} [Suf p] [Suf sep] (hs' : Agree A sep sep') (hp : Agree A p p') :
    ∀ n, Agree A (sepLoopF sep p n) (sepLoopF sep' p' n)
  | 0 => .refl
  | n + 1 => by
    intro s hs; unfold sepLoopF; rw [← hs' s hs]
    cases e : sep s with
    | none => rfl
    | some y =>
      have hy := hs.rest e
      simp only [← hp _ hy]
      cases e2 : p y.1 with
      | none => rfl
      | some z => simp only [agree_sepLoopF hs' hp n _ (hy.rest e2)]

theorem agree_separatedList1 {p p' : P α} {sep sep' : P β} [Suf p] [Suf sep] (hs' : Agree A sep sep')
    (hp : Agree A p p') : Agree A (separatedList1 sep p) (separatedList1 sep' p') := by
  intro s hs; unfold separatedList1 sepLoop; rw [← hp s hs]
  cases e : p s with
  | none => rfl
  | some y => simp only [agree_sepLoopF hs' hp _ _ (hs.rest e)]

theorem agree_separatedList0 {p p' : P α} {sep sep' : P β} [Suf p] [Suf sep] (hs' : Agree A sep sep')
    (hp : Agree A p p') : Agree A (separatedList0 sep p) (separatedList0 sep' p') := by
  intro s hs; unfold separatedList0 sepLoop; rw [← hp s hs]
  cases e : p s with
  | none => rfl
  | some y => simp only [agree_sepLoopF hs' hp _ _ (hs.rest e)]

/-- The same behaviour, or none of the two parsers can accept. -/
theorem agree_conditional {b b' : Behavior α} {d : List α} {p p' : P α} (hp : Agree A p p')
    (h : b = b' ∨ ∀ s, Over A s → p s = none) : Agree A (conditional b d p) (conditional b' d p') := by
  rcases h with rfl | h
  · unfold conditional
    cases b
    case ignore => exact .refl
    case parse => exact agree_mapP hp
    case skip => exact agree_value hp
    case map => exact agree_mapP hp
    case flatMap => exact agree_mapP hp
  · intro s hs
    have e : p s = none := h s hs
    have e' : p' s = none := (hp s hs).symm.trans e
    have key : ∀ (b : Behavior α) (p : P α), p s = none → conditional b d p s = none := by
      intro b p e
      unfold conditional value
      cases b <;> simp [failP, mapP, e]
    rw [key _ _ e, key _ _ e']

theorem agree_conditionalUnit {b b' : Behavior α} {p p' : P β} (hp : Agree A p p')
    (h : b = b' ∨ ∀ s, Over A s → p s = none) : Agree A (conditionalUnit b p) (conditionalUnit b' p') := by
  rcases h with rfl | h
  · unfold conditionalUnit
    cases b
    case ignore => exact .refl
    all_goals exact agree_value hp
  · intro s hs
    have e : p s = none := h s hs
    have e' : p' s = none := (hp s hs).symm.trans e
    have key : ∀ (b : Behavior α) (p : P β), p s = none → conditionalUnit b p s = none := by
      intro b p e
      unfold conditionalUnit value
      cases b <;> simp [failP, mapP, e]
    rw [key _ _ e, key _ _ e']

theorem agree_conditionalBlockVec {b b' : Behavior Block} {p p' : P (List Block)} (hp : Agree A p p')
    (h : b = b' ∨ ∀ s, Over A s → p s = none) : Agree A (conditionalBlockVec b p) (conditionalBlockVec b' p') := by
  rcases h with rfl | h
  · unfold conditionalBlockVec
    cases b
    case ignore => exact .refl
    case skip => exact agree_value hp
    all_goals exact hp
  · intro s hs
    have e : p s = none := h s hs
    have e' : p' s = none := (hp s hs).symm.trans e
    have key : ∀ (b : Behavior Block) (p : P (List Block)), p s = none → conditionalBlockVec b p s = none := by
      intro b p e
      unfold conditionalBlockVec value
      cases b <;> simp [failP, mapP, e]
    rw [key _ _ e, key _ _ e']

theorem never {c : Char} {p : P α} (hc : ¬ A c) (h : Needs c p) : ∀ s, Over A s → p s = none :=
  fun s hs => h s fun hm => hc (hs c hm)

end
end Verif
