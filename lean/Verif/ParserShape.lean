import Verif.ParserTotal
import Verif.TraverseProps
/-!
# The shape of parsed documents

One invariant about every block and inline of a parsed document, from which C34-C38 and C40 follow.
-/
set_option linter.unusedVariables false
namespace Verif
open Nom

/-! ## Specification -/

/-- A behaviour that runs no user code: `Parse`, `Ignore` or `Skip`. -/
def Behavior.Plain {α : Type} : Behavior α → Prop
  | .parse | .ignore | .skip => True
  | .map _ | .flatMap _ => False

/-- A configuration that runs no user code. -/
structure PConfig.Plain (cfg : PConfig) : Prop where
  blockquote : cfg.blockquote.Plain
  githubAlert : cfg.githubAlert.Plain
  headingV1 : cfg.headingV1.Plain
  headingV2 : cfg.headingV2.Plain
  thematicBreak : cfg.thematicBreak.Plain
  list : cfg.list.Plain
  codeBlock : cfg.codeBlock.Plain
  htmlBlock : cfg.htmlBlock.Plain
  footnoteDefinition : cfg.footnoteDefinition.Plain
  linkDefinition : cfg.linkDefinition.Plain
  table : cfg.table.Plain
  paragraph : cfg.paragraph.Plain
  autolink : cfg.autolink.Plain
  link : cfg.link.Plain
  footnoteReference : cfg.footnoteReference.Plain
  referenceLink : cfg.referenceLink.Plain
  hardNewline : cfg.hardNewline.Plain
  image : cfg.image.Plain
  codeSpan : cfg.codeSpan.Plain
  emphasis : cfg.emphasis.Plain
  strikethrough : cfg.strikethrough.Plain
  text : cfg.text.Plain
  customBlock : cfg.customBlock = none
  customInline : cfg.customInline = none

/-- No two consecutive texts. -/
def NoAdjacentTexts (l : List Inline) : Prop :=
  ∀ pre s t post, l ≠ pre ++ .text s :: .text t :: post

/-- Some inline element is configured `Skip`. -/
def PConfig.SkipsInline (cfg : PConfig) : Prop :=
  cfg.autolink = .skip ∨ cfg.link = .skip ∨ cfg.footnoteReference = .skip ∨
  cfg.referenceLink = .skip ∨ cfg.hardNewline = .skip ∨ cfg.image = .skip ∨ cfg.codeSpan = .skip ∨
  cfg.emphasis = .skip ∨ cfg.strikethrough = .skip ∨ cfg.text = .skip

/-- Some block element is configured `Skip`. -/
def PConfig.SkipsBlock (cfg : PConfig) : Prop :=
  cfg.codeBlock = .skip ∨ cfg.headingV1 = .skip ∨ cfg.headingV2 = .skip ∨
  cfg.thematicBreak = .skip ∨ cfg.githubAlert = .skip ∨ cfg.blockquote = .skip ∨ cfg.list = .skip ∨
  cfg.htmlBlock = .skip ∨ cfg.footnoteDefinition = .skip ∨ cfg.linkDefinition = .skip ∨
  cfg.table = .skip ∨ cfg.paragraph = .skip

/-- The inline lists the parser builds: not empty, texts merged. -/
def InlinesOk (l : List Inline) : Prop := l ≠ [] ∧ NoAdjacentTexts l

/-- What holds of every single inline of a parsed document. -/
def InlineOk (cfg : PConfig) : Inline → Prop
  | .text _ => True
  | .lineBreak => cfg.hardNewline = .parse
  | .code c => cfg.codeSpan = .parse ∧ c ≠ [] ∧ '\n' ∉ c
  | .html _ => False
  | .link _ _ c => cfg.link = .parse ∧ InlinesOk c
  | .linkReference l t => cfg.referenceLink = .parse ∧ InlinesOk l ∧ InlinesOk t
  | .image _ _ alt => cfg.image = .parse ∧ ']' ∉ alt
  | .emphasis c => cfg.emphasis = .parse ∧ InlinesOk c
  | .strong c => cfg.emphasis = .parse ∧ InlinesOk c
  | .strikethrough c => cfg.strikethrough = .parse ∧ InlinesOk c
  | .autolink s => cfg.autolink = .parse ∧ s ≠ [] ∧
      ∀ c ∈ s, c ≠ '<' ∧ c ≠ '>' ∧ c ≠ ' ' ∧ c ≠ '\n'
  | .footnoteReference l => cfg.footnoteReference = .parse ∧ l ≠ [] ∧ ∀ c ∈ l, isAlnum c = true
  | .empty => cfg.SkipsInline

/-- `InlineOk` for an inline and everything inside it. -/
def InlineTreeOk (cfg : PConfig) (i : Inline) : Prop := ∀ k, k.Within i → InlineOk cfg k

/-- An ASCII letter followed by ASCII letters, digits and underscores. -/
def AlertNameOk (n : Str) : Prop :=
  ∃ c r, n = c :: r ∧ isAlpha c = true ∧ ∀ d ∈ r, isAlnum d = true ∨ d = '_'

/-- What holds of every single block of a parsed document. -/
def BlockOk (cfg : PConfig) : Block → Prop
  | .paragraph c => (cfg.headingV2 = .parse ∨ cfg.paragraph = .parse) ∧ InlinesOk c
  | .heading (.atx n) c => cfg.headingV1 = .parse ∧ 1 ≤ n ∧ n ≤ 6 ∧ NoAdjacentTexts c
  | .heading (.setext _) c => cfg.headingV2 = .parse ∧ InlinesOk c
  | .thematicBreak => cfg.thematicBreak = .parse
  | .blockQuote b => cfg.blockquote = .parse ∧ b ≠ []
  | .list k items => cfg.list = .parse ∧ items ≠ [] ∧ ∀ n, k = .ordered n → n < u64Bound
  | .codeBlock k _ => cfg.codeBlock = .parse ∧ ∀ i, k = .fenced (some i) → i ≠ [] ∧ '\n' ∉ i
  | .htmlBlock s => cfg.htmlBlock = .parse ∧ s.head? = some '<'
  | .definition l _ _ => cfg.linkDefinition = .parse ∧ InlinesOk l
  | .table rows al => cfg.table = .parse ∧ rows ≠ [] ∧ al ≠ [] ∧
      ∀ row ∈ rows, row.length = al.length ∧ ∀ cell ∈ row, NoAdjacentTexts cell
  | .footnoteDefinition l _ => cfg.footnoteDefinition = .parse ∧ l ≠ [] ∧ ']' ∉ l
  | .githubAlert t _ => cfg.githubAlert = .parse ∧ ∀ n, t = .custom n → AlertNameOk n
  | .empty => cfg.SkipsBlock

/-- `BlockOk` and the inlines, for a block and every block inside it. -/
def BlockTreeOk (cfg : PConfig) (b : Block) : Prop :=
  ∀ c, c.Within b → BlockOk cfg c ∧ ∀ i ∈ c.directInlines, InlineTreeOk cfg i

/-! ## Trees -/

theorem InlineTreeOk.mk {cfg : PConfig} {i : Inline} (h : InlineOk cfg i)
    (hc : ∀ j ∈ i.children, InlineTreeOk cfg j) : InlineTreeOk cfg i := by
  intro k hk
  cases hk with
  | self => exact h
  | child _ _ hj hw => exact hc _ hj k hw

theorem BlockTreeOk.mk {cfg : PConfig} {b : Block} (h : BlockOk cfg b)
    (hi : ∀ i ∈ b.directInlines, InlineTreeOk cfg i)
    (hc : ∀ j ∈ b.childBlocks, BlockTreeOk cfg j) : BlockTreeOk cfg b := by
  intro k hk
  cases hk with
  | self => exact ⟨h, hi⟩
  | child _ _ hj hw => exact hc _ hj k hw

/-! ## Merging of texts -/

theorem noAdjacentTexts_cons {i : Inline} {l : List Inline} (hl : NoAdjacentTexts l)
    (h : ∀ s t l', ¬ (i = .text s ∧ l = .text t :: l')) : NoAdjacentTexts (i :: l) := by
  intro pre s t post e
  cases pre with
  | nil => simp at e; exact h s t post ⟨e.1, e.2⟩
  | cons p pre => simp at e; exact hl pre s t post e.2

theorem noAdjacentTexts_nil : NoAdjacentTexts [] := by intro pre s t post e; simp at e
theorem noAdjacentTexts_single (i : Inline) : NoAdjacentTexts [i] :=
  noAdjacentTexts_cons noAdjacentTexts_nil (by simp)

theorem mergeTextAux_ok (l : List Inline) :
    (∀ acc, NoAdjacentTexts (mergeTextAux acc l)) ∧
    (∀ t, ∃ t' l', mergeTextAux (some t) l = .text t' :: l' ∧ (∀ s m, l' ≠ .text s :: m)) := by
  induction l with
  | nil =>
    refine ⟨fun acc => ?_, fun t => ⟨t, [], by simp [mergeTextAux], by simp⟩⟩
    cases acc
    · exact noAdjacentTexts_nil
    · exact noAdjacentTexts_single _
  | cons i l ih =>
    have other : (∀ s, i ≠ .text s) → mergeTextAux none (i :: l) = i :: mergeTextAux none l ∧
        ∀ t, mergeTextAux (some t) (i :: l) = .text t :: i :: mergeTextAux none l := by
      intro h
      cases i <;> first | (exact absurd rfl (h _)) | exact ⟨rfl, fun _ => rfl⟩
    by_cases hi : ∃ s, i = .text s
    · obtain ⟨s, rfl⟩ := hi
      refine ⟨fun acc => ?_, fun t => ?_⟩
      · cases acc <;> simp only [mergeTextAux] <;> exact ih.1 _
      · simp only [mergeTextAux]; exact ih.2 _
    · have hi' : ∀ s, i ≠ .text s := fun s e => hi ⟨s, e⟩
      obtain ⟨o1, o2⟩ := other hi'
      have h1 : NoAdjacentTexts (i :: mergeTextAux none l) :=
        noAdjacentTexts_cons (ih.1 none) (fun s t l' e => hi' s e.1)
      refine ⟨fun acc => ?_, fun t => ⟨t, _, o2 t, fun s m e => ?_⟩⟩
      · cases acc with
        | none => rw [o1]; exact h1
        | some t =>
          rw [o2]
          refine noAdjacentTexts_cons h1 (fun s t l' e => ?_)
          have := e.2; simp at this; exact hi' _ this.1
      · simp at e; exact hi' _ e.1

theorem mergeText_noAdjacent (l : List Inline) : NoAdjacentTexts (mergeText l) :=
  (mergeTextAux_ok l).1 none

theorem mergeTextAux_mem (l : List Inline) : ∀ acc i, i ∈ mergeTextAux acc l →
    i ∈ l ∨ ∃ s, i = .text s := by
  induction l with
  | nil =>
    intro acc i h
    cases acc <;> simp [mergeTextAux] at h
    exact .inr ⟨_, h⟩
  | cons j l ih =>
    intro acc i h
    have key : ∀ (m : List Inline), m = j :: mergeTextAux none l ∨
        (∃ t, m = .text t :: j :: mergeTextAux none l) ∨ (∃ t, m = mergeTextAux (some t) l) →
        i ∈ m → i ∈ j :: l ∨ ∃ s, i = .text s := by
      rintro m (rfl | ⟨t, rfl⟩ | ⟨t, rfl⟩) h
      · rcases List.mem_cons.1 h with rfl | h
        · exact .inl (by simp)
        · rcases ih _ _ h with h | h
          · exact .inl (by simp [h])
          · exact .inr h
      · rcases List.mem_cons.1 h with rfl | h
        · exact .inr ⟨_, rfl⟩
        · rcases List.mem_cons.1 h with rfl | h
          · exact .inl (by simp)
          · rcases ih _ _ h with h | h
            · exact .inl (by simp [h])
            · exact .inr h
      · rcases ih _ _ h with h | h
        · exact .inl (by simp [h])
        · exact .inr h
    refine key _ ?_ h
    cases acc <;> cases j <;> simp [mergeTextAux] <;> exact .inr (.inr ⟨_, rfl⟩)

theorem mergeText_ne_nil {l : List Inline} (h : l ≠ []) : mergeText l ≠ [] := by
  cases l with
  | nil => exact absurd rfl h
  | cons i l =>
    unfold mergeText
    cases i <;> simp [mergeTextAux]
    intro e
    obtain ⟨t', l', h', _⟩ := (mergeTextAux_ok l).2 ‹Str›
    rw [h'] at e; simp at e

/-! ## Inlines -/

theorem conditional_some {α : Type} {b : Behavior α} {d : List α} {p : P α} {s r : Str}
    {l : List α} (hb : b.Plain) (h : conditional b d p s = some (r, l)) :
    (b = .parse ∧ ∃ v, p s = some (r, v) ∧ l = [v]) ∨ (b = .skip ∧ l = d) := by
  cases b with
  | ignore => simp [conditional, failP] at h
  | parse =>
    obtain ⟨v, h1, h2⟩ := mapP_some.1 h
    exact .inl ⟨rfl, v, h1, h2.symm⟩
  | skip => obtain ⟨_, _, h⟩ := value_some.1 h; exact .inr ⟨rfl, h.symm⟩
  | map => exact hb.elim
  | flatMap => exact hb.elim

section
variable {x : PExt} {cfg : PConfig} {rec : Str → Option (List Inline)}

/-- A list of inlines the parser builds. -/
def GoodList (cfg : PConfig) (l : List Inline) : Prop :=
  InlinesOk l ∧ ∀ i ∈ l, InlineTreeOk cfg i

theorem linkLabelInner_good (hr : ∀ s l, rec s = some l → GoodList cfg l) {s r : Str}
    {l : List Inline} (h : linkLabelInner rec s = some (r, l)) : GoodList cfg l := by
  unfold linkLabelInner at h
  split at h
  · simp at h
  · split at h
    · rename_i e
      simp only [Option.some.injEq, Prod.mk.injEq] at h
      obtain ⟨_, rfl⟩ := h
      exact hr _ _ e
    · simp at h

theorem linkLabel_good (hr : ∀ s l, rec s = some l → GoodList cfg l) {s r : Str}
    {l : List Inline} (h : linkLabel rec s = some (r, l)) : GoodList cfg l := by
  obtain ⟨_, _, _, _, _, h1, _⟩ := delimited_some.1 h
  exact linkLabelInner_good hr h1

theorem inlineLink_good (hr : ∀ s l, rec s = some l → GoodList cfg l) (hb : cfg.link = .parse)
    {s r : Str} {i : Inline} (h : inlineLink rec s = some (r, i)) : InlineTreeOk cfg i := by
  obtain ⟨⟨l, d, t⟩, h1, rfl⟩ := mapP_some.1 h
  obtain ⟨r1, h2, _⟩ := seq_some.1 h1
  have := linkLabel_good hr h2
  exact .mk ⟨hb, this.1⟩ this.2

theorem referenceLink_good (hr : ∀ s l, rec s = some l → GoodList cfg l)
    (hb : cfg.referenceLink = .parse)
    {s r : Str} {i : Inline} (h : referenceLink rec s = some (r, i)) : InlineTreeOk cfg i := by
  have key : ∀ a b, GoodList cfg a → GoodList cfg b → InlineTreeOk cfg (.linkReference a b) := by
    intro a b ha hb'
    refine .mk ⟨hb, ha.1, hb'.1⟩ ?_
    intro j hj
    rcases List.mem_append.1 hj with hj | hj
    · exact ha.2 j hj
    · exact hb'.2 j hj
  unfold referenceLink at h
  rcases orElse_some.1 h with h | ⟨_, h⟩
  · obtain ⟨⟨a, b⟩, h1, rfl⟩ := mapP_some.1 h
    obtain ⟨r1, h2, h3⟩ := seq_some.1 h1
    exact key _ _ (linkLabel_good hr h3) (linkLabel_good hr h2)
  · rcases orElse_some.1 h with h | ⟨_, h⟩
    · obtain ⟨a, h1, rfl⟩ := mapP_some.1 h
      obtain ⟨r1, _, h2, _⟩ := terminated_some.1 h1
      exact key _ _ (linkLabel_good hr h2) (linkLabel_good hr h2)
    · obtain ⟨a, h1, rfl⟩ := mapP_some.1 h
      exact key _ _ (linkLabel_good hr h1) (linkLabel_good hr h1)

theorem emphasisDelimited_good (hr : ∀ s l, rec s = some l → GoodList cfg l) {t s r : Str}
    {l : List Inline} (h : emphasisDelimited x rec t s = some (r, l)) : GoodList cfg l := by
  obtain ⟨_, _, _, _, _, h1, _⟩ := delimited_some.1 h
  obtain ⟨a, _, h2⟩ := mapOpt_some.1 h1
  exact hr _ _ h2

theorem inlinesOk_single (i : Inline) : InlinesOk [i] := ⟨by simp, noAdjacentTexts_single i⟩

theorem emphasisP_good (hr : ∀ s l, rec s = some l → GoodList cfg l) (hb : cfg.emphasis = .parse)
    {s r : Str} {i : Inline} (h : emphasisP x rec s = some (r, i)) : InlineTreeOk cfg i := by
  have key : ∀ {t u : Str} {l}, (emphasisDelimited x rec t <||> emphasisDelimited x rec u) s =
      some (r, l) → GoodList cfg l := by
    intro t u l h
    rcases orElse_some.1 h with h | ⟨_, h⟩ <;> exact emphasisDelimited_good hr h
  unfold emphasisP at h
  rcases orElse_some.1 h with h | ⟨_, h⟩
  · obtain ⟨l, h1, rfl⟩ := mapP_some.1 h
    have := key h1
    refine .mk ⟨hb, inlinesOk_single _⟩ ?_
    intro j hj
    have : j = .emphasis l := by simpa [Inline.children] using hj
    subst this
    exact .mk ⟨hb, (key h1).1⟩ (key h1).2
  · rcases orElse_some.1 h with h | ⟨_, h⟩ <;>
    · obtain ⟨l, h1, rfl⟩ := mapP_some.1 h
      exact .mk ⟨hb, (key h1).1⟩ (key h1).2

theorem strikethroughP_good (hr : ∀ s l, rec s = some l → GoodList cfg l)
    (hb : cfg.strikethrough = .parse)
    {s r : Str} {i : Inline} (h : strikethroughP rec s = some (r, i)) : InlineTreeOk cfg i := by
  unfold strikethroughP at h
  split at h
  · simp at h
  · split at h
    · simp at h
    · split at h
      · rename_i e
        simp only [Option.some.injEq, Prod.mk.injEq] at h
        obtain ⟨_, rfl⟩ := h
        exact .mk ⟨hb, (hr _ _ e).1⟩ (hr _ _ e).2
      · simp at h

theorem takeWhile1_all {f : Char → Bool} {s r t : Str} (h : takeWhile1 f s = some (r, t)) :
    t ≠ [] ∧ ∀ c ∈ t, f c = true := by
  obtain ⟨rfl, _, h3⟩ := takeWhile1_some.1 h
  exact ⟨h3, takeWhile_all⟩

/-- The consumed part of the input consists of characters satisfying `f`. -/
def Eats {α : Type} (f : Char → Prop) (p : P α) : Prop :=
  ∀ s r a, p s = some (r, a) → ∃ t, s = t ++ r ∧ ∀ c ∈ t, f c

theorem Eats.recognize {α : Type} {f : Char → Prop} {p : P α} (h : Eats f p) {s r t : Str}
    (e : recognize p s = some (r, t)) : ∀ c ∈ t, f c := by
  obtain ⟨a, h1, rfl⟩ := recognize_some.1 e
  obtain ⟨t, rfl, h2⟩ := h _ _ _ h1
  simpa using h2

theorem Eats.seq {α β : Type} {f : Char → Prop} {p : P α} {q : P β} (hp : Eats f p)
    (hq : Eats f q) : Eats f (Nom.seq p q) := by
  intro s r a h
  obtain ⟨r1, h1, h2⟩ := seq_some.1 h
  obtain ⟨t, rfl, h3⟩ := hp _ _ _ h1
  obtain ⟨u, rfl, h4⟩ := hq _ _ _ h2
  refine ⟨t ++ u, by simp, ?_⟩
  intro c hc
  rcases List.mem_append.1 hc with hc | hc
  · exact h3 c hc
  · exact h4 c hc

theorem Eats.mapP {α β : Type} {f : Char → Prop} {p : P α} {g : α → β} (hp : Eats f p) :
    Eats f (Nom.mapP p g) := by
  intro s r a h
  obtain ⟨b, h1, _⟩ := mapP_some.1 h
  exact hp _ _ _ h1

theorem Eats.preceded {α β : Type} {f : Char → Prop} {p : P α} {q : P β} (hp : Eats f p)
    (hq : Eats f q) : Eats f (Nom.preceded p q) := by
  intro s r a h
  obtain ⟨r1, b, h1, h2⟩ := preceded_some.1 h
  exact (hp.seq hq) s r (b, a) (seq_some.2 ⟨r1, h1, h2⟩)

theorem Eats.notP {α : Type} {f : Char → Prop} {p : P α} : Eats f (Nom.notP p) := by
  intro s r a h
  exact ⟨[], by rw [(notP_some.1 h).2]; rfl, by simp⟩

theorem Eats.orElse {α : Type} {f : Char → Prop} {p q : P α} (hp : Eats f p)
    (hq : Eats f q) : Eats f (Nom.orElse p q) := by
  intro s r a h
  rcases orElse_some.1 h with h | ⟨_, h⟩
  · exact hp _ _ _ h
  · exact hq _ _ _ h

theorem Eats.satisfy {f : Char → Prop} {g : Char → Bool} (h : ∀ c, g c = true → f c) :
    Eats f (Nom.satisfy g) := by
  intro s r c e
  obtain ⟨rfl, hc⟩ := satisfy_some.1 e
  exact ⟨[c], rfl, by simpa using h c hc⟩

theorem Eats.takeWhile1 {f : Char → Prop} {g : Char → Bool} (h : ∀ c, g c = true → f c) :
    Eats f (Nom.takeWhile1 g) := by
  intro s r t e
  obtain ⟨rfl, rfl, h3⟩ := takeWhile1_some.1 e
  exact ⟨_, (List.takeWhile_append_dropWhile).symm, fun c hc => h c (takeWhile_all c hc)⟩

theorem Eats.many0 {α : Type} {f : Char → Prop} {p : P α} (hp : Eats f p) :
    Eats f (Nom.many0 p) := by
  intro s r l h
  refine many0_induction (M := fun s r _ => ∃ t, s = t ++ r ∧ ∀ c ∈ t, f c) ?_ ?_ s r l h
  · intro s _; exact ⟨[], rfl, by simp⟩
  · rintro s r a r' l e _ _ ⟨u, rfl, h2⟩
    obtain ⟨t, rfl, h1⟩ := hp _ _ _ e
    refine ⟨t ++ u, by simp, ?_⟩
    intro c hc
    rcases List.mem_append.1 hc with hc | hc
    · exact h1 c hc
    · exact h2 c hc

theorem Eats.many1 {α : Type} {f : Char → Prop} {p : P α} (hp : Eats f p) :
    Eats f (Nom.many1 p) := by
  intro s r l h
  obtain ⟨r1, a, l', h1, h2, _⟩ := many1_some.1 h
  obtain ⟨t, rfl, h3⟩ := hp _ _ _ h1
  obtain ⟨u, rfl, h4⟩ := hp.many0 _ _ _ h2
  refine ⟨t ++ u, by simp, ?_⟩
  intro c hc
  rcases List.mem_append.1 hc with hc | hc
  · exact h3 c hc
  · exact h4 c hc

theorem isAlnum_plain {c : Char} (h : isAlnum c = true) :
    c ≠ '<' ∧ c ≠ '>' ∧ c ≠ ' ' ∧ c ≠ '\n' := by
  refine ⟨?_, ?_, ?_, ?_⟩ <;> rintro rfl <;> revert h <;> decide

theorem isSchemeChar_plain {c : Char} (h : isSchemeChar c = true) :
    c ≠ '<' ∧ c ≠ '>' ∧ c ≠ ' ' ∧ c ≠ '\n' := by
  refine ⟨?_, ?_, ?_, ?_⟩ <;> rintro rfl <;> revert h <;> decide

theorem autolinkP_good (hb : cfg.autolink = .parse) {s r t : Str}
    (h : autolinkP s = some (r, t)) : InlineTreeOk cfg (.autolink t) := by
  have key : t ≠ [] ∧ ∀ c ∈ t, c ≠ '<' ∧ c ≠ '>' ∧ c ≠ ' ' ∧ c ≠ '\n' := by
    obtain ⟨r1, _, r2, _, _, h1, _⟩ := delimited_some.1 h
    rcases orElse_some.1 h1 with h1 | ⟨_, h1⟩
    · obtain ⟨⟨a, b⟩, h2, rfl⟩ := mapP_some.1 h1
      obtain ⟨r3, h3, h4⟩ := seq_some.1 h2
      obtain ⟨r4, _, h5, _⟩ := terminated_some.1 h3
      refine ⟨by simp, ?_⟩
      have ha : ∀ c ∈ a, c ≠ '<' ∧ c ≠ '>' ∧ c ≠ ' ' ∧ c ≠ '\n' :=
        Eats.recognize ((Eats.satisfy (fun c hc => isAlnum_plain (by simp [isAlnum, hc]))).seq
          (Eats.takeWhile1 (fun c hc => isSchemeChar_plain hc))) h5
      have hbb : ∀ c ∈ b, c ≠ '<' ∧ c ≠ '>' ∧ c ≠ ' ' ∧ c ≠ '\n' := by
        simp only [takeWhile, Option.some.injEq, Prod.mk.injEq] at h4
        obtain ⟨_, rfl⟩ := h4
        intro c hc
        have := takeWhile_all c hc
        refine ⟨?_, ?_, ?_, ?_⟩ <;> rintro rfl <;> revert this <;> decide
      intro c hc
      simp only [List.mem_append, List.mem_cons, List.not_mem_nil, or_false] at hc
      rcases hc with (hc | rfl) | hc
      · exact ha c hc
      · decide
      · exact hbb c hc
    · constructor
      · rintro rfl
        have h2 := Con.lt (p := email) h1
        have := congrArg List.length (recognize_append h1)
        simp at this; omega
      · refine Eats.recognize (Eats.seq (Eats.takeWhile1 ?_) (Eats.seq (Eats.satisfy ?_)
          (Eats.takeWhile1 ?_))) h1
        · intro c hc
          refine ⟨?_, ?_, ?_, ?_⟩ <;> rintro rfl <;> revert hc <;> decide
        · intro c hc
          refine ⟨?_, ?_, ?_, ?_⟩ <;> rintro rfl <;> revert hc <;> decide
        · intro c hc
          refine ⟨?_, ?_, ?_, ?_⟩ <;> rintro rfl <;> revert hc <;> decide
  exact .mk ⟨hb, key⟩ (by simp [Inline.children])

theorem footnoteReferenceP_good (hb : cfg.footnoteReference = .parse) {s r : Str} {i : Inline}
    (h : footnoteReferenceP s = some (r, i)) : InlineTreeOk cfg i := by
  obtain ⟨l, h1, rfl⟩ := mapP_some.1 h
  obtain ⟨_, _, _, _, _, h2, _⟩ := delimited_some.1 h1
  exact .mk ⟨hb, takeWhile1_all h2⟩ (by simp [Inline.children])

theorem imageP_good (hb : cfg.image = .parse) {s r : Str} {i : Inline}
    (h : imageP s = some (r, i)) : InlineTreeOk cfg i := by
  obtain ⟨⟨alt, d, t⟩, h1, rfl⟩ := mapP_some.1 h
  obtain ⟨_, h2, _⟩ := seq_some.1 h1
  obtain ⟨_, _, _, h3⟩ := preceded_some.1 h2
  obtain ⟨_, _, _, _, _, h4, _⟩ := delimited_some.1 h3
  simp only [takeWhile, Option.some.injEq, Prod.mk.injEq] at h4
  obtain ⟨_, rfl⟩ := h4
  refine .mk ⟨hb, ?_⟩ (by simp [Inline.children])
  intro hc
  simpa using takeWhile_all _ hc

theorem codeNewlines_ok : ∀ s : Str, '\n' ∉ codeNewlines s ∧ (s ≠ [] → codeNewlines s ≠ []) := by
  intro s
  induction s using codeNewlines.induct with
  | case1 r ih => simp [codeNewlines, ih.1]
  | case2 r ih => simp [codeNewlines, ih.1]
  | case3 c r h1 h2 ih =>
    rw [codeNewlines]
    · refine ⟨?_, by simp⟩
      simp only [List.mem_cons, not_or]
      refine ⟨?_, ih.1⟩
      rintro rfl
      exact h2 rfl
    · exact h1
    · exact h2
  | case4 => simp [codeNewlines]

theorem codeStrip_ok {s : Str} (h1 : '\n' ∉ s) (h2 : s ≠ []) :
    '\n' ∉ codeStrip s ∧ codeStrip s ≠ [] := by
  unfold codeStrip
  split
  · rename_i h
    obtain ⟨h3, h4, h5⟩ := h
    constructor
    · intro hc
      exact h1 (List.mem_of_mem_drop (List.dropLast_subset _ hc))
    · intro e
      cases s with
      | nil => exact h2 rfl
      | cons c s =>
        simp only [List.drop_succ_cons, List.drop_zero] at e
        simp only [List.head?_cons, Option.some.injEq] at h3
        subst h3
        cases s with
        | nil => exact h5 (by decide)
        | cons d s =>
          cases s with
          | nil =>
            simp at h4
            subst h4
            exact h5 (by decide)
          | cons f s => simp at e
  · exact ⟨h1, h2⟩

theorem codeSpan_good (hb : cfg.codeSpan = .parse) {s r t : Str}
    (h : codeSpan s = some (r, t)) : InlineTreeOk cfg (.code t) := by
  have key : '\n' ∉ t ∧ t ≠ [] := by
    unfold codeSpan at h
    split at h
    · simp at h
    · obtain ⟨c, h1, rfl⟩ := mapP_some.1 h
      obtain ⟨_, _, h2, _⟩ := terminated_some.1 h1
      have hc : c ≠ [] := by
        rintro rfl
        have h3 := Con.lt (p := recognize _) h2
        have := congrArg List.length (recognize_append h2)
        simp at this; omega
      have := codeNewlines_ok c
      exact codeStrip_ok this.1 (this.2 hc)
  exact .mk ⟨hb, key.2, key.1⟩ (by simp [Inline.children])

theorem inlineTreeOk_text (s : Str) : InlineTreeOk cfg (.text s) :=
  .mk trivial (by simp [Inline.children])

theorem inlineStep_good (hp : cfg.Plain) (hr : ∀ s l, rec s = some l → GoodList cfg l) {s r : Str}
    {l : List Inline} (h : inlineStep x cfg rec s = some (r, l)) :
    l ≠ [] ∧ ∀ i ∈ l, InlineTreeOk cfg i := by
  have emp : cfg.SkipsInline → ([Inline.empty] ≠ [] ∧
      ∀ i ∈ [Inline.empty], InlineTreeOk cfg i) := by
    intro hs
    refine ⟨by simp, ?_⟩
    intro i hi
    simp only [List.mem_cons, List.not_mem_nil, or_false] at hi
    subst hi
    exact .mk hs (by simp [Inline.children])
  have one : ∀ {i : Inline}, InlineTreeOk cfg i → ([i] ≠ [] ∧ ∀ j ∈ [i], InlineTreeOk cfg j) := by
    intro i hi
    exact ⟨by simp, by simpa using hi⟩
  have cond : ∀ {b : Behavior Inline} {p : P Inline}, b.Plain → (b = .skip → cfg.SkipsInline) →
      (b = .parse → ∀ v, p s = some (r, v) → InlineTreeOk cfg v) →
      conditionalInline b p s = some (r, l) → l ≠ [] ∧ ∀ i ∈ l, InlineTreeOk cfg i := by
    intro b p hb hs hv h
    rcases conditional_some hb h with ⟨hb', v, h1, rfl⟩ | ⟨hb', rfl⟩
    · exact one (hv hb' v h1)
    · exact emp (hs hb')
  unfold inlineStep at h
  rcases orElse_some.1 h with h | ⟨_, h⟩
  · refine cond hp.autolink (fun h => by simp [PConfig.SkipsInline, h]) (fun hb v hv => ?_) h
    obtain ⟨t, h1, rfl⟩ := mapP_some.1 hv
    exact autolinkP_good hb h1
  rcases orElse_some.1 h with h | ⟨_, h⟩
  · exact cond hp.link (fun h => by simp [PConfig.SkipsInline, h])
      (fun hb v hv => inlineLink_good hr hb hv) h
  rcases orElse_some.1 h with h | ⟨_, h⟩
  · exact cond hp.footnoteReference (fun h => by simp [PConfig.SkipsInline, h])
      (fun hb v hv => footnoteReferenceP_good hb hv) h
  rcases orElse_some.1 h with h | ⟨_, h⟩
  · exact cond hp.referenceLink (fun h => by simp [PConfig.SkipsInline, h])
      (fun hb v hv => referenceLink_good hr hb hv) h
  rcases orElse_some.1 h with h | ⟨_, h⟩
  · refine cond hp.hardNewline (fun h => by simp [PConfig.SkipsInline, h]) (fun hb v hv => ?_) h
    obtain ⟨_, _, rfl⟩ := value_some.1 hv
    exact .mk hb (by simp [Inline.children])
  rcases orElse_some.1 h with h | ⟨_, h⟩
  · exact cond hp.image (fun h => by simp [PConfig.SkipsInline, h])
      (fun hb v hv => imageP_good hb hv) h
  rcases orElse_some.1 h with h | ⟨_, h⟩
  · refine cond hp.codeSpan (fun h => by simp [PConfig.SkipsInline, h]) (fun hb v hv => ?_) h
    obtain ⟨t, h1, rfl⟩ := mapP_some.1 hv
    exact codeSpan_good hb h1
  rcases orElse_some.1 h with h | ⟨_, h⟩
  · obtain ⟨v, h1, rfl⟩ := mapP_some.1 h
    obtain ⟨t, _, rfl⟩ := mapP_some.1 h1
    exact one (inlineTreeOk_text t)
  rcases orElse_some.1 h with h | ⟨_, h⟩
  · exact cond hp.emphasis (fun h => by simp [PConfig.SkipsInline, h])
      (fun hb v hv => emphasisP_good hr hb hv) h
  rcases orElse_some.1 h with h | ⟨_, h⟩
  · exact cond hp.strikethrough (fun h => by simp [PConfig.SkipsInline, h])
      (fun hb v hv => strikethroughP_good hr hb hv) h
  rcases orElse_some.1 h with h | ⟨_, h⟩
  · rw [hp.customInline] at h; simp [customParser, failP] at h
  · refine cond hp.text (fun h => by simp [PConfig.SkipsInline, h]) (fun hb v hv => ?_) h
    obtain ⟨t, _, rfl⟩ := mapP_some.1 hv
    exact inlineTreeOk_text _

theorem mergeText_good {l : List Inline} (h : ∀ i ∈ l, InlineTreeOk cfg i) :
    NoAdjacentTexts (mergeText l) ∧ ∀ i ∈ mergeText l, InlineTreeOk cfg i := by
  refine ⟨mergeText_noAdjacent l, fun i hi => ?_⟩
  rcases mergeTextAux_mem l none i hi with hi | ⟨s, rfl⟩
  · exact h i hi
  · exact inlineTreeOk_text s

theorem inlineMany1_good {p : P (List Inline)} (hpp : ∀ s r l, p s = some (r, l) →
    l ≠ [] ∧ ∀ i ∈ l, InlineTreeOk cfg i) {s r : Str} {l : List Inline}
    (h : inlineMany1With p s = some (r, l)) : GoodList cfg l := by
  obtain ⟨ls, h1, rfl⟩ := mapP_some.1 h
  have hall := many1_all (Q := fun l => l ≠ [] ∧ ∀ i ∈ l, InlineTreeOk cfg i)
    h1 hpp
  have hne : ls ≠ [] := by
    obtain ⟨_, _, _, _, _, rfl⟩ := many1_some.1 h1; simp
  have h2 := mergeText_good (cfg := cfg) (l := ls.flatten) (by
    intro i hi
    obtain ⟨l, hl, hi⟩ := List.mem_flatten.1 hi
    exact (hall l hl).2 i hi)
  refine ⟨⟨mergeText_ne_nil ?_, h2.1⟩, h2.2⟩
  cases ls with
  | nil => exact absurd rfl hne
  | cons a ls =>
    have := (hall a (by simp)).1
    simp [this]

theorem inlineMany0_good {p : P (List Inline)} (hpp : ∀ s r l, p s = some (r, l) →
    l ≠ [] ∧ ∀ i ∈ l, InlineTreeOk cfg i) {s r : Str} {l : List Inline}
    (h : inlineMany0With p s = some (r, l)) :
    NoAdjacentTexts l ∧ ∀ i ∈ l, InlineTreeOk cfg i := by
  obtain ⟨ls, h1, rfl⟩ := mapP_some.1 h
  have hall := many0_all (Q := fun l => l ≠ [] ∧ ∀ i ∈ l, InlineTreeOk cfg i)
    h1 hpp
  exact mergeText_good (by
    intro i hi
    obtain ⟨l, hl, hi⟩ := List.mem_flatten.1 hi
    exact (hall l hl).2 i hi)

theorem inlineF_good (hp : cfg.Plain) : ∀ n s r l, inlineF x cfg n s = some (r, l) →
    l ≠ [] ∧ ∀ i ∈ l, InlineTreeOk cfg i := by
  intro n
  induction n with
  | zero => intro s r l h; simp [inlineF, failP] at h
  | succ n ih =>
    intro s r l h
    unfold inlineF at h
    refine inlineStep_good hp ?_ h
    intro t m ht
    simp only [Option.map_eq_some_iff] at ht
    obtain ⟨⟨r', m'⟩, ht, rfl⟩ := ht
    exact inlineMany1_good ih ht

theorem parseInlines1_good (hp : cfg.Plain) {s : Str} {l : List Inline}
    (h : parseInlines1 x cfg s = some l) : GoodList cfg l := by
  unfold parseInlines1 at h
  simp only [Option.map_eq_some_iff] at h
  obtain ⟨⟨r', m'⟩, ht, rfl⟩ := h
  exact inlineMany1_good (inlineF_good hp _) ht

theorem parseInlines0_good (hp : cfg.Plain) {s : Str} {l : List Inline}
    (h : parseInlines0 x cfg s = some l) :
    NoAdjacentTexts l ∧ ∀ i ∈ l, InlineTreeOk cfg i := by
  unfold parseInlines0 at h
  simp only [Option.map_eq_some_iff] at h
  obtain ⟨⟨r', m'⟩, ht, rfl⟩ := h
  exact inlineMany0_good (inlineF_good hp _) ht

/-! ## Blocks -/

/-- A list of blocks the parser builds. -/
def GoodBlocks (cfg : PConfig) (l : List Block) : Prop := ∀ b ∈ l, BlockTreeOk cfg b

section
variable {brec : P (List Block)}

theorem blocks1_good (hr : ∀ s r l, brec s = some (r, l) → l ≠ [] ∧ GoodBlocks cfg l) {s : Str}
    {l : List Block} (h : blocks1 brec s = some l) : l ≠ [] ∧ GoodBlocks cfg l := by
  unfold blocks1 at h
  simp only [Option.map_eq_some_iff] at h
  obtain ⟨⟨r, ls⟩, h1, rfl⟩ := h
  have hall := many1_all (Q := fun l => l ≠ [] ∧ GoodBlocks cfg l) h1 hr
  obtain ⟨_, a, l', _, _, rfl⟩ := many1_some.1 h1
  refine ⟨by simp [(hall a (by simp)).1], ?_⟩
  intro b hb
  obtain ⟨l, hl, hb⟩ := List.mem_flatten.1 hb
  exact (hall l hl).2 b hb

theorem blocks0_good (hr : ∀ s r l, brec s = some (r, l) → l ≠ [] ∧ GoodBlocks cfg l) {s : Str}
    {l : List Block} (h : blocks0 brec s = some l) : GoodBlocks cfg l := by
  unfold blocks0 at h
  simp only [Option.map_eq_some_iff] at h
  obtain ⟨⟨r, ls⟩, h1, rfl⟩ := h
  have hall := many0_all (Q := fun l => l ≠ [] ∧ GoodBlocks cfg l) h1 hr
  intro b hb
  obtain ⟨l, hl, hb⟩ := List.mem_flatten.1 hb
  exact (hall l hl).2 b hb

theorem eats_notEol1 : Eats (fun c => c ≠ '\n') notEofOrEol1 := by
  intro s r t h
  refine ⟨t, (notEofOrEol1_append h).symm, ?_⟩
  unfold notEofOrEol1 at h
  refine Eats.recognize (f := fun c => c ≠ '\n') (Eats.many1 ?_) h
  intro s r c e
  obtain ⟨r1, _, h1, h2⟩ := preceded_some.1 e
  obtain ⟨h3, rfl⟩ := notP_some.1 h1
  have := anychar_some.1 h2
  subst this
  refine ⟨[c], rfl, ?_⟩
  simp only [List.mem_cons, List.not_mem_nil, or_false, forall_eq]
  rintro rfl
  simp [eofOrEol, Nom.orElse, lineEnding] at h3

theorem notEofOrEol1_ok {s r t : Str} (h : notEofOrEol1 s = some (r, t)) : t ≠ [] ∧ '\n' ∉ t := by
  constructor
  · rintro rfl
    have h3 := Con.lt (p := notEofOrEol1) h
    have := congrArg List.length (notEofOrEol1_append h)
    simp at this; omega
  · intro hc
    obtain ⟨u, h1, h2⟩ := eats_notEol1 _ _ _ h
    rw [← notEofOrEol1_append h, List.append_cancel_right_eq] at h1
    subst h1
    exact h2 _ hc rfl

theorem codeBlockP_good (hb : cfg.codeBlock = .parse) {s r : Str} {b : Block}
    (h : codeBlockP s = some (r, b)) : BlockTreeOk cfg b := by
  unfold codeBlockP at h
  rcases orElse_some.1 h with h | ⟨_, h⟩
  · obtain ⟨l, _, rfl⟩ := mapP_some.1 h
    exact .mk ⟨hb, by simp⟩ (by simp [Block.directInlines]) (by simp [Block.childBlocks])
  · unfold codeBlockFenced at h
    split at h
    · simp at h
    · rename_i s1 sp fence info e
      split at h
      · simp at h
      · simp only [Option.some.injEq, Prod.mk.injEq] at h
        obtain ⟨_, rfl⟩ := h
        refine .mk ⟨hb, ?_⟩ (by simp [Block.directInlines]) (by simp [Block.childBlocks])
        intro i hi
        simp only [CodeBlockKind.fenced.injEq] at hi
        subst hi
        obtain ⟨r1, _, h2⟩ := seq_some.1 e
        unfold openingFence lineTerminated at h2
        obtain ⟨r2, _, h3, _⟩ := terminated_some.1 h2
        obtain ⟨r3, _, h4⟩ := seq_some.1 h3
        rcases opt_some.1 h4 with ⟨a, h5, h6⟩ | ⟨_, _, h6⟩
        · simp only [Option.some.injEq] at h6
          subst h6
          obtain ⟨t, h7, h8⟩ := recognize_some.1 h5
          have : i = t := by
            have h9 := recognize_append h5
            rw [← notEofOrEol1_append h7, List.append_cancel_right_eq] at h9
            exact h9
          subst this
          exact notEofOrEol1_ok h7
        · simp at h6

theorem headingV1_good (hp : cfg.Plain) (hb : cfg.headingV1 = .parse) {s r : Str} {b : Block}
    (h : headingV1 x cfg s = some (r, b)) : BlockTreeOk cfg b := by
  unfold headingV1 at h
  split at h
  · simp at h
  · rename_i r1 hashes content e
    split at h
    · rename_i l e2
      simp only [Option.some.injEq, Prod.mk.injEq] at h
      obtain ⟨_, rfl⟩ := h
      obtain ⟨r2, h1, _⟩ := seq_some.1 e
      have hl := parseInlines0_good hp e2
      have h2 := manyMN_le _ _ _ _ _ h1
      have h3 := manyMN_ge _ _ _ _ _ (by omega) h1
      exact .mk ⟨hb, h3, h2, hl.1⟩ hl.2 (by simp [Block.childBlocks])
    · simp at h

theorem paragraphP_good (hp : cfg.Plain) {cf : Bool} {s r : Str} {l : List Inline}
    (h : paragraphP x cfg brec cf s = some (r, l)) : GoodList cfg l := by
  unfold paragraphP at h
  obtain ⟨lines, _, h1⟩ := mapOpt_some.1 h
  exact parseInlines1_good hp h1

theorem headingV2OrParagraph_good (hp : cfg.Plain) (hb : cfg.headingV2 = .parse) {s r : Str}
    {b : Block} (h : headingV2OrParagraph x cfg brec s = some (r, b)) : BlockTreeOk cfg b := by
  obtain ⟨⟨l, o⟩, h1, rfl⟩ := mapP_some.1 h
  obtain ⟨_, h2, _⟩ := seq_some.1 h1
  have hl := paragraphP_good hp h2
  cases o with
  | none => exact .mk ⟨.inl hb, hl.1⟩ hl.2 (by simp [Block.childBlocks])
  | some v => exact .mk ⟨hb, hl.1⟩ hl.2 (by simp [Block.childBlocks])

theorem blockquoteP_good (hr : ∀ s r l, brec s = some (r, l) → l ≠ [] ∧ GoodBlocks cfg l)
    (hb : cfg.blockquote = .parse) {s r : Str} {b : Block}
    (h : blockquoteP brec s = some (r, b)) : BlockTreeOk cfg b := by
  obtain ⟨lines, _, h1⟩ := mapOpt_some.1 h
  simp only [Option.map_eq_some_iff] at h1
  obtain ⟨bs, h2, rfl⟩ := h1
  have := blocks1_good hr h2
  exact .mk ⟨hb, this.1⟩ (by simp [Block.directInlines]) this.2

theorem isAlnum_of_isAlpha {c : Char} (h : isAlpha c = true) : isAlnum c = true := by
  simp [isAlnum, h]

theorem customAlertName_ok {s r n : Str} (h : customAlertName s = some (r, n)) :
    AlertNameOk n := by
  unfold customAlertName at h
  have happ := recognize_append h
  obtain ⟨⟨a, l⟩, h1, _⟩ := recognize_some.1 h
  obtain ⟨r1, h2, h3⟩ := seq_some.1 h1
  obtain ⟨ha, hall⟩ := takeWhile1_all h2
  have hall2 : ∀ d ∈ n, isAlnum d = true ∨ d = '_' := by
    refine Eats.recognize (f := fun d => isAlnum d = true ∨ d = '_')
      (Eats.seq (Eats.takeWhile1 (fun c hc => .inl (isAlnum_of_isAlpha hc)))
        (Eats.many0 (Eats.satisfy (fun c hc => by simpa using hc)))) h
  obtain ⟨rfl, rfl, _⟩ := takeWhile1_some.1 h2
  have hlen := Suf.le (p := many0 (satisfy (fun c => isAlnum c || c == '_'))) h3
  cases s with
  | nil => simp at ha
  | cons c s =>
    cases n with
    | nil =>
      have := congrArg List.length happ
      simp only [List.nil_append] at happ
      subst happ
      have h5 : 0 < ((c :: s).takeWhile isAlpha).length := List.length_pos_iff.2 ha
      have h6 := congrArg List.length (List.takeWhile_append_dropWhile (p := isAlpha) (l := c :: s))
      simp only [List.length_append] at h6
      omega
    | cons d n =>
      simp only [List.cons_append, List.cons.injEq] at happ
      obtain ⟨rfl, _⟩ := happ
      refine ⟨d, n, rfl, ?_, fun e he => hall2 e (by simp [he])⟩
      rw [List.takeWhile_cons] at ha
      split at ha
      · assumption
      · simp at ha

theorem parseAlertMarker_ok {m : Str} {t : AlertType} (h : parseAlertMarker x m = some t) :
    ∀ n, t = .custom n → AlertNameOk n := by
  unfold parseAlertMarker at h
  split at h
  · rename_i e
    simp only [Option.some.injEq] at h
    subst h
    intro n hn
    subst hn
    unfold alertMarkerP at e
    obtain ⟨_, _, _, _, _, h1, _⟩ := delimited_some.1 e
    simp only [orElse_some, value_some] at h1
    rcases h1 with ⟨_, _, h1⟩ | ⟨_, ⟨_, _, h1⟩ | ⟨_, ⟨_, _, h1⟩ | ⟨_, ⟨_, _, h1⟩ | ⟨_, ⟨_, _, h1⟩ | ⟨_, h1⟩⟩⟩⟩⟩
    · cases h1
    · cases h1
    · cases h1
    · cases h1
    · cases h1
    · obtain ⟨n', h2, h3⟩ := mapP_some.1 h1
      cases h3
      exact customAlertName_ok h2
  · simp at h

theorem githubAlertP_good (hr : ∀ s r l, brec s = some (r, l) → l ≠ [] ∧ GoodBlocks cfg l)
    (hb : cfg.githubAlert = .parse) {s r : Str} {l : List Block}
    (h : githubAlertP x brec s = some (r, l)) : l ≠ [] ∧ GoodBlocks cfg l := by
  have one : ∀ {t bs}, (∀ n, t = .custom n → AlertNameOk n) → GoodBlocks cfg bs →
      ([Block.githubAlert t bs] ≠ [] ∧ GoodBlocks cfg [Block.githubAlert t bs]) := by
    intro t bs h1 h2
    refine ⟨by simp, ?_⟩
    intro b hbm
    simp only [List.mem_cons, List.not_mem_nil, or_false] at hbm
    subst hbm
    exact .mk ⟨hb, h1⟩ (by simp [Block.directInlines]) h2
  unfold githubAlertP at h
  split at h
  · simp at h
  · split at h
    · simp at h
    · rename_i e
      split at h
      · simp at h
      · simp only at h
        split at h
        · simp only [Option.some.injEq, Prod.mk.injEq] at h
          obtain ⟨_, rfl⟩ := h
          exact one (parseAlertMarker_ok e) (by simp [GoodBlocks])
        · split at h
          · rename_i e2
            simp only [Option.some.injEq, Prod.mk.injEq] at h
            obtain ⟨_, rfl⟩ := h
            exact one (parseAlertMarker_ok e) (blocks1_good hr e2).2
          · simp at h

theorem listMarker_ok {s r : Str} {k : ListKind} (h : listMarker s = some (r, k)) :
    ∀ n, k = .ordered n → n < u64Bound := by
  intro n hn
  subst hn
  unfold listMarker at h
  rcases orElse_some.1 h with h | ⟨_, h⟩
  · obtain ⟨m, h1, h2⟩ := mapP_some.1 h
    cases h2
    obtain ⟨_, _, h3, _⟩ := terminated_some.1 h1
    unfold u64P at h3
    split at h3
    · simp at h3
    · split at h3
      · rename_i hlt
        simp only [Option.some.injEq, Prod.mk.injEq] at h3
        rw [← h3.2]; exact hlt
      · simp at h3
  · simp only [orElse_some, listMarkerStar, listMarkerPlus, listMarkerDash, value_some] at h
    rcases h with ⟨_, _, h⟩ | ⟨_, ⟨_, _, h⟩ | ⟨_, ⟨_, _, h⟩⟩⟩ <;> cases h

theorem listMarkerWithSpanSize_ok {s r : Str} {k : ListKind} {y}
    (h : listMarkerWithSpanSize s = some (r, (k, y))) : ∀ n, k = .ordered n → n < u64Bound := by
  unfold listMarkerWithSpanSize at h
  rcases orElse_some.1 h with h | ⟨_, h⟩
  · obtain ⟨⟨k', n', t'⟩, h1, h2⟩ := mapP_some.1 h
    simp only [Prod.mk.injEq] at h2
    obtain ⟨rfl, _⟩ := h2
    unfold listMarkerFollowedByNewline at h1
    split at h1
    · simp at h1
    · rename_i r1 kind e
      obtain ⟨_, _, _, e'⟩ := preceded_some.1 e
      split at h1
      · simp only [Option.some.injEq, Prod.mk.injEq] at h1
        rw [← h1.2.1]; exact listMarker_ok e'
      · split at h1
        · simp at h1
        · obtain ⟨_, _, h3⟩ := mapP_some.1 h1
          simp only [Prod.mk.injEq] at h3
          rw [← h3.1]; exact listMarker_ok e'
  · obtain ⟨⟨⟨k', n', t'⟩, _⟩, h1, h2⟩ := mapP_some.1 h
    simp only [Prod.mk.injEq] at h2
    obtain ⟨rfl, _⟩ := h2
    obtain ⟨_, h3, _⟩ := seq_some.1 h1
    unfold listMarkerFollowedBySpaces at h3
    split at h3
    · simp at h3
    · rename_i e
      obtain ⟨_, _, _, _, _, e', _⟩ := delimited_some.1 e
      obtain ⟨_, _, h4⟩ := mapP_some.1 h3
      simp only [Prod.mk.injEq] at h4
      rw [← h4.1]; exact listMarker_ok e'

theorem listItemP_good (hr : ∀ s r l, brec s = some (r, l) → l ≠ [] ∧ GoodBlocks cfg l)
    {s r : Str} {y : ListKind × ListItem} (h : listItemP brec s = some (r, y)) :
    (∀ n, y.1 = .ordered n → n < u64Bound) ∧ GoodBlocks cfg y.2.blocks := by
  unfold listItemP at h
  split at h
  · simp at h
  · rename_i e
    split at h
    · simp at h
    · split at h
      · simp at h
      · rename_i e2
        simp only [Option.some.injEq, Prod.mk.injEq] at h
        obtain ⟨_, rfl⟩ := h
        exact ⟨listMarkerWithSpanSize_ok e, blocks0_good hr e2⟩

theorem listP_good (hr : ∀ s r l, brec s = some (r, l) → l ≠ [] ∧ GoodBlocks cfg l)
    (hb : cfg.list = .parse) {s r : Str} {b : Block} (h : listP brec s = some (r, b)) :
    BlockTreeOk cfg b := by
  unfold listP at h
  split at h
  · rename_i r1 k i l e
    simp only [Option.some.injEq, Prod.mk.injEq] at h
    obtain ⟨_, rfl⟩ := h
    have hall := many1_all (Q := fun y => (∀ n, y.1 = .ordered n → n < u64Bound) ∧
      GoodBlocks cfg y.2.blocks) e (fun _ _ _ => listItemP_good hr)
    refine .mk ⟨hb, by simp, (hall (k, i) (by simp)).1⟩ (by simp [Block.directInlines]) ?_
    intro b hbm
    obtain ⟨it, hit, hbm'⟩ := List.mem_flatMap.1 hbm
    rcases List.mem_cons.1 hit with rfl | hit
    · exact (hall (k, it) (by simp)).2 b hbm'
    · obtain ⟨y, hy, rfl⟩ := List.mem_map.1 hit
      exact (hall y (by simp [hy])).2 b hbm'
  · simp at h

theorem htmlBlockP_head {s r t : Str} (h : htmlBlockP s = some (r, t)) : t.head? = some '<' := by
  have key : ∀ {α β : Type} {p : P α} {q : P β} [Suf p] [Suf q], (∀ s r a, p s = some (r, a) →
      s.head? = some '<' ∧ r.length < s.length) →
      preceded indent03 (recognize (seq p q)) s = some (r, t) → t.head? = some '<' := by
    intro α β p q _ _ hpp h
    obtain ⟨s1, _, _, h1⟩ := preceded_some.1 h
    have happ := recognize_append h1
    obtain ⟨_, h2, _⟩ := recognize_some.1 h1
    obtain ⟨r2, h3, h4⟩ := seq_some.1 h2
    obtain ⟨h5, h6⟩ := hpp _ _ _ h3
    have := Suf.le (p := q) h4
    cases t with
    | nil => simp only [List.nil_append] at happ; subst happ; omega
    | cons c t => rw [← happ] at h5; exact h5
  have ktag : ∀ (u s r a : Str), tag ('<' :: u) s = some (r, a) →
      s.head? = some '<' ∧ r.length < s.length := by
    intro u s r a h
    obtain ⟨rfl, _⟩ := tag_some.1 h
    exact ⟨rfl, by simp; omega⟩
  have kchr : ∀ (s r : Str) (a : Char), chr '<' s = some (r, a) →
      s.head? = some '<' ∧ r.length < s.length := by
    intro s r a h
    obtain ⟨rfl, _⟩ := chr_some.1 h
    exact ⟨rfl, by simp⟩
  have krec : ∀ {α β : Type} {p : P α} {q : P β} [Suf p] [Suf q], (∀ s r a, p s = some (r, a) →
      s.head? = some '<' ∧ r.length < s.length) → ∀ s r a, recognize (seq p q) s = some (r, a) →
      s.head? = some '<' ∧ r.length < s.length := by
    intro α β p q _ _ hpp s r a h
    obtain ⟨_, h2, _⟩ := recognize_some.1 h
    obtain ⟨r2, h3, h4⟩ := seq_some.1 h2
    obtain ⟨h5, h6⟩ := hpp _ _ _ h3
    have := Suf.le (p := q) h4
    exact ⟨h5, by omega⟩
  unfold htmlBlockP at h
  rcases orElse_some.1 h with h | ⟨_, h⟩
  · exact key kchr h
  rcases orElse_some.1 h with h | ⟨_, h⟩
  · exact key (ktag _) h
  rcases orElse_some.1 h with h | ⟨_, h⟩
  · exact key (ktag _) h
  rcases orElse_some.1 h with h | ⟨_, h⟩
  · exact key (ktag _) h
  rcases orElse_some.1 h with h | ⟨_, h⟩
  · exact key (ktag _) h
  rcases orElse_some.1 h with h | ⟨_, h⟩
  · refine key ?_ h
    intro s r a h
    rcases orElse_some.1 h with h | ⟨_, h⟩
    · obtain ⟨_, h, _⟩ := value_some.1 h; exact ktag _ _ _ _ h
    · obtain ⟨_, h, _⟩ := value_some.1 h; exact kchr _ _ _ h
  · refine key ?_ h
    intro s r a h
    rcases orElse_some.1 h with h | ⟨_, h⟩
    · exact krec kchr _ _ _ h
    · exact krec (ktag _) _ _ _ h

theorem footnoteDefinitionP_good
    (hr : ∀ s r l, brec s = some (r, l) → l ≠ [] ∧ GoodBlocks cfg l)
    (hb : cfg.footnoteDefinition = .parse) {s r : Str} {b : Block}
    (h : footnoteDefinitionP brec s = some (r, b)) : BlockTreeOk cfg b := by
  unfold footnoteDefinitionP at h
  split at h
  · simp at h
  · rename_i s1 label e
    split at h
    · simp at h
    · split at h
      · simp at h
      · split at h
        · simp at h
        · rename_i e2
          simp only [Option.some.injEq, Prod.mk.injEq] at h
          obtain ⟨_, rfl⟩ := h
          obtain ⟨_, _, _, h1⟩ := preceded_some.1 e
          obtain ⟨_, _, _, h2⟩ := preceded_some.1 h1
          obtain ⟨_, _, h3, _⟩ := terminated_some.1 h2
          refine .mk ⟨hb, ?_, ?_⟩ (by simp [Block.directInlines]) (blocks0_good hr e2)
          · rintro rfl
            have h4 := Con.lt (p := recognize (many1 (noneOf cs!"]"))) h3
            have := congrArg List.length (recognize_append h3)
            simp at this; omega
          · intro hc
            exact Eats.recognize (f := fun c => c ≠ ']')
              (Eats.many1 (Eats.satisfy (by intro c hc; simpa using hc))) h3 _ hc rfl

theorem linkDefinitionP_good (hp : cfg.Plain) (hb : cfg.linkDefinition = .parse) {s r : Str}
    {b : Block} (h : linkDefinitionP x cfg s = some (r, b)) : BlockTreeOk cfg b := by
  obtain ⟨⟨l, d, t⟩, h1, rfl⟩ := mapP_some.1 h
  obtain ⟨_, _, h2, _⟩ := terminated_some.1 h1
  obtain ⟨_, h3, _⟩ := seq_some.1 h2
  obtain ⟨_, _, _, h4⟩ := preceded_some.1 h3
  have := linkLabel_good (fun _ _ => parseInlines1_good hp) h4
  exact .mk ⟨hb, this.1⟩ this.2 (by simp [Block.childBlocks])

theorem tableRow_good (hp : cfg.Plain) {s r : Str} {row : List (List Inline)}
    (h : tableRow x cfg s = some (r, row)) :
    row ≠ [] ∧ ∀ cell ∈ row, NoAdjacentTexts cell ∧ ∀ i ∈ cell, InlineTreeOk cfg i := by
  obtain ⟨_, _, h1, _⟩ := terminated_some.1 h
  obtain ⟨_, _, _, h2⟩ := preceded_some.1 h1
  obtain ⟨_, _, _, _, _, h3, _⟩ := delimited_some.1 h2
  obtain ⟨r1, a, l, h4, h5, rfl⟩ := separatedList1_some.1 h3
  have hcell : ∀ s r c, cellContent x cfg s = some (r, c) →
      NoAdjacentTexts c ∧ ∀ i ∈ c, InlineTreeOk cfg i := by
    intro s r c h
    obtain ⟨_, _, h6⟩ := mapOpt_some.1 h
    exact parseInlines0_good hp h6
  refine ⟨by simp, ?_⟩
  intro cell hcm
  rcases List.mem_cons.1 hcm with rfl | hcm
  · exact hcell _ _ _ h4
  · exact sepLoop_all h5 hcell cell hcm

theorem fitRow_length (n : Nat) (row : List (List Inline)) : (fitRow n row).length = n := by
  unfold fitRow
  split
  · simp; omega
  · split
    · simp; omega
    · omega

theorem fitRow_mem {n : Nat} {row : List (List Inline)} {c : List Inline} (h : c ∈ fitRow n row) :
    c ∈ row ∨ c = [.text []] := by
  unfold fitRow at h
  split at h
  · rcases List.mem_append.1 h with h | h
    · exact .inl h
    · exact .inr (List.mem_replicate.1 h).2
  · split at h
    · exact .inl (List.mem_of_mem_take h)
    · exact .inl h

theorem tableP_good (hp : cfg.Plain) (hb : cfg.table = .parse) {s r : Str} {b : Block}
    (h : tableP x cfg s = some (r, b)) : BlockTreeOk cfg b := by
  unfold tableP at h
  split at h
  · simp at h
  · rename_i s1 header e
    split at h
    · simp at h
    · rename_i s2 aligns e2
      split at h
      · simp at h
      · rename_i hlen
        split at h
        · simp at h
        · rename_i s3 rows e3
          simp only [Option.some.injEq, Prod.mk.injEq] at h
          obtain ⟨_, rfl⟩ := h
          have hlen' : header.length = aligns.length := by omega
          obtain ⟨hne, hcells⟩ := tableRow_good hp e
          have hrows := many0_all (Q := fun row : List (List Inline) =>
              row.length = header.length ∧
              ∀ cell ∈ row, NoAdjacentTexts cell ∧ ∀ i ∈ cell, InlineTreeOk cfg i) e3 (by
            intro s r row h
            obtain ⟨row', h1, rfl⟩ := mapP_some.1 h
            refine ⟨fitRow_length _ _, ?_⟩
            intro cell hcm
            rcases fitRow_mem hcm with hcm | rfl
            · exact (tableRow_good hp h1).2 cell hcm
            · refine ⟨noAdjacentTexts_single _, ?_⟩
              intro i hi
              simp only [List.mem_cons, List.not_mem_nil, or_false] at hi
              subst hi
              exact inlineTreeOk_text _)
          refine .mk ⟨hb, by simp, ?_, ?_⟩ ?_ (by simp [Block.childBlocks])
          · intro e; rw [e] at hlen'
            exact hne (List.length_eq_zero_iff.1 hlen')
          · intro row hrow
            rcases List.mem_cons.1 hrow with rfl | hrow
            · exact ⟨hlen', fun c hc => (hcells c hc).1⟩
            · exact ⟨(hrows row hrow).1.trans hlen', fun c hc => ((hrows row hrow).2 c hc).1⟩
          · intro i hi
            simp only [Block.directInlines] at hi
            obtain ⟨cell, hcm, hi'⟩ := List.mem_flatten.1 hi
            obtain ⟨row, hrow, hcm'⟩ := List.mem_flatten.1 hcm
            rcases List.mem_cons.1 hrow with rfl | hrow
            · exact (hcells cell hcm').2 i hi'
            · exact ((hrows row hrow).2 cell hcm').2 i hi'

theorem blockAlt_good (hp : cfg.Plain)
    (hr : ∀ s r l, brec s = some (r, l) → l ≠ [] ∧ GoodBlocks cfg l) {s r : Str} {l : List Block}
    (h : blockAlt x cfg brec s = some (r, l)) : l ≠ [] ∧ GoodBlocks cfg l := by
  have emp : cfg.SkipsBlock → ([Block.empty] ≠ [] ∧ GoodBlocks cfg [Block.empty]) := by
    intro hs
    refine ⟨by simp, ?_⟩
    intro i hi
    simp only [List.mem_cons, List.not_mem_nil, or_false] at hi
    subst hi
    exact .mk hs (by simp [Block.directInlines]) (by simp [Block.childBlocks])
  have one : ∀ {b : Block}, BlockTreeOk cfg b → ([b] ≠ [] ∧ GoodBlocks cfg [b]) := by
    intro i hi
    exact ⟨by simp, by simpa [GoodBlocks] using hi⟩
  have cond : ∀ {b : Behavior Block} {p : P Block}, b.Plain → (b = .skip → cfg.SkipsBlock) →
      (b = .parse → ∀ v, p s = some (r, v) → BlockTreeOk cfg v) →
      conditionalBlock b p s = some (r, l) → l ≠ [] ∧ GoodBlocks cfg l := by
    intro b p hb hs hv h
    rcases conditional_some hb h with ⟨hb', v, h1, rfl⟩ | ⟨hb', rfl⟩
    · exact one (hv hb' v h1)
    · exact emp (hs hb')
  unfold blockAlt at h
  rcases orElse_some.1 h with h | ⟨_, h⟩
  · exact cond hp.codeBlock (fun h => by simp [PConfig.SkipsBlock, h])
      (fun hb v hv => codeBlockP_good hb hv) h
  rcases orElse_some.1 h with h | ⟨_, h⟩
  · exact cond hp.headingV1 (fun h => by simp [PConfig.SkipsBlock, h])
      (fun hb v hv => headingV1_good hp hb hv) h
  rcases orElse_some.1 h with h | ⟨_, h⟩
  · exact cond hp.headingV2 (fun h => by simp [PConfig.SkipsBlock, h])
      (fun hb v hv => headingV2OrParagraph_good hp hb hv) h
  rcases orElse_some.1 h with h | ⟨_, h⟩
  · refine cond hp.thematicBreak (fun h => by simp [PConfig.SkipsBlock, h]) (fun hb v hv => ?_) h
    obtain ⟨_, _, rfl⟩ := value_some.1 hv
    exact .mk hb (by simp [Block.directInlines]) (by simp [Block.childBlocks])
  rcases orElse_some.1 h with h | ⟨_, h⟩
  · have hpl := hp.githubAlert
    cases hb : cfg.githubAlert with
    | ignore => simp [conditionalBlockVec, hb, failP] at h
    | skip =>
      rw [hb] at h
      obtain ⟨_, _, rfl⟩ := value_some.1 h
      exact emp (by simp [PConfig.SkipsBlock, hb])
    | parse => rw [hb] at h; exact githubAlertP_good hr hb h
    | map => rw [hb] at hpl; exact hpl.elim
    | flatMap => rw [hb] at hpl; exact hpl.elim
  rcases orElse_some.1 h with h | ⟨_, h⟩
  · exact cond hp.blockquote (fun h => by simp [PConfig.SkipsBlock, h])
      (fun hb v hv => blockquoteP_good hr hb hv) h
  rcases orElse_some.1 h with h | ⟨_, h⟩
  · exact cond hp.list (fun h => by simp [PConfig.SkipsBlock, h])
      (fun hb v hv => listP_good hr hb hv) h
  rcases orElse_some.1 h with h | ⟨_, h⟩
  · refine cond hp.htmlBlock (fun h => by simp [PConfig.SkipsBlock, h]) (fun hb v hv => ?_) h
    obtain ⟨t, h1, rfl⟩ := mapP_some.1 hv
    exact .mk ⟨hb, htmlBlockP_head h1⟩ (by simp [Block.directInlines]) (by simp [Block.childBlocks])
  rcases orElse_some.1 h with h | ⟨_, h⟩
  · exact cond hp.footnoteDefinition (fun h => by simp [PConfig.SkipsBlock, h])
      (fun hb v hv => footnoteDefinitionP_good hr hb hv) h
  rcases orElse_some.1 h with h | ⟨_, h⟩
  · exact cond hp.linkDefinition (fun h => by simp [PConfig.SkipsBlock, h])
      (fun hb v hv => linkDefinitionP_good hp hb hv) h
  rcases orElse_some.1 h with h | ⟨_, h⟩
  · exact cond hp.table (fun h => by simp [PConfig.SkipsBlock, h])
      (fun hb v hv => tableP_good hp hb hv) h
  rcases orElse_some.1 h with h | ⟨_, h⟩
  · rw [hp.customBlock] at h; simp [customParser, failP] at h
  · refine cond hp.paragraph (fun h => by simp [PConfig.SkipsBlock, h]) (fun hb v hv => ?_) h
    obtain ⟨l, h1, rfl⟩ := mapP_some.1 hv
    have := paragraphP_good hp h1
    exact .mk ⟨.inr hb, this.1⟩ this.2 (by simp [Block.childBlocks])

end

theorem blockF_good (hp : cfg.Plain) : ∀ n s r l, blockF x cfg n s = some (r, l) →
    l ≠ [] ∧ GoodBlocks cfg l := by
  intro n
  induction n with
  | zero => intro s r l h; simp [blockF, failP] at h
  | succ n ih =>
    intro s r l h
    unfold blockF blockStep at h
    obtain ⟨_, _, _, h1⟩ := preceded_some.1 h
    exact blockAlt_good hp ih h1

/-- Every block of a parsed document is `BlockOk`, every inline is `InlineOk`. -/
theorem parse_ok (hp : cfg.Plain) {s : Str} {d : Document} (h : parseMarkdown x cfg s = some d) :
    (∀ b, d.HasBlock b → BlockOk cfg b) ∧ (∀ i, d.HasInline i → InlineOk cfg i) := by
  have key : GoodBlocks cfg d.blocks := by
    unfold parseMarkdown parseMarkdownF at h
    split at h
    · rename_i bs e
      simp only [Option.some.injEq] at h
      subst h
      obtain ⟨_, _, h1, _⟩ := terminated_some.1 e
      have hall := many0_all (Q := fun l => l ≠ [] ∧ GoodBlocks cfg l) h1 (blockF_good hp _)
      intro b hb
      obtain ⟨l, hl, hb⟩ := List.mem_flatten.1 hb
      exact (hall l hl).2 b hb
    · simp at h
  constructor
  · rintro b ⟨c, hc, hw⟩
    exact (key c hc b hw).1
  · rintro i ⟨b, ⟨c, hc, hw⟩, j, hj, hij⟩
    exact (key c hc b hw).2 j hj i hij

end
end Verif
