import Verif.IndifferentProps
import Verif.ParserProps
/-!
# C100: a construct is read only from a text that has its characters

A document contains a construct, at any depth, only if the characters needed to write it are in the text.  (By C77 the
configuration in which the construct is ignored gives the same document otherwise, and by C38 there is none in that.)
-/
set_option autoImplicit false
namespace Verif
open Nom

section
variable {x : PExt} {cfg : PConfig} {s : Str} {d : Document}

theorem not_lacks {l : Str} : ¬ Lacks s l ↔ ∀ c ∈ l, c ∈ s := by
  constructor
  · intro h c hc
    exact Classical.byContradiction fun hn => h ⟨c, hc, hn⟩
  · rintro h ⟨c, hc, hn⟩
    exact hn (h c hc)

theorem plain_ok (hp : cfg.Plain) : cfg.CustomOk := by
  constructor <;> unfold customParser
  · rw [hp.customInline]; infer_instance
  · rw [hp.customBlock]; infer_instance

/-- A kind that is missing if it is ignored needs its characters. -/
theorem needs {cfg' : PConfig} {Q C : Prop} (hp : cfg.Plain) (h : parseMarkdown x cfg s = some d)
    (hi : ¬ C → Indifferent s cfg cfg') (hq : parseMarkdown x cfg' s = some d → ¬ Q) (q : Q) : C :=
  Classical.byContradiction fun hc => hq (by rw [← C77_indifferent (plain_ok hp) (hi hc)]; exact h) q

theorem Indifferent.refl : Indifferent s cfg cfg := by
  constructor <;> first | rfl | exact .inl rfl | exact fun _ _ => rfl

/-- **C100**, blocks. -/
theorem C100_blocks (hp : cfg.Plain) (h : parseMarkdown x cfg s = some d) :
    (∀ bs, d.HasBlock (.blockQuote bs) → '>' ∈ s) ∧
    (∀ t bs, d.HasBlock (.githubAlert t bs) → '>' ∈ s) ∧
    (∀ n c, d.HasBlock (.heading (.atx n) c) → '#' ∈ s) ∧
    (d.HasBlock .thematicBreak → '-' ∈ s ∨ '_' ∈ s ∨ '*' ∈ s) ∧
    (∀ k items, d.HasBlock (.list k items) →
      '-' ∈ s ∨ '+' ∈ s ∨ '*' ∈ s ∨ (('.' ∈ s ∨ ')' ∈ s) ∧ ∃ c ∈ s, isDigit c = true)) ∧
    (∀ t, d.HasBlock (.htmlBlock t) → '<' ∈ s) ∧
    (∀ l bs, d.HasBlock (.footnoteDefinition l bs) → ∀ c ∈ cs!"[^]:", c ∈ s) ∧
    (∀ l u t, d.HasBlock (.definition l u t) → ∀ c ∈ cs!"[]:", c ∈ s) ∧
    (∀ r a, d.HasBlock (.table r a) → ∀ c ∈ cs!"|-", c ∈ s) := by
  have e := @Indifferent.refl cfg s
  refine ⟨?_, ?_, ?_, ?_, ?_, ?_, ?_, ?_, ?_⟩
  · intro bs
    refine needs (cfg' := { cfg with blockquote := .ignore }) hp h (fun hc => { e with blockquote := .inr hc }) fun h' => ?_
    exact (C38_blocks_removed (cfg := { cfg with blockquote := .ignore }) { hp with blockquote := trivial } h').2.2.2.2.1 (by simp) bs
  · intro t bs
    refine needs (cfg' := { cfg with githubAlert := .ignore }) hp h (fun hc => { e with githubAlert := .inr hc }) fun h' => ?_
    exact (C38_blocks_removed (cfg := { cfg with githubAlert := .ignore }) { hp with githubAlert := trivial } h').2.2.2.2.2.1 (by simp) t bs
  · intro n c
    refine needs (cfg' := { cfg with headingV1 := .ignore }) hp h (fun hc => { e with headingV1 := .inr hc }) fun h' => ?_
    exact (C38_blocks_removed (cfg := { cfg with headingV1 := .ignore }) { hp with headingV1 := trivial } h').1 (by simp) n c
  · refine needs (cfg' := { cfg with thematicBreak := .ignore }) hp h
      (fun hc => { e with thematicBreak := .inr (by simpa only [not_or] using hc) }) fun h' => ?_
    exact (C38_blocks_removed (cfg := { cfg with thematicBreak := .ignore }) { hp with thematicBreak := trivial } h').2.2.2.1 (by simp)
  · intro k items
    refine needs (cfg' := { cfg with list := .ignore }) hp h (fun hc => { e with list := .inr ?_ }) fun h' => ?_
    · simp only [not_or] at hc
      refine ⟨hc.1, hc.2.1, hc.2.2.1, ?_⟩
      by_cases hm : '.' ∈ s ∨ ')' ∈ s
      · refine .inr fun c hcs => ?_
        cases hd : isDigit c with
        | false => rfl
        | true => exact absurd ⟨hm, c, hcs, hd⟩ hc.2.2.2
      · exact .inl (not_or.1 hm)
    · exact (C38_blocks_removed (cfg := { cfg with list := .ignore }) { hp with list := trivial } h').2.2.2.2.2.2.1 (by simp) k items
  · intro t
    refine needs (cfg' := { cfg with htmlBlock := .ignore }) hp h (fun hc => { e with htmlBlock := .inr hc }) fun h' => ?_
    exact (C38_blocks_removed (cfg := { cfg with htmlBlock := .ignore }) { hp with htmlBlock := trivial } h').2.2.2.2.2.2.2.2.1 (by simp) t
  · intro l bs
    rw [← not_lacks]
    refine needs (cfg' := { cfg with footnoteDefinition := .ignore }) hp h
      (fun hc => { e with footnoteDefinition := .inr (Classical.not_not.1 hc) }) fun h' => ?_
    exact (C38_blocks_removed (cfg := { cfg with footnoteDefinition := .ignore }) { hp with footnoteDefinition := trivial } h').2.2.2.2.2.2.2.2.2.2.2 (by simp) l bs
  · intro l u t
    rw [← not_lacks]
    refine needs (cfg' := { cfg with linkDefinition := .ignore }) hp h
      (fun hc => { e with linkDefinition := .inr (Classical.not_not.1 hc) }) fun h' => ?_
    exact (C38_blocks_removed (cfg := { cfg with linkDefinition := .ignore }) { hp with linkDefinition := trivial } h').2.2.2.2.2.2.2.2.2.1 (by simp) l u t
  · intro r a
    rw [← not_lacks]
    refine needs (cfg' := { cfg with table := .ignore }) hp h
      (fun hc => { e with table := .inr (Classical.not_not.1 hc) }) fun h' => ?_
    exact (C38_blocks_removed (cfg := { cfg with table := .ignore }) { hp with table := trivial } h').2.2.2.2.2.2.2.2.2.2.1 (by simp) r a

/-- **C100**, inlines. -/
theorem C100_inlines (hp : cfg.Plain) (h : parseMarkdown x cfg s = some d) :
    (∀ l, d.HasInline (.autolink l) → ∀ c ∈ cs!"<>", c ∈ s) ∧
    (∀ u t c, d.HasInline (.link u t c) → ∀ c ∈ cs!"[]()", c ∈ s) ∧
    (∀ l, d.HasInline (.footnoteReference l) → ∀ c ∈ cs!"[^]", c ∈ s) ∧
    (∀ l t, d.HasInline (.linkReference l t) → ∀ c ∈ cs!"[]", c ∈ s) ∧
    (∀ u t a, d.HasInline (.image u t a) → ∀ c ∈ cs!"![]()", c ∈ s) ∧
    (∀ t, d.HasInline (.code t) → '`' ∈ s) ∧
    (∀ c, d.HasInline (.emphasis c) → '*' ∈ s ∨ '_' ∈ s) ∧
    (∀ c, d.HasInline (.strong c) → '*' ∈ s ∨ '_' ∈ s) ∧
    (∀ c, d.HasInline (.strikethrough c) → '~' ∈ s) := by
  have e := @Indifferent.refl cfg s
  refine ⟨?_, ?_, ?_, ?_, ?_, ?_, ?_, ?_, ?_⟩
  · intro l
    rw [← not_lacks]
    refine needs (cfg' := { cfg with autolink := .ignore }) hp h
      (fun hc => { e with autolink := .inr (Classical.not_not.1 hc) }) fun h' => ?_
    exact (C38_inlines_removed (cfg := { cfg with autolink := .ignore }) { hp with autolink := trivial } h').1 (by simp) l
  · intro u t c
    rw [← not_lacks]
    refine needs (cfg' := { cfg with link := .ignore }) hp h
      (fun hc => { e with link := .inr (Classical.not_not.1 hc) }) fun h' => ?_
    exact (C38_inlines_removed (cfg := { cfg with link := .ignore }) { hp with link := trivial } h').2.1 (by simp) u t c
  · intro l
    rw [← not_lacks]
    refine needs (cfg' := { cfg with footnoteReference := .ignore }) hp h
      (fun hc => { e with footnoteReference := .inr (Classical.not_not.1 hc) }) fun h' => ?_
    exact (C38_inlines_removed (cfg := { cfg with footnoteReference := .ignore }) { hp with footnoteReference := trivial } h').2.2.1 (by simp) l
  · intro l t
    rw [← not_lacks]
    refine needs (cfg' := { cfg with referenceLink := .ignore }) hp h
      (fun hc => { e with referenceLink := .inr (Classical.not_not.1 hc) }) fun h' => ?_
    exact (C38_inlines_removed (cfg := { cfg with referenceLink := .ignore }) { hp with referenceLink := trivial } h').2.2.2.1 (by simp) l t
  · intro u t a
    rw [← not_lacks]
    refine needs (cfg' := { cfg with image := .ignore }) hp h
      (fun hc => { e with image := .inr (Classical.not_not.1 hc) }) fun h' => ?_
    exact (C38_inlines_removed (cfg := { cfg with image := .ignore }) { hp with image := trivial } h').2.2.2.2.2.1 (by simp) u t a
  · intro t
    refine needs (cfg' := { cfg with codeSpan := .ignore }) hp h (fun hc => { e with codeSpan := .inr hc }) fun h' => ?_
    exact (C38_inlines_removed (cfg := { cfg with codeSpan := .ignore }) { hp with codeSpan := trivial } h').2.2.2.2.2.2.1 (by simp) t
  · intro c
    refine needs (cfg' := { cfg with emphasis := .ignore }) hp h
      (fun hc => { e with emphasis := .inr (not_or.1 hc) }) fun h' => ?_
    exact ((C38_inlines_removed (cfg := { cfg with emphasis := .ignore }) { hp with emphasis := trivial } h').2.2.2.2.2.2.2.1 (by simp) c).1
  · intro c
    refine needs (cfg' := { cfg with emphasis := .ignore }) hp h
      (fun hc => { e with emphasis := .inr (not_or.1 hc) }) fun h' => ?_
    exact ((C38_inlines_removed (cfg := { cfg with emphasis := .ignore }) { hp with emphasis := trivial } h').2.2.2.2.2.2.2.1 (by simp) c).2
  · intro c
    refine needs (cfg' := { cfg with strikethrough := .ignore }) hp h
      (fun hc => { e with strikethrough := .inr hc }) fun h' => ?_
    exact (C38_inlines_removed (cfg := { cfg with strikethrough := .ignore }) { hp with strikethrough := trivial } h').2.2.2.2.2.2.2.2 (by simp) c

/-- What can be written without any of the characters of the constructs. -/
def Block.Ordinary : Block → Prop
  | .paragraph _ => True
  | .heading (.setext _) _ => True
  | .codeBlock _ _ => True
  | .empty => True
  | _ => False

/-- Text, line breaks and what replaces skipped elements. -/
def Inline.Ordinary : Inline → Prop
  | .text _ => True
  | .lineBreak => True
  | .empty => True
  | _ => False

/-- **C100.** A text without these characters, and without digits (or without `.` and `)`), is read as paragraphs, underlined
headings and code blocks of texts and line breaks, whatever the configuration. -/
theorem C100_ordinary (hp : cfg.Plain) (h : parseMarkdown x cfg s = some d) (hs : ∀ c ∈ s, c ∉ cs!">#-_*+<[`~")
    (hn : ('.' ∉ s ∧ ')' ∉ s) ∨ ∀ c ∈ s, isDigit c = false) :
    (∀ b, d.HasBlock b → b.Ordinary) ∧ ∀ i, d.HasInline i → i.Ordinary := by
  have n : ∀ {c : Char}, c ∈ cs!">#-_*+<[`~" → c ∉ s := fun hc hm => hs _ hm hc
  obtain ⟨b1, b2, b3, b4, b5, b6, b7, b8, b9⟩ := C100_blocks hp h
  obtain ⟨i1, i2, i3, i4, i5, i6, i7, i8, i9⟩ := C100_inlines hp h
  constructor
  · intro b hb
    cases b with
    | blockQuote bs => exact absurd (b1 _ hb) (n (by decide))
    | githubAlert t bs => exact absurd (b2 _ _ hb) (n (by decide))
    | heading k c =>
      cases k with
      | atx m => exact absurd (b3 _ _ hb) (n (by decide))
      | setext v => trivial
    | thematicBreak =>
      rcases b4 hb with h | h | h <;> exact absurd h (n (by decide))
    | list k items =>
      rcases b5 _ _ hb with h | h | h | ⟨h, c, hc, hd⟩
      · exact absurd h (n (by decide))
      · exact absurd h (n (by decide))
      · exact absurd h (n (by decide))
      · rcases hn with hn | hn
        · rcases h with h | h
          · exact absurd h hn.1
          · exact absurd h hn.2
        · rw [hn c hc] at hd; cases hd
    | htmlBlock t => exact absurd (b6 _ hb) (n (by decide))
    | footnoteDefinition l bs => exact absurd (b7 _ _ hb '[' (by decide)) (n (by decide))
    | definition l u t => exact absurd (b8 _ _ _ hb '[' (by decide)) (n (by decide))
    | table r a => exact absurd (b9 _ _ hb '-' (by decide)) (n (by decide))
    | paragraph c => trivial
    | codeBlock k t => trivial
    | empty => trivial
  · intro i hi
    -- raw inline HTML is never read
    have hh := (parse_ok hp h).2 i hi
    cases i with
    | autolink l => exact absurd (i1 _ hi '<' (by decide)) (n (by decide))
    | link u t c => exact absurd (i2 _ _ _ hi '[' (by decide)) (n (by decide))
    | footnoteReference l => exact absurd (i3 _ hi '[' (by decide)) (n (by decide))
    | linkReference l t => exact absurd (i4 _ _ hi '[' (by decide)) (n (by decide))
    | image u t a => exact absurd (i5 _ _ _ hi '[' (by decide)) (n (by decide))
    | code t => exact absurd (i6 _ hi) (n (by decide))
    | emphasis c => rcases i7 _ hi with h | h <;> exact absurd h (n (by decide))
    | strong c => rcases i8 _ hi with h | h <;> exact absurd h (n (by decide))
    | strikethrough c => exact absurd (i9 _ hi) (n (by decide))
    | html t => exact hh.elim
    | text t => trivial
    | lineBreak => trivial
    | empty => trivial

end

/-- **C100**, a case: a text without any of the characters. -/
theorem C100_example : parseMarkdown PExt.ascii (PConfig.default fun _ => none) cs!"Dear (all), it is late!  \nBye\n===\n\n    x = y" =
    some ⟨[.heading (.setext .level1) [.text cs!"Dear (all), it is late!", .lineBreak, .text cs!"Bye"],
      .codeBlock .indented cs!"x = y"]⟩ ∧
    ∀ c ∈ cs!"Dear (all), it is late!  \nBye\n===\n\n    x = y", c ∉ cs!">#-_*+<[`~" ∧ isDigit c = false := by
  decide +kernel

end Verif
