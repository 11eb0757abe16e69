import Verif.Parts
import Verif.TransformProps

/-!
# C114: the Markdown text of a document block by block, and of a filtered document
-/
set_option autoImplicit false
namespace Verif

/-! ## Specification -/

/-- The texts of blocks, one after another, with what stands between blocks. -/
def stackMarkdown (cfg : Md.Config) (f : Block → Str) : List Block → Str
  | [] => []
  | b :: l => f b ++ (l.map fun c => betweenParts cfg c ++ f c).flatten

namespace FilterM

theorem stack_snoc (cfg : Md.Config) (f : Block → Str) {l : List Block} (hl : l ≠ []) (c : Block) :
    stackMarkdown cfg f (l ++ [c]) = stackMarkdown cfg f l ++ betweenParts cfg c ++ f c := by
  cases l with
  | nil => exact absurd rfl hl
  | cons b l => simp [stackMarkdown]

theorem between_end (cfg : Md.Config) (c : Block) : ∃ u, betweenParts cfg c = u ++ ['\n'] := by
  cases c
  case list k is =>
    rcases h : cfg.emptyLineBeforeList with _ | _
    · exact ⟨[], by simp [betweenParts, h]⟩
    · exact ⟨['\n'], by simp [betweenParts, h]⟩
  all_goals exact ⟨['\n'], rfl⟩

/-- What ends in a blank after something that does not end in one. -/
theorem blank_suffix {u v : Str} (h : [' '] <:+ u ++ v) : [' '] <:+ v ∨ (v = [] ∧ [' '] <:+ u) := by
  obtain ⟨w, h⟩ := h
  rcases List.eq_nil_or_concat v with e | ⟨v', c, e⟩
  · subst e
    exact .inr ⟨rfl, w, by simpa using h⟩
  · refine .inl ⟨v', ?_⟩
    subst e
    rw [List.concat_eq_append, ← List.append_assoc] at h
    have := List.append_inj_right' h rfl
    rw [this, List.concat_eq_append]

theorem stack_blank (cfg : Md.Config) (f : Block → Str) {l : List Block} (h : ∀ b ∈ l, ¬ [' '] <:+ f b) :
    ¬ [' '] <:+ stackMarkdown cfg f l := by
  rcases List.eq_nil_or_concat l with e | ⟨l', c, e⟩
  · subst e
    rintro ⟨w, hw⟩
    simp [stackMarkdown] at hw
  · rw [List.concat_eq_append] at e
    subst e
    have hc := h c (by simp)
    intro hb
    by_cases hl : l' = []
    · subst hl
      simp [stackMarkdown] at hb
      exact hc hb
    · rw [stack_snoc cfg f hl] at hb
      rcases blank_suffix hb with hb | ⟨_, hb⟩
      · exact hc hb
      · obtain ⟨u, hu⟩ := between_end cfg c
        rw [hu, ← List.append_assoc] at hb
        rcases blank_suffix hb with ⟨w, hw⟩ | ⟨hw, _⟩
        · rcases w with _ | ⟨a, _ | ⟨b, w⟩⟩ <;> simp at hw
        · cases hw

theorem rev_ind {α : Type} {P : List α → Prop} (h0 : P []) (h1 : ∀ l a, P l → P (l ++ [a])) : ∀ l, P l := by
  intro l
  have : ∀ l : List α, P l.reverse := by
    intro l
    induction l with
    | nil => exact h0
    | cons a l ih => rw [List.reverse_cons]; exact h1 _ _ ih
  have := this l.reverse
  rwa [List.reverse_reverse] at this

end FilterM

/-- **C114**: when the Markdown text of every block of a document, printed on its own, does not end with a blank, the Markdown
text of the document is the texts of its blocks, one after another, with an empty line (or, before a list, a line break, if the
configuration says so) between them. -/
theorem C114_blocks {x : Md.Ext} {cfg : Md.Config} {f : Block → Str} (l : List Block)
    (hf : ∀ b ∈ l, Md.renderMarkdown x cfg ⟨[b]⟩ = some (f b)) (hb : ∀ b ∈ l, ¬ [' '] <:+ f b) :
    Md.renderMarkdown x cfg ⟨l⟩ = some (stackMarkdown cfg f l) := by
  revert hf hb
  refine FilterM.rev_ind (P := fun l => (∀ b ∈ l, Md.renderMarkdown x cfg ⟨[b]⟩ = some (f b)) → (∀ b ∈ l, ¬ [' '] <:+ f b) →
    Md.renderMarkdown x cfg ⟨l⟩ = some (stackMarkdown cfg f l)) ?_ ?_ l
  · intro _ _
    rw [Md.Exact.C86_exact]
    exact ⟨trivial, rfl⟩
  · intro l c ih hf hb
    by_cases hl : l = []
    · subst hl
      rw [List.nil_append, hf c (by simp)]
      simp [stackMarkdown]
    · have ih := ih (fun b h => hf b (by simp [h])) (fun b h => hb b (by simp [h]))
      have hns := FilterM.stack_blank cfg f (l := l) (fun b h => hb b (by simp [h]))
      rw [C97_markdown hl ih (hf c (by simp)) hns, FilterM.stack_snoc cfg f hl]

/-- **C114**, filtering: taking blocks out of the document takes their texts, and what stands before them, out of the text and
changes nothing else: whatever the condition is. -/
theorem C114_filter {x : Md.Ext} {cfg : Md.Config} {f : Block → Str} (d : Document) (keep : Block → Bool)
    (hf : ∀ b ∈ d.blocks, Md.renderMarkdown x cfg ⟨[b]⟩ = some (f b)) (hb : ∀ b ∈ d.blocks, ¬ [' '] <:+ f b) :
    Md.renderMarkdown x cfg d = some (stackMarkdown cfg f d.blocks) ∧
    Md.renderMarkdown x cfg (d.filterBlocks keep) = some (stackMarkdown cfg f (d.blocks.filter keep)) := by
  refine ⟨C114_blocks d.blocks hf hb, C114_blocks (d.blocks.filter keep) (fun b h => hf b ?_) (fun b h => hb b ?_)⟩ <;>
    exact (List.mem_filter.mp h).1

/-- **C114**, removal of empty paragraphs. -/
theorem C114_empty_paragraphs {x : Md.Ext} {cfg : Md.Config} {f : Block → Str} (d : Document)
    (hf : ∀ b ∈ d.blocks, Md.renderMarkdown x cfg ⟨[b]⟩ = some (f b)) (hb : ∀ b ∈ d.blocks, ¬ [' '] <:+ f b) :
    (Block.paragraph [] ∈ d.blocks → f (.paragraph []) = []) ∧
    Md.renderMarkdown x cfg d.removeEmptyParagraphs =
      some (stackMarkdown cfg f (d.blocks.filter fun b => decide (b ≠ .paragraph []))) := by
  constructor
  · intro h
    have := hf _ h
    rw [Md.Exact.C86_exact] at this
    exact this.2
  · rw [(C19_remove_empty_paragraphs d).1]
    exact (C114_filter d _ hf hb).2

/-- **C114**, which documents have a Markdown text: those whose every block has one; so a document keeps having one when blocks
are taken out of it, put elsewhere or repeated. -/
theorem C114_every (x : Md.Ext) (cfg : Md.Config) (d : Document) :
    ((∃ s, Md.renderMarkdown x cfg d = some s) ↔ ∀ b ∈ d.blocks, ∃ t, Md.renderMarkdown x cfg ⟨[b]⟩ = some t) ∧
    ∀ e : Document, (∀ b ∈ e.blocks, b ∈ d.blocks) → (∃ s, Md.renderMarkdown x cfg d = some s) → ∃ s, Md.renderMarkdown x cfg e = some s := by
  have key : ∀ d : Document, (∃ s, Md.renderMarkdown x cfg d = some s) ↔ ∀ b ∈ d.blocks, ∃ t, Md.renderMarkdown x cfg ⟨[b]⟩ = some t := by
    rintro ⟨l⟩
    simp only [Md.Exact.C86_exact]
    constructor
    · rintro ⟨_, h, rfl⟩ b hb
      refine ⟨_, ?_, rfl⟩
      try dsimp only at h hb ⊢
      induction l with
      | nil => cases hb
      | cons c l ih =>
        rw [Md.Spec.PrintableL] at h
        rcases List.mem_cons.mp hb with e | hb
        · subst e
          rw [Md.Spec.PrintableL]
          exact ⟨h.1, trivial⟩
        · exact ih h.2 hb
    · intro h
      refine ⟨_, ?_, rfl⟩
      try dsimp only at h ⊢
      induction l with
      | nil => trivial
      | cons c l ih =>
        rw [Md.Spec.PrintableL]
        obtain ⟨_, hc, _⟩ := h c (by simp)
        rw [Md.Spec.PrintableL] at hc
        exact ⟨hc.1, ih fun b hb => h b (by simp [hb])⟩
  refine ⟨key d, fun e he hd => ?_⟩
  rw [key] at hd ⊢
  exact fun b hb => hd b (he b hb)

/-- **C114**, a document that meets the hypotheses. -/
theorem C114_example :
    let d : Document := ⟨[.paragraph [.text cs!"a"], .paragraph [], .blockQuote [.paragraph [.text cs!"q"]],
      .list (.bullet .dash) [⟨none, [.paragraph [.text cs!"i"]]⟩]]⟩
    let keep : Block → Bool := fun | .blockQuote _ => false | _ => true
    let f : Block → Str := fun b => (Md.renderMarkdown Md.Ext.ascii Md.Config.default ⟨[b]⟩).getD []
    (∀ b ∈ d.blocks, Md.renderMarkdown Md.Ext.ascii Md.Config.default ⟨[b]⟩ = some (f b)) ∧ (∀ b ∈ d.blocks, ¬ [' '] <:+ f b) ∧
    Md.renderMarkdown Md.Ext.ascii Md.Config.default d = some cs!"a\n\n\n\n> q\n\n - i" ∧
    Md.renderMarkdown Md.Ext.ascii Md.Config.default (d.filterBlocks keep) = some cs!"a\n\n\n\n - i" ∧
    Md.renderMarkdown Md.Ext.ascii Md.Config.default d.removeEmptyParagraphs = some cs!"a\n\n> q\n\n - i" := by
  decide +kernel

/-- **C114**, why the condition: the blanks of an indented empty line at the end are not in the text if another block follows. -/
theorem C114_needed :
    let l : Block := .list (.bullet .dash) [⟨none, [.paragraph [.text cs!"a"], .paragraph []]⟩]
    Md.renderMarkdown Md.Ext.ascii Md.Config.default ⟨[l]⟩ = some cs!" - a\n   \n   " ∧
    Md.renderMarkdown Md.Ext.ascii Md.Config.default ⟨[l, .paragraph [.text cs!"b"]]⟩ = some cs!" - a\n   \n\n\nb" := by
  decide +kernel

end Verif
