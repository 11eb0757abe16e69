import Verif.Parts
import Verif.FormatLatex
import Verif.TransformProps
/-!
# C113: what remains of the output after blocks are filtered out
-/
set_option autoImplicit false
namespace Verif

/-! ## Specification -/

/-- Nothing refers to what is in the block, and it counts no footnotes: no definitions and no footnote references at any
depth. -/
def Block.Unneeded (b : Block) : Prop :=
  ∀ c ∈ b.pre, (∀ l dest title, c ≠ .definition l dest title) ∧ (∀ l bs, c ≠ .footnoteDefinition l bs) ∧
    ∀ l, .footnoteReference l ∉ Inline.preL c.directInlines

namespace FilterB

theorem preL_flatMap (l : List Block) : Block.preL l = l.flatMap Block.pre := by
  induction l with
  | nil => rfl
  | cons b l ih => rw [Block.preL, ih, List.flatMap_cons]

theorem flatMap_filter {α β : Type} (g : α → List β) (keep : α → Bool) (l : List α) (h : ∀ a ∈ l, keep a = false → g a = []) :
    (l.filter keep).flatMap g = l.flatMap g := by
  induction l with
  | nil => rfl
  | cons a l ih =>
    have ih := ih fun b hb => h b (List.mem_cons_of_mem _ hb)
    cases e : keep a with
    | true => rw [List.filter_cons, e, if_pos rfl, List.flatMap_cons, List.flatMap_cons, ih]
    | false =>
      rw [List.filter_cons, e, if_neg (by simp), List.flatMap_cons, h a (List.mem_cons_self ..) e, ih, List.nil_append]

theorem mem_preL {i : Inline} : ∀ {l : List Inline}, i ∈ l → i ∈ Inline.preL l := by
  intro l
  induction l with
  | nil => intro h; cases h
  | cons j l ih =>
    intro h
    rw [Inline.preL, List.mem_append]
    rcases List.mem_cons.1 h with rfl | h
    · left; cases i <;> simp [Inline.pre]
    · exact Or.inr (ih h)

section
variable {d : Document} {keep : Block → Bool} (hk : ∀ b ∈ d.blocks, keep b = false → b.Unneeded)

include hk in
theorem html_number : Html.footnoteNumber (d.filterBlocks keep) = Html.footnoteNumber d := by
  have e : Html.directRefs (d.filterBlocks keep) = Html.directRefs d := by
    unfold Html.directRefs Document.allBlocks Document.filterBlocks
    dsimp only
    rw [preL_flatMap, preL_flatMap, List.flatMap_assoc, List.flatMap_assoc]
    refine flatMap_filter _ _ _ fun b hb hf => ?_
    rw [List.flatMap_eq_nil_iff]
    intro c hc
    rw [List.filterMap_eq_nil_iff]
    intro i hi
    have := (hk b hb hf c hc).2.2
    cases i
    case footnoteReference l => exact absurd (mem_preL hi) (this l)
    all_goals rfl
  funext l
  unfold Html.footnoteNumber
  rw [e]

include hk in
theorem html_defs : Html.lastDefinition (d.filterBlocks keep) = Html.lastDefinition d := by
  have e : Html.linkDefinitions (d.filterBlocks keep) = Html.linkDefinitions d := by
    unfold Html.linkDefinitions Document.allBlocks Document.filterBlocks
    dsimp only
    rw [preL_flatMap, preL_flatMap, List.filterMap_flatMap, List.filterMap_flatMap]
    refine flatMap_filter _ _ _ fun b hb hf => ?_
    rw [List.filterMap_eq_nil_iff]
    intro c hc
    have := (hk b hb hf c hc).1
    cases c
    case definition l t u => exact absurd rfl (this l t u)
    all_goals rfl
  funext l
  unfold Html.lastDefinition
  rw [e]

theorem outerL_flatMap (l : List Block) : Latex.outerL l = l.flatMap Latex.outer := by
  induction l with
  | nil => rfl
  | cons b l ih => rw [Latex.outerL, ih, List.flatMap_cons]

include hk in
theorem latex_same : Latex.footnoteNumber (d.filterBlocks keep) = Latex.footnoteNumber d ∧
    Latex.lastDefinition (d.filterBlocks keep) = Latex.lastDefinition d := by
  have gen : ∀ {β : Type} (g : Block → Option β), (∀ c, (∀ l dest title, c ≠ .definition l dest title) →
      (∀ l bs, c ≠ .footnoteDefinition l bs) → g c = none) →
      (Latex.outerL (d.filterBlocks keep).blocks).filterMap g = (Latex.outerL d.blocks).filterMap g := by
    intro β g hg
    unfold Document.filterBlocks
    dsimp only
    rw [outerL_flatMap, outerL_flatMap, List.filterMap_flatMap, List.filterMap_flatMap]
    refine flatMap_filter _ _ _ fun b hb hf => ?_
    rw [List.filterMap_eq_nil_iff]
    intro c hc
    have := hk b hb hf c (Latex.outer_pre.1 b c hc)
    exact hg c this.1 this.2.1
  constructor
  · funext l
    unfold Latex.footnoteNumber Latex.footnoteLabels
    rw [gen Latex.footnoteLabel]
    intro c _ h2
    cases c with
    | footnoteDefinition m bs => exact absurd rfl (h2 m bs)
    | _ => rfl
  · funext l
    unfold Latex.lastDefinition
    rw [gen Latex.linkDef]
    intro c h1 _
    cases c with
    | definition m t u => exact absurd rfl (h1 m t u)
    | _ => rfl

end

theorem html_blocks (x : Html.Context) (l : List Block) :
    Html.writeNodes (Html.blocksNodes x l) = (l.map fun b => Html.writeNodes (Html.blockNodes x b)).flatten := by
  induction l with
  | nil => rw [Html.blocksNodes]; rfl
  | cons b l ih => rw [Html.blocksNodes, Parts.writeNodes_append, ih]; rfl

theorem latex_blocks (dw : Str → Nat) (cfg : Latex.Config) (x : Latex.Source.Context) : ∀ l : List Block,
    Md.Spec.lay dw cfg.width 0 (Md.Spec.atIndent 0 (Latex.Exact.joinedP [.newline, .newline] (Latex.Exact.blocksPieces cfg x l))) =
    joinWith cs!"\n\n" (l.map fun b => Md.Spec.lay dw cfg.width 0 (Md.Spec.atIndent 0 (Latex.Exact.blockPieces cfg x b)))
  | [] => rfl
  | [b] => rfl
  | b :: c :: l => by
    have ih := latex_blocks dw cfg x (c :: l)
    rw [List.map_cons] at ih
    rw [List.map_cons, List.map_cons, joinWith, ← ih]
    simp only [Latex.Exact.blocksPieces, Latex.Exact.joinedP, List.append_assoc]
    simp only [Md.Spec.atIndent, List.map_append, List.map_cons, List.map_nil]
    rw [← Md.Spec.atIndent, List.cons_append, Parts.lay_newline _ _ _ _ _ (Parts.even_atIndent _)]
    congr 1
    rw [List.cons_append, List.nil_append, Md.Spec.lay]
    have : ∀ l : List Md.Spec.Piece, Md.Spec.nextIndent 0 (List.map (fun p => (0, p)) l) = 0 := by intro l; cases l <;> rfl
    rw [this]
    rfl

end FilterB

/-! ## The theorems -/

/-- **C113**, HTML: the HTML of a document is a text for each of its blocks, and `filter_blocks` drops those of the
blocks that are filtered out, if these are not needed by others. -/
theorem C113_html (dw : Str → Nat) (cfg : Html.Config) {d : Document} {s : Str} (h : Html.renderHtml dw d cfg = some s) :
    ∃ f : Block → Str, s = (d.blocks.map f).flatten ∧ f (.paragraph []) = cs!"<p></p>" ∧
      ∀ keep : Block → Bool, (∀ b ∈ d.blocks, keep b = false → b.Unneeded) →
        Html.renderHtml dw (d.filterBlocks keep) cfg = some ((d.blocks.filter keep).map f).flatten := by
  obtain ⟨icon, _, hx⟩ := Html.C89_exact_html
  rw [hx dw d cfg] at h
  split at h
  · cases h
  · rename_i ht
    injection h with h
    refine ⟨fun b => Html.writeNodes (Html.blockNodes ⟨Html.footnoteNumber d, Html.lastDefinition d, cfg.anchorPrefix, icon, Html.titleRaw⟩ b), ?_, ?_, ?_⟩
    · rw [← h, FilterB.html_blocks]
    · rfl
    · intro keep hk
      rw [hx, if_neg, FilterB.html_number hk, FilterB.html_defs hk, FilterB.html_blocks]
      · rfl
      · rintro ⟨al, c, hc, hr⟩
        rw [FilterB.html_number hk] at hr
        exact ht ⟨al, c, (List.mem_filter.1 hc).1, hr⟩

/-- **C113**, LaTeX: the same, with blank lines between the texts of the blocks. -/
theorem C113_latex {dw : Str → Nat} (hw : dw [' '] = 1) (cfg : Latex.Config) (d : Document) :
    ∃ f : Block → Str, Latex.renderLatex dw cfg d = joinWith cs!"\n\n" (d.blocks.map f) ∧ f (.paragraph []) = [] ∧
      ∀ keep : Block → Bool, (∀ b ∈ d.blocks, keep b = false → b.Unneeded) →
        Latex.renderLatex dw cfg (d.filterBlocks keep) = joinWith cs!"\n\n" ((d.blocks.filter keep).map f) := by
  refine ⟨fun b => Md.Spec.lay dw cfg.width 0 (Md.Spec.atIndent 0 (Latex.Exact.blockPieces cfg
    ⟨Latex.footnoteNumber d, Latex.lastDefinition d⟩ b)), ?_, rfl, ?_⟩
  · rw [Latex.Exact.C87_exact hw]
    exact FilterB.latex_blocks dw cfg _ d.blocks
  · intro keep hk
    rw [Latex.Exact.C87_exact hw]
    unfold Latex.Exact.latexText
    rw [(FilterB.latex_same hk).1, (FilterB.latex_same hk).2]
    exact FilterB.latex_blocks dw cfg _ _

/-- **C113**, `remove_empty_paragraphs`: the texts `<p></p>` of the empty paragraphs that are blocks of the document
itself are dropped from the HTML, and the blank lines around them from the LaTeX. -/
theorem C113_empty_paragraphs {dw : Str → Nat} (hw : dw [' '] = 1) (cfg : Html.Config) (lcfg : Latex.Config) {d : Document}
    {s : Str} (h : Html.renderHtml dw d cfg = some s) :
    ∃ f g : Block → Str, f (.paragraph []) = cs!"<p></p>" ∧ g (.paragraph []) = [] ∧
      s = (d.blocks.map f).flatten ∧ Latex.renderLatex dw lcfg d = joinWith cs!"\n\n" (d.blocks.map g) ∧
      Html.renderHtml dw d.removeEmptyParagraphs cfg = some ((d.blocks.filter fun b => decide (b ≠ .paragraph [])).map f).flatten ∧
      Latex.renderLatex dw lcfg d.removeEmptyParagraphs =
        joinWith cs!"\n\n" ((d.blocks.filter fun b => decide (b ≠ .paragraph [])).map g) := by
  obtain ⟨f, f1, f2, f3⟩ := C113_html dw cfg h
  obtain ⟨g, g1, g2, g3⟩ := C113_latex hw lcfg d
  have hk : ∀ b ∈ d.blocks, decide (b ≠ .paragraph []) = false → b.Unneeded := by
    intro b _ hb
    have hb : b = .paragraph [] := by simpa using hb
    subst hb
    intro c hc
    simp only [Block.pre, List.mem_singleton] at hc
    subst hc
    exact ⟨fun _ _ _ => by simp, fun _ _ => by simp, fun l hl => by simp [Block.directInlines, Inline.preL] at hl⟩
  have e : d.removeEmptyParagraphs = d.filterBlocks (fun b => decide (b ≠ .paragraph [])) := by
    exact (C19_remove_empty_paragraphs d).1
  refine ⟨f, g, f2, g2, f1, g1, ?_, ?_⟩
  · rw [e]; exact f3 _ hk
  · rw [e]; exact g3 _ hk

/-- **C113**, a document that meets the hypotheses: quotes and empty paragraphs can be filtered out, and the definition
is still found. -/
theorem C113_example :
    let d : Document := ⟨[.definition [.text cs!"a"] cs!"u" none, .paragraph [], .blockQuote [.paragraph [.text cs!"q"]],
      .paragraph [.linkReference [.text cs!"a"] [.text cs!"x"], .footnoteReference cs!"n"], .footnoteDefinition cs!"n" [.paragraph [.text cs!"y"]]]⟩
    let keep : Block → Bool := fun | .blockQuote _ => false | _ => true
    (∀ b ∈ d.blocks, keep b = false → b.Unneeded) ∧
    Html.renderHtml (fun _ => 0) d Html.Config.default = some (cs!"<p></p><blockquote><p>q</p></blockquote><p><a href=\"u\">x</a>" ++
      cs!"<a class=\"markdown-footnote-reference\" href=\"#1\">[1]</a></p>" ++
      cs!"<div class=\"markdown-footnote-definition\"><span class=\"markdown-footnote-definition-index\">1. </span><span class=\"markdown-footnote-definition-content\"><p>y</p></span></div>") ∧
    Latex.renderLatex List.length Latex.Config.default d =
      cs!"\n\n\n\n\\begin{quote}\nq\n\\end{quote}\n\n\\href{u}{x}\\footnotemark{[1]}\n\n\\footnotetext{[1] y}" ∧
    Latex.renderLatex List.length Latex.Config.default (d.filterBlocks keep) =
      cs!"\n\n\n\n\\href{u}{x}\\footnotemark{[1]}\n\n\\footnotetext{[1] y}" := by
  refine ⟨?_, by decide +kernel, by decide +kernel, by decide +kernel⟩
  intro b hb hf
  simp only [List.mem_cons, List.not_mem_nil, or_false] at hb
  rcases hb with rfl | rfl | rfl | rfl | rfl <;> try exact absurd hf (by decide)
  intro c hc
  simp only [Block.pre, Block.preL, List.mem_cons, List.append_nil, List.not_mem_nil, or_false] at hc
  rcases hc with rfl | rfl <;>
    exact ⟨fun _ _ _ => by simp, fun _ _ => by simp, fun l hl => by simp [Block.directInlines, Inline.preL, Inline.pre] at hl⟩

/-- **C113**, why the condition: without the definition the link is gone. -/
theorem C113_needed :
    let d : Document := ⟨[.definition [.text cs!"a"] cs!"u" none, .paragraph [.linkReference [.text cs!"a"] [.text cs!"x"]]]⟩
    Html.renderHtml (fun _ => 0) d Html.Config.default = some cs!"<p><a href=\"u\">x</a></p>" ∧
    Html.renderHtml (fun _ => 0) (d.filterBlocks fun b => decide (b ≠ .definition [.text cs!"a"] cs!"u" none)) Html.Config.default =
      some cs!"<p></p>" := by
  decide +kernel

end Verif
