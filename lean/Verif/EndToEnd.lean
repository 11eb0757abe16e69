import Verif.BlockOn
import Verif.HtmlExact
import Verif.LatexExact
import Verif.PrinterExactProps
/-!
# From text to text (C90)

What a converter makes of a text: the document that the reading of C88 gives, written as C89, C87 and C86 say.
-/
set_option autoImplicit false
namespace Verif
open Exact

section
variable {x : PExt} {cfg : PConfig}

/-- A configuration without custom parsers runs no user code. -/
theorem PConfig.Keeps.plain (h : cfg.Keeps) : cfg.Plain := by
  have key : ∀ {α : Type} {b : Behavior α}, b = .parse ∨ b = .ignore → b.Plain := by
    rintro α b (rfl | rfl) <;> trivial
  obtain ⟨⟩ := id h
  constructor
  case text => rw [h.text]; trivial
  case paragraph => rw [h.paragraph]; trivial
  case customBlock => exact h.customBlock
  case customInline => exact h.customInline
  all_goals exact key (by assumption)

/-- **C90.** A text is converted to exactly one HTML text: that of the one document that the specification reads.
Without custom parsers this never fails. -/
theorem C90_html (hk : cfg.Keeps) : ∃ icon : AlertType → Html.Node, (∀ t, Html.IsIcon t (icon t)) ∧
    ∀ (dw : Str → Nat) (hcfg : Html.Config) (s : Str), ∃ bs, DocOn x cfg s bs ∧ (∀ bs', DocOn x cfg s bs' → bs' = bs) ∧
      (parseMarkdown x cfg s).bind (fun d => Html.renderHtml dw d hcfg) =
        some (Html.writeNodes (Html.blocksNodes
          ⟨Html.footnoteNumber ⟨bs⟩, Html.lastDefinition ⟨bs⟩, hcfg.anchorPrefix, icon, Html.titleRaw⟩ bs)) := by
  obtain ⟨icon, hi, h⟩ := Html.C89_exact_html
  refine ⟨icon, hi, fun dw hcfg s => ?_⟩
  obtain ⟨bs, h1, h2⟩ := C88_unique (x := x) hk.tries s
  have h3 := (C88_exact hk.tries s bs).2 h1
  refine ⟨bs, h1, h2, ?_⟩
  obtain ⟨out, ho⟩ := C42_html_no_panic hk.plain h3 dw hcfg
  rw [h3, Option.bind_some, ho]
  have := h dw ⟨bs⟩ hcfg
  rw [ho] at this
  split at this
  · cases this
  · exact this

/-- **C90.** A text is converted to exactly one LaTeX text: that of the one document that the specification reads. -/
theorem C90_latex (hk : cfg.Tries) (dw : Str → Nat) (h1 : dw [' '] = 1) (lcfg : Latex.Config) (s : Str) :
    ∃ bs, DocOn x cfg s bs ∧ (∀ bs', DocOn x cfg s bs' → bs' = bs) ∧
      (parseMarkdown x cfg s).map (Latex.renderLatex dw lcfg) = some (Latex.Exact.latexText dw lcfg ⟨bs⟩) := by
  obtain ⟨bs, h2, h3⟩ := C88_unique (x := x) hk s
  refine ⟨bs, h2, h3, ?_⟩
  rw [(C88_exact hk s bs).2 h2, Option.map_some, Latex.Exact.C87_exact h1]

/-- **C90.** A text is formatted to exactly one text, that of the one document that the specification reads, or the
printer panics: exactly if the document is not printable. -/
theorem C90_format {x : Md.Ext} (hk : cfg.Tries) (mcfg : Md.Config) (s : Str) :
    ∃ bs, DocOn x.toPExt cfg s bs ∧ (∀ bs', DocOn x.toPExt cfg s bs' → bs' = bs) ∧
      ∀ t, (parseMarkdown x.toPExt cfg s).bind (Md.renderMarkdown x mcfg) = some t ↔
        Md.Spec.PrintableL x.dw mcfg.width mcfg.spacesBeforeListItem 0 0 bs ∧
          t = Md.Spec.markdownText x.dw mcfg.width (Md.style x mcfg) bs := by
  obtain ⟨bs, h2, h3⟩ := C88_unique (x := x.toPExt) hk s
  refine ⟨bs, h2, h3, fun t => ?_⟩
  rw [(C88_exact hk s bs).2 h2, Option.bind_some, Md.Exact.C86_exact]

/-- **C90, C49.** What becomes of a document that is printed and read again: exactly what the specification of reading says
of the text that the specification of printing gives. -/
theorem C90_reparse {x : Md.Ext} (hk : cfg.Tries) (mcfg : Md.Config) (bs bs' : List Block) :
    (Md.renderMarkdown x mcfg ⟨bs⟩).bind (parseMarkdown x.toPExt cfg) = some ⟨bs'⟩ ↔
      Md.Spec.PrintableL x.dw mcfg.width mcfg.spacesBeforeListItem 0 0 bs ∧
        DocOn x.toPExt cfg (Md.Spec.markdownText x.dw mcfg.width (Md.style x mcfg) bs) bs' := by
  rw [Option.bind_eq_some_iff]
  constructor
  · rintro ⟨t, h1, h2⟩
    obtain ⟨h3, rfl⟩ := (Md.Exact.C86_exact _ _ _ _).1 h1
    exact ⟨h3, (C88_exact hk _ _).1 h2⟩
  · rintro ⟨h1, h2⟩
    exact ⟨_, (Md.Exact.C86_exact _ _ _ _).2 ⟨h1, rfl⟩, (C88_exact hk _ _).2 h2⟩

end

/-- A text, its document, and what it is converted to. -/
theorem C90_example :
    let s := cs!"# a *b*\n\n- [x] c & d"
    let bs : List Block := [.heading (.atx 1) [.text cs!"a ", .emphasis [.text ['b']]],
      .list (.bullet .dash) [.mk (some .complete) [.paragraph [.text cs!"c & d"]]]]
    let cfg := PConfig.default fun _ => none
    DocOn PExt.ascii cfg s bs ∧
    (parseMarkdown PExt.ascii cfg s).bind (fun d => Html.renderHtml List.length d Html.Config.default) = some (cs!"<h1>a <em>b</em></h1>" ++
      cs!"<ul class=\"markdown-list-kind-dash\"><li><span class=\"markdown-list-task-complete\">[X] </span><p>c &amp; d</p></li></ul>") ∧
    (parseMarkdown PExt.ascii cfg s).map (Latex.renderLatex List.length Latex.Config.default) =
      some cs!"\\section{a \\textit{b}}\n\n\\begin{itemize}\n\\item $\\boxtimes$ c \\& d\n\n\\end{itemize}" ∧
    (parseMarkdown PExt.ascii cfg s).bind (Md.renderMarkdown Md.Ext.ascii Md.Config.default) =
      some cs!"# a *b*\n\n - [X] c & d" := by
  refine ⟨(C88_exact (keeps_default _).tries _ _).1 ?_, ?_⟩ <;> decide +kernel

end Verif
