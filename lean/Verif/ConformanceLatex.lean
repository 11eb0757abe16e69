import Verif.ConformanceBase
/-!
# Unit tests of the repository, transcribed (generated by `tools/gen_conformance.py`)
-/
namespace Verif
namespace Conformance
open Nom

/-- `test_thematic_break`, `src/latex_printer/tests/comprehensive.rs:5-12` -/
example :
    (containsStr cs!"\\hrule" (Latex.renderLatex List.length Latex.Config.default (⟨[.thematicBreak]⟩ : Document))) = true := by
  decide +kernel

/-- `test_html_block`, `src/latex_printer/tests/comprehensive.rs:15-23` -/
example :
    (containsStr cs!"<div>Raw HTML</div>" (Latex.renderLatex List.length Latex.Config.default (⟨[(.htmlBlock cs!"<div>Raw HTML</div>")]⟩ : Document))) = true := by
  decide +kernel

/-- `test_definition_block`, `src/latex_printer/tests/comprehensive.rs:26-38` -/
example :
    (trim (Latex.renderLatex List.length Latex.Config.default (⟨[(.definition [(.text cs!"example")] cs!"https://example.com" (some cs!"Example Site"))]⟩ : Document))) = cs!"" := by
  decide +kernel

/-- `test_footnote_definition`, `src/latex_printer/tests/comprehensive.rs:41-55` -/
example :
    ((containsStr cs!"\\footnotetext" (Latex.renderLatex List.length Latex.Config.default (⟨[(.footnoteDefinition cs!"note1" [(.paragraph [(.text cs!"This is a footnote.")])])]⟩ : Document))) = true) ∧
    ((containsStr cs!"[1]" (Latex.renderLatex List.length Latex.Config.default (⟨[(.footnoteDefinition cs!"note1" [(.paragraph [(.text cs!"This is a footnote.")])])]⟩ : Document))) = true) ∧
    ((containsStr cs!"This is a footnote." (Latex.renderLatex List.length Latex.Config.default (⟨[(.footnoteDefinition cs!"note1" [(.paragraph [(.text cs!"This is a footnote.")])])]⟩ : Document))) = true) := by
  decide +kernel

/-- `test_line_break`, `src/latex_printer/tests/comprehensive.rs:106-118` -/
example :
    ((containsStr cs!"Line 1\\\\" (Latex.renderLatex List.length Latex.Config.default (⟨[(.paragraph [(.text cs!"Line 1"), .lineBreak, (.text cs!"Line 2")])]⟩ : Document))) = true) ∧
    ((containsStr cs!"Line 2" (Latex.renderLatex List.length Latex.Config.default (⟨[(.paragraph [(.text cs!"Line 1"), .lineBreak, (.text cs!"Line 2")])]⟩ : Document))) = true) := by
  decide +kernel

/-- `test_inline_code`, `src/latex_printer/tests/comprehensive.rs:121-132` -/
example :
    (containsStr cs!"\\texttt{println!()}" (Latex.renderLatex List.length Latex.Config.default (⟨[(.paragraph [(.text cs!"Use "), (.code cs!"println!()"), (.text cs!" function.")])]⟩ : Document))) = true := by
  decide +kernel

/-- `test_inline_html`, `src/latex_printer/tests/comprehensive.rs:135-147` -/
example :
    (containsStr cs!"<em>HTML</em>" (Latex.renderLatex List.length Latex.Config.default (⟨[(.paragraph [(.text cs!"Some "), (.html cs!"<em>HTML</em>"), (.text cs!" content.")])]⟩ : Document))) = true := by
  decide +kernel

/-- `test_link_reference`, `src/latex_printer/tests/comprehensive.rs:150-173` -/
example :
    ((containsStr cs!"\\href" (Latex.renderLatex List.length Latex.Config.default (⟨[(.definition [(.text cs!"example")] cs!"https://example.com" none), (.paragraph [(.text cs!"Visit "), (.linkReference [(.text cs!"example")] [(.text cs!"this site")]), (.text cs!".")])]⟩ : Document))) = true) ∧
    ((containsStr cs!"https://example.com" (Latex.renderLatex List.length Latex.Config.default (⟨[(.definition [(.text cs!"example")] cs!"https://example.com" none), (.paragraph [(.text cs!"Visit "), (.linkReference [(.text cs!"example")] [(.text cs!"this site")]), (.text cs!".")])]⟩ : Document))) = true) ∧
    ((containsStr cs!"this site" (Latex.renderLatex List.length Latex.Config.default (⟨[(.definition [(.text cs!"example")] cs!"https://example.com" none), (.paragraph [(.text cs!"Visit "), (.linkReference [(.text cs!"example")] [(.text cs!"this site")]), (.text cs!".")])]⟩ : Document))) = true) := by
  decide +kernel

/-- `test_link_reference_unresolved`, `src/latex_printer/tests/comprehensive.rs:176-189` -/
example :
    (containsStr cs!"[broken link][missing]" (Latex.renderLatex List.length Latex.Config.default (⟨[(.paragraph [(.linkReference [(.text cs!"missing")] [(.text cs!"broken link")])])]⟩ : Document))) = true := by
  decide +kernel

/-- `test_image`, `src/latex_printer/tests/comprehensive.rs:192-206` -/
example :
    ((containsStr cs!"\\includegraphics" (Latex.renderLatex List.length Latex.Config.default (⟨[(.paragraph [(.image cs!"image.png" (some cs!"My Image") cs!"Alt text")])]⟩ : Document))) = true) ∧
    ((containsStr cs!"image.png" (Latex.renderLatex List.length Latex.Config.default (⟨[(.paragraph [(.image cs!"image.png" (some cs!"My Image") cs!"Alt text")])]⟩ : Document))) = true) ∧
    ((containsStr cs!"\\caption" (Latex.renderLatex List.length Latex.Config.default (⟨[(.paragraph [(.image cs!"image.png" (some cs!"My Image") cs!"Alt text")])]⟩ : Document))) = true) ∧
    ((containsStr cs!"Alt text" (Latex.renderLatex List.length Latex.Config.default (⟨[(.paragraph [(.image cs!"image.png" (some cs!"My Image") cs!"Alt text")])]⟩ : Document))) = true) := by
  decide +kernel

/-- `test_image_no_alt`, `src/latex_printer/tests/comprehensive.rs:209-222` -/
example :
    ((containsStr cs!"\\includegraphics" (Latex.renderLatex List.length Latex.Config.default (⟨[(.paragraph [(.image cs!"image.png" none cs!"")])]⟩ : Document))) = true) ∧
    ((containsStr cs!"image.png" (Latex.renderLatex List.length Latex.Config.default (⟨[(.paragraph [(.image cs!"image.png" none cs!"")])]⟩ : Document))) = true) ∧
    ((!(containsStr cs!"\\caption" (Latex.renderLatex List.length Latex.Config.default (⟨[(.paragraph [(.image cs!"image.png" none cs!"")])]⟩ : Document)))) = true) := by
  decide +kernel

/-- `test_strikethrough`, `src/latex_printer/tests/comprehensive.rs:225-236` -/
example :
    (containsStr cs!"\\sout{crossed out}" (Latex.renderLatex List.length Latex.Config.default (⟨[(.paragraph [(.text cs!"This is "), (.strikethrough [(.text cs!"crossed out")]), (.text cs!" text.")])]⟩ : Document))) = true := by
  decide +kernel

/-- `test_autolink`, `src/latex_printer/tests/comprehensive.rs:239-250` -/
example :
    (containsStr cs!"\\url{https://example.com}" (Latex.renderLatex List.length Latex.Config.default (⟨[(.paragraph [(.text cs!"Visit "), (.autolink cs!"https://example.com"), (.text cs!".")])]⟩ : Document))) = true := by
  decide +kernel

/-- `test_footnote_reference`, `src/latex_printer/tests/comprehensive.rs:253-274` -/
example :
    ((containsStr cs!"\\footnotemark" (Latex.renderLatex List.length Latex.Config.default (⟨[(.footnoteDefinition cs!"note1" [(.paragraph [(.text cs!"Footnote content")])]), (.paragraph [(.text cs!"Text with footnote"), (.footnoteReference cs!"note1"), (.text cs!".")])]⟩ : Document))) = true) ∧
    ((containsStr cs!"[1]" (Latex.renderLatex List.length Latex.Config.default (⟨[(.footnoteDefinition cs!"note1" [(.paragraph [(.text cs!"Footnote content")])]), (.paragraph [(.text cs!"Text with footnote"), (.footnoteReference cs!"note1"), (.text cs!".")])]⟩ : Document))) = true) ∧
    ((containsStr cs!"\\footnotetext" (Latex.renderLatex List.length Latex.Config.default (⟨[(.footnoteDefinition cs!"note1" [(.paragraph [(.text cs!"Footnote content")])]), (.paragraph [(.text cs!"Text with footnote"), (.footnoteReference cs!"note1"), (.text cs!".")])]⟩ : Document))) = true) := by
  decide +kernel

/-- `test_footnote_reference_unresolved`, `src/latex_printer/tests/comprehensive.rs:277-289` -/
example :
    (containsStr cs!"[^missing]" (Latex.renderLatex List.length Latex.Config.default (⟨[(.paragraph [(.text cs!"Text"), (.footnoteReference cs!"missing"), (.text cs!".")])]⟩ : Document))) = true := by
  decide +kernel

/-- `test_empty_inline`, `src/latex_printer/tests/comprehensive.rs:292-303` -/
example :
    (containsStr cs!"BeforeAfter" (Latex.renderLatex List.length Latex.Config.default (⟨[(.paragraph [(.text cs!"Before"), .empty, (.text cs!"After")])]⟩ : Document))) = true := by
  decide +kernel

/-- `test_all_heading_levels`, `src/latex_printer/tests/comprehensive.rs:306-348` -/
example :
    ((containsStr cs!"\\section{Level 1}" (Latex.renderLatex List.length Latex.Config.default (⟨[(.heading (.atx 1) [(.text cs!"Level 1")]), (.heading (.atx 2) [(.text cs!"Level 2")]), (.heading (.atx 3) [(.text cs!"Level 3")]), (.heading (.atx 4) [(.text cs!"Level 4")]), (.heading (.atx 5) [(.text cs!"Level 5")]), (.heading (.atx 6) [(.text cs!"Level 6")]), (.heading (.setext .level2) [(.text cs!"Setext 2")])]⟩ : Document))) = true) ∧
    ((containsStr cs!"\\subsection{Level 2}" (Latex.renderLatex List.length Latex.Config.default (⟨[(.heading (.atx 1) [(.text cs!"Level 1")]), (.heading (.atx 2) [(.text cs!"Level 2")]), (.heading (.atx 3) [(.text cs!"Level 3")]), (.heading (.atx 4) [(.text cs!"Level 4")]), (.heading (.atx 5) [(.text cs!"Level 5")]), (.heading (.atx 6) [(.text cs!"Level 6")]), (.heading (.setext .level2) [(.text cs!"Setext 2")])]⟩ : Document))) = true) ∧
    ((containsStr cs!"\\subsubsection{Level 3}" (Latex.renderLatex List.length Latex.Config.default (⟨[(.heading (.atx 1) [(.text cs!"Level 1")]), (.heading (.atx 2) [(.text cs!"Level 2")]), (.heading (.atx 3) [(.text cs!"Level 3")]), (.heading (.atx 4) [(.text cs!"Level 4")]), (.heading (.atx 5) [(.text cs!"Level 5")]), (.heading (.atx 6) [(.text cs!"Level 6")]), (.heading (.setext .level2) [(.text cs!"Setext 2")])]⟩ : Document))) = true) ∧
    ((containsStr cs!"\\paragraph{Level 4}" (Latex.renderLatex List.length Latex.Config.default (⟨[(.heading (.atx 1) [(.text cs!"Level 1")]), (.heading (.atx 2) [(.text cs!"Level 2")]), (.heading (.atx 3) [(.text cs!"Level 3")]), (.heading (.atx 4) [(.text cs!"Level 4")]), (.heading (.atx 5) [(.text cs!"Level 5")]), (.heading (.atx 6) [(.text cs!"Level 6")]), (.heading (.setext .level2) [(.text cs!"Setext 2")])]⟩ : Document))) = true) ∧
    ((containsStr cs!"\\subparagraph{Level 5}" (Latex.renderLatex List.length Latex.Config.default (⟨[(.heading (.atx 1) [(.text cs!"Level 1")]), (.heading (.atx 2) [(.text cs!"Level 2")]), (.heading (.atx 3) [(.text cs!"Level 3")]), (.heading (.atx 4) [(.text cs!"Level 4")]), (.heading (.atx 5) [(.text cs!"Level 5")]), (.heading (.atx 6) [(.text cs!"Level 6")]), (.heading (.setext .level2) [(.text cs!"Setext 2")])]⟩ : Document))) = true) ∧
    ((containsStr cs!"\\subparagraph{Level 6}" (Latex.renderLatex List.length Latex.Config.default (⟨[(.heading (.atx 1) [(.text cs!"Level 1")]), (.heading (.atx 2) [(.text cs!"Level 2")]), (.heading (.atx 3) [(.text cs!"Level 3")]), (.heading (.atx 4) [(.text cs!"Level 4")]), (.heading (.atx 5) [(.text cs!"Level 5")]), (.heading (.atx 6) [(.text cs!"Level 6")]), (.heading (.setext .level2) [(.text cs!"Setext 2")])]⟩ : Document))) = true) ∧
    ((containsStr cs!"\\subsection{Setext 2}" (Latex.renderLatex List.length Latex.Config.default (⟨[(.heading (.atx 1) [(.text cs!"Level 1")]), (.heading (.atx 2) [(.text cs!"Level 2")]), (.heading (.atx 3) [(.text cs!"Level 3")]), (.heading (.atx 4) [(.text cs!"Level 4")]), (.heading (.atx 5) [(.text cs!"Level 5")]), (.heading (.atx 6) [(.text cs!"Level 6")]), (.heading (.setext .level2) [(.text cs!"Setext 2")])]⟩ : Document))) = true) := by
  decide +kernel

/-- `test_indented_code_block`, `src/latex_printer/tests/comprehensive.rs:351-362` -/
example :
    ((containsStr cs!"\\begin{verbatim}" (Latex.renderLatex List.length Latex.Config.default (⟨[(.codeBlock .indented cs!"def hello():\n    print('Hello')")]⟩ : Document))) = true) ∧
    ((containsStr cs!"def hello():" (Latex.renderLatex List.length Latex.Config.default (⟨[(.codeBlock .indented cs!"def hello():\n    print('Hello')")]⟩ : Document))) = true) := by
  decide +kernel

/-- `test_table_longtabu`, `src/latex_printer/tests/comprehensive.rs:365-387` -/
example :
    ((containsStr cs!"\\begin{longtabu}" (Latex.renderLatex List.length ({ Latex.Config.default with tableStyle := .longtabu } : Latex.Config) (⟨[(.table [[[(.text cs!"A")], [(.text cs!"B")]], [[(.text cs!"1")], [(.text cs!"2")]]] [.center, .right])]⟩ : Document))) = true) ∧
    ((containsStr cs!"X[l] to \\textwidth" (Latex.renderLatex List.length ({ Latex.Config.default with tableStyle := .longtabu } : Latex.Config) (⟨[(.table [[[(.text cs!"A")], [(.text cs!"B")]], [[(.text cs!"1")], [(.text cs!"2")]]] [.center, .right])]⟩ : Document))) = true) ∧
    ((containsStr cs!"{cr}" (Latex.renderLatex List.length ({ Latex.Config.default with tableStyle := .longtabu } : Latex.Config) (⟨[(.table [[[(.text cs!"A")], [(.text cs!"B")]], [[(.text cs!"1")], [(.text cs!"2")]]] [.center, .right])]⟩ : Document))) = true) := by
  decide +kernel

/-- `test_table_booktabs`, `src/latex_printer/tests/comprehensive.rs:390-413` -/
example :
    ((containsStr cs!"\\toprule" (Latex.renderLatex List.length ({ Latex.Config.default with tableStyle := .booktabs } : Latex.Config) (⟨[(.table [[[(.text cs!"Header")], [(.text cs!"Value")]], [[(.text cs!"Row1")], [(.text cs!"Data1")]]] [.left, .center])]⟩ : Document))) = true) ∧
    ((containsStr cs!"\\midrule" (Latex.renderLatex List.length ({ Latex.Config.default with tableStyle := .booktabs } : Latex.Config) (⟨[(.table [[[(.text cs!"Header")], [(.text cs!"Value")]], [[(.text cs!"Row1")], [(.text cs!"Data1")]]] [.left, .center])]⟩ : Document))) = true) ∧
    ((containsStr cs!"\\bottomrule" (Latex.renderLatex List.length ({ Latex.Config.default with tableStyle := .booktabs } : Latex.Config) (⟨[(.table [[[(.text cs!"Header")], [(.text cs!"Value")]], [[(.text cs!"Row1")], [(.text cs!"Data1")]]] [.left, .center])]⟩ : Document))) = true) ∧
    ((containsStr cs!"\\begin{tabular}[lc]" (Latex.renderLatex List.length ({ Latex.Config.default with tableStyle := .booktabs } : Latex.Config) (⟨[(.table [[[(.text cs!"Header")], [(.text cs!"Value")]], [[(.text cs!"Row1")], [(.text cs!"Data1")]]] [.left, .center])]⟩ : Document))) = true) := by
  decide +kernel

/-- `test_nested_elements`, `src/latex_printer/tests/comprehensive.rs:416-459` -/
example :
    ((containsStr cs!"\\begin{quote}" (Latex.renderLatex List.length Latex.Config.default (⟨[(.blockQuote [(.paragraph [(.text cs!"Quote paragraph")]), (.list (.bullet .dash) [(.mk none [(.paragraph [(.text cs!"Item with "), (.strong [(.text cs!"bold")]), (.text cs!" text")])])])]), (.list (.ordered 5) [(.mk (some .incomplete) [(.paragraph [(.text cs!"Multi-block item")]), (.codeBlock (.fenced (some cs!"bash")) cs!"echo 'nested code'")])])]⟩ : Document))) = true) ∧
    ((containsStr cs!"\\begin{itemize}" (Latex.renderLatex List.length Latex.Config.default (⟨[(.blockQuote [(.paragraph [(.text cs!"Quote paragraph")]), (.list (.bullet .dash) [(.mk none [(.paragraph [(.text cs!"Item with "), (.strong [(.text cs!"bold")]), (.text cs!" text")])])])]), (.list (.ordered 5) [(.mk (some .incomplete) [(.paragraph [(.text cs!"Multi-block item")]), (.codeBlock (.fenced (some cs!"bash")) cs!"echo 'nested code'")])])]⟩ : Document))) = true) ∧
    ((containsStr cs!"\\begin{enumerate}" (Latex.renderLatex List.length Latex.Config.default (⟨[(.blockQuote [(.paragraph [(.text cs!"Quote paragraph")]), (.list (.bullet .dash) [(.mk none [(.paragraph [(.text cs!"Item with "), (.strong [(.text cs!"bold")]), (.text cs!" text")])])])]), (.list (.ordered 5) [(.mk (some .incomplete) [(.paragraph [(.text cs!"Multi-block item")]), (.codeBlock (.fenced (some cs!"bash")) cs!"echo 'nested code'")])])]⟩ : Document))) = true) ∧
    ((containsStr cs!"\\textbf{bold}" (Latex.renderLatex List.length Latex.Config.default (⟨[(.blockQuote [(.paragraph [(.text cs!"Quote paragraph")]), (.list (.bullet .dash) [(.mk none [(.paragraph [(.text cs!"Item with "), (.strong [(.text cs!"bold")]), (.text cs!" text")])])])]), (.list (.ordered 5) [(.mk (some .incomplete) [(.paragraph [(.text cs!"Multi-block item")]), (.codeBlock (.fenced (some cs!"bash")) cs!"echo 'nested code'")])])]⟩ : Document))) = true) ∧
    ((containsStr cs!"$\\square$" (Latex.renderLatex List.length Latex.Config.default (⟨[(.blockQuote [(.paragraph [(.text cs!"Quote paragraph")]), (.list (.bullet .dash) [(.mk none [(.paragraph [(.text cs!"Item with "), (.strong [(.text cs!"bold")]), (.text cs!" text")])])])]), (.list (.ordered 5) [(.mk (some .incomplete) [(.paragraph [(.text cs!"Multi-block item")]), (.codeBlock (.fenced (some cs!"bash")) cs!"echo 'nested code'")])])]⟩ : Document))) = true) ∧
    ((containsStr cs!"\\begin{verbatim}" (Latex.renderLatex List.length Latex.Config.default (⟨[(.blockQuote [(.paragraph [(.text cs!"Quote paragraph")]), (.list (.bullet .dash) [(.mk none [(.paragraph [(.text cs!"Item with "), (.strong [(.text cs!"bold")]), (.text cs!" text")])])])]), (.list (.ordered 5) [(.mk (some .incomplete) [(.paragraph [(.text cs!"Multi-block item")]), (.codeBlock (.fenced (some cs!"bash")) cs!"echo 'nested code'")])])]⟩ : Document))) = true) ∧
    ((containsStr cs!"echo 'nested code'" (Latex.renderLatex List.length Latex.Config.default (⟨[(.blockQuote [(.paragraph [(.text cs!"Quote paragraph")]), (.list (.bullet .dash) [(.mk none [(.paragraph [(.text cs!"Item with "), (.strong [(.text cs!"bold")]), (.text cs!" text")])])])]), (.list (.ordered 5) [(.mk (some .incomplete) [(.paragraph [(.text cs!"Multi-block item")]), (.codeBlock (.fenced (some cs!"bash")) cs!"echo 'nested code'")])])]⟩ : Document))) = true) := by
  decide +kernel

/-- `test_complex_inline_combinations`, `src/latex_printer/tests/comprehensive.rs:462-489` -/
example :
    ((containsStr cs!"\\textbf{bold with \\textit{italic} inside}" (Latex.renderLatex List.length Latex.Config.default (⟨[(.paragraph [(.text cs!"This is "), (.strong [(.text cs!"bold with "), (.emphasis [(.text cs!"italic")]), (.text cs!" inside")]), (.text cs!" and "), (.strikethrough [(.text cs!"struck "), (.code cs!"code")]), (.text cs!" text.")])]⟩ : Document))) = true) ∧
    (((((containsStr cs!"\\sout{" (Latex.renderLatex List.length Latex.Config.default (⟨[(.paragraph [(.text cs!"This is "), (.strong [(.text cs!"bold with "), (.emphasis [(.text cs!"italic")]), (.text cs!" inside")]), (.text cs!" and "), (.strikethrough [(.text cs!"struck "), (.code cs!"code")]), (.text cs!" text.")])]⟩ : Document))) && (containsStr cs!"struck" (Latex.renderLatex List.length Latex.Config.default (⟨[(.paragraph [(.text cs!"This is "), (.strong [(.text cs!"bold with "), (.emphasis [(.text cs!"italic")]), (.text cs!" inside")]), (.text cs!" and "), (.strikethrough [(.text cs!"struck "), (.code cs!"code")]), (.text cs!" text.")])]⟩ : Document)))) && (containsStr cs!"\\texttt{code}" (Latex.renderLatex List.length Latex.Config.default (⟨[(.paragraph [(.text cs!"This is "), (.strong [(.text cs!"bold with "), (.emphasis [(.text cs!"italic")]), (.text cs!" inside")]), (.text cs!" and "), (.strikethrough [(.text cs!"struck "), (.code cs!"code")]), (.text cs!" text.")])]⟩ : Document)))) && (containsStr cs!"}" (Latex.renderLatex List.length Latex.Config.default (⟨[(.paragraph [(.text cs!"This is "), (.strong [(.text cs!"bold with "), (.emphasis [(.text cs!"italic")]), (.text cs!" inside")]), (.text cs!" and "), (.strikethrough [(.text cs!"struck "), (.code cs!"code")]), (.text cs!" text.")])]⟩ : Document)))) = true) := by
  decide +kernel

/-- `test_all_table_styles`, `src/latex_printer/tests/config_combinations.rs:5-42` -/
example :
    ((containsStr cs!"\\begin{tabular}[lc]" (Latex.renderLatex List.length ({ Latex.Config.default with tableStyle := .tabular } : Latex.Config) (⟨[(.table [[[(.text cs!"H1")], [(.text cs!"H2")]], [[(.text cs!"R1C1")], [(.text cs!"R1C2")]]] [.left, .center])]⟩ : Document))) = true) ∧
    ((containsStr cs!"\\hline" (Latex.renderLatex List.length ({ Latex.Config.default with tableStyle := .tabular } : Latex.Config) (⟨[(.table [[[(.text cs!"H1")], [(.text cs!"H2")]], [[(.text cs!"R1C1")], [(.text cs!"R1C2")]]] [.left, .center])]⟩ : Document))) = true) ∧
    ((!(containsStr cs!"\\toprule" (Latex.renderLatex List.length ({ Latex.Config.default with tableStyle := .tabular } : Latex.Config) (⟨[(.table [[[(.text cs!"H1")], [(.text cs!"H2")]], [[(.text cs!"R1C1")], [(.text cs!"R1C2")]]] [.left, .center])]⟩ : Document)))) = true) ∧
    ((containsStr cs!"\\begin{longtabu}" (Latex.renderLatex List.length ({ Latex.Config.default with tableStyle := .longtabu } : Latex.Config) (⟨[(.table [[[(.text cs!"H1")], [(.text cs!"H2")]], [[(.text cs!"R1C1")], [(.text cs!"R1C2")]]] [.left, .center])]⟩ : Document))) = true) ∧
    ((containsStr cs!"X[l] to \\textwidth" (Latex.renderLatex List.length ({ Latex.Config.default with tableStyle := .longtabu } : Latex.Config) (⟨[(.table [[[(.text cs!"H1")], [(.text cs!"H2")]], [[(.text cs!"R1C1")], [(.text cs!"R1C2")]]] [.left, .center])]⟩ : Document))) = true) ∧
    ((containsStr cs!"\\toprule" (Latex.renderLatex List.length ({ Latex.Config.default with tableStyle := .booktabs } : Latex.Config) (⟨[(.table [[[(.text cs!"H1")], [(.text cs!"H2")]], [[(.text cs!"R1C1")], [(.text cs!"R1C2")]]] [.left, .center])]⟩ : Document))) = true) ∧
    ((containsStr cs!"\\midrule" (Latex.renderLatex List.length ({ Latex.Config.default with tableStyle := .booktabs } : Latex.Config) (⟨[(.table [[[(.text cs!"H1")], [(.text cs!"H2")]], [[(.text cs!"R1C1")], [(.text cs!"R1C2")]]] [.left, .center])]⟩ : Document))) = true) ∧
    ((containsStr cs!"\\bottomrule" (Latex.renderLatex List.length ({ Latex.Config.default with tableStyle := .booktabs } : Latex.Config) (⟨[(.table [[[(.text cs!"H1")], [(.text cs!"H2")]], [[(.text cs!"R1C1")], [(.text cs!"R1C2")]]] [.left, .center])]⟩ : Document))) = true) ∧
    ((!(containsStr cs!"\\hline" (Latex.renderLatex List.length ({ Latex.Config.default with tableStyle := .booktabs } : Latex.Config) (⟨[(.table [[[(.text cs!"H1")], [(.text cs!"H2")]], [[(.text cs!"R1C1")], [(.text cs!"R1C2")]]] [.left, .center])]⟩ : Document)))) = true) := by
  decide +kernel

/-- `test_all_code_block_styles`, `src/latex_printer/tests/config_combinations.rs:45-75` -/
example :
    ((containsStr cs!"\\begin{verbatim}" (Latex.renderLatex List.length ({ Latex.Config.default with codeBlockStyle := .verbatim } : Latex.Config) (⟨[(.codeBlock (.fenced (some cs!"python")) cs!"print('hello world')")]⟩ : Document))) = true) ∧
    ((!(containsStr cs!"language=" (Latex.renderLatex List.length ({ Latex.Config.default with codeBlockStyle := .verbatim } : Latex.Config) (⟨[(.codeBlock (.fenced (some cs!"python")) cs!"print('hello world')")]⟩ : Document)))) = true) ∧
    ((!(containsStr cs!"\\begin{minted}" (Latex.renderLatex List.length ({ Latex.Config.default with codeBlockStyle := .verbatim } : Latex.Config) (⟨[(.codeBlock (.fenced (some cs!"python")) cs!"print('hello world')")]⟩ : Document)))) = true) ∧
    ((containsStr cs!"\\begin{lstlisting}[language=python]" (Latex.renderLatex List.length ({ Latex.Config.default with codeBlockStyle := .listings } : Latex.Config) (⟨[(.codeBlock (.fenced (some cs!"python")) cs!"print('hello world')")]⟩ : Document))) = true) ∧
    ((!(containsStr cs!"\\begin{verbatim}" (Latex.renderLatex List.length ({ Latex.Config.default with codeBlockStyle := .listings } : Latex.Config) (⟨[(.codeBlock (.fenced (some cs!"python")) cs!"print('hello world')")]⟩ : Document)))) = true) ∧
    ((!(containsStr cs!"\\begin{minted}" (Latex.renderLatex List.length ({ Latex.Config.default with codeBlockStyle := .listings } : Latex.Config) (⟨[(.codeBlock (.fenced (some cs!"python")) cs!"print('hello world')")]⟩ : Document)))) = true) ∧
    ((containsStr cs!"\\begin{minted}{python}" (Latex.renderLatex List.length ({ Latex.Config.default with codeBlockStyle := .minted } : Latex.Config) (⟨[(.codeBlock (.fenced (some cs!"python")) cs!"print('hello world')")]⟩ : Document))) = true) ∧
    ((!(containsStr cs!"\\begin{verbatim}" (Latex.renderLatex List.length ({ Latex.Config.default with codeBlockStyle := .minted } : Latex.Config) (⟨[(.codeBlock (.fenced (some cs!"python")) cs!"print('hello world')")]⟩ : Document)))) = true) ∧
    ((!(containsStr cs!"\\begin{lstlisting}" (Latex.renderLatex List.length ({ Latex.Config.default with codeBlockStyle := .minted } : Latex.Config) (⟨[(.codeBlock (.fenced (some cs!"python")) cs!"print('hello world')")]⟩ : Document)))) = true) := by
  decide +kernel

/-- `test_code_block_without_language`, `src/latex_printer/tests/config_combinations.rs:78-101` -/
example :
    ((containsStr cs!"\\begin{verbatim}" (Latex.renderLatex List.length ({ Latex.Config.default with codeBlockStyle := .verbatim } : Latex.Config) (⟨[(.codeBlock (.fenced none) cs!"echo 'no language'")]⟩ : Document))) = true) ∧
    ((containsStr cs!"\\begin{lstlisting}" (Latex.renderLatex List.length ({ Latex.Config.default with codeBlockStyle := .listings } : Latex.Config) (⟨[(.codeBlock (.fenced none) cs!"echo 'no language'")]⟩ : Document))) = true) ∧
    ((!(containsStr cs!"language=" (Latex.renderLatex List.length ({ Latex.Config.default with codeBlockStyle := .listings } : Latex.Config) (⟨[(.codeBlock (.fenced none) cs!"echo 'no language'")]⟩ : Document)))) = true) ∧
    ((containsStr cs!"\\begin{minted}{text}" (Latex.renderLatex List.length ({ Latex.Config.default with codeBlockStyle := .minted } : Latex.Config) (⟨[(.codeBlock (.fenced none) cs!"echo 'no language'")]⟩ : Document))) = true) := by
  decide +kernel

/-- `test_config_builder_pattern`, `src/latex_printer/tests/config_combinations.rs:183-220` -/
example :
    ((containsStr cs!"Test" (Latex.renderLatex List.length ({ ({ ({ Latex.Config.default with width := 60 } : Latex.Config) with tableStyle := .booktabs } : Latex.Config) with codeBlockStyle := .minted } : Latex.Config) (⟨[(.paragraph [(.text cs!"Test")])]⟩ : Document))) = true) ∧
    ((containsStr cs!"\\toprule" (Latex.renderLatex List.length ({ ({ Latex.Config.default with tableStyle := .booktabs } : Latex.Config) with codeBlockStyle := .minted } : Latex.Config) (⟨[(.table [[[(.text cs!"H")]]] [.left]), (.codeBlock (.fenced (some cs!"python")) cs!"pass")]⟩ : Document))) = true) ∧
    ((containsStr cs!"\\begin{minted}{python}" (Latex.renderLatex List.length ({ ({ Latex.Config.default with tableStyle := .booktabs } : Latex.Config) with codeBlockStyle := .minted } : Latex.Config) (⟨[(.table [[[(.text cs!"H")]]] [.left]), (.codeBlock (.fenced (some cs!"python")) cs!"pass")]⟩ : Document))) = true) := by
  decide +kernel

/-- `test_default_config`, `src/latex_printer/tests/config_combinations.rs:223-247` -/
example :
    ((containsStr cs!"\\begin{tabular}" (Latex.renderLatex List.length Latex.Config.default (⟨[(.table [[[(.text cs!"Test")]]] [.left]), (.codeBlock (.fenced (some cs!"rust")) cs!"test")]⟩ : Document))) = true) ∧
    ((containsStr cs!"\\begin{verbatim}" (Latex.renderLatex List.length Latex.Config.default (⟨[(.table [[[(.text cs!"Test")]]] [.left]), (.codeBlock (.fenced (some cs!"rust")) cs!"test")]⟩ : Document))) = true) ∧
    ((!(containsStr cs!"\\toprule" (Latex.renderLatex List.length Latex.Config.default (⟨[(.table [[[(.text cs!"Test")]]] [.left]), (.codeBlock (.fenced (some cs!"rust")) cs!"test")]⟩ : Document)))) = true) ∧
    ((!(containsStr cs!"\\begin{lstlisting}" (Latex.renderLatex List.length Latex.Config.default (⟨[(.table [[[(.text cs!"Test")]]] [.left]), (.codeBlock (.fenced (some cs!"rust")) cs!"test")]⟩ : Document)))) = true) ∧
    ((!(containsStr cs!"\\begin{minted}" (Latex.renderLatex List.length Latex.Config.default (⟨[(.table [[[(.text cs!"Test")]]] [.left]), (.codeBlock (.fenced (some cs!"rust")) cs!"test")]⟩ : Document)))) = true) := by
  decide +kernel

/-- `test_empty_document`, `src/latex_printer/tests/edge_cases.rs:5-10` -/
example :
    (trim (Latex.renderLatex List.length Latex.Config.default (⟨[]⟩ : Document))) = cs!"" := by
  decide +kernel

/-- `test_empty_paragraph`, `src/latex_printer/tests/edge_cases.rs:13-20` -/
example :
    (trim (Latex.renderLatex List.length Latex.Config.default (⟨[(.paragraph [])]⟩ : Document))) = cs!"" := by
  decide +kernel

/-- `test_empty_heading`, `src/latex_printer/tests/edge_cases.rs:23-33` -/
example :
    (containsStr cs!"\\section{}" (Latex.renderLatex List.length Latex.Config.default (⟨[(.heading (.atx 1) [])]⟩ : Document))) = true := by
  decide +kernel

/-- `test_empty_emphasis`, `src/latex_printer/tests/edge_cases.rs:36-47` -/
example :
    (containsStr cs!"\\textit{}" (Latex.renderLatex List.length Latex.Config.default (⟨[(.paragraph [(.text cs!"Text with "), (.emphasis []), (.text cs!" empty emphasis.")])]⟩ : Document))) = true := by
  decide +kernel

/-- `test_empty_list`, `src/latex_printer/tests/edge_cases.rs:50-61` -/
example :
    ((containsStr cs!"\\begin{itemize}" (Latex.renderLatex List.length Latex.Config.default (⟨[(.list (.bullet .star) [])]⟩ : Document))) = true) ∧
    ((containsStr cs!"\\end{itemize}" (Latex.renderLatex List.length Latex.Config.default (⟨[(.list (.bullet .star) [])]⟩ : Document))) = true) := by
  decide +kernel

/-- `test_empty_list_item`, `src/latex_printer/tests/edge_cases.rs:64-77` -/
example :
    (containsStr cs!"\\item" (Latex.renderLatex List.length Latex.Config.default (⟨[(.list (.bullet .star) [(.mk none [])])]⟩ : Document))) = true := by
  decide +kernel

/-- `test_empty_table`, `src/latex_printer/tests/edge_cases.rs:80-90` -/
example :
    (containsStr cs!"\\begin{tabular}" (Latex.renderLatex List.length Latex.Config.default (⟨[(.table [] [])]⟩ : Document))) = true := by
  decide +kernel

/-- `test_empty_table_row`, `src/latex_printer/tests/edge_cases.rs:93-103` -/
example :
    (containsStr cs!"\\\\" (Latex.renderLatex List.length Latex.Config.default (⟨[(.table [[]] [])]⟩ : Document))) = true := by
  decide +kernel

/-- `test_empty_table_cell`, `src/latex_printer/tests/edge_cases.rs:106-116` -/
example :
    (containsStr cs!"\\\\" (Latex.renderLatex List.length Latex.Config.default (⟨[(.table [[[]]] [.left])]⟩ : Document))) = true := by
  decide +kernel

/-- `test_empty_code_block`, `src/latex_printer/tests/edge_cases.rs:119-130` -/
example :
    ((containsStr cs!"\\begin{verbatim}" (Latex.renderLatex List.length Latex.Config.default (⟨[(.codeBlock (.fenced none) cs!"")]⟩ : Document))) = true) ∧
    ((containsStr cs!"\\end{verbatim}" (Latex.renderLatex List.length Latex.Config.default (⟨[(.codeBlock (.fenced none) cs!"")]⟩ : Document))) = true) := by
  decide +kernel

/-- `test_empty_blockquote`, `src/latex_printer/tests/edge_cases.rs:133-141` -/
example :
    ((containsStr cs!"\\begin{quote}" (Latex.renderLatex List.length Latex.Config.default (⟨[(.blockQuote [])]⟩ : Document))) = true) ∧
    ((containsStr cs!"\\end{quote}" (Latex.renderLatex List.length Latex.Config.default (⟨[(.blockQuote [])]⟩ : Document))) = true) := by
  decide +kernel

/-- `test_whitespace_only_text`, `src/latex_printer/tests/edge_cases.rs:144-155` -/
example :
    ((containsStr cs!"   " (Latex.renderLatex List.length Latex.Config.default (⟨[(.paragraph [(.text cs!"   "), (.text cs!"\t\n")])]⟩ : Document))) = true) ∧
    ((containsStr cs!"\t " (Latex.renderLatex List.length Latex.Config.default (⟨[(.paragraph [(.text cs!"   "), (.text cs!"\t\n")])]⟩ : Document))) = true) := by
  decide +kernel

/-- `test_special_chars_in_urls`, `src/latex_printer/tests/edge_cases.rs:158-171` -/
example :
    ((containsStr cs!"\\href" (Latex.renderLatex List.length Latex.Config.default (⟨[(.paragraph [(.link cs!"https://example.com/path?q=a&b=c#fragment" none [(.text cs!"link")])])]⟩ : Document))) = true) ∧
    ((containsStr cs!"https://example.com/path?q=a\\&b=c\\#fragment" (Latex.renderLatex List.length Latex.Config.default (⟨[(.paragraph [(.link cs!"https://example.com/path?q=a&b=c#fragment" none [(.text cs!"link")])])]⟩ : Document))) = true) := by
  decide +kernel

/-- `test_special_chars_in_code`, `src/latex_printer/tests/edge_cases.rs:174-185` -/
example :
    (containsStr cs!"\\texttt{\\$ \\& \\% \\# \\textasciicircum{} \\_ \\{ \\} \\textasciitilde{} \\textbackslash{}}" (Latex.renderLatex List.length Latex.Config.default (⟨[(.paragraph [(.code cs!"$ & % # ^ _ { } ~ \\")])]⟩ : Document))) = true := by
  decide +kernel

/-- `test_unicode_characters`, `src/latex_printer/tests/edge_cases.rs:188-197` -/
example :
    (containsStr cs!"Unicode: αβγ 中文 🚀 ñáéíóú" (Latex.renderLatex List.length Latex.Config.default (⟨[(.paragraph [(.text cs!"Unicode: αβγ 中文 🚀 ñáéíóú")])]⟩ : Document))) = true := by
  decide +kernel

/-- `test_table_with_complex_cells`, `src/latex_printer/tests/edge_cases.rs:252-293` -/
example :
    ((containsStr cs!"\\textbf{Bold Header}" (Latex.renderLatex List.length Latex.Config.default (⟨[(.table [[[(.strong [(.text cs!"Bold Header")])], [(.emphasis [(.text cs!"Italic Header")])]], [[(.text cs!"Cell with "), (.code cs!"code"), (.text cs!" and "), (.link cs!"https://example.com" none [(.text cs!"link")])], [(.strikethrough [(.text cs!"crossed")]), .lineBreak, (.text cs!"multiline")]]] [.left, .right])]⟩ : Document))) = true) ∧
    ((containsStr cs!"\\textit{Italic Header}" (Latex.renderLatex List.length Latex.Config.default (⟨[(.table [[[(.strong [(.text cs!"Bold Header")])], [(.emphasis [(.text cs!"Italic Header")])]], [[(.text cs!"Cell with "), (.code cs!"code"), (.text cs!" and "), (.link cs!"https://example.com" none [(.text cs!"link")])], [(.strikethrough [(.text cs!"crossed")]), .lineBreak, (.text cs!"multiline")]]] [.left, .right])]⟩ : Document))) = true) ∧
    ((containsStr cs!"\\texttt{code}" (Latex.renderLatex List.length Latex.Config.default (⟨[(.table [[[(.strong [(.text cs!"Bold Header")])], [(.emphasis [(.text cs!"Italic Header")])]], [[(.text cs!"Cell with "), (.code cs!"code"), (.text cs!" and "), (.link cs!"https://example.com" none [(.text cs!"link")])], [(.strikethrough [(.text cs!"crossed")]), .lineBreak, (.text cs!"multiline")]]] [.left, .right])]⟩ : Document))) = true) ∧
    ((containsStr cs!"\\href" (Latex.renderLatex List.length Latex.Config.default (⟨[(.table [[[(.strong [(.text cs!"Bold Header")])], [(.emphasis [(.text cs!"Italic Header")])]], [[(.text cs!"Cell with "), (.code cs!"code"), (.text cs!" and "), (.link cs!"https://example.com" none [(.text cs!"link")])], [(.strikethrough [(.text cs!"crossed")]), .lineBreak, (.text cs!"multiline")]]] [.left, .right])]⟩ : Document))) = true) ∧
    ((containsStr cs!"\\sout{crossed}" (Latex.renderLatex List.length Latex.Config.default (⟨[(.table [[[(.strong [(.text cs!"Bold Header")])], [(.emphasis [(.text cs!"Italic Header")])]], [[(.text cs!"Cell with "), (.code cs!"code"), (.text cs!" and "), (.link cs!"https://example.com" none [(.text cs!"link")])], [(.strikethrough [(.text cs!"crossed")]), .lineBreak, (.text cs!"multiline")]]] [.left, .right])]⟩ : Document))) = true) ∧
    ((containsStr cs!"\\\\" (Latex.renderLatex List.length Latex.Config.default (⟨[(.table [[[(.strong [(.text cs!"Bold Header")])], [(.emphasis [(.text cs!"Italic Header")])]], [[(.text cs!"Cell with "), (.code cs!"code"), (.text cs!" and "), (.link cs!"https://example.com" none [(.text cs!"link")])], [(.strikethrough [(.text cs!"crossed")]), .lineBreak, (.text cs!"multiline")]]] [.left, .right])]⟩ : Document))) = true) := by
  decide +kernel

/-- `test_task_list_states`, `src/latex_printer/tests/edge_cases.rs:296-327` -/
example :
    ((containsStr cs!"$\\boxtimes$ Completed task" (Latex.renderLatex List.length Latex.Config.default (⟨[(.list (.bullet .plus) [(.mk (some .complete) [(.paragraph [(.text cs!"Completed task")])]), (.mk (some .incomplete) [(.paragraph [(.text cs!"Incomplete task")])]), (.mk none [(.paragraph [(.text cs!"Regular item")])])])]⟩ : Document))) = true) ∧
    ((containsStr cs!"$\\square$ Incomplete task" (Latex.renderLatex List.length Latex.Config.default (⟨[(.list (.bullet .plus) [(.mk (some .complete) [(.paragraph [(.text cs!"Completed task")])]), (.mk (some .incomplete) [(.paragraph [(.text cs!"Incomplete task")])]), (.mk none [(.paragraph [(.text cs!"Regular item")])])])]⟩ : Document))) = true) ∧
    ((containsStr cs!"\\item Regular item" (Latex.renderLatex List.length Latex.Config.default (⟨[(.list (.bullet .plus) [(.mk (some .complete) [(.paragraph [(.text cs!"Completed task")])]), (.mk (some .incomplete) [(.paragraph [(.text cs!"Incomplete task")])]), (.mk none [(.paragraph [(.text cs!"Regular item")])])])]⟩ : Document))) = true) := by
  decide +kernel

/-- `test_ordered_list_with_custom_start`, `src/latex_printer/tests/edge_cases.rs:355-378` -/
example :
    ((containsStr cs!"\\begin{enumerate}" (Latex.renderLatex List.length Latex.Config.default (⟨[(.list (.ordered 42) [(.mk none [(.paragraph [(.text cs!"First")])]), (.mk none [(.paragraph [(.text cs!"Second")])])])]⟩ : Document))) = true) ∧
    ((containsStr cs!"\\item First" (Latex.renderLatex List.length Latex.Config.default (⟨[(.list (.ordered 42) [(.mk none [(.paragraph [(.text cs!"First")])]), (.mk none [(.paragraph [(.text cs!"Second")])])])]⟩ : Document))) = true) ∧
    ((containsStr cs!"\\item Second" (Latex.renderLatex List.length Latex.Config.default (⟨[(.list (.ordered 42) [(.mk none [(.paragraph [(.text cs!"First")])]), (.mk none [(.paragraph [(.text cs!"Second")])])])]⟩ : Document))) = true) := by
  decide +kernel

/-- `test_table_alignment_edge_cases`, `src/latex_printer/tests/edge_cases.rs:381-395` -/
example :
    (containsStr cs!"\\begin{tabular}[ll]" (Latex.renderLatex List.length Latex.Config.default (⟨[(.table [[[(.text cs!"A")], [(.text cs!"B")], [(.text cs!"C")]]] [.none, .left])]⟩ : Document))) = true := by
  decide +kernel

/-- `test_simple_paragraph`, `src/latex_printer/tests/mod.rs:9-18` -/
example :
    (trim (Latex.renderLatex List.length Latex.Config.default (⟨[(.paragraph [(.text cs!"Hello, world!")])]⟩ : Document))) = cs!"Hello, world!" := by
  decide +kernel

/-- `test_latex_escaping`, `src/latex_printer/tests/mod.rs:21-39` -/
example :
    ((containsStr cs!"\\$" (Latex.renderLatex List.length Latex.Config.default (⟨[(.paragraph [(.text cs!"Special chars: $ & % # ^ _ { } ~ \\")])]⟩ : Document))) = true) ∧
    ((containsStr cs!"\\&" (Latex.renderLatex List.length Latex.Config.default (⟨[(.paragraph [(.text cs!"Special chars: $ & % # ^ _ { } ~ \\")])]⟩ : Document))) = true) ∧
    ((containsStr cs!"\\%" (Latex.renderLatex List.length Latex.Config.default (⟨[(.paragraph [(.text cs!"Special chars: $ & % # ^ _ { } ~ \\")])]⟩ : Document))) = true) ∧
    ((containsStr cs!"\\#" (Latex.renderLatex List.length Latex.Config.default (⟨[(.paragraph [(.text cs!"Special chars: $ & % # ^ _ { } ~ \\")])]⟩ : Document))) = true) ∧
    ((containsStr cs!"\\textasciicircum{}" (Latex.renderLatex List.length Latex.Config.default (⟨[(.paragraph [(.text cs!"Special chars: $ & % # ^ _ { } ~ \\")])]⟩ : Document))) = true) ∧
    ((containsStr cs!"\\_" (Latex.renderLatex List.length Latex.Config.default (⟨[(.paragraph [(.text cs!"Special chars: $ & % # ^ _ { } ~ \\")])]⟩ : Document))) = true) ∧
    ((containsStr cs!"\\{" (Latex.renderLatex List.length Latex.Config.default (⟨[(.paragraph [(.text cs!"Special chars: $ & % # ^ _ { } ~ \\")])]⟩ : Document))) = true) ∧
    ((containsStr cs!"\\}" (Latex.renderLatex List.length Latex.Config.default (⟨[(.paragraph [(.text cs!"Special chars: $ & % # ^ _ { } ~ \\")])]⟩ : Document))) = true) ∧
    ((containsStr cs!"\\textasciitilde{}" (Latex.renderLatex List.length Latex.Config.default (⟨[(.paragraph [(.text cs!"Special chars: $ & % # ^ _ { } ~ \\")])]⟩ : Document))) = true) ∧
    ((containsStr cs!"\\textbackslash{}" (Latex.renderLatex List.length Latex.Config.default (⟨[(.paragraph [(.text cs!"Special chars: $ & % # ^ _ { } ~ \\")])]⟩ : Document))) = true) := by
  decide +kernel

/-- `test_headings`, `src/latex_printer/tests/mod.rs:42-64` -/
example :
    ((containsStr cs!"\\section{Level 1}" (Latex.renderLatex List.length Latex.Config.default (⟨[(.heading (.atx 1) [(.text cs!"Level 1")]), (.heading (.atx 2) [(.text cs!"Level 2")]), (.heading (.setext .level1) [(.text cs!"Setext 1")])]⟩ : Document))) = true) ∧
    ((containsStr cs!"\\subsection{Level 2}" (Latex.renderLatex List.length Latex.Config.default (⟨[(.heading (.atx 1) [(.text cs!"Level 1")]), (.heading (.atx 2) [(.text cs!"Level 2")]), (.heading (.setext .level1) [(.text cs!"Setext 1")])]⟩ : Document))) = true) ∧
    ((containsStr cs!"\\section{Setext 1}" (Latex.renderLatex List.length Latex.Config.default (⟨[(.heading (.atx 1) [(.text cs!"Level 1")]), (.heading (.atx 2) [(.text cs!"Level 2")]), (.heading (.setext .level1) [(.text cs!"Setext 1")])]⟩ : Document))) = true) := by
  decide +kernel

/-- `test_emphasis`, `src/latex_printer/tests/mod.rs:67-81` -/
example :
    ((containsStr cs!"\\textit{italic}" (Latex.renderLatex List.length Latex.Config.default (⟨[(.paragraph [(.text cs!"Normal "), (.emphasis [(.text cs!"italic")]), (.text cs!" and "), (.strong [(.text cs!"bold")]), (.text cs!" text.")])]⟩ : Document))) = true) ∧
    ((containsStr cs!"\\textbf{bold}" (Latex.renderLatex List.length Latex.Config.default (⟨[(.paragraph [(.text cs!"Normal "), (.emphasis [(.text cs!"italic")]), (.text cs!" and "), (.strong [(.text cs!"bold")]), (.text cs!" text.")])]⟩ : Document))) = true) := by
  decide +kernel

/-- `test_code_block_verbatim`, `src/latex_printer/tests/mod.rs:84-99` -/
example :
    ((containsStr cs!"\\begin{verbatim}" (Latex.renderLatex List.length ({ Latex.Config.default with codeBlockStyle := .verbatim } : Latex.Config) (⟨[(.codeBlock (.fenced (some cs!"rust")) cs!"fn main() {\n    println!(\"Hello!\");\n}")]⟩ : Document))) = true) ∧
    ((containsStr cs!"\\end{verbatim}" (Latex.renderLatex List.length ({ Latex.Config.default with codeBlockStyle := .verbatim } : Latex.Config) (⟨[(.codeBlock (.fenced (some cs!"rust")) cs!"fn main() {\n    println!(\"Hello!\");\n}")]⟩ : Document))) = true) ∧
    ((containsStr cs!"fn main()" (Latex.renderLatex List.length ({ Latex.Config.default with codeBlockStyle := .verbatim } : Latex.Config) (⟨[(.codeBlock (.fenced (some cs!"rust")) cs!"fn main() {\n    println!(\"Hello!\");\n}")]⟩ : Document))) = true) := by
  decide +kernel

/-- `test_code_block_listings`, `src/latex_printer/tests/mod.rs:102-116` -/
example :
    ((containsStr cs!"\\begin{lstlisting}[language=python]" (Latex.renderLatex List.length ({ Latex.Config.default with codeBlockStyle := .listings } : Latex.Config) (⟨[(.codeBlock (.fenced (some cs!"python")) cs!"print('Hello, world!')")]⟩ : Document))) = true) ∧
    ((containsStr cs!"\\end{lstlisting}" (Latex.renderLatex List.length ({ Latex.Config.default with codeBlockStyle := .listings } : Latex.Config) (⟨[(.codeBlock (.fenced (some cs!"python")) cs!"print('Hello, world!')")]⟩ : Document))) = true) := by
  decide +kernel

/-- `test_code_block_minted`, `src/latex_printer/tests/mod.rs:119-133` -/
example :
    ((containsStr cs!"\\begin{minted}{javascript}" (Latex.renderLatex List.length ({ Latex.Config.default with codeBlockStyle := .minted } : Latex.Config) (⟨[(.codeBlock (.fenced (some cs!"javascript")) cs!"console.log('Hello!');")]⟩ : Document))) = true) ∧
    ((containsStr cs!"\\end{minted}" (Latex.renderLatex List.length ({ Latex.Config.default with codeBlockStyle := .minted } : Latex.Config) (⟨[(.codeBlock (.fenced (some cs!"javascript")) cs!"console.log('Hello!');")]⟩ : Document))) = true) := by
  decide +kernel

/-- `test_lists`, `src/latex_printer/tests/mod.rs:136-169` -/
example :
    ((containsStr cs!"\\begin{itemize}" (Latex.renderLatex List.length Latex.Config.default (⟨[(.list (.bullet .star) [(.mk none [(.paragraph [(.text cs!"Item 1")])]), (.mk (some .complete) [(.paragraph [(.text cs!"Done item")])])]), (.list (.ordered 1) [(.mk none [(.paragraph [(.text cs!"Numbered")])])])]⟩ : Document))) = true) ∧
    ((containsStr cs!"\\begin{enumerate}" (Latex.renderLatex List.length Latex.Config.default (⟨[(.list (.bullet .star) [(.mk none [(.paragraph [(.text cs!"Item 1")])]), (.mk (some .complete) [(.paragraph [(.text cs!"Done item")])])]), (.list (.ordered 1) [(.mk none [(.paragraph [(.text cs!"Numbered")])])])]⟩ : Document))) = true) ∧
    ((containsStr cs!"\\item Item 1" (Latex.renderLatex List.length Latex.Config.default (⟨[(.list (.bullet .star) [(.mk none [(.paragraph [(.text cs!"Item 1")])]), (.mk (some .complete) [(.paragraph [(.text cs!"Done item")])])]), (.list (.ordered 1) [(.mk none [(.paragraph [(.text cs!"Numbered")])])])]⟩ : Document))) = true) ∧
    ((containsStr cs!"$\\boxtimes$" (Latex.renderLatex List.length Latex.Config.default (⟨[(.list (.bullet .star) [(.mk none [(.paragraph [(.text cs!"Item 1")])]), (.mk (some .complete) [(.paragraph [(.text cs!"Done item")])])]), (.list (.ordered 1) [(.mk none [(.paragraph [(.text cs!"Numbered")])])])]⟩ : Document))) = true) := by
  decide +kernel

/-- `test_table_tabular`, `src/latex_printer/tests/mod.rs:172-195` -/
example :
    ((containsStr cs!"\\begin{tabular}[lr]" (Latex.renderLatex List.length ({ Latex.Config.default with tableStyle := .tabular } : Latex.Config) (⟨[(.table [[[(.text cs!"Header 1")], [(.text cs!"Header 2")]], [[(.text cs!"Cell 1")], [(.text cs!"Cell 2")]]] [.left, .right])]⟩ : Document))) = true) ∧
    ((containsStr cs!"Header 1" (Latex.renderLatex List.length ({ Latex.Config.default with tableStyle := .tabular } : Latex.Config) (⟨[(.table [[[(.text cs!"Header 1")], [(.text cs!"Header 2")]], [[(.text cs!"Cell 1")], [(.text cs!"Cell 2")]]] [.left, .right])]⟩ : Document))) = true) ∧
    ((containsStr cs!"Cell 1 & Cell 2" (Latex.renderLatex List.length ({ Latex.Config.default with tableStyle := .tabular } : Latex.Config) (⟨[(.table [[[(.text cs!"Header 1")], [(.text cs!"Header 2")]], [[(.text cs!"Cell 1")], [(.text cs!"Cell 2")]]] [.left, .right])]⟩ : Document))) = true) ∧
    ((containsStr cs!"\\\\" (Latex.renderLatex List.length ({ Latex.Config.default with tableStyle := .tabular } : Latex.Config) (⟨[(.table [[[(.text cs!"Header 1")], [(.text cs!"Header 2")]], [[(.text cs!"Cell 1")], [(.text cs!"Cell 2")]]] [.left, .right])]⟩ : Document))) = true) := by
  decide +kernel

/-- `test_blockquote`, `src/latex_printer/tests/mod.rs:198-209` -/
example :
    ((containsStr cs!"\\begin{quote}" (Latex.renderLatex List.length Latex.Config.default (⟨[(.blockQuote [(.paragraph [(.text cs!"This is a quote.")])])]⟩ : Document))) = true) ∧
    ((containsStr cs!"This is a quote." (Latex.renderLatex List.length Latex.Config.default (⟨[(.blockQuote [(.paragraph [(.text cs!"This is a quote.")])])]⟩ : Document))) = true) ∧
    ((containsStr cs!"\\end{quote}" (Latex.renderLatex List.length Latex.Config.default (⟨[(.blockQuote [(.paragraph [(.text cs!"This is a quote.")])])]⟩ : Document))) = true) := by
  decide +kernel

/-- `test_links`, `src/latex_printer/tests/mod.rs:212-230` -/
example :
    ((containsStr cs!"\\href" (Latex.renderLatex List.length Latex.Config.default (⟨[(.paragraph [(.text cs!"Visit "), (.link cs!"https://example.com" (some cs!"Example Site") [(.text cs!"this link")]), (.text cs!".")])]⟩ : Document))) = true) ∧
    ((containsStr cs!"https://example.com" (Latex.renderLatex List.length Latex.Config.default (⟨[(.paragraph [(.text cs!"Visit "), (.link cs!"https://example.com" (some cs!"Example Site") [(.text cs!"this link")]), (.text cs!".")])]⟩ : Document))) = true) ∧
    ((containsStr cs!"this link" (Latex.renderLatex List.length Latex.Config.default (⟨[(.paragraph [(.text cs!"Visit "), (.link cs!"https://example.com" (some cs!"Example Site") [(.text cs!"this link")]), (.text cs!".")])]⟩ : Document))) = true) ∧
    ((containsStr cs!"\\footnote" (Latex.renderLatex List.length Latex.Config.default (⟨[(.paragraph [(.text cs!"Visit "), (.link cs!"https://example.com" (some cs!"Example Site") [(.text cs!"this link")]), (.text cs!".")])]⟩ : Document))) = true) := by
  decide +kernel

end Conformance
end Verif
