# A Lean 4 model of markdown-ppp

The code is read as text from `/repo` (pinned commit) and modelled function by function in
`lean/Verif/`.  Nothing is executed: the tie between model and code is the citation on each
definition and the re-reading behind it.

## 1. Trusted base

* Lean 4.33.0 kernel.  Axioms: at most `propext`, `Classical.choice`, `Quot.sound` (checked with
  `#print axioms`, recorded in `tools/axioms.txt` when regenerated).  No axioms of our own, no
  compiled-code tactics.
* The faithfulness of the model (section 3) to the Rust source and of the small models of the two
  libraries it is built on (section 4).
* Parameters of the model stand for facts from outside the repository and theorems quantify over
  all their values: the Unicode punctuation predicate, `char::to_uppercase`, the table of named
  HTML entities (`entities` crate), the display width of a string (`pretty` and `unicode-width`).
* `char::is_whitespace` is the concrete Unicode `White_Space` set.

## 2. Conventions

* A Rust `String`/`&str` is a `List Char` (a Lean `Char` is a Unicode scalar value, as in Rust).
  Byte positions are only modelled where the code's arithmetic is on ASCII text.
* A Rust panic is an explicit error value (`none`).  `Result`/`Option` are data.
* `&mut` arguments become returned values; loops become structural recursion or fuel recursion
  with a proof that the fuel used is enough.
* Rust trait objects with overridable methods (visitors and transformers) are records of
  functions ("open recursion"); the default method bodies are functions of the record.
* `Vec<Box<Node>>` nested types are Lean nested inductives with one flattened constructor per
  enum variant.

## 3. What is modelled

| Module | Code | 
|---|---|
| `Basic` | strings, `char::is_whitespace`, `trim`, `split_whitespace`, `lines` |
| `Ast` | `src/ast/mod.rs`, `src/ast/github_alerts.rs` |
| `Generic` | `src/ast/generic.rs`, `convert.rs`, `map_data_visitor.rs`, `src/ast_specialized/*` |
| `Traverse` | `src/ast_transform/query.rs`, `visitor.rs` |
| `Transform` | `src/ast_transform/transformer.rs`, `convenience.rs`, `pipeline.rs`, `generic_transformer.rs` |
| `Html` | `src/html_printer/*` |
| `Pretty` | the part of the `pretty` crate used by the printers |
| `PrettySkeleton` | layouts of documents without indentation |
| `Latex` | `src/latex_printer/*` |
| `Nom`, `ParserInline`, `ParserBlock` | `src/parser/**` |
| `Printer` | `src/printer/*` |

The other modules contain specifications and proofs, no code:

| Module | Contents |
|---|---|
| `*Spec`, `*Laws`, `*Props`, `*Lemmas` | specifications and theorems about the module they are named after |
| `HtmlTreeSpec`, `HtmlTree` | an independent reader of HTML and the tree every document must produce (C58) |
| `LatexSourceSpec`, `LatexSource` | the LaTeX text of a document as a token list, and every layout of it (C59) |
| `NomLemmas`, `ParserInst` | `none`/`some` characterisations of the combinators; what an instantiated parser satisfies |
| `ParserDepth`, `ParserTotal`, `ParserShape`, `ParserProps` | progress, fuel, totality, invariants of parsed documents |
| `ParserHead`, `ParserForward`, `ParserQuote`, `ParserIndent`, `ParserPara`, `ParserReads`, `ParserBlocks`, `ParserTables`, `ParserDefs`, `ParserLists` | "forward" theorems: a text of this form parses to exactly this block, and what follows is parsed on its own (C41, C43, C55–C57, C62–C66) |
| `InlineForward`, `InlineGrammar`, `InlineGrammarProps`, `InlineProps` | the grammar `Reads` of inline source, any nesting (C56, C50, C51) |
| `HtmlBlockProps`, `HtmlTagProps` | the seven kinds of HTML blocks (C54, C68) |
| `Hooks` | element behaviours Skip, Map, FlatMap as a function of the plainly parsed document (C69) |
| `ProvenanceSpec`, `Provenance`, `ProvenanceInline`, `ProvenanceBlock`, `ProvenanceDoc` | what a document spells; parsing loses only white space and punctuation (C70) |
| `GrammarSpec`, `GrammarInline`, `GrammarBlock`, `GrammarHtml`, `GrammarDoc` | a declarative grammar of the dialect; what is parsed is written (C71) |
| `LineEndings*` | Windows and Unix line endings (C76) |
| `Indifferent`, `IndifferentProps` | Configurations that differ in absent constructs (C77) |
| `EscapeProps` | Exactly which escapes are recognised (C79) |
| `StartSpec`, `StartLeaf`, `StartBlock`, `StartDef`, `StartProps` | which block a text begins with, and how far a paragraph goes (C80, C81) |
| `ConcatSpec`, `Concat`, `ConcatLeaf`, `ConcatList`, `ConcatDef`, `ConcatProps` | documents put together with a blank line (C82) |
| `FinalNewline`, `FinalNewlineBlocks`, `FinalNewlineProps` | newlines at the end of a text (C83) |
| `InlineExactSpec`, `InlineExact`, `InlineExactStep`, `InlineExactProps`, `InlineExactMain` | the exact reading of a text as inlines (C84): specification; every inline parser succeeds exactly where its shape is; the whole |
| `BlockExactSpec`, `BlockExactLeaf`, `BlockExactHtml`, `BlockExactDef`, `BlockExactTable`, `BlockExactList`, `BlockExactText`, `BlockExactProps` | the exact reading of a text as blocks (C85): specification; equivalences for code and headings, HTML, definitions and footnotes, tables, list items, paragraphs; the whole |
| `PrinterExactSpec`, `PrinterExact`, `PrinterExactInline`, `PrinterExactProps` | the exact Markdown output (C86): specification (words, gaps and line breaks with indentation, laid out greedily); the pretty-printer's documents as pieces; inlines; blocks |
| `CharClasses` | the character classes and string functions of the Rust standard library that specifications use by name: each class is proved to be an explicit list, each function is characterised |
| `Effects`, `EffectsProps`, `EffectsTrack`, `EffectsDepth`, `EffectsQuote`, `EffectsList`, `EffectsLogSpec`, `EffectsLog` | the parser with closures that have side effects (a second model, in which parsers take and return the state of the closures; what runs no closures is the first model, lifted); its relation to the pure model (C91); how often closures are called (C92); which calls are made for a document, in which order (C93) |
| `LinkNesting` | what links can contain (C94) |
| `DocSize`, `DocSizeExp` | how large documents are: upper and lower bounds (C95) |
| `Settings`, `SettingsProps` | the functions that build configurations, and what chains of them arrive at (C96) |
| `Parts` | rendering documents in parts (C97) |
| `DocMass`, `HtmlLength` | what is in a document, and how long its HTML is (C98) |
| `HtmlNesting`, `HtmlAnchors` | content models of the HTML elements, nested links (C99) |
| `Needs`, `Written` | which characters a construct needs (C100) |
| `WrapOptimal` | wrapping takes the fewest lines (C101) |
| `HtmlSafe` | elements, attributes and addresses of the HTML (C102) |
| `LatexSafe` | control sequences and environments of the LaTeX, as TeX's lexer finds them (C103) |
| `LatexLength` | how long the LaTeX of a document and of a text is (C104) |
| `AddressRewrite` | addresses in the HTML of a document with rewritten addresses (C105) |
| `FormatHtml`, `FormatLatex` | HTML and LaTeX of a document after formatting (C106, C107) |
| `CleanupHtml` | HTML of a document after whitespace clean-ups and changes of texts (C108, C109) |
| `CleanupLatex` | LaTeX of a document after whitespace clean-ups and changes of texts (C110, C111) |
| `TransformHtml` | HTML of a document after changes of addresses, code and raw HTML (C112) |
| `FilterOutput` | HTML and LaTeX of a document after blocks are filtered out (C113) |
| `FilterMarkdown` | Markdown of a document block by block and after blocks are filtered out (C114) |
| `CleanupMarkdown` | Markdown after clean-ups, text transforms and with other settings (C115, C116) |
| `TransformMarkdown`, `TransformLatex` | Markdown and LaTeX after transforms of addresses, code and raw HTML (C117, C118) |
| `MarkdownInk` | how many characters of the Markdown are not layout (C119) |
| `MarkdownTold` | the characters of the strings of a document are in its Markdown (C120) |
| `LatexTold` | the characters of the strings of a document are in its LaTeX (C121) |
| `LatexCode` | code blocks of parsed documents in LaTeX (C53) |
| `EndToEnd` | conversion of texts to HTML, LaTeX and Markdown (C90) |
| `InlineOnSpec`, `InlineOn`, `BlockOnSpec`, `BlockOnStart`, `BlockOn` | the exact reading when constructs are ignored, skipped or replaced (C88): specifications of inlines and blocks in which each construct is read only if it is switched on, and custom parsers where they are asked; proofs |
| `HtmlExactSpec`, `HtmlExact` | the exact HTML output (C89): how the tree of C58 is written; proof |
| `LatexExactSpec`, `LatexExact` | the exact LaTeX output (C87): specification with the same layout function; proof |
| `WrapProps` | when a text, or a printed text, is one paragraph (C81, exact form of C45) |
| `CustomProps` | Custom block and inline parsers (C78) |
| `OverrideSpec`, `OverrideProps`, `OverrideGeneric`, `OverrideHooks` | what overriding methods of the transformer traits does (C72, C73) |
| `QuoteExact`, `FootnoteLinks` | exactly which quotes are alerts (C74) and which footnote references become links (C75) |
| `PrinterSpec`, `PrinterWords`, `PrinterTable`, `PrinterDoc`, `PrinterList`, `PrinterPanic` | words, tables, lists, exact panic condition (C44, C46–C48) |
| `PrinterLayoutSpec`, `PrinterLayout`, `PrinterWrap`, `PrinterFillSpec`, `PrinterFill` | the printed text exactly, up to where lines are broken (C60); where they are broken (C45, C61) |
| `RoundTripSpec` … `RoundTrip` | printing and parsing again (C49, C67): lines of the printed text, how containers show them, each block read back |
| `Conformance*` | tests, not theorems: the repository's own unit tests, transcribed as examples about the model (section 4) |

Not modelled: the `Rc<dyn Fn>`/builder plumbing of the configuration objects, `Debug`/`serde`
derives, `Display` of errors, closures that panic or start a parser with the same configuration
themselves, stack consumption (bounded through C33), memory allocation, performance (except that
C92 counts calls). Closures of `Map`/`FlatMap` behaviours and custom parsers are pure functions in
all properties but C91, C92 and C93, which are about a model with effects; C91 says that the pure model
is right for closures whose results do not depend on earlier calls.

## 4. Library semantics assumed

`nom` 8 (complete mode, `&str`): a parser is `input → Option (rest × value)`; `none` is
`Err::Error`; the code never produces `Failure` or `Incomplete`.  `many0`/`many1`/`many_m_n`
fail when the inner parser succeeds without consuming.  `separated_list*` return the input before
the separator when the element after it fails.  `not_line_ending` fails on a `\r` that is not
followed by `\n`.  `u64` fails on overflow.

`pretty` 0.12: a document denotes a family of layouts; each `group` is printed flat or broken; a
`softline` is a space or a newline; a hard line is a newline followed by the current indentation.
Printer theorems are proved for every choice of layout, or for the concrete best-fit algorithm
where the property needs it.

Facts used about what is outside the repository, all of them fields of the structures `PExt` and
`Md.Ext` with an instance each (`PExt.ascii`, `Ext.ascii`): `upper_nonascii` (upper-casing a
non-ASCII character yields no ASCII letter that matters, except as stated there), `digit_ascii`,
`digit_not_ws` (`\d` of the `regex` crate), `dw_ascii` (the display width of ASCII text is its
length).  In `pretty`, `text("")` is a text, and a hard line uses the indentation of the next pending
command; both were read in the crate's documented semantics.  `tag_no_case` compares lower-cased
characters: the Kelvin sign and the long s are the only non-ASCII characters that fold to ASCII.

The modules `Conformance*` check the model against the repository's own unit tests: 287 tests (426
assertions) of the parser and the three printers are transcribed by `tools/gen_conformance.py`, and
most of the others by hand (`ConformanceMore`); `tools/conformance_skipped.txt` lists what the script
skips.  All of them hold of the model.  They test the model; no theorem depends on them.
`tools/cites.py` checks that every citation points at existing lines.

## 5. Plan per property

| Id | How |
|---|---|
| C01–C06 | `Generic`: mutual structural induction over the generic AST |
| C07, C08 | `Generic`: the numbering closure as a state machine; invariant over call histories |
| C09–C12 | `Traverse`: independent pre-order enumeration `Document.inlines/blocks`; query and visitor shown equal to it |
| C13–C16 | `Transform`: for every record of methods satisfying the default equations |
| C17–C19 | `Transform` + `Basic` string lemmas |
| C20–C23, C25–C27 | `Html`: independent decoder and tag-balance recogniser; false ones refuted by witness |
| C24 | `Html`: specification = rank of first occurrence |
| C28, C29, C31 | `Latex`: decoder, brace-depth automaton |
| C30 | `Pretty` + `Latex`: every layout squeezes to the same text |
| C32, C33 | `ParserInline`, `ParserBlock`: progress and suffix lemmas for every parser; fuel monotonicity |
| C34–C41 | `ParserBlock`: invariants of parser results by induction on fuel |
| C42 | composition of parser invariants with the HTML theorems |
| C52 | `Html`: tag-stripping automaton + entity decoder applied to the output equals a recursive text function of the AST |
| C43, C50, C51 | direct characterisation of the sub-parsers |
| C44–C48 | `Printer`: every-layout theorems, arithmetic for tables and lists |
| C49 | false in general (witnesses `C49_refuted_*`); proved for the documents that pass the executable test `fitsBlocks`, at every width: C60 gives the lines of the printed text, the forward theorems C55–C66 read them back, by induction over blocks |
| C53, C54 | `ParserProps`, `HtmlBlockProps`, `LatexCode` (code of a document comes from lines of the text, by induction on the C71 derivation): what the code-block and HTML-block parsers accept, in terms of lines |
| C68 | `HtmlTagProps`: grammar of tags, attributes and raw-text elements, what each combinator reads on it, the other kinds of HTML block fail |
| C69 | `Hooks`: every combinator commutes with mapping its results (`mapP` laws); induction on the fuel of the block and inline parsers |
| C70 | `Provenance*`: each parser gives a result spelling a subsequence of what it read that misses only markup (`Gives`), closed under every combinator; induction on the fuel for containers |
| C71 | `Grammar*`: each parser splits its input into a text the grammar allows for the result and the rest (`Writes`), with minimality of delimiters from first-match searches; strong induction on the length of the input for containers |
| C72, C73 | `Override*`: relations that thread the state through the tree; structural induction on the tree for any method table that satisfies the default equations except for the overridden ones |
| C74 | `QuoteExact`: both parsers computed on the lines of a quote, case split on the marker |
| C76 | `LineEndings*`: every combinator and parser commutes with removing carriage returns before line feeds (`Same`), given that no trap occurs in what it reads; induction on the fuel |
| C77 | `Indifferent*`: on texts over an alphabet every parser agrees under the two configurations (`Agree`), or never accepts because it must consume a missing character (`Needs`); induction on the fuel |
| C78 | `CustomProps`: the alternatives before the custom parser fail by their first character; the check for paragraph lines succeeds where the custom parser does |
| C79 | `EscapeProps`: the relation `StandsFor` (total, functional) is read piece by piece; a run of text ends only at a reference |
| C80 | `Start*`: for each block parser, its domain is characterised exactly (both directions) by a predicate on the text; disjointness by first characters; then the alternatives of `block` in order |
| C81 | `StartProps`: induction on the loop over lines; a line is taken iff nothing interrupts (the domains of C80) |
| C82 | `Concat*`: a parser gives the same on `s` and on `s ++ "\n" ++ t` with `t` left over, for every parser of a block, by a calculus of combinators; induction on the blocks of `s` |
| C83 | `FinalNewline*`: every parser of a block either leaves the newline behind the text alone or reads to the end with and without it, with the same value (calculus of combinators as for C82); induction on the blocks |
| C84 | `InlineExact*`: for every inline parser an equivalence with a predicate on characters, from the soundness lemmas of C71 and new completeness lemmas; alternatives in order; induction on the length of the text. Totality and uniqueness of the specification follow without reference to the parser |
| C85 | `BlockExact*`: each block parser succeeds exactly where the specification puts such a block, with the same contents and the same rest; the kinds are exclusive (C80), so the alternatives decide; induction on the length of the text for one direction, on the derivation for the other. Totality and uniqueness of the specification follow |
| C86 | `PrinterExact*`: a compositional invariant (`Sem`) relates each pretty-printer document, in flat and broken mode and in the fitting test, to a list of pieces; the column is tracked so that the width of quotes is known; induction on the blocks gives the text, C47_exact the panics. |
| C87 | `LatexExact`: the invariant of C86 for the documents the LaTeX renderer builds, by induction on inlines and blocks. |
| C91 | `EffectsProps`: erasing the state gives the pure parser, combinator by combinator (`Er`); `EffectsTrack`: whatever closures return, the same texts are accepted and the same rests are left (`Tr`) |
| C92 | `EffectsDepth`: the recursive equation of the parser with effects; `EffectsQuote`, `EffectsList`: running it on a quote or list step by step; induction on the number of levels |
| C93 | `EffectsLog`: every parser only appends to the log, and what it appends when it succeeds contains the calls of its value (`Lg`), combinator by combinator, then by induction on the depth |
| C94 | `LinkNesting`: induction on the grammar of C71 (`InlinesWritten`, `BlocksWritten`) |
| C95 | `DocSize`: induction on the grammar of C71 with a superadditive bound; `DocSizeExp`: lower bounds from C63 and C84 |
| C96 | `Settings`: one definition per setter; `SettingsProps`: induction on the chain of calls, one setting at a time |
| C97 | `Parts`: the exact outputs depend on numbers and definitions only through what occurs in the part (induction on the document); lines are divided at a line break |
| C98 | `DocMass`: own strings and labels of each element are no longer than how it is written, summed by induction on the C71 derivation; `HtmlLength`: length of the written tree by induction on the document |
| C99 | `HtmlNesting`, `HtmlAnchors`: content models as a table of rules per element, induction on the document (tree of C58); links in links with C94 and C100 |
| C100 | `Needs`: C77 (the configuration that ignores the construct gives the same document) with C38 (then there is none); `Written`: from the grammar of C71, each nested element with its own text |
| C101 | `WrapOptimal`: the filling of C61 as a page of pieces; greedy is least by induction on the pieces (the number of lines differs by at most one between columns) |
| C102 | `HtmlSafe`: lists of elements, attributes and classes; induction on the document (tree of C58), uniqueness by C58, from texts by C42 |
| C103 | `LatexSafe`: TeX's rule for control sequences as a function on strings; induction on the grammar of C29 (`Tex`), carets by induction on the text of C59, from texts by C38 and C40 |
| C104 | `LatexLength`: induction on the text of C59 with the measures of C98; from texts by C98, C95 and C34; lower bound by the tables of C63 |
| C105 | `AddressRewrite`: C102 on the rewritten document, its addresses by C15, its definitions by the traversal lemmas of C15; filter corollary by C38 |
| C106 | `FormatHtml`: the nodes (C89) of a document and of its squashed form are shown alike, by induction; both documents have the same squashed form by C49 |
| C107 | `FormatLatex`: the pieces (C87) of a document are those of its squashed form, by induction; C49 |
| C108 | `CleanupHtml`: both clean-ups are `mapNodes` (C14, C18); the nodes (C89) before and after are the same without whitespace, by induction over the tree, definitions being looked up alike |
| C109 | `CleanupHtml`: as C108, which is proved for any kind of characters |
| C110 | `CleanupLatex`: the letters of the pieces of C87 before and after are the same without whitespace, by induction over the tree; laying out pieces adds whitespace only |
| C111 | `CleanupLatex`: as C110, which is proved for any kind of characters |
| C112 | `TransformHtml`: as C108, for the maps of C14 and blocks of raw HTML |
| C113 | `FilterOutput`: C89 and C87 render blocks one by one in a context, which dropping blocks without definitions and footnotes does not change |
| C114 | `FilterMarkdown`: C97 for Markdown, by induction on the blocks from the end; C86 says which documents can be printed |
| C115, C116 | `CleanupMarkdown`: C86 gives the pieces of the text; the letters of pieces, of lines and of padded cells do not depend on the layout; induction on the document |
| C117, C118 | `TransformMarkdown`, `TransformLatex`: as C115 and C110, for functions on nodes that change only letters of a kind in the pieces of a node |
| C119 | `MarkdownInk`: induction on the pieces of C86 with the measures of C98, layout removed as in C115 |
| C120 | `MarkdownTold`: as C119, counting each character by itself, from below |
| C121 | `LatexTold`: induction on the pieces of C87, counting each character by itself |
| C90 | `EndToEnd`: C88 composed with C89 (and C42: parsed documents have no empty tables), C87 and C86 |
| C88 | `InlineOn`, `BlockOn`: the proofs of C84 and C85 again, with every alternative behind its switch; what interrupts a paragraph, and whether alerts are reached, then depends on the switches and on the custom parsers. C69 adds Skip, Map and FlatMap |
| C89 | `HtmlExact`: writing the tree gives the renderer's string, by induction on inlines and blocks; C27 says when there is none. |
| C75 | `FootnoteLinks`: structural induction over the tree of C58, the index of C24 |
| C67 | false in general (`C67_refuted`); same documents as C49: the re-read document has the same `keyBlocks` (text up to runs of whitespace, plus which references have label = text), and the printer's output depends only on that |
| C55–C57, C62–C66 | forward theorems: grammar of the accepted text as an inductive predicate (specification), the parser run on it step by step |
| C58 | an HTML reader (specification) applied to the output gives the tree of the document |
| C59–C61 | every layout of the printed document is a layout of a token list computed from the AST |

Properties found false of the code are proved false by a witness and restated as the strongest
true `_partial` theorem; see section 6.

## 6. Disagreements between the properties and the code

* C22: attribute values are escaped twice (`html_printer/inline.rs` and then `util.rs::tag`).
* C25: footnote references nested in emphasis, links etc. get no number and render to nothing.
* C26: an unresolved reference link loses its text in HTML.
* C41: `[!TIPS]`, `[!NOTEBOOK]` (a known name followed by more letters) are not recognised.
* C45: the detector misses `=`, `--`, `1)`, `>x`, `~~~`, `[x]:`, `<div>`.
* C47: `18446744073709551615. a` overflows in `printer/list.rs`; `width - column - 2` underflows
  in `printer/blockquote.rs`; ragged tables underflow in `printer/table.rs`.
* C38, C39, C43, C46, C51, C53–C57, C61–C66: see the `*_refuted*` and `*_boundaries` theorems of
  these properties; each is a concrete input or document evaluated by the kernel.
* C49: `\*a*` prints as `*a*`; code blocks in list items are not indented; wrapped footnotes fall
  out of the footnote; `> # a` is no heading; left alignment is lost; and others (`C49_refuted_*`).
* LaTeX: a dangling footnote reference prints a raw `^`; code and languages are not escaped (a code
  block containing `\\end{verbatim}` closes its environment).
* Also: custom alert names are emitted unescaped in HTML and LaTeX; `heading_v2 = Skip` drops
  ordinary paragraphs and `heading_v2 = Ignore` splits them into one paragraph per line;
  `remove_empty_paragraphs` and `filter_blocks` do not look below the top level.
