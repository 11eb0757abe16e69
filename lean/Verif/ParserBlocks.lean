import Verif.ParserReads
/-!
# Thematic breaks and tables (C62, C63)
-/
set_option linter.unusedVariables false
namespace Verif
open Nom

/-! ## The alternatives after paragraphs and Setext headings -/

section
variable {x : PExt} {cfg : PConfig}

/-- The alternatives of `block` after headings. -/
def lateAlts (x : PExt) (cfg : PConfig) (rec : P (List Block)) : P (List Block) :=
  conditionalBlock cfg.thematicBreak (value .thematicBreak thematicBreakP) <||>
  conditionalBlockVec cfg.githubAlert (githubAlertP x rec) <||>
  conditionalBlock cfg.blockquote (blockquoteP rec) <||>
  conditionalBlock cfg.list (listP rec) <||>
  conditionalBlock cfg.htmlBlock (mapP htmlBlockP .htmlBlock) <||>
  conditionalBlock cfg.footnoteDefinition (footnoteDefinitionP rec) <||>
  conditionalBlock cfg.linkDefinition (linkDefinitionP x cfg) <||>
  conditionalBlock cfg.table (tableP x cfg) <||>
  customParser cfg.customBlock <||>
  conditionalBlock cfg.paragraph (mapP (paragraphP x cfg rec false) .paragraph)

theorem blockP_late (hc : cfg.CustomOk) {k : Nat} {c : Char} {t : Str} {y} (hk : k ≤ 3)
    (h : c ∉ cs!" \t\r\n#`~")
    (hn : notAParagraphLine x cfg (blockP x cfg) (List.replicate k ' ' ++ c :: t) = some y) :
    blockP x cfg (List.replicate k ' ' ++ c :: t) =
      lateAlts x cfg (blockP x cfg) (List.replicate k ' ' ++ c :: t) := by
  have h' : c ≠ ' ' ∧ c ≠ '\t' ∧ c ≠ '\r' ∧ c ≠ '\n' ∧ c ≠ '#' ∧ c ≠ '`' ∧ c ≠ '~' := by
    refine ⟨?_, ?_, ?_, ?_, ?_, ?_, ?_⟩ <;> rintro rfl <;> exact h (by decide)
  obtain ⟨h1, h2, h3, h4, h5, h6, h7⟩ := h'
  rw [blockP_alt hc (notBlankLine (by simp [isSpace, h1, h2]) h4 h3)]
  unfold blockAlt
  rw [orElse_of_none (conditionalBlock_none (codeBlockP_indent_none hk h1 h6 h7 h2)),
    orElse_of_none (conditionalBlock_none (headingV1_indent_none h5)),
    orElse_of_none (conditionalBlock_none (headingV2OrParagraph_none hc hn))]
  rfl

/-! ## Thematic breaks -/

theorem thematicBreakP_of {k n : Nat} {a : Char} {sp e rest : Str} (hk : k ≤ 3) (hn : 3 ≤ n)
    (ha : a = '-' ∨ a = '_' ∨ a = '*') (hsp : ∀ c ∈ sp, isSpace c = true) (he : LineEnd e rest) :
    thematicBreakP (List.replicate k ' ' ++ (List.replicate n a ++ (sp ++ (e ++ rest)))) =
      some (rest, ()) := by
  have has : a ≠ ' ' := by rcases ha with rfl | rfl | rfl <;> decide
  have hhead : (sp ++ (e ++ rest)).head? ≠ some a := by
    cases sp with
    | nil => rcases he with (rfl | rfl) | ⟨rfl, rfl⟩ <;> rcases ha with rfl | rfl | rfl <;> simp
    | cons c sp =>
      have := hsp c (by simp)
      intro h; simp at h; subst h
      rcases ha with rfl | rfl | rfl <;> simp [isSpace] at this
  have hrun := manyMin_chr (m := 3) hn hhead
  have hother : ∀ b, b ≠ a → manyMin 3 (chr b) (List.replicate n a ++ (sp ++ (e ++ rest))) = none := by
    intro b hb
    obtain ⟨m, rfl⟩ : ∃ j, n = j + 1 := ⟨n - 1, by omega⟩
    rw [List.replicate_succ, List.cons_append]
    exact manyMin_none_of (chr_ne hb.symm) 2
  unfold thematicBreakP
  refine value_some.2 ⟨List.replicate n a, terminated_some.2 ⟨e ++ rest, e, ?_, he.eofOrEol⟩, rfl⟩
  have hind : (List.replicate n a ++ (sp ++ (e ++ rest))).head? ≠ some ' ' := by
    obtain ⟨m, rfl⟩ : ∃ j, n = j + 1 := ⟨n - 1, by omega⟩
    simpa [List.replicate_succ] using has
  refine preceded_some.2 ⟨_, _, indent03_replicate hk hind, ?_⟩
  refine terminated_some.2 ⟨sp ++ (e ++ rest), sp, ?_, ?_⟩
  · rcases ha with rfl | rfl | rfl
    · exact orElse_of_some hrun
    · rw [orElse_of_none (hother _ (by decide))]
      exact orElse_of_some hrun
    · rw [orElse_of_none (hother _ (by decide)), orElse_of_none (hother _ (by decide))]
      exact hrun
  · have h2 : ∀ c, (e ++ rest).head? = some c → isSpace c = false := by
      intro c hc
      rcases he with (rfl | rfl) | ⟨rfl, rfl⟩ <;> simp at hc <;> subst hc <;> decide
    obtain ⟨k1, k2⟩ := takeWhile_span' hsp h2
    show some (_, _) = _
    rw [k1, k2]

theorem notAParagraphLine_thematic {rec : P (List Block)} {s r : Str} (h : cfg.thematicBreak = .parse)
    (ht : thematicBreakP s = some (r, ())) : ∃ y, notAParagraphLine x cfg rec s = some y := by
  cases e : notAParagraphLine x cfg rec s with
  | some y => exact ⟨y, rfl⟩
  | none =>
    exfalso
    unfold notAParagraphLine at e
    simp only [orElse_none, conditionalUnit_none] at e
    have := e.2.2.1
    rw [h, ht] at this
    simp at this

/-- C62: a line of at most three spaces, at least three times the same one of `-`, `_` and `*`, and
trailing blanks, at the beginning of a block, is a thematic break; what follows is parsed on its
own. -/
theorem C62_thematic_break (hc : cfg.CustomOk) (htb : cfg.thematicBreak = .parse) {k n : Nat}
    {a : Char} {sp e rest : Str} (hk : k ≤ 3) (hn : 3 ≤ n) (ha : a = '-' ∨ a = '_' ∨ a = '*')
    (hsp : ∀ c ∈ sp, c = ' ' ∨ c = '\t') (he : LineEnd e rest) :
    parseMarkdown x cfg (List.replicate k ' ' ++ (List.replicate n a ++ (sp ++ (e ++ rest)))) =
      (parseMarkdown x cfg rest).map (fun d => ⟨.thematicBreak :: d.blocks⟩) := by
  have ht := thematicBreakP_of (rest := rest) hk hn ha
    (fun c hc => by rcases hsp c hc with rfl | rfl <;> rfl) he
  refine parseMarkdown_cons hc (bs := [_]) ?_
  obtain ⟨y, hy⟩ := notAParagraphLine_thematic (x := x) (rec := blockP x cfg) htb ht
  obtain ⟨m, rfl⟩ : ∃ j, n = j + 1 := ⟨n - 1, by omega⟩
  rw [List.replicate_succ, List.cons_append] at ht hy ⊢
  rw [blockP_late hc hk (by rcases ha with rfl | rfl | rfl <;> decide) hy]
  unfold lateAlts
  refine orElse_of_some ?_
  rw [conditionalBlock_parse htb, value_some.2 ⟨_, ht, rfl⟩]
  rfl

/-- C62, the limits: spaces between the marks (which CommonMark allows) make it a list, two marks are
text, four spaces make it code. -/
theorem C62_boundaries :
    parseMarkdown PExt.ascii (PConfig.default fun _ => none) cs!"* * *" =
      some ⟨[.list (.bullet .star) [.mk none [.list (.bullet .star) [.mk none
        [.list (.bullet .star) [.mk none []]]]]]]⟩ ∧
    parseMarkdown PExt.ascii (PConfig.default fun _ => none) cs!"__" =
      some ⟨[.paragraph [.text cs!"__"]]⟩ ∧
    parseMarkdown PExt.ascii (PConfig.default fun _ => none) cs!"    ***" =
      some ⟨[.codeBlock .indented cs!"***"]⟩ := by
  decide +kernel

end

/-- Two breaks with different marks, one indented and with trailing blanks, meet the hypotheses. -/
example (x : PExt) (ent : Str → Option Str) :
    parseMarkdown x (PConfig.default ent) cs!"  ---- \t\n___" = some ⟨[.thematicBreak, .thematicBreak]⟩ := by
  have h1 := C62_thematic_break (x := x) (cfg := PConfig.default ent) (default_customOk _) rfl
    (k := 2) (n := 4) (a := '-') (sp := cs!" \t") (e := ['\n']) (rest := cs!"___") (by decide)
    (by decide) (.inl rfl) (by decide) (.inl (.inl rfl))
  have h2 := C62_thematic_break (x := x) (cfg := PConfig.default ent) (default_customOk _) rfl
    (k := 0) (n := 3) (a := '_') (sp := []) (e := []) (rest := []) (by decide)
    (by decide) (.inr (.inl rfl)) (by decide) (.inr ⟨rfl, rfl⟩)
  have e2 : cs!"___" = List.replicate 0 ' ' ++ (List.replicate 3 '_' ++ ([] ++ ([] ++ []))) := rfl
  rw [show cs!"  ---- \t\n___" = List.replicate 2 ' ' ++ (List.replicate 4 '-' ++ (cs!" \t" ++ (['\n'] ++
    cs!"___"))) from rfl, h1, e2, h2, parseMarkdown_nil]
  rfl

end Verif
