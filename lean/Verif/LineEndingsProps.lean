import Verif.LineEndingsDoc
/-!
# Windows and Unix line endings (C76): documents
-/
set_option linter.unusedVariables false
set_option linter.unusedSimpArgs false
namespace Verif
open Nom

/-! ## Specification (continued) -/

/-- User code that does not care about carriage returns. -/
def Behavior.UnixOk : Behavior Block → Prop
  | .map f => ∀ b, f (unixBlock b) = unixBlock (f b)
  | .flatMap f => ∀ b, f (unixBlock b) = (f b).map unixBlock
  | _ => True

/-- No custom block parser, and user code for blocks that does not care about carriage returns. -/
structure PConfig.UnixOk (cfg : PConfig) : Prop where
  custom : cfg.customBlock = none
  blockquote : cfg.blockquote.UnixOk
  headingV1 : cfg.headingV1.UnixOk
  headingV2 : cfg.headingV2.UnixOk
  thematicBreak : cfg.thematicBreak.UnixOk
  list : cfg.list.UnixOk
  codeBlock : cfg.codeBlock.UnixOk
  htmlBlock : cfg.htmlBlock.UnixOk
  footnoteDefinition : cfg.footnoteDefinition.UnixOk
  linkDefinition : cfg.linkDefinition.UnixOk
  table : cfg.table.UnixOk
  paragraph : cfg.paragraph.UnixOk

section
variable {x : PExt} {cfg : PConfig} {K : Traps}

theorem same_conditionalBlock {b : Behavior Block} {p : P Block} (hb : b.UnixOk)
    (hp : b ≠ .ignore → Same K unixBlock p) : Same K (List.map unixBlock) (conditionalBlock b p) := by
  unfold conditionalBlock conditional
  cases b with
  | ignore => exact same_fail
  | parse => exact same_mapP (hp (by simp)) fun _ => rfl
  | skip => exact same_value (hp (by simp)) rfl
  | map f => exact same_mapP (hp (by simp)) fun a => by simp [hb a]
  | flatMap f => exact same_mapP (hp (by simp)) fun a => hb a

theorem same_conditionalUnit {α β : Type} {b : Behavior α} {p : P β} {f : β → β}
    (hp : b ≠ .ignore → Same K f p) : Same K id (conditionalUnit b p) := by
  unfold conditionalUnit
  cases b with
  | ignore => exact same_fail
  | parse => exact same_unit (hp (by simp))
  | skip => exact same_unit (hp (by simp))
  | map f => exact same_unit (hp (by simp))
  | flatMap f => exact same_unit (hp (by simp))

variable {rec : P (List Block)}

/-- The traps that matter are excluded. -/
structure Traps.For (K : Traps) (cfg : PConfig) : Prop where
  defs : cfg.linkDefinition ≠ .ignore → K.defs ≠ .off
  html : cfg.htmlBlock ≠ .ignore → K.html = true

theorem same_notAParagraphLine [Con rec] (hK : K.For cfg) (hc : cfg.customBlock = none)
    (hr : Same K (List.map unixBlock) rec) : Same K id (notAParagraphLine x cfg rec) := by
  unfold notAParagraphLine
  rw [hc]
  exact same_orElse (same_conditionalUnit fun _ => same_headingV1)
    (same_orElse (same_conditionalUnit fun _ => same_headingV2Level)
    (same_orElse (same_conditionalUnit fun _ => same_thematicBreak)
    (same_orElse (same_conditionalUnit fun _ => same_blockquote hr)
    (same_orElse (same_conditionalUnit fun _ => same_listItem hr)
    (same_orElse (same_conditionalUnit fun _ => same_codeFenced)
    (same_orElse (same_conditionalUnit fun h => same_htmlBlock (hK.html h))
    (same_orElse (same_conditionalUnit fun h => same_definition (hK.defs h))
    (same_orElse (same_conditionalUnit fun _ => same_footnote hr)
    (same_orElse (same_conditionalUnit fun _ => same_table)
    (same_orElse (same_unit (f := id) same_fail) (same_unit same_blank)))))))))))

theorem same_paragraphLine : Same K id paragraphLine := same_preceded same_indent03 same_line1

theorem same_paragraphLines [Con rec] (hK : K.For cfg) (hc : cfg.customBlock = none)
    (hr : Same K (List.map unixBlock) rec) : Same K id (paragraphLines x cfg rec) := by
  have := same_separatedList0 (q := lineEnding) (same_lineEnding (K := K))
    (same_preceded (same_notP (same_notAParagraphLine (x := x) hK hc hr)) same_paragraphLine)
  rw [map_id_fun] at this
  exact same_lineTerminated this

theorem same_paragraph [Con rec] (hK : K.For cfg) (hc : cfg.customBlock = none)
    (hr : Same K (List.map unixBlock) rec) (b : Bool) : Same K id (paragraphP x cfg rec b) := by
  unfold paragraphP
  refine same_mapOpt (f := id) ?_ fun s r a _ _ => by simp
  split
  · exact same_paragraphLines hK hc hr
  · exact same_mapP (same_seq same_paragraphLine (same_paragraphLines hK hc hr)) fun _ => rfl

theorem same_blockAlt [Con rec] (hco : cfg.CustomOk) (hK : K.For cfg) (hc : cfg.UnixOk)
    (hr : Same K (List.map unixBlock) rec) : Same K (List.map unixBlock) (blockAlt x cfg rec) := by
  have hp := fun b => same_paragraph (x := x) hK hc.custom hr b
  have := paragraphP_con (x := x) hco rec true
  have atom : ∀ {p : P Block}, Same K id p → (∀ s r a, p s = some (r, a) → unixBlock a = a) → Same K unixBlock p := by
    intro p h1 h2 s hs
    rw [h1 s hs]
    cases e : p s with
    | none => rfl
    | some y => simp [h2 s y.1 y.2 e]
  unfold blockAlt
  rw [hc.custom]
  refine same_orElse (same_conditionalBlock hc.codeBlock fun _ => atom same_codeBlock ?_)
    (same_orElse (same_conditionalBlock hc.headingV1 fun _ => atom same_headingV1 ?_)
    (same_orElse (same_conditionalBlock hc.headingV2 fun _ => ?_)
    (same_orElse (same_conditionalBlock hc.thematicBreak fun _ => same_value same_thematicBreak rfl)
    (same_orElse ?_
    (same_orElse (same_conditionalBlock hc.blockquote fun _ => same_blockquote hr)
    (same_orElse (same_conditionalBlock hc.list fun _ => same_list hr)
    (same_orElse (same_conditionalBlock hc.htmlBlock fun h => same_mapP (same_htmlBlock (hK.html h)) fun _ => rfl)
    (same_orElse (same_conditionalBlock hc.footnoteDefinition fun _ => same_footnote hr)
    (same_orElse (same_conditionalBlock hc.linkDefinition fun h => same_definition (hK.defs h))
    (same_orElse (same_conditionalBlock hc.table fun _ => atom same_table ?_)
    (same_orElse (same_fail) (same_conditionalBlock hc.paragraph fun _ => same_mapP (hp false) fun _ => rfl))))))))))))
  · intro s r a h
    unfold codeBlockP at h
    rcases orElse_some.1 h with h | ⟨_, h⟩
    · obtain ⟨l, _, rfl⟩ := mapP_some.1 h; rfl
    · unfold codeBlockFenced at h
      split at h
      · cases h
      · split at h
        · cases h
        · cases h; rfl
  · intro s r a h
    unfold headingV1 at h
    split at h
    · cases h
    · split at h
      · cases h; rfl
      · cases h
  · refine same_mapP (f := Prod.map id (Option.map id)) (same_seq (hp true) (same_opt same_headingV2Level)) ?_
    intro a
    obtain ⟨c, l⟩ := a
    cases l <;> rfl
  · unfold conditionalBlockVec
    split
    · exact same_fail
    · exact same_value (same_alert hr) rfl
    · exact same_alert hr
    · exact same_alert hr
    · exact same_alert hr
  · intro s r a h
    unfold tableP at h
    split at h
    · cases h
    · split at h
      · cases h
      · split at h
        · cases h
        · split at h
          · cases h
          · cases h; rfl

theorem same_blockF (hco : cfg.CustomOk) (hK : K.For cfg) (hc : cfg.UnixOk) :
    ∀ n, Same K (List.map unixBlock) (blockF x cfg n)
  | 0 => same_fail
  | n + 1 => by
    have := blockF_con (x := x) hco n
    exact same_preceded same_emptyLines (same_blockAlt hco hK hc (same_blockF hco hK hc n))

theorem same_end : Same K id (value () (seq (many0 (space1 <||> lineEnding)) eof)) :=
  same_unit (same_seq (same_many0c (same_orElse same_space1_unix same_lineEnding)) same_eof)

theorem same_document (hco : cfg.CustomOk) (hK : K.For cfg) (hc : cfg.UnixOk) {s : Str} (hs : UOk K s) :
    parseMarkdown x cfg (unix s) = (parseMarkdown x cfg s).map unixDoc := by
  have hle : (unix s).length ≤ s.length := List.length_filter_le _ _
  have key : ∀ n, parseMarkdownF x cfg n (unix s) = (parseMarkdownF x cfg n s).map unixDoc := by
    intro n
    unfold parseMarkdownF
    have := blockF_con (x := x) hco n
    have h := same_terminated (same_many0c (same_blockF (x := x) hco hK hc n))
      (same_seq (same_many0c (same_orElse same_space1_unix same_lineEnding)) same_eof) s hs
    rw [h]
    cases terminated (many0 (blockF x cfg n)) (seq (many0 (space1 <||> lineEnding)) eof) s with
    | none => rfl
    | some y => simp [flatten_unix, unixDoc]
  unfold parseMarkdown
  rw [← key (s.length + 1), parseMarkdownF_eq hco (by omega), parseMarkdownF_eq hco (by omega)]

/-- C76: a text with `\r\n` for some or all of its line endings gives the same document as the text with
`\n`, except that the carriage returns remain in what is copied from the input (HTML blocks, the
destinations and titles of link definitions, footnote labels). -/
theorem C76_line_endings (hco : cfg.CustomOk) (hc : cfg.UnixOk) {s : Str} (hs : CrOk s) (ht : NoTraps cfg (unix s)) :
    parseMarkdown x cfg (unix s) = (parseMarkdown x cfg s).map unixDoc := by
  classical
  let d : Defs := if MayDefine (unix s) then .strict else .absent
  by_cases h1 : cfg.linkDefinition = .ignore
  · by_cases h2 : cfg.htmlBlock = .ignore
    · refine same_document (K := ⟨.off, false⟩) hco ⟨fun h => absurd h1 h, fun h => absurd h2 h⟩ hc ⟨hs, ?_⟩
      constructor <;> intro h <;> simp at h
    · refine same_document (K := ⟨.off, true⟩) hco ⟨fun h => absurd h1 h, fun h => rfl⟩ hc ⟨hs, ?_⟩
      exact ⟨by simp, by simp, by simp, fun _ => ht.value h2⟩
  · by_cases hm : MayDefine (unix s)
    · by_cases h2 : cfg.htmlBlock = .ignore
      · refine same_document (K := ⟨.strict, false⟩) hco ⟨fun h => by simp, fun h => absurd h2 h⟩ hc ⟨hs, ?_⟩
        exact ⟨by simp, fun _ => ht.backslash h1 hm, fun _ => ht.label h1 hm, by simp⟩
      · refine same_document (K := ⟨.strict, true⟩) hco ⟨fun h => by simp, fun h => rfl⟩ hc ⟨hs, ?_⟩
        exact ⟨by simp, fun _ => ht.backslash h1 hm, fun _ => ht.label h1 hm, fun _ => ht.value h2⟩
    · have ha : ∀ l, ¬ LineTail (cs!"]:" ++ l) (unix s) := fun l hl => hm ⟨l, hl⟩
      by_cases h2 : cfg.htmlBlock = .ignore
      · refine same_document (K := ⟨.absent, false⟩) hco ⟨fun h => by simp, fun h => absurd h2 h⟩ hc ⟨hs, ?_⟩
        exact ⟨fun _ => ha, by simp, by simp, by simp⟩
      · refine same_document (K := ⟨.absent, true⟩) hco ⟨fun h => by simp, fun h => rfl⟩ hc ⟨hs, ?_⟩
        exact ⟨fun _ => ha, by simp, by simp, fun _ => ht.value h2⟩

end

/-! ## The usual direction: `\n` turned into `\r\n` -/

/-- The text with `\r\n` for `\n`. -/
def dos (s : Str) : Str := s.flatMap fun c => if c = '\n' then ['\r', '\n'] else [c]

theorem dos_cons (c : Char) (s : Str) : dos (c :: s) = (if c = '\n' then ['\r', '\n'] else [c]) ++ dos s := rfl

theorem unix_dos {s : Str} (h : '\r' ∉ s) : unix (dos s) = s := by
  induction s with
  | nil => rfl
  | cons c s ih =>
    simp only [List.mem_cons, not_or] at h
    rw [dos_cons, unix_append, ih h.2]
    split
    · rename_i hc; subst hc; rfl
    · rw [unix_cons (fun e => h.1 e.symm)]; rfl

theorem dos_crOk {s : Str} (h : '\r' ∉ s) : CrOk (dos s) := by
  induction s with
  | nil => exact .of_noCr (by simp [dos])
  | cons c s ih =>
    simp only [List.mem_cons, not_or] at h
    rw [dos_cons]
    refine CrOk.append ?_ (ih h.2)
    split
    · intro r hr
      rcases List.suffix_cons_iff.1 hr with h1 | h1
      · cases h1; rfl
      · rcases List.suffix_cons_iff.1 h1 with h2 | h2
        · simp at h2
        · simp at h2
    · exact .of_noCr (by simp; exact h.1)

/-- C76 for a text with `\n` only, saved with `\r\n`: the document is the same up to the carriage returns
in copied text. -/
theorem C76_dos {x : PExt} {cfg : PConfig} (hco : cfg.CustomOk) (hc : cfg.UnixOk) {s : Str} (hs : '\r' ∉ s)
    (ht : NoTraps cfg s) :
    (parseMarkdown x cfg (dos s)).map unixDoc = parseMarkdown x cfg s := by
  have := C76_line_endings (x := x) hco hc (dos_crOk hs) (by rwa [unix_dos hs])
  rw [← this, unix_dos hs]

/-! ## Documents without copied text -/

mutual
/-- No HTML block, link definition or footnote definition. -/
def copiesNothing : Block → Bool
  | .htmlBlock _ | .definition _ _ _ | .footnoteDefinition _ _ => false
  | .blockQuote b | .githubAlert _ b => copyNothing b
  | .list _ items => itemsCopyNothing items
  | _ => true
/-- `copiesNothing` for blocks. -/
def copyNothing : List Block → Bool
  | [] => true
  | b :: l => copiesNothing b && copyNothing l
/-- `copiesNothing` for items. -/
def itemsCopyNothing : List ListItem → Bool
  | [] => true
  | .mk _ b :: l => copyNothing b && itemsCopyNothing l
end

theorem unix_copiesNothing :
    (∀ b, copiesNothing b = true → unixBlock b = b) ∧
    (∀ i : ListItem, copyNothing i.blocks = true → unixItem i = i) ∧
    (∀ l, copyNothing l = true → unixBlocks l = l) ∧
    (∀ l, itemsCopyNothing l = true → unixItems l = l) := by
  apply Block.ind
  case nilB => intro _; rfl
  case nilI => intro _; rfl
  case consB =>
    intro b l hb hl h
    rw [copyNothing, Bool.and_eq_true] at h
    rw [unixBlocks, hb h.1, hl h.2]
  case consI =>
    intro b l hb hl h
    cases b
    rw [itemsCopyNothing, Bool.and_eq_true] at h
    rw [unixItems, hb h.1, hl h.2]
  case item => intro t b ih h; rw [unixItem, ih h]
  case blockQuote => intro b ih h; rw [copiesNothing] at h; rw [unixBlock, ih h]
  case githubAlert => intro t b ih h; rw [copiesNothing] at h; rw [unixBlock, ih h]
  case list => intro k b ih h; rw [copiesNothing] at h; rw [unixBlock, ih h]
  case htmlBlock => intro _ h; cases h
  case definition => intro _ _ _ h; cases h
  case footnoteDefinition => intro _ _ _ h; cases h
  all_goals intros; rfl

/-- C76: in a document without HTML blocks, link and footnote definitions the line endings make no
difference at all. -/
theorem C76_equal {x : PExt} {cfg : PConfig} (hco : cfg.CustomOk) (hc : cfg.UnixOk) {s : Str} (hs : CrOk s)
    (ht : NoTraps cfg (unix s)) {d : Document} (hd : parseMarkdown x cfg s = some d)
    (hn : ∀ b ∈ d.blocks, copiesNothing b = true) : parseMarkdown x cfg (unix s) = some d := by
  rw [C76_line_endings hco hc hs ht, hd]
  have : copyNothing d.blocks = true := by
    generalize d.blocks = l at hn
    induction l with
    | nil => rfl
    | cons b l ih =>
      rw [copyNothing, hn b (by simp), ih fun c hc => hn c (by simp [hc])]; rfl
  simp [unixDoc, unix_copiesNothing.2.2.1 _ this]

/-! ## Examples -/

/-- Texts without `]:` and `=` contain no traps. -/
theorem noTraps_plain {cfg : PConfig} {s : Str} (h1 : ∀ u t, s ≠ u ++ (cs!"]:" ++ t)) (h2 : '=' ∉ s) :
    NoTraps cfg s := by
  have h3 : ¬ MayDefine s := by
    rintro ⟨l, _, u, r, rfl, _⟩
    exact h1 u (l ++ r) (by simp)
  exact ⟨fun _ h => absurd h h3, fun _ h => absurd h h3, fun _ b q _ ⟨_, u, r, e, _⟩ => by
    exfalso; apply h2; rw [e]; simp⟩

/-- A text with Windows line endings, and its document. -/
theorem C76_example :
    parseMarkdown PExt.ascii (PConfig.default fun _ => none)
      cs!"a  \r\nb\\\r\nc\r\n===\r\n- d\r\n\r\n  e\r\n\r\n> f\r\n> g\r\n\r\n~~~\r\nh\r\n~~~\r\n<!--\r\n-->" =
      some ⟨[.heading (.setext .level1) [.text cs!"a", .lineBreak, .text cs!"b", .lineBreak, .text cs!"c"],
        .list (.bullet .dash) [.mk none [.paragraph [.text cs!"d"], .paragraph [.text cs!"e"]]],
        .blockQuote [.paragraph [.text cs!"f\ng"]], .codeBlock (.fenced none) cs!"h", .htmlBlock cs!"<!--\r\n-->"]⟩ := by
  decide +kernel

/-- The traps matter: with each of them Windows line endings give another document. -/
theorem C76_boundaries :
    ∀ s ∈ [cs!"[a]: b\\\n", cs!"[a\nb]: c", cs!"<a b='\n'>\n"],
      (parseMarkdown PExt.ascii (PConfig.default fun _ => none) (dos s)).map unixDoc ≠
        parseMarkdown PExt.ascii (PConfig.default fun _ => none) s := by
  decide +kernel

/-- Carriage returns that end no line are not line endings. -/
theorem C76_lone :
    parseMarkdown PExt.ascii (PConfig.default fun _ => none) cs!"# a\r# b" =
      some ⟨[.heading (.atx 1) [.text cs!"a\r# b"]]⟩ := by
  decide +kernel

/-- The hypotheses of the theorem are met. -/
example : CrOk cs!"a\r\n- b\r\n" ∧ NoTraps (PConfig.default fun _ => none) (unix cs!"a\r\n- b\r\n") := by
  refine ⟨dos_crOk (s := cs!"a\n- b\n") (by decide), noTraps_plain ?_ (by decide)⟩
  intro u t h
  have : ']' ∈ unix cs!"a\r\n- b\r\n" := by rw [h]; simp
  exact absurd this (by decide)

end Verif
