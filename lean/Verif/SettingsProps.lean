import Verif.Settings

/-!
# A configuration is what the last call of each setter says

The specification is written on the list of calls: `PSetter.…?` reads the value a call gives to one
setting, if it is a call of that setting's setter, and the value of the setting after a chain is that of
the last such call, or the one it started with when there is none.
-/

set_option autoImplicit false



namespace Verif

open Nom

namespace Settings

/-- The value of the last call that sets what `pick` reads, or `dflt` if no call does. -/
def lastSet {κ α : Type} (pick : κ → Option α) (calls : List κ) (dflt : α) : α :=
  ((calls.filterMap pick).getLast?).getD dflt

theorem last_of {σ κ α : Type} (step : σ → κ → σ) (f : σ → α) (pick : κ → Option α)
    (h : ∀ c k, f (step c k) = (pick k).getD (f c)) (calls : List κ) :
    ∀ c, f (calls.foldl step c) = lastSet pick calls (f c) := by
  induction calls with
  | nil => intro c; rfl
  | cons k ks ih =>
    intro c
    rw [List.foldl_cons, ih, h]
    unfold lastSet
    rw [List.filterMap_cons]
    rcases hk : pick k with _ | v
    · rfl
    · simp only [Option.getD_some, List.getLast?_cons]

end Settings

/-- What a call of `with_allow_no_space_in_headings` sets; any other call sets nothing here. -/
def PSetter.allowNoSpaceInHeadings? : PSetter → Option (Bool)
  | .allowNoSpaceInHeadings => some true
  | _ => none

/-- What a call of `with_html_entities_map` sets; any other call sets nothing here. -/
def PSetter.entities? : PSetter → Option (Str → Option Str)
  | .entities v => some v
  | _ => none

/-- What a call of `with_block_blockquote_behavior` sets; any other call sets nothing here. -/
def PSetter.blockquote? : PSetter → Option (Behavior Block)
  | .blockquote v => some v
  | _ => none

/-- What a call of `with_block_github_alert_behavior` sets; any other call sets nothing here. -/
def PSetter.githubAlert? : PSetter → Option (Behavior Block)
  | .githubAlert v => some v
  | _ => none

/-- What a call of `with_block_heading_v1_behavior` sets; any other call sets nothing here. -/
def PSetter.headingV1? : PSetter → Option (Behavior Block)
  | .headingV1 v => some v
  | _ => none

/-- What a call of `with_block_heading_v2_behavior` sets; any other call sets nothing here. -/
def PSetter.headingV2? : PSetter → Option (Behavior Block)
  | .headingV2 v => some v
  | _ => none

/-- What a call of `with_block_thematic_break_behavior` sets; any other call sets nothing here. -/
def PSetter.thematicBreak? : PSetter → Option (Behavior Block)
  | .thematicBreak v => some v
  | _ => none

/-- What a call of `with_block_list_behavior` sets; any other call sets nothing here. -/
def PSetter.list? : PSetter → Option (Behavior Block)
  | .list v => some v
  | _ => none

/-- What a call of `with_block_code_block_behavior` sets; any other call sets nothing here. -/
def PSetter.codeBlock? : PSetter → Option (Behavior Block)
  | .codeBlock v => some v
  | _ => none

/-- What a call of `with_block_html_block_behavior` sets; any other call sets nothing here. -/
def PSetter.htmlBlock? : PSetter → Option (Behavior Block)
  | .htmlBlock v => some v
  | _ => none

/-- What a call of `with_block_footnote_definition_behavior` sets; any other call sets nothing here. -/
def PSetter.footnoteDefinition? : PSetter → Option (Behavior Block)
  | .footnoteDefinition v => some v
  | _ => none

/-- What a call of `with_block_link_definition_behavior` sets; any other call sets nothing here. -/
def PSetter.linkDefinition? : PSetter → Option (Behavior Block)
  | .linkDefinition v => some v
  | _ => none

/-- What a call of `with_block_table_behavior` sets; any other call sets nothing here. -/
def PSetter.table? : PSetter → Option (Behavior Block)
  | .table v => some v
  | _ => none

/-- What a call of `with_block_paragraph_behavior` sets; any other call sets nothing here. -/
def PSetter.paragraph? : PSetter → Option (Behavior Block)
  | .paragraph v => some v
  | _ => none

/-- What a call of `with_inline_autolink_behavior` sets; any other call sets nothing here. -/
def PSetter.autolink? : PSetter → Option (Behavior Inline)
  | .autolink v => some v
  | _ => none

/-- What a call of `with_inline_link_behavior` sets; any other call sets nothing here. -/
def PSetter.link? : PSetter → Option (Behavior Inline)
  | .link v => some v
  | _ => none

/-- What a call of `with_inline_footnote_reference_behavior` sets; any other call sets nothing here. -/
def PSetter.footnoteReference? : PSetter → Option (Behavior Inline)
  | .footnoteReference v => some v
  | _ => none

/-- What a call of `with_inline_reference_link_behavior` sets; any other call sets nothing here. -/
def PSetter.referenceLink? : PSetter → Option (Behavior Inline)
  | .referenceLink v => some v
  | _ => none

/-- What a call of `with_inline_hard_newline_behavior` sets; any other call sets nothing here. -/
def PSetter.hardNewline? : PSetter → Option (Behavior Inline)
  | .hardNewline v => some v
  | _ => none

/-- What a call of `with_inline_image_behavior` sets; any other call sets nothing here. -/
def PSetter.image? : PSetter → Option (Behavior Inline)
  | .image v => some v
  | _ => none

/-- What a call of `with_inline_code_span_behavior` sets; any other call sets nothing here. -/
def PSetter.codeSpan? : PSetter → Option (Behavior Inline)
  | .codeSpan v => some v
  | _ => none

/-- What a call of `with_inline_emphasis_behavior` sets; any other call sets nothing here. -/
def PSetter.emphasis? : PSetter → Option (Behavior Inline)
  | .emphasis v => some v
  | _ => none

/-- What a call of `with_inline_strikethrough_behavior` sets; any other call sets nothing here. -/
def PSetter.strikethrough? : PSetter → Option (Behavior Inline)
  | .strikethrough v => some v
  | _ => none

/-- What a call of `with_inline_text_behavior` sets; any other call sets nothing here. -/
def PSetter.text? : PSetter → Option (Behavior Inline)
  | .text v => some v
  | _ => none

/-- What a call of `with_custom_block_parser` sets; any other call sets nothing here. -/
def PSetter.customBlock? : PSetter → Option (P (List Block))
  | .customBlock v => some v
  | _ => none

/-- What a call of `with_custom_inline_parser` sets; any other call sets nothing here. -/
def PSetter.customInline? : PSetter → Option (P (List Inline))
  | .customInline v => some v
  | _ => none

/-- **C96.**  Whatever the chain of setter calls on a parser configuration, each of its twenty-six
settings is the value of the last call of its own setter in the chain, or what it was before the chain if
it has no call of that setter: no setter touches another's setting. -/
theorem C96_parser (c : PConfig) (calls : List PSetter) :
    c.after calls =
      { allowNoSpaceInHeadings := Settings.lastSet PSetter.allowNoSpaceInHeadings? calls c.allowNoSpaceInHeadings
        entities := Settings.lastSet PSetter.entities? calls c.entities
        blockquote := Settings.lastSet PSetter.blockquote? calls c.blockquote
        githubAlert := Settings.lastSet PSetter.githubAlert? calls c.githubAlert
        headingV1 := Settings.lastSet PSetter.headingV1? calls c.headingV1
        headingV2 := Settings.lastSet PSetter.headingV2? calls c.headingV2
        thematicBreak := Settings.lastSet PSetter.thematicBreak? calls c.thematicBreak
        list := Settings.lastSet PSetter.list? calls c.list
        codeBlock := Settings.lastSet PSetter.codeBlock? calls c.codeBlock
        htmlBlock := Settings.lastSet PSetter.htmlBlock? calls c.htmlBlock
        footnoteDefinition := Settings.lastSet PSetter.footnoteDefinition? calls c.footnoteDefinition
        linkDefinition := Settings.lastSet PSetter.linkDefinition? calls c.linkDefinition
        table := Settings.lastSet PSetter.table? calls c.table
        paragraph := Settings.lastSet PSetter.paragraph? calls c.paragraph
        autolink := Settings.lastSet PSetter.autolink? calls c.autolink
        link := Settings.lastSet PSetter.link? calls c.link
        footnoteReference := Settings.lastSet PSetter.footnoteReference? calls c.footnoteReference
        referenceLink := Settings.lastSet PSetter.referenceLink? calls c.referenceLink
        hardNewline := Settings.lastSet PSetter.hardNewline? calls c.hardNewline
        image := Settings.lastSet PSetter.image? calls c.image
        codeSpan := Settings.lastSet PSetter.codeSpan? calls c.codeSpan
        emphasis := Settings.lastSet PSetter.emphasis? calls c.emphasis
        strikethrough := Settings.lastSet PSetter.strikethrough? calls c.strikethrough
        text := Settings.lastSet PSetter.text? calls c.text
        customBlock := Settings.lastSet (fun k => k.customBlock?.map some) calls c.customBlock
        customInline := Settings.lastSet (fun k => k.customInline?.map some) calls c.customInline } := by
  have ext : ∀ a b : PConfig, a.allowNoSpaceInHeadings = b.allowNoSpaceInHeadings → a.entities = b.entities → a.blockquote = b.blockquote → a.githubAlert = b.githubAlert → a.headingV1 = b.headingV1 → a.headingV2 = b.headingV2 → a.thematicBreak = b.thematicBreak → a.list = b.list → a.codeBlock = b.codeBlock → a.htmlBlock = b.htmlBlock → a.footnoteDefinition = b.footnoteDefinition → a.linkDefinition = b.linkDefinition → a.table = b.table → a.paragraph = b.paragraph → a.autolink = b.autolink → a.link = b.link → a.footnoteReference = b.footnoteReference → a.referenceLink = b.referenceLink → a.hardNewline = b.hardNewline → a.image = b.image → a.codeSpan = b.codeSpan → a.emphasis = b.emphasis → a.strikethrough = b.strikethrough → a.text = b.text → a.customBlock = b.customBlock → a.customInline = b.customInline → a = b := by
    intro a b; cases a; cases b; simp only; intros; simp only [PConfig.mk.injEq]; simp_all
  apply ext
  · exact Settings.last_of PSetter.call (·.allowNoSpaceInHeadings) PSetter.allowNoSpaceInHeadings? (by intro c k; cases k <;> rfl) calls c
  · exact Settings.last_of PSetter.call (·.entities) PSetter.entities? (by intro c k; cases k <;> rfl) calls c
  · exact Settings.last_of PSetter.call (·.blockquote) PSetter.blockquote? (by intro c k; cases k <;> rfl) calls c
  · exact Settings.last_of PSetter.call (·.githubAlert) PSetter.githubAlert? (by intro c k; cases k <;> rfl) calls c
  · exact Settings.last_of PSetter.call (·.headingV1) PSetter.headingV1? (by intro c k; cases k <;> rfl) calls c
  · exact Settings.last_of PSetter.call (·.headingV2) PSetter.headingV2? (by intro c k; cases k <;> rfl) calls c
  · exact Settings.last_of PSetter.call (·.thematicBreak) PSetter.thematicBreak? (by intro c k; cases k <;> rfl) calls c
  · exact Settings.last_of PSetter.call (·.list) PSetter.list? (by intro c k; cases k <;> rfl) calls c
  · exact Settings.last_of PSetter.call (·.codeBlock) PSetter.codeBlock? (by intro c k; cases k <;> rfl) calls c
  · exact Settings.last_of PSetter.call (·.htmlBlock) PSetter.htmlBlock? (by intro c k; cases k <;> rfl) calls c
  · exact Settings.last_of PSetter.call (·.footnoteDefinition) PSetter.footnoteDefinition? (by intro c k; cases k <;> rfl) calls c
  · exact Settings.last_of PSetter.call (·.linkDefinition) PSetter.linkDefinition? (by intro c k; cases k <;> rfl) calls c
  · exact Settings.last_of PSetter.call (·.table) PSetter.table? (by intro c k; cases k <;> rfl) calls c
  · exact Settings.last_of PSetter.call (·.paragraph) PSetter.paragraph? (by intro c k; cases k <;> rfl) calls c
  · exact Settings.last_of PSetter.call (·.autolink) PSetter.autolink? (by intro c k; cases k <;> rfl) calls c
  · exact Settings.last_of PSetter.call (·.link) PSetter.link? (by intro c k; cases k <;> rfl) calls c
  · exact Settings.last_of PSetter.call (·.footnoteReference) PSetter.footnoteReference? (by intro c k; cases k <;> rfl) calls c
  · exact Settings.last_of PSetter.call (·.referenceLink) PSetter.referenceLink? (by intro c k; cases k <;> rfl) calls c
  · exact Settings.last_of PSetter.call (·.hardNewline) PSetter.hardNewline? (by intro c k; cases k <;> rfl) calls c
  · exact Settings.last_of PSetter.call (·.image) PSetter.image? (by intro c k; cases k <;> rfl) calls c
  · exact Settings.last_of PSetter.call (·.codeSpan) PSetter.codeSpan? (by intro c k; cases k <;> rfl) calls c
  · exact Settings.last_of PSetter.call (·.emphasis) PSetter.emphasis? (by intro c k; cases k <;> rfl) calls c
  · exact Settings.last_of PSetter.call (·.strikethrough) PSetter.strikethrough? (by intro c k; cases k <;> rfl) calls c
  · exact Settings.last_of PSetter.call (·.text) PSetter.text? (by intro c k; cases k <;> rfl) calls c
  · exact Settings.last_of PSetter.call (·.customBlock) (fun k => k.customBlock?.map some) (by intro c k; cases k <;> rfl) calls c
  · exact Settings.last_of PSetter.call (·.customInline) (fun k => k.customInline?.map some) (by intro c k; cases k <;> rfl) calls c

namespace Md

/-- What a call sets for `width`, if it is a call of that setter. -/
def Setter.width? : Setter → Option Nat
  | .width v => some v
  | _ => none

/-- What a call sets for `spacesBeforeListItem`, if it is a call of that setter. -/
def Setter.spacesBeforeListItem? : Setter → Option Nat
  | .spacesBeforeListItem v => some v
  | _ => none

/-- What a call sets for `emptyLineBeforeList`, if it is a call of that setter. -/
def Setter.emptyLineBeforeList? : Setter → Option Bool
  | .emptyLineBeforeList v => some v
  | _ => none

/-- **C96.**  The same for the configuration of the markdown printer. -/
theorem C96_markdown (c : Config) (calls : List Setter) :
    c.after calls =
      { width := Settings.lastSet Setter.width? calls c.width
        spacesBeforeListItem := Settings.lastSet Setter.spacesBeforeListItem? calls c.spacesBeforeListItem
        emptyLineBeforeList := Settings.lastSet Setter.emptyLineBeforeList? calls c.emptyLineBeforeList } := by
  have ext : ∀ a b : Config, a.width = b.width → a.spacesBeforeListItem = b.spacesBeforeListItem → a.emptyLineBeforeList = b.emptyLineBeforeList → a = b := by
    intro a b; cases a; cases b; simp only; intros; simp_all
  apply ext
  · exact Settings.last_of Setter.call (·.width) Setter.width? (by intro c k; cases k <;> rfl) calls c
  · exact Settings.last_of Setter.call (·.spacesBeforeListItem) Setter.spacesBeforeListItem? (by intro c k; cases k <;> rfl) calls c
  · exact Settings.last_of Setter.call (·.emptyLineBeforeList) Setter.emptyLineBeforeList? (by intro c k; cases k <;> rfl) calls c

end Md

namespace Html

/-- What a call sets for `width`, if it is a call of that setter. -/
def Setter.width? : Setter → Option Nat
  | .width v => some v
  | _ => none

/-- What a call sets for `anchorPrefix`, if it is a call of that setter. -/
def Setter.anchorPrefix? : Setter → Option Str
  | .anchorPrefix v => some v
  | _ => none

/-- **C96.**  The same for the configuration of the HTML printer. -/
theorem C96_html (c : Config) (calls : List Setter) :
    c.after calls =
      { width := Settings.lastSet Setter.width? calls c.width
        anchorPrefix := Settings.lastSet Setter.anchorPrefix? calls c.anchorPrefix } := by
  have ext : ∀ a b : Config, a.width = b.width → a.anchorPrefix = b.anchorPrefix → a = b := by
    intro a b; cases a; cases b; simp only; intros; simp_all
  apply ext
  · exact Settings.last_of Setter.call (·.width) Setter.width? (by intro c k; cases k <;> rfl) calls c
  · exact Settings.last_of Setter.call (·.anchorPrefix) Setter.anchorPrefix? (by intro c k; cases k <;> rfl) calls c

end Html

namespace Latex

/-- What a call sets for `width`, if it is a call of that setter. -/
def Setter.width? : Setter → Option Nat
  | .width v => some v
  | _ => none

/-- What a call sets for `tableStyle`, if it is a call of that setter. -/
def Setter.tableStyle? : Setter → Option TableStyle
  | .tableStyle v => some v
  | _ => none

/-- What a call sets for `codeBlockStyle`, if it is a call of that setter. -/
def Setter.codeBlockStyle? : Setter → Option CodeBlockStyle
  | .codeBlockStyle v => some v
  | _ => none

/-- **C96.**  The same for the configuration of the LaTeX printer. -/
theorem C96_latex (c : Config) (calls : List Setter) :
    c.after calls =
      { width := Settings.lastSet Setter.width? calls c.width
        tableStyle := Settings.lastSet Setter.tableStyle? calls c.tableStyle
        codeBlockStyle := Settings.lastSet Setter.codeBlockStyle? calls c.codeBlockStyle } := by
  have ext : ∀ a b : Config, a.width = b.width → a.tableStyle = b.tableStyle → a.codeBlockStyle = b.codeBlockStyle → a = b := by
    intro a b; cases a; cases b; simp only; intros; simp_all
  apply ext
  · exact Settings.last_of Setter.call (·.width) Setter.width? (by intro c k; cases k <;> rfl) calls c
  · exact Settings.last_of Setter.call (·.tableStyle) Setter.tableStyle? (by intro c k; cases k <;> rfl) calls c
  · exact Settings.last_of Setter.call (·.codeBlockStyle) Setter.codeBlockStyle? (by intro c k; cases k <;> rfl) calls c

end Latex

/-- **C96.**  Calls of two different setters can be made in either order. -/
theorem C96_swap (c : PConfig) (before after : List PSetter) (a b : PSetter)
    (h : a.ctorIdx ≠ b.ctorIdx) :
    c.after (before ++ a :: b :: after) = c.after (before ++ b :: a :: after) := by
  have key : ∀ d : PConfig, PSetter.call (PSetter.call d a) b = PSetter.call (PSetter.call d b) a := by
    intro d
    cases a <;> cases b <;> first | rfl | exact absurd rfl h
  unfold PConfig.after
  rw [List.foldl_append, List.foldl_append, List.foldl_cons, List.foldl_cons, List.foldl_cons,
    List.foldl_cons, key]

/-- **C96.**  A call is forgotten when the same setter is called again later. -/
theorem C96_again (c : PConfig) (before between after : List PSetter) (a b : PSetter)
    (h : a.ctorIdx = b.ctorIdx) :
    c.after (before ++ a :: (between ++ b :: after)) = c.after (before ++ (between ++ b :: after)) := by
  rw [C96_parser, C96_parser]
  have key : ∀ {α : Type} (pick : PSetter → Option α) (d : α),
      ((pick a).isSome = true → (pick b).isSome = true) →
      Settings.lastSet pick (before ++ a :: (between ++ b :: after)) d =
        Settings.lastSet pick (before ++ (between ++ b :: after)) d := by
    intro α pick d hp
    unfold Settings.lastSet
    simp only [List.filterMap_append, List.filterMap_cons]
    rcases ha : pick a with _ | x
    · rfl
    · rcases hb : pick b with _ | y
      · rw [ha, hb] at hp; exact absurd (hp rfl) (by simp)
      · simp [List.getLast?_append, List.getLast?_cons]
  congr 1 <;> apply key <;> intro hs <;> cases a <;>
    first
    | exact absurd (show false = true from hs) (by decide)
    | (cases b <;> first | rfl | exact (nomatch h))

/-- **C96.**  The map of named references holds, for each name, the characters of the last entry of that
name in the table it is made from, and nothing for a name with no entry. -/
theorem C96_entities (table : List (Str × Str)) (name : Str) :
    makeEntitiesMap table name = ((table.filter (fun e => e.1 = name)).getLast?).map (·.2) := by
  unfold makeEntitiesMap
  suffices h : ∀ (m : Str → Option Str),
      table.foldl (fun m e => fun n => if n = e.1 then some e.2 else m n) m name =
        (((table.filter (fun e => e.1 = name)).getLast?).map (·.2)).or (m name) by
    rw [h]; simp
  induction table with
  | nil => intro m; rfl
  | cons e es ih =>
    intro m
    rw [List.foldl_cons, ih, List.filter_cons]
    by_cases hn : e.1 = name
    · subst hn
      simp only [if_true, decide_true, List.getLast?_cons]
      generalize (List.filter _ es).getLast? = o
      cases o <;> rfl
    · have : ¬ name = e.1 := fun h => hn h.symm
      simp [hn, this]

theorem Settings.lastSet_filter {α : Type} (pick : PSetter → Option α) (i : Nat)
    (h : ∀ k, (pick k).isSome = decide (k.ctorIdx = i)) (d : α) (calls : List PSetter) :
    Settings.lastSet pick calls d =
      (((calls.filter (fun k => k.ctorIdx = i)).getLast?).bind pick).getD d := by
  have key : (calls.filterMap pick).getLast? =
      ((calls.filter (fun k => k.ctorIdx = i)).getLast?).bind pick := by
    induction calls with
    | nil => rfl
    | cons k ks ih =>
      rw [List.filterMap_cons, List.filter_cons]
      have hk := h k
      rcases hp : pick k with _ | v
      · rw [hp] at hk
        simp only [← hk, Option.isSome_none]
        exact ih
      · rw [hp] at hk
        simp only [← hk, Option.isSome_some, if_true, List.getLast?_cons, ih]
        rcases hl : (ks.filter (fun k => decide (k.ctorIdx = i))).getLast? with _ | x
        · rw [hl]; exact hp.symm
        · have hx : x.ctorIdx = i := by
            have := List.mem_of_getLast? hl
            simpa using (List.mem_filter.mp this).2
          have := h x
          rw [hx] at this
          rcases hq : pick x with _ | y
          · rw [hq] at this; simp at this
          · rw [hl]; simp only [Option.bind_some, Option.getD_some, hq]
  unfold Settings.lastSet
  rw [key]

/-- **C96.**  Two chains of calls in which the last call of each setter is the same make the same
configuration, so that every text is parsed to the same document. -/
theorem C96_parse (u : PExt) (c : PConfig) (calls calls' : List PSetter)
    (h : ∀ i, (calls.filter (fun k => k.ctorIdx = i)).getLast? =
      (calls'.filter (fun k => k.ctorIdx = i)).getLast?) (s : Str) :
    parseMarkdown u (c.after calls) s = parseMarkdown u (c.after calls') s := by
  have key : ∀ {α : Type} (pick : PSetter → Option α) (i : Nat) (d : α),
      (∀ k, (pick k).isSome = decide (k.ctorIdx = i)) →
      Settings.lastSet pick calls d = Settings.lastSet pick calls' d := by
    intro α pick i d hp
    rw [Settings.lastSet_filter pick i hp, Settings.lastSet_filter pick i hp, h]
  rw [C96_parser, C96_parser]
  rw [key PSetter.allowNoSpaceInHeadings? 0 c.allowNoSpaceInHeadings (by intro k; cases k <;> rfl)]
  rw [key PSetter.entities? 1 c.entities (by intro k; cases k <;> rfl)]
  rw [key PSetter.blockquote? 2 c.blockquote (by intro k; cases k <;> rfl)]
  rw [key PSetter.githubAlert? 3 c.githubAlert (by intro k; cases k <;> rfl)]
  rw [key PSetter.headingV1? 4 c.headingV1 (by intro k; cases k <;> rfl)]
  rw [key PSetter.headingV2? 5 c.headingV2 (by intro k; cases k <;> rfl)]
  rw [key PSetter.thematicBreak? 6 c.thematicBreak (by intro k; cases k <;> rfl)]
  rw [key PSetter.list? 7 c.list (by intro k; cases k <;> rfl)]
  rw [key PSetter.codeBlock? 8 c.codeBlock (by intro k; cases k <;> rfl)]
  rw [key PSetter.htmlBlock? 9 c.htmlBlock (by intro k; cases k <;> rfl)]
  rw [key PSetter.footnoteDefinition? 10 c.footnoteDefinition (by intro k; cases k <;> rfl)]
  rw [key PSetter.linkDefinition? 11 c.linkDefinition (by intro k; cases k <;> rfl)]
  rw [key PSetter.table? 12 c.table (by intro k; cases k <;> rfl)]
  rw [key PSetter.paragraph? 13 c.paragraph (by intro k; cases k <;> rfl)]
  rw [key PSetter.autolink? 14 c.autolink (by intro k; cases k <;> rfl)]
  rw [key PSetter.link? 15 c.link (by intro k; cases k <;> rfl)]
  rw [key PSetter.footnoteReference? 16 c.footnoteReference (by intro k; cases k <;> rfl)]
  rw [key PSetter.referenceLink? 17 c.referenceLink (by intro k; cases k <;> rfl)]
  rw [key PSetter.hardNewline? 18 c.hardNewline (by intro k; cases k <;> rfl)]
  rw [key PSetter.image? 19 c.image (by intro k; cases k <;> rfl)]
  rw [key PSetter.codeSpan? 20 c.codeSpan (by intro k; cases k <;> rfl)]
  rw [key PSetter.emphasis? 21 c.emphasis (by intro k; cases k <;> rfl)]
  rw [key PSetter.strikethrough? 22 c.strikethrough (by intro k; cases k <;> rfl)]
  rw [key PSetter.text? 23 c.text (by intro k; cases k <;> rfl)]
  rw [key (fun k => k.customBlock?.map some) 24 c.customBlock (by intro k; cases k <;> rfl)]
  rw [key (fun k => k.customInline?.map some) 25 c.customInline (by intro k; cases k <;> rfl)]

/-- A chain of six calls, two of them of the same setter, and what it arrives at. -/
example (e : Str → Option Str) (f : Block → List Block) (g : Inline → Inline) :
    let c := (PConfig.default e).after
      [.list .ignore, .emphasis (.map g), .list (.flatMap f), .allowNoSpaceInHeadings, .table .skip,
        .text .parse]
    c = { entities := e, allowNoSpaceInHeadings := true, list := .flatMap f, table := .skip,
          emphasis := .map g } := rfl

example (a b : Behavior Block) : (PSetter.list a).ctorIdx ≠ (PSetter.table b).ctorIdx := nofun

example : makeEntitiesMap [(cs!"&a;", cs!"x"), (cs!"&b;", cs!"y"), (cs!"&a;", cs!"z")] cs!"&a;"
    = some cs!"z" := by decide

example : Md.Config.after ⟨80, 1, true⟩ [.width 40, .emptyLineBeforeList false, .width 60]
    = ⟨60, 1, false⟩ := rfl

end Verif
