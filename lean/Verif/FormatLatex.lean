import Verif.FormatHtml
import Verif.LatexExact
/-!
# C107: formatting a document does not change its LaTeX
-/
set_option autoImplicit false
namespace Verif
namespace Latex
open Md.Spec (collapse squashInline squashInlines squashBlock squashBlocks squashItem squashItems)
open Exact Source
open Html (squashed LabelsUnbroken AllUnbroken)

/-! ## Specification -/

/-- A text that consists of whitespace is a space or a line break. -/
def OneBlank (t : Str) : Prop := (∀ c ∈ t, isWs c = true) → t = [] ∨ t = cs!" " ∨ t = cs!"\n"

/-- No text of the document consists of other whitespace than one space or one line break. -/
def SingleBlanks (d : Document) : Prop := ∀ t, d.HasInline (.text t) → OneBlank t

/-! ## The pieces of squashed texts -/

theorem collapse_words (t : Str) :
    Md.Spec.wordsOf (collapse false t) = Md.Spec.wordsOf t ∧
    Md.Spec.wordsOf (' ' :: collapse true t) = Md.Spec.wordsOf (' ' :: t) := by
  have sp : isWs ' ' = true := by decide
  induction t with
  | nil => exact ⟨rfl, rfl⟩
  | cons c t ih =>
    by_cases hc : isWs c = true
    · have e : Md.Spec.wordsOf (c :: t) = Md.Spec.wordsOf (' ' :: t) := by
        simp only [Md.Spec.wordsOf, hc, sp, if_true]
      constructor
      · simp only [collapse, hc, if_true, Bool.false_eq_true, if_false, ih.2, e]
      · simp only [collapse, hc, if_true, ih.2]
        rw [← e]
        show _ = (if isWs ' ' = true then _ else _)
        rw [sp, if_pos rfl]
        rw [show Md.Spec.wordsOf (c :: t) = (if isWs c = true then (match Md.Spec.wordsOf t with
          | none :: l => none :: l
          | l => none :: l) else _) from rfl, hc, if_pos rfl]
        split <;> rfl
    · constructor
      · simp only [collapse, hc, Bool.false_eq_true, if_false, Md.Spec.wordsOf, ih.1]
      · simp only [collapse, hc, Bool.false_eq_true, if_false, Md.Spec.wordsOf, ih.1]

theorem collapse_blank (t : Str) : ∀ r, (collapse r t).all isWs = t.all isWs := by
  induction t with
  | nil => intro r; rfl
  | cons c t ih =>
    intro r
    have sp : isWs ' ' = true := by decide
    by_cases hc : isWs c = true
    · by_cases hr : r = true
      · simp only [collapse, hc, hr, if_true, ih, List.all_cons, Bool.true_and]
      · simp only [collapse, hc, hr, if_true, ih, List.all_cons, Bool.true_and, Bool.false_eq_true, if_false, sp]
    · simp only [collapse, hc, ih, List.all_cons, Bool.false_eq_true, if_false]

theorem pieces_collapse {t : Str} (h : OneBlank t) : textPieces (collapse false t) = textPieces t := by
  unfold textPieces
  rw [collapse_blank, (collapse_words t).1]
  by_cases hb : t.all isWs = true
  · rcases h (by simpa [List.all_eq_true] using hb) with rfl | rfl | rfl <;> rfl
  · rw [if_neg hb, if_neg hb]

theorem inline_pieces_squash (x : Context) (hx : ∀ l, x.target (squashInlines l) = x.target l) :
    (∀ i, (∀ t, .text t ∈ Inline.pre i → OneBlank t) → inlinePieces x (squashInline i) = inlinePieces x i) ∧
    ∀ l, (∀ t, .text t ∈ Inline.preL l → OneBlank t) → inlinesPieces x (squashInlines l) = inlinesPieces x l := by
  apply Inline.ind
  case text => intro t h; exact pieces_collapse (h t (by simp [Inline.pre]))
  case link =>
    intro d t c ih h
    have e := ih fun t ht => h t (by simp [Inline.pre, ht])
    cases t <;> simp only [squashInline, inlinePieces, e]
  case linkReference =>
    intro l t ihl iht h
    have el := ihl fun t ht => h t (by simp [Inline.pre, ht])
    have et := iht fun t ht => h t (by simp [Inline.pre, ht])
    simp only [squashInline, inlinePieces, el, et, hx]
  case nil => intro _; rfl
  case cons =>
    intro i l ihi ihl h
    simp only [squashInlines, inlinesPieces, ihi fun t ht => h t (by simp [Inline.preL, ht]),
      ihl fun t ht => h t (by simp [Inline.preL, ht])]
  case emphasis => intro c ih h; simp only [squashInline, inlinePieces, ih fun t ht => h t (by simp [Inline.pre, ht])]
  case strong => intro c ih h; simp only [squashInline, inlinePieces, ih fun t ht => h t (by simp [Inline.pre, ht])]
  case strikethrough => intro c ih h; simp only [squashInline, inlinePieces, ih fun t ht => h t (by simp [Inline.pre, ht])]
  all_goals intros; rfl

theorem preL_append (a b : List Inline) : Inline.preL (a ++ b) = Inline.preL a ++ Inline.preL b := by
  induction a with
  | nil => rfl
  | cons i a ih => simp [Inline.preL, ih]

theorem preL_flatten {c : List Inline} {r : List (List Inline)} (h : c ∈ r) {i : Inline} (hi : i ∈ Inline.preL c) :
    i ∈ Inline.preL r.flatten := by
  induction r with
  | nil => cases h
  | cons e r ih =>
    rw [List.flatten_cons, preL_append, List.mem_append]
    rcases List.mem_cons.1 h with rfl | h
    · exact Or.inl hi
    · exact Or.inr (ih h)

theorem row_pieces_squash (x : Context) (hx : ∀ l, x.target (squashInlines l) = x.target l) {r : List (List Inline)}
    (h : ∀ t, .text t ∈ Inline.preL r.flatten → OneBlank t) : rowP x (r.map squashInlines) = rowP x r := by
  unfold rowP
  rw [List.map_map]
  congr 2
  refine List.map_congr_left fun c hc => ?_
  exact (inline_pieces_squash x hx).2 c fun t ht => h t (preL_flatten hc ht)

theorem rows_pieces_squash (x : Context) (hx : ∀ l, x.target (squashInlines l) = x.target l) (rule : Str) (last : List Md.Spec.Piece)
    {rows : List (List (List Inline))} (h : ∀ t, .text t ∈ Inline.preL rows.flatten.flatten → OneBlank t) :
    rowsP x rule last (rows.map (·.map squashInlines)) = rowsP x rule last rows := by
  have one : ∀ r ∈ rows, rowP x (r.map squashInlines) = rowP x r := fun r hr =>
    row_pieces_squash x hx fun t ht => h t (by
      obtain ⟨a, b, rfl⟩ := List.append_of_mem hr
      simp only [List.flatten_append, List.flatten_cons, preL_append, List.mem_append]
      exact Or.inr (Or.inl ht))
  rcases rows with _ | ⟨r, rows⟩
  · rfl
  · simp only [List.map_cons, rowsP, one r (List.mem_cons_self ..), List.map_map]
    congr 2
    refine List.map_congr_left fun q hq => ?_
    simp only [Function.comp, one q (List.mem_cons_of_mem _ hq)]

/-- What is asked of the texts in blocks. -/
def Fine' (l : List Block) : Prop := ∀ b ∈ l, ∀ t, .text t ∈ Inline.preL b.directInlines → OneBlank t

theorem Fine'.left {a b : List Block} (h : Fine' (a ++ b)) : Fine' a := fun c hc => h c (List.mem_append_left _ hc)
theorem Fine'.right {a b : List Block} (h : Fine' (a ++ b)) : Fine' b := fun c hc => h c (List.mem_append_right _ hc)
theorem Fine'.tail {a : Block} {b : List Block} (h : Fine' (a :: b)) : Fine' b := fun c hc => h c (List.mem_cons_of_mem _ hc)
theorem Fine'.head {a : Block} {b : List Block} (h : Fine' (a :: b)) : ∀ t, .text t ∈ Inline.preL a.directInlines → OneBlank t :=
  h a (List.mem_cons_self ..)

theorem block_pieces_squash (cfg : Config) (x : Context) (hx : ∀ l, x.target (squashInlines l) = x.target l) :
    (∀ b, Fine' (Block.pre b) → blockPieces cfg x (squashBlock b) = blockPieces cfg x b) ∧
    (∀ i, Fine' (ListItem.pre i) → itemPieces cfg x (squashItem i) = itemPieces cfg x i) ∧
    (∀ l, Fine' (Block.preL l) → blocksPieces cfg x (squashBlocks l) = blocksPieces cfg x l) ∧
    ∀ l, Fine' (ListItem.preL l) → itemsPieces cfg x (squashItems l) = itemsPieces cfg x l := by
  have hi := (inline_pieces_squash x hx).2
  apply Block.ind
  case paragraph => intro c h; exact hi c h.head
  case heading => intro k c h; simp only [squashBlock, blockPieces, hi c h.head]
  case blockQuote => intro b ih h; simp only [squashBlock, blockPieces, ih h.tail]
  case list => intro k b ih h; simp only [squashBlock, blockPieces, ih h.tail]
  case githubAlert => intro k b ih h; simp only [squashBlock, blockPieces, ih h.tail]
  case footnoteDefinition => intro k b ih h; simp only [squashBlock, blockPieces, ih h.tail]
  case table =>
    intro rows al h
    have hr := fun rule last => rows_pieces_squash x hx rule last (rows := rows) h.head
    show Exact.tableP x (rows.map (·.map squashInlines)) al cfg.tableStyle = Exact.tableP x rows al cfg.tableStyle
    cases cfg.tableStyle
    · show envP _ _ (rowsP _ _ _ _) = _; rw [hr]; rfl
    · show envP _ _ (rowsP _ _ _ _) = _; rw [hr]; rfl
    · show envP _ _ (_ ++ rowsP _ _ _ _ ++ _) = _; rw [hr]; rfl
  case item => intro t b ih h; simp only [squashItem, itemPieces, ih h]
  case nilB => intro _; rfl
  case consB => intro b l ihb ihl h; simp only [squashBlocks, blocksPieces, ihb h.left, ihl h.right]
  case nilI => intro _; rfl
  case consI => intro b l ihb ihl h; simp only [squashItems, itemsPieces, ihb h.left, ihl h.right]
  all_goals intros; rfl

/-! ## The context of the squashed document -/

theorem outer_squash :
    (∀ b, outer (squashBlock b) = (outer b).map squashBlock) ∧
    (∀ i, outerItem (squashItem i) = (outerItem i).map squashBlock) ∧
    (∀ l, outerL (squashBlocks l) = (outerL l).map squashBlock) ∧
    ∀ l, outerItems (squashItems l) = (outerItems l).map squashBlock := by
  apply Block.ind <;> intros <;>
    simp_all [squashBlock, squashBlocks, squashItem, squashItems, outer, outerL, outerItem, outerItems]

theorem number_squashed (d : Document) : footnoteNumber (squashed d) = footnoteNumber d := by
  have e : footnoteLabels (squashed d) = footnoteLabels d := by
    unfold footnoteLabels squashed
    dsimp only
    rw [outer_squash.2.2.1, List.filterMap_map]
    congr 1
    funext b
    cases b <;> rfl
  funext l
  unfold footnoteNumber
  rw [e]

theorem outer_pre :
    (∀ b, ∀ c ∈ outer b, c ∈ Block.pre b) ∧ (∀ i, ∀ c ∈ outerItem i, c ∈ ListItem.pre i) ∧
    (∀ l, ∀ c ∈ outerL l, c ∈ Block.preL l) ∧ ∀ l, ∀ c ∈ outerItems l, c ∈ ListItem.preL l := by
  apply Block.ind <;> intros <;>
    simp_all [outer, outerL, outerItem, outerItems, Block.pre, Block.preL, ListItem.pre, ListItem.preL] <;> grind

theorem outer_unbroken {d : Document} (h : LabelsUnbroken d) {l : List Inline} {dest : Str} {t : Option Str}
    (hm : .definition l dest t ∈ outerL d.blocks) : AllUnbroken l :=
  h l dest t ((Document.mem_allBlocks _ _).1 (outer_pre.2.2.1 _ _ hm))

theorem defs_squashed {d : Document} (h : LabelsUnbroken d) : lastDefinition (squashed d) = lastDefinition d := by
  have key : ∀ bs : List Block, (∀ l dest title, .definition l dest title ∈ bs → AllUnbroken l) →
      (bs.map squashBlock).filterMap linkDef = bs.filterMap linkDef := by
    intro bs
    induction bs with
    | nil => intro _; rfl
    | cons b bs ih =>
      intro hb
      have ih := ih fun l dest title hm => hb l dest title (List.mem_cons_of_mem _ hm)
      simp only [List.map_cons, List.filterMap_cons, ih]
      cases b
      case definition l dest title =>
        simp only [squashBlock, Html.squash_same.2 l (hb l dest title (List.mem_cons_self ..))]
      all_goals rfl
  funext l
  unfold lastDefinition squashed
  dsimp only
  rw [outer_squash.2.2.1, key _ fun l dest title hm => outer_unbroken h hm]

theorem lookup_squash {d : Document} (h : LabelsUnbroken d) (l : List Inline) :
    lastDefinition d (squashInlines l) = lastDefinition d l := by
  by_cases hl : AllUnbroken l
  · rw [Html.squash_same.2 l hl]
  · have none_of : ∀ m, ¬ AllUnbroken m → lastDefinition d m = none := by
      intro m hm
      unfold lastDefinition
      rw [Option.map_eq_none_iff, List.find?_eq_none]
      intro e he
      have he := List.mem_reverse.1 he
      obtain ⟨b, hb, hbe⟩ := List.mem_filterMap.1 he
      cases b
      case definition l' dest title =>
        simp only [linkDef, Option.some.injEq] at hbe
        subst hbe
        simp only [decide_eq_true_eq]
        rintro rfl
        exact hm (outer_unbroken h hb)
      all_goals simp [linkDef] at hbe
    rw [none_of l hl, none_of _ fun hs => hl (Html.unbroken_squash.2 l hs)]

theorem latex_squashed {dw : Str → Nat} (hw : dw [' '] = 1) (cfg : Config) {d : Document} (hd : LabelsUnbroken d) (hb : SingleBlanks d) :
    renderLatex dw cfg (squashed d) = renderLatex dw cfg d := by
  rw [C87_exact hw, C87_exact hw]
  unfold latexText
  rw [number_squashed, defs_squashed hd]
  have hf : Fine' (Block.preL d.blocks) := by
    intro b hm t ht
    refine hb t ((Document.mem_allInlines _ _).1 ?_)
    exact List.mem_flatMap.2 ⟨b, hm, ht⟩
  have e := (block_pieces_squash cfg ⟨footnoteNumber d, lastDefinition d⟩ (lookup_squash hd)).2.2.1 d.blocks hf
  rw [← e]
  rfl

/-! ## The theorems -/

/-- **C107.** Formatting a document does not change its LaTeX, not by a character: if the document passes
the test of C49, no link is defined under a label with whitespace in it, and texts that consist of whitespace
are one space or one line break before and after formatting, then the document that is read from its printed
text, at any width, gives the same LaTeX, at any width and in any style. -/
theorem C107_latex {x : Md.Ext} {cfg : Md.Config} {pcfg : PConfig} (hp : Md.Spec.EveryParse pcfg) {d : Document} {s : Str}
    (hf : Md.Spec.fitsBlocks (isPunctuation x.toPExt) (Md.style x cfg) false d.blocks ⟨0, 0, 0⟩ = true)
    (hd : LabelsUnbroken d) (hb : SingleBlanks d) (h : Md.renderMarkdown x cfg d = some s) :
    ∃ e, parseMarkdown x.toPExt pcfg s = some e ∧ (SingleBlanks e → ∀ dw lcfg, dw [' '] = 1 → renderLatex dw lcfg e = renderLatex dw lcfg d) := by
  obtain ⟨e, h1, h2⟩ := Md.C49_round_trip_partial hp hf h
  refine ⟨e, h1, fun he dw lcfg hw => ?_⟩
  have hs : squashed e = squashed d := by unfold squashed; rw [h2]
  have hl : LabelsUnbroken e := Html.labels_squash.1 (by rw [hs]; exact Html.labels_squash.2 hd)
  rw [← latex_squashed hw lcfg hl he, hs, latex_squashed hw lcfg hd hb]

/-- A text that is squashed to a blank one is blank. -/
theorem blank_squash : ∀ l l' : List Inline, squashInlines l' = squashInlines l →
    ∀ t', .text t' ∈ Inline.preL l' → (∀ c ∈ t', isWs c = true) → ∃ t, .text t ∈ Inline.preL l ∧ ∀ c ∈ t, isWs c = true := by
  have key : (∀ i, ∀ t', .text t' ∈ Inline.pre i → .text (collapse false t') ∈ Inline.pre (squashInline i)) ∧
      ∀ l, ∀ t', .text t' ∈ Inline.preL l → .text (collapse false t') ∈ Inline.preL (squashInlines l) := by
    apply Inline.ind <;> intros <;> simp_all [Inline.pre, Inline.preL, squashInline, squashInlines] <;> grind
  have key2 : (∀ i, ∀ t', .text t' ∈ Inline.pre (squashInline i) → ∃ t, .text t ∈ Inline.pre i ∧ collapse false t = t') ∧
      ∀ l, ∀ t', .text t' ∈ Inline.preL (squashInlines l) → ∃ t, .text t ∈ Inline.preL l ∧ collapse false t = t' := by
    apply Inline.ind <;> intros <;> simp_all [Inline.pre, Inline.preL, squashInline, squashInlines] <;> grind
  intro l l' e t' ht hb
  have h := key.2 l' t' ht
  rw [e] at h
  obtain ⟨t, h1, h2⟩ := key2.2 l _ h
  refine ⟨t, h1, ?_⟩
  have b := collapse_blank t false
  rw [h2, collapse_blank, List.all_eq_true.2 hb] at b
  exact List.all_eq_true.1 b.symm

/-- **C107** without a condition on the document that is read back: if no text consists of whitespace. -/
theorem C107_no_blanks {x : Md.Ext} {cfg : Md.Config} {pcfg : PConfig} (hp : Md.Spec.EveryParse pcfg) {d : Document} {s : Str}
    (hf : Md.Spec.fitsBlocks (isPunctuation x.toPExt) (Md.style x cfg) false d.blocks ⟨0, 0, 0⟩ = true)
    (hd : LabelsUnbroken d) (hb : ∀ t, d.HasInline (.text t) → ∃ c ∈ t, isWs c = false)
    (h : Md.renderMarkdown x cfg d = some s) :
    ∃ e, parseMarkdown x.toPExt pcfg s = some e ∧ ∀ dw lcfg, dw [' '] = 1 → renderLatex dw lcfg e = renderLatex dw lcfg d := by
  have single : ∀ d : Document, (∀ t, d.HasInline (.text t) → ∃ c ∈ t, isWs c = false) → SingleBlanks d := by
    intro d hb t ht ha
    obtain ⟨c, hc, hw⟩ := hb t ht
    rw [ha c hc] at hw
    cases hw
  obtain ⟨e, h1, h2⟩ := C107_latex hp hf hd (single d hb) h
  obtain ⟨e', h1', h3⟩ := Md.C49_round_trip_partial hp hf h
  obtain rfl : e = e' := by rw [h1] at h1'; injection h1'
  refine ⟨e, h1, h2 (single e fun t ht => ?_)⟩
  refine Classical.byContradiction fun hn => ?_
  have ha : ∀ c ∈ t, isWs c = true := fun c hc => by
    cases hw : isWs c
    · exact absurd ⟨c, hc, hw⟩ hn
    · rfl
  have hs : squashed e = squashed d := by unfold squashed; rw [h3]
  have all : (squashed e).allBlocks = (squashed d).allBlocks := by rw [hs]
  rw [Html.all_squashed, Html.all_squashed] at all
  rw [← Document.mem_allInlines] at ht
  obtain ⟨b', hb', ht⟩ := List.mem_flatMap.1 ht
  have hm : squashBlock b' ∈ d.allBlocks.map squashBlock := by rw [← all]; exact List.mem_map.2 ⟨_, hb', rfl⟩
  obtain ⟨b, hbm, eb⟩ := List.mem_map.1 hm
  have ei : squashInlines b'.directInlines = squashInlines b.directInlines := by
    rw [← Html.direct_squash, ← Html.direct_squash, eb]
  obtain ⟨t2, m2, w2⟩ := blank_squash _ _ ei t ht ha
  obtain ⟨c, hc, hw⟩ := hb t2 ((Document.mem_allInlines _ _).1 (List.mem_flatMap.2 ⟨b, hbm, m2⟩))
  rw [w2 c hc] at hw
  cases hw

/-- **C107**, a document that meets the hypotheses, and documents that do not: whitespace of two characters
between two elements is one space after formatting; a link whose label is wrapped is no link any more. -/
theorem C107_examples :
    let d : Document := ⟨[.definition [.text cs!"re"] cs!"/u" none,
      .paragraph [.text cs!"one_1 ", .emphasis [.text cs!"two thirty"], .text cs!" ",
        .linkReference [.text cs!"re"] [.text cs!"re"]]]⟩
    let parsed (s : Str) := parseMarkdown PExt.ascii (PConfig.default fun _ => none) s
    let printed (w : Nat) (d : Document) := Md.renderMarkdown Md.Ext.ascii (Md.narrow w) d
    let latex (d : Document) := renderLatex List.length Config.default d
    (Md.Spec.fitsBlocks (isPunctuation PExt.ascii) (Md.style Md.Ext.ascii (Md.narrow 11)) false d.blocks ⟨0, 0, 0⟩ = true ∧
      LabelsUnbroken d ∧ SingleBlanks d ∧
      printed 11 d = some cs!"[re]: /u\n\none_1 *two\nthirty*\n[re]" ∧
      (parsed cs!"[re]: /u\n\none_1 *two\nthirty*\n[re]").map latex = some (latex d) ∧
      latex d = cs!"\n\none\\_1 \\textit{two thirty} \\href{/u}{re}") ∧
    ((parsed cs!"*a*  *b*").map latex = some cs!"\\textit{a}  \\textit{b}" ∧
      (parsed cs!"*a*  *b*").bind (printed 80) = some cs!"*a* *b*" ∧
      (parsed cs!"*a* *b*").map latex = some cs!"\\textit{a} \\textit{b}") ∧
    ((parsed cs!"[a b]: u\n\nxxxx [a b]").bind (printed 9) = some cs!"[a b]: u\n\nxxxx [a\nb]" ∧
      (parsed cs!"[a b]: u\n\nxxxx [a b]").map latex = some cs!"\n\nxxxx \\href{u}{a b}" ∧
      (parsed cs!"[a b]: u\n\nxxxx [a\nb]").map latex = some cs!"\n\nxxxx [a b][a b]") := by
  refine ⟨⟨by decide +kernel, ?_, ?_, by decide +kernel, by decide +kernel, by decide +kernel⟩, by decide +kernel, by decide +kernel⟩
  · intro l dest title h
    rw [← Document.mem_allBlocks] at h
    simp [Document.allBlocks, Block.preL, Block.pre] at h
    obtain ⟨rfl, -, -⟩ := h
    refine ⟨?_, trivial⟩
    show ∀ c ∈ cs!"re", isWs c = false
    decide
  · intro t ht
    rw [← Document.mem_allInlines] at ht
    have hm : t ∈ [cs!"re", cs!"one_1 ", cs!"two thirty", cs!" "] := by
      simp [Document.allInlines, Document.allBlocks, Block.preL, Block.pre, Block.directInlines, Inline.preL, Inline.pre] at ht ⊢
      grind
    simp only [List.mem_cons, List.not_mem_nil, or_false] at hm
    rcases hm with rfl | rfl | rfl | rfl <;> (unfold OneBlank; decide)

end Latex
end Verif
