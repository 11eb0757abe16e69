import Verif.HtmlExact
import Verif.RoundTrip
/-!
# C106: formatting a document does not change how it is displayed
-/
set_option autoImplicit false
namespace Verif
namespace Html
open Md.Spec (collapse squashInline squashInlines squashBlock squashBlocks squashItem squashItems)

/-! ## Specification -/

/-- The nodes as a browser shows them: in text, every run of whitespace is one space; the contents of
`pre` and `code` elements, and raw HTML, are left as they are.  `run` says whether whitespace has just
been shown. -/
def settle (run : Bool) : List Node → List Node
  | [] => []
  | .char c :: l =>
    if isWs c then (if run then settle true l else .char ' ' :: settle true l)
    else .char c :: settle false l
  | .raw s :: l => .raw s :: settle false l
  | .el n a c :: l =>
    .el n a (if n = cs!"pre" ∨ n = cs!"code" then c else settle false c) :: settle false l

mutual
/-- The inline has no whitespace in the text it consists of. -/
def Unbroken : Inline → Prop
  | .text t => ∀ c ∈ t, isWs c = false
  | .emphasis c => AllUnbroken c
  | .strong c => AllUnbroken c
  | .strikethrough c => AllUnbroken c
  | .link _ _ c => AllUnbroken c
  | .linkReference l t => AllUnbroken l ∧ AllUnbroken t
  | .lineBreak => True
  | .code _ => True
  | .html _ => True
  | .image _ _ _ => True
  | .autolink _ => True
  | .footnoteReference _ => True
  | .empty => True
termination_by structural i => i
/-- `Unbroken` for each of these inlines. -/
def AllUnbroken : List Inline → Prop
  | [] => True
  | i :: l => Unbroken i ∧ AllUnbroken l
termination_by structural l => l
end

/-! ## The same nodes, up to whitespace -/

/-- Nodes that are shown the same, whatever stands before and behind them. -/
def SeenAlike (a b : List Node) : Prop :=
  ∀ r m n, (∀ r, settle r m = settle r n) → settle r (a ++ m) = settle r (b ++ n)

theorem SeenAlike.refl (a : List Node) : SeenAlike a a := by
  induction a with
  | nil => intro r m n h; simpa using h r
  | cons x a ih =>
    intro r m n h
    cases x with
    | char c =>
      simp only [List.cons_append, settle]
      rw [ih true m n h, ih false m n h]
    | raw s => simp only [List.cons_append, settle]; rw [ih false m n h]
    | el k at_ ch => simp only [List.cons_append, settle]; rw [ih false m n h]

theorem SeenAlike.append {a b c d : List Node} (h : SeenAlike a b) (k : SeenAlike c d) : SeenAlike (a ++ c) (b ++ d) := by
  intro r m n e
  rw [List.append_assoc, List.append_assoc]
  exact h r _ _ fun r => k r m n e

theorem SeenAlike.settle {a b : List Node} (h : SeenAlike a b) (r : Bool) : settle r a = settle r b := by
  have := h r [] [] fun _ => rfl
  simpa using this

theorem SeenAlike.el {a b : List Node} (h : SeenAlike a b) (n : Str) (at_ : List (Str × Str)) :
    SeenAlike [.el n at_ a] [.el n at_ b] ∨ (n = cs!"pre" ∨ n = cs!"code") := by
  by_cases e : n = cs!"pre" ∨ n = cs!"code"
  · exact Or.inr e
  · refine Or.inl fun r m k hm => ?_
    simp only [List.cons_append, List.nil_append, Html.settle, if_neg e]
    rw [h.settle false, hm false]

theorem SeenAlike.tag {a b : List Node} (h : SeenAlike a b) {n : Str} (at_ : List (Str × Str))
    (e : (n == cs!"pre" || n == cs!"code") = false) : SeenAlike [.el n at_ a] [.el n at_ b] := by
  rcases h.el n at_ with k | k
  · exact k
  · rcases k with rfl | rfl <;> exact absurd e (by decide)

theorem seen_collapse (t : Str) : ∀ r b, (r = true → b = true) → ∀ m n, (∀ r, settle r m = settle r n) →
    settle b (chars (collapse r t) ++ m) = settle b (chars t ++ n) := by
  induction t with
  | nil => intro r b _ m n h; simpa [collapse, chars] using h b
  | cons c t ih =>
    intro r b hr m n h
    have e := ih true true (fun _ => rfl) m n h
    have e' := ih false false (fun x => x) m n h
    unfold chars at e e' ⊢
    by_cases hc : isWs c = true
    · by_cases hr' : r = true
      · have hb := hr hr'
        subst hr' hb
        simp only [collapse, hc, if_true, List.map_cons, List.cons_append, settle, e]
      · have sp : isWs ' ' = true := by decide
        simp only [collapse, hc, if_true, hr', if_false, List.map_cons, List.cons_append, settle, sp, e, Bool.false_eq_true]
    · simp only [collapse, hc, if_false, List.map_cons, List.cons_append, settle, e', Bool.false_eq_true]

theorem seen_text (t : Str) : SeenAlike (chars (collapse false t)) (chars t) := fun r m n h =>
  seen_collapse t false r (fun x => nomatch x) m n h

theorem inline_seen (x : Context) (hx : ∀ l, x.defs (squashInlines l) = x.defs l) :
    (∀ i, SeenAlike (inlineNodes x (squashInline i)) (inlineNodes x i)) ∧
    ∀ l, SeenAlike (inlinesNodes x (squashInlines l)) (inlinesNodes x l) := by
  apply Inline.ind
  case text => exact seen_text
  case emphasis => intro c h; exact h.tag _ (by decide)
  case strong => intro c h; exact h.tag _ (by decide)
  case strikethrough => intro c h; exact h.tag _ (by decide)
  case link => intro d t c h; exact h.tag _ (by decide)
  case linkReference =>
    intro l t _ h
    simp only [squashInline, inlineNodes, hx]
    rcases x.defs l with _ | ⟨d, title⟩
    · exact SeenAlike.refl _
    · exact h.tag _ (by decide)
  case nil => exact SeenAlike.refl _
  case cons => intro i l h k; exact h.append k
  all_goals intros; exact SeenAlike.refl _

theorem cells_seen (x : Context) (hx : ∀ l, x.defs (squashInlines l) = x.defs l) {n : Str} (hn : n = cs!"th" ∨ n = cs!"td")
    (at_ : Nat → List (Str × Str)) (row : List (List Inline)) : ∀ k,
    SeenAlike ((row.map squashInlines).mapIdx fun i cell => .el n (at_ (k + i)) (inlinesNodes x cell))
      (row.mapIdx fun i cell => .el n (at_ (k + i)) (inlinesNodes x cell)) := by
  induction row with
  | nil => intro k; exact SeenAlike.refl _
  | cons c row ih =>
    intro k
    simp only [List.map_cons, List.mapIdx_cons]
    have e := ih (k + 1)
    simp only [Nat.add_assoc, Nat.add_comm 1] at e
    have h := ((inline_seen x hx).2 c).tag (n := n) (at_ (k + 0)) (by rcases hn with rfl | rfl <;> decide)
    exact h.append e

theorem row_seen (x : Context) (hx : ∀ l, x.defs (squashInlines l) = x.defs l) {n : Str} (hn : n = cs!"th" ∨ n = cs!"td")
    (al : List Alignment) (row : List (List Inline)) :
    SeenAlike [rowNode x n al (row.map squashInlines)] [rowNode x n al row] := by
  have h := cells_seen x hx hn (fun i => [(cs!"class", alignClass (al[i]?.getD .left))]) row 0
  simp only [Nat.zero_add] at h
  exact h.tag _ (by decide)

theorem rows_seen (x : Context) (hx : ∀ l, x.defs (squashInlines l) = x.defs l) {n : Str} (hn : n = cs!"th" ∨ n = cs!"td")
    (al : List Alignment) (rows : List (List (List Inline))) :
    SeenAlike ((rows.map (·.map squashInlines)).map (rowNode x n al)) (rows.map (rowNode x n al)) := by
  induction rows with
  | nil => exact SeenAlike.refl _
  | cons r rows ih => exact (row_seen x hx hn al r).append ih

theorem block_seen (x : Context) (hx : ∀ l, x.defs (squashInlines l) = x.defs l) :
    (∀ b, SeenAlike (blockNodes x (squashBlock b)) (blockNodes x b)) ∧
    (∀ i, SeenAlike [itemNode x (squashItem i)] [itemNode x i]) ∧
    (∀ l, SeenAlike (blocksNodes x (squashBlocks l)) (blocksNodes x l)) ∧
    ∀ l, SeenAlike (itemsNodes x (squashItems l)) (itemsNodes x l) := by
  have hi := (inline_seen x hx).2
  apply Block.ind
  case paragraph => intro c; exact (hi c).tag _ (by decide)
  case heading =>
    intro k c
    refine (hi c).tag _ ?_
    rcases k with n | (_ | _)
    · simp only [headingName]; split <;> rfl
    · decide
    · decide
  case blockQuote => intro b h; exact h.tag _ (by decide)
  case list =>
    intro k i h
    rcases k with n | (_ | _ | _) <;> exact h.tag _ (by decide)
  case table =>
    intro rows al
    simp only [squashBlock, blockNodes]
    refine SeenAlike.tag ?_ _ (by decide)
    rcases rows with _ | ⟨r, rows⟩
    · exact SeenAlike.refl _
    · have a := SeenAlike.tag (n := cs!"thead") (row_seen x hx (n := cs!"th") (Or.inl rfl) al r) [] (by decide)
      have b := SeenAlike.tag (n := cs!"tbody") (rows_seen x hx (n := cs!"td") (Or.inr rfl) al rows) [] (by decide)
      exact a.append b
  case footnoteDefinition =>
    intro l b h
    simp only [squashBlock, blockNodes]
    rcases x.num l with _ | n
    · exact SeenAlike.refl _
    · refine SeenAlike.tag (SeenAlike.append (SeenAlike.refl [_]) ?_) _ (by decide)
      exact h.tag _ (by decide)
  case githubAlert =>
    intro t b h
    simp only [squashBlock, blockNodes]
    exact SeenAlike.tag (SeenAlike.append (SeenAlike.refl [_]) h) _ (by decide)
  case item =>
    intro t b h
    simp only [squashItem, itemNode]
    exact SeenAlike.tag (SeenAlike.append (SeenAlike.refl _) h) _ (by decide)
  case nilB => exact SeenAlike.refl _
  case consB => intro b l h k; exact h.append k
  case nilI => exact SeenAlike.refl _
  case consI => intro i l h k; exact SeenAlike.append h k
  all_goals intros; exact SeenAlike.refl _

/-! ## The context of the squashed document -/

/-- The document with every run of whitespace in its text nodes replaced by one space. -/
def squashed (d : Document) : Document := ⟨squashBlocks d.blocks⟩

theorem pre_squash :
    (∀ b, (squashBlock b).pre = b.pre.map squashBlock) ∧
    (∀ i, (squashItem i).pre = i.pre.map squashBlock) ∧
    (∀ l, Block.preL (squashBlocks l) = (Block.preL l).map squashBlock) ∧
    ∀ l, ListItem.preL (squashItems l) = (ListItem.preL l).map squashBlock := by
  apply Block.ind <;> intros <;>
    simp_all [squashBlock, squashBlocks, squashItem, squashItems, Block.pre, Block.preL, ListItem.pre, ListItem.preL]

theorem all_squashed (d : Document) : (squashed d).allBlocks = d.allBlocks.map squashBlock :=
  pre_squash.2.2.1 _

theorem refs_squash (l : List Inline) : (squashInlines l).filterMap refLabel = l.filterMap refLabel := by
  induction l with
  | nil => rfl
  | cons i l ih =>
    simp only [squashInlines, List.filterMap_cons, ih]
    cases i <;> rfl

theorem squash_append (a b : List Inline) : squashInlines (a ++ b) = squashInlines a ++ squashInlines b := by
  induction a with
  | nil => rfl
  | cons i a ih => simp [squashInlines, ih]

theorem direct_squash (b : Block) : (squashBlock b).directInlines = squashInlines b.directInlines := by
  cases b
  case table rows al =>
    simp only [squashBlock, Block.directInlines]
    induction rows with
    | nil => rfl
    | cons r rows ih =>
      simp only [List.map_cons, List.flatten_cons, List.flatten_append, squash_append, ih]
      congr 1
      induction r with
      | nil => rfl
      | cons c r ihr => simp only [List.map_cons, List.flatten_cons, squash_append, ihr]
  all_goals rfl

theorem refs_squashed (d : Document) : directRefs (squashed d) = directRefs d := by
  unfold directRefs
  rw [all_squashed, List.flatMap_map]
  congr 1
  funext b
  rw [direct_squash, refs_squash]

theorem number_squashed (d : Document) : footnoteNumber (squashed d) = footnoteNumber d := by
  funext l
  unfold footnoteNumber
  rw [refs_squashed]

theorem collapse_same {t : Str} (h : ∀ c ∈ t, isWs c = false) (r : Bool) : collapse r t = t := by
  induction t generalizing r with
  | nil => rfl
  | cons c t ih =>
    simp only [collapse, h c (List.mem_cons_self ..), Bool.false_eq_true, if_false]
    rw [ih fun d hd => h d (List.mem_cons_of_mem _ hd)]

theorem collapse_free {t : Str} : ∀ {r}, (r = false) → (∀ c ∈ collapse r t, isWs c = false) → ∀ c ∈ t, isWs c = false := by
  induction t with
  | nil => intro r _ _ c hc; cases hc
  | cons d t ih =>
    intro r hr h
    subst hr
    by_cases hd : isWs d = true
    · simp only [collapse, hd, if_true, Bool.false_eq_true, if_false] at h
      have := h ' ' (List.mem_cons_self ..)
      exact absurd this (by decide)
    · simp only [collapse, hd, Bool.false_eq_true, if_false] at h
      intro c hc
      rcases List.mem_cons.1 hc with rfl | hc
      · simpa using hd
      · exact ih rfl (fun e he => h e (List.mem_cons_of_mem _ he)) c hc

theorem squash_same : (∀ i, Unbroken i → squashInline i = i) ∧ ∀ l, AllUnbroken l → squashInlines l = l := by
  apply Inline.ind
  case text => intro t h; simp only [squashInline, collapse_same h]
  all_goals intros; simp_all [squashInline, squashInlines, Unbroken, AllUnbroken]

theorem unbroken_squash : (∀ i, Unbroken (squashInline i) → Unbroken i) ∧
    ∀ l, AllUnbroken (squashInlines l) → AllUnbroken l := by
  apply Inline.ind
  case text => intro t h; exact collapse_free rfl h
  all_goals intros; simp_all [squashInline, squashInlines, Unbroken, AllUnbroken]

/-- No link is defined under a label with whitespace in it. -/
def LabelsUnbroken (d : Document) : Prop :=
  ∀ l dest title, d.HasBlock (.definition l dest title) → AllUnbroken l

theorem definitions_squashed {d : Document} (h : LabelsUnbroken d) :
    linkDefinitions (squashed d) = linkDefinitions d := by
  have key : ∀ bs : List Block, (∀ l dest title, .definition l dest title ∈ bs → AllUnbroken l) →
      (bs.map squashBlock).filterMap (fun
        | .definition l dest title => some (l, (dest, title))
        | _ => none) = bs.filterMap (fun
        | .definition l dest title => some (l, (dest, title))
        | _ => none) := by
    intro bs
    induction bs with
    | nil => intro _; rfl
    | cons b bs ih =>
      intro hb
      have ih := ih fun l dest title hm => hb l dest title (List.mem_cons_of_mem _ hm)
      simp only [List.map_cons, List.filterMap_cons, ih]
      cases b
      case definition l dest title =>
        simp only [squashBlock, squash_same.2 l (hb l dest title (List.mem_cons_self ..))]
      all_goals rfl
  unfold linkDefinitions
  rw [all_squashed]
  exact key _ fun l dest title hm => h l dest title ((Document.mem_allBlocks _ _).1 hm)

theorem defs_squashed {d : Document} (h : LabelsUnbroken d) : lastDefinition (squashed d) = lastDefinition d := by
  funext l
  unfold lastDefinition
  rw [definitions_squashed h]

theorem lookup_squash {d : Document} (h : LabelsUnbroken d) (l : List Inline) :
    lastDefinition d (squashInlines l) = lastDefinition d l := by
  by_cases hl : AllUnbroken l
  · rw [squash_same.2 l hl]
  · have none_of : ∀ m, ¬ AllUnbroken m → lastDefinition d m = none := by
      intro m hm
      unfold lastDefinition
      rw [Option.map_eq_none_iff, List.find?_eq_none]
      intro e he
      have he := List.mem_reverse.1 he
      unfold linkDefinitions at he
      obtain ⟨b, hb, hbe⟩ := List.mem_filterMap.1 he
      cases b
      case definition l' dest title =>
        simp only [Option.some.injEq] at hbe
        subst hbe
        simp only [decide_eq_true_eq]
        rintro rfl
        exact hm (h _ _ _ ((Document.mem_allBlocks _ _).1 hb))
      all_goals simp at hbe
    rw [none_of l hl, none_of _ fun hs => hl (unbroken_squash.2 l hs)]

theorem labels_squash {d : Document} : LabelsUnbroken (squashed d) ↔ LabelsUnbroken d := by
  constructor
  · intro h l dest title hb
    refine unbroken_squash.2 l (h _ dest title ?_)
    rw [← Document.mem_allBlocks] at hb ⊢
    rw [all_squashed]
    exact List.mem_map.2 ⟨_, hb, rfl⟩
  · intro h l dest title hb
    rw [← Document.mem_allBlocks, all_squashed] at hb
    obtain ⟨b, hb, e⟩ := List.mem_map.1 hb
    cases b
    case definition l' dest' title' =>
      simp only [squashBlock, Block.definition.injEq] at e
      have hu := h _ _ _ ((Document.mem_allBlocks _ _).1 hb)
      rw [← e.1, squash_same.2 _ hu]
      exact hu
    all_goals simp [squashBlock] at e

/-! ## Tables without rows -/

theorem children_squash (b : Block) : (squashBlock b).childBlocks = squashBlocks b.childBlocks := by
  have app : ∀ a b, squashBlocks (a ++ b) = squashBlocks a ++ squashBlocks b := by
    intro a b
    induction a with
    | nil => rfl
    | cons i a ih => simp [squashBlocks, ih]
  cases b
  case list k items =>
    simp only [squashBlock, Block.childBlocks]
    induction items with
    | nil => rfl
    | cons i items ih =>
      rcases i with ⟨t, b⟩
      simp only [squashItems, squashItem, List.flatMap_cons, app, ih, ListItem.blocks]
  all_goals rfl

theorem squash_blocks_map (l : List Block) : squashBlocks l = l.map squashBlock := by
  induction l with
  | nil => rfl
  | cons b l ih => simp [squashBlocks, ih]

theorem rendered_squash {num : Str → Option Nat} {a c : Block} (h : Rendered num a c) :
    Rendered num (squashBlock a) (squashBlock c) := by
  induction h with
  | self => exact .self _
  | child c e he hc _ ih =>
    refine .child _ _ (squashBlock e) ?_ ?_ ih
    · rw [children_squash, squash_blocks_map]; exact List.mem_map.2 ⟨_, he, rfl⟩
    · intro l bs ecs
      cases c <;> simp only [squashBlock, reduceCtorEq] at ecs
      case footnoteDefinition l' bs' =>
        injection ecs with e1 e2
        subst e1
        exact hc _ _ rfl

theorem rendered_unsquash {num : Str → Option Nat} {a c : Block} (h : Rendered num a c) :
    ∀ c', squashBlock c' = c → ∃ a', squashBlock a' = a ∧ Rendered num a' c' := by
  induction h with
  | self => intro c' e; exact ⟨c', e, .self _⟩
  | child c e he hc _ ih =>
    intro c' ec
    subst ec
    rw [children_squash, squash_blocks_map] at he
    obtain ⟨e', he', rfl⟩ := List.mem_map.1 he
    obtain ⟨a', ha', hr⟩ := ih e' rfl
    refine ⟨a', ha', .child _ _ e' he' ?_ hr⟩
    rintro l bs rfl
    exact hc _ _ rfl

theorem rowless_squashed (d : Document) :
    (∃ al, RenderedIn (squashed d) (.table [] al)) ↔ ∃ al, RenderedIn d (.table [] al) := by
  constructor
  · rintro ⟨al, c, hc, hr⟩
    rw [number_squashed] at hr
    simp only [squashed, squash_blocks_map] at hc
    obtain ⟨c', hc', rfl⟩ := List.mem_map.1 hc
    obtain ⟨a, ha, h⟩ := rendered_unsquash hr c' rfl
    cases a <;> simp only [squashBlock, reduceCtorEq] at ha
    case table rows al' =>
      injection ha with e1 e2
      rw [List.map_eq_nil_iff] at e1
      subst e1 e2
      exact ⟨_, c', hc', h⟩
  · rintro ⟨al, c, hc, hr⟩
    refine ⟨al, squashBlock c, ?_, ?_⟩
    · simp only [squashed, squash_blocks_map]; exact List.mem_map.2 ⟨_, hc, rfl⟩
    · rw [number_squashed]; exact rendered_squash hr

/-! ## The theorems -/

/-- Two documents that differ only in the whitespace of their texts are displayed the same. -/
theorem same_view {dw : Str → Nat} {cfg : Config} {d e : Document} (h : squashBlocks e.blocks = squashBlocks d.blocks)
    (hd : LabelsUnbroken d) :
    (renderHtml dw e cfg = none ↔ renderHtml dw d cfg = none) ∧
    ∀ s, renderHtml dw d cfg = some s → ∃ s' tree tree', renderHtml dw e cfg = some s' ∧ s = writeNodes tree ∧
      s' = writeNodes tree' ∧ ∀ run, settle run tree' = settle run tree := by
  obtain ⟨icon, _, hx⟩ := C89_exact_html
  have hs : squashed e = squashed d := by unfold squashed; rw [h]
  have he : LabelsUnbroken e := labels_squash.1 (by rw [hs]; exact labels_squash.2 hd)
  have hn : footnoteNumber e = footnoteNumber d := by rw [← number_squashed, hs, number_squashed]
  have hdf : lastDefinition e = lastDefinition d := by rw [← defs_squashed he, hs, defs_squashed hd]
  have hr : (∃ al, RenderedIn e (.table [] al)) ↔ ∃ al, RenderedIn d (.table [] al) := by
    rw [← rowless_squashed, hs, rowless_squashed]
  rw [hx dw d cfg, hx dw e cfg]
  by_cases ht : ∃ al, RenderedIn d (.table [] al)
  · rw [if_pos ht, if_pos (hr.2 ht)]
    exact ⟨Iff.rfl, fun s hs => by cases hs⟩
  · rw [if_neg ht, if_neg fun k => ht (hr.1 k)]
    refine ⟨by simp, fun s hs => ?_⟩
    injection hs with hs
    refine ⟨_, _, _, rfl, hs.symm, rfl, fun run => ?_⟩
    rw [hn, hdf]
    have hl : ∀ l, lastDefinition d (squashInlines l) = lastDefinition d l := lookup_squash hd
    have k1 := ((block_seen ⟨footnoteNumber d, lastDefinition d, cfg.anchorPrefix, icon, titleRaw⟩ hl).2.2.1 d.blocks).settle run
    have k2 := ((block_seen ⟨footnoteNumber d, lastDefinition d, cfg.anchorPrefix, icon, titleRaw⟩ hl).2.2.1 e.blocks).settle run
    rw [← k1, ← k2, h]

/-- **C106.** Formatting a document does not change how it is displayed: if the document passes the test of
C49 and no link is defined under a label with whitespace in it, then the document that is read from its
printed text, at any width, has the same HTML nodes, but for the length of runs of whitespace in texts. -/
theorem C106_display {x : Md.Ext} {cfg : Md.Config} {pcfg : PConfig} (hp : Md.Spec.EveryParse pcfg) {d : Document} {s : Str}
    (hf : Md.Spec.fitsBlocks (isPunctuation x.toPExt) (Md.style x cfg) false d.blocks ⟨0, 0, 0⟩ = true)
    (hd : LabelsUnbroken d) (h : Md.renderMarkdown x cfg d = some s) :
    ∃ e, parseMarkdown x.toPExt pcfg s = some e ∧ ∀ dw hcfg,
      (renderHtml dw e hcfg = none ↔ renderHtml dw d hcfg = none) ∧
      ∀ t, renderHtml dw d hcfg = some t → ∃ t' tree tree', renderHtml dw e hcfg = some t' ∧ t = writeNodes tree ∧
        t' = writeNodes tree' ∧ ∀ run, settle run tree' = settle run tree := by
  obtain ⟨e, h1, h2⟩ := Md.C49_round_trip_partial hp hf h
  exact ⟨e, h1, fun dw hcfg => same_view h2 hd⟩

/-- A document that meets the hypotheses: in eleven columns its paragraph is wrapped inside the emphasis
and before the reference, and is displayed as before. -/
theorem C106_example :
    let d : Document := ⟨[.definition [.text cs!"re"] cs!"/u" none,
      .paragraph [.text cs!"one ", .emphasis [.text cs!"two thirty"], .text cs!" ",
        .linkReference [.text cs!"re"] [.text cs!"re"], .text cs!" ", .code cs!"x  y"]]⟩
    let e : Document := ⟨[.definition [.text cs!"re"] cs!"/u" none,
      .paragraph [.text cs!"one ", .emphasis [.text cs!"two\nthirty"], .text cs!"\n",
        .linkReference [.text cs!"re"] [.text cs!"re"], .text cs!" ", .code cs!"x  y"]]⟩
    Md.Spec.fitsBlocks (isPunctuation PExt.ascii) (Md.style Md.Ext.ascii (Md.narrow 11)) false d.blocks ⟨0, 0, 0⟩ = true ∧
    LabelsUnbroken d ∧
    Md.renderMarkdown Md.Ext.ascii (Md.narrow 11) d = some cs!"[re]: /u\n\none *two\nthirty*\n[re] `x  y`" ∧
    parseMarkdown PExt.ascii (PConfig.default fun _ => none) cs!"[re]: /u\n\none *two\nthirty*\n[re] `x  y`" = some e ∧
    renderHtml (fun _ => 0) d Config.default =
      some cs!"<p>one <em>two thirty</em> <a href=\"/u\">re</a> <code>x  y</code></p>" ∧
    renderHtml (fun _ => 0) e Config.default =
      some cs!"<p>one <em>two\nthirty</em>\n<a href=\"/u\">re</a> <code>x  y</code></p>" := by
  refine ⟨by decide +kernel, ?_, by decide +kernel, by decide +kernel, by decide +kernel, by decide +kernel⟩
  intro l dest title h
  rw [← Document.mem_allBlocks] at h
  simp [Document.allBlocks, Block.preL, Block.pre] at h
  obtain ⟨rfl, -, -⟩ := h
  refine ⟨?_, trivial⟩
  show ∀ c ∈ cs!"re", isWs c = false
  decide

/-- **C106**, why labels matter: a label with a space in it is wrapped like any other text, and a label
with a line break is not the label of the definition.  After formatting in nine columns the link is gone,
together with its text. -/
theorem C106_label_wrapped :
    let parsed (s : Str) := parseMarkdown PExt.ascii (PConfig.default fun _ => none) s
    let html (s : Str) := (parsed s).bind fun d => renderHtml (fun _ => 0) d Config.default
    (parsed cs!"[a b]: u\n\nxxxx [a b]").bind (Md.renderMarkdown Md.Ext.ascii (Md.narrow 9)) =
      some cs!"[a b]: u\n\nxxxx [a\nb]" ∧
    html cs!"[a b]: u\n\nxxxx [a b]" = some cs!"<p>xxxx <a href=\"u\">a b</a></p>" ∧
    html cs!"[a b]: u\n\nxxxx [a\nb]" = some cs!"<p>xxxx </p>" := by
  decide +kernel

end Html
end Verif
