import Verif.HtmlExact
import Verif.TransformProps
import Verif.RoundTrip
/-!
# C108: what is displayed of a document after its whitespace has been cleaned up, C109: or its texts changed
-/
set_option autoImplicit false
namespace Verif

/-! ## Specification -/

/-- The text without the characters of the kind `p`. -/
def squeeze (p : Char → Bool) (t : Str) : Str := t.filter fun c => !p c

/-- `l` is the label of a reference or of a definition in the document. -/
def Document.HasLabel (d : Document) (l : List Inline) : Prop :=
  (∃ t, d.HasInline (.linkReference l t)) ∨ ∃ dest title, d.HasBlock (.definition l dest title)

namespace Html

/-- The nodes without the characters of the kind `p` in their text; the contents of `pre` and `code` elements, and raw
HTML, are left as they are. -/
def dense (p : Char → Bool) : List Node → List Node
  | [] => []
  | .char c :: l => if p c then dense p l else .char c :: dense p l
  | .raw s :: l => .raw s :: dense p l
  | .el n a c :: l => .el n a (if n = cs!"pre" ∨ n = cs!"code" then c else dense p c) :: dense p l

/-- A function on inlines that changes only characters of the kind `p` in texts, or replaces texts of them. -/
structure WhitespaceOnly (p : Char → Bool) (h : Inline → Inline) : Prop where
  text : ∀ t, (∃ t', h (.text t) = .text t' ∧ squeeze p t' = squeeze p t) ∨ (h (.text t) = .empty ∧ squeeze p t = [])
  other : ∀ i, (∀ t, i ≠ .text t) → h i = i

/-! ## Nodes -/

theorem dense_append (p : Char → Bool) (a b : List Node) : dense p (a ++ b) = dense p a ++ dense p b := by
  induction a with
  | nil => simp only [List.nil_append, dense]
  | cons n a ih =>
    cases n with
    | char c => simp only [List.cons_append, dense, ih]; split <;> rfl
    | raw s => simp only [List.cons_append, dense, ih]
    | el k at_ c => simp only [List.cons_append, dense, ih]

theorem dense_chars (p : Char → Bool) (t : Str) : dense p (chars t) = chars (squeeze p t) := by
  unfold chars squeeze
  induction t with
  | nil => simp only [List.map_nil, List.filter_nil, dense]
  | cons c t ih =>
    simp only [List.map_cons, dense, ih, List.filter_cons]
    cases p c <;> rfl

theorem dense_el {p : Char → Bool} {a b : List Node} (h : dense p a = dense p b) {n : Str} (at_ : List (Str × Str)) :
    dense p [.el n at_ a] = dense p [.el n at_ b] ∨ n = cs!"pre" ∨ n = cs!"code" := by
  by_cases e : n = cs!"pre" ∨ n = cs!"code"
  · exact Or.inr e
  · exact Or.inl (by simp only [dense, if_neg e, h])

theorem dense_tag {p : Char → Bool} {a b : List Node} (h : dense p a = dense p b) {n : Str} (at_ : List (Str × Str))
    (e : (n == cs!"pre" || n == cs!"code") = false) : dense p [.el n at_ a] = dense p [.el n at_ b] := by
  rcases dense_el h at_ with k | k
  · exact k
  · rcases k with rfl | rfl <;> exact absurd e (by decide)

variable {p : Char → Bool} {h : Inline → Inline} (H : WhitespaceOnly p h)

include H in
theorem inline_dense (x y : Context) (hn : ∀ l, y.num l = x.num l) (ha : y.anchor = x.anchor) :
    (∀ i, (∀ l t, .linkReference l t ∈ Inline.pre i → y.defs (Inline.mapNodesL h l) = x.defs l) →
      dense p (inlineNodes y (Inline.mapNodes h i)) = dense p (inlineNodes x i)) ∧
    ∀ l, (∀ m t, .linkReference m t ∈ Inline.preL l → y.defs (Inline.mapNodesL h m) = x.defs m) →
      dense p (inlinesNodes y (Inline.mapNodesL h l)) = dense p (inlinesNodes x l) := by
  apply Inline.ind
  case text =>
    intro t _
    rcases H.text t with ⟨t', e, hs⟩ | ⟨e, hs⟩
    · simp only [Inline.mapNodes, e, inlineNodes, dense_chars, hs]
    · simp only [Inline.mapNodes, e, inlineNodes, dense_chars, hs]; simp only [dense, chars, List.map_nil]
  case emphasis =>
    intro c ih hx
    simp only [Inline.mapNodes]
    rw [H.other _ fun t => by simp]
    exact dense_tag (ih fun l t hm => hx l t (by simp [Inline.pre, hm])) _ (by decide)
  case strong =>
    intro c ih hx
    simp only [Inline.mapNodes]
    rw [H.other _ fun t => by simp]
    exact dense_tag (ih fun l t hm => hx l t (by simp [Inline.pre, hm])) _ (by decide)
  case strikethrough =>
    intro c ih hx
    simp only [Inline.mapNodes]
    rw [H.other _ fun t => by simp]
    exact dense_tag (ih fun l t hm => hx l t (by simp [Inline.pre, hm])) _ (by decide)
  case link =>
    intro d t c ih hx
    simp only [Inline.mapNodes]
    rw [H.other _ fun t => by simp]
    exact dense_tag (ih fun l t hm => hx l t (by simp [Inline.pre, hm])) _ (by decide)
  case linkReference =>
    intro l t _ ih hx
    simp only [Inline.mapNodes]
    rw [H.other _ fun t => by simp]
    simp only [inlineNodes, hx l t (by simp [Inline.pre])]
    rcases x.defs l with _ | ⟨d, title⟩
    · rfl
    · exact dense_tag (ih fun l t hm => hx l t (by simp [Inline.pre, hm])) _ (by decide)
  case footnoteReference =>
    intro s _
    simp only [Inline.mapNodes]
    rw [H.other _ fun t => by simp]
    simp only [inlineNodes, hn, ha]
  case nil => intro _; rfl
  case cons =>
    intro i l ihi ihl hx
    simp only [Inline.mapNodesL, inlinesNodes, dense_append]
    rw [ihi fun m t hm => hx m t (by simp [Inline.preL, hm]), ihl fun m t hm => hx m t (by simp [Inline.preL, hm])]
  all_goals intros; simp only [Inline.mapNodes]; rw [H.other _ fun t => by simp]; try rfl

/-- The labels of the references in these blocks are the same for both contexts. -/
def Looked (h : Inline → Inline) (x y : Context) (l : List Block) : Prop :=
  ∀ b ∈ l, ∀ m t, .linkReference m t ∈ Inline.preL b.directInlines → y.defs (Inline.mapNodesL h m) = x.defs m

theorem preL_append' (a b : List Inline) : Inline.preL (a ++ b) = Inline.preL a ++ Inline.preL b := by
  induction a with
  | nil => rfl
  | cons i a ih => simp [Inline.preL, ih]

include H in
theorem row_dense (x y : Context) (hn : ∀ l, y.num l = x.num l) (ha : y.anchor = x.anchor) {n : Str} (e : (n == cs!"pre" || n == cs!"code") = false)
    (al : List Alignment) (row : List (List Inline))
    (hx : ∀ m t, .linkReference m t ∈ Inline.preL row.flatten → y.defs (Inline.mapNodesL h m) = x.defs m) :
    dense p [rowNode y n al (row.map (Inline.mapNodesL h))] = dense p [rowNode x n al row] := by
  refine dense_tag ?_ _ (by decide)
  have key : ∀ (row : List (List Inline)) (f : Nat → List (Str × Str)),
      (∀ m t, .linkReference m t ∈ Inline.preL row.flatten → y.defs (Inline.mapNodesL h m) = x.defs m) →
      dense p ((row.map (Inline.mapNodesL h)).mapIdx fun i cell => .el n (f i) (inlinesNodes y cell)) =
      dense p (row.mapIdx fun i cell => .el n (f i) (inlinesNodes x cell)) := by
    intro row
    induction row with
    | nil => intro f _; rfl
    | cons c row ih =>
      intro f hx
      simp only [List.flatten_cons, preL_append', List.mem_append] at hx
      simp only [List.map_cons, List.mapIdx_cons]
      have a := dense_tag (n := n) ((inline_dense H x y hn ha).2 c fun m t hm => hx m t (Or.inl hm)) (f 0) e
      have b := ih (fun i => f (i + 1)) fun m t hm => hx m t (Or.inr hm)
      rw [← List.singleton_append, dense_append, a, b, ← dense_append, List.singleton_append]
  exact key row _ hx

include H in
theorem rows_dense (x y : Context) (hn : ∀ l, y.num l = x.num l) (ha : y.anchor = x.anchor) {n : Str} (e : (n == cs!"pre" || n == cs!"code") = false)
    (al : List Alignment) (rows : List (List (List Inline)))
    (hx : ∀ m t, .linkReference m t ∈ Inline.preL rows.flatten.flatten → y.defs (Inline.mapNodesL h m) = x.defs m) :
    dense p ((rows.map (List.map (Inline.mapNodesL h))).map (rowNode y n al)) = dense p (rows.map (rowNode x n al)) := by
  induction rows with
  | nil => rfl
  | cons r rows ih =>
    simp only [List.flatten_cons, List.flatten_append, preL_append', List.mem_append] at hx
    simp only [List.map_cons]
    rw [← List.singleton_append, dense_append, row_dense H x y hn ha e al r fun m t hm => hx m t (Or.inl hm),
      ih fun m t hm => hx m t (Or.inr hm), ← dense_append, List.singleton_append]

include H in
theorem block_dense (x y : Context) (hn : ∀ l, y.num l = x.num l) (ha : y.anchor = x.anchor) (hi : y.icon = x.icon) (ht : y.title = x.title) :
    (∀ b, Looked h x y (Block.pre b) → dense p (blockNodes y (Block.mapNodes h id b)) = dense p (blockNodes x b)) ∧
    (∀ i, Looked h x y (ListItem.pre i) → dense p [itemNode y (ListItem.mapNodes h id i)] = dense p [itemNode x i]) ∧
    (∀ l, Looked h x y (Block.preL l) → dense p (blocksNodes y (Block.mapNodesL h id l)) = dense p (blocksNodes x l)) ∧
    ∀ l, Looked h x y (ListItem.preL l) → dense p (itemsNodes y (ListItem.mapNodesL h id l)) = dense p (itemsNodes x l) := by
  have key := (inline_dense H x y hn ha).2
  have head : ∀ {b : Block} {l : List Block}, Looked h x y (b :: l) → ∀ m t, .linkReference m t ∈ Inline.preL b.directInlines →
      y.defs (Inline.mapNodesL h m) = x.defs m := fun k => k _ (List.mem_cons_self ..)
  have tail : ∀ {b : Block} {l : List Block}, Looked h x y (b :: l) → Looked h x y l := fun k c hc => k c (List.mem_cons_of_mem _ hc)
  apply Block.ind
  case paragraph => intro c k; exact dense_tag (key c (head k)) _ (by decide)
  case heading =>
    intro v c k
    refine dense_tag (key c (head k)) _ ?_
    rcases v with n | (_ | _)
    · simp only [headingName]; split <;> rfl
    · decide
    · decide
  case blockQuote => intro b ih k; exact dense_tag (ih (tail k)) _ (by decide)
  case list =>
    intro v i ih k
    rcases v with n | (_ | _ | _) <;> exact dense_tag (ih (tail k)) _ (by decide)
  case table =>
    intro rows al k
    have hx := head k
    simp only [Block.directInlines] at hx
    simp only [Block.mapNodes, id, blockNodes]
    refine dense_tag ?_ _ (by decide)
    rcases rows with _ | ⟨r, rows⟩
    · rfl
    · simp only [List.flatten_cons, List.flatten_append, preL_append', List.mem_append] at hx
      have a := dense_tag (n := cs!"thead") (row_dense H x y hn ha (n := cs!"th") (by decide) al r fun m t hm => hx m t (Or.inl hm)) [] (by decide)
      have b := dense_tag (n := cs!"tbody") (rows_dense H x y hn ha (n := cs!"td") (by decide) al rows fun m t hm => hx m t (Or.inr hm)) [] (by decide)
      have := congr (congrArg (· ++ ·) a) b
      rw [← dense_append, ← dense_append] at this
      exact this
  case footnoteDefinition =>
    intro l b ih k
    simp only [Block.mapNodes, id, blockNodes, hn]
    rcases x.num l with _ | n
    · rfl
    · refine dense_tag ?_ _ (by decide)
      have c := dense_tag (n := cs!"span") (ih (tail k)) [(cs!"class", cs!"markdown-footnote-definition-content")] (by decide)
      rw [← List.singleton_append, dense_append, c, ← dense_append]
      rfl
  case githubAlert =>
    intro v b ih k
    simp only [Block.mapNodes, id, blockNodes, hi, ht]
    refine dense_tag ?_ _ (by decide)
    rw [← List.singleton_append, dense_append, ih (tail k), ← dense_append]
    rfl
  case item =>
    intro t b ih k
    simp only [ListItem.mapNodes, itemNode]
    refine dense_tag ?_ _ (by decide)
    rw [dense_append, ih k, dense_append]
  case nilB => intro _; rfl
  case consB =>
    intro b l ihb ihl k
    simp only [Block.mapNodesL, blocksNodes, dense_append]
    rw [ihb fun c hc => k c (List.mem_append_left _ hc), ihl fun c hc => k c (List.mem_append_right _ hc)]
  case nilI => intro _; rfl
  case consI =>
    intro b l ihb ihl k
    simp only [ListItem.mapNodesL, itemsNodes]
    rw [← List.singleton_append, dense_append, ihb fun c hc => k c (List.mem_append_left _ hc),
      ihl fun c hc => k c (List.mem_append_right _ hc), ← dense_append]
    rfl
  all_goals intros; rfl

/-! ## Footnotes and definitions -/

include H in
theorem refs_map (l : List Inline) : (Inline.mapNodesL h l).filterMap refLabel = l.filterMap refLabel := by
  induction l with
  | nil => rfl
  | cons i l ih =>
    simp only [Inline.mapNodesL, List.filterMap_cons, ih]
    cases i
    case text t =>
      rcases H.text t with ⟨t', e, _⟩ | ⟨e, _⟩ <;> simp only [Inline.mapNodes, e, refLabel]
    all_goals
      simp only [Inline.mapNodes]
      rw [H.other _ fun t => by simp]
      try rfl

include H in
theorem number_map (d : Document) : footnoteNumber (d.mapNodes h id) = footnoteNumber d := by
  have e : directRefs (d.mapNodes h id) = directRefs d := by
    unfold directRefs
    rw [Document.allBlocks_mapNodes (hb := id) (fun _ => rfl), List.flatMap_map]
    congr 1
    funext b
    rw [Block.mapNodes_unfold]
    simp only [id, Block.directInlines_mapKids, ← Inline.mapNodesL_eq, refs_map H]
  funext l
  unfold footnoteNumber
  rw [e]

theorem definitions_map (d : Document) :
    linkDefinitions (d.mapNodes h id) = (linkDefinitions d).map fun e => (Inline.mapNodesL h e.1, e.2) := by
  unfold linkDefinitions
  rw [Document.allBlocks_mapNodes (hb := id) (fun _ => rfl), List.filterMap_map, List.map_filterMap]
  congr 1
  funext b
  cases b <;> rfl

theorem find_map {α β : Type} [DecidableEq α] (f : α → α) (L : List (α × β)) (l : α) (hL : ∀ e ∈ L, f e.1 = f l → e.1 = l) :
    ((L.map fun e => (f e.1, e.2)).find? fun e => e.1 = f l).map (·.2) = (L.find? fun e => e.1 = l).map (·.2) := by
  induction L with
  | nil => rfl
  | cons e L ih =>
    have ih := ih fun a ha => hL a (List.mem_cons_of_mem _ ha)
    have he := hL e (List.mem_cons_self ..)
    simp only [List.map_cons, List.find?_cons]
    by_cases c : e.1 = l
    · simp [c]
    · have c' : f e.1 ≠ f l := fun k => c (he k)
      simp only [c, c', decide_false]
      exact ih

theorem lookup_map {d : Document}
    (hd : ∀ l m, d.HasLabel l → d.HasLabel m → Inline.mapNodesL h l = Inline.mapNodesL h m → l = m)
    {l : List Inline} (hl : d.HasLabel l) :
    lastDefinition (d.mapNodes h id) (Inline.mapNodesL h l) = lastDefinition d l := by
  unfold lastDefinition
  rw [definitions_map, ← List.map_reverse]
  refine find_map _ _ _ fun e he k => ?_
  refine hd _ _ (Or.inr ?_) hl k
  obtain ⟨b, hb, hbe⟩ := List.mem_filterMap.1 (List.mem_reverse.1 he)
  cases b
  case definition l' dest title =>
    simp only [Option.some.injEq] at hbe
    subst hbe
    exact ⟨_, _, (Document.mem_allBlocks _ _).1 hb⟩
  all_goals simp at hbe

/-! ## Tables without rows -/

theorem children_map (b : Block) : (b.mapNodes h id).childBlocks = b.childBlocks.map (Block.mapNodes h id) := by
  rw [Block.mapNodes_unfold]
  simp only [id, Block.childBlocks_mapKids]

theorem rendered_map {num : Str → Option Nat} {a c : Block} (k : Rendered num a c) :
    Rendered num (a.mapNodes h id) (c.mapNodes h id) := by
  induction k with
  | self => exact .self _
  | child c e he hc _ ih =>
    refine .child _ _ (e.mapNodes h id) ?_ ?_ ih
    · rw [children_map]; exact List.mem_map.2 ⟨_, he, rfl⟩
    · intro l bs ecs
      cases c <;> simp only [Block.mapNodes, id, reduceCtorEq] at ecs
      case footnoteDefinition l' bs' =>
        injection ecs with e1 e2
        subst e1
        exact hc _ _ rfl

theorem rendered_unmap {num : Str → Option Nat} {a c : Block} (k : Rendered num a c) :
    ∀ c', c'.mapNodes h id = c → ∃ a', a'.mapNodes h id = a ∧ Rendered num a' c' := by
  induction k with
  | self => intro c' e; exact ⟨c', e, .self _⟩
  | child c e he hc _ ih =>
    intro c' ec
    subst ec
    rw [children_map] at he
    obtain ⟨e', he', rfl⟩ := List.mem_map.1 he
    obtain ⟨a', ha', hr⟩ := ih e' rfl
    refine ⟨a', ha', .child _ _ e' he' ?_ hr⟩
    rintro l bs rfl
    exact hc _ _ rfl

include H in
theorem rowless_map (d : Document) :
    (∃ al, RenderedIn (d.mapNodes h id) (.table [] al)) ↔ ∃ al, RenderedIn d (.table [] al) := by
  constructor
  · rintro ⟨al, c, hc, hr⟩
    rw [number_map H] at hr
    simp only [Document.mapNodes, Block.mapNodesL_eq] at hc
    obtain ⟨c', hc', rfl⟩ := List.mem_map.1 hc
    obtain ⟨a, ha, k⟩ := rendered_unmap hr c' rfl
    cases a <;> simp only [Block.mapNodes, id, reduceCtorEq] at ha
    case table rows al' =>
      injection ha with e1 e2
      rw [List.map_eq_nil_iff] at e1
      subst e1 e2
      exact ⟨_, c', hc', k⟩
  · rintro ⟨al, c, hc, hr⟩
    refine ⟨al, c.mapNodes h id, ?_, ?_⟩
    · simp only [Document.mapNodes, Block.mapNodesL_eq]; exact List.mem_map.2 ⟨_, hc, rfl⟩
    · rw [number_map H]; exact rendered_map hr

/-! ## The theorems -/

include H in
theorem cleaned_view (dw : Str → Nat) (cfg : Config) {d : Document}
    (hd : ∀ l m, d.HasLabel l → d.HasLabel m → Inline.mapNodesL h l = Inline.mapNodesL h m → l = m) :
    (renderHtml dw (d.mapNodes h id) cfg = none ↔ renderHtml dw d cfg = none) ∧
    ∀ s, renderHtml dw d cfg = some s → ∃ s' tree tree', renderHtml dw (d.mapNodes h id) cfg = some s' ∧
      s = writeNodes tree ∧ s' = writeNodes tree' ∧ dense p tree' = dense p tree := by
  obtain ⟨icon, _, hx⟩ := C89_exact_html
  rw [hx dw d cfg, hx dw (d.mapNodes h id) cfg]
  by_cases ht : ∃ al, RenderedIn d (.table [] al)
  · rw [if_pos ht, if_pos ((rowless_map H d).2 ht)]
    exact ⟨Iff.rfl, fun s hs => by cases hs⟩
  · rw [if_neg ht, if_neg fun k => ht ((rowless_map H d).1 k)]
    refine ⟨by simp, fun s hs => ?_⟩
    injection hs with hs
    refine ⟨_, _, _, rfl, hs.symm, rfl, ?_⟩
    refine (block_dense H ⟨footnoteNumber d, lastDefinition d, cfg.anchorPrefix, icon, titleRaw⟩
      ⟨footnoteNumber (d.mapNodes h id), lastDefinition (d.mapNodes h id), cfg.anchorPrefix, icon, titleRaw⟩ (fun l => congrFun (number_map H d) l) rfl rfl rfl).2.2.1 d.blocks ?_
    intro b hb m t hm
    exact lookup_map hd (Or.inl ⟨t, (Document.mem_allInlines _ _).1 (List.mem_flatMap.2 ⟨b, hb, hm⟩)⟩)

theorem squeeze_words (t : Str) : ∀ acc, squeeze isWs (joinWith [' '] (splitWsAux t acc)) = squeeze isWs acc ++ squeeze isWs t := by
  have app : ∀ a b, squeeze isWs (a ++ b) = squeeze isWs a ++ squeeze isWs b := fun a b => List.filter_append ..
  have cons : ∀ (a : Str) l, squeeze isWs (joinWith [' '] (a :: l)) = squeeze isWs a ++ squeeze isWs (joinWith [' '] l) := by
    intro a l
    cases l with
    | nil => simp [joinWith, squeeze]
    | cons b l =>
      simp only [joinWith, app]
      rw [show squeeze isWs [' '] = [] from by decide, List.append_nil]
  induction t with
  | nil => intro acc; cases acc <;> simp [splitWsAux, joinWith, squeeze]
  | cons c t ih =>
    intro acc
    by_cases hc : isWs c = true
    · have e : squeeze isWs (c :: t) = squeeze isWs t := by simp [squeeze, hc]
      cases acc with
      | nil => simp only [splitWsAux, hc, if_true, List.isEmpty_nil, ih, e]
      | cons a acc => simp only [splitWsAux, hc, if_true, List.isEmpty_cons, Bool.false_eq_true, if_false, cons, ih, e]; simp [squeeze]
    · simp only [splitWsAux, hc, Bool.false_eq_true, if_false, ih, app]
      simp [squeeze, hc]

theorem normalize_only : WhitespaceOnly isWs (Target.text.setInline fun t => joinWith [' '] (splitWs t)) := by
  refine ⟨fun t => Or.inl ⟨_, rfl, ?_⟩, fun i hi => ?_⟩
  · exact squeeze_words t []
  · cases i <;> first | rfl | exact absurd rfl (hi _)

theorem remove_only : WhitespaceOnly isWs blankToEmpty := by
  refine ⟨fun t => ?_, fun i hi => ?_⟩
  · by_cases e : (trim t).isEmpty = true
    · refine Or.inr ⟨by simp only [blankToEmpty, e, if_true], ?_⟩
      have hb := (trim_isEmpty t).1 e
      simp only [squeeze, List.filter_eq_nil_iff]
      intro c hc
      simp [hb c hc]
    · exact Or.inl ⟨t, by simp only [blankToEmpty, e, Bool.false_eq_true, if_false], rfl⟩
  · cases i <;> first | rfl | exact absurd rfl (hi _)

/-- What the clean-up `clean` does to labels. -/
def LabelsApart (clean : Document → Document) (d : Document) : Prop :=
  ∀ l m, d.HasLabel l → d.HasLabel m → (clean ⟨[.paragraph l]⟩) = clean ⟨[.paragraph m]⟩ → l = m

/-- **C108.** `normalize_whitespace` changes nothing but whitespace in what is displayed, provided that no two
labels become the same. -/
theorem C108_normalize (dw : Str → Nat) (cfg : Config) {d : Document} (hd : LabelsApart Document.normalizeWhitespace d) :
    (renderHtml dw d.normalizeWhitespace cfg = none ↔ renderHtml dw d cfg = none) ∧
    ∀ s, renderHtml dw d cfg = some s → ∃ s' tree tree', renderHtml dw d.normalizeWhitespace cfg = some s' ∧
      s = writeNodes tree ∧ s' = writeNodes tree' ∧ dense isWs tree' = dense isWs tree := by
  have e : ∀ d : Document, d.normalizeWhitespace = d.mapNodes (Target.text.setInline fun t => joinWith [' '] (splitWs t)) id := by
    intro d
    rw [Document.normalizeWhitespace]
    exact (Document.transform_eq .text _ d).trans (by congr 1)
  rw [e]
  refine cleaned_view normalize_only dw cfg fun l m hl hm k => hd l m hl hm ?_
  rw [e, e]
  simp only [Document.mapNodes, Block.mapNodesL, Block.mapNodes, id, k]

/-- **C108.** The same for `remove_empty_text`. -/
theorem C108_remove (dw : Str → Nat) (cfg : Config) {d : Document} (hd : LabelsApart Document.removeEmptyText d) :
    (renderHtml dw d.removeEmptyText cfg = none ↔ renderHtml dw d cfg = none) ∧
    ∀ s, renderHtml dw d cfg = some s → ∃ s' tree tree', renderHtml dw d.removeEmptyText cfg = some s' ∧
      s = writeNodes tree ∧ s' = writeNodes tree' ∧ dense isWs tree' = dense isWs tree := by
  rw [removeEmptyText_eq]
  refine cleaned_view remove_only dw cfg fun l m hl hm k => hd l m hl hm ?_
  rw [removeEmptyText_eq, removeEmptyText_eq]
  simp only [Document.mapNodes, Block.mapNodesL, Block.mapNodes, id, k]

/-- **C108**, the whitespace that is lost may be what separates words: both clean-ups join words that stand in
different elements, although they are meant for whitespace that does not matter. -/
theorem C108_words_joined :
    let html (d : Document) := renderHtml (fun _ => 0) d Config.default
    let parsed (s : Str) := parseMarkdown PExt.ascii (PConfig.default fun _ => none) s
    (parsed cs!"one *two* three").bind (fun d => html d) = some cs!"<p>one <em>two</em> three</p>" ∧
    (parsed cs!"one *two* three").bind (fun d => html d.normalizeWhitespace) = some cs!"<p>one<em>two</em>three</p>" ∧
    (parsed cs!"*one* *two*").bind (fun d => html d) = some cs!"<p><em>one</em> <em>two</em></p>" ∧
    (parsed cs!"*one* *two*").bind (fun d => html d.removeEmptyText) = some cs!"<p><em>one</em><em>two</em></p>" := by
  decide +kernel

/-- **C108**, why labels matter: a reference that is none becomes one, and its text appears. -/
theorem C108_labels_joined :
    let html (d : Document) := renderHtml (fun _ => 0) d Config.default
    let parsed (s : Str) := parseMarkdown PExt.ascii (PConfig.default fun _ => none) s
    (parsed cs!"[a b]: u\n\n[a  b]").bind (fun d => html d) = some cs!"<p></p>" ∧
    (parsed cs!"[a b]: u\n\n[a  b]").bind (fun d => html d.normalizeWhitespace) = some cs!"<p><a href=\"u\">a b</a></p>" := by
  decide +kernel

/-- A document with labels that meets the hypotheses. -/
theorem C108_example :
    let d : Document := ⟨[.definition [.text cs!"a"] cs!"u" none, .definition [.text cs!"b  c"] cs!"v" none,
      .paragraph [.text cs!" x  ", .linkReference [.text cs!"a"] [.text cs!" y"], .text cs!"\t", .code cs!" z  "]]⟩
    LabelsApart Document.normalizeWhitespace d ∧ LabelsApart Document.removeEmptyText d ∧
    renderHtml (fun _ => 0) d Config.default = some cs!"<p> x  <a href=\"u\"> y</a>\t<code> z  </code></p>" ∧
    renderHtml (fun _ => 0) d.normalizeWhitespace Config.default = some cs!"<p>x<a href=\"u\">y</a><code> z  </code></p>" ∧
    renderHtml (fun _ => 0) d.removeEmptyText Config.default = some cs!"<p> x  <a href=\"u\"> y</a><code> z  </code></p>" := by
  have labels : ∀ l, Document.HasLabel ⟨[.definition [.text cs!"a"] cs!"u" none, .definition [.text cs!"b  c"] cs!"v" none,
      .paragraph [.text cs!" x  ", .linkReference [.text cs!"a"] [.text cs!" y"], .text cs!"\t", .code cs!" z  "]]⟩ l →
      l = [.text cs!"a"] ∨ l = [.text cs!"b  c"] := by
    rintro l (⟨t, k⟩ | ⟨u, t, k⟩)
    · rw [← Document.mem_allInlines] at k
      simp [Document.allInlines, Document.allBlocks, Block.preL, Block.pre, Block.directInlines, Inline.preL, Inline.pre] at k
      exact Or.inl k.1
    · rw [← Document.mem_allBlocks] at k
      simp [Document.allBlocks, Block.preL, Block.pre] at k
      rcases k with k | k
      · exact Or.inl k.1
      · exact Or.inr k.1
  refine ⟨?_, ?_, by decide +kernel, by decide +kernel, by decide +kernel⟩ <;>
  · intro l m hl hm
    rcases labels l hl with rfl | rfl <;> rcases labels m hm with rfl | rfl <;> decide +kernel

/-- **C109.** `transform_text` changes nothing but text in what is displayed, and in texts only characters of a kind
`p`, whatever kind the function changes only characters of, provided that no two labels become the same. -/
theorem C109_transform_text (dw : Str → Nat) (cfg : Config) {p : Char → Bool} {f : Str → Str}
    (hf : ∀ t, squeeze p (f t) = squeeze p t) {d : Document} (hd : LabelsApart (Document.transformText f) d) :
    (renderHtml dw (d.transformText f) cfg = none ↔ renderHtml dw d cfg = none) ∧
    ∀ s, renderHtml dw d cfg = some s → ∃ s' tree tree', renderHtml dw (d.transformText f) cfg = some s' ∧
      s = writeNodes tree ∧ s' = writeNodes tree' ∧ dense p tree' = dense p tree := by
  have e : ∀ d : Document, d.transformText f = d.mapNodes (Target.text.setInline f) id := by
    intro d
    exact (Document.transform_eq .text _ d).trans (by congr 1)
  have ho : WhitespaceOnly p (Target.text.setInline f) := by
    refine ⟨fun t => Or.inl ⟨_, rfl, hf t⟩, fun i hi => ?_⟩
    cases i <;> first | rfl | exact absurd rfl (hi _)
  rw [e]
  refine cleaned_view ho dw cfg fun l m hl hm k => hd l m hl hm ?_
  rw [e, e]
  simp only [Document.mapNodes, Block.mapNodesL, Block.mapNodes, id, k]

/-- **C109** for any function: the elements, their attributes, code and raw HTML stay the same. -/
theorem C109_elements (dw : Str → Nat) (cfg : Config) (f : Str → Str) {d : Document}
    (hd : LabelsApart (Document.transformText f) d) :
    (renderHtml dw (d.transformText f) cfg = none ↔ renderHtml dw d cfg = none) ∧
    ∀ s, renderHtml dw d cfg = some s → ∃ s' tree tree', renderHtml dw (d.transformText f) cfg = some s' ∧
      s = writeNodes tree ∧ s' = writeNodes tree' ∧ dense (fun _ => true) tree' = dense (fun _ => true) tree :=
  C109_transform_text dw cfg (fun t => by simp [squeeze]) hd

/-- **C109**, a document that meets the hypotheses with a function that changes only the letter `a`; and labels
that become the same: the reference takes the destination of another definition. -/
theorem C109_examples :
    let f := fun t : Str => t.filter (· ≠ 'a')
    let d : Document := ⟨[.definition [.text cs!"xa"] cs!"u" none, .paragraph [.text cs!"abc ", .linkReference [.text cs!"xa"] [.text cs!"<a>"],
      .code cs!"a"]]⟩
    let e : Document := ⟨[.definition [.text cs!"x"] cs!"u" none, .definition [.text cs!"xa"] cs!"v" none,
      .paragraph [.linkReference [.text cs!"x"] [.text cs!"x"]]]⟩
    (∀ t, squeeze (· == 'a') (f t) = squeeze (· == 'a') t) ∧ LabelsApart (Document.transformText f) d ∧
    renderHtml (fun _ => 0) d Config.default = some cs!"<p>abc <a href=\"u\">&lt;a&gt;</a><code>a</code></p>" ∧
    renderHtml (fun _ => 0) (d.transformText f) Config.default = some cs!"<p>bc <a href=\"u\">&lt;&gt;</a><code>a</code></p>" ∧
    renderHtml (fun _ => 0) e Config.default = some cs!"<p><a href=\"u\">x</a></p>" ∧
    renderHtml (fun _ => 0) (e.transformText f) Config.default = some cs!"<p><a href=\"v\">x</a></p>" := by
  refine ⟨fun t => ?_, ?_, by decide +kernel, by decide +kernel, by decide +kernel, by decide +kernel⟩
  · simp only [squeeze, List.filter_filter]
    congr 1
    funext c
    simp
  · have labels : ∀ l, Document.HasLabel ⟨[.definition [.text cs!"xa"] cs!"u" none, .paragraph [.text cs!"abc ",
        .linkReference [.text cs!"xa"] [.text cs!"<a>"], .code cs!"a"]]⟩ l → l = [.text cs!"xa"] := by
      rintro l (⟨t, k⟩ | ⟨u, t, k⟩)
      · rw [← Document.mem_allInlines] at k
        simp [Document.allInlines, Document.allBlocks, Block.preL, Block.pre, Block.directInlines, Inline.preL, Inline.pre] at k
        exact k.1
      · rw [← Document.mem_allBlocks] at k
        simp [Document.allBlocks, Block.preL, Block.pre] at k
        exact k.1
    intro l m hl hm _
    rw [labels l hl, labels m hm]

end Html
end Verif
