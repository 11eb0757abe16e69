import Verif.CleanupLatex
import Verif.PrinterExactProps
/-!
# C115, C116: what clean-ups and text transforms do to the Markdown
-/
set_option autoImplicit false
namespace Verif
/-! ## Specification -/

/-- What is asked of a document for the characters outside the kind `q` of its Markdown to be the same before and after `g`: no
reference whose text becomes its label, `>` is of the kind if there are quotes or alerts (their number of lines may change) and
`-` is if there are tables (their width may change). -/
structure Comparable (g : Document → Document) (q : Char → Bool) (d : Document) : Prop where
  apart : ∀ label text, d.HasInline (.linkReference label text) → g ⟨[.paragraph label]⟩ = g ⟨[.paragraph text]⟩ → label = text
  quotes : ∀ b, d.HasBlock (.blockQuote b) → q '>' = true
  alerts : ∀ v b, d.HasBlock (.githubAlert v b) → q '>' = true
  tables : ∀ rows al, d.HasBlock (.table rows al) → q '-' = true

namespace Md
namespace Clean
open Md.Spec
open Latex (ink ink_append squeeze_app ink_lay)
open Html (WhitespaceOnly)

/-- `Comparable` for blocks and a function on inlines. -/
structure Fit (h : Inline → Inline) (q : Char → Bool) (l : List Block) : Prop where
  apart : ∀ b ∈ l, ∀ m t, .linkReference m t ∈ Inline.preL b.directInlines → Inline.mapNodesL h m = Inline.mapNodesL h t → m = t
  quotes : ∀ b, .blockQuote b ∈ l → q '>' = true
  alerts : ∀ v b, .githubAlert v b ∈ l → q '>' = true
  tables : ∀ r a, .table r a ∈ l → q '-' = true

variable {q : Char → Bool} (hq : ∀ c, isWs c = true → q c = true)

/-! ## Texts -/

theorem ink_words (dg : Char → Bool) (l : List (Option Str)) (h1 : squeeze q [' '] = []) :
    ink q (textPieces dg l) = (l.map fun o => squeeze q (o.getD [])).flatten := by
  fun_induction textPieces dg l with
  | case1 => rfl
  | case2 v l ih => simp [ink, ih]
  | case3 v l ih =>
    have e : ∀ b : Bool, ink q [if b then Piece.word [' '] else .gap] = [] := by intro b; cases b <;> simp [ink, h1]
    rw [← List.singleton_append, ink_append, e]
    simp only [ink, ih, List.map_cons, Option.getD, List.flatten_cons, List.nil_append]
    rfl
  | case4 l _ ih => simp [ink, ih, squeeze]

include hq in
theorem words_squeeze (t : Str) : ((wordsOf t).map fun o => squeeze q (o.getD [])).flatten = squeeze q t := by
  induction t with
  | nil => rfl
  | cons c t ih =>
    rw [wordsOf]
    split
    · rename_i hc
      have : squeeze q (c :: t) = squeeze q t := by simp [squeeze, hq c hc]
      rw [this, ← ih]
      split
      · rename_i e; rw [e]
      · simp [squeeze]
    · have : squeeze q (c :: t) = squeeze q [c] ++ squeeze q t := squeeze_app q [c] t
      rw [this, ← ih]
      split
      · rename_i v l e
        rw [e]
        have : squeeze q (c :: v) = squeeze q [c] ++ squeeze q v := squeeze_app q [c] v
        simp [this]
      · simp

include hq in
theorem sp : squeeze q [' '] = [] := by simp [squeeze, hq ' ' (by decide)]

include hq in
theorem ws_squeeze (t : Str) (h : ∀ c ∈ t, isWs c = true) : squeeze q t = [] := by
  rw [squeeze, List.filter_eq_nil_iff]
  intro c hc
  simp [hq c (h c hc)]

include hq in
theorem spaces_squeeze (n : Nat) : squeeze q (List.replicate n ' ') = [] :=
  ws_squeeze hq _ fun c hc => by rw [(List.mem_replicate.1 hc).2]; decide

include hq in
theorem collapse_squeeze (t : Str) : ∀ b, squeeze q (collapse b t) = squeeze q t := by
  induction t with
  | nil => intro b; rfl
  | cons c t ih =>
    intro b
    rw [collapse]
    split
    · rename_i hc
      have : squeeze q (c :: t) = squeeze q t := by simp [squeeze, hq c hc]
      rw [this]
      split
      · exact ih _
      · rw [← List.singleton_append, squeeze_app, ih, sp hq]; rfl
    · rw [← List.singleton_append, squeeze_app, ih, ← squeeze_app, List.singleton_append]

/-! ## Inlines -/

theorem title_ink (t : Option Str) : ink q (titlePieces t) = squeeze q (title t) := by
  cases t
  · rfl
  · simp only [titlePieces, title, ink, squeeze, List.filter_append, List.append_assoc, List.append_nil]

include hq in
/-- The letters of inlines are those of their text on one line. -/
theorem inline_source (dg : Char → Bool) :
    (∀ i, ink q (inlinePieces dg i) = squeeze q (inlineSource (collapse false) i)) ∧
    ∀ l, ink q (inlinesPieces dg l) = squeeze q (lineSource l) := by
  apply Inline.ind
  case text =>
    intro t
    rw [show inlinePieces dg (.text t) = textPieces dg (wordsOf t) from rfl, ink_words dg _ (sp hq), words_squeeze hq,
      show inlineSource (collapse false) (.text t) = collapse false t from rfl, collapse_squeeze hq]
  case linkReference =>
    intro l t ihl iht
    simp only [inlinePieces, inlineSource]
    split <;> simp only [ink, ink_append, squeeze, List.filter_append, List.append_nil, List.append_assoc] at ihl iht ⊢ <;> simp only [ihl, iht]
  case link =>
    intro d t c ih
    simp only [inlinePieces, inlineSource, ink, ink_append, squeeze_app, ih, title_ink, List.append_assoc, List.append_nil]
  all_goals
    intros
    simp_all only [inlinePieces, inlineSource, inlinesPieces, inlinesSource, ink, ink_append, List.filter_append, List.append_assoc, List.append_nil, squeeze, List.filter_nil]

variable {p : Char → Bool} {h : Inline → Inline} (H : WhitespaceOnly p h) (hp : ∀ c, p c = true → q c = true)

include hp in
theorem squeeze_twice (t : Str) : squeeze q (squeeze p t) = squeeze q t := by
  simp only [squeeze, List.filter_filter]
  refine List.filter_congr fun c _ => ?_
  rcases hc : p c with _ | _
  · simp
  · simp [hp c hc]

include H hq hp in
theorem source_changed :
    (∀ i, (∀ m t, .linkReference m t ∈ Inline.pre i → Inline.mapNodesL h m = Inline.mapNodesL h t → m = t) →
      squeeze q (inlineSource (collapse false) (Inline.mapNodes h i)) = squeeze q (inlineSource (collapse false) i)) ∧
    ∀ l, (∀ m t, .linkReference m t ∈ Inline.preL l → Inline.mapNodesL h m = Inline.mapNodesL h t → m = t) →
      squeeze q (lineSource (Inline.mapNodesL h l)) = squeeze q (lineSource l) := by
  apply Inline.ind
  case text =>
    intro t _
    rw [show Inline.mapNodes h (.text t) = h (.text t) from rfl, show inlineSource (collapse false) (.text t) = collapse false t from rfl,
      collapse_squeeze hq]
    rcases H.text t with ⟨t', e, k⟩ | ⟨e, k⟩ <;> rw [e]
    · rw [show inlineSource (collapse false) (.text t') = collapse false t' from rfl, collapse_squeeze hq, ← squeeze_twice hp t',
        ← squeeze_twice hp t, k]
    · rw [← squeeze_twice hp t, k]; rfl
  case link =>
    intro d t c ih k
    simp only [Inline.mapNodes]
    rw [H.other _ fun t => by simp]
    simp only [inlineSource, squeeze_app, ih fun m t ht => k m t (by simp [Inline.pre, ht])]
  case linkReference =>
    intro l t ihl iht k
    simp only [Inline.mapNodes]
    rw [H.other _ fun t => by simp]
    have el := ihl fun m t ht => k m t (by simp [Inline.pre, ht])
    have et := iht fun m t ht => k m t (by simp [Inline.pre, ht])
    have eh := k l t (by simp [Inline.pre])
    by_cases e : l = t
    · subst e
      simp only [inlineSource, if_true, squeeze_app, el]
    · have e' : Inline.mapNodesL h l ≠ Inline.mapNodesL h t := fun hh => e (eh hh)
      simp only [inlineSource, e, e', if_false, squeeze_app, el, et]
  case emphasis =>
    intro c ih k
    simp only [Inline.mapNodes]
    rw [H.other _ fun t => by simp]
    simp only [inlineSource, squeeze_app, ih fun m t ht => k m t (by simp [Inline.pre, ht])]
  case strong =>
    intro c ih k
    simp only [Inline.mapNodes]
    rw [H.other _ fun t => by simp]
    simp only [inlineSource, squeeze_app, ih fun m t ht => k m t (by simp [Inline.pre, ht])]
  case strikethrough =>
    intro c ih k
    simp only [Inline.mapNodes]
    rw [H.other _ fun t => by simp]
    simp only [inlineSource, squeeze_app, ih fun m t ht => k m t (by simp [Inline.pre, ht])]
  case nil => intro _; rfl
  case cons =>
    intro i l ihi ihl k
    have h1 := ihi fun m t ht => k m t (by simp [Inline.preL, ht])
    have h2 := ihl fun m t ht => k m t (by simp [Inline.preL, ht])
    simp only [Inline.mapNodesL, inlinesSource, squeeze_app] at h1 h2 ⊢
    rw [h1, h2]
  all_goals
    intros
    simp only [Inline.mapNodes]
    rw [H.other _ fun t => by simp]

/-! ## Lines -/

include hq in
theorem ink_unbroken (l : List Piece) : ink q (unbroken l) = ink q l := by
  fun_induction unbroken l with
  | case1 => rfl
  | case2 l ih => simp [ink, ih, sp hq]
  | case3 p l _ ih => cases p <;> simp_all [ink]

theorem ink_onLines (l : List (List Piece)) : ink q (onLines l) = (l.map (ink q)).flatten := by
  fun_induction onLines l with
  | case1 => rfl
  | case2 l => simp
  | case3 l ls _ ih => simp [ink, ink_append, ih]

include hq in
theorem lines_aux (s : Str) : ∀ acc, ((rustLinesAux s acc).map (squeeze q)).flatten = squeeze q (acc ++ s) := by
  induction s with
  | nil => intro acc; cases acc <;> simp [rustLinesAux, squeeze]
  | cons c s ih =>
    intro acc
    by_cases hc : c = '\n'
    · subst hc
      have : squeeze q (if acc.getLast? = some '\r' then acc.dropLast else acc) = squeeze q acc := by
        split
        · rename_i e
          rcases List.eq_nil_or_concat acc with rfl | ⟨u, c, rfl⟩
          · rfl
          · have : c = '\r' := by simpa using e
            subst this
            rw [List.concat_eq_append, List.dropLast_concat, squeeze_app, ws_squeeze hq ['\r'] (by decide), List.append_nil]
        · rfl
      rw [rustLinesAux, List.map_cons, List.flatten_cons, ih, this, List.nil_append, ← List.singleton_append (x := '\n'), squeeze_app,
        squeeze_app, ws_squeeze hq ['\n'] (by decide), List.nil_append]
    · rw [rustLinesAux]
      · rw [ih, List.append_assoc, List.singleton_append]
      · exact hc

include hq in
theorem lines_squeeze (s : Str) : ((rustLines s).map (squeeze q)).flatten = squeeze q s := lines_aux hq s []

include hq in
theorem quote_ink (hg : q '>' = true) (s : Str) : ink q (quotePieces (rustLines s)) = squeeze q s := by
  have e : squeeze q cs!"> " = [] := by simp [squeeze, hg, hq ' ' (by decide)]
  unfold quotePieces
  rw [← lines_squeeze hq s]
  split
  · rename_i h; rw [h]; simp [ink, squeeze]
  · rw [ink_onLines, List.map_map]
    congr 1
    refine List.map_congr_left fun l _ => ?_
    simp only [Function.comp, ink, e, List.nil_append, List.append_nil]

include hq in
theorem alert_ink (hg : q '>' = true) (s : Str) :
    ((rustLines s).map fun l => ink q [.word (Spec.alertLine l)]).flatten = squeeze q s := by
  have e : squeeze q cs!"> " = [] := by simp [squeeze, hg, hq ' ' (by decide)]
  rw [← lines_squeeze hq s]
  congr 1
  refine List.map_congr_left fun l _ => ?_
  simp only [ink, Spec.alertLine, List.append_nil]
  split
  · rename_i h
    rw [ws_squeeze hq l (by simpa using h)]
    simp [squeeze, hg]
  · rw [squeeze_app, e, List.nil_append]

/-! ## Tables -/

theorem join_squeeze (s : Str) (l : List Str) : squeeze q (joinWith s l) = joinWith (squeeze q s) (l.map (squeeze q)) := by
  fun_induction joinWith s l with
  | case1 => rfl
  | case2 => rfl
  | case3 x y l ih => simp only [squeeze_app, ih, List.map_cons, joinWith]

theorem row_squeeze {a b : List Str} (e : a.map (squeeze q) = b.map (squeeze q)) : squeeze q (Spec.row a) = squeeze q (Spec.row b) := by
  simp only [Spec.row, squeeze_app, join_squeeze, e]

include hq in
theorem pad_squeeze (a : Alignment) (w : Nat) (c : Str) : squeeze q (pad a w c) = squeeze q c := by
  cases a <;> simp only [pad, squeeze_app, spaces_squeeze hq, List.nil_append, List.append_nil]

theorem delimiter_squeeze (hd : q '-' = true) (a : Alignment) (w w' : Nat) : squeeze q (delimiter a w) = squeeze q (delimiter a w') := by
  have e : ∀ n, squeeze q (List.replicate n '-') = [] := fun n => by
    rw [squeeze, List.filter_eq_nil_iff]
    intro c hc
    simp [(List.mem_replicate.1 hc).2, hd]
  cases a <;> simp only [delimiter, squeeze_app, e]

include hq in
theorem cells_squeeze (f : Nat → Alignment) (g : Nat → Nat) (c : List Str) :
    (c.mapIdx fun i c => pad (f i) (g i) c).map (squeeze q) = c.map (squeeze q) := by
  apply List.ext_getElem <;> simp [pad_squeeze hq]

include hq in
theorem table_squeeze (hd : q '-' = true) (al : List Alignment) (a b : List (List Str)) (e : a.map (List.map (squeeze q)) = b.map (List.map (squeeze q))) :
    (anyTableLines al a).map (squeeze q) = (anyTableLines al b).map (squeeze q) := by
  rcases a with _ | ⟨u, a⟩ <;> rcases b with _ | ⟨v, b⟩ <;> simp only [List.map_nil, List.map_cons, reduceCtorEq, List.cons.injEq] at e
  · rfl
  · obtain ⟨e1, e2⟩ := e
    simp only [anyTableLines, List.map_cons, List.cons.injEq, List.map_map]
    refine ⟨row_squeeze ?_, row_squeeze ?_, ?_⟩
    · rw [cells_squeeze hq, cells_squeeze hq, e1]
    · apply List.ext_getElem
      · simp
      · intro i h1 h2
        simp only [List.getElem_map, List.getElem_mapIdx]
        exact delimiter_squeeze hd _ _ _
    · have : ∀ (g : Nat → Nat) (a : List (List Str)), a.map (squeeze q ∘ fun cells => Spec.row (cells.mapIdx fun i c => pad (al[i]?.getD .none) (g i) c)) =
          (a.map (List.map (squeeze q))).map fun c => squeeze q cs!"| " ++ joinWith (squeeze q cs!" | ") c ++ squeeze q cs!" |" := by
        intro g a
        rw [List.map_map]
        refine List.map_congr_left fun c _ => ?_
        simp only [Function.comp, Spec.row, squeeze_app, join_squeeze, cells_squeeze hq]
      rw [this, this, e2]

/-! ## Blocks -/

theorem map_snd (n : Nat) (l : List Piece) : (atIndent n l).map (·.2) = l := by
  induction l with
  | nil => rfl
  | cons p l ih => simp_all [atIndent]

/-- The letters of pieces with indentation. -/
abbrev inkP (q : Char → Bool) (l : Pieces) : Str := ink q (l.map (·.2))

theorem inkP_at (n : Nat) (l : List Piece) : inkP q (atIndent n l) = ink q l := by rw [inkP, map_snd]

theorem inkP_append (a b : Pieces) : inkP q (a ++ b) = inkP q a ++ inkP q b := by rw [inkP, List.map_append, ink_append]

theorem Fit.tail {h : Inline → Inline} {a b : List Block} (f : Fit h q a) (k : ∀ c ∈ b, c ∈ a) : Fit h q b :=
  ⟨fun c hc => f.apart c (k c hc), fun c hc => f.quotes c (k _ hc), fun v c hc => f.alerts v c (k _ hc), fun r a hc => f.tables r a (k _ hc)⟩

theorem gap_ink (y : Style) (b : Block) : ink q (gapBefore y b) = [] := by
  cases b
  case list => simp only [gapBefore]; split <;> rfl
  all_goals rfl

include hq in
theorem item_ink (s s' : Nat) (k : ListKind) (i : Nat) (t : Option TaskState) : ink q (itemPieces s k i t) = ink q (itemPieces s' k i t) := by
  simp only [itemPieces, ink_append, ink, spaces_squeeze hq]

include H hq hp in
theorem block_ink (dw dw' : Str → Nat) (w w' : Nat) (y y' : Style) (hu : y'.upper = y.upper) :
    (∀ b, Fit h q (Block.pre b) → ∀ ind col ind' col',
      inkP q (blockPieces dw' w' y' ind' col' (Block.mapNodes h id b)) = inkP q (blockPieces dw w y ind col b)) ∧
    (∀ i, Fit h q (ListItem.pre i) → ∀ ind col ind' col',
      inkP q (contentPieces dw' w' y' ind' col' (ListItem.mapNodes h id i)) = inkP q (contentPieces dw w y ind col i)) ∧
    (∀ l, Fit h q (Block.preL l) → ∀ ind col ind' col' first,
      inkP q (blocksPieces dw' w' y' ind' col' first (Block.mapNodesL h id l)) = inkP q (blocksPieces dw w y ind col first l)) ∧
    ∀ l, Fit h q (ListItem.preL l) → ∀ k i inner ind col inner' ind' col',
      inkP q (itemsPieces dw' w' y' k inner' ind' i col' (ListItem.mapNodesL h id l)) = inkP q (itemsPieces dw w y k inner ind i col l) := by
  have key : ∀ {b : Block} {l c}, Fit h q (b :: l) → (∀ i ∈ Inline.preL c, i ∈ Inline.preL b.directInlines) →
      squeeze q (lineSource (Inline.mapNodesL h c)) = squeeze q (lineSource c) := fun {b l c} f k =>
    (source_changed hq H hp).2 c fun m t hm => f.apart b (List.mem_cons_self ..) m t (k _ hm)
  have inl : ∀ {b : Block} {l c}, Fit h q (b :: l) → (∀ i ∈ Inline.preL c, i ∈ Inline.preL b.directInlines) →
      ink q (inlinesPieces y'.digit (Inline.mapNodesL h c)) = ink q (inlinesPieces y.digit c) := fun {b l c} f k => by
    rw [(inline_source hq _).2, (inline_source hq _).2, key f k]
  have tl : ∀ {b : Block} {l : List Block}, Fit h q (b :: l) → Fit h q l := fun f => f.tail fun c hc => List.mem_cons_of_mem _ hc
  apply Block.ind
  case paragraph =>
    intro c k _ _ _ _
    simp only [Block.mapNodes, id, blockPieces, inkP_at]
    exact inl k fun _ h => h
  case heading =>
    intro v c k _ _ _ _
    have := inl (c := c) k fun _ h => h
    cases v <;> simp only [Block.mapNodes, id, blockPieces, inkP_at, ink_append, ink_unbroken hq, this]
  case definition =>
    intro l d t k _ _ _ _
    have := inl (c := l) k fun _ h => h
    simp only [Block.mapNodes, id, blockPieces, inkP_at, ink_append, this]
  case blockQuote =>
    intro b ih k _ _ _ _
    have hg := k.quotes b (List.mem_cons_self ..)
    simp only [Block.mapNodes, id, blockPieces, inkP_at, quote_ink hq hg, ink_lay hq]
    exact ih (tl k) _ _ _ _ _
  case githubAlert =>
    intro v b ih k _ _ _ _
    have hg := k.alerts v b (List.mem_cons_self ..)
    simp only [Block.mapNodes, id, blockPieces, inkP_at, ink_onLines, List.map_cons, List.map_map, List.flatten_cons, hu]
    have e := alert_ink hq hg (lay dw 80 0 (blocksPieces dw w y 0 0 true b))
    have e' := alert_ink hq hg (lay dw' 80 0 (blocksPieces dw' w' y' 0 0 true (Block.mapNodesL h id b)))
    simp only [Function.comp_def]
    rw [e, e', ink_lay hq, ink_lay hq]
    congr 1
    exact ih (tl k) _ _ _ _ _
  case list =>
    intro v i ih k _ _ _ _
    simp only [Block.mapNodes, id, blockPieces]
    exact ih (tl k) _ _ _ _ _ _ _ _
  case table =>
    intro rows al k ind col ind' col'
    have hd := k.tables rows al (List.mem_cons_self ..)
    simp only [Block.mapNodes, id, blockPieces, List.map_eq_nil_iff]
    split
    · rfl
    · simp only [inkP_at, ink, List.append_nil, join_squeeze]
      congr 1
      refine table_squeeze hq hd al _ _ ?_
      simp only [List.map_map]
      refine List.map_congr_left fun r hr => ?_
      simp only [Function.comp, List.map_map]
      refine List.map_congr_left fun c hc => ?_
      exact key k fun i hi => by
        simp only [Block.directInlines]
        exact Latex.preL_flatten (List.mem_flatten.2 ⟨r, hr, hc⟩) hi
  case footnoteDefinition =>
    intro l b ih k ind col ind' col'
    simp only [Block.mapNodes, id, blockPieces, inkP, List.map_cons, ink]
    congr 1
    exact ih (tl k) _ _ _ _ _
  case item =>
    intro t b ih k ind col ind' col'
    simp only [ListItem.mapNodes, contentPieces]
    exact ih k _ _ _ _ _
  case nilB => intro _ _ _ _ _ _; rfl
  case consB =>
    intro b l ihb ihl k ind col ind' col' first
    simp only [Block.mapNodesL, blocksPieces, inkP_append]
    rw [ihb (k.tail fun c hc => List.mem_append_left _ hc) ind col, ihl (k.tail fun c hc => List.mem_append_right _ hc) ind ind]
    congr 2
    cases first
    · simp only [Bool.false_eq_true, if_false, inkP_at, gap_ink]
    · rfl
  case nilI => intro _ _ _ _ _ _ _ _ _; rfl
  case consI =>
    intro b l ihb ihl k v i inner ind col inner' ind' col'
    have et : (ListItem.mapNodes h id b).task = b.task := by cases b; rfl
    simp only [ListItem.mapNodesL, itemsPieces, inkP_append, inkP_at, et, item_ink hq y'.spaces y.spaces]
    rw [ihb (k.tail fun c hc => List.mem_append_left _ hc) inner (col + itemColumns y.spaces v i b.task),
      ihl (k.tail fun c hc => List.mem_append_right _ hc) v (i + 1) inner ind ind]
    congr 3
    split <;> rfl
  case empty => intros; rfl
  case codeBlock =>
    intro v t _ _ _ _ _
    cases v <;> simp only [Block.mapNodes, id, blockPieces, inkP_at]
  all_goals
    intros
    simp only [Block.mapNodes, id, blockPieces, inkP_at]

theorem fit {h : Inline → Inline} {g : Document → Document} (e : ∀ d : Document, g d = d.mapNodes h id) {d : Document} (c : Comparable g q d) :
    Fit h q (Block.preL d.blocks) := by
  refine ⟨fun b hb m t hm k => c.apart m t ?_ ?_, fun b hb => c.quotes b ?_, fun v b hb => c.alerts v b ?_, fun r a hb => c.tables r a ?_⟩
  · rw [← Document.mem_allInlines]
    exact List.mem_flatMap.2 ⟨b, hb, hm⟩
  · rw [e, e]
    simp only [Document.mapNodes, Block.mapNodesL, Block.mapNodes, id, k]
  all_goals rw [← Document.mem_allBlocks]; exact hb

include H hq hp in
theorem markdown_changed {g : Document → Document} (e : ∀ d : Document, g d = d.mapNodes h id) {x x' : Ext} {cfg cfg' : Config}
    (hu : x'.toPExt.upperStr = x.toPExt.upperStr) {d : Document} {s s' : Str} (c : Comparable g q d)
    (hs : renderMarkdown x cfg d = some s) (hs' : renderMarkdown x' cfg' (g d) = some s') : squeeze q s' = squeeze q s := by
  rw [Exact.C86_exact] at hs hs'
  rw [hs.2, hs'.2, e]
  unfold markdownText
  rw [ink_lay hq, ink_lay hq]
  exact (block_ink hq H hp x.dw x'.dw cfg.width cfg'.width (style x cfg) (style x' cfg') hu).2.2.1 d.blocks (fit e c) 0 0 0 0 true

/-- No row of a table is longer than its header. -/
def Ragless (l : List Block) : Prop := ∀ r a, .table r a ∈ l → ∀ u ∈ r, u.length ≤ (r.headD []).length

theorem ragless_ok {r : List (List (List Inline))} (h : ∀ u ∈ r, u.length ≤ (r.headD []).length) : TableOk r := by
  intro u hu j c hc
  refine .inl (Nat.lt_of_lt_of_le ?_ (h u hu))
  exact (List.getElem?_eq_some_iff.1 hc).1

theorem printable (h : Inline → Inline) (dw : Str → Nat) (sp : Nat) :
    (∀ b, Ragless (Block.pre b) → ∀ w ind col, Printable dw w sp ind col (Block.mapNodes h id b) ↔ Printable dw w sp ind col b) ∧
    (∀ i, Ragless (ListItem.pre i) → ∀ w ind col, PrintableItem dw w sp ind col (ListItem.mapNodes h id i) ↔ PrintableItem dw w sp ind col i) ∧
    (∀ l, Ragless (Block.preL l) → ∀ w ind col, PrintableL dw w sp ind col (Block.mapNodesL h id l) ↔ PrintableL dw w sp ind col l) ∧
    ∀ l, Ragless (ListItem.preL l) → ∀ w k inner ind n col,
      PrintableItems dw w sp k inner ind n col (ListItem.mapNodesL h id l) ↔ PrintableItems dw w sp k inner ind n col l := by
  have tl : ∀ {b : Block} {l : List Block}, Ragless (b :: l) → Ragless l := fun f r a hm => f r a (List.mem_cons_of_mem _ hm)
  have len : ∀ l : List ListItem, (ListItem.mapNodesL h id l).length = l.length := by
    intro l
    induction l with
    | nil => rfl
    | cons i l ih => simp [ListItem.mapNodesL, ih]
  apply Block.ind
  case blockQuote =>
    intro b ih k w ind col
    simp only [Block.mapNodes, id, Printable, ih (tl k)]
  case githubAlert =>
    intro v b ih k w ind col
    simp only [Block.mapNodes, id, Printable, ih (tl k)]
  case footnoteDefinition =>
    intro l b ih k w ind col
    simp only [Block.mapNodes, id, Printable, ih (tl k)]
  case list =>
    intro v i ih k w ind col
    simp only [Block.mapNodes, id, Printable, ih (tl k), len]
  case table =>
    intro r a k w ind col
    have h1 := k r a (List.mem_cons_self ..)
    have h2 : ∀ u ∈ r.map (List.map (Inline.mapNodesL h)), u.length ≤ ((r.map (List.map (Inline.mapNodesL h))).headD []).length := by
      intro u hu
      obtain ⟨v, hv, rfl⟩ := List.mem_map.1 hu
      have := h1 v hv
      cases r <;> simp_all
    simp only [Block.mapNodes, id, Printable]
    exact ⟨fun _ => ragless_ok h1, fun _ => ragless_ok h2⟩
  case item =>
    intro t b ih k w ind col
    simp only [ListItem.mapNodes, PrintableItem, ih k]
  case nilB => intro _ _ _ _; rfl
  case consB =>
    intro b l ihb ihl k w ind col
    simp only [Block.mapNodesL, PrintableL]
    rw [ihb fun r a hm => k r a (List.mem_append_left _ hm), ihl fun r a hm => k r a (List.mem_append_right _ hm)]
  case nilI => intro _ _ _ _ _ _ _; rfl
  case consI =>
    intro b l ihb ihl k w v inner ind n col
    have et : (ListItem.mapNodes h id b).task = b.task := by cases b; rfl
    simp only [ListItem.mapNodesL, PrintableItems, et]
    rw [ihb fun r a hm => k r a (List.mem_append_left _ hm), ihl fun r a hm => k r a (List.mem_append_right _ hm)]
  all_goals intros; rfl

theorem printed (h : Inline → Inline) (x : Ext) (cfg : Config) {d : Document}
    (hr : ∀ rows al, d.HasBlock (.table rows al) → ∀ r ∈ rows, r.length ≤ (rows.headD []).length) :
    (∃ s, renderMarkdown x cfg (d.mapNodes h id) = some s) ↔ ∃ s, renderMarkdown x cfg d = some s := by
  simp only [Exact.C86_exact, exists_and_left, exists_eq, and_true]
  exact (printable h x.dw cfg.spacesBeforeListItem).2.2.1 d.blocks (fun r a hm => hr r a (by rw [← Document.mem_allBlocks]; exact hm)) _ _ _

end Clean

/-- **C115.** The Markdown after `normalize_whitespace`, printed with any configuration, has the same characters as before,
in the same order, apart from whitespace (and `>` if there are quotes or alerts, and `-` if there are tables). -/
theorem C115_normalize {q : Char → Bool} (hq : ∀ c, isWs c = true → q c = true) {x x' : Ext} {cfg cfg' : Config}
    (hu : x'.toPExt.upperStr = x.toPExt.upperStr) {d : Document} {s s' : Str} (hd : Comparable Document.normalizeWhitespace q d)
    (hs : renderMarkdown x cfg d = some s) (hs' : renderMarkdown x' cfg' d.normalizeWhitespace = some s') :
    squeeze q s' = squeeze q s := by
  refine Clean.markdown_changed hq Html.normalize_only hq (fun d => ?_) hu hd hs hs'
  rw [Document.normalizeWhitespace]
  exact (Document.transform_eq .text _ d).trans (by congr 1)

/-- **C115.** The same for `remove_empty_text`. -/
theorem C115_remove {q : Char → Bool} (hq : ∀ c, isWs c = true → q c = true) {x x' : Ext} {cfg cfg' : Config}
    (hu : x'.toPExt.upperStr = x.toPExt.upperStr) {d : Document} {s s' : Str} (hd : Comparable Document.removeEmptyText q d)
    (hs : renderMarkdown x cfg d = some s) (hs' : renderMarkdown x' cfg' d.removeEmptyText = some s') :
    squeeze q s' = squeeze q s :=
  Clean.markdown_changed hq Html.remove_only hq (fun d => removeEmptyText_eq d) hu hd hs hs'

/-- **C115** without a clean-up: the configuration and the widths of the words matter for whitespace (and for `>` and `-`) only. -/
theorem C115_configuration {q : Char → Bool} (hq : ∀ c, isWs c = true → q c = true) {x x' : Ext} {cfg cfg' : Config}
    (hu : x'.toPExt.upperStr = x.toPExt.upperStr) {d : Document} {s s' : Str} (hd : Comparable (fun d => d) q d)
    (hs : renderMarkdown x cfg d = some s) (hs' : renderMarkdown x' cfg' d = some s') : squeeze q s' = squeeze q s := by
  have ho : Html.WhitespaceOnly isWs (id : Inline → Inline) := ⟨fun t => Or.inl ⟨t, rfl, rfl⟩, fun _ _ => rfl⟩
  exact Clean.markdown_changed hq ho hq (fun d => (Document.mapNodes_id d).symm) hu hd hs hs'

/-- **C116.** If a function on texts changes only characters of the kind `p`, `transform_text` changes only these characters
and whitespace in the Markdown (and `>` if there are quotes or alerts, and `-` if there are tables). -/
theorem C116_transform_text {p q : Char → Bool} {f : Str → Str} (hf : ∀ t, squeeze p (f t) = squeeze p t)
    (hq : ∀ c, isWs c = true → q c = true) (hp : ∀ c, p c = true → q c = true) {x x' : Ext} {cfg cfg' : Config}
    (hu : x'.toPExt.upperStr = x.toPExt.upperStr) {d : Document} {s s' : Str} (hd : Comparable (Document.transformText f) q d)
    (hs : renderMarkdown x cfg d = some s) (hs' : renderMarkdown x' cfg' (d.transformText f) = some s') :
    squeeze q s' = squeeze q s := by
  have ho : Html.WhitespaceOnly p (Target.text.setInline f) := by
    refine ⟨fun t => Or.inl ⟨_, rfl, hf t⟩, fun i hi => ?_⟩
    cases i <;> first | rfl | exact absurd rfl (hi _)
  refine Clean.markdown_changed hq ho hp (fun d => ?_) hu hd hs hs'
  exact (Document.transform_eq .text _ d).trans (by congr 1)

/-- **C115, C116**: a document without a table that has a row longer than its header has a Markdown text after a clean-up, or a
transform of the texts, exactly if it has one before. -/
theorem C115_printed (x : Ext) (cfg : Config) {d : Document}
    (hr : ∀ rows al, d.HasBlock (.table rows al) → ∀ r ∈ rows, r.length ≤ (rows.headD []).length) :
    ((∃ s, renderMarkdown x cfg d.normalizeWhitespace = some s) ↔ ∃ s, renderMarkdown x cfg d = some s) ∧
    ((∃ s, renderMarkdown x cfg d.removeEmptyText = some s) ↔ ∃ s, renderMarkdown x cfg d = some s) ∧
    ∀ f, (∃ s, renderMarkdown x cfg (d.transformText f) = some s) ↔ ∃ s, renderMarkdown x cfg d = some s := by
  have e : ∀ f, d.transformText f = d.mapNodes (Target.text.setInline f) id :=
    fun f => (Document.transform_eq .text _ d).trans (by congr 1)
  refine ⟨?_, ?_, fun f => ?_⟩
  · have e' : d.normalizeWhitespace = d.mapNodes (Target.text.setInline fun t => joinWith [' '] (splitWs t)) id := by
      rw [Document.normalizeWhitespace]
      exact (Document.transform_eq .text _ d).trans (by congr 1)
    rw [e']
    exact Clean.printed _ x cfg hr
  · rw [removeEmptyText_eq]
    exact Clean.printed _ x cfg hr
  · rw [e]
    exact Clean.printed _ x cfg hr

/-- **C115**, documents: in a quote and in a table other characters change; a link reference becomes a shorter one. -/
theorem C115_findings :
    let x := Ext.ascii
    let cfg : Config := { Config.default with width := 6 }
    let l : List Inline := [.text cs!"aaa", .text cs!"  ", .text cs!"bbb"]
    renderMarkdown x cfg ⟨[.paragraph l]⟩ = some cs!"aaa\nbbb" ∧
    renderMarkdown x cfg (Document.normalizeWhitespace ⟨[.paragraph l]⟩) = some cs!"aaabbb" ∧
    renderMarkdown x cfg ⟨[.blockQuote [.paragraph l]]⟩ = some cs!"> aaa\n> bbb" ∧
    renderMarkdown x cfg (Document.removeEmptyText ⟨[.blockQuote [.paragraph l]]⟩) = some cs!"> aaabbb" ∧
    renderMarkdown x cfg ⟨[.table [[l]] [.left]]⟩ = some cs!"| aaa bbb |\n| ------- |" ∧
    renderMarkdown x cfg (Document.normalizeWhitespace ⟨[.table [[l]] [.left]]⟩) = some cs!"| aaabbb |\n| ------ |" ∧
    renderMarkdown x Config.default ⟨[.paragraph [.linkReference [.text cs!" a"] [.text cs!"a"]]]⟩ = some cs!"[a][ a]" ∧
    renderMarkdown x Config.default (Document.normalizeWhitespace ⟨[.paragraph [.linkReference [.text cs!" a"] [.text cs!"a"]]]⟩) = some cs!"[a]" := by
  decide +kernel

/-- **C115, C116**, a document with a quote, a list and a link reference that meets the hypotheses, and what the theorems say of it. -/
theorem C115_example :
    let d : Document := ⟨[.blockQuote [.paragraph [.text cs!" a", .linkReference [.text cs!"l  m"] [.text cs!"x  y"]]],
      .list (.bullet .dash) [⟨none, [.paragraph [.text cs!" b", .text cs!"\t"]]⟩]]⟩
    let q := fun c : Char => isWs c || c == '>'
    let f := fun t : Str => t.filter (· != 'a')
    let r := fun c : Char => isWs c || c == '>' || c == 'a'
    Comparable Document.normalizeWhitespace q d ∧ Comparable Document.removeEmptyText q d ∧ Comparable (Document.transformText f) r d ∧
    (∀ c, isWs c = true → q c = true) ∧ (∀ c, isWs c = true → r c = true) ∧
    (∀ t, squeeze (· == 'a') (f t) = squeeze (· == 'a') t) ∧
    renderMarkdown Ext.ascii Config.default d = some cs!">  a[x y][l m]\n\n -  b " ∧
    renderMarkdown Ext.ascii Config.default d.normalizeWhitespace = some cs!"> a[x y][l m]\n\n - b" ∧
    renderMarkdown Ext.ascii Config.default (d.transformText f) = some cs!">  [x y][l m]\n\n -  b " := by
  have refs : ∀ l t, Document.HasInline ⟨[.blockQuote [.paragraph [.text cs!" a", .linkReference [.text cs!"l  m"] [.text cs!"x  y"]]],
      .list (.bullet .dash) [⟨none, [.paragraph [.text cs!" b", .text cs!"\t"]]⟩]]⟩ (.linkReference l t) →
      l = [.text cs!"l  m"] ∧ t = [.text cs!"x  y"] := by
    intro l t k
    rw [← Document.mem_allInlines] at k
    simpa [Document.allInlines, Document.allBlocks, Block.preL, Block.pre, ListItem.preL, ListItem.pre, Block.directInlines, Inline.preL, Inline.pre] using k
  have tabs : ∀ rows al, ¬ Document.HasBlock ⟨[.blockQuote [.paragraph [.text cs!" a", .linkReference [.text cs!"l  m"] [.text cs!"x  y"]]],
      .list (.bullet .dash) [⟨none, [.paragraph [.text cs!" b", .text cs!"\t"]]⟩]]⟩ (.table rows al) := by
    intro rows al k
    rw [← Document.mem_allBlocks] at k
    simp [Document.allBlocks, Block.preL, Block.pre, ListItem.preL, ListItem.pre] at k
  refine ⟨⟨fun l t k e => ?_, fun _ _ => rfl, fun _ _ _ => rfl, fun r a k => absurd k (tabs r a)⟩,
    ⟨fun l t k e => ?_, fun _ _ => rfl, fun _ _ _ => rfl, fun r a k => absurd k (tabs r a)⟩,
    ⟨fun l t k e => ?_, fun _ _ => rfl, fun _ _ _ => rfl, fun r a k => absurd k (tabs r a)⟩,
    fun c h => by simp [h], fun c h => by simp [h], fun t => ?_, by decide +kernel, by decide +kernel, by decide +kernel⟩
  · obtain ⟨rfl, rfl⟩ := refs l t k
    exact absurd e (by decide +kernel)
  · obtain ⟨rfl, rfl⟩ := refs l t k
    exact absurd e (by decide +kernel)
  · obtain ⟨rfl, rfl⟩ := refs l t k
    exact absurd e (by decide +kernel)
  · simp only [squeeze, List.filter_filter]
    refine List.filter_congr fun c _ => ?_
    by_cases h : c = 'a' <;> simp [h]

end Md
end Verif
