import Verif.FormatLatex
import Verif.CleanupHtml
/-!
# C110, C111: what clean-ups and text transforms do to the LaTeX
-/
set_option autoImplicit false
namespace Verif
namespace Latex
open Md.Spec (Piece wordsOf atIndent lay nextIndent)
open Exact Source
open Html (WhitespaceOnly LabelsApart Looked)

/-! ## The letters of pieces -/

/-- The letters of pieces that are not of the kind `q`. -/
def ink (q : Char → Bool) : List Piece → Str
  | [] => []
  | .word s :: l => squeeze q s ++ ink q l
  | .gap :: l => ink q l
  | .newline :: l => ink q l

theorem squeeze_app (q : Char → Bool) (a b : Str) : squeeze q (a ++ b) = squeeze q a ++ squeeze q b := List.filter_append ..

theorem ink_append (q : Char → Bool) (a b : List Piece) : ink q (a ++ b) = ink q a ++ ink q b := by
  induction a with
  | nil => rfl
  | cons p a ih => cases p <;> simp [ink, ih]

variable {q : Char → Bool}

theorem squeeze_newline (hq : ∀ c, isWs c = true → q c = true) (n : Nat) : squeeze q (Md.Spec.newline n) = [] := by
  rw [squeeze, List.filter_eq_nil_iff]
  intro c hc
  have hc : c = '\n' ∨ c = ' ' := by
    simp only [Md.Spec.newline, List.mem_cons, List.mem_replicate] at hc
    rcases hc with h | h
    · exact Or.inl h
    · exact Or.inr h.2
  have : isWs c = true := by rcases hc with rfl | rfl <;> decide
  simp [hq c this]

theorem ink_lay (hq : ∀ c, isWs c = true → q c = true) (dw : Str → Nat) (w : Nat) :
    ∀ (ps : Md.Spec.Pieces) (col : Nat), squeeze q (lay dw w col ps) = ink q (ps.map (·.2)) := by
  intro ps
  induction ps with
  | nil => intro _; rfl
  | cons e t ih =>
    intro col
    obtain ⟨i, p⟩ := e
    cases p with
    | word s => simp only [lay, squeeze_app, ih, List.map_cons, ink]
    | gap =>
      simp only [lay, List.map_cons, ink]
      split
      · rw [← List.singleton_append, squeeze_app, ih]
        have : squeeze q [' '] = [] := by simp [squeeze, hq ' ' (by decide)]
        rw [this]; rfl
      · rw [squeeze_app, ih, squeeze_newline hq]; rfl
    | newline => simp only [lay, List.map_cons, ink, squeeze_app, ih, squeeze_newline hq, List.nil_append]

theorem spell_append (a b : Str) : spell (a ++ b) = spell a ++ spell b := List.flatMap_append ..

theorem spell_ws {c : Char} (h : isWs c = true) : spell [c] = [c] := by
  have : spelling.lookup c = none := by
    rw [List.lookup_eq_none_iff]
    intro e he
    simp only [spelling, List.mem_cons, List.not_mem_nil, or_false] at he
    simp only [bne_iff_ne, ne_eq]
    rintro rfl
    revert h
    rcases he with rfl | rfl | rfl | rfl | rfl | rfl | rfl | rfl | rfl | rfl <;> decide
  simp [spell, this]

theorem spell_blank (hq : ∀ c, isWs c = true → q c = true) : ∀ t : Str, (∀ c ∈ t, isWs c = true) → squeeze q (spell t) = [] := by
  intro t
  induction t with
  | nil => intro _; rfl
  | cons c t ih =>
    intro h
    rw [← List.singleton_append, spell_append, squeeze_app, ih fun k hk => h k (List.mem_cons_of_mem _ hk),
      spell_ws (h c (List.mem_cons_self ..))]
    simp [squeeze, hq c (h c (List.mem_cons_self ..))]

theorem ink_words (hq : ∀ c, isWs c = true → q c = true) (t : Str) :
    ink q ((wordsOf t).map fun
      | some v => spelledWord v
      | none => .gap) = squeeze q (spell t) := by
  induction t with
  | nil => rfl
  | cons c t ih =>
    rw [← List.singleton_append (x := c), spell_append, squeeze_app, ← ih]
    simp only [List.singleton_append, wordsOf]
    by_cases hc : isWs c = true
    · rw [if_pos hc, spell_ws hc]
      have : squeeze q [c] = [] := by simp [squeeze, hq c hc]
      rw [this]
      split <;> simp_all [ink]
    · rw [if_neg hc]
      split
      · rename_i v l e
        rw [e]
        simp only [List.map_cons, spelledWord, ink, ← List.append_assoc, ← squeeze_app, ← spell_append, List.singleton_append]
      · simp only [List.map_cons, spelledWord, ink]

theorem ink_text (hq : ∀ c, isWs c = true → q c = true) (t : Str) : ink q (textPieces t) = squeeze q (spell t) := by
  unfold textPieces
  split
  · rename_i h
    have h : ∀ c ∈ t, isWs c = true := by simpa [List.all_eq_true] using h
    rw [spell_blank hq t h]
    simp only [spelledWord, ink, List.append_nil]
    refine spell_blank hq _ fun c hc => ?_
    obtain ⟨k, hk, rfl⟩ := List.mem_map.1 hc
    split
    · decide
    · exact h k hk
  · exact ink_words hq t

theorem spell_squeeze {p : Char → Bool} (hp : ∀ c, p c = true → ∀ k ∈ spell [c], q k = true) (t : Str) :
    squeeze q (spell (squeeze p t)) = squeeze q (spell t) := by
  induction t with
  | nil => rfl
  | cons c t ih =>
    have e := spell_append [c] t
    rw [List.singleton_append] at e
    rw [e, squeeze_app, ← ih]
    by_cases hc : p c = true
    · have : squeeze q (spell [c]) = [] := by
        rw [squeeze, List.filter_eq_nil_iff]
        intro k hk
        simp [hp c hc k hk]
      rw [this]
      simp [squeeze, hc]
    · have : squeeze p (c :: t) = [c] ++ squeeze p t := by simp [squeeze, hc]
      rw [this, spell_append, squeeze_app]

variable {p : Char → Bool} {h : Inline → Inline} (H : WhitespaceOnly p h)
  (hq : ∀ c, isWs c = true → q c = true) (hp : ∀ c, p c = true → ∀ k ∈ spell [c], q k = true)

theorem ink_calls {a b : List Piece} (e : ink q a = ink q b) (n : Str) : ink q (callP n a) = ink q (callP n b) := by
  simp only [callP, bracesP, ink, ink_append, e]

include H hq hp in
theorem inline_ink (x y : Context) (hn : ∀ l, y.number l = x.number l) :
    (∀ i, (∀ l t, .linkReference l t ∈ Inline.pre i → y.target (Inline.mapNodesL h l) = x.target l) →
      ink q (inlinePieces y (Inline.mapNodes h i)) = ink q (inlinePieces x i)) ∧
    ∀ l, (∀ m t, .linkReference m t ∈ Inline.preL l → y.target (Inline.mapNodesL h m) = x.target m) →
      ink q (inlinesPieces y (Inline.mapNodesL h l)) = ink q (inlinesPieces x l) := by
  apply Inline.ind
  case text =>
    intro t _
    rw [show Inline.mapNodes h (.text t) = h (.text t) from rfl, show inlinePieces x (.text t) = textPieces t from rfl, ink_text hq]
    rcases H.text t with ⟨t', e, k⟩ | ⟨e, k⟩ <;> rw [e]
    · rw [show inlinePieces y (.text t') = textPieces t' from rfl, ink_text hq, ← spell_squeeze hp t', ← spell_squeeze hp t, k]
    · rw [← spell_squeeze hp t, k]; rfl
  case link =>
    intro d t c ih k
    simp only [Inline.mapNodes]
    rw [H.other _ fun t => by simp]
    have e := ih fun m t ht => k m t (by simp [Inline.pre, ht])
    cases t <;> simp only [inlinePieces, ink_append, bracesP, e]
  case linkReference =>
    intro l t ihl iht k
    simp only [Inline.mapNodes]
    rw [H.other _ fun t => by simp]
    have el := ihl fun m t ht => k m t (by simp [Inline.pre, ht])
    have et := iht fun m t ht => k m t (by simp [Inline.pre, ht])
    have eh := k l t (by simp [Inline.pre])
    simp only [inlinePieces, eh]
    cases x.target l <;> simp only [ink_append, bracesP, el, et]
  case emphasis =>
    intro c ih k
    simp only [Inline.mapNodes]
    rw [H.other _ fun t => by simp]
    exact ink_calls (ih fun m t ht => k m t (by simp [Inline.pre, ht])) _
  case strong =>
    intro c ih k
    simp only [Inline.mapNodes]
    rw [H.other _ fun t => by simp]
    exact ink_calls (ih fun m t ht => k m t (by simp [Inline.pre, ht])) _
  case strikethrough =>
    intro c ih k
    simp only [Inline.mapNodes]
    rw [H.other _ fun t => by simp]
    exact ink_calls (ih fun m t ht => k m t (by simp [Inline.pre, ht])) _
  case nil => intro _; rfl
  case cons =>
    intro i l ihi ihl k
    simp only [Inline.mapNodesL, inlinesPieces, ink_append, ihi fun m t ht => k m t (by simp [Inline.preL, ht]),
      ihl fun m t ht => k m t (by simp [Inline.preL, ht])]
  case footnoteReference =>
    intro l k
    simp only [Inline.mapNodes]
    rw [H.other _ fun t => by simp]
    simp only [inlinePieces, hn]
  all_goals
    intros
    simp only [Inline.mapNodes]
    rw [H.other _ fun t => by simp]
    try rfl

theorem ink_joined (sep : List Piece) : ∀ a b : List (List Piece), a.map (ink q) = b.map (ink q) →
    ink q (joinedP sep a) = ink q (joinedP sep b) := by
  intro a
  induction a with
  | nil => intro b e; cases b <;> simp_all
  | cons u a ih =>
    intro b e
    cases b with
    | nil => simp at e
    | cons v b =>
      simp only [List.map_cons, List.cons.injEq] at e
      have := ih b e.2
      cases a <;> cases b
      · exact e.1
      · simp at e
      · simp at e
      · simp only [joinedP, ink_append, e.1] at this ⊢
        rw [this]

theorem ink_flatten (a b : List (List Piece)) (e : a.map (ink q) = b.map (ink q)) : ink q a.flatten = ink q b.flatten := by
  induction a generalizing b with
  | nil => cases b <;> simp_all
  | cons u a ih =>
    cases b with
    | nil => simp at e
    | cons v b =>
      simp only [List.map_cons, List.cons.injEq] at e
      simp only [List.flatten_cons, ink_append, e.1, ih b e.2]

include H hq hp in
theorem row_ink (x y : Context) (hn : ∀ l, y.number l = x.number l) (r : List (List Inline))
    (hx : ∀ m t, .linkReference m t ∈ Inline.preL r.flatten → y.target (Inline.mapNodesL h m) = x.target m) :
    ink q (rowP y (r.map (Inline.mapNodesL h))) = ink q (rowP x r) := by
  unfold rowP
  rw [ink_append, ink_append, ink_joined _ (List.map (inlinesPieces y) (r.map (Inline.mapNodesL h))) (List.map (inlinesPieces x) r)]
  simp only [List.map_map]
  refine List.map_congr_left fun c hc => ?_
  exact (inline_ink H hq hp x y hn).2 c fun m t ht => hx m t (preL_flatten hc ht)

include H hq hp in
theorem rows_ink (x y : Context) (hn : ∀ l, y.number l = x.number l) (rule : Str) (last : List Piece) (rows : List (List (List Inline)))
    (hx : ∀ m t, .linkReference m t ∈ Inline.preL rows.flatten.flatten → y.target (Inline.mapNodesL h m) = x.target m) :
    ink q (rowsP y rule last (rows.map (List.map (Inline.mapNodesL h)))) = ink q (rowsP x rule last rows) := by
  have one : ∀ r ∈ rows, ink q (rowP y (r.map (Inline.mapNodesL h))) = ink q (rowP x r) := fun r hr =>
    row_ink H hq hp x y hn r fun m t ht => hx m t (by
      obtain ⟨a, b, rfl⟩ := List.append_of_mem hr
      simp only [List.flatten_append, List.flatten_cons, preL_append, List.mem_append]
      exact Or.inr (Or.inl ht))
  rcases rows with _ | ⟨r, rows⟩
  · rfl
  · simp only [List.map_cons, rowsP, ink_append, one r (List.mem_cons_self ..)]
    congr 1
    refine ink_flatten _ _ ?_
    simp only [List.map_map]
    refine List.map_congr_left fun s hs => ?_
    simp only [Function.comp, ink_append, one s (List.mem_cons_of_mem _ hs)]

/-- What is asked of the references in blocks. -/
def Aimed (h : Inline → Inline) (x y : Context) (l : List Block) : Prop :=
  ∀ b ∈ l, ∀ m t, .linkReference m t ∈ Inline.preL b.directInlines → y.target (Inline.mapNodesL h m) = x.target m

theorem ink_env {a b : List Piece} (e : ink q a = ink q b) (n o : Str) : ink q (envP n o a) = ink q (envP n o b) := by
  simp only [envP, ink_append, e]

include H hq hp in
theorem block_ink (cfg : Config) (x y : Context) (hn : ∀ l, y.number l = x.number l) :
    (∀ b, Aimed h x y (Block.pre b) → ink q (blockPieces cfg y (Block.mapNodes h id b)) = ink q (blockPieces cfg x b)) ∧
    (∀ i, Aimed h x y (ListItem.pre i) → ink q (itemPieces cfg y (ListItem.mapNodes h id i)) = ink q (itemPieces cfg x i)) ∧
    (∀ l, Aimed h x y (Block.preL l) → (blocksPieces cfg y (Block.mapNodesL h id l)).map (ink q) = (blocksPieces cfg x l).map (ink q)) ∧
    ∀ l, Aimed h x y (ListItem.preL l) → ink q (itemsPieces cfg y (ListItem.mapNodesL h id l)) = ink q (itemsPieces cfg x l) := by
  have key := (inline_ink H hq hp x y hn).2
  have head : ∀ {b : Block} {l : List Block}, Aimed h x y (b :: l) → ∀ m t, .linkReference m t ∈ Inline.preL b.directInlines →
      y.target (Inline.mapNodesL h m) = x.target m := fun k => k _ (List.mem_cons_self ..)
  have tail : ∀ {b : Block} {l : List Block}, Aimed h x y (b :: l) → Aimed h x y l := fun k c hc => k c (List.mem_cons_of_mem _ hc)
  apply Block.ind
  case paragraph => intro c k; exact key c (head k)
  case heading => intro v c k; exact ink_calls (key c (head k)) _
  case blockQuote => intro b ih k; exact ink_env (ink_joined _ _ _ (ih (tail k))) _ _
  case list => intro v i ih k; exact ink_env (ih (tail k)) _ _
  case table =>
    intro rows al k
    have hx := head k
    simp only [Block.directInlines] at hx
    have hr := fun rule last => rows_ink H hq hp x y hn rule last rows hx
    show ink q (Exact.tableP y (rows.map (List.map (Inline.mapNodesL h))) al cfg.tableStyle) = ink q (Exact.tableP x rows al cfg.tableStyle)
    cases cfg.tableStyle
    · exact ink_env (hr _ _) _ _
    · exact ink_env (hr _ _) _ _
    · refine ink_env ?_ _ _
      simp only [ink_append, hr]
  case footnoteDefinition =>
    intro l b ih k
    have e := ink_joined [.newline, .newline] _ _ (ih (tail k))
    simp only [Block.mapNodes, id, blockPieces, hn]
    cases x.number l with
    | none => rfl
    | some n => exact ink_calls (by simp only [ink, e]) _
  case githubAlert =>
    intro v b ih k
    have e := ink_joined [.newline, .newline] _ _ (ih (tail k))
    simp only [Block.mapNodes, id, blockPieces]
    exact ink_calls (by simp only [ink, e]) _
  case item =>
    intro t b ih k
    have e := ink_joined [.newline, .newline] _ _ (ih k)
    simp only [ListItem.mapNodes, itemPieces, ink, ink_append, List.cons_append, e]
  case nilB => intro _; rfl
  case consB =>
    intro b l ihb ihl k
    simp only [Block.mapNodesL, blocksPieces, List.map_cons]
    rw [ihb fun c hc => k c (List.mem_append_left _ hc), ihl fun c hc => k c (List.mem_append_right _ hc)]
  case nilI => intro _; rfl
  case consI =>
    intro b l ihb ihl k
    simp only [ListItem.mapNodesL, itemsPieces, ink_append]
    rw [ihb fun c hc => k c (List.mem_append_left _ hc), ihl fun c hc => k c (List.mem_append_right _ hc)]
  all_goals intros; rfl

/-! ## The context of the changed document -/

theorem outer_map :
    (∀ b, outer (Block.mapNodes h id b) = (outer b).map (Block.mapNodes h id)) ∧
    (∀ i, outerItem (ListItem.mapNodes h id i) = (outerItem i).map (Block.mapNodes h id)) ∧
    (∀ l, outerL (Block.mapNodesL h id l) = (outerL l).map (Block.mapNodes h id)) ∧
    ∀ l, outerItems (ListItem.mapNodesL h id l) = (outerItems l).map (Block.mapNodes h id) := by
  apply Block.ind <;> intros <;>
    simp_all [Block.mapNodes, Block.mapNodesL, ListItem.mapNodes, ListItem.mapNodesL, outer, outerL, outerItem, outerItems]

theorem latex_number_map (d : Document) : footnoteNumber (d.mapNodes h id) = footnoteNumber d := by
  have e : footnoteLabels (d.mapNodes h id) = footnoteLabels d := by
    unfold footnoteLabels Document.mapNodes
    dsimp only
    rw [outer_map.2.2.1, List.filterMap_map]
    congr 1
    funext b
    cases b <;> rfl
  funext l
  unfold footnoteNumber
  rw [e]

theorem latex_lookup_map {d : Document}
    (hd : ∀ l m, d.HasLabel l → d.HasLabel m → Inline.mapNodesL h l = Inline.mapNodesL h m → l = m)
    {l : List Inline} (hl : d.HasLabel l) :
    lastDefinition (d.mapNodes h id) (Inline.mapNodesL h l) = lastDefinition d l := by
  have e : (outerL (d.mapNodes h id).blocks).filterMap linkDef =
      ((outerL d.blocks).filterMap linkDef).map fun e => (Inline.mapNodesL h e.1, e.2) := by
    unfold Document.mapNodes
    dsimp only
    rw [outer_map.2.2.1, List.filterMap_map, List.map_filterMap]
    congr 1
    funext b
    cases b <;> rfl
  unfold lastDefinition
  rw [e, ← List.map_reverse]
  refine Html.find_map _ _ _ fun e he k => ?_
  refine hd _ _ (Or.inr ?_) hl k
  obtain ⟨b, hb, hbe⟩ := List.mem_filterMap.1 (List.mem_reverse.1 he)
  cases b
  case definition l' dest title =>
    simp only [linkDef, Option.some.injEq] at hbe
    subst hbe
    exact ⟨_, _, (Document.mem_allBlocks _ _).1 (outer_pre.2.2.1 _ _ hb)⟩
  all_goals simp [linkDef] at hbe

theorem map_snd (n : Nat) (l : List Piece) : (atIndent n l).map (·.2) = l := by
  simp [atIndent, List.map_map, Function.comp_def]

include H hq hp in
theorem latex_changed {dw : Str → Nat} (hw : dw [' '] = 1) (cfg : Config) {d : Document}
    (hd : ∀ l m, d.HasLabel l → d.HasLabel m → Inline.mapNodesL h l = Inline.mapNodesL h m → l = m) :
    squeeze q (renderLatex dw cfg (d.mapNodes h id)) = squeeze q (renderLatex dw cfg d) := by
  rw [C87_exact hw, C87_exact hw]
  unfold latexText
  rw [ink_lay hq, ink_lay hq, map_snd, map_snd]
  refine ink_joined _ _ _ ?_
  refine (block_ink H hq hp cfg ⟨footnoteNumber d, lastDefinition d⟩
    ⟨footnoteNumber (d.mapNodes h id), lastDefinition (d.mapNodes h id)⟩ (fun l => congrFun (latex_number_map d) l)).2.2.1 d.blocks ?_
  intro b hb m t hm
  exact latex_lookup_map hd (Or.inl ⟨t, (Document.mem_allInlines _ _).1 (List.mem_flatMap.2 ⟨b, hb, hm⟩)⟩)

theorem blank_spelled : ∀ c, isWs c = true → ∀ k ∈ spell [c], isWs k = true := by
  intro c hc k hk
  rw [spell_ws hc] at hk
  rwa [List.mem_singleton.1 hk]

theorem latex_width {dw dw' : Str → Nat} (hw : dw [' '] = 1) (hw' : dw' [' '] = 1) (cfg : Config) (w : Nat) (d : Document) :
    squeeze isWs (renderLatex dw { cfg with width := w } d) = squeeze isWs (renderLatex dw' cfg d) := by
  have same : ∀ x : Context,
      (∀ b, blockPieces { cfg with width := w } x b = blockPieces cfg x b) ∧
      (∀ i, itemPieces { cfg with width := w } x i = itemPieces cfg x i) ∧
      (∀ l, blocksPieces { cfg with width := w } x l = blocksPieces cfg x l) ∧
      ∀ l, itemsPieces { cfg with width := w } x l = itemsPieces cfg x l := by
    intro x
    apply Block.ind <;> intros <;> simp_all only [blockPieces, itemPieces, blocksPieces, itemsPieces]
  rw [C87_exact hw, C87_exact hw']
  unfold latexText
  rw [ink_lay (fun _ h => h), ink_lay (fun _ h => h), map_snd, map_snd, (same _).2.2.1]

/-! ## The theorems -/

/-- **C110.** `normalize_whitespace` changes nothing but whitespace in the LaTeX, provided that no two labels become
the same; and the width of the lines does not either. -/
theorem C110_normalize {dw dw' : Str → Nat} (hw : dw [' '] = 1) (hw' : dw' [' '] = 1) (cfg : Config) (w : Nat) {d : Document}
    (hd : LabelsApart Document.normalizeWhitespace d) :
    squeeze isWs (renderLatex dw' { cfg with width := w } d.normalizeWhitespace) = squeeze isWs (renderLatex dw cfg d) := by
  have e : ∀ d : Document, d.normalizeWhitespace = d.mapNodes (Target.text.setInline fun t => joinWith [' '] (splitWs t)) id := by
    intro d
    rw [Document.normalizeWhitespace]
    exact (Document.transform_eq .text _ d).trans (by congr 1)
  rw [latex_width hw' hw, e]
  refine latex_changed Html.normalize_only (fun _ h => h) blank_spelled hw cfg fun l m hl hm k => hd l m hl hm ?_
  rw [e, e]
  simp only [Document.mapNodes, Block.mapNodesL, Block.mapNodes, id, k]

/-- **C110.** The same for `remove_empty_text`. -/
theorem C110_remove {dw dw' : Str → Nat} (hw : dw [' '] = 1) (hw' : dw' [' '] = 1) (cfg : Config) (w : Nat) {d : Document}
    (hd : LabelsApart Document.removeEmptyText d) :
    squeeze isWs (renderLatex dw' { cfg with width := w } d.removeEmptyText) = squeeze isWs (renderLatex dw cfg d) := by
  rw [latex_width hw' hw, removeEmptyText_eq]
  refine latex_changed Html.remove_only (fun _ h => h) blank_spelled hw cfg fun l m hl hm k => hd l m hl hm ?_
  rw [removeEmptyText_eq, removeEmptyText_eq]
  simp only [Document.mapNodes, Block.mapNodesL, Block.mapNodes, id, k]

/-- **C110** without a clean-up: the width of the lines, and the widths of the words, matter for whitespace only. -/
theorem C110_width {dw dw' : Str → Nat} (hw : dw [' '] = 1) (hw' : dw' [' '] = 1) (cfg : Config) (w : Nat) (d : Document) :
    squeeze isWs (renderLatex dw' { cfg with width := w } d) = squeeze isWs (renderLatex dw cfg d) :=
  latex_width hw' hw cfg w d

/-- **C110**, the whitespace that is lost may be what separates words; and a reference that is none may become one. -/
theorem C110_words_joined :
    let latex (d : Document) := renderLatex List.length Config.default d
    let parsed (s : Str) := parseMarkdown PExt.ascii (PConfig.default fun _ => none) s
    (parsed cs!"one *two* three").map (fun d => latex d) = some cs!"one \\textit{two} three" ∧
    (parsed cs!"one *two* three").map (fun d => latex d.normalizeWhitespace) = some cs!"one\\textit{two}three" ∧
    (parsed cs!"*one* *two*").map (fun d => latex d.removeEmptyText) = some cs!"\\textit{one}\\textit{two}" ∧
    (parsed cs!"[a b]: u\n\n[a  b]").map (fun d => latex d) = some cs!"\n\n[a b][a b]" ∧
    (parsed cs!"[a b]: u\n\n[a  b]").map (fun d => latex d.normalizeWhitespace) = some cs!"\n\n\\href{u}{a b}" := by
  decide +kernel

/-- A document with labels that meets the hypotheses. -/
theorem C110_example :
    let d : Document := ⟨[.definition [.text cs!"a"] cs!"u" none, .definition [.text cs!"b  c"] cs!"v" none,
      .paragraph [.text cs!" x & ", .linkReference [.text cs!"a"] [.text cs!" y"], .text cs!"\t", .code cs!" z  "]]⟩
    LabelsApart Document.normalizeWhitespace d ∧ LabelsApart Document.removeEmptyText d ∧
    renderLatex List.length Config.default d = cs!"\n\n\n\n x \\& \\href{u}{ y}\t\\texttt{ z  }" ∧
    renderLatex List.length Config.default d.normalizeWhitespace = cs!"\n\n\n\nx \\&\\href{u}{y}\\texttt{ z  }" ∧
    renderLatex List.length Config.default d.removeEmptyText = cs!"\n\n\n\n x \\& \\href{u}{ y}\\texttt{ z  }" := by
  have labels : ∀ l, Document.HasLabel ⟨[.definition [.text cs!"a"] cs!"u" none, .definition [.text cs!"b  c"] cs!"v" none,
      .paragraph [.text cs!" x & ", .linkReference [.text cs!"a"] [.text cs!" y"], .text cs!"\t", .code cs!" z  "]]⟩ l →
      l = [.text cs!"a"] ∨ l = [.text cs!"b  c"] := by
    rintro l (⟨t, k⟩ | ⟨u, t, k⟩)
    · rw [← Document.mem_allInlines] at k
      simp [Document.allInlines, Document.allBlocks, Block.preL, Block.pre, Block.directInlines, Inline.preL, Inline.pre] at k
      exact Or.inl k.1
    · rw [← Document.mem_allBlocks] at k
      simp [Document.allBlocks, Block.preL, Block.pre] at k
      rcases k with k | k
      · exact Or.inl k.1
      · exact Or.inr k.1
  refine ⟨?_, ?_, by decide +kernel, by decide +kernel, by decide +kernel⟩ <;>
  · intro l m hl hm
    rcases labels l hl with rfl | rfl <;> rcases labels m hm with rfl | rfl <;> decide +kernel

/-- **C111.** `transform_text` with a function that changes only characters of a kind `p` changes in the LaTeX only
whitespace and the characters that spell those of the kind `p`, provided that no two labels become the same. -/
theorem C111_transform_text {dw : Str → Nat} (hw : dw [' '] = 1) (cfg : Config) {p q : Char → Bool} {f : Str → Str}
    (hf : ∀ t, squeeze p (f t) = squeeze p t) (hq : ∀ c, isWs c = true → q c = true)
    (hp : ∀ c, p c = true → ∀ k ∈ spell [c], q k = true) {d : Document} (hd : LabelsApart (Document.transformText f) d) :
    squeeze q (renderLatex dw cfg (d.transformText f)) = squeeze q (renderLatex dw cfg d) := by
  have e : ∀ d : Document, d.transformText f = d.mapNodes (Target.text.setInline f) id := by
    intro d
    exact (Document.transform_eq .text _ d).trans (by congr 1)
  have ho : WhitespaceOnly p (Target.text.setInline f) := by
    refine ⟨fun t => Or.inl ⟨_, rfl, hf t⟩, fun i hi => ?_⟩
    cases i <;> first | rfl | exact absurd rfl (hi _)
  rw [e]
  refine latex_changed ho hq hp hw cfg fun l m hl hm k => hd l m hl hm ?_
  rw [e, e]
  simp only [Document.mapNodes, Block.mapNodesL, Block.mapNodes, id, k]

/-- **C111**, a document that meets the hypotheses with a function that changes only the letter `a` and `&`, which
is spelled with a backslash; and labels that become the same. -/
theorem C111_examples :
    let f := fun t : Str => t.filter fun c => !(c == 'a' || c == '&')
    let p := fun c : Char => c == 'a' || c == '&'
    let q := fun c : Char => isWs c || c == 'a' || c == '&' || c == '\\'
    let d : Document := ⟨[.definition [.text cs!"xa"] cs!"u" none, .paragraph [.text cs!"abc & ", .linkReference [.text cs!"xa"] [.text cs!"a%"],
      .code cs!"a"]]⟩
    let e : Document := ⟨[.definition [.text cs!"x"] cs!"u" none, .definition [.text cs!"xa"] cs!"v" none,
      .paragraph [.linkReference [.text cs!"x"] [.text cs!"x"]]]⟩
    (∀ t, squeeze p (f t) = squeeze p t) ∧ (∀ c, isWs c = true → q c = true) ∧ (∀ c, p c = true → ∀ k ∈ spell [c], q k = true) ∧
    LabelsApart (Document.transformText f) d ∧
    renderLatex List.length Config.default d = cs!"\n\nabc \\& \\href{u}{a\\%}\\texttt{a}" ∧
    renderLatex List.length Config.default (d.transformText f) = cs!"\n\nbc \\href{u}{\\%}\\texttt{a}" ∧
    renderLatex List.length Config.default e = cs!"\n\n\n\n\\href{u}{x}" ∧
    renderLatex List.length Config.default (e.transformText f) = cs!"\n\n\n\n\\href{v}{x}" := by
  refine ⟨fun t => ?_, ?_, ?_, ?_, by decide +kernel, by decide +kernel, by decide +kernel, by decide +kernel⟩
  · simp only [squeeze, List.filter_filter]
    congr 1
    funext c
    simp
  · intro c hc; simp [hc]
  · intro c hc k hk
    simp only [Bool.or_eq_true, beq_iff_eq] at hc
    rcases hc with rfl | rfl
    · rw [show spell ['a'] = ['a'] from by decide +kernel] at hk
      simp at hk; simp [hk]
    · rw [show spell ['&'] = ['\\', '&'] from by decide +kernel] at hk
      simp only [List.mem_cons, List.not_mem_nil, or_false] at hk
      rcases hk with rfl | rfl <;> decide
  · have labels : ∀ l, Document.HasLabel ⟨[.definition [.text cs!"xa"] cs!"u" none, .paragraph [.text cs!"abc & ",
        .linkReference [.text cs!"xa"] [.text cs!"a%"], .code cs!"a"]]⟩ l → l = [.text cs!"xa"] := by
      rintro l (⟨t, k⟩ | ⟨u, t, k⟩)
      · rw [← Document.mem_allInlines] at k
        simp [Document.allInlines, Document.allBlocks, Block.preL, Block.pre, Block.directInlines, Inline.preL, Inline.pre] at k
        exact k.1
      · rw [← Document.mem_allBlocks] at k
        simp [Document.allBlocks, Block.preL, Block.pre] at k
        exact k.1
    intro l m hl hm _
    rw [labels l hl, labels m hm]

end Latex
end Verif
