import Verif.CleanupLatex
import Verif.TransformMarkdown
/-!
# C118: what transforms of addresses, code and raw HTML do to the LaTeX
-/
set_option autoImplicit false
namespace Verif
namespace Latex
namespace Swap
open Md.Spec (Piece wordsOf atIndent lay nextIndent)
open Exact Source
open Html (LabelsApart)

/-- Functions on inlines and on blocks that change only characters spelled with the kind `q` in a node, and no reference. -/
structure Local (q : Char → Bool) (h : Inline → Inline) (hb : Block → Block) : Prop where
  source : ∀ x i, ink q (inlinePieces x (h i)) = ink q (inlinePieces x i)
  reference : ∀ l t, h (.linkReference l t) = .linkReference l t
  block : ∀ b, (∀ t, b ≠ .htmlBlock t) → hb b = b
  html : ∀ t, ∃ t', hb (.htmlBlock t) = .htmlBlock t' ∧ squeeze q (spell t') = squeeze q (spell t)

variable {q : Char → Bool} (hq : ∀ c, isWs c = true → q c = true) {h : Inline → Inline} {hb : Block → Block} (L : Local q h hb)

include L in
theorem inline_ink (x y : Context) (hn : ∀ l, y.number l = x.number l) :
    (∀ i, (∀ l t, .linkReference l t ∈ Inline.pre i → y.target (Inline.mapNodesL h l) = x.target l) →
      ink q (inlinePieces y (Inline.mapNodes h i)) = ink q (inlinePieces x i)) ∧
    ∀ l, (∀ m t, .linkReference m t ∈ Inline.preL l → y.target (Inline.mapNodesL h m) = x.target m) →
      ink q (inlinesPieces y (Inline.mapNodesL h l)) = ink q (inlinesPieces x l) := by
  apply Inline.ind
  case text =>
    intro t _
    rw [show Inline.mapNodes h (.text t) = h (.text t) from rfl, L.source]
    rfl
  case link =>
    intro d t c ih k
    simp only [Inline.mapNodes]
    rw [L.source]
    have e := ih fun m t ht => k m t (by simp [Inline.pre, ht])
    cases t <;> simp only [inlinePieces, ink_append, bracesP, e]
  case linkReference =>
    intro l t ihl iht k
    simp only [Inline.mapNodes]
    rw [L.reference]
    have el := ihl fun m t ht => k m t (by simp [Inline.pre, ht])
    have et := iht fun m t ht => k m t (by simp [Inline.pre, ht])
    have eh := k l t (by simp [Inline.pre])
    simp only [inlinePieces, eh]
    cases x.target l <;> simp only [ink_append, bracesP, el, et]
  case emphasis =>
    intro c ih k
    simp only [Inline.mapNodes]
    rw [L.source]
    exact ink_calls (ih fun m t ht => k m t (by simp [Inline.pre, ht])) _
  case strong =>
    intro c ih k
    simp only [Inline.mapNodes]
    rw [L.source]
    exact ink_calls (ih fun m t ht => k m t (by simp [Inline.pre, ht])) _
  case strikethrough =>
    intro c ih k
    simp only [Inline.mapNodes]
    rw [L.source]
    exact ink_calls (ih fun m t ht => k m t (by simp [Inline.pre, ht])) _
  case nil => intro _; rfl
  case cons =>
    intro i l ihi ihl k
    simp only [Inline.mapNodesL, inlinesPieces, ink_append, ihi fun m t ht => k m t (by simp [Inline.preL, ht]),
      ihl fun m t ht => k m t (by simp [Inline.preL, ht])]
  case footnoteReference =>
    intro l k
    simp only [Inline.mapNodes]
    rw [L.source]
    simp only [inlinePieces, hn]
  all_goals
    intros
    simp only [Inline.mapNodes]
    rw [L.source]
    try rfl

include L in
theorem row_ink (x y : Context) (hn : ∀ l, y.number l = x.number l) (r : List (List Inline))
    (hx : ∀ m t, .linkReference m t ∈ Inline.preL r.flatten → y.target (Inline.mapNodesL h m) = x.target m) :
    ink q (rowP y (r.map (Inline.mapNodesL h))) = ink q (rowP x r) := by
  unfold rowP
  rw [ink_append, ink_append, ink_joined _ (List.map (inlinesPieces y) (r.map (Inline.mapNodesL h))) (List.map (inlinesPieces x) r)]
  simp only [List.map_map]
  refine List.map_congr_left fun c hc => ?_
  exact (inline_ink L x y hn).2 c fun m t ht => hx m t (preL_flatten hc ht)

include L in
theorem rows_ink (x y : Context) (hn : ∀ l, y.number l = x.number l) (rule : Str) (last : List Piece) (rows : List (List (List Inline)))
    (hx : ∀ m t, .linkReference m t ∈ Inline.preL rows.flatten.flatten → y.target (Inline.mapNodesL h m) = x.target m) :
    ink q (rowsP y rule last (rows.map (List.map (Inline.mapNodesL h)))) = ink q (rowsP x rule last rows) := by
  have one : ∀ r ∈ rows, ink q (rowP y (r.map (Inline.mapNodesL h))) = ink q (rowP x r) := fun r hr =>
    row_ink L x y hn r fun m t ht => hx m t (by
      obtain ⟨a, b, rfl⟩ := List.append_of_mem hr
      simp only [List.flatten_append, List.flatten_cons, preL_append, List.mem_append]
      exact Or.inr (Or.inl ht))
  rcases rows with _ | ⟨r, rows⟩
  · rfl
  · simp only [List.map_cons, rowsP, ink_append, one r (List.mem_cons_self ..)]
    congr 1
    refine ink_flatten _ _ ?_
    simp only [List.map_map]
    refine List.map_congr_left fun s hs => ?_
    simp only [Function.comp, ink_append, one s (List.mem_cons_of_mem _ hs)]

include L in
theorem block_ink (cfg : Config) (x y : Context) (hn : ∀ l, y.number l = x.number l) :
    (∀ b, Aimed h x y (Block.pre b) → ink q (blockPieces cfg y (Block.mapNodes h hb b)) = ink q (blockPieces cfg x b)) ∧
    (∀ i, Aimed h x y (ListItem.pre i) → ink q (itemPieces cfg y (ListItem.mapNodes h hb i)) = ink q (itemPieces cfg x i)) ∧
    (∀ l, Aimed h x y (Block.preL l) → (blocksPieces cfg y (Block.mapNodesL h hb l)).map (ink q) = (blocksPieces cfg x l).map (ink q)) ∧
    ∀ l, Aimed h x y (ListItem.preL l) → ink q (itemsPieces cfg y (ListItem.mapNodesL h hb l)) = ink q (itemsPieces cfg x l) := by
  have key := (inline_ink L x y hn).2
  have head : ∀ {b : Block} {l : List Block}, Aimed h x y (b :: l) → ∀ m t, .linkReference m t ∈ Inline.preL b.directInlines →
      y.target (Inline.mapNodesL h m) = x.target m := fun k => k _ (List.mem_cons_self ..)
  have tail : ∀ {b : Block} {l : List Block}, Aimed h x y (b :: l) → Aimed h x y l := fun k c hc => k c (List.mem_cons_of_mem _ hc)
  apply Block.ind
  case paragraph => intro c k; simp only [Block.mapNodes]; rw [L.block _ fun t => by simp]; exact key c (head k)
  case heading => intro v c k; simp only [Block.mapNodes]; rw [L.block _ fun t => by simp]; exact ink_calls (key c (head k)) _
  case blockQuote => intro b ih k; simp only [Block.mapNodes]; rw [L.block _ fun t => by simp]; exact ink_env (ink_joined _ _ _ (ih (tail k))) _ _
  case list => intro v i ih k; simp only [Block.mapNodes]; rw [L.block _ fun t => by simp]; exact ink_env (ih (tail k)) _ _
  case table =>
    intro rows al k
    have hx := head k
    simp only [Block.directInlines] at hx
    have hr := fun rule last => rows_ink L x y hn rule last rows hx
    simp only [Block.mapNodes]; rw [L.block _ fun t => by simp]
    show ink q (Exact.tableP y (rows.map (List.map (Inline.mapNodesL h))) al cfg.tableStyle) = ink q (Exact.tableP x rows al cfg.tableStyle)
    cases cfg.tableStyle
    · exact ink_env (hr _ _) _ _
    · exact ink_env (hr _ _) _ _
    · refine ink_env ?_ _ _
      simp only [ink_append, hr]
  case footnoteDefinition =>
    intro l b ih k
    have e := ink_joined [.newline, .newline] _ _ (ih (tail k))
    simp only [Block.mapNodes]; rw [L.block _ fun t => by simp]; simp only [blockPieces, hn]
    cases x.number l with
    | none => rfl
    | some n => exact ink_calls (by simp only [ink, e]) _
  case githubAlert =>
    intro v b ih k
    have e := ink_joined [.newline, .newline] _ _ (ih (tail k))
    simp only [Block.mapNodes]; rw [L.block _ fun t => by simp]; simp only [blockPieces]
    exact ink_calls (by simp only [ink, e]) _
  case item =>
    intro t b ih k
    have e := ink_joined [.newline, .newline] _ _ (ih k)
    simp only [ListItem.mapNodes, itemPieces, ink, ink_append, List.cons_append, e]
  case nilB => intro _; rfl
  case consB =>
    intro b l ihb ihl k
    simp only [Block.mapNodesL, blocksPieces, List.map_cons]
    rw [ihb fun c hc => k c (List.mem_append_left _ hc), ihl fun c hc => k c (List.mem_append_right _ hc)]
  case nilI => intro _; rfl
  case consI =>
    intro b l ihb ihl k
    simp only [ListItem.mapNodesL, itemsPieces, ink_append]
    rw [ihb fun c hc => k c (List.mem_append_left _ hc), ihl fun c hc => k c (List.mem_append_right _ hc)]
  case htmlBlock =>
    intro t _
    obtain ⟨t', e, k⟩ := L.html t
    simp only [Block.mapNodes, e, blockPieces, spelledWord, ink, k, List.append_nil]
  all_goals
    intros
    simp only [Block.mapNodes]
    rw [L.block _ fun t => by simp]
    try rfl

include L in
theorem outer_map :
    (∀ b, outer (Block.mapNodes h hb b) = (outer b).map (Block.mapNodes h hb)) ∧
    (∀ i, outerItem (ListItem.mapNodes h hb i) = (outerItem i).map (Block.mapNodes h hb)) ∧
    (∀ l, outerL (Block.mapNodesL h hb l) = (outerL l).map (Block.mapNodes h hb)) ∧
    ∀ l, outerItems (ListItem.mapNodesL h hb l) = (outerItems l).map (Block.mapNodes h hb) := by
  apply Block.ind
  case htmlBlock =>
    intro t
    obtain ⟨t', e, _⟩ := L.html t
    simp only [outer, List.map_cons, List.map_nil, Block.mapNodes, e]
  case nilB => rfl
  case nilI => rfl
  case consB => intros; simp_all [Block.mapNodesL, outerL]
  case consI => intros; simp_all [ListItem.mapNodesL, outerItems]
  case item => intros; simp_all [ListItem.mapNodes, outerItem]
  all_goals
    intros
    simp only [Block.mapNodes, outer, List.map_cons, List.map_nil]
    rw [L.block _ fun t => by simp]
    try simp_all [outer, Block.mapNodes]
    try (rw [L.block _ fun t => by simp])

include L in
theorem number_map (d : Document) : footnoteNumber (d.mapNodes h hb) = footnoteNumber d := by
  have e : footnoteLabels (d.mapNodes h hb) = footnoteLabels d := by
    unfold footnoteLabels Document.mapNodes
    dsimp only
    rw [(outer_map L).2.2.1, List.filterMap_map]
    congr 1
    funext b
    cases b
    case htmlBlock t =>
      obtain ⟨t', e, _⟩ := L.html t
      simp only [Function.comp, Block.mapNodes, e]
      rfl
    all_goals
      simp only [Function.comp, Block.mapNodes]
      rw [L.block _ fun t => by simp]
      try rfl
  funext l
  unfold footnoteNumber
  rw [e]

include L in
theorem lookup_map {d : Document}
    (hd : ∀ l m, d.HasLabel l → d.HasLabel m → Inline.mapNodesL h l = Inline.mapNodesL h m → l = m)
    {l : List Inline} (hl : d.HasLabel l) :
    lastDefinition (d.mapNodes h hb) (Inline.mapNodesL h l) = lastDefinition d l := by
  have e : (outerL (d.mapNodes h hb).blocks).filterMap linkDef =
      ((outerL d.blocks).filterMap linkDef).map fun e => (Inline.mapNodesL h e.1, e.2) := by
    unfold Document.mapNodes
    dsimp only
    rw [(outer_map L).2.2.1, List.filterMap_map, List.map_filterMap]
    congr 1
    funext b
    cases b
    case htmlBlock t =>
      obtain ⟨t', e, _⟩ := L.html t
      simp only [Function.comp, Block.mapNodes, e]
      rfl
    all_goals
      simp only [Function.comp, Block.mapNodes]
      rw [L.block _ fun t => by simp]
      try rfl
  unfold lastDefinition
  rw [e, ← List.map_reverse]
  refine Html.find_map _ _ _ fun e he k => ?_
  refine hd _ _ (Or.inr ?_) hl k
  obtain ⟨b, hb, hbe⟩ := List.mem_filterMap.1 (List.mem_reverse.1 he)
  cases b
  case definition l' dest title =>
    simp only [linkDef, Option.some.injEq] at hbe
    subst hbe
    exact ⟨_, _, (Document.mem_allBlocks _ _).1 (outer_pre.2.2.1 _ _ hb)⟩
  all_goals simp [linkDef] at hbe


include hq in
theorem local_set {p : Char → Bool} {f : Str → Str} (hf : ∀ t, squeeze p (f t) = squeeze p t)
    (hp : ∀ c, p c = true → ∀ k ∈ spell [c], q k = true) (k : Target) : Local q (k.setInline f) (k.setBlock f) := by
  have hf' : ∀ t, squeeze q (spell (f t)) = squeeze q (spell t) := fun t => by
    rw [← spell_squeeze hp (f t), ← spell_squeeze hp t, hf]
  refine ⟨fun x i => ?_, fun l t => by cases k <;> rfl, fun b hb => ?_, fun t => ?_⟩
  · cases k <;> cases i <;> try rfl
    case text.text => simp only [Target.setInline, inlinePieces, ink_text hq, hf']
    case linkUrl.link d t c =>
      cases t <;> simp only [Target.setInline, inlinePieces, ink_append, callP, bracesP, spelledWord, ink, hf']
    all_goals simp only [Target.setInline, inlinePieces, ink_append, callP, bracesP, spelledWord, ink, hf']
  · cases k <;> cases b <;> try rfl
    exact absurd rfl (hb _)
  · cases k
    case html => exact ⟨f t, rfl, hf' t⟩
    all_goals exact ⟨t, rfl, rfl⟩

end Swap

open Source Exact Md.Spec

/-- **C118.** If a function on strings changes only characters of the kind `p`, then each of the six transforms changes only
whitespace and the characters with which those of the kind `p` are spelled in the LaTeX of the document. -/
theorem C118_transform {dw : Str → Nat} (hw : dw [' '] = 1) (cfg : Config) {p q : Char → Bool} {f : Str → Str}
    (hf : ∀ t, squeeze p (f t) = squeeze p t) (hq : ∀ c, isWs c = true → q c = true)
    (hp : ∀ c, p c = true → ∀ k ∈ spell [c], q k = true) (k : Target) {d : Document} (hd : Html.LabelsApart (Document.transform k f) d) :
    squeeze q (renderLatex dw cfg (d.transform k f)) = squeeze q (renderLatex dw cfg d) := by
  have L := Swap.local_set hq hf hp k
  have ha : ∀ l m, d.HasLabel l → d.HasLabel m → Inline.mapNodesL (k.setInline f) l = Inline.mapNodesL (k.setInline f) m → l = m := by
    intro l m hl hm e
    refine hd l m hl hm ?_
    rw [Document.transform_eq, Document.transform_eq]
    simp only [Document.mapNodes, Block.mapNodesL, Block.mapNodes, e]
  rw [C87_exact hw, C87_exact hw, Document.transform_eq]
  unfold latexText
  rw [ink_lay hq, ink_lay hq, map_snd, map_snd]
  refine ink_joined _ _ _ ?_
  refine (Swap.block_ink L cfg ⟨footnoteNumber d, lastDefinition d⟩
    ⟨footnoteNumber (d.mapNodes (k.setInline f) (k.setBlock f)), lastDefinition (d.mapNodes (k.setInline f) (k.setBlock f))⟩
    (fun l => congrFun (Swap.number_map L d) l)).2.2.1 d.blocks ?_
  intro b hb m t hm
  exact Swap.lookup_map L ha (Or.inl ⟨t, (Document.mem_allInlines _ _).1 (List.mem_flatMap.2 ⟨b, hb, hm⟩)⟩)

/-- **C118**, a document with a label that meets the hypotheses for every kind of transform. -/
theorem C118_example :
    let d : Document := ⟨[.definition [.text cs!"x"] cs!"va" none, .paragraph [.linkReference [.text cs!"x"] [.text cs!"ta"],
      .link cs!"l&a" none [.text cs!"ta"], .image cs!"ia" none cs!"aa", .autolink cs!"ua", .code cs!"ca", .html cs!"<a>"], .htmlBlock cs!"<ba>"]⟩
    let f := fun t : Str => t.filter fun c => !(c == 'a' || c == '&')
    let p := fun c : Char => c == 'a' || c == '&'
    let q := fun c : Char => isWs c || c == 'a' || c == '&' || c == '\\'
    let tex (k : Target) := renderLatex List.length Config.default (d.transform k f)
    (∀ k, Html.LabelsApart (Document.transform k f) d) ∧ (∀ t, squeeze p (f t) = squeeze p t) ∧ (∀ c, isWs c = true → q c = true) ∧
    (∀ c, p c = true → ∀ k ∈ spell [c], q k = true) ∧
    renderLatex List.length Config.default d =
      cs!"\n\n\\href{va}{ta}\\href{l\\&a}{ta}\\includegraphics{}{ia}\\caption{aa}\\url{ua}\\texttt{ca}<a>\n\n<ba>" ∧
    tex .text = cs!"\n\n\\href{va}{t}\\href{l\\&a}{t}\\includegraphics{}{ia}\\caption{aa}\\url{ua}\\texttt{ca}<a>\n\n<ba>" ∧
    tex .linkUrl = cs!"\n\n\\href{va}{ta}\\href{l}{ta}\\includegraphics{}{ia}\\caption{aa}\\url{ua}\\texttt{ca}<a>\n\n<ba>" ∧
    tex .imageUrl = cs!"\n\n\\href{va}{ta}\\href{l\\&a}{ta}\\includegraphics{}{i}\\caption{aa}\\url{ua}\\texttt{ca}<a>\n\n<ba>" ∧
    tex .autolink = cs!"\n\n\\href{va}{ta}\\href{l\\&a}{ta}\\includegraphics{}{ia}\\caption{aa}\\url{u}\\texttt{ca}<a>\n\n<ba>" ∧
    tex .code = cs!"\n\n\\href{va}{ta}\\href{l\\&a}{ta}\\includegraphics{}{ia}\\caption{aa}\\url{ua}\\texttt{c}<a>\n\n<ba>" ∧
    tex .html = cs!"\n\n\\href{va}{ta}\\href{l\\&a}{ta}\\includegraphics{}{ia}\\caption{aa}\\url{ua}\\texttt{ca}<>\n\n<b>" := by
  have labels : ∀ l, Document.HasLabel ⟨[.definition [.text cs!"x"] cs!"va" none, .paragraph [.linkReference [.text cs!"x"] [.text cs!"ta"],
      .link cs!"l&a" none [.text cs!"ta"], .image cs!"ia" none cs!"aa", .autolink cs!"ua", .code cs!"ca", .html cs!"<a>"], .htmlBlock cs!"<ba>"]⟩ l →
      l = [.text cs!"x"] := by
    rintro l (⟨t, k⟩ | ⟨u, t, k⟩)
    · rw [← Document.mem_allInlines] at k
      simp [Document.allInlines, Document.allBlocks, Block.preL, Block.pre, Block.directInlines, Inline.preL, Inline.pre] at k
      exact k.1
    · rw [← Document.mem_allBlocks] at k
      simp [Document.allBlocks, Block.preL, Block.pre] at k
      exact k.1
  refine ⟨fun k l m hl hm _ => (labels l hl).trans (labels m hm).symm, fun t => ?_, fun c h => by simp [h], ?_,
    by decide +kernel, by decide +kernel, by decide +kernel, by decide +kernel, by decide +kernel, by decide +kernel, by decide +kernel⟩
  · simp only [squeeze, List.filter_filter]
    refine List.filter_congr fun c _ => ?_
    cases h : (c == 'a' || c == '&') <;> simp [h]
  · intro c hc
    have hc : c = 'a' ∨ c = '&' := by simpa using hc
    rcases hc with rfl | rfl <;> decide +kernel

end Latex
end Verif
