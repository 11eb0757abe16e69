import Verif.HtmlExactSpec
import Verif.HtmlTree
/-!
# The HTML output, character by character (C89)
-/
set_option autoImplicit false
set_option linter.unusedVariables false
namespace Verif
namespace Html
namespace Exact

theorem write_chars (s : Str) : writeNodes (chars s) = escape s := by
  rw [← encode_eq]
  induction s with
  | nil => rfl
  | cons c s ih =>
    show Node.write (.char c) ++ writeNodes (chars s) = _
    rw [ih]
    simp [Node.write, encode]

theorem write_append (a b : List Node) : writeNodes (a ++ b) = writeNodes a ++ writeNodes b := by
  induction a with
  | nil => rfl
  | cons n a ih => simp [writeNodes, ih]

theorem write_el (n : Str) (a : List (Str × Str)) (l : List Node) :
    (Node.el n a l).write = element n (outAttrs a) (writeNodes l) := by
  simp [Node.write, element, outAttrs, attrStr, List.flatMap_map, encode_eq]

theorem write_one (n : Node) : writeNodes [n] = n.write := by simp [writeNodes]

theorem escape_plain {s : Str} (h : ∀ c ∈ s, c ≠ '&' ∧ c ≠ '<' ∧ c ≠ '>' ∧ c ≠ '"' ∧ c ≠ '\'') :
    escape s = s := by
  induction s with
  | nil => rfl
  | cons c s ih =>
    have e : escape (c :: s) = escapeChar c ++ escape s := rfl
    obtain ⟨h1, h2, h3, h4, h5⟩ := h c (by simp)
    have : escapeChar c = [c] := by unfold escapeChar; split <;> simp_all
    rw [e, this, ih fun d hd => h d (by simp [hd])]
    rfl

theorem escape_natStr (n : Nat) : escape (natStr n) = natStr n := by
  apply escape_plain
  intro c hc
  refine ⟨?_, ?_, ?_, ?_, ?_⟩ <;> rintro rfl <;> exact not_mem_natStr n (by decide) hc

theorem escape_append (a b : Str) : escape (a ++ b) = escape a ++ escape b := by
  simp [escape]

/-- The context of the renderer. -/
def context (st : State) (icon : AlertType → Node) : Context :=
  ⟨st.getFootnoteIndex, st.getLinkDefinition, st.config.anchorPrefix, icon, titleRaw⟩

theorem inline_write (st : State) (ic : AlertType → Node) :
    (∀ i, writeNodes (inlineNodes (context st ic) i) = inlineStr st i) ∧
    (∀ l, writeNodes (inlinesNodes (context st ic) l) = inlinesStr st l) := by
  apply Inline.ind
  case nil => rfl
  case cons =>
    intro i l hi hl
    simp only [inlinesNodes, inlinesStr, write_append, hi, hl]
  case footnoteReference =>
    intro l
    simp only [inlineNodes, inlineStr, context]
    cases st.getFootnoteIndex l with
    | none => rfl
    | some n =>
      have : escape (cs!"[" ++ decimal n ++ cs!"]") = '[' :: (natStr n ++ cs!"]") := by
        rw [escape_append, escape_append, show escape (decimal n) = natStr n from escape_natStr n]
        rfl
      simp only [write_one, write_el, write_chars, this, encode_eq]
      rfl
  case linkReference =>
    intro l t _ ih
    simp only [inlineNodes, inlineStr, context]
    cases st.getLinkDefinition l with
    | none => rfl
    | some e =>
      obtain ⟨d, ti⟩ := e
      simp only [write_one, write_el, linkAttrs_eq]
      rw [← ih]
      rfl
  case html => intro s; simp [inlineNodes, inlineStr, writeNodes, Node.write]
  case image =>
    intro d t a
    simp only [inlineNodes, inlineStr, write_one, write_el, titleAttr_eq]
    rw [encode_eq, encode_eq]
    rfl
  all_goals
    intros
    simp only [inlineNodes, inlineStr, write_one, write_el, write_chars, linkAttrs_eq, titleAttr, *]
  all_goals rfl

theorem cells_write (st : State) (ic : AlertType → Node) (n : Str) (al : List Alignment)
    (row : List (List Inline)) :
    ∀ k, writeNodes (row.mapIdx fun i cell => .el n [(cs!"class", alignClass (al[k + i]?.getD .left))]
      (inlinesNodes (context st ic) cell)) = cellsStr st n al k row := by
  induction row with
  | nil => intro k; rfl
  | cons c row ih =>
    intro k
    have ha : cs!"markdown-table-align-" ++ alignName al[k]? = alignClass (al[k]?.getD .left) := by
      rcases al[k]? with _ | ⟨⟨⟩⟩ <;> rfl
    have : (fun i (cell : List Inline) => Node.el n
        [(cs!"class", alignClass (al[k + (i + 1)]?.getD .left))] (inlinesNodes (context st ic) cell)) =
        fun i cell => Node.el n
          [(cs!"class", alignClass (al[k + 1 + i]?.getD .left))] (inlinesNodes (context st ic) cell) := by
      funext i cell
      rw [show k + (i + 1) = k + 1 + i by omega]
    simp only [cellsStr, List.mapIdx_cons, Nat.add_zero, ha, this, writeNodes, ih, write_el,
      (inline_write st ic).2]

theorem row_write (st : State) (ic : AlertType → Node) (n : Str) (al : List Alignment)
    (row : List (List Inline)) :
    (rowNode (context st ic) n al row).write = rowStr st row n al := by
  have := cells_write st ic n al row 0
  simp only [Nat.zero_add] at this
  simp only [rowNode, write_el, this]
  rfl

theorem rows_write (st : State) (ic : AlertType → Node) (n : Str) (al : List Alignment)
    (rows : List (List (List Inline))) :
    writeNodes (rows.map (rowNode (context st ic) n al)) = rows.flatMap fun r => rowStr st r n al := by
  induction rows with
  | nil => rfl
  | cons r rows ih => simp [writeNodes, row_write, ih]

theorem title_write (t : AlertType) : writeNodes (titleRaw t) = alertTitle t := by
  cases t with
  | custom s => simp [titleRaw, writeNodes, Node.write, alertTitle]
  | _ => rfl

theorem task_write (t : Option TaskState) : writeNodes (taskNodes t) = taskStr t := by
  rcases t with _ | (_ | _)
  · rfl
  · simp only [taskNodes, write_one, write_el, write_chars]; rfl
  · simp only [taskNodes, write_one, write_el, write_chars]; rfl

theorem list_write (k : ListKind) (l : List Node) :
    (listNode k l).write = listStr k (writeNodes l) := by
  rcases k with n | ⟨⟨⟩⟩ <;> simp only [listNode, write_el] <;> rfl

theorem block_write (st : State) (ic : AlertType → Node) (hic : ∀ t, (ic t).write = svgIcon t) :
    (∀ b s, blockStr st b = some s → s = writeNodes (blockNodes (context st ic) b)) ∧
    (∀ i s, itemStr st i = some s → s = (itemNode (context st ic) i).write) ∧
    (∀ l s, blocksStr st l = some s → s = writeNodes (blocksNodes (context st ic) l)) ∧
    (∀ l s, itemsStr st l = some s → s = writeNodes (itemsNodes (context st ic) l)) := by
  apply Block.ind
  case blockQuote =>
    intro b ih s hs
    simp only [blockStr, Option.map_eq_some_iff] at hs
    obtain ⟨t, ht, rfl⟩ := hs
    simp only [blockNodes, write_one, write_el, ← ih t ht]
    rfl
  case list =>
    intro k b ih s hs
    simp only [blockStr, Option.map_eq_some_iff] at hs
    obtain ⟨t, ht, rfl⟩ := hs
    simp only [blockNodes, write_one, list_write, ← ih t ht]
  case githubAlert =>
    intro ty b ih s hs
    simp only [blockStr, Option.map_eq_some_iff] at hs
    obtain ⟨t, ht, rfl⟩ := hs
    have hcl : alertClasses ty = cs!"markdown-alert markdown-alert-" ++ alertKind ty := by
      cases ty <;> rfl
    have e1 : (context st ic).icon ty = ic ty := rfl
    have e2 : (context st ic).title ty = titleRaw ty := rfl
    simp only [blockNodes, write_one, write_el, writeNodes, e1, e2, hic, title_write, ← ih t ht,
      alertStr, hcl]
  case footnoteDefinition =>
    intro l b ih s hs
    simp only [blockStr] at hs
    have e : (context st ic).num = st.getFootnoteIndex := rfl
    simp only [blockNodes, e]
    cases hn : st.getFootnoteIndex l with
    | none => rw [hn] at hs; cases hs; rfl
    | some n =>
      rw [hn] at hs
      simp only [Option.map_eq_some_iff] at hs
      obtain ⟨t, ht, rfl⟩ := hs
      have e2 : escape (decimal n) = natStr n := escape_natStr n
      simp only [write_el, writeNodes, write_chars, ← ih t ht, footnoteStr, escape_append, e2,
        List.append_nil]
      rfl
  case table =>
    intro rows al s hs
    simp only [blockStr] at hs
    rcases rows with _ | ⟨r, rows⟩
    · simp [tableStr] at hs
    · simp only [tableStr, Option.some.injEq] at hs
      subst hs
      simp only [blockNodes, write_one, write_el, writeNodes, List.tail_cons, List.head?_cons,
        Option.toList_some, List.map_cons, List.map_nil, row_write, rows_write, List.append_nil]
      rfl
  case item =>
    intro ta b ih s hs
    simp only [itemStr, Option.map_eq_some_iff] at hs
    obtain ⟨t, ht, rfl⟩ := hs
    simp only [itemNode, write_el, write_append, task_write, ← ih t ht]
    rfl
  case nilB => intro s hs; cases hs; rfl
  case nilI => intro s hs; cases hs; rfl
  case consB =>
    intro b l hb hl s hs
    simp only [blocksStr, Option.bind_eq_some_iff, Option.map_eq_some_iff] at hs
    obtain ⟨a, ha, t, ht, rfl⟩ := hs
    rw [blocksNodes, write_append, ← hb a ha, ← hl t ht]
  case consI =>
    intro b l hb hl s hs
    simp only [itemsStr, Option.bind_eq_some_iff, Option.map_eq_some_iff] at hs
    obtain ⟨a, ha, t, ht, rfl⟩ := hs
    rw [itemsNodes, writeNodes, ← hb a ha, ← hl t ht]
  case heading =>
    intro k c s hs
    cases hs
    simp only [blockNodes, headingName_eq, write_one, write_el, (inline_write st ic).2]
    rfl
  case htmlBlock => intro t s hs; cases hs; simp [blockNodes, writeNodes, Node.write]
  all_goals
    intros
    rename_i hs
    cases hs
    simp only [blockNodes, write_one, write_el, write_chars, (inline_write st ic).2]
    rfl

/-- The path of an icon: what is between the quotes after `<path d=`. -/
def iconPath (t : AlertType) : Str :=
  (((svgIcon t).dropWhile (· != '>')).drop 10).takeWhile (· != '"')

/-- The icon. -/
def icon (t : AlertType) : Node :=
  .el cs!"svg" [(cs!"class", cs!"octicon octicon-" ++ iconKind t ++ cs!" mr-2"),
    (cs!"viewBox", cs!"0 0 16 16"), (cs!"version", cs!"1.1"), (cs!"width", cs!"16"),
    (cs!"height", cs!"16"), (cs!"aria-hidden", cs!"true")] [.el cs!"path" [(cs!"d", iconPath t)] []]

theorem icon_write (t : AlertType) : (icon t).write = svgIcon t := by
  cases t with
  | custom l => show (icon (.custom [])).write = svgIcon (.custom []); decide +kernel
  | _ => decide +kernel

end Exact

open Classical in
/-- **C89.** The output of `render_html`, character by character: the document has a tree (see
`HtmlTreeSpec`), and the output is this tree as HTML text, with nothing added, whatever the width.
There is no output exactly if a table without rows would be shown. -/
theorem C89_exact_html : ∃ icon : AlertType → Node, (∀ t, IsIcon t (icon t)) ∧
    ∀ (dw : Str → Nat) (d : Document) (cfg : Config),
      renderHtml dw d cfg = if ∃ al, RenderedIn d (.table [] al) then none else
        some (writeNodes
          (blocksNodes ⟨footnoteNumber d, lastDefinition d, cfg.anchorPrefix, icon, titleRaw⟩ d.blocks)) := by
  refine ⟨Exact.icon, fun t => ⟨_, rfl⟩, fun dw d cfg => ?_⟩
  split
  · rename_i h
    exact (C27_panics_iff dw d cfg).2 h
  · rename_i h
    cases e : renderHtml dw d cfg with
    | none => exact absurd ((C27_panics_iff dw d cfg).1 e) h
    | some out =>
      rw [renderHtml_eq] at e
      have e1 : (State.new cfg d).getFootnoteIndex = footnoteNumber d := funext (footnoteIndex_eq cfg d)
      have e2 : (State.new cfg d).getLinkDefinition = lastDefinition d := funext (linkDefinition_eq cfg d)
      have := (Exact.block_write (State.new cfg d) Exact.icon Exact.icon_write).2.2.1 d.blocks out e
      simp only [Exact.context, e1, e2] at this
      rw [this]
      rfl

/-- The specification, evaluated: a paragraph in a block quote, with a link and a raw tag. -/
example (x : Context) : writeNodes (blocksNodes x [.blockQuote [.paragraph [.text cs!"a<'",
    .link cs!"u&" none [.code cs!"b"], .html cs!"<i>"]], .thematicBreak]) =
    cs!"<blockquote><p>a&lt;&apos;<a href=\"u&amp;amp;\"><code>b</code></a><i></p></blockquote><hr></hr>" := by
  rfl

end Html
end Verif
