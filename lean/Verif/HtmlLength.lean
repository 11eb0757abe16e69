import Verif.DocMass
import Verif.HtmlExact
import Verif.DocSizeExp
/-!
# How long the HTML of a document is (C98)
-/
set_option autoImplicit false
set_option linter.unusedSimpArgs false
namespace Verif
namespace Html

theorem encode_length (s : Str) : (encode s).length ≤ 6 * s.length := by
  induction s with
  | nil => simp [encode]
  | cons c s ih =>
    have : ((references.lookup c).getD [c]).length ≤ 6 := by
      simp only [references, List.lookup]
      repeat' split
      all_goals simp
    simp only [encode, List.flatMap_cons, List.length_append, List.length_cons] at ih ⊢
    omega

theorem encode_append (a b : Str) : encode (a ++ b) = encode a ++ encode b := by simp [encode]

theorem encode_twice (s : Str) : (encode (encode s)).length ≤ 10 * s.length := by
  induction s with
  | nil => simp [encode]
  | cons c s ih =>
    have h : (encode ((references.lookup c).getD [c])).length ≤ 10 := by
      by_cases h1 : c = '&'
      · subst h1; decide +kernel
      by_cases h2 : c = '<'
      · subst h2; decide +kernel
      by_cases h3 : c = '>'
      · subst h3; decide +kernel
      by_cases h4 : c = '"'
      · subst h4; decide +kernel
      by_cases h5 : c = '\''
      · subst h5; decide +kernel
      have e : references.lookup c = none := by
        simp [references, List.lookup, beq_false_of_ne h1, beq_false_of_ne h2, beq_false_of_ne h3, beq_false_of_ne h4, beq_false_of_ne h5]
      rw [e]
      simp [encode, e]
    have : encode (c :: s) = (references.lookup c).getD [c] ++ encode s := by simp [encode]
    rw [this, encode_append, List.length_append, List.length_cons]
    omega

/-- The length of attributes. -/
def attrsLength (a : List (Str × Str)) : Nat := (a.map fun a => 4 + a.1.length + (encode a.2).length).sum

theorem el_length (n : Str) (a : List (Str × Str)) (l : List Node) :
    (Node.el n a l).write.length = 5 + 2 * n.length + attrsLength a + (writeNodes l).length := by
  have : (a.flatMap fun a => cs!" " ++ a.1 ++ cs!"=\"" ++ encode a.2 ++ cs!"\"").length = attrsLength a := by
    induction a with
    | nil => rfl
    | cons a l ih =>
      rw [List.flatMap_cons, List.length_append, ih]
      simp [attrsLength]
      omega
  rw [Node.write]
  simp only [List.length_append, this, List.length_cons, List.length_nil]
  omega

theorem chars_length (s : Str) : (writeNodes (chars s)).length ≤ 6 * s.length := by
  have : writeNodes (chars s) = encode s := by
    induction s with
    | nil => rfl
    | cons c s ih =>
      show (Node.char c).write ++ writeNodes (chars s) = encode (c :: s)
      rw [ih, Node.write]
      simp [encode]
  rw [this]
  exact encode_length s

theorem append_length (a b : List Node) : (writeNodes (a ++ b)).length = (writeNodes a).length + (writeNodes b).length := by
  rw [Exact.write_append, List.length_append]

theorem one_length (n : Node) : (writeNodes [n]).length = n.write.length := by rw [Exact.write_one]

theorem cons_length (n : Node) (l : List Node) : (writeNodes (n :: l)).length = n.write.length + (writeNodes l).length := by
  rw [writeNodes, List.length_append]

theorem nil_length : (writeNodes []).length = 0 := rfl

theorem link_length (d : Str) (t : Option Str) : attrsLength (linkAttrs d t) ≤ 20 + 10 * (d.length + (t.getD []).length) := by
  have h1 := encode_twice d
  cases t with
  | none => simp [attrsLength, linkAttrs]; omega
  | some t => have h2 := encode_twice t; simp [attrsLength, linkAttrs]; omega

/-- A bound for what the tree of a document depends on: `D` for the definitions, `N` for the numbers, with the anchor and the
icons. -/
structure Context.Within (x : Context) (D N : Nat) : Prop where
  defs : ∀ l d t, x.defs l = some (d, t) → d.length + (t.getD []).length ≤ D
  num : ∀ l n, x.num l = some n → (decimal n).length ≤ N
  icon : ∀ t, (x.icon t).write.length ≤ 840
  title : x.title = titleRaw

section
variable {x : Context} {D N : Nat}

/-- What an inline costs. -/
def inlineCost (B : Nat) (i : Inline) : Nat := 100 + 16 * i.letters + i.labels * B

/-- What inlines cost. -/
def inlinesCost (B : Nat) (l : List Inline) : Nat := ((Inline.preL l).map (inlineCost B)).sum

theorem inlinesCost_cons (B : Nat) (i : Inline) (l : List Inline) :
    inlinesCost B (i :: l) = (i.pre.map (inlineCost B)).sum + inlinesCost B l := by
  simp [inlinesCost, Inline.preL]

theorem inlinesCost_append (B : Nat) (l m : List Inline) : inlinesCost B (l ++ m) = inlinesCost B l + inlinesCost B m := by
  induction l with
  | nil => simp [inlinesCost, Inline.preL]
  | cons i l ih => rw [List.cons_append, inlinesCost_cons, ih, inlinesCost_cons]; omega

theorem inlines_length (hx : x.Within D N) :
    (∀ i, (writeNodes (inlineNodes x i)).length ≤ (i.pre.map (inlineCost (16 * D + 20 * N + 10 * x.anchor.length))).sum) ∧
    (∀ l, (writeNodes (inlinesNodes x l)).length ≤ inlinesCost (16 * D + 20 * N + 10 * x.anchor.length) l) := by
  generalize hB : 16 * D + 20 * N + 10 * x.anchor.length = B
  refine Inline.ind ?_ ?_ ?_ ?_ ?_ ?_ ?_ ?_ ?_ ?_ ?_ ?_ ?_ ?_ ?_
  · intro s
    have := chars_length s
    simp [inlineNodes, Inline.pre, inlineCost, Inline.letters, Inline.labels]
    omega
  · simp [inlineNodes, Inline.pre, inlineCost, Inline.letters, Inline.labels, one_length, el_length, attrsLength, writeNodes]
  · intro s
    have := chars_length s
    simp [inlineNodes, Inline.pre, inlineCost, Inline.letters, Inline.labels, one_length, el_length, attrsLength]
    omega
  · intro s
    simp [inlineNodes, Inline.pre, inlineCost, Inline.letters, Inline.labels, one_length, Node.write]
    omega
  · intro d t c ih
    have := link_length d t
    simp [inlineNodes, Inline.pre, inlineCost, Inline.letters, Inline.labels, one_length, el_length, inlinesCost] at ih ⊢
    omega
  · intro l t ih1 ih2
    simp only [inlineNodes, Inline.pre, List.map_cons, List.sum_cons, List.map_append, List.sum_append]
    cases e : x.defs l with
    | none => simp [writeNodes]
    | some dt =>
      obtain ⟨d, title⟩ := dt
      have h1 := link_length d title
      have h2 := hx.defs _ _ _ e
      simp [inlineCost, Inline.letters, Inline.labels, one_length, el_length, inlinesCost] at ih1 ih2 ⊢
      omega
  · intro d t a
    have h1 := encode_twice d
    have h2 := encode_twice a
    cases t with
    | none =>
      simp [inlineNodes, Inline.pre, inlineCost, Inline.letters, Inline.labels, one_length, el_length, attrsLength, writeNodes]
      omega
    | some t =>
      have h3 := encode_twice t
      simp [inlineNodes, Inline.pre, inlineCost, Inline.letters, Inline.labels, one_length, el_length, attrsLength, writeNodes]
      omega
  · intro c ih
    simp [inlineNodes, Inline.pre, inlineCost, Inline.letters, Inline.labels, one_length, el_length, attrsLength, inlinesCost] at ih ⊢
    omega
  · intro c ih
    simp [inlineNodes, Inline.pre, inlineCost, Inline.letters, Inline.labels, one_length, el_length, attrsLength, inlinesCost] at ih ⊢
    omega
  · intro c ih
    simp [inlineNodes, Inline.pre, inlineCost, Inline.letters, Inline.labels, one_length, el_length, attrsLength, inlinesCost] at ih ⊢
    omega
  · intro s
    have h1 := chars_length s
    have h2 := link_length s none
    simp [inlineNodes, Inline.pre, inlineCost, Inline.letters, Inline.labels, one_length, el_length] at h2 ⊢
    omega
  · intro s
    simp only [inlineNodes, Inline.pre, List.map_cons, List.sum_cons, List.map_nil, List.sum_nil]
    cases e : x.num s with
    | none => simp [writeNodes]
    | some n =>
      have h1 := encode_twice (cs!"#" ++ x.anchor ++ decimal n)
      have h2 := chars_length (cs!"[" ++ decimal n ++ cs!"]")
      have h3 := hx.num _ _ e
      have h4 : (encode cs!"markdown-footnote-reference").length = 27 := by decide +kernel
      simp only [List.length_append, List.length_cons, List.length_nil] at h1 h2
      simp only [inlineCost, Inline.letters, Inline.labels, one_length, el_length, attrsLength, List.map_cons, List.map_nil,
        List.sum_cons, List.sum_nil, h4, List.length_cons, List.length_nil] at h2 ⊢
      omega
  · simp [inlineNodes, writeNodes]
  · simp [inlinesNodes, writeNodes]
  · intro i l h1 h2
    rw [inlinesNodes, append_length, inlinesCost_cons]
    omega

/-! ## Blocks -/

theorem cells_length (hx : x.Within D N) (name : Str) (hn : name.length = 2) (al : List Alignment) (row : List (List Inline)) :
    ∀ k, (writeNodes (row.mapIdx fun i cell =>
      .el name [(cs!"class", alignClass (al[k + i]?.getD .left))] (inlinesNodes x cell))).length ≤
    60 * row.length + inlinesCost (16 * D + 20 * N + 10 * x.anchor.length) row.flatten := by
  induction row with
  | nil => intro k; simp [writeNodes]
  | cons c row ih =>
    intro k
    have h1 := (inlines_length hx).2 c
    have h2 := ih (k + 1)
    have h3 : ∀ a, (encode (alignClass a)).length ≤ 27 := by intro a; cases a <;> decide +kernel
    have h4 := h3 (al[k]?.getD .left)
    have h5 : (fun i (cell : List Inline) => Node.el name [(cs!"class", alignClass (al[k + (i + 1)]?.getD .left))] (inlinesNodes x cell)) =
        fun i cell => .el name [(cs!"class", alignClass (al[k + 1 + i]?.getD .left))] (inlinesNodes x cell) := by
      funext i cell
      rw [show k + (i + 1) = k + 1 + i by omega]
    rw [List.mapIdx_cons, cons_length, el_length, List.flatten_cons, inlinesCost_append, h5]
    simp only [attrsLength, List.map_cons, List.map_nil, List.sum_cons, List.sum_nil, List.length_cons, List.length_nil, hn, Nat.add_zero]
    omega

theorem row_length (hx : x.Within D N) (name : Str) (hn : name.length = 2) (al : List Alignment) (row : List (List Inline)) :
    (rowNode x name al row).write.length ≤ 9 + (60 * row.length + inlinesCost (16 * D + 20 * N + 10 * x.anchor.length) row.flatten) := by
  have := cells_length hx name hn al row 0
  simp only [Nat.zero_add] at this
  rw [rowNode, el_length]
  simp only [attrsLength, List.map_nil, List.sum_nil, List.length_cons, List.length_nil]
  omega

theorem rows_length (hx : x.Within D N) (name : Str) (hn : name.length = 2) (al : List Alignment) (rows : List (List (List Inline))) :
    (writeNodes (rows.map (rowNode x name al))).length ≤
      9 * rows.length + 60 * rows.flatten.length + inlinesCost (16 * D + 20 * N + 10 * x.anchor.length) rows.flatten.flatten := by
  induction rows with
  | nil => simp [writeNodes]
  | cons r rows ih =>
    have := row_length hx name hn al r
    rw [List.map_cons, cons_length, List.flatten_cons, List.flatten_append, inlinesCost_append, List.length_cons, List.length_append]
    omega

theorem cells_count_le (cs : List (List Inline)) : cs.length ≤ (cs.map fun c => if c = [] then 1 else 0).sum + inlineCount cs.flatten := by
  induction cs with
  | nil => simp
  | cons c cs ih =>
    rw [List.flatten_cons, inlineCount_append, List.map_cons, List.sum_cons, List.length_cons]
    cases c with
    | nil => simp; omega
    | cons i c =>
      have : 1 ≤ i.pre.length := by cases i <;> simp [Inline.pre]
      rw [inlineCount_cons]
      omega

/-- What a block costs, with its inlines. -/
def blockCost (B : Nat) (b : Block) : Nat :=
  1000 + 1000 * b.frames + 16 * b.letters + b.labels * B + (100 * inlineCount b.directInlines + inlinesCost B b.directInlines)

/-- What blocks cost. -/
def blocksCost (B : Nat) (l : List Block) : Nat := (l.map (blockCost B)).sum

theorem blocksCost_append (B : Nat) (l m : List Block) : blocksCost B (l ++ m) = blocksCost B l + blocksCost B m := by
  simp [blocksCost]

theorem blocksCost_cons (B : Nat) (b : Block) (l : List Block) : blocksCost B (b :: l) = blockCost B b + blocksCost B l := by
  simp [blocksCost]

theorem cost_leaf (B : Nat) {b : Block} (h : b.pre = [b]) : blocksCost B b.pre = blockCost B b := by
  rw [h]; simp [blocksCost]

theorem task_length (t : Option TaskState) : (writeNodes (taskNodes t)).length ≤ 100 := by
  rcases t with _ | (_ | _) <;> decide +kernel

theorem list_length (k : ListKind) (l : List Node) :
    (listNode k l).write.length ≤ 100 + 16 * startDigits k + (writeNodes l).length := by
  rcases k with s | b
  all_goals first
    | (have := encode_length (decimal s)
       simp [listNode, el_length, attrsLength, startDigits, decimal] at this ⊢
       omega)
    | (cases b <;> simp [listNode, el_length, attrsLength, startDigits, encode, references, List.lookup] <;> omega)

theorem alert_length (t : AlertType) (b : List Block) :
    (writeNodes (titleRaw t)).length ≤ 20 + 16 * (Block.githubAlert t b).letters := by
  cases t with
  | custom s => simp [titleRaw, one_length, Node.write, Block.letters]; omega
  | _ => simp only [titleRaw]; exact Nat.le_trans (by decide +kernel) (Nat.le_add_right _ _)

theorem kind_length (t : AlertType) : (encode (cs!"markdown-alert markdown-alert-" ++ alertKind t)).length ≤ 40 := by
  cases t with
  | custom s => show (encode (cs!"markdown-alert markdown-alert-" ++ cs!"custom")).length ≤ 40; decide +kernel
  | _ => decide +kernel

theorem heading_length (k : HeadingKind) : (headingName k).length = 2 := by
  rcases k with n | (_ | _)
  · simp only [headingName]
    split
    · rename_i h
      obtain ⟨h1, h2⟩ := h
      have : n = 1 ∨ n = 2 ∨ n = 3 ∨ n = 4 ∨ n = 5 ∨ n = 6 := by omega
      rcases this with rfl | rfl | rfl | rfl | rfl | rfl <;> rfl
    · rfl
  · rfl
  · rfl

theorem blocks_length (hx : x.Within D N) :
    (∀ b, (writeNodes (blockNodes x b)).length ≤ blocksCost (16 * D + 20 * N + 10 * x.anchor.length) b.pre) ∧
    (∀ i, (itemNode x i).write.length ≤ 200 + blocksCost (16 * D + 20 * N + 10 * x.anchor.length) i.pre) ∧
    (∀ l, (writeNodes (blocksNodes x l)).length ≤ blocksCost (16 * D + 20 * N + 10 * x.anchor.length) (Block.preL l)) ∧
    (∀ l, (writeNodes (itemsNodes x l)).length ≤ 200 * l.length + blocksCost (16 * D + 20 * N + 10 * x.anchor.length) (ListItem.preL l)) := by
  have hrows := fun name hn al rows => rows_length hx name hn al rows
  have hinl := (inlines_length hx).2
  have hfoot : ∀ l n, x.num l = some n → (decimal n).length ≤ N := hx.num
  have hB : ∃ B, B = 16 * D + 20 * N + 10 * x.anchor.length ∧ 20 * N ≤ B := ⟨_, rfl, by omega⟩
  obtain ⟨B, hB, hN⟩ := hB
  rw [← hB] at hrows hinl ⊢
  refine Block.ind ?_ ?_ ?_ ?_ ?_ ?_ ?_ ?_ ?_ ?_ ?_ ?_ ?_ ?_ ?_ ?_ ?_
  · intro c
    have := hinl c
    rw [cost_leaf _ (by simp [Block.pre])]
    simp [blockNodes, one_length, el_length, attrsLength, blockCost, Block.directInlines]
    omega
  · intro k c
    have := hinl c
    rw [cost_leaf _ (by simp [Block.pre])]
    simp [blockNodes, one_length, el_length, attrsLength, blockCost, Block.directInlines, heading_length]
    omega
  · rw [cost_leaf _ (by simp [Block.pre])]
    simp [blockNodes, one_length, el_length, attrsLength, blockCost, writeNodes]
    omega
  · intro b ih
    rw [Block.pre, blocksCost_cons]
    simp [blockNodes, one_length, el_length, attrsLength, blockCost]
    omega
  · intro k i ih
    have := list_length k (itemsNodes x i)
    have h1 : (Block.list k i).letters = startDigits k := by cases k <;> rfl
    have h2 : (Block.list k i).frames = i.length := rfl
    rw [Block.pre, blocksCost_cons]
    simp only [blockNodes, one_length, blockCost, h1, h2]
    omega
  · intro k s
    have := chars_length s
    rw [cost_leaf _ (by simp [Block.pre])]
    simp [blockNodes, one_length, el_length, attrsLength, blockCost, Block.letters]
    omega
  · intro s
    rw [cost_leaf _ (by simp [Block.pre])]
    simp [blockNodes, one_length, Node.write, blockCost, Block.letters]
    omega
  · intros; simp [blockNodes, writeNodes]
  · intro r a
    rw [cost_leaf _ (by simp [Block.pre])]
    have h1 := hrows cs!"th" rfl a r.head?.toList
    have h2 := hrows cs!"td" rfl a r.tail
    have h3 : r = r.head?.toList ++ r.tail := by cases r <;> rfl
    have h4 : r.length = r.head?.toList.length + r.tail.length := by cases r <;> simp; omega
    have h5 : r.flatten.length = r.head?.toList.flatten.length + r.tail.flatten.length := by cases r <;> simp
    have h6 : inlinesCost B r.flatten.flatten = inlinesCost B r.head?.toList.flatten.flatten + inlinesCost B r.tail.flatten.flatten := by
      cases r with
      | nil => simp [inlinesCost, Inline.preL]
      | cons h r => simp [inlinesCost_append]
    have h7 := cells_count_le r.flatten
    simp only [blockNodes, one_length, cons_length, el_length, attrsLength, blockCost, Block.letters, Block.labels, Block.frames, Block.directInlines,
      List.map_nil, List.sum_nil, List.length_cons, List.length_nil, nil_length]
    omega
  · intro l b ih
    rw [Block.pre, blocksCost_cons]
    simp only [blockNodes]
    cases e : x.num l with
    | none => simp [writeNodes]
    | some n =>
      have h1 := chars_length (decimal n ++ cs!". ")
      have h2 := hfoot l n e
      have e1 : (encode cs!"markdown-footnote-definition").length = 28 := by decide +kernel
      have e2 : (encode cs!"markdown-footnote-definition-index").length = 34 := by decide +kernel
      have e3 : (encode cs!"markdown-footnote-definition-content").length = 36 := by decide +kernel
      simp only [List.length_append, List.length_cons, List.length_nil] at h1
      simp only [one_length, cons_length, el_length, attrsLength, blockCost, Block.letters, Block.labels, Block.frames,
        List.map_cons, List.sum_cons, List.map_nil, List.sum_nil, List.length_cons, List.length_nil, nil_length, e1, e2, e3] at h1 ⊢
      omega
  · intro t b ih
    have h1 := alert_length t b
    have h2 := kind_length t
    have h3 := hx.icon t
    have e1 : (encode cs!"markdown-alert-title").length = 20 := by decide +kernel
    rw [Block.pre, blocksCost_cons]
    simp only [blockNodes, one_length, cons_length, el_length, attrsLength, blockCost, hx.title,
      List.map_cons, List.sum_cons, List.map_nil, List.sum_nil, List.length_cons, List.length_nil, nil_length, e1]
    omega
  · simp [blockNodes, writeNodes]
  · intro t b ih
    have := task_length t
    rw [itemNode, el_length, append_length, ListItem.pre]
    simp only [attrsLength, List.map_nil, List.sum_nil, List.length_cons, List.length_nil]
    omega
  · simp [blocksNodes, writeNodes]
  · intro b l h1 h2
    rw [blocksNodes, append_length, Block.preL, blocksCost_append]
    omega
  · simp [itemsNodes, writeNodes]
  · intro i l h1 h2
    rw [itemsNodes, cons_length, ListItem.preL, blocksCost_append, List.length_cons]
    omega

end

/-! ## Documents -/

theorem mem_sum_le {α : Type} {f : α → Nat} {l : List α} {a : α} (h : a ∈ l) : f a ≤ (l.map f).sum := by
  induction l with
  | nil => simp at h
  | cons b l ih =>
    rw [List.map_cons, List.sum_cons]
    rcases List.mem_cons.1 h with rfl | h
    · omega
    · have := ih h; omega

theorem lastDefinition_length {d : Document} {l : List Inline} {u : Str} {t : Option Str} (h : lastDefinition d l = some (u, t)) :
    u.length + (t.getD []).length ≤ d.letters := by
  simp only [lastDefinition, Option.map_eq_some_iff] at h
  obtain ⟨e, he, h2⟩ := h
  have h3 := List.mem_of_find?_eq_some he
  rw [List.mem_reverse, linkDefinitions, List.mem_filterMap] at h3
  obtain ⟨b, hb, hb2⟩ := h3
  cases b <;> simp only [Option.some.injEq, reduceCtorEq] at hb2
  rename_i l' u' t'
  subst hb2
  simp only [Prod.mk.injEq] at h2
  obtain ⟨rfl, rfl⟩ := h2
  have := mem_sum_le (f := Block.letters) hb
  simp only [Block.letters] at this
  rw [Document.letters]
  omega

theorem firstOccurrences_length (l : List Str) : (firstOccurrences l).length ≤ l.length := by
  induction l with
  | nil => simp [firstOccurrences]
  | cons a l ih =>
    have := List.length_filter_le (· ≠ a) (firstOccurrences l)
    simp only [firstOccurrences, List.length_cons] at this ⊢
    omega

theorem refs_length (l : List Inline) : (l.filterMap refLabel).length ≤ ((Inline.preL l).map Inline.labels).sum := by
  induction l with
  | nil => simp
  | cons i l ih =>
    rw [Inline.preL, List.map_append, List.sum_append, List.filterMap_cons]
    cases i <;> simp only [refLabel, Inline.pre, List.map_cons, List.sum_cons, List.map_nil, List.sum_nil, Inline.labels, List.length_cons] <;> omega

theorem directRefs_length (d : Document) : (directRefs d).length ≤ d.labels := by
  have h1 : (directRefs d).length ≤ (d.allInlines.map Inline.labels).sum := by
    rw [directRefs, Document.allInlines]
    induction d.allBlocks with
    | nil => simp
    | cons b l ih =>
      have := refs_length b.directInlines
      rw [List.flatMap_cons, List.flatMap_cons, List.map_append, List.sum_append, List.length_append]
      omega
  rw [Document.labels]
  omega

theorem footnoteNumber_length {d : Document} {l : Str} {n : Nat} (h : footnoteNumber d l = some n) :
    (decimal n).length ≤ d.labels := by
  simp only [footnoteNumber, Option.map_eq_some_iff] at h
  obtain ⟨i, hi, rfl⟩ := h
  have h1 : i < (firstOccurrences (directRefs d)).length := by
    rw [List.idxOf?, List.findIdx?_eq_some_iff_getElem] at hi
    exact hi.1
  have h2 := firstOccurrences_length (directRefs d)
  have h3 := directRefs_length d
  refine Nat.le_trans ?_ (show i + 1 ≤ d.labels by omega)
  rw [decimal, Nat.length_toDigits_le_iff (by decide) (by omega)]
  exact Nat.lt_pow_self (by decide)

theorem svgIcon_length (t : AlertType) : (svgIcon t).length ≤ 840 := by
  cases t with
  | custom s => show (svgIcon (.custom [])).length ≤ 840; decide +kernel
  | _ => decide +kernel

theorem cost_eq (B : Nat) (d : Document) :
    blocksCost B (Block.preL d.blocks) ≤ 1000 * (d.size + d.frames) + 16 * d.letters + d.labels * B := by
  have h1 : ∀ l : List Inline, (l.map (inlineCost B)).sum = 100 * l.length + 16 * (l.map Inline.letters).sum + (l.map Inline.labels).sum * B := by
    intro l
    induction l with
    | nil => simp
    | cons i l ih =>
      simp only [List.map_cons, List.sum_cons, ih, inlineCost, List.length_cons, Nat.add_mul]
      omega
  have h2 : ∀ l : List Block, blocksCost B l = 1000 * l.length + 1000 * (l.map Block.frames).sum + 16 * (l.map Block.letters).sum +
      (l.map Block.labels).sum * B + (100 * (l.flatMap fun b => Inline.preL b.directInlines).length +
        ((l.flatMap fun b => Inline.preL b.directInlines).map (inlineCost B)).sum) := by
    intro l
    induction l with
    | nil => simp [blocksCost]
    | cons b l ih =>
      rw [blocksCost_cons, ih]
      simp only [List.map_cons, List.sum_cons, blockCost, List.length_cons, Nat.add_mul, List.flatMap_cons, List.length_append,
        List.map_append, List.sum_append, inlineCount, inlinesCost]
      omega
  have h3 := h2 d.allBlocks
  have h4 := h1 d.allInlines
  have e1 : d.allBlocks = Block.preL d.blocks := rfl
  have e2 : (d.allBlocks.flatMap fun b => Inline.preL b.directInlines) = d.allInlines := rfl
  rw [e2, h4] at h3
  rw [← e1, h3, Document.size, Document.letters, Document.labels, Document.frames, Nat.add_mul]
  omega

/-- **C98.** The HTML of a document has at most 1000 characters for each block, inline, list item, row and empty cell, 16 for
each character of its strings, and for each reference and footnote again 16 for each of these characters, 20 for each
reference and footnote, and 10 for each character of the prefix of anchors. -/
theorem C98_html (dw : Str → Nat) (d : Document) (cfg : Config) {out : Str} (h : renderHtml dw d cfg = some out) :
    out.length ≤ 1000 * (d.size + d.frames) + 16 * d.letters +
      d.labels * (16 * d.letters + 20 * d.labels + 10 * cfg.anchorPrefix.length) := by
  rw [renderHtml_eq] at h
  have e1 : (State.new cfg d).getFootnoteIndex = footnoteNumber d := funext (footnoteIndex_eq cfg d)
  have e2 : (State.new cfg d).getLinkDefinition = lastDefinition d := funext (linkDefinition_eq cfg d)
  have := (Exact.block_write (State.new cfg d) Exact.icon Exact.icon_write).2.2.1 d.blocks out h
  simp only [Exact.context, e1, e2] at this
  rw [this]
  refine Nat.le_trans ((blocks_length (D := d.letters) (N := d.labels) ⟨?_, ?_, ?_, rfl⟩).2.2.1 d.blocks) (cost_eq _ d)
  · exact fun l u t h => lastDefinition_length h
  · exact fun l n h => footnoteNumber_length h
  · intro t
    show (Exact.icon t).write.length ≤ 840
    rw [Exact.icon_write]
    exact svgIcon_length t

end Html

section
variable {x : PExt} {cfg : PConfig}

/-- **C98.** The HTML of a text of `n` characters without an escaped closing bracket has at most `7000 n²` characters, and
`30 n` for each character of the prefix of anchors. -/
theorem C98_text (hk : cfg.Keeps) (hm : Modest x cfg.entities) {s : Str} {d : Document} (h : parseMarkdown x cfg s = some d)
    (hs : ¬ HasEscapedBracket s) (dw : Str → Nat) (hc : Html.Config) {out : Str} (ho : Html.renderHtml dw d hc = some out) :
    out.length ≤ 8400 * (s.length * s.length) + 30 * (s.length * hc.anchorPrefix.length) := by
  have h1 := C98_linear hk hm h hs
  have h2 := C95_quadratic hk h hs
  have h3 := Html.C98_html dw d hc ho
  generalize d.letters = a at *
  generalize d.labels = b at *
  generalize hc.anchorPrefix.length = c at *
  generalize s.length = n at *
  have h4 : b * (16 * a + 20 * b + 10 * c) ≤ (3 * n) * (60 * n + 10 * c) := Nat.mul_le_mul (by omega) (by omega)
  have h5 : n ≤ n * n := Nat.le_mul_self n
  have h6 : (3 * n) * (60 * n + 10 * c) = 180 * (n * n) + 30 * (n * c) := by
    rw [Nat.mul_add]
    congr 1
    · rw [Nat.mul_assoc, Nat.mul_left_comm n 60 n, ← Nat.mul_assoc]
    · rw [Nat.mul_assoc, Nat.mul_left_comm n 10 c, ← Nat.mul_assoc]
  omega

/-- **C98.** The HTML of a text of `n` characters without an escaped closing bracket and a bar, if its document has no
references and footnotes, has at most `7000 n` characters. -/
theorem C98_plain (hk : cfg.Keeps) (hm : Modest x cfg.entities) {s : Str} {d : Document} (h : parseMarkdown x cfg s = some d)
    (hs : ¬ HasEscapedBracket s) (hb : '|' ∉ s) (hd : d.labels = 0) (dw : Str → Nat) (hc : Html.Config) {out : Str}
    (ho : Html.renderHtml dw d hc = some out) : out.length ≤ 7000 * s.length := by
  have h1 := C98_linear hk hm h hs
  have h2 := C95_linear hk h hs hb
  have h3 := Html.C98_html dw d hc ho
  rw [hd, Nat.zero_mul] at h3
  omega

end

/-! ## Lower bound -/

namespace Html

theorem cells_min (x : Context) (name : Str) (hn : name.length = 2) (al : List Alignment) (row : List (List Inline)) :
    ∀ k, 43 * row.length ≤ (writeNodes (row.mapIdx fun i cell =>
      .el name [(cs!"class", alignClass (al[k + i]?.getD .left))] (inlinesNodes x cell))).length := by
  induction row with
  | nil => intro k; simp
  | cons c row ih =>
    intro k
    have h2 := ih (k + 1)
    have h3 : ∀ a, 25 ≤ (encode (alignClass a)).length := by intro a; cases a <;> decide +kernel
    have h4 := h3 (al[k]?.getD .left)
    have h5 : (fun i (cell : List Inline) => Node.el name [(cs!"class", alignClass (al[k + (i + 1)]?.getD .left))] (inlinesNodes x cell)) =
        fun i cell => .el name [(cs!"class", alignClass (al[k + 1 + i]?.getD .left))] (inlinesNodes x cell) := by
      funext i cell
      rw [show k + (i + 1) = k + 1 + i by omega]
    rw [List.mapIdx_cons, cons_length, el_length, h5]
    simp only [attrsLength, List.map_cons, List.map_nil, List.sum_cons, List.sum_nil, List.length_cons, List.length_nil, hn, Nat.add_zero]
    omega

theorem rows_min (x : Context) (name : Str) (hn : name.length = 2) (al : List Alignment) (rows : List (List (List Inline))) :
    43 * rows.flatten.length ≤ (writeNodes (rows.map (rowNode x name al))).length := by
  induction rows with
  | nil => simp
  | cons r rows ih =>
    have := cells_min x name hn al r 0
    simp only [Nat.zero_add] at this
    rw [List.map_cons, cons_length, List.flatten_cons, List.length_append, rowNode, el_length]
    omega

theorem table_min (dw : Str → Nat) (r : List (List Inline)) (rs : List (List (List Inline))) (al : List Alignment) (cfg : Config) :
    ∃ out, renderHtml dw ⟨[.table (r :: rs) al]⟩ cfg = some out ∧ 43 * (r :: rs).flatten.length ≤ out.length := by
  obtain ⟨icon, _, h⟩ := C89_exact_html
  have h := h dw ⟨[.table (r :: rs) al]⟩ cfg
  rw [if_neg] at h
  · refine ⟨_, h, ?_⟩
    generalize (⟨footnoteNumber _, lastDefinition _, cfg.anchorPrefix, icon, titleRaw⟩ : Context) = x
    have h1 := rows_min x cs!"th" rfl al [r]
    have h2 := rows_min x cs!"td" rfl al rs
    simp only [blocksNodes, blockNodes, List.append_nil, one_length, cons_length, el_length, nil_length, attrsLength, List.map_nil,
      List.sum_nil, List.head?_cons, Option.toList_some, List.tail_cons, List.flatten_cons, List.length_append, List.flatten_nil,
      List.length_cons, List.length_nil] at h1 h2 ⊢
    omega
  · rintro ⟨a, b, hb, hr⟩
    simp only [List.mem_singleton] at hb
    subst hb
    cases hr with
    | child _ _ he => simp [Block.childBlocks] at he

end Html

/-- **C98**, lower bound: a text of `4 n + 3 m + 2` characters whose HTML has at least `43 n (m + 1)` characters. -/
theorem C98_quadratic (x : PExt) (ent : Str → Option Str) {n : Nat} (m : Nat) (hn : 1 ≤ n) (dw : Str → Nat) (hc : Html.Config) :
    (wideTable n m).length = 4 * n + 3 * m + 2 ∧
    ∃ d out, parseMarkdown x (PConfig.default ent) (wideTable n m) = some d ∧ Html.renderHtml dw d hc = some out ∧
      43 * (n * (m + 1)) ≤ out.length := by
  refine ⟨(C95_table x ent m hn).1, ?_⟩
  have h := C63_table (x := x) (cfg := PConfig.default ent) (allParse_default ent) rfl (k := 0) (k' := 0)
    (hs := List.replicate n ['a']) (ds := List.replicate n ['-']) (closed := false) (closed' := false)
    (header := List.replicate n [.text ['a']]) (aligns := List.replicate n .none) (nl := ['\n']) (e := ['\n'])
    (by omega) (by omega) (by cases n <;> simp_all [List.replicate_succ]) (cells_a x ent n) (.inl rfl) (aligns_dash n) (by simp)
    (.inl (.inl rfl)) (rows_a x ent m) (by intro k t _ he; cases k <;> simp [List.replicate_succ] at he)
  rw [rowText_replicate _ _ hn, rowText_replicate _ _ hn] at h
  have h0 : parseMarkdown x (PConfig.default ent) [] = some ⟨[]⟩ := C39_blank x _ .nil
  rw [h0] at h
  obtain ⟨out, h1, h2⟩ := Html.table_min dw (List.replicate n [.text ['a']])
    ((List.replicate m [[.text ['a']]]).map (fitted (List.replicate n [Inline.text ['a']]).length)) (List.replicate n .none) hc
  refine ⟨_, out, h, h1, Nat.le_trans ?_ h2⟩
  have h3 : (fitted n [[.text ['a']]]).length = n := by
    simp [fitted]
  have h4 : ∀ k, (List.replicate k (fitted n [[Inline.text ['a']]])).flatten.length = k * n := by
    intro k
    simp [List.length_flatten, h3]
  rw [List.flatten_cons, List.length_append, List.map_replicate, List.length_replicate, h4, Nat.mul_add, Nat.mul_comm m n]
  omega

/-- The entities and capital letters of an example are modest. -/
theorem modest_ascii : Modest PExt.ascii fun n => if n = cs!"&amp;" then some ['&'] else none := by
  refine ⟨fun name v h => ?_, fun c => by simp [PExt.ascii]⟩
  split at h
  · rename_i e
    subst e
    cases h
    decide
  · cases h

/-- A text to which all this applies: what is in its document, and how long its HTML is. -/
theorem C98_example :
    let s := cs!"- a &amp; [b]\n- \n\n[b]: c \"d\"\n\n|e| |\n|-|-|\n|f|\n"
    let cfg := PConfig.default fun n => if n = cs!"&amp;" then some ['&'] else none
    cfg.Keeps ∧ Modest PExt.ascii cfg.entities ∧ ¬ HasEscapedBracket s ∧ s.length = 46 ∧
    (parseMarkdown PExt.ascii cfg s).map (fun d => (d.size, d.letters, d.labels, d.frames)) = some (12, 11, 1, 5) ∧
    ((parseMarkdown PExt.ascii cfg s).bind fun d => Html.renderHtml List.length d Html.Config.default).map List.length = some 338 := by
  refine ⟨keeps_default _, modest_ascii, ?_, ?_, ?_, ?_⟩
  · show ¬ ['\\', ']'] <:+: _
    decide +kernel
  all_goals decide +kernel

end Verif
