import Verif.HtmlTree
/-!
# C99: the elements of the HTML are nested as HTML demands

The content models of the elements that `render_html` uses, and the proof that every document is
rendered so that each element contains only what it may.  The one place where HTML demands
something else is named: a footnote's content is a `span` with blocks in it.

(The tree is that of `HtmlTreeSpec`; that the output is this tree is C58/C89.)
-/
set_option autoImplicit false
namespace Verif
namespace Html

/-! ## Specification -/

/-- The node `n` is among `l` or inside one of them. -/
inductive Inside (n : Node) : List Node → Prop
  | here {l : List Node} : n ∈ l → Inside n l
  | deeper {name : Str} {attrs : List (Str × Str)} {children l : List Node} :
      Node.el name attrs children ∈ l → Inside n children → Inside n l

/-- The elements that may be in a line of text. -/
def phrasingNames : List Str := [cs!"a", cs!"code", cs!"em", cs!"b", cs!"s", cs!"br", cs!"img"]

/-- The elements that stand on their own. -/
def flowNames : List Str :=
  [cs!"p", cs!"h1", cs!"h2", cs!"h3", cs!"h4", cs!"h5", cs!"h6", cs!"hr", cs!"blockquote", cs!"ul",
   cs!"ol", cs!"pre", cs!"table", cs!"div"]

/-- An element with one of these names. -/
def Node.Named (names : List Str) : Node → Prop
  | .el name _ _ => name ∈ names
  | _ => False

/-- Characters only. -/
def TextOnly (l : List Node) : Prop := ∀ n ∈ l, ∃ c, n = .char c

/-- A line of text: characters, raw HTML and phrasing elements. -/
def Phrasing (l : List Node) : Prop :=
  ∀ n ∈ l, (∃ c, n = .char c) ∨ (∃ h, n = .raw h) ∨ n.Named phrasingNames

/-- Blocks: raw HTML and flow elements, no text on its own. -/
def Flow (l : List Node) : Prop := ∀ n ∈ l, (∃ h, n = .raw h) ∨ n.Named flowNames

/-- Rows whose cells have this element. -/
def RowsOf (cell : Str) (l : List Node) : Prop :=
  ∀ n ∈ l, ∃ cells, n = .el cs!"tr" [] cells ∧ ∀ m ∈ cells, m.Named [cell]

/-- What the element `name` may contain. -/
def MayContain (name : Str) (l : List Node) : Prop :=
  -- text
  (name = cs!"p" → Phrasing l ∨ ∃ icon text, l = icon :: text ∧ icon.Named [cs!"svg"] ∧ Phrasing text) ∧
  (name ∈ [cs!"h1", cs!"h2", cs!"h3", cs!"h4", cs!"h5", cs!"h6", cs!"a", cs!"em", cs!"b", cs!"s", cs!"th", cs!"td"] →
    Phrasing l) ∧
  (name = cs!"code" → TextOnly l) ∧
  -- nothing
  (name ∈ [cs!"br", cs!"hr", cs!"img", cs!"path"] → l = []) ∧
  -- blocks
  (name = cs!"blockquote" → Flow l) ∧
  (name = cs!"li" → Flow l ∨ ∃ marker blocks, l = marker :: blocks ∧ marker.Named [cs!"span"] ∧ Flow blocks) ∧
  (name = cs!"div" → Flow l ∨ ∃ n m, l = [n, m] ∧ n.Named [cs!"span"] ∧ m.Named [cs!"span"]) ∧
  -- the exception: HTML wants no blocks in a `span`
  (name = cs!"span" → TextOnly l ∨ Flow l) ∧
  -- fixed contents
  (name ∈ [cs!"ul", cs!"ol"] → ∀ n ∈ l, n.Named [cs!"li"]) ∧
  (name = cs!"pre" → ∃ n, l = [n] ∧ n.Named [cs!"code"]) ∧
  (name = cs!"svg" → ∃ n, l = [n] ∧ n.Named [cs!"path"]) ∧
  (name = cs!"table" → ∃ h b, l = [.el cs!"thead" [] h, .el cs!"tbody" [] b] ∧ RowsOf cs!"th" h ∧ RowsOf cs!"td" b) ∧
  -- these elements are where they belong: in the elements above
  (name ∉ [cs!"ul", cs!"ol"] → ∀ n ∈ l, ¬ n.Named [cs!"li"]) ∧
  (name ≠ cs!"table" → ∀ n ∈ l, ¬ n.Named [cs!"thead", cs!"tbody"]) ∧
  (name ∉ [cs!"thead", cs!"tbody"] → ∀ n ∈ l, ¬ n.Named [cs!"tr"]) ∧
  (name ≠ cs!"tr" → ∀ n ∈ l, ¬ n.Named [cs!"th", cs!"td"])

/-- A page: blocks, and every element in it contains what it may. -/
def NestsWell (l : List Node) : Prop :=
  Flow l ∧ ∀ name attrs children, Inside (.el name attrs children) l → MayContain name children

/-! ## Proof -/

/-- All elements contain what they may. -/
def Neat (l : List Node) : Prop :=
  ∀ name attrs children, Inside (.el name attrs children) l → MayContain name children

theorem Neat.nil : Neat [] := by
  intro n a c h
  cases h with
  | here h => cases h
  | deeper h _ => cases h

theorem Neat.append {l r : List Node} (hl : Neat l) (hr : Neat r) : Neat (l ++ r) := by
  intro n a c h
  cases h with
  | here h =>
    rcases List.mem_append.1 h with h | h
    · exact hl n a c (.here h)
    · exact hr n a c (.here h)
  | deeper h h' =>
    rcases List.mem_append.1 h with h | h
    · exact hl n a c (.deeper h h')
    · exact hr n a c (.deeper h h')

theorem Neat.el {name : Str} {attrs : List (Str × Str)} {l : List Node} (h : MayContain name l) (hl : Neat l) :
    Neat [.el name attrs l] := by
  intro n a c hi
  cases hi with
  | here hi =>
    simp only [List.mem_singleton, Node.el.injEq] at hi
    obtain ⟨rfl, rfl, rfl⟩ := hi
    exact h
  | deeper hi h' =>
    simp only [List.mem_singleton, Node.el.injEq] at hi
    obtain ⟨rfl, rfl, rfl⟩ := hi
    exact hl n a c h'

theorem Neat.cons {n : Node} {l : List Node} (h : Neat [n]) (hl : Neat l) : Neat (n :: l) := Neat.append h hl

theorem Neat.of_all {l : List Node} (h : ∀ n ∈ l, Neat [n]) : Neat l := by
  induction l with
  | nil => exact .nil
  | cons n l ih => exact .cons (h n (by simp)) (ih fun m hm => h m (by simp [hm]))

theorem Neat.char (c : Char) : Neat [.char c] := by
  intro n a ch h
  cases h with
  | here h => simp at h
  | deeper h _ => simp at h

theorem Neat.raw (s : Str) : Neat [.raw s] := by
  intro n a ch h
  cases h with
  | here h => simp at h
  | deeper h _ => simp at h

theorem Neat.chars (s : Str) : Neat (chars s) := by
  apply Neat.of_all
  intro n hn
  simp only [Html.chars, List.mem_map] at hn
  obtain ⟨c, _, rfl⟩ := hn
  exact .char c

theorem TextOnly.chars (s : Str) : TextOnly (chars s) := by
  intro n hn
  simp only [Html.chars, List.mem_map] at hn
  obtain ⟨c, _, rfl⟩ := hn
  exact ⟨c, rfl⟩

theorem TextOnly.phrasing {l : List Node} (h : TextOnly l) : Phrasing l := fun n hn => .inl (h n hn)

theorem Phrasing.append {l r : List Node} (hl : Phrasing l) (hr : Phrasing r) : Phrasing (l ++ r) := by
  intro n hn
  rcases List.mem_append.1 hn with h | h
  · exact hl n h
  · exact hr n h

theorem Flow.append {l r : List Node} (hl : Flow l) (hr : Flow r) : Flow (l ++ r) := by
  intro n hn
  rcases List.mem_append.1 hn with h | h
  · exact hl n h
  · exact hr n h

theorem Phrasing.one {name : Str} {a : List (Str × Str)} {l : List Node} (h : name ∈ phrasingNames) :
    Phrasing [.el name a l] := by
  intro n hn
  rw [List.mem_singleton.1 hn]
  exact .inr (.inr h)

theorem Flow.one {name : Str} {a : List (Str × Str)} {l : List Node} (h : name ∈ flowNames) :
    Flow [.el name a l] := by
  intro n hn
  rw [List.mem_singleton.1 hn]
  exact .inr h

/-- The names are apart. -/
theorem names_apart {names others : List Str} (h : (names.all fun n => !others.contains n) = true) {n : Node}
    (hn : n.Named names) : ¬ n.Named others := by
  cases n with
  | el name a l =>
    intro ho
    have := List.all_eq_true.1 h name hn
    rw [List.contains_iff_mem.2 ho] at this
    exact absurd this (by decide)
  | char c => exact hn.elim
  | raw s => exact hn.elim

theorem Phrasing.noneOf {l : List Node} (h : Phrasing l) {others : List Str}
    (ho : (phrasingNames.all fun n => !others.contains n) = true) : ∀ n ∈ l, ¬ n.Named others := by
  intro n hn
  rcases h n hn with ⟨c, rfl⟩ | ⟨c, rfl⟩ | h
  · exact fun h => h
  · exact fun h => h
  · exact names_apart ho h

theorem Flow.noneOf {l : List Node} (h : Flow l) {others : List Str}
    (ho : (flowNames.all fun n => !others.contains n) = true) : ∀ n ∈ l, ¬ n.Named others := by
  intro n hn
  rcases h n hn with ⟨c, rfl⟩ | h
  · exact fun h => h
  · exact names_apart ho h

theorem may_phrasing {name : Str} {l : List Node} (hn : name ∈ [cs!"p", cs!"h1", cs!"h2", cs!"h3", cs!"h4", cs!"h5",
    cs!"h6", cs!"a", cs!"em", cs!"b", cs!"s", cs!"th", cs!"td"]) (h : Phrasing l) : MayContain name l := by
  have h1 : ∀ n ∈ l, ¬ n.Named [cs!"li"] := h.noneOf (by decide)
  have h2 : ∀ n ∈ l, ¬ n.Named [cs!"thead", cs!"tbody"] := h.noneOf (by decide)
  have h3 : ∀ n ∈ l, ¬ n.Named [cs!"tr"] := h.noneOf (by decide)
  have h4 : ∀ n ∈ l, ¬ n.Named [cs!"th", cs!"td"] := h.noneOf (by decide)
  simp only [List.mem_cons, List.not_mem_nil, or_false] at hn
  rcases hn with rfl | rfl | rfl | rfl | rfl | rfl | rfl | rfl | rfl | rfl | rfl | rfl | rfl <;>
    refine ⟨fun _ => .inl h, fun _ => h, ?_, ?_, ?_, ?_, ?_, ?_, ?_, ?_, ?_, ?_, fun _ => h1, fun _ => h2, fun _ => h3,
      fun _ => h4⟩ <;> exact fun e => absurd e (by decide)

theorem may_text {name : Str} {l : List Node} (hn : name ∈ [cs!"code", cs!"span"]) (h : TextOnly l) :
    MayContain name l := by
  have h' := h.phrasing
  have h1 : ∀ n ∈ l, ¬ n.Named [cs!"li"] := h'.noneOf (by decide)
  have h2 : ∀ n ∈ l, ¬ n.Named [cs!"thead", cs!"tbody"] := h'.noneOf (by decide)
  have h3 : ∀ n ∈ l, ¬ n.Named [cs!"tr"] := h'.noneOf (by decide)
  have h4 : ∀ n ∈ l, ¬ n.Named [cs!"th", cs!"td"] := h'.noneOf (by decide)
  simp only [List.mem_cons, List.not_mem_nil, or_false] at hn
  rcases hn with rfl | rfl <;>
    refine ⟨?_, ?_, fun _ => h, ?_, ?_, ?_, ?_, fun _ => .inl h, ?_, ?_, ?_, ?_, fun _ => h1, fun _ => h2, fun _ => h3,
      fun _ => h4⟩ <;> exact fun e => absurd e (by decide)

theorem may_nothing {name : Str} (hn : name ∈ [cs!"br", cs!"hr", cs!"img", cs!"path"]) : MayContain name [] := by
  have h1 : ∀ names, ∀ n ∈ ([] : List Node), ¬ n.Named names := by simp
  simp only [List.mem_cons, List.not_mem_nil, or_false] at hn
  rcases hn with rfl | rfl | rfl | rfl <;>
    refine ⟨?_, ?_, ?_, fun _ => rfl, ?_, ?_, ?_, ?_, ?_, ?_, ?_, ?_, fun _ => h1 _, fun _ => h1 _, fun _ => h1 _,
      fun _ => h1 _⟩ <;> exact fun e => absurd e (by decide)

theorem may_flow {name : Str} {l : List Node} (hn : name ∈ [cs!"blockquote", cs!"div", cs!"span", cs!"li"])
    (h : Flow l) : MayContain name l := by
  have h1 : ∀ n ∈ l, ¬ n.Named [cs!"li"] := h.noneOf (by decide)
  have h2 : ∀ n ∈ l, ¬ n.Named [cs!"thead", cs!"tbody"] := h.noneOf (by decide)
  have h3 : ∀ n ∈ l, ¬ n.Named [cs!"tr"] := h.noneOf (by decide)
  have h4 : ∀ n ∈ l, ¬ n.Named [cs!"th", cs!"td"] := h.noneOf (by decide)
  simp only [List.mem_cons, List.not_mem_nil, or_false] at hn
  rcases hn with rfl | rfl | rfl | rfl <;>
    refine ⟨?_, ?_, ?_, ?_, fun _ => h, fun _ => .inl h, fun _ => .inl h, fun _ => .inr h, ?_, ?_, ?_, ?_, fun _ => h1,
      fun _ => h2, fun _ => h3, fun _ => h4⟩ <;> exact fun e => absurd e (by decide)

theorem may_marked {m : Node} {l : List Node} (hm : m.Named [cs!"span"]) (h : Flow l) : MayContain cs!"li" (m :: l) := by
  have k : ∀ others, (flowNames.all fun n => !others.contains n) = true →
      (([cs!"span"] : List Str).all fun n => !others.contains n) = true → ∀ n ∈ m :: l, ¬ n.Named others := by
    intro others h1 h2 n hn
    rcases List.mem_cons.1 hn with rfl | hn
    · exact names_apart h2 hm
    · exact h.noneOf h1 n hn
  refine ⟨?_, ?_, ?_, ?_, ?_, fun _ => .inr ⟨m, l, rfl, hm, h⟩, ?_, ?_, ?_, ?_, ?_, ?_, fun _ => k _ (by decide) (by decide),
    fun _ => k _ (by decide) (by decide), fun _ => k _ (by decide) (by decide), fun _ => k _ (by decide) (by decide)⟩ <;>
  exact fun e => absurd e (by decide)

theorem may_alertTitle {m : Node} {l : List Node} (hm : m.Named [cs!"svg"]) (h : Phrasing l) :
    MayContain cs!"p" (m :: l) := by
  have k : ∀ others, (phrasingNames.all fun n => !others.contains n) = true →
      (([cs!"svg"] : List Str).all fun n => !others.contains n) = true → ∀ n ∈ m :: l, ¬ n.Named others := by
    intro others h1 h2 n hn
    rcases List.mem_cons.1 hn with rfl | hn
    · exact names_apart h2 hm
    · exact h.noneOf h1 n hn
  refine ⟨fun _ => .inr ⟨m, l, rfl, hm, h⟩, ?_, ?_, ?_, ?_, ?_, ?_, ?_, ?_, ?_, ?_, ?_, fun _ => k _ (by decide) (by decide),
    fun _ => k _ (by decide) (by decide), fun _ => k _ (by decide) (by decide), fun _ => k _ (by decide) (by decide)⟩ <;>
  exact fun e => absurd e (by decide)

theorem may_footnote {m n : Node} (hm : m.Named [cs!"span"]) (hn : n.Named [cs!"span"]) :
    MayContain cs!"div" [m, n] := by
  have k : ∀ others, (([cs!"span"] : List Str).all fun n => !others.contains n) = true →
      ∀ x ∈ [m, n], ¬ x.Named others := by
    intro others h2 x hx
    simp only [List.mem_cons, List.not_mem_nil, or_false] at hx
    rcases hx with rfl | rfl
    · exact names_apart h2 hm
    · exact names_apart h2 hn
  refine ⟨?_, ?_, ?_, ?_, ?_, ?_, fun _ => .inr ⟨m, n, rfl, hm, hn⟩, ?_, ?_, ?_, ?_, ?_, fun _ => k _ (by decide),
    fun _ => k _ (by decide), fun _ => k _ (by decide), fun _ => k _ (by decide)⟩ <;>
  exact fun e => absurd e (by decide)

theorem may_only {name : Str} {names : List Str} {l : List Node} (hl : ∀ n ∈ l, n.Named names)
    (h : (name, names) ∈ [(cs!"ul", [cs!"li"]), (cs!"ol", [cs!"li"]), (cs!"thead", [cs!"tr"]), (cs!"tbody", [cs!"tr"]),
      (cs!"tr", [cs!"th"]), (cs!"tr", [cs!"td"])]) : MayContain name l := by
  simp only [List.mem_cons, List.not_mem_nil, or_false, Prod.mk.injEq] at h
  rcases h with ⟨rfl, rfl⟩ | ⟨rfl, rfl⟩ | ⟨rfl, rfl⟩ | ⟨rfl, rfl⟩ | ⟨rfl, rfl⟩ | ⟨rfl, rfl⟩ <;>
    refine ⟨?_, ?_, ?_, ?_, ?_, ?_, ?_, ?_, ?_, ?_, ?_, ?_, ?_, ?_, ?_, ?_⟩ <;>
    first
    | exact fun e => absurd e (by decide)
    | exact fun _ => hl
    | exact fun _ n hn => names_apart (by decide) (hl n hn)

theorem may_pre {n : Node} (h : n.Named [cs!"code"]) : MayContain cs!"pre" [n] := by
  have k : ∀ others, (([cs!"code"] : List Str).all fun n => !others.contains n) = true →
      ∀ x ∈ [n], ¬ x.Named others := by
    intro others h2 x hx
    rw [List.mem_singleton.1 hx]
    exact names_apart h2 h
  refine ⟨?_, ?_, ?_, ?_, ?_, ?_, ?_, ?_, ?_, fun _ => ⟨n, rfl, h⟩, ?_, ?_, fun _ => k _ (by decide),
    fun _ => k _ (by decide), fun _ => k _ (by decide), fun _ => k _ (by decide)⟩ <;>
  exact fun e => absurd e (by decide)

theorem may_svg {n : Node} (h : n.Named [cs!"path"]) : MayContain cs!"svg" [n] := by
  have k : ∀ others, (([cs!"path"] : List Str).all fun n => !others.contains n) = true →
      ∀ x ∈ [n], ¬ x.Named others := by
    intro others h2 x hx
    rw [List.mem_singleton.1 hx]
    exact names_apart h2 h
  refine ⟨?_, ?_, ?_, ?_, ?_, ?_, ?_, ?_, ?_, ?_, fun _ => ⟨n, rfl, h⟩, ?_, fun _ => k _ (by decide),
    fun _ => k _ (by decide), fun _ => k _ (by decide), fun _ => k _ (by decide)⟩ <;>
  exact fun e => absurd e (by decide)

theorem may_table {h b : List Node} (hh : RowsOf cs!"th" h) (hb : RowsOf cs!"td" b) :
    MayContain cs!"table" [.el cs!"thead" [] h, .el cs!"tbody" [] b] := by
  have k : ∀ others, (([cs!"thead", cs!"tbody"] : List Str).all fun n => !others.contains n) = true →
      ∀ x ∈ [Node.el cs!"thead" [] h, .el cs!"tbody" [] b], ¬ x.Named others := by
    intro others h2 x hx
    simp only [List.mem_cons, List.not_mem_nil, or_false] at hx
    rcases hx with rfl | rfl
    · exact names_apart h2 (by show _ ∈ _; decide)
    · exact names_apart h2 (by show _ ∈ _; decide)
  refine ⟨?_, ?_, ?_, ?_, ?_, ?_, ?_, ?_, ?_, ?_, ?_, fun _ => ⟨h, b, rfl, hh, hb⟩, fun _ => k _ (by decide), ?_,
    fun _ => k _ (by decide), fun _ => k _ (by decide)⟩ <;>
  exact fun e => absurd e (by decide)

theorem inline_neat (x : Context) : (∀ i, Phrasing (inlineNodes x i) ∧ Neat (inlineNodes x i)) ∧
    ∀ l, Phrasing (inlinesNodes x l) ∧ Neat (inlinesNodes x l) := by
  have w : ∀ name a l, name ∈ [cs!"a", cs!"em", cs!"b", cs!"s"] → Phrasing l → Neat l →
      Phrasing [.el name a l] ∧ Neat [.el name a l] := by
    intro name a l hn h1 h2
    refine ⟨.one ?_, .el (may_phrasing ?_ h1) h2⟩ <;>
      simp only [List.mem_cons, List.not_mem_nil, or_false] at hn <;>
      rcases hn with rfl | rfl | rfl | rfl <;> decide
  have none' : Phrasing [] ∧ Neat [] := ⟨by simp [Phrasing], .nil⟩
  apply Inline.ind
  case text => intro s; exact ⟨(TextOnly.chars s).phrasing, .chars s⟩
  case lineBreak => exact ⟨.one (by decide), .el (may_nothing (by decide)) .nil⟩
  case code => intro s; exact ⟨.one (by decide), .el (may_text (by decide) (.chars s)) (.chars s)⟩
  case html =>
    intro s
    refine ⟨?_, .raw s⟩
    intro n hn
    simp only [inlineNodes, List.mem_singleton] at hn
    exact .inr (.inl ⟨s, hn⟩)
  case emphasis => intro c h; exact w _ _ _ (by decide) h.1 h.2
  case strong => intro c h; exact w _ _ _ (by decide) h.1 h.2
  case strikethrough => intro c h; exact w _ _ _ (by decide) h.1 h.2
  case link => intro d t c h; exact w _ _ _ (by decide) h.1 h.2
  case image => intro d t a; exact ⟨.one (by decide), .el (may_nothing (by decide)) .nil⟩
  case autolink => intro l; exact w _ _ _ (by decide) (TextOnly.chars l).phrasing (.chars l)
  case footnoteReference =>
    intro l
    simp only [inlineNodes]
    split
    · exact w _ _ _ (by decide) (TextOnly.chars _).phrasing (.chars _)
    · exact none'
  case linkReference =>
    intro l t _ h
    simp only [inlineNodes]
    split
    · exact w _ _ _ (by decide) h.1 h.2
    · exact none'
  case empty => exact none'
  case nil => exact none'
  case cons =>
    intro i l hi hl
    exact ⟨hi.1.append hl.1, hi.2.append hl.2⟩

theorem row_neat (x : Context) (cell : Str) (hc : cell ∈ [cs!"th", cs!"td"]) (al : List Alignment)
    (row : List (List Inline)) : (∃ cells, rowNode x cell al row = .el cs!"tr" [] cells ∧ ∀ m ∈ cells, m.Named [cell]) ∧
      Neat [rowNode x cell al row] := by
  have hcells : ∀ m ∈ row.mapIdx fun i c =>
      Node.el cell [(cs!"class", alignClass (al[i]?.getD .left))] (inlinesNodes x c), m.Named [cell] := by
    intro m hm
    obtain ⟨i, hi, rfl⟩ := List.mem_mapIdx.1 hm
    exact List.mem_singleton.2 rfl
  refine ⟨⟨_, rfl, hcells⟩, .el (may_only hcells ?_) (.of_all fun m hm => ?_)⟩
  · simp only [List.mem_cons, List.not_mem_nil, or_false] at hc
    rcases hc with rfl | rfl <;> decide
  · obtain ⟨i, hi, rfl⟩ := List.mem_mapIdx.1 hm
    have := (inline_neat x).2 row[i]
    refine .el (may_phrasing ?_ this.1) this.2
    simp only [List.mem_cons, List.not_mem_nil, or_false] at hc
    rcases hc with rfl | rfl <;> decide

theorem heading_name (k : HeadingKind) :
    headingName k ∈ [cs!"h1", cs!"h2", cs!"h3", cs!"h4", cs!"h5", cs!"h6"] := by
  cases k with
  | setext k => cases k <;> decide
  | atx n =>
    simp only [headingName]
    split
    · rename_i h
      have : n = 1 ∨ n = 2 ∨ n = 3 ∨ n = 4 ∨ n = 5 ∨ n = 6 := by omega
      rcases this with rfl | rfl | rfl | rfl | rfl | rfl <;> decide
    · decide

theorem block_neat (x : Context) (hi : ∀ t, IsIcon t (x.icon t)) (ht : ∀ t, Phrasing (x.title t) ∧ Neat (x.title t)) :
    (∀ b, Flow (blockNodes x b) ∧ Neat (blockNodes x b)) ∧
    (∀ i, (itemNode x i).Named [cs!"li"] ∧ Neat [itemNode x i]) ∧
    (∀ l, Flow (blocksNodes x l) ∧ Neat (blocksNodes x l)) ∧
    ∀ l, (∀ n ∈ itemsNodes x l, n.Named [cs!"li"]) ∧ Neat (itemsNodes x l) := by
  have none' : Flow [] ∧ Neat [] := ⟨by simp [Flow], .nil⟩
  have inl := (inline_neat x).2
  apply Block.ind
  case paragraph => intro c; exact ⟨.one (by decide), .el (may_phrasing (by decide) (inl c).1) (inl c).2⟩
  case heading =>
    intro k c
    have hk := heading_name k
    refine ⟨.one ?_, .el (may_phrasing ?_ (inl c).1) (inl c).2⟩ <;>
      simp only [List.mem_cons, List.not_mem_nil, or_false] at hk <;>
      rcases hk with h | h | h | h | h | h <;> rw [h] <;> decide
  case thematicBreak => exact ⟨.one (by decide), .el (may_nothing (by decide)) .nil⟩
  case blockQuote => intro b h; exact ⟨.one (by decide), .el (may_flow (by decide) h.1) h.2⟩
  case list =>
    intro k i h
    cases k with
    | ordered n => exact ⟨.one (by decide), .el (may_only h.1 (by decide)) h.2⟩
    | bullet k => cases k <;> exact ⟨.one (by decide), .el (may_only h.1 (by decide)) h.2⟩
  case codeBlock =>
    intro k s
    exact ⟨.one (by decide), .el (may_pre (by show _ ∈ _; decide)) (.el (may_text (by decide) (.chars s)) (.chars s))⟩
  case htmlBlock =>
    intro s
    refine ⟨?_, .raw s⟩
    intro n hn
    simp only [blockNodes, List.mem_singleton] at hn
    exact .inl ⟨s, hn⟩
  case definition => intro l d t; exact none'
  case table =>
    intro rows al
    have hr : ∀ cell, cell ∈ [cs!"th", cs!"td"] → ∀ rows : List (List (List Inline)),
        RowsOf cell (rows.map (rowNode x cell al)) ∧ (∀ n ∈ rows.map (rowNode x cell al), n.Named [cs!"tr"]) ∧
          Neat (rows.map (rowNode x cell al)) := by
      intro cell hc rows
      refine ⟨?_, ?_, .of_all ?_⟩ <;> intro n hn <;> obtain ⟨r, _, rfl⟩ := List.mem_map.1 hn
      · exact (row_neat x cell hc al r).1
      · exact List.mem_singleton.2 rfl
      · exact (row_neat x cell hc al r).2
    have h1 := hr cs!"th" (by decide) rows.head?.toList
    have h2 := hr cs!"td" (by decide) rows.tail
    refine ⟨.one (by decide), .el (may_table h1.1 h2.1) (.cons ?_ ?_)⟩
    · exact .el (may_only h1.2.1 (by decide)) h1.2.2
    · exact .el (may_only h2.2.1 (by decide)) h2.2.2
  case footnoteDefinition =>
    intro l b h
    simp only [blockNodes]
    split
    · refine ⟨.one (by decide), .el (may_footnote (by show _ ∈ _; decide) (by show _ ∈ _; decide)) (.cons ?_ ?_)⟩
      · exact .el (may_text (by decide) (.chars _)) (.chars _)
      · exact .el (may_flow (by decide) h.1) h.2
    · exact none'
  case githubAlert =>
    intro t b h
    obtain ⟨path, hp⟩ := hi t
    have hn : (x.icon t).Named [cs!"svg"] := by rw [hp]; exact List.mem_singleton.2 rfl
    have hk : Neat [x.icon t] := by
      rw [hp]
      exact .el (may_svg (by show _ ∈ _; decide)) (.el (may_nothing (by decide)) .nil)
    refine ⟨.one (by decide), .el (may_flow (by decide) ?_) (.cons ?_ h.2)⟩
    · exact Flow.append (l := [_]) (.one (by decide)) h.1
    · exact .el (may_alertTitle hn (ht t).1) (.cons hk (ht t).2)
  case empty => exact none'
  case item =>
    intro t b h
    refine ⟨List.mem_singleton.2 rfl, ?_⟩
    cases t with
    | none => exact .el (may_flow (by decide) h.1) h.2
    | some t =>
      cases t
      · exact .el (may_marked (by show _ ∈ _; decide) h.1) (.cons (.el (may_text (by decide) (.chars _)) (.chars _)) h.2)
      · exact .el (may_marked (by show _ ∈ _; decide) h.1) (.cons (.el (may_text (by decide) (.chars _)) (.chars _)) h.2)
  case nilB => exact none'
  case consB => intro b l hb hl; exact ⟨hb.1.append hl.1, hb.2.append hl.2⟩
  case nilI => exact ⟨by simp [itemsNodes], .nil⟩
  case consI =>
    intro i l hi hl
    refine ⟨?_, .cons hi.2 hl.2⟩
    intro n hn
    rcases List.mem_cons.1 hn with rfl | hn
    · exact hi.1
    · exact hl.1 n hn

theorem title_neat (t : AlertType) : Phrasing (titleNodes t) ∧ Neat (titleNodes t) := by
  cases t with
  | custom s =>
    simp only [titleNodes]
    split
    · refine ⟨?_, .raw s⟩
      intro n hn
      exact .inr (.inl ⟨s, List.mem_singleton.1 hn⟩)
    · exact ⟨(TextOnly.chars _).phrasing, .chars _⟩
  | _ => exact ⟨(TextOnly.chars _).phrasing, .chars _⟩

/-- **C99.** The output of `render_html` is a page in which every element contains what it may: paragraphs, headings,
links, emphasis and cells contain text, lists contain items, tables a head and a body with rows of cells, and so on;
nothing is where it does not belong.  (What raw HTML adds is not looked into.) -/
theorem C99_nested (dw : Str → Nat) (d : Document) (cfg : Config) (out : Str) (ho : renderHtml dw d cfg = some out) :
    ∃ l, Reads (¬ Clean d) out l ∧ NestsWell l := by
  obtain ⟨icon, hi, h⟩ := C58_tree dw d cfg out ho
  exact ⟨_, h, (block_neat ⟨footnoteNumber d, lastDefinition d, cfg.anchorPrefix, icon, titleNodes⟩ hi title_neat).2.2.1
    d.blocks⟩

/-- **C99.** If the document brings no raw HTML along, this is so however the output is read. -/
theorem C99_clean (dw : Str → Nat) (d : Document) (cfg : Config) (out : Str) (hc : Clean d)
    (ho : renderHtml dw d cfg = some out) : (∃ l, Reads False out l) ∧ ∀ l, Reads False out l → NestsWell l := by
  obtain ⟨icon, hi, h⟩ := C58_unique dw d cfg out hc ho
  refine ⟨⟨_, (h _).2 rfl⟩, fun l hl => ?_⟩
  rw [(h l).1 hl]
  exact (block_neat ⟨footnoteNumber d, lastDefinition d, cfg.anchorPrefix, icon, titleNodes⟩ hi title_neat).2.2.1 d.blocks

/-- **C99**, a case: an alert with a task list that has a table in it. -/
theorem C99_example : Clean ⟨[.githubAlert .tip [.list (.bullet .dash) [.mk (some .complete) [.table [[[.text cs!"h"]]]
      [.left]]]]]⟩ ∧
    (renderHtml List.length ⟨[.githubAlert .tip [.list (.bullet .dash) [.mk (some .complete) [.table [[[.text cs!"h"]]]
      [.left]]]]]⟩ Config.default).isSome = true := by
  refine ⟨⟨?_, ?_, ?_⟩, by decide +kernel⟩
  · intro s h
    rw [← Document.mem_allBlocks] at h
    simp [Document.allBlocks, Block.preL, Block.pre, ListItem.pre, ListItem.preL] at h
  · intro s h
    rw [← Document.mem_allInlines] at h
    simp [Document.allInlines, Document.allBlocks, Block.preL, Block.pre, ListItem.pre, ListItem.preL, Block.directInlines,
      Inline.preL, Inline.pre] at h
  · intro n b h
    rw [← Document.mem_allBlocks] at h
    simp [Document.allBlocks, Block.preL, Block.pre, ListItem.pre, ListItem.preL] at h

/-- **C99**, two cases where HTML demands something else.  The content of a footnote is in a `span`, which may not contain
paragraphs; and the elements without content are closed, though HTML has no end tags for them: browsers read `</br>` as one
more line break. -/
theorem C99_footnote :
    renderHtml List.length ⟨[.paragraph [.footnoteReference cs!"a", .lineBreak],
      .footnoteDefinition cs!"a" [.paragraph [.text cs!"b"]]]⟩ Config.default =
    some cs!"<p><a class=\"markdown-footnote-reference\" href=\"#1\">[1]</a><br></br></p><div class=\"markdown-footnote-definition\"><span class=\"markdown-footnote-definition-index\">1. </span><span class=\"markdown-footnote-definition-content\"><p>b</p></span></div>" := by
  decide +kernel

end Html
end Verif
