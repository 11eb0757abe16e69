import Verif.HtmlLemmas
/-! # Properties C20–C27 and C52: HTML rendering. -/
namespace Verif
namespace Html

/-! ## C20: escaping -/

theorem decode_cons {c : Char} (h : c ≠ '&') (s : Str) : decode (c :: s) = c :: decode s := by
  rw [decode] <;> intros <;> simp_all

theorem decode_escapeChar (c : Char) (s : Str) : decode (escapeChar c ++ s) = c :: decode s := by
  unfold escapeChar
  split
  · rfl
  · rfl
  · rfl
  · rfl
  · rfl
  · exact decode_cons (by assumption) s

theorem decode_escape_append (s t : Str) : decode (escape s ++ t) = s ++ decode t := by
  induction s with
  | nil => rfl
  | cons c s ih =>
    have : escape (c :: s) ++ t = escapeChar c ++ (escape s ++ t) := by simp [escape]
    rw [this, decode_escapeChar, ih]; rfl

/-- **C20.** Decoding the escaped text gives the text back. -/
theorem C20_decode_escape (s : Str) : decode (escape s) = s := by
  have := decode_escape_append s []
  simpa [decode] using this

/-- **C20.** Escaping loses nothing. -/
theorem C20_injective (s t : Str) (h : escape s = escape t) : s = t := by
  rw [← C20_decode_escape s, h, C20_decode_escape]

theorem mem_escapeChar {x c : Char} (h : x ∈ escapeChar c) :
    x ≠ '<' ∧ x ≠ '>' ∧ x ≠ '"' ∧ x ≠ '\'' := by
  unfold escapeChar at h
  split at h
  all_goals try
    (simp only [List.mem_cons, List.not_mem_nil, or_false] at h
     rcases h with h | h | h | h | h | h <;> subst h <;> decide)
  all_goals try
    (simp only [List.mem_cons, List.not_mem_nil, or_false] at h
     rcases h with h | h | h | h | h <;> subst h <;> decide)
  all_goals try
    (simp only [List.mem_cons, List.not_mem_nil, or_false] at h
     rcases h with h | h | h | h <;> subst h <;> decide)
  simp only [List.mem_singleton] at h
  subst h
  refine ⟨?_, ?_, ?_, ?_⟩ <;> assumption

/-- **C20.** Escaped text contains no `<`, `>`, `"` or `'`. -/
theorem C20_no_special (s : Str) :
    '<' ∉ escape s ∧ '>' ∉ escape s ∧ '"' ∉ escape s ∧ '\'' ∉ escape s := by
  have key : ∀ x ∈ escape s, x ≠ '<' ∧ x ≠ '>' ∧ x ≠ '"' ∧ x ≠ '\'' := by
    intro x hx
    simp only [escape, List.mem_flatMap] at hx
    obtain ⟨c, _, hc⟩ := hx
    exact mem_escapeChar hc
  refine ⟨fun h => (key _ h).1 rfl, fun h => (key _ h).2.1 rfl, fun h => (key _ h).2.2.1 rfl,
    fun h => (key _ h).2.2.2 rfl⟩

theorem escapeChar_cases (c : Char) :
    (escapeChar c ∈ entities) ∨ (c ≠ '&' ∧ escapeChar c = [c]) := by
  unfold escapeChar
  split
  · left; decide
  · left; decide
  · left; decide
  · left; decide
  · left; decide
  · right; exact ⟨by assumption, rfl⟩

/-- **C20.** Every `&` in escaped text starts one of the five entities. -/
theorem C20_ampersand (s pre post : Str) (h : escape s = pre ++ '&' :: post) :
    ∃ e ∈ entities, e <+: '&' :: post := by
  induction s generalizing pre with
  | nil => simp [escape] at h
  | cons c s ih =>
    have hc : escape (c :: s) = escapeChar c ++ escape s := by simp [escape]
    rw [hc] at h
    rcases escapeChar_cases c with he | ⟨hne, he⟩
    · have hstart : ∃ t, escapeChar c = '&' :: t ∧ '&' ∉ t := by
        simp only [entities, List.mem_cons, List.not_mem_nil, or_false] at he
        rcases he with e | e | e | e | e <;> rw [e] <;> exact ⟨_, rfl, by decide⟩
      obtain ⟨t, ht, hnt⟩ := hstart
      rw [ht] at h
      rcases pre with _ | ⟨p, pre⟩
      · refine ⟨_, he, ?_⟩
        rw [ht, ← List.nil_append ('&' :: post), ← h]
        exact List.prefix_append _ _
      · simp only [List.cons_append, List.cons.injEq] at h
        rcases List.append_eq_append_iff.1 h.2 with ⟨a', h1, h2⟩ | ⟨c', h1, h2⟩
        · exact ih _ h2
        · rcases c' with _ | ⟨x, c'⟩
          · exact ih [] (by simpa using h2.symm)
          · exfalso
            simp only [List.cons_append, List.cons.injEq] at h2
            apply hnt
            rw [h1, h2.1]; simp
    · rw [he] at h
      rcases pre with _ | ⟨p, pre⟩
      · simp only [List.cons_append, List.nil_append, List.cons.injEq] at h
        exact absurd h.1 hne
      · simp only [List.cons_append, List.nil_append, List.cons.injEq] at h
        exact ih _ h.2

example : escape cs!"a<b & \"c\"" = cs!"a&lt;b &amp; &quot;c&quot;" := by decide
example : ∃ pre post, escape cs!"x&y" = pre ++ '&' :: post := ⟨cs!"x", cs!"amp;y", by decide⟩

/-! ## C21: well-nested output -/

theorem WellNested.append {a b : Str} (ha : WellNested a) (hb : WellNested b) :
    WellNested (a ++ b) := by
  induction ha with
  | nil => exact hb
  | char c s h1 h2 _ ih => exact .char c _ h1 h2 ih
  | element n at' i s h1 h2 h3 _ _ ih =>
    rw [List.append_assoc]
    exact .element n at' i _ h1 h2 h3 ih

theorem WellNested.chars {s : Str} (h1 : '<' ∉ s) (h2 : '>' ∉ s) : WellNested s := by
  induction s with
  | nil => exact .nil
  | cons c s ih =>
    simp only [List.mem_cons, not_or] at h1 h2
    exact .char c s (Ne.symm h1.1) (Ne.symm h2.1) (ih h1.2 h2.2)

theorem WellNested.elem {n : Str} {attrs : List (Str × Str)} {i : Str} (h1 : n ∈ elementNames)
    (h2 : ∀ a ∈ attrs, GoodAttr a) (h3 : WellNested i) : WellNested (Html.element n attrs i) := by
  have := WellNested.element n attrs i [] h1 h2 h3 .nil
  simpa using this

theorem WellNested.escape (s : Str) : WellNested (escape s) :=
  .chars (C20_no_special s).1 (C20_no_special s).2.1

theorem goodAttr_out (k v : Str) (h : k ∈ attributeNames) : GoodAttr (k, Html.escape v) :=
  ⟨h, (C20_no_special v).2.2.1, (C20_no_special v).1, (C20_no_special v).2.1⟩

theorem goodAttrs_out (l : List (Str × Str)) (h : ∀ a ∈ l, a.1 ∈ attributeNames) :
    ∀ a ∈ outAttrs l, GoodAttr a := by
  intro a ha
  simp only [outAttrs, List.mem_map] at ha
  obtain ⟨b, hb, rfl⟩ := ha
  exact goodAttr_out _ _ (h b hb)

theorem natStr_digit (n : Nat) {c : Char} (h : c ∈ natStr n) : c.isDigit = true :=
  Nat.isDigit_of_mem_toDigits (by decide) (by decide) h

theorem not_mem_natStr (n : Nat) {c : Char} (h : c.isDigit = false) : c ∉ natStr n := by
  intro hc; have := natStr_digit n hc; simp [h] at this

theorem WellNested.natStr (n : Nat) : WellNested (natStr n) :=
  .chars (not_mem_natStr n (by decide)) (not_mem_natStr n (by decide))

theorem titleAttr_names (t : Option Str) : ∀ a ∈ titleAttr t, a.1 ∈ attributeNames := by
  intro a ha
  rcases t with _ | t
  · simp [titleAttr] at ha
  · simp only [titleAttr, List.mem_singleton] at ha
    subst ha
    show cs!"title" ∈ attributeNames
    decide

theorem names_cons {k v : Str} {l : List (Str × Str)} (hk : k ∈ attributeNames)
    (hl : ∀ a ∈ l, a.1 ∈ attributeNames) : ∀ a ∈ (k, v) :: l, a.1 ∈ attributeNames := by
  intro a ha
  rcases List.mem_cons.1 ha with rfl | ha
  · exact hk
  · exact hl a ha

theorem names_nil : ∀ a ∈ ([] : List (Str × Str)), a.1 ∈ attributeNames := by simp

theorem no_attrs : ∀ a ∈ ([] : List (Str × Str)), GoodAttr a := by simp

theorem inline_wellNested (st : State) :
    (∀ i, (∀ s, .html s ∉ Inline.pre i) → WellNested (inlineStr st i)) ∧
    (∀ l, (∀ s, .html s ∉ Inline.preL l) → WellNested (inlinesStr st l)) := by
  apply Inline.ind
  case nil => intro _; exact .nil
  case cons =>
    intro i l hi hl h
    simp only [Inline.preL, List.mem_append, not_or] at h
    exact (hi fun s => (h s).1).append (hl fun s => (h s).2)
  case text => intro s _; exact .escape s
  case lineBreak => intro _; simp only [inlineStr]; exact .elem (by decide) no_attrs .nil
  case code => intro s _; simp only [inlineStr]; exact .elem (by decide) no_attrs (.escape s)
  case html => intro s h; exact absurd (by simp [Inline.pre]) (h s)
  case link =>
    intro d t c ih h
    simp only [Inline.pre, List.mem_cons, reduceCtorEq, false_or] at h
    simp only [inlineStr]
    exact .elem (by decide)
      (goodAttrs_out _ (names_cons (by decide) (titleAttr_names t))) (ih h)
  case linkReference =>
    intro l t _ ih h
    simp only [Inline.pre, List.mem_cons, reduceCtorEq, false_or, List.mem_append, not_or] at h
    simp only [inlineStr]
    split
    · exact .nil
    · exact .elem (by decide)
        (goodAttrs_out _ (names_cons (by decide) (titleAttr_names _))) (ih fun s => (h s).2)
  case image =>
    intro d t a _
    simp only [inlineStr]
    exact .elem (by decide)
      (goodAttrs_out _ (names_cons (by decide) (names_cons (by decide) (titleAttr_names _)))) .nil
  case emphasis =>
    intro c ih h
    simp only [Inline.pre, List.mem_cons, reduceCtorEq, false_or] at h
    simp only [inlineStr]
    exact .elem (by decide) no_attrs (ih h)
  case strong =>
    intro c ih h
    simp only [Inline.pre, List.mem_cons, reduceCtorEq, false_or] at h
    simp only [inlineStr]
    exact .elem (by decide) no_attrs (ih h)
  case strikethrough =>
    intro c ih h
    simp only [Inline.pre, List.mem_cons, reduceCtorEq, false_or] at h
    simp only [inlineStr]
    exact .elem (by decide) no_attrs (ih h)
  case autolink =>
    intro s _
    simp only [inlineStr]
    exact .elem (by decide) (goodAttrs_out _ (names_cons (by decide) names_nil)) (.escape s)
  case footnoteReference =>
    intro l _
    simp only [inlineStr]
    split
    · exact .nil
    · exact .elem (by decide)
        (goodAttrs_out _ (names_cons (by decide) (names_cons (by decide) names_nil)))
        (.char _ _ (by decide) (by decide) ((WellNested.natStr _).append
          (.chars (by decide) (by decide))))
  case empty => intro _; exact .nil

/-- The shape of an icon, as structured HTML. -/
theorem svg_shape (t : AlertType) : ∃ c d, svgIcon t = element cs!"svg"
    [(cs!"class", c), (cs!"viewBox", cs!"0 0 16 16"), (cs!"version", cs!"1.1"),
     (cs!"width", cs!"16"), (cs!"height", cs!"16"), (cs!"aria-hidden", cs!"true")]
    (element cs!"path" [(cs!"d", d)] []) ∧ GoodAttr (cs!"class", c) ∧ GoodAttr (cs!"d", d) := by
  have key : ∀ (s c d : Str), s = element cs!"svg"
      [(cs!"class", c), (cs!"viewBox", cs!"0 0 16 16"), (cs!"version", cs!"1.1"),
       (cs!"width", cs!"16"), (cs!"height", cs!"16"), (cs!"aria-hidden", cs!"true")]
      (element cs!"path" [(cs!"d", d)] []) →
      (c.all fun x => x != '"' && x != '<' && x != '>') = true →
      (d.all fun x => x != '"' && x != '<' && x != '>') = true →
      ∃ c d, s = element cs!"svg"
        [(cs!"class", c), (cs!"viewBox", cs!"0 0 16 16"), (cs!"version", cs!"1.1"),
         (cs!"width", cs!"16"), (cs!"height", cs!"16"), (cs!"aria-hidden", cs!"true")]
        (element cs!"path" [(cs!"d", d)] []) ∧ GoodAttr (cs!"class", c) ∧ GoodAttr (cs!"d", d) := by
    intro s c d h hc hd
    rw [List.all_eq_true] at hc hd
    refine ⟨c, d, h, ⟨by show cs!"class" ∈ attributeNames; decide, ?_, ?_, ?_⟩,
      ⟨by show cs!"d" ∈ attributeNames; decide, ?_, ?_, ?_⟩⟩
    all_goals intro hm
    all_goals first
      | (have := hc _ hm; revert this; decide)
      | (have := hd _ hm; revert this; decide)
  cases t with
  | note =>
    exact key _ cs!"octicon octicon-info mr-2"
      cs!"M0 8a8 8 0 1 1 16 0A8 8 0 0 1 0 8Zm8-6.5a6.5 6.5 0 1 0 0 13 6.5 6.5 0 0 0 0-13ZM6.5 7.75A.75.75 0 0 1 7.25 7h1a.75.75 0 0 1 .75.75v2.75h.25a.75.75 0 0 1 0 1.5h-2a.75.75 0 0 1 0-1.5h.25v-2h-.25a.75.75 0 0 1-.75-.75ZM8 6a1 1 0 1 1 0-2 1 1 0 0 1 0 2Z"
      (by decide +kernel) (by decide +kernel) (by decide +kernel)
  | tip =>
    exact key _ cs!"octicon octicon-light-bulb mr-2"
      cs!"M8 1.5c-2.363 0-4 1.69-4 3.75 0 .984.424 1.625.984 2.304l.214.253c.223.264.47.556.673.848.284.411.537.896.621 1.49a.75.75 0 0 1-1.484.211c-.04-.282-.163-.547-.37-.847a8.456 8.456 0 0 0-.542-.68c-.084-.1-.173-.205-.268-.32C3.201 7.75 2.5 6.766 2.5 5.25 2.5 2.31 4.863 0 8 0s5.5 2.31 5.5 5.25c0 1.516-.701 2.5-1.328 3.259-.095.115-.184.22-.268.319-.207.245-.383.453-.541.681-.208.3-.33.565-.37.847a.751.751 0 0 1-1.485-.212c.084-.593.337-1.078.621-1.489.203-.292.45-.584.673-.848.075-.088.147-.173.213-.253.561-.679.985-1.32.985-2.304 0-2.06-1.637-3.75-4-3.75ZM5.75 12h4.5a.75.75 0 0 1 0 1.5h-4.5a.75.75 0 0 1 0-1.5ZM6 15.25a.75.75 0 0 1 .75-.75h2.5a.75.75 0 0 1 0 1.5h-2.5a.75.75 0 0 1-.75-.75Z"
      (by decide +kernel) (by decide +kernel) (by decide +kernel)
  | important =>
    exact key _ cs!"octicon octicon-report mr-2"
      cs!"M0 1.75C0 .784.784 0 1.75 0h12.5C15.216 0 16 .784 16 1.75v9.5A1.75 1.75 0 0 1 14.25 13H8.06l-2.573 2.573A1.458 1.458 0 0 1 3 14.543V13H1.75A1.75 1.75 0 0 1 0 11.25Zm1.75-.25a.25.25 0 0 0-.25.25v9.5c0 .138.112.25.25.25h2a.75.75 0 0 1 .75.75v2.19l2.72-2.72a.749.749 0 0 1 .53-.22h6.5a.25.25 0 0 0 .25-.25v-9.5a.25.25 0 0 0-.25-.25Zm7 2.25v2.5a.75.75 0 0 1-1.5 0v-2.5a.75.75 0 0 1 1.5 0ZM9 9a1 1 0 1 1-2 0 1 1 0 0 1 2 0Z"
      (by decide +kernel) (by decide +kernel) (by decide +kernel)
  | warning =>
    exact key _ cs!"octicon octicon-alert mr-2"
      cs!"M6.457 1.047c.659-1.234 2.427-1.234 3.086 0l6.082 11.378A1.75 1.75 0 0 1 14.082 15H1.918a1.75 1.75 0 0 1-1.543-2.575Zm1.763.707a.25.25 0 0 0-.44 0L1.698 13.132a.25.25 0 0 0 .22.368h12.164a.25.25 0 0 0 .22-.368Zm.53 3.996v2.5a.75.75 0 0 1-1.5 0v-2.5a.75.75 0 0 1 1.5 0ZM9 11a1 1 0 1 1-2 0 1 1 0 0 1 2 0Z"
      (by decide +kernel) (by decide +kernel) (by decide +kernel)
  | caution =>
    exact key _ cs!"octicon octicon-stop mr-2"
      cs!"M4.47.22A.749.749 0 0 1 5 0h6c.199 0 .389.079.53.22l4.25 4.25c.141.14.22.331.22.53v6a.749.749 0 0 1-.22.53l-4.25 4.25A.749.749 0 0 1 11 16H5a.749.749 0 0 1-.53-.22L.22 11.53A.749.749 0 0 1 0 11V5c0-.199.079-.389.22-.53Zm.84 1.28L1.5 5.31v5.38l3.81 3.81h5.38l3.81-3.81V5.31L10.69 1.5ZM8 4a.75.75 0 0 1 .75.75v3.5a.75.75 0 0 1-1.5 0v-3.5A.75.75 0 0 1 8 4Zm0 8a1 1 0 1 1 0-2 1 1 0 0 1 0 2Z"
      (by decide +kernel) (by decide +kernel) (by decide +kernel)
  | custom l =>
    have e : svgIcon (.custom l) = svgIcon (.custom []) := rfl
    rw [e]
    exact key _ cs!"octicon octicon-info mr-2"
      cs!"M0 8a8 8 0 1 1 16 0A8 8 0 0 1 0 8Zm8-6.5a6.5 6.5 0 1 0 0 13 6.5 6.5 0 0 0 0-13ZM6.5 7.75A.75.75 0 0 1 7.25 7h1a.75.75 0 0 1 .75.75v2.75h.25a.75.75 0 0 1 0 1.5h-2a.75.75 0 0 1 0-1.5h.25v-2h-.25a.75.75 0 0 1-.75-.75ZM8 6a1 1 0 1 1 0-2 1 1 0 0 1 0 2Z"
      (by decide +kernel) (by decide +kernel) (by decide +kernel)

/-- What `Clean` says about one block. -/
def NodeOK (b : Block) : Prop :=
  (∀ s, b ≠ .htmlBlock s) ∧ (∀ s, .html s ∉ Inline.preL b.directInlines) ∧
  (∀ n bs, b = .githubAlert (.custom n) bs → '<' ∉ n ∧ '>' ∉ n ∧ '&' ∉ n)

theorem Clean.nodeOK {d : Document} (h : Clean d) : ∀ b ∈ Block.preL d.blocks, NodeOK b := by
  intro b hb
  have hb' : d.HasBlock b := (d.mem_allBlocks b).1 hb
  refine ⟨fun s e => h.noHtmlBlock s (e ▸ hb'), fun s hs => h.noHtmlInline s ?_,
    fun n bs e => h.alertNames n bs (e ▸ hb')⟩
  rw [← Document.mem_allInlines]
  exact List.mem_flatMap.2 ⟨b, hb, hs⟩

theorem mem_preL_flatten {i : Inline} {c : List Inline} {l : List (List Inline)} (hc : c ∈ l)
    (h : i ∈ Inline.preL c) : i ∈ Inline.preL l.flatten := by
  rw [Inline.preL_eq_flatMap] at *
  simp only [List.mem_flatMap, List.mem_flatten] at *
  obtain ⟨a, ha, hi⟩ := h
  exact ⟨a, ⟨c, hc, ha⟩, hi⟩

theorem headingTag_mem (k : HeadingKind) : headingTag k ∈ elementNames := by
  unfold headingTag
  split <;> decide

theorem cells_wellNested (st : State) (n : Str) (hn : n ∈ elementNames) (al : List Alignment)
    (row : List (List Inline)) (h : ∀ c ∈ row, ∀ s, .html s ∉ Inline.preL c) :
    ∀ k, WellNested (cellsStr st n al k row) := by
  induction row with
  | nil => intro k; exact .nil
  | cons c row ih =>
    intro k
    simp only [cellsStr]
    refine .append (.elem hn (goodAttrs_out _ (names_cons (by decide) names_nil))
      ((inline_wellNested st).2 c (h c (by simp)))) (ih (fun c hc => h c (by simp [hc])) _)

theorem row_wellNested (st : State) (n : Str) (hn : n ∈ elementNames) (al : List Alignment)
    (row : List (List Inline)) (h : ∀ c ∈ row, ∀ s, .html s ∉ Inline.preL c) :
    WellNested (rowStr st row n al) :=
  .elem (by decide) no_attrs (cells_wellNested st n hn al row h 0)

theorem flatMap_wellNested {α : Type} (f : α → Str) (l : List α) (h : ∀ a ∈ l, WellNested (f a)) :
    WellNested (l.flatMap f) := by
  induction l with
  | nil => exact .nil
  | cons a l ih =>
    rw [List.flatMap_cons]
    exact (h a (by simp)).append (ih fun b hb => h b (by simp [hb]))

theorem svg_wellNested (t : AlertType) : WellNested (svgIcon t) := by
  obtain ⟨c, d, e, hc, hd⟩ := svg_shape t
  rw [e]
  refine .elem (by decide) ?_ (.elem (by decide) ?_ .nil)
  · intro a ha
    simp only [List.mem_cons, List.not_mem_nil, or_false] at ha
    rcases ha with rfl | rfl | rfl | rfl | rfl | rfl
    · exact hc
    all_goals exact ⟨by show _ ∈ _; decide, by decide, by decide, by decide⟩
  · intro a ha
    rw [List.mem_singleton] at ha
    exact ha ▸ hd

theorem block_wellNested (st : State) :
    (∀ b, (∀ c ∈ b.pre, NodeOK c) → ∀ s, blockStr st b = some s → WellNested s) ∧
    (∀ i, (∀ c ∈ ListItem.pre i, NodeOK c) → ∀ s, itemStr st i = some s → WellNested s) ∧
    (∀ l, (∀ c ∈ Block.preL l, NodeOK c) → ∀ s, blocksStr st l = some s → WellNested s) ∧
    (∀ l, (∀ c ∈ ListItem.preL l, NodeOK c) → ∀ s, itemsStr st l = some s → WellNested s) := by
  apply Block.ind
  case paragraph =>
    intro c h s hs
    simp only [blockStr, Option.some.injEq] at hs
    subst hs
    exact .elem (by decide) no_attrs
      ((inline_wellNested st).2 c (h (.paragraph c) (by simp [Block.pre])).2.1)
  case heading =>
    intro k c h s hs
    simp only [blockStr, Option.some.injEq] at hs
    subst hs
    exact .elem (headingTag_mem k) no_attrs
      ((inline_wellNested st).2 c (h (.heading k c) (by simp [Block.pre])).2.1)
  case thematicBreak =>
    intro h s hs
    simp only [blockStr, Option.some.injEq] at hs
    subst hs
    exact .elem (by decide) no_attrs .nil
  case codeBlock =>
    intro k c h s hs
    simp only [blockStr, Option.some.injEq] at hs
    subst hs
    exact .elem (by decide) no_attrs (.elem (by decide) no_attrs (.escape c))
  case htmlBlock => intro c h; exact absurd rfl ((h _ (by simp [Block.pre])).1 c)
  case definition =>
    intro _ _ _ h s hs
    simp only [blockStr, Option.some.injEq] at hs
    subst hs
    exact .nil
  case empty =>
    intro h s hs
    simp only [blockStr, Option.some.injEq] at hs
    subst hs
    exact .nil
  case table =>
    intro rows al h s hs
    have hrow : ∀ r ∈ rows, ∀ c ∈ r, ∀ s, .html s ∉ Inline.preL c := by
      intro r hr c hc s hs
      refine (h (.table rows al) (by simp [Block.pre])).2.1 s ?_
      exact mem_preL_flatten (List.mem_flatten.2 ⟨r, hr, hc⟩) hs
    simp only [blockStr] at hs
    rcases rows with _ | ⟨r, rows⟩
    · simp [tableStr] at hs
    · simp only [tableStr, Option.some.injEq] at hs
      subst hs
      refine .elem (by decide) no_attrs (.append (.elem (by decide) no_attrs ?_)
        (.elem (by decide) no_attrs ?_))
      · exact row_wellNested st _ (by decide) al r (hrow r (by simp))
      · exact flatMap_wellNested _ _ fun r hr =>
          row_wellNested st _ (by decide) al r (hrow r (by simp [hr]))
  case blockQuote =>
    intro b ih h s hs
    simp only [blockStr, Option.map_eq_some_iff] at hs
    obtain ⟨t, ht, rfl⟩ := hs
    exact .elem (by decide) no_attrs (ih (fun c hc => h c (by simp [Block.pre, hc])) t ht)
  case list =>
    intro k b ih h s hs
    simp only [blockStr, Option.map_eq_some_iff] at hs
    obtain ⟨t, ht, rfl⟩ := hs
    have := ih (fun c hc => h c (by simp [Block.pre, hc])) t ht
    cases k with
    | ordered n =>
      exact .elem (by decide) (goodAttrs_out _ (names_cons (by decide) names_nil)) this
    | bullet n =>
      exact .elem (by decide) (goodAttrs_out _ (names_cons (by decide) names_nil)) this
  case footnoteDefinition =>
    intro l b ih h s hs
    simp only [blockStr] at hs
    split at hs
    · simp only [Option.some.injEq] at hs
      subst hs
      exact .nil
    · simp only [Option.map_eq_some_iff] at hs
      obtain ⟨t, ht, rfl⟩ := hs
      have := ih (fun c hc => h c (by simp [Block.pre, hc])) t ht
      exact .elem (by decide) (goodAttrs_out _ (names_cons (by decide) names_nil))
        (.append (.elem (by decide) (goodAttrs_out _ (names_cons (by decide) names_nil))
            ((WellNested.natStr _).append (.chars (by decide) (by decide))))
          (.elem (by decide) (goodAttrs_out _ (names_cons (by decide) names_nil)) this))
  case githubAlert =>
    intro ty b ih h s hs
    simp only [blockStr, Option.map_eq_some_iff] at hs
    obtain ⟨t, ht, rfl⟩ := hs
    have hb := ih (fun c hc => h c (by simp [Block.pre, hc])) t ht
    have htitle : WellNested (alertTitle ty) := by
      cases ty with
      | custom n =>
        have := (h (.githubAlert (.custom n) b) (by simp [Block.pre])).2.2 n b rfl
        exact .chars this.1 this.2.1
      | _ => exact .chars (by decide) (by decide)
    exact .elem (by decide) (goodAttrs_out _ (names_cons (by decide) names_nil))
      (.append (.elem (by decide) (goodAttrs_out _ (names_cons (by decide) names_nil))
        ((svg_wellNested ty).append htitle)) hb)
  case item =>
    intro ta b ih h s hs
    simp only [itemStr, Option.map_eq_some_iff] at hs
    obtain ⟨t, ht, rfl⟩ := hs
    have hb := ih (fun c hc => h c (by simp [ListItem.pre, hc])) t ht
    refine .elem (by decide) no_attrs (.append ?_ hb)
    rcases ta with _ | (_ | _)
    · exact .nil
    · simp only [taskStr]
      exact .elem (by decide) (goodAttrs_out _ (names_cons (by decide) names_nil))
        (.chars (by decide) (by decide))
    · simp only [taskStr]
      exact .elem (by decide) (goodAttrs_out _ (names_cons (by decide) names_nil))
        (.chars (by decide) (by decide))
  case nilB =>
    intro h s hs
    simp only [blocksStr, Option.some.injEq] at hs
    subst hs
    exact .nil
  case nilI =>
    intro h s hs
    simp only [itemsStr, Option.some.injEq] at hs
    subst hs
    exact .nil
  case consB =>
    intro b l hb hl h s hs
    simp only [blocksStr, Option.bind_eq_some_iff, Option.map_eq_some_iff] at hs
    obtain ⟨x, hx, y, hy, rfl⟩ := hs
    exact (hb (fun c hc => h c (by simp [Block.preL, hc])) x hx).append
      (hl (fun c hc => h c (by simp [Block.preL, hc])) y hy)
  case consI =>
    intro b l hb hl h s hs
    simp only [itemsStr, Option.bind_eq_some_iff, Option.map_eq_some_iff] at hs
    obtain ⟨x, hx, y, hy, rfl⟩ := hs
    exact (hb (fun c hc => h c (by simp [ListItem.preL, hc])) x hx).append
      (hl (fun c hc => h c (by simp [ListItem.preL, hc])) y hy)

/-- **C21.** The HTML of a document without raw HTML is properly nested over the renderer's
fixed vocabulary: text of the document cannot create or break markup. -/
theorem C21_well_nested (dw : Str → Nat) (d : Document) (cfg : Config) (h : Clean d) (out : Str)
    (ho : renderHtml dw d cfg = some out) : WellNested out := by
  rw [renderHtml_eq] at ho
  exact (block_wellNested _).2.2.1 _ h.nodeOK _ ho

end Html
end Verif
