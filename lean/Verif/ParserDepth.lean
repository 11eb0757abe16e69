import Verif.ParserInst
/-!
# C33: the depth of recursion is bounded by the length of the input

A call of the inline parser on `s` only calls itself on strings shorter than `s`, and the same holds
for blocks.  Hence any depth counter larger than the length of the input gives the same answer.
-/
set_option linter.unusedVariables false
namespace Verif
open Nom

theorem Con.nil {α : Type} (p : P α) [Con p] : p [] = none := by
  cases h : p [] with
  | none => rfl
  | some y => have := Con.lt (p := p) (s := []) (r := y.1) (a := y.2) h; simp at this

theorem many1_length {α : Type} {p : P α} [Con p] {s r : Str} {l : List α}
    (h : many1 p s = some (r, l)) : l.length + r.length ≤ s.length := by
  obtain ⟨r1, a, l', e1, e2, rfl⟩ := many1_some.1 h
  have := many0_length e2
  have := Con.lt e1
  simp only [List.length_cons]; omega

theorem recognize_length {α : Type} {p : P α} [Suf p] {s r t : Str}
    (h : recognize p s = some (r, t)) : t.length + r.length = s.length := by
  rw [← recognize_append h, List.length_append]

/-- Two functions agree on the strings shorter than `n`. -/
abbrev AgreeBelow {β : Type} (n : Nat) (r1 r2 : Str → β) : Prop :=
  ∀ t : Str, t.length < n → r1 t = r2 t

section
variable {r1 r2 : Str → Option (List Inline)} {x : PExt} {cfg : PConfig}

theorem linkLabelInner_congr {s : Str} (h : AgreeBelow (s.length + 1) r1 r2) :
    linkLabelInner r1 s = linkLabelInner r2 s := by
  unfold linkLabelInner
  split
  · rename_i e; rfl
  · rename_i r label e
    rw [h label]
    have := many1_length (verify_some.1 e).1
    omega

theorem linkLabel_congr {s : Str} (h : AgreeBelow s.length r1 r2) :
    linkLabel r1 s = linkLabel r2 s := by
  unfold linkLabel delimited
  refine preceded_congr rfl (fun r a e => terminated_congr (linkLabelInner_congr ?_) (fun _ _ _ => rfl))
  intro t ht
  have := Con.lt e
  exact h t (by omega)

theorem AgreeBelow.mono {β : Type} {n m : Nat} {r1 r2 : Str → β} (h : AgreeBelow n r1 r2)
    (hm : m ≤ n) : AgreeBelow m r1 r2 := fun t ht => h t (by omega)

theorem inlineLink_congr {s : Str} (h : AgreeBelow s.length r1 r2) :
    inlineLink r1 s = inlineLink r2 s := by
  unfold inlineLink
  exact mapP_congr (seq_congr (linkLabel_congr h) (fun _ _ _ => rfl))

theorem referenceLink_congr {s : Str} (h : AgreeBelow s.length r1 r2) :
    referenceLink r1 s = referenceLink r2 s := by
  unfold referenceLink
  refine orElse_congr ?_ (orElse_congr ?_ ?_)
  · exact mapP_congr (seq_congr (linkLabel_congr h)
      (fun r a e => linkLabel_congr (h.mono (Suf.le e))))
  · exact mapP_congr (terminated_congr (linkLabel_congr h) (fun _ _ _ => rfl))
  · exact mapP_congr (linkLabel_congr h)

theorem openTag_lt {t s r : Str} {u : Unit} (ht : t ≠ []) (h : openTag x t s = some (r, u)) :
    r.length < s.length := by
  unfold openTag at h
  split at h
  · rename_i r1 v e
    split at h
    · simp only [Option.some.injEq, Prod.mk.injEq] at h
      obtain ⟨rfl, _⟩ := h
      obtain ⟨rfl, _⟩ := tag_some.1 e
      have := List.length_pos_iff.2 ht
      rw [List.length_append]; omega
    · simp at h
  · simp at h

theorem emphasisContent_congr {t s : Str} (h : AgreeBelow (s.length + 1) r1 r2) :
    emphasisContent x r1 t s = emphasisContent x r2 t s := by
  unfold emphasisContent
  refine mapOpt_congr rfl (fun r a e => h a ?_)
  have := recognize_length e
  omega

theorem emphasisDelimited_congr {t s : Str} (ht : t ≠ []) (h : AgreeBelow s.length r1 r2) :
    emphasisDelimited x r1 t s = emphasisDelimited x r2 t s := by
  unfold emphasisDelimited delimited
  refine preceded_congr rfl (fun r a e => terminated_congr (emphasisContent_congr ?_)
    (fun _ _ _ => rfl))
  have := openTag_lt ht e
  exact h.mono (by omega)

theorem emphasisP_congr {s : Str} (h : AgreeBelow s.length r1 r2) :
    emphasisP x r1 s = emphasisP x r2 s := by
  unfold emphasisP
  refine orElse_congr ?_ (orElse_congr ?_ ?_) <;>
  exact mapP_congr (orElse_congr (emphasisDelimited_congr (by simp) h)
    (emphasisDelimited_congr (by simp) h))

theorem strikethroughP_congr {s : Str} (h : AgreeBelow s.length r1 r2) :
    strikethroughP r1 s = strikethroughP r2 s := by
  unfold strikethroughP
  split
  · rfl
  · rename_i s1 u e1
    split
    · rfl
    · rename_i s2 c e2
      rw [h c]
      obtain ⟨r3, b, e3, _⟩ := terminated_some.1 e2
      have := recognize_length e3
      have := Con.lt e1
      omega

theorem conditionalUnit_congr {α β : Type} {b : Behavior α} {p q : P β} {s : Str}
    (h : p s = q s) : conditionalUnit b p s = conditionalUnit b q s := by
  unfold conditionalUnit
  cases b <;> first | rfl | exact value_congr h

theorem conditional_congr {α : Type} {b : Behavior α} {d : List α} {p q : P α} {s : Str}
    (h : p s = q s) : conditional b d p s = conditional b d q s := by
  unfold conditional
  cases b <;> first | rfl | exact mapP_congr h

theorem notAText_congr {s : Str} (h : AgreeBelow s.length r1 r2) :
    notAText x cfg r1 s = notAText x cfg r2 s := by
  unfold notAText
  refine orElse_congr rfl (orElse_congr ?_ (orElse_congr rfl (orElse_congr rfl (orElse_congr rfl
    (orElse_congr ?_ (orElse_congr rfl (orElse_congr ?_ (orElse_congr rfl
    (orElse_congr ?_ rfl)))))))))
  · exact conditionalUnit_congr (referenceLink_congr h)
  · exact conditionalUnit_congr (inlineLink_congr h)
  · exact conditionalUnit_congr (emphasisP_congr h)
  · exact conditionalUnit_congr (strikethroughP_congr h)

theorem textP_congr {s : Str} (h : AgreeBelow s.length r1 r2) :
    textP x cfg r1 s = textP x cfg r2 s := by
  unfold textP
  refine mapP_congr (many1_congr s (fun t ht => ?_))
  unfold textPiece
  refine orElse_congr rfl (orElse_congr rfl (recognize_congr (many1_congr t (fun u hu => ?_))))
  refine preceded_congr (notP_congr (notAText_congr ?_)) (fun _ _ _ => rfl)
  exact h.mono (Nat.le_trans hu.length_le ht.length_le)

theorem inlineStep_congr {s : Str} (h : AgreeBelow s.length r1 r2) :
    inlineStep x cfg r1 s = inlineStep x cfg r2 s := by
  unfold inlineStep conditionalInline
  refine orElse_congr rfl (orElse_congr ?_ (orElse_congr rfl (orElse_congr ?_ (orElse_congr rfl
    (orElse_congr rfl (orElse_congr rfl (orElse_congr rfl (orElse_congr ?_ (orElse_congr ?_
    (orElse_congr rfl ?_))))))))))
  · exact conditional_congr (inlineLink_congr h)
  · exact conditional_congr (referenceLink_congr h)
  · exact conditional_congr (emphasisP_congr h)
  · exact conditional_congr (strikethroughP_congr h)
  · exact conditional_congr (textP_congr h)

/-- The inline parser never nests deeper than its input is long. -/
theorem inlineF_stable (hc : cfg.CustomOk) : ∀ n m s, s.length < n → s.length < m →
    inlineF x cfg n s = inlineF x cfg m s := by
  intro n
  induction n with
  | zero => intro m s h; omega
  | succ n ih =>
    intro m s h1 h2
    obtain ⟨m, rfl⟩ : ∃ k, m = k + 1 := ⟨m - 1, by omega⟩
    unfold inlineF
    refine inlineStep_congr (fun t ht => ?_)
    have := inlineF_con x cfg hc n
    unfold inlineMany1With
    rw [mapP_congr (many1_congr (q := inlineF x cfg m) t (fun u hu => ?_))]
    have := hu.length_le
    exact ih m u (by omega) (by omega)

theorem parseInlines1_depth (hc : cfg.CustomOk) (n : Nat) (s : Str) (h : s.length < n) :
    (inlineMany1With (inlineF x cfg n) s).map Prod.snd = parseInlines1 x cfg s := by
  have := inlineF_con x cfg hc n
  unfold parseInlines1 inlineMany1With
  rw [mapP_congr (many1_congr (q := inlineF x cfg (s.length + 1)) s (fun u hu => ?_))]
  have := hu.length_le
  exact inlineF_stable hc _ _ _ (by omega) (by omega)

theorem parseInlines0_depth (hc : cfg.CustomOk) (n : Nat) (s : Str) (h : s.length < n) :
    (inlineMany0With (inlineF x cfg n) s).map Prod.snd = parseInlines0 x cfg s := by
  have := inlineF_con x cfg hc n
  unfold parseInlines0 inlineMany0With
  rw [mapP_congr (many0_congr (q := inlineF x cfg (s.length + 1)) s (fun u hu => ?_))]
  have := hu.length_le
  exact inlineF_stable hc _ _ _ (by omega) (by omega)

/-- The recursive call of the inline parser on strings shorter than the depth left is
`parseInlines1`. -/
theorem inlineF_succ (hc : cfg.CustomOk) (n : Nat) (s : Str) (h : s.length ≤ n) :
    inlineF x cfg (n + 1) s = inlineStep x cfg (parseInlines1 x cfg) s := by
  unfold inlineF
  exact inlineStep_congr (fun t ht => parseInlines1_depth hc n t (by omega))

end

/-! ## Lengths of the contents of containers -/

theorem eofOrEol_length {s r u : Str} (h : eofOrEol s = some (r, u)) :
    r.length < s.length ∨ s = [] := by
  rcases eofOrEol_some.1 h with ⟨rfl, _⟩ | ⟨rfl, _⟩ | ⟨rfl, _⟩
  · exact .inl (by simp)
  · exact .inl (by simp only [List.length_cons]; omega)
  · exact .inr rfl

theorem notEofOrEol0_append {s r t : Str} (h : notEofOrEol0 s = some (r, t)) : t ++ r = s := by
  unfold notEofOrEol0 at h
  rcases orElse_some.1 h with h | ⟨_, h⟩
  · obtain ⟨rfl, rfl⟩ := notLineEnding_some h
    exact List.takeWhile_append_dropWhile
  · obtain ⟨rfl, rfl, rfl⟩ := eof_some.1 h; rfl

theorem notEofOrEol1_append {s r t : Str} (h : notEofOrEol1 s = some (r, t)) : t ++ r = s :=
  recognize_append h

/-- A terminated line: what it consumed is the line and its ending; without an ending nothing is
left. -/
theorem lineTerminated0_length {s r t : Str} (h : lineTerminated notEofOrEol0 s = some (r, t)) :
    t.length + r.length + 1 ≤ s.length ∨ (t.length = s.length ∧ r = []) := by
  obtain ⟨r1, b, h1, h2⟩ := terminated_some.1 h
  have h3 := congrArg List.length (notEofOrEol0_append h1)
  rw [List.length_append] at h3
  rcases eofOrEol_length h2 with h4 | rfl
  · exact .inl (by omega)
  · obtain ⟨rfl⟩ : r = [] := by
      have := Suf.le h2; simpa using this
    exact .inr ⟨by simpa using h3, rfl⟩

theorem lineTerminated1_length {s r t : Str} (h : lineTerminated notEofOrEol1 s = some (r, t)) :
    t.length + r.length + 1 ≤ s.length ∨ (t.length = s.length ∧ r = []) := by
  obtain ⟨r1, b, h1, h2⟩ := terminated_some.1 h
  have h3 := congrArg List.length (notEofOrEol1_append h1)
  rw [List.length_append] at h3
  rcases eofOrEol_length h2 with h4 | rfl
  · exact .inl (by omega)
  · obtain ⟨rfl⟩ : r = [] := by
      have := Suf.le h2; simpa using this
    exact .inr ⟨by simpa using h3, rfl⟩

theorem joinWith_length_cons (a : Str) (l : List Str) :
    (joinWith ['\n'] (a :: l)).length =
      a.length + (if l = [] then 0 else 1 + (joinWith ['\n'] l).length) := by
  cases l with
  | nil => simp [joinWith]
  | cons b l =>
    rw [joinWith]
    simp only [List.length_append, List.length_cons, List.length_nil, reduceCtorEq, if_false]
    omega

/-- The joined lines of a `many0`-loop whose lines lose at least one character each are shorter
than the text, by one unless there is no line. -/
theorem many0_lines_length {p : P Str}
    (hp : ∀ s r t, p s = some (r, t) → t.length + r.length + 1 ≤ s.length)
    {s r : Str} {l : List Str} (h : many0 p s = some (r, l)) :
    (joinWith ['\n'] l).length + l.length * 0 + r.length ≤ s.length ∧
      (l ≠ [] → (joinWith ['\n'] l).length + r.length + 1 ≤ s.length + (l.length - 1)) := by
  refine many0_induction (M := fun s r l => (joinWith ['\n'] l).length + l.length * 0 + r.length ≤
    s.length ∧ (l ≠ [] → (joinWith ['\n'] l).length + r.length + 1 ≤ s.length + (l.length - 1)))
    ?_ ?_ s r l h
  · intro s _; simp [joinWith]
  · intro s r a r' l e hlt _ ih
    have h1 := hp _ _ _ e
    rw [joinWith_length_cons]
    simp only [List.length_cons]
    split
    · rename_i hl; subst hl
      have := ih.1
      simp only [joinWith, List.length_nil] at this ⊢
      exact ⟨by omega, fun _ => by omega⟩
    · rename_i hl
      have h2 := ih.2 hl
      have h3 := ih.1
      have := List.length_pos_iff.2 hl
      exact ⟨by omega, fun _ => by omega⟩

/-- `Total length` form used for quotes: with a line of content `t` leaving `r`, at least the prefix
is lost, and unless nothing is left also the line ending. -/
theorem quote_line {s r t : Str} (h : preceded quotePrefix (lineTerminated notEofOrEol0) s =
    some (r, t)) : t.length + r.length + 2 ≤ s.length ∨ (t.length + 1 ≤ s.length ∧ r = []) := by
  obtain ⟨r1, c, h1, h2⟩ := preceded_some.1 h
  have := Con.lt h1
  rcases lineTerminated0_length h2 with h3 | ⟨h3, h4⟩
  · exact .inl (by omega)
  · exact .inr ⟨by omega, h4⟩

theorem quote_many0 {s r : Str} {l : List Str}
    (h : many0 (preceded quotePrefix (lineTerminated notEofOrEol0)) s = some (r, l)) :
    l = [] ∨ (joinWith ['\n'] l).length + l.length + r.length ≤ s.length := by
  refine many0_induction (M := fun s r l => l = [] ∨
    (joinWith ['\n'] l).length + l.length + r.length ≤ s.length) ?_ ?_ s r l h
  · intro s _; exact .inl rfl
  · intro s r a r' l e hlt em ih
    right
    rw [joinWith_length_cons]
    simp only [List.length_cons]
    rcases quote_line e with h1 | ⟨h1, rfl⟩
    · split
      · rename_i hl; subst hl
        have := Suf.le em
        simp only [List.length_nil]; omega
      · rename_i hl
        have h2 := ih.resolve_left hl
        omega
    · have hn : many0 (preceded quotePrefix (lineTerminated notEofOrEol0)) [] = some ([], []) :=
        many0_of_none (Con.nil _)
      rw [hn] at em
      simp only [Option.some.injEq, Prod.mk.injEq] at em
      obtain ⟨rfl, rfl⟩ := em
      simp; omega

theorem quoteLines_length {s r : Str} {l : List Str} (h : quoteLines s = some (r, l)) :
    (joinWith ['\n'] l).length < s.length := by
  obtain ⟨r1, a, l', e1, e2, rfl⟩ := many1_some.1 h
  have h1 := quote_line e1
  rw [joinWith_length_cons]
  rcases quote_many0 e2 with rfl | h2
  · simp only [if_true]; rcases h1 with h1 | h1 <;> omega
  · split
    · rcases h1 with h1 | h1 <;> omega
    · rename_i hl
      have := List.length_pos_iff.2 hl
      rcases h1 with h1 | ⟨h1, rfl⟩
      · omega
      · simp only [List.length_nil] at h2; omega

theorem quoteLines_tail_length {s r : Str} {l : List Str} (h : quoteLines s = some (r, l)) :
    (joinWith ['\n'] (l.drop 1)).length < s.length := by
  have h1 := quoteLines_length h
  obtain ⟨r1, a, l', e1, e2, rfl⟩ := many1_some.1 h
  rw [joinWith_length_cons] at h1
  simp only [List.drop_succ_cons, List.drop_zero]
  split at h1
  · rename_i hl; subst hl; simp [joinWith]; omega
  · omega

/-- Lines of a list item after the first: the number of characters they contribute to the content. -/
theorem itemRest_length (rest : List (List Str)) :
    (itemContent [] rest).length = rest.length + (rest.map (fun l => l.flatten.length)).sum := by
  unfold itemContent
  induction rest with
  | nil => rfl
  | cons a l ih =>
    simp only [List.nil_append] at ih
    simp only [List.nil_append, List.map_cons, List.flatten_cons, List.length_append,
      List.length_cons, List.sum_cons] at ih ⊢
    omega

theorem itemContent_length (first : Str) (rest : List (List Str)) :
    (itemContent first rest).length =
      first.length + rest.length + (rest.map (fun l => l.flatten.length)).sum := by
  have : (itemContent first rest).length = first.length + (itemContent [] rest).length := by
    simp [itemContent]
  rw [this, itemRest_length]; omega

theorem lineTerminated_length {α : Type} {p : P α} {s r : Str} {a : α}
    (h : lineTerminated p s = some (r, a)) :
    ∃ r1, p s = some (r1, a) ∧ (r.length + 1 ≤ r1.length ∨ (r1 = [] ∧ r = [])) := by
  obtain ⟨r1, b, h1, h2⟩ := terminated_some.1 h
  refine ⟨r1, h1, ?_⟩
  rcases eofOrEol_length h2 with h3 | rfl
  · exact .inl (by omega)
  · refine .inr ⟨rfl, ?_⟩
    have := Suf.le h2; simpa using this

theorem listItemRestLine_length {k : ListKind} {pl : Nat} {s r : Str} {l : List Str}
    (h : listItemRestLine k pl s = some (r, l)) :
    l.flatten.length + r.length + 1 ≤ s.length ∨ (l.flatten.length ≤ s.length ∧ r = []) := by
  unfold listItemRestLine at h
  split at h
  · simp at h
  · obtain ⟨r1, h1, h2⟩ := lineTerminated_length h
    obtain ⟨r2, u, h3, h4⟩ := preceded_some.1 h1
    obtain ⟨_, rfl⟩ := notP_some.1 h3
    have hl : l.flatten.length + r1.length ≤ r2.length := by
      rcases orElse_some.1 h4 with h4 | ⟨_, h4⟩
      · obtain ⟨r3, sp, h5, h6⟩ := preceded_some.1 h4
        obtain ⟨t, h7, rfl⟩ := mapP_some.1 h6
        have := Suf.le h5
        have := congrArg List.length (notEofOrEol1_append h7)
        simp only [List.length_append] at this
        simp; omega
      · obtain ⟨⟨nl, c⟩, h5, rfl⟩ := mapP_some.1 h4
        obtain ⟨r3, h6, h7⟩ := seq_some.1 h5
        obtain ⟨r4, sp, h8, h9⟩ := preceded_some.1 h7
        have h10 := recognize_length h6
        have h11 := Suf.le h8
        have h12 := congrArg List.length (notEofOrEol1_append h9)
        simp only [List.length_append] at h12
        simp only [List.flatten_cons, List.flatten_nil, List.append_nil, List.length_append]
        simp only at h10
        omega
    rcases h2 with h2 | ⟨rfl, rfl⟩
    · exact .inl (by omega)
    · exact .inr ⟨by simpa using hl, rfl⟩

theorem listItemRestLine_nil (k : ListKind) (pl : Nat) : listItemRestLine k pl [] = none := rfl

theorem listItemLines_length {k : ListKind} {pl : Nat} {s r : Str} {l : List (List Str)}
    (h : listItemLines k pl s = some (r, l)) :
    l = [] ∨ (itemContent [] l).length + r.length ≤ s.length + 1 := by
  refine many0_induction (M := fun s r l => l = [] ∨
    (itemContent [] l).length + r.length ≤ s.length + 1) ?_ ?_ s r l h
  · intro s _; exact .inl rfl
  · intro s r a r' l e hlt em ih
    right
    rw [itemRest_length]
    simp only [List.length_cons, List.map_cons, List.sum_cons]
    rcases listItemRestLine_length e with h1 | ⟨h1, rfl⟩
    · rcases ih with rfl | h2
      · have := Suf.le (p := listItemLines k pl) em
        simp only [List.map_nil, List.sum_nil, List.length_nil]; omega
      · rw [itemRest_length] at h2; omega
    · rw [many0_of_none (listItemRestLine_nil k pl)] at em
      simp only [Option.some.injEq, Prod.mk.injEq] at em
      obtain ⟨rfl, rfl⟩ := em
      simp only [List.map_nil, List.sum_nil, List.length_nil]; omega

theorem listMarkerWithSpanSize_length {s r f : Str} {k : ListKind} {n : Nat}
    {t : Option TaskState} (h : listMarkerWithSpanSize s = some (r, (k, n, t, f))) :
    f.length + r.length + 2 ≤ s.length ∨ (f.length + 1 ≤ s.length ∧ r = []) := by
  unfold listMarkerWithSpanSize at h
  rcases orElse_some.1 h with h | ⟨_, h⟩
  · obtain ⟨⟨k', n', t'⟩, h1, h2⟩ := mapP_some.1 h
    simp only [Prod.mk.injEq] at h2
    obtain ⟨rfl, rfl, rfl, rfl⟩ := h2
    unfold listMarkerFollowedByNewline at h1
    split at h1
    · simp at h1
    · rename_i r1 k1 e1
      have h2 := Con.lt e1
      split at h1
      · rename_i tail u e2
        simp only [Option.some.injEq, Prod.mk.injEq] at h1
        obtain ⟨rfl, _⟩ := h1
        obtain ⟨r3, h4, h5⟩ := lineTerminated_length e2
        have := Suf.le h4
        rcases h5 with h5 | ⟨rfl, rfl⟩
        · exact .inl (by simp; omega)
        · exact .inr ⟨by simp; omega, rfl⟩
      · split at h1
        · simp at h1
        · rename_i r2 u e3
          obtain ⟨t2, h3, _⟩ := mapP_some.1 h1
          have := Con.lt h3
          have := Suf.le e3
          exact .inl (by simp; omega)
  · obtain ⟨⟨⟨k', n', t'⟩, f'⟩, h1, h2⟩ := mapP_some.1 h
    simp only [Prod.mk.injEq] at h2
    obtain ⟨rfl, rfl, rfl, rfl⟩ := h2
    obtain ⟨r1, h3, h4⟩ := seq_some.1 h1
    have := Con.lt h3
    rcases lineTerminated0_length h4 with h5 | ⟨h5, rfl⟩
    · exact .inl (by simp only at h5; omega)
    · exact .inr ⟨by simp only at h5; omega, rfl⟩

/-- The content of a list item is shorter than the text it was read from. -/
theorem listItem_content_length {s s1 s2 f : Str} {k : ListKind} {n : Nat}
    {t : Option TaskState} {rest : List (List Str)}
    (h1 : listMarkerWithSpanSize s = some (s1, (k, n, t, f)))
    (h2 : listItemLines k n s1 = some (s2, rest)) :
    (itemContent f rest).length < s.length := by
  have h3 : (itemContent f rest).length = f.length + (itemContent [] rest).length := by
    simp [itemContent]
  rw [h3]
  rcases listMarkerWithSpanSize_length h1 with h4 | ⟨h4, rfl⟩
  · rcases listItemLines_length h2 with rfl | h5
    · simp [itemContent]; omega
    · omega
  · unfold listItemLines at h2
    rw [many0_of_none (listItemRestLine_nil k n)] at h2
    simp only [Option.some.injEq, Prod.mk.injEq] at h2
    obtain ⟨rfl, rfl⟩ := h2
    simp [itemContent]; omega

theorem footnote_rest_length {s r : Str} {l : List Str}
    (h : many0 (preceded (manyMN (chr ' ') 3 3) (lineTerminated notEofOrEol1)) s = some (r, l)) :
    (itemContent [] (l.map (fun x => [x]))).length + r.length ≤ s.length := by
  refine many0_induction (M := fun s r l =>
    (itemContent [] (l.map (fun x => [x]))).length + r.length ≤ s.length) ?_ ?_ s r l h
  · intro s _; simp [itemContent]
  · intro s r a r' l e hlt em ih
    obtain ⟨r1, c, h1, h2⟩ := preceded_some.1 e
    have h3 := Con.lt h1
    rw [itemRest_length] at ih ⊢
    simp only [List.map_cons, List.length_cons, List.sum_cons, List.flatten_cons, List.flatten_nil,
      List.append_nil] at ih ⊢
    rcases lineTerminated1_length h2 with h4 | ⟨h4, rfl⟩
    · omega
    · simp only [List.length_nil] at ih; omega

section
variable {r1 r2 : P (List Block)} {x : PExt} {cfg : PConfig}

theorem blocks1_congr [Suf r1] {s : Str} (h : AgreeBelow (s.length + 1) r1 r2) :
    blocks1 r1 s = blocks1 r2 s := by
  unfold blocks1
  rw [many1_congr s (fun t ht => h t (by have := ht.length_le; omega))]

theorem blocks0_congr [Suf r1] {s : Str} (h : AgreeBelow (s.length + 1) r1 r2) :
    blocks0 r1 s = blocks0 r2 s := by
  unfold blocks0
  rw [many0_congr s (fun t ht => h t (by have := ht.length_le; omega))]

theorem blockquoteP_congr [Suf r1] {s : Str} (h : AgreeBelow s.length r1 r2) :
    blockquoteP r1 s = blockquoteP r2 s := by
  unfold blockquoteP
  refine mapOpt_congr rfl (fun r a e => ?_)
  rw [blocks1_congr (h.mono (quoteLines_length e))]

theorem githubAlertP_congr [Suf r1] {s : Str} (h : AgreeBelow s.length r1 r2) :
    githubAlertP x r1 s = githubAlertP x r2 s := by
  unfold githubAlertP
  split
  · rfl
  · split
    · rfl
    · split
      · rfl
      · rename_i r lines e
        dsimp only
        rw [blocks1_congr (h.mono (quoteLines_tail_length e))]

theorem listItemP_congr [Suf r1] {s : Str} (h : AgreeBelow s.length r1 r2) :
    listItemP r1 s = listItemP r2 s := by
  unfold listItemP
  split
  · rfl
  · rename_i s1 k pl t f e1
    split
    · rfl
    · rename_i s2 rest e2
      rw [blocks0_congr (h.mono (listItem_content_length e1 e2))]

theorem listP_congr [Suf r1] {s : Str} (h : AgreeBelow s.length r1 r2) :
    listP r1 s = listP r2 s := by
  unfold listP
  rw [many1_congr s (fun t ht => listItemP_congr (h.mono ht.length_le))]

theorem footnoteDefinitionP_congr [Suf r1] {s : Str} (h : AgreeBelow s.length r1 r2) :
    footnoteDefinitionP r1 s = footnoteDefinitionP r2 s := by
  unfold footnoteDefinitionP
  split
  · rfl
  · rename_i s1 label e1
    split
    · rfl
    · rename_i s2 first e2
      split
      · rfl
      · rename_i s3 rest e3
        rw [blocks0_congr (h.mono ?_)]
        have h1 := Con.lt e1
        obtain ⟨s4, sp, h2, h3⟩ := preceded_some.1 e2
        have h4 := Suf.le h2
        have h5 := footnote_rest_length e3
        have h6 : (itemContent first (rest.map (fun l => [l]))).length =
            first.length + (itemContent [] (rest.map (fun l => [l]))).length := by
          simp [itemContent]
        rcases lineTerminated1_length h3 with h7 | ⟨h7, rfl⟩
        · omega
        · simp only [List.length_nil] at h5; omega

theorem notAParagraphLine_congr [Suf r1] {s : Str} (h : AgreeBelow s.length r1 r2) :
    notAParagraphLine x cfg r1 s = notAParagraphLine x cfg r2 s := by
  unfold notAParagraphLine
  refine orElse_congr rfl (orElse_congr rfl (orElse_congr rfl (orElse_congr ?_ (orElse_congr ?_
    (orElse_congr rfl (orElse_congr rfl (orElse_congr rfl (orElse_congr ?_ rfl))))))))
  · exact conditionalUnit_congr (blockquoteP_congr h)
  · exact conditionalUnit_congr (listItemP_congr h)
  · exact conditionalUnit_congr (footnoteDefinitionP_congr h)

theorem paragraphLines_congr [Suf r1] {s : Str} (h : AgreeBelow s.length r1 r2) :
    paragraphLines x cfg r1 s = paragraphLines x cfg r2 s := by
  unfold paragraphLines lineTerminated
  refine terminated_congr (separatedList0_congr s (fun t ht => ?_)) (fun _ _ _ => rfl)
  exact preceded_congr (notP_congr (notAParagraphLine_congr (h.mono ht.length_le)))
    (fun _ _ _ => rfl)

theorem paragraphP_congr [Suf r1] {s : Str} {b : Bool} (h : AgreeBelow s.length r1 r2) :
    paragraphP x cfg r1 b s = paragraphP x cfg r2 b s := by
  unfold paragraphP
  refine mapOpt_congr ?_ (fun _ _ _ => rfl)
  cases b
  · simp only [Bool.false_eq_true, if_false]
    exact mapP_congr (seq_congr rfl (fun r a e => paragraphLines_congr (h.mono (Suf.le e))))
  · simp only [if_true]
    exact paragraphLines_congr h

theorem headingV2OrParagraph_congr [Suf r1] {s : Str} (h : AgreeBelow s.length r1 r2) :
    headingV2OrParagraph x cfg r1 s = headingV2OrParagraph x cfg r2 s := by
  unfold headingV2OrParagraph
  exact mapP_congr (seq_congr (paragraphP_congr h) (fun _ _ _ => rfl))

theorem conditionalBlockVec_congr {b : Behavior Block} {p q : P (List Block)} {s : Str}
    (h : p s = q s) : conditionalBlockVec b p s = conditionalBlockVec b q s := by
  unfold conditionalBlockVec
  cases b <;> first | rfl | exact h | exact value_congr h

theorem blockAlt_congr [Suf r1] {s : Str} (h : AgreeBelow s.length r1 r2) :
    blockAlt x cfg r1 s = blockAlt x cfg r2 s := by
  unfold blockAlt conditionalBlock
  refine orElse_congr rfl (orElse_congr rfl (orElse_congr ?_ (orElse_congr rfl (orElse_congr ?_
    (orElse_congr ?_ (orElse_congr ?_ (orElse_congr rfl (orElse_congr ?_ (orElse_congr rfl
    (orElse_congr rfl (orElse_congr rfl ?_)))))))))))
  · exact conditional_congr (headingV2OrParagraph_congr h)
  · exact conditionalBlockVec_congr (githubAlertP_congr h)
  · exact conditional_congr (blockquoteP_congr h)
  · exact conditional_congr (listP_congr h)
  · exact conditional_congr (footnoteDefinitionP_congr h)
  · exact conditional_congr (mapP_congr (paragraphP_congr h))

theorem blockStep_congr [Suf r1] {s : Str} (h : AgreeBelow s.length r1 r2) :
    blockStep x cfg r1 s = blockStep x cfg r2 s := by
  unfold blockStep
  exact preceded_congr rfl (fun r a e => blockAlt_congr (h.mono (Suf.le e)))

/-! ## Paragraphs and blocks consume -/

theorem parseInlines1_nil (hc : cfg.CustomOk) : parseInlines1 x cfg [] = none := by
  have := inlineF_con x cfg hc 1
  unfold parseInlines1 inlineMany1With
  rw [mapP_none.2]
  · rfl
  · rw [many1_none]; exact Con.nil _

theorem paragraphLines_cases {rec : P (List Block)} {s r : Str} {l : List Str}
    (h : paragraphLines x cfg rec s = some (r, l)) : l = [] ∨ r.length < s.length := by
  unfold paragraphLines at h
  obtain ⟨r1, h1, h2⟩ := lineTerminated_length h
  rcases separatedList0_some.1 h1 with ⟨_, _, rfl⟩ | ⟨r2, a, l', h3, h4, rfl⟩
  · exact .inl rfl
  · right
    have := Con.lt h3
    have := Suf.le h4
    rcases h2 with h2 | ⟨rfl, rfl⟩
    · omega
    · simp at this; simp; omega

theorem paragraphP_con (hc : cfg.CustomOk) (rec : P (List Block)) (b : Bool) :
    Con (paragraphP x cfg rec b) := ⟨fun s r a h => by
  unfold paragraphP at h
  obtain ⟨lines, h1, h2⟩ := mapOpt_some.1 h
  cases b
  · simp only [Bool.false_eq_true, if_false] at h1
    exact Con.out _ _ _ h1
  · simp only [if_true] at h1
    refine ⟨Suf.out _ _ _ h1, ?_⟩
    rcases paragraphLines_cases h1 with rfl | h3
    · simp only [joinWith] at h2; rw [parseInlines1_nil hc] at h2; simp at h2
    · exact h3⟩

theorem blockAlt_con (hc : cfg.CustomOk) (rec : P (List Block)) : Con (blockAlt x cfg rec) := by
  have := paragraphP_con (x := x) hc rec true
  have := paragraphP_con (x := x) hc rec false
  have := hc.blk
  have : Con (headingV2OrParagraph x cfg rec) := by unfold headingV2OrParagraph; infer_instance
  unfold blockAlt; infer_instance

theorem blockStep_con (hc : cfg.CustomOk) (rec : P (List Block)) : Con (blockStep x cfg rec) := by
  have := blockAlt_con (x := x) hc rec
  unfold blockStep; infer_instance

theorem blockF_con (hc : cfg.CustomOk) : ∀ n, Con (blockF x cfg n)
  | 0 => by unfold blockF; infer_instance
  | n + 1 => by unfold blockF; exact blockStep_con hc _

/-- The block parser never nests deeper than its input is long. -/
theorem blockF_stable (hc : cfg.CustomOk) : ∀ n m s, s.length < n → s.length < m →
    blockF x cfg n s = blockF x cfg m s := by
  intro n
  induction n with
  | zero => intro m s h; omega
  | succ n ih =>
    intro m s h1 h2
    obtain ⟨m, rfl⟩ : ∃ k, m = k + 1 := ⟨m - 1, by omega⟩
    unfold blockF
    have := blockF_con (x := x) hc n
    exact blockStep_congr (fun t ht => ih m t (by omega) (by omega))

end

/-- `block` at its natural depth: `blocks/mod.rs:24-118`. -/
def blockP (x : PExt) (cfg : PConfig) : P (List Block) := fun s => blockF x cfg (s.length + 1) s

section
variable {x : PExt} {cfg : PConfig}

theorem blockP_eq_blockF (hc : cfg.CustomOk) {n : Nat} {s : Str} (h : s.length < n) :
    blockF x cfg n s = blockP x cfg s := blockF_stable hc _ _ _ h (by omega)

theorem blockP_con (hc : cfg.CustomOk) : Con (blockP x cfg) :=
  ⟨fun s r a h => (blockF_con hc (s.length + 1)).out s r a h⟩

/-- `block` calls itself: the recursive equation without a depth. -/
theorem blockP_eq (hc : cfg.CustomOk) (s : Str) :
    blockP x cfg s = blockStep x cfg (blockP x cfg) s := by
  unfold blockP
  rw [blockF]
  have := blockF_con (x := x) hc s.length
  exact blockStep_congr (fun t ht => blockF_stable hc _ _ _ ht (by omega))

theorem parseMarkdownF_eq (hc : cfg.CustomOk) {n : Nat} {s : Str} (h : s.length < n) :
    parseMarkdownF x cfg n s =
      (terminated (many0 (blockP x cfg)) (seq (many0 (space1 <||> lineEnding)) eof) s).map
        (fun y => ⟨y.2.flatten⟩) := by
  have := blockF_con (x := x) hc n
  unfold parseMarkdownF
  rw [terminated_congr (q' := seq (many0 (space1 <||> lineEnding)) eof)
    (many0_congr (q := blockP x cfg) s (fun t ht => blockP_eq_blockF hc
      (by have := ht.length_le; omega))) (fun _ _ _ => rfl)]
  cases terminated (many0 (blockP x cfg)) (seq (many0 (space1 <||> lineEnding)) eof) s with
  | none => rfl
  | some y => rfl

end
end Verif
