import Verif.EffectsTrack
/-!
# The recursive equation of the block parser with effects

The depth that bounds the recursion of `blockF` does not matter, also for the effects.
-/
set_option autoImplicit false
namespace Verif
namespace Fx
open Nom

section
variable {σ α β γ : Type}

/-- The rest is not longer than the input. -/
def Le (p : S σ α) : Prop := ∀ s st r a st1, p s st = (some (r, a), st1) → r.length ≤ s.length

theorem le_of_tr {p : S σ α} {q : P β} [Suf q] (h : Tr p q) : Le p := by
  intro s st r a st1 e
  rcases h.cases s st with ⟨_, h1, _⟩ | ⟨r', a', b, _, h1, h2⟩
  · rw [e] at h1; simp at h1
  · rw [e] at h1
    simp only [Prod.mk.injEq, Option.some.injEq] at h1
    rw [h1.1.1]; exact Suf.le h2

theorem many0FS_stable (p : S σ α) : ∀ n m s st, s.length < n → s.length < m → many0FS p n s st = many0FS p m s st := by
  intro n
  induction n with
  | zero => intro m s st h; omega
  | succ n ih =>
    intro m s st h1 h2
    obtain ⟨m, rfl⟩ : ∃ k, m = k + 1 := ⟨m - 1, by omega⟩
    unfold many0FS
    rcases p s st with ⟨_ | ⟨r, a⟩, st1⟩
    · rfl
    · by_cases hlt : r.length < s.length
      · simp only [hlt, if_true]
        rw [ih m r st1 (by omega) (by omega)]
      · simp only [hlt, if_false]

/-- The defining equation of `many0` with effects. -/
theorem many0S_eq (p : S σ α) (s : Str) (st : σ) : many0S p s st = match p s st with
    | (none, st1) => (some (s, []), st1)
    | (some (r, a), st1) =>
      if r.length < s.length then
        match many0S p r st1 with
        | (some (r', l), st2) => (some (r', a :: l), st2)
        | (none, st2) => (none, st2)
      else (none, st1) := by
  unfold many0S
  rw [many0FS]
  rcases p s st with ⟨_ | ⟨r, a⟩, st1⟩
  · rfl
  · by_cases hlt : r.length < s.length
    · simp only [hlt, if_true]
      rw [many0FS_stable p s.length (r.length + 1) r st1 hlt (by omega)]
      rcases many0FS p (r.length + 1) r st1 with ⟨_ | ⟨r', l⟩, st2⟩ <;> rfl
    · simp only [hlt, if_false]

theorem many0FS_congr {p q : S σ α} : ∀ n s, AgreeBelow (s.length + 1) p q → many0FS p n s = many0FS q n s := by
  intro n
  induction n with
  | zero => intro s h; rfl
  | succ n ih =>
    intro s h
    funext st
    unfold many0FS
    rw [← h s (by omega)]
    rcases p s st with ⟨_ | ⟨r, a⟩, st1⟩
    · rfl
    · by_cases hlt : r.length < s.length
      · simp only [hlt, if_true]
        rw [ih r (h.mono (by omega))]
      · simp only [hlt, if_false]

theorem many0S_congr {p q : S σ α} {s : Str} (h : AgreeBelow (s.length + 1) p q) : many0S p s = many0S q s :=
  many0FS_congr _ s h

theorem many1S_congr {p q : S σ α} (hp : Le p) {s : Str} (h : AgreeBelow (s.length + 1) p q) : many1S p s = many1S q s := by
  funext st
  unfold many1S
  rw [← h s (by omega)]
  rcases e : p s st with ⟨_ | ⟨r, a⟩, st1⟩
  · rfl
  · have := hp _ _ _ _ _ e
    simp only
    rw [many0S_congr (h.mono (by omega))]

theorem sepLoopFS_congr {sep : P β} [Suf sep] {p q : S σ α} :
    ∀ n s, AgreeBelow (s.length + 1) p q → sepLoopFS sep p n s = sepLoopFS sep q n s := by
  intro n
  induction n with
  | zero => intro s h; rfl
  | succ n ih =>
    intro s h
    funext st
    unfold sepLoopFS
    rcases e : sep s with _ | ⟨r, b⟩
    · rfl
    · have := Suf.le e
      simp only
      rw [← h r (by omega)]
      rcases p r st with ⟨_ | ⟨r', a⟩, st1⟩
      · rfl
      · by_cases hlt : r'.length < s.length
        · simp only [hlt, if_true]
          rw [ih r' (h.mono (by omega))]
        · simp only [hlt, if_false]

theorem separatedList0S_congr {sep : P β} [Suf sep] {p q : S σ α} (hp : Le p) {s : Str} (h : AgreeBelow (s.length + 1) p q) :
    separatedList0S sep p s = separatedList0S sep q s := by
  funext st
  unfold separatedList0S sepLoopS
  rw [← h s (by omega)]
  rcases e : p s st with ⟨_ | ⟨r, a⟩, st1⟩
  · rfl
  · have := hp _ _ _ _ _ e
    simp only
    rw [sepLoopFS_congr _ _ (h.mono (by omega))]

theorem orElse_congr {p p' q q' : S σ α} {s : Str} (hp : p s = p' s) (hq : q s = q' s) : (p <or> q) s = (p' <or> q') s := by
  funext st; unfold orElse; rw [hp, hq]

theorem mapS_congr {p p' : S σ α} {f : α → β} {s : Str} (hp : p s = p' s) : mapS p f s = mapS p' f s := by
  funext st; unfold mapS; rw [hp]

theorem bindS_congr {p p' : S σ α} {k : α → σ → Option β × σ} {s : Str} (hp : p s = p' s) : bindS p k s = bindS p' k s := by
  funext st; unfold bindS; rw [hp]

theorem notS_congr {p p' : S σ α} {s : Str} (hp : p s = p' s) : notS p s = notS p' s := by
  funext st; unfold notS; rw [hp]

theorem seqS_congr {p p' : S σ α} {q : S σ β} {s : Str} (hp : p s = p' s) : seqS p q s = seqS p' q s := by
  funext st; unfold seqS; rw [hp]

theorem precededS_congr {p p' : S σ α} {q : S σ β} {s : Str} (hp : p s = p' s) : precededS p q s = precededS p' q s := by
  funext st; unfold precededS; rw [hp]

theorem conditional_congr {b : Behavior σ α} {d : List α} {p q : S σ α} {s : Str} (h : p s = q s) :
    conditional b d p s = conditional b d q s := by
  unfold conditional
  cases b <;> first | rfl | exact mapS_congr h | exact bindS_congr h

theorem conditionalBlockVec_congr {b : Behavior σ Block} {p q : S σ (List Block)} {s : Str} (h : p s = q s) :
    conditionalBlockVec b p s = conditionalBlockVec b q s := by
  unfold conditionalBlockVec
  cases b <;> first | rfl | exact h | exact mapS_congr h

theorem conditionalUnit_congr {b : Behavior σ α} {p q : S σ β} {s : Str} (h : p s = q s) :
    conditionalUnit b p s = conditionalUnit b q s := by
  unfold conditionalUnit
  cases b <;> first | rfl | exact mapS_congr h

end

section
variable {σ : Type} {r1 r2 : S σ (List Block)} {x : PExt} {cfg : Config σ}

theorem blocks1_congr (hp : Le r1) {s : Str} (h : AgreeBelow (s.length + 1) r1 r2) : blocks1 r1 s = blocks1 r2 s := by
  funext st
  unfold blocks1 whole
  rw [mapS_congr (many1S_congr hp h)]

theorem blocks0_congr {s : Str} (h : AgreeBelow (s.length + 1) r1 r2) : blocks0 r1 s = blocks0 r2 s := by
  funext st
  unfold blocks0 whole
  rw [mapS_congr (many0S_congr h)]

theorem blockquoteP_congr (hp : Le r1) {s : Str} (h : AgreeBelow s.length r1 r2) : blockquoteP r1 s = blockquoteP r2 s := by
  unfold blockquoteP
  refine mapS_congr ?_
  funext st
  unfold bindS lift
  rcases e : quoteLines s with _ | ⟨r, l⟩
  · rfl
  · simp only
    rw [blocks1_congr hp (h.mono (quoteLines_length e))]

theorem githubAlertP_congr (hp : Le r1) {s : Str} (h : AgreeBelow s.length r1 r2) :
    githubAlertP x r1 s = githubAlertP x r2 s := by
  funext st
  unfold githubAlertP
  split
  · rfl
  · split
    · rfl
    · split
      · rfl
      · rename_i r lines e
        dsimp only
        rw [blocks1_congr hp (h.mono (quoteLines_tail_length e))]

theorem listItemP_congr {s : Str} (h : AgreeBelow s.length r1 r2) : listItemP r1 s = listItemP r2 s := by
  funext st
  unfold listItemP
  split
  · rfl
  · rename_i s1 k pl t f e1
    split
    · rfl
    · rename_i s2 rest e2
      rw [blocks0_congr (h.mono (listItem_content_length e1 e2))]

theorem le_listItemP : Le (listItemP r1) := by
  intro s st r a st1 e
  unfold listItemP at e
  split at e
  · simp at e
  · rename_i e1
    split at e
    · simp at e
    · rename_i e2
      have h1 := Suf.le e1
      have h2 := Suf.le e2
      split at e
      · simp at e
      · simp only [Prod.mk.injEq, Option.some.injEq] at e
        obtain ⟨⟨rfl, _⟩, _⟩ := e
        omega

theorem listP_congr {s : Str} (h : AgreeBelow s.length r1 r2) : listP r1 s = listP r2 s := by
  funext st
  unfold listP
  rw [many1S_congr le_listItemP (fun t ht => listItemP_congr (h.mono (by omega)))]

theorem footnoteDefinitionP_congr {s : Str} (h : AgreeBelow s.length r1 r2) :
    footnoteDefinitionP r1 s = footnoteDefinitionP r2 s := by
  funext st
  unfold footnoteDefinitionP
  split
  · rfl
  · rename_i s1 label e1
    split
    · rfl
    · rename_i s2 first e2
      split
      · rfl
      · rename_i s3 rest e3
        rw [blocks0_congr (h.mono ?_)]
        have h1 := Con.lt e1
        obtain ⟨s4, sp, h2, h3⟩ := preceded_some.1 e2
        have h4 := Suf.le h2
        have h5 := footnote_rest_length e3
        have h6 : (itemContent first (rest.map (fun l => [l]))).length =
            first.length + (itemContent [] (rest.map (fun l => [l]))).length := by
          simp [itemContent]
        rcases lineTerminated1_length h3 with h7 | ⟨h7, rfl⟩
        · omega
        · simp only [List.length_nil] at h5; omega

theorem notAParagraphLine_congr (hp : Le r1) {s : Str} (h : AgreeBelow s.length r1 r2) :
    notAParagraphLine x cfg r1 s = notAParagraphLine x cfg r2 s := by
  unfold notAParagraphLine
  refine orElse_congr rfl (orElse_congr rfl (orElse_congr rfl (orElse_congr ?_ (orElse_congr ?_
    (orElse_congr rfl (orElse_congr rfl (orElse_congr rfl (orElse_congr ?_ rfl))))))))
  · exact conditionalUnit_congr (blockquoteP_congr hp h)
  · exact conditionalUnit_congr (listItemP_congr h)
  · exact conditionalUnit_congr (footnoteDefinitionP_congr h)

theorem le_line : Le (precededS (notS (notAParagraphLine x cfg r1)) (lift paragraphLine)) := by
  intro s st r a st1 e
  unfold precededS notS lift at e
  rcases h : notAParagraphLine x cfg r1 s st with ⟨_ | y, st2⟩
  · rw [h] at e
    simp only [Prod.mk.injEq] at e
    exact Suf.le e.1
  · rw [h] at e; simp at e

theorem paragraphLines_congr (hp : Le r1) {s : Str} (h : AgreeBelow s.length r1 r2) :
    paragraphLines x cfg r1 s = paragraphLines x cfg r2 s := by
  unfold paragraphLines terminatedS
  refine mapS_congr (seqS_congr (separatedList0S_congr le_line (fun t ht => ?_)))
  exact precededS_congr (notS_congr (notAParagraphLine_congr hp (h.mono (by omega))))

theorem paragraphP_congr (hp : Le r1) {s : Str} {b : Bool} (h : AgreeBelow s.length r1 r2) :
    paragraphP x cfg r1 b s = paragraphP x cfg r2 b s := by
  unfold paragraphP
  refine bindS_congr ?_
  cases b
  · simp only [Bool.false_eq_true, if_false]
    refine mapS_congr ?_
    funext st
    unfold seqS lift
    rcases e : paragraphLine s with _ | ⟨r, a⟩
    · rfl
    · simp only
      rw [paragraphLines_congr hp (h.mono (Suf.le e))]
  · simp only [if_true]
    exact paragraphLines_congr hp h

theorem headingV2OrParagraph_congr (hp : Le r1) {s : Str} (h : AgreeBelow s.length r1 r2) :
    headingV2OrParagraph x cfg r1 s = headingV2OrParagraph x cfg r2 s := by
  unfold headingV2OrParagraph
  exact mapS_congr (seqS_congr (paragraphP_congr hp h))

theorem blockAlt_congr (hp : Le r1) {s : Str} (h : AgreeBelow s.length r1 r2) :
    blockAlt x cfg r1 s = blockAlt x cfg r2 s := by
  unfold blockAlt conditionalBlock
  refine orElse_congr rfl (orElse_congr rfl (orElse_congr ?_ (orElse_congr rfl (orElse_congr ?_
    (orElse_congr ?_ (orElse_congr ?_ (orElse_congr rfl (orElse_congr ?_ (orElse_congr rfl
    (orElse_congr rfl (orElse_congr rfl ?_)))))))))))
  · exact conditional_congr (headingV2OrParagraph_congr hp h)
  · exact conditionalBlockVec_congr (githubAlertP_congr hp h)
  · exact conditional_congr (blockquoteP_congr hp h)
  · exact conditional_congr (listP_congr h)
  · exact conditional_congr (footnoteDefinitionP_congr h)
  · exact conditional_congr (mapS_congr (paragraphP_congr hp h))

theorem blockStep_congr (hp : Le r1) {s : Str} (h : AgreeBelow s.length r1 r2) :
    blockStep x cfg r1 s = blockStep x cfg r2 s := by
  funext st
  unfold blockStep precededS lift
  rcases e : manyEmptyLines0 s with _ | ⟨r, a⟩
  · rfl
  · simp only
    rw [blockAlt_congr hp (h.mono (Suf.le e))]

variable {d : PConfig}

theorem le_blockF (hf : cfg.Follows d) (hc : d.CustomOk) (n : Nat) : Le (blockF x cfg n) := by
  have := blockF_con (x := x) hc n
  exact le_of_tr (tr_blockF hf n)

/-- The depth does not matter. -/
theorem blockF_stable (hf : cfg.Follows d) (hc : d.CustomOk) : ∀ n m s, s.length < n → s.length < m →
    blockF x cfg n s = blockF x cfg m s := by
  intro n
  induction n with
  | zero => intro m s h; omega
  | succ n ih =>
    intro m s h1 h2
    obtain ⟨m, rfl⟩ : ∃ k, m = k + 1 := ⟨m - 1, by omega⟩
    unfold blockF
    exact blockStep_congr (le_blockF hf hc n) (fun t ht => ih m t (by omega) (by omega))

/-- `block` at its natural depth, with effects: `blocks/mod.rs:24-118`. -/
def blockP (x : PExt) (cfg : Config σ) : S σ (List Block) := fun s => blockF x cfg (s.length + 1) s

theorem blockP_eq_blockF (hf : cfg.Follows d) (hc : d.CustomOk) {n : Nat} {s : Str} (h : s.length < n) :
    blockF x cfg n s = blockP x cfg s := blockF_stable hf hc _ _ _ h (by omega)

theorem tr_blockP (hf : cfg.Follows d) : Tr (blockP x cfg) (Verif.blockP x d) :=
  fun s st => tr_blockF hf (s.length + 1) s st

theorem le_blockP (hf : cfg.Follows d) (hc : d.CustomOk) : Le (blockP x cfg) := by
  have := Verif.blockP_con (x := x) hc
  exact le_of_tr (tr_blockP hf)

/-- `block` calls itself: the recursive equation without a depth, with effects. -/
theorem blockP_eq (hf : cfg.Follows d) (hc : d.CustomOk) (s : Str) :
    blockP x cfg s = blockStep x cfg (blockP x cfg) s := by
  unfold blockP
  rw [blockF]
  exact blockStep_congr (le_blockF hf hc _) (fun t ht => blockF_stable hf hc _ _ _ ht (by omega))

theorem parseMarkdown_eq (hf : cfg.Follows d) (hc : d.CustomOk) (s : Str) (st : σ) :
    parseMarkdown x cfg s st =
      match terminatedS (many0S (blockP x cfg)) (lift (seq (many0 (space1 <||> lineEnding)) eof)) s st with
      | (some (_, bs), st1) => (some ⟨bs.flatten⟩, st1)
      | (none, st1) => (none, st1) := by
  unfold parseMarkdown terminatedS
  rw [mapS_congr (seqS_congr (many0S_congr (q := blockP x cfg) (fun t ht => blockP_eq_blockF hf hc (by omega))))]
  rfl

end
end Fx
end Verif
