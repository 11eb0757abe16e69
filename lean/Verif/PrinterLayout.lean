import Verif.PrinterLayoutSpec
import Verif.PrinterList
/-!
# Markdown printer: C60, the output is a Markdown text of the document
-/
set_option linter.unusedVariables false
set_option linter.unusedSimpArgs false
namespace Verif

namespace Doc

/-- `s` is the output of some layout of the document at indentation `i`, where `n` is the
indentation of what follows. -/
def LayAt : Doc → Nat → Option Nat → Str → Prop
  | .nil, _, _, s => s = []
  | .append l r, i, n, s => ∃ a b, s = a ++ b ∧ l.LayAt i (some i) a ∧ r.LayAt i n b
  | .text t, _, _, s => s = t
  | .hardline, i, n, s => s = '\n' :: List.replicate (n.getD i) ' '
  | .flatAlt b f, i, n, s => b.LayAt i n s ∨ f.LayAt i n s
  | .group d, i, n, s => d.LayAt i n s
  | .nest o d, i, n, s => d.LayAt (i + o) n s
  | .column f, i, n, s => ∃ c, (f c).LayAt i n s
  | .panic, _, _, _ => False

theorem bestE_layAt (dw : Str → Nat) (w : Nat) : ∀ (d : Doc) i m p n k s q,
    bestE dw w d i m p n k = some (s, q) → d.LayAt i n s := by
  intro d
  induction d with
  | nil => intro i m p n k s q h; cases h; rfl
  | append l r hl hr =>
    intro i m p n k s q h
    simp only [bestE] at h
    split at h
    · cases h
    · rename_i a ha
      split at h
      · cases h
      · rename_i b hb
        cases h
        exact ⟨_, _, rfl, hl _ _ _ _ _ _ _ ha, hr _ _ _ _ _ _ _ hb⟩
  | text t => intro i m p n k s q h; cases h; rfl
  | hardline => intro i m p n k s q h; cases h; rfl
  | flatAlt b f hb hf =>
    intro i m p n k s q h
    cases m
    · exact .inr (hf _ _ _ _ _ _ _ h)
    · exact .inl (hb _ _ _ _ _ _ _ h)
  | group d ih =>
    intro i m p n k s q h
    cases m
    · exact ih _ _ _ _ _ _ _ h
    · simp only [bestE] at h
      split at h
      · cases h
      · exact ih _ _ _ _ _ _ _ h
      · exact ih _ _ _ _ _ _ _ h
  | nest o d ih => intro i m p n k s q h; exact ih _ _ _ _ _ _ _ h
  | column f ih => intro i m p n k s q h; exact ⟨p, ih _ _ _ _ _ _ _ _ h⟩
  | panic => intro i m p n k s q h; cases h

theorem renderE_layAt {d : Doc} {dw : Str → Nat} {w : Nat} {s : Str}
    (h : d.renderE dw w = some s) : d.LayAt 0 none s := by
  simp only [renderE, Option.map_eq_some_iff] at h
  obtain ⟨⟨t, q⟩, h, rfl⟩ := h
  exact bestE_layAt dw w d _ _ _ _ _ _ _ h

theorem layAt_app {d e : Doc} {i : Nat} {n : Option Nat} {s : Str} (h : (d.app e).LayAt i n s) :
    ∃ a b n', s = a ++ b ∧ d.LayAt i n' a ∧ e.LayAt i n b ∧ (n' = some i ∨ n' = n ∧ b = []) := by
  unfold app at h
  split at h
  · exact ⟨[], s, some i, rfl, rfl, h, .inl rfl⟩
  · exact ⟨s, [], n, by simp, h, rfl, .inr ⟨rfl, rfl⟩⟩
  · obtain ⟨a, b, rfl, ha, hb⟩ := h
    exact ⟨a, b, _, rfl, ha, hb, .inl rfl⟩

/-- A document that is not `nil` after `d`. -/
theorem layAt_app' {d e : Doc} (he : e ≠ .nil) {i : Nat} {n : Option Nat} {s : Str}
    (h : (d.app e).LayAt i n s) :
    ∃ a b, s = a ++ b ∧ d.LayAt i (some i) a ∧ e.LayAt i n b := by
  unfold app at h
  split at h
  · exact ⟨[], s, rfl, rfl, h⟩
  · exact absurd rfl he
  · exact h

theorem app_ne_nil {d e : Doc} (h : d ≠ .nil ∨ e ≠ .nil) : d.app e ≠ .nil := by
  cases d <;> cases e <;> simp_all [app]

end Doc

namespace Md
open Spec

/-- The style of a configuration. -/
def style (x : Ext) (cfg : Config) : Style :=
  ⟨x.digit, x.toPExt.upperStr, cfg.spacesBeforeListItem, cfg.emptyLineBeforeList⟩

/-! ## Inlines -/

/-- The layouts of a document are the layouts of a text. -/
def Says' (d : Doc) (t : Text) : Prop :=
  ∀ i n s, d.LayAt i n s → n.getD i ≤ i → Laid i t s ∧ (n.getD i = i → ∀ t' s', Laid i t' s' →
    Laid i (t ++ t') (s ++ s'))

theorem Spec.Laid.nil_inv {i : Nat} {t : Text} (h : Laid i t []) : t = [] := by
  cases h with
  | nil => rfl

theorem Spec.Laid.lit_append (i : Nat) (a : Str) {t : Text} {s : Str} (h : Laid i t s) :
    Laid i (lit a ++ t) (a ++ s) := by
  induction a with
  | nil => exact h
  | cons c a ih => exact .char c ih

theorem Spec.Laid.lit (i : Nat) (a : Str) : Laid i (Spec.lit a) a := by
  simpa using Laid.lit_append i a .nil

theorem Says'.text (a : Str) : Says' (.text a) (Spec.lit a) := by
  intro i n s h hn
  cases (h : s = a)
  exact ⟨.lit i a, fun _ t' s' h' => .lit_append i a h'⟩

theorem Says'.nil : Says' .nil [] := by
  intro i n s h hn
  cases (h : s = [])
  exact ⟨.nil, fun _ t' s' h' => h'⟩

theorem Says'.softline : Says' Doc.softline [none] := by
  intro i n s h hn
  rcases h with h | h
  · cases (h : s = _)
    refine ⟨.last hn, fun e t' s' h' => ?_⟩
    rw [e]
    exact .break h'
  · cases (h : s = [' '])
    exact ⟨.space .nil, fun _ t' s' h' => .space h'⟩

theorem Says'.app {d e : Doc} {a b : Text} (h : Says' d a) (h' : Says' e b) :
    Says' (d.app e) (a ++ b) := by
  intro i n s hs hn
  obtain ⟨s1, s2, n', rfl, h1, h2, h3⟩ := Doc.layAt_app hs
  have g2 := h' i n s2 h2 hn
  rcases h3 with rfl | ⟨rfl, rfl⟩
  · have g1 := h i _ s1 h1 (Nat.le_refl _)
    refine ⟨g1.2 rfl _ _ g2.1, fun e t' s' ht => ?_⟩
    rw [List.append_assoc, List.append_assoc]
    exact g1.2 rfl _ _ (g2.2 e _ _ ht)
  · have g1 := h i _ s1 h1 hn
    rw [Laid.nil_inv g2.1]
    simpa using g1

/-- The layouts of the documents of a list. -/
inductive SaysL' : List Doc → Text → Prop
  | nil : SaysL' [] []
  | cons {d : Doc} {l : List Doc} {a b : Text} : Says' d a → SaysL' l b → SaysL' (d :: l) (a ++ b)

theorem SaysL'.concat {l : List Doc} {as : Text} (h : SaysL' l as) : Says' (Doc.concat l) as := by
  have : ∀ (d : Doc) (a : Text), Says' d a → Says' (l.foldl Doc.app d) (a ++ as) := by
    induction h with
    | nil => intro d a h; simpa using h
    | cons h1 _ ih =>
      intro d a h
      simpa using ih _ _ (h.app h1)
  simpa [Doc.concat] using this _ _ Says'.nil

/-! ### Words -/

/-- A list of words and blanks, as `split_with_spaces` makes them: words are non-empty and without
whitespace. -/
def Words (l : List (Option Str)) : Prop :=
  ∀ w, some w ∈ l → w ≠ [] ∧ ∀ c ∈ w, isWs c = false

theorem splitGo_words (s : Str) : ∀ (word : Str) (res : List (Option Str)),
    (∀ c ∈ word, isWs c = false) → Words res → Words (Latex.splitGo s word res) := by
  have hpush : ∀ (word : Str) (res : List (Option Str)), (∀ c ∈ word, isWs c = false) →
      Words res → Words (if word.isEmpty then res else res ++ [some word]) := by
    intro word res hw hr
    split
    · exact hr
    · rename_i h
      intro w hm
      rcases List.mem_append.1 hm with hm | hm
      · exact hr w hm
      · cases (List.mem_singleton.1 hm)
        exact ⟨by simpa using h, hw⟩
  have hnone : ∀ (res : List (Option Str)), Words res → Words (res ++ [none]) := by
    intro res hr w hm
    rcases List.mem_append.1 hm with hm | hm
    · exact hr w hm
    · simp at hm
  induction s with
  | nil => intro word res hw hr; exact hpush word res hw hr
  | cons c s ih =>
    intro word res hw hr
    simp only [Latex.splitGo]
    split
    · refine ih [] _ (by simp) ?_
      have := hpush word res hw hr
      split
      · exact hnone _ this
      · exact this
      · exact hnone _ this
    · rename_i hc
      refine ih _ _ ?_ hr
      intro d hd
      rcases List.mem_append.1 hd with hd | hd
      · exact hw d hd
      · rw [List.mem_singleton.1 hd]; simpa using hc

theorem isSyntax_eq (x : Ext) {w : Str} (hn : w ≠ []) (hw : ∀ c ∈ w, isWs c = false) :
    isSyntax x w = startsBlock x.digit w := by
  have e4 : cs!"    ".isPrefixOf w = false := by
    cases w with
    | nil => rfl
    | cons c w =>
      have := hw c (by simp)
      have h2 : (' ' == c) = false := by
        by_cases h : ' ' = c
        · subst h; simp [isWs_sp] at this
        · simpa using h
      simp [List.isPrefixOf, h2]
  have et : (w.head? == some '\t') = false := by
    cases w with
    | nil => rfl
    | cons c w =>
      have := hw c (by simp)
      by_cases h : c = '\t'
      · subst h; exact absurd this (by decide)
      · simpa using h
  have eh : (w.head? == some '#' && w.all (· == '#')) = (!w.isEmpty && w.all (· == '#')) := by
    cases w with
    | nil => rfl
    | cons c w => simp
  have el : longSyntax x w = ((!w.isEmpty && w.all (· == '#')) || numbered x.digit w ||
      (decide (3 ≤ w.length) && ['-', '*', '_'].any fun c => w.all (· == c)) ||
      cs!"```".isPrefixOf w || cs!"~~~~".isPrefixOf w) := by
    simp only [longSyntax, e4, et, eh, Bool.or_false, orderedListRegex, numbered,
      horizontalRuleRegex, codeFenceRegex, List.any_cons, List.any_nil, Bool.or_assoc]
  match w, hn with
  | [c], _ =>
    simp only [isSyntax, startsBlock]
    by_cases hc : c.toNat < 128
    · simp only [hc, if_true]
      have h9 : (c == '\t') = false := by simpa using et
      have hs : ∀ a : Char, (cs!"x" == cs!"x") = true := fun _ => rfl
      simp only [h9, Bool.false_or, blockStarters]
      simp [numbered, List.isPrefixOf, Bool.or_assoc]
      by_cases h1 : c = '-'
      · subst h1; rfl
      by_cases h2 : c = '*'
      · subst h2; rfl
      by_cases h3 : c = '+'
      · subst h3; rfl
      by_cases h4 : c = '#'
      · subst h4; rfl
      by_cases h5 : c = '>'
      · subst h5; rfl
      by_cases h6 : c = '|'
      · subst h6; rfl
      simp [h1, h2, h3, h4, h5, h6]
    · simp only [hc, if_false]
      rw [el]
      have hne : ∀ d : Char, d.toNat < 128 → ¬ c = d := by
        intro d hd h; subst h; exact hc hd
      have : ([cs!"-", cs!"*", cs!"+", cs!">", cs!"|"].contains [c]) = false := by
        simp [hne '-' (by decide), hne '*' (by decide), hne '+' (by decide), hne '>' (by decide),
          hne '|' (by decide)]
      simp only [this, Bool.false_or]
  | a :: b :: w, _ =>
    simp only [isSyntax, startsBlock]
    rw [el]
    have : ([cs!"-", cs!"*", cs!"+", cs!">", cs!"|"].contains (a :: b :: w)) = false := by simp
    simp only [this, Bool.false_or]

/-- `split_with_spaces` from the front; `b`: a blank has just been pushed. -/
def splitFront (b : Bool) (word : Str) : Str → List (Option Str)
  | [] => if word.isEmpty then [] else [some word]
  | c :: s =>
    if isWs c then
      if word.isEmpty then (if b then splitFront true [] s else none :: splitFront true [] s)
      else some word :: none :: splitFront true [] s
    else splitFront b (word ++ [c]) s

theorem splitGo_front (s : Str) : ∀ (word : Str) (res : List (Option Str)),
    Latex.splitGo s word res = res ++ splitFront (decide (res.getLast? = some none)) word s := by
  induction s with
  | nil =>
    intro word res
    simp only [Latex.splitGo, splitFront]
    split <;> simp
  | cons c s ih =>
    intro word res
    simp only [Latex.splitGo, splitFront]
    by_cases hc : isWs c = true
    · simp only [hc, if_true]
      by_cases hw : word.isEmpty = true
      · simp only [hw, if_true]
        cases hr : res.getLast? with
        | none => simp only; rw [ih]; simp
        | some o =>
          cases o with
          | none => simp only; rw [ih, hr]; simp
          | some w => simp only; rw [ih]; simp
      · simp only [hw, if_false, Bool.false_eq_true, List.getLast?_concat]
        rw [ih]; simp
    · simp only [hc, Bool.false_eq_true, if_false, ih]

/-- The tokens of words and blanks. -/
def wordsToks (digit : Char → Bool) : List (Option Str) → Text
  | [] => []
  | some w :: l => Spec.lit w ++ wordsToks digit l
  | none :: l =>
    (if startsBlock digit ((findNextWord l).getD []) then some ' ' else none) :: wordsToks digit l

theorem startsBlock_nil (digit : Char → Bool) : startsBlock digit [] = false := rfl

theorem findNextWord_front (s : Str) : ∀ (b : Bool) (word : Str), (∀ c ∈ word, isWs c = false) →
    (findNextWord (splitFront b word s)).getD [] =
      if word = [] then nextWord s else word ++ s.takeWhile (fun c => !isWs c) := by
  induction s with
  | nil =>
    intro b word hw
    cases word <;> simp [splitFront, findNextWord, nextWord]
  | cons c s ih =>
    intro b word hw
    simp only [splitFront]
    by_cases hc : isWs c = true
    · simp only [hc, if_true]
      by_cases hn : word = []
      · subst hn
        have := ih true [] (by simp)
        simp only [if_true] at this
        cases b <;> simp [findNextWord, this, nextWord, hc]
      · have : word.isEmpty = false := by simpa using hn
        simp [this, findNextWord, hn, hc]
    · have hc' : isWs c = false := by simpa using hc
      simp only [hc, Bool.false_eq_true, if_false]
      rw [ih b (word ++ [c]) (by
        intro d hd
        rcases List.mem_append.1 hd with hd | hd
        · exact hw d hd
        · rw [List.mem_singleton.1 hd]; exact hc')]
      by_cases hn : word = []
      · subst hn; simp [nextWord, hc']
      · simp [hn, hc']

theorem wordsToks_front (digit : Char → Bool) (s : Str) : ∀ (b : Bool) (word : Str),
    wordsToks digit (splitFront b word s) =
      Spec.lit word ++ textToks digit (word.isEmpty && b) s := by
  induction s with
  | nil => intro b word; cases word <;> simp [splitFront, wordsToks, textToks, Spec.lit]
  | cons c s ih =>
    intro b word
    simp only [splitFront, textToks]
    have hf := findNextWord_front s true [] (by simp)
    simp only [if_true] at hf
    have hi := ih true []
    simp only [List.isEmpty_nil, Bool.true_and] at hi
    by_cases hc : isWs c = true
    · simp only [hc, if_true]
      cases word with
      | nil =>
        cases b
        · simp [wordsToks, hi, hf, Spec.lit]
        · simp [hi, Spec.lit]
      | cons d word => simp [wordsToks, hi, hf, Spec.lit]
    · simp only [hc, Bool.false_eq_true, if_false, ih]
      have : (word ++ [c]).isEmpty = false := by cases word <;> rfl
      simp [this, Spec.lit]

theorem findNextWord_mem {l : List (Option Str)} {w : Str} (h : findNextWord l = some w) :
    some w ∈ l := by
  induction l with
  | nil => cases h
  | cons o l ih =>
    cases o with
    | some v => cases h; simp
    | none => exact List.mem_cons_of_mem _ (ih h)

theorem safeTextDocs_says (x : Ext) (l : List (Option Str)) (hl : Words l) :
    SaysL' (safeTextDocs x l) (wordsToks x.digit l) := by
  induction l with
  | nil => exact .nil
  | cons o l ih =>
    have hl' : Words l := fun w hw => hl w (List.mem_cons_of_mem _ hw)
    cases o with
    | some w => exact .cons (.text w) (ih hl')
    | none =>
      refine .cons (a := [_]) ?_ (ih hl')
      cases hf : findNextWord l with
      | none => simpa [startsBlock_nil] using Says'.softline
      | some w =>
        have hw := hl' w (findNextWord_mem hf)
        simp only [isSafeBreakBefore, isSyntax_eq x hw.1 hw.2, Option.getD_some]
        by_cases hb : startsBlock x.digit w = true
        · simpa [hb, Spec.lit] using Says'.text [' ']
        · simpa [hb] using Says'.softline

theorem nextWord_cons_ws {c : Char} {s : Str} (h : isWs c = true) : nextWord (c :: s) = nextWord s := by
  simp [nextWord, h]

theorem nlToSpace_cons (c : Char) (s : Str) :
    Latex.nlToSpace (c :: s) = (if c = '\n' then ' ' else c) :: Latex.nlToSpace s := rfl

theorem isWs_nlToSpace (c : Char) : isWs (if c = '\n' then ' ' else c) = isWs c := by
  by_cases hc : c = '\n'
  · subst hc; rfl
  · simp [hc]

theorem takeWhile_nlToSpace (s : Str) : (Latex.nlToSpace s).takeWhile (fun c => !isWs c) =
    s.takeWhile fun c => !isWs c := by
  induction s with
  | nil => rfl
  | cons c s ih =>
    rw [nlToSpace_cons]
    by_cases hc : isWs c = true
    · simp [List.takeWhile_cons, isWs_nlToSpace, hc]
    · have : c ≠ '\n' := by rintro rfl; simp [isWs_nl] at hc
      simp [List.takeWhile_cons, hc, this, ih]

theorem nextWord_nlToSpace (s : Str) : nextWord (Latex.nlToSpace s) = nextWord s := by
  induction s with
  | nil => rfl
  | cons c s ih =>
    rw [nlToSpace_cons]
    by_cases hc : isWs c = true
    · rw [nextWord_cons_ws hc, nextWord_cons_ws (by rw [isWs_nlToSpace]; exact hc), ih]
    · have : c ≠ '\n' := by rintro rfl; simp [isWs_nl] at hc
      simp only [nextWord, this, if_false, List.dropWhile_cons, hc, Bool.false_eq_true,
        List.takeWhile_cons, Bool.not_false, if_true, takeWhile_nlToSpace]

theorem textToks_nlToSpace (digit : Char → Bool) (b : Bool) (s : Str) :
    textToks digit b (Latex.nlToSpace s) = textToks digit b s := by
  induction s generalizing b with
  | nil => rfl
  | cons c s ih =>
    rw [nlToSpace_cons]
    by_cases hc : isWs c = true
    · simp only [textToks, isWs_nlToSpace, hc, if_true, ih, nextWord_nlToSpace]
    · have : c ≠ '\n' := by rintro rfl; simp [isWs_nl] at hc
      simp [textToks, hc, ih, this]

theorem textDoc_says' (x : Ext) (t : Str) : Says' (textDoc x true t) (textToks x.digit false t) := by
  have h := (safeTextDocs_says x (splitWithSpaces (Latex.nlToSpace t))
    (splitGo_words _ _ _ (by simp) (by intro w hw; simp at hw))).concat
  rw [show wordsToks x.digit (splitWithSpaces (Latex.nlToSpace t)) = textToks x.digit false t by
    rw [splitWithSpaces, splitGo_front]
    simp only [List.getLast?_nil, List.nil_append]
    rw [wordsToks_front]
    simp [Spec.lit, textToks_nlToSpace]] at h
  exact h

theorem lit_append (a b : Str) : Spec.lit (a ++ b) = Spec.lit a ++ Spec.lit b := by simp [Spec.lit]

theorem inline_says' (x : Ext) :
    (∀ i, Says' (inlineDoc x true i) (inlineToks x.digit i)) ∧
    (∀ l, SaysL' (inlineDocs x true l) (inlinesToks x.digit l)) := by
  apply Inline.ind
  case text => intro s; exact textDoc_says' x s
  case lineBreak => exact .text _
  case code =>
    intro s
    simp only [inlineToks, lit_append]
    exact ((Says'.text _).app (.text _)).app (.text _)
  case html => intro s; exact .text _
  case link =>
    intro d t c ih
    simp only [inlineToks, lit_append]
    have ht : Says' (linkTitleDoc t) (Spec.lit (title t)) := by
      cases t with
      | none => exact .nil
      | some t =>
        simp only [title, lit_append]
        exact ((Says'.text _).app (.text _)).app (.text _)
    have := (((((Says'.text cs!"[").app (SaysL'.concat ih)).app (.text cs!"](")).app (.text d)).app
      ht).app (.text cs!")")
    simpa [inlineDoc] using this
  case linkReference =>
    intro l t hl ht
    simp only [inlineDoc, inlineToks]
    split
    · exact ((Says'.text _).app (SaysL'.concat hl)).app (.text _)
    · exact ((((Says'.text _).app (SaysL'.concat ht)).app (.text _)).app
        (SaysL'.concat hl)).app (.text _)
  case image =>
    intro d t a
    simp only [inlineToks, lit_append, ← titlePart_title]
    exact (((((Says'.text _).app (.text _)).app (.text _)).app (.text _)).app (.text _)).app (.text _)
  case emphasis => intro c ih; exact ((Says'.text _).app (SaysL'.concat ih)).app (.text _)
  case strong => intro c ih; exact ((Says'.text _).app (SaysL'.concat ih)).app (.text _)
  case strikethrough => intro c ih; exact ((Says'.text _).app (SaysL'.concat ih)).app (.text _)
  case autolink => intro s; exact .text _
  case footnoteReference => intro s; exact .text _
  case empty => exact .nil
  case nil => exact .nil
  case cons => intro i l hi hl; exact .cons hi hl

theorem inlines_says' (x : Ext) (l : List Inline) :
    Says' (inlinesDoc x true l) (inlinesToks x.digit l) := ((inline_says' x).2 l).concat

/-! ## Lines -/

/-- Layouts of documents at the same indentation. -/
inductive LayAtL (i : Nat) : List Doc → List Str → Prop
  | nil : LayAtL i [] []
  | cons {d : Doc} {l : List Doc} {a : Str} {as : List Str} {n : Option Nat} :
      d.LayAt i n a → n.getD i ≤ i → LayAtL i l as → LayAtL i (d :: l) (a :: as)

theorem layAt_foldl (i : Nat) (l : List Doc) : ∀ {d : Doc} {n : Option Nat} {s : Str},
    (∀ e ∈ l, e ≠ .nil) → n.getD i ≤ i →
    (l.foldl (fun acc e => (acc.app .hardline).app e) d).LayAt i n s →
    ∃ a as n', d.LayAt i n' a ∧ n'.getD i ≤ i ∧ LayAtL i l as ∧
      s = a ++ (as.map (newline i ++ ·)).flatten := by
  induction l with
  | nil => intro d n s _ hn h; exact ⟨s, [], n, h, hn, .nil, by simp⟩
  | cons e l ih =>
    intro d n s he hn h
    obtain ⟨a, as, n', h1, hn', h2, rfl⟩ := ih (fun e' h' => he e' (by simp [h'])) hn h
    obtain ⟨b, c, rfl, h4, h5⟩ := Doc.layAt_app' (he e (by simp)) h1
    obtain ⟨b', g, rfl, h6, h7⟩ := Doc.layAt_app' (by simp) h4
    cases (h7 : g = _)
    exact ⟨b', c :: as, _, h6, Nat.le_refl _, .cons h5 hn' h2, by simp [newline]⟩

theorem layAt_intersperse {i : Nat} {l : List Doc} {n : Option Nat} {s : Str}
    (he : ∀ e ∈ l, e ≠ .nil) (hn : n.getD i ≤ i)
    (h : (Doc.intersperse l .hardline).LayAt i n s) :
    ∃ as, LayAtL i l as ∧ s = joinWith (newline i) as := by
  cases l with
  | nil => cases (h : s = []); exact ⟨[], .nil, rfl⟩
  | cons d l =>
    obtain ⟨a, as, n', h1, hn', h2, rfl⟩ := layAt_foldl i l (fun e h' => he e (by simp [h'])) hn h
    exact ⟨a :: as, .cons h1 hn' h2, by rw [joinWith_cons]⟩

theorem layAtL_texts {i : Nat} {ts as : List Str} (h : LayAtL i (ts.map .text) as) : as = ts := by
  induction ts generalizing as with
  | nil => cases h; rfl
  | cons t ts ih =>
    cases h with
    | cons h1 _ h2 => cases (h1 : _ = t); rw [ih h2]

theorem layAtL_quoted {i : Nat} {ts as : List Str}
    (h : LayAtL i (ts.map fun l => (Doc.text cs!"> ").app (.text l)) as) :
    as = ts.map fun l => cs!"> " ++ l := by
  induction ts generalizing as with
  | nil => cases h; rfl
  | cons t ts ih =>
    cases h with
    | cons h1 _ h2 =>
      obtain ⟨a, b, rfl, ha, hb⟩ := h1
      cases (ha : a = _); cases (hb : b = _)
      rw [ih h2]; rfl

/-! ## Blocks -/

theorem alertLine_eq (l : Str) : Md.alertLine l = Spec.alertLine l := by
  unfold Md.alertLine Spec.alertLine
  cases l <;> simp

theorem prefixLength_eq {cfg : Config} {k : ListKind} {n pl : Nat}
    (h : prefixLength cfg k n = some pl) : pl = contentIndent cfg.spacesBeforeListItem k n := by
  cases k with
  | bullet b => cases h; rfl
  | ordered start =>
    simp only [prefixLength] at h
    split at h
    · cases h; rfl
    · cases h

section
variable (x : Ext) (cfg : Config)

theorem blocks_prints (i : Nat) (l : List Block)
    (ih : ∀ b ∈ l, ∀ d n s, blockDoc x cfg b = some d → d.LayAt i n s → n.getD i ≤ i →
      Printed (style x cfg) i b s) :
    ∀ first acc d n s, blocksDoc x cfg first acc l = some d → d.LayAt i n s → n.getD i ≤ i →
      ∃ a r n', s = a ++ r ∧ acc.LayAt i n' a ∧ PrintedL (style x cfg) i first l r ∧
        n'.getD i ≤ i ∧ (n' = some i ∨ n' = n ∧ r = []) := by
  induction l with
  | nil =>
    intro first acc d n s h hs hn
    cases h
    exact ⟨s, [], n, by simp, hs, rfl, hn, .inr ⟨rfl, rfl⟩⟩
  | cons b l ihl =>
    intro first acc d n s h hs hn
    simp only [blocksDoc] at h
    split at h
    · cases h
    · rename_i db hb
      obtain ⟨a1, r1, n1, rfl, h1, hp, hn1, hor1⟩ :=
        ihl (fun b' hb' => ih b' (by simp [hb'])) _ _ _ _ _ h hs hn
      obtain ⟨a2, a3, n2, rfl, h2, h3, hor2⟩ := Doc.layAt_app h1
      have hb3 := ih b (by simp) db n1 a3 hb h3 hn1
      have hn2 : n2.getD i ≤ i := by
        rcases hor2 with rfl | ⟨rfl, _⟩
        · exact Nat.le_refl _
        · exact hn1
      have hor : n2 = some i ∨ n2 = n ∧ a3 ++ r1 = [] := by
        rcases hor2 with rfl | ⟨rfl, rfl⟩
        · exact .inl rfl
        · rcases hor1 with rfl | ⟨rfl, rfl⟩
          · exact .inl rfl
          · exact .inr ⟨rfl, rfl⟩
      cases first with
      | true =>
        simp only [if_true] at h2
        exact ⟨a2, a3 ++ r1, n2, by simp, h2, ⟨[], a3, r1, by simp, hb3, hp, by simp⟩, hn2, hor⟩
      | false =>
        simp only [Bool.false_eq_true, if_false, separate] at h2
        have hj : n2.getD i = i ∨ n2.getD i ≤ i ∧ a3 ++ r1 = [] := by
          rcases hor with rfl | ⟨_, e⟩
          · exact .inl rfl
          · exact .inr ⟨hn2, e⟩
        have two : ((acc.app .hardline).app .hardline).LayAt i n2 a2 →
            ∃ a, a2 = a ++ (newline i ++ newline (n2.getD i)) ∧ acc.LayAt i (some i) a := by
          intro h2
          obtain ⟨c1, c2, rfl, h4, h5⟩ := Doc.layAt_app' (by simp) h2
          obtain ⟨c3, c4, rfl, h6, h7⟩ := Doc.layAt_app' (by simp) h4
          cases (h5 : c2 = _); cases (h7 : c4 = _)
          exact ⟨c3, by simp [newline], h6⟩
        have one : (acc.app .hardline).LayAt i n2 a2 →
            ∃ a, a2 = a ++ newline (n2.getD i) ∧ acc.LayAt i (some i) a := by
          intro h2
          obtain ⟨c1, c2, rfl, h4, h5⟩ := Doc.layAt_app' (by simp) h2
          cases (h5 : c2 = _)
          exact ⟨c1, by simp [newline], h4⟩
        have fin : ∀ sep a, a2 = a ++ sep → acc.LayAt i (some i) a →
            Separates (style x cfg) i b (a3 ++ r1) sep →
            ∃ a r n', a2 ++ a3 ++ r1 = a ++ r ∧ acc.LayAt i n' a ∧
              PrintedL (style x cfg) i false (b :: l) r ∧ n'.getD i ≤ i ∧
              (n' = some i ∨ n' = n ∧ r = []) := by
          rintro sep a rfl ha hsep
          exact ⟨a, sep ++ a3 ++ r1, some i, by simp, ha, ⟨sep, a3, r1, by simpa using hsep, hb3, hp, rfl⟩,
            Nat.le_refl _, .inl rfl⟩
        by_cases hlist : isList b = true
        · cases b with
          | list k items =>
            simp only [isList, if_true] at h2
            by_cases he : cfg.emptyLineBeforeList = true
            · simp only [he, if_true] at h2
              obtain ⟨a, e, ha⟩ := two h2
              exact fin _ a e ha ⟨_, hj, by simp [style, he]⟩
            · simp only [he, if_false, Bool.false_eq_true] at h2
              obtain ⟨a, e, ha⟩ := one h2
              exact fin _ a e ha ⟨_, hj, by simp [style, he]⟩
          | _ => simp [isList] at hlist
        · simp only [hlist, if_false, Bool.false_eq_true] at h2
          obtain ⟨a, e, ha⟩ := two h2
          refine fin _ a e ha ⟨_, hj, ?_⟩
          cases b <;> first | rfl | (simp [isList] at hlist)

theorem blocks_prints' (i : Nat) (l : List Block)
    (ih : ∀ b ∈ l, ∀ d n s, blockDoc x cfg b = some d → d.LayAt i n s → n.getD i ≤ i →
      Printed (style x cfg) i b s) {d : Doc} {n : Option Nat} {s : Str}
    (h : blocksDoc x cfg true .nil l = some d) (hs : d.LayAt i n s) (hn : n.getD i ≤ i) :
    PrintedL (style x cfg) i true l s := by
  obtain ⟨a, r, n', rfl, h1, h2, -, -⟩ := blocks_prints x cfg i l ih _ _ _ _ _ h hs hn
  cases (h1 : a = [])
  exact h2

theorem itemDoc_ne_nil (k : ListKind) (pl c : Nat) (t : Option TaskState) (d : Doc) :
    itemDoc cfg k pl c t d ≠ .nil := by
  unfold itemDoc
  exact Doc.app_ne_nil (.inr (by simp))

theorem taskDoc_layAt {t : Option TaskState} {i : Nat} {n : Option Nat} {s : Str}
    (h : (taskDoc t).LayAt i n s) : s = taskBox t := by
  rcases t with _ | _ | _
  · exact h
  · obtain ⟨a, b, rfl, ha, hb⟩ := h
    cases (ha : a = _); cases (hb : b = _); rfl
  · obtain ⟨a, b, rfl, ha, hb⟩ := h
    cases (ha : a = _); cases (hb : b = _); rfl

theorem itemDocs_ne_nil {k : ListKind} {pl : Nat} {items : List ListItem} : ∀ {c : Nat}
    {ds : List Doc}, itemDocs x cfg k pl c items = some ds → ∀ e ∈ ds, e ≠ .nil := by
  induction items with
  | nil => intro c ds h e he; cases h; cases he
  | cons it l ih =>
    intro c ds h e he
    simp only [itemDocs] at h
    split at h
    · cases h
    · split at h
      · cases h
      · split at h
        · cases h
        · rename_i ds' hds'
          cases h
          rcases List.mem_cons.1 he with rfl | he
          · exact itemDoc_ne_nil cfg _ _ _ _ _
          · exact ih hds' e he

theorem getD_mono {n : Option Nat} {i j : Nat} (h : n.getD i ≤ i) (hij : i ≤ j) : n.getD j ≤ j := by
  cases n with
  | none => exact Nat.le_refl _
  | some m => exact Nat.le_trans (show m ≤ i from h) hij

theorem item_layAt {k : ListKind} {pl c ind : Nat} {t : Option TaskState} {d : Doc} {n : Option Nat}
    {s : Str} (h : (itemDoc cfg k pl c t d).LayAt ind n s) :
    ∃ body, s = List.replicate cfg.spacesBeforeListItem ' ' ++ Md.marker k c ++ cs!" " ++ taskBox t ++
      body ∧ d.LayAt (ind + pl) n body := by
  obtain ⟨a, body, rfl, h1, h2⟩ := Doc.layAt_app' (by simp) h
  obtain ⟨a, tk, n', rfl, h3, h4, -⟩ := Doc.layAt_app h1
  obtain ⟨a, sp, n', rfl, h5, h6, -⟩ := Doc.layAt_app h3
  obtain ⟨a, mk, n', rfl, h7, h8, -⟩ := Doc.layAt_app h5
  cases (h6 : sp = _); cases (h7 : a = _); cases (h8 : mk = _)
  rw [taskDoc_layAt h4]
  exact ⟨body, rfl, h2⟩

/-- The lines of the items from the `i`-th on. -/
theorem items_prints (k : ListKind) (n ind pl : Nat)
    (hpl : pl = contentIndent cfg.spacesBeforeListItem k n) (items : List ListItem)
    (ih : ∀ it ∈ items, ∀ d m s, itemBlocksDoc x cfg it = some d → d.LayAt (ind + pl) m s →
      m.getD (ind + pl) ≤ ind + pl → PrintedItem (style x cfg) (ind + pl) it s) :
    ∀ j ds as, itemDocs x cfg k pl (firstCounter k + j) items = some ds → LayAtL ind ds as →
      PrintedItems (style x cfg) k n ind j items
        (if j = 0 then joinWith (newline ind) as else (as.map (newline ind ++ ·)).flatten) := by
  induction items with
  | nil =>
    intro j ds as h has
    cases h; cases has
    simp [PrintedItems, joinWith]
  | cons it l ihl =>
    intro j ds as h has
    simp only [itemDocs] at h
    split at h
    · cases h
    · rename_i d hd
      split at h
      · cases h
      · rename_i c hc
        split at h
        · cases h
        · rename_i ds' hds'
          cases h
          cases has with
          | cons h1 hn h2 =>
            rename_i a as m
            have hc' : itemDocs x cfg k pl (firstCounter k + (j + 1)) l = some ds' := by
              rcases k with start | b
              · simp only [nextCounter] at hc
                split at hc
                · cases hc; exact hds'
                · cases hc
              · cases hc
                rw [itemDocs_bullet x cfg b pl l _ (firstCounter (.bullet b) + j)]; exact hds'
            obtain ⟨body, rfl, hb⟩ := item_layAt cfg h1
            have hi := ih it (by simp) d m body hd hb (getD_mono hn (by omega))
            have hr := ihl (fun it' h' => ih it' (by simp [h'])) (j + 1) ds' as hc' h2
            simp only [Nat.add_eq_zero_iff, Nat.one_ne_zero, and_false, if_false] at hr
            subst hpl
            refine ⟨body, _, hi, hr, ?_⟩
            by_cases hj : j = 0
            · subst hj
              simp only [if_true, joinWith_cons, itemText, marker_eq, List.nil_append]
              rfl
            · simp only [hj, if_false, List.map_cons, List.flatten_cons, itemText, marker_eq]
              rfl

theorem says_layAt : ∀ {d : Doc}, d.TextOnly → ∀ {i : Nat} {n : Option Nat} {s : Str},
    d.LayAt i n s → s = d.texts := by
  intro d
  induction d with
  | nil => intro _ i n s h; exact h
  | append l r hl hr =>
    intro ht i n s h
    obtain ⟨a, b, rfl, ha, hb⟩ := h
    rw [hl ht.1 ha, hr ht.2 hb]; rfl
  | text t => intro _ i n s h; exact h
  | _ => intro h; cases h

theorem Says.layAt {d : Doc} {a : Str} (h : Says d a) {i : Nat} {n : Option Nat} {s : Str}
    (hs : d.LayAt i n s) : s = a := by
  rw [says_layAt h.1 hs, h.2]

theorem block_prints :
    (∀ b : Block, ∀ d i n s, blockDoc x cfg b = some d → d.LayAt i n s → n.getD i ≤ i →
      Printed (style x cfg) i b s) ∧
    (∀ it : ListItem, ∀ d i n s, itemBlocksDoc x cfg it = some d → d.LayAt i n s → n.getD i ≤ i →
      PrintedItem (style x cfg) i it s) ∧
    (∀ l : List Block, ∀ b ∈ l, ∀ d i n s, blockDoc x cfg b = some d → d.LayAt i n s →
      n.getD i ≤ i → Printed (style x cfg) i b s) ∧
    (∀ l : List ListItem, ∀ it ∈ l, ∀ d i n s, itemBlocksDoc x cfg it = some d → d.LayAt i n s →
      n.getD i ≤ i → PrintedItem (style x cfg) i it s) := by
  apply Block.ind
  case paragraph =>
    intro c d i n s h hs hn
    cases h
    exact (inlines_says' x c i n s hs hn).1
  case heading =>
    intro k c d i n s h hs hn
    cases h
    have setext : ∀ u : Str, (((inlinesDoc x true c).app .hardline).app (.text u)).LayAt i n s →
        ∃ a, Laid i (inlinesToks x.digit c) a ∧ s = a ++ newline i ++ u := by
      intro u hs
      obtain ⟨a, b, rfl, h1, h2⟩ := Doc.layAt_app' (by simp) hs
      obtain ⟨a, b', rfl, h3, h4⟩ := Doc.layAt_app' (by simp) h1
      cases (h2 : b = _); cases (h4 : b' = _)
      exact ⟨a, (inlines_says' x c i _ a h3 (Nat.le_refl _)).1, rfl⟩
    cases k with
    | atx m => exact (((Says.text _).app (.text _)).app (inlines_says x c)).layAt hs
    | setext v => cases v <;> exact setext _ hs
  case thematicBreak => intro d i n s h hs hn; cases h; exact hs
  case blockQuote =>
    intro b ih d i n s h hs hn
    cases h
    obtain ⟨col, hs⟩ := hs
    unfold quoteDoc at hs
    split at hs
    · cases hs
    · rename_i inner hin
      split at hs
      · split at hs
        · cases hs
        · rename_i text ht
          obtain ⟨as, h1, rfl⟩ := layAt_intersperse (by
            intro e he
            obtain ⟨l, -, rfl⟩ := List.mem_map.1 he
            simp [Doc.app]) hn hs
          rw [layAtL_quoted h1]
          exact ⟨text, blocks_prints' x cfg 0 b (fun b' hb' d n s => ih b' hb' d 0 n s) hin
            (Doc.renderE_layAt ht) (Nat.le_refl _), rfl⟩
      · cases hs
  case list =>
    intro k items ih d i n s h hs hn
    simp only [blockDoc] at h
    split at h
    · cases h
    · rename_i pl hpl
      split at h
      · cases h
      · rename_i ds hds
        cases h
        have hne : ∀ e ∈ ds, e ≠ .nil := itemDocs_ne_nil x cfg hds
        obtain ⟨as, h1, rfl⟩ := layAt_intersperse hne hn hs
        have := items_prints x cfg k items.length i pl (prefixLength_eq hpl) items
          (fun it hit d m s => ih it hit d _ m s) 0 ds as hds h1
        exact this
  case codeBlock =>
    intro k t d i n s h hs hn
    cases h
    cases k with
    | indented => exact hs
    | fenced info =>
      have := (((Says.text _).app (.text _)).app (.text _)).layAt hs
      simpa [Printed] using this
  case htmlBlock => intro t d i n s h hs hn; cases h; exact hs
  case definition =>
    intro l ds t d i n s h hs hn
    cases h
    have := (((Says'.text _).app (inlines_says' x l)).app (.text _)).app (.text _) i n s hs hn
    simpa [Printed, Spec.lit, titlePart_title, style] using this.1
  case table =>
    intro rows al d i n s h hs hn hr
    have e := h.symm.trans (tableDoc_eq x hr)
    cases rows with
    | nil => cases e; exact hs
    | cons r rows => cases e; exact hs
  case footnoteDefinition =>
    intro l b ih d i n s h hs hn
    simp only [blockDoc] at h
    split at h
    · cases h
    · rename_i d' hd'
      cases h
      obtain ⟨a, inner, n', rfl, h1, h2, -⟩ := Doc.layAt_app hs
      cases (h1 : a = _)
      exact ⟨inner, blocks_prints' x cfg i b (fun b' hb' d n s => ih b' hb' d i n s) hd' h2 hn, rfl⟩
  case githubAlert =>
    intro t b ih d i n s h hs hn
    simp only [blockDoc] at h
    split at h
    · cases h
    · rename_i d' hd'
      have key : ∀ rest : List Str, (Doc.intersperse (((cs!"> [!" ++ x.toPExt.upperStr (alertName t) ++
          cs!"]") :: rest).map .text) .hardline).LayAt i n s →
          s = joinWith (newline i) ((cs!"> [!" ++ Spec.alertName x.toPExt.upperStr t ++ cs!"]") :: rest) := by
        intro rest hs
        obtain ⟨as, h1, rfl⟩ := layAt_intersperse (by
            intro e he
            obtain ⟨l, -, rfl⟩ := List.mem_map.1 he
            simp) hn hs
        rw [layAtL_texts h1, upper_name]
      cases b with
      | nil =>
        cases h
        exact ⟨[], rfl, key _ hs⟩
      | cons b1 b2 =>
        simp only [alertDoc, List.isEmpty_cons, Bool.false_eq_true, if_false, Option.bind_eq_bind,
          Option.bind_eq_some_iff, Option.map_eq_some_iff] at h
        obtain ⟨rest, ⟨text, ht, rfl⟩, h⟩ := h
        cases h
        refine ⟨text, blocks_prints' x cfg 0 _ (fun b' hb' d n s => ih b' hb' d 0 n s) hd'
          (Doc.renderE_layAt ht) (Nat.le_refl _), ?_⟩
        rw [key _ hs]
        rw [List.map_congr_left (fun l _ => alertLine_eq l)]
        rfl
  case empty => intro d i n s h hs hn; cases h; exact hs
  case item =>
    intro t b ih d i n s h hs hn
    exact blocks_prints' x cfg i b (fun b' hb' d n s => ih b' hb' d i n s) h hs hn
  case nilB => intro b hb; cases hb
  case consB =>
    intro b l hb hl b' hm
    rcases List.mem_cons.1 hm with rfl | hm
    · exact hb
    · exact hl b' hm
  case nilI => intro b hb; cases hb
  case consI =>
    intro b l hb hl b' hm
    rcases List.mem_cons.1 hm with rfl | hm
    · exact hb
    · exact hl b' hm

/-- **C60.** What `render_markdown` prints is a Markdown text of the document. -/
theorem C60_layout (ast : Document) (s : Str) (h : renderMarkdown x cfg ast = some s) :
    PrintedL (style x cfg) 0 true ast.blocks s := by
  unfold renderMarkdown at h
  split at h
  · cases h
  · rename_i d hd
    exact blocks_prints' x cfg 0 _ (fun b' _ d n s => (block_prints x cfg).1 b' d 0 n s) hd
      (Doc.renderE_layAt h) (Nat.le_refl _)

end

/-- A document that exercises most of the specification. -/
example : renderMarkdown Ext.ascii { Config.default with width := 12 } ⟨[
    .heading (.atx 2) [.text cs!"title"],
    .paragraph [.text cs!"some text - with ", .strong [.text cs!"words"]],
    .list (.ordered 9) [.mk none [.paragraph [.text cs!"one two three"]],
      .mk (some .complete) [.paragraph [.text cs!"x"], .codeBlock (.fenced none) cs!"y"]],
    .blockQuote [.paragraph [.text cs!"quoted text here"], .thematicBreak]]⟩ =
    some cs!"## title\n\nsome text -\nwith\n**words**\n\n 9. one two\n     three\n 10. [X] x\n     \n     ```\ny\n```\n\n> quoted\n> text here\n> \n> ---" := by
  decide +kernel

end Md
end Verif
