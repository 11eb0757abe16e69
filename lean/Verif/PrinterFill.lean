import Verif.PrinterFillSpec
import Verif.PrinterWrap
/-!
# Markdown printer: C61, greedy filling
-/
set_option linter.unusedVariables false
set_option linter.unusedSimpArgs false
namespace Verif
namespace Md
open Spec

/-- The length of the first piece. -/
def chunk : Text → Nat
  | some _ :: t => chunk t + 1
  | _ => 0

theorem pieces_ne (t : Text) : pieces t ≠ [] := by
  cases t with
  | nil => simp [pieces]
  | cons o t =>
    cases o
    · simp [pieces]
    · simp only [pieces]; split <;> simp

theorem pieces_some (c : Char) (t : Text) :
    pieces (some c :: t) = (c :: (pieces t).headD []) :: (pieces t).tail := by
  simp only [pieces]
  split
  · rename_i h; exact absurd h (pieces_ne t)
  · rename_i h; simp [h]

theorem chunk_eq (t : Text) : ((pieces t).headD []).length = chunk t := by
  induction t with
  | nil => rfl
  | cons o t ih =>
    cases o
    · rfl
    · rw [pieces_some]; simpa [chunk] using ih

/-- `fill` of `t` before `u`, and the column after it. -/
def fillGo (w : Nat) (u : Text) : Nat → Text → Str × Nat
  | col, [] => ([], col)
  | col, some c :: t => let r := fillGo w u (col + 1) t; (c :: r.1, r.2)
  | col, none :: t =>
    if col + 1 + chunk (t ++ u) ≤ w then let r := fillGo w u (col + 1) t; (' ' :: r.1, r.2)
    else let r := fillGo w u 0 t; ('\n' :: r.1, r.2)

theorem fillGo_fill (w : Nat) (t : Text) : ∀ col, (fillGo w [] col t).1 = fill w col t := by
  induction t with
  | nil => intro col; rfl
  | cons o t ih =>
    intro col
    cases o
    · simp only [fillGo, fill, chunk_eq, List.append_nil]
      split <;> simp [ih]
    · simp [fillGo, fill, ih]

theorem fillGo_append (w : Nat) (u b : Text) (a : Text) : ∀ col,
    fillGo w u col (a ++ b) = ((fillGo w (b ++ u) col a).1 ++
      (fillGo w u (fillGo w (b ++ u) col a).2 b).1, (fillGo w u (fillGo w (b ++ u) col a).2 b).2) := by
  induction a with
  | nil => intro col; rfl
  | cons o a ih =>
    intro col
    cases o
    · simp only [List.cons_append, fillGo, List.append_assoc]
      split <;> simp [ih]
    · simp [fillGo, ih]

theorem fillGo_lit (w : Nat) (u : Text) (a : Str) : ∀ col,
    fillGo w u col (Spec.lit a) = (a, col + a.length) := by
  induction a with
  | nil => intro col; rfl
  | cons c a ih =>
    intro col
    have := ih (col + 1)
    simp only [Spec.lit] at this
    simp only [Spec.lit, List.map_cons, fillGo, this, List.length_cons]
    simp; omega

theorem chunk_lit (a : Str) (t : Text) : chunk (Spec.lit a ++ t) = a.length + chunk t := by
  induction a with
  | nil => simp [Spec.lit]
  | cons c a ih =>
    simp only [Spec.lit] at ih
    simp [Spec.lit, chunk, ih]; omega

section
variable (dw : Str → Nat) (w : Nat)

/-- `k` says whether the text `u` fits up to its first break opportunity. -/
def FitsRest (k : Nat → Option Bool) (u : Text) : Prop :=
  ∀ q, q ≤ w → k q = some (decide (q + chunk u ≤ w))

/-- The document fills like the text. -/
def Fills (d : Doc) (t : Text) : Prop :=
  (∀ c, some c ∈ t → c.toNat < 128) → ∀ k u, FitsRest w k u →
    (∀ p, p ≤ w → Doc.fitsE dw w d .brk p k = some (decide (p + chunk (t ++ u) ≤ w))) ∧
    (∀ p n, n.getD 0 = 0 → Doc.bestE dw w d 0 .brk p n k = some (fillGo w u p t))

variable {dw w}

theorem Fills.nil : Fills dw w .nil [] := by
  intro _ k u hk
  exact ⟨fun p hp => by simpa [Doc.fitsE] using hk p hp, fun p n _ => rfl⟩

theorem Fills.text (hdw : ∀ s : Str, (∀ c ∈ s, c.toNat < 128) → dw s = s.length) (a : Str) :
    Fills dw w (.text a) (Spec.lit a) := by
  intro ha k u hk
  have e : dw a = a.length := hdw a fun c hc => ha c (by simp [Spec.lit, hc])
  refine ⟨fun p hp => ?_, fun p n _ => ?_⟩
  · simp only [Doc.fitsE, e, chunk_lit]
    by_cases h : p + a.length ≤ w
    · simp only [h, if_true, hk _ h]
      simp [Nat.add_assoc]
    · simp only [h, if_false]
      simp; omega
  · simp [Doc.bestE, fillGo_lit, e]

theorem Fills.softline (hdw : ∀ s : Str, (∀ c ∈ s, c.toNat < 128) → dw s = s.length) :
    Fills dw w Doc.softline [none] := by
  intro _ k u hk
  have e : dw [' '] = 1 := by simpa using hdw [' '] (by decide)
  refine ⟨fun p hp => by simp [Doc.softline, Doc.line, Doc.fitsE, chunk, hp], fun p n hn => ?_⟩
  simp only [Doc.softline, Doc.line, Doc.bestE, Doc.fitsE, e, fillGo, List.nil_append, hn]
  by_cases h : p + 1 ≤ w
  · simp only [h, if_true, hk _ h]
    by_cases h2 : p + 1 + chunk u ≤ w
    · simp [h2]
    · simp [h2]
  · have h2 : ¬ p + 1 + chunk u ≤ w := by omega
    simp [h, h2]

theorem Fills.append {d e : Doc} {a b : Text} (h : Fills dw w d a) (h' : Fills dw w e b) :
    Fills dw w (.append d e) (a ++ b) := by
  intro hab k u hk
  have g := h' (fun c hc => hab c (by simp [hc])) k u hk
  have f := h (fun c hc => hab c (by simp [hc])) (fun p' => Doc.fitsE dw w e .brk p' k) (b ++ u)
    fun q hq => g.1 q hq
  refine ⟨fun p hp => ?_, fun p n hn => ?_⟩
  · simp only [Doc.fitsE, f.1 p hp, List.append_assoc]
  · simp only [Doc.bestE, f.2 p (some 0) rfl, g.2 _ n hn, fillGo_append]

/-- `Fills`, and only the empty text for the empty document. -/
def FillsN (dw : Str → Nat) (w : Nat) (d : Doc) (t : Text) : Prop :=
  Fills dw w d t ∧ (d = .nil → t = [])

theorem FillsN.app {d e : Doc} {a b : Text} (h : FillsN dw w d a) (h' : FillsN dw w e b) :
    FillsN dw w (d.app e) (a ++ b) := by
  refine ⟨?_, fun hn => ?_⟩
  · unfold Doc.app
    split
    · rw [h.2 rfl]; exact h'.1
    · rw [h'.2 rfl]; simpa using h.1
    · exact h.1.append h'.1
  · have : d = .nil ∧ e = .nil := by
      cases d <;> cases e <;> simp_all [Doc.app]
    rw [h.2 this.1, h'.2 this.2]; rfl

theorem FillsN.nil : FillsN dw w .nil [] := ⟨.nil, fun _ => rfl⟩

/-- `FillsN` for a list of documents. -/
inductive FillsL (dw : Str → Nat) (w : Nat) : List Doc → Text → Prop
  | nil : FillsL dw w [] []
  | cons {d : Doc} {l : List Doc} {a b : Text} : FillsN dw w d a → FillsL dw w l b →
      FillsL dw w (d :: l) (a ++ b)

theorem FillsL.concat {l : List Doc} {as : Text} (h : FillsL dw w l as) :
    FillsN dw w (Doc.concat l) as := by
  have : ∀ (d : Doc) (a : Text), FillsN dw w d a → FillsN dw w (l.foldl Doc.app d) (a ++ as) := by
    induction h with
    | nil => intro d a h; simpa using h
    | cons h1 _ ih =>
      intro d a h
      simpa using ih _ _ (h.app h1)
  simpa [Doc.concat] using this _ _ FillsN.nil

end

section
variable (x : Ext) {w : Nat}

theorem FillsN.text (a : Str) : FillsN x.dw w (.text a) (Spec.lit a) :=
  ⟨.text x.dw_ascii a, fun h => by cases h⟩

theorem FillsN.softline : FillsN x.dw w Doc.softline [none] :=
  ⟨.softline x.dw_ascii, fun h => by cases h⟩

theorem safeTextDocs_fills (l : List (Option Str)) (hl : Words l) :
    FillsL x.dw w (safeTextDocs x l) (wordsToks x.digit l) := by
  induction l with
  | nil => exact .nil
  | cons o l ih =>
    have hl' : Words l := fun w hw => hl w (List.mem_cons_of_mem _ hw)
    cases o with
    | some w => exact .cons (.text x w) (ih hl')
    | none =>
      refine .cons (a := [_]) ?_ (ih hl')
      cases hf : findNextWord l with
      | none => simpa [startsBlock_nil] using FillsN.softline x
      | some w =>
        have hw := hl' w (findNextWord_mem hf)
        simp only [isSafeBreakBefore, isSyntax_eq x hw.1 hw.2, Option.getD_some]
        by_cases hb : startsBlock x.digit w = true
        · simpa [hb, Spec.lit] using FillsN.text x [' ']
        · simpa [hb] using FillsN.softline x

theorem textDoc_fills (t : Str) : FillsN x.dw w (textDoc x true t) (textToks x.digit false t) := by
  have h := (safeTextDocs_fills x (w := w) (splitWithSpaces (Latex.nlToSpace t))
    (splitGo_words _ _ _ (by simp) (by intro w hw; simp at hw))).concat
  rw [show wordsToks x.digit (splitWithSpaces (Latex.nlToSpace t)) = textToks x.digit false t by
    rw [splitWithSpaces, splitGo_front]
    simp only [List.getLast?_nil, List.nil_append]
    rw [wordsToks_front]
    simp [Spec.lit, textToks_nlToSpace]] at h
  exact h

theorem inline_fills :
    (∀ i, FillsN x.dw w (inlineDoc x true i) (inlineToks x.digit i)) ∧
    (∀ l, FillsL x.dw w (inlineDocs x true l) (inlinesToks x.digit l)) := by
  have T := fun a => FillsN.text x (w := w) a
  apply Inline.ind
  case text => intro s; exact textDoc_fills x s
  case lineBreak => exact T _
  case code =>
    intro s
    simp only [inlineToks, lit_append]
    exact ((T _).app (T _)).app (T _)
  case html => intro s; exact T _
  case link =>
    intro d t c ih
    simp only [inlineToks, lit_append]
    have ht : FillsN x.dw w (linkTitleDoc t) (Spec.lit (title t)) := by
      cases t with
      | none => exact .nil
      | some t =>
        simp only [title, lit_append]
        exact ((T _).app (T _)).app (T _)
    have := (((((T cs!"[").app (FillsL.concat ih)).app (T cs!"](")).app (T d)).app
      ht).app (T cs!")")
    simpa [inlineDoc] using this
  case linkReference =>
    intro l t hl ht
    simp only [inlineDoc, inlineToks]
    split
    · exact ((T _).app (FillsL.concat hl)).app (T _)
    · exact ((((T _).app (FillsL.concat ht)).app (T _)).app
        (FillsL.concat hl)).app (T _)
  case image =>
    intro d t a
    simp only [inlineToks, lit_append, ← titlePart_title]
    exact (((((T _).app (T _)).app (T _)).app (T _)).app (T _)).app (T _)
  case emphasis => intro c ih; exact ((T _).app (FillsL.concat ih)).app (T _)
  case strong => intro c ih; exact ((T _).app (FillsL.concat ih)).app (T _)
  case strikethrough => intro c ih; exact ((T _).app (FillsL.concat ih)).app (T _)
  case autolink => intro s; exact T _
  case footnoteReference => intro s; exact T _
  case empty => exact .nil
  case nil => exact .nil
  case cons => intro i l hi hl; exact .cons hi hl

/-- **C61.** A paragraph of ASCII text is filled greedily. -/
theorem C61_fill (cfg : Config) (c : List Inline)
    (ha : ∀ a, some a ∈ inlinesToks x.digit c → a.toNat < 128) :
    renderMarkdown x cfg ⟨[.paragraph c]⟩ = some (fill cfg.width 0 (inlinesToks x.digit c)) := by
  have h := ((inline_fills x (w := cfg.width)).2 c).concat.1 ha (fun _ => some true) [] (by
    intro q hq; simp [chunk, hq])
  simp only [renderMarkdown, blocksDoc, blockDoc, if_true, app_nil_left, Doc.renderE, inlinesDoc]
  rw [h.2 0 none rfl]
  simp [fillGo_fill]

theorem fill_lines (w : Nat) (t : Text) (ht : some '\n' ∉ t) : ∀ col,
    (col + ((lines (fill w col t)).headD []).length ≤ w ∨
      (lines (fill w col t)).headD [] = (pieces t).headD []) ∧
    ∀ l ∈ (lines (fill w col t)).tail, l.length ≤ w ∨ l ∈ (pieces t).tail := by
  induction t with
  | nil => intro col; exact ⟨.inr rfl, by simp [fill, lines, pieces]⟩
  | cons o t ih =>
    intro col
    have ih := ih (fun h => ht (List.mem_cons_of_mem _ h))
    have mem : ∀ l, l = (pieces t).headD [] → l ∈ pieces t := by
      rintro _ rfl
      cases h : pieces t with
      | nil => exact absurd h (pieces_ne t)
      | cons p l => simp
    have keep : ∀ (a : Char) (s : Str), a ≠ '\n' →
        lines (a :: s) = (a :: (lines s).headD []) :: (lines s).tail := by
      intro a s h
      simp only [lines, List.map_cons, h, if_false, pieces_some]
    cases o with
    | some a =>
      have hne : a ≠ '\n' := by rintro rfl; exact ht (by simp)
      have g := ih (col + 1)
      simp only [fill, keep a _ hne, pieces_some, List.headD_cons, List.tail_cons]
      refine ⟨?_, g.2⟩
      rcases g.1 with h | h
      · left; simp only [List.length_cons]; omega
      · right; rw [h]
    | none =>
      simp only [fill, chunk_eq]
      split
      · rename_i hw
        have g := ih (col + 1)
        rw [keep ' ' _ (by decide)]
        refine ⟨.inl ?_, fun l hl => (g.2 l hl).imp id fun h => ?_⟩
        · rcases g.1 with h | h
          · simp only [List.headD_cons, List.length_cons]; omega
          · rw [h]; simp only [List.headD_cons, List.length_cons, chunk_eq]; omega
        · exact List.mem_of_mem_tail h
      · have g := ih 0
        have e : lines ('\n' :: fill w 0 t) = [] :: lines (fill w 0 t) := by simp [lines, pieces]
        rw [e]
        refine ⟨.inr rfl, fun l hl => ?_⟩
        simp only [List.tail_cons] at hl
        cases hL : lines (fill w 0 t) with
        | nil => rw [hL] at hl; cases hl
        | cons p q =>
          rw [hL] at hl g
          rcases List.mem_cons.1 hl with rfl | hl
          · rcases g.1 with h | h
            · left; simpa using h
            · right; exact mem _ h
          · exact (g.2 l hl).imp id fun h => List.mem_of_mem_tail h

/-- C61: every line of a printed paragraph of ASCII text fits in the width or is one unbreakable
piece. -/
theorem C61_width (cfg : Config) (c : List Inline) (s : Str)
    (ha : ∀ a, some a ∈ inlinesToks x.digit c → a.toNat < 128 ∧ a ≠ '\n')
    (h : renderMarkdown x cfg ⟨[.paragraph c]⟩ = some s) :
    ∀ l ∈ lines s, l.length ≤ cfg.width ∨ l ∈ pieces (inlinesToks x.digit c) := by
  rw [C61_fill x cfg c fun a h => (ha a h).1] at h
  cases h
  have g := fill_lines cfg.width (inlinesToks x.digit c) (fun h => (ha _ h).2 rfl) 0
  intro l hl
  cases hL : lines (fill cfg.width 0 (inlinesToks x.digit c)) with
  | nil => rw [hL] at hl; cases hl
  | cons p q =>
    rw [hL] at hl g
    rcases List.mem_cons.1 hl with rfl | hl
    · rcases g.1 with h | h
      · left; simpa using h
      · right
        simp only [List.headD_cons] at h
        rw [h]
        cases hp : pieces (inlinesToks x.digit c) with
        | nil => exact absurd hp (pieces_ne _)
        | cons p q => simp
    · exact (g.2 l hl).imp id fun h => List.mem_of_mem_tail h

end

example : (∀ a, some a ∈ inlinesToks Ext.ascii.digit
      [.text cs!"some words and ", .emphasis [.text cs!"more of them"], .text cs!" - the end"] →
      a.toNat < 128 ∧ a ≠ '\n') ∧
    renderMarkdown Ext.ascii { Config.default with width := 10 } ⟨[.paragraph
      [.text cs!"some words and ", .emphasis [.text cs!"more of them"], .text cs!" - the end"]]⟩ =
      some cs!"some words\nand *more\nof them* -\nthe end" := by
  refine ⟨?_, by decide +kernel⟩
  intro a ha
  have : ∀ o ∈ inlinesToks Ext.ascii.digit
      [.text cs!"some words and ", .emphasis [.text cs!"more of them"], .text cs!" - the end"],
      ∀ b ∈ o, b.toNat < 128 ∧ b ≠ '\n' := by decide +kernel
  exact this _ ha a rfl

/-- After a hard line break the column is not reset: the rest of the paragraph is wrapped as if it
stood on the same line. -/
theorem C61_hard_break :
    renderMarkdown Ext.ascii { Config.default with width := 10 }
      ⟨[.paragraph [.text cs!"aaaa", .lineBreak, .text cs!"b c d"]]⟩ =
      some cs!"aaaa  \nb c\nd" ∧
    renderMarkdown Ext.ascii { Config.default with width := 10 }
      ⟨[.paragraph [.text cs!"b c d"]]⟩ = some cs!"b c d" := by decide +kernel

end Md
end Verif
