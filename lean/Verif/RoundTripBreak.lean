import Verif.RoundTripCanon
/-!
# Paragraphs with hard line breaks

A text printed with hard line breaks between parts that pass the tests is read back.
-/
set_option linter.unusedVariables false
set_option linter.unusedSimpArgs false
namespace Verif
namespace Md
namespace Spec
open Nom

/-! ## Parts -/

/-- Parts with hard line breaks between them. -/
def joinBreak : List (List Inline) → List Inline
  | [] => []
  | [p] => p
  | p :: q :: ps => p ++ .lineBreak :: joinBreak (q :: ps)

theorem parts_ne (c : List Inline) : parts c ≠ [] := by
  cases c with
  | nil => simp [parts]
  | cons i l =>
    rw [parts]
    split
    · simp
    · split <;> simp

theorem joinBreak_parts (c : List Inline) : joinBreak (parts c) = c := by
  induction c with
  | nil => rfl
  | cons i l ih =>
    rw [parts]
    obtain ⟨p, ps, hp⟩ := List.exists_cons_of_ne_nil (parts_ne l)
    rw [hp] at ih ⊢
    split
    · rename_i h; subst h
      rw [joinBreak, ih]; rfl
    · cases ps with
      | nil => simp only [joinBreak] at ih ⊢; rw [ih]
      | cons q ps => simp only [joinBreak] at ih ⊢; rw [← ih]; rfl

theorem toks_append (digit : Char → Bool) (a b : List Inline) :
    inlinesToks digit (a ++ b) = inlinesToks digit a ++ inlinesToks digit b := by
  induction a with
  | nil => rfl
  | cons i a ih => simp [inlinesToks, ih]

theorem key_append (a b : List Inline) : keyInlines (a ++ b) = keyInlines a ++ keyInlines b := by
  induction a with
  | nil => rfl
  | cons i a ih => simp [keyInlines, ih]

theorem source_append (a b : List Inline) : lineSource (a ++ b) = lineSource a ++ lineSource b := by
  have h := (flat_inlines (fun _ => false)).2
  rw [← h, toks_append, flat_append, h, h]

theorem toks_break (digit : Char → Bool) (p q : List Inline) :
    inlinesToks digit (p ++ .lineBreak :: q) = inlinesToks digit p ++ (lit cs!"  \n" ++ inlinesToks digit q) := by
  rw [toks_append]
  simp [inlinesToks, inlineToks]

/-! ## Blanks after clear inlines -/

theorem looseChar_blank {c : Char} {n w : Str} (h : looseChar c n = true) (hc : n = [] → c ≠ '\\') :
    looseChar c (n ++ ' ' :: w) = true := by
  have hh : n ≠ [] → (n ++ ' ' :: w).head? = n.head? := by
    intro hn
    cases n with
    | nil => exact absurd rfl hn
    | cons a n => rfl
  have hd : ((n ++ ' ' :: w).dropWhile isAlpha).head? = some ';' → (n.dropWhile isAlpha).head? = some ';' := by
    clear h hc hh
    induction n with
    | nil => intro h; rw [List.nil_append, List.dropWhile_cons] at h; simp [show isAlpha ' ' = false from by decide] at h
    | cons a n ih =>
      rw [List.cons_append, List.dropWhile_cons, List.dropWhile_cons]
      split
      · exact ih
      · simp
  by_cases hn : n = []
  · subst hn
    simp only [looseChar, Bool.or_eq_true, Bool.and_eq_true, Bool.not_eq_true', beq_iff_eq, bne_iff_ne, List.nil_append,
      List.head?_cons, List.head?_nil, Option.all_some, Option.all_none] at h ⊢
    rcases h with (((((h | ⟨rfl, h⟩) | ⟨rfl, h⟩) | ⟨rfl, h⟩) | ⟨rfl, h⟩) | ⟨rfl, h⟩) | ⟨⟨rfl, h⟩, h'⟩
    · simp only [h, true_or]
    · simp
    · simp
    · simp [show isWs ' ' = true from by decide]
    · simp [show isAlnum ' ' = false from by decide]
    · exact absurd rfl (hc rfl)
    · refine .inr ⟨⟨rfl, by simp⟩, ?_⟩
      rw [List.dropWhile_cons]; simp [show isAlpha ' ' = false from by decide]
  · simp only [looseChar, hh hn] at h ⊢
    simp only [Bool.or_eq_true, Bool.and_eq_true, Bool.not_eq_true', beq_iff_eq, bne_iff_ne] at h ⊢
    rcases h with h | ⟨h1, h2⟩
    · exact .inl h
    · exact .inr ⟨h1, fun h => h2 (hd h)⟩

theorem looseText_blank {u w : Str} : ∀ {s : Str} {b : Bool}, looseText u b s = true →
    (s ++ u).getLast? ≠ some '\\' → looseText (u ++ ' ' :: w) b s = true := by
  intro s
  induction s with
  | nil => intro b _ _; rfl
  | cons c s ih =>
    intro b h hl
    rw [looseText] at h ⊢
    simp only [Bool.and_eq_true, Bool.or_eq_true] at h ⊢
    obtain ⟨⟨h1, h2⟩, h3⟩ := h
    refine ⟨⟨h1, ?_⟩, ih h3 ?_⟩
    · rcases h2 with h | h
      · refine .inl ?_
        rw [← List.append_assoc]
        refine looseChar_blank h ?_
        rintro e rfl
        rw [List.cons_append, e] at hl
        exact hl rfl
      · exact .inr h
    · intro e
      refine hl ?_
      rw [List.cons_append, List.getLast?_cons, e]; rfl

theorem clear_blank {punct : Char → Bool} {i : Inline} {u w : Str} (h : clearInline punct i u = true)
    (hl : (inlineSource (collapse false) i ++ u).getLast? ≠ some '\\') :
    clearInline punct i (u ++ ' ' :: w) = true := by
  have hh : u ≠ [] → (u ++ ' ' :: w).head? = u.head? := by
    intro hn
    cases u with
    | nil => exact absurd rfl hn
    | cons a n => rfl
  have hne : ∀ {c : Char}, c ≠ ' ' → u.head? ≠ some c → (u ++ ' ' :: w).head? ≠ some c := by
    intro c hc h
    by_cases hu : u = []
    · subst hu; simp; exact fun h => hc h.symm
    · rw [hh hu]; exact h
  have hcl : closes punct u = true → closes punct (u ++ ' ' :: w) = true := by
    intro h
    by_cases hu : u = []
    · subst hu; simp [closes, show isWs ' ' = true from by decide]
    · unfold closes at h ⊢; rw [hh hu]; exact h
  cases i with
  | text t =>
    simp only [clearInline, Bool.and_eq_true] at h ⊢
    simp only [inlineSource] at hl
    exact ⟨h.1, looseText_blank h.2 hl⟩
  | code c =>
    simp only [clearInline, Bool.and_eq_true, bne_iff_ne] at h ⊢
    exact ⟨h.1, hne (by decide) h.2⟩
  | emphasis c =>
    simp only [clearInline, Bool.and_eq_true] at h ⊢
    exact ⟨h.1, hcl h.2⟩
  | strong c =>
    simp only [clearInline, Bool.and_eq_true] at h ⊢
    exact ⟨h.1, hcl h.2⟩
  | strikethrough c =>
    simp only [clearInline, Bool.and_eq_true, bne_iff_ne] at h ⊢
    exact ⟨h.1, hne (by decide) h.2⟩
  | footnoteReference l =>
    simp only [clearInline, Bool.and_eq_true, bne_iff_ne] at h ⊢
    exact ⟨h.1, hne (by decide) h.2⟩
  | linkReference l t =>
    simp only [clearInline, Bool.and_eq_true, Bool.or_eq_true, bne_iff_ne] at h ⊢
    refine ⟨⟨h.1.1, ?_⟩, h.2⟩
    rcases h.1.2 with h | ⟨h1, h2⟩
    · exact .inl h
    · exact .inr ⟨hne (by decide) h1, hne (by decide) h2⟩
  | autolink l => simpa only [clearInline] using h
  | link d t c => simpa only [clearInline] using h
  | image d t a => simpa only [clearInline] using h
  | lineBreak => simp [clearInline] at h
  | html t => simp [clearInline] at h
  | empty => simp [clearInline] at h

/-! ## Reading -/

/-- Clear inlines in front of a blank that does not continue their text. -/
theorem clear_reads_blank {x : PExt} {ent : Str → Option Str} {digit : Char → Bool} {u : Str} {is : List Inline}
    (hr : Reads x ent (' ' :: u) is) (hn : NotTextFirst is) :
    ∀ (l : List Inline) (s : Str), clearInlines (isPunctuation x) l = true → Fill (inlinesToks digit l) s →
      (∀ d, s.getLast? = some d → isWs d = false ∧ d ≠ '\\') →
      ∃ is', Reads x ent (s ++ ' ' :: u) (is' ++ is) ∧ keyInlines is' = keyInlines l ∧
        (textFirst l = false → l ≠ [] → QuietEnd (s ++ ' ' :: u)) := by
  intro l
  induction l with
  | nil =>
    intro s _ hf _
    simp only [inlinesToks] at hf
    cases hf
    exact ⟨[], hr, rfl, fun _ h => absurd rfl h⟩
  | cons i l ih =>
    intro s hc hf hl
    have hsrc := hf.source hc
    simp only [clearInlines, Bool.and_eq_true, Bool.not_eq_true'] at hc
    obtain ⟨⟨h1, h2⟩, h3⟩ := hc
    simp only [inlinesToks] at hf
    obtain ⟨s1, s2, rfl, hf1, hf2⟩ := hf.append_inv
    obtain ⟨is2, hr2, hk2, hq2⟩ := ih s2 h3 hf2 (fun d hd => hl d (by rw [List.getLast?_append, hd]; rfl))
    have hc' : clearInline (isPunctuation x) i (spacedLines (s2 ++ ' ' :: u)) = true := by
      rw [spacedLines_append, ← hf2.source h3]
      refine clear_blank h1 ?_
      have : inlineSource (collapse false) i ++ lineSource l = lineSource (i :: l) := by
        simp [lineSource, inlinesSource]
      rw [this, hsrc, Ne, last_spaced (by decide) (by decide)]
      intro e
      exact (hl _ e).2 rfl
    obtain ⟨i', hr', hk', hq'⟩ := (clear_reads x ent digit).1 i s1 (s2 ++ ' ' :: u) (is2 ++ is) hc' hf1 hr2 (by
      intro ht
      have hlt : textFirst l = false := by simpa [ht] using h2
      by_cases hnil : l = []
      · subst hnil
        simp only [inlinesToks] at hf2
        cases hf2
        have : is2 = [] := by
          cases is2 with
          | nil => rfl
          | cons j is2 => simp [keyInlines] at hk2
        subst this
        refine ⟨hn, ?_, ?_⟩
        · intro c hc
          simp at hc; subst hc; decide
        · intro _ e
          have := (hl ' ' (by simpa using e)).1
          exact absurd this (by decide)
      · refine ⟨?_, closed_of_quiet (hq2 hlt hnil)⟩
        have := notTextFirst_of ((textFirst_squash hk2).trans hlt)
        intro t r e
        cases is2 with
        | nil =>
          cases l with
          | nil => exact hnil rfl
          | cons j l => simp [keyInlines] at hk2
        | cons j is2 => simp at e; exact this t is2 (by rw [e.1]))
    refine ⟨i' :: is2, by simpa using hr', by simp [keyInlines, hk2, hk'], fun ht _ => ?_⟩
    rw [List.append_assoc]
    refine hq' ?_
    cases i <;> simp_all [textFirst]

/-- Every part but the last one ends visibly. -/
def endParts (ps : List (List Inline)) : Bool := ps.dropLast.all endsPart

/-- Parts with hard line breaks between them are read back. -/
theorem parts_reads {x : PExt} {ent : Str → Option Str} {digit : Char → Bool} : ∀ (ps : List (List Inline)) (s : Str),
    ps ≠ [] → (∀ p ∈ ps, clearInlines (isPunctuation x) p = true) → endParts ps = true →
    Fill (inlinesToks digit (joinBreak ps)) s →
    ∃ is, Reads x ent s is ∧ keyInlines is = keyInlines (joinBreak ps) := by
  intro ps
  induction ps with
  | nil => intro s h; exact absurd rfl h
  | cons p ps ih =>
    intro s _ hc he hf
    cases ps with
    | nil =>
      obtain ⟨is, h1, h2, _⟩ := (clear_reads x ent digit).2 p s (hc p (by simp)) hf
      exact ⟨is, h1, h2⟩
    | cons q ps =>
      rw [joinBreak, toks_break] at hf
      obtain ⟨s1, s2, rfl, hf1, hf2⟩ := hf.append_inv
      obtain ⟨s3, s4, rfl, hf3, hf4⟩ := hf2.append_inv
      rw [hf3.lit_inv]
      simp only [endParts, List.dropLast_cons_cons, List.all_cons, Bool.and_eq_true] at he
      obtain ⟨is, hr, hk⟩ := ih s4 (by simp) (fun r hr => hc r (by simp [hr])) he.2 hf4
      have hb := Reads.spaceBreak (n := 2) (by decide) hr
      have hcp := hc p (by simp)
      obtain ⟨is', hr', hk', _⟩ := clear_reads_blank (u := ' ' :: '\n' :: s4) hb (by rintro t r h; simp at h) p s1 hcp hf1 (by
        intro d hd
        have h1 := he.1
        unfold endsPart at h1
        rw [hf1.source hcp] at h1
        have : (spacedLines s1).getLast? = some (if d = '\n' then ' ' else d) := by
          unfold spacedLines
          rw [List.getLast?_map, hd]; rfl
        rw [this] at h1
        simp only [Option.all_some, Bool.and_eq_true, Bool.not_eq_true', bne_iff_ne, spaced_ws] at h1
        refine ⟨h1.1, ?_⟩
        rintro rfl
        exact h1.2 rfl)
      refine ⟨is' ++ .lineBreak :: is, by simpa using hr', ?_⟩
      rw [joinBreak, key_append, key_append, hk']
      simp [keyInlines, keyInline, hk]

/-! ## Lines -/

theorem TextStart.append_blank {s v : Str} (h : TextStart s) : TextStart (s ++ ' ' :: v) := by
  cases h with
  | plain h => exact .plain h
  | star h => exact .star h
  | stars h => exact .stars h
  | tick h => exact .tick h
  | ticks h => exact .ticks h
  | tilde h => exact .tilde h
  | tildes h => exact .tildes h
  | @bracket s t h0 h1 h2 =>
    have := TextStart.bracket (t := t ++ ' ' :: v) h0 h1 (by
      cases t with
      | nil => simp
      | cons c t => exact h2)
    simpa using this
  | @autolink l t h =>
    have := TextStart.autolink (t := t ++ ' ' :: v) h
    simpa using this
  | @number ds d t h1 h2 h3 h4 h5 =>
    have := TextStart.number (t := t ++ ' ' :: v) h1 h2 h3 h4 h5
    simpa using this
  | digits h1 h2 => exact .number h1 h2 (by decide) (by decide) (by decide)
  | underscore h => exact .underscore h
  | plus h => exact .plus h
  | @dash n d t h1 h2 h3 =>
    have := TextStart.dash (t := t ++ ' ' :: v) h1 h2 h3
    simpa using this
  | @equals n d t h1 h2 =>
    have := TextStart.equals (t := t ++ ' ' :: v) h1 h2
    simpa using this
  | @starText n d t h1 h2 =>
    have := TextStart.starText (t := t ++ ' ' :: v) h1 h2
    simpa using this
  | @underText n d t h1 h2 =>
    have := TextStart.underText (t := t ++ ' ' :: v) h1 h2
    simpa using this

/-- Lines, a hard line break after the last one, and more lines. -/
def brkLines : List (Nat × Str) → List (Nat × Str) → List (Nat × Str)
  | [], zs => zs
  | [y], zs => (y.1, y.2 ++ cs!"  ") :: zs
  | y :: y' :: ys, zs => y :: brkLines (y' :: ys) zs

theorem brkLines_text {ys zs : List (Nat × Str)} (hy : ys ≠ []) (hz : zs ≠ []) :
    indentedLines (brkLines ys zs) = indentedLines ys ++ (cs!"  \n" ++ indentedLines zs) := by
  induction ys with
  | nil => exact absurd rfl hy
  | cons y ys ih =>
    cases ys with
    | nil =>
      obtain ⟨z, zs, rfl⟩ := List.exists_cons_of_ne_nil hz
      simp [brkLines, indentedLines, joinWith]
    | cons y' ys =>
      have := ih (by simp)
      have hne : ∃ a as, brkLines (y' :: ys) zs = a :: as := by
        cases ys with
        | nil => exact ⟨_, _, rfl⟩
        | cons _ _ => exact ⟨_, _, rfl⟩
      obtain ⟨a, as, ha⟩ := hne
      rw [brkLines]
      rw [ha] at this ⊢
      simp only [indentedLines, List.map_cons, joinWith] at this ⊢
      rw [this]
      simp

theorem TextLines.brk {ys zs : List (Nat × Str)} (hy : TextLines ys) (hz : TextLines zs) :
    TextLines (brkLines ys zs) := by
  have hzn : zs ≠ [] := by cases hz <;> simp
  induction hy with
  | @one k l h1 h2 h3 =>
    obtain ⟨z, zs, rfl⟩ := List.exists_cons_of_ne_nil hzn
    refine .cons h1 (oneLine_append.2 ⟨h2, by intro c hc; revert c; decide⟩) ?_ hz
    have := TextStart.append_blank (v := ' ' :: '\n' :: indentedLines (z :: zs)) h3
    simpa using this
  | @cons k l y ys h1 h2 h3 h4 ih =>
    have hne : ∃ a as, brkLines (y :: ys) zs = a :: as := by
      cases ys with
      | nil => exact ⟨_, _, rfl⟩
      | cons _ _ => exact ⟨_, _, rfl⟩
    have ht := brkLines_text (ys := y :: ys) (by simp) hzn
    obtain ⟨a, as, ha⟩ := hne
    rw [brkLines]
    rw [ha] at ih ht ⊢
    refine .cons h1 h2 ?_ ih
    rw [ht]
    have := TextStart.append_blank (v := ' ' :: '\n' :: indentedLines zs) h3
    simpa using this

/-- Lines with their indentation. -/
def pairLines (k o : Nat) : List Str → List (Nat × Str)
  | [] => []
  | l :: ls => (k, l) :: ls.map fun m => (o, m)

/-- Lines, a hard line break after the last one, and more lines. -/
def brkStrs : List Str → List Str → List Str
  | [], zs => zs
  | [y], zs => (y ++ cs!"  ") :: zs
  | y :: y' :: ys, zs => y :: brkStrs (y' :: ys) zs

theorem pairLines_same (o : Nat) (L : List Str) : pairLines o o L = L.map fun m => (o, m) := by
  cases L <;> rfl

theorem pairLines_brk (k o : Nat) {L M : List Str} (hL : L ≠ []) :
    pairLines k o (brkStrs L M) = brkLines (pairLines k o L) (pairLines o o M) := by
  have key : ∀ (L : List Str), L ≠ [] → (brkStrs L M).map (fun m => (o, m)) =
      brkLines (L.map fun m => (o, m)) (M.map fun m => (o, m)) := by
    intro L
    induction L with
    | nil => intro h; exact absurd rfl h
    | cons l L ih =>
      intro _
      cases L with
      | nil => rfl
      | cons l' L => 
        have := ih (by simp)
        simp only [brkStrs, List.map_cons, brkLines] at this ⊢
        rw [this]
  cases L with
  | nil => exact absurd rfl hL
  | cons l L =>
    rw [pairLines_same]
    cases L with
    | nil => rfl
    | cons l' L =>
      have := key (l' :: L) (by simp)
      simp only [brkStrs, pairLines, List.map_cons, brkLines] at this ⊢
      rw [this]

theorem brkStrs_join {L M : List Str} (hL : L ≠ []) (hM : M ≠ []) :
    joinWith ['\n'] (brkStrs L M) = joinWith ['\n'] L ++ (cs!"  \n" ++ joinWith ['\n'] M) := by
  induction L with
  | nil => exact absurd rfl hL
  | cons y ys ih =>
    cases ys with
    | nil =>
      obtain ⟨z, zs, rfl⟩ := List.exists_cons_of_ne_nil hM
      simp [brkStrs, joinWith]
    | cons y' ys =>
      have := ih (by simp)
      have hne : ∃ a as, brkStrs (y' :: ys) M = a :: as := by
        cases ys with
        | nil => exact ⟨_, _, rfl⟩
        | cons _ _ => exact ⟨_, _, rfl⟩
      obtain ⟨a, as, ha⟩ := hne
      rw [brkStrs]
      rw [ha] at this ⊢
      simp only [joinWith] at this ⊢
      rw [this]
      simp

theorem mem_brkStrs {L M : List Str} {m : Str} (h : m ∈ brkStrs L M) :
    m ∈ L ∨ m ∈ M ∨ ∃ l ∈ L, m = l ++ cs!"  " := by
  induction L with
  | nil => exact .inr (.inl h)
  | cons y ys ih =>
    cases ys with
    | nil =>
      simp only [brkStrs, List.mem_cons] at h
      rcases h with rfl | h
      · exact .inr (.inr ⟨y, by simp, rfl⟩)
      · exact .inr (.inl h)
    | cons y' ys =>
      rw [brkStrs] at h
      rcases List.mem_cons.1 h with rfl | h
      · exact .inl (by simp)
      · rcases ih h with h | h | ⟨l, hl, rfl⟩
        · exact .inl (by simp only [List.mem_cons] at h ⊢; exact .inr h)
        · exact .inr (.inl h)
        · exact .inr (.inr ⟨l, by simp only [List.mem_cons] at hl ⊢; exact .inr hl, rfl⟩)

/-- The lines of the parts. -/
theorem parts_lines {punct : Char → Bool} {y : Style} : ∀ (ps : List (List Inline)) (s : Str), ps ≠ [] →
    (∀ p ∈ ps, fitsText punct y p = true) → Fill (inlinesToks y.digit (joinBreak ps)) s →
    ∃ l ls, s = joinWith ['\n'] (l :: ls) ∧ (∀ m ∈ l :: ls, OneLine m ∧ Begins m) ∧
      (∀ k o, k ≤ 3 → o ≤ 3 → TextLines (pairLines k o (l :: ls))) ∧
      ∀ w, OneLine w → w.getLast? ≠ some ' ' → w <+: l → w <+: lineSource (joinBreak ps) := by
  intro ps
  induction ps with
  | nil => intro s h; exact absurd rfl h
  | cons p ps ih =>
    intro s _ hp hf
    have single : ∀ {s}, Fill (inlinesToks y.digit p) s → ∃ l ls, s = joinWith ['\n'] (l :: ls) ∧
        (∀ m ∈ l :: ls, OneLine m ∧ Begins m) ∧ (∀ k o, k ≤ 3 → o ≤ 3 → TextLines (pairLines k o (l :: ls))) ∧
        ∀ w, OneLine w → w <+: l → w <+: lineSource p := by
      intro s hf
      have hfit := hp p (by simp)
      simp only [fitsText, Bool.and_eq_true] at hfit
      obtain ⟨l, ls, e, h1, h2⟩ := hf.para hfit.1.1 hfit.1.2 hfit.2
      refine ⟨l, ls, e, h1, h2, ?_⟩
      intro w hw hp
      rw [hf.source hfit.1.1]
      refine prefix_spaced hw ?_
      rw [e, joinWith_cons_sep]
      exact hp.trans (List.prefix_append _ _)
    cases ps with
    | nil =>
      obtain ⟨l, ls, e, h1, h2, h3⟩ := single hf
      exact ⟨l, ls, e, h1, h2, fun w hw _ hp => h3 w hw hp⟩
    | cons q ps =>
      rw [joinBreak, toks_break] at hf
      obtain ⟨s1, s2, rfl, hf1, hf2⟩ := hf.append_inv
      obtain ⟨s3, s4, rfl, hf3, hf4⟩ := hf2.append_inv
      rw [hf3.lit_inv]
      obtain ⟨l, ls, rfl, h1, h2, h3⟩ := single hf1
      obtain ⟨l', ls', rfl, h1', h2', _⟩ := ih s4 (by simp) (fun r hr => hp r (by simp [hr])) hf4
      have hjoin := brkStrs_join (L := l :: ls) (M := l' :: ls') (by simp) (by simp)
      have hne : ∃ a as, brkStrs (l :: ls) (l' :: ls') = a :: as ∧ (a = l ∨ a = l ++ cs!"  ") := by
        cases ls with
        | nil => exact ⟨_, _, rfl, .inr rfl⟩
        | cons _ _ => exact ⟨_, _, rfl, .inl rfl⟩
      obtain ⟨a, as, ha, hal⟩ := hne
      refine ⟨a, as, ?_, ?_, ?_, ?_⟩
      · rw [← ha, hjoin]
      · intro m hm
        rw [← ha] at hm
        rcases mem_brkStrs hm with h | h | ⟨l, hl, rfl⟩
        · exact h1 m h
        · exact h1' m h
        · obtain ⟨g1, c, t, rfl, g2⟩ := h1 l hl
          exact ⟨oneLine_append.2 ⟨g1, by intro c hc; revert c; decide⟩, c, t ++ cs!"  ", rfl, g2⟩
      · intro k o hk ho
        rw [← ha, pairLines_brk k o (by simp)]
        exact TextLines.brk (h2 k o hk ho) (h2' o o ho ho)
      · intro w hw hwl hp
        rw [joinBreak, source_append]
        refine List.IsPrefix.trans (h3 w hw ?_) (List.prefix_append _ _)
        rcases hal with rfl | rfl
        · exact hp
        · rcases List.prefix_or_prefix_of_prefix hp (List.prefix_append l cs!"  ") with h | ⟨v, hv⟩
          · exact h
          · subst hv
            have hv := (List.prefix_append_right_inj l).1 hp
            rcases List.eq_nil_or_concat v with rfl | ⟨v', d, rfl⟩
            · simp
            · exfalso
              refine hwl ?_
              have : d ∈ cs!"  " := hv.subset (by simp)
              simp at this
              subst this
              simp

/-- The lines of a printed paragraph are firm. -/
theorem Fill.firm_lines {punct : Char → Bool} {y : Style} {item : Bool} {c : List Inline} {s : Str}
    (h : Fill (inlinesToks y.digit c) s) (hc : fitsLines punct y item c = true) :
    ∃ l ls, splitNl s = l :: ls ∧ s = joinWith ['\n'] (l :: ls) ∧ (∀ m ∈ l :: ls, Firm m ∧ Begins m) ∧
      (∀ k o, k ≤ 3 → o ≤ 3 → TextLines ((k, l) :: ls.map fun m => (o, m))) ∧
      ∀ w, OneLine w → w.getLast? ≠ some ' ' → w <+: l → w <+: lineSource c := by
  simp only [fitsLines, Bool.and_eq_true, List.all_eq_true] at hc
  obtain ⟨l, ls, rfl, h1, h2, h3⟩ := parts_lines (parts c) s (parts_ne c) hc.1.1 (by rwa [joinBreak_parts])
  have ht := textLines_not_thematic (h2 0 0 (by decide) (by decide))
  refine ⟨l, ls, splitNl_join (h1 l (by simp)).1 (fun m hm => (h1 m (by simp [hm])).1), rfl, ?_, h2, ?_⟩
  · intro m hm
    refine ⟨⟨(h1 m hm).1, ?_, ?_⟩, (h1 m hm).2⟩
    · obtain ⟨c, t, rfl, hw⟩ := (h1 m hm).2
      exact ⟨c, by simp, hw⟩
    · rcases List.mem_cons.1 hm with rfl | hm
      · exact ht (0, m) (by simp [pairLines])
      · exact ht (0, m) (by simp [pairLines, hm])
  · intro w hw hl hp
    have := h3 w hw hl hp
    rwa [joinBreak_parts] at this

theorem fitsLines_reads {x : PExt} {ent : Str → Option Str} {y : Style} {item : Bool} {c : List Inline} {s : Str}
    (h : Fill (inlinesToks y.digit c) s) (hc : fitsLines (isPunctuation x) y item c = true) :
    ∃ is, Reads x ent s is ∧ keyInlines is = keyInlines c := by
  simp only [fitsLines, Bool.and_eq_true, List.all_eq_true] at hc
  have := parts_reads (x := x) (ent := ent) (digit := y.digit) (parts c) s (parts_ne c) (by
    intro p hp
    have := hc.1.1 p hp
    simp only [fitsText, Bool.and_eq_true] at this
    exact this.1.1) (List.all_eq_true.2 hc.1.2) (by rwa [joinBreak_parts])
  rwa [joinBreak_parts] at this

theorem Laid.fill_zero {t : Text} {s : Str} (h : Laid 0 t s) (hl : t.getLast? ≠ some none) : Fill t s := by
  induction h with
  | nil => exact .nil
  | @char c t s _ ih =>
    refine .char c (ih fun e => hl ?_)
    rw [List.getLast?_cons, e]; rfl
  | @space t s _ ih =>
    refine .space (ih fun e => hl ?_)
    rw [List.getLast?_cons, e]; rfl
  | @«break» t s _ ih =>
    refine .break (ih fun e => hl ?_)
    rw [List.getLast?_cons, e]; rfl
  | last _ => exact absurd rfl hl

theorem breaksText_last {t : Text} (h : breaksText t = true) : t.getLast? ≠ some none := by
  induction t with
  | nil => simp
  | cons o t ih =>
    have ht : breaksText t = true := by
      cases o with
      | none => simp [breaksText] at h; exact h.2
      | some c => exact h
    intro e
    cases t with
    | nil =>
      simp at e; subst e
      simp [breaksText, flat, startsText] at h
    | cons o' t => exact ih ht (by simpa [List.getLast?_cons] using e)

theorem parts_last {punct : Char → Bool} {y : Style} : ∀ (ps : List (List Inline)), (∀ p ∈ ps, fitsText punct y p = true) →
    (inlinesToks y.digit (joinBreak ps)).getLast? ≠ some none := by
  intro ps
  induction ps with
  | nil => simp [joinBreak, inlinesToks]
  | cons p ps ih =>
    intro hp
    cases ps with
    | nil =>
      have := hp p (by simp)
      simp only [fitsText, Bool.and_eq_true] at this
      exact breaksText_last this.2
    | cons q ps =>
      rw [joinBreak, toks_break]
      have := ih (fun r hr => hp r (by simp [hr]))
      intro e
      rw [← List.append_assoc, List.getLast?_append] at e
      cases h : (inlinesToks y.digit (joinBreak (q :: ps))).getLast? with
      | some o =>
        rw [h] at e this
        simp at e; subst e; exact this rfl
      | none =>
        rw [h, List.getLast?_append] at e
        simp [lit] at e

/-- What is printed is the lines with the indentation. -/
theorem fill_lines {punct : Char → Bool} {y : Style} {item : Bool} {c : List Inline} {n : Nat} {s : Str}
    (hn : item = false → n = 0) (hf : fitsLines punct y item c = true) (h : Laid n (inlinesToks y.digit c) s) :
    ∃ s0, Fill (inlinesToks y.digit c) s0 ∧ s = indentText n s0 := by
  have hf' := hf
  simp only [fitsLines, Bool.and_eq_true, List.all_eq_true, Bool.or_eq_true, Bool.not_eq_true', beq_iff_eq] at hf
  cases item with
  | false =>
    rw [hn rfl] at h ⊢
    refine ⟨s, h.fill_zero ?_, (indentText_zero s).symm⟩
    have := parts_last (parts c) hf.1.1
    rwa [joinBreak_parts] at this
  | true =>
    have h1 := hf.2.resolve_left (by simp)
    have hj := joinBreak_parts c
    obtain ⟨p, hp⟩ : ∃ p, parts c = [p] := by
      match parts c, h1 with
      | [p], _ => exact ⟨p, rfl⟩
    rw [hp] at hj
    have := hf.1.1 p (by simp [hp])
    simp only [joinBreak] at hj
    subst hj
    simp only [fitsText, Bool.and_eq_true] at this
    exact h.fill (plain_of_clear this.1.1) this.2

end Spec
end Md
end Verif
