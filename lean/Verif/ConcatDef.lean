import Verif.ConcatList
/-!
# Link definitions, followed by a blank line
-/
set_option autoImplicit false
set_option linter.unusedVariables false
set_option linter.unusedSimpArgs false
namespace Verif
open Nom

section
variable {t : Str} {x : PExt} {cfg : PConfig} {rec : Str → Option (List Inline)} {α β : Type}

/-! ## Labels -/

/-- The bracket is closed. -/
def Lc (s : Str) : Prop := N s ∧ labelCloses s = true

theorem stays_labelStep : StaysOn Lc ('\n' :: t)
    (preceded (notP (chr ']')) (value ']' (tag cs!"\\]") <||> anychar)) :=
  stays_preceded (D' := Lc) (stays_notP (stays_chr (by decide)).agrees) (into_notP fun _ h => h)
    (stays_orElse (stays_value (stays_tag (by decide))) (fun s hs => stays_satisfyN s hs.1))

theorem labelCloses_cons {c : Char} {s : Str} (hc : c ≠ ']') (h : labelCloses (c :: s) = true) :
    (∃ r, c = '\\' ∧ s = ']' :: r ∧ labelCloses r = true) ∨ labelCloses s = true := by
  unfold labelCloses at h
  split at h
  · simp_all
  · rename_i e; simp at e; exact .inl ⟨_, e.1, e.2, h⟩
  · rename_i e; simp at e; exact absurd e.1 hc
  · rename_i e; simp at e; obtain ⟨_, rfl⟩ := e; exact .inr h

theorem into_labelStep : Into Lc
    (preceded (notP (chr ']')) (value ']' (tag cs!"\\]") <||> anychar)) Lc := by
  intro s r a hs h
  have hw : W r := hs.1.w.suffix (Suf.out _ _ _ h)
  have hl : labelCloses r = true := by
    obtain ⟨s1, _, h1, h2⟩ := preceded_some.1 h
    obtain ⟨h3, rfl⟩ := notP_some.1 h1
    cases s1 with
    | nil => simpa [labelCloses] using hs.2
    | cons c s =>
      have hc : c ≠ ']' := by rintro rfl; simp [chr, satisfy] at h3
      rcases orElse_some.1 h2 with h2 | ⟨hn, h2⟩
      · obtain ⟨_, h4, _⟩ := mapP_some.1 h2
        obtain ⟨h5, _⟩ := tag_some.1 h4
        simp at h5
        obtain ⟨rfl, rfl⟩ := h5
        have := hs.2
        simpa [labelCloses] using this
      · simp [anychar, satisfy] at h2
        obtain ⟨rfl, rfl⟩ := h2
        rcases labelCloses_cons hc hs.2 with ⟨r, rfl, rfl, _⟩ | h6
        · rw [value_none, tag_none] at hn
          exact absurd ⟨_, rfl⟩ hn
        · exact h6
  refine ⟨⟨hw, ?_⟩, hl⟩
  rintro rfl
  simp [labelCloses] at hl

theorem stays_labelInner : StaysOn Lc ('\n' :: t) (linkLabelInner rec) := by
  have h : StaysOn Lc ('\n' :: t) (verify (many1 (preceded (notP (chr ']')) (value ']' (tag cs!"\\]") <||> anychar)))
      (fun cs => cs.any (fun c => c != ' ' && c != '\n') && cs.length < 1000)) :=
    stays_verify (stays_many1 stays_labelStep into_labelStep)
  intro s hs
  unfold linkLabelInner
  rw [h s hs]
  cases verify (many1 (preceded (notP (chr ']')) (value ']' (tag cs!"\\]") <||> anychar)))
      (fun cs => cs.any (fun c => c != ' ' && c != '\n') && cs.length < 1000) s with
  | none => rfl
  | some y =>
    simp only [Option.map_some]
    cases rec y.2 <;> rfl

theorem into_labelInner : Into Lc (linkLabelInner rec) Lc := by
  intro s r l hs h
  unfold linkLabelInner at h
  split at h
  · simp at h
  · rename_i e
    split at h
    · simp at h
      obtain ⟨rfl, _⟩ := h
      exact into_many1 into_labelStep _ _ _ hs (verify_some.1 e).1
    · simp at h

theorem stays_label : StaysOn Cl1 ('\n' :: t) (linkLabel rec) := by
  refine stays_delimited (D' := Lc) (D3 := Lc) (stays_tag (by decide)) ?_ stays_labelInner into_labelInner (stays_tag (by decide))
  intro s r a hs h
  refine ⟨into_tag (by decide) _ _ _ hs.1 h, ?_⟩
  obtain ⟨rfl, _⟩ := tag_some.1 h
  exact hs.2 _ rfl

theorem into_label : Into Cl1 (linkLabel rec) N := by
  refine into_delimited (D' := Lc) (D3 := Lc) ?_ into_labelInner ((into_tag (by decide)).mono fun s h => h.1)
  intro s r a hs h
  refine ⟨into_tag (by decide) _ _ _ hs.1 h, ?_⟩
  obtain ⟨rfl, _⟩ := tag_some.1 h
  exact hs.2 _ rfl

/-! ## Destinations -/

theorem W.after {c : Char} {s : Str} (h : W ('\\' :: c :: s)) : N s := by
  refine ⟨h.suffix ⟨['\\', c], rfl⟩, ?_⟩
  rintro rfl
  have h1 : N ['\\', c] := ⟨h, by simp⟩
  have := h1.last
  simp at this; subst this
  exact h.2 (List.suffix_refl _)

theorem stays_escaped : StaysOn W ('\n' :: t) linkEscapedChar := by
  refine stays_preceded (D' := N) (stays_tag (by decide)) ?_ stays_satisfyN
  intro s r a hs h
  obtain ⟨rfl, _⟩ := tag_some.1 h
  exact N.tail ⟨hs, by simp⟩ (by decide)

theorem into_escaped : Into W linkEscapedChar N := by
  intro s r a hs h
  obtain ⟨s1, _, h1, h2⟩ := preceded_some.1 h
  obtain ⟨rfl, _⟩ := tag_some.1 h1
  rw [anychar_some.1 h2] at hs
  exact hs.after

theorem stays_balancedF : ∀ n, StaysOn W ('\n' :: t) (balancedParensF n) ∧ Into N (balancedParensF n) N
  | 0 => ⟨fun _ _ => rfl, fun _ _ _ _ h => by simp [balancedParensF, failP] at h⟩
  | n + 1 => by
    obtain ⟨ih1, ih2⟩ := stays_balancedF n
    have hv : (fun c => isValidChar c && c != '(' && c != ')') '\n' = false := by decide
    have hp : StaysOn W ('\n' :: t) (value () linkEscapedChar <||> balancedParensF n <||>
        value () (satisfy (fun c => isValidChar c && c != '(' && c != ')'))) :=
      stays_orElse (stays_value stays_escaped) (stays_orElse ih1 (stays_value (stays_satisfy hv)))
    have hi : Into N (value () linkEscapedChar <||> balancedParensF n <||>
        value () (satisfy (fun c => isValidChar c && c != '(' && c != ')'))) N :=
      into_orElse (into_value (into_escaped.mono fun s h => h.w)) (into_orElse ih2 (into_value (into_satisfy hv)))
    unfold balancedParensF
    refine ⟨?_, ?_⟩
    · exact stays_delimited (D' := W) (D3 := W) (stays_tag (by decide)) into_suf
        (stays_value (stays_many0 hp into_suf)) into_suf (stays_tag (by decide))
    · exact into_delimited (D' := N) (D3 := N) (into_tag (by decide)) (into_value (into_many0 hi)) (into_tag (by decide))

theorem stays_balanced : StaysOn W ('\n' :: t) balancedParens := by
  intro s hs
  unfold balancedParens
  rw [balancedF_stable _ ((s ++ '\n' :: t).length + 1) s (by omega) (by simp only [List.length_append]; omega)]
  exact (stays_balancedF _).1 s hs

theorem into_balanced : Into N balancedParens N := fun s r a hs h => (stays_balancedF (t := []) _).2 s r a hs h

theorem stays_destination : StaysOn W ('\n' :: t) linkDestination := by
  refine stays_orElse ?_ ?_
  · refine stays_delimited (D' := W) (D3 := W) (stays_chr (by decide)) into_suf (stays_many0 ?_ into_suf) into_suf (stays_chr (by decide))
    refine stays_orElse (stays_preceded (D' := W) (stays_chr (by decide)) into_suf (stays_oneOf (by decide))) ?_
    intro s hs
    cases s with
    | nil => rfl
    | cons c s =>
      have h : (oneOf cs!"\n<>" (c :: (s ++ '\n' :: t))).isSome = (oneOf cs!"\n<>" (c :: s)).isSome := by
        simp only [oneOf, satisfy]; split <;> rfl
      simp only [preceded, notP, List.cons_append]
      cases e : oneOf cs!"\n<>" (c :: s) with
      | none =>
        cases e' : oneOf cs!"\n<>" (c :: (s ++ '\n' :: t)) with
        | none => rfl
        | some y => rw [e, e'] at h; simp at h
      | some y =>
        cases e' : oneOf cs!"\n<>" (c :: (s ++ '\n' :: t)) with
        | none => rw [e, e'] at h; simp at h
        | some y => rfl
  · have hv : (fun c => isValidChar c && c != '(' && c != ')') '\n' = false := by decide
    have hp : StaysOn W ('\n' :: t) (value () linkEscapedChar <||> balancedParens <||>
        value () (satisfy (fun c => isValidChar c && c != '(' && c != ')'))) :=
      stays_orElse (stays_value stays_escaped) (stays_orElse stays_balanced (stays_value (stays_satisfy hv)))
    have h0 : StaysOn W ('\n' :: t) (satisfy (fun c => isValidChar c && c != '<')) := stays_satisfy (by decide)
    intro s hs
    unfold linkDestination2
    rw [h0 s hs]
    cases satisfy (fun c => isValidChar c && c != '<') s with
    | none => rfl
    | some y => exact stays_recognize (stays_many1 hp into_suf) s hs

theorem into_destination : Into W linkDestination N := by
  intro s r a hs h
  have hN : N s := by
    refine ⟨hs, ?_⟩
    rintro rfl
    have h1 : (Con.out (p := linkDestination) _ _ _ h).2 = (Con.out (p := linkDestination) _ _ _ h).2 := rfl
    have := Con.lt h
    simp at this
  refine into_orElse ?_ ?_ s r a hN h
  · refine into_delimited (D' := N) (D3 := N) (into_chr (by decide)) (into_many0 (into_orElse
      (into_preceded (into_chr (by decide)) (into_oneOf (by decide))) (into_of_clean ?_))) (into_chr (by decide))
    intro s r a h
    obtain ⟨s1, _, h1, h2⟩ := preceded_some.1 h
    obtain ⟨h3, rfl⟩ := notP_some.1 h1
    rw [anychar_some.1 h2] at h3 ⊢
    refine ⟨[a], rfl, ?_⟩
    intro hc
    simp at hc; subst hc
    simp [oneOf, satisfy] at h3
  · have hv : (fun c => isValidChar c && c != '(' && c != ')') '\n' = false := by decide
    have hi : Into N (value () linkEscapedChar <||> balancedParens <||>
        value () (satisfy (fun c => isValidChar c && c != '(' && c != ')'))) N :=
      into_orElse (into_value (into_escaped.mono fun s h => h.w)) (into_orElse into_balanced (into_value (into_satisfy hv)))
    intro s r a hs h
    unfold linkDestination2 at h
    split at h
    · simp at h
    · exact into_recognize (into_many1 hi) _ _ _ hs h

/-! ## Titles -/

/-- A title that begins after the white space in front is closed. -/
def TitleClosed (v : Str) : Prop :=
  ∀ b w, TitleGap b → v = b ++ w → (w.head? = some '"' ∨ w.head? = some '\'' ∨ w.head? = some '(') →
    ∃ w' t r', LinkTitle w' t ∧ w = w' ++ r'

theorem linkTitle_head {w : Str} (h : ¬ (w.head? = some '"' ∨ w.head? = some '\'' ∨ w.head? = some '(')) :
    linkTitle w = none := by
  cases w with
  | nil => rfl
  | cons c w =>
    simp at h
    obtain ⟨h1, h2, h3⟩ := h
    have h1' : ('"' == c) = false := by simpa using fun e => h1 e.symm
    simp [linkTitle, orElse, linkTitleDoubleQuoted, linkTitleSingleQuoted, linkTitleParenthesized, delimited, preceded, tag, chr,
      satisfy, h1', h2, h3, List.isPrefixOf_cons_cons]

theorem linkTitle_last {s r a : Str} (hs : N s) (h : linkTitle s = some (r, a)) : N r := by
  obtain ⟨w, rfl, hw⟩ := linkTitle_writes _ _ _ h
  refine ⟨hs.w.suffix ⟨w, rfl⟩, ?_⟩
  rintro rfl
  have := hs.last
  simp only [List.append_nil] at this
  cases hw <;> simp [List.getLast?_cons, List.getLast?_append] at this

theorem stays_titleAt {w : Str} (h : (w.head? = some '"' ∨ w.head? = some '\'' ∨ w.head? = some '(') →
    ∃ w' t r', LinkTitle w' t ∧ w = w' ++ r') (hw : w ≠ []) :
    linkTitle (w ++ '\n' :: t) = (linkTitle w).map fun y => (y.1 ++ '\n' :: t, y.2) := by
  by_cases hq : w.head? = some '"' ∨ w.head? = some '\'' ∨ w.head? = some '('
  · obtain ⟨w', t', r', h1, rfl⟩ := h hq
    rw [linkTitle_of h1, List.append_assoc, linkTitle_of h1]; rfl
  · rw [linkTitle_head hq, linkTitle_head]
    · rfl
    · cases w with
      | nil => exact absurd rfl hw
      | cons c w => simpa using hq

theorem stays_ws : StaysOn N ('\n' :: t) (lineEnding <||> space1) := stays_orElse stays_lineEnding stays_space1

theorem ws_loop : ∀ v r l, many0 (lineEnding <||> space1) v = some (r, l) → W v →
    (N r → many0 (lineEnding <||> space1) (v ++ '\n' :: t) = some (r ++ '\n' :: t, l)) ∧
    (r = [] → ∃ r' l', many0 (lineEnding <||> space1) (v ++ '\n' :: t) = some (r', l') ∧ r' <:+ t) := by
  have hT : ∃ r' l', many0 (lineEnding <||> space1) ('\n' :: t) = some (r', l') ∧ r' <:+ t := by
    obtain ⟨r', l', h⟩ := many0_ex (p := lineEnding <||> space1) t
    have h1 : (lineEnding <||> space1) ('\n' :: t) = some (t, ['\n']) := rfl
    exact ⟨r', _, many0_of_some h1 (by simp) h, Suf.out _ _ _ h⟩
  refine many0_induction ?_ ?_
  · intro s hn hs
    refine ⟨fun hN => many0_of_none (stays_ws.none hN hn), ?_⟩
    rintro rfl
    exact hT
  · intro s r a r' l h1 hlt hm ih hs
    have hN : N s := ⟨hs, by rintro rfl; simp at hlt⟩
    have h2 := (stays_ws (t := t)).some hN h1
    have hlt' : (r ++ '\n' :: t).length < (s ++ '\n' :: t).length := by simp only [List.length_append]; omega
    obtain ⟨h3, h4⟩ := ih (hs.suffix (Suf.out _ _ _ h1))
    refine ⟨fun hN' => many0_of_some h2 hlt' (h3 hN'), fun he => ?_⟩
    obtain ⟨r2, l2, h5, h6⟩ := h4 he
    exact ⟨r2, _, many0_of_some h2 hlt' h5, h6⟩

theorem stays_title {v : Str} (hv : N v) (hc : TitleClosed v) :
    preceded oneLineWhitespace1 linkTitle (v ++ '\n' :: t) =
      (preceded oneLineWhitespace1 linkTitle v).map fun y => (y.1 ++ '\n' :: t, y.2) := by
  cases e : (lineEnding <||> space1) v with
  | none =>
    have h1 : ∀ s, (lineEnding <||> space1) s = none → oneLineWhitespace1 s = none := by
      intro s h
      simp [oneLineWhitespace1, verify, recognize, many1, h]
    simp [preceded, h1 _ e, h1 _ (stays_ws.none hv e)]
  | some y =>
    obtain ⟨r1, a⟩ := y
    obtain ⟨r, l, hm⟩ := many0_ex (p := lineEnding <||> space1) r1
    have hw1 : W r1 := hv.w.suffix (Suf.out _ _ _ e)
    obtain ⟨h1, h2⟩ := ws_loop (t := t) _ _ _ hm hw1
    have hm1 : many1 (lineEnding <||> space1) v = some (r, a :: l) := many1_some.2 ⟨_, _, _, e, hm, rfl⟩
    have hw : W r := hw1.suffix (Suf.out _ _ _ hm)
    rcases hw.cases with rfl | hN
    · obtain ⟨r', l', h3, h4⟩ := h2 rfl
      have hm2 : many1 (lineEnding <||> space1) (v ++ '\n' :: t) = some (r', a :: l') :=
        many1_some.2 ⟨_, _, _, stays_ws.some hv e, h3, rfl⟩
      have h5 : oneLineWhitespace1 (v ++ '\n' :: t) = none := by
        obtain ⟨b, rfl⟩ := h4
        have h6 : recognize (many1 (lineEnding <||> space1)) (v ++ '\n' :: (b ++ r')) = some (r', v ++ '\n' :: b) := by
          unfold recognize
          rw [hm2]
          have h7 : v ++ '\n' :: (b ++ r') = (v ++ '\n' :: b) ++ r' := by simp
          rw [h7]
          simp only [List.length_append, Nat.add_sub_cancel]
          rw [show v.length + ('\n' :: b).length = (v ++ '\n' :: b).length by simp, List.take_left']
          rfl
        unfold oneLineWhitespace1 verify
        rw [h6]
        simp only
        rw [if_neg]
        have h8 : 0 < v.count '\n' := List.count_pos_iff.2 hv.mem
        simp [List.count_append, List.count_cons]
        omega
      have h6 : preceded oneLineWhitespace1 linkTitle v = none := by
        cases e2 : oneLineWhitespace1 v with
        | none => simp [preceded, e2]
        | some z =>
          obtain ⟨h7, _⟩ := verify_some.1 e2
          obtain ⟨_, h8, _⟩ := recognize_some.1 h7
          rw [hm1] at h8
          simp at h8
          have : z.1 = [] := by simpa using h8.1.symm
          simp only [preceded, e2, this]
          rfl
      rw [h6]
      simp [preceded, h5]
    · have hm2 : many1 (lineEnding <||> space1) (v ++ '\n' :: t) = some (r ++ '\n' :: t, a :: l) :=
        many1_some.2 ⟨_, _, _, stays_ws.some hv e, h1 hN, rfl⟩
      obtain ⟨b, hb⟩ := Suf.out _ _ _ hm1
      subst hb
      have h3 : recognize (many1 (lineEnding <||> space1)) (b ++ r) = some (r, b) := by
        unfold recognize; rw [hm1]; simp
      have h4 : recognize (many1 (lineEnding <||> space1)) (b ++ r ++ '\n' :: t) = some (r ++ '\n' :: t, b) := by
        unfold recognize; rw [hm2]
        have h7 : b ++ r ++ '\n' :: t = b ++ (r ++ '\n' :: t) := by simp
        rw [h7]; simp
      by_cases hct : decide (b.count '\n' ≤ 1) = true
      · have h5 : oneLineWhitespace1 (b ++ r) = some (r, b) := by
          unfold oneLineWhitespace1 verify; rw [h3]; simp only; rw [if_pos hct]
        have h6 : oneLineWhitespace1 (b ++ r ++ '\n' :: t) = some (r ++ '\n' :: t, b) := by
          unfold oneLineWhitespace1 verify; rw [h4]; simp only; rw [if_pos hct]
        obtain ⟨g, hg, hg2⟩ := oneLineWhitespace1_writes _ _ _ h5
        have hbg : b = g := List.append_cancel_right hg
        subst hbg
        simp only [preceded, h5, h6]
        exact stays_titleAt (hc b r hg2 rfl) hN.ne
      · have h5 : oneLineWhitespace1 (b ++ r) = none := by
          unfold oneLineWhitespace1 verify; rw [h3]; simp only; rw [if_neg hct]
        have h6 : oneLineWhitespace1 (b ++ r ++ '\n' :: t) = none := by
          unfold oneLineWhitespace1 verify; rw [h4]; simp only; rw [if_neg hct]
        simp only [preceded, h5, h6]; rfl

theorem into_title : Into N (preceded oneLineWhitespace1 linkTitle) N := by
  intro s r a hs h
  obtain ⟨s1, _, h1, h2⟩ := preceded_some.1 h
  have hw : W s1 := hs.w.suffix (Suf.out _ _ _ h1)
  rcases hw.cases with rfl | hN
  · simp [linkTitle_head (w := [])] at h2
  · exact linkTitle_last hN h2

/-! ## Definitions -/

/-- After a definition up to its destination, a title is closed. -/
def Cd5 (s : Str) : Prop := W s ∧ ∀ d d' v, LinkDest d d' → s = d ++ v → TitleClosed v
def Cd4 (s : Str) : Prop := N s ∧ ∀ g d d' v', Gap g → LinkDest d d' → s = g ++ (d ++ v') → TitleClosed v'
def Cd3 (s : Str) : Prop := N s ∧ ∀ g d d' v', Gap g → LinkDest d d' → s = ':' :: (g ++ (d ++ v')) → TitleClosed v'
def Cd1 (s : Str) : Prop := Cl1 s ∧ ∀ w l g d d' v', BracketText w l → w.getLast? ≠ some '\\' → Gap g → LinkDest d d' →
  s = '[' :: (w ++ (']' :: ':' :: (g ++ (d ++ v')))) → TitleClosed v'
def Cd0 (s : Str) : Prop := Cl0 s ∧ ∀ v, OpensTitle s v → ∃ w' t r', LinkTitle w' t ∧ v = w' ++ r'

theorem into_cd1 : Into Cd0 indent03 Cd1 := by
  intro s r a hs h
  refine ⟨into_cl1 _ _ _ hs.1 h, ?_⟩
  rintro w l g d d' v' h1 h2 h3 h4 rfl b w2 h5 rfl h6
  obtain ⟨k, hk, _, rfl, _⟩ := indent03_written h
  exact hs.2 w2 ⟨k, w, l, g, d, b, hk, h1, h2, h3, ⟨_, h4⟩, h5, h6, by simp⟩

theorem into_cd3 : Into Cd1 (linkLabel rec) Cd3 := by
  intro s r a hs h
  refine ⟨into_label _ _ _ hs.1 h, ?_⟩
  rintro g d d' v' h1 h2 rfl
  obtain ⟨w, l, rfl, h3, h4⟩ := label_at h
  exact hs.2 w l g d d' v' h3 h4 h1 h2 rfl

theorem into_cd4 : Into Cd3 (chr ':') Cd4 := by
  intro s r a hs h
  refine ⟨into_chr (by decide) _ _ _ hs.1 h, ?_⟩
  rintro g d d' v' h1 h2 rfl
  obtain ⟨rfl, _⟩ := chr_some.1 h
  exact hs.2 g d d' v' h1 h2 rfl

theorem into_cd5 : Into Cd4 (seq space0 (seq (opt lineEnding) space0)) Cd5 := by
  intro s r a hs h
  refine ⟨hs.1.w.suffix (Suf.out _ _ _ h), ?_⟩
  rintro d d' v h1 rfl
  obtain ⟨s6, h14, h15⟩ := seq_some.1 h
  obtain ⟨s7, h16, h17⟩ := seq_some.1 h15
  obtain ⟨b1, rfl, hb1⟩ := space0_writes _ _ _ h14
  obtain ⟨b2, rfl, hb2⟩ := space0_writes _ _ _ h17
  rcases opt_some.1 h16 with ⟨_, h18, _⟩ | ⟨_, rfl, _⟩
  · obtain ⟨nl, rfl, hnl⟩ := lineEnding_writes _ _ _ h18
    exact hs.2 (b1 ++ (nl ++ b2)) d d' v (.inr ⟨b1, nl, b2, hb1, hnl, hb2, rfl⟩) h1 (by simp)
  · exact hs.2 (b1 ++ b2) d d' v (.inl (by intro c hc; simp at hc; exact hc.elim (hb1 c) (hb2 c))) h1 (by simp)

theorem into_cd6 : Into Cd5 linkDestination (fun v => N v ∧ TitleClosed v) := by
  intro s r a hs h
  have hN := into_destination _ _ _ hs.1 h
  refine ⟨hN, ?_⟩
  obtain ⟨w, rfl, hd⟩ := destAt_of h
  rcases hd with ⟨d', hd⟩ | ⟨_, _, _, rfl⟩
  · exact hs.2 _ _ _ hd rfl
  · exact absurd rfl hN.ne

theorem stays_definition : StaysOn Cd0 ('\n' :: t) (linkDefinitionP x cfg) := by
  have hgap : StaysOn Cd4 ('\n' :: t) (seq space0 (seq (opt lineEnding) space0)) := fun s hs =>
    stays_seq (D := N) (D' := N) stays_space0 into_space0
      (stays_seq (D' := W) (stays_opt stays_lineEnding) into_sufN stays_space0) s hs.1
  have htail : StaysOn (fun v => N v ∧ TitleClosed v) ('\n' :: t) (opt (preceded oneLineWhitespace1 linkTitle)) :=
    stays_opt fun v hv => stays_title hv.1 hv.2
  have htail' : Into (fun v => N v ∧ TitleClosed v) (opt (preceded oneLineWhitespace1 linkTitle)) N :=
    (into_opt into_title fun _ h => h).mono fun s h => h.1
  refine stays_mapP (stays_terminated (D' := N) ?_ ?_ stays_eofOrEol)
  · exact stays_seq (D' := Cd3) (stays_preceded stays_indent03 into_cd1 fun s hs => stays_label s hs.1)
      (into_preceded into_cd1 into_cd3)
      (stays_preceded (stays_chr (by decide)) into_cd4 (stays_preceded hgap into_cd5
        (stays_seq (fun s hs => stays_destination s hs.1) into_cd6 htail)))
  · exact into_seq (into_preceded into_cd1 into_cd3)
      (into_preceded into_cd4 (into_preceded into_cd5 (into_seq into_cd6 htail')))

end
end Verif
