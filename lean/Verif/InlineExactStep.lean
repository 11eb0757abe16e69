import Verif.InlineExact
/-!
# Code spans, identifiers, references and text begin exactly where the specification says (for C84)
-/
set_option autoImplicit false
set_option linter.unusedVariables false
set_option linter.unusedSimpArgs false
namespace Verif.Exact
open Nom

variable {x : PExt} {cfg : PConfig} {ent : Str → Option Str} {rec : Str → Option (List Inline)}

/-! ## Code spans -/

theorem linesAsSpaces_eq {o t : Str} (h : LinesAsSpaces o t) : codeNewlines o = t := by
  induction h with
  | nil => rfl
  | newline he h ih =>
    rcases he with rfl | rfl
    · simp [codeNewlines, ih]
    · simp [codeNewlines, ih]
  | @char c w t h1 h2 h ih =>
    unfold codeNewlines
    split
    · rename_i r e
      simp at e
      exact absurd (by rw [e.2]; rfl) (h2 e.1)
    · rename_i r _ e
      simp at e
      exact absurd e.1 h1
    · rename_i c' r _ _ e
      simp at e
      rw [e.1, ← e.2, ih]
    · simp at *

theorem unpadded_eq {t c : Str} (h : Unpadded t c) : codeStrip t = c := by
  unfold codeStrip
  cases h with
  | padded h =>
    have h1 : trim (' ' :: (c ++ [' '])) ≠ [] := by
      rw [ne_eq, trim_eq_nil]
      obtain ⟨d, hd, h2⟩ := h
      intro h3
      rw [h3 d (by simp [hd])] at h2
      cases h2
    rw [if_pos ⟨rfl, by rw [List.getLast?_cons]; simp, h1⟩]
    simp
  | bare h =>
    by_cases hc : t.head? = some ' ' ∧ t.getLast? = some ' ' ∧ trim t ≠ []
    · exfalso
      obtain ⟨h1, h2, h3⟩ := hc
      apply h3
      rw [trim_eq_nil]
      cases t with
      | nil => simp at h1
      | cons a t =>
        simp at h1; subst h1
        rcases List.eq_nil_or_concat t with rfl | ⟨u, b, rfl⟩
        · intro d hd; simp at hd; subst hd; decide
        · rw [List.getLast?_cons] at h2
          simp at h2; subst h2
          have := h u (by simp)
          intro d hd
          simp at hd
          rcases hd with rfl | hd | rfl
          · decide
          · exact this d hd
          · decide
    · rw [if_neg hc]

theorem code_iff {s c r : Str} : codeSpan s = some (r, c) ↔ CodeAt s c r := by
  constructor
  · intro h
    obtain ⟨w, hw, h'⟩ := codeSpan_writes (x := PExt.ascii) (ent := fun _ => none) s r _ (mapP_some.2 ⟨c, h, rfl⟩)
    cases h' with
    | code h1 => exact ⟨w, h1, hw⟩
  · rintro ⟨w, h, rfl⟩
    cases h with
    | @mk n o t _ hn hne hhead hblank hs hfirst hlines hpad =>
      unfold codeSpan
      obtain ⟨k, rfl⟩ : ∃ k, n = k + 1 := ⟨n - 1, by omega⟩
      have h1 : recognize (many1 (chr '`')) (List.replicate (k + 1) '`' ++ (o ++ (List.replicate (k + 1) '`' ++ r))) =
          some (o ++ (List.replicate (k + 1) '`' ++ r), List.replicate (k + 1) '`') := by
        refine recognize_of (many1_of_many0 (many0_chr (k + 1) ?_) (by simp))
        cases o with
        | nil => exact absurd rfl hne
        | cons a o => simpa using hhead
      have hstop : codeSpanStop (List.replicate (k + 1) '`') (List.replicate (k + 1) '`' ++ r) = some (r, ()) := by
        refine orElse_of_some (value_some.2 ⟨_, preceded_some.2 ⟨_, (), notP_some.2 ⟨?_, rfl⟩, tag_append _ _⟩, rfl⟩)
        unfold seq
        rw [tag_append]
        cases r with
        | nil => rfl
        | cons a r => simp only; rw [chr_ne (by simpa using hs)]
      have h2 := untilLoop_of ⟨_, hstop⟩ o (by
        intro a b hab hb
        refine orElse_none.2 ⟨?_, ?_⟩
        · rw [value_none]
          cases e : preceded (notP (seq (tag (List.replicate (k + 1) '`')) (chr '`'))) (tag (List.replicate (k + 1) '`'))
            (b ++ (List.replicate (k + 1) '`' ++ r)) with
          | none => rfl
          | some y =>
            exfalso
            obtain ⟨s1, _, h3, h4⟩ := preceded_some.1 (show _ = some (y.1, y.2) from e)
            obtain ⟨h3', rfl⟩ := notP_some.1 h3
            obtain ⟨h5, _⟩ := tag_some.1 h4
            have h6 := hfirst a y.1 (by rw [← h5, hab]; simp) (by
              rw [hab]
              have := List.length_pos_iff.2 hb
              simp; omega)
            obtain ⟨v, hv⟩ : ∃ v, y.1 = '`' :: v := by
              cases hy : y.1 with
              | nil => rw [hy] at h6; simp at h6
              | cons a v => rw [hy] at h6; simp at h6; subst h6; exact ⟨v, rfl⟩
            rw [h5, hv] at h3'
            have h7 : seq (tag (List.replicate (k + 1) '`')) (chr '`') (List.replicate (k + 1) '`' ++ '`' :: v) =
                some (v, (List.replicate (k + 1) '`', '`')) :=
              seq_some.2 ⟨_, tag_append _ _, chr_cons _ _⟩
            rw [h7] at h3'; cases h3'
        · rw [value_none]
          cases e : seq lineEnding (seq space0 lineEnding) (b ++ (List.replicate (k + 1) '`' ++ r)) with
          | none => rfl
          | some y =>
            exfalso
            obtain ⟨s1, h3, h4⟩ := seq_some.1 (show _ = some (y.1, y.2.1, y.2.2) from e)
            obtain ⟨s2, h5, h6⟩ := seq_some.1 (show _ = some (y.1, y.2.2.1, y.2.2.2) from h4)
            obtain ⟨e1, k1, hn1⟩ := lineEnding_writes _ _ _ h3
            obtain ⟨sp, k2, hn2⟩ := space0_writes _ _ _ h5
            obtain ⟨e2, k3, hn3⟩ := lineEnding_writes _ _ _ h6
            have hbig : b ++ (List.replicate (k + 1) '`' ++ r) = (e1 ++ (sp ++ e2)) ++ y.1 := by
              rw [k1, k2, k3]; simp
            have hno : '`' ∉ e1 ++ (sp ++ e2) := by
              intro hm
              simp at hm
              rcases hm with hm | hm | hm
              · rcases hn1 with rfl | rfl <;> simp at hm
              · rcases hn2 _ hm with h | h <;> simp at h
              · rcases hn3 with rfl | rfl <;> simp at hm
            rw [List.append_eq_append_iff] at hbig
            rcases hbig with ⟨z, h7, h8⟩ | ⟨z, h7, h8⟩
            · cases z with
              | nil =>
                rw [List.append_nil] at h7
                exact hblank ⟨a, e1, sp, e2, [], hn1, hn3, fun c hc => by
                  rcases hn2 c hc with rfl | rfl <;> rfl, by rw [hab, ← h7]; simp⟩
              | cons f z =>
                rw [List.replicate_succ] at h8
                simp at h8
                exact hno (by rw [h7, ← h8.1]; simp)
            · exact hblank ⟨a, e1, sp, e2, z, hn1, hn3, fun c hc => by
                rcases hn2 c hc with rfl | rfl <;> rfl, by rw [hab, h7]; simp⟩)
      rw [show List.replicate (k + 1) '`' ++ (o ++ List.replicate (k + 1) '`') ++ r =
        List.replicate (k + 1) '`' ++ (o ++ (List.replicate (k + 1) '`' ++ r)) by simp, h1]
      refine mapP_some.2 ⟨o, terminated_some.2 ⟨_, _, recognize_of (a := o) (many1_of_many0 h2 hne), tag_append _ _⟩, ?_⟩
      rw [linesAsSpaces_eq hlines, unpadded_eq hpad]

/-! ## Identifiers -/

theorem hasDouble_iff {w : Str} : hasDoubleUnderscore w = true ↔ cs!"__" <:+: w := by
  constructor
  · exact hasDouble_of
  · rintro ⟨a, b, rfl⟩
    induction a with
    | nil => rfl
    | cons c a ih =>
      simp only [List.cons_append]
      unfold hasDoubleUnderscore
      split
      · rfl
      · rename_i h; simp at h; rw [← h.2]; simpa using ih
      · rename_i h; simp at h

theorem identifier_iff {s r : Str} {i : Inline} :
    environmentVariable s = some (r, i) ↔ ∃ w, i = .text w ∧ IdentifierAt s w r := by
  constructor
  · intro e
    unfold environmentVariable at e
    obtain ⟨w, h1, rfl⟩ := mapP_some.1 e
    obtain ⟨h2, h3⟩ := verify_some.1 h1
    have happ := recognize_append h2
    have hall : ∀ d ∈ w, isAlnum d = true ∨ d = '_' := by
      refine Eats.recognize (f := fun d => isAlnum d = true ∨ d = '_') ?_ h2
      refine Eats.seq (Eats.takeWhile1 (fun c hc => .inl (isAlnum_of_isAlpha hc))) (Eats.many0 ?_)
      refine Eats.orElse (Eats.takeWhile1 (fun c hc => .inl hc)) ?_
      intro s r a h
      have := recognize_append h
      obtain ⟨b, hb, _⟩ := recognize_some.1 h
      obtain ⟨rfl, rfl⟩ := chr_some.1 hb
      refine ⟨['_'], rfl, ?_⟩
      intro d hd; simp at hd; exact .inr hd
    unfold isLikelyEnvVar at h3
    simp only [Bool.and_eq_true, Bool.not_eq_true', Bool.or_eq_false_iff, beq_eq_false_iff_ne] at h3
    obtain ⟨⟨⟨k1, k2⟩, k3⟩, k4⟩ := h3
    obtain ⟨⟨a, l⟩, h4, _⟩ := recognize_some.1 h2
    obtain ⟨s1, h5, h6⟩ := seq_some.1 h4
    have hstop := many0_stop h6
    refine ⟨w, rfl, ⟨?_, hall, by simpa using k1, k2.2, ?_, ?_⟩, ?_, happ.symm⟩
    · intro c hc
      obtain ⟨k5, k6, k7⟩ := takeWhile1_some.1 h5
      cases w with
      | nil => simp at hc
      | cons d w =>
        simp at hc; subst hc
        cases s with
        | nil => simp at happ
        | cons d' s =>
          simp at happ
          rw [← happ.1] at k5
          cases hd : isAlpha d with
          | true => rfl
          | false =>
            simp [hd] at k5
            exact absurd k5 k7
    · intro h
      rw [hasDouble_iff.2 h] at k3; cases k3
    · have := k4.2
      simpa using this
    · intro c hc
      cases r with
      | nil => simp at hc
      | cons d r =>
        simp at hc; subst hc
        obtain ⟨n1, n2⟩ := orElse_none.1 hstop
        constructor
        · cases hd : isAlnum d with
          | false => rfl
          | true =>
            exfalso
            have : alphanumeric1 (d :: r) ≠ none := by
              unfold alphanumeric1
              intro h
              have h' : takeWhile1 isAlnum (d :: r) = some ((d :: r).dropWhile isAlnum, (d :: r).takeWhile isAlnum) :=
                takeWhile1_some.2 ⟨rfl, rfl, by simp [hd]⟩
              rw [h] at h'; simp at h'
            exact this n1
        · rintro rfl
          rw [recognize_none] at n2
          rw [chr_cons] at n2; simp at n2
  · rintro ⟨w, rfl, h1, h2, rfl⟩
    exact environmentVariable_of h1 h2

/-! ## Character references and escapes -/

theorem ref_iff {s v r : Str} : htmlEntity cfg s = some (r, v) ↔ RefAt cfg.entities s v r := by
  constructor
  · intro h
    obtain ⟨w, h1, h2⟩ := htmlEntity_ref h
    exact ⟨w, h1, h2⟩
  · rintro ⟨w, h, rfl⟩
    exact CharRef.parse h

theorem escape_iff {s r : Str} {c : Char} : escapedChar s = some (r, c) ↔ EscapeAt s c r := by
  constructor
  · intro h
    obtain ⟨s1, _, h1, h2⟩ := preceded_some.1 h
    obtain ⟨rfl, _⟩ := chr_some.1 h1
    obtain ⟨rfl, h3⟩ := satisfy_some.1 h2
    rw [List.contains_iff_mem] at h3
    exact ⟨h3, rfl⟩
  · rintro ⟨h, rfl⟩
    unfold escapedChar
    refine preceded_some.2 ⟨c :: r, '\\', chr_cons _ _, ?_⟩
    exact satisfy_some.2 ⟨rfl, by simpa [escapable] using h⟩

end Verif.Exact
