import Verif.Concat
import Verif.StartBlock
/-!
# Parsers on a text and on the text followed by a newline (C83)
-/
set_option autoImplicit false
set_option linter.unusedVariables false
set_option linter.unusedSimpArgs false
namespace Verif

/-! ## Specification -/

/-- No HTML block begins with the text, not even if the last line is finished. -/
def NotHtml (s : Str) : Prop := ¬ HtmlAt (s ++ ['\n'])

/-- No HTML block begins at a line of the text. -/
def NoHtmlLine (s : Str) : Prop := NotHtml s ∧ ∀ a r, s = a ++ '\n' :: r → NotHtml r

/-- The text does not end with a backslash or a carriage return. -/
def EndsPlainly (s : Str) : Prop := s.getLast? ≠ some '\\' ∧ s.getLast? ≠ some '\r'

namespace Final
open Nom

/-- A part of such a text. -/
def K (s : Str) : Prop := EndsPlainly s ∧ ∀ a r, s = a ++ '\n' :: r → NotHtml r
/-- A part of such a text from the beginning of a line on. -/
def L (s : Str) : Prop := K s ∧ NotHtml s

theorem html_open {s : Str} (h : HtmlStart s) : s.head? = some '<' := by
  cases h with
  | raw => rfl
  | marked h => cases h <;> rfl
  | block h => rcases h with rfl | rfl <;> rfl
  | tag h => cases h <;> rfl

theorem htmlAt_head {s : Str} {c : Char} (h : HtmlAt (c :: s)) : c = ' ' ∨ c = '<' := by
  obtain ⟨k, v, _, hv, e⟩ := h
  have := html_open hv
  cases k with
  | zero =>
    simp [sp] at e
    rw [← e] at this
    simp at this
    exact .inr this
  | succ k =>
    rw [sp, List.replicate_succ] at e
    simp at e
    exact .inl e.1

theorem notHtml_nil : NotHtml [] := by
  intro h
  rcases htmlAt_head h with h | h <;> simp at h

theorem K.suffix {r s : Str} (h : K s) (hr : r <:+ s) : K r := by
  obtain ⟨w, rfl⟩ := hr
  obtain ⟨⟨h1, h2⟩, h3⟩ := h
  refine ⟨?_, fun a v e => h3 (w ++ a) v (by rw [e]; simp)⟩
  by_cases hn : r = []
  · subst hn; exact ⟨by simp, by simp⟩
  · obtain ⟨c, hc⟩ : ∃ c, r.getLast? = some c := by
      cases e : r.getLast? with
      | none => exact absurd (List.getLast?_eq_none_iff.1 e) hn
      | some c => exact ⟨c, rfl⟩
    rw [List.getLast?_append, hc] at h1 h2
    exact ⟨by rw [hc]; simpa using h1, by rw [hc]; simpa using h2⟩

theorem K.nil : K [] := ⟨⟨by simp, by simp⟩, by simp⟩
theorem L.nil : L [] := ⟨K.nil, notHtml_nil⟩
theorem L.k {s : Str} (h : L s) : K s := h.1
theorem K.line {s : Str} (h : K ('\n' :: s)) : L s := ⟨h.suffix (List.suffix_cons _ _), h.2 [] s rfl⟩

/-- The newline. -/
abbrev u : Str := ['\n']

/-- On the texts in `D` the parser does not see the newline, or reads it at the end. -/
def Ends {α : Type} (D : Str → Prop) (p : P α) : Prop :=
  ∀ s, D s → p (s ++ u) = (p s).map (fun y => (y.1 ++ u, y.2)) ∨ ∃ a, p s = some ([], a) ∧ p (s ++ u) = some ([], a)

section
variable {α β γ : Type} {D D' D'' : Str → Prop} {p : P α} {q : P β} {p3 : P γ}

theorem ends_of_stays (h : StaysOn D u p) : Ends D p := fun s hs => .inl (h s hs)

theorem Ends.agrees (h : Ends D p) : AgreesOn D u p := by
  intro s hs
  rcases h s hs with e | ⟨a, e1, e2⟩
  · rw [e]; cases p s <;> rfl
  · rw [e1, e2]

theorem Ends.mono (h : Ends D p) (hd : ∀ s, D' s → D s) : Ends D' p := fun s hs => h s (hd s hs)

theorem into_k [Suf p] : Into K p K := fun s r a hs h => hs.suffix (Suf.out _ _ _ h)
theorem into_lk [Suf p] : Into L p K := fun s r a hs h => hs.k.suffix (Suf.out _ _ _ h)

theorem ends_fail : Ends D (failP : P α) := fun _ _ => .inl rfl

theorem ends_orElse {p' : P α} (hp : Ends D p) (hp' : Ends D p') : Ends D (p <||> p') := by
  intro s hs
  unfold orElse
  rcases hp s hs with e | ⟨a, e1, e2⟩
  · rw [e]
    cases e1 : p s with
    | none => exact hp' s hs
    | some y => exact .inl rfl
  · rw [e1, e2]; exact .inr ⟨a, rfl, rfl⟩

theorem ends_mapP {k : α → γ} (hp : Ends D p) : Ends D (mapP p k) := by
  intro s hs
  unfold mapP
  rcases hp s hs with e | ⟨a, e1, e2⟩
  · rw [e]; left; cases p s <;> rfl
  · rw [e1, e2]; exact .inr ⟨_, rfl, rfl⟩

theorem ends_value {c : γ} (hp : Ends D p) : Ends D (value c p) := ends_mapP hp

/-- The parser behind a constant value. -/
theorem ends_value_of {b c : γ} (hp : Ends D (value () p)) : Ends D (value c p) := by
  intro s hs
  have := hp s hs
  unfold value mapP at this ⊢
  cases e1 : p s <;> cases e2 : p (s ++ u) <;> simp_all

theorem ends_mapOpt {k : α → Option γ} (hp : Ends D p) : Ends D (mapOpt p k) := by
  intro s hs
  unfold mapOpt
  rcases hp s hs with e | ⟨a, e1, e2⟩
  · rw [e]; left
    cases p s with
    | none => rfl
    | some y => simp only [Option.map_some]; cases k y.2 <;> rfl
  · rw [e1, e2]
    simp only
    cases k a with
    | none => exact .inl rfl
    | some b => exact .inr ⟨_, rfl, rfl⟩

theorem ends_opt (hp : Ends D p) : Ends D (opt p) := by
  intro s hs
  unfold opt
  rcases hp s hs with e | ⟨a, e1, e2⟩
  · rw [e]; left; cases p s <;> rfl
  · rw [e1, e2]; exact .inr ⟨_, rfl, rfl⟩

theorem suf_nil [Suf p] {r : Str} {a : α} (h : p [] = some (r, a)) : r = [] := by
  have := Suf.out _ _ _ h
  simpa using this

theorem ends_seq [Suf q] (hp : Ends D p) (h : Into D p D') (hq : Ends D' q) : Ends D (seq p q) := by
  intro s hs
  unfold seq
  rcases hp s hs with e | ⟨a, e1, e2⟩
  · rw [e]
    cases e1 : p s with
    | none => exact .inl rfl
    | some y =>
      obtain ⟨r, a⟩ := y
      simp only [Option.map_some]
      rcases hq r (h _ _ _ hs e1) with e' | ⟨b, e3, e4⟩
      · rw [e']; left; cases q r <;> rfl
      · rw [e3, e4]; exact .inr ⟨_, rfl, rfl⟩
  · rw [e1, e2]
    simp only
    cases e3 : q [] with
    | none => exact .inl rfl
    | some y =>
      obtain ⟨r', b⟩ := y
      obtain rfl := suf_nil e3
      exact .inr ⟨_, rfl, rfl⟩

theorem preceded_value : preceded (value () p) q = preceded p q := by
  funext s
  simp only [preceded, value, mapP]
  cases p s <;> rfl

theorem terminated_value : terminated q (value () p) = terminated q p := by
  funext s
  simp only [terminated, seq, value, mapP]
  cases q s with
  | none => rfl
  | some y =>
    simp only
    cases p y.1 <;> rfl

theorem preceded_seq : preceded p q = mapP (seq p q) Prod.snd := by
  funext s
  simp only [preceded, seq, mapP]
  cases p s with
  | none => rfl
  | some y =>
    simp only
    cases q y.1 <;> rfl

theorem ends_preceded [Suf q] (hp : Ends D (value () p)) (h : Into D p D') (hq : Ends D' q) : Ends D (preceded p q) := by
  rw [← preceded_value, preceded_seq]
  exact ends_mapP (ends_seq hp (into_value h) hq)

theorem ends_terminated [Suf q] (hp : Ends D p) (h : Into D p D') (hq : Ends D' (value () q)) : Ends D (terminated p q) := by
  rw [← terminated_value]
  exact ends_mapP (ends_seq hp h hq)

theorem many0_nil_of [Suf p] {r : Str} {l : List α} (h : many0 p [] = some (r, l)) : r = [] := suf_nil h

/-- The loop at the end of the text. -/
theorem ends_many0 [Suf p] (hp : Ends D p) (h : Into D p D) : Ends D (many0 p) := by
  intro s
  induction hn : s.length using Nat.strongRecOn generalizing s with
  | _ n ih =>
  intro hs
  rw [many0_eq, many0_eq]
  rcases hp s hs with e | ⟨a, e1, e2⟩
  · rw [e]
    cases e1 : p s with
    | none => exact .inl rfl
    | some y =>
      obtain ⟨r, a⟩ := y
      simp only [Option.map_some, List.length_append]
      by_cases hl : r.length < s.length
      · rw [if_pos hl, if_pos (by omega)]
        rcases ih r.length (by omega) r rfl (h _ _ _ hs e1) with e' | ⟨b, e3, e4⟩
        · rw [e']; left; cases many0 p r <;> rfl
        · rw [e3, e4]; exact .inr ⟨_, rfl, rfl⟩
      · rw [if_neg hl, if_neg (by omega)]; exact .inl rfl
  · rw [e1, e2]
    simp only [List.length_append, List.length_nil, List.length_cons]
    by_cases hl : 0 < s.length
    · rw [if_pos hl, if_pos (by omega)]
      cases e3 : many0 p [] with
      | none => exact .inl rfl
      | some y =>
        obtain ⟨r', b⟩ := y
        obtain rfl := many0_nil_of e3
        exact .inr ⟨_, rfl, rfl⟩
    · have : s = [] := by
        cases s with
        | nil => rfl
        | cons c s => simp at hl
      subst this
      rw [if_neg hl, if_pos (by omega), many0_eq, e1]
      exact .inl rfl

theorem ends_many1 [Suf p] (hp : Ends D p) (h : Into D p D) : Ends D (many1 p) := by
  have : many1 p = mapP (seq p (many0 p)) (fun y => y.1 :: y.2) := by
    funext s
    simp only [many1, seq, mapP]
    cases p s with
    | none => rfl
    | some y => simp only; cases many0 p y.1 <;> rfl
  rw [this]
  exact ends_mapP (ends_seq hp h (ends_many0 hp h))

/-- A loop that fails at the end of the text does not see the newline. -/
theorem stays_many0_dead [Suf p] (hp : Ends D p) (h : Into D p D) (h0 : many0 p [] = none) (h1 : many0 p u = none) :
    StaysOn D u (many0 p) := by
  intro s
  induction hn : s.length using Nat.strongRecOn generalizing s with
  | _ n ih =>
  intro hs
  rw [many0_eq, many0_eq]
  rcases hp s hs with e | ⟨a, e1, e2⟩
  · rw [e]
    cases e1 : p s with
    | none => rfl
    | some y =>
      obtain ⟨r, a⟩ := y
      simp only [Option.map_some, List.length_append]
      by_cases hl : r.length < s.length
      · rw [if_pos hl, if_pos (by omega), ih r.length (by omega) r rfl (h _ _ _ hs e1)]
        cases many0 p r <;> rfl
      · rw [if_neg hl, if_neg (by omega)]; rfl
  · rw [e1, e2]
    simp only [h0]
    simp

/-! ## Lines -/

theorem lineEnding_k {s : Str} (hs : K s) (hn : s ≠ []) :
    lineEnding (s ++ u) = (lineEnding s).map fun y => (y.1 ++ u, y.2) := by
  match s, hs, hn with
  | [c], hs, _ =>
    have := hs.1.2
    simp at this
    by_cases hc : c = '\n'
    · subst hc; rfl
    · simp [lineEnding, hc, this]
  | c :: d :: s, hs, _ =>
    by_cases hc : c = '\n'
    · subst hc; rfl
    · by_cases hr : c = '\r'
      · subst hr
        by_cases hd : d = '\n'
        · subst hd; rfl
        · simp [lineEnding, hd]
      · simp [lineEnding, hc, hr]

theorem into_lineEnding : Into K lineEnding L := by
  intro s r a hs h
  match s, hs, h with
  | '\n' :: s, hs, h => simp [lineEnding] at h; obtain ⟨rfl, _⟩ := h; exact hs.line
  | '\r' :: '\n' :: s, hs, h =>
    simp [lineEnding] at h; obtain ⟨rfl, _⟩ := h
    exact (hs.suffix (List.suffix_cons _ _)).line
  | [], _, h => simp [lineEnding] at h
  | [c], hs, h =>
    by_cases hc : c = '\n'
    · subst hc; simp [lineEnding] at h; obtain ⟨rfl, _⟩ := h; exact .nil
    · simp [lineEnding, hc] at h
  | c :: d :: s, hs, h =>
    by_cases hc : c = '\n'
    · subst hc; simp [lineEnding] at h; obtain ⟨rfl, _⟩ := h; exact hs.line
    · by_cases hr : c = '\r'
      · subst hr
        by_cases hd : d = '\n'
        · subst hd; simp [lineEnding] at h; obtain ⟨rfl, _⟩ := h
          exact (hs.suffix (List.suffix_cons _ _)).line
        · simp [lineEnding, hd] at h
      · simp [lineEnding, hc, hr] at h

theorem ends_eofOrEol : Ends K (value () eofOrEol) := by
  intro s hs
  by_cases hn : s = []
  · subst hn; exact .inr ⟨(), rfl, rfl⟩
  · left
    have h1 := lineEnding_k hs hn
    unfold value mapP eofOrEol orElse
    rw [h1]
    cases lineEnding s with
    | some y => rfl
    | none => simp [eof, hn]

theorem into_eofOrEol : Into K eofOrEol L := by
  refine into_orElse into_lineEnding ?_
  intro s r a hs h
  obtain ⟨rfl, rfl, _⟩ := eof_some.1 h
  exact .nil

theorem agrees_eofOrEol : AgreesOn K u eofOrEol := by
  intro s hs
  have := ends_eofOrEol.agrees s hs
  unfold value mapP at this
  cases e1 : eofOrEol s <;> cases e2 : eofOrEol (s ++ u) <;> simp_all

theorem ends_lineTerminated (hp : Ends D p) (h : Into D p K) : Ends D (lineTerminated p) :=
  ends_terminated hp h ends_eofOrEol

theorem into_lineTerminated (h : Into D p K) : Into D (lineTerminated p) L := into_terminated h into_eofOrEol

theorem stays_notEofOrEol0 : StaysOn K u notEofOrEol0 := by
  have hk : notCrLf '\n' = false := by decide
  intro s hs
  have key : notLineEnding (s ++ u) = (notLineEnding s).map fun y => (y.1 ++ u, y.2) := by
    unfold notLineEnding
    rw [(takeWhile_nl hk s).1, (takeWhile_nl hk s).2]
    have hw : K (s.dropWhile notCrLf) := hs.suffix (List.dropWhile_suffix _)
    match e : s.dropWhile notCrLf, hw with
    | [], _ => rfl
    | c :: r, hw =>
      by_cases hc : c = '\r'
      · subst hc
        cases r with
        | nil => exact absurd rfl hw.1.2
        | cons d r =>
          by_cases hd : d = '\n'
          · subst hd; rfl
          · simp [hd]
      · simp [hc]
  unfold notEofOrEol0 orElse
  rw [key]
  cases e : notLineEnding s with
  | some y => rfl
  | none =>
    have hne : s ≠ [] := by rintro rfl; simp [notLineEnding] at e
    simp [eof, hne]

/-- Any character up to something that stops at the end of the text and before the newline. -/
theorem stays_until {stop : P β} {c : P α} (h : AgreesOn K u stop) (h0 : (stop []).isSome)
    (hc : ∀ s, s ≠ [] → K s → c (s ++ u) = (c s).map fun y => (y.1 ++ u, y.2)) :
    StaysOn K u (preceded (notP stop) c) := by
  intro s hs
  have h1 := h s hs
  by_cases hn : s = []
  · subst hn
    rw [h0] at h1
    cases e : stop [] with
    | none => rw [e] at h0; simp at h0
    | some y =>
      cases e' : stop ([] ++ u) with
      | none => rw [e'] at h1; simp at h1
      | some z => simp at e'; simp [preceded, notP, e, e']
  · simp only [preceded, notP]
    cases e : stop s with
    | none =>
      cases e' : stop (s ++ u) with
      | none => exact hc s hn hs
      | some z => rw [e, e'] at h1; simp at h1
    | some y =>
      cases e' : stop (s ++ u) with
      | none => rw [e, e'] at h1; simp at h1
      | some z => rfl

theorem any_k {s : Str} (hn : s ≠ []) : anychar (s ++ u) = (anychar s).map fun y => (y.1 ++ u, y.2) := by
  cases s with
  | nil => exact absurd rfl hn
  | cons c s => rfl

theorem stays_notEofOrEol1 : StaysOn K u notEofOrEol1 :=
  stays_recognize (stays_many1 (stays_until agrees_eofOrEol rfl fun s hn _ => any_k hn) into_k)

/-! ## Blocks of lines -/

instance : Suf eofOrEol := by unfold eofOrEol; infer_instance

theorem ends_line0 : Ends K (lineTerminated notEofOrEol0) :=
  ends_lineTerminated (ends_of_stays stays_notEofOrEol0) into_k
theorem into_line0 : Into K (lineTerminated notEofOrEol0) L := into_lineTerminated into_k
theorem ends_line1 : Ends K (lineTerminated notEofOrEol1) :=
  ends_lineTerminated (ends_of_stays stays_notEofOrEol1) into_k
theorem into_line1 : Into K (lineTerminated notEofOrEol1) L := into_lineTerminated into_k

theorem stays_k (h : StaysOn (fun _ => True) u p) : StaysOn D u p := fun s _ => h s trivial

theorem ends_chrs {c : Char} (hc : c ≠ '\n') (m n : Nat) : StaysOn D u (manyMN (chr c) m n) := fun s hs =>
  stays_manyMN (D := fun _ => True) (stays_chr hc) (fun _ _ _ _ _ => trivial) m n s trivial
theorem stays_chrs0 {c : Char} (hc : c ≠ '\n') : StaysOn D u (many0 (chr c)) := fun s hs =>
  stays_many0 (D := fun _ => True) (stays_chr hc) (fun _ _ _ _ _ => trivial) s trivial
theorem stays_chrs1 {c : Char} (hc : c ≠ '\n') : StaysOn D u (many1 (chr c)) := fun s hs =>
  stays_many1 (D := fun _ => True) (stays_chr hc) (fun _ _ _ _ _ => trivial) s trivial
theorem stays_chrsMin {c : Char} (hc : c ≠ '\n') (m : Nat) : StaysOn D u (manyMin m (chr c)) := stays_verify (stays_chrs0 hc)

theorem ends_indented : Ends K codeBlockIndented := by
  unfold codeBlockIndented
  refine ends_mapP (ends_many1 (ends_preceded (D' := K) (ends_of_stays (stays_value ?_)) into_k ends_line0) into_k)
  exact stays_orElse (stays_value (ends_chrs (by decide) _ _)) (stays_value (stays_chr (by decide)))

theorem into_indented : Into L codeBlockIndented L := by
  unfold codeBlockIndented
  refine into_mapP (into_many1 (into_preceded into_lk into_line0))

theorem ends_endingFence {f : Str} (hf : '\n' ∉ f) (hf' : f ≠ []) : Ends K (endingFence f) := by
  unfold endingFence
  refine ends_lineTerminated (ends_of_stays (stays_value ?_)) into_k
  refine stays_seq (D' := K) stays_indent03 into_k (stays_seq (D' := K) (stays_tag hf) into_k (stays_chrs0 ?_))
  obtain ⟨c, t, rfl⟩ := List.exists_cons_of_ne_nil hf'
  simp at hf ⊢
  exact fun e => hf.1 e.symm

theorem into_endingFence {f : Str} : Into K (endingFence f) L := into_lineTerminated into_k

theorem ends_openingFence : Ends K openingFence := by
  unfold openingFence
  refine ends_lineTerminated (ends_of_stays ?_) into_k
  exact stays_seq (D' := K) (stays_recognize (stays_orElse (stays_chrsMin (by decide) _) (stays_chrsMin (by decide) _))) into_k
    (stays_opt (stays_recognize stays_notEofOrEol1))

end
end Final
end Verif
