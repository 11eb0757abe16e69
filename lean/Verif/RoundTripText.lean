import Verif.RoundTripInline
/-!
# Lines of printed paragraphs

The lines of a printed paragraph begin like lines of a paragraph, wherever the line was broken.
-/
set_option linter.unusedVariables false
set_option linter.unusedSimpArgs false
namespace Verif
namespace Md
namespace Spec
open Nom

/-- A run of a character. -/
theorem run_split (c : Char) (t : Str) :
    ∃ n d, t = List.replicate n c ++ d ∧ n = (t.takeWhile (· == c)).length ∧ d = t.drop n ∧ d.head? ≠ some c := by
  refine ⟨(t.takeWhile (· == c)).length, t.drop (t.takeWhile (· == c)).length, ?_, rfl, rfl, ?_⟩
  · rw [drop_takeWhile]
    conv => lhs; rw [← List.takeWhile_append_dropWhile (p := (· == c)) (l := t)]
    congr 1
    refine List.eq_replicate_iff.2 ⟨rfl, ?_⟩
    intro b hb
    simpa using mem_takeWhile hb
  · rw [drop_takeWhile]
    intro h
    have := List.head?_dropWhile_not (p := (· == c)) (l := t)
    rw [h] at this
    simp at this

theorem spaced_cons_inv {b : Str} {c : Char} {t : Str} (h : spacedLines b = c :: t) (hc : c ≠ ' ') :
    ∃ t', b = c :: t' ∧ t = spacedLines t' := by
  cases b with
  | nil => simp [spacedLines] at h
  | cons d b =>
    simp [spacedLines] at h
    obtain ⟨h1, h2⟩ := h
    by_cases hd : d = '\n'
    · rw [if_pos hd] at h1; exact absurd h1.symm hc
    · rw [if_neg hd] at h1; subst h1; exact ⟨b, rfl, h2.symm⟩

theorem spaced_append_inv {b a t : Str} (h : spacedLines b = a ++ t) :
    ∃ a' t', b = a' ++ t' ∧ a = spacedLines a' ∧ t = spacedLines t' := by
  refine ⟨b.take a.length, b.drop a.length, by simp, ?_, ?_⟩
  · have := congrArg (List.take a.length) h
    simp [spacedLines] at this ⊢
    rw [← List.map_take] at *
    first
      | exact this.symm
      | (rw [List.map_take]; exact this.symm)
  · have := congrArg (List.drop a.length) h
    simp [spacedLines] at this ⊢
    first
      | exact this.symm
      | (rw [List.map_drop]; exact this.symm)

theorem spaced_eq_self {a a' : Str} (h : a = spacedLines a') (ha : ∀ c ∈ a, c ≠ ' ') : a' = a := by
  induction a' generalizing a with
  | nil => simpa [spacedLines] using h.symm
  | cons c a' ih =>
    subst h
    obtain ⟨t', h1, h2⟩ := spaced_cons_inv (b := c :: a') rfl (ha _ (by simp [spacedLines]))
    simp [spacedLines] at h1 ⊢
    refine ⟨h1.1, ?_⟩
    have := ih rfl (fun d hd => ha d (by simp [spacedLines] at hd ⊢; exact .inr hd))
    simpa [spacedLines] using this

/-- The test on the one-line source decides how the wrapped text begins. -/
theorem startsText_start {b : Str} (h : startsText (spacedLines b) = true) : TextStart b := by
  generalize ha : spacedLines b = a at h
  cases a with
  | nil => simp [startsText] at h
  | cons c t =>
    unfold startsText at h
    simp only at h
    obtain ⟨n, d, htd, hn, hd, hdh⟩ := run_split c t
    rw [← hn] at h
    simp only [Nat.add_sub_cancel, ← hd] at h
    have headOf : ∀ {e : Str} {q : Char → Bool}, e.head?.any q = true → ∃ z v, e = z :: v ∧ q z = true := by
      intro e q he
      cases e with
      | nil => simp at he
      | cons z v => exact ⟨z, v, rfl, by simpa using he⟩
    -- the wrapped run
    have runOf : c ≠ ' ' → ∃ d', b = c :: (List.replicate n c ++ d') ∧ d = spacedLines d' := by
      intro hc
      obtain ⟨t', rfl, ht'⟩ := spaced_cons_inv ha hc
      rw [htd] at ht'
      obtain ⟨r, d', rfl, h1, h2⟩ := spaced_append_inv ht'.symm
      refine ⟨d', ?_, h2⟩
      rw [spaced_eq_self h1 (by intro e he; rw [List.eq_of_mem_replicate he]; exact hc)]
    have next : ∀ {d' : Str}, d = spacedLines d' → c ≠ ' ' → c ≠ '\n' → d'.head? ≠ some c := by
      intro d' h1 h2 h3
      rw [h1, Ne, head_spaced h2 h3] at hdh
      exact hdh
    -- a visible next character
    have vis : ∀ {d' : Str} {z : Char} {v : Str}, d = spacedLines d' → d = z :: v → z ≠ ' ' → ∃ v', d' = z :: v' := by
      intro d' z v h1 h2 h3
      obtain ⟨v', h, _⟩ := spaced_cons_inv (h1.symm.trans h2) h3
      exact ⟨v', h⟩
    have some_ : ∀ {d' : Str}, d = spacedLines d' → d.head?.isSome = true → ∃ z v, d' = z :: v := by
      intro d' h1 h2
      cases d' with
      | nil => rw [h1] at h2; simp [spacedLines] at h2
      | cons z v => exact ⟨z, v, rfl⟩
    split at h
    · rename_i hc; subst hc
      obtain ⟨d', rfl, h1⟩ := runOf (by decide)
      have hnx := next h1 (by decide) (by decide)
      simp only [Bool.or_eq_true, Bool.and_eq_true, beq_iff_eq] at h
      rcases h with ⟨h2, h3⟩ | ⟨h2, h3⟩
      · obtain rfl : n = 1 := by omega
        obtain ⟨z, v, rfl⟩ := some_ h1 h3
        exact .stars (by simpa using hnx)
      · obtain rfl : n = 0 := by omega
        obtain ⟨z, v, hzv, h4⟩ := headOf h3
        simp at h4
        obtain ⟨v', rfl⟩ := vis h1 hzv h4.1
        refine .star ?_
        simp at hnx
        simp [hnx, h4]
    split at h
    · rename_i hc; subst hc
      obtain ⟨d', rfl, h1⟩ := runOf (by decide)
      have hnx := next h1 (by decide) (by decide)
      simp only [Bool.and_eq_true, decide_eq_true_eq] at h
      obtain ⟨z, v, rfl⟩ := some_ h1 h.2
      have : n = 0 ∨ n = 1 := by omega
      rcases this with rfl | rfl
      · exact .tick (by simpa using hnx)
      · exact .ticks (by simpa using hnx)
    split at h
    · rename_i hc; subst hc
      obtain ⟨d', rfl, h1⟩ := runOf (by decide)
      have hnx := next h1 (by decide) (by decide)
      simp only [Bool.and_eq_true, decide_eq_true_eq] at h
      obtain ⟨z, v, rfl⟩ := some_ h1 h.2
      have : n = 0 ∨ n = 1 := by omega
      rcases this with rfl | rfl
      · exact .tilde (by simpa using hnx)
      · exact .tildes (by simpa using hnx)
    split at h
    · rename_i hc; subst hc
      obtain ⟨d', rfl, h1⟩ := runOf (by decide)
      have hnx := next h1 (by decide) (by decide)
      simp only [Bool.and_eq_true, beq_iff_eq] at h
      obtain ⟨z, v, rfl⟩ := some_ h1 h.2
      obtain rfl : n = 0 := by omega
      exact .underscore (by simpa using hnx)
    split at h
    · rename_i hc; subst hc
      obtain ⟨t', rfl, ht'⟩ := spaced_cons_inv ha (by decide)
      obtain ⟨z, v, hzv, h4⟩ := headOf h
      simp at h4
      rw [ht'] at hzv
      obtain ⟨v', rfl, _⟩ := spaced_cons_inv hzv h4.1
      refine .plus ?_
      simp [h4]
    split at h
    · rename_i hc; subst hc
      obtain ⟨d', rfl, h1⟩ := runOf (by decide)
      have hnx := next h1 (by decide) (by decide)
      simp only [Bool.and_eq_true, Bool.not_eq_true', Bool.and_eq_false_imp, beq_iff_eq] at h
      obtain ⟨z, v, hzv, h4⟩ := headOf h.1
      simp at h4
      obtain ⟨v', rfl⟩ := vis h1 hzv h4.1
      have := TextStart.dash (n := n + 1) (d := z) (t := v') (by omega) (by
        simp at hnx
        simp [h4, hnx]) (by
        intro hn1 hz
        subst hz
        have := h.2 hn1
        rw [hzv] at this
        simp at this)
      simpa [List.replicate_succ] using this
    split at h
    · rename_i hc; subst hc
      obtain ⟨d', rfl, h1⟩ := runOf (by decide)
      have hnx := next h1 (by decide) (by decide)
      obtain ⟨z, v, hzv, h4⟩ := headOf h
      simp at h4
      obtain ⟨v', rfl⟩ := vis h1 hzv h4.1
      have := TextStart.equals (n := n + 1) (d := z) (t := v') (by omega) (by
        simp at hnx
        simp [h4, hnx])
      simpa [List.replicate_succ] using this
    split at h
    · rename_i hc; subst hc
      obtain ⟨t', rfl, ht'⟩ := spaced_cons_inv ha (by decide)
      simp only [Bool.and_eq_true, Bool.not_eq_true', bne_iff_ne, List.isEmpty_eq_false_iff] at h
      obtain ⟨⟨h1, h2⟩, h3⟩ := h
      have hsplit := List.takeWhile_append_dropWhile (p := (· != ']')) (l := t)
      rw [drop_takeWhile] at h1 h3
      rw [ht'] at hsplit
      obtain ⟨l', r', rfl, e1, e2⟩ := spaced_append_inv hsplit.symm
      rw [← ht'] at e1 e2
      obtain ⟨c, r, hcr⟩ := List.exists_cons_of_ne_nil h1
      have hc : c = ']' := by
        have := List.head?_dropWhile_not (p := (· != ']')) (l := t)
        rw [hcr] at this
        simpa using this
      subst hc
      rw [hcr] at e2
      obtain ⟨r'', rfl, e3⟩ := spaced_cons_inv e2.symm (by decide)
      refine .bracket (s := l') (t := r'') ?_ ?_ ?_
      · intro hm
        have := (mem_spaced (c := ']') (by decide) (by decide)).2 hm
        rw [← e1] at this
        have := mem_takeWhile this
        simp at this
      · rw [e1, Ne, last_spaced (by decide) (by decide)] at h2
        exact h2
      · rw [hcr] at h3
        simp only [List.drop_succ_cons, List.drop_zero] at h3
        rw [e3, Ne, head_spaced (by decide) (by decide)] at h3
        exact h3
    split at h
    · rename_i hc; subst hc
      obtain ⟨t', rfl, ht'⟩ := spaced_cons_inv ha (by decide)
      simp only [Bool.and_eq_true, Bool.not_eq_true', List.isEmpty_eq_false_iff] at h
      obtain ⟨h1, h2⟩ := h
      have hal := isAutolink_text h2
      have hsplit := List.takeWhile_append_dropWhile (p := (· != '>')) (l := t)
      rw [drop_takeWhile] at h1
      rw [ht'] at hsplit
      obtain ⟨l', r', rfl, e1, e2⟩ := spaced_append_inv hsplit.symm
      rw [← ht'] at e1 e2
      obtain ⟨c, r, hcr⟩ := List.exists_cons_of_ne_nil h1
      have hc : c = '>' := by
        have := List.head?_dropWhile_not (p := (· != '>')) (l := t)
        rw [hcr] at this
        simpa using this
      subst hc
      rw [hcr] at e2
      obtain ⟨r'', rfl, e3⟩ := spaced_cons_inv e2.symm (by decide)
      rw [spaced_eq_self e1 (by
        intro c hc
        have := hal.chars.1 c hc
        rintro rfl
        exact this (by decide))]
      exact .autolink hal
    split at h
    · rename_i hc
      have hcs : c ≠ ' ' := by rintro rfl; exact absurd hc (by decide)
      obtain ⟨t', rfl, ht'⟩ := spaced_cons_inv ha hcs
      have hsplit := List.takeWhile_append_dropWhile (p := isDigit) (l := t)
      rw [ht'] at hsplit
      obtain ⟨l', r', rfl, e1, e2⟩ := spaced_append_inv hsplit.symm
      rw [← ht'] at e1 e2
      rw [spaced_eq_self e1 (by
        intro c hc
        have := mem_takeWhile hc
        rintro rfl
        exact absurd this (by decide))]
      have hds : ∀ e ∈ c :: t.takeWhile isDigit, isDigit e = true := by
        intro e he
        rcases List.mem_cons.1 he with rfl | he
        · exact hc
        · exact mem_takeWhile he
      cases r' with
      | nil => rw [List.append_nil]; exact .digits (by simp) hds
      | cons z r' =>
        have hzd := List.head?_dropWhile_not (p := isDigit) (l := t)
        simp only [e2, spacedLines, List.map_cons, List.head?_cons] at hzd h
        have := TextStart.number (ds := c :: t.takeWhile isDigit) (d := z) (t := r') (by simp) hds (by
          by_cases hz : z = '\n'
          · subst hz; rfl
          · simpa [hz] using hzd) (by
            rintro rfl; simp at h) (by rintro rfl; simp at h)
        simpa using this
    · simp only [Bool.and_eq_true, Bool.not_eq_true', List.contains_eq_mem, decide_eq_false_iff_not] at h
      have hcs : c ≠ ' ' := by rintro rfl; exact h.1 (by decide)
      obtain ⟨t', rfl, ht'⟩ := spaced_cons_inv ha hcs
      exact .plain h.1

theorem digit_visible {c : Char} (h : isDigit c = true) : isWs c = false := by
  have key : ∀ c ∈ cs!"0123456789", isWs c = false := by decide
  exact key c (digit_mem h)

theorem startsText_head {b : Str} (h : startsText b = true) : ∃ c t, b = c :: t ∧ isWs c = false := by
  cases b with
  | nil => simp [startsText] at h
  | cons c t =>
    refine ⟨c, t, rfl, ?_⟩
    unfold startsText at h
    simp only at h
    split at h
    · rename_i hc; subst hc; rfl
    split at h
    · rename_i hc; subst hc; rfl
    split at h
    · rename_i hc; subst hc; rfl
    split at h
    · rename_i hc; subst hc; rfl
    split at h
    · rename_i hc; subst hc; rfl
    split at h
    · rename_i hc; subst hc; rfl
    split at h
    · rename_i hc; subst hc; rfl
    split at h
    · rename_i hc; subst hc; rfl
    split at h
    · rename_i hc; subst hc; rfl
    split at h
    · rename_i hc; exact digit_visible hc
    · simp at h; exact h.2

theorem spaced_head_ws {b : Str} (h : ∃ c t, spacedLines b = c :: t ∧ isWs c = false) :
    ∃ c t, b = c :: t ∧ isWs c = false := by
  obtain ⟨c, t, h1, h2⟩ := h
  obtain ⟨t', rfl, _⟩ := spaced_cons_inv h1 (by rintro rfl; exact absurd h2 (by decide))
  exact ⟨c, t', rfl, h2⟩

/-! ## Indentation -/

/-- Every line but the first one indented. -/
def indentText (n : Nat) (s : Str) : Str := (s.map fun c => if c = '\n' then newline n else [c]).flatten

theorem indentText_append (n : Nat) (a b : Str) : indentText n (a ++ b) = indentText n a ++ indentText n b := by
  simp [indentText]

theorem indentText_cons (n : Nat) (c : Char) (b : Str) :
    indentText n (c :: b) = (if c = '\n' then newline n else [c]) ++ indentText n b := by
  simp [indentText]

theorem indentText_nil (n : Nat) : indentText n [] = [] := rfl

theorem indentText_oneLine (n : Nat) {s : Str} (h : OneLine s) : indentText n s = s := by
  induction s with
  | nil => rfl
  | cons c s ih =>
    obtain ⟨h1, h2⟩ := oneLine_cons.1 h
    rw [indentText_cons, if_neg h1.1, ih h2]
    rfl

theorem oneLine_spaces (n : Nat) : OneLine (List.replicate n ' ') := by
  intro c hc
  rw [List.eq_of_mem_replicate hc]
  decide

theorem indentText_newline (n m : Nat) : indentText n (newline m) = newline (n + m) := by
  rw [newline, indentText_cons, if_pos rfl, indentText_oneLine n (oneLine_spaces m)]
  simp [newline, List.replicate_append_replicate]

theorem indentText_zero (s : Str) : indentText 0 s = s := by
  induction s with
  | nil => rfl
  | cons c s ih =>
    rw [indentText_cons, ih]
    split
    · rename_i h; subst h; rfl
    · rfl

theorem indentText_indentText (n m : Nat) (s : Str) : indentText n (indentText m s) = indentText (n + m) s := by
  induction s with
  | nil => rfl
  | cons c s ih =>
    rw [indentText_cons m, indentText_append, ih, indentText_cons (n + m)]
    split
    · rw [indentText_newline]
    · rename_i h
      rw [indentText_cons, if_neg h]; rfl

theorem joinWith_cons_sep (sep l : Str) (ls : List Str) :
    joinWith sep (l :: ls) = l ++ (ls.map (sep ++ ·)).flatten := by
  induction ls generalizing l with
  | nil => simp [joinWith]
  | cons a ls ih => rw [joinWith, ih a]; simp

theorem indentText_join (n m : Nat) {L : List Str} (h : ∀ l ∈ L, OneLine l) :
    indentText n (joinWith (newline m) L) = joinWith (newline (n + m)) L := by
  cases L with
  | nil => rfl
  | cons l L =>
    rw [joinWith_cons_sep, joinWith_cons_sep, indentText_append, indentText_oneLine n (h l (by simp))]
    congr 1
    have : ∀ l ∈ L, OneLine l := fun l hl => h l (by simp [hl])
    clear h
    induction L with
    | nil => rfl
    | cons a L ih =>
      simp only [List.map_cons, List.flatten_cons, indentText_append, indentText_newline]
      rw [indentText_oneLine n (this a (by simp)), ih (fun l hl => this l (by simp [hl]))]

theorem newline_zero : newline 0 = ['\n'] := rfl

theorem indentText_lines (n : Nat) {L : List Str} (h : ∀ l ∈ L, OneLine l) :
    indentText n (joinWith ['\n'] L) = joinWith (newline n) L := by
  have := indentText_join n 0 h
  simpa [newline_zero] using this

theorem splitNl_oneLine {l : Str} (h : OneLine l) : splitNl l = [l] := by
  induction l with
  | nil => rfl
  | cons c l ih =>
    obtain ⟨h1, h2⟩ := oneLine_cons.1 h
    rw [splitNl, if_neg h1.1, ih h2]

theorem splitNl_ne (s : Str) : splitNl s ≠ [] := by
  cases s with
  | nil => simp [splitNl]
  | cons c s =>
    rw [splitNl]
    split
    · simp
    · split <;> simp

theorem splitNl_append {l : Str} (s : Str) (h : OneLine l) : splitNl (l ++ '\n' :: s) = l :: splitNl s := by
  induction l with
  | nil => simp [splitNl]
  | cons c l ih =>
    obtain ⟨h1, h2⟩ := oneLine_cons.1 h
    rw [List.cons_append, splitNl, if_neg h1.1, ih h2]

theorem splitNl_join {l : Str} {ls : List Str} (h1 : OneLine l) (h2 : ∀ m ∈ ls, OneLine m) :
    splitNl (joinWith ['\n'] (l :: ls)) = l :: ls := by
  induction ls generalizing l with
  | nil => exact splitNl_oneLine h1
  | cons m ls ih =>
    rw [joinWith, List.append_assoc, List.singleton_append, splitNl_append _ h1,
      ih (h2 m (by simp)) (fun a ha => h2 a (by simp [ha]))]

theorem indentText_head (n : Nat) (s : Str) : (indentText n s).head? = s.head? := by
  cases s with
  | nil => rfl
  | cons c s =>
    rw [indentText_cons]
    split
    · rename_i h; subst h; rfl
    · rfl

theorem mem_indentText {n : Nat} {c : Char} {s : Str} (h : c ∈ indentText n s) : c = ' ' ∨ c ∈ s := by
  unfold indentText at h
  obtain ⟨l, hl, hc⟩ := List.mem_flatten.1 h
  obtain ⟨d, hd, rfl⟩ := List.mem_map.1 hl
  split at hc
  · rename_i he
    rcases List.mem_cons.1 hc with rfl | hc
    · rw [he] at hd; exact .inr hd
    · exact .inl (List.eq_of_mem_replicate hc)
  · rw [List.mem_singleton] at hc
    subst hc; exact .inr hd

theorem indentText_last {n : Nat} {c : Char} {s : Str} (h1 : c ≠ ' ') (h2 : c ≠ '\n') :
    (indentText n s).getLast? = some c → s.getLast? = some c := by
  intro h
  rcases List.eq_nil_or_concat s with rfl | ⟨s', d, rfl⟩
  · simp [indentText] at h
  · rw [List.concat_eq_append, indentText_append, indentText_cons, indentText_nil] at h
    split at h
    · exfalso
      have := List.mem_of_getLast? h
      rw [List.append_nil, newline, List.getLast?_append] at h
      simp [List.getLast?_cons] at h
      cases n with
      | zero => simp at h; exact h2 h.symm
      | succ n =>
        rw [List.getLast?_replicate] at h
        simp at h; exact h1 h.symm
    · simpa using h

theorem TextStart_indent (n : Nat) {s : Str} (h : TextStart s) : TextStart (indentText n s) := by
  have cons_ne : ∀ {c : Char} {t : Str}, c ≠ '\n' → indentText n (c :: t) = c :: indentText n t := by
    intro c t hc
    rw [indentText_cons, if_neg hc]; rfl
  have cons_ex : ∀ (c : Char) (t : Str), ∃ t', indentText n (c :: t) = c :: t' := by
    intro c t
    rw [indentText_cons]
    split
    · rename_i h; subst h; exact ⟨_, rfl⟩
    · exact ⟨_, rfl⟩
  cases h with
  | plain h => rw [cons_ne (by rintro rfl; exact h (by decide))]; exact .plain h
  | @star d t h =>
    rw [cons_ne (by decide)]; obtain ⟨t', e⟩ := cons_ex d t; rw [e]; exact .star h
  | @stars d t h =>
    rw [cons_ne (by decide), cons_ne (by decide)]; obtain ⟨t', e⟩ := cons_ex d t; rw [e]; exact .stars h
  | @tick d t h =>
    rw [cons_ne (by decide)]; obtain ⟨t', e⟩ := cons_ex d t; rw [e]; exact .tick h
  | @ticks d t h =>
    rw [cons_ne (by decide), cons_ne (by decide)]; obtain ⟨t', e⟩ := cons_ex d t; rw [e]; exact .ticks h
  | @tilde d t h =>
    rw [cons_ne (by decide)]; obtain ⟨t', e⟩ := cons_ex d t; rw [e]; exact .tilde h
  | @tildes d t h =>
    rw [cons_ne (by decide), cons_ne (by decide)]; obtain ⟨t', e⟩ := cons_ex d t; rw [e]; exact .tildes h
  | @bracket s t h0 h1 h2 =>
    rw [cons_ne (by decide), indentText_append, cons_ne (by decide)]
    refine .bracket ?_ ?_ ?_
    · intro hm
      rcases mem_indentText hm with h | h
      · exact absurd h (by decide)
      · exact h0 h
    · intro hl; exact h1 (indentText_last (by decide) (by decide) hl)
    · rw [indentText_head]; exact h2
  | @autolink l t h =>
    rw [cons_ne (by decide), indentText_append, cons_ne (by decide), indentText_oneLine n (autolink_oneLine h)]
    exact .autolink h
  | @number ds d t h1 h2 h3 h4 h5 =>
    obtain ⟨t', e⟩ := cons_ex d t
    rw [indentText_append, e, indentText_oneLine n (by
      intro c hc
      have := h2 c hc
      constructor <;> rintro rfl <;> exact absurd this (by decide))]
    exact .number h1 h2 h3 h4 h5
  | digits h1 h2 =>
    rw [indentText_oneLine n (by
      intro c hc
      have := h2 c hc
      constructor <;> rintro rfl <;> exact absurd this (by decide))]
    exact .digits h1 h2
  | @underscore d t h =>
    rw [cons_ne (by decide)]; obtain ⟨t', e⟩ := cons_ex d t; rw [e]; exact .underscore h
  | @plus d t h =>
    rw [cons_ne (by decide)]; obtain ⟨t', e⟩ := cons_ex d t; rw [e]; exact .plus h
  | @dash m d t h1 h2 h3 =>
    obtain ⟨t', e⟩ := cons_ex d t
    rw [indentText_append, e, indentText_oneLine n (by
      intro c hc
      rw [List.eq_of_mem_replicate hc]; decide)]
    exact .dash h1 h2 h3
  | @equals m d t h1 h2 =>
    obtain ⟨t', e⟩ := cons_ex d t
    rw [indentText_append, e, indentText_oneLine n (by
      intro c hc
      rw [List.eq_of_mem_replicate hc]; decide)]
    exact .equals h1 h2
  | @starText m d t h1 h2 =>
    obtain ⟨t', e⟩ := cons_ex d t
    rw [indentText_append, e, indentText_oneLine n (by
      intro c hc
      rw [List.eq_of_mem_replicate hc]; decide)]
    exact .starText h1 h2
  | @underText m d t h1 h2 =>
    obtain ⟨t', e⟩ := cons_ex d t
    rw [indentText_append, e, indentText_oneLine n (by
      intro c hc
      rw [List.eq_of_mem_replicate hc]; decide)]
    exact .underText h1 h2

/-! ## The lines of a printed text -/

/-- A text without line ends other than break opportunities. -/
def Plain (t : Text) : Prop := ∀ c, some c ∈ t → c ≠ '\n' ∧ c ≠ '\r'

theorem plain_of_clear {punct digit : Char → Bool} {l : List Inline} (h : clearInlines punct l = true) :
    Plain (inlinesToks digit l) := by
  intro c hc
  refine (clear_oneLine punct).2 l h c ?_
  rw [← (flat_inlines digit).2 l]
  exact List.mem_map.2 ⟨some c, hc, rfl⟩

theorem Plain.flat_eq {t : Text} (h : Plain t) : spacedLines (flat t) = flat t := by
  refine spacedLines_oneLine ?_
  intro c hc
  obtain ⟨o, ho, rfl⟩ := List.mem_map.1 hc
  cases o with
  | none => exact ⟨by decide, by decide⟩
  | some c => exact h c ho

theorem Plain.tail {o : Option Char} {t : Text} (h : Plain (o :: t)) : Plain t :=
  fun c hc => h c (by simp [hc])

/-- Printed with indentation is printed without it, and indented. -/
theorem Laid.fill {n : Nat} {t : Text} {s : Str} (h : Laid n t s) (hp : Plain t) (hb : breaksText t = true) :
    ∃ s0, Fill t s0 ∧ s = indentText n s0 := by
  induction h with
  | nil => exact ⟨[], .nil, rfl⟩
  | char c _ ih =>
    obtain ⟨s0, h1, rfl⟩ := ih hp.tail hb
    exact ⟨_, .char c h1, by rw [indentText_cons, if_neg (hp c (by simp)).1]; rfl⟩
  | space _ ih =>
    obtain ⟨s0, h1, rfl⟩ := ih hp.tail (by simp [breaksText] at hb; exact hb.2)
    exact ⟨_, .space h1, rfl⟩
  | «break» _ ih =>
    obtain ⟨s0, h1, rfl⟩ := ih hp.tail (by simp [breaksText] at hb; exact hb.2)
    exact ⟨_, .break h1, rfl⟩
  | last _ => simp [breaksText, flat, startsText] at hb

theorem Fill.laid {t : Text} {s : Str} (h : Fill t s) : Laid 0 t s := by
  induction h with
  | nil => exact .nil
  | char c _ ih => exact .char c ih
  | space _ ih => exact .space ih
  | «break» _ ih => exact .break ih

/-- A line that begins with something visible. -/
def Begins (l : Str) : Prop := ∃ c t, l = c :: t ∧ isWs c = false

theorem textLines_cons {k o : Nat} {l : Str} {ls : List Str} (hk : k ≤ 3) (hl : OneLine l)
    (hls : ∀ m ∈ ls, OneLine m) (ht : TextStart (joinWith ['\n'] (l :: ls)))
    (hr : ls = [] ∨ TextLines (ls.map fun m => (o, m))) :
    TextLines ((k, l) :: ls.map fun m => (o, m)) := by
  cases ls with
  | nil => exact .one hk hl (by simpa [joinWith] using ht)
  | cons m ls =>
    refine .cons hk hl ?_ (hr.resolve_left (by simp))
    have := TextStart_indent o ht
    rw [indentText_lines o (by
      intro a ha
      rcases List.mem_cons.1 ha with rfl | ha
      · exact hl
      · exact hls a ha)] at this
    rw [joinWith_cons_sep] at this
    unfold indentedLines
    rw [List.map_cons, joinWith_cons_sep, List.map_map, List.map_map]
    simpa [newline, Function.comp_def] using this

/-- The lines of a wrapped text. -/
theorem Fill.lines {t : Text} {s : Str} (h : Fill t s) (hp : Plain t) (hb : breaksText t = true) {o : Nat}
    (ho : o ≤ 3) :
    ∃ l ls, s = joinWith ['\n'] (l :: ls) ∧ OneLine l ∧ (∀ m ∈ ls, OneLine m ∧ Begins m) ∧
      (ls = [] ∨ TextLines (ls.map fun m => (o, m))) := by
  induction h with
  | nil => exact ⟨[], [], rfl, oneLine_nil, by simp, .inl rfl⟩
  | @char c t s _ ih =>
    obtain ⟨l, ls, rfl, h1, h2, h3⟩ := ih hp.tail hb
    refine ⟨c :: l, ls, ?_, oneLine_cons.2 ⟨hp c (by simp), h1⟩, h2, h3⟩
    rw [joinWith_cons_sep, joinWith_cons_sep]; rfl
  | @space t s _ ih =>
    obtain ⟨l, ls, rfl, h1, h2, h3⟩ := ih hp.tail (by simp [breaksText] at hb; exact hb.2)
    refine ⟨' ' :: l, ls, ?_, oneLine_cons.2 ⟨by decide, h1⟩, h2, h3⟩
    rw [joinWith_cons_sep, joinWith_cons_sep]; rfl
  | @«break» t s hf ih =>
    simp only [breaksText, Bool.and_eq_true] at hb
    obtain ⟨l, ls, rfl, h1, h2, h3⟩ := ih hp.tail hb.2
    have hsp : spacedLines (joinWith ['\n'] (l :: ls)) = flat t := hf.spaced.trans hp.tail.flat_eq
    have hst := startsText_start (b := joinWith ['\n'] (l :: ls)) (by rw [hsp]; exact hb.1)
    have htl := textLines_cons (o := o) ho h1 (fun m hm => (h2 m hm).1) hst h3
    have hbl : Begins l := by
      obtain ⟨c, u, e, hw⟩ := spaced_head_ws (b := joinWith ['\n'] (l :: ls)) (by
        rw [hsp]; exact startsText_head hb.1)
      rw [joinWith_cons_sep] at e
      cases l with
      | nil =>
        exfalso
        cases ls with
        | nil => simp at e
        | cons m ls => simp at e; rw [← e.1] at hw; exact absurd hw (by decide)
      | cons d l => simp at e; exact ⟨d, l, rfl, by rw [e.1]; exact hw⟩
    refine ⟨[], l :: ls, ?_, oneLine_nil, ?_, .inr htl⟩
    · rw [joinWith_cons_sep ['\n'] [], joinWith_cons_sep]; simp
    · intro m hm
      rcases List.mem_cons.1 hm with rfl | hm
      · exact ⟨h1, hbl⟩
      · exact h2 m hm

/-- The lines of a printed paragraph. -/
theorem Fill.para {punct digit : Char → Bool} {c : List Inline} {s : Str} (h : Fill (inlinesToks digit c) s)
    (hc : clearInlines punct c = true) (hs : startsText (lineSource c) = true)
    (hb : breaksText (inlinesToks digit c) = true) :
    ∃ l ls, s = joinWith ['\n'] (l :: ls) ∧ (∀ m ∈ l :: ls, OneLine m ∧ Begins m) ∧
      ∀ k o, k ≤ 3 → o ≤ 3 → TextLines ((k, l) :: ls.map fun m => (o, m)) := by
  have hp := plain_of_clear (digit := digit) hc
  obtain ⟨l, ls, rfl, h1, h2, h3⟩ := h.lines hp hb (o := 0) (by decide)
  have hsp : spacedLines (joinWith ['\n'] (l :: ls)) = lineSource c := (h.source hc).symm
  have hst := startsText_start (b := joinWith ['\n'] (l :: ls)) (by rw [hsp]; exact hs)
  have hbl : Begins l := by
    obtain ⟨c, u, e, hw⟩ := spaced_head_ws (b := joinWith ['\n'] (l :: ls)) (by
      rw [hsp]; exact startsText_head hs)
    rw [joinWith_cons_sep] at e
    cases l with
    | nil =>
      exfalso
      cases ls with
      | nil => simp at e
      | cons m ls => simp at e; rw [← e.1] at hw; exact absurd hw (by decide)
    | cons d l => simp at e; exact ⟨d, l, rfl, by rw [e.1]; exact hw⟩
  refine ⟨l, ls, rfl, ?_, ?_⟩
  · intro m hm
    rcases List.mem_cons.1 hm with rfl | hm
    · exact ⟨h1, hbl⟩
    · exact h2 m hm
  · intro k o hk ho
    obtain ⟨l', ls', e, g1, g2, g3⟩ := h.lines hp hb ho
    have : l = l' ∧ ls = ls' := by
      have := congrArg splitNl e
      rw [splitNl_join h1 (fun m hm => (h2 m hm).1), splitNl_join g1 (fun m hm => (g2 m hm).1)] at this
      simpa using this
    obtain ⟨rfl, rfl⟩ := this
    exact textLines_cons hk h1 (fun m hm => (h2 m hm).1) hst g3

end Spec
end Md
end Verif
