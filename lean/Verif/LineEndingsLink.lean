import Verif.LineEndingsBlock
/-!
# Windows and Unix line endings (C76): link definitions
-/
set_option linter.unusedVariables false
set_option linter.unusedSimpArgs false
namespace Verif
open Nom

section
variable {x : PExt} {cfg : PConfig} {K : Traps}

/-! ## Traps -/

theorem unix_unix (s : Str) : unix (unix s) = unix s := unix_id (unix_noCr s)

theorem notNl_tail (v : Str) : '\n' ∉ v.takeWhile (· != '\n') ∧
    ∃ r, v = v.takeWhile (· != '\n') ++ r ∧ (r = [] ∨ ∃ r', r = '\n' :: r') := by
  induction v with
  | nil => exact ⟨by simp, [], rfl, .inl rfl⟩
  | cons c v ih =>
    by_cases hc : c = '\n'
    · subst hc; exact ⟨by simp, '\n' :: v, by simp, .inr ⟨v, rfl⟩⟩
    · obtain ⟨h1, r, h2, h3⟩ := ih
      have e : (c :: v).takeWhile (· != '\n') = c :: v.takeWhile (· != '\n') := by simp [hc]
      rw [e]
      refine ⟨?_, r, ?_, h3⟩
      · simp only [List.mem_cons, not_or]; exact ⟨fun h => hc h.symm, h1⟩
      · rw [List.cons_append, ← h2]

/-- What follows on the line. -/
theorem lineTail_of {t v s : Str} (ht : '\n' ∉ t) (h : (t ++ v) <:+ s) :
    LineTail (t ++ v.takeWhile (· != '\n')) s := by
  obtain ⟨u, rfl⟩ := h
  obtain ⟨h1, r, h2, h3⟩ := notNl_tail v
  refine ⟨by simp only [List.mem_append, not_or]; exact ⟨ht, h1⟩, u, r, ?_, h3⟩
  rw [List.append_assoc t, ← h2]

theorem UOk.backslash (hk : K.defs = .strict) {t : Str} (h : UOk K ('\\' :: t)) :
    ∃ c t', t = c :: t' ∧ c ≠ '\r' ∧ c ≠ '\n' := by
  have key : ∀ u, unix t = u → u.head? ≠ some '\n' ∧ u ≠ [] := by
    rintro u rfl
    have : ∀ r, (r = [] ∨ ∃ r', r = '\n' :: r') → unix t ≠ r := by
      rintro r hr e
      refine h.2.backslash hk ['\\'] ⟨by decide, [], r, ?_, hr⟩ rfl
      rw [unix_cons (by decide), e]; rfl
    refine ⟨?_, this [] (.inl rfl)⟩
    intro hh
    cases e : unix t with
    | nil => rw [e] at hh; simp at hh
    | cons d u => rw [e] at hh; simp at hh; subst hh; exact this _ (.inr ⟨u, rfl⟩) e
  have k := key _ rfl
  cases t with
  | nil => exact absurd rfl k.2
  | cons c t' =>
    by_cases hc : c = '\r'
    · subst hc
      obtain ⟨t, rfl⟩ := h.tail.1.cr
      simp at k
    · rw [unix_cons hc] at k
      exact ⟨c, t', rfl, hc, fun e => by simp [e] at k⟩

/-! ## Titles -/

theorem esc_cons (c : Char) (t : Str) : linkEscapedChar (c :: t) =
    if c = '\\' then (match t with | [] => none | d :: t' => some (t', d)) else none := by
  unfold linkEscapedChar preceded
  by_cases hc : c = '\\'
  · subst hc
    rw [if_pos rfl]
    have : tag cs!"\\" ('\\' :: t) = some (t, cs!"\\") := by simp [tag]
    rw [this]
    cases t <;> rfl
  · rw [if_neg hc]
    have : tag cs!"\\" (c :: t) = none := by
      rw [tag_none]; rintro ⟨v, hv⟩; simp at hv; exact hc hv.1.symm
    rw [this]

theorem same_esc (hk : K.defs = .strict) : Same K id linkEscapedChar := by
  intro s hs
  cases s with
  | nil => rfl
  | cons c s =>
    by_cases hc : c = '\r'
    · subst hc
      obtain ⟨t, rfl⟩ := hs.1.cr
      rw [unix_cr, unix_lf, esc_cons, esc_cons]
      rfl
    · rw [unix_cons hc, esc_cons, esc_cons]
      by_cases hb : c = '\\'
      · subst hb
        obtain ⟨d, t, rfl, h1, h2⟩ := hs.backslash hk
        rw [unix_cons h1]; rfl
      · rw [if_neg hb, if_neg hb]; rfl

/-- Loops that read characters, some of them escaped, also over line endings. -/
theorem same_charsE {q : P Char} [Con q]
    (hA : ∀ c s, UOk K (c :: s) → c ≠ '\r' → q (unix (c :: s)) = (q (c :: s)).map (fun y => (unix y.1, y.2)) ∧
      ∀ y, q (c :: s) = some y → y.2 ≠ '\r')
    (hB : ∀ t, (q ('\r' :: '\n' :: t) = some ('\n' :: t, '\r') ∧ q ('\n' :: t) = some (t, '\n') ∧
        q ('\n' :: unix t) = some (unix t, '\n')) ∨
      (q ('\r' :: '\n' :: t) = none ∧ q ('\n' :: unix t) = none)) : Same K unix (many0 q) := by
  have one : ∀ {s r : Str} {c : Char}, q s = some (r, c) →
      many0 q s = (many0 q r).map (fun y => (y.1, c :: y.2)) := by
    intro s r c e
    rw [many0_eq, e]
    simp only []
    rw [if_pos (Con.lt e)]
    cases many0 q r <;> rfl
  intro s
  induction hn : s.length using Nat.strongRecOn generalizing s with
  | _ n ih =>
  intro hs
  cases s with
  | nil =>
    cases e : q [] with
    | some y => have := Con.lt (p := q) (s := []) (r := y.1) (a := y.2) e; simp at this
    | none => rw [unix_nil, many0_of_none e]; rfl
  | cons c s =>
    by_cases hc : c = '\r'
    · subst hc
      obtain ⟨t, rfl⟩ := hs.1.cr
      rcases hB t with ⟨e1, e2, e3⟩ | ⟨e1, e2⟩
      · rw [unix_cr, unix_lf, one e1, one e2, one e3, ih t.length (by simp at hn; omega) t rfl hs.tail.tail]
        cases many0 q t <;> rfl
      · rw [unix_cr, unix_lf, many0_of_none e1, many0_of_none e2]; rfl
    · obtain ⟨h1, h2⟩ := hA c s hs hc
      cases e : q (c :: s) with
      | none =>
        rw [e] at h1
        rw [many0_of_none e, many0_of_none h1]; rfl
      | some y =>
        obtain ⟨r, d⟩ := y
        have hd := h2 _ e
        rw [e] at h1
        have hr := Con.out _ _ _ e
        rw [one e, one h1, ih r.length (by rw [← hn]; exact Con.lt e) r rfl (hs.suffix hr.1)]
        cases many0 q r with
        | none => rfl
        | some y => simp [unix_cons hd]

theorem same_titleInner (hk : K.defs = .strict) {d : Char} (h1 : d ≠ '\r') (h2 : d ≠ '\n') :
    Same K unix (linkTitleInner d) := by
  have key : ∀ c t, c ≠ '\\' → (linkEscapedChar <||> noneOf [d, '\\']) (c :: t) =
      if c = d then none else some (t, c) := by
    intro c t hc
    unfold orElse
    rw [esc_cons, if_neg hc]
    by_cases hd : c = d
    · subst hd; simp [noneOf, satisfy]
    · simp [noneOf, satisfy, hd, hc]
  refine same_charsE ?_ ?_
  · intro c s hs hc
    by_cases hb : c = '\\'
    · subst hb
      obtain ⟨e, t, rfl, he, _⟩ := hs.backslash hk
      rw [unix_cons (by decide), unix_cons he]
      unfold orElse
      rw [esc_cons, esc_cons]
      exact ⟨rfl, fun y hy => by cases hy; exact he⟩
    · rw [unix_cons hc, key c _ hb, key c _ hb]
      split
      · exact ⟨rfl, fun y hy => by cases hy⟩
      · exact ⟨rfl, fun y hy => by cases hy; exact hc⟩
  · intro t
    refine .inl ⟨?_, ?_, ?_⟩
    · rw [key _ _ (by decide), if_neg (fun e => h1 e.symm)]
    · rw [key _ _ (by decide), if_neg (fun e => h2 e.symm)]
    · rw [key _ _ (by decide), if_neg (fun e => h2 e.symm)]

theorem same_title (hk : K.defs = .strict) : Same K unix linkTitle :=
  same_orElse (same_delimited (same_tag (by decide) (by decide)) (same_titleInner hk (by decide) (by decide))
      (same_tag (by decide) (by decide)))
    (same_orElse (same_delimited (same_chr (by decide) (by decide)) (same_titleInner hk (by decide) (by decide))
      (same_chr (by decide) (by decide)))
    (same_delimited (same_chr (by decide) (by decide)) (same_titleInner hk (by decide) (by decide))
      (same_chr (by decide) (by decide))))

/-! ## Destinations -/

theorem terminated_many0 {α β : Type} {q : P α} [Con q] {t : P β} (s : Str) :
    terminated (many0 q) t s = match q s with
      | some (r, a) => (terminated (many0 q) t r).map (fun y => (y.1, a :: y.2))
      | none => (t s).map (fun y => (y.1, [])) := by
  unfold terminated mapP seq
  rw [many0_eq]
  cases e : q s with
  | none =>
    simp only []
    cases t s <;> rfl
  | some y =>
    obtain ⟨r, a⟩ := y
    simp only []
    rw [if_pos (Con.lt e)]
    cases many0 q r with
    | none => rfl
    | some z =>
      simp only []
      cases t z.1 <;> rfl

/-- What `linkDestination1` reads one by one. -/
def angleChar : P Char := preceded (chr '\\') (oneOf cs!"<>") <||> preceded (notP (oneOf cs!"\n<>")) anychar

instance : Con angleChar := by unfold angleChar; infer_instance

theorem angle_plain {c : Char} {t : Str} (hc : c ≠ '\\') :
    angleChar (c :: t) = if c = '\n' ∨ c = '<' ∨ c = '>' then none else some (t, c) := by
  unfold angleChar orElse preceded
  rw [chr_ne hc]
  simp only [notP, oneOf, satisfy]
  by_cases h : c = '\n' ∨ c = '<' ∨ c = '>'
  · rw [if_pos h, if_pos (by rcases h with rfl | rfl | rfl <;> decide)]
  · rw [if_neg h, if_neg (by simpa using h)]; rfl

theorem same_dest1 : Same K id linkDestination1 := by
  have hd : linkDestination1 = preceded (chr '<') (terminated (many0 angleChar) (chr '>')) := rfl
  rw [hd]
  refine same_preceded (same_chr (by decide) (by decide)) ?_
  have hc : Same K id (chr '>') := same_chr (by decide) (by decide)
  intro s
  induction hn : s.length using Nat.strongRecOn generalizing s with
  | _ n ih =>
  intro hs
  cases s with
  | nil => rfl
  | cons c s =>
    by_cases hcr : c = '\r'
    · subst hcr
      obtain ⟨t, rfl⟩ := hs.1.cr
      have e1 : ∀ t, terminated (many0 angleChar) (chr '>') ('\n' :: t) = none := by
        intro t
        rw [terminated_many0, angle_plain (by decide)]
        rfl
      rw [unix_cr, unix_lf, e1, terminated_many0, angle_plain (by decide)]
      simp [e1]
    · have hstep : angleChar (unix (c :: s)) = (angleChar (c :: s)).map fun y => (unix y.1, y.2) := by
        by_cases hb : c = '\\'
        · subst hb
          have h1 : Same K id (preceded (chr '\\') (oneOf cs!"<>")) :=
            same_preceded (same_chr (by decide) (by decide)) (same_oneOf (by decide) (by decide))
          unfold angleChar orElse
          rw [h1 _ hs]
          cases preceded (chr '\\') (oneOf cs!"<>") ('\\' :: s) with
          | some y => rfl
          | none => rw [unix_cons (by decide)]; rfl
        · rw [unix_cons hcr, angle_plain hb, angle_plain hb]
          split <;> rfl
      rw [terminated_many0, terminated_many0, hstep]
      cases e : angleChar (c :: s) with
      | none =>
        simp only [Option.map_none]
        rw [hc _ hs]
        cases chr '>' (c :: s) <;> rfl
      | some y =>
        obtain ⟨r, d⟩ := y
        simp only [Option.map_some]
        rw [ih r.length (by rw [← hn]; exact Con.lt e) r rfl (hs.suffix (Con.out _ _ _ e).1)]
        cases terminated (many0 angleChar) (chr '>') r <;> rfl

theorem angle_dry : ∀ n : Nat, ∀ s : Str, s.length = n → UOk K s → ∀ r l,
    terminated (many0 angleChar) (chr '>') s = some (r, l) → '\r' ∉ l := by
  intro n
  induction n using Nat.strongRecOn with
  | _ n ih =>
  intro s hn hs r l h
  rw [terminated_many0] at h
  cases e : angleChar s with
  | none =>
    rw [e] at h
    simp only [Option.map_eq_some_iff] at h
    obtain ⟨y, _, h⟩ := h
    cases h; simp
  | some y =>
    obtain ⟨r1, d⟩ := y
    rw [e] at h
    simp only [Option.map_eq_some_iff] at h
    obtain ⟨⟨r2, l2⟩, h1, h⟩ := h
    cases h
    have hr := Con.out _ _ _ e
    have h2 := ih r1.length (by rw [← hn]; exact Con.lt e) r1 rfl (hs.suffix hr.1) r2 l2 h1
    simp only [List.mem_cons, not_or]
    refine ⟨?_, h2⟩
    rintro rfl
    cases s with
    | nil => exact absurd (Con.lt e) (by simp)
    | cons c s =>
      by_cases hb : c = '\\'
      · subst hb
        unfold angleChar at e
        rcases orElse_some.1 e with e | ⟨_, e⟩
        · obtain ⟨r3, b, _, e⟩ := preceded_some.1 e
          obtain ⟨_, e⟩ := satisfy_some.1 e
          exact absurd e (by decide)
        · obtain ⟨r3, b, e1, e⟩ := preceded_some.1 e
          obtain ⟨_, rfl⟩ := notP_some.1 e1
          have := anychar_some.1 e
          cases this
      · rw [angle_plain hb] at e
        split at e
        · cases e
        · cases e
          obtain ⟨t, rfl⟩ := hs.1.cr
          rw [terminated_many0, angle_plain (by decide)] at h1
          exact absurd h1 (by simp [chr_ne])

theorem same_dest1_unix : Same K unix linkDestination1 := by
  intro s hs
  rw [same_dest1 s hs]
  cases e : linkDestination1 s with
  | none => rfl
  | some y =>
    obtain ⟨r, l⟩ := y
    obtain ⟨r1, b, e1, e2⟩ := preceded_some.1 e
    have hr := Con.out _ _ _ e1
    have := angle_dry _ r1 rfl (hs.suffix hr.1) r l e2
    simp [unix_id this]

theorem same_balancedF (hk : K.defs = .strict) : ∀ n, Same K id (balancedParensF n)
  | 0 => same_fail
  | n + 1 => by
    unfold balancedParensF
    refine same_delimited (same_tag (by decide) (by decide)) (same_unit (same_many0_id ?_))
      (same_tag (by decide) (by decide))
    exact same_orElse (same_unit (same_esc hk)) (same_orElse (same_balancedF hk n)
      (same_unit (same_satisfy (by decide) (by decide))))

theorem balancedF_stable : ∀ n m s, s.length < n → s.length < m → balancedParensF n s = balancedParensF m s := by
  intro n
  induction n with
  | zero => intro m s h; omega
  | succ n ih =>
    intro m s h1 h2
    cases m with
    | zero => omega
    | succ m =>
      unfold balancedParensF delimited preceded terminated mapP seq
      cases e : tag cs!"(" s with
      | none => rfl
      | some y =>
        have hlt : y.1.length < s.length := Con.lt (p := tag cs!"(") e
        have : many0 (value () linkEscapedChar <||> balancedParensF n <||>
            value () (satisfy (fun c => isValidChar c && c != '(' && c != ')'))) y.1 =
          many0 (value () linkEscapedChar <||> balancedParensF m <||>
            value () (satisfy (fun c => isValidChar c && c != '(' && c != ')'))) y.1 := by
          refine many0_congr y.1 ?_
          intro t ht
          have := ht.length_le
          unfold orElse
          rw [ih m t (by omega) (by omega)]
        simp only [value, mapP]
        simp only [value, mapP] at this
        rw [this]

theorem same_balanced (hk : K.defs = .strict) : Same K id balancedParens := by
  intro s hs
  unfold balancedParens
  have hle : (unix s).length ≤ s.length := List.length_filter_le _ _
  rw [balancedF_stable _ (s.length + 1) (unix s) (by omega) (by omega)]
  exact same_balancedF hk _ s hs

theorem same_dest2 (hk : K.defs = .strict) : Same K unix linkDestination2 := by
  intro s hs
  unfold linkDestination2
  rw [same_satisfy (K := K) (k := fun c => isValidChar c && c != '<') (by decide) (by decide) s hs]
  cases satisfy (fun c => isValidChar c && c != '<') s with
  | none => rfl
  | some y =>
    simp only [Option.map_some]
    refine same_recognize (same_many1_id ?_) s hs
    exact same_orElse (same_unit (same_esc hk)) (same_orElse (same_balanced hk)
      (same_unit (same_satisfy (by decide) (by decide))))

theorem same_dest (hk : K.defs = .strict) : Same K unix linkDestination :=
  same_orElse same_dest1_unix (same_dest2 hk)

/-! ## Labels -/

/-- What `linkLabelInner` reads one by one. -/
def labelChar : P Char := preceded (notP (chr ']')) (value ']' (tag cs!"\\]") <||> anychar)

instance : Con labelChar := by unfold labelChar; infer_instance

theorem label_step {c : Char} {t : Str} : labelChar (c :: t) =
    if c = ']' then none else if c = '\\' ∧ t.head? = some ']' then some (t.tail, ']') else some (t, c) := by
  unfold labelChar preceded notP
  by_cases h1 : c = ']'
  · subst h1; rfl
  · rw [chr_ne h1, if_neg h1]
    simp only []
    unfold orElse
    by_cases h2 : c = '\\' ∧ t.head? = some ']'
    · rw [if_pos h2]
      obtain ⟨rfl, h2⟩ := h2
      cases t with
      | nil => simp at h2
      | cons d t =>
        simp at h2; subst h2
        have : value ']' (tag cs!"\\]") ('\\' :: ']' :: t) = some (t, ']') := by
          simp [value, mapP, tag]
        rw [this]; rfl
    · rw [if_neg h2]
      have : value ']' (tag cs!"\\]") (c :: t) = none := by
        rw [value_none, tag_none]
        rintro ⟨v, hv⟩
        simp at hv
        exact h2 ⟨hv.1.symm, by rw [← hv.2]; rfl⟩
      rw [this]; rfl

theorem label_loop : ∀ n : Nat, ∀ s : Str, s.length = n → CrOk s →
    labelCloses ((unix s).takeWhile (· != '\n')) = true →
    many0 labelChar (unix s) = (many0 labelChar s).map fun y => (unix y.1, y.2) := by
  have one : ∀ {s r : Str} {c : Char}, labelChar s = some (r, c) →
      many0 labelChar s = (many0 labelChar r).map (fun y => (y.1, c :: y.2)) := by
    intro s r c e
    rw [many0_eq, e]
    simp only []
    rw [if_pos (Con.lt e)]
    cases many0 labelChar r <;> rfl
  intro n
  induction n using Nat.strongRecOn with
  | _ n ih =>
  intro s hn hs h
  cases s with
  | nil => simp [labelCloses] at h
  | cons c s =>
    by_cases hc : c = '\r'
    · subst hc
      obtain ⟨t, rfl⟩ := hs.cr
      simp [labelCloses] at h
    · rw [unix_cons hc] at h ⊢
      by_cases hnl : c = '\n'
      · subst hnl; simp [labelCloses] at h
      · rw [show (c :: unix s).takeWhile (· != '\n') = c :: (unix s).takeWhile (· != '\n') by simp [hnl]] at h
        by_cases h1 : c = ']'
        · subst h1
          have e : ∀ t, labelChar (']' :: t) = none := fun t => by rw [label_step]; rfl
          rw [many0_of_none (e _), many0_of_none (e _)]
          simp [unix_cons]
        · by_cases h2 : c = '\\' ∧ s.head? = some ']'
          · obtain ⟨rfl, h2⟩ := h2
            cases s with
            | nil => simp at h2
            | cons d s =>
              simp at h2; subst h2
              rw [unix_cons (by decide)] at h ⊢
              have e : ∀ t, labelChar ('\\' :: ']' :: t) = some (t, ']') := fun t => by rw [label_step]; rfl
              rw [one (e _), one (e _), ih s.length (by simp at hn; omega) s rfl hs.tail.tail (by
                simpa [labelCloses] using h)]
              cases many0 labelChar s <;> rfl
          · have h3 : ¬ (c = '\\' ∧ (unix s).head? = some ']') := by
              rintro ⟨rfl, h3⟩
              cases s with
              | nil => simp at h3
              | cons d s =>
                by_cases hd : d = '\r'
                · subst hd
                  obtain ⟨t, rfl⟩ := hs.tail.cr
                  simp at h3
                · rw [unix_cons hd] at h3
                  exact h2 ⟨rfl, h3⟩
            have h4 : labelCloses ((unix s).takeWhile (· != '\n')) = true := by
              generalize hw : (unix s).takeWhile (· != '\n') = w at h
              unfold labelCloses at h
              split at h
              · cases h
              · rename_i t heq
                cases heq
                exfalso; apply h3
                refine ⟨rfl, ?_⟩
                cases hu : unix s with
                | nil => rw [hu] at hw; simp at hw
                | cons d u =>
                  rw [hu] at hw
                  by_cases hd : d = '\n'
                  · subst hd; simp at hw
                  · simp [hd] at hw; simp [hw.1]
              · rename_i heq; cases heq; exact absurd rfl h1
              · rename_i heq; cases heq; exact h
            have e : ∀ t, ¬ (c = '\\' ∧ t.head? = some ']') → labelChar (c :: t) = some (t, c) := fun t ht => by
              rw [label_step, if_neg h1, if_neg ht]
            rw [one (e _ h2), one (e _ h3), ih s.length (by simp at hn; omega) s rfl hs.tail h4]
            cases many0 labelChar s <;> rfl

theorem same_label (hk : K.defs = .strict) (rec : Str → Option (List Inline)) : Same K id (linkLabel rec) := by
  intro s hs
  unfold linkLabel delimited
  have htag : Same K id (tag cs!"[") := same_tag (by decide) (by decide)
  unfold preceded
  rw [htag s hs]
  cases e : tag cs!"[" s with
  | none => rfl
  | some y =>
    obtain ⟨t, b⟩ := y
    simp only [Option.map_some]
    have hst : s = '[' :: t := by
      have := tag_some.1 e
      simpa using this.1
    subst hst
    have ht := hs.tail
    have hl : labelCloses ((unix t).takeWhile (· != '\n')) = true := by
      refine hs.2.label hk _ ?_
      rw [unix_cons (by decide)]
      exact lineTail_of (t := ['[']) (by decide) (List.suffix_refl _)
    have hq : many1 labelChar (unix t) = (many1 labelChar t).map fun y => (unix y.1, y.2) := by
      rw [many1_cases, many1_cases, label_loop _ t rfl ht.1 hl]
      have : (labelChar (unix t)).isSome = (labelChar t).isSome := by
        cases t with
        | nil => rfl
        | cons c t =>
          by_cases hc : c = '\r'
          · subst hc
            obtain ⟨t', rfl⟩ := ht.1.cr
            simp [labelCloses] at hl
          · rw [unix_cons hc, label_step, label_step]
            split
            · rfl
            · split <;> split <;> rfl
      rw [this]
      split <;> rfl
    have hin : linkLabelInner rec (unix t) = (linkLabelInner rec t).map fun y => (unix y.1, y.2) := by
      unfold linkLabelInner verify
      have e1 : many1 (preceded (notP (chr ']')) (value ']' (tag cs!"\\]") <||> anychar)) = many1 labelChar := rfl
      rw [e1, hq]
      cases many1 labelChar t with
      | none => rfl
      | some y =>
        simp only [Option.map_some]
        by_cases hv : ((y.2.any fun c => c != ' ' && c != '\n') && decide (y.2.length < 1000)) = true
        · simp only [hv, if_true]
          cases rec y.2 <;> rfl
        · simp only [hv, if_false]; rfl
    unfold terminated mapP seq
    rw [hin]
    cases e2 : linkLabelInner rec t with
    | none => rfl
    | some y =>
      simp only [Option.map_some]
      have := Con.out _ _ _ e2
      rw [same_tag (K := K) (l := cs!"]") (by decide) (by decide) y.1 (ht.suffix this.1)]
      cases tag cs!"]" y.1 <;> rfl

/-! ## Definitions -/

theorem same_space1_unix : Same K unix space1 := by
  intro s hs
  rw [same_space1 s hs]
  cases e : space1 s with
  | none => rfl
  | some y =>
    have : '\r' ∉ y.2 := by
      unfold space1 takeWhile1 at e
      split at e
      · cases e
      · cases e
        intro hm
        exact absurd (List.all_eq_true.1 (List.all_takeWhile (l := s) (p := isSpace)) _ hm) (by decide)
    simp [unix_id this]

theorem same_gap : Same K unix oneLineWhitespace1 := by
  refine same_verify (same_recognize (same_many1c (same_orElse same_lineEnding same_space1_unix))) ?_
  intro a
  have : (unix a).count '\n' = a.count '\n' := by
    unfold unix
    rw [List.count_filter (by decide)]
  rw [this]

theorem definition_bracket {s : Str} {y} (h : linkDefinitionP x cfg s = some y) :
    ∃ t, (cs!"]:" ++ t) <:+ s := by
  unfold linkDefinitionP at h
  obtain ⟨a, h, _⟩ := mapP_some.1 (show _ = some (y.1, y.2) from h)
  obtain ⟨r1, b, h, _⟩ := terminated_some.1 h
  obtain ⟨r2, h1, h2⟩ := seq_some.1 h
  obtain ⟨r3, b3, h3, h2⟩ := preceded_some.1 h2
  obtain ⟨rfl, _⟩ := chr_some.1 h3
  obtain ⟨r4, b4, h4, h1⟩ := preceded_some.1 h1
  unfold linkLabel at h1
  obtain ⟨r5, b5, h5, h1⟩ := preceded_some.1 h1
  obtain ⟨r6, b6, h6, h1⟩ := terminated_some.1 h1
  have := (tag_some.1 h1).1
  refine ⟨r3, ?_⟩
  have e : r6 = cs!"]:" ++ r3 := by simpa using this
  rw [← e]
  exact (Suf.out _ _ _ h6).trans ((Suf.out _ _ _ h5).trans (Suf.out _ _ _ h4))

theorem same_definition (hk : K.defs ≠ .off) : Same K unixBlock (linkDefinitionP x cfg) := by
  by_cases ha : K.defs = .absent
  · intro s hs
    have no : ∀ t, (cs!"]:" ++ t) <:+ unix s → False := by
      intro t ht
      exact hs.2.absent ha _ (lineTail_of (by decide) ht)
    have e1 : linkDefinitionP x cfg s = none := by
      cases e : linkDefinitionP x cfg s with
      | none => rfl
      | some y =>
        obtain ⟨t, ht⟩ := definition_bracket e
        refine (no (unix t) ?_).elim
        have := unix_suffix ht
        rwa [unix_append, unix_id (s := cs!"]:") (by decide)] at this
    have e2 : linkDefinitionP x cfg (unix s) = none := by
      cases e : linkDefinitionP x cfg (unix s) with
      | none => rfl
      | some y =>
        obtain ⟨t, ht⟩ := definition_bracket e
        exact (no t ht).elim
    rw [e1, e2]; rfl
  · have hk : K.defs = .strict := by
      cases h : K.defs with
      | off => exact absurd h hk
      | absent => exact absurd h ha
      | strict => rfl
    unfold linkDefinitionP
    refine same_mapP (f := Prod.map id (Prod.map unix (Option.map unix))) (same_terminated (same_seq
      (same_preceded same_indent03 (same_label hk _))
      (same_preceded (same_chr (by decide) (by decide)) (same_preceded
        (same_seq same_space0 (same_seq (same_opt same_lineEnding) same_space0))
        (same_seq (same_dest hk) (same_opt (same_preceded same_gap (same_title hk))))))) same_eofOrEol) ?_
    intro a
    rfl

end
end Verif
