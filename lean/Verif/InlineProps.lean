import Verif.InlineForward
/-!
# Character references (C50), escapes (C51) and code spans (C43)
-/
set_option linter.unusedVariables false
namespace Verif
open Nom

/-! ## Specification of character references and escapes -/

/-- The characters a backslash escapes: ASCII punctuation. -/
def escapable : Str := cs!"!\"#$%&'()*+,-./:;<=>?@[\\]^_`{|}~"

/-- `w` is a character reference that stands for `out`: decimal or hexadecimal for the scalar value it
denotes, or an entity of the table. -/
inductive CharRef (ent : Str → Option Str) : Str → Str → Prop
  | dec {ds : Str} {c : Char} : ds ≠ [] → (∀ d ∈ ds, isDigit d = true) → c.toNat = numVal 10 ds →
      CharRef ent (cs!"&#" ++ (ds ++ [';'])) [c]
  | hex {X : Char} {ds : Str} {c : Char} : X = 'x' ∨ X = 'X' → ds ≠ [] →
      (∀ d ∈ ds, isHexDigit d = true) → c.toNat = numVal 16 ds →
      CharRef ent (cs!"&#" ++ (X :: (ds ++ [';']))) [c]
  | named {name out : Str} : name ≠ [] → (∀ d ∈ name, isAlpha d = true) →
      ent ('&' :: (name ++ [';'])) = some out → CharRef ent ('&' :: (name ++ [';'])) out

/-- Text in which only character references mean something: they are replaced; a character that does
not start one is kept, and so is a backslash that is not in front of ASCII punctuation. -/
inductive Decodes (ent : Str → Option Str) : Str → Str → Prop
  | nil : Decodes ent [] []
  | ref {w out s t : Str} : CharRef ent w out → Decodes ent s t → Decodes ent (w ++ s) (out ++ t)
  | char {c : Char} {s t : Str} : c ∉ cs!"<[\\!`*_~" → (∀ w out, CharRef ent w out → ¬ w <+: c :: s) →
      Decodes ent s t → Decodes ent (c :: s) (c :: t)
  | backslash {s t : Str} : (∀ p, s.head? = some p → p ∉ escapable) → Decodes ent s t →
      Decodes ent ('\\' :: s) ('\\' :: t)

/-- The same with backslash escapes, but only at the front: an escape or a reference can follow
another one. -/
inductive DecodesEsc (ent : Str → Option Str) : Str → Str → Prop
  | text {s t : Str} : Decodes ent s t → DecodesEsc ent s t
  | ref {w out s t : Str} : CharRef ent w out → DecodesEsc ent s t →
      DecodesEsc ent (w ++ s) (out ++ t)
  | esc {p : Char} {s t : Str} : p ∈ escapable → DecodesEsc ent s t →
      DecodesEsc ent ('\\' :: p :: s) (p :: t)

section
variable {x : PExt} {cfg : PConfig} {rec : Str → Option (List Inline)}

/-! ## References -/

theorem takeWhile_span {f : Char → Bool} {a : Str} {c : Char} {t : Str} (ha : ∀ d ∈ a, f d = true)
    (hc : f c = false) : (a ++ c :: t).takeWhile f = a ∧ (a ++ c :: t).dropWhile f = c :: t := by
  induction a with
  | nil => simp [hc]
  | cons d a ih =>
    have := ih (fun e he => ha e (by simp [he]))
    simp only [List.cons_append, List.takeWhile_cons, List.dropWhile_cons, ha d (by simp), if_true]
    exact ⟨by rw [this.1], this.2⟩

theorem takeWhile1_of {f : Char → Bool} {a : Str} {c : Char} {t : Str} (hne : a ≠ [])
    (ha : ∀ d ∈ a, f d = true) (hc : f c = false) :
    takeWhile1 f (a ++ c :: t) = some (c :: t, a) := by
  unfold takeWhile1
  rw [(takeWhile_span ha hc).1, (takeWhile_span ha hc).2]
  simp [hne]

theorem charFromU32_toNat {n : Nat} {c : Char} : charFromU32 n = some c ↔ c.toNat = n := by
  unfold charFromU32
  split
  · rename_i h
    simp only [Option.some.injEq]
    constructor
    · rintro rfl
      simp [Char.ofNat, h, Char.ofNatAux, Char.toNat]
    · rintro rfl; simp
  · rename_i h
    simp only [reduceCtorEq, false_iff]
    rintro rfl
    exact h c.valid

theorem char_lt (c : Char) : c.toNat < 2 ^ 32 := c.val.toNat_lt

theorem CharRef.parse {w out s : Str} (h : CharRef cfg.entities w out) :
    htmlEntity cfg (w ++ s) = some (s, out) := by
  unfold htmlEntity
  cases h with
  | @dec ds c h1 h2 h3 =>
    have hn : htmlEntityAlpha cfg (cs!"&#" ++ (ds ++ [';']) ++ s) = none := by
      refine mapOpt_none ?_
      rw [recognize_none]
      have : chr '&' (cs!"&#" ++ (ds ++ [';']) ++ s) = some ('#' :: (ds ++ [';'] ++ s), '&') := rfl
      unfold seq
      rw [this]
      simp only
      have : alpha1 ('#' :: (ds ++ [';'] ++ s)) = none := takeWhile1_none_of (by decide)
      rw [this]
    rw [orElse_of_none hn]
    refine mapP_some.2 ⟨c, mapOpt_some.2 ⟨numVal 10 ds, ?_, charFromU32_toNat.2 h3⟩, rfl⟩
    refine delimited_some.2 ⟨ds ++ ';' :: s, cs!"&#", ';' :: s, ';', ?_, ?_, chr_cons _ _⟩
    · exact tag_some.2 ⟨by simp, rfl⟩
    · refine orElse_of_some (mapOpt_some.2 ⟨ds, takeWhile1_of h1 h2 (by decide), ?_⟩)
      unfold parseU32
      rw [if_pos (by rw [← h3]; exact char_lt c)]
  | @hex X ds c hX h1 h2 h3 =>
    have hn : htmlEntityAlpha cfg (cs!"&#" ++ (X :: (ds ++ [';'])) ++ s) = none := by
      refine mapOpt_none ?_
      rw [recognize_none]
      have : chr '&' (cs!"&#" ++ (X :: (ds ++ [';'])) ++ s) =
        some ('#' :: (X :: (ds ++ [';']) ++ s), '&') := rfl
      unfold seq
      rw [this]
      simp only
      have : alpha1 ('#' :: (X :: (ds ++ [';']) ++ s)) = none := takeWhile1_none_of (by decide)
      rw [this]
    rw [orElse_of_none hn]
    refine mapP_some.2 ⟨c, mapOpt_some.2 ⟨numVal 16 ds, ?_, charFromU32_toNat.2 h3⟩, rfl⟩
    refine delimited_some.2 ⟨X :: (ds ++ ';' :: s), cs!"&#", ';' :: s, ';', ?_, ?_, chr_cons _ _⟩
    · exact tag_some.2 ⟨by simp, rfl⟩
    · rw [orElse_of_none]
      · refine mapOpt_some.2 ⟨ds, preceded_some.2 ⟨ds ++ ';' :: s, X, ?_,
          takeWhile1_of h1 h2 (by decide)⟩, ?_⟩
        · rcases hX with rfl | rfl <;> rfl
        · unfold parseU32
          rw [if_pos (by rw [← h3]; exact char_lt c)]
      · refine mapOpt_none (takeWhile1_none_of ?_)
        rcases hX with rfl | rfl <;> decide
  | @named name out h1 h2 h3 =>
    refine orElse_of_some ?_
    unfold htmlEntityAlpha
    refine mapOpt_some.2 ⟨'&' :: (name ++ [';']), ?_, h3⟩
    refine recognize_of (v := ('&', name, ';')) ?_
    refine seq_some.2 ⟨name ++ ';' :: s, ?_, ?_⟩
    · simp only [List.cons_append, List.append_assoc]; exact chr_cons _ _
    · exact seq_some.2 ⟨';' :: s, takeWhile1_of h1 h2 (by decide), chr_cons _ _⟩

theorem htmlEntity_ref {s r out : Str} (h : htmlEntity cfg s = some (r, out)) :
    ∃ w, CharRef cfg.entities w out ∧ s = w ++ r := by
  unfold htmlEntity at h
  rcases orElse_some.1 h with h | ⟨_, h⟩
  · obtain ⟨w, h1, h2⟩ := mapOpt_some.1 h
    have happ := recognize_append h1
    obtain ⟨⟨a, b, c⟩, h3, _⟩ := recognize_some.1 h1
    obtain ⟨s1, h4, h5⟩ := seq_some.1 h3
    obtain ⟨s2, h6, h7⟩ := seq_some.1 h5
    obtain ⟨rfl, _⟩ := chr_some.1 h4
    obtain ⟨h8, rfl⟩ := chr_some.1 h7
    obtain ⟨h9, h10, h11⟩ := takeWhile1_some.1 h6
    simp only at h8 h9 h10 h11
    have hb : s1 = b ++ (';' :: r) := by
      rw [← h8, h9, h10]
      exact (List.takeWhile_append_dropWhile).symm
    have hw : w = '&' :: (b ++ [';']) := by
      apply List.append_cancel_right (bs := r)
      rw [happ, hb]; simp
    subst hw
    refine ⟨_, .named h11 ?_ h2, happ.symm⟩
    intro d hd
    rw [h9] at hd
    exact takeWhile_all d hd
  · unfold htmlEntityNumeric at h
    obtain ⟨c, h1, h2⟩ := mapP_some.1 h
    obtain ⟨n, h3, h4⟩ := mapOpt_some.1 h1
    obtain ⟨s1, _, s2, d, h5, h6, h7⟩ := delimited_some.1 h3
    obtain ⟨rfl, _⟩ := tag_some.1 h5
    obtain ⟨rfl, rfl⟩ := chr_some.1 h7
    have hc := charFromU32_toNat.1 h4
    subst h2
    rcases orElse_some.1 h6 with h6 | ⟨_, h6⟩
    · obtain ⟨ds, h8, h9⟩ := mapOpt_some.1 h6
      obtain ⟨h10, h11, h12⟩ := takeWhile1_some.1 h8
      unfold parseU32 at h9
      split at h9
      · simp only [Option.some.injEq] at h9
        refine ⟨_, .dec (ds := ds) (c := c) h12 ?_ (by rw [hc, h9]), ?_⟩
        · intro d hd; rw [h10] at hd; exact takeWhile_all d hd
        · have : s1 = ds ++ (';' :: r) := by
            rw [h10, h11]; exact (List.takeWhile_append_dropWhile).symm
          rw [this]; simp
      · simp at h9
    · obtain ⟨ds, h8, h9⟩ := mapOpt_some.1 h6
      obtain ⟨s3, X, hX0, h13⟩ := preceded_some.1 h8
      obtain ⟨hs3, hX⟩ := satisfy_some.1 hX0
      subst hs3
      obtain ⟨h10, h11, h12⟩ := takeWhile1_some.1 h13
      unfold parseU32 at h9
      split at h9
      · simp only [Option.some.injEq] at h9
        refine ⟨_, .hex (X := X) (ds := ds) (c := c) (by simpa using hX) h12 ?_ (by rw [hc, h9]), ?_⟩
        · intro d hd; rw [h10] at hd; exact takeWhile_all d hd
        · have : s3 = ds ++ (';' :: r) := by
            rw [h10, h11]; exact (List.takeWhile_append_dropWhile).symm
          rw [this]; simp
      · simp at h9

theorem CharRef.head {ent : Str → Option Str} {w out : Str} (h : CharRef ent w out) :
    ∃ t, w = '&' :: t := by
  cases h <;> exact ⟨_, rfl⟩

theorem isHexDigit_underscore : isHexDigit '_' = false := by decide

theorem CharRef.noUnderscore {ent : Str → Option Str} {w out : Str} (h : CharRef ent w out) :
    '_' ∉ w := by
  intro hm
  cases h with
  | @dec ds c _ h2 _ =>
    simp at hm
    have := h2 _ hm; revert this; decide
  | @hex X ds c hX _ h2 _ =>
    simp at hm
    rcases hm with rfl | hm
    · rcases hX with h | h <;> revert h <;> decide
    · have := h2 _ hm; revert this; decide
  | @named name out _ h2 _ =>
    simp at hm
    have := h2 _ hm; revert this; decide

theorem Decodes.noUnderscore {ent : Str → Option Str} {s t : Str} (h : Decodes ent s t) :
    '_' ∉ s := by
  induction h with
  | nil => simp
  | ref hw _ ih => simp [hw.noUnderscore, ih]
  | char hc _ _ ih =>
    intro hm
    rcases List.mem_cons.1 hm with rfl | hm
    · exact hc (by decide)
    · exact ih hm
  | backslash _ _ ih => simp [ih]

theorem hardNewline_oneLine {s : Str} (h : OneLine s) : hardNewline s = none := by
  cases e : hardNewline s with
  | none => rfl
  | some y =>
    exfalso
    obtain ⟨r, i⟩ := y
    unfold hardNewline at e
    obtain ⟨_, e, _⟩ := value_some.1 e
    have key : ∀ {α : Type} {p : P α} [Suf p] {v r}, seq p lineEnding s = some (r, v) → False := by
      intro α p _ v r e
      obtain ⟨s1, h1, h2⟩ := seq_some.1 e
      have hsuf : s1 <:+ s := Suf.out _ _ _ h1
      rcases lineEnding_some.1 h2 with ⟨h3, _⟩ | ⟨h3, _⟩
      · exact (h '\n' (hsuf.subset (by rw [h3]; simp))).1 rfl
      · exact (h '\r' (hsuf.subset (by rw [h3]; simp))).2 rfl
    rcases orElse_some.1 e with e | ⟨_, e⟩
    · obtain ⟨_, e, _⟩ := value_some.1 e; exact key e
    · obtain ⟨_, e, _⟩ := value_some.1 e; exact key e

theorem OneLine.suffix {a b : Str} (h : OneLine (a ++ b)) : OneLine b :=
  fun c hc => h c (by simp [hc])

/-! ## Runs of text -/

theorem notAText_none {c : Char} {s : Str} (hc : c ∉ cs!"<[!`*_~") (ho : OneLine (c :: s))
    (hu : '_' ∉ c :: s) (he : htmlEntity cfg (c :: s) = none) :
    notAText x cfg rec (c :: s) = none := by
  have h : c ≠ '<' ∧ c ≠ '[' ∧ c ≠ '!' ∧ c ≠ '`' ∧ c ≠ '*' ∧ c ≠ '_' ∧ c ≠ '~' := by
    refine ⟨?_, ?_, ?_, ?_, ?_, ?_, ?_⟩ <;> rintro rfl <;> exact hc (by decide)
  obtain ⟨h1, h2, h4, h5, h6, h7, h8⟩ := h
  have h12 := environmentVariable_none (s := c :: s) (u := []) hu quietEnd_nil
  rw [List.append_nil] at h12
  unfold notAText
  simp only [orElse_none, conditionalUnit_none, value_none]
  exact ⟨.inr (autolinkP_head h1), .inr (referenceLink_head h2), .inr (hardNewline_oneLine ho),
    .inr he, .inr (imageP_head h4), .inr (inlineLink_head h2),
    .inr (codeSpan_head h5), .inr (emphasisP_head h6 h7), .inr (footnoteReferenceP_head h2),
    .inr (strikethroughP_head h8), h12⟩

theorem notAText_ref (ht : cfg.text = .parse) {s : Str} {y} (h : htmlEntity cfg s = some y) :
    ∃ z, notAText x cfg rec s = some z := by
  cases e : notAText x cfg rec s with
  | some z => exact ⟨z, rfl⟩
  | none =>
    unfold notAText at e
    simp only [orElse_none, conditionalUnit_none] at e
    obtain ⟨_, _, _, h4, _⟩ := e
    rw [ht, h] at h4
    rcases h4 with h4 | h4
    · cases h4
    · simp at h4

theorem Decodes.of_nil {ent : Str → Option Str} {t : Str} (h : Decodes ent [] t) : t = [] := by
  generalize hs : ([] : Str) = s0 at h
  cases h with
  | nil => rfl
  | ref hw _ => obtain ⟨v, rfl⟩ := hw.head; simp at hs
  | char _ _ _ => simp at hs
  | backslash _ _ => simp at hs

theorem escapedChar_bs {s : Str} (h : ∀ p, s.head? = some p → p ∉ escapable) :
    escapedChar ('\\' :: s) = none := by
  unfold escapedChar preceded
  rw [chr_cons]
  show oneOf _ s = none
  cases s with
  | nil => rfl
  | cons p s =>
    refine satisfy_none_of ?_
    have := h p rfl
    unfold escapable at this
    simpa using this

theorem Decodes.escaped_none {ent : Str → Option Str} {s t : Str} (h : Decodes ent s t) :
    escapedChar s = none := by
  cases h with
  | nil => rfl
  | ref hw _ => obtain ⟨v, rfl⟩ := hw.head; exact escapedChar_head (by decide)
  | char hc _ _ => exact escapedChar_head (by rintro rfl; exact hc (by decide))
  | backslash hp _ => exact escapedChar_bs hp

/-- Nothing but text starts at the first character of decodable text that is not a reference. -/
theorem Decodes.quiet {c : Char} {s t : Str} (h : Decodes cfg.entities (c :: s) t)
    (ho : OneLine (c :: s)) :
    (∃ w out s' t', CharRef cfg.entities w out ∧ c :: s = w ++ s' ∧ t = out ++ t' ∧
      Decodes cfg.entities s' t') ∨
    (notAText x cfg rec (c :: s) = none ∧ ∃ t', t = c :: t' ∧ Decodes cfg.entities s t') := by
  have hu := h.noUnderscore
  generalize hs : c :: s = s0 at h
  cases h with
  | nil => simp at hs
  | @ref w out s' t' hw h' => exact .inl ⟨w, out, s', t', hw, rfl, rfl, h'⟩
  | @char c' s' t' hc hn h' =>
    simp at hs
    obtain ⟨rfl, rfl⟩ := hs
    refine .inr ⟨notAText_none ?_ ho hu ?_, t', rfl, h'⟩
    · intro hm
      have key : ∀ c ∈ cs!"<[!`*_~", c ∈ cs!"<[\\!`*_~" := by decide
      exact hc (key c hm)
    · cases e : htmlEntity cfg (c :: s) with
      | none => rfl
      | some y =>
        obtain ⟨w, hw, heq⟩ := htmlEntity_ref e
        exact absurd ⟨y.1, heq.symm⟩ (hn w _ hw)
  | @backslash s' t' hp h' =>
    simp at hs
    obtain ⟨rfl, rfl⟩ := hs
    exact .inr ⟨notAText_none (by decide) ho hu (htmlEntity_head (by decide)), t', rfl, h'⟩

theorem Decodes.run (ht : cfg.text = .parse) {s t : Str} (h : Decodes cfg.entities s t)
    (ho : OneLine s) :
    ∃ a s' t', s = a ++ s' ∧ t = a ++ t' ∧ Decodes cfg.entities s' t' ∧
      many0 (preceded (notP (notAText x cfg rec)) anychar) s = some (s', a) := by
  induction s generalizing t with
  | nil =>
    obtain rfl := h.of_nil
    exact ⟨[], [], [], rfl, rfl, .nil, many0_of_none stop_nil⟩
  | cons c s ih =>
    rcases h.quiet (x := x) (rec := rec) ho with ⟨w, out, s', t', hw, heq, rfl, h'⟩ | ⟨hn, t', rfl, h'⟩
    · refine ⟨[], c :: s, out ++ t', rfl, rfl, h, many0_of_none ?_⟩
      rw [heq]
      obtain ⟨z, hz⟩ := notAText_ref (x := x) (rec := rec) ht (hw.parse (s := s'))
      exact stop_of_notAText hz
    · obtain ⟨a, s1, t1, rfl, rfl, h1, h2⟩ := ih h' (fun d hd => ho d (by simp [hd]))
      refine ⟨c :: a, s1, t1, rfl, rfl, h1, many0_of_some (preceded_not_anychar hn) (by simp) h2⟩

/-- Decodable text is read by the pieces of `text`. -/
theorem Decodes.pieces (ht : cfg.text = .parse) : ∀ {s t : Str}, Decodes cfg.entities s t →
    OneLine s → ∃ l, many0 (textPiece x cfg rec) s = some ([], l) ∧ l.flatten = t := by
  intro s
  generalize hn : s.length = n
  induction n using Nat.strongRecOn generalizing s with
  | ind n ih =>
    intro t h ho
    cases s with
    | nil => obtain rfl := h.of_nil; exact ⟨[], many0_of_none textPiece_nil, rfl⟩
    | cons c s =>
      rcases h.quiet (x := x) (rec := rec) ho with ⟨w, out, s', t', hw, heq, rfl, h'⟩ |
        ⟨hq, t', rfl, h'⟩
      · have hwl : 0 < w.length := by obtain ⟨v, rfl⟩ := hw.head; simp
        rw [heq] at ho hn ⊢
        obtain ⟨l, h1, h2⟩ := ih s'.length (by rw [← hn, List.length_append]; omega) rfl h' ho.suffix
        refine ⟨out :: l, many0_of_some (r := s') ?_ (by rw [List.length_append]; omega) h1, by simp [h2]⟩
        unfold textPiece
        rw [orElse_of_none]
        · exact orElse_of_some hw.parse
        · rw [mapP_none]
          obtain ⟨v, rfl⟩ := hw.head
          exact escapedChar_head (by decide)
      · obtain ⟨a, s1, t1, hs, ht1, h1, h2⟩ := h.run (x := x) (rec := rec) ht ho
        have ha : a ≠ [] := by
          rintro rfl
          rw [many0_eq, preceded_not_anychar hq] at h2
          simp only [List.length_cons, Nat.lt_succ_self, if_true] at h2
          split at h2
          · simp at h2
          · simp at h2
        have hal : 0 < a.length := List.length_pos_iff.2 ha
        rw [hs] at ho hn
        obtain ⟨l, h3, h4⟩ := ih s1.length (by rw [← hn, List.length_append]; omega) rfl h1 ho.suffix
        refine ⟨a :: l, many0_of_some (r := s1) ?_ (by rw [hs, List.length_append]; omega) h3,
          by simp [h4, ht1]⟩
        unfold textPiece
        have hesc : mapP escapedChar (fun c => [c]) (c :: s) = none := by
          rw [mapP_none]
          exact h.escaped_none
        have hent : htmlEntity cfg (c :: s) = none := by
          cases e : htmlEntity cfg (c :: s) with
          | none => rfl
          | some y =>
            obtain ⟨z, hz⟩ := notAText_ref (x := x) (rec := rec) ht e
            rw [hz] at hq; simp at hq
        rw [orElse_of_none hesc, orElse_of_none hent]
        have := recognize_of (many1_of_many0 (by rw [← hs]; exact h2) ha)
        rw [hs]; exact this

theorem DecodesEsc.pieces (ht : cfg.text = .parse) {s t : Str} (h : DecodesEsc cfg.entities s t)
    (ho : OneLine s) : ∃ l, many0 (textPiece x cfg rec) s = some ([], l) ∧ l.flatten = t := by
  induction h with
  | text h => exact h.pieces ht ho
  | @ref w out s t hw h ih =>
    obtain ⟨l, h1, h2⟩ := ih ho.suffix
    have hwl : 0 < w.length := by obtain ⟨v, rfl⟩ := hw.head; simp
    refine ⟨out :: l, many0_of_some (r := s) ?_ (by rw [List.length_append]; omega) h1, by simp [h2]⟩
    unfold textPiece
    rw [orElse_of_none]
    · exact orElse_of_some hw.parse
    · rw [mapP_none]
      obtain ⟨v, rfl⟩ := hw.head
      exact escapedChar_head (by decide)
  | @esc p s t hp h ih =>
    obtain ⟨l, h1, h2⟩ := ih (fun c hc => ho c (by simp [hc]))
    refine ⟨[p] :: l, many0_of_some (r := s) ?_ (by simp; omega) h1, by simp [h2]⟩
    unfold textPiece
    refine orElse_of_some (mapP_some.2 ⟨p, preceded_some.2 ⟨p :: s, '\\', chr_cons _ _, ?_⟩, rfl⟩)
    refine satisfy_some.2 ⟨rfl, ?_⟩
    unfold escapable at hp
    simpa using hp

theorem many0_nil_of_con {α : Type} {p : P α} [Con p] : many0 p [] = some ([], []) :=
  many0_of_none (Con.nil p)

/-- The first character of such text. -/
theorem DecodesEsc.first {ent : Str → Option Str} {c : Char} {s t : Str}
    (h : DecodesEsc ent (c :: s) t) : c ∉ cs!"<[!`*_~" := by
  have key : ∀ c ∈ cs!"<[!`*_~", c ∈ cs!"<[\\!`*_~" := by decide
  generalize hs : c :: s = s0 at h
  cases h with
  | text h =>
    cases h with
    | nil => simp at hs
    | ref hw _ => obtain ⟨v, rfl⟩ := hw.head; simp at hs; rw [hs.1]; decide
    | char hc _ _ => simp at hs; rw [hs.1]; exact fun hm => hc (key _ hm)
    | backslash _ _ => simp at hs; rw [hs.1]; decide
  | ref hw _ => obtain ⟨v, rfl⟩ := hw.head; simp at hs; rw [hs.1]; decide
  | esc _ _ => simp at hs; rw [hs.1]; decide

/-- An environment variable name does not start at the front of such text. -/
theorem DecodesEsc.envVar {ent : Str → Option Str} {s t : Str} (h : DecodesEsc ent s t) :
    environmentVariable s = none := by
  cases h with
  | text h =>
    have := environmentVariable_none (u := []) h.noUnderscore quietEnd_nil
    rwa [List.append_nil] at this
  | ref hw _ =>
    obtain ⟨v, rfl⟩ := hw.head
    exact environmentVariable_head (by decide)
  | esc _ _ => exact environmentVariable_head (by decide)

theorem DecodesEsc.inlines (hc : cfg.CustomOk) (hci : cfg.customInline = none)
    (ht : cfg.text = .parse) {s t : Str} (hne : s ≠ []) (h : DecodesEsc cfg.entities s t)
    (ho : OneLine s) : parseInlines1 x cfg s = some [.text t] := by
  obtain ⟨l, h1, h2⟩ := h.pieces (x := x) (rec := parseInlines1 x cfg) ht ho
  have hl : l ≠ [] := by
    rintro rfl
    rw [many0_eq] at h1
    split at h1
    · simp at h1; exact hne h1
    · split at h1
      · split at h1 <;> simp at h1
      · simp at h1
  have hstep : inlineP x cfg s = some ([], [.text t]) := by
    unfold inlineP
    rw [← h2]
    refine inlineStep_text hci ht (before_text hne ?_ (hardNewline_oneLine ho) h.envVar)
      (many1_of_many0 h1 hl)
    intro c hc0
    cases s with
    | nil => simp at hc0
    | cons d s => simp at hc0; subst hc0; exact h.first
  have := inlineP_con (x := x) hc
  rw [parseInlines1_eq hc, many1_some.2 ⟨[], [.text t], [], hstep, many0_nil_of_con, rfl⟩]
  rfl

/-! ## C50, C51 -/

/-- C50: on a line of text in which nothing but character references means something, each decimal or
hexadecimal reference is replaced by the Unicode scalar value it denotes and each entity by its
entry in the table; everything else, including references that denote nothing, is kept. -/
theorem C50_references (hc : cfg.CustomOk) (hci : cfg.customInline = none)
    (hcb : cfg.customBlock = none) (ht : cfg.text = .parse) (hh : cfg.headingV2 = .parse)
    {c : Char} {s t : Str} (ho : OneLine (c :: s)) (hst : c ∉ blockStart)
    (h : Decodes cfg.entities (c :: s) t) :
    parseMarkdown x cfg (c :: s) = some ⟨[.paragraph [.text t]]⟩ :=
  parse_line hc hcb hh ⟨ho, c, s, rfl, hst⟩
    (DecodesEsc.inlines hc hci ht (by simp) (.text h) ho)

/-- C51 where it holds: backslash escapes of ASCII punctuation (and references) at the beginning of a
text stand for the character, as plain text; a backslash that is not in front of ASCII punctuation
is kept anywhere.  An escape after other text is not recognised: `C51_refuted`. -/
theorem C51_escapes_partial (hc : cfg.CustomOk) (hci : cfg.customInline = none)
    (hcb : cfg.customBlock = none) (ht : cfg.text = .parse) (hh : cfg.headingV2 = .parse)
    {c : Char} {s t : Str} (ho : OneLine (c :: s)) (hst : c ∉ blockStart)
    (h : DecodesEsc cfg.entities (c :: s) t) :
    parseMarkdown x cfg (c :: s) = some ⟨[.paragraph [.text t]]⟩ :=
  parse_line hc hcb hh ⟨ho, c, s, rfl, hst⟩ (DecodesEsc.inlines hc hci ht (by simp) h ho)

end

/-- C51 is false: after other text an escape is not recognised, the backslash stays in the text and
the escaped character keeps its meaning. -/
theorem C51_refuted :
    parseMarkdown PExt.ascii (PConfig.default fun _ => none) cs!"a \\*b* c" =
      some ⟨[.paragraph [.text cs!"a \\", .emphasis [.text cs!"b"], .text cs!" c"]]⟩ ∧
    parseMarkdown PExt.ascii (PConfig.default fun _ => none) cs!"a\\#" =
      some ⟨[.paragraph [.text cs!"a\\#"]]⟩ := by decide +kernel

/-- Three escapes, a reference and a kept backslash meet the hypotheses of `C51_escapes_partial`. -/
example (x : PExt) (ent : Str → Option Str) :
    parseMarkdown x (PConfig.default ent) cs!"\\*\\[\\\\&#65;\\b" =
      some ⟨[.paragraph [.text cs!"*[\\A\\b"]]⟩ := by
  refine C51_escapes_partial (default_customOk _) rfl rfl rfl rfl
    (by intro c hc; revert c; decide) (by decide) ?_
  refine .esc (by decide) (.esc (by decide) (.esc (by decide) ?_))
  refine .ref (w := cs!"&#65;") (out := ['A']) (.dec (ds := cs!"65") (by simp) (by decide) (by decide)) ?_
  refine .text (.backslash (by intro p hp; simp at hp; subst hp; decide) ?_)
  refine .char (by decide) ?_ .nil
  intro w out hw hp
  obtain ⟨t, rfl⟩ := hw.head
  simp at hp

/-- A hexadecimal reference, an entity and a reference out of range meet the hypotheses of
`C50_references`. -/
example (x : PExt) (ent : Str → Option Str) (h : ent cs!"&amp;" = some cs!"&") :
    parseMarkdown x (PConfig.default ent) cs!"a&#x1F600;&amp;&#1114112;" =
      some ⟨[.paragraph [.text cs!"a😀&&#1114112;"]]⟩ := by
  have noref : ∀ (c : Char) (s : Str), c ≠ '&' → ∀ w out, CharRef ent w out → ¬ w <+: c :: s := by
    intro c s hc w out hw ⟨v, hv⟩
    obtain ⟨t, rfl⟩ := hw.head
    simp at hv
    exact hc hv.1.symm
  refine C50_references (default_customOk _) rfl rfl rfl rfl
    (by intro c hc; revert c; decide) (by decide) ?_
  refine .char (by decide) (noref _ _ (by decide)) ?_
  refine .ref (w := cs!"&#x1F600;") (out := ['😀'])
    (.hex (X := 'x') (ds := cs!"1F600") (.inl rfl) (by simp) (by decide) (by decide)) ?_
  refine .ref (w := cs!"&amp;") (out := ['&']) (.named (name := cs!"amp") (by simp) (by decide) h) ?_
  refine .char (by decide) ?_ ?_
  · intro w out hw hp
    cases hw with
    | @dec ds c h1 h2 h3 =>
      have hds : ds = cs!"1114112" := by
        obtain ⟨v, hv⟩ := hp
        simp at hv
        have h4 := (takeWhile_span (f := isDigit) (a := ds) (c := ';') (t := v) h2 (by decide)).1
        rw [hv] at h4
        rw [← h4]; decide
      subst hds
      have : c.toNat = 1114112 := by rw [h3]; decide
      have hv := c.valid
      have h5 : c.val.toNat = c.toNat := rfl
      rcases hv with hv | ⟨_, hv⟩
      · have : c.val.toNat < 0xd800 := hv
        omega
      · have : c.val.toNat < 0x110000 := hv
        omega
    | @hex X ds c hX h1 h2 h3 =>
      obtain ⟨v, hv⟩ := hp
      simp at hv
      rcases hX with h | h <;> rw [h] at hv <;> simp at hv
    | @named name out h1 h2 h3 =>
      obtain ⟨v, hv⟩ := hp
      cases name with
      | nil => exact h1 rfl
      | cons d name =>
        simp at hv
        have := h2 d (by simp)
        rw [hv.1] at this
        revert this; decide
  · refine .char (by decide) (noref _ _ (by decide)) ?_
    refine .char (by decide) (noref _ _ (by decide)) ?_
    refine .char (by decide) (noref _ _ (by decide)) ?_
    refine .char (by decide) (noref _ _ (by decide)) ?_
    refine .char (by decide) (noref _ _ (by decide)) ?_
    refine .char (by decide) (noref _ _ (by decide)) ?_
    refine .char (by decide) (noref _ _ (by decide)) ?_
    refine .char (by decide) (noref _ _ (by decide)) ?_
    refine .char (by decide) (noref _ _ (by decide)) .nil

end Verif
