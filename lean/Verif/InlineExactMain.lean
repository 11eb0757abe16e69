import Verif.InlineExactProps
import Verif.StartProps
/-!
# The reading of a text as inlines is the specified one, exists and is unique (C84)
-/
set_option autoImplicit false
set_option linter.unusedVariables false
set_option linter.unusedSimpArgs false
namespace Verif.Exact
open Nom

variable {x : PExt} {cfg : PConfig} {ent : Str → Option Str} {rec : Str → Option (List Inline)}

instance : Con (nodeP x rec) := by unfold nodeP; infer_instance

/-! ## Pieces of text -/

theorem EscapeAt.node_none {s r : Str} {c : Char} (h : EscapeAt s c r) : nodeP x rec s = none := by
  obtain ⟨hc, rfl⟩ := h
  rw [nodeP_none]
  refine ⟨autolinkP_head (by decide), inlineLink_head (by decide), footnoteReferenceP_head (by decide),
    referenceLink_head (by decide), ?_, imageP_head (by decide), codeSpan_head (by decide),
    environmentVariable_head (by decide), emphasisP_head (by decide) (by decide), strikethroughP_head (by decide)⟩
  cases e : hardNewline ('\\' :: c :: r) with
  | none => rfl
  | some y =>
    obtain ⟨_, h⟩ := break_iff.1 (show _ = some (y.1, y.2) from e)
    have hn : c ≠ '\n' ∧ c ≠ '\r' := by
      constructor <;> (rintro rfl; exact absurd hc (by decide))
    rcases h with ⟨e, he, h⟩ | ⟨n, e, hn', _, h⟩
    · simp at h
      rcases he with rfl | rfl <;> simp at h
      · exact absurd h.1 hn.1
      · exact absurd h.1 hn.2
    · obtain ⟨k, rfl⟩ : ∃ k, n = k + 1 := ⟨n - 1, by omega⟩
      simp [List.replicate_succ] at h

theorem RefAt.head {s v r : Str} (h : RefAt ent s v r) : ∃ u, s = '&' :: u := by
  obtain ⟨w, h, rfl⟩ := h
  cases h <;> exact ⟨_, rfl⟩

theorem RefAt.node_none {s v r : Str} (h : RefAt ent s v r) : nodeP x rec s = none := by
  obtain ⟨u, rfl⟩ := h.head
  rw [nodeP_none]
  exact ⟨autolinkP_head (by decide), inlineLink_head (by decide), footnoteReferenceP_head (by decide),
    referenceLink_head (by decide), hardNewline_head (by decide) (by decide), imageP_head (by decide),
    codeSpan_head (by decide), environmentVariable_head (by decide), emphasisP_head (by decide) (by decide),
    strikethroughP_head (by decide)⟩

/-- A piece of text. -/
def PieceAt (x : PExt) (ent : Str → Option Str) (s p r : Str) : Prop :=
  (∃ c, EscapeAt s c r ∧ p = [c]) ∨ RefAt ent s p r ∨ RunAt x ent s p r

section
variable (hrec : ∀ t, t ≠ [] → rec t ≠ none) (hp : InlineParse cfg)
include hrec hp

theorem notAText_none' {s : Str} : notAText x cfg rec s = none ↔ ¬ Ends x cfg.entities s := by
  rw [← ends_iff hrec hp]; simp

theorem piece_iff {s r p : Str} : textPiece x cfg rec s = some (r, p) ↔ PieceAt x cfg.entities s p r := by
  have stop : ∀ {u : Str}, Ends x cfg.entities u ↔ ∃ y, notAText x cfg rec u = some y := by
    intro u
    rw [← ends_iff hrec hp]
    exact Option.ne_none_iff_exists'
  unfold textPiece PieceAt
  constructor
  · intro h
    rcases orElse_some.1 h with h | ⟨n1, h⟩
    · obtain ⟨c, h', rfl⟩ := mapP_some.1 h
      exact .inl ⟨c, escape_iff.1 h', rfl⟩
    · rcases orElse_some.1 h with h | ⟨n2, h⟩
      · exact .inr (.inl (ref_iff.1 h))
      · right; right
        obtain ⟨l, h1, hp'⟩ := recognize_some.1 h
        obtain ⟨s1, c, l', h2, h3, rfl⟩ := many1_some.1 h1
        have h4 : many0 (preceded (notP (notAText x cfg rec)) anychar) s = some (r, c :: l') :=
          many0_of_some h2 (by
            obtain ⟨s2, _, h5, h6⟩ := preceded_some.1 h2
            obtain ⟨_, rfl⟩ := notP_some.1 h5
            have := anychar_some.1 h6
            subst this
            simp) h3
        obtain ⟨rfl, h5⟩ := untilLoop _ _ _ h4
        have : p = c :: l' := by rw [hp', show ((c :: l') ++ r).length - r.length = (c :: l').length by simp; omega]; simp
        subst this
        refine ⟨rfl, by simp, fun a b hab hb => (notAText_none' hrec hp).1 (h5 a b hab hb), ?_, ?_⟩
        · by_cases hr : r = []
          · exact .inl hr
          · exact .inr (stop.2 (untilLoop_end h4 hr))
        · intro c v hv
          rw [mapP_none] at n1
          rw [escape_iff.2 hv] at n1; cases n1
  · rintro (⟨c, h, rfl⟩ | h | h)
    · exact orElse_of_some (mapP_some.2 ⟨c, escape_iff.2 h, rfl⟩)
    · obtain ⟨u, rfl⟩ := h.head
      rw [orElse_of_none (mapP_none.2 _)]
      · exact orElse_of_some (ref_iff.2 h)
      · cases e : escapedChar ('&' :: u) with
        | none => rfl
        | some y =>
          obtain ⟨_, h⟩ := escape_iff.1 (show _ = some (y.1, y.2) from e)
          cases h
    · obtain ⟨rfl, hne, h1, h2, h3⟩ := h
      have hn := h1 [] p rfl hne
      rw [orElse_of_none, orElse_of_none]
      · apply recognize_of (v := p)
        cases p with
        | nil => exact absurd rfl hne
        | cons c p =>
          have hl : many0 (preceded (notP (notAText x cfg rec)) anychar) (p ++ r) = some (r, p) := by
            rcases h2 with rfl | h2
            · have : ∀ p : Str, (∀ a b, p = a ++ b → b ≠ [] → ¬ Ends x cfg.entities b) →
                  many0 (preceded (notP (notAText x cfg rec)) anychar) p = some ([], p) := by
                intro p
                induction p with
                | nil => intro _; exact many0_of_none (by
                    cases e : preceded (notP (notAText x cfg rec)) anychar [] with
                    | none => rfl
                    | some y =>
                      obtain ⟨s2, _, h5, h6⟩ := preceded_some.1 (show _ = some (y.1, y.2) from e)
                      obtain ⟨_, rfl⟩ := notP_some.1 h5
                      cases anychar_some.1 h6)
                | cons c p ih =>
                  intro h
                  refine many0_of_some (step_some ((notAText_none' hrec hp).2 (h [] _ rfl (by simp))) rfl) (by simp)
                    (ih fun a b hab hb => h (c :: a) b (by rw [hab]; rfl) hb)
              have h4 := this p (fun a b hab hb => by simpa using h1 (c :: a) b (by rw [hab]; rfl) hb)
              simpa using h4
            · exact untilLoop_of (stop.1 h2) p (fun a b hab hb => (notAText_none' hrec hp).2
                (h1 (c :: a) b (by rw [hab]; rfl) hb))
          exact many1_some.2 ⟨p ++ r, c, p, step_some ((notAText_none' hrec hp).2 hn) rfl, hl, rfl⟩
      · cases e : htmlEntity cfg (p ++ r) with
        | none => rfl
        | some y => exact absurd (.ref (ref_iff.1 (show _ = some (y.1, y.2) from e))) hn
      · rw [mapP_none]
        cases e : escapedChar (p ++ r) with
        | none => rfl
        | some y => exact absurd (escape_iff.1 (show _ = some (y.1, y.2) from e)) (h3 _ _)

theorem piece_node {s r p : Str} (h : PieceAt x cfg.entities s p r) : nodeP x rec s = none := by
  rcases h with ⟨c, h, _⟩ | h | h
  · exact h.node_none
  · exact h.node_none
  · have := h.plain [] p rfl h.ne
    rw [← h.eq, ← notAText_none' hrec hp] at this
    exact ((notAText_none_iff hp).1 this).1

omit hrec in
theorem piece_ex {s : Str} (hs : s ≠ []) (h : nodeP x rec s = none) : ∃ r p, textPiece x cfg rec s = some (r, p) := by
  unfold textPiece
  cases e1 : escapedChar s with
  | some y => exact ⟨_, _, orElse_of_some (mapP_some.2 ⟨_, (show _ = some (y.1, y.2) from e1), rfl⟩)⟩
  | none =>
    rw [orElse_of_none (mapP_none.2 e1)]
    cases e2 : htmlEntity cfg s with
    | some y => exact ⟨_, _, orElse_of_some (show _ = some (y.1, y.2) from e2)⟩
    | none =>
      rw [orElse_of_none e2]
      cases s with
      | nil => exact absurd rfl hs
      | cons c s =>
        have : Con (preceded (notP (notAText x cfg rec)) anychar) := inferInstance
        obtain ⟨r, l, h3⟩ := many0_ex (p := preceded (notP (notAText x cfg rec)) anychar) s
        exact ⟨_, _, recognize_some.2 ⟨_, many1_some.2 ⟨s, c, l,
          step_some ((notAText_none_iff hp).2 ⟨h, e2⟩) rfl, h3, rfl⟩, rfl⟩⟩

end

theorem _root_.Verif.Unescapes.length_le {e : Char} {w t : Str} (h : Unescapes e w t) : t.length ≤ w.length := by
  induction h <;> simp_all <;> omega

/-! ## The parser -/

section
variable (hc : cfg.CustomOk) (hp : InlineParse cfg)
include hc hp

theorem rec_ok : ∀ t, t ≠ [] → parseInlines1 x cfg t ≠ none := by
  intro t ht
  obtain ⟨l, hl⟩ := parseInlines1_ok (x := x) hc (by rw [hp.text]; simp) ht
  rw [hl]; simp

omit hp in
theorem parse_many {s : Str} {l : List Inline} (h : parseInlines0 x cfg s = some l) :
    ∃ q ls, many0 (inlineP x cfg) s = some (q, ls) ∧ mergeText ls.flatten = l := by
  rw [parseInlines0_eq hc] at h
  simp only [Option.map_eq_some_iff] at h
  obtain ⟨⟨q, ls⟩, h, h'⟩ := h
  exact ⟨q, ls, h, h'⟩

omit hp in
theorem parse_of {s q : Str} {ls : List (List Inline)} (h : many0 (inlineP x cfg) s = some (q, ls)) :
    parseInlines0 x cfg s = some (mergeText ls.flatten) := by
  rw [parseInlines0_eq hc, h]; rfl

theorem parse1_eq {t : Str} (ht : t ≠ []) : parseInlines1 x cfg t = parseInlines0 x cfg t := by
  obtain ⟨l, hl⟩ := Option.ne_none_iff_exists'.1 (rec_ok (x := x) hc hp t ht)
  rw [hl]
  rw [parseInlines1_eq hc] at hl
  simp only [Option.map_eq_some_iff] at hl
  obtain ⟨⟨q, ls⟩, h, rfl⟩ := hl
  obtain ⟨r, a, l', h1, h2, rfl⟩ := many1_some.1 h
  exact (parse_of hc (many0_of_some h1 ((inlineP_con hc).out _ _ _ h1).2 h2)).symm

theorem parse_node {s r : Str} {i : Inline} {l : List Inline} (h : Node x (parseInlines1 x cfg) s i r)
    (hl : parseInlines0 x cfg r = some l) : ∃ l0, mergeText l0 = l ∧ parseInlines0 x cfg s = some (mergeText (i :: l0)) := by
  obtain ⟨q, ls, h1, rfl⟩ := parse_many hc hl
  have h2 : inlineP x cfg s = some (r, [i]) := by
    unfold inlineP
    rw [inlineStep_eq hp]
    exact orElse_of_some (mapP_some.2 ⟨i, (node_iff (rec_ok hc hp)).2 h, rfl⟩)
  have h3 := parse_of hc (many0_of_some h2 ((inlineP_con hc).out _ _ _ h2).2 h1)
  exact ⟨ls.flatten, rfl, by rw [h3]; simp⟩

theorem parse_piece {s r p : Str} {l : List Inline} (h : PieceAt x cfg.entities s p r)
    (hl : parseInlines0 x cfg r = some l) : parseInlines0 x cfg s = some (addText p l) := by
  have hr := rec_ok (x := x) hc hp
  have hs := (piece_iff hr hp).2 h
  have hlt : r.length < s.length := (Con.out (p := textPiece x cfg (parseInlines1 x cfg)) _ _ _ hs).2
  have text : ∀ {s r : Str} {ps : List Str}, nodeP x (parseInlines1 x cfg) s = none →
      many0 (textPiece x cfg (parseInlines1 x cfg)) s = some (r, ps) → ps ≠ [] →
      inlineP x cfg s = some (r, [.text ps.flatten]) := by
    intro s r ps hn h hne
    unfold inlineP
    rw [inlineStep_eq hp, orElse_of_none (mapP_none.2 hn)]
    exact mapP_some.2 ⟨_, mapP_some.2 ⟨ps, many1_of_many0 h hne, rfl⟩, rfl⟩
  obtain ⟨q, ls, h1, rfl⟩ := parse_many hc hl
  obtain ⟨r2, ps, h2⟩ := many0_ex (p := textPiece x cfg (parseInlines1 x cfg)) r
  have h3 := text (piece_node hr hp h) (many0_of_some hs hlt h2) (by simp)
  cases ps with
  | nil =>
    have : r2 = r := by
      rw [many0_eq] at h2
      cases e : textPiece x cfg (parseInlines1 x cfg) r with
      | none => rw [e] at h2; simp at h2; exact h2.symm
      | some y =>
        rw [e] at h2
        simp only at h2
        split at h2
        · split at h2 <;> simp at h2
        · simp at h2
    subst this
    rw [parse_of hc (many0_of_some h3 ((inlineP_con hc).out _ _ _ h3).2 h1)]
    simp [merge_text]
  | cons p' ps =>
    obtain ⟨r3, h5⟩ : ∃ r3, textPiece x cfg (parseInlines1 x cfg) r = some (r3, p') := by
      obtain ⟨r3, a, l', h5, _, h6⟩ := many1_some.1 (many1_of_many0 h2 (by simp))
      simp at h6
      exact ⟨r3, by rw [h5, h6.1]⟩
    have h4 := text (piece_node hr hp ((piece_iff hr hp).1 h5)) h2 (by simp)
    obtain ⟨r4, a, ls', h6, h7, rfl⟩ := many1_some.1 (many1_of_many0 h1 (by
      rintro rfl
      have := many0_stop h1
      rw [many0_eq, h4] at h1
      simp only at h1
      split at h1
      · split at h1 <;> simp at h1
      · simp at h1))
    rw [h4] at h6
    simp at h6
    obtain ⟨rfl, rfl⟩ := h6
    rw [parse_of hc (many0_of_some h3 ((inlineP_con hc).out _ _ _ h3).2 h7)]
    simp [merge_text, addText_addText]

/-- The parser reads as specified. -/
theorem ReadAs.parse {s : Str} {l : List Inline} (h : ReadAs x cfg.entities s l) : parseInlines0 x cfg s = some l := by
  have inner : ∀ {t : Str} {k : List Inline}, t ≠ [] → parseInlines0 x cfg t = some k →
      parseInlines1 x cfg t = some k := by
    intro t k ht hk
    rw [parse1_eq hc hp ht, hk]
  have node : ∀ {s r : Str} {i : Inline} {l : List Inline}, NotTextFirst [i] →
      Node x (parseInlines1 x cfg) s i r → parseInlines0 x cfg r = some l → parseInlines0 x cfg s = some (i :: l) := by
    intro s r i l hi hn hl
    obtain ⟨l0, rfl, h⟩ := parse_node hc hp hn hl
    rw [h, merge_cons hi]
  induction h with
  | nil =>
    have := inlineP_con (x := x) hc
    rw [parse_of hc (many0_nil_of_con (p := inlineP x cfg))]; rfl
  | autolink h _ ih => exact node (by intro _ _ h; cases h) (.autolink h) ih
  | link h1 h2 _ _ ih1 ih2 => exact node (by intro _ _ h; cases h) (.link h1 h2 (inner h1.ne ih1)) ih2
  | footnote h1 h2 _ ih => exact node (by intro _ _ h; cases h) (.footnote h1 h2) ih
  | reference h1 h2 h3 _ _ _ ih1 ih2 ih3 =>
    exact node (by intro _ _ h; cases h) (.reference h1 h2 h3 (inner h1.ne ih1) (inner h2.ne ih2)) ih3
  | collapsed h1 h2 _ _ ih1 ih2 =>
    exact node (by intro _ _ h; cases h) (.collapsed h1 h2 (inner h1.ne ih1)) ih2
  | shortcut h1 h2 h3 h4 h5 _ _ ih1 ih2 =>
    exact node (by intro _ _ h; cases h) (.shortcut h1 h2 h3 h4 h5 (inner h1.ne ih1)) ih2
  | lineBreak h _ ih => exact node (by intro _ _ h; cases h) (.lineBreak h) ih
  | image h _ ih => exact node (by intro _ _ h; cases h) (.image h) ih
  | code h _ ih => exact node (by intro _ _ h; cases h) (.code h) ih
  | identifier h _ ih =>
    obtain ⟨l0, rfl, h'⟩ := parse_node hc hp (.identifier h) ih
    rw [h', merge_text]
  | both hm h1 _ _ ih1 ih2 => exact node (by intro _ _ h; cases h) (.both hm h1 (inner h1.ne ih1)) ih2
  | strong hm h1 h2 _ _ ih1 ih2 => exact node (by intro _ _ h; cases h) (.strong hm h1 h2 (inner h1.ne ih1)) ih2
  | emphasis hm h1 h2 h3 _ _ ih1 ih2 =>
    exact node (by intro _ _ h; cases h) (.emphasis hm h1 h2 h3 (inner h1.ne ih1)) ih2
  | strike h1 _ _ ih1 ih2 => exact node (by intro _ _ h; cases h) (.strike h1 (inner h1.ne ih1)) ih2
  | escape h _ ih => exact parse_piece hc hp (.inl ⟨_, h, rfl⟩) ih
  | ref h _ ih => exact parse_piece hc hp (.inr (.inl h)) ih
  | run h _ ih => exact parse_piece hc hp (.inr (.inr h)) ih

omit hc hp in
theorem LabelAt.shorter {s t r : Str} (h : LabelAt s t r) : t.length < s.length ∧ r.length < s.length := by
  obtain ⟨w, h, _, rfl⟩ := h
  have := h.text.length_le
  simp; omega

omit hc hp in
theorem EmphAt.shorter {m : Char} {n : Nat} {s o r : Str} (hn : 0 < n) (h : EmphAt x m n s o r) : o.length < s.length := by
  obtain ⟨_, _, rfl⟩ := h
  simp; omega

omit hc hp in
theorem StrikeAt.shorter {s o r : Str} (h : StrikeAt s o r) : o.length < s.length := by
  obtain ⟨_, _, rfl⟩ := h
  simp; omega

/-- Every text has a reading. -/
theorem reads_ex (s : Str) : ∃ l, ReadAs x cfg.entities s l := by
  have hr := rec_ok (x := x) hc hp
  induction hn : s.length using Nat.strongRecOn generalizing s with
  | _ n ih =>
  subst hn
  have ih : ∀ t : Str, t.length < s.length → ∃ l, ReadAs x cfg.entities t l := fun t ht => ih _ ht t rfl
  by_cases hs : s = []
  · subst hs; exact ⟨[], .nil⟩
  cases e : nodeP x (parseInlines1 x cfg) s with
  | some y =>
    have e : nodeP x (parseInlines1 x cfg) s = some (y.1, y.2) := e
    generalize y.1 = r at e
    generalize y.2 = i at e
    obtain ⟨l, hl⟩ := ih r (Con.out (p := nodeP x (parseInlines1 x cfg)) _ _ _ e).2
    cases (node_iff hr).1 e with
    | autolink h => exact ⟨_, .autolink h hl⟩
    | link h1 h2 _ =>
      obtain ⟨k, hk⟩ := ih _ h1.shorter.1
      exact ⟨_, .link h1 h2 hk hl⟩
    | footnote h1 h2 => exact ⟨_, .footnote h1 h2 hl⟩
    | reference h1 h2 h3 _ _ =>
      obtain ⟨k, hk⟩ := ih _ h1.shorter.1
      obtain ⟨k', hk'⟩ := ih _ (Nat.lt_trans h2.shorter.1 h1.shorter.2)
      exact ⟨_, .reference h1 h2 h3 hk hk' hl⟩
    | collapsed h1 h2 _ =>
      obtain ⟨k, hk⟩ := ih _ h1.shorter.1
      exact ⟨_, .collapsed h1 h2 hk hl⟩
    | shortcut h1 h2 h3 h4 h5 _ =>
      obtain ⟨k, hk⟩ := ih _ h1.shorter.1
      exact ⟨_, .shortcut h1 h2 h3 h4 h5 hk hl⟩
    | lineBreak h => exact ⟨_, .lineBreak h hl⟩
    | image h => exact ⟨_, .image h hl⟩
    | code h => exact ⟨_, .code h hl⟩
    | identifier h => exact ⟨_, .identifier h hl⟩
    | both hm h1 _ =>
      obtain ⟨k, hk⟩ := ih _ (h1.shorter (by decide))
      exact ⟨_, .both hm h1 hk hl⟩
    | strong hm h1 h2 _ =>
      obtain ⟨k, hk⟩ := ih _ (h1.shorter (by decide))
      exact ⟨_, .strong hm h1 h2 hk hl⟩
    | emphasis hm h1 h2 h3 _ =>
      obtain ⟨k, hk⟩ := ih _ (h1.shorter (by decide))
      exact ⟨_, .emphasis hm h1 h2 h3 hk hl⟩
    | strike h1 _ =>
      obtain ⟨k, hk⟩ := ih _ h1.shorter
      exact ⟨_, .strike h1 hk hl⟩
  | none =>
    obtain ⟨r, p, h⟩ := piece_ex hp hs e
    obtain ⟨l, hl⟩ := ih r (Con.out (p := textPiece x cfg (parseInlines1 x cfg)) _ _ _ h).2
    rcases (piece_iff hr hp).1 h with ⟨c, h', rfl⟩ | h | h
    · exact ⟨_, .escape h' hl⟩
    · exact ⟨_, .ref h hl⟩
    · exact ⟨_, .run h hl⟩

/-- **C84.** A text is read as the inlines that the specification says, and as no others. -/
theorem C84_exact (s : Str) (l : List Inline) : parseInlines0 x cfg s = some l ↔ ReadAs x cfg.entities s l := by
  refine ⟨fun h => ?_, fun h => h.parse hc hp⟩
  obtain ⟨l', h'⟩ := reads_ex (x := x) hc hp s
  rw [h'.parse hc hp] at h
  cases h; exact h'

end

/-- **C84.** No text has two readings. -/
theorem C84_unique {s : Str} {l l' : List Inline} (h : ReadAs x ent s l) (h' : ReadAs x ent s l') : l = l' := by
  have h1 := ReadAs.parse (cfg := PConfig.default ent) (default_customOk ent) (inlineParse_default ent) h
  have h2 := ReadAs.parse (cfg := PConfig.default ent) (default_customOk ent) (inlineParse_default ent) h'
  rw [h1] at h2
  cases h2; rfl

/-- **C84.** Every text has a reading. -/
theorem C84_total (x : PExt) (ent : Str → Option Str) (s : Str) : ∃ l, ReadAs x ent s l :=
  reads_ex (cfg := PConfig.default ent) (default_customOk ent) (inlineParse_default ent) s

/-! ## Documents -/

/-- **C84**, headings: the contents of a heading are the reading of its text. -/
theorem C84_heading (hp : AllParse cfg) {n : Nat} {b t e r : Str} (h1 : 1 ≤ n) (h6 : n ≤ 6) (hb : b ≠ [])
    (hb' : ∀ c ∈ b, isSpace c = true) (ht : t ≠ []) (ho : OneLine t) (hh : ∀ c, t.head? = some c → isSpace c = false)
    (he : LineEnd e r) : ∃ l, ReadAs x cfg.entities t l ∧
      parseMarkdown x cfg (List.replicate n '#' ++ (b ++ (t ++ (e ++ r)))) =
        (parseMarkdown x cfg r).map (fun d => ⟨.heading (.atx n) l :: d.blocks⟩) := by
  obtain ⟨l, hl⟩ := C84_total x cfg.entities t
  exact ⟨l, hl, atx_of hp h1 h6 hb hb' ht ho hh he (hl.parse hp.customOk hp.inlines)⟩

/-- **C84**, paragraphs and underlined headings: a text that is not blank and begins with no other block begins
with lines as in C81, and they are read as specified. -/
theorem C84_text (ha : cfg.AllBlocks) (hp : InlineParse cfg) {s : Str} (hs : ¬ BlankLineAt s) (hn : ¬ SpecialAt cfg s) :
    ∃ ls w rest is, s = w ++ rest ∧ TextRun cfg rest ls w ∧ ReadAs x cfg.entities (joinWith ['\n'] ls) is ∧
      ((∃ k, UnderlineAt k s) → ls.length = 1 ∧
        parseMarkdown x cfg s = (parseMarkdown x cfg rest).map (fun d => ⟨.paragraph is :: d.blocks⟩)) ∧
      ((¬ ∃ k, UnderlineAt k s) → Interrupts cfg rest ∧
        (∀ k u e r, Underline k u → LineEnd e r → rest = u ++ (e ++ r) →
          parseMarkdown x cfg s = (parseMarkdown x cfg r).map (fun d => ⟨.heading (.setext k) is :: d.blocks⟩)) ∧
        ((¬ ∃ k, UnderlineAt k rest) →
          parseMarkdown x cfg s = (parseMarkdown x cfg rest).map (fun d => ⟨.paragraph is :: d.blocks⟩))) := by
  obtain ⟨ls, w, rest, is, h1, h2, h3, h4⟩ := text_extent (x := x) ha hs hn
  have hc := ha.keeps.customOk
  have hne : joinWith ['\n'] ls ≠ [] := h2.join_ne
  rw [parse1_eq hc hp hne] at h3
  exact ⟨ls, w, rest, is, h1, h2, (C84_exact hc hp _ _).1 h3, h4⟩

/-! ## Concrete cases -/

/-- `*a*` is read as an emphasis, then text. -/
example (ent : Str → Option Str) : ∃ l, ReadAs PExt.ascii ent cs!"*a* [b](c)" l ∧
    l = [.emphasis [.text ['a']], .text [' '], .link ['c'] none [.text ['b']]] := by
  refine ⟨_, (C84_exact (cfg := PConfig.default ent) (default_customOk ent) (inlineParse_default ent) _ _).1 ?_, rfl⟩
  rfl

/-- A footnote mark is read in front of a label, a shortcut reference in front of text; an unclosed mark is text. -/
theorem C84_examples :
    let ent : Str → Option Str := fun s => if s = cs!"&amp;" then some cs!"&" else none
    ReadAs PExt.ascii ent cs!"[^1] [^ a]" [.footnoteReference ['1'], .text [' '],
      .linkReference [.text cs!"^ a"] [.text cs!"^ a"]] ∧
    ReadAs PExt.ascii ent cs!"[^1](u)" [.link ['u'] none [.text cs!"^1"]] ∧
    ReadAs PExt.ascii ent cs!"***a** b*" [.strong [.text cs!"*a"], .text cs!" b*"] ∧
    ReadAs PExt.ascii ent cs!"a_b_c &amp; `d`" [.text cs!"a_b_c & ", .code ['d']] ∧
    ReadAs PExt.ascii ent cs!"**a" [.text cs!"**a"] ∧
    ReadAs PExt.ascii ent cs!"[l](a(b c))" [.link ['a'] (some cs!"b c") [.text ['l']]] := by
  intro ent
  have key := fun s l => C84_exact (x := PExt.ascii) (cfg := PConfig.default ent) (default_customOk ent)
    (inlineParse_default ent) s l
  refine ⟨(key _ _).1 ?_, (key _ _).1 ?_, (key _ _).1 ?_, (key _ _).1 ?_, (key _ _).1 ?_, (key _ _).1 ?_⟩ <;> decide +kernel

end Verif.Exact
