import Verif.InlineProps
/-!
# Exactly which backslash escapes are recognised (C79, companion of C51)
-/
set_option linter.unusedVariables false
namespace Verif
open Nom

/-! ## Specification -/

/-- What a text stands for.  `fresh`: nothing but escapes and references came just before (the beginning of the
text, or directly after an escape or a reference).  References are replaced everywhere; an escape is replaced
only where the text is fresh; every other character, and any other backslash, is kept. -/
inductive StandsFor (ent : Str → Option Str) : Bool → Str → Str → Prop
  | nil {fresh : Bool} : StandsFor ent fresh [] []
  | ref {fresh : Bool} {w out s t : Str} : CharRef ent w out → StandsFor ent true s t →
      StandsFor ent fresh (w ++ s) (out ++ t)
  | esc {p : Char} {s t : Str} : p ∈ escapable → StandsFor ent true s t → StandsFor ent true ('\\' :: p :: s) (p :: t)
  | char {fresh : Bool} {c : Char} {s t : Str} : c ∉ cs!"<[!`*_~" → (∀ w out, CharRef ent w out → ¬ w <+: c :: s) →
      ¬ (fresh = true ∧ c = '\\' ∧ ∃ p, s.head? = some p ∧ p ∈ escapable) → StandsFor ent false s t →
      StandsFor ent fresh (c :: s) (c :: t)

section
variable {x : PExt} {cfg : PConfig} {rec : Str → Option (List Inline)}

theorem StandsFor.false_nil {ent : Str → Option Str} {f : Bool} {t : Str} (h : StandsFor ent f [] t) : t = [] := by
  generalize hs : ([] : Str) = s0 at h
  cases h with
  | nil => rfl
  | ref hw _ => obtain ⟨v, rfl⟩ := hw.head; simp at hs
  | esc _ _ => simp at hs
  | char _ _ _ _ => simp at hs

theorem noEntity_of {s : Str} (h : ∀ w out, CharRef cfg.entities w out → ¬ w <+: s) : htmlEntity cfg s = none := by
  cases e : htmlEntity cfg s with
  | none => rfl
  | some y =>
    obtain ⟨w, hw, heq⟩ := htmlEntity_ref e
    exact absurd ⟨y.1, heq.symm⟩ (h w _ hw)

theorem notAText_quiet {c : Char} {s u : Str} (hc : c ∉ cs!"<[!`*_~") (ho : OneLine (c :: s ++ u))
    (hu : '_' ∉ c :: s) (hq : QuietEnd u) (he : htmlEntity cfg (c :: s ++ u) = none) :
    notAText x cfg rec (c :: s ++ u) = none := by
  have h : c ≠ '<' ∧ c ≠ '[' ∧ c ≠ '!' ∧ c ≠ '`' ∧ c ≠ '*' ∧ c ≠ '_' ∧ c ≠ '~' := by
    refine ⟨?_, ?_, ?_, ?_, ?_, ?_, ?_⟩ <;> rintro rfl <;> exact hc (by decide)
  obtain ⟨h1, h2, h4, h5, h6, h7, h8⟩ := h
  have h12 := environmentVariable_none (s := c :: s) (u := u) hu hq
  unfold notAText
  simp only [orElse_none, conditionalUnit_none, value_none]
  exact ⟨.inr (autolinkP_head h1), .inr (referenceLink_head h2), .inr (hardNewline_oneLine ho),
    .inr he, .inr (imageP_head h4), .inr (inlineLink_head h2),
    .inr (codeSpan_head h5), .inr (emphasisP_head h6 h7), .inr (footnoteReferenceP_head h2),
    .inr (strikethroughP_head h8), h12⟩

/-- After an ordinary character the text goes on, backslashes included, up to a reference or the end. -/
theorem StandsFor.run (ht : cfg.text = .parse) {s t : Str} (h : StandsFor cfg.entities false s t) (ho : OneLine s) :
    ∃ a s' t', s = a ++ s' ∧ t = a ++ t' ∧ StandsFor cfg.entities true s' t' ∧ '_' ∉ a ∧ QuietEnd s' ∧
      many0 (preceded (notP (notAText x cfg rec)) anychar) s = some (s', a) := by
  generalize hf : false = f at h
  induction h with
  | nil => exact ⟨[], [], [], rfl, rfl, .nil, by simp, quietEnd_nil, many0_of_none stop_nil⟩
  | @ref f w out s t hw h ih =>
    refine ⟨[], w ++ s, out ++ t, rfl, rfl, .ref hw h, by simp, ?_, many0_of_none ?_⟩
    · obtain ⟨v, rfl⟩ := hw.head
      intro c hc; simp at hc; subst hc; decide
    · obtain ⟨z, hz⟩ := notAText_ref (x := x) (rec := rec) ht (hw.parse (s := s))
      exact stop_of_notAText hz
  | esc _ _ _ => simp at hf
  | @char f c s t hc hr hb h ih =>
    obtain ⟨a, s', t', rfl, rfl, h1, h2, h3, h4⟩ := ih (fun d hd => ho d (by simp [hd])) rfl
    have hu : '_' ∉ c :: a := by
      intro hm
      rcases List.mem_cons.1 hm with h | h
      · subst h; exact hc (by decide)
      · exact h2 h
    refine ⟨c :: a, s', t', rfl, rfl, h1, hu, h3, many0_of_some (preceded_not_anychar ?_) (by simp) h4⟩
    exact notAText_quiet hc ho hu h3 (noEntity_of hr)

/-- Such text is read by the pieces of `text`. -/
theorem StandsFor.pieces (ht : cfg.text = .parse) : ∀ {s t : Str}, StandsFor cfg.entities true s t →
    OneLine s → ∃ l, many0 (textPiece x cfg rec) s = some ([], l) ∧ l.flatten = t := by
  intro s
  generalize hn : s.length = n
  induction n using Nat.strongRecOn generalizing s with
  | ind n ih =>
    intro t h ho
    generalize hf : true = f at h
    cases h with
    | nil => exact ⟨[], many0_of_none textPiece_nil, rfl⟩
    | @ref _ w out s t hw h =>
      have hwl : 0 < w.length := by obtain ⟨v, rfl⟩ := hw.head; simp
      obtain ⟨l, h1, h2⟩ := ih s.length (by rw [← hn, List.length_append]; omega) rfl h ho.suffix
      refine ⟨out :: l, many0_of_some (r := s) ?_ (by rw [List.length_append]; omega) h1, by simp [h2]⟩
      unfold textPiece
      rw [orElse_of_none]
      · exact orElse_of_some hw.parse
      · rw [mapP_none]
        obtain ⟨v, rfl⟩ := hw.head
        exact escapedChar_head (by decide)
    | @esc p s t hp h =>
      obtain ⟨l, h1, h2⟩ := ih s.length (by rw [← hn]; simp; omega) rfl h (fun c hc => ho c (by simp [hc]))
      refine ⟨[p] :: l, many0_of_some (r := s) ?_ (by simp; omega) h1, by simp [h2]⟩
      unfold textPiece
      refine orElse_of_some (mapP_some.2 ⟨p, preceded_some.2 ⟨p :: s, '\\', chr_cons _ _, ?_⟩, rfl⟩)
      refine satisfy_some.2 ⟨rfl, ?_⟩
      unfold escapable at hp
      simpa using hp
    | @char _ c s t hc hr hb h =>
      subst hf
      obtain ⟨a, s', t', rfl, rfl, h1, h2, h3, h4⟩ := h.run (x := x) (rec := rec) ht (fun d hd => ho d (by simp [hd]))
      have hu : '_' ∉ c :: a := by
        intro hm
        rcases List.mem_cons.1 hm with h | h
        · subst h; exact hc (by decide)
        · exact h2 h
      have hq := notAText_quiet (x := x) (rec := rec) hc ho hu h3 (noEntity_of hr)
      have h5 := many0_of_some (preceded_not_anychar hq) (by simp) h4
      obtain ⟨l, h6, h7⟩ := ih s'.length (by rw [← hn]; simp; omega) rfl h1 (OneLine.suffix (a := c :: a) ho)
      refine ⟨(c :: a) :: l, many0_of_some (r := s') ?_ (by simp; omega) h6, by simp [h7]⟩
      unfold textPiece
      have hesc : mapP escapedChar (fun c => [c]) (c :: (a ++ s')) = none := by
        rw [mapP_none]
        by_cases hcb : c = '\\'
        · subst hcb
          exact escapedChar_bs fun p hp hm => hb ⟨rfl, rfl, p, hp, hm⟩
        · exact escapedChar_head hcb
      rw [orElse_of_none hesc, orElse_of_none (noEntity_of hr)]
      exact recognize_of (a := c :: a) (many1_of_many0 (s := c :: a ++ s') h5 (by simp))

theorem StandsFor.first {ent : Str → Option Str} {f : Bool} {c : Char} {s t : Str}
    (h : StandsFor ent f (c :: s) t) : c ∉ cs!"<[!`*_~" := by
  generalize hs : c :: s = s0 at h
  cases h with
  | nil => simp at hs
  | ref hw _ => obtain ⟨v, rfl⟩ := hw.head; simp at hs; rw [hs.1]; decide
  | esc _ _ => simp at hs; rw [hs.1]; decide
  | char hc _ _ _ => simp at hs; rw [hs.1]; exact hc

theorem StandsFor.envVar (ht : cfg.text = .parse) {s t : Str} (h : StandsFor cfg.entities true s t) (ho : OneLine s) :
    environmentVariable s = none := by
  generalize hf : true = f at h
  cases h with
  | nil => rfl
  | ref hw _ =>
    obtain ⟨v, rfl⟩ := hw.head
    exact environmentVariable_head (by decide)
  | esc _ _ => exact environmentVariable_head (by decide)
  | @char _ c s t hc _ _ h =>
    obtain ⟨a, s', t', rfl, rfl, _, h2, h3, _⟩ := h.run (x := PExt.ascii) (rec := fun _ => none) ht
      (fun d hd => ho d (by simp [hd]))
    have hu : '_' ∉ c :: a := by
      intro hm
      rcases List.mem_cons.1 hm with h | h
      · subst h; exact hc (by decide)
      · exact h2 h
    exact environmentVariable_none (s := c :: a) hu h3

theorem StandsFor.inlines (hc : cfg.CustomOk) (hci : cfg.customInline = none)
    (ht : cfg.text = .parse) {s t : Str} (hne : s ≠ []) (h : StandsFor cfg.entities true s t)
    (ho : OneLine s) : parseInlines1 x cfg s = some [.text t] := by
  obtain ⟨l, h1, h2⟩ := h.pieces (x := x) (rec := parseInlines1 x cfg) ht ho
  have hl : l ≠ [] := by
    rintro rfl
    rw [many0_eq] at h1
    split at h1
    · simp at h1; exact hne h1
    · split at h1
      · split at h1 <;> simp at h1
      · simp at h1
  have hstep : inlineP x cfg s = some ([], [.text t]) := by
    unfold inlineP
    rw [← h2]
    refine inlineStep_text hci ht (before_text hne ?_ (hardNewline_oneLine ho) (h.envVar ht ho)) (many1_of_many0 h1 hl)
    intro c hc0
    cases s with
    | nil => simp at hc0
    | cons d s => simp at hc0; subst hc0; exact h.first
  have := inlineP_con (x := x) hc
  rw [parseInlines1_eq hc, many1_some.2 ⟨[], [.text t], [], hstep, many0_nil_of_con, rfl⟩]
  rfl

/-- C79: a line of text in which nothing but backslashes and character references can mean something is a
paragraph of the one text it stands for. -/
theorem C79_exact (hc : cfg.CustomOk) (hci : cfg.customInline = none) (hcb : cfg.customBlock = none)
    (ht : cfg.text = .parse) (hh : cfg.headingV2 = .parse) {c : Char} {s t : Str} (ho : OneLine (c :: s))
    (hst : c ∉ blockStart) (h : StandsFor cfg.entities true (c :: s) t) :
    parseMarkdown x cfg (c :: s) = some ⟨[.paragraph [.text t]]⟩ :=
  parse_line hc hcb hh ⟨ho, c, s, rfl, hst⟩ (h.inlines hc hci ht (by simp) ho)

end

/-- C79: every text without the other special characters stands for something. -/
theorem C79_total (ent : Str → Option Str) (f : Bool) (s : Str) (h : ∀ c ∈ s, c ∉ cs!"<[!`*_~") :
    ∃ t, StandsFor ent f s t := by
  generalize hn : s.length = n
  induction n using Nat.strongRecOn generalizing s f with
  | ind n ih =>
    classical
    match s with
    | [] => exact ⟨[], .nil⟩
    | c :: s =>
      by_cases hr : ∃ w out, CharRef ent w out ∧ w <+: c :: s
      · obtain ⟨w, out, hw, s', hs⟩ := hr
        have hwl : 0 < w.length := by obtain ⟨v, rfl⟩ := hw.head; simp
        obtain ⟨t, ht⟩ := ih s'.length (by rw [← hn, ← hs, List.length_append]; omega) true s'
          (fun d hd => h d (by rw [← hs]; simp [hd])) rfl
        rw [← hs]
        exact ⟨out ++ t, .ref hw ht⟩
      · by_cases hb : f = true ∧ c = '\\' ∧ ∃ p, s.head? = some p ∧ p ∈ escapable
        · obtain ⟨rfl, rfl, p, hp, hpe⟩ := hb
          cases s with
          | nil => simp at hp
          | cons q s =>
            simp at hp; subst hp
            obtain ⟨t, ht⟩ := ih s.length (by rw [← hn]; simp; omega) true s (fun d hd => h d (by simp [hd])) rfl
            exact ⟨q :: t, .esc hpe ht⟩
        · obtain ⟨t, ht⟩ := ih s.length (by rw [← hn]; simp) false s (fun d hd => h d (by simp [hd])) rfl
          exact ⟨c :: t, .char (h c (by simp)) (fun w out hw hp => hr ⟨w, out, hw, hp⟩) hb ht⟩

/-- C79: and for one thing only. -/
theorem C79_unique {ent : Str → Option Str} {f : Bool} {s t t' : Str} (h : StandsFor ent f s t)
    (h' : StandsFor ent f s t') : t = t' := by
  have one : ∀ {w out w' out' s s' : Str}, CharRef ent w out → CharRef ent w' out' → w ++ s = w' ++ s' →
      s = s' ∧ out = out' := by
    intro w out w' out' s s' hw hw' e
    have h1 := CharRef.parse (cfg := PConfig.default ent) (s := s) hw
    have h2 := CharRef.parse (cfg := PConfig.default ent) (s := s') hw'
    rw [e, h2] at h1
    simp at h1
    exact ⟨h1.1.symm, h1.2.symm⟩
  induction h generalizing t' with
  | nil => exact h'.false_nil.symm
  | @ref f w out s t hw h ih =>
    generalize hs : w ++ s = s0 at h'
    cases h' with
    | nil => obtain ⟨v, rfl⟩ := hw.head; simp at hs
    | ref hw' h' =>
      obtain ⟨rfl, rfl⟩ := one hw hw' hs
      rw [ih h']
    | esc _ _ => obtain ⟨v, rfl⟩ := hw.head; simp at hs
    | char _ hr _ _ => exact absurd ⟨s, hs⟩ (hr w out hw)
  | @esc p s t hp h ih =>
    generalize hs : '\\' :: p :: s = s0 at h'
    generalize hf : true = f at h'
    cases h' with
    | nil => simp at hs
    | ref hw' h' => obtain ⟨v, rfl⟩ := hw'.head; simp at hs
    | esc _ h' => simp at hs; obtain ⟨rfl, rfl⟩ := hs; rw [ih h']
    | char _ _ hb _ => simp at hs; obtain ⟨rfl, rfl⟩ := hs; exact absurd ⟨hf.symm, rfl, p, rfl, hp⟩ hb
  | @char f c s t hc hr hb h ih =>
    generalize hs : c :: s = s0 at h'
    cases h' with
    | nil => simp at hs
    | @ref _ w out s' _ hw' h' => exact absurd ⟨s', hs.symm⟩ (hr w out hw')
    | esc hp _ => simp at hs; obtain ⟨rfl, rfl⟩ := hs; exact absurd ⟨rfl, rfl, _, rfl, hp⟩ hb
    | char _ _ _ h' => simp at hs; obtain ⟨rfl, rfl⟩ := hs; rw [ih h']

/-- Escapes at the beginning and after references, kept backslashes elsewhere. -/
theorem C79_examples :
    let ent : Str → Option Str := fun s => if s = cs!"&amp;" then some cs!"&" else none
    parseMarkdown PExt.ascii (PConfig.default ent) cs!"\\#\\+a\\#&amp;\\#&#66;\\a\\#&no;\\." =
      some ⟨[.paragraph [.text cs!"#+a\\#&#B\\a\\#&no;\\."]]⟩ := by
  decide +kernel

/-- The hypotheses are met by an escape, text with a backslash in front of punctuation, a reference and another
escape. -/
example (x : PExt) (ent : Str → Option Str) :
    parseMarkdown x (PConfig.default ent) cs!"\\.a\\#&#65;\\#" = some ⟨[.paragraph [.text cs!".a\\#A#"]]⟩ := by
  have noref : ∀ (c : Char) (s : Str), c ≠ '&' → ∀ w out, CharRef ent w out → ¬ w <+: c :: s := by
    intro c s hc w out hw ⟨v, hv⟩
    obtain ⟨t, rfl⟩ := hw.head
    simp at hv
    exact hc hv.1.symm
  refine C79_exact (default_customOk _) rfl rfl rfl rfl (by intro c hc; revert c; decide) (by decide) ?_
  refine .esc (by decide) (.char (by decide) (noref _ _ (by decide)) (by simp) ?_)
  refine .char (by decide) (noref _ _ (by decide)) (by simp) ?_
  refine .char (by decide) (noref _ _ (by decide)) (by simp) ?_
  refine .ref (w := cs!"&#65;") (out := ['A']) (s := cs!"\\#") (t := ['#'])
    (.dec (ds := cs!"65") (by simp) (by decide) (by decide)) ?_
  exact .esc (by decide) .nil

end Verif
