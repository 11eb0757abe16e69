import Verif.InlineOnSpec
import Verif.InlineExactMain
/-!
# A text is read as specified when constructs are switched off (C88)
-/
set_option autoImplicit false
set_option linter.unusedVariables false
set_option linter.unusedSimpArgs false
namespace Verif.Exact
open Nom

variable {x : PExt} {cfg : PConfig} {rec : Str → Option (List Inline)}

/-- An alternative that is tried only if the construct is parsed. -/
def gate {α β : Type} (b : Behavior α) (p : P β) : P β :=
  match b with
  | .parse => p
  | _ => failP

theorem gate_some {α β : Type} {b : Behavior α} {p : P β} {s : Str} {y : Str × β} :
    gate b p s = some y ↔ b = .parse ∧ p s = some y := by
  cases b <;> simp [gate, failP]

theorem gate_none {α β : Type} {b : Behavior α} {p : P β} {s : Str} :
    gate b p s = none ↔ (b = .parse → p s = none) := by
  cases b <;> simp [gate, failP]

theorem gate_off {α β : Type} {b : Behavior α} {p : P β} {s : Str} (h : p s = none) : gate b p s = none :=
  gate_none.2 fun _ => h

theorem gate_on {α β : Type} {b : Behavior α} {p : P β} (h : b = .parse) : gate b p = p := by subst h; rfl

instance {α β : Type} {b : Behavior α} {p : P β} [h : Con p] : Con (gate b p) := by
  constructor
  intro s r a e
  exact Con.out (p := p) _ _ _ (gate_some.1 e).2

theorem unit_gate {α β : Type} {b : Behavior α} {p : P β} {s : Str} (hb : b = .parse ∨ b = .ignore) :
    conditionalUnit b p s = none ↔ gate b p s = none := by
  rw [conditionalUnit_none, gate_none]
  rcases hb with rfl | rfl <;> simp

theorem inline_gate {b : Behavior Inline} {p : P Inline} {s : Str} (hb : b = .parse ∨ b = .ignore) :
    conditionalInline b p s = mapP (gate b p) (fun v => [v]) s := by
  rcases hb with rfl | rfl <;> simp [conditionalInline, conditional, gate, mapP, failP]

/-- The alternatives of `inline` but text that are switched on, `inline/mod.rs:84-140`. -/
def nodeOn (x : PExt) (cfg : PConfig) (rec : Str → Option (List Inline)) : P Inline :=
  gate cfg.autolink (mapP autolinkP .autolink) <||> gate cfg.link (inlineLink rec) <||>
  gate cfg.footnoteReference footnoteReferenceP <||> gate cfg.referenceLink (referenceLink rec) <||>
  gate cfg.hardNewline hardNewline <||> gate cfg.image imageP <||> gate cfg.codeSpan (mapP codeSpan .code) <||>
  environmentVariable <||> gate cfg.emphasis (emphasisP x rec) <||> gate cfg.strikethrough (strikethroughP rec)

instance : Con (nodeOn x cfg rec) := by unfold nodeOn; infer_instance

theorem nodeOn_none {s : Str} : nodeOn x cfg rec s = none ↔ gate cfg.autolink (mapP autolinkP Inline.autolink) s = none ∧
    gate cfg.link (inlineLink rec) s = none ∧
    gate cfg.footnoteReference footnoteReferenceP s = none ∧ gate cfg.referenceLink (referenceLink rec) s = none ∧
    gate cfg.hardNewline hardNewline s = none ∧ gate cfg.image imageP s = none ∧
    gate cfg.codeSpan (mapP codeSpan Inline.code) s = none ∧ environmentVariable s = none ∧
    gate cfg.emphasis (emphasisP x rec) s = none ∧ gate cfg.strikethrough (strikethroughP rec) s = none := by
  unfold nodeOn
  simp only [orElse_none]

/-- Where nothing begins, nothing that is switched on begins. -/
theorem nodeOn_of_none {s : Str} (h : nodeP x rec s = none) : nodeOn x cfg rec s = none := by
  obtain ⟨h1, h2, h3, h4, h5, h6, h7, h8, h9, h10⟩ := nodeP_none.1 h
  exact nodeOn_none.2 ⟨gate_off (mapP_none.2 h1), gate_off h2, gate_off h3, gate_off h4, gate_off h5, gate_off h6,
    gate_off (mapP_none.2 h7), h8, gate_off h9, gate_off h10⟩

theorem inlineStep_on (hp : cfg.Tries) :
    inlineStep x cfg rec = (mapP (nodeOn x cfg rec) (fun v => [v]) <||> customParser cfg.customInline <||> mapP (textP x cfg rec) (fun v => [v])) := by
  funext s
  have ht : ∀ s, conditionalInline cfg.text (textP x cfg rec) s = mapP (textP x cfg rec) (fun v => [v]) s := by
    intro s; rw [hp.text]; rfl
  unfold inlineStep nodeOn
  simp only [Nom.orElse, inline_gate hp.autolink, inline_gate hp.link, inline_gate hp.footnoteReference,
    inline_gate hp.referenceLink, inline_gate hp.hardNewline, inline_gate hp.image, inline_gate hp.codeSpan,
    inline_gate hp.emphasis, inline_gate hp.strikethrough, ht]
  generalize gate cfg.autolink (mapP autolinkP Inline.autolink) = g1
  generalize gate cfg.link (inlineLink rec) = g2
  generalize gate cfg.footnoteReference footnoteReferenceP = g3
  generalize gate cfg.referenceLink (referenceLink rec) = g4
  generalize gate cfg.hardNewline hardNewline = g5
  generalize gate cfg.image imageP = g6
  generalize gate cfg.codeSpan (mapP codeSpan Inline.code) = g7
  generalize gate cfg.emphasis (emphasisP x rec) = g9
  generalize gate cfg.strikethrough (strikethroughP rec) = g10
  simp only [mapP, failP, Nom.orElse]
  cases g1 s; case some => rfl
  cases g2 s; case some => rfl
  cases g3 s; case some => rfl
  cases g4 s; case some => rfl
  cases g5 s; case some => rfl
  cases g6 s; case some => rfl
  cases g7 s; case some => rfl
  cases environmentVariable s; case some => rfl
  cases g9 s; case some => rfl
  cases g10 s <;> rfl

theorem notAText_none_on (hp : cfg.Tries) {s : Str} :
    notAText x cfg rec s = none ↔ nodeOn x cfg rec s = none ∧ htmlEntity cfg s = none := by
  have ht : conditionalUnit cfg.text (htmlEntity cfg) s = none ↔ htmlEntity cfg s = none := by
    rw [conditionalUnit_none, hp.text]; simp
  have hm : ∀ {α β : Type} {p : P α} {f : α → β} {b : Behavior β}, gate b (mapP p f) s = none ↔ gate b p s = none := by
    intro α β p f b; rw [gate_none, gate_none, mapP_none]
  unfold notAText
  simp only [orElse_none, unit_gate hp.autolink, unit_gate hp.link, unit_gate hp.footnoteReference,
    unit_gate hp.referenceLink, unit_gate hp.hardNewline, unit_gate hp.image, unit_gate hp.codeSpan,
    unit_gate hp.emphasis, unit_gate hp.strikethrough, ht, nodeOn_none, value_none, hm]
  grind

/-! ## Every alternative, in terms of characters -/

/-- The inline at the front of a text, if it is not text; the contents are read by `rec`. -/
inductive NodeOn (x : PExt) (cfg : PConfig) (rec : Str → Option (List Inline)) (s : Str) : Inline → Str → Prop
  | autolink {u r : Str} : cfg.autolink = .parse → AutolinkAt s u r → NodeOn x cfg rec s (.autolink u) r
  | link {t v d r : Str} {title : Option Str} {k : List Inline} : cfg.link = .parse → LabelAt s t v →
      DestTitleAt v d title r → rec t = some k → NodeOn x cfg rec s (.link d title k) r
  | footnote {n r : Str} : cfg.footnoteReference = .parse → NoteAt s n r →
      (cfg.link = .parse → ∀ t v d title r', LabelAt s t v → ¬ DestTitleAt v d title r') →
      NodeOn x cfg rec s (.footnoteReference n) r
  | reference {t v t' r : Str} {k k' : List Inline} : cfg.referenceLink = .parse → LabelAt s t v → LabelAt v t' r →
      (cfg.footnoteReference = .parse → ∀ n r', ¬ NoteAt s n r') → rec t = some k → rec t' = some k' →
      NodeOn x cfg rec s (.linkReference k' k) r
  | collapsed {t r : Str} {k : List Inline} : cfg.referenceLink = .parse → LabelAt s t ('[' :: ']' :: r) →
      (cfg.footnoteReference = .parse → ∀ n r', ¬ NoteAt s n r') → rec t = some k → NodeOn x cfg rec s (.linkReference k k) r
  | shortcut {t r : Str} {k : List Inline} : cfg.referenceLink = .parse → LabelAt s t r →
      (cfg.link = .parse → ∀ d title r', ¬ DestTitleAt r d title r') →
      (cfg.footnoteReference = .parse → ∀ n r', ¬ NoteAt s n r') → (∀ t' r', ¬ LabelAt r t' r') →
      (∀ r', r ≠ '[' :: ']' :: r') → rec t = some k → NodeOn x cfg rec s (.linkReference k k) r
  | lineBreak {r : Str} : cfg.hardNewline = .parse → BreakAt s r → NodeOn x cfg rec s .lineBreak r
  | image {alt d r : Str} {title : Option Str} : cfg.image = .parse → ImageAt s alt d title r →
      NodeOn x cfg rec s (.image d title alt) r
  | code {c r : Str} : cfg.codeSpan = .parse → CodeAt s c r → NodeOn x cfg rec s (.code c) r
  | identifier {w r : Str} : IdentifierAt s w r → NodeOn x cfg rec s (.text w) r
  | both {m : Char} {o r : Str} {k : List Inline} : cfg.emphasis = .parse → EmphMark m → EmphAt x m 3 s o r →
      rec o = some k → NodeOn x cfg rec s (.strong [.emphasis k]) r
  | strong {m : Char} {o r : Str} {k : List Inline} : cfg.emphasis = .parse → EmphMark m → EmphAt x m 2 s o r →
      (∀ o' r', ¬ EmphAt x m 3 s o' r') → rec o = some k → NodeOn x cfg rec s (.strong k) r
  | emphasis {m : Char} {o r : Str} {k : List Inline} : cfg.emphasis = .parse → EmphMark m → EmphAt x m 1 s o r →
      (∀ o' r', ¬ EmphAt x m 3 s o' r') → (∀ o' r', ¬ EmphAt x m 2 s o' r') → rec o = some k →
      NodeOn x cfg rec s (.emphasis k) r
  | strike {o r : Str} {k : List Inline} : cfg.strikethrough = .parse → StrikeAt s o r → rec o = some k →
      NodeOn x cfg rec s (.strikethrough k) r

section
variable (hrec : ∀ t, t ≠ [] → rec t ≠ none)
include hrec

theorem nodeOn_iff {s r : Str} {i : Inline} : nodeOn x cfg rec s = some (r, i) ↔ NodeOn x cfg rec s i r := by
  constructor
  · intro h
    unfold nodeOn at h
    rcases orElse_some.1 h with h | ⟨_, h⟩
    · obtain ⟨hb, h⟩ := gate_some.1 h
      obtain ⟨u, h', rfl⟩ := mapP_some.1 h
      exact .autolink hb (autolink_iff.1 h')
    rcases orElse_some.1 h with h | ⟨n1, h⟩
    · obtain ⟨hb, h⟩ := gate_some.1 h
      unfold inlineLink at h
      obtain ⟨⟨k, d, ti⟩, h1, rfl⟩ := mapP_some.1 h
      obtain ⟨v, h2, h3⟩ := seq_some.1 h1
      obtain ⟨t, h4, h5⟩ := label_iff.1 h2
      exact .link hb h4 (destAndTitle_iff.1 h3) h5
    have n1 := fun hb => (link_none hrec).1 (gate_none.1 n1 hb)
    rcases orElse_some.1 h with h | ⟨n2, h⟩
    · obtain ⟨hb, h⟩ := gate_some.1 h
      obtain ⟨n, rfl, hn⟩ := footnote_iff.1 h
      exact .footnote hb hn n1
    have n2 := fun hb => note_none.1 (gate_none.1 n2 hb)
    rcases orElse_some.1 h with h | ⟨_, h⟩
    · obtain ⟨hb, h⟩ := gate_some.1 h
      rcases (reference_iff hrec).1 h with ⟨t, v, t', k, k', h1, h2, h3, h4, rfl⟩ | ⟨t, k, h1, h2, rfl⟩ | ⟨t, k, h1, h2, h3, h4, rfl⟩
      · exact .reference hb h1 h2 n2 h3 h4
      · exact .collapsed hb h1 n2 h2
      · exact .shortcut hb h1 (fun hb _ _ _ => n1 hb _ _ _ _ _ h1) n2 h2 h3 h4
    rcases orElse_some.1 h with h | ⟨_, h⟩
    · obtain ⟨hb, h⟩ := gate_some.1 h
      obtain ⟨rfl, h'⟩ := break_iff.1 h
      exact .lineBreak hb h'
    rcases orElse_some.1 h with h | ⟨_, h⟩
    · obtain ⟨hb, h⟩ := gate_some.1 h
      obtain ⟨d, ti, alt, rfl, h'⟩ := image_iff.1 h
      exact .image hb h'
    rcases orElse_some.1 h with h | ⟨_, h⟩
    · obtain ⟨hb, h⟩ := gate_some.1 h
      obtain ⟨c, h', rfl⟩ := mapP_some.1 h
      exact .code hb (code_iff.1 h')
    rcases orElse_some.1 h with h | ⟨_, h⟩
    · obtain ⟨w, rfl, h'⟩ := identifier_iff.1 h
      exact .identifier h'
    rcases orElse_some.1 h with h | ⟨_, h⟩
    · obtain ⟨hb, h⟩ := gate_some.1 h
      rcases (emphasis_iff hrec).1 h with ⟨m, o, k, hm, h1, h2, rfl⟩ | ⟨m, o, k, hm, h1, h3, h2, rfl⟩ | ⟨m, o, k, hm, h1, h3, h4, h2, rfl⟩
      · exact .both hb hm h1 h2
      · exact .strong hb hm h1 h3 h2
      · exact .emphasis hb hm h1 h3 h4 h2
    · obtain ⟨hb, h⟩ := gate_some.1 h
      obtain ⟨o, l, rfl, h1, h2⟩ := strike_iff.1 h
      exact .strike hb h1 h2
  · intro h
    have bracket : ∀ v, nodeOn x cfg rec ('[' :: v) =
        (gate cfg.link (inlineLink rec) <||> gate cfg.footnoteReference footnoteReferenceP <||> gate cfg.referenceLink (referenceLink rec)) ('[' :: v) := by
      intro v
      unfold nodeOn
      rw [orElse_of_none (gate_off (mapP_none.2 (autolinkP_head (by decide))))]
      have h1 := gate_off (b := cfg.hardNewline) (hardNewline_head (c := '[') (t := v) (by decide) (by decide))
      have h2 := gate_off (b := cfg.image) (imageP_head (c := '[') (t := v) (by decide))
      have h3 := gate_off (b := cfg.codeSpan) (mapP_none.2 (codeSpan_head (c := '[') (t := v) (by decide)) : mapP codeSpan Inline.code _ = none)
      have h4 := environmentVariable_head (c := '[') (t := v) (by decide)
      have h5 := gate_off (b := cfg.emphasis) (emphasisP_head (x := x) (rec := rec) (c := '[') (t := v) (by decide) (by decide))
      have h6 := gate_off (b := cfg.strikethrough) (strikethroughP_head (rec := rec) (c := '[') (t := v) (by decide))
      simp only [Nom.orElse, h1, h2, h3, h4, h5, h6]
      cases gate cfg.link (inlineLink rec) ('[' :: v); case some => rfl
      cases gate cfg.footnoteReference footnoteReferenceP ('[' :: v); case some => rfl
      cases gate cfg.referenceLink (referenceLink rec) ('[' :: v) <;> rfl
    have marks : ∀ m v, EmphMark m → nodeOn x cfg rec (m :: v) = gate cfg.emphasis (emphasisP x rec) (m :: v) := by
      intro m v hm
      unfold nodeOn
      have hc : m ≠ '<' ∧ m ≠ '[' ∧ m ≠ '\\' ∧ m ≠ ' ' ∧ m ≠ '!' ∧ m ≠ '`' ∧ isAlpha m = false ∧ m ≠ '~' := by
        rcases hm with rfl | rfl <;> decide
      obtain ⟨c1, c2, c3, c4, c5, c6, c7, c8⟩ := hc
      rw [orElse_of_none (gate_off (mapP_none.2 (autolinkP_head c1))), orElse_of_none (gate_off <| inlineLink_head c2),
        orElse_of_none (gate_off <| footnoteReferenceP_head c2), orElse_of_none (gate_off <| referenceLink_head c2),
        orElse_of_none (gate_off <| hardNewline_head c3 c4), orElse_of_none (gate_off <| imageP_head c5),
        orElse_of_none (gate_off (mapP_none.2 (codeSpan_head c6))), orElse_of_none (environmentVariable_head c7)]
      have := gate_off (b := cfg.strikethrough) (strikethroughP_head (rec := rec) (t := v) c8)
      simp only [Nom.orElse, this]
      cases gate cfg.emphasis (emphasisP x rec) (m :: v) <;> rfl
    cases h with
    | autolink hb h => exact orElse_of_some (gate_some.2 ⟨hb, mapP_some.2 ⟨_, autolink_iff.2 h, rfl⟩⟩)
    | link hb h1 h2 h3 =>
      obtain ⟨v, rfl⟩ := h1.head
      rw [bracket]
      exact orElse_of_some (gate_some.2 ⟨hb, mapP_some.2 ⟨(_, _, _), seq_some.2 ⟨_, label_iff.2 ⟨_, h1, h3⟩, destAndTitle_iff.2 h2⟩, rfl⟩⟩)
    | footnote hb h1 h2 =>
      obtain ⟨v, rfl⟩ : ∃ v, s = '[' :: v := by obtain ⟨_, _, rfl⟩ := h1; exact ⟨_, rfl⟩
      rw [bracket, orElse_of_none (gate_none.2 fun hb => (link_none hrec).2 (h2 hb))]
      exact orElse_of_some (gate_some.2 ⟨hb, footnote_iff.2 ⟨_, rfl, h1⟩⟩)
    | reference hb h1 h2 h3 h4 h5 =>
      obtain ⟨v, rfl⟩ := h1.head
      obtain ⟨v', rfl⟩ := h2.head
      rw [bracket, orElse_of_none (gate_none.2 fun hl => (link_none hrec).2 (by
        intro t v d ti r' h6 h7
        obtain ⟨_, rfl⟩ := h1.unique h6
        cases h7)), orElse_of_none (gate_none.2 fun hb => note_none.2 (h3 hb))]
      exact gate_some.2 ⟨hb, (reference_iff hrec).2 (.inl ⟨_, _, _, _, _, h1, h2, h4, h5, rfl⟩)⟩
    | collapsed hb h1 h2 h3 =>
      obtain ⟨v, rfl⟩ := h1.head
      rw [bracket, orElse_of_none (gate_none.2 fun hl => (link_none hrec).2 (by
        intro t v d ti r' h6 h7
        obtain ⟨_, rfl⟩ := h1.unique h6
        cases h7)), orElse_of_none (gate_none.2 fun hb => note_none.2 (h2 hb))]
      exact gate_some.2 ⟨hb, (reference_iff hrec).2 (.inr (.inl ⟨_, _, h1, h3, rfl⟩))⟩
    | shortcut hb h1 h2 h3 h4 h5 h6 =>
      obtain ⟨v, rfl⟩ := h1.head
      rw [bracket, orElse_of_none (gate_none.2 fun hl => (link_none hrec).2 (by
        intro t v d ti r' h7 h8
        obtain ⟨_, rfl⟩ := h1.unique h7
        exact h2 hl _ _ _ h8)), orElse_of_none (gate_none.2 fun hb => note_none.2 (h3 hb))]
      exact gate_some.2 ⟨hb, (reference_iff hrec).2 (.inr (.inr ⟨_, _, h1, h4, h5, h6, rfl⟩))⟩
    | lineBreak hb h =>
      obtain ⟨c, v, rfl, hc⟩ : ∃ c v, s = c :: v ∧ (c = '\\' ∨ c = ' ') := by
        rcases h with ⟨e, _, rfl⟩ | ⟨n, e, hn, _, rfl⟩
        · exact ⟨_, _, rfl, .inl rfl⟩
        · obtain ⟨k, rfl⟩ : ∃ k, n = k + 1 := ⟨n - 1, by omega⟩
          exact ⟨_, _, rfl, .inr rfl⟩
      have hcs : c ≠ '<' ∧ c ≠ '[' := by rcases hc with rfl | rfl <;> decide
      unfold nodeOn
      rw [orElse_of_none (gate_off (mapP_none.2 (autolinkP_head hcs.1))), orElse_of_none (gate_off <| inlineLink_head hcs.2),
        orElse_of_none (gate_off <| footnoteReferenceP_head hcs.2), orElse_of_none (gate_off <| referenceLink_head hcs.2)]
      exact orElse_of_some (gate_some.2 ⟨hb, break_iff.2 ⟨rfl, h⟩⟩)
    | image hb h =>
      obtain ⟨v, h1, h2, rfl⟩ := id h
      unfold nodeOn
      rw [orElse_of_none (gate_off (mapP_none.2 (autolinkP_head (by decide)))), orElse_of_none (gate_off <| inlineLink_head (by decide)),
        orElse_of_none (gate_off <| footnoteReferenceP_head (by decide)), orElse_of_none (gate_off <| referenceLink_head (by decide)),
        orElse_of_none (gate_off <| hardNewline_head (by decide) (by decide))]
      exact orElse_of_some (gate_some.2 ⟨hb, image_iff.2 ⟨_, _, _, rfl, h⟩⟩)
    | code hb h =>
      obtain ⟨v, rfl⟩ : ∃ v, s = '`' :: v := by
        obtain ⟨w, h, rfl⟩ := h
        cases h with
        | @mk n o t c hn =>
          obtain ⟨k, rfl⟩ : ∃ k, n = k + 1 := ⟨n - 1, by omega⟩
          exact ⟨_, rfl⟩
      unfold nodeOn
      rw [orElse_of_none (gate_off (mapP_none.2 (autolinkP_head (by decide)))), orElse_of_none (gate_off <| inlineLink_head (by decide)),
        orElse_of_none (gate_off <| footnoteReferenceP_head (by decide)), orElse_of_none (gate_off <| referenceLink_head (by decide)),
        orElse_of_none (gate_off <| hardNewline_head (by decide) (by decide)), orElse_of_none (gate_off <| imageP_head (by decide))]
      exact orElse_of_some (gate_some.2 ⟨hb, mapP_some.2 ⟨_, code_iff.2 h, rfl⟩⟩)
    | identifier h =>
      obtain ⟨c, v, rfl, hc⟩ : ∃ c v, s = c :: v ∧ isAlpha c = true := by
        obtain ⟨h, _, rfl⟩ := h
        obtain ⟨c, v, rfl, hc⟩ := h.cons
        exact ⟨c, _, rfl, hc⟩
      unfold nodeOn
      rw [orElse_of_none (gate_off (mapP_none.2 (autolinkP_head (alpha_ne hc (by decide))))),
        orElse_of_none (gate_off <| inlineLink_head (alpha_ne hc (by decide))),
        orElse_of_none (gate_off <| footnoteReferenceP_head (alpha_ne hc (by decide))),
        orElse_of_none (gate_off <| referenceLink_head (alpha_ne hc (by decide))),
        orElse_of_none (gate_off <| hardNewline_head (alpha_ne hc (by decide)) (alpha_ne hc (by decide))),
        orElse_of_none (gate_off <| imageP_head (alpha_ne hc (by decide))),
        orElse_of_none (gate_off (mapP_none.2 (codeSpan_head (alpha_ne hc (by decide)))))]
      exact orElse_of_some (identifier_iff.2 ⟨_, rfl, h⟩)
    | both hb hm h1 h2 =>
      obtain ⟨v, rfl⟩ := h1.head (by decide)
      rw [marks _ _ hm]
      exact gate_some.2 ⟨hb, (emphasis_iff hrec).2 (.inl ⟨_, _, _, hm, h1, h2, rfl⟩)⟩
    | strong hb hm h1 h3 h2 =>
      obtain ⟨v, rfl⟩ := h1.head (by decide)
      rw [marks _ _ hm]
      exact gate_some.2 ⟨hb, (emphasis_iff hrec).2 (.inr (.inl ⟨_, _, _, hm, h1, h3, h2, rfl⟩))⟩
    | emphasis hb hm h1 h3 h4 h2 =>
      obtain ⟨v, rfl⟩ := h1.head (by decide)
      rw [marks _ _ hm]
      exact gate_some.2 ⟨hb, (emphasis_iff hrec).2 (.inr (.inr ⟨_, _, _, hm, h1, h3, h4, h2, rfl⟩))⟩
    | strike hb h1 h2 =>
      obtain ⟨v, rfl⟩ : ∃ v, s = '~' :: v := by obtain ⟨_, _, rfl⟩ := h1; exact ⟨_, rfl⟩
      unfold nodeOn
      rw [orElse_of_none (gate_off (mapP_none.2 (autolinkP_head (by decide)))), orElse_of_none (gate_off <| inlineLink_head (by decide)),
        orElse_of_none (gate_off <| footnoteReferenceP_head (by decide)), orElse_of_none (gate_off <| referenceLink_head (by decide)),
        orElse_of_none (gate_off <| hardNewline_head (by decide) (by decide)), orElse_of_none (gate_off <| imageP_head (by decide)),
        orElse_of_none (gate_off (mapP_none.2 (codeSpan_head (by decide)))), orElse_of_none (environmentVariable_head (by decide)),
        orElse_of_none (gate_off <| emphasisP_head (by decide) (by decide))]
      exact gate_some.2 ⟨hb, strike_iff.2 ⟨_, _, rfl, h1, h2⟩⟩

theorem beginsOn_iff {s : Str} : nodeOn x cfg rec s ≠ none ↔ BeginsOn x cfg s := by
  constructor
  · intro h
    cases e : nodeOn x cfg rec s with
    | none => exact absurd e h
    | some y =>
      have h1 := (nodeOn_iff hrec).1 (show _ = some (y.1, y.2) from e)
      generalize y.2 = i at h1
      generalize y.1 = r at h1
      cases h1 with
      | autolink hb h => exact .autolink hb h
      | link hb h h' _ => exact .link hb h h'
      | footnote hb h _ => exact .footnote hb h
      | reference hb h _ _ _ _ => exact .label hb h
      | collapsed hb h _ _ => exact .label hb h
      | shortcut hb h _ _ _ _ _ => exact .label hb h
      | lineBreak hb h => exact .lineBreak hb h
      | image hb h => exact .image hb h
      | code hb h => exact .code hb h
      | identifier h => exact .identifier h
      | both hb hm h _ => exact .emphasis hb hm (by decide) (by decide) h
      | strong hb hm h _ _ => exact .emphasis hb hm (by decide) (by decide) h
      | emphasis hb hm h _ _ _ => exact .emphasis hb hm (by decide) (by decide) h
      | strike hb h _ => exact .strike hb h
  · intro h h1
    obtain ⟨n1, n2, n3, n4, n5, n6, n7, n8, n9, n10⟩ := nodeOn_none.1 h1
    cases h with
    | autolink hb h => have := mapP_none.1 (gate_none.1 n1 hb); rw [autolink_iff.2 h] at this; cases this
    | link hb h h' => exact (link_none hrec).1 (gate_none.1 n2 hb) _ _ _ _ _ h h'
    | label hb h =>
      have n4 := gate_none.1 n4 hb
      unfold referenceLink referenceLinkShortcut at n4
      rw [orElse_none, orElse_none, mapP_none] at n4
      exact (label_none hrec).1 n4.2.2 _ _ h
    | footnote hb h => exact note_none.1 (gate_none.1 n3 hb) _ _ h
    | lineBreak hb h => have := gate_none.1 n5 hb; rw [break_iff.2 ⟨rfl, h⟩] at this; cases this
    | image hb h => have := gate_none.1 n6 hb; rw [image_iff.2 ⟨_, _, _, rfl, h⟩] at this; cases this
    | code hb h => have := mapP_none.1 (gate_none.1 n7 hb); rw [code_iff.2 h] at this; cases this
    | identifier h => rw [identifier_iff.2 ⟨_, rfl, h⟩] at n8; cases n8
    | @emphasis m n o r hb hm hn1 hn3 h =>
      have n9 := gate_none.1 n9 hb
      unfold emphasisP at n9
      simp only [orElse_none, mapP_none] at n9
      obtain ⟨⟨a1, a2⟩, ⟨a3, a4⟩, a5, a6⟩ := n9
      have : emphasisDelimited x rec (List.replicate n m) s = none := by
        have : n = 1 ∨ n = 2 ∨ n = 3 := by omega
        rcases hm with rfl | rfl <;> rcases this with rfl | rfl | rfl <;> assumption
      exact (emph_none hrec hm (by omega)).1 this _ _ h
    | strike hb h =>
      obtain ⟨l, hl⟩ := Option.ne_none_iff_exists'.1 (hrec _ h.ne)
      have := gate_none.1 n10 hb
      rw [strike_iff.2 ⟨_, _, rfl, h, hl⟩] at this; cases this

theorem endsOn_iff (hp : cfg.Tries) {s : Str} : notAText x cfg rec s ≠ none ↔ EndsOn x cfg s := by
  rw [ne_eq, notAText_none_on hp]
  constructor
  · intro h
    by_cases e : nodeOn x cfg rec s = none
    · cases e' : htmlEntity cfg s with
      | none => exact absurd ⟨e, e'⟩ h
      | some y => exact .ref (ref_iff.1 (show _ = some (y.1, y.2) from e'))
    · exact .node ((beginsOn_iff hrec).1 e)
  · rintro h ⟨h1, h2⟩
    cases h with
    | node h => exact (beginsOn_iff hrec).2 h h1
    | ref h => rw [ref_iff.2 h] at h2; cases h2

end

/-- A piece of text. -/
def PieceOn (x : PExt) (cfg : PConfig) (s p r : Str) : Prop :=
  (∃ c, EscapeAt s c r ∧ p = [c]) ∨ RefAt cfg.entities s p r ∨ RunOn x cfg s p r

section
variable (hrec : ∀ t, t ≠ [] → rec t ≠ none) (hp : cfg.Tries)
include hrec hp

theorem notAText_on {s : Str} : notAText x cfg rec s = none ↔ ¬ EndsOn x cfg s := by
  rw [← endsOn_iff hrec hp]; simp

theorem pieceOn_iff {s r p : Str} : textPiece x cfg rec s = some (r, p) ↔ PieceOn x cfg s p r := by
  have stop : ∀ {u : Str}, EndsOn x cfg u ↔ ∃ y, notAText x cfg rec u = some y := by
    intro u
    rw [← endsOn_iff hrec hp]
    exact Option.ne_none_iff_exists'
  unfold textPiece PieceOn
  constructor
  · intro h
    rcases orElse_some.1 h with h | ⟨n1, h⟩
    · obtain ⟨c, h', rfl⟩ := mapP_some.1 h
      exact .inl ⟨c, escape_iff.1 h', rfl⟩
    · rcases orElse_some.1 h with h | ⟨n2, h⟩
      · exact .inr (.inl (ref_iff.1 h))
      · right; right
        obtain ⟨l, h1, hp'⟩ := recognize_some.1 h
        obtain ⟨s1, c, l', h2, h3, rfl⟩ := many1_some.1 h1
        have h4 : many0 (preceded (notP (notAText x cfg rec)) anychar) s = some (r, c :: l') :=
          many0_of_some h2 (by
            obtain ⟨s2, _, h5, h6⟩ := preceded_some.1 h2
            obtain ⟨_, rfl⟩ := notP_some.1 h5
            have := anychar_some.1 h6
            subst this
            simp) h3
        obtain ⟨rfl, h5⟩ := untilLoop _ _ _ h4
        have : p = c :: l' := by rw [hp', show ((c :: l') ++ r).length - r.length = (c :: l').length by simp; omega]; simp
        subst this
        refine ⟨rfl, by simp, fun a b hab hb => (notAText_on hrec hp).1 (h5 a b hab hb), ?_, ?_⟩
        · by_cases hr : r = []
          · exact .inl hr
          · exact .inr (stop.2 (untilLoop_end h4 hr))
        · intro c v hv
          rw [mapP_none] at n1
          rw [escape_iff.2 hv] at n1; cases n1
  · rintro (⟨c, h, rfl⟩ | h | h)
    · exact orElse_of_some (mapP_some.2 ⟨c, escape_iff.2 h, rfl⟩)
    · obtain ⟨u, rfl⟩ := h.head
      rw [orElse_of_none (mapP_none.2 _)]
      · exact orElse_of_some (ref_iff.2 h)
      · cases e : escapedChar ('&' :: u) with
        | none => rfl
        | some y =>
          obtain ⟨_, h⟩ := escape_iff.1 (show _ = some (y.1, y.2) from e)
          cases h
    · obtain ⟨rfl, hne, h1, h2, h3⟩ := h
      have hn := h1 [] p rfl hne
      rw [orElse_of_none, orElse_of_none]
      · apply recognize_of (v := p)
        cases p with
        | nil => exact absurd rfl hne
        | cons c p =>
          have hl : many0 (preceded (notP (notAText x cfg rec)) anychar) (p ++ r) = some (r, p) := by
            rcases h2 with rfl | h2
            · have : ∀ p : Str, (∀ a b, p = a ++ b → b ≠ [] → ¬ EndsOn x cfg b) →
                  many0 (preceded (notP (notAText x cfg rec)) anychar) p = some ([], p) := by
                intro p
                induction p with
                | nil => intro _; exact many0_of_none (by
                    cases e : preceded (notP (notAText x cfg rec)) anychar [] with
                    | none => rfl
                    | some y =>
                      obtain ⟨s2, _, h5, h6⟩ := preceded_some.1 (show _ = some (y.1, y.2) from e)
                      obtain ⟨_, rfl⟩ := notP_some.1 h5
                      cases anychar_some.1 h6)
                | cons c p ih =>
                  intro h
                  refine many0_of_some (step_some ((notAText_on hrec hp).2 (h [] _ rfl (by simp))) rfl) (by simp)
                    (ih fun a b hab hb => h (c :: a) b (by rw [hab]; rfl) hb)
              have h4 := this p (fun a b hab hb => by simpa using h1 (c :: a) b (by rw [hab]; rfl) hb)
              simpa using h4
            · exact untilLoop_of (stop.1 h2) p (fun a b hab hb => (notAText_on hrec hp).2
                (h1 (c :: a) b (by rw [hab]; rfl) hb))
          exact many1_some.2 ⟨p ++ r, c, p, step_some ((notAText_on hrec hp).2 hn) rfl, hl, rfl⟩
      · cases e : htmlEntity cfg (p ++ r) with
        | none => rfl
        | some y => exact absurd (.ref (ref_iff.1 (show _ = some (y.1, y.2) from e))) hn
      · rw [mapP_none]
        cases e : escapedChar (p ++ r) with
        | none => rfl
        | some y => exact absurd (escape_iff.1 (show _ = some (y.1, y.2) from e)) (h3 _ _)

theorem pieceOn_node {s r p : Str} (h : PieceOn x cfg s p r) : nodeOn x cfg rec s = none := by
  rcases h with ⟨c, h, _⟩ | h | h
  · exact nodeOn_of_none h.node_none
  · exact nodeOn_of_none h.node_none
  · have := h.plain [] p rfl h.ne
    rw [← h.eq, ← notAText_on hrec hp] at this
    exact ((notAText_none_on hp).1 this).1

omit hrec in
theorem pieceOn_ex {s : Str} (hs : s ≠ []) (h : nodeOn x cfg rec s = none) : ∃ r p, textPiece x cfg rec s = some (r, p) := by
  unfold textPiece
  cases e1 : escapedChar s with
  | some y => exact ⟨_, _, orElse_of_some (mapP_some.2 ⟨_, (show _ = some (y.1, y.2) from e1), rfl⟩)⟩
  | none =>
    rw [orElse_of_none (mapP_none.2 e1)]
    cases e2 : htmlEntity cfg s with
    | some y => exact ⟨_, _, orElse_of_some (show _ = some (y.1, y.2) from e2)⟩
    | none =>
      rw [orElse_of_none e2]
      cases s with
      | nil => exact absurd rfl hs
      | cons c s =>
        have : Con (preceded (notP (notAText x cfg rec)) anychar) := inferInstance
        obtain ⟨r, l, h3⟩ := many0_ex (p := preceded (notP (notAText x cfg rec)) anychar) s
        exact ⟨_, _, recognize_some.2 ⟨_, many1_some.2 ⟨s, c, l,
          step_some ((notAText_none_on hp).2 ⟨h, e2⟩) rfl, h3, rfl⟩, rfl⟩⟩

end

/-! ## The parser -/

section
variable (hc : cfg.CustomOk) (hp : cfg.Tries)
include hc hp

theorem rec_on : ∀ t, t ≠ [] → parseInlines1 x cfg t ≠ none := by
  intro t ht
  obtain ⟨l, hl⟩ := parseInlines1_ok (x := x) hc (by rw [hp.text]; simp) ht
  rw [hl]; simp

theorem parse1_on {t : Str} (ht : t ≠ []) : parseInlines1 x cfg t = parseInlines0 x cfg t := by
  obtain ⟨l, hl⟩ := Option.ne_none_iff_exists'.1 (rec_on (x := x) hc hp t ht)
  rw [hl]
  rw [parseInlines1_eq hc] at hl
  simp only [Option.map_eq_some_iff] at hl
  obtain ⟨⟨q, ls⟩, h, rfl⟩ := hl
  obtain ⟨r, a, l', h1, h2, rfl⟩ := many1_some.1 h
  exact (parse_of hc (many0_of_some h1 ((inlineP_con hc).out _ _ _ h1).2 h2)).symm

theorem parse_nodeOn {s r : Str} {i : Inline} {l : List Inline} (h : NodeOn x cfg (parseInlines1 x cfg) s i r)
    (hl : parseInlines0 x cfg r = some l) : ∃ l0, mergeText l0 = l ∧ parseInlines0 x cfg s = some (mergeText (i :: l0)) := by
  obtain ⟨q, ls, h1, rfl⟩ := parse_many hc hl
  have h2 : inlineP x cfg s = some (r, [i]) := by
    unfold inlineP
    rw [inlineStep_on hp]
    exact orElse_of_some (mapP_some.2 ⟨i, (nodeOn_iff (rec_on hc hp)).2 h, rfl⟩)
  have h3 := parse_of hc (many0_of_some h2 ((inlineP_con hc).out _ _ _ h2).2 h1)
  exact ⟨ls.flatten, rfl, by rw [h3]; simp⟩

omit hc in
theorem inlineP_textOn {s r : Str} {ps : List Str} (hn : nodeOn x cfg (parseInlines1 x cfg) s = none)
    (hcu : customParser cfg.customInline s = none)
    (h : many0 (textPiece x cfg (parseInlines1 x cfg)) s = some (r, ps)) (hne : ps ≠ []) :
    inlineP x cfg s = some (r, [.text ps.flatten]) := by
  unfold inlineP
  rw [inlineStep_on hp, orElse_of_none (mapP_none.2 hn), orElse_of_none hcu]
  exact mapP_some.2 ⟨_, mapP_some.2 ⟨ps, many1_of_many0 h hne, rfl⟩, rfl⟩

omit hc hp in
theorem customParser_none {s : Str} (h : ∀ is r, ¬ CustomInline cfg s is r) : customParser cfg.customInline s = none := by
  unfold customParser
  cases e : cfg.customInline with
  | none => rfl
  | some p =>
    cases e' : p s with
    | none => exact e'
    | some y => exact absurd ⟨p, e, e'⟩ (h y.2 y.1)

/-- What is read behind ordinary characters: more of them, and the rest. -/
def After (x : PExt) (cfg : PConfig) (s : Str) (l : List Inline) : Prop :=
  ∃ r ps l0, many0 (textPiece x cfg (parseInlines1 x cfg)) s = some (r, ps) ∧ parseInlines0 x cfg r = some l0 ∧
    l = if ps = [] then l0 else addText ps.flatten l0

/-- What the parser does at a place. -/
def ParsesAt (x : PExt) (cfg : PConfig) (s : Str) (l : List Inline) : Place → Prop
  | .fresh => parseInlines0 x cfg s = some l
  | .behindText => After x cfg s l

omit hc hp in
theorem parsesAt_lift {s : Str} {l : List Inline} (p : Place) (ht : textPiece x cfg (parseInlines1 x cfg) s = none)
    (h : parseInlines0 x cfg s = some l) : ParsesAt x cfg s l p := by
  cases p with
  | fresh => exact h
  | behindText => exact ⟨s, [], l, many0_of_none ht, h, rfl⟩

theorem textPiece_none {s : Str} (h : nodeOn x cfg (parseInlines1 x cfg) s ≠ none) :
    textPiece x cfg (parseInlines1 x cfg) s = none := by
  have hr := rec_on (x := x) hc hp
  cases e : textPiece x cfg (parseInlines1 x cfg) s with
  | none => rfl
  | some y => exact absurd (pieceOn_node hr hp ((pieceOn_iff hr hp).1 (show _ = some (y.1, y.2) from e))) h

theorem parse_pieceOn {s r t : Str} {l : List Inline} (p : Place) (hcu : p = .fresh → ∀ is r', ¬ CustomInline cfg s is r')
    (h : PieceOn x cfg s t r) (hl : ParsesAt x cfg r l .behindText) : ParsesAt x cfg s (addText t l) p := by
  have hr := rec_on (x := x) hc hp
  have hs := (pieceOn_iff hr hp).2 h
  have hlt : r.length < s.length := (Con.out (p := textPiece x cfg (parseInlines1 x cfg)) _ _ _ hs).2
  obtain ⟨r2, ps, l0, h2, h3, rfl⟩ := hl
  have h4 := many0_of_some hs hlt h2
  have he : addText t (if ps = [] then l0 else addText ps.flatten l0) = addText (t :: ps).flatten l0 := by
    split
    · rename_i h; subst h; simp
    · simp [addText_addText]
  rw [he]
  cases p with
  | behindText => exact ⟨r2, _, l0, h4, h3, by simp⟩
  | fresh =>
    have h5 := inlineP_textOn hp (pieceOn_node hr hp h) (customParser_none (hcu rfl)) h4 (by simp)
    obtain ⟨q, ls, h1, rfl⟩ := parse_many hc h3
    show parseInlines0 x cfg s = _
    rw [parse_of hc (many0_of_some h5 ((inlineP_con hc).out _ _ _ h5).2 h1)]
    simp [merge_text]

omit hc hp in
theorem merge_custom (is l : List Inline) : mergeText (is ++ l) = addInlines is (mergeText l) := by
  induction is with
  | nil => rfl
  | cons i is ih =>
    cases i
    case text t => rw [List.cons_append, merge_text, ih]; rfl
    all_goals rw [List.cons_append, merge_cons (by intro _ _ h; cases h), ih]; rfl

theorem parse_customOn {s r : Str} {is l : List Inline} (h : CustomInline cfg s is r) (hn : ¬ BeginsOn x cfg s)
    (hl : parseInlines0 x cfg r = some l) : parseInlines0 x cfg s = some (addInlines is l) := by
  have hr := rec_on (x := x) hc hp
  obtain ⟨q, ls, h1, rfl⟩ := parse_many hc hl
  have hn' : nodeOn x cfg (parseInlines1 x cfg) s = none := by
    cases e : nodeOn x cfg (parseInlines1 x cfg) s with
    | none => rfl
    | some y => exact absurd ((beginsOn_iff hr).1 (by rw [e]; simp)) hn
  have h2 : inlineP x cfg s = some (r, is) := by
    unfold inlineP
    rw [inlineStep_on hp, orElse_of_none (mapP_none.2 hn')]
    obtain ⟨p, h3, h4⟩ := h
    refine orElse_of_some ?_
    rw [h3]; exact h4
  rw [parse_of hc (many0_of_some h2 ((inlineP_con hc).out _ _ _ h2).2 h1)]
  simp [merge_custom]

/-- The parser reads as specified. -/
theorem ReadFrom.parse {s : Str} {l : List Inline} {p : Place} (h : ReadFrom x cfg p s l) : ParsesAt x cfg s l p := by
  have inner : ∀ {t : Str} {k : List Inline}, t ≠ [] → parseInlines0 x cfg t = some k →
      parseInlines1 x cfg t = some k := by
    intro t k ht hk
    rw [parse1_on hc hp ht, hk]
  have none : ∀ {s r : Str} {i : Inline}, NodeOn x cfg (parseInlines1 x cfg) s i r →
      textPiece x cfg (parseInlines1 x cfg) s = none := by
    intro s r i hn
    exact textPiece_none hc hp (by rw [(nodeOn_iff (rec_on hc hp)).2 hn]; simp)
  have node : ∀ {p : Place} {s r : Str} {i : Inline} {l : List Inline}, NotTextFirst [i] →
      NodeOn x cfg (parseInlines1 x cfg) s i r → ParsesAt x cfg r l .fresh → ParsesAt x cfg s (i :: l) p := by
    intro p s r i l hi hn hl
    obtain ⟨l0, rfl, h⟩ := parse_nodeOn hc hp hn hl
    exact parsesAt_lift p (none hn) (by rw [h, merge_cons hi])
  induction h with
  | nil =>
    have := inlineP_con (x := x) hc
    refine parsesAt_lift _ ?_ (by rw [parse_of hc (many0_nil_of_con (p := inlineP x cfg))]; rfl)
    cases e : textPiece x cfg (parseInlines1 x cfg) [] with
    | none => rfl
    | some y =>
      have := (Con.out (p := textPiece x cfg (parseInlines1 x cfg)) [] y.1 y.2 e).2
      simp at this
  | autolink hb h _ ih => exact node (by intro _ _ h; cases h) (.autolink hb h) ih
  | link hb h1 h2 _ _ ih1 ih2 => exact node (by intro _ _ h; cases h) (.link hb h1 h2 (inner h1.ne ih1)) ih2
  | footnote hb h1 h2 _ ih => exact node (by intro _ _ h; cases h) (.footnote hb h1 h2) ih
  | reference hb h1 h2 h3 _ _ _ ih1 ih2 ih3 =>
    exact node (by intro _ _ h; cases h) (.reference hb h1 h2 h3 (inner h1.ne ih1) (inner h2.ne ih2)) ih3
  | collapsed hb h1 h2 _ _ ih1 ih2 =>
    exact node (by intro _ _ h; cases h) (.collapsed hb h1 h2 (inner h1.ne ih1)) ih2
  | shortcut hb h1 h2 h3 h4 h5 _ _ ih1 ih2 =>
    exact node (by intro _ _ h; cases h) (.shortcut hb h1 h2 h3 h4 h5 (inner h1.ne ih1)) ih2
  | lineBreak hb h _ ih => exact node (by intro _ _ h; cases h) (.lineBreak hb h) ih
  | image hb h _ ih => exact node (by intro _ _ h; cases h) (.image hb h) ih
  | code hb h _ ih => exact node (by intro _ _ h; cases h) (.code hb h) ih
  | identifier h _ ih =>
    obtain ⟨l0, rfl, h'⟩ := parse_nodeOn hc hp (.identifier h) ih
    exact parsesAt_lift _ (none (.identifier h)) (by rw [h', merge_text])
  | both hb hm h1 _ _ ih1 ih2 => exact node (by intro _ _ h; cases h) (.both hb hm h1 (inner h1.ne ih1)) ih2
  | strong hb hm h1 h2 _ _ ih1 ih2 => exact node (by intro _ _ h; cases h) (.strong hb hm h1 h2 (inner h1.ne ih1)) ih2
  | emphasis hb hm h1 h2 h3 _ _ ih1 ih2 =>
    exact node (by intro _ _ h; cases h) (.emphasis hb hm h1 h2 h3 (inner h1.ne ih1)) ih2
  | strike hb h1 _ _ ih1 ih2 => exact node (by intro _ _ h; cases h) (.strike hb h1 (inner h1.ne ih1)) ih2
  | escape hcu h _ ih => exact parse_pieceOn hc hp _ hcu (.inl ⟨_, h, rfl⟩) ih
  | ref hcu h _ ih => exact parse_pieceOn hc hp _ hcu (.inr (.inl h)) ih
  | run hcu h _ ih => exact parse_pieceOn hc hp _ hcu (.inr (.inr h)) ih
  | custom h hn _ ih => exact parse_customOn hc hp h hn ih

/-- Every text has a reading. -/
theorem readsOn_ex (s : Str) (p : Place) : ∃ l, ReadFrom x cfg p s l := by
  have hr := rec_on (x := x) hc hp
  induction hn : s.length using Nat.strongRecOn generalizing s p with
  | _ n ih =>
  subst hn
  have ih : ∀ (t : Str) (p : Place), t.length < s.length → ∃ l, ReadFrom x cfg p t l := fun t p ht => ih _ ht t p rfl
  by_cases hs : s = []
  · subst hs; exact ⟨[], .nil⟩
  cases e : nodeOn x cfg (parseInlines1 x cfg) s with
  | some y =>
    have e : nodeOn x cfg (parseInlines1 x cfg) s = some (y.1, y.2) := e
    generalize y.1 = r at e
    generalize y.2 = i at e
    obtain ⟨l, hl⟩ := ih r .fresh (Con.out (p := nodeOn x cfg (parseInlines1 x cfg)) _ _ _ e).2
    cases (nodeOn_iff hr).1 e with
    | autolink hb h => exact ⟨_, .autolink hb h hl⟩
    | link hb h1 h2 _ =>
      obtain ⟨k, hk⟩ := ih _ .fresh h1.shorter.1
      exact ⟨_, .link hb h1 h2 hk hl⟩
    | footnote hb h1 h2 => exact ⟨_, .footnote hb h1 h2 hl⟩
    | reference hb h1 h2 h3 _ _ =>
      obtain ⟨k, hk⟩ := ih _ .fresh h1.shorter.1
      obtain ⟨k', hk'⟩ := ih _ .fresh (Nat.lt_trans h2.shorter.1 h1.shorter.2)
      exact ⟨_, .reference hb h1 h2 h3 hk hk' hl⟩
    | collapsed hb h1 h2 _ =>
      obtain ⟨k, hk⟩ := ih _ .fresh h1.shorter.1
      exact ⟨_, .collapsed hb h1 h2 hk hl⟩
    | shortcut hb h1 h2 h3 h4 h5 _ =>
      obtain ⟨k, hk⟩ := ih _ .fresh h1.shorter.1
      exact ⟨_, .shortcut hb h1 h2 h3 h4 h5 hk hl⟩
    | lineBreak hb h => exact ⟨_, .lineBreak hb h hl⟩
    | image hb h => exact ⟨_, .image hb h hl⟩
    | code hb h => exact ⟨_, .code hb h hl⟩
    | identifier h => exact ⟨_, .identifier h hl⟩
    | both hb hm h1 _ =>
      obtain ⟨k, hk⟩ := ih _ .fresh (h1.shorter (by decide))
      exact ⟨_, .both hb hm h1 hk hl⟩
    | strong hb hm h1 h2 _ =>
      obtain ⟨k, hk⟩ := ih _ .fresh (h1.shorter (by decide))
      exact ⟨_, .strong hb hm h1 h2 hk hl⟩
    | emphasis hb hm h1 h2 h3 _ =>
      obtain ⟨k, hk⟩ := ih _ .fresh (h1.shorter (by decide))
      exact ⟨_, .emphasis hb hm h1 h2 h3 hk hl⟩
    | strike hb h1 _ =>
      obtain ⟨k, hk⟩ := ih _ .fresh h1.shorter
      exact ⟨_, .strike hb h1 hk hl⟩
  | none =>
    have text : (p = .fresh → ∀ is r', ¬ CustomInline cfg s is r') → ∃ l, ReadFrom x cfg p s l := by
      intro hcu
      obtain ⟨r, t, h⟩ := pieceOn_ex hp hs e
      obtain ⟨l, hl⟩ := ih r .behindText (Con.out (p := textPiece x cfg (parseInlines1 x cfg)) _ _ _ h).2
      rcases (pieceOn_iff hr hp).1 h with ⟨c, h', rfl⟩ | h | h
      · exact ⟨_, .escape hcu h' hl⟩
      · exact ⟨_, .ref hcu h hl⟩
      · exact ⟨_, .run hcu h hl⟩
    cases p with
    | behindText => exact text (by intro h; cases h)
    | fresh =>
      by_cases hcu : ∃ is r, CustomInline cfg s is r
      · obtain ⟨is, r, hcu⟩ := hcu
        obtain ⟨p, h1, h2⟩ := id hcu
        obtain ⟨l, hl⟩ := ih r .fresh (hp.custom.inl.out s r is (by rw [h1]; exact h2)).2
        exact ⟨_, .custom hcu (fun h => (beginsOn_iff hr).2 h e) hl⟩
      · exact text (fun _ is r h => hcu ⟨is, r, h⟩)

end

/-- **C88.** With every configuration that parses or ignores each construct, with or without custom parsers, a text is read as the inlines that the
specification says, and as no others. -/
theorem C88_inlines (hp : cfg.Tries) (s : Str) (l : List Inline) : parseInlines0 x cfg s = some l ↔ ReadOn x cfg s l := by
  have hc := hp.custom
  have key : ∀ {l}, ReadOn x cfg s l → parseInlines0 x cfg s = some l := fun h => ReadFrom.parse hc hp h
  refine ⟨fun h => ?_, key⟩
  obtain ⟨l', h'⟩ := readsOn_ex (x := x) hc hp s .fresh
  rw [key h'] at h
  cases h; exact h'

end Verif.Exact
