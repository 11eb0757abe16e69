import Verif.InlineExactStep
/-!
# Texts are read as inlines exactly as specified (C84)
-/
set_option autoImplicit false
set_option linter.unusedVariables false
set_option linter.unusedSimpArgs false
namespace Verif.Exact
open Nom

variable {x : PExt} {cfg : PConfig} {ent : Str → Option Str} {rec : Str → Option (List Inline)}

/-- The alternatives of `inline` but text, `inline/mod.rs:84-140`. -/
def nodeP (x : PExt) (rec : Str → Option (List Inline)) : P Inline :=
  mapP autolinkP .autolink <||> inlineLink rec <||> footnoteReferenceP <||> referenceLink rec <||> hardNewline <||>
  imageP <||> mapP codeSpan .code <||> environmentVariable <||> emphasisP x rec <||> strikethroughP rec

theorem nodeP_none {s : Str} : nodeP x rec s = none ↔ autolinkP s = none ∧ inlineLink rec s = none ∧
    footnoteReferenceP s = none ∧ referenceLink rec s = none ∧ hardNewline s = none ∧ imageP s = none ∧
    codeSpan s = none ∧ environmentVariable s = none ∧ emphasisP x rec s = none ∧ strikethroughP rec s = none := by
  unfold nodeP
  simp only [orElse_none, mapP_none]

theorem inlineStep_eq (hp : InlineParse cfg) :
    inlineStep x cfg rec = (mapP (nodeP x rec) (fun v => [v]) <||> mapP (textP x cfg rec) (fun v => [v])) := by
  funext s
  unfold inlineStep nodeP
  simp only [hp.autolink, hp.link, hp.footnoteReference, hp.referenceLink, hp.hardNewline, hp.image, hp.codeSpan,
    hp.emphasis, hp.strikethrough, hp.text, hp.custom, conditionalInline, conditional, customParser]
  simp only [Nom.orElse, mapP, failP]
  cases autolinkP s; case some => rfl
  cases inlineLink rec s; case some => rfl
  cases footnoteReferenceP s; case some => rfl
  cases referenceLink rec s; case some => rfl
  cases hardNewline s; case some => rfl
  cases imageP s; case some => rfl
  cases codeSpan s; case some => rfl
  cases environmentVariable s; case some => rfl
  cases emphasisP x rec s; case some => rfl
  cases strikethroughP rec s <;> rfl

theorem notAText_none_iff (hp : InlineParse cfg) {s : Str} :
    notAText x cfg rec s = none ↔ nodeP x rec s = none ∧ htmlEntity cfg s = none := by
  unfold notAText
  simp only [orElse_none, conditionalUnit_none, hp.autolink, hp.link, hp.footnoteReference, hp.referenceLink,
    hp.hardNewline, hp.image, hp.codeSpan, hp.emphasis, hp.strikethrough, hp.text, nodeP_none, value_none,
    reduceCtorEq, false_or]
  grind

/-! ## Every alternative, in terms of characters -/

/-- The inline at the front of a text, if it is not text; the contents are read by `rec`. -/
inductive Node (x : PExt) (rec : Str → Option (List Inline)) (s : Str) : Inline → Str → Prop
  | autolink {u r : Str} : AutolinkAt s u r → Node x rec s (.autolink u) r
  | link {t v d r : Str} {title : Option Str} {k : List Inline} : LabelAt s t v → DestTitleAt v d title r →
      rec t = some k → Node x rec s (.link d title k) r
  | footnote {n r : Str} : NoteAt s n r → (∀ t v d title r', LabelAt s t v → ¬ DestTitleAt v d title r') →
      Node x rec s (.footnoteReference n) r
  | reference {t v t' r : Str} {k k' : List Inline} : LabelAt s t v → LabelAt v t' r →
      (∀ n r', ¬ NoteAt s n r') → rec t = some k → rec t' = some k' → Node x rec s (.linkReference k' k) r
  | collapsed {t r : Str} {k : List Inline} : LabelAt s t ('[' :: ']' :: r) → (∀ n r', ¬ NoteAt s n r') →
      rec t = some k → Node x rec s (.linkReference k k) r
  | shortcut {t r : Str} {k : List Inline} : LabelAt s t r → (∀ d title r', ¬ DestTitleAt r d title r') →
      (∀ n r', ¬ NoteAt s n r') → (∀ t' r', ¬ LabelAt r t' r') → (∀ r', r ≠ '[' :: ']' :: r') →
      rec t = some k → Node x rec s (.linkReference k k) r
  | lineBreak {r : Str} : BreakAt s r → Node x rec s .lineBreak r
  | image {alt d r : Str} {title : Option Str} : ImageAt s alt d title r → Node x rec s (.image d title alt) r
  | code {c r : Str} : CodeAt s c r → Node x rec s (.code c) r
  | identifier {w r : Str} : IdentifierAt s w r → Node x rec s (.text w) r
  | both {m : Char} {o r : Str} {k : List Inline} : EmphMark m → EmphAt x m 3 s o r → rec o = some k →
      Node x rec s (.strong [.emphasis k]) r
  | strong {m : Char} {o r : Str} {k : List Inline} : EmphMark m → EmphAt x m 2 s o r →
      (∀ o' r', ¬ EmphAt x m 3 s o' r') → rec o = some k → Node x rec s (.strong k) r
  | emphasis {m : Char} {o r : Str} {k : List Inline} : EmphMark m → EmphAt x m 1 s o r →
      (∀ o' r', ¬ EmphAt x m 3 s o' r') → (∀ o' r', ¬ EmphAt x m 2 s o' r') → rec o = some k →
      Node x rec s (.emphasis k) r
  | strike {o r : Str} {k : List Inline} : StrikeAt s o r → rec o = some k → Node x rec s (.strikethrough k) r

theorem LabelAt.unique {s t r t' r' : Str} (h : LabelAt s t r) (h' : LabelAt s t' r') : t = t' ∧ r = r' := by
  have h1 := label_iff (rec := fun u => some [.text u]).2 ⟨t, h, rfl⟩
  have h2 := label_iff (rec := fun u => some [.text u]).2 ⟨t', h', rfl⟩
  rw [h1] at h2
  simp at h2
  exact ⟨h2.2, h2.1⟩

theorem LabelAt.head {s t r : Str} (h : LabelAt s t r) : ∃ v, s = '[' :: v := by
  obtain ⟨w, _, _, rfl⟩ := h; exact ⟨_, rfl⟩

theorem EmphAt.head {m : Char} {n : Nat} {s o r : Str} (hn : 0 < n) (h : EmphAt x m n s o r) : ∃ v, s = m :: v := by
  obtain ⟨_, _, rfl⟩ := h
  obtain ⟨k, rfl⟩ : ∃ k, n = k + 1 := ⟨n - 1, by omega⟩
  exact ⟨_, rfl⟩

theorem EmphAt.ne {m : Char} {n : Nat} {s o r : Str} (h : EmphAt x m n s o r) : o ≠ [] := by
  obtain ⟨c, hc, _⟩ := h.1.start
  rintro rfl; simp at hc

theorem StrikeAt.ne {s o r : Str} (h : StrikeAt s o r) : o ≠ [] := by
  obtain ⟨c, hc, _⟩ := h.1.start
  rintro rfl; simp at hc

section
variable (hrec : ∀ t, t ≠ [] → rec t ≠ none)
include hrec

theorem label_none {s : Str} : linkLabel rec s = none ↔ ∀ t r, ¬ LabelAt s t r := by
  constructor
  · intro h t r ht
    obtain ⟨l, hl⟩ := Option.ne_none_iff_exists'.1 (hrec t ht.ne)
    rw [label_iff.2 ⟨t, ht, hl⟩] at h; cases h
  · intro h
    cases e : linkLabel rec s with
    | none => rfl
    | some y =>
      obtain ⟨t, ht, _⟩ := label_iff.1 (show _ = some (y.1, y.2) from e)
      exact absurd ht (h _ _)

theorem link_none {s : Str} : inlineLink rec s = none ↔
    ∀ t v d ti r, LabelAt s t v → ¬ DestTitleAt v d ti r := by
  unfold inlineLink
  rw [mapP_none]
  constructor
  · intro h t v d ti r h1 h2
    obtain ⟨l, hl⟩ := Option.ne_none_iff_exists'.1 (hrec t h1.ne)
    rw [show seq (linkLabel rec) destAndTitle s = some (r, (l, (d, ti))) from
      seq_some.2 ⟨v, label_iff.2 ⟨t, h1, hl⟩, destAndTitle_iff.2 h2⟩] at h
    cases h
  · intro h
    cases e : seq (linkLabel rec) destAndTitle s with
    | none => rfl
    | some y =>
      obtain ⟨v, h1, h2⟩ := seq_some.1 (show _ = some (y.1, (y.2.1, (y.2.2.1, y.2.2.2))) from e)
      obtain ⟨t, ht, _⟩ := label_iff.1 h1
      exact absurd (destAndTitle_iff.1 h2) (h _ _ _ _ _ ht)

omit hrec in
theorem note_none {s : Str} : footnoteReferenceP s = none ↔ ∀ n r, ¬ NoteAt s n r := by
  constructor
  · intro h n r hn
    rw [footnote_iff.2 ⟨n, rfl, hn⟩] at h; cases h
  · intro h
    cases e : footnoteReferenceP s with
    | none => rfl
    | some y =>
      obtain ⟨n, _, hn⟩ := footnote_iff.1 (show _ = some (y.1, y.2) from e)
      exact absurd hn (h _ _)

theorem emph_none {m : Char} {n : Nat} (hm : EmphMark m) (hn : 0 < n) {s : Str} :
    emphasisDelimited x rec (List.replicate n m) s = none ↔ ∀ o r, ¬ EmphAt x m n s o r := by
  constructor
  · intro h o r ho
    obtain ⟨l, hl⟩ := Option.ne_none_iff_exists'.1 (hrec o ho.ne)
    rw [(emph_iff hm hn).2 ⟨o, ho, hl⟩] at h; cases h
  · intro h
    cases e : emphasisDelimited x rec (List.replicate n m) s with
    | none => rfl
    | some y =>
      obtain ⟨t, ht, _⟩ := (emph_iff hm hn).1 (show _ = some (y.1, y.2) from e)
      exact absurd ht (h _ _)

/-- Emphasis in one kind of marker. -/
theorem emphasis_iff {s r : Str} {i : Inline} : emphasisP x rec s = some (r, i) ↔
    (∃ m o k, EmphMark m ∧ EmphAt x m 3 s o r ∧ rec o = some k ∧ i = .strong [.emphasis k]) ∨
    (∃ m o k, EmphMark m ∧ EmphAt x m 2 s o r ∧ (∀ o' r', ¬ EmphAt x m 3 s o' r') ∧ rec o = some k ∧ i = .strong k) ∨
    ∃ m o k, EmphMark m ∧ EmphAt x m 1 s o r ∧ (∀ o' r', ¬ EmphAt x m 3 s o' r') ∧ (∀ o' r', ¬ EmphAt x m 2 s o' r') ∧
      rec o = some k ∧ i = .emphasis k := by
  have hs : EmphMark '*' := .inl rfl
  have hu : EmphMark '_' := .inr rfl
  have e : ∀ m, EmphMark m → ∀ n, 0 < n → ∀ {r : Str} {l : List Inline},
      emphasisDelimited x rec (List.replicate n m) s = some (r, l) ↔ ∃ o, EmphAt x m n s o r ∧ rec o = some l :=
    fun m hm n hn => emph_iff hm hn
  have en : ∀ m, EmphMark m → ∀ n, 0 < n → (emphasisDelimited x rec (List.replicate n m) s = none ↔ ∀ o r, ¬ EmphAt x m n s o r) :=
    fun m hm n hn => emph_none hrec hm hn
  have other : ∀ m m', m ≠ m' → EmphMark m → EmphMark m' → ∀ n n' o r, 0 < n → 0 < n' → EmphAt x m n s o r →
      emphasisDelimited x rec (List.replicate n' m') s = none := by
    intro m m' hne hm hm' n n' o r hn hn' h
    rw [en m' hm' n' hn']
    intro o' r' h'
    obtain ⟨v, h1⟩ := h.head hn
    obtain ⟨v', h2⟩ := h'.head hn'
    rw [h1] at h2; simp at h2; exact hne h2.1
  unfold emphasisP
  change (mapP (emphasisDelimited x rec (List.replicate 3 '*') <||> emphasisDelimited x rec (List.replicate 3 '_')) _ <||>
    mapP (emphasisDelimited x rec (List.replicate 2 '*') <||> emphasisDelimited x rec (List.replicate 2 '_')) _ <||>
    mapP (emphasisDelimited x rec (List.replicate 1 '*') <||> emphasisDelimited x rec (List.replicate 1 '_')) _) s = _ ↔ _
  constructor
  · intro h
    rcases orElse_some.1 h with h | ⟨h0, h⟩
    · left
      obtain ⟨k, h', rfl⟩ := mapP_some.1 h
      rcases orElse_some.1 h' with h | ⟨_, h⟩
      · obtain ⟨o, h1, h2⟩ := (e '*' hs 3 (by decide)).1 h; exact ⟨_, _, _, hs, h1, h2, rfl⟩
      · obtain ⟨o, h1, h2⟩ := (e '_' hu 3 (by decide)).1 h; exact ⟨_, _, _, hu, h1, h2, rfl⟩
    · rw [mapP_none, orElse_none] at h0
      have n3 : ∀ m, EmphMark m → ∀ o r, ¬ EmphAt x m 3 s o r := by
        rintro m (rfl | rfl)
        · exact (en '*' hs 3 (by decide)).1 h0.1
        · exact (en '_' hu 3 (by decide)).1 h0.2
      right
      rcases orElse_some.1 h with h | ⟨h0, h⟩
      · left
        obtain ⟨k, h', rfl⟩ := mapP_some.1 h
        rcases orElse_some.1 h' with h | ⟨_, h⟩
        · obtain ⟨o, h1, h2⟩ := (e '*' hs 2 (by decide)).1 h; exact ⟨_, _, _, hs, h1, n3 _ hs, h2, rfl⟩
        · obtain ⟨o, h1, h2⟩ := (e '_' hu 2 (by decide)).1 h; exact ⟨_, _, _, hu, h1, n3 _ hu, h2, rfl⟩
      · rw [mapP_none, orElse_none] at h0
        right
        obtain ⟨k, h', rfl⟩ := mapP_some.1 h
        rcases orElse_some.1 h' with h | ⟨_, h⟩
        · obtain ⟨o, h1, h2⟩ := (e '*' hs 1 (by decide)).1 h
          exact ⟨_, _, _, hs, h1, n3 _ hs, (en '*' hs 2 (by decide)).1 h0.1, h2, rfl⟩
        · obtain ⟨o, h1, h2⟩ := (e '_' hu 1 (by decide)).1 h
          exact ⟨_, _, _, hu, h1, n3 _ hu, (en '_' hu 2 (by decide)).1 h0.2, h2, rfl⟩
  · rintro (⟨m, o, k, hm, h1, h2, rfl⟩ | ⟨m, o, k, hm, h1, h3, h2, rfl⟩ | ⟨m, o, k, hm, h1, h3, h4, h2, rfl⟩)
    · refine orElse_of_some (mapP_some.2 ⟨k, ?_, rfl⟩)
      rcases hm with rfl | rfl
      · exact orElse_of_some ((e '*' hs 3 (by decide)).2 ⟨o, h1, h2⟩)
      · rw [orElse_of_none (other '_' '*' (by decide) hu hs _ 3 _ _ (by decide) (by decide) h1)]
        exact (e '_' hu 3 (by decide)).2 ⟨o, h1, h2⟩
    · rcases hm with rfl | rfl
      · rw [orElse_of_none (mapP_none.2 (orElse_none.2 ⟨(en '*' hs 3 (by decide)).2 h3,
          other '*' '_' (by decide) hs hu _ 3 _ _ (by decide) (by decide) h1⟩))]
        exact orElse_of_some (mapP_some.2 ⟨k, orElse_of_some ((e '*' hs 2 (by decide)).2 ⟨o, h1, h2⟩), rfl⟩)
      · rw [orElse_of_none (mapP_none.2 (orElse_none.2 ⟨other '_' '*' (by decide) hu hs _ 3 _ _ (by decide) (by decide) h1,
          (en '_' hu 3 (by decide)).2 h3⟩))]
        refine orElse_of_some (mapP_some.2 ⟨k, ?_, rfl⟩)
        rw [orElse_of_none (other '_' '*' (by decide) hu hs _ 2 _ _ (by decide) (by decide) h1)]
        exact (e '_' hu 2 (by decide)).2 ⟨o, h1, h2⟩
    · rcases hm with rfl | rfl
      · rw [orElse_of_none (mapP_none.2 (orElse_none.2 ⟨(en '*' hs 3 (by decide)).2 h3,
          other '*' '_' (by decide) hs hu _ 3 _ _ (by decide) (by decide) h1⟩)),
          orElse_of_none (mapP_none.2 (orElse_none.2 ⟨(en '*' hs 2 (by decide)).2 h4,
          other '*' '_' (by decide) hs hu _ 2 _ _ (by decide) (by decide) h1⟩))]
        exact mapP_some.2 ⟨k, orElse_of_some ((e '*' hs 1 (by decide)).2 ⟨o, h1, h2⟩), rfl⟩
      · rw [orElse_of_none (mapP_none.2 (orElse_none.2 ⟨other '_' '*' (by decide) hu hs _ 3 _ _ (by decide) (by decide) h1,
          (en '_' hu 3 (by decide)).2 h3⟩)),
          orElse_of_none (mapP_none.2 (orElse_none.2 ⟨other '_' '*' (by decide) hu hs _ 2 _ _ (by decide) (by decide) h1,
          (en '_' hu 2 (by decide)).2 h4⟩))]
        refine mapP_some.2 ⟨k, ?_, rfl⟩
        rw [orElse_of_none (other '_' '*' (by decide) hu hs _ 1 _ _ (by decide) (by decide) h1)]
        exact (e '_' hu 1 (by decide)).2 ⟨o, h1, h2⟩

omit hrec in
theorem labelAt_empty {r t r' : Str} : ¬ LabelAt ('[' :: ']' :: r) t r' := by
  rintro ⟨w, h, _, hw⟩
  simp at hw
  cases w with
  | nil =>
    have h1 := h.text
    obtain ⟨c, hc, _⟩ := h.visible
    cases h1; simp at hc
  | cons d w =>
    simp at hw
    exact unescapes_head (by decide) h.text (by rw [← hw.1]; rfl)

theorem reference_iff {s r : Str} {i : Inline} : referenceLink rec s = some (r, i) ↔
    (∃ t v t' k k', LabelAt s t v ∧ LabelAt v t' r ∧ rec t = some k ∧ rec t' = some k' ∧ i = .linkReference k' k) ∨
    (∃ t k, LabelAt s t ('[' :: ']' :: r) ∧ rec t = some k ∧ i = .linkReference k k) ∨
    ∃ t k, LabelAt s t r ∧ (∀ t' r', ¬ LabelAt r t' r') ∧ (∀ r', r ≠ '[' :: ']' :: r') ∧ rec t = some k ∧
      i = .linkReference k k := by
  have full : referenceLinkFull rec s = none ↔ ∀ t v t' r', LabelAt s t v → ¬ LabelAt v t' r' := by
    unfold referenceLinkFull
    rw [mapP_none]
    constructor
    · intro h t v t' r' h1 h2
      obtain ⟨k, hk⟩ := Option.ne_none_iff_exists'.1 (hrec t h1.ne)
      obtain ⟨k', hk'⟩ := Option.ne_none_iff_exists'.1 (hrec t' h2.ne)
      rw [show seq (linkLabel rec) (linkLabel rec) s = some (r', (k, k')) from
        seq_some.2 ⟨v, label_iff.2 ⟨t, h1, hk⟩, label_iff.2 ⟨t', h2, hk'⟩⟩] at h
      cases h
    · intro h
      cases e : seq (linkLabel rec) (linkLabel rec) s with
      | none => rfl
      | some y =>
        obtain ⟨v, h1, h2⟩ := seq_some.1 (show _ = some (y.1, (y.2.1, y.2.2)) from e)
        obtain ⟨t, ht, _⟩ := label_iff.1 h1
        obtain ⟨t', ht', _⟩ := label_iff.1 h2
        exact absurd ht' (h _ _ _ _ ht)
  have coll : referenceLinkCollapsed rec s = none ↔ ∀ t r', ¬ LabelAt s t ('[' :: ']' :: r') := by
    unfold referenceLinkCollapsed
    rw [mapP_none]
    constructor
    · intro h t r' h1
      obtain ⟨k, hk⟩ := Option.ne_none_iff_exists'.1 (hrec t h1.ne)
      rw [show terminated (linkLabel rec) (tag cs!"[]") s = some (r', k) from
        terminated_some.2 ⟨'[' :: ']' :: r', cs!"[]", label_iff.2 ⟨t, h1, hk⟩, tag_append cs!"[]" r'⟩] at h
      cases h
    · intro h
      cases e : terminated (linkLabel rec) (tag cs!"[]") s with
      | none => rfl
      | some y =>
        obtain ⟨v, _, h1, h2⟩ := terminated_some.1 (show _ = some (y.1, y.2) from e)
        obtain ⟨t, ht, _⟩ := label_iff.1 h1
        rw [(tag_some.1 h2).1] at ht
        exact absurd ht (h _ _)
  unfold referenceLink
  constructor
  · intro h
    rcases orElse_some.1 h with h | ⟨h0, h⟩
    · left
      obtain ⟨⟨k, k'⟩, h1, rfl⟩ := mapP_some.1 h
      obtain ⟨v, h2, h3⟩ := seq_some.1 h1
      obtain ⟨t, ht, hk⟩ := label_iff.1 h2
      obtain ⟨t', ht', hk'⟩ := label_iff.1 h3
      exact ⟨t, v, t', k, k', ht, ht', hk, hk', rfl⟩
    · right
      rcases orElse_some.1 h with h | ⟨h1, h⟩
      · left
        obtain ⟨k, h1, rfl⟩ := mapP_some.1 h
        obtain ⟨v, _, h2, h3⟩ := terminated_some.1 h1
        obtain ⟨t, ht, hk⟩ := label_iff.1 h2
        rw [(tag_some.1 h3).1] at ht
        exact ⟨t, k, ht, hk, rfl⟩
      · right
        obtain ⟨k, h2, rfl⟩ := mapP_some.1 h
        obtain ⟨t, ht, hk⟩ := label_iff.1 h2
        refine ⟨t, k, ht, fun t' r' => full.1 h0 _ _ _ _ ht, ?_, hk, rfl⟩
        rintro r' rfl
        exact coll.1 h1 _ _ ht
  · rintro (⟨t, v, t', k, k', h1, h2, h3, h4, rfl⟩ | ⟨t, k, h1, h2, rfl⟩ | ⟨t, k, h1, h2, h3, h4, rfl⟩)
    · exact orElse_of_some (mapP_some.2 ⟨(k, k'), seq_some.2 ⟨v, label_iff.2 ⟨t, h1, h3⟩, label_iff.2 ⟨t', h2, h4⟩⟩, rfl⟩)
    · rw [orElse_of_none (full.2 (by
        intro t' v u r' h3 h4
        obtain ⟨_, rfl⟩ := h1.unique h3
        exact labelAt_empty h4))]
      exact orElse_of_some (mapP_some.2 ⟨k, terminated_some.2 ⟨'[' :: ']' :: r, cs!"[]", label_iff.2 ⟨t, h1, h2⟩,
        tag_append cs!"[]" r⟩, rfl⟩)
    · rw [orElse_of_none (full.2 (by
        intro t' v u r' h5 h6
        obtain ⟨_, rfl⟩ := h1.unique h5
        exact h2 _ _ h6)), orElse_of_none (coll.2 (by
        intro t' r' h5
        obtain ⟨_, h6⟩ := h1.unique h5
        exact h3 _ h6))]
      exact mapP_some.2 ⟨k, label_iff.2 ⟨t, h1, h4⟩, rfl⟩

theorem node_iff {s r : Str} {i : Inline} : nodeP x rec s = some (r, i) ↔ Node x rec s i r := by
  constructor
  · intro h
    unfold nodeP at h
    rcases orElse_some.1 h with h | ⟨_, h⟩
    · obtain ⟨u, h', rfl⟩ := mapP_some.1 h
      exact .autolink (autolink_iff.1 h')
    rcases orElse_some.1 h with h | ⟨n1, h⟩
    · unfold inlineLink at h
      obtain ⟨⟨k, d, ti⟩, h1, rfl⟩ := mapP_some.1 h
      obtain ⟨v, h2, h3⟩ := seq_some.1 h1
      obtain ⟨t, h4, h5⟩ := label_iff.1 h2
      exact .link h4 (destAndTitle_iff.1 h3) h5
    have n1 := (link_none hrec).1 n1
    rcases orElse_some.1 h with h | ⟨n2, h⟩
    · obtain ⟨n, rfl, hn⟩ := footnote_iff.1 h
      exact .footnote hn n1
    have n2 := note_none.1 n2
    rcases orElse_some.1 h with h | ⟨_, h⟩
    · rcases (reference_iff hrec).1 h with ⟨t, v, t', k, k', h1, h2, h3, h4, rfl⟩ | ⟨t, k, h1, h2, rfl⟩ | ⟨t, k, h1, h2, h3, h4, rfl⟩
      · exact .reference h1 h2 n2 h3 h4
      · exact .collapsed h1 n2 h2
      · exact .shortcut h1 (fun _ _ _ => n1 _ _ _ _ _ h1) n2 h2 h3 h4
    rcases orElse_some.1 h with h | ⟨_, h⟩
    · obtain ⟨rfl, h'⟩ := break_iff.1 h
      exact .lineBreak h'
    rcases orElse_some.1 h with h | ⟨_, h⟩
    · obtain ⟨d, ti, alt, rfl, h'⟩ := image_iff.1 h
      exact .image h'
    rcases orElse_some.1 h with h | ⟨_, h⟩
    · obtain ⟨c, h', rfl⟩ := mapP_some.1 h
      exact .code (code_iff.1 h')
    rcases orElse_some.1 h with h | ⟨_, h⟩
    · obtain ⟨w, rfl, h'⟩ := identifier_iff.1 h
      exact .identifier h'
    rcases orElse_some.1 h with h | ⟨_, h⟩
    · rcases (emphasis_iff hrec).1 h with ⟨m, o, k, hm, h1, h2, rfl⟩ | ⟨m, o, k, hm, h1, h3, h2, rfl⟩ | ⟨m, o, k, hm, h1, h3, h4, h2, rfl⟩
      · exact .both hm h1 h2
      · exact .strong hm h1 h3 h2
      · exact .emphasis hm h1 h3 h4 h2
    · obtain ⟨o, l, rfl, h1, h2⟩ := strike_iff.1 h
      exact .strike h1 h2
  · intro h
    have bracket : ∀ v, nodeP x rec ('[' :: v) =
        (inlineLink rec <||> footnoteReferenceP <||> referenceLink rec) ('[' :: v) := by
      intro v
      unfold nodeP
      rw [orElse_of_none (mapP_none.2 (autolinkP_head (by decide)))]
      have h1 := hardNewline_head (c := '[') (t := v) (by decide) (by decide)
      have h2 := imageP_head (c := '[') (t := v) (by decide)
      have h3 := codeSpan_head (c := '[') (t := v) (by decide)
      have h4 := environmentVariable_head (c := '[') (t := v) (by decide)
      have h5 := emphasisP_head (x := x) (rec := rec) (c := '[') (t := v) (by decide) (by decide)
      have h6 := strikethroughP_head (rec := rec) (c := '[') (t := v) (by decide)
      simp only [Nom.orElse, mapP, h1, h2, h3, h4, h5, h6]
      cases inlineLink rec ('[' :: v); case some => rfl
      cases footnoteReferenceP ('[' :: v); case some => rfl
      cases referenceLink rec ('[' :: v) <;> rfl
    have marks : ∀ m v, EmphMark m → nodeP x rec (m :: v) = emphasisP x rec (m :: v) := by
      intro m v hm
      unfold nodeP
      have hc : m ≠ '<' ∧ m ≠ '[' ∧ m ≠ '\\' ∧ m ≠ ' ' ∧ m ≠ '!' ∧ m ≠ '`' ∧ isAlpha m = false ∧ m ≠ '~' := by
        rcases hm with rfl | rfl <;> decide
      obtain ⟨c1, c2, c3, c4, c5, c6, c7, c8⟩ := hc
      rw [orElse_of_none (mapP_none.2 (autolinkP_head c1)), orElse_of_none (inlineLink_head c2),
        orElse_of_none (footnoteReferenceP_head c2), orElse_of_none (referenceLink_head c2),
        orElse_of_none (hardNewline_head c3 c4), orElse_of_none (imageP_head c5),
        orElse_of_none (mapP_none.2 (codeSpan_head c6)), orElse_of_none (environmentVariable_head c7)]
      have := strikethroughP_head (rec := rec) (t := v) c8
      simp only [Nom.orElse, this]
      cases emphasisP x rec (m :: v) <;> rfl
    cases h with
    | autolink h => exact orElse_of_some (mapP_some.2 ⟨_, autolink_iff.2 h, rfl⟩)
    | link h1 h2 h3 =>
      obtain ⟨v, rfl⟩ := h1.head
      rw [bracket]
      exact orElse_of_some (mapP_some.2 ⟨(_, _, _), seq_some.2 ⟨_, label_iff.2 ⟨_, h1, h3⟩, destAndTitle_iff.2 h2⟩, rfl⟩)
    | footnote h1 h2 =>
      obtain ⟨v, rfl⟩ : ∃ v, s = '[' :: v := by obtain ⟨_, _, rfl⟩ := h1; exact ⟨_, rfl⟩
      rw [bracket, orElse_of_none ((link_none hrec).2 h2)]
      exact orElse_of_some (footnote_iff.2 ⟨_, rfl, h1⟩)
    | reference h1 h2 h3 h4 h5 =>
      obtain ⟨v, rfl⟩ := h1.head
      obtain ⟨v', rfl⟩ := h2.head
      rw [bracket, orElse_of_none ((link_none hrec).2 (by
        intro t v d ti r' h6 h7
        obtain ⟨_, rfl⟩ := h1.unique h6
        cases h7)), orElse_of_none (note_none.2 h3)]
      exact (reference_iff hrec).2 (.inl ⟨_, _, _, _, _, h1, h2, h4, h5, rfl⟩)
    | collapsed h1 h2 h3 =>
      obtain ⟨v, rfl⟩ := h1.head
      rw [bracket, orElse_of_none ((link_none hrec).2 (by
        intro t v d ti r' h6 h7
        obtain ⟨_, rfl⟩ := h1.unique h6
        cases h7)), orElse_of_none (note_none.2 h2)]
      exact (reference_iff hrec).2 (.inr (.inl ⟨_, _, h1, h3, rfl⟩))
    | shortcut h1 h2 h3 h4 h5 h6 =>
      obtain ⟨v, rfl⟩ := h1.head
      rw [bracket, orElse_of_none ((link_none hrec).2 (by
        intro t v d ti r' h7 h8
        obtain ⟨_, rfl⟩ := h1.unique h7
        exact h2 _ _ _ h8)), orElse_of_none (note_none.2 h3)]
      exact (reference_iff hrec).2 (.inr (.inr ⟨_, _, h1, h4, h5, h6, rfl⟩))
    | lineBreak h =>
      obtain ⟨c, v, rfl, hc⟩ : ∃ c v, s = c :: v ∧ (c = '\\' ∨ c = ' ') := by
        rcases h with ⟨e, _, rfl⟩ | ⟨n, e, hn, _, rfl⟩
        · exact ⟨_, _, rfl, .inl rfl⟩
        · obtain ⟨k, rfl⟩ : ∃ k, n = k + 1 := ⟨n - 1, by omega⟩
          exact ⟨_, _, rfl, .inr rfl⟩
      have hcs : c ≠ '<' ∧ c ≠ '[' := by rcases hc with rfl | rfl <;> decide
      unfold nodeP
      rw [orElse_of_none (mapP_none.2 (autolinkP_head hcs.1)), orElse_of_none (inlineLink_head hcs.2),
        orElse_of_none (footnoteReferenceP_head hcs.2), orElse_of_none (referenceLink_head hcs.2)]
      exact orElse_of_some (break_iff.2 ⟨rfl, h⟩)
    | image h =>
      obtain ⟨v, h1, h2, rfl⟩ := id h
      unfold nodeP
      rw [orElse_of_none (mapP_none.2 (autolinkP_head (by decide))), orElse_of_none (inlineLink_head (by decide)),
        orElse_of_none (footnoteReferenceP_head (by decide)), orElse_of_none (referenceLink_head (by decide)),
        orElse_of_none (hardNewline_head (by decide) (by decide))]
      exact orElse_of_some (image_iff.2 ⟨_, _, _, rfl, h⟩)
    | code h =>
      obtain ⟨v, rfl⟩ : ∃ v, s = '`' :: v := by
        obtain ⟨w, h, rfl⟩ := h
        cases h with
        | @mk n o t c hn =>
          obtain ⟨k, rfl⟩ : ∃ k, n = k + 1 := ⟨n - 1, by omega⟩
          exact ⟨_, rfl⟩
      unfold nodeP
      rw [orElse_of_none (mapP_none.2 (autolinkP_head (by decide))), orElse_of_none (inlineLink_head (by decide)),
        orElse_of_none (footnoteReferenceP_head (by decide)), orElse_of_none (referenceLink_head (by decide)),
        orElse_of_none (hardNewline_head (by decide) (by decide)), orElse_of_none (imageP_head (by decide))]
      exact orElse_of_some (mapP_some.2 ⟨_, code_iff.2 h, rfl⟩)
    | identifier h =>
      obtain ⟨c, v, rfl, hc⟩ : ∃ c v, s = c :: v ∧ isAlpha c = true := by
        obtain ⟨h, _, rfl⟩ := h
        obtain ⟨c, v, rfl, hc⟩ := h.cons
        exact ⟨c, _, rfl, hc⟩
      unfold nodeP
      rw [orElse_of_none (mapP_none.2 (autolinkP_head (alpha_ne hc (by decide)))),
        orElse_of_none (inlineLink_head (alpha_ne hc (by decide))),
        orElse_of_none (footnoteReferenceP_head (alpha_ne hc (by decide))),
        orElse_of_none (referenceLink_head (alpha_ne hc (by decide))),
        orElse_of_none (hardNewline_head (alpha_ne hc (by decide)) (alpha_ne hc (by decide))),
        orElse_of_none (imageP_head (alpha_ne hc (by decide))),
        orElse_of_none (mapP_none.2 (codeSpan_head (alpha_ne hc (by decide))))]
      exact orElse_of_some (identifier_iff.2 ⟨_, rfl, h⟩)
    | both hm h1 h2 =>
      obtain ⟨v, rfl⟩ := h1.head (by decide)
      rw [marks _ _ hm]
      exact (emphasis_iff hrec).2 (.inl ⟨_, _, _, hm, h1, h2, rfl⟩)
    | strong hm h1 h3 h2 =>
      obtain ⟨v, rfl⟩ := h1.head (by decide)
      rw [marks _ _ hm]
      exact (emphasis_iff hrec).2 (.inr (.inl ⟨_, _, _, hm, h1, h3, h2, rfl⟩))
    | emphasis hm h1 h3 h4 h2 =>
      obtain ⟨v, rfl⟩ := h1.head (by decide)
      rw [marks _ _ hm]
      exact (emphasis_iff hrec).2 (.inr (.inr ⟨_, _, _, hm, h1, h3, h4, h2, rfl⟩))
    | strike h1 h2 =>
      obtain ⟨v, rfl⟩ : ∃ v, s = '~' :: v := by obtain ⟨_, _, rfl⟩ := h1; exact ⟨_, rfl⟩
      unfold nodeP
      rw [orElse_of_none (mapP_none.2 (autolinkP_head (by decide))), orElse_of_none (inlineLink_head (by decide)),
        orElse_of_none (footnoteReferenceP_head (by decide)), orElse_of_none (referenceLink_head (by decide)),
        orElse_of_none (hardNewline_head (by decide) (by decide)), orElse_of_none (imageP_head (by decide)),
        orElse_of_none (mapP_none.2 (codeSpan_head (by decide))), orElse_of_none (environmentVariable_head (by decide)),
        orElse_of_none (emphasisP_head (by decide) (by decide))]
      exact strike_iff.2 ⟨_, _, rfl, h1, h2⟩

theorem ends_iff (hp : InlineParse cfg) {s : Str} : notAText x cfg rec s ≠ none ↔ Ends x cfg.entities s := by
  rw [ne_eq, notAText_none_iff hp]
  constructor
  · intro h
    cases e : nodeP x rec s with
    | none =>
      cases e' : htmlEntity cfg s with
      | none => exact absurd ⟨e, e'⟩ h
      | some y => exact .ref (ref_iff.1 (show _ = some (y.1, y.2) from e'))
    | some y =>
      have h1 := (node_iff hrec).1 (show _ = some (y.1, y.2) from e)
      generalize y.2 = i at h1
      generalize y.1 = r at h1
      cases h1 with
      | autolink h => exact .autolink h
      | link h _ _ => exact .label h
      | footnote h _ => exact .footnote h
      | reference h _ _ _ _ => exact .label h
      | collapsed h _ _ => exact .label h
      | shortcut h _ _ _ _ _ => exact .label h
      | lineBreak h => exact .lineBreak h
      | image h => exact .image h
      | code h => exact .code h
      | identifier h => exact .identifier h
      | both hm h _ => exact .emphasis hm (by decide) (by decide) h
      | strong hm h _ _ => exact .emphasis hm (by decide) (by decide) h
      | emphasis hm h _ _ _ => exact .emphasis hm (by decide) (by decide) h
      | strike h _ => exact .strike h
  · rintro h ⟨h1, h2⟩
    obtain ⟨n1, n2, n3, n4, n5, n6, n7, n8, n9, n10⟩ := nodeP_none.1 h1
    cases h with
    | autolink h => rw [autolink_iff.2 h] at n1; cases n1
    | label h =>
      unfold referenceLink referenceLinkShortcut at n4
      rw [orElse_none, orElse_none, mapP_none] at n4
      exact (label_none hrec).1 n4.2.2 _ _ h
    | footnote h => exact note_none.1 n3 _ _ h
    | lineBreak h => rw [break_iff.2 ⟨rfl, h⟩] at n5; cases n5
    | image h => rw [image_iff.2 ⟨_, _, _, rfl, h⟩] at n6; cases n6
    | code h => rw [code_iff.2 h] at n7; cases n7
    | identifier h => rw [identifier_iff.2 ⟨_, rfl, h⟩] at n8; cases n8
    | @emphasis m n o r hm hn1 hn3 h =>
      unfold emphasisP at n9
      simp only [orElse_none, mapP_none] at n9
      obtain ⟨⟨a1, a2⟩, ⟨a3, a4⟩, a5, a6⟩ := n9
      have : emphasisDelimited x rec (List.replicate n m) s = none := by
        have : n = 1 ∨ n = 2 ∨ n = 3 := by omega
        rcases hm with rfl | rfl <;> rcases this with rfl | rfl | rfl <;> assumption
      exact (emph_none hrec hm (by omega)).1 this _ _ h
    | strike h =>
      obtain ⟨l, hl⟩ := Option.ne_none_iff_exists'.1 (hrec _ h.ne)
      rw [strike_iff.2 ⟨_, _, rfl, h, hl⟩] at n10; cases n10
    | ref h => rw [ref_iff.2 h] at h2; cases h2

end

end Verif.Exact
