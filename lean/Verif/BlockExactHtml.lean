import Verif.BlockExactLeaf
/-!
# HTML blocks, exactly (for C85)
-/
set_option autoImplicit false
set_option linter.unusedVariables false
set_option linter.unusedSimpArgs false
namespace Verif.Exact
open Nom

theorem blankNext_iff {v : Str} (hv : v ≠ []) : BlankNext v ↔ blankLineOrEof v ≠ none := by
  constructor
  · rintro ⟨e, b, e', r, h1, h2, h3, rfl⟩
    exact blankLine_of h1 h3 (fun c hc => isSpace_iff.2 (h2 c hc))
  · intro h
    obtain ⟨⟨r, u⟩, h⟩ := ne_none_iff.1 h
    obtain ⟨w, rfl, h'⟩ := blankLineOrEof_writes _ _ _ h
    rcases h' with ⟨rfl, rfl⟩ | ⟨nl, sp, nl', rfl, h1, h2, h3⟩
    · exact absurd rfl hv
    · exact ⟨nl, sp, nl', r, h1, h2, h3, by simp⟩

theorem upToBlank_iff {body v : Str} : until_ blankLineOrEof (body ++ v) = some (v, body) ↔ UpToBlank body v := by
  constructor
  · intro h
    obtain ⟨w, hw, rfl, h1, h2⟩ := until_writes _ _ _ h
    refine ⟨?_, fun a b hab hb hn => ?_⟩
    · by_cases hv : v = []
      · exact .inl hv
      · exact .inr ((blankNext_iff hv).2 (ne_none_iff.2 (h2 hv)))
    · exact (blankNext_iff (by simp [hb])).1 hn (h1 a b hab hb)
  · rintro ⟨h1, h2⟩
    refine until_of (fun a b hab hb => ?_) ?_
    · have := h2 a b hab hb
      rw [blankNext_iff (by simp [hb])] at this
      simpa using this
    · rcases h1 with rfl | h1
      · exact .inl rfl
      · by_cases hv : v = []
        · exact .inl hv
        · exact .inr (ne_none_iff.1 ((blankNext_iff hv).1 h1))

theorem htmlKindE {α : Type} {p : P α} [Suf p] {E : Str → Str → Prop} (h : Writes p (fun _ w r => E w r)) {s r t : Str}
    (hp : preceded indent03 (recognize p) s = some (r, t)) : ∃ k, k ≤ 3 ∧ s = sp k ++ (t ++ r) ∧ E t r := by
  obtain ⟨s1, _, h1, h2⟩ := preceded_some.1 hp
  obtain ⟨k, hk, _, rfl, _⟩ := indent03_written h1
  obtain ⟨w, rfl, rfl, h3⟩ := h.recognize _ _ _ h2
  exact ⟨k, hk, rfl, h3⟩

theorem htmlInd {α : Type} {p : P α} {k : Nat} {w t r : Str} {v : α} (hk : k ≤ 3) (hw : w = '<' :: t)
    (h : p (w ++ r) = some (r, v)) : preceded indent03 (recognize p) (sp k ++ (w ++ r)) = some (r, w) := by
  refine preceded_some.2 ⟨_, _, indent03_replicate hk (by rw [hw]; simp), recognize_of h⟩

/-! ## Reading -/

theorem html1_read {s r h : Str} (hp : htmlBlock1 s = some (r, h)) : ∃ k, k ≤ 3 ∧ s = sp k ++ (h ++ r) ∧ HtmlRead h r := by
  refine htmlKindE (E := HtmlRead) ?_ hp
  have hsep : Writes (value () (chr ' ') <||> value () (chr '>') <||> value () lineEnding) (fun _ w _ => RawSep w) :=
    .orElse (.unit (chr_writes.mono fun _ _ _ h => .inl h)) (.orElse (.unit (chr_writes.mono fun _ _ _ h => .inr (.inl h)))
      (.unit (lineEnding_writes.mono fun _ _ _ h => .inr (.inr h))))
  refine (Writes.seq chr_writes (Writes.seq html1Tag_writes (Writes.seq hsep (Writes.seq until_writes
    html1End_writes)))).mono ?_
  rintro y w r ⟨w1, w2, rfl, rfl, w3, w4, rfl, h1, w5, w6, rfl, h2, w7, w8, rfl, ⟨_, h3, _⟩, h4⟩
  refine HtmlRead.raw (name := w3) (sep := w5) (body := w7) (close := w8) (r := r) h1 h2 h4 ⟨⟨w8, r, h4, rfl⟩, ?_⟩
  rintro a b hab hb ⟨c, t, ⟨n, hn, rfl⟩, hc⟩
  have := h3 a b hab hb
  rw [hc, html1End_of hn] at this
  simp at this

theorem marked_read {c : Str} {α β : Type} {p : P α} {stop : P β} [Suf p] [Suf stop]
    (hp : Writes p (fun _ w _ => ∃ o, HtmlMarkers o c ∧ w = o)) (hst : ∀ t, stop (c ++ t) ≠ none) :
    Writes (Nom.seq p (Nom.seq (until_ stop) (tag c))) (fun _ w r => HtmlRead w r) := by
  refine (Writes.seq hp (Writes.seq until_writes tag_writes)).mono ?_
  rintro y w r ⟨w1, w2, rfl, ⟨o, ho, rfl⟩, w3, w4, rfl, ⟨_, h1, _⟩, rfl⟩
  refine .marked ho ⟨⟨r, rfl⟩, ?_⟩
  rintro a b hab hb ⟨t, ht⟩
  exact hst t (by rw [ht]; exact h1 a b hab hb)

theorem html2_read {s r h : Str} (hp : htmlBlock2 s = some (r, h)) : ∃ k, k ≤ 3 ∧ s = sp k ++ (h ++ r) ∧ HtmlRead h r :=
  htmlKindE (marked_read (tag_writes.mono fun _ _ _ h => ⟨_, .comment, h⟩) tag_not_none) hp

theorem html3_read {s r h : Str} (hp : htmlBlock3 s = some (r, h)) : ∃ k, k ≤ 3 ∧ s = sp k ++ (h ++ r) ∧ HtmlRead h r :=
  htmlKindE (marked_read (tag_writes.mono fun _ _ _ h => ⟨_, .instruction, h⟩) tag_not_none) hp

theorem html5_read {s r h : Str} (hp : htmlBlock5 s = some (r, h)) : ∃ k, k ≤ 3 ∧ s = sp k ++ (h ++ r) ∧ HtmlRead h r :=
  htmlKindE (marked_read (tag_writes.mono fun _ _ _ h => ⟨_, .cdata, h⟩) tag_not_none) hp

theorem html4_read {s r h : Str} (hp : htmlBlock4 s = some (r, h)) : ∃ k, k ≤ 3 ∧ s = sp k ++ (h ++ r) ∧ HtmlRead h r := by
  refine htmlKindE (E := HtmlRead) ((Writes.seq tag_writes (Writes.seq (p := satisfy isAsciiUpper)
    (E := fun _ w _ => ∃ X, isAsciiUpper X = true ∧ w = [X]) ?_ (Writes.seq until_writes tag_writes))).mono ?_) hp
  · intro s r a h
    obtain ⟨rfl, h'⟩ := satisfy_some.1 h
    exact ⟨[a], rfl, a, h', rfl⟩
  · rintro y w r ⟨w1, w2, rfl, rfl, w3, w4, rfl, ⟨X, hX, rfl⟩, w5, w6, rfl, ⟨_, h1, _⟩, rfl⟩
    have := HtmlRead.marked (body := w5) (r := r) (HtmlMarkers.declaration hX) ⟨⟨r, rfl⟩, by
      rintro a b hab hb ⟨t, ht⟩
      have := h1 a b hab hb
      rw [← ht] at this
      simp [chr_cons] at this⟩
    simpa using this

theorem blockName_writes : Writes (anyTagNoCase html6Names)
    (fun _ w _ => w.map asciiLower ∈ blockTags ∧ Unshadowed (w.map asciiLower)) := by
  intro s r v h
  obtain ⟨pre, t, post, h1, h2, h3, h4⟩ := anyTag_first h
  refine ⟨v, h3, ?_, ?_⟩
  · show List.map asciiLower v ∈ blockTags
    rw [h2]
    exact html6Names_blockTags t (by rw [h1]; simp)
  · show Unshadowed (List.map asciiLower v)
    rw [h2]
    refine Classical.byContradiction fun hs => ?_
    obtain ⟨t', ht', hp⟩ := html6Names_shadow _ _ _ h1 hs
    exact h4 t' ht' hp

theorem html6_read {s r h : Str} (hp : htmlBlock6 s = some (r, h)) : ∃ k, k ≤ 3 ∧ s = sp k ++ (h ++ r) ∧
    HtmlRead h r ∧ ∃ w, BlockTag w ∧ w <+: h := by
  have hopen : Writes (value () (tag cs!"</") <||> value () (chr '<')) (fun _ w _ => w = cs!"<" ∨ w = cs!"</") :=
    .orElse (.unit (tag_writes.mono fun _ _ _ h => .inr h)) (.unit (chr_writes.mono fun _ _ _ h => .inl h))
  have hsep : Writes (value () (chr ' ') <||> value () lineEnding <||> value () (tag cs!"/>") <||> value () (chr '>'))
      (fun _ w _ => w = [' '] ∨ w = ['>'] ∨ w = cs!"/>" ∨ IsNewline w) :=
    .orElse (.unit (chr_writes.mono fun _ _ _ h => .inl h)) (.orElse (.unit (lineEnding_writes.mono fun _ _ _ h => .inr (.inr (.inr h))))
      (.orElse (.unit (tag_writes.mono fun _ _ _ h => .inr (.inr (.inl h)))) (.unit (chr_writes.mono fun _ _ _ h => .inr (.inl h)))))
  refine htmlKindE (E := fun h r => HtmlRead h r ∧ ∃ w, BlockTag w ∧ w <+: h) ((Writes.seq hopen (Writes.seq blockName_writes
    (Writes.seq hsep (Writes.seq until_writes lineEnding_writes.opt)))).mono ?_) hp
  rintro y w r ⟨w1, w2, rfl, h1, w3, w4, rfl, h2, w5, w6, rfl, h3, w7, w8, rfl, ⟨h4, h5, h6⟩, h7⟩
  have ht : BlockTag (w1 ++ (w3 ++ w5)) := ⟨w1, w3, w5, h1, h2.1, h2.2, h3, rfl⟩
  have hu : UpToBlank w7 (w8 ++ r) := by
    refine ⟨?_, fun a b hab hb hn => ?_⟩
    · by_cases hv : w8 ++ r = []
      · exact .inl hv
      · exact .inr ((blankNext_iff hv).2 (ne_none_iff.2 (h6 hv)))
    · exact (blankNext_iff (by simp [hb])).1 hn (h5 a b hab hb)
  refine ⟨?_, _, ht, ⟨w7 ++ w8, by simp⟩⟩
  have := HtmlRead.block (e := w8) (r := r) ht hu (by
    rcases h7 with ⟨a, _, h8⟩ | ⟨rfl, _, h8⟩
    · exact .inr h8
    · left
      refine ⟨rfl, ?_⟩
      by_cases hr : r = []
      · exact hr
      · exfalso
        rcases hu.1 with h9 | ⟨e, b, e', r', g1, _, _, h9⟩
        · exact hr h9
        · rw [List.nil_append] at h9
          rw [h9, lineEnding_newl g1] at h8
          simp at h8)
  simpa using this

/-! ## Being read -/

theorem raw_of {k : Nat} {name sep body close r : Str} (hk : k ≤ 3) (h1 : name.map asciiLower ∈ rawTags) (h2 : RawSep sep)
    (h3 : RawClose close) (h4 : UpTo (fun v => ∃ c b, RawClose c ∧ v = c ++ b) body (close ++ r)) :
    htmlBlock1 (sp k ++ ('<' :: (name ++ (sep ++ (body ++ close))) ++ r)) =
      some (r, '<' :: (name ++ (sep ++ (body ++ close)))) := by
  obtain ⟨c, t, hsep, g1, g2, g3⟩ := h2.shape
  obtain ⟨n, hn, hcl⟩ := h3
  have hend : html1End (close ++ r) = some (r, n) := by rw [hcl]; exact html1End_of hn
  have hu : until_ html1End (body ++ (close ++ r)) = some (close ++ r, body) := by
    refine until_of (fun a b hab hb => ?_) (.inr ⟨_, hend⟩)
    cases e : html1End (b ++ (close ++ r)) with
    | none => rfl
    | some y =>
      obtain ⟨cl, g4, g5⟩ := html1End_some (r := y.1) (w := y.2) e
      exact absurd ⟨cl, y.1, g4, g5⟩ (h4.2 a b hab hb)
  have htag : html1Tag (name ++ (sep ++ (body ++ (close ++ r)))) = some (sep ++ (body ++ (close ++ r)), name) := by
    rw [hsep]; exact html1Tag_of g1 g2 h1
  refine htmlInd (v := ('<', (name, ((), (body, n))))) hk rfl (seq_some.2 ⟨name ++ (sep ++ (body ++ (close ++ r))), ?_, seq_some.2
    ⟨_, htag, seq_some.2 ⟨_, g3 _, seq_some.2 ⟨_, hu, hend⟩⟩⟩⟩)
  simp [chr_cons]

theorem upTo_infix {c body r : Str} (hc : c ≠ []) (h : UpTo (fun v => c <+: v) body (c ++ r)) : ¬ c <:+: body ++ c.dropLast := by
  rintro ⟨a, b, hab⟩
  have hlen := congrArg List.length hab
  simp at hlen
  have hpos : 0 < c.length := List.length_pos_iff.2 hc
  have hlt : a.length < body.length := by omega
  have e : body ++ (c ++ r) = a ++ (c ++ (b ++ (c.getLast hc :: r))) := by
    have h2 : c = c.dropLast ++ [c.getLast hc] := (List.dropLast_concat_getLast hc).symm
    calc body ++ (c ++ r) = body ++ ((c.dropLast ++ [c.getLast hc]) ++ r) := by rw [← h2]
      _ = (body ++ c.dropLast) ++ (c.getLast hc :: r) := by simp
      _ = _ := by rw [← hab]; simp
  rcases List.append_eq_append_iff.1 e with ⟨z, h3, h4⟩ | ⟨z, h3, h4⟩
  · rw [h3] at hlt; simp at hlt; omega
  · refine h.2 a z h3 ?_ ⟨_, h4⟩
    rintro rfl
    simp at h3; rw [h3] at hlt; omega

theorem html6_of {k : Nat} {w body e r : Str} (hk : k ≤ 3) (hw : BlockTag w) (hu : UpToBlank body (e ++ r))
    (he : (e = [] ∧ r = []) ∨ IsNewline e) :
    htmlBlock6 (sp k ++ (w ++ (body ++ e) ++ r)) = some (r, w ++ (body ++ e)) := by
  obtain ⟨o, name, sep, h1, h2, h3, h4, rfl⟩ := hw
  have hsep : ∃ c t, sep = c :: t ∧ c ∈ afterTag ∧ (value () (chr ' ') <||> value () lineEnding <||> value () (tag cs!"/>") <||>
        value () (chr '>')) (sep ++ (body ++ (e ++ r))) = some (body ++ (e ++ r), ()) := by
    rcases h4 with rfl | rfl | rfl | rfl | rfl
    · exact ⟨_, _, rfl, by decide, rfl⟩
    · exact ⟨_, _, rfl, by decide, rfl⟩
    · refine ⟨_, _, rfl, by decide, ?_⟩
      rw [orElse_of_none (by rfl), orElse_of_none (by rfl)]
      exact orElse_of_some (value_some.2 ⟨_, tag_append cs!"/>" _, rfl⟩)
    · exact ⟨_, _, rfl, by decide, rfl⟩
    · exact ⟨_, _, rfl, by decide, rfl⟩
  obtain ⟨c, t, hct, hc, hsep⟩ := hsep
  have htag : anyTagNoCase html6Names (name ++ (sep ++ (body ++ (e ++ r)))) = some (sep ++ (body ++ (e ++ r)), name) := by
    rw [hct]; exact anyTagNoCase_of hc (fun t ht => ht) (blockTags_html6Names _ h2) h3
  have hopen : (value () (tag cs!"</") <||> value () (chr '<')) (o ++ (name ++ (sep ++ (body ++ (e ++ r))))) =
      some (name ++ (sep ++ (body ++ (e ++ r))), ()) := by
    rcases h1 with rfl | rfl
    · rw [orElse_of_none]
      · exact value_some.2 ⟨_, chr_cons _ _, rfl⟩
      · rw [value_none, tag_none]
        rintro ⟨z, hz⟩
        simp at hz
        cases name with
        | nil =>
          simp at h2
          revert h2; decide
        | cons d name =>
          simp at hz
          rw [← hz.1] at h2
          have : asciiLower '/' = '/' := by decide
          simp only [List.map_cons, this] at h2
          have hall : ∀ t ∈ blockTags, t.head? ≠ some '/' := by decide
          exact hall _ h2 rfl
    · exact orElse_of_some (value_some.2 ⟨_, tag_append cs!"</" _, rfl⟩)
  have hend : ∃ v, opt lineEnding (e ++ r) = some (r, v) := by
    rcases he with ⟨rfl, rfl⟩ | he
    · exact ⟨none, rfl⟩
    · exact ⟨some e, opt_some.2 (.inl ⟨e, lineEnding_newl he _, rfl⟩)⟩
  obtain ⟨v, hend⟩ := hend
  have : ∃ t, o ++ (name ++ sep) ++ (body ++ e) = '<' :: t := by
    rcases h1 with rfl | rfl <;> exact ⟨_, rfl⟩
  obtain ⟨t, ht⟩ := this
  refine htmlInd (v := ((), (name, ((), (body, v))))) hk ht (seq_some.2 ⟨name ++ (sep ++ (body ++ (e ++ r))), ?_,
    seq_some.2 ⟨_, htag, seq_some.2 ⟨_, hsep, seq_some.2 ⟨_, upToBlank_iff.2 hu, hend⟩⟩⟩⟩)
  have := hopen
  simpa using this

theorem block_of {k : Nat} {w body e r : Str} (hk : k ≤ 3) (hw : BlockTag w) (hu : UpToBlank body (e ++ r))
    (he : (e = [] ∧ r = []) ∨ IsNewline e) :
    htmlBlockP (sp k ++ (w ++ (body ++ e) ++ r)) = some (r, w ++ (body ++ e)) := by
  have key := html6_of hk hw hu he
  obtain ⟨o, name, sep, h1, h2, h3, h4, rfl⟩ := hw
  have hsep : ∃ c t, sep = c :: t ∧ c ∈ afterTag := by
    rcases h4 with rfl | rfl | rfl | rfl | rfl <;> exact ⟨_, _, rfl, by decide⟩
  obtain ⟨c, t, hct, hc⟩ := hsep
  obtain ⟨n1, n2, n3, n4, n5⟩ := htmlBlock_open_none (u := t ++ (body ++ (e ++ r))) hk h1 h2 hc
  have hs : List.replicate k ' ' ++ (o ++ (name ++ c :: (t ++ (body ++ (e ++ r))))) =
      sp k ++ (o ++ (name ++ sep) ++ (body ++ e) ++ r) := by rw [hct]; simp [sp]
  rw [hs] at n1 n2 n3 n4 n5
  unfold htmlBlockP
  rw [orElse_of_none n1, orElse_of_none n2, orElse_of_none n3, orElse_of_none n4, orElse_of_none n5]
  exact orElse_of_some key

theorem tag_of {k : Nat} {name t sep body e r : Str} (hk : k ≤ 3) (ht : CompleteTag name t)
    (hs : sep = [' '] ∨ IsNewline sep) (hb : ∀ w, BlockTag w → ¬ w <+: t ++ (sep ++ (body ++ (e ++ r))))
    (hu : UpToBlank body (e ++ r)) (he : BlankEnd e r) :
    htmlBlockP (sp k ++ (t ++ (sep ++ (body ++ e)) ++ r)) = some (r, t ++ (sep ++ (body ++ e))) := by
  obtain ⟨hn, lt, c, u, hs1, hc1, hlt⟩ := ht.shape
  obtain ⟨n1, n2, n3, n4, n5⟩ := htmlBlock15_none (u := u ++ (sep ++ (body ++ (e ++ r)))) hk hn hc1 hlt
  have hs' : List.replicate k ' ' ++ (lt ++ (name ++ c :: (u ++ (sep ++ (body ++ (e ++ r)))))) =
      sp k ++ (t ++ (sep ++ (body ++ e)) ++ r) := by rw [hs1]; simp [sp]
  rw [hs'] at n1 n2 n3 n4 n5
  have hlt' : ∃ t', t = '<' :: t' := by
    rcases hlt with ⟨rfl, _⟩ | rfl <;> exact ⟨_, hs1⟩
  obtain ⟨t', ht'⟩ := hlt'
  have n6 : htmlBlock6 (sp k ++ (t ++ (sep ++ (body ++ e)) ++ r)) = none := by
    cases h6 : htmlBlock6 (sp k ++ (t ++ (sep ++ (body ++ e)) ++ r)) with
    | none => rfl
    | some y =>
      exfalso
      obtain ⟨j, hj, h7, _, w, hw, z, hz⟩ := html6_read (r := y.1) (h := y.2) h6
      obtain ⟨o, name', sep', g1, _, _, _, g2⟩ := hw
      have hw' : ∃ v, w = '<' :: v := by rcases g1 with rfl | rfl <;> exact ⟨_, g2⟩
      obtain ⟨v, hv⟩ := hw'
      have h8 : t ++ (sep ++ (body ++ e)) ++ r = y.2 ++ y.1 := by
        rw [ht', ← hz, hv] at h7 ⊢
        simp only [List.cons_append] at h7 ⊢
        obtain ⟨_, h9⟩ := sp_split' (by decide) (by decide) h7
        rw [h9]
      refine hb w ⟨o, name', sep', g1, by assumption, by assumption, by assumption, g2⟩ ⟨z ++ y.1, ?_⟩
      rw [← List.append_assoc, hz, ← h8]
      simp
  unfold htmlBlockP
  rw [orElse_of_none n1, orElse_of_none n2, orElse_of_none n3, orElse_of_none n4, orElse_of_none n5, orElse_of_none n6]
  refine htmlInd (v := (t, ((), (body, ())))) hk (by rw [ht']; rfl) (seq_some.2 ⟨sep ++ (body ++ (e ++ r)), ?_, seq_some.2
    ⟨body ++ (e ++ r), ?_, seq_some.2 ⟨_, upToBlank_iff.2 hu, he.stop⟩⟩⟩)
  · have := ht.parse (sep ++ (body ++ (e ++ r)))
    simpa using this
  · rcases hs with rfl | h
    · rw [orElse_of_none]
      · exact value_some.2 ⟨_, chr_cons _ _, rfl⟩
      · rfl
    · exact orElse_of_some (value_some.2 ⟨_, lineEnding_newl h _, rfl⟩)

theorem html_of {k : Nat} {h r : Str} (hk : k ≤ 3) (hh : HtmlRead h r) : htmlBlockP (sp k ++ (h ++ r)) = some (r, h) := by
  cases hh with
  | raw h1 h2 h3 h4 => exact orElse_of_some (raw_of hk h1 h2 h3 h4)
  | @marked o c body _ h1 h2 =>
    have hc : c ≠ [] := by cases h1 <;> simp
    have := h1.parse (rest := r) hk (upTo_infix hc h2)
    simpa [sp] using this
  | block h1 h2 h3 => exact block_of hk h1 h2 h3
  | tag h1 h2 h3 h4 h5 => exact tag_of hk h1 h2 h3 h4 h5

theorem html7_read {s r h : Str} (h6 : htmlBlock6 s = none)
    (hp : htmlBlock7 s = some (r, h)) : ∃ k, k ≤ 3 ∧ s = sp k ++ (h ++ r) ∧ HtmlRead h r := by
  have hsep : Writes (value () lineEnding <||> value () (chr ' ')) (fun _ w _ => w = [' '] ∨ IsNewline w) :=
    .orElse (.unit (lineEnding_writes.mono fun _ _ _ h => .inr h)) (.unit (chr_writes.mono fun _ _ _ h => .inl h))
  obtain ⟨k, hk, rfl, name, t, sep, body, e, rfl, h1, h2, h3, h4⟩ := htmlKindE (E := fun h r => ∃ name t sep body e,
      h = t ++ (sep ++ (body ++ e)) ∧ CompleteTag name t ∧ (sep = [' '] ∨ IsNewline sep) ∧
      UpToBlank body (e ++ r) ∧ BlankEnd e r) ((Writes.seq completeTag_writes (Writes.seq hsep (Writes.seq until_writes
      blankLineOrEof_writes))).mono (by
    rintro y w r ⟨w1, w2, rfl, ⟨_, n, h1⟩, w3, w4, rfl, h2, w5, w6, rfl, ⟨_, h5, h6⟩, h4⟩
    refine ⟨n, w1, w3, w5, w6, rfl, h1, h2, ⟨?_, fun a b hab hb hn => ?_⟩, h4⟩
    · by_cases hv : w6 ++ r = []
      · exact .inl hv
      · exact .inr ((blankNext_iff hv).2 (ne_none_iff.2 (h6 hv)))
    · exact (blankNext_iff (by simp [hb])).1 hn (h5 a b hab hb))) hp
  refine ⟨k, hk, rfl, .tag h1 h2 ?_ h3 h4⟩
  rintro w hw ⟨z, hz⟩
  -- then it would be a block of type 6
  obtain ⟨r', l, hm⟩ := many0_ex (p := preceded (notP blankLineOrEof) anychar) z
  have hu : until_ blankLineOrEof z = some (r', l) := hm
  obtain ⟨w', hw', hl, _, h9⟩ := until_writes _ _ _ hu
  subst hl
  rw [hw'] at hu
  have hu' := upToBlank_iff.1 hu
  have : ∃ e r, r' = e ++ r ∧ ((e = [] ∧ r = []) ∨ IsNewline e) := by
    rcases hu'.1 with rfl | ⟨e, b, e', r, g1, _, _, rfl⟩
    · exact ⟨[], [], rfl, .inl ⟨rfl, rfl⟩⟩
    · exact ⟨e, _, rfl, .inr g1⟩
  obtain ⟨e1, r1, rfl, he1⟩ := this
  have key := html6_of hk hw hu' he1
  have hs : sp k ++ (w ++ (l ++ e1) ++ r1) = sp k ++ (t ++ (sep ++ (body ++ e)) ++ r) := by
    rw [hw'] at hz
    simp [hz]
  rw [hs, h6] at key
  simp at key

theorem html_exact {s r h : Str} : htmlBlockP s = some (r, h) ↔ ∃ k, k ≤ 3 ∧ s = sp k ++ (h ++ r) ∧ HtmlRead h r := by
  constructor
  · intro hp
    have hp' := hp
    unfold htmlBlockP at hp
    simp only [orElse_some] at hp
    rcases hp with h | ⟨_, h | ⟨_, h | ⟨_, h | ⟨_, h | ⟨_, h | ⟨h6, h⟩⟩⟩⟩⟩⟩
    · exact html1_read h
    · exact html2_read h
    · exact html3_read h
    · exact html4_read h
    · exact html5_read h
    · obtain ⟨k, h1, h2, h3, _⟩ := html6_read h
      exact ⟨k, h1, h2, h3⟩
    · exact html7_read h6 h
  · rintro ⟨k, hk, rfl, h⟩
    exact html_of hk h

end Verif.Exact
