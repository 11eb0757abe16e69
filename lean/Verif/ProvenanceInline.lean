import Verif.Provenance
/-!
# Inlines lose only markup (C70)
-/
set_option linter.unusedVariables false
set_option linter.unusedSimpArgs false
namespace Verif
open Nom

section
variable {ent : Str → Option Str}

theorem DecodesTo.refl : ∀ s, DecodesTo ent s s
  | [] => .nil
  | c :: s => .char (refl s)

theorem DecodesTo.append {a b c d : Str} (h : DecodesTo ent a b) (h' : DecodesTo ent c d) :
    DecodesTo ent (a ++ c) (b ++ d) := by
  induction h with
  | nil => exact h'
  | char _ ih => exact .char ih
  | ref hr _ ih => simpa using DecodesTo.ref hr ih

theorem SpellsInlines.append {l l' : List Inline} {o o' : Str} (h : SpellsInlines ent l o)
    (h' : SpellsInlines ent l' o') : SpellsInlines ent (l ++ l') (o ++ o') := by
  induction h with
  | nil => exact h'
  | text hd _ ih => rw [List.append_assoc]; exact .text hd ih
  | lineBreak _ ih => exact .lineBreak ih
  | code _ ih => rw [List.append_assoc]; exact .code ih
  | link hc _ _ ih => simp only [List.append_assoc]; exact .link hc ih
  | reference h1 h2 _ _ _ ih => simp only [List.append_assoc]; exact .reference h1 h2 ih
  | shortcut h1 _ _ ih => simp only [List.append_assoc]; exact .shortcut h1 ih
  | image _ ih => simp only [List.append_assoc]; exact .image ih
  | emphasis h1 _ _ ih => simp only [List.append_assoc]; exact .emphasis h1 ih
  | strong h1 _ _ ih => simp only [List.append_assoc]; exact .strong h1 ih
  | strikethrough h1 _ _ ih => simp only [List.append_assoc]; exact .strikethrough h1 ih
  | autolink _ ih => simp only [List.append_assoc]; exact .autolink ih
  | footnoteReference _ ih => simp only [List.append_assoc]; exact .footnoteReference ih

theorem SpellsInlines.flatten {l : List (List Inline)} {o : Str} (h : ListE (SpellsInlines ent) l o) :
    SpellsInlines ent l.flatten o := by
  induction h with
  | nil => exact .nil
  | cons h _ ih => exact h.append ih

theorem mergeText_spells {l : List Inline} {o : Str} (h : SpellsInlines ent l o) :
    SpellsInlines ent (mergeText l) o := by
  have key : SpellsInlines ent (mergeTextAux none l) o ∧
      ∀ t o0, DecodesTo ent o0 t → SpellsInlines ent (mergeTextAux (some t) l) (o0 ++ o) := by
    induction h with
    | nil => exact ⟨.nil, fun t o0 h0 => .text h0 .nil⟩
    | text hd _ ih =>
      refine ⟨ih.2 _ _ hd, fun t o0 h0 => ?_⟩
      rw [← List.append_assoc]
      exact ih.2 _ _ (h0.append hd)
    | lineBreak _ ih => exact ⟨.lineBreak ih.1, fun t o0 h0 => .text h0 (.lineBreak ih.1)⟩
    | code _ ih => exact ⟨.code ih.1, fun t o0 h0 => .text h0 (.code ih.1)⟩
    | link hc _ _ ih => exact ⟨.link hc ih.1, fun t o0 h0 => .text h0 (.link hc ih.1)⟩
    | reference h1 h2 _ _ _ ih =>
      exact ⟨.reference h1 h2 ih.1, fun t o0 h0 => .text h0 (.reference h1 h2 ih.1)⟩
    | shortcut h1 _ _ ih => exact ⟨.shortcut h1 ih.1, fun t o0 h0 => .text h0 (.shortcut h1 ih.1)⟩
    | image _ ih => exact ⟨.image ih.1, fun t o0 h0 => .text h0 (.image ih.1)⟩
    | emphasis h1 _ _ ih => exact ⟨.emphasis h1 ih.1, fun t o0 h0 => .text h0 (.emphasis h1 ih.1)⟩
    | strong h1 _ _ ih => exact ⟨.strong h1 ih.1, fun t o0 h0 => .text h0 (.strong h1 ih.1)⟩
    | strikethrough h1 _ _ ih =>
      exact ⟨.strikethrough h1 ih.1, fun t o0 h0 => .text h0 (.strikethrough h1 ih.1)⟩
    | autolink _ ih => exact ⟨.autolink ih.1, fun t o0 h0 => .text h0 (.autolink ih.1)⟩
    | footnoteReference _ ih =>
      exact ⟨.footnoteReference ih.1, fun t o0 h0 => .text h0 (.footnoteReference ih.1)⟩
  exact key.1

/-- What one inline spells. -/
abbrev SpellsInline (ent : Str → Option Str) (i : Inline) (o : Str) : Prop := SpellsInlines ent [i] o

/-- A parser of nested inlines that loses only markup. -/
def RecKeeps (ent : Str → Option Str) (rec : Str → Option (List Inline)) : Prop :=
  ∀ t l, rec t = some l → ∃ o, SpellsInlines ent l o ∧ Er t o

theorem ListE.chars {l : List Char} {o : Str} (h : ListE (fun c o => o = [c]) l o) : o = l := by
  induction h with
  | nil => rfl
  | cons h _ ih => subst h; subst ih; rfl

theorem many1_chars {p : P Char} (h : Gives p (fun c o => o = [c])) : Copies (many1 p) :=
  h.many1.mono fun _ _ => ListE.chars

theorem many0_chars {p : P Char} (h : Gives p (fun c o => o = [c])) : Copies (many0 p) :=
  h.many0.mono fun _ _ => ListE.chars

theorem escape_gives {c : Char} : Gives (value c (tag ['\\', c])) (fun d o => o = [d]) := by
  intro s r d hp
  obtain ⟨t, hp', rfl⟩ := value_some.1 hp
  obtain ⟨rfl, _⟩ := tag_some.1 hp'
  exact ⟨['\\', c], [c], rfl, rfl, .drop (by decide) (.refl _)⟩

variable {rec : Str → Option (List Inline)}

theorem linkLabelInner_gives (hr : RecKeeps ent rec) : Gives (linkLabelInner rec) (SpellsInlines ent) := by
  intro s r l hp
  unfold linkLabelInner at hp
  split at hp
  · simp at hp
  · rename_i r1 label e
    split at hp
    · rename_i l' e2
      simp at hp
      obtain ⟨rfl, rfl⟩ := hp
      have hg : Copies (many1 (preceded (notP (chr ']')) (value ']' (tag cs!"\\]") <||> anychar))) :=
        many1_chars (.preceded Drops.notP (escape_gives.orElse anychar_gives))
      obtain ⟨u, o, h1, rfl, h2⟩ := hg.verify _ _ _ e
      obtain ⟨o, h3, h4⟩ := hr _ _ e2
      exact ⟨u, o, h1, h3, h2.trans h4⟩
    · simp at hp

theorem linkLabel_gives (hr : RecKeeps ent rec) : Gives (linkLabel rec) (SpellsInlines ent) :=
  .delimited (tag_drops (by decide)) (linkLabelInner_gives hr) (tag_drops (by decide))

theorem linkEscapedChar_gives : Gives linkEscapedChar (fun c o => o = [c]) :=
  .preceded (tag_drops (by decide)) anychar_gives

theorem linkTitleInner_copies {c : Char} : Copies (linkTitleInner c) :=
  many0_chars (linkEscapedChar_gives.orElse noneOf_gives)

theorem linkTitle_copies : Copies linkTitle :=
  .orElse (.delimited (tag_drops (by decide)) linkTitleInner_copies (tag_drops (by decide)))
    (.orElse (.delimited (chr_drops (by decide)) linkTitleInner_copies (chr_drops (by decide)))
      (.delimited (chr_drops (by decide)) linkTitleInner_copies (chr_drops (by decide))))

theorem linkDestination1_copies : Copies linkDestination1 :=
  .delimited (chr_drops (by decide))
    (many0_chars (.orElse (.preceded (chr_drops (by decide)) oneOf_gives) (.preceded Drops.notP anychar_gives)))
    (chr_drops (by decide))

theorem linkDestination2_copies : Copies linkDestination2 := by
  intro s r t hp
  unfold linkDestination2 at hp
  split at hp
  · simp at hp
  · exact recognize_copies _ _ _ hp

theorem linkDestination_copies : Copies linkDestination :=
  linkDestination1_copies.orElse linkDestination2_copies

theorem opt_copies {p : P Str} (h : Copies p) : Gives (opt p) (fun t o => o = t.getD []) := by
  refine (Gives.opt h).mono ?_
  intro a o; cases a <;> exact id

theorem destAndTitle_gives : Gives destAndTitle (fun y o => o = y.1 ++ y.2.getD []) := by
  refine (Gives.delimited (chr_drops (by decide)) (Gives.seq
    (Gives.preceded multispace0_drops linkDestination_copies)
    (opt_copies (Gives.preceded multispace0_drops linkTitle_copies)))
    (Drops.preceded multispace0_drops (chr_drops (by decide)))).mono ?_
  rintro ⟨d, t⟩ o ⟨o1, o2, h1, h2, rfl⟩
  simp only at h1 h2
  rw [h1, h2]

theorem inlineLink_gives (hr : RecKeeps ent rec) : Gives (inlineLink rec) (SpellsInline ent) := by
  refine Gives.mapP (((linkLabel_gives hr).seq destAndTitle_gives).mono ?_)
  rintro ⟨l, d, t⟩ o ⟨o1, o2, h1, h2, rfl⟩
  simp only at h1 h2
  subst h2
  simpa using SpellsInlines.link (d := d) (t := t) h1 .nil

theorem footnoteReferenceP_gives : Gives footnoteReferenceP (SpellsInline ent) := by
  refine Gives.mapP ((Gives.delimited (tag_drops (by decide)) takeWhile1_copies (chr_drops (by decide))).mono ?_)
  rintro n o ⟨rfl, _⟩
  simpa using SpellsInlines.footnoteReference (n := o) (ent := ent) .nil

theorem referenceLink_gives (hr : RecKeeps ent rec) : Gives (referenceLink rec) (SpellsInline ent) := by
  have hl := linkLabel_gives hr
  refine .orElse (Gives.mapP ((hl.seq hl).mono ?_)) (.orElse
    (Gives.mapP ((hl.terminated (tag_drops (by decide))).mono ?_)) (Gives.mapP (hl.mono ?_)))
  · rintro ⟨l, d⟩ o ⟨o1, o2, h1, h2, rfl⟩
    simpa using SpellsInlines.reference h1 h2 .nil
  · intro l o h; simpa using SpellsInlines.shortcut h .nil
  · intro l o h; simpa using SpellsInlines.shortcut h .nil

theorem hardNewline_gives : Gives hardNewline (SpellsInline ent) := by
  refine Gives.value (((((chr_drops (by decide)).seq lineEnding_drops).value).orElse
    (((chr_drops (by decide)).manyMin.seq lineEnding_drops).value)).mono ?_)
  rintro _ _ rfl
  exact .lineBreak .nil

theorem imageP_gives : Gives imageP (SpellsInline ent) := by
  refine Gives.mapP ((Gives.seq (Gives.preceded (chr_drops (by decide)) (Gives.delimited (chr_drops (by decide))
    takeWhile_copies (chr_drops (by decide)))) destAndTitle_gives).mono ?_)
  rintro ⟨a, d, t⟩ o ⟨o1, o2, ⟨h1, _⟩, h2, rfl⟩
  simp only at h1 h2
  subst h1 h2
  simpa using SpellsInlines.image (ent := ent) (d := d) (t := t) (a := o1) .nil

theorem autolinkP_gives : Gives (mapP autolinkP Inline.autolink) (SpellsInline ent) := by
  have h : Copies autolinkP := by
    refine Gives.delimited (chr_drops (by decide)) (Gives.orElse ?_ recognize_copies) (chr_drops (by decide))
    intro s r t hp
    obtain ⟨⟨a, b⟩, h1, rfl⟩ := mapP_some.1 hp
    obtain ⟨s1, h2, h3⟩ := seq_some.1 h1
    obtain ⟨s2, c, h4, h5⟩ := terminated_some.1 h2
    obtain ⟨rfl, _⟩ := chr_some.1 h5
    obtain ⟨u1, o1, rfl, rfl, h6⟩ := (recognize_copies : Copies scheme) _ _ _ h4
    obtain ⟨u2, o2, rfl, ⟨rfl, _⟩, h7⟩ := takeWhile_copies _ _ _ h3
    exact ⟨u1 ++ ':' :: u2, _, by simp, rfl, by simpa using h6.append (.keep ':' h7)⟩
  refine Gives.mapP (h.mono ?_)
  rintro u o rfl
  simpa using SpellsInlines.autolink (ent := ent) (u := o) .nil

/-- Line ends as spaces. -/
abbrev nlSpace (c : Char) : Char := if c = '\n' then ' ' else c

theorem codeNewlines_er (c : Str) : ∃ o, Er c o ∧ o.map nlSpace = codeNewlines c := by
  fun_induction codeNewlines c with
  | case1 r ih =>
    obtain ⟨o, h1, h2⟩ := ih
    exact ⟨'\n' :: o, .drop (by decide) (.keep _ h1), by simp [nlSpace] at h2 ⊢; exact h2⟩
  | case2 r ih =>
    obtain ⟨o, h1, h2⟩ := ih
    exact ⟨'\n' :: o, .keep _ h1, by simp [nlSpace] at h2 ⊢; exact h2⟩
  | case3 c r hc1 hc2 ih =>
    obtain ⟨o, h1, h2⟩ := ih
    refine ⟨c :: o, .keep _ h1, ?_⟩
    have : c ≠ '\n' := fun h => hc2 h
    simp [nlSpace, this] at h2 ⊢; exact h2
  | case4 => exact ⟨[], .nil, rfl⟩

theorem nlSpace_markup {c : Char} (h : nlSpace c = ' ') : isMarkup c = true := by
  unfold nlSpace at h
  split at h
  · rename_i h1; subst h1; decide
  · subst h; decide

theorem codeStrip_er (c : Str) : ∃ o, Er c o ∧ o.map nlSpace = codeStrip (codeNewlines c) := by
  obtain ⟨o, h1, h2⟩ := codeNewlines_er c
  rw [← h2]
  unfold codeStrip
  split
  · rename_i h
    obtain ⟨h3, h4, h5⟩ := h
    refine ⟨(o.drop 1).dropLast, h1.trans ?_, by simp⟩
    cases o with
    | nil => simp at h3
    | cons a o =>
      have h3' : nlSpace a = ' ' := by simpa [-ite_eq_left_iff] using h3
      refine .drop (nlSpace_markup h3') ?_
      simp only [List.drop_succ_cons, List.drop_zero]
      rcases List.eq_nil_or_concat o with rfl | ⟨o, b, rfl⟩
      · exact .nil
      · have hb : nlSpace b = ' ' := by
          rw [List.concat_eq_append, List.map_cons, List.map_append, ← List.cons_append, List.map_cons,
            List.map_nil, List.getLast?_concat] at h4
          exact Option.some.inj h4
        rw [List.concat_eq_append, List.dropLast_concat]
        simpa using (Er.refl o).append (.drop (nlSpace_markup hb) .nil)
  · exact ⟨o, h1, rfl⟩

theorem codeSpan_gives : Gives (mapP codeSpan Inline.code) (SpellsInline ent) := by
  refine Gives.mapP ?_
  intro s r c hp
  unfold codeSpan at hp
  split at hp
  · simp at hp
  · rename_i r1 ticks e
    obtain ⟨d, h1, rfl⟩ := mapP_some.1 hp
    have hd : Drops (recognize (many1 (chr '`'))) := (chr_drops (by decide)).many1.recognize
    obtain ⟨u1, o1, rfl, rfl, h2⟩ := hd _ _ _ e
    have ht : ∀ c ∈ ticks, isMarkup c = true := by
      obtain ⟨l, hl, hlt⟩ := recognize_some.1 e
      intro c hc
      have : ∀ s r l, many0 (chr '`') s = some (r, l) → s = l ++ r ∧ ∀ c ∈ l, c = '`' := by
        refine many0_induction ?_ ?_
        · intro s _; simp
        · intro s r a r' l hp _ _ ih
          obtain ⟨rfl, rfl⟩ := chr_some.1 hp
          obtain ⟨rfl, h⟩ := ih
          simpa using h
      obtain ⟨s1, a, l', hp, hm, rfl⟩ := many1_some.1 hl
      obtain ⟨h3, rfl⟩ := chr_some.1 hp
      obtain ⟨rfl, h4⟩ := this _ _ _ hm
      rw [hlt, h3] at hc
      rw [show '`' :: (l' ++ r1) = ('`' :: l') ++ r1 by simp, List.length_append, Nat.add_sub_cancel,
        List.take_left' rfl] at hc
      rcases List.mem_cons.1 hc with rfl | hc
      · decide
      · rw [h4 c hc]; decide
    obtain ⟨u2, o2, rfl, rfl, h3⟩ := (Gives.terminated (recognize_copies : Copies (recognize
      (many1 (preceded (notP (codeSpanStop ticks)) anychar)))) (tag_drops ht)) _ _ _ h1
    obtain ⟨o, h4, h5⟩ := codeStrip_er o2
    refine ⟨u1 ++ u2, o, by simp, ?_, by simpa using h2.append (h3.trans h4)⟩
    rw [← h5]
    simpa using SpellsInlines.code (ent := ent) (o := o) .nil

theorem text_spells {t o : Str} (h : DecodesTo ent o t) : SpellsInline ent (.text t) o := by
  simpa using SpellsInlines.text h .nil

theorem environmentVariable_gives : Gives environmentVariable (SpellsInline ent) := by
  have h : Copies (verify (recognize (seq alpha1 (many0 (alphanumeric1 <||> recognize (chr '_')))))
    isLikelyEnvVar) := recognize_copies.verify
  refine Gives.mapP (h.mono ?_)
  rintro t o rfl
  exact text_spells (.refl _)

theorem openTag_drops {x : PExt} {t : Str} (ht : ∀ c ∈ t, isMarkup c = true) : Drops (openTag x t) := by
  intro s r a hp
  unfold openTag at hp
  split at hp
  · rename_i r1 u e
    split at hp
    · simp at hp; subst hp; exact tag_drops ht _ _ _ e
    · simp at hp
  · simp at hp

theorem closeTag_drops {x : PExt} {t : Str} (ht : ∀ c ∈ t, isMarkup c = true) : Drops (closeTag x t) := by
  intro s r a hp
  unfold closeTag at hp
  split at hp
  · rename_i r1 u e
    split at hp
    · simp at hp; subst hp; exact tag_drops ht _ _ _ e
    · simp at hp
  · simp at hp

theorem emphasisDelimited_gives {x : PExt} {t : Str} (hr : RecKeeps ent rec)
    (ht : ∀ c ∈ t, isMarkup c = true) : Gives (emphasisDelimited x rec t) (SpellsInlines ent) := by
  refine Gives.delimited (openTag_drops ht) ?_ (closeTag_drops ht)
  refine Gives.mapOpt (E := fun a o => o = a) recognize_copies ?_
  rintro a l o h rfl
  exact hr _ _ h

theorem emphasisP_gives {x : PExt} (hr : RecKeeps ent rec) : Gives (emphasisP x rec) (SpellsInline ent) := by
  have h : ∀ t, (∀ c ∈ t, isMarkup c = true) → _ := fun t => emphasisDelimited_gives (x := x) (t := t) hr
  refine .orElse (Gives.mapP ((Gives.orElse (h _ (by decide)) (h _ (by decide))).mono ?_))
    (.orElse (Gives.mapP ((Gives.orElse (h _ (by decide)) (h _ (by decide))).mono ?_))
      (Gives.mapP ((Gives.orElse (h _ (by decide)) (h _ (by decide))).mono ?_)))
  · intro l o h
    have h1 : SpellsInline ent (.emphasis l) o := by simpa using SpellsInlines.emphasis h .nil
    simpa using SpellsInlines.strong h1 .nil
  · intro l o h; simpa using SpellsInlines.strong h .nil
  · intro l o h; simpa using SpellsInlines.emphasis h .nil

theorem strikethroughP_gives (hr : RecKeeps ent rec) : Gives (strikethroughP rec) (SpellsInline ent) := by
  intro s r i hp
  unfold strikethroughP at hp
  split at hp
  · simp at hp
  · rename_i s1 _ e1
    split at hp
    · simp at hp
    · rename_i s2 content e2
      split at hp
      · rename_i l e3
        simp at hp
        obtain ⟨rfl, rfl⟩ := hp
        obtain ⟨u1, o1, rfl, rfl, h1⟩ := (Drops.terminated (tag_drops (by decide)) Drops.notP) _ _ _ e1
        obtain ⟨u2, o2, rfl, rfl, h2⟩ := (Gives.terminated (recognize_copies : Copies (recognize
          (many1 (preceded (notP strikeClose) (value '~' (tag cs!"\\~") <||> anychar)))))
          (tag_drops (by decide))) _ _ _ e2
        obtain ⟨o, h3, h4⟩ := hr _ _ e3
        exact ⟨u1 ++ u2, o, by simp, by simpa using SpellsInlines.strikethrough h3 .nil,
          by simpa using h1.append (h2.trans h4)⟩
      · simp at hp

theorem htmlEntity_gives {cfg : PConfig} : Gives (htmlEntity cfg) (fun t o => DecodesTo cfg.entities o t) := by
  intro s r t hp
  obtain ⟨w, h1, rfl⟩ := htmlEntity_ref hp
  exact ⟨w, w, rfl, by simpa using DecodesTo.ref h1 .nil, .refl w⟩

theorem textP_gives {x : PExt} {cfg : PConfig} : Gives (textP x cfg rec) (SpellsInline cfg.entities) := by
  have h : Gives (textPiece x cfg rec) (fun t o => DecodesTo cfg.entities o t) := by
    refine .orElse (Gives.mapP ((Gives.preceded (chr_drops (by decide)) oneOf_gives).mono ?_))
      (.orElse htmlEntity_gives (recognize_copies.mono ?_))
    · rintro c o rfl; exact .refl _
    · rintro c o rfl; exact .refl _
  refine Gives.mapP (h.many1.mono ?_)
  intro l o h
  refine text_spells ?_
  induction h with
  | nil => exact .nil
  | cons h _ ih => exact h.append ih

theorem conditionalInline_gives {b : Behavior Inline} {p : P Inline} (hb : b = .parse ∨ b = .ignore)
    (h : Gives p (SpellsInline ent)) : Gives (conditionalInline b p) (SpellsInlines ent) := by
  rcases hb with rfl | rfl
  · exact Gives.mapP h
  · exact Gives.failP

theorem inlineStep_gives {x : PExt} {cfg : PConfig} (hk : cfg.Keeps) (hr : RecKeeps cfg.entities rec) :
    Gives (inlineStep x cfg rec) (SpellsInlines cfg.entities) := by
  refine .orElse (conditionalInline_gives hk.autolink autolinkP_gives) ?_
  refine .orElse (conditionalInline_gives hk.link (inlineLink_gives hr)) ?_
  refine .orElse (conditionalInline_gives hk.footnoteReference footnoteReferenceP_gives) ?_
  refine .orElse (conditionalInline_gives hk.referenceLink (referenceLink_gives hr)) ?_
  refine .orElse (conditionalInline_gives hk.hardNewline hardNewline_gives) ?_
  refine .orElse (conditionalInline_gives hk.image imageP_gives) ?_
  refine .orElse (conditionalInline_gives hk.codeSpan codeSpan_gives) ?_
  refine .orElse (Gives.mapP environmentVariable_gives) ?_
  refine .orElse (conditionalInline_gives hk.emphasis (emphasisP_gives hr)) ?_
  refine .orElse (conditionalInline_gives hk.strikethrough (strikethroughP_gives hr)) ?_
  refine .orElse ?_ (conditionalInline_gives (.inl hk.text) textP_gives)
  unfold customParser
  rw [hk.customInline]
  exact .failP

end

section
variable {x : PExt} {cfg : PConfig}

theorem PConfig.Keeps.customOk (hk : cfg.Keeps) : cfg.CustomOk := CustomOk_of_none hk.customInline hk.customBlock

theorem inlineF_gives (hk : cfg.Keeps) : ∀ n, Gives (inlineF x cfg n) (SpellsInlines cfg.entities)
  | 0 => .failP
  | n + 1 => by
    refine inlineStep_gives hk ?_
    intro t l h
    simp only [Option.map_eq_some_iff] at h
    obtain ⟨⟨r, l'⟩, h, rfl⟩ := h
    cases n with
    | zero =>
      unfold inlineMany1With inlineF at h
      obtain ⟨a, h1, _⟩ := mapP_some.1 h
      obtain ⟨_, _, _, h2, _⟩ := many1_some.1 h1
      simp [failP] at h2
    | succ n =>
      have hr := inlineMany1_rest hk.customOk (by rw [hk.text]; simp) h
      subst hr
      unfold inlineMany1With at h
      obtain ⟨a, h1, h2⟩ := mapP_some.1 h
      obtain ⟨u, o, rfl, h3, h4⟩ := (inlineF_gives hk (n + 1)).many1 _ _ _ h1
      simp only at h2 ⊢
      subst h2
      exact ⟨o, mergeText_spells (.flatten h3), by simpa using h4⟩

theorem parseInlines0_spells (hk : cfg.Keeps) : RecKeeps cfg.entities (parseInlines0 x cfg) := by
  intro t l h
  unfold parseInlines0 at h
  simp only [Option.map_eq_some_iff] at h
  obtain ⟨⟨r, l'⟩, h, rfl⟩ := h
  unfold inlineMany0With at h
  obtain ⟨a, h1, h2⟩ := mapP_some.1 h
  have hr : r = [] := by
    false_or_by_contra
    rename_i hr
    exact inlineF_ne_none (by rw [hk.text]; simp) hr (many0_stop h1)
  subst hr
  obtain ⟨u, o, rfl, h3, h4⟩ := (inlineF_gives hk _).many0 _ _ _ h1
  simp only at h2 ⊢
  subst h2
  exact ⟨o, mergeText_spells (.flatten h3), by simpa using h4⟩

theorem parseInlines1_spells (hk : cfg.Keeps) : RecKeeps cfg.entities (parseInlines1 x cfg) := by
  intro t l h
  unfold parseInlines1 at h
  simp only [Option.map_eq_some_iff] at h
  obtain ⟨⟨r, l'⟩, h, rfl⟩ := h
  have hr := inlineMany1_rest hk.customOk (by rw [hk.text]; simp) h
  subst hr
  unfold inlineMany1With at h
  obtain ⟨a, h1, h2⟩ := mapP_some.1 h
  obtain ⟨u, o, rfl, h3, h4⟩ := (inlineF_gives hk _).many1 _ _ _ h1
  simp only at h2 ⊢
  subst h2
  exact ⟨o, mergeText_spells (.flatten h3), by simpa using h4⟩

end
end Verif
