import Verif.Indifferent
/-!
# Configuring a construct has no effect on inputs without its characters (C77): proof
-/
set_option linter.unusedVariables false
set_option linter.unusedSimpArgs false
namespace Verif
open Nom

section
variable {A : Char → Prop} {x : PExt} {a b : PConfig} {rec rec' : Str → Option (List Inline)}

/-! ## Which characters the constructs need -/

theorem needs_linkLabel {c : Char} (h : c = '[' ∨ c = ']') : Needs c (linkLabel rec) := by
  rcases h with rfl | rfl
  · exact needs_preceded_left (needs_tag (by decide))
  · exact needs_preceded_right (needs_terminated_right (needs_tag (by decide)))

theorem needs_destAndTitle {c : Char} (h : c = '(' ∨ c = ')') : Needs c destAndTitle := by
  rcases h with rfl | rfl
  · exact needs_preceded_left needs_chr
  · exact needs_preceded_right (needs_terminated_right (needs_preceded_right needs_chr))

theorem needs_autolink {c : Char} (h : c ∈ cs!"<>") : Needs c autolinkP := by
  rcases List.mem_cons.1 h with rfl | h
  · exact needs_preceded_left needs_chr
  · rw [List.mem_singleton.1 h]
    exact needs_preceded_right (needs_terminated_right needs_chr)

theorem needs_link {c : Char} (h : c ∈ cs!"[]()") : Needs c (inlineLink rec) := by
  simp only [List.mem_cons, List.not_mem_nil, or_false] at h
  rcases h with h | h | h | h
  · exact needs_mapP (needs_seq_left (needs_linkLabel (.inl h)))
  · exact needs_mapP (needs_seq_left (needs_linkLabel (.inr h)))
  · exact needs_mapP (needs_seq_right (needs_destAndTitle (.inl h)))
  · exact needs_mapP (needs_seq_right (needs_destAndTitle (.inr h)))

theorem needs_footnoteReference {c : Char} (h : c ∈ cs!"[^]") : Needs c footnoteReferenceP := by
  simp only [List.mem_cons, List.not_mem_nil, or_false] at h
  rcases h with rfl | rfl | rfl
  · exact needs_mapP (needs_preceded_left (needs_tag (by decide)))
  · exact needs_mapP (needs_preceded_left (needs_tag (by decide)))
  · exact needs_mapP (needs_preceded_right (needs_terminated_right needs_chr))

theorem needs_referenceLink {c : Char} (h : c ∈ cs!"[]") : Needs c (referenceLink rec) := by
  have hl : Needs c (linkLabel rec) := by
    simp only [List.mem_cons, List.not_mem_nil, or_false] at h
    exact needs_linkLabel h
  exact needs_orElse (needs_mapP (needs_seq_left hl)) (needs_orElse (needs_mapP (needs_terminated_left hl)) (needs_mapP hl))

theorem needs_image {c : Char} (h : c ∈ cs!"![]()") : Needs c imageP := by
  simp only [List.mem_cons, List.not_mem_nil, or_false] at h
  refine needs_mapP ?_
  rcases h with rfl | rfl | rfl | h | h
  · exact needs_seq_left (needs_preceded_left needs_chr)
  · exact needs_seq_left (needs_preceded_right (needs_preceded_left needs_chr))
  · exact needs_seq_left (needs_preceded_right (needs_preceded_right (needs_terminated_right needs_chr)))
  · exact needs_seq_right (needs_destAndTitle (.inl h))
  · exact needs_seq_right (needs_destAndTitle (.inr h))

theorem needs_codeSpan : Needs '`' codeSpan := by
  intro s hs
  unfold codeSpan
  rw [needs_recognize (needs_many1 needs_chr) s hs]

theorem needs_strikethrough : Needs '~' (strikethroughP rec) := by
  intro s hs
  unfold strikethroughP
  rw [needs_terminated_left (needs_tag (t := cs!"~~") (by decide)) s hs]

theorem needs_emphasisDelimited {c : Char} {t : Str} (h : c ∈ t) : Needs c (emphasisDelimited x rec t) := by
  refine needs_preceded_left ?_
  intro s hs
  unfold openTag
  rw [needs_tag h s hs]

theorem emphasis_never (h1 : ¬ A '*') (h2 : ¬ A '_') : ∀ s, Over A s → emphasisP x rec s = none := by
  intro s hs
  have k1 : ∀ t, '*' ∈ t → emphasisDelimited x rec t s = none := fun t ht => never h1 (needs_emphasisDelimited ht) s hs
  have k2 : ∀ t, '_' ∈ t → emphasisDelimited x rec t s = none := fun t ht => never h2 (needs_emphasisDelimited ht) s hs
  unfold emphasisP
  simp only [orElse_none, mapP_none]
  exact ⟨⟨k1 _ (by decide), k2 _ (by decide)⟩, ⟨k1 _ (by decide), k2 _ (by decide)⟩, k1 _ (by decide), k2 _ (by decide)⟩

theorem needs_htmlEntityAlpha {cfg : PConfig} {c : Char} (h : c ∈ cs!"&;") : Needs c (htmlEntityAlpha cfg) := by
  simp only [List.mem_cons, List.not_mem_nil, or_false] at h
  refine needs_mapOpt (needs_recognize ?_)
  rcases h with rfl | rfl
  · exact needs_seq_left needs_chr
  · exact needs_seq_right (needs_seq_right needs_chr)

/-! ## The configurations agree on inlines -/

/-- The two configurations treat alike what can be written over `A`. -/
structure Alike (A : Char → Prop) (a b : PConfig) : Prop where
  nl : A '\n'
  customOk : a.CustomOk
  headingV2 : a.headingV2 = b.headingV2
  paragraph : a.paragraph = b.paragraph
  codeBlock : a.codeBlock = b.codeBlock
  hardNewline : a.hardNewline = b.hardNewline
  text : a.text = b.text
  allowNoSpace : a.allowNoSpaceInHeadings = b.allowNoSpaceInHeadings ∨ ¬ A '#'
  entities : a.entities = b.entities ∨ ∃ c ∈ cs!"&;", ¬ A c
  blockquote : a.blockquote = b.blockquote ∨ ¬ A '>'
  githubAlert : a.githubAlert = b.githubAlert ∨ ¬ A '>'
  headingV1 : a.headingV1 = b.headingV1 ∨ ¬ A '#'
  thematicBreak : a.thematicBreak = b.thematicBreak ∨ (¬ A '-' ∧ ¬ A '_' ∧ ¬ A '*')
  list : a.list = b.list ∨ (¬ A '-' ∧ ¬ A '+' ∧ ¬ A '*' ∧ ((¬ A '.' ∧ ¬ A ')') ∨ ∀ c, A c → isDigit c = false))
  htmlBlock : a.htmlBlock = b.htmlBlock ∨ ¬ A '<'
  footnoteDefinition : a.footnoteDefinition = b.footnoteDefinition ∨ ∃ c ∈ cs!"[^]:", ¬ A c
  linkDefinition : a.linkDefinition = b.linkDefinition ∨ ∃ c ∈ cs!"[]:", ¬ A c
  table : a.table = b.table ∨ ∃ c ∈ cs!"|-", ¬ A c
  autolink : a.autolink = b.autolink ∨ ∃ c ∈ cs!"<>", ¬ A c
  link : a.link = b.link ∨ ∃ c ∈ cs!"[]()", ¬ A c
  footnoteReference : a.footnoteReference = b.footnoteReference ∨ ∃ c ∈ cs!"[^]", ¬ A c
  referenceLink : a.referenceLink = b.referenceLink ∨ ∃ c ∈ cs!"[]", ¬ A c
  image : a.image = b.image ∨ ∃ c ∈ cs!"![]()", ¬ A c
  codeSpan : a.codeSpan = b.codeSpan ∨ ¬ A '`'
  emphasis : a.emphasis = b.emphasis ∨ (¬ A '*' ∧ ¬ A '_')
  strikethrough : a.strikethrough = b.strikethrough ∨ ¬ A '~'
  customBlock : Agree A (customParser a.customBlock) (customParser b.customBlock)
  customInline : Agree A (customParser a.customInline) (customParser b.customInline)

theorem agree_linkLabel (hr : ∀ s, Over A s → rec s = rec' s) : Agree A (linkLabel rec) (linkLabel rec') := by
  refine agree_delimited .refl ?_ .refl
  intro s hs
  unfold linkLabelInner
  split
  · rfl
  · rename_i r label e
    have ho : Outs A (many1 (preceded (notP (chr ']')) (value ']' (tag cs!"\\]") <||> anychar))) fun l => ∀ c ∈ l, A c := by
      refine outs_many1 (outs_preceded (outs_orElse ?_ outs_anychar))
      intro s hs r c h
      obtain ⟨u, h1, rfl⟩ := value_some.1 h
      obtain ⟨rfl, -⟩ := tag_some.1 h1
      exact hs _ (by simp)
    rw [hr _ (outs_verify ho s hs _ _ e)]

theorem agree_emphasisP (hr : ∀ s, Over A s → rec s = rec' s) : Agree A (emphasisP x rec) (emphasisP x rec') := by
  have hd : ∀ t, Agree A (emphasisDelimited x rec t) (emphasisDelimited x rec' t) := fun t =>
    agree_delimited .refl (agree_mapOpt .refl outs_recognize hr) .refl
  exact agree_orElse (agree_mapP (agree_orElse (hd _) (hd _)))
    (agree_orElse (agree_mapP (agree_orElse (hd _) (hd _))) (agree_mapP (agree_orElse (hd _) (hd _))))

theorem agree_strikethroughP (hr : ∀ s, Over A s → rec s = rec' s) : Agree A (strikethroughP rec) (strikethroughP rec') := by
  intro s hs
  unfold strikethroughP
  split
  · rfl
  · rename_i s1 u e
    split
    · rfl
    · rename_i s2 content e2
      have hs1 := hs.rest e
      rw [hr _ (outs_terminated outs_recognize _ hs1 _ _ e2)]

theorem agree_inlineLink (hr : ∀ s, Over A s → rec s = rec' s) : Agree A (inlineLink rec) (inlineLink rec') :=
  agree_mapP (agree_seq (agree_linkLabel hr) .refl)

theorem agree_referenceLink (hr : ∀ s, Over A s → rec s = rec' s) : Agree A (referenceLink rec) (referenceLink rec') :=
  agree_orElse (agree_mapP (agree_seq (agree_linkLabel hr) (agree_linkLabel hr)))
    (agree_orElse (agree_mapP (agree_terminated (agree_linkLabel hr) .refl)) (agree_mapP (agree_linkLabel hr)))

theorem Alike.htmlEntity (h : Alike A a b) : Agree A (htmlEntity a) (Verif.htmlEntity b) := by
  refine agree_orElse ?_ .refl
  rcases h.entities with e | ⟨c, hc, e⟩
  · unfold htmlEntityAlpha; rw [e]; exact .refl
  · exact .of_needs e (needs_htmlEntityAlpha hc) (needs_htmlEntityAlpha hc)

theorem off {α β : Type} {l : Str} {u v : Behavior α} {p : P β} (h : u = v ∨ ∃ c ∈ l, ¬ A c)
    (hn : ∀ c ∈ l, Needs c p) : u = v ∨ ∀ s, Over A s → p s = none := by
  rcases h with h | ⟨c, hc, h⟩
  · exact .inl h
  · exact .inr (never h (hn c hc))

theorem off1 {α β : Type} {c : Char} {u v : Behavior α} {p : P β} (h : u = v ∨ ¬ A c)
    (hn : Needs c p) : u = v ∨ ∀ s, Over A s → p s = none := h.imp id fun h => never h hn

theorem Alike.notAText (h : Alike A a b) (hr : ∀ s, Over A s → rec s = rec' s) :
    Agree A (notAText x a rec) (Verif.notAText x b rec') := by
  unfold Verif.notAText
  refine agree_orElse (agree_conditionalUnit .refl (off h.autolink fun _ => needs_autolink)) ?_
  refine agree_orElse (agree_conditionalUnit (agree_referenceLink hr) (off h.referenceLink fun _ => needs_referenceLink)) ?_
  refine agree_orElse (agree_conditionalUnit .refl (.inl h.hardNewline)) ?_
  refine agree_orElse (agree_conditionalUnit h.htmlEntity (.inl h.text)) ?_
  refine agree_orElse (agree_conditionalUnit .refl (off h.image fun _ => needs_image)) ?_
  refine agree_orElse (agree_conditionalUnit (agree_inlineLink hr) (off h.link fun _ => needs_link)) ?_
  refine agree_orElse (agree_conditionalUnit .refl (off1 h.codeSpan needs_codeSpan)) ?_
  refine agree_orElse (agree_conditionalUnit (agree_emphasisP hr) (h.emphasis.imp id fun h => emphasis_never h.1 h.2)) ?_
  refine agree_orElse (agree_conditionalUnit .refl (off h.footnoteReference fun _ => needs_footnoteReference)) ?_
  exact agree_orElse (agree_conditionalUnit (agree_strikethroughP hr) (off1 h.strikethrough needs_strikethrough)) .refl

theorem Alike.textP (h : Alike A a b) (hr : ∀ s, Over A s → rec s = rec' s) :
    Agree A (textP x a rec) (Verif.textP x b rec') := by
  unfold Verif.textP
  refine agree_mapP (agree_many1 ?_)
  unfold textPiece
  exact agree_orElse .refl (agree_orElse h.htmlEntity
    (agree_recognize (agree_many1 (agree_preceded (agree_notP (h.notAText hr)) .refl))))

theorem Alike.inlineStep (h : Alike A a b) (hr : ∀ s, Over A s → rec s = rec' s) :
    Agree A (inlineStep x a rec) (Verif.inlineStep x b rec') := by
  unfold Verif.inlineStep conditionalInline
  refine agree_orElse (agree_conditional .refl (off h.autolink fun _ hc => needs_mapP (needs_autolink hc))) ?_
  refine agree_orElse (agree_conditional (agree_inlineLink hr) (off h.link fun _ => needs_link)) ?_
  refine agree_orElse (agree_conditional .refl (off h.footnoteReference fun _ => needs_footnoteReference)) ?_
  refine agree_orElse (agree_conditional (agree_referenceLink hr) (off h.referenceLink fun _ => needs_referenceLink)) ?_
  refine agree_orElse (agree_conditional .refl (.inl h.hardNewline)) ?_
  refine agree_orElse (agree_conditional .refl (off h.image fun _ => needs_image)) ?_
  refine agree_orElse (agree_conditional .refl (off1 h.codeSpan (needs_mapP needs_codeSpan))) ?_
  refine agree_orElse .refl ?_
  refine agree_orElse (agree_conditional (agree_emphasisP hr) (h.emphasis.imp id fun h => emphasis_never h.1 h.2)) ?_
  refine agree_orElse (agree_conditional (agree_strikethroughP hr) (off1 h.strikethrough needs_strikethrough)) ?_
  exact agree_orElse h.customInline (agree_conditional (h.textP hr) (.inl h.text))

theorem Alike.inlineF (h : Alike A a b) : ∀ n, Agree A (inlineF x a n) (Verif.inlineF x b n)
  | 0 => .refl
  | n + 1 => by
    unfold Verif.inlineF
    refine h.inlineStep ?_
    intro s hs
    have := inlineF_con x a h.customOk n
    have e := agree_mapP (f := fun l : List (List Inline) => mergeText l.flatten) (agree_many1 (h.inlineF n)) s hs
    exact congrArg (Option.map Prod.snd) e

theorem Alike.parseInlines1 (h : Alike A a b) {s : Str} (hs : Over A s) :
    Verif.parseInlines1 x a s = Verif.parseInlines1 x b s := by
  have := inlineF_con x a h.customOk (s.length + 1)
  unfold Verif.parseInlines1 inlineMany1With
  rw [agree_mapP (agree_many1 (h.inlineF _)) s hs]

theorem Alike.parseInlines0 (h : Alike A a b) {s : Str} (hs : Over A s) :
    Verif.parseInlines0 x a s = Verif.parseInlines0 x b s := by
  have := inlineF_con x a h.customOk (s.length + 1)
  unfold Verif.parseInlines0 inlineMany0With
  rw [agree_mapP (agree_many0 (h.inlineF _)) s hs]


/-! ## Blocks -/

theorem needs_headingV1 {cfg : PConfig} : Needs '#' (headingV1 x cfg) := by
  intro s hs
  have : manyMN (chr '#') 1 6 s = none := by
    rw [manyMN, needs_chr s hs]; simp
  unfold headingV1
  rw [show seq (manyMN (chr '#') 1 6) _ s = none from by unfold seq; rw [this]]

theorem needs_quotePrefix : Needs '>' quotePrefix := needs_preceded_right needs_chr

theorem needs_quoteLines : Needs '>' quoteLines := needs_many1 (needs_preceded_left needs_quotePrefix)

theorem needs_blockquote {r : P (List Block)} : Needs '>' (blockquoteP r) := needs_mapOpt needs_quoteLines

theorem needs_githubAlert {r : P (List Block)} : Needs '>' (githubAlertP x r) := by
  intro s hs
  unfold githubAlertP
  rw [needs_preceded_left (needs_seq_left needs_quotePrefix) s hs]

theorem many0_never {α : Type} {p : P α} {s : Str} (h : p s = none) : many0 p s = some (s, []) := by
  unfold many0 many0F; rw [h]

theorem needs_manyMin {c : Char} {n : Nat} : Needs c (manyMin (n + 1) (chr c)) := by
  intro s hs
  unfold manyMin verify
  rw [many0_never (needs_chr s hs)]
  simp

theorem thematicBreak_never (h1 : ¬ A '-') (h2 : ¬ A '_') (h3 : ¬ A '*') : ∀ s, Over A s → thematicBreakP s = none := by
  intro s hs
  unfold thematicBreakP
  rw [value_none]
  cases e : lineTerminated (preceded indent03 (terminated (manyMin 3 (chr '-') <||> manyMin 3 (chr '_') <||> manyMin 3 (chr '*'))
    space0)) s with
  | none => rfl
  | some y =>
    obtain ⟨r1, u, e1, -⟩ := terminated_some.1 (show _ = some (y.1, y.2) from e)
    obtain ⟨r2, v, e2, e3⟩ := preceded_some.1 e1
    obtain ⟨r3, w, e4, -⟩ := terminated_some.1 e3
    have := hs.rest e2
    rw [orElse_of_none (never h1 needs_manyMin _ this), orElse_of_none (never h2 needs_manyMin _ this),
      never h3 needs_manyMin _ this] at e4
    exact absurd e4 (by simp)

theorem listMarker_never (h1 : ¬ A '-') (h2 : ¬ A '+') (h3 : ¬ A '*')
    (h4 : (¬ A '.' ∧ ¬ A ')') ∨ ∀ c, A c → isDigit c = false) : ∀ s, Over A s → listMarker s = none := by
  intro s hs
  unfold listMarker
  rw [orElse_none, orElse_none, orElse_none]
  refine ⟨?_, needs_value needs_chr s fun h => h3 (hs _ h), needs_value needs_chr s fun h => h2 (hs _ h),
    needs_value needs_chr s fun h => h1 (hs _ h)⟩
  unfold listMarkerOrdered
  rw [mapP_none]
  cases e : terminated u64P (oneOf cs!".)") s with
  | none => rfl
  | some y =>
    obtain ⟨r1, u, e1, e2⟩ := terminated_some.1 (show _ = some (y.1, y.2) from e)
    rcases h4 with ⟨h5, h6⟩ | h4
    · have hr : Over A r1 := hs.rest e1
      obtain ⟨h7, h8⟩ := satisfy_some.1 e2
      have hu : A u := hr u (by rw [h7]; simp)
      simp only [List.contains_eq_mem, List.mem_cons, List.not_mem_nil, or_false, decide_eq_true_eq] at h8
      rcases h8 with rfl | rfl
      · exact absurd hu h5
      · exact absurd hu h6
    · unfold u64P at e1
      cases e3 : digit1 s with
      | none => rw [e3] at e1; simp at e1
      | some z =>
        obtain ⟨k2, -, k1⟩ := takeWhile1_some.1 (show takeWhile1 isDigit s = some (z.1, z.2) from e3)
        exfalso
        cases s with
        | nil => exact k1 k2
        | cons c s =>
          rw [List.takeWhile_cons, h4 c (hs c (by simp))] at k2
          exact k1 k2

theorem listItem_never {r : P (List Block)} (h : ∀ s, Over A s → listMarker s = none) :
    ∀ s, Over A s → listItemP r s = none := by
  intro s hs
  have h1 : preceded indent03 listMarker s = none := by
    unfold preceded
    split
    · rename_i r a e; exact h _ (hs.rest e)
    · rfl
  have h2 : listMarkerFollowedByNewline s = none := by unfold listMarkerFollowedByNewline; rw [h1]
  have h3 : listMarkerFollowedBySpaces s = none := by
    unfold listMarkerFollowedBySpaces
    have : delimited indent03 listMarker (manyMN (chr ' ') 1 4) s = none := by
      cases e : delimited indent03 listMarker (manyMN (chr ' ') 1 4) s with
      | none => rfl
      | some y =>
        obtain ⟨r1, u, r2, v, e1, e2, e3⟩ := delimited_some.1 (show _ = some (y.1, y.2) from e)
        rw [h _ (hs.rest e1)] at e2; simp at e2
    rw [this]
  have h4 : listMarkerWithSpanSize s = none := by
    unfold listMarkerWithSpanSize
    rw [orElse_none, mapP_none, mapP_none]
    refine ⟨h2, ?_⟩
    unfold seq; rw [h3]
  unfold listItemP
  rw [h4]

theorem list_never {r : P (List Block)} (h : ∀ s, Over A s → listMarker s = none) :
    ∀ s, Over A s → listP r s = none := by
  intro s hs
  unfold listP many1
  rw [listItem_never h s hs]

theorem needs_htmlBlock : Needs '<' htmlBlockP := by
  have n6 : Needs '<' htmlBlock6 := by
    unfold htmlBlock6
    refine needs_preceded_right (needs_recognize (needs_seq_left ?_))
    first
      | exact needs_tag (by decide)
      | exact needs_orElse (needs_value (needs_tag (by decide))) (needs_value needs_chr)
      | exact needs_chr
  have n7 : Needs '<' htmlBlock7 := by
    unfold htmlBlock7
    refine needs_preceded_right (needs_recognize (needs_seq_left (needs_orElse ?_ ?_)))
    · intro s hs
      unfold completeOpenHtmlTag
      first
        | exact needs_recognize (needs_seq_left needs_chr) s hs
        | exact needs_recognize (needs_seq_left (needs_tag (by decide))) s hs
    · exact needs_recognize (needs_seq_left (needs_tag (by decide)))
  unfold htmlBlockP
  refine needs_orElse ?_ (needs_orElse ?_ (needs_orElse ?_ (needs_orElse ?_ (needs_orElse ?_ (needs_orElse n6 n7)))))
  · exact needs_preceded_right (needs_recognize (needs_seq_left needs_chr))
  all_goals exact needs_preceded_right (needs_recognize (needs_seq_left (needs_tag (by decide))))

theorem needs_footnoteDefinition {r : P (List Block)} {c : Char} (h : c ∈ cs!"[^]:") : Needs c (footnoteDefinitionP r) := by
  simp only [List.mem_cons, List.not_mem_nil, or_false] at h
  intro s hs
  have : preceded indent03 (preceded (tag cs!"[^") (terminated (recognize (many1 (noneOf cs!"]"))) (tag cs!"]:"))) s = none := by
    refine needs_preceded_right (c := c) ?_ s hs
    rcases h with rfl | rfl | rfl | rfl
    · exact needs_preceded_left (needs_tag (by decide))
    · exact needs_preceded_left (needs_tag (by decide))
    · exact needs_preceded_right (needs_terminated_right (needs_tag (by decide)))
    · exact needs_preceded_right (needs_terminated_right (needs_tag (by decide)))
  unfold footnoteDefinitionP
  rw [this]

theorem needs_linkDefinition {cfg : PConfig} {c : Char} (h : c ∈ cs!"[]:") : Needs c (linkDefinitionP x cfg) := by
  simp only [List.mem_cons, List.not_mem_nil, or_false] at h
  refine needs_mapP (needs_terminated_left ?_)
  rcases h with h | h | rfl
  · exact needs_seq_left (needs_preceded_right (needs_linkLabel (.inl h)))
  · exact needs_seq_left (needs_preceded_right (needs_linkLabel (.inr h)))
  · exact needs_seq_right (needs_preceded_left needs_chr)

theorem needs_table {cfg : PConfig} {c : Char} (h : c ∈ cs!"|-") : Needs c (tableP x cfg) := by
  simp only [List.mem_cons, List.not_mem_nil, or_false] at h
  intro s hs
  unfold tableP
  rcases h with rfl | rfl
  · have : tableRow x cfg s = none :=
      needs_terminated_left (needs_preceded_right (needs_preceded_left needs_chr)) s hs
    rw [this]
  · split
    · rfl
    · rename_i s1 header e
      have : alignmentRow s1 = none := by
        refine needs_terminated_left (c := '-') (needs_preceded_right (needs_preceded_right (needs_terminated_left
          (needs_separatedList1 (needs_mapP (needs_preceded_right (needs_terminated_left ?_))))))) s1
          fun h => hs ((Suf.out _ _ _ e).subset h)
        refine needs_orElse (needs_recognize ?_) (needs_orElse (needs_recognize ?_) (needs_orElse (needs_recognize ?_) (needs_recognize ?_)))
        · exact needs_preceded_right (needs_terminated_left (needs_many1 needs_chr))
        · exact needs_preceded_right (needs_many1 needs_chr)
        · exact needs_terminated_left (needs_many1 needs_chr)
        · exact needs_many1 needs_chr
      rw [this]

/-! ## The configurations agree on blocks -/

variable {r r' : P (List Block)}

theorem agree_blocks1 [Suf r] (hr : Agree A r r') {s : Str} (hs : Over A s) : blocks1 r s = blocks1 r' s := by
  unfold blocks1; rw [agree_many1 hr s hs]

theorem agree_blocks0 [Suf r] (hr : Agree A r r') {s : Str} (hs : Over A s) : blocks0 r s = blocks0 r' s := by
  unfold blocks0; rw [agree_many0 hr s hs]

theorem Alike.headingV1' (h : Alike A a b) : Agree A (Verif.headingV1 x a) (Verif.headingV1 x b) := by
  rcases h.allowNoSpace with e | e
  · intro s hs
    unfold Verif.headingV1
    rw [e]
    split
    · rfl
    · rename_i r1 hashes content e1
      obtain ⟨r2, e2, e3⟩ := seq_some.1 e1
      have : Suf (if b.allowNoSpaceInHeadings then space0 else space1) := by split <;> infer_instance
      have := (outs_preceded (A := A) (p := if b.allowNoSpaceInHeadings then space0 else space1)
        (outs_terminated outs_notEofOrEol1)) _ (hs.rest e2) _ _ e3
      rw [h.parseInlines0 this]
  · exact .of_needs e needs_headingV1 needs_headingV1

theorem agree_blockquoteP [Suf r] (hn : A '\n') (hr : Agree A r r') : Agree A (blockquoteP r) (blockquoteP r') :=
  agree_mapOpt .refl outs_quoteLines fun l hl => by rw [agree_blocks1 hr (Over.join hn hl)]

theorem agree_githubAlertP [Suf r] (hn : A '\n') (hr : Agree A r r') : Agree A (githubAlertP x r) (githubAlertP x r') := by
  intro s hs
  unfold githubAlertP
  split
  · rfl
  · split
    · rfl
    · split
      · rfl
      · rename_i r1 lines e
        have := outs_quoteLines s hs _ _ e
        show (if _ then _ else match blocks1 r _ with | some bs => _ | none => _) = _
        rw [agree_blocks1 hr (Over.join hn fun t ht => this t (List.mem_of_mem_drop ht))]
        rfl

theorem Over.itemContent {first : Str} {rest : List (List Str)} (hn : A '\n') (hf : Over A first)
    (hr : ∀ l ∈ rest, ∀ t ∈ l, Over A t) : Over A (itemContent first rest) := by
  refine hf.append (Over.flatten ?_)
  intro t ht
  obtain ⟨l, hl, rfl⟩ := List.mem_map.1 ht
  exact .cons hn (Over.flatten (hr l hl))

theorem outs_listItemRestLine {k : ListKind} {pl : Nat} : Outs A (listItemRestLine k pl) fun l => ∀ t ∈ l, Over A t := by
  intro s hs r l h
  unfold listItemRestLine at h
  split at h
  · simp at h
  · refine outs_terminated (Q := fun l => ∀ t ∈ l, Over A t) (p := preceded (notP _) (_ <||> _)) (outs_preceded (outs_orElse (outs_preceded (outs_mapP outs_notEofOrEol1 ?_))
      (outs_mapP (outs_seq outs_recognize (outs_preceded outs_notEofOrEol1)) ?_))) s hs r l h
    · intro t ht u hu; rw [List.mem_singleton.1 hu]; exact ht
    · rintro ⟨t, u⟩ ⟨h1, h2⟩ v hv
      simp only [List.mem_cons, List.not_mem_nil, or_false] at hv
      rcases hv with rfl | rfl
      · exact h1
      · exact h2

theorem agree_listItemP [Suf r] (hn : A '\n') (hr : Agree A r r') : Agree A (listItemP r) (listItemP r') := by
  intro s hs
  unfold listItemP
  split
  · rfl
  · rename_i s1 kind pl task first e
    split
    · rfl
    · rename_i s2 rest e2
      have h1 : Over A first := by
        have : Outs A listMarkerWithSpanSize fun y => Over A y.2.2.2 := by
          refine outs_orElse (outs_mapP (Q := fun _ => True) (fun _ _ _ _ _ => trivial) ?_)
            (outs_mapP (outs_seq (Q := fun _ => True) (fun _ _ _ _ _ => trivial) (outs_terminated outs_notEofOrEol0)) ?_)
          · intro y _; exact .nil
          · intro y hy; exact hy.2
        exact this s hs _ _ e
      have h2 := outs_many0 outs_listItemRestLine _ (hs.rest e) _ _ e2
      rw [agree_blocks0 hr (Over.itemContent hn h1 h2)]

theorem agree_listP [Con r] (hn : A '\n') (hr : Agree A r r') : Agree A (listP r) (listP r') := by
  intro s hs
  unfold listP
  rw [agree_many1 (agree_listItemP hn hr) s hs]

theorem agree_footnoteDefinitionP [Suf r] (hn : A '\n') (hr : Agree A r r') :
    Agree A (footnoteDefinitionP r) (footnoteDefinitionP r') := by
  intro s hs
  unfold footnoteDefinitionP
  split
  · rfl
  · rename_i s1 label e1
    split
    · rfl
    · rename_i s2 first e2
      split
      · rfl
      · rename_i s3 rest e3
        have hs1 := hs.rest e1
        have h1 := outs_preceded (outs_terminated outs_notEofOrEol1) _ hs1 _ _ e2
        have h2 := outs_many0 (outs_preceded (outs_terminated outs_notEofOrEol1)) _ (hs1.rest e2) _ _ e3
        rw [agree_blocks0 hr (Over.itemContent hn h1 ?_)]
        intro l hl t ht
        obtain ⟨u, hu, rfl⟩ := List.mem_map.1 hl
        rw [List.mem_singleton.1 ht]
        exact h2 u hu

theorem Alike.linkDefinitionP (h : Alike A a b) : Agree A (linkDefinitionP x a) (Verif.linkDefinitionP x b) :=
  agree_mapP (agree_terminated (agree_seq (agree_preceded .refl
    (agree_linkLabel fun s hs => h.parseInlines1 hs)) .refl) .refl)

theorem Over.trim {s : Str} (h : Over A s) : Over A (Verif.trim s) := by
  intro c hc
  refine h c ?_
  unfold Verif.trim Verif.trimStart Verif.trimEnd at hc
  simp only [List.mem_reverse] at hc
  first
    | exact (List.dropWhile_suffix _).subset (List.mem_reverse.1 ((List.dropWhile_suffix _).subset hc))
    | exact List.mem_reverse.1 ((List.dropWhile_suffix _).subset (List.mem_reverse.1 ((List.dropWhile_suffix _).subset hc)))

theorem Alike.tableRow (h : Alike A a b) : Agree A (tableRow x a) (Verif.tableRow x b) := by
  refine agree_terminated (agree_preceded .refl (agree_delimited .refl (agree_separatedList1 .refl ?_) .refl)) .refl
  have ho : Outs A (many1 (preceded (notP (value () eofOrEol <||> value () (chr '|'))) (value '|' (tag cs!"\\|") <||> anychar)))
      fun l => ∀ c ∈ l, A c := by
    refine outs_many1 (outs_preceded (outs_orElse ?_ outs_anychar))
    intro s hs r c h
    obtain ⟨u, h1, rfl⟩ := value_some.1 h
    obtain ⟨rfl, -⟩ := tag_some.1 h1
    exact hs _ (by simp)
  exact agree_mapOpt .refl ho fun l hl => h.parseInlines0 (Over.trim hl)

theorem Alike.tableP (h : Alike A a b) : Agree A (tableP x a) (Verif.tableP x b) := by
  intro s hs
  unfold Verif.tableP
  rw [← h.tableRow s hs]
  split
  · rfl
  · rename_i s1 header e1
    split
    · rfl
    · rename_i s2 aligns e2
      have hs2 := (hs.rest e1).rest e2
      have : tableDataRows x a header.length s2 = tableDataRows x b header.length s2 :=
        agree_many0 (agree_mapP h.tableRow) s2 hs2
      rw [this]

theorem Alike.notAParagraphLine [Con r] (h : Alike A a b) (hr : Agree A r r') :
    Agree A (notAParagraphLine x a r) (Verif.notAParagraphLine x b r') := by
  unfold Verif.notAParagraphLine
  refine agree_orElse (agree_conditionalUnit h.headingV1' (off1 h.headingV1 needs_headingV1)) ?_
  refine agree_orElse (agree_conditionalUnit .refl (.inl h.headingV2)) ?_
  refine agree_orElse (agree_conditionalUnit .refl (h.thematicBreak.imp id fun h => thematicBreak_never h.1 h.2.1 h.2.2)) ?_
  refine agree_orElse (agree_conditionalUnit (agree_blockquoteP h.nl hr) (off1 h.blockquote needs_blockquote)) ?_
  refine agree_orElse (agree_conditionalUnit (agree_listItemP h.nl hr)
    (h.list.imp id fun h => listItem_never (listMarker_never h.1 h.2.1 h.2.2.1 h.2.2.2))) ?_
  refine agree_orElse (agree_conditionalUnit .refl (.inl h.codeBlock)) ?_
  refine agree_orElse (agree_conditionalUnit .refl (off1 h.htmlBlock needs_htmlBlock)) ?_
  refine agree_orElse (agree_conditionalUnit h.linkDefinitionP (off h.linkDefinition fun _ => needs_linkDefinition)) ?_
  refine agree_orElse (agree_conditionalUnit (agree_footnoteDefinitionP h.nl hr)
    (off h.footnoteDefinition fun _ => needs_footnoteDefinition)) ?_
  refine agree_orElse (agree_conditionalUnit h.tableP (off h.table fun _ => needs_table)) ?_
  exact agree_orElse (agree_value h.customBlock) .refl

theorem Alike.paragraphP [Con r] (h : Alike A a b) (hr : Agree A r r') (f : Bool) :
    Agree A (paragraphP x a r f) (Verif.paragraphP x b r' f) := by
  have hl : Agree A (preceded (notP (Verif.notAParagraphLine x a r)) paragraphLine)
      (preceded (notP (Verif.notAParagraphLine x b r')) paragraphLine) :=
    agree_preceded (agree_notP (h.notAParagraphLine hr)) .refl
  have hls : Agree A (paragraphLines x a r) (paragraphLines x b r') :=
    agree_terminated (agree_separatedList0 .refl hl) .refl
  have ol : Outs A paragraphLine (Over A) := outs_preceded outs_notEofOrEol1
  have ols : Outs A (paragraphLines x a r) fun l => ∀ t ∈ l, Over A t := by
    refine outs_terminated ?_
    intro s hs r1 l hl
    exact outs_separatedList0 (outs_preceded ol) s hs r1 l hl
  unfold Verif.paragraphP
  refine agree_mapOpt (Q := fun l => ∀ t ∈ l, Over A t) ?_ ?_ fun l hl => h.parseInlines1 (Over.join h.nl hl)
  · cases f
    · exact agree_mapP (agree_seq .refl hls)
    · exact hls
  · cases f
    · refine outs_mapP (outs_seq ol ols) ?_
      rintro ⟨t, l⟩ ⟨h1, h2⟩ u hu
      rcases List.mem_cons.1 hu with rfl | hu
      · exact h1
      · exact h2 u hu
    · exact ols

theorem Alike.blockAlt [Con r] (h : Alike A a b) (hr : Agree A r r') : Agree A (blockAlt x a r) (Verif.blockAlt x b r') := by
  unfold Verif.blockAlt conditionalBlock
  have := paragraphP_con (x := x) h.customOk r true
  refine agree_orElse (agree_conditional .refl (.inl h.codeBlock)) ?_
  refine agree_orElse (agree_conditional h.headingV1' (off1 h.headingV1 needs_headingV1)) ?_
  refine agree_orElse (agree_conditional (agree_mapP (agree_seq (h.paragraphP hr true) .refl)) (.inl h.headingV2)) ?_
  refine agree_orElse (agree_conditional .refl (h.thematicBreak.imp id fun h s hs =>
    value_none.2 (thematicBreak_never h.1 h.2.1 h.2.2 s hs))) ?_
  refine agree_orElse (agree_conditionalBlockVec (agree_githubAlertP h.nl hr) (off1 h.githubAlert needs_githubAlert)) ?_
  refine agree_orElse (agree_conditional (agree_blockquoteP h.nl hr) (off1 h.blockquote needs_blockquote)) ?_
  refine agree_orElse (agree_conditional (agree_listP h.nl hr)
    (h.list.imp id fun h => list_never (listMarker_never h.1 h.2.1 h.2.2.1 h.2.2.2))) ?_
  refine agree_orElse (agree_conditional .refl (off1 h.htmlBlock (needs_mapP needs_htmlBlock))) ?_
  refine agree_orElse (agree_conditional (agree_footnoteDefinitionP h.nl hr)
    (off h.footnoteDefinition fun _ => needs_footnoteDefinition)) ?_
  refine agree_orElse (agree_conditional h.linkDefinitionP (off h.linkDefinition fun _ => needs_linkDefinition)) ?_
  refine agree_orElse (agree_conditional h.tableP (off h.table fun _ => needs_table)) ?_
  exact agree_orElse h.customBlock (agree_conditional (agree_mapP (h.paragraphP hr false)) (.inl h.paragraph))

theorem Alike.blockF (h : Alike A a b) : ∀ n, Agree A (blockF x a n) (Verif.blockF x b n)
  | 0 => .refl
  | n + 1 => by
    have := blockF_con (x := x) h.customOk n
    exact agree_preceded (q := Verif.blockAlt x a (Verif.blockF x a n)) .refl (h.blockAlt (h.blockF n))

end

/-- C77: the configurations may differ in everything that concerns constructs which cannot be written with the
characters of the input. -/
theorem C77_indifferent {x : PExt} {a b : PConfig} {s : Str} (hc : a.CustomOk) (h : Indifferent s a b) :
    parseMarkdown x a s = parseMarkdown x b s := by
  have hA : Alike (fun c => c ∈ s ∨ c = '\n') a b := by
    have l : ∀ {α : Type} {l : Str} {u v : α}, '\n' ∉ l → (u = v ∨ Lacks s l) →
        (u = v ∨ ∃ c ∈ l, ¬ (c ∈ s ∨ c = '\n')) := by
      intro α l u v hl hu
      refine hu.imp id ?_
      rintro ⟨c, hcl, hcs⟩
      exact ⟨c, hcl, by rintro (h | rfl); exact hcs h; exact hl hcl⟩
    have m : ∀ {c : Char}, c ≠ '\n' → c ∉ s → ¬ (c ∈ s ∨ c = '\n') := by
      rintro c hc hs (h | h); exact hs h; exact hc h
    exact {
      nl := .inr rfl, customOk := hc, headingV2 := h.headingV2, paragraph := h.paragraph, codeBlock := h.codeBlock
      hardNewline := h.hardNewline, text := h.text, allowNoSpace := h.allowNoSpace.imp id (m (by decide))
      entities := l (by decide) h.entities, blockquote := h.blockquote.imp id (m (by decide))
      githubAlert := h.githubAlert.imp id (m (by decide)), headingV1 := h.headingV1.imp id (m (by decide))
      thematicBreak := h.thematicBreak.imp id fun ⟨h1, h2, h3⟩ => ⟨m (by decide) h1, m (by decide) h2, m (by decide) h3⟩
      list := h.list.imp id fun ⟨h1, h2, h3, h4⟩ => ⟨m (by decide) h1, m (by decide) h2, m (by decide) h3,
        h4.imp (fun h => ⟨m (by decide) h.1, m (by decide) h.2⟩) fun h c hc => by
          rcases hc with hc | rfl
          · exact h c hc
          · decide⟩
      htmlBlock := h.htmlBlock.imp id (m (by decide)), footnoteDefinition := l (by decide) h.footnoteDefinition
      linkDefinition := l (by decide) h.linkDefinition, table := l (by decide) h.table
      autolink := l (by decide) h.autolink, link := l (by decide) h.link
      footnoteReference := l (by decide) h.footnoteReference, referenceLink := l (by decide) h.referenceLink
      image := l (by decide) h.image, codeSpan := h.codeSpan.imp id (m (by decide))
      emphasis := h.emphasis.imp id fun ⟨h1, h2⟩ => ⟨m (by decide) h1, m (by decide) h2⟩
      strikethrough := h.strikethrough.imp id (m (by decide))
      customBlock := fun t ht => h.customBlock t ht, customInline := fun t ht => h.customInline t ht }
  have hs : Over (fun c => c ∈ s ∨ c = '\n') s := fun c hc => .inl hc
  have := blockF_con (x := x) hc (s.length + 1)
  unfold parseMarkdown parseMarkdownF
  rw [agree_terminated (agree_many0 (hA.blockF (s.length + 1))) .refl s hs]

/-- C77 for the user's own parsers: parsers that accept only texts with a certain character have no effect on
inputs without it. -/
theorem C77_custom {x : PExt} {cfg : PConfig} {s : Str} {pb : P (List Block)} {pi : P (List Inline)}
    (hb : Con pb) (hi : Con pi) {c d : Char} (hc : c ≠ '\n' ∧ c ∉ s) (hd : d ≠ '\n' ∧ d ∉ s)
    (h1 : ∀ t, c ∉ t → pb t = none) (h2 : ∀ t, d ∉ t → pi t = none) :
    parseMarkdown x { cfg with customBlock := some pb, customInline := some pi } s =
      parseMarkdown x { cfg with customBlock := none, customInline := none } s := by
  refine C77_indifferent ⟨hi, hb⟩ ?_
  have k : ∀ {e : Char} {t : Str}, (e ≠ '\n' ∧ e ∉ s) → (∀ u ∈ t, u ∈ s ∨ u = '\n') → e ∉ t := by
    intro e t he ht h
    rcases ht e h with h | h
    · exact he.2 h
    · exact he.1 h
  constructor <;> first
    | rfl
    | exact .inl rfl
    | exact fun t ht => h1 t (k hc ht)
    | exact fun t ht => h2 t (k hd ht)

/-- The hypotheses of `C77_indifferent` are met: a text with headings, a list, emphasis and code, to which it makes
no difference what is done with quotes, tables, links, references, entities, HTML, strikethrough. -/
theorem C77_example (x : PExt) (e e' : Str → Option Str) (f : Block → Block) :
    parseMarkdown x { entities := e } cs!"# a *b* `c`\n\n- d-e; (f) 3. \n  1) g\n" =
      parseMarkdown x { entities := e', blockquote := .ignore, htmlBlock := .skip, table := .map f, link := .ignore, referenceLink := .skip, image := .ignore, footnoteDefinition := .ignore, linkDefinition := .map f, strikethrough := .ignore, autolink := .skip, githubAlert := .flatMap fun _ => [] }
        cs!"# a *b* `c`\n\n- d-e; (f) 3. \n  1) g\n" := by
  have l : ∀ {l : Str} {c : Char}, c ∈ l → c ∉ cs!"# a *b* `c`\n\n- d-e; (f) 3. \n  1) g\n" →
      Lacks cs!"# a *b* `c`\n\n- d-e; (f) 3. \n  1) g\n" l := fun h1 h2 => ⟨_, h1, h2⟩
  refine C77_indifferent ⟨by unfold customParser; infer_instance, by unfold customParser; infer_instance⟩ ?_
  constructor <;> first
    | rfl
    | exact .inl rfl
    | exact .inr (by decide)
    | exact .inr (l (c := '&') (by decide) (by decide))
    | exact .inr (l (c := '[') (by decide) (by decide))
    | exact .inr (l (c := '|') (by decide) (by decide))
    | exact .inr (l (c := '<') (by decide) (by decide))
    | exact fun _ _ => rfl

/-- Each of the conditions matters: for each construct a text with no other special characters than those named
for it, on which the configurations differ. -/
theorem C77_boundaries :
    ∀ y ∈ ([({ entities := fun _ => none, allowNoSpaceInHeadings := true }, cs!"#a"),
      ({ entities := fun _ => some cs!"b" }, cs!"&a;"), ({ entities := fun _ => none, blockquote := .ignore }, cs!">a"),
      ({ entities := fun _ => none, headingV1 := .ignore }, cs!"# a"),
      ({ entities := fun _ => none, thematicBreak := .ignore }, cs!"___"), ({ entities := fun _ => none, thematicBreak := .ignore }, cs!"***"),
      ({ entities := fun _ => none, thematicBreak := .ignore }, cs!"---"),
      ({ entities := fun _ => none, list := .ignore }, cs!"- a"), ({ entities := fun _ => none, list := .ignore }, cs!"+ a"),
      ({ entities := fun _ => none, list := .ignore }, cs!"* a"), ({ entities := fun _ => none, list := .ignore }, cs!"1. a"),
      ({ entities := fun _ => none, list := .ignore }, cs!"1) a"),
      ({ entities := fun _ => none, htmlBlock := .skip }, cs!"<p\n"), ({ entities := fun _ => none, footnoteDefinition := .ignore }, cs!"[^a]: b"),
      ({ entities := fun _ => none, linkDefinition := .ignore }, cs!"[a]: b"), ({ entities := fun _ => none, table := .ignore }, cs!"|a|b|\n|-|-|\n"),
      ({ entities := fun _ => none, autolink := .ignore }, cs!"c <ab:c>"), ({ entities := fun _ => none, link := .ignore }, cs!"[a](b)"),
      ({ entities := fun _ => none, footnoteReference := .ignore }, cs!"[^a]"), ({ entities := fun _ => none, referenceLink := .ignore }, cs!"[a]"),
      ({ entities := fun _ => none, image := .ignore }, cs!"![a](b)"), ({ entities := fun _ => none, codeSpan := .ignore }, cs!"`a`"),
      ({ entities := fun _ => none, emphasis := .ignore }, cs!"*a*"), ({ entities := fun _ => none, emphasis := .ignore }, cs!"_a_"),
      ({ entities := fun _ => none, strikethrough := .ignore }, cs!"~~a~~")] : List (PConfig × Str)),
      parseMarkdown PExt.ascii y.1 y.2 ≠ parseMarkdown PExt.ascii (PConfig.default fun _ => none) y.2 := by
  decide +kernel

end Verif
