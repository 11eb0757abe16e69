import Verif.EffectsProps
import Verif.ParserTotal
/-!
# Closures decide nothing (C91)

Whatever the closures return, and whatever they do, the parser accepts the same texts and stops at the same places.
-/
set_option autoImplicit false
set_option linter.unusedSimpArgs false
set_option linter.unusedVariables false
namespace Verif
namespace Fx
open Nom

section
variable {σ α β γ δ : Type}

/-- Both parsers accept the same texts and leave the same rest. -/
def Tr (p : S σ α) (q : P β) : Prop := ∀ s st, (p s st).1.map Prod.fst = (q s).map Prod.fst

/-- The same for a parser applied to a whole string. -/
def TrR (p : R σ α) (q : Str → Option β) : Prop := ∀ s st, (p s st).1.isSome = (q s).isSome

/-- The two ways in which results can be related. -/
theorem Tr.cases {p : S σ α} {q : P β} (h : Tr p q) (s : Str) (st : σ) :
    (∃ st1, p s st = (none, st1) ∧ q s = none) ∨
    ∃ r a b st1, p s st = (some (r, a), st1) ∧ q s = some (r, b) := by
  have := h s st
  rcases hx : p s st with ⟨_ | ⟨r, a⟩, st1⟩ <;> rcases hy : q s with _ | ⟨r', b⟩ <;> rw [hx, hy] at this <;> simp at this
  · exact .inl ⟨st1, rfl, rfl⟩
  · exact .inr ⟨r, a, b, st1, rfl, by rw [this]⟩

theorem tr_of_er {p : S σ α} {q : P α} (h : Er p q) : Tr p q := fun s st => by rw [h s st]

theorem tr_lift (p : P α) : Tr (σ := σ) (lift p) p := fun _ _ => rfl

theorem tr_orElse {p q : S σ α} {p' q' : P β} (hp : Tr p p') (hq : Tr q q') : Tr (p <or> q) (p' <||> q') := by
  intro s st
  simp only [orElse, Nom.orElse]
  rcases hp.cases s st with ⟨st1, h1, h2⟩ | ⟨r, a, b, st1, h1, h2⟩ <;> simp only [h1, h2]
  · exact hq s st1
  · rfl

theorem tr_mapS {p : S σ α} {p' : P β} (hp : Tr p p') (f : α → γ) (g : β → δ) : Tr (mapS p f) (mapP p' g) := by
  intro s st
  simp only [mapS, mapP]
  rcases hp.cases s st with ⟨st1, h1, h2⟩ | ⟨r, a, b, st1, h1, h2⟩ <;> simp only [h1, h2] <;> rfl

theorem tr_mapS_left {p : S σ α} {p' : P β} (hp : Tr p p') (f : α → γ) : Tr (mapS p f) p' := by
  intro s st
  simp only [mapS]
  rcases hp.cases s st with ⟨st1, h1, h2⟩ | ⟨r, a, b, st1, h1, h2⟩ <;> simp only [h1, h2] <;> rfl

theorem tr_bindS {p : S σ α} {p' : P α} {k : α → σ → Option β × σ} {k' : α → Option γ} (hp : Er p p')
    (hk : ∀ a st, (k a st).1.isSome = (k' a).isSome) : Tr (bindS p k) (mapOpt p' k') := by
  intro s st
  simp only [bindS, mapOpt]
  have h := hp s st
  rcases hx : p s st with ⟨_ | ⟨r, a⟩, st1⟩ <;> rw [hx] at h <;> simp only [← h]
  · rfl
  have h2 := hk a st1
  rcases hy : k a st1 with ⟨_ | b, st2⟩ <;> rcases hz : k' a with _ | c <;> rw [hy, hz] at h2 <;> simp at h2 <;> simp

theorem tr_bind_some {p : S σ α} {p' : P β} (hp : Tr p p') {k : α → σ → Option γ × σ} (hk : ∀ a st, (k a st).1.isSome = true) :
    Tr (bindS p k) p' := by
  intro s st
  simp only [bindS]
  rcases hp.cases s st with ⟨st1, h1, h2⟩ | ⟨r, a, b, st1, h1, h2⟩ <;> simp only [h1, h2]
  · rfl
  have h2 := hk a st1
  rcases hy : k a st1 with ⟨_ | b, st2⟩ <;> rw [hy] at h2 <;> simp at h2 ⊢

theorem er_notS_of_tr {p : S σ α} {p' : P β} (hp : Tr p p') : Er (notS p) (notP p') := by
  intro s st
  simp only [notS, notP]
  rcases hp.cases s st with ⟨st1, h1, h2⟩ | ⟨r, a, b, st1, h1, h2⟩ <;> simp only [h1, h2]

theorem er_recognizeS_of_tr {p : S σ α} {p' : P β} (hp : Tr p p') : Er (recognizeS p) (recognize p') := by
  intro s st
  simp only [recognizeS, recognize]
  rcases hp.cases s st with ⟨st1, h1, h2⟩ | ⟨r, a, b, st1, h1, h2⟩ <;> simp only [h1, h2]

theorem tr_seqS {p : S σ α} {p' : P β} {q : S σ γ} {q' : P δ} (hp : Tr p p') (hq : Tr q q') :
    Tr (seqS p q) (seq p' q') := by
  intro s st
  simp only [seqS, seq]
  rcases hp.cases s st with ⟨st1, h1, h2⟩ | ⟨r, a, b, st1, h1, h2⟩ <;> simp only [h1, h2]
  · rfl
  rcases hq.cases r st1 with ⟨st2, h3, h4⟩ | ⟨r2, a2, b2, st2, h3, h4⟩ <;> simp only [h3, h4] <;> rfl

theorem tr_precededS {p : S σ α} {p' : P β} {q : S σ γ} {q' : P δ} (hp : Tr p p') (hq : Tr q q') :
    Tr (precededS p q) (preceded p' q') := by
  intro s st
  simp only [precededS, preceded]
  rcases hp.cases s st with ⟨st1, h1, h2⟩ | ⟨r, a, b, st1, h1, h2⟩ <;> simp only [h1, h2]
  · rfl
  exact hq r st1

theorem tr_terminatedS {p : S σ α} {p' : P β} {q : S σ γ} {q' : P δ} (hp : Tr p p') (hq : Tr q q') :
    Tr (terminatedS p q) (terminated p' q') := tr_mapS (tr_seqS hp hq) _ _

theorem tr_delimitedS {ε ζ : Type} {p : S σ α} {p' : P β} {q : S σ γ} {q' : P δ} {t : S σ ε} {t' : P ζ} (hp : Tr p p')
    (hq : Tr q q') (ht : Tr t t') : Tr (delimitedS p q t) (delimited p' q' t') :=
  tr_precededS hp (tr_terminatedS hq ht)

theorem tr_many0FS {p : S σ α} {p' : P β} (hp : Tr p p') (n : Nat) : Tr (many0FS p n) (many0F p' n) := by
  induction n with
  | zero => intro s st; rfl
  | succ n ih =>
    intro s st
    simp only [many0FS, many0F]
    rcases hp.cases s st with ⟨st1, h1, h2⟩ | ⟨r, a, b, st1, h1, h2⟩ <;> simp only [h1, h2]
    · rfl
    split
    · rcases ih.cases r st1 with ⟨st2, h3, h4⟩ | ⟨r2, a2, b2, st2, h3, h4⟩ <;> simp only [h3, h4] <;> rfl
    · rfl

theorem tr_many0S {p : S σ α} {p' : P β} (hp : Tr p p') : Tr (many0S p) (many0 p') :=
  fun s st => tr_many0FS hp _ s st

theorem tr_many1S {p : S σ α} {p' : P β} (hp : Tr p p') : Tr (many1S p) (many1 p') := by
  intro s st
  simp only [many1S, many1]
  rcases hp.cases s st with ⟨st1, h1, h2⟩ | ⟨r, a, b, st1, h1, h2⟩ <;> simp only [h1, h2]
  · rfl
  rcases (tr_many0S hp).cases r st1 with ⟨st2, h3, h4⟩ | ⟨r2, a2, b2, st2, h3, h4⟩ <;> simp only [h3, h4] <;> rfl

/-- Both parsers accept the same texts, leave the same rest and give lists of the same length. -/
def TrL (p : S σ (List α)) (q : P (List β)) : Prop := ∀ s st,
  (∃ st1, p s st = (none, st1) ∧ q s = none) ∨
    ∃ r l l' st1, p s st = (some (r, l), st1) ∧ q s = some (r, l') ∧ l.length = l'.length

theorem TrL.tr {p : S σ (List α)} {q : P (List β)} (h : TrL p q) : Tr p q := by
  intro s st
  rcases h s st with ⟨st1, h1, h2⟩ | ⟨r, l, l', st1, h1, h2, _⟩ <;> rw [h1, h2] <;> rfl

theorem trl_sepLoopFS {sep : P γ} {p : S σ α} {p' : P β} (hp : Tr p p') (n : Nat) :
    TrL (sepLoopFS sep p n) (sepLoopF sep p' n) := by
  induction n with
  | zero => intro s st; exact .inl ⟨st, rfl, rfl⟩
  | succ n ih =>
    intro s st
    simp only [sepLoopFS, sepLoopF]
    rcases sep s with _ | ⟨r, b⟩
    · exact .inr ⟨_, _, _, _, rfl, rfl, rfl⟩
    simp only
    rcases hp.cases r st with ⟨st1, h1, h2⟩ | ⟨r1, a, b, st1, h1, h2⟩ <;> simp only [h1, h2]
    · exact .inr ⟨_, _, _, _, rfl, rfl, rfl⟩
    by_cases hl : r1.length < s.length
    · rw [if_pos hl, if_pos hl]
      rcases ih r1 st1 with ⟨st2, h3, h4⟩ | ⟨r2, l, l', st2, h3, h4, h5⟩ <;> simp only [h3, h4]
      · exact .inl ⟨_, rfl, trivial⟩
      · exact .inr ⟨_, _, _, _, rfl, rfl, by simp only [List.length_cons, h5]⟩
    · rw [if_neg hl, if_neg hl]
      exact .inl ⟨_, rfl, rfl⟩

theorem trl_separatedList1S {sep : P γ} {p : S σ α} {p' : P β} (hp : Tr p p') :
    TrL (separatedList1S sep p) (separatedList1 sep p') := by
  intro s st
  simp only [separatedList1S, separatedList1]
  rcases hp.cases s st with ⟨st1, h1, h2⟩ | ⟨r1, a, b, st1, h1, h2⟩ <;> simp only [h1, h2]
  · exact .inl ⟨_, rfl, trivial⟩
  simp only [sepLoopS, sepLoop]
  rcases trl_sepLoopFS (sep := sep) hp (r1.length + 1) r1 st1 with ⟨st2, h3, h4⟩ | ⟨r2, l, l', st2, h3, h4, h5⟩ <;>
    simp only [h3, h4]
  · exact .inl ⟨_, rfl, trivial⟩
  · exact .inr ⟨_, _, _, _, rfl, rfl, by simp only [List.length_cons, h5]⟩

theorem trl_precededS {p : S σ α} {p' : P β} {q : S σ (List γ)} {q' : P (List δ)} (hp : Tr p p') (hq : TrL q q') :
    TrL (precededS p q) (preceded p' q') := by
  intro s st
  simp only [precededS, preceded]
  rcases hp.cases s st with ⟨st1, h1, h2⟩ | ⟨r, a, b, st1, h1, h2⟩ <;> simp only [h1, h2]
  · exact .inl ⟨_, rfl, trivial⟩
  exact hq r st1

theorem trl_terminatedS {p : S σ (List α)} {p' : P (List β)} {q : S σ γ} {q' : P δ} (hp : TrL p p') (hq : Tr q q') :
    TrL (terminatedS p q) (terminated p' q') := by
  intro s st
  simp only [terminatedS, terminated, mapS, mapP, seqS, seq]
  rcases hp s st with ⟨st1, h1, h2⟩ | ⟨r, l, l', st1, h1, h2, h3⟩ <;> simp only [h1, h2]
  · exact .inl ⟨_, rfl, trivial⟩
  rcases hq.cases r st1 with ⟨st2, h4, h5⟩ | ⟨r2, a, b, st2, h4, h5⟩ <;> simp only [h4, h5]
  · exact .inl ⟨_, rfl, trivial⟩
  · exact .inr ⟨_, _, _, _, rfl, rfl, h3⟩

theorem trR_whole {p : S σ α} {p' : P β} (hp : Tr p p') : TrR (whole p) (fun s => (p' s).map Prod.snd) := by
  intro s st
  simp only [whole]
  rcases hp.cases s st with ⟨st1, h1, h2⟩ | ⟨r1, a, b, st1, h1, h2⟩ <;> simp only [h1, h2] <;> rfl

/-! ## Configurations -/

/-- The construct is ignored. -/
def Behavior.ignored : Behavior σ α → Bool
  | .ignore => true
  | _ => false

/-- The construct is ignored. -/
def _root_.Verif.Behavior.ignored {α : Type} : Verif.Behavior α → Bool
  | .ignore => true
  | _ => false

/-- The custom parser accepts the same texts. -/
def customFollows : Option (S σ α) → Option (P β) → Prop
  | none, none => True
  | some p, some q => Tr p q
  | _, _ => False

/-- The same constructs are ignored, and the custom parsers accept the same texts. -/
structure Config.Follows (c : Config σ) (d : PConfig) : Prop where
  allowNoSpaceInHeadings : c.allowNoSpaceInHeadings = d.allowNoSpaceInHeadings
  entities : c.entities = d.entities
  blockquote : c.blockquote.ignored = d.blockquote.ignored
  githubAlert : c.githubAlert.ignored = d.githubAlert.ignored
  headingV1 : c.headingV1.ignored = d.headingV1.ignored
  headingV2 : c.headingV2.ignored = d.headingV2.ignored
  thematicBreak : c.thematicBreak.ignored = d.thematicBreak.ignored
  list : c.list.ignored = d.list.ignored
  codeBlock : c.codeBlock.ignored = d.codeBlock.ignored
  htmlBlock : c.htmlBlock.ignored = d.htmlBlock.ignored
  footnoteDefinition : c.footnoteDefinition.ignored = d.footnoteDefinition.ignored
  linkDefinition : c.linkDefinition.ignored = d.linkDefinition.ignored
  table : c.table.ignored = d.table.ignored
  paragraph : c.paragraph.ignored = d.paragraph.ignored
  autolink : c.autolink.ignored = d.autolink.ignored
  link : c.link.ignored = d.link.ignored
  footnoteReference : c.footnoteReference.ignored = d.footnoteReference.ignored
  referenceLink : c.referenceLink.ignored = d.referenceLink.ignored
  hardNewline : c.hardNewline.ignored = d.hardNewline.ignored
  image : c.image.ignored = d.image.ignored
  codeSpan : c.codeSpan.ignored = d.codeSpan.ignored
  emphasis : c.emphasis.ignored = d.emphasis.ignored
  strikethrough : c.strikethrough.ignored = d.strikethrough.ignored
  text : c.text.ignored = d.text.ignored
  customBlock : customFollows c.customBlock d.customBlock
  customInline : customFollows c.customInline d.customInline

theorem tr_conditional {b : Behavior σ α} {b' : Verif.Behavior β} (h : b.ignored = b'.ignored) {p : S σ α} {p' : P β}
    (hp : Tr p p') (l : List α) (l' : List β) : Tr (conditional b l p) (Verif.conditional b' l' p') := by
  cases b <;> cases b' <;> simp only [Behavior.ignored, Verif.Behavior.ignored, reduceCtorEq] at h <;>
    simp only [conditional, Verif.conditional, value] <;>
    first
      | exact tr_lift _
      | exact fun s st => rfl
      | exact tr_mapS hp _ _
      | (intro s st
         rw [tr_bind_some hp (fun _ _ => rfl) s st]
         simp only [mapP]
         cases p' s <;> rfl)

theorem tr_conditionalBlockVec {b : Behavior σ Block} {b' : Verif.Behavior Block} (h : b.ignored = b'.ignored)
    {p : S σ (List Block)} {p' : P (List Block)} (hp : Tr p p') :
    Tr (conditionalBlockVec b p) (Verif.conditionalBlockVec b' p') := by
  have h1 : Tr (mapS p fun _ => [Block.empty]) p' := tr_mapS_left hp _
  have h2 : Tr p (mapP p' fun _ => [Block.empty]) := by
    intro s st
    rw [hp s st]
    simp only [mapP]
    cases p' s <;> rfl
  cases b <;> cases b' <;> simp only [Behavior.ignored, Verif.Behavior.ignored, reduceCtorEq] at h <;>
    simp only [conditionalBlockVec, Verif.conditionalBlockVec, value] <;>
    first | exact hp | exact fun s st => rfl | exact tr_mapS hp _ _ | exact h1 | exact h2

theorem tr_conditionalUnit {b : Behavior σ α} {b' : Verif.Behavior β} (h : b.ignored = b'.ignored) {p : S σ γ} {p' : P δ}
    (hp : Tr p p') : Tr (conditionalUnit b p) (Verif.conditionalUnit b' p') := by
  cases b <;> cases b' <;> simp only [Behavior.ignored, Verif.Behavior.ignored, reduceCtorEq] at h <;>
    simp only [conditionalUnit, Verif.conditionalUnit, value] <;>
    first | exact fun s st => rfl | exact tr_mapS hp _ _

theorem tr_customParser {p : Option (S σ (List α))} {q : Option (P (List β))} (h : customFollows p q) :
    Tr (customParser p) (Verif.customParser q) := by
  cases p <;> cases q <;> simp only [customFollows] at h
  · exact fun s st => rfl
  · exact h

/-! ## Inlines -/

variable {x : PExt} {cfg : Config σ} {d : PConfig}

theorem tr_linkLabel {rec : R σ (List Inline)} {rec' : Str → Option (List Inline)} (h : TrR rec rec') :
    Tr (linkLabel rec) (Verif.linkLabel rec') := by
  refine tr_delimitedS (tr_lift _) ?_ (tr_lift _)
  intro s st
  unfold linkLabelInner
  rw [tr_bindS (er_lift _) h s st]
  unfold Verif.linkLabelInner mapOpt
  generalize verify _ _ s = o
  rcases o with _ | ⟨r, l⟩ <;> simp only
  cases rec' l <;> rfl

theorem tr_inlineLink {rec : R σ (List Inline)} {rec' : Str → Option (List Inline)} (h : TrR rec rec') :
    Tr (inlineLink rec) (Verif.inlineLink rec') := tr_mapS (tr_seqS (tr_linkLabel h) (tr_lift _)) _ _

theorem tr_referenceLink {rec : R σ (List Inline)} {rec' : Str → Option (List Inline)} (h : TrR rec rec') :
    Tr (referenceLink rec) (Verif.referenceLink rec') :=
  tr_orElse (tr_mapS (tr_seqS (tr_linkLabel h) (tr_linkLabel h)) _ _)
    (tr_orElse (tr_mapS (tr_terminatedS (tr_linkLabel h) (tr_lift _)) _ _) (tr_mapS (tr_linkLabel h) _ _))

theorem tr_emphasisDelimited {rec : R σ (List Inline)} {rec' : Str → Option (List Inline)} (h : TrR rec rec') (t : Str) :
    Tr (emphasisDelimited x rec t) (Verif.emphasisDelimited x rec' t) :=
  tr_delimitedS (tr_lift _) (tr_bindS (er_lift _) h) (tr_lift _)

theorem tr_emphasisP {rec : R σ (List Inline)} {rec' : Str → Option (List Inline)} (h : TrR rec rec') :
    Tr (emphasisP x rec) (Verif.emphasisP x rec') := by
  have k := tr_emphasisDelimited (x := x) h
  exact tr_orElse (tr_mapS (tr_orElse (k _) (k _)) _ _)
    (tr_orElse (tr_mapS (tr_orElse (k _) (k _)) _ _) (tr_mapS (tr_orElse (k _) (k _)) _ _))

theorem tr_strikethroughP {rec : R σ (List Inline)} {rec' : Str → Option (List Inline)} (h : TrR rec rec') :
    Tr (strikethroughP rec) (Verif.strikethroughP rec') := by
  intro s st
  rw [strikethroughP, tr_mapS (tr_bindS (er_lift _) h) _ Inline.strikethrough s st]
  unfold mapP mapOpt strikeContent Verif.strikethroughP
  repeat' split
  all_goals simp_all

theorem fol_htmlEntity (h : cfg.Follows d) : htmlEntity (PConfig.default cfg.entities) = htmlEntity d := by
  simp only [htmlEntity, htmlEntityAlpha, PConfig.default, h.entities]

theorem tr_notAText (hc : cfg.Follows d) {rec : R σ (List Inline)} {rec' : Str → Option (List Inline)} (h : TrR rec rec') :
    Tr (notAText x cfg rec) (Verif.notAText x d rec') := by
  unfold notAText
  rw [fol_htmlEntity hc]
  exact tr_orElse (tr_conditionalUnit hc.autolink (tr_lift _)) <|
    tr_orElse (tr_conditionalUnit hc.referenceLink (tr_referenceLink h)) <|
    tr_orElse (tr_conditionalUnit hc.hardNewline (tr_lift _)) <|
    tr_orElse (tr_conditionalUnit hc.text (tr_lift _)) <|
    tr_orElse (tr_conditionalUnit hc.image (tr_lift _)) <|
    tr_orElse (tr_conditionalUnit hc.link (tr_inlineLink h)) <|
    tr_orElse (tr_conditionalUnit hc.codeSpan (tr_lift _)) <|
    tr_orElse (tr_conditionalUnit hc.emphasis (tr_emphasisP h)) <|
    tr_orElse (tr_conditionalUnit hc.footnoteReference (tr_lift _)) <|
    tr_orElse (tr_conditionalUnit hc.strikethrough (tr_strikethroughP h)) (tr_lift _)

theorem tr_textP (hc : cfg.Follows d) {rec : R σ (List Inline)} {rec' : Str → Option (List Inline)} (h : TrR rec rec') :
    Tr (textP x cfg rec) (Verif.textP x d rec') := by
  unfold textP textPiece
  rw [fol_htmlEntity hc]
  exact tr_mapS (tr_many1S (tr_orElse (tr_lift _) (tr_orElse (tr_lift _)
    (tr_of_er (er_recognizeS_of_tr (tr_many1S (tr_precededS (tr_of_er (er_notS_of_tr (tr_notAText hc h))) (tr_lift _)))))))) _ _

theorem tr_inlineStep (hc : cfg.Follows d) {rec : R σ (List Inline)} {rec' : Str → Option (List Inline)} (h : TrR rec rec') :
    Tr (inlineStep x cfg rec) (Verif.inlineStep x d rec') :=
  tr_orElse (tr_conditional hc.autolink (tr_lift _) _ _) <|
    tr_orElse (tr_conditional hc.link (tr_inlineLink h) _ _) <|
    tr_orElse (tr_conditional hc.footnoteReference (tr_lift _) _ _) <|
    tr_orElse (tr_conditional hc.referenceLink (tr_referenceLink h) _ _) <|
    tr_orElse (tr_conditional hc.hardNewline (tr_lift _) _ _) <|
    tr_orElse (tr_conditional hc.image (tr_lift _) _ _) <|
    tr_orElse (tr_conditional hc.codeSpan (tr_lift _) _ _) <|
    tr_orElse (tr_lift _) <|
    tr_orElse (tr_conditional hc.emphasis (tr_emphasisP h) _ _) <|
    tr_orElse (tr_conditional hc.strikethrough (tr_strikethroughP h) _ _) <|
    tr_orElse (tr_customParser hc.customInline) (tr_conditional hc.text (tr_textP hc h) _ _)

theorem tr_inlineF (hc : cfg.Follows d) (n : Nat) : Tr (inlineF x cfg n) (Verif.inlineF x d n) := by
  induction n with
  | zero => exact fun s st => rfl
  | succ n ih => exact tr_inlineStep hc (trR_whole (tr_mapS (tr_many1S ih) _ _))

theorem tr_parseInlines1 (hc : cfg.Follows d) : TrR (parseInlines1 x cfg) (Verif.parseInlines1 x d) :=
  fun s st => trR_whole (tr_mapS (tr_many1S (tr_inlineF hc _)) _ _) s st

theorem tr_parseInlines0 (hc : cfg.Follows d) : TrR (parseInlines0 x cfg) (Verif.parseInlines0 x d) :=
  fun s st => trR_whole (tr_mapS (tr_many0S (tr_inlineF hc _)) _ _) s st

/-! ## Blocks -/

theorem tr_headingV1 (hc : cfg.Follows d) : Tr (headingV1 x cfg) (Verif.headingV1 x d) := by
  intro s st
  unfold headingV1
  rw [tr_bindS (k' := fun y => (Verif.parseInlines0 x d y.2).map (Block.heading (.atx y.1.length))) (er_lift _)
    (fun a st => by simp only [Option.isSome_map, tr_parseInlines0 hc a.2 st]) s st]
  unfold mapOpt Verif.headingV1
  rw [hc.allowNoSpaceInHeadings]
  generalize seq _ _ s = o
  rcases o with _ | ⟨r, h, c⟩
  · rfl
  dsimp only
  cases Verif.parseInlines0 x d c <;> rfl

variable {rec : S σ (List Block)} {rec' : P (List Block)}

theorem tr_blocks1 (h : Tr rec rec') : TrR (blocks1 rec) (Verif.blocks1 rec') := by
  intro s st
  unfold blocks1
  rw [trR_whole (tr_mapS (tr_many1S h) _ List.flatten) s st]
  unfold Verif.blocks1 mapP
  dsimp only
  cases many1 rec' s <;> rfl

theorem tr_blocks0 (h : Tr rec rec') : TrR (blocks0 rec) (Verif.blocks0 rec') := by
  intro s st
  unfold blocks0
  rw [trR_whole (tr_mapS (tr_many0S h) _ List.flatten) s st]
  unfold Verif.blocks0 mapP
  dsimp only
  cases many0 rec' s <;> rfl

theorem tr_blockquoteP (h : Tr rec rec') : Tr (blockquoteP rec) (Verif.blockquoteP rec') := by
  intro s st
  rw [blockquoteP, tr_mapS (tr_bindS (k := fun l => blocks1 rec (joinWith ['\n'] l))
    (k' := fun l => Verif.blocks1 rec' (joinWith ['\n'] l)) (er_lift _) (fun a st => tr_blocks1 h _ st)) _ Block.blockQuote s st]
  unfold Verif.blockquoteP mapP mapOpt
  rcases quoteLines s with _ | ⟨r, l⟩ <;> simp only
  cases Verif.blocks1 rec' (joinWith ['\n'] l) <;> rfl

theorem tr_githubAlertP (h : Tr rec rec') : Tr (githubAlertP x rec) (Verif.githubAlertP x rec') := by
  intro s st
  unfold githubAlertP Verif.githubAlertP
  rcases preceded (seq quotePrefix (Nom.opt (chr ' '))) (lineTerminated notEofOrEol0) s with _ | ⟨_, first⟩
  · rfl
  simp only
  rcases parseAlertMarker x (trim first) with _ | t
  · rfl
  simp only
  rcases quoteLines s with _ | ⟨r, lines⟩
  · rfl
  simp only
  split
  · rfl
  have h2 := tr_blocks1 h (joinWith ['\n'] (lines.drop 1)) st
  generalize blocks1 rec (joinWith ['\n'] (lines.drop 1)) st = o1 at h2 ⊢
  generalize Verif.blocks1 rec' (joinWith ['\n'] (lines.drop 1)) = o2 at h2 ⊢
  rcases o1 with ⟨_ | b, st2⟩ <;> rcases o2 with _ | b' <;> simp at h2 <;> rfl

theorem tr_listItemP (h : Tr rec rec') : Tr (listItemP rec) (Verif.listItemP rec') := by
  intro s st
  unfold listItemP Verif.listItemP
  rcases listMarkerWithSpanSize s with _ | ⟨s1, kind, pl, task, first⟩
  · rfl
  simp only
  rcases listItemLines kind pl s1 with _ | ⟨s2, rest⟩
  · rfl
  simp only
  have h2 := tr_blocks0 h (itemContent first rest) st
  generalize blocks0 rec (itemContent first rest) st = o1 at h2 ⊢
  generalize Verif.blocks0 rec' (itemContent first rest) = o2 at h2 ⊢
  rcases o1 with ⟨_ | b, st2⟩ <;> rcases o2 with _ | b' <;> simp at h2 <;> rfl

theorem tr_listP (h : Tr rec rec') : Tr (listP rec) (Verif.listP rec') := by
  intro s st
  unfold listP Verif.listP many1S many1
  rcases (tr_listItemP h).cases s st with ⟨st1, h1, h2⟩ | ⟨r, ⟨k, i⟩, ⟨k', i'⟩, st1, h1, h2⟩ <;> simp only [h1, h2]
  rcases (tr_many0S (tr_listItemP h)).cases r st1 with ⟨st2, h3, h4⟩ | ⟨r2, a2, b2, st2, h3, h4⟩ <;> simp only [h3, h4] <;> rfl

theorem tr_footnoteDefinitionP (h : Tr rec rec') : Tr (footnoteDefinitionP rec) (Verif.footnoteDefinitionP rec') := by
  intro s st
  unfold footnoteDefinitionP Verif.footnoteDefinitionP
  generalize preceded indent03 (preceded (tag cs!"[^") _) s = o1
  rcases o1 with _ | ⟨s1, label⟩
  · rfl
  simp only
  rcases preceded indent03 (lineTerminated notEofOrEol1) s1 with _ | ⟨s2, first⟩
  · rfl
  simp only
  rcases many0 (preceded (manyMN (chr ' ') 3 3) (lineTerminated notEofOrEol1)) s2 with _ | ⟨s3, rest⟩
  · rfl
  simp only
  have h2 := tr_blocks0 h (itemContent first (rest.map (fun l => [l]))) st
  generalize blocks0 rec (itemContent first (rest.map (fun l => [l]))) st = o1 at h2 ⊢
  generalize Verif.blocks0 rec' (itemContent first (rest.map (fun l => [l]))) = o2 at h2 ⊢
  rcases o1 with ⟨_ | b, st2⟩ <;> rcases o2 with _ | b' <;> simp at h2 <;> rfl

theorem tr_linkDefinitionP (hc : cfg.Follows d) : Tr (linkDefinitionP x cfg) (Verif.linkDefinitionP x d) :=
  tr_mapS (tr_terminatedS (tr_seqS (tr_precededS (tr_lift _) (tr_linkLabel (tr_parseInlines1 hc))) (tr_lift _))
    (tr_lift _)) _ _

theorem trl_tableRow (hc : cfg.Follows d) : TrL (tableRow x cfg) (Verif.tableRow x d) :=
  trl_terminatedS (trl_precededS (tr_lift _) (trl_precededS (tr_lift _) (trl_terminatedS
    (trl_separatedList1S (tr_bindS (er_lift _) (fun a st => tr_parseInlines0 hc _ st))) (tr_lift _)))) (tr_lift _)

theorem tr_tableP (hc : cfg.Follows d) : Tr (tableP x cfg) (Verif.tableP x d) := by
  intro s st
  unfold tableP Verif.tableP
  rcases trl_tableRow (x := x) hc s st with ⟨st1, h1, h2⟩ | ⟨s1, header, header', st1, h1, h2, h3⟩ <;> simp only [h1, h2]
  rcases alignmentRow s1 with _ | ⟨s2, aligns⟩
  · rfl
  simp only [h3]
  split
  · rfl
  have h4 : Tr (tableDataRows x cfg header'.length) (Verif.tableDataRows x d header'.length) :=
    tr_many0S (tr_mapS (trl_tableRow hc).tr _ _)
  rcases h4.cases s2 st1 with ⟨st2, h5, h6⟩ | ⟨r2, a2, b2, st2, h5, h6⟩ <;> simp only [h5, h6] <;> rfl

theorem tr_notAParagraphLine (hc : cfg.Follows d) (h : Tr rec rec') :
    Tr (notAParagraphLine x cfg rec) (Verif.notAParagraphLine x d rec') :=
  tr_orElse (tr_conditionalUnit hc.headingV1 (tr_headingV1 hc)) <|
    tr_orElse (tr_conditionalUnit hc.headingV2 (tr_lift _)) <|
    tr_orElse (tr_conditionalUnit hc.thematicBreak (tr_lift _)) <|
    tr_orElse (tr_conditionalUnit hc.blockquote (tr_blockquoteP h)) <|
    tr_orElse (tr_conditionalUnit hc.list (tr_listItemP h)) <|
    tr_orElse (tr_conditionalUnit hc.codeBlock (tr_lift _)) <|
    tr_orElse (tr_conditionalUnit hc.htmlBlock (tr_lift _)) <|
    tr_orElse (tr_conditionalUnit hc.linkDefinition (tr_linkDefinitionP hc)) <|
    tr_orElse (tr_conditionalUnit hc.footnoteDefinition (tr_footnoteDefinitionP h)) <|
    tr_orElse (tr_conditionalUnit hc.table (tr_tableP hc)) <|
    tr_orElse (tr_mapS (tr_customParser hc.customBlock) _ _) (tr_lift _)

theorem er_paragraphLines_of (hc : cfg.Follows d) (h : Tr rec rec') :
    Er (paragraphLines x cfg rec) (Verif.paragraphLines x d rec') :=
  er_terminatedS (er_separatedList0S (er_precededS (er_notS_of_tr (tr_notAParagraphLine hc h)) (er_lift _))) (er_lift _)

theorem tr_paragraphP (hc : cfg.Follows d) (h : Tr rec rec') (b : Bool) :
    Tr (paragraphP x cfg rec b) (Verif.paragraphP x d rec' b) := by
  cases b
  · exact tr_bindS (er_mapS (er_seqS (er_lift _) (er_paragraphLines_of hc h)) _) (fun a st => tr_parseInlines1 hc _ st)
  · exact tr_bindS (er_paragraphLines_of hc h) (fun a st => tr_parseInlines1 hc _ st)

theorem tr_blockAlt (hc : cfg.Follows d) (h : Tr rec rec') : Tr (blockAlt x cfg rec) (Verif.blockAlt x d rec') :=
  tr_orElse (tr_conditional hc.codeBlock (tr_lift _) _ _) <|
    tr_orElse (tr_conditional hc.headingV1 (tr_headingV1 hc) _ _) <|
    tr_orElse (tr_conditional hc.headingV2 (tr_mapS (tr_seqS (tr_paragraphP hc h _) (tr_lift _)) _ _) _ _) <|
    tr_orElse (tr_conditional hc.thematicBreak (tr_lift _) _ _) <|
    tr_orElse (tr_conditionalBlockVec hc.githubAlert (tr_githubAlertP h)) <|
    tr_orElse (tr_conditional hc.blockquote (tr_blockquoteP h) _ _) <|
    tr_orElse (tr_conditional hc.list (tr_listP h) _ _) <|
    tr_orElse (tr_conditional hc.htmlBlock (tr_lift _) _ _) <|
    tr_orElse (tr_conditional hc.footnoteDefinition (tr_footnoteDefinitionP h) _ _) <|
    tr_orElse (tr_conditional hc.linkDefinition (tr_linkDefinitionP hc) _ _) <|
    tr_orElse (tr_conditional hc.table (tr_tableP hc) _ _) <|
    tr_orElse (tr_customParser hc.customBlock) (tr_conditional hc.paragraph (tr_mapS (tr_paragraphP hc h _) _ _) _ _)

theorem tr_blockF (hc : cfg.Follows d) (n : Nat) : Tr (blockF x cfg n) (Verif.blockF x d n) := by
  induction n with
  | zero => exact fun s st => rfl
  | succ n ih => exact tr_precededS (tr_lift _) (tr_blockAlt hc ih)

/-- **C91.** Closures cannot make a parse fail or succeed: whatever they return and do, a text is accepted exactly if it
is accepted without them. -/
theorem C91_accepts (hc : cfg.Follows d) (s : Str) (st : σ) :
    (parseMarkdown x cfg s st).1.isSome = (Verif.parseMarkdown x d s).isSome := by
  unfold parseMarkdown Verif.parseMarkdown parseMarkdownF
  have h : Tr (terminatedS (many0S (blockF x cfg (s.length + 1))) (lift (seq (many0 (space1 <||> lineEnding)) eof))) _ :=
    tr_terminatedS (tr_many0S (tr_blockF (x := x) hc (s.length + 1))) (tr_lift _)
  rcases h.cases s st with ⟨st1, h1, h2⟩ | ⟨r, a, b, st1, h1, h2⟩ <;> simp only [h1, h2] <;> rfl

/-- Every configuration without custom parsers ignores the same constructs as one that parses everything else. -/
theorem exists_follows (ht : cfg.text.ignored = false) (hp : cfg.paragraph.ignored = false) (hb : cfg.customBlock = none)
    (hi : cfg.customInline = none) : ∃ d : PConfig, cfg.Follows d ∧ d.CustomOk ∧ d.text ≠ .ignore ∧ d.paragraph ≠ .ignore ∧
      (cfg.blockquote.ignored = false → d.blockquote = .parse) := by
  have key : ∀ {α β : Type} (b : Behavior σ α), ∃ b' : Verif.Behavior β, b.ignored = b'.ignored ∧
      (b.ignored = false → b' = .parse) := by
    intro α β b
    cases b
    case ignore => exact ⟨.ignore, rfl, fun h => by cases h⟩
    all_goals exact ⟨.parse, rfl, fun _ => rfl⟩
  obtain ⟨b1, e1, g1⟩ := key (β := Block) cfg.blockquote
  obtain ⟨b2, e2, _⟩ := key (β := Block) cfg.githubAlert
  obtain ⟨b3, e3, _⟩ := key (β := Block) cfg.headingV1
  obtain ⟨b4, e4, _⟩ := key (β := Block) cfg.headingV2
  obtain ⟨b5, e5, _⟩ := key (β := Block) cfg.thematicBreak
  obtain ⟨b6, e6, _⟩ := key (β := Block) cfg.list
  obtain ⟨b7, e7, _⟩ := key (β := Block) cfg.codeBlock
  obtain ⟨b8, e8, _⟩ := key (β := Block) cfg.htmlBlock
  obtain ⟨b9, e9, _⟩ := key (β := Block) cfg.footnoteDefinition
  obtain ⟨b10, e10, _⟩ := key (β := Block) cfg.linkDefinition
  obtain ⟨b11, e11, _⟩ := key (β := Block) cfg.table
  obtain ⟨c1, f1, _⟩ := key (β := Inline) cfg.autolink
  obtain ⟨c2, f2, _⟩ := key (β := Inline) cfg.link
  obtain ⟨c3, f3, _⟩ := key (β := Inline) cfg.footnoteReference
  obtain ⟨c4, f4, _⟩ := key (β := Inline) cfg.referenceLink
  obtain ⟨c5, f5, _⟩ := key (β := Inline) cfg.hardNewline
  obtain ⟨c6, f6, _⟩ := key (β := Inline) cfg.image
  obtain ⟨c7, f7, _⟩ := key (β := Inline) cfg.codeSpan
  obtain ⟨c8, f8, _⟩ := key (β := Inline) cfg.emphasis
  obtain ⟨c9, f9, _⟩ := key (β := Inline) cfg.strikethrough
  let d : PConfig := ⟨cfg.allowNoSpaceInHeadings, cfg.entities, b1, b2, b3, b4, b5, b6, b7, b8, b9, b10, b11, .parse,
    c1, c2, c3, c4, c5, c6, c7, c8, c9, .parse, none, none⟩
  have hd : cfg.Follows d := ⟨rfl, rfl, e1, e2, e3, e4, e5, e6, e7, e8, e9, e10, e11, hp, f1, f2, f3, f4, f5, f6, f7, f8, f9,
    ht, by rw [hb]; trivial, by rw [hi]; trivial⟩
  exact ⟨d, hd, ⟨inferInstanceAs (Con failP), inferInstanceAs (Con failP)⟩, (by intro h; cases h), (by intro h; cases h), g1⟩

/-- **C91.** Without custom parsers, and with texts and paragraphs parsed, every text is accepted, whatever the closures
return and do. -/
theorem C91_total (ht : cfg.text.ignored = false) (hp : cfg.paragraph.ignored = false) (hb : cfg.customBlock = none)
    (hi : cfg.customInline = none) (s : Str) (st : σ) : ∃ doc, (parseMarkdown x cfg s st).1 = some doc := by
  obtain ⟨d, hd, hc, h1, h2, _⟩ := exists_follows ht hp hb hi
  obtain ⟨doc, h⟩ := C32_parse_total_of_config (x := x) (cfg := d) hc h1 h2 s
  have := C91_accepts (x := x) hd s st
  rw [h] at this
  exact Option.isSome_iff_exists.1 this

end
end Fx
end Verif
