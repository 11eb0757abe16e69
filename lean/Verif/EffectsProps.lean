import Verif.Effects
/-!
# Closures with side effects (C91)

If what the closures return does not depend on their state, the state has no influence on the result.
-/
set_option autoImplicit false
set_option linter.unusedSimpArgs false
namespace Verif
namespace Fx
open Nom

section
variable {σ α β γ : Type}

/-- The closure-running parser gives what the other one gives, in every state. -/
def Er (p : S σ α) (q : P α) : Prop := ∀ s st, (p s st).1 = q s

/-- The same for a parser applied to a whole string. -/
def ErR (p : R σ α) (q : Str → Option α) : Prop := ∀ s st, (p s st).1 = q s

theorem er_lift (p : P α) : Er (σ := σ) (lift p) p := fun _ _ => rfl

theorem er_orElse {p q : S σ α} {p' q' : P α} (hp : Er p p') (hq : Er q q') : Er (p <or> q) (p' <||> q') := by
  intro s st
  simp only [orElse, Nom.orElse]
  have h := hp s st
  rcases hx : p s st with ⟨_ | y, st1⟩ <;> rw [hx] at h <;> simp only [← h]
  exact hq s st1

theorem er_mapS {p : S σ α} {p' : P α} (hp : Er p p') (f : α → β) : Er (mapS p f) (mapP p' f) := by
  intro s st
  simp only [mapS, mapP]
  have h := hp s st
  rcases hx : p s st with ⟨_ | ⟨r, a⟩, st1⟩ <;> rw [hx] at h <;> simp only [← h]

theorem er_value {p : S σ α} {p' : P α} (hp : Er p p') (b : β) : Er (mapS p (fun _ => b)) (value b p') :=
  er_mapS hp _

theorem er_bindS {p : S σ α} {p' : P α} {k : α → σ → Option β × σ} {k' : α → Option β} (hp : Er p p')
    (hk : ∀ a st, (k a st).1 = k' a) : Er (bindS p k) (mapOpt p' k') := by
  intro s st
  simp only [bindS, mapOpt]
  have h := hp s st
  rcases hx : p s st with ⟨_ | ⟨r, a⟩, st1⟩ <;> rw [hx] at h <;> simp only [← h]
  have h2 := hk a st1
  rcases hy : k a st1 with ⟨_ | b, st2⟩ <;> rw [hy] at h2 <;> simp only [← h2]

theorem er_notS {p : S σ α} {p' : P α} (hp : Er p p') : Er (notS p) (notP p') := by
  intro s st
  simp only [notS, notP]
  have h := hp s st
  rcases hx : p s st with ⟨_ | ⟨r, a⟩, st1⟩ <;> rw [hx] at h <;> simp only [← h]

theorem er_recognizeS {p : S σ α} {p' : P α} (hp : Er p p') : Er (recognizeS p) (recognize p') := by
  intro s st
  simp only [recognizeS, recognize]
  have h := hp s st
  rcases hx : p s st with ⟨_ | ⟨r, a⟩, st1⟩ <;> rw [hx] at h <;> simp only [← h]

theorem er_seqS {p : S σ α} {p' : P α} {q : S σ β} {q' : P β} (hp : Er p p') (hq : Er q q') :
    Er (seqS p q) (seq p' q') := by
  intro s st
  simp only [seqS, seq]
  have h := hp s st
  rcases hx : p s st with ⟨_ | ⟨r, a⟩, st1⟩ <;> rw [hx] at h <;> simp only [← h]
  have h2 := hq r st1
  rcases hy : q r st1 with ⟨_ | ⟨r', b⟩, st2⟩ <;> rw [hy] at h2 <;> simp only [← h2]

theorem er_precededS {p : S σ α} {p' : P α} {q : S σ β} {q' : P β} (hp : Er p p') (hq : Er q q') :
    Er (precededS p q) (preceded p' q') := by
  intro s st
  simp only [precededS, preceded]
  have h := hp s st
  rcases hx : p s st with ⟨_ | ⟨r, a⟩, st1⟩ <;> rw [hx] at h <;> simp only [← h]
  exact hq r st1

theorem er_terminatedS {p : S σ α} {p' : P α} {q : S σ β} {q' : P β} (hp : Er p p') (hq : Er q q') :
    Er (terminatedS p q) (terminated p' q') := er_mapS (er_seqS hp hq) _

theorem er_delimitedS {p : S σ α} {p' : P α} {q : S σ β} {q' : P β} {t : S σ γ} {t' : P γ} (hp : Er p p')
    (hq : Er q q') (ht : Er t t') : Er (delimitedS p q t) (delimited p' q' t') :=
  er_precededS hp (er_terminatedS hq ht)

theorem er_many0FS {p : S σ α} {p' : P α} (hp : Er p p') (n : Nat) : Er (many0FS p n) (many0F p' n) := by
  induction n with
  | zero => intro s st; rfl
  | succ n ih =>
    intro s st
    simp only [many0FS, many0F]
    have h := hp s st
    rcases hx : p s st with ⟨_ | ⟨r, a⟩, st1⟩ <;> rw [hx] at h <;> simp only [← h]
    split
    · have h2 := ih r st1
      rcases hy : many0FS p n r st1 with ⟨_ | ⟨r', b⟩, st2⟩ <;> rw [hy] at h2 <;> simp only [← h2]
    · rfl

theorem er_many0S {p : S σ α} {p' : P α} (hp : Er p p') : Er (many0S p) (many0 p') :=
  fun s st => er_many0FS hp _ s st

theorem er_many1S {p : S σ α} {p' : P α} (hp : Er p p') : Er (many1S p) (many1 p') := by
  intro s st
  simp only [many1S, many1]
  have h := hp s st
  rcases hx : p s st with ⟨_ | ⟨r, a⟩, st1⟩ <;> rw [hx] at h <;> simp only [← h]
  have h2 := er_many0S hp r st1
  rcases hy : many0S p r st1 with ⟨_ | ⟨r', b⟩, st2⟩ <;> rw [hy] at h2 <;> simp only [← h2]

theorem er_sepLoopFS {sep : P β} {p : S σ α} {p' : P α} (hp : Er p p') (n : Nat) :
    Er (sepLoopFS sep p n) (sepLoopF sep p' n) := by
  induction n with
  | zero => intro s st; rfl
  | succ n ih =>
    intro s st
    simp only [sepLoopFS, sepLoopF]
    rcases sep s with _ | ⟨r, b⟩
    · rfl
    simp only
    have h := hp r st
    rcases hx : p r st with ⟨_ | ⟨r', a⟩, st1⟩ <;> rw [hx] at h <;> simp only [← h]
    split
    · have h2 := ih r' st1
      rcases hy : sepLoopFS sep p n r' st1 with ⟨_ | ⟨r'', b⟩, st2⟩ <;> rw [hy] at h2 <;> simp only [← h2]
    · rfl

theorem er_separatedList1S {sep : P β} {p : S σ α} {p' : P α} (hp : Er p p') :
    Er (separatedList1S sep p) (separatedList1 sep p') := by
  intro s st
  simp only [separatedList1S, separatedList1]
  have h := hp s st
  rcases hx : p s st with ⟨_ | ⟨r, a⟩, st1⟩ <;> rw [hx] at h <;> simp only [← h]
  have h2 : (sepLoopS sep p r st1).1 = sepLoop sep p' r := er_sepLoopFS hp _ r st1
  rcases hy : sepLoopS sep p r st1 with ⟨_ | ⟨r', b⟩, st2⟩ <;> rw [hy] at h2 <;> simp only [← h2]

theorem er_separatedList0S {sep : P β} {p : S σ α} {p' : P α} (hp : Er p p') :
    Er (separatedList0S sep p) (separatedList0 sep p') := by
  intro s st
  simp only [separatedList0S, separatedList0]
  have h := hp s st
  rcases hx : p s st with ⟨_ | ⟨r, a⟩, st1⟩ <;> rw [hx] at h <;> simp only [← h]
  have h2 : (sepLoopS sep p r st1).1 = sepLoop sep p' r := er_sepLoopFS hp _ r st1
  rcases hy : sepLoopS sep p r st1 with ⟨_ | ⟨r', b⟩, st2⟩ <;> rw [hy] at h2 <;> simp only [← h2]

theorem erR_whole {p : S σ α} {p' : P α} (hp : Er p p') : ErR (whole p) (fun s => (p' s).map Prod.snd) := by
  intro s st
  simp only [whole, hp s st]

/-! ## Configurations -/

/-- The effects of the closure do not influence what it returns: it is what a given function returns, or (for `parse`) the
element itself. -/
def Behavior.Returns : Behavior σ α → Verif.Behavior α → Prop
  | .parse, .parse => True
  | .ignore, .ignore => True
  | .skip, .skip => True
  | .map f, .map g => ∀ a st, (f a st).1 = g a
  | .flatMap f, .flatMap g => ∀ a st, (f a st).1 = g a
  | .map f, .parse => ∀ a st, (f a st).1 = a
  | .flatMap f, .parse => ∀ a st, (f a st).1 = [a]
  | _, _ => False

/-- The same for a custom parser. -/
def customReturns : Option (S σ α) → Option (P α) → Prop
  | none, none => True
  | some p, some q => ∀ s st, (p s st).1 = q s
  | _, _ => False

/-- Every closure of the first configuration returns what that of the second returns, whatever its state. -/
structure Config.Returns (c : Config σ) (d : PConfig) : Prop where
  allowNoSpaceInHeadings : c.allowNoSpaceInHeadings = d.allowNoSpaceInHeadings
  entities : c.entities = d.entities
  blockquote : c.blockquote.Returns d.blockquote
  githubAlert : c.githubAlert.Returns d.githubAlert
  headingV1 : c.headingV1.Returns d.headingV1
  headingV2 : c.headingV2.Returns d.headingV2
  thematicBreak : c.thematicBreak.Returns d.thematicBreak
  list : c.list.Returns d.list
  codeBlock : c.codeBlock.Returns d.codeBlock
  htmlBlock : c.htmlBlock.Returns d.htmlBlock
  footnoteDefinition : c.footnoteDefinition.Returns d.footnoteDefinition
  linkDefinition : c.linkDefinition.Returns d.linkDefinition
  table : c.table.Returns d.table
  paragraph : c.paragraph.Returns d.paragraph
  autolink : c.autolink.Returns d.autolink
  link : c.link.Returns d.link
  footnoteReference : c.footnoteReference.Returns d.footnoteReference
  referenceLink : c.referenceLink.Returns d.referenceLink
  hardNewline : c.hardNewline.Returns d.hardNewline
  image : c.image.Returns d.image
  codeSpan : c.codeSpan.Returns d.codeSpan
  emphasis : c.emphasis.Returns d.emphasis
  strikethrough : c.strikethrough.Returns d.strikethrough
  text : c.text.Returns d.text
  customBlock : customReturns c.customBlock d.customBlock
  customInline : customReturns c.customInline d.customInline

theorem er_conditional {b : Behavior σ α} {b' : Verif.Behavior α} (h : b.Returns b') {p : S σ α} {p' : P α}
    (hp : Er p p') (l : List α) : Er (conditional b l p) (Verif.conditional b' l p') := by
  cases b <;> cases b' <;> simp only [Behavior.Returns] at h <;> simp only [conditional, Verif.conditional]
  · exact er_mapS hp _
  · exact er_lift _
  · exact er_value hp _
  · rename_i f
    have := er_bindS (k := fun v st => (some [(f v st).1], (f v st).2)) (k' := fun v => some [v]) hp
      (fun a st => by simp only [h])
    intro s st; rw [this s st]; simp only [mapOpt, mapP]
  · rename_i f g
    have := er_bindS (k := fun v st => (some [(f v st).1], (f v st).2)) (k' := fun v => some [g v]) hp
      (fun a st => by simp only [h])
    intro s st; rw [this s st]; simp only [mapOpt, mapP]
  · rename_i f
    have := er_bindS (k := fun v st => (some (f v st).1, (f v st).2)) (k' := fun v => some [v]) hp
      (fun a st => by simp only [h])
    intro s st; rw [this s st]; simp only [mapOpt, mapP]
  · rename_i f g
    have := er_bindS (k := fun v st => (some (f v st).1, (f v st).2)) (k' := fun v => some (g v)) hp
      (fun a st => by simp only [h])
    intro s st; rw [this s st]; simp only [mapOpt, mapP]

theorem er_conditionalBlockVec {b : Behavior σ Block} {b' : Verif.Behavior Block} (h : b.Returns b')
    {p : S σ (List Block)} {p' : P (List Block)} (hp : Er p p') :
    Er (conditionalBlockVec b p) (Verif.conditionalBlockVec b' p') := by
  cases b <;> cases b' <;> simp only [Behavior.Returns] at h <;> simp only [conditionalBlockVec, Verif.conditionalBlockVec]
  all_goals first | exact hp | exact er_lift _ | exact er_value hp _

theorem er_conditionalUnit {b : Behavior σ α} {b' : Verif.Behavior α} (h : b.Returns b') {p : S σ β} {p' : P β}
    (hp : Er p p') : Er (conditionalUnit b p) (Verif.conditionalUnit b' p') := by
  cases b <;> cases b' <;> simp only [Behavior.Returns] at h <;> simp only [conditionalUnit, Verif.conditionalUnit]
  all_goals first | exact er_lift _ | exact er_value hp _

theorem er_customParser {p : Option (S σ (List α))} {q : Option (P (List α))} (h : customReturns p q) :
    Er (customParser p) (Verif.customParser q) := by
  cases p <;> cases q <;> simp only [customReturns] at h
  · exact er_lift _
  · exact h

/-! ## Inlines -/

variable {x : PExt} {cfg : Config σ} {d : PConfig}

theorem er_linkLabel {rec : R σ (List Inline)} {rec' : Str → Option (List Inline)} (h : ErR rec rec') :
    Er (linkLabel rec) (Verif.linkLabel rec') := by
  refine er_delimitedS (er_lift _) ?_ (er_lift _)
  intro s st
  unfold linkLabelInner
  rw [er_bindS (er_lift _) h s st]
  unfold Verif.linkLabelInner mapOpt
  generalize verify _ _ s = o
  rcases o with _ | ⟨r, l⟩ <;> simp only
  cases rec' l <;> rfl

theorem er_inlineLink {rec : R σ (List Inline)} {rec' : Str → Option (List Inline)} (h : ErR rec rec') :
    Er (inlineLink rec) (Verif.inlineLink rec') := er_mapS (er_seqS (er_linkLabel h) (er_lift _)) _

theorem er_referenceLink {rec : R σ (List Inline)} {rec' : Str → Option (List Inline)} (h : ErR rec rec') :
    Er (referenceLink rec) (Verif.referenceLink rec') :=
  er_orElse (er_mapS (er_seqS (er_linkLabel h) (er_linkLabel h)) _)
    (er_orElse (er_mapS (er_terminatedS (er_linkLabel h) (er_lift _)) _) (er_mapS (er_linkLabel h) _))

theorem er_emphasisDelimited {rec : R σ (List Inline)} {rec' : Str → Option (List Inline)} (h : ErR rec rec') (t : Str) :
    Er (emphasisDelimited x rec t) (Verif.emphasisDelimited x rec' t) :=
  er_delimitedS (er_lift _) (er_bindS (er_lift _) h) (er_lift _)

theorem er_emphasisP {rec : R σ (List Inline)} {rec' : Str → Option (List Inline)} (h : ErR rec rec') :
    Er (emphasisP x rec) (Verif.emphasisP x rec') := by
  have k := er_emphasisDelimited (x := x) h
  exact er_orElse (er_mapS (er_orElse (k _) (k _)) _)
    (er_orElse (er_mapS (er_orElse (k _) (k _)) _) (er_mapS (er_orElse (k _) (k _)) _))

theorem er_strikethroughP {rec : R σ (List Inline)} {rec' : Str → Option (List Inline)} (h : ErR rec rec') :
    Er (strikethroughP rec) (Verif.strikethroughP rec') := by
  intro s st
  rw [strikethroughP, er_mapS (er_bindS (er_lift _) h) _ s st]
  unfold mapP mapOpt strikeContent Verif.strikethroughP
  repeat' split
  all_goals simp_all

theorem er_htmlEntity (h : cfg.Returns d) : htmlEntity (PConfig.default cfg.entities) = htmlEntity d := by
  simp only [htmlEntity, htmlEntityAlpha, PConfig.default, h.entities]

theorem er_notAText (hc : cfg.Returns d) {rec : R σ (List Inline)} {rec' : Str → Option (List Inline)} (h : ErR rec rec') :
    Er (notAText x cfg rec) (Verif.notAText x d rec') := by
  unfold notAText
  rw [er_htmlEntity hc]
  exact er_orElse (er_conditionalUnit hc.autolink (er_lift _)) <|
    er_orElse (er_conditionalUnit hc.referenceLink (er_referenceLink h)) <|
    er_orElse (er_conditionalUnit hc.hardNewline (er_lift _)) <|
    er_orElse (er_conditionalUnit hc.text (er_lift _)) <|
    er_orElse (er_conditionalUnit hc.image (er_lift _)) <|
    er_orElse (er_conditionalUnit hc.link (er_inlineLink h)) <|
    er_orElse (er_conditionalUnit hc.codeSpan (er_lift _)) <|
    er_orElse (er_conditionalUnit hc.emphasis (er_emphasisP h)) <|
    er_orElse (er_conditionalUnit hc.footnoteReference (er_lift _)) <|
    er_orElse (er_conditionalUnit hc.strikethrough (er_strikethroughP h)) (er_lift _)

theorem er_textP (hc : cfg.Returns d) {rec : R σ (List Inline)} {rec' : Str → Option (List Inline)} (h : ErR rec rec') :
    Er (textP x cfg rec) (Verif.textP x d rec') := by
  unfold textP textPiece
  rw [er_htmlEntity hc]
  exact er_mapS (er_many1S (er_orElse (er_lift _) (er_orElse (er_lift _)
    (er_recognizeS (er_many1S (er_precededS (er_notS (er_notAText hc h)) (er_lift _))))))) _

theorem er_inlineStep (hc : cfg.Returns d) {rec : R σ (List Inline)} {rec' : Str → Option (List Inline)} (h : ErR rec rec') :
    Er (inlineStep x cfg rec) (Verif.inlineStep x d rec') :=
  er_orElse (er_conditional hc.autolink (er_lift _) _) <|
    er_orElse (er_conditional hc.link (er_inlineLink h) _) <|
    er_orElse (er_conditional hc.footnoteReference (er_lift _) _) <|
    er_orElse (er_conditional hc.referenceLink (er_referenceLink h) _) <|
    er_orElse (er_conditional hc.hardNewline (er_lift _) _) <|
    er_orElse (er_conditional hc.image (er_lift _) _) <|
    er_orElse (er_conditional hc.codeSpan (er_lift _) _) <|
    er_orElse (er_lift _) <|
    er_orElse (er_conditional hc.emphasis (er_emphasisP h) _) <|
    er_orElse (er_conditional hc.strikethrough (er_strikethroughP h) _) <|
    er_orElse (er_customParser hc.customInline) (er_conditional hc.text (er_textP hc h) _)

theorem er_inlineF (hc : cfg.Returns d) (n : Nat) : Er (inlineF x cfg n) (Verif.inlineF x d n) := by
  induction n with
  | zero => exact er_lift _
  | succ n ih => exact er_inlineStep hc (erR_whole (er_mapS (er_many1S ih) _))

theorem er_parseInlines1 (hc : cfg.Returns d) : ErR (parseInlines1 x cfg) (Verif.parseInlines1 x d) :=
  fun s st => erR_whole (er_mapS (er_many1S (er_inlineF hc _)) _) s st

theorem er_parseInlines0 (hc : cfg.Returns d) : ErR (parseInlines0 x cfg) (Verif.parseInlines0 x d) :=
  fun s st => erR_whole (er_mapS (er_many0S (er_inlineF hc _)) _) s st

/-! ## Blocks -/

theorem er_headingV1 (hc : cfg.Returns d) : Er (headingV1 x cfg) (Verif.headingV1 x d) := by
  intro s st
  unfold headingV1
  rw [er_bindS (k' := fun y => (Verif.parseInlines0 x d y.2).map (.heading (.atx y.1.length))) (er_lift _)
    (fun a st => by simp only [er_parseInlines0 hc a.2 st]) s st]
  unfold mapOpt Verif.headingV1
  rw [hc.allowNoSpaceInHeadings]
  generalize seq _ _ s = o
  rcases o with _ | ⟨r, h, c⟩
  · rfl
  dsimp only
  cases Verif.parseInlines0 x d c <;> rfl

variable {rec : S σ (List Block)} {rec' : P (List Block)}

theorem er_blocks1 (h : Er rec rec') : ErR (blocks1 rec) (Verif.blocks1 rec') := by
  intro s st
  unfold blocks1
  rw [erR_whole (er_mapS (er_many1S h) _) s st]
  unfold Verif.blocks1 mapP
  dsimp only
  cases many1 rec' s <;> rfl

theorem er_blocks0 (h : Er rec rec') : ErR (blocks0 rec) (Verif.blocks0 rec') := by
  intro s st
  unfold blocks0
  rw [erR_whole (er_mapS (er_many0S h) _) s st]
  unfold Verif.blocks0 mapP
  dsimp only
  cases many0 rec' s <;> rfl

theorem er_blockquoteP (h : Er rec rec') : Er (blockquoteP rec) (Verif.blockquoteP rec') := by
  intro s st
  rw [blockquoteP, er_mapS (er_bindS (k := fun l => blocks1 rec (joinWith ['\n'] l))
    (k' := fun l => Verif.blocks1 rec' (joinWith ['\n'] l)) (er_lift _) (fun a st => er_blocks1 h _ st)) _ s st]
  unfold Verif.blockquoteP mapP mapOpt
  rcases quoteLines s with _ | ⟨r, l⟩ <;> simp only
  cases Verif.blocks1 rec' (joinWith ['\n'] l) <;> rfl

theorem er_githubAlertP (h : Er rec rec') : Er (githubAlertP x rec) (Verif.githubAlertP x rec') := by
  intro s st
  unfold githubAlertP Verif.githubAlertP
  rcases preceded (seq quotePrefix (Nom.opt (chr ' '))) (lineTerminated notEofOrEol0) s with _ | ⟨_, first⟩ <;> simp only
  rcases parseAlertMarker x (trim first) with _ | t <;> simp only
  rcases quoteLines s with _ | ⟨r, lines⟩ <;> simp only
  split
  · rfl
  have h2 := er_blocks1 h (joinWith ['\n'] (lines.drop 1)) st
  rcases hy : blocks1 rec (joinWith ['\n'] (lines.drop 1)) st with ⟨_ | b, st2⟩ <;> rw [hy] at h2 <;> simp only [← h2]

theorem er_listItemP (h : Er rec rec') : Er (listItemP rec) (Verif.listItemP rec') := by
  intro s st
  unfold listItemP Verif.listItemP
  rcases listMarkerWithSpanSize s with _ | ⟨s1, kind, pl, task, first⟩ <;> simp only
  rcases listItemLines kind pl s1 with _ | ⟨s2, rest⟩ <;> simp only
  have h2 := er_blocks0 h (itemContent first rest) st
  rcases hy : blocks0 rec (itemContent first rest) st with ⟨_ | b, st2⟩ <;> rw [hy] at h2 <;> simp only [← h2]

theorem er_listP (h : Er rec rec') : Er (listP rec) (Verif.listP rec') := by
  intro s st
  unfold listP Verif.listP
  have h2 := er_many1S (er_listItemP h) s st
  rcases hy : many1S (listItemP rec) s st with ⟨_ | ⟨r, _ | ⟨⟨k, i⟩, l⟩⟩, st2⟩ <;> rw [hy] at h2 <;> simp only [← h2]

theorem er_footnoteDefinitionP (h : Er rec rec') : Er (footnoteDefinitionP rec) (Verif.footnoteDefinitionP rec') := by
  intro s st
  unfold footnoteDefinitionP Verif.footnoteDefinitionP
  generalize preceded indent03 (preceded (tag cs!"[^") _) s = o1
  rcases o1 with _ | ⟨s1, label⟩ <;> simp only
  rcases preceded indent03 (lineTerminated notEofOrEol1) s1 with _ | ⟨s2, first⟩ <;> simp only
  rcases many0 (preceded (manyMN (chr ' ') 3 3) (lineTerminated notEofOrEol1)) s2 with _ | ⟨s3, rest⟩ <;> simp only
  have h2 := er_blocks0 h (itemContent first (rest.map (fun l => [l]))) st
  rcases hy : blocks0 rec (itemContent first (rest.map (fun l => [l]))) st with ⟨_ | b, st2⟩ <;>
    rw [hy] at h2 <;> simp only [← h2]

theorem er_linkDefinitionP (hc : cfg.Returns d) : Er (linkDefinitionP x cfg) (Verif.linkDefinitionP x d) :=
  er_mapS (er_terminatedS (er_seqS (er_precededS (er_lift _) (er_linkLabel (er_parseInlines1 hc))) (er_lift _))
    (er_lift _)) _

theorem er_tableRow (hc : cfg.Returns d) : Er (tableRow x cfg) (Verif.tableRow x d) :=
  er_terminatedS (er_precededS (er_lift _) (er_delimitedS (er_lift _)
    (er_separatedList1S (er_bindS (er_lift _) (fun a st => er_parseInlines0 hc _ st))) (er_lift _))) (er_lift _)

theorem er_tableP (hc : cfg.Returns d) : Er (tableP x cfg) (Verif.tableP x d) := by
  intro s st
  unfold tableP Verif.tableP
  have h2 := er_tableRow (x := x) hc s st
  rcases hy : tableRow x cfg s st with ⟨_ | ⟨s1, header⟩, st2⟩ <;> rw [hy] at h2 <;> simp only [← h2]
  rcases alignmentRow s1 with _ | ⟨s2, aligns⟩ <;> simp only
  split
  · rfl
  have h3 : (tableDataRows x cfg header.length s2 st2).1 = Verif.tableDataRows x d header.length s2 :=
    er_many0S (er_mapS (er_tableRow hc) _) s2 st2
  rcases hz : tableDataRows x cfg header.length s2 st2 with ⟨_ | ⟨s3, rows⟩, st3⟩ <;> rw [hz] at h3 <;> simp only [← h3]

theorem er_notAParagraphLine (hc : cfg.Returns d) (h : Er rec rec') :
    Er (notAParagraphLine x cfg rec) (Verif.notAParagraphLine x d rec') :=
  er_orElse (er_conditionalUnit hc.headingV1 (er_headingV1 hc)) <|
    er_orElse (er_conditionalUnit hc.headingV2 (er_lift _)) <|
    er_orElse (er_conditionalUnit hc.thematicBreak (er_lift _)) <|
    er_orElse (er_conditionalUnit hc.blockquote (er_blockquoteP h)) <|
    er_orElse (er_conditionalUnit hc.list (er_listItemP h)) <|
    er_orElse (er_conditionalUnit hc.codeBlock (er_lift _)) <|
    er_orElse (er_conditionalUnit hc.htmlBlock (er_lift _)) <|
    er_orElse (er_conditionalUnit hc.linkDefinition (er_linkDefinitionP hc)) <|
    er_orElse (er_conditionalUnit hc.footnoteDefinition (er_footnoteDefinitionP h)) <|
    er_orElse (er_conditionalUnit hc.table (er_tableP hc)) <|
    er_orElse (er_value (er_customParser hc.customBlock) _) (er_lift _)

theorem er_paragraphP (hc : cfg.Returns d) (h : Er rec rec') (b : Bool) :
    Er (paragraphP x cfg rec b) (Verif.paragraphP x d rec' b) := by
  have k : Er (paragraphLines x cfg rec) (Verif.paragraphLines x d rec') :=
    er_terminatedS (er_separatedList0S (er_precededS (er_notS (er_notAParagraphLine hc h)) (er_lift _))) (er_lift _)
  cases b
  · exact er_bindS (er_mapS (er_seqS (er_lift _) k) _) (fun a st => er_parseInlines1 hc _ st)
  · exact er_bindS k (fun a st => er_parseInlines1 hc _ st)

theorem er_blockAlt (hc : cfg.Returns d) (h : Er rec rec') : Er (blockAlt x cfg rec) (Verif.blockAlt x d rec') :=
  er_orElse (er_conditional hc.codeBlock (er_lift _) _) <|
    er_orElse (er_conditional hc.headingV1 (er_headingV1 hc) _) <|
    er_orElse (er_conditional hc.headingV2 (er_mapS (er_seqS (er_paragraphP hc h _) (er_lift _)) _) _) <|
    er_orElse (er_conditional hc.thematicBreak (er_lift _) _) <|
    er_orElse (er_conditionalBlockVec hc.githubAlert (er_githubAlertP h)) <|
    er_orElse (er_conditional hc.blockquote (er_blockquoteP h) _) <|
    er_orElse (er_conditional hc.list (er_listP h) _) <|
    er_orElse (er_conditional hc.htmlBlock (er_lift _) _) <|
    er_orElse (er_conditional hc.footnoteDefinition (er_footnoteDefinitionP h) _) <|
    er_orElse (er_conditional hc.linkDefinition (er_linkDefinitionP hc) _) <|
    er_orElse (er_conditional hc.table (er_tableP hc) _) <|
    er_orElse (er_customParser hc.customBlock) (er_conditional hc.paragraph (er_mapS (er_paragraphP hc h _) _) _)

theorem er_blockF (hc : cfg.Returns d) (n : Nat) : Er (blockF x cfg n) (Verif.blockF x d n) := by
  induction n with
  | zero => exact er_lift _
  | succ n ih => exact er_precededS (er_lift _) (er_blockAlt hc ih)

/-- **C91.** If what the closures return does not depend on what they did before, then whatever else they do has no
influence on the document: it is that of the configuration with the functions that they compute. -/
theorem C91_effects (hc : cfg.Returns d) (s : Str) (st : σ) : (parseMarkdown x cfg s st).1 = Verif.parseMarkdown x d s := by
  unfold parseMarkdown Verif.parseMarkdown parseMarkdownF
  have h := er_terminatedS (er_many0S (er_blockF (x := x) hc (s.length + 1)))
    (er_lift (seq (many0 (space1 <||> lineEnding)) eof)) s st
  rcases hx : terminatedS (many0S (blockF x cfg (s.length + 1))) (lift (seq (many0 (space1 <||> lineEnding)) eof)) s st
    with ⟨_ | ⟨r, a⟩, st1⟩ <;> rw [hx] at h <;> simp only [← h]

end
end Fx
end Verif
