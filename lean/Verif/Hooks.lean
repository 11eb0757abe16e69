import Verif.ParserBlock
/-!
# Element behaviours of the parser: Skip, Map and FlatMap (C69)

With a behaviour other than `Ignore`, an element is recognised exactly as with `Parse`, and what it
parsed to is replaced.
-/
set_option linter.unusedVariables false
namespace Verif
open Nom

/-! ## Specification -/

/-- What a behaviour makes of an element; `empty` is what a skipped element leaves. -/
def Behavior.act {α : Type} (empty : α) : Behavior α → α → List α
  | .parse, v => [v]
  | .ignore, v => [v]
  | .skip, _ => [empty]
  | .map f, v => [f v]
  | .flatMap f, v => f v

/-- The behaviour without its hook. -/
def Behavior.plain {α : Type} : Behavior α → Behavior α
  | .ignore => .ignore
  | _ => .parse

/-- The configuration without hooks. -/
def PConfig.plain (c : PConfig) : PConfig :=
  { c with
    blockquote := c.blockquote.plain, githubAlert := c.githubAlert.plain,
    headingV1 := c.headingV1.plain, headingV2 := c.headingV2.plain,
    thematicBreak := c.thematicBreak.plain, list := c.list.plain, codeBlock := c.codeBlock.plain,
    htmlBlock := c.htmlBlock.plain, footnoteDefinition := c.footnoteDefinition.plain,
    linkDefinition := c.linkDefinition.plain, table := c.table.plain, paragraph := c.paragraph.plain,
    autolink := c.autolink.plain, link := c.link.plain,
    footnoteReference := c.footnoteReference.plain, referenceLink := c.referenceLink.plain,
    hardNewline := c.hardNewline.plain, image := c.image.plain, codeSpan := c.codeSpan.plain,
    emphasis := c.emphasis.plain, strikethrough := c.strikethrough.plain, text := c.text.plain }

/-- Consecutive texts joined. -/
def joinTexts : List Inline → List Inline
  | [] => []
  | .text a :: l => match joinTexts l with
    | .text b :: r => .text (a ++ b) :: r
    | r => .text a :: r
  | i :: l => i :: joinTexts l

mutual
/-- An inline after the hooks: innermost elements first. -/
def Inline.hook (c : PConfig) : Inline → List Inline
  | .text t => [.text t]
  | .lineBreak => c.hardNewline.act .empty .lineBreak
  | .code t => c.codeSpan.act .empty (.code t)
  | .html t => [.html t]
  | .link d t is => c.link.act .empty (.link d t (joinTexts (Inline.hookL c is)))
  | .linkReference l t =>
    c.referenceLink.act .empty
      (.linkReference (joinTexts (Inline.hookL c l)) (joinTexts (Inline.hookL c t)))
  | .image d t a => c.image.act .empty (.image d t a)
  | .emphasis is => [.emphasis (joinTexts (Inline.hookL c is))]
  | .strong is => [.strong (joinTexts (Inline.hookL c is))]
  | .strikethrough is => c.strikethrough.act .empty (.strikethrough (joinTexts (Inline.hookL c is)))
  | .autolink t => c.autolink.act .empty (.autolink t)
  | .footnoteReference l => c.footnoteReference.act .empty (.footnoteReference l)
  | .empty => [.empty]
/-- The inlines of a list after the hooks. -/
def Inline.hookL (c : PConfig) : List Inline → List Inline
  | [] => []
  | i :: l => i.hook c ++ Inline.hookL c l
end

/-- Inlines after the hooks; texts that have become neighbours are joined. -/
def hookInlines (c : PConfig) (is : List Inline) : List Inline := joinTexts (Inline.hookL c is)

mutual
/-- A block after the hooks: innermost elements first.  Setext headings and paragraphs go through the
hook of `heading_v2`, unless that behaviour is `Ignore`; of the behaviours of alerts only `Skip` is
obeyed. -/
def Block.hook (c : PConfig) : Block → List Block
  | .paragraph is =>
    (match c.headingV2 with
      | .ignore => c.paragraph
      | b => b).act .empty (.paragraph (hookInlines c is))
  | .heading (.atx n) is => c.headingV1.act .empty (.heading (.atx n) (hookInlines c is))
  | .heading (.setext n) is => c.headingV2.act .empty (.heading (.setext n) (hookInlines c is))
  | .thematicBreak => c.thematicBreak.act .empty .thematicBreak
  | .blockQuote bs => c.blockquote.act .empty (.blockQuote (Block.hookL c bs))
  | .list k items => c.list.act .empty (.list k (ListItem.hookL c items))
  | .codeBlock k t => c.codeBlock.act .empty (.codeBlock k t)
  | .htmlBlock t => c.htmlBlock.act .empty (.htmlBlock t)
  | .definition l d t => c.linkDefinition.act .empty (.definition (hookInlines c l) d t)
  | .table rows al => c.table.act .empty (.table (rows.map (·.map (hookInlines c))) al)
  | .footnoteDefinition l bs =>
    c.footnoteDefinition.act .empty (.footnoteDefinition l (Block.hookL c bs))
  | .githubAlert t bs =>
    match c.githubAlert with
    | .skip => [.empty]
    | _ => [.githubAlert t (Block.hookL c bs)]
  | .empty => [.empty]
/-- Blocks after the hooks. -/
def Block.hookL (c : PConfig) : List Block → List Block
  | [] => []
  | b :: l => b.hook c ++ Block.hookL c l
/-- A list item after the hooks. -/
def ListItem.hook (c : PConfig) : ListItem → ListItem
  | .mk t bs => .mk t (Block.hookL c bs)
/-- List items after the hooks. -/
def ListItem.hookL (c : PConfig) : List ListItem → List ListItem
  | [] => []
  | i :: l => i.hook c :: ListItem.hookL c l
end

/-- The hooks the theorem is about: none for texts and emphasis, and if `heading_v2` and `paragraph`
are both in use, they do the same to a paragraph. -/
structure PConfig.HookOk (c : PConfig) : Prop where
  text : c.text = .parse ∨ c.text = .ignore
  emphasis : c.emphasis = .parse ∨ c.emphasis = .ignore
  paragraph : c.headingV2 = .ignore ∨ c.paragraph = .ignore ∨
    ∀ is, c.paragraph.act .empty (.paragraph is) = c.headingV2.act .empty (.paragraph is)
  customBlock : c.customBlock = none
  customInline : c.customInline = none

/-! ## Parsers whose results are changed -/

section
variable {α β γ δ : Type}

theorem mapP_mapP (p : P α) (f : α → β) (g : β → γ) : mapP (mapP p f) g = mapP p (fun a => g (f a)) := by
  funext s; unfold mapP; cases p s <;> rfl

theorem mapP_id (p : P α) : mapP p (fun a => a) = p := by
  funext s; unfold mapP; cases p s <;> rfl

theorem orElse_mapP (p q : P α) (g : α → β) : (mapP p g <||> mapP q g) = mapP (p <||> q) g := by
  funext s; simp only [orElse, mapP]; cases p s <;> rfl

theorem value_mapP (p : P α) (g : α → β) (c : γ) : value c (mapP p g) = value c p := by
  unfold value; rw [mapP_mapP]

theorem seq_mapP (p : P α) (q : P β) (f : α → γ) (g : β → δ) :
    seq (mapP p f) (mapP q g) = mapP (seq p q) (fun y => (f y.1, g y.2)) := by
  funext s; simp only [seq, mapP]
  cases p s with
  | none => rfl
  | some y => obtain ⟨r, a⟩ := y; simp only; cases q r <;> rfl

theorem seq_mapP_left (p : P α) (q : P β) (f : α → γ) :
    seq (mapP p f) q = mapP (seq p q) (fun y => (f y.1, y.2)) := by
  have := seq_mapP p q f (fun b => b); rwa [mapP_id] at this

theorem seq_mapP_right (p : P α) (q : P β) (g : β → δ) :
    seq p (mapP q g) = mapP (seq p q) (fun y => (y.1, g y.2)) := by
  have := seq_mapP p q (fun b => b) g; rwa [mapP_id] at this

theorem preceded_mapP (p : P α) (q : P β) (g : β → γ) :
    preceded p (mapP q g) = mapP (preceded p q) g := by
  funext s; simp only [preceded, mapP]
  cases p s with
  | none => rfl
  | some y => rfl

theorem terminated_mapP (p : P α) (q : P β) (g : α → γ) :
    terminated (mapP p g) q = mapP (terminated p q) g := by
  unfold terminated; rw [seq_mapP_left, mapP_mapP, mapP_mapP]

theorem delimited_mapP (p : P α) (q : P β) (t : P δ) (g : β → γ) :
    delimited p (mapP q g) t = mapP (delimited p q t) g := by
  unfold delimited; rw [terminated_mapP, preceded_mapP]

theorem lineTerminated_mapP (p : P α) (g : α → γ) :
    lineTerminated (mapP p g) = mapP (lineTerminated p) g := terminated_mapP _ _ _

theorem mapOpt_map (p : P α) (f : α → Option β) (g : β → γ) :
    mapOpt p (fun a => (f a).map g) = mapP (mapOpt p f) g := by
  funext s; simp only [mapOpt, mapP]
  cases p s with
  | none => rfl
  | some y => obtain ⟨r, a⟩ := y; simp only; cases f a <;> rfl

theorem notP_mapP (p : P α) (g : α → β) : notP (mapP p g) = notP p := by
  funext s; simp only [notP, mapP]; cases p s <;> rfl

theorem many0F_mapP (p : P α) (g : α → β) (n : Nat) (s : Str) :
    many0F (mapP p g) n s = mapP (many0F p n) (List.map g) s := by
  induction n generalizing s with
  | zero => rfl
  | succ n ih =>
    simp only [many0F, mapP] at ih ⊢
    cases p s with
    | none => rfl
    | some y =>
      obtain ⟨r, a⟩ := y
      simp only
      split
      · have h := ih r
        rw [h]
        cases many0F p n r <;> rfl
      · rfl

theorem many0_mapP (p : P α) (g : α → β) : many0 (mapP p g) = mapP (many0 p) (List.map g) := by
  funext s; exact many0F_mapP p g _ s

theorem many1_mapP (p : P α) (g : α → β) : many1 (mapP p g) = mapP (many1 p) (List.map g) := by
  funext s; simp only [many1, many0_mapP]
  simp only [mapP, many1]
  cases p s with
  | none => rfl
  | some y =>
    obtain ⟨r, a⟩ := y
    simp only
    cases many0 p r <;> rfl

theorem sepLoopF_mapP (sep : P δ) (p : P α) (g : α → β) (n : Nat) (s : Str) :
    sepLoopF sep (mapP p g) n s = mapP (sepLoopF sep p n) (List.map g) s := by
  induction n generalizing s with
  | zero => rfl
  | succ n ih =>
    simp only [sepLoopF, mapP] at ih ⊢
    cases sep s with
    | none => rfl
    | some z =>
      obtain ⟨r1, _⟩ := z
      simp only
      cases p r1 with
      | none => rfl
      | some y =>
        obtain ⟨r, a⟩ := y
        simp only
        split
        · have h := ih r
          rw [h]
          cases sepLoopF sep p n r <;> rfl
        · rfl

theorem separatedList1_mapP (sep : P δ) (p : P α) (g : α → β) :
    separatedList1 sep (mapP p g) = mapP (separatedList1 sep p) (List.map g) := by
  funext s; simp only [separatedList1, sepLoop, sepLoopF_mapP, mapP]
  cases p s with
  | none => rfl
  | some y =>
    obtain ⟨r, a⟩ := y
    simp only
    cases sepLoopF sep p (r.length + 1) r <;> rfl

theorem conditionalUnit_mapP {ε : Type} (b : Behavior ε) (p : P α) (g : α → β) :
    conditionalUnit b (mapP p g) = conditionalUnit b.plain p := by
  cases b <;> first | rfl | exact value_mapP p g ()

theorem conditionalUnit_plain {ε : Type} (b : Behavior ε) (p : P α) :
    conditionalUnit b p = conditionalUnit b.plain p := by
  cases b <;> rfl

theorem conditional_mapP (b : Behavior α) (e : α) (p : P β) (ctor ctor' : β → α) (rw_ : α → List α)
    (h : ∀ a, rw_ (ctor a) = b.act e (ctor' a)) :
    conditional b [e] (mapP p ctor') = mapP (conditional b.plain [e] (mapP p ctor)) (fun l => l.flatMap rw_) := by
  cases b with
  | ignore => rfl
  | _ => simp [conditional, value, Behavior.plain, mapP_mapP, h, Behavior.act]

end

/-! ## Texts -/

theorem mergeTextAux_join (l : List Inline) : (mergeTextAux none l = joinTexts l) ∧
    ∀ t, mergeTextAux (some t) l = joinTexts (.text t :: l) := by
  induction l with
  | nil => exact ⟨rfl, fun t => rfl⟩
  | cons i l ih =>
    have key : ∀ i : Inline, (∀ t, i ≠ .text t) → ∀ t, joinTexts (.text t :: i :: l) =
        .text t :: joinTexts (i :: l) := by
      intro i hi t
      cases i <;> first | rfl | exact absurd rfl (hi _)
    cases i with
    | text s =>
      refine ⟨ih.2 s, fun t => ?_⟩
      show mergeTextAux (some (t ++ s)) l = _
      rw [ih.2]
      simp only [joinTexts]
      cases e : joinTexts l with
      | nil => simp
      | cons j r => cases j <;> simp
    | _ =>
      refine ⟨?_, fun t => ?_⟩
      · simp [mergeTextAux, joinTexts, ih.1]
      · rw [key _ (by simp)]
        simp [mergeTextAux, joinTexts, ih.1]

theorem mergeText_join (l : List Inline) : mergeText l = joinTexts l := (mergeTextAux_join l).1

theorem joinTexts_text_append (a b : Str) (l : List Inline) :
    joinTexts (.text a :: .text b :: l) = joinTexts (.text (a ++ b) :: l) := by
  simp only [joinTexts]
  cases e : joinTexts l with
  | nil => rfl
  | cons j r => cases j <;> simp

theorem joinTexts_congr {l m : List Inline} (h : joinTexts l = joinTexts m) (p : List Inline) :
    joinTexts (p ++ l) = joinTexts (p ++ m) := by
  induction p with
  | nil => exact h
  | cons i p ih =>
    cases i <;> simp only [List.cons_append, joinTexts, ih]

theorem hookL_eq (c : PConfig) (l : List Inline) : Inline.hookL c l = l.flatMap (Inline.hook c) := by
  induction l with
  | nil => rfl
  | cons i l ih => simp [Inline.hookL, ih]

/-- Joining texts before the hooks makes no difference. -/
theorem joinTexts_hook (c : PConfig) (l : List Inline) :
    joinTexts ((joinTexts l).flatMap (Inline.hook c)) = joinTexts (l.flatMap (Inline.hook c)) := by
  induction l with
  | nil => rfl
  | cons i l ih =>
    cases i with
    | text a =>
      have h1 : joinTexts (Inline.hook c (.text a) ++ (joinTexts l).flatMap (Inline.hook c)) =
          joinTexts ((Inline.text a :: l).flatMap (Inline.hook c)) := by
        rw [List.flatMap_cons]; exact joinTexts_congr ih _
      rw [← h1]
      simp only [joinTexts]
      cases e : joinTexts l with
      | nil => rfl
      | cons j r =>
        cases j with
        | text b =>
          simp only [List.flatMap_cons, Inline.hook, List.cons_append, List.nil_append]
          rw [joinTexts_text_append]
        | _ => simp [List.flatMap_cons, Inline.hook]
    | _ =>
      simp only [joinTexts, List.flatMap_cons]
      exact joinTexts_congr ih _

theorem hookInlines_merge (c : PConfig) (l : List Inline) :
    mergeText (l.flatMap (Inline.hook c)) = hookInlines c (mergeText l) := by
  unfold hookInlines
  rw [mergeText_join, mergeText_join, hookL_eq, joinTexts_hook]

/-! ## Inlines -/

section
variable {x : PExt} {c : PConfig} {r : Str → Option (List Inline)}

/-- The recursive parser with hooks. -/
def hooked (c : PConfig) (r : Str → Option (List Inline)) : Str → Option (List Inline) :=
  fun s => (r s).map (hookInlines c)

theorem linkLabelInner_hook : linkLabelInner (hooked c r) = mapP (linkLabelInner r) (hookInlines c) := by
  funext s
  simp only [linkLabelInner, mapP, hooked]
  split
  · rfl
  · rename_i r0 l e
    cases r l <;> rfl

theorem linkLabel_hook : linkLabel (hooked c r) = mapP (linkLabel r) (hookInlines c) := by
  unfold linkLabel
  rw [linkLabelInner_hook, delimited_mapP]

theorem inlineLink_hook : inlineLink (hooked c r) =
    mapP (seq (linkLabel r) destAndTitle) (fun y => .link y.2.1 y.2.2 (hookInlines c y.1)) := by
  unfold inlineLink
  rw [linkLabel_hook, seq_mapP_left, mapP_mapP]

/-- The two lists of a reference link. -/
def referencePair (r : Str → Option (List Inline)) : P (List Inline × List Inline) :=
  mapP (seq (linkLabel r) (linkLabel r)) (fun y => (y.2, y.1)) <||>
  mapP (terminated (linkLabel r) (tag cs!"[]")) (fun t => (t, t)) <||>
  mapP (linkLabel r) (fun t => (t, t))

theorem referenceLink_pair (g : List Inline → List Inline)
    (r' : Str → Option (List Inline)) (h : linkLabel r' = mapP (linkLabel r) g) :
    referenceLink r' = mapP (referencePair r) (fun y => .linkReference (g y.1) (g y.2)) := by
  unfold referenceLink referencePair referenceLinkFull referenceLinkCollapsed referenceLinkShortcut
  rw [h, seq_mapP, terminated_mapP, ← orElse_mapP, ← orElse_mapP]
  simp only [mapP_mapP]

theorem emphasisDelimited_hook (t : Str) :
    emphasisDelimited x (hooked c r) t = mapP (emphasisDelimited x r t) (hookInlines c) := by
  unfold emphasisDelimited emphasisContent hooked
  rw [mapOpt_map, delimited_mapP]

theorem emphasisP_hook : mapP (emphasisP x (hooked c r)) (fun v => [v]) =
    mapP (mapP (emphasisP x r) (fun v => [v])) (fun l => l.flatMap (Inline.hook c)) := by
  unfold emphasisP
  simp only [emphasisDelimited_hook, orElse_mapP, ← orElse_mapP, mapP_mapP]
  simp [Inline.hook, Inline.hookL, hookInlines, joinTexts]

theorem emphasisP_hook_unit : value () (emphasisP x (hooked c r)) = value () (emphasisP x r) := by
  have h := congrArg (fun p => value () p) (emphasisP_hook (x := x) (c := c) (r := r))
  simpa only [value_mapP] using h

/-- The content of a strikethrough. -/
def strikeContent (r : Str → Option (List Inline)) : P (List Inline) := fun s =>
  match terminated (tag cs!"~~") (notP (chr '~')) s with
  | none => none
  | some (s1, _) =>
    match terminated (recognize (many1 (preceded (notP strikeClose)
        (value '~' (tag cs!"\\~") <||> anychar)))) (tag cs!"~~") s1 with
    | none => none
    | some (s2, content) => match r content with
      | some l => some (s2, l)
      | none => none

theorem strikethroughP_self : strikethroughP r = mapP (strikeContent r) .strikethrough := by
  funext s
  simp only [strikethroughP, mapP, strikeContent]
  generalize terminated (tag cs!"~~") (notP (chr '~')) s = o
  cases o with
  | none => rfl
  | some y =>
    obtain ⟨s1, _⟩ := y
    simp only
    generalize terminated (recognize (many1 (preceded (notP strikeClose)
        (value '~' (tag cs!"\\~") <||> anychar)))) (tag cs!"~~") s1 = o
    cases o with
    | none => rfl
    | some z =>
      obtain ⟨s2, content⟩ := z
      simp only
      cases r content <;> rfl

theorem strikeContent_hook : strikeContent (hooked c r) = mapP (strikeContent r) (hookInlines c) := by
  funext s
  simp only [mapP, strikeContent, hooked]
  generalize terminated (tag cs!"~~") (notP (chr '~')) s = o
  cases o with
  | none => rfl
  | some y =>
    obtain ⟨s1, _⟩ := y
    simp only
    generalize terminated (recognize (many1 (preceded (notP strikeClose)
        (value '~' (tag cs!"\\~") <||> anychar)))) (tag cs!"~~") s1 = o
    cases o with
    | none => rfl
    | some z =>
      obtain ⟨s2, content⟩ := z
      simp only
      cases r content <;> rfl

theorem strikethroughP_hook : strikethroughP (hooked c r) =
    mapP (strikeContent r) (fun is => .strikethrough (hookInlines c is)) := by
  rw [strikethroughP_self, strikeContent_hook, mapP_mapP]

theorem referenceLink_self : referenceLink r =
    mapP (referencePair r) (fun y => .linkReference y.1 y.2) :=
  referenceLink_pair (fun l => l) r (mapP_id _).symm

theorem referenceLink_hook : referenceLink (hooked c r) =
    mapP (referencePair r) (fun y => .linkReference (hookInlines c y.1) (hookInlines c y.2)) :=
  referenceLink_pair (hookInlines c) _ linkLabel_hook

theorem emphasis_unit (b : Behavior Inline) :
    conditionalUnit b (emphasisP x (hooked c r)) = conditionalUnit b.plain (emphasisP x r) := by
  cases b <;> first | rfl | exact emphasisP_hook_unit

theorem notAText_hook : notAText x c (hooked c r) = notAText x c.plain r := by
  unfold notAText
  rw [referenceLink_hook, inlineLink_hook, strikethroughP_hook, emphasis_unit, conditionalUnit_mapP,
    conditionalUnit_mapP, conditionalUnit_mapP, referenceLink_self, strikethroughP_self]
  simp only [inlineLink]
  rw [conditionalUnit_plain c.autolink, conditionalUnit_plain c.hardNewline, conditionalUnit_plain c.text,
    conditionalUnit_plain c.image, conditionalUnit_plain c.codeSpan,
    conditionalUnit_plain c.footnoteReference]
  have hu : ∀ {α β : Type} (b : Behavior Inline) (p : P α) (g : α → β),
      conditionalUnit b.plain (mapP p g) = conditionalUnit b.plain p := by
    intro α β b p g
    cases b <;> first | rfl | exact value_mapP p g ()
  simp only [hu, PConfig.plain]
  rfl

theorem textP_hook : textP x c (hooked c r) = textP x c.plain r := by
  unfold textP textPiece
  rw [notAText_hook]
  rfl

theorem inlineStep_hook (hc : c.HookOk) : inlineStep x c (hooked c r) =
    mapP (inlineStep x c.plain r) (fun l => l.flatMap (Inline.hook c)) := by
  unfold inlineStep
  simp only [← orElse_mapP]
  congr 1
  · exact conditional_mapP _ _ _ _ _ _ (fun a => rfl)
  congr 1
  · rw [inlineLink_hook]; exact conditional_mapP _ _ _ _ _ _ (fun a => rfl)
  congr 1
  · exact conditional_mapP _ _ _ _ _ _ (fun a => rfl)
  congr 1
  · rw [referenceLink_hook, referenceLink_self]; exact conditional_mapP _ _ _ _ _ _ (fun a => rfl)
  congr 1
  · exact conditional_mapP _ _ _ _ _ _ (fun a => rfl)
  congr 1
  · exact conditional_mapP _ _ _ _ _ _ (fun a => rfl)
  congr 1
  · exact conditional_mapP _ _ _ _ _ _ (fun a => rfl)
  congr 1
  · unfold environmentVariable; simp only [mapP_mapP]; rfl
  congr 1
  · have hb : c.emphasis.plain = c.emphasis := by rcases hc.emphasis with h | h <;> rw [h] <;> rfl
    show conditionalInline c.emphasis _ = mapP (conditionalInline c.emphasis.plain _) _
    rw [hb]
    rcases hc.emphasis with h | h <;> rw [h]
    · exact emphasisP_hook
    · rfl
  congr 1
  · rw [strikethroughP_hook, strikethroughP_self]; exact conditional_mapP _ _ _ _ _ _ (fun a => rfl)
  congr 1
  · show customParser c.customInline = mapP (customParser c.customInline) _
    rw [hc.customInline]; rfl
  · rw [textP_hook]
    show conditionalInline c.text _ = mapP (conditionalInline c.text.plain _) _
    unfold textP
    refine conditional_mapP _ _ _ _ _ _ (fun a => ?_)
    rcases hc.text with h | h <;> rw [h] <;> rfl

theorem flatten_map_flatMap {α : Type} (f : α → List α) (l : List (List α)) :
    (l.map (fun m => m.flatMap f)).flatten = l.flatten.flatMap f := by
  induction l with
  | nil => rfl
  | cons m l ih => simp [ih]

theorem inlineMany1With_hook (q : P (List Inline)) :
    inlineMany1With (mapP q (fun l => l.flatMap (Inline.hook c))) =
      mapP (inlineMany1With q) (hookInlines c) := by
  unfold inlineMany1With
  rw [many1_mapP, mapP_mapP, mapP_mapP]
  congr 1
  funext l
  rw [flatten_map_flatMap, hookInlines_merge]

theorem inlineMany0With_hook (q : P (List Inline)) :
    inlineMany0With (mapP q (fun l => l.flatMap (Inline.hook c))) =
      mapP (inlineMany0With q) (hookInlines c) := by
  unfold inlineMany0With
  rw [many0_mapP, mapP_mapP, mapP_mapP]
  congr 1
  funext l
  rw [flatten_map_flatMap, hookInlines_merge]

theorem mapP_snd {α β : Type} (p : P α) (g : α → β) (s : Str) :
    (mapP p g s).map Prod.snd = ((p s).map Prod.snd).map g := by
  unfold mapP; cases p s <;> rfl

theorem inlineF_hook (hc : c.HookOk) (n : Nat) : inlineF x c n =
    mapP (inlineF x c.plain n) (fun l => l.flatMap (Inline.hook c)) := by
  induction n with
  | zero => rfl
  | succ n ih =>
    unfold inlineF
    rw [← inlineStep_hook hc]
    congr 1
    funext t
    rw [ih, inlineMany1With_hook, mapP_snd]
    rfl

theorem parseInlines1_hook (hc : c.HookOk) :
    parseInlines1 x c = fun s => (parseInlines1 x c.plain s).map (hookInlines c) := by
  funext s
  unfold parseInlines1
  rw [inlineF_hook hc, inlineMany1With_hook, mapP_snd]

theorem parseInlines0_hook (hc : c.HookOk) :
    parseInlines0 x c = fun s => (parseInlines0 x c.plain s).map (hookInlines c) := by
  funext s
  unfold parseInlines0
  rw [inlineF_hook hc, inlineMany0With_hook, mapP_snd]

end

/-! ## Blocks -/

theorem blockHookL_eq (c : PConfig) (l : List Block) : Block.hookL c l = l.flatMap (Block.hook c) := by
  induction l with
  | nil => rfl
  | cons i l ih => simp [Block.hookL, ih]

theorem itemHookL_eq (c : PConfig) (l : List ListItem) : ListItem.hookL c l = l.map (ListItem.hook c) := by
  induction l with
  | nil => rfl
  | cons i l ih => simp [ListItem.hookL, ih]

section
variable {x : PExt} {c : PConfig} {r : P (List Block)}

/-- The recursive block parser with hooks. -/
def hookedB (c : PConfig) (r : P (List Block)) : P (List Block) :=
  mapP r (fun l => l.flatMap (Block.hook c))

theorem blocks1_hook (s : Str) : blocks1 (hookedB c r) s = (blocks1 r s).map (Block.hookL c) := by
  unfold blocks1 hookedB
  rw [many1_mapP]
  simp only [mapP]
  cases many1 r s with
  | none => rfl
  | some y => simp [flatten_map_flatMap, blockHookL_eq]

theorem blocks0_hook (s : Str) : blocks0 (hookedB c r) s = (blocks0 r s).map (Block.hookL c) := by
  unfold blocks0 hookedB
  rw [many0_mapP]
  simp only [mapP]
  cases many0 r s with
  | none => rfl
  | some y => simp [flatten_map_flatMap, blockHookL_eq]

/-- The parts of an ATX heading. -/
def headingParts (x : PExt) (c : PConfig) : P (Nat × List Inline) := fun s =>
  match seq (manyMN (chr '#') 1 6)
      (preceded (if c.allowNoSpaceInHeadings then space0 else space1)
        (lineTerminated notEofOrEol1)) s with
  | none => none
  | some (r, (hashes, content)) => match parseInlines0 x c content with
    | some l => some (r, (hashes.length, l))
    | none => none

theorem headingV1_self : headingV1 x c = mapP (headingParts x c) (fun y => .heading (.atx y.1) y.2) := by
  funext s
  simp only [headingV1, headingParts, mapP]
  generalize seq (manyMN (chr '#') 1 6) _ s = o
  cases o with
  | none => rfl
  | some y => simp only; cases parseInlines0 x c y.2.2 <;> rfl

theorem headingV1_hook (hc : c.HookOk) : headingV1 x c =
    mapP (headingParts x c.plain) (fun y => .heading (.atx y.1) (hookInlines c y.2)) := by
  funext s
  simp only [headingV1, headingParts, mapP, parseInlines0_hook hc]
  have hp : c.plain.allowNoSpaceInHeadings = c.allowNoSpaceInHeadings := rfl
  rw [hp]
  generalize seq (manyMN (chr '#') 1 6) _ s = o
  cases o with
  | none => rfl
  | some y => simp only; cases parseInlines0 x c.plain y.2.2 <;> rfl

/-- The content of a quote. -/
def quoteContent (r : P (List Block)) : P (List Block) :=
  mapOpt quoteLines (fun lines => blocks1 r (joinWith ['\n'] lines))

theorem blockquoteP_self : blockquoteP r = mapP (quoteContent r) .blockQuote := by
  unfold blockquoteP quoteContent
  rw [mapOpt_map]

theorem blockquoteP_hook : blockquoteP (hookedB c r) =
    mapP (quoteContent r) (fun bs => .blockQuote (Block.hookL c bs)) := by
  unfold blockquoteP quoteContent
  rw [← mapOpt_map]
  congr 1
  funext lines
  rw [blocks1_hook]
  cases blocks1 r (joinWith ['\n'] lines) <;> rfl

theorem githubAlertP_hook : githubAlertP x (hookedB c r) =
    mapP (githubAlertP x r) (fun l => l.map (fun b => match b with
      | .githubAlert t bs => .githubAlert t (Block.hookL c bs)
      | b => b)) := by
  funext s
  simp only [githubAlertP, mapP]
  generalize preceded (seq quotePrefix (opt (chr ' '))) (lineTerminated notEofOrEol0) s = o
  cases o with
  | none => rfl
  | some y =>
    simp only
    cases parseAlertMarker x (trim y.2) with
    | none => rfl
    | some t =>
      simp only
      cases quoteLines s with
      | none => rfl
      | some z =>
        obtain ⟨r1, lines⟩ := z
        simp only [blocks1_hook]
        by_cases h : (joinWith ['\n'] (lines.drop 1)).isEmpty = true
        · rw [if_pos h, if_pos h]; rfl
        · rw [if_neg h, if_neg h]
          cases blocks1 r (joinWith ['\n'] (lines.drop 1)) <;> rfl

/-- What an alert parses to is one alert. -/
theorem githubAlertP_one {s s' : Str} {l : List Block} (h : githubAlertP x r s = some (s', l)) :
    ∃ t bs, l = [.githubAlert t bs] := by
  simp only [githubAlertP] at h
  split at h
  · cases h
  · split at h
    · cases h
    · split at h
      · cases h
      · split at h
        · simp at h; exact ⟨_, _, h.2.symm⟩
        · split at h
          · simp at h; exact ⟨_, _, h.2.symm⟩
          · cases h

theorem mapP_congr_on {α β : Type} {p : P α} {f g : α → β}
    (h : ∀ s r a, p s = some (r, a) → f a = g a) : mapP p f = mapP p g := by
  funext s
  simp only [mapP]
  cases e : p s with
  | none => rfl
  | some y => simp only; rw [h s y.1 y.2 e]

theorem alert_hook (hb : Behavior Block) (hhb : hb = c.githubAlert) :
    conditionalBlockVec hb (githubAlertP x (hookedB c r)) =
      mapP (conditionalBlockVec hb.plain (githubAlertP x r)) (fun l => l.flatMap (Block.hook c)) := by
  have key : ∀ (hk : ∀ t bs, Block.hook c (.githubAlert t bs) = [.githubAlert t (Block.hookL c bs)]),
      githubAlertP x (hookedB c r) = mapP (githubAlertP x r) (fun l => l.flatMap (Block.hook c)) := by
    intro hk
    rw [githubAlertP_hook]
    refine mapP_congr_on ?_
    intro s s' l h
    obtain ⟨t, bs, rfl⟩ := githubAlertP_one h
    simp [hk]
  cases hb with
  | ignore => rfl
  | skip =>
    have hk : ∀ t bs, Block.hook c (.githubAlert t bs) = [.empty] := by
      intro t bs; simp only [Block.hook, ← hhb]
    simp only [conditionalBlockVec, Behavior.plain]
    rw [githubAlertP_hook, value_mapP]
    refine mapP_congr_on ?_
    intro s s' l h
    obtain ⟨t, bs, rfl⟩ := githubAlertP_one h
    simp [hk]
  | _ => exact key (by intro t bs; simp only [Block.hook, ← hhb])

theorem listItemP_hook : listItemP (hookedB c r) =
    mapP (listItemP r) (fun y => (y.1, y.2.hook c)) := by
  funext s
  simp only [listItemP, mapP]
  cases listMarkerWithSpanSize s with
  | none => rfl
  | some y =>
    obtain ⟨s1, kind, pl, task, first⟩ := y
    simp only
    cases listItemLines kind pl s1 with
    | none => rfl
    | some z =>
      obtain ⟨s2, rest⟩ := z
      simp only [blocks0_hook]
      cases blocks0 r (itemContent first rest) <;> rfl

/-- Kind and items of a list. -/
def listParts (r : P (List Block)) : P (ListKind × List ListItem) := fun s =>
  match many1 (listItemP r) s with
  | some (r, (k, i) :: l) => some (r, (k, i :: l.map Prod.snd))
  | _ => none

theorem listP_self : listP r = mapP (listParts r) (fun y => .list y.1 y.2) := by
  funext s
  simp only [listP, listParts, mapP]
  cases many1 (listItemP r) s with
  | none => rfl
  | some y =>
    obtain ⟨s1, l⟩ := y
    cases l with
    | nil => rfl
    | cons i l => rfl

theorem listP_hook : listP (hookedB c r) =
    mapP (listParts r) (fun y => .list y.1 (ListItem.hookL c y.2)) := by
  funext s
  simp only [listP, listParts, mapP]
  rw [listItemP_hook, many1_mapP]
  simp only [mapP]
  cases many1 (listItemP r) s with
  | none => rfl
  | some y =>
    obtain ⟨s1, l⟩ := y
    cases l with
    | nil => rfl
    | cons i l => simp [itemHookL_eq]

/-- Label and blocks of a footnote definition. -/
def footnoteParts (rec : P (List Block)) : P (Str × List Block) := fun s =>
  match preceded indent03 (preceded (tag cs!"[^")
      (terminated (recognize (many1 (noneOf cs!"]"))) (tag cs!"]:"))) s with
  | none => none
  | some (s1, label) => match preceded indent03 (lineTerminated notEofOrEol1) s1 with
    | none => none
    | some (s2, first) =>
      match many0 (preceded (manyMN (chr ' ') 3 3) (lineTerminated notEofOrEol1)) s2 with
      | none => none
      | some (s3, rest) => match blocks0 rec (itemContent first (rest.map (fun l => [l]))) with
        | none => none
        | some bs => some (s3, (label, bs))

theorem footnote_aux (q : P (List Block)) (g : List Block → List Block)
    (h : ∀ s, blocks0 q s = (blocks0 r s).map g) :
    footnoteDefinitionP q = mapP (footnoteParts r) (fun y => .footnoteDefinition y.1 (g y.2)) := by
  funext s
  simp only [footnoteDefinitionP, footnoteParts, mapP]
  generalize preceded indent03 (preceded (tag cs!"[^")
      (terminated (recognize (many1 (noneOf cs!"]"))) (tag cs!"]:"))) s = o
  cases o with
  | none => rfl
  | some y =>
    obtain ⟨s1, label⟩ := y
    simp only
    generalize preceded indent03 (lineTerminated notEofOrEol1) s1 = o
    cases o with
    | none => rfl
    | some y =>
      obtain ⟨s2, first⟩ := y
      simp only
      generalize many0 (preceded (manyMN (chr ' ') 3 3) (lineTerminated notEofOrEol1)) s2 = o
      cases o with
      | none => rfl
      | some y =>
        obtain ⟨s3, rest⟩ := y
        simp only [h]
        cases blocks0 r (itemContent first (rest.map (fun l => [l]))) <;> rfl

/-- The parts of a link definition. -/
def definitionParts (x : PExt) (c : PConfig) : P (List Inline × Str × Option Str) :=
  terminated
      (seq (preceded indent03 (linkLabel (parseInlines1 x c)))
        (preceded (chr ':') (preceded (seq space0 (seq (opt lineEnding) space0))
          (seq linkDestination (opt (preceded oneLineWhitespace1 linkTitle))))))
      eofOrEol

theorem linkDefinitionP_hook (hc : c.HookOk) : linkDefinitionP x c =
    mapP (definitionParts x c.plain) (fun y => .definition (hookInlines c y.1) y.2.1 y.2.2) := by
  have h : linkLabel (parseInlines1 x c) = mapP (linkLabel (parseInlines1 x c.plain)) (hookInlines c) := by
    rw [parseInlines1_hook hc]; exact linkLabel_hook
  unfold linkDefinitionP definitionParts
  rw [h, preceded_mapP, seq_mapP_left, terminated_mapP, mapP_mapP]

theorem tableRow_hook (hc : c.HookOk) : tableRow x c =
    mapP (tableRow x c.plain) (List.map (hookInlines c)) := by
  unfold tableRow cellContent
  simp only [parseInlines0_hook hc]
  rw [mapOpt_map, separatedList1_mapP, delimited_mapP, preceded_mapP, lineTerminated_mapP]

theorem fitRow_hook (n : Nat) (row : List (List Inline)) :
    fitRow n (row.map (hookInlines c)) = (fitRow n row).map (hookInlines c) := by
  unfold fitRow
  simp only [List.length_map]
  split
  · simp [hookInlines, Inline.hookL, Inline.hook, joinTexts]
  · split
    · simp [List.map_take]
    · rfl

theorem tableDataRows_hook (hc : c.HookOk) (n : Nat) : tableDataRows x c n =
    mapP (tableDataRows x c.plain n) (List.map (List.map (hookInlines c))) := by
  unfold tableDataRows
  rw [tableRow_hook hc, mapP_mapP, ← many0_mapP, mapP_mapP]
  simp only [fitRow_hook]

/-- Rows and alignments of a table. -/
def tableParts (x : PExt) (c : PConfig) : P (List (List (List Inline)) × List Alignment) := fun s =>
  match tableRow x c s with
  | none => none
  | some (s1, header) => match alignmentRow s1 with
    | none => none
    | some (s2, aligns) =>
      if aligns.length ≠ header.length then none
      else match tableDataRows x c header.length s2 with
        | none => none
        | some (s3, rows) => some (s3, (header :: rows, aligns))

theorem tableP_self : tableP x c = mapP (tableParts x c) (fun y => .table y.1 y.2) := by
  funext s
  simp only [tableP, tableParts, mapP]
  cases tableRow x c s with
  | none => rfl
  | some y =>
    obtain ⟨s1, header⟩ := y
    simp only
    cases alignmentRow s1 with
    | none => rfl
    | some z =>
      obtain ⟨s2, aligns⟩ := z
      simp only
      split
      · rfl
      · cases tableDataRows x c header.length s2 <;> rfl

theorem tableP_hook (hc : c.HookOk) : tableP x c =
    mapP (tableParts x c.plain) (fun y => .table (y.1.map (·.map (hookInlines c))) y.2) := by
  funext s
  simp only [tableP, tableParts, mapP, tableRow_hook hc, tableDataRows_hook hc]
  cases tableRow x c.plain s with
  | none => rfl
  | some y =>
    obtain ⟨s1, header⟩ := y
    simp only
    cases alignmentRow s1 with
    | none => rfl
    | some z =>
      obtain ⟨s2, aligns⟩ := z
      simp only [List.length_map]
      split
      · rfl
      · cases tableDataRows x c.plain header.length s2 <;> rfl

theorem unit_plain_mapP {α β ε : Type} (b : Behavior ε) (p : P α) (g : α → β) :
    conditionalUnit b.plain (mapP p g) = conditionalUnit b.plain p := by
  cases b <;> first | rfl | exact value_mapP p g ()

theorem notAParagraphLine_hook (hc : c.HookOk) :
    notAParagraphLine x c (hookedB c r) = notAParagraphLine x c.plain r := by
  unfold notAParagraphLine
  rw [headingV1_hook hc, blockquoteP_hook, listItemP_hook, linkDefinitionP_hook hc,
    footnote_aux (r := r) _ _ blocks0_hook, tableP_hook hc]
  simp only [conditionalUnit_mapP]
  rw [headingV1_self, blockquoteP_self, footnote_aux (r := r) r (fun l => l) (by simp), tableP_self]
  unfold linkDefinitionP
  rw [conditionalUnit_plain c.headingV2, conditionalUnit_plain c.thematicBreak,
    conditionalUnit_plain c.codeBlock, conditionalUnit_plain c.htmlBlock]
  simp only [PConfig.plain, unit_plain_mapP, hc.customBlock]
  rfl

theorem paragraphP_hook (hc : c.HookOk) (f : Bool) : paragraphP x c (hookedB c r) f =
    mapP (paragraphP x c.plain r f) (hookInlines c) := by
  unfold paragraphP paragraphLines
  rw [notAParagraphLine_hook hc, parseInlines1_hook hc, mapOpt_map]

theorem setextOrParagraph_hook (hc : c.HookOk) :
    conditionalBlock c.headingV2 (headingV2OrParagraph x c (hookedB c r)) =
      mapP (conditionalBlock c.headingV2.plain (headingV2OrParagraph x c.plain r))
        (fun l => l.flatMap (Block.hook c)) := by
  unfold headingV2OrParagraph
  rw [paragraphP_hook hc, seq_mapP_left, mapP_mapP]
  by_cases hi : c.headingV2 = .ignore
  · rw [hi]; rfl
  refine conditional_mapP _ _ _ _ _ _ ?_
  rintro ⟨is, o⟩
  cases o with
  | some l => rfl
  | none =>
    simp only [Block.hook]

theorem paragraph_hook (hc : c.HookOk) :
    conditionalBlock c.paragraph (mapP (paragraphP x c (hookedB c r) false) .paragraph) =
      mapP (conditionalBlock c.paragraph.plain (mapP (paragraphP x c.plain r false) .paragraph))
        (fun l => l.flatMap (Block.hook c)) := by
  rw [paragraphP_hook hc, mapP_mapP]
  rcases hc.paragraph with h | h | h
  · refine conditional_mapP _ _ _ _ _ _ ?_
    intro is
    simp only [Block.hook, h]
  · rw [h]; rfl
  · refine conditional_mapP _ _ _ _ _ _ ?_
    intro is
    simp only [Block.hook]
    rw [h]
    cases e : c.headingV2 with
    | ignore => have := h (hookInlines c is); rw [e] at this; exact this
    | _ => rfl

theorem blockAlt_hook (hc : c.HookOk) : blockAlt x c (hookedB c r) =
    mapP (blockAlt x c.plain r) (fun l => l.flatMap (Block.hook c)) := by
  have hcode : ∃ q : P (CodeBlockKind × Str), codeBlockP = mapP q (fun y => .codeBlock y.1 y.2) := by
    refine ⟨mapP codeBlockP (fun b => match b with | .codeBlock k t => (k, t) | _ => (.indented, [])), ?_⟩
    rw [mapP_mapP]
    conv => lhs; rw [← mapP_id codeBlockP]
    refine mapP_congr_on ?_
    intro s s' b h
    unfold codeBlockP at h
    simp only [orElse] at h
    split at h
    · rename_i e
      cases h
      simp only [codeBlockIndented, mapP] at e
      split at e
      · cases e; rfl
      · cases e
    · simp only [codeBlockFenced] at h
      split at h
      · cases h
      · split at h
        · cases h
        · cases h; rfl
  obtain ⟨q, hq⟩ := hcode
  unfold blockAlt
  simp only [← orElse_mapP]
  congr 1
  · rw [hq]; exact conditional_mapP _ _ _ _ _ _ (fun a => rfl)
  congr 1
  · rw [headingV1_hook hc, headingV1_self]; exact conditional_mapP _ _ _ _ _ _ (fun a => rfl)
  congr 1
  · exact setextOrParagraph_hook hc
  congr 1
  · exact conditional_mapP _ _ _ _ _ _ (fun a => rfl)
  congr 1
  · exact alert_hook _ rfl
  congr 1
  · rw [blockquoteP_hook, blockquoteP_self]; exact conditional_mapP _ _ _ _ _ _ (fun a => rfl)
  congr 1
  · rw [listP_hook, listP_self]; exact conditional_mapP _ _ _ _ _ _ (fun a => rfl)
  congr 1
  · exact conditional_mapP _ _ _ _ _ _ (fun a => rfl)
  congr 1
  · rw [footnote_aux (r := r) _ _ blocks0_hook, footnote_aux (r := r) r (fun l => l) (by simp)]
    exact conditional_mapP _ _ _ _ _ _ (fun a => rfl)
  congr 1
  · rw [linkDefinitionP_hook hc]; exact conditional_mapP _ _ _ _ _ _ (fun a => rfl)
  congr 1
  · rw [tableP_hook hc, tableP_self]; exact conditional_mapP _ _ _ _ _ _ (fun a => rfl)
  congr 1
  · show customParser c.customBlock = mapP (customParser c.customBlock) _
    rw [hc.customBlock]; rfl
  · exact paragraph_hook hc

theorem blockF_hook (hc : c.HookOk) (n : Nat) : blockF x c n =
    mapP (blockF x c.plain n) (fun l => l.flatMap (Block.hook c)) := by
  induction n with
  | zero => rfl
  | succ n ih =>
    unfold blockF blockStep
    rw [← preceded_mapP, ← blockAlt_hook hc, ih]
    try rfl

end

/-- C69: with hooks (Skip, Map, FlatMap) the input is read as without them, and then every element of a
kind with a hook is replaced, innermost first, by what the hook makes of it. -/
theorem C69_hooks (x : PExt) (c : PConfig) (hc : c.HookOk) (s : Str) :
    parseMarkdown x c s = (parseMarkdown x c.plain s).map (fun d => ⟨Block.hookL c d.blocks⟩) := by
  unfold parseMarkdown parseMarkdownF
  rw [blockF_hook hc, many0_mapP, terminated_mapP]
  simp only [mapP]
  cases terminated (many0 (blockF x c.plain (s.length + 1))) (seq (many0 (space1 <||> lineEnding)) eof) s with
  | none => rfl
  | some y => simp [flatten_map_flatMap, blockHookL_eq]

/-! ## Instances -/

/-- A configuration that makes headings one level deeper, replaces a link by its text, drops code
blocks and marks code spans. -/
def hookExample : PConfig :=
  { entities := fun _ => none,
    headingV1 := .map (fun b => match b with
      | .heading (.atx n) is => .heading (.atx (n + 1)) is
      | b => b),
    link := .flatMap (fun i => match i with
      | .link _ _ is => is
      | i => [i]),
    codeBlock := .skip,
    codeSpan := .map (fun i => match i with
      | .code t => .text (cs!"`" ++ t ++ cs!"`")
      | i => i),
    thematicBreak := .flatMap (fun _ => []) }

theorem hookExample_ok : hookExample.HookOk :=
  ⟨.inl rfl, .inl rfl, .inr (.inr fun _ => rfl), rfl, rfl⟩

example (x : PExt) (s : Str) : parseMarkdown x hookExample s =
    (parseMarkdown x hookExample.plain s).map (fun d => ⟨Block.hookL hookExample d.blocks⟩) :=
  C69_hooks x _ hookExample_ok s

/-- The two sides on an input with every one of these elements. -/
theorem C69_witness :
    parseMarkdown PExt.ascii hookExample cs!"# a [b `c` d](e)\n\n---\n\n> ```\n> f\n> ```\n" =
      some ⟨[.heading (.atx 2) [.text cs!"a b `c` d"], .blockQuote [.empty]]⟩ ∧
    parseMarkdown PExt.ascii hookExample.plain cs!"# a [b `c` d](e)\n\n---\n\n> ```\n> f\n> ```\n" =
      some ⟨[.heading (.atx 1) [.text cs!"a ", .link cs!"e" none [.text cs!"b ", .code cs!"c", .text cs!" d"]],
        .thematicBreak, .blockQuote [.codeBlock (.fenced none) cs!"f"]]⟩ := by decide +kernel

/-- What C69 leaves out.  The hook of paragraphs is not called on a paragraph unless `heading_v2` is
`Ignore`, and the hook of `heading_v2` is called on every paragraph; `Map` on alerts is not called;
the hook of texts is not called on an identifier with underscores; the hook of emphasis sees
`***a***` once. -/
theorem C69_boundaries :
    parseMarkdown PExt.ascii { entities := (fun _ => none), paragraph := .map (fun _ => .thematicBreak) }
      cs!"a" = some ⟨[.paragraph [.text cs!"a"]]⟩ ∧
    parseMarkdown PExt.ascii { entities := (fun _ => none), headingV2 := .ignore, paragraph := .map (fun _ => .thematicBreak) }
      cs!"a" = some ⟨[.thematicBreak]⟩ ∧
    parseMarkdown PExt.ascii { entities := (fun _ => none), headingV2 := .map (fun _ => .thematicBreak) }
      cs!"a" = some ⟨[.thematicBreak]⟩ ∧
    parseMarkdown PExt.ascii { entities := (fun _ => none), githubAlert := .map (fun _ => .thematicBreak) }
      cs!"> [!NOTE]\n> a" = some ⟨[.githubAlert .note [.paragraph [.text cs!"a"]]]⟩ ∧
    parseMarkdown PExt.ascii { entities := (fun _ => none), text := .map (fun _ => .lineBreak) }
      cs!"a_b" = some ⟨[.paragraph [.text cs!"a_b"]]⟩ ∧
    parseMarkdown PExt.ascii { entities := (fun _ => none), text := .map (fun _ => .lineBreak) }
      cs!"ab" = some ⟨[.paragraph [.lineBreak]]⟩ ∧
    parseMarkdown PExt.ascii { entities := (fun _ => none), emphasis := .map (fun _ => .code []) }
      cs!"***a***" = some ⟨[.paragraph [.code []]]⟩ := by decide +kernel

end Verif
