import Verif.EffectsLogSpec
import Verif.EffectsTrack
/-!
# Every element of the document has been passed to its closure, in document order (C93)

`Lg p ev`: a parser only appends to the log, and when it succeeds, what it appends contains the calls `ev` of its value, in
their order.
-/
set_option autoImplicit false
namespace Verif
namespace Fx
open Nom

variable {α β γ : Type}

/-- The log is a list of calls. -/
abbrev Log := List Call

/-- What a step with effects appends, and that it contains the calls of its value. -/
def Lk (m : Log → Option α × Log) (ev : α → Log) : Prop :=
  ∀ st, ∃ new, (m st).2 = st ++ new ∧ ∀ a, (m st).1 = some a → (ev a).Sublist new

/-- What a parser appends, and that it contains the calls of its value. -/
def Lg (p : S Log α) (ev : α → Log) : Prop := ∀ s, Lk (fun st => p s st) (fun y : Str × α => ev y.2)

/-- The same for a parser applied to a whole string. -/
def Lr (p : R Log α) (ev : α → Log) : Prop := ∀ s, Lk (p s) ev

/-- No calls. -/
abbrev no : α → Log := fun _ => []

theorem Lk.weaken {m : Log → Option α × Log} {ev ev' : α → Log} (h : Lk m ev) (hw : ∀ a, (ev' a).Sublist (ev a)) :
    Lk m ev' := by
  intro st
  obtain ⟨new, h1, h2⟩ := h st
  exact ⟨new, h1, fun a ha => (hw a).trans (h2 a ha)⟩

theorem Lg.weaken {p : S Log α} {ev ev' : α → Log} (h : Lg p ev) (hw : ∀ a, (ev' a).Sublist (ev a)) : Lg p ev' :=
  fun s => (h s).weaken (fun y => hw y.2)

theorem Lg.none {p : S Log α} {ev : α → Log} (h : Lg p ev) : Lg p no := h.weaken (fun _ => List.nil_sublist _)

theorem lg_lift (p : P α) : Lg (lift p : S Log α) no := fun s st =>
  ⟨[], by simp [lift], fun a _ => List.nil_sublist _⟩

theorem lg_lift' (p : P α) (ev : α → Log) (h : ∀ s r a, p s = some (r, a) → ev a = []) : Lg (lift p : S Log α) ev :=
  fun s st => ⟨[], by simp [lift], fun a ha => by
    have := h s a.1 a.2 ha
    simp [this]⟩

/-- What a computation appends. -/
theorem lk_of {m : Log → Option α × Log} {ev : α → Log}
    (h : ∀ st, ∃ new, (m st).2 = st ++ new ∧ ∀ a, (m st).1 = some a → (ev a).Sublist new) : Lk m ev := h

theorem lg_orElse {p q : S Log α} {ev : α → Log} (hp : Lg p ev) (hq : Lg q ev) : Lg (orElse p q) ev := by
  intro s st
  obtain ⟨n1, h1, h2⟩ := hp s st
  simp only at h1 h2
  obtain ⟨n2, h3, h4⟩ := hq s (p s st).2
  simp only at h3 h4
  simp only [orElse]
  rcases hps : p s st with ⟨_ | y, st1⟩
  · rw [hps] at h1 h2 h3 h4
    simp only at h1 h3 h4
    refine ⟨n1 ++ n2, by rw [h3, h1, List.append_assoc], fun a ha => ?_⟩
    exact (h4 a ha).trans (List.sublist_append_right _ _)
  · rw [hps] at h1 h2
    exact ⟨n1, h1, fun a ha => h2 a ha⟩

theorem lg_mapS {p : S Log α} {ev : α → Log} {ev' : β → Log} (f : α → β) (hp : Lg p ev)
    (hf : ∀ a, (ev' (f a)).Sublist (ev a)) : Lg (mapS p f) ev' := by
  intro s st
  obtain ⟨n1, h1, h2⟩ := hp s st
  simp only at h1 h2
  simp only [mapS]
  rcases hps : p s st with ⟨_ | ⟨r, a⟩, st1⟩
  · rw [hps] at h1
    exact ⟨n1, h1, fun a ha => by simp at ha⟩
  · rw [hps] at h1 h2
    refine ⟨n1, h1, fun b hb => ?_⟩
    simp only [Option.some.injEq] at hb
    subst hb
    exact (hf a).trans (h2 (r, a) rfl)

theorem lg_bindS {p : S Log α} {k : α → Log → Option β × Log} {ev : α → Log} {ev' : β → Log}
    (hp : Lg p ev) (hk : ∀ a st, ∃ new, (k a st).2 = st ++ new ∧ ∀ b, (k a st).1 = some b → (ev' b).Sublist (ev a ++ new)) :
    Lg (bindS p k) ev' := by
  intro s st
  obtain ⟨n1, h1, h2⟩ := hp s st
  simp only at h1 h2
  simp only [bindS]
  rcases hps : p s st with ⟨_ | ⟨r, a⟩, st1⟩
  · rw [hps] at h1
    exact ⟨n1, h1, fun a ha => by simp at ha⟩
  · rw [hps] at h1 h2
    obtain ⟨n2, h3, h4⟩ := hk a st1
    rcases hka : k a st1 with ⟨_ | b, st2⟩
    · rw [hka] at h3
      simp only at h1 h3 ⊢
      simp only [hka]
      exact ⟨n1 ++ n2, by simp [h3, h1], fun a ha => by simp at ha⟩
    · rw [hka] at h3 h4
      simp only at h1 h3 h4 ⊢
      simp only [hka]
      refine ⟨n1 ++ n2, by simp [h3, h1], fun y hy => ?_⟩
      simp only [Option.some.injEq] at hy
      subst hy
      exact (h4 b rfl).trans ((h2 (r, a) rfl).append (List.Sublist.refl _))

/-- `bindS` after a parser without calls. -/
theorem lg_bind {p : S Log α} {k : α → Log → Option β × Log} {ev : β → Log} (hp : Lg p no) (hk : ∀ a, Lk (k a) ev) :
    Lg (bindS p k) ev := lg_bindS hp hk

theorem lg_notS {p : S Log α} {ev : α → Log} (hp : Lg p ev) : Lg (notS p) no := by
  intro s st
  obtain ⟨n1, h1, -⟩ := hp s st
  simp only at h1
  simp only [notS]
  rcases hps : p s st with ⟨_ | y, st1⟩ <;> rw [hps] at h1 <;> exact ⟨n1, h1, fun a _ => List.nil_sublist _⟩

theorem lg_recognizeS {p : S Log α} {ev : α → Log} (hp : Lg p ev) : Lg (recognizeS p) no := by
  intro s st
  obtain ⟨n1, h1, -⟩ := hp s st
  simp only at h1
  simp only [recognizeS]
  rcases hps : p s st with ⟨_ | y, st1⟩ <;> rw [hps] at h1 <;> exact ⟨n1, h1, fun a _ => List.nil_sublist _⟩

theorem lg_seqS {p : S Log α} {q : S Log β} {ev : α → Log} {ev' : β → Log} (hp : Lg p ev) (hq : Lg q ev') :
    Lg (seqS p q) (fun y => ev y.1 ++ ev' y.2) := by
  intro s st
  obtain ⟨n1, h1, h2⟩ := hp s st
  simp only at h1 h2
  simp only [seqS]
  rcases hps : p s st with ⟨_ | ⟨r, a⟩, st1⟩
  · rw [hps] at h1
    exact ⟨n1, h1, fun a ha => by simp at ha⟩
  · rw [hps] at h1 h2
    obtain ⟨n2, h3, h4⟩ := hq r st1
    simp only at h1 h3 h4 ⊢
    rcases hqs : q r st1 with ⟨_ | ⟨r', b⟩, st2⟩
    · rw [hqs] at h3
      simp only at h3
      exact ⟨n1 ++ n2, by simp [h3, h1], fun a ha => by simp at ha⟩
    · rw [hqs] at h3 h4
      simp only at h3
      refine ⟨n1 ++ n2, by simp [h3, h1], fun y hy => ?_⟩
      simp only [Option.some.injEq] at hy
      subst hy
      exact (h2 (r, a) rfl).append (h4 (r', b) rfl)

theorem precededS_eq (p : S Log α) (q : S Log β) : precededS p q = mapS (seqS p q) Prod.snd := by
  funext s st
  simp only [precededS, mapS, seqS]
  rcases p s st with ⟨_ | ⟨r, a⟩, st1⟩
  · rfl
  · simp only
    rcases q r st1 with ⟨_ | ⟨r', b⟩, st2⟩ <;> rfl

theorem lg_precededS {p : S Log α} {q : S Log β} {ev : α → Log} {ev' : β → Log} (hp : Lg p ev) (hq : Lg q ev') :
    Lg (precededS p q) ev' := by
  rw [precededS_eq]
  exact lg_mapS _ (lg_seqS hp hq) (fun a => List.sublist_append_right _ _)

theorem lg_terminatedS {p : S Log α} {q : S Log β} {ev : α → Log} {ev' : β → Log} (hp : Lg p ev) (hq : Lg q ev') :
    Lg (terminatedS p q) ev := lg_mapS _ (lg_seqS hp hq) (fun _ => List.sublist_append_left _ _)

theorem lg_delimitedS {p : S Log α} {q : S Log β} {t : S Log γ} {ev : β → Log} (hp : Lg p no) (hq : Lg q ev)
    (ht : Lg t no) : Lg (delimitedS p q t) ev := lg_precededS hp (lg_terminatedS hq ht)

theorem lg_many0FS {p : S Log α} {ev : α → Log} (hp : Lg p ev) (n : Nat) :
    Lg (many0FS p n) (fun l => l.flatMap ev) := by
  induction n with
  | zero => exact fun s st => ⟨[], by simp [many0FS], fun a ha => by simp [many0FS] at ha⟩
  | succ n ih =>
    intro s st
    obtain ⟨n1, h1, h2⟩ := hp s st
    simp only at h1 h2
    simp only [many0FS]
    rcases hps : p s st with ⟨_ | ⟨r, a⟩, st1⟩
    · rw [hps] at h1
      refine ⟨n1, h1, fun a ha => ?_⟩
      simp only [Option.some.injEq] at ha
      subst ha
      simp
    · rw [hps] at h1 h2
      simp only at h1 ⊢
      split
      · obtain ⟨n2, h3, h4⟩ := ih r st1
        simp only at h3 h4
        rcases hqs : many0FS p n r st1 with ⟨_ | ⟨r', b⟩, st2⟩
        · rw [hqs] at h3
          simp only at h3
          exact ⟨n1 ++ n2, by simp [h3, h1], fun a ha => by simp at ha⟩
        · rw [hqs] at h3 h4
          simp only at h3
          refine ⟨n1 ++ n2, by simp [h3, h1], fun y hy => ?_⟩
          simp only [Option.some.injEq] at hy
          subst hy
          simpa using (h2 (r, a) rfl).append (h4 (r', b) rfl)
      · exact ⟨n1, h1, fun a ha => by simp at ha⟩

theorem lg_many0S {p : S Log α} {ev : α → Log} (hp : Lg p ev) : Lg (many0S p) (fun l => l.flatMap ev) :=
  fun s => lg_many0FS hp (s.length + 1) s

theorem many1S_eq (p : S Log α) : many1S p = mapS (seqS p (many0S p)) (fun y => y.1 :: y.2) := by
  funext s st
  simp only [many1S, mapS, seqS]
  rcases p s st with ⟨_ | ⟨r, a⟩, st1⟩
  · rfl
  · simp only
    rcases many0S p r st1 with ⟨_ | ⟨r', b⟩, st2⟩ <;> rfl

theorem lg_many1S {p : S Log α} {ev : α → Log} (hp : Lg p ev) : Lg (many1S p) (fun l => l.flatMap ev) := by
  rw [many1S_eq]
  exact lg_mapS _ (lg_seqS hp (lg_many0S hp)) (fun a => by simp)

theorem lg_sepLoopFS {sep : P β} {p : S Log α} {ev : α → Log} (hp : Lg p ev) (n : Nat) :
    Lg (sepLoopFS sep p n) (fun l => l.flatMap ev) := by
  induction n with
  | zero => exact fun s st => ⟨[], by simp [sepLoopFS], fun a ha => by simp [sepLoopFS] at ha⟩
  | succ n ih =>
    intro s st
    simp only [sepLoopFS]
    rcases sep s with _ | ⟨r0, -⟩
    · refine ⟨[], by simp, fun a ha => ?_⟩
      simp only [Option.some.injEq] at ha
      subst ha
      simp
    simp only
    obtain ⟨n1, h1, h2⟩ := hp r0 st
    simp only at h1 h2
    rcases hps : p r0 st with ⟨_ | ⟨r, a⟩, st1⟩
    · rw [hps] at h1
      refine ⟨n1, h1, fun a ha => ?_⟩
      simp only [Option.some.injEq] at ha
      subst ha
      simp
    · rw [hps] at h1 h2
      simp only at h1 ⊢
      split
      · obtain ⟨n2, h3, h4⟩ := ih r st1
        simp only at h3 h4
        rcases hqs : sepLoopFS sep p n r st1 with ⟨_ | ⟨r', b⟩, st2⟩
        · rw [hqs] at h3
          simp only at h3
          exact ⟨n1 ++ n2, by simp [h3, h1], fun a ha => by simp at ha⟩
        · rw [hqs] at h3 h4
          simp only at h3
          refine ⟨n1 ++ n2, by simp [h3, h1], fun y hy => ?_⟩
          simp only [Option.some.injEq] at hy
          subst hy
          simpa using (h2 (r, a) rfl).append (h4 (r', b) rfl)
      · exact ⟨n1, h1, fun a ha => by simp at ha⟩

theorem lg_sepLoopS {sep : P β} {p : S Log α} {ev : α → Log} (hp : Lg p ev) :
    Lg (sepLoopS sep p) (fun l => l.flatMap ev) := fun s => lg_sepLoopFS hp (s.length + 1) s

theorem separatedList1S_eq (sep : P β) (p : S Log α) :
    separatedList1S sep p = mapS (seqS p (sepLoopS sep p)) (fun y => y.1 :: y.2) := by
  funext s st
  simp only [separatedList1S, mapS, seqS]
  rcases p s st with ⟨_ | ⟨r, a⟩, st1⟩
  · rfl
  · simp only
    rcases sepLoopS sep p r st1 with ⟨_ | ⟨r', b⟩, st2⟩ <;> rfl

theorem lg_separatedList1S {sep : P β} {p : S Log α} {ev : α → Log} (hp : Lg p ev) :
    Lg (separatedList1S sep p) (fun l => l.flatMap ev) := by
  rw [separatedList1S_eq]
  exact lg_mapS _ (lg_seqS hp (lg_sepLoopS hp)) (fun a => by simp)

theorem lg_separatedList0S {sep : P β} {p : S Log α} {ev : α → Log} (hp : Lg p ev) :
    Lg (separatedList0S sep p) no := by
  intro s st
  simp only [separatedList0S]
  obtain ⟨n1, h1, -⟩ := hp s st
  simp only at h1
  rcases hps : p s st with ⟨_ | ⟨r, a⟩, st1⟩ <;> rw [hps] at h1
  · exact ⟨n1, h1, fun a _ => List.nil_sublist _⟩
  · simp only at h1 ⊢
    obtain ⟨n2, h3, -⟩ := lg_sepLoopS (sep := sep) hp r st1
    simp only at h3
    rcases hqs : sepLoopS sep p r st1 with ⟨_ | ⟨r', b⟩, st2⟩ <;> rw [hqs] at h3 <;> simp only at h3 <;>
      exact ⟨n1 ++ n2, by simp [h3, h1], fun a _ => List.nil_sublist _⟩

theorem lr_whole {p : S Log α} {ev : α → Log} (hp : Lg p ev) : Lr (whole p) ev := by
  intro s st
  obtain ⟨n1, h1, h2⟩ := hp s st
  simp only at h1 h2
  simp only [whole]
  rcases hps : p s st with ⟨_ | ⟨r, a⟩, st1⟩ <;> rw [hps] at h1 h2
  · exact ⟨n1, h1, fun a ha => by simp at ha⟩
  · refine ⟨n1, h1, fun b hb => ?_⟩
    simp only [Option.map, Option.some.injEq] at hb
    subst hb
    exact h2 (r, a) rfl

theorem lg_custom_none : Lg (customParser (none : Option (S Log (List α)))) (fun _ : List α => ([] : Log)) :=
  lg_lift _

/-! ## Inlines -/

/-- The calls for what an inline contains, when it is itself passed to a given closure. -/
def inlineKids (k : Closure) (i : Inline) : Log :=
  match k, i with
  | .link, .link _ _ c => inlinesCalls c
  | .referenceLink, .linkReference _ t => inlinesCalls t
  | .emphasis, .strong [.emphasis c] => inlinesCalls c
  | .emphasis, .strong c => inlinesCalls c
  | .emphasis, .emphasis c => inlinesCalls c
  | .strikethrough, .strikethrough c => inlinesCalls c
  | .autolink, .autolink _ => []
  | .footnoteReference, .footnoteReference _ => []
  | .hardNewline, .lineBreak => []
  | .image, .image _ _ _ => []
  | .codeSpan, .code _ => []
  | _, i => inlineCalls i

theorem inlineCalls_strong (c : List Inline) (h : ∀ c', c ≠ [.emphasis c']) :
    inlineCalls (.strong c) = inlinesCalls c ++ [.inline .emphasis (.strong c)] := by
  rw [inlineCalls]
  exact h

theorem inlineCalls_kids (k : Closure) (i : Inline) : (inlineCalls i).Sublist (inlineKids k i ++ [.inline k i]) := by
  unfold inlineKids
  split
  case h_4 c h => rw [inlineCalls_strong _ (fun c' hc => h c' hc)]; exact List.Sublist.refl _
  all_goals first | (rw [inlineCalls]; exact List.Sublist.refl _) | simp

theorem inlineKids_strong (c : List Inline) : (inlineKids .emphasis (.strong c)).Sublist (inlinesCalls c) := by
  unfold inlineKids
  split <;> first | simp | simp_all [inlinesCalls, inlineCalls]

theorem inlinesCalls_eq (l : List Inline) : inlinesCalls l = l.flatMap inlineCalls := by
  induction l with
  | nil => simp [inlinesCalls]
  | cons a l ih => simp [inlinesCalls, ih]

theorem inlinesCalls_flatten (l : List (List Inline)) : inlinesCalls l.flatten = l.flatMap inlinesCalls := by
  induction l with
  | nil => simp [inlinesCalls]
  | cons a l ih => simp [inlinesCalls_eq] at ih ⊢; exact ih

theorem inlinesCalls_cons (i : Inline) (l : List Inline) : inlinesCalls (i :: l) = inlineCalls i ++ inlinesCalls l := by
  rw [inlinesCalls]

theorem inlineCalls_text (s : Str) : inlineCalls (.text s) = [] := by simp [inlineCalls]

theorem inlinesCalls_mergeAux (l : List Inline) :
    ∀ o, inlinesCalls (mergeTextAux o l) = inlinesCalls l := by
  induction l with
  | nil => intro o; cases o <;> simp [mergeTextAux, inlinesCalls, inlineCalls]
  | cons i l ih =>
    intro o
    cases o <;> cases i <;> simp only [mergeTextAux, inlinesCalls_cons, inlineCalls_text, ih, List.nil_append]

theorem inlinesCalls_merge (l : List Inline) : inlinesCalls (mergeText l) = inlinesCalls l := inlinesCalls_mergeAux l none

theorem lg_logInline {k : Closure} {p : S Log Inline} (hp : Lg p (inlineKids k)) : Lg (conditionalInline (logInline k) p) inlinesCalls := by
  refine lg_bindS hp (fun v st => ⟨[.inline k v], rfl, fun b hb => ?_⟩)
  simp only [Option.some.injEq] at hb
  subst hb
  simpa [inlinesCalls] using inlineCalls_kids k v

theorem lg_linkLabel {rec : R Log (List Inline)} (h : Lr rec inlinesCalls) : Lg (linkLabel rec) inlinesCalls :=
  lg_delimitedS (lg_lift _) (lg_bind (lg_lift _) h) (lg_lift _)

theorem lg_inlineLink {rec : R Log (List Inline)} (h : Lr rec inlinesCalls) : Lg (inlineLink rec) (inlineKids .link) :=
  lg_mapS _ (lg_seqS (lg_linkLabel h) (lg_lift _)) (fun a => by simp [inlineKids])

theorem lg_referenceLink {rec : R Log (List Inline)} (h : Lr rec inlinesCalls) : Lg (referenceLink rec) (inlineKids .referenceLink) :=
  lg_orElse (lg_mapS _ (lg_seqS (lg_linkLabel h) (lg_linkLabel h)) (fun a => by simp [inlineKids]))
    (lg_orElse (lg_mapS _ (lg_terminatedS (lg_linkLabel h) (lg_lift _)) (fun a => by simp [inlineKids]))
      (lg_mapS _ (lg_linkLabel h) (fun a => by simp [inlineKids])))

theorem lg_emphasisDelimited {x : PExt} {rec : R Log (List Inline)} (h : Lr rec inlinesCalls) (t : Str) :
    Lg (emphasisDelimited x rec t) inlinesCalls :=
  lg_delimitedS (lg_lift _) (lg_bind (lg_lift _) h) (lg_lift _)

theorem lg_emphasisP {x : PExt} {rec : R Log (List Inline)} (h : Lr rec inlinesCalls) :
    Lg (emphasisP x rec) (inlineKids .emphasis) :=
  have two (t t' : Str) := lg_orElse (lg_emphasisDelimited (x := x) h t) (lg_emphasisDelimited (x := x) h t')
  lg_orElse (lg_mapS _ (two _ _) (fun a => by simp [inlineKids]))
    (lg_orElse (lg_mapS _ (two _ _) inlineKids_strong) (lg_mapS _ (two _ _) (fun a => by simp [inlineKids])))

theorem lg_strikethroughP {rec : R Log (List Inline)} (h : Lr rec inlinesCalls) : Lg (strikethroughP rec) (inlineKids .strikethrough) :=
  lg_mapS _ (lg_bind (lg_lift _) h) (fun a => by simp [inlineKids])

theorem lg_unit {b : Behavior Log α} {p : S Log β} {ev : β → Log} (hp : Lg p ev) : Lg (conditionalUnit b p) no := by
  cases b <;> first | exact lg_lift _ | exact lg_mapS _ hp (fun _ => List.nil_sublist _)

theorem lg_notAText {x : PExt} {cfg : Config Log} {rec : R Log (List Inline)} (h : Lr rec inlinesCalls) :
    Lg (notAText x cfg rec) no :=
  lg_orElse (lg_unit (lg_lift _)) <| lg_orElse (lg_unit (lg_referenceLink h)) <| lg_orElse (lg_unit (lg_lift _)) <|
  lg_orElse (lg_unit (lg_lift _)) <| lg_orElse (lg_unit (lg_lift _)) <| lg_orElse (lg_unit (lg_inlineLink h)) <|
  lg_orElse (lg_unit (lg_lift _)) <| lg_orElse (lg_unit (lg_emphasisP h)) <| lg_orElse (lg_unit (lg_lift _)) <|
  lg_orElse (lg_unit (lg_strikethroughP h)) (lg_lift _)

theorem lg_textP {x : PExt} {cfg : Config Log} {rec : R Log (List Inline)} (h : Lr rec inlinesCalls) :
    Lg (textP x cfg rec) inlineCalls :=
  lg_mapS _ (lg_many1S (ev := no) (lg_orElse (lg_lift _) (lg_orElse (lg_lift _)
    (lg_recognizeS (lg_many1S (lg_precededS (lg_notS (lg_notAText h)) (lg_lift _)))))))
    (fun a => by simp [inlineCalls])

section
variable {x : PExt} {a : Bool} {e : Str → Option Str}

theorem lg_liftKids (k : Closure) (p : P α) (f : α → Inline) (hf : ∀ a, inlineKids k (f a) = []) :
    Lg (lift (mapP p f) : S Log Inline) (inlineKids k) := by
  refine lg_lift' _ _ (fun s r v h => ?_)
  simp only [mapP] at h
  split at h
  · simp only [Option.some.injEq, Prod.mk.injEq] at h
    rw [← h.2]
    exact hf _
  · cases h

theorem lg_inlineStep {rec : R Log (List Inline)} (h : Lr rec inlinesCalls) :
    Lg (inlineStep x (logging a e) rec) inlinesCalls := by
  refine lg_orElse (lg_logInline (lg_liftKids _ _ _ (fun _ => rfl))) <|
    lg_orElse (lg_logInline (lg_inlineLink h)) <|
    lg_orElse (lg_logInline (lg_liftKids _ _ _ (fun _ => rfl))) <|
    lg_orElse (lg_logInline (lg_referenceLink h)) <|
    lg_orElse (lg_logInline (lg_liftKids _ _ (fun _ => Inline.lineBreak) (fun _ => rfl))) <|
    lg_orElse (lg_logInline (lg_liftKids _ _ _ (fun _ => rfl))) <|
    lg_orElse (lg_logInline (lg_liftKids _ _ _ (fun _ => rfl))) <|
    lg_orElse (lg_lift' _ _ ?_) <|
    lg_orElse (lg_logInline (lg_emphasisP h)) <|
    lg_orElse (lg_logInline (lg_strikethroughP h)) <|
    lg_orElse (lg_lift' _ _ (fun s r v h => by simp [failP] at h)) ?_
  · intro s r v hv
    simp only [environmentVariable, mapP] at hv
    generalize verify (recognize (seq alpha1 (many0 (alphanumeric1 <||> recognize (chr '_'))))) isLikelyEnvVar s = o at hv
    rcases o with _ | ⟨r', v'⟩
    · simp at hv
    · simp only [Option.some.injEq, Prod.mk.injEq] at hv
      rw [← hv.2]
      simp [inlinesCalls, inlineCalls]
  · exact lg_mapS _ (lg_textP h) (fun a => by simp [inlinesCalls])

theorem lg_inlineF (n : Nat) : Lg (inlineF x (logging a e) n) inlinesCalls := by
  induction n with
  | zero => exact lg_lift' _ _ (fun s r v h => by simp [failP] at h)
  | succ n ih =>
    exact lg_inlineStep (lr_whole (lg_mapS _ (lg_many1S ih) (fun l => by rw [inlinesCalls_merge, inlinesCalls_flatten]; exact List.Sublist.refl _)))

theorem lr_parseInlines1 : Lr (parseInlines1 x (logging a e)) inlinesCalls := fun s =>
  lr_whole (lg_mapS _ (lg_many1S (lg_inlineF _)) (fun l => by rw [inlinesCalls_merge, inlinesCalls_flatten]; exact List.Sublist.refl _)) s

theorem lr_parseInlines0 : Lr (parseInlines0 x (logging a e)) inlinesCalls := fun s =>
  lr_whole (lg_mapS _ (lg_many0S (lg_inlineF _)) (fun l => by rw [inlinesCalls_merge, inlinesCalls_flatten]; exact List.Sublist.refl _)) s

/-! ## Blocks -/

/-- The calls for what a block contains, when it is itself passed to a given closure. -/
def blockKids (k : Closure) (b : Block) : Log :=
  match k, b with
  | .headingV2OrParagraph, .paragraph c => inlinesCalls c
  | .headingV1, .heading (.atx _) c => inlinesCalls c
  | .headingV2OrParagraph, .heading (.setext _) c => inlinesCalls c
  | .blockquote, .blockQuote bs => blocksCalls bs
  | .list, .list _ items => itemsCalls items
  | .linkDefinition, .definition l _ _ => inlinesCalls l
  | .table, .table rows _ => rows.flatMap (fun row => row.flatMap inlinesCalls)
  | .footnoteDefinition, .footnoteDefinition _ bs => blocksCalls bs
  | .codeBlock, .codeBlock _ _ => []
  | .htmlBlock, .htmlBlock _ => []
  | .thematicBreak, .thematicBreak => []
  | _, b => blockCalls b

omit x a e in
theorem blockCalls_kids (k : Closure) (b : Block) : (blockCalls b).Sublist (blockKids k b ++ [.block k b]) := by
  unfold blockKids
  split <;> simp [blockCalls]

theorem blocksCalls_append (l m : List Block) : blocksCalls (l ++ m) = blocksCalls l ++ blocksCalls m := by
  induction l with
  | nil => simp [blocksCalls]
  | cons b l ih => simp [blocksCalls, ih]

theorem blocksCalls_flatten (l : List (List Block)) : blocksCalls l.flatten = l.flatMap blocksCalls := by
  induction l with
  | nil => simp [blocksCalls]
  | cons b l ih => simp [blocksCalls_append, ih]

theorem lg_logBlock {k : Closure} {p : S Log Block} (hp : Lg p (blockKids k)) : Lg (conditionalBlock (logBlock k) p) blocksCalls := by
  refine lg_bindS hp (fun v st => ⟨[.block k v], rfl, fun b hb => ?_⟩)
  simp only [Option.some.injEq] at hb
  subst hb
  simpa [blocksCalls] using blockCalls_kids k v

theorem lr_blocks1 {rec : S Log (List Block)} (h : Lg rec blocksCalls) : Lr (blocks1 rec) blocksCalls :=
  lr_whole (lg_mapS _ (lg_many1S h) (fun l => by rw [blocksCalls_flatten]; exact List.Sublist.refl _))

theorem lr_blocks0 {rec : S Log (List Block)} (h : Lg rec blocksCalls) : Lr (blocks0 rec) blocksCalls :=
  lr_whole (lg_mapS _ (lg_many0S h) (fun l => by rw [blocksCalls_flatten]; exact List.Sublist.refl _))

theorem lg_headingV1 : Lg (headingV1 x (logging a e)) (blockKids .headingV1) := by
  refine lg_bind (lg_lift _) (fun y st => ?_)
  obtain ⟨new, h1, h2⟩ := lr_parseInlines0 (x := x) (a := a) (e := e) y.2 st
  refine ⟨new, h1, fun b hb => ?_⟩
  rcases hl : (parseInlines0 x (logging a e) y.2 st).1 with _ | l <;> rw [hl] at hb
  · cases hb
  · simp only [Option.map, Option.some.injEq] at hb
    subst hb
    exact h2 l hl

theorem lg_blockquoteP {rec : S Log (List Block)} (h : Lg rec blocksCalls) : Lg (blockquoteP rec) (blockKids .blockquote) :=
  lg_mapS _ (lg_bind (lg_lift _) (fun lines => lr_blocks1 h _)) (fun l => by simp [blockKids])

theorem lg_githubAlertP {rec : S Log (List Block)} (h : Lg rec blocksCalls) :
    Lg (githubAlertP x rec) blocksCalls := by
  intro s st
  simp only [githubAlertP]
  have nothing {o : Option (Str × List Block)} (ho : o = none) :
      ∃ new, st = st ++ new ∧ ∀ y, o = some y → (blocksCalls y.2).Sublist new := ⟨[], by simp, by simp [ho]⟩
  rcases preceded (seq quotePrefix (Nom.opt (chr ' '))) (lineTerminated notEofOrEol0) s with _ | ⟨_, firstLine⟩
  · exact nothing rfl
  simp only
  rcases parseAlertMarker x (trim firstLine) with _ | t
  · exact nothing rfl
  simp only
  rcases quoteLines s with _ | ⟨r, lines⟩
  · exact nothing rfl
  simp only
  split
  · refine ⟨[], by simp, fun y hy => ?_⟩
    simp only [Option.some.injEq] at hy
    subst hy
    simp [blocksCalls, blockCalls]
  · obtain ⟨new, h1, h2⟩ := lr_blocks1 h (joinWith ['\n'] (lines.drop 1)) st
    rcases hb : blocks1 rec (joinWith ['\n'] (lines.drop 1)) st with ⟨_ | bs, st1⟩ <;> rw [hb] at h1 h2
    · exact ⟨new, h1, fun y hy => by cases hy⟩
    · refine ⟨new, h1, fun y hy => ?_⟩
      simp only [Option.some.injEq] at hy
      subst hy
      simpa [blocksCalls, blockCalls] using h2 bs rfl

theorem lg_listItemP {rec : S Log (List Block)} (h : Lg rec blocksCalls) :
    Lg (listItemP rec) (fun y => itemsCalls [y.2]) := by
  intro s st
  simp only [listItemP]
  rcases listMarkerWithSpanSize s with _ | ⟨s1, kind, pl, task, first⟩
  · exact ⟨[], by simp, fun y hy => by cases hy⟩
  simp only
  rcases listItemLines kind pl s1 with _ | ⟨s2, rest⟩
  · exact ⟨[], by simp, fun y hy => by cases hy⟩
  simp only
  obtain ⟨new, h1, h2⟩ := lr_blocks0 h (itemContent first rest) st
  rcases hb : blocks0 rec (itemContent first rest) st with ⟨_ | bs, st1⟩ <;> rw [hb] at h1 h2
  · exact ⟨new, h1, fun y hy => by cases hy⟩
  · refine ⟨new, h1, fun y hy => ?_⟩
    simp only [Option.some.injEq] at hy
    subst hy
    simpa [itemsCalls] using h2 bs rfl

theorem itemsCalls_eq (l : List (ListKind × ListItem)) :
    itemsCalls (l.map Prod.snd) = l.flatMap (fun y => itemsCalls [y.2]) := by
  induction l with
  | nil => simp [itemsCalls]
  | cons y l ih =>
    obtain ⟨k, ⟨t, bs⟩⟩ := y
    simp [itemsCalls, ih]

theorem lg_listP {rec : S Log (List Block)} (h : Lg rec blocksCalls) : Lg (listP rec) (blockKids .list) := by
  intro s st
  obtain ⟨new, h1, h2⟩ := lg_many1S (lg_listItemP h) s st
  simp only at h1 h2
  simp only [listP]
  rcases hm : many1S (listItemP rec) s st with ⟨_ | ⟨r, _ | ⟨⟨k, i⟩, l⟩⟩, st1⟩ <;> rw [hm] at h1 h2
  · exact ⟨new, h1, fun y hy => by cases hy⟩
  · exact ⟨new, h1, fun y hy => by cases hy⟩
  · refine ⟨new, h1, fun y hy => ?_⟩
    simp only [Option.some.injEq] at hy
    subst hy
    have := h2 _ rfl
    simp only [blockKids]
    rw [show i :: l.map Prod.snd = ((k, i) :: l).map Prod.snd from rfl, itemsCalls_eq]
    exact this

theorem lg_footnoteDefinitionP {rec : S Log (List Block)} (h : Lg rec blocksCalls) :
    Lg (footnoteDefinitionP rec) (blockKids .footnoteDefinition) := by
  intro s st
  simp only [footnoteDefinitionP]
  have nothing : ∃ new, st = st ++ new ∧ ∀ y, (none : Option (Str × Block)) = some y → (blockKids .footnoteDefinition y.2).Sublist new :=
    ⟨[], by simp, fun y hy => by cases hy⟩
  rcases preceded indent03 (preceded (tag cs!"[^")
      (terminated (recognize (many1 (noneOf cs!"]"))) (tag cs!"]:"))) s with _ | ⟨s1, label⟩
  · exact nothing
  simp only
  rcases preceded indent03 (lineTerminated notEofOrEol1) s1 with _ | ⟨s2, first⟩
  · exact nothing
  simp only
  rcases many0 (preceded (manyMN (chr ' ') 3 3) (lineTerminated notEofOrEol1)) s2 with _ | ⟨s3, rest⟩
  · exact nothing
  simp only
  obtain ⟨new, h1, h2⟩ := lr_blocks0 h (itemContent first (rest.map (fun l => [l]))) st
  rcases hb : blocks0 rec (itemContent first (rest.map (fun l => [l]))) st with ⟨_ | bs, st1⟩ <;> rw [hb] at h1 h2
  · exact ⟨new, h1, fun y hy => by cases hy⟩
  · refine ⟨new, h1, fun y hy => ?_⟩
    simp only [Option.some.injEq] at hy
    subst hy
    exact h2 bs rfl

theorem lg_linkDefinitionP : Lg (linkDefinitionP x (logging a e)) (blockKids .linkDefinition) :=
  lg_mapS _ (lg_terminatedS (lg_seqS (lg_precededS (lg_lift _) (lg_linkLabel lr_parseInlines1)) (lg_lift _)) (lg_lift _))
    (fun y => by simp [blockKids])

theorem lg_tableRow : Lg (tableRow x (logging a e)) (fun row => row.flatMap inlinesCalls) :=
  lg_terminatedS (lg_precededS (lg_lift _) (lg_delimitedS (lg_lift _)
    (lg_separatedList1S (lg_bind (lg_lift _) (fun _ => lr_parseInlines0 _))) (lg_lift _))) (lg_lift _)

theorem fitRow_calls (n : Nat) (row : List (List Inline)) :
    ((fitRow n row).flatMap inlinesCalls).Sublist (row.flatMap inlinesCalls) := by
  unfold fitRow
  split
  · rw [List.flatMap_append]
    have : (List.replicate (n - row.length) [Inline.text []]).flatMap inlinesCalls = [] := by
      simp [List.flatMap_eq_nil_iff, List.mem_replicate, inlinesCalls, inlineCalls]
    rw [this, List.append_nil]
    exact List.Sublist.refl _
  · split
    · conv => rhs; rw [← List.take_append_drop n row]
      rw [List.flatMap_append]
      exact List.sublist_append_left _ _
    · exact List.Sublist.refl _

theorem lg_tableP : Lg (tableP x (logging a e)) (blockKids .table) := by
  intro s st
  simp only [tableP]
  obtain ⟨n1, h1, h2⟩ := lg_tableRow (x := x) (a := a) (e := e) s st
  simp only at h1 h2
  rcases hm : tableRow x (logging a e) s st with ⟨_ | ⟨s1, header⟩, st1⟩ <;> rw [hm] at h1 h2
  · exact ⟨n1, h1, fun y hy => by cases hy⟩
  simp only at h1 ⊢
  rcases alignmentRow s1 with _ | ⟨s2, aligns⟩
  · exact ⟨n1, h1, fun y hy => by cases hy⟩
  simp only
  split
  · exact ⟨n1, h1, fun y hy => by cases hy⟩
  · have hrows : Lg (tableDataRows x (logging a e) header.length)
        (fun rows => rows.flatMap (fun row => row.flatMap inlinesCalls)) :=
      lg_many0S (lg_mapS _ lg_tableRow (fun row => fitRow_calls _ row))
    obtain ⟨n2, h3, h4⟩ := hrows s2 st1
    simp only at h3 h4
    rcases hr : tableDataRows x (logging a e) header.length s2 st1 with ⟨_ | ⟨s3, rows⟩, st2⟩ <;> rw [hr] at h3 h4 <;>
      simp only at h3
    · exact ⟨n1 ++ n2, by simp [h3, h1], fun y hy => by cases hy⟩
    · refine ⟨n1 ++ n2, by simp [h3, h1], fun y hy => ?_⟩
      simp only [Option.some.injEq] at hy
      subst hy
      simpa [blockKids] using (h2 _ rfl).append (h4 _ rfl)

theorem lg_notAParagraphLine {rec : S Log (List Block)} (h : Lg rec blocksCalls) :
    Lg (notAParagraphLine x (logging a e) rec) no :=
  lg_orElse (lg_unit lg_headingV1) <| lg_orElse (lg_unit (lg_lift _)) <| lg_orElse (lg_unit (lg_lift _)) <|
  lg_orElse (lg_unit (lg_blockquoteP h)) <| lg_orElse (lg_unit (lg_listItemP h)) <| lg_orElse (lg_unit (lg_lift _)) <|
  lg_orElse (lg_unit (lg_lift _)) <| lg_orElse (lg_unit lg_linkDefinitionP) <|
  lg_orElse (lg_unit (lg_footnoteDefinitionP h)) <| lg_orElse (lg_unit lg_tableP) <|
  lg_orElse (lg_mapS (ev := no) _ (lg_lift _) (fun _ => List.nil_sublist _)) (lg_lift _)

theorem lg_paragraphLines {rec : S Log (List Block)} (h : Lg rec blocksCalls) :
    Lg (paragraphLines x (logging a e) rec) no :=
  lg_terminatedS (lg_separatedList0S (lg_precededS (lg_notS (lg_notAParagraphLine h)) (lg_lift _))) (lg_lift _)

theorem lg_paragraphP {rec : S Log (List Block)} (h : Lg rec blocksCalls) (c : Bool) :
    Lg (paragraphP x (logging a e) rec c) inlinesCalls := by
  refine lg_bind ?_ (fun lines => lr_parseInlines1 _)
  cases c
  · exact lg_mapS _ (lg_seqS (lg_lift _) (lg_paragraphLines h)) (fun _ => List.nil_sublist _)
  · exact lg_paragraphLines h

theorem lg_headingV2OrParagraph {rec : S Log (List Block)} (h : Lg rec blocksCalls) :
    Lg (headingV2OrParagraph x (logging a e) rec) (blockKids .headingV2OrParagraph) :=
  lg_mapS _ (lg_seqS (lg_paragraphP h true) (lg_lift _)) (fun y => by
    rcases y with ⟨l, _ | k⟩ <;> simp [blockKids])

theorem lg_liftBlock (k : Closure) (p : P α) (f : α → Block) (hf : ∀ a, blockKids k (f a) = []) :
    Lg (lift (mapP p f) : S Log Block) (blockKids k) := by
  refine lg_lift' _ _ (fun s r v h => ?_)
  simp only [mapP] at h
  split at h
  · simp only [Option.some.injEq, Prod.mk.injEq] at h
    rw [← h.2]
    exact hf _
  · cases h

theorem lg_codeBlockP : Lg (lift codeBlockP : S Log Block) (blockKids .codeBlock) := by
  refine lg_lift' _ _ (fun s r v h => ?_)
  simp only [codeBlockP, Nom.orElse] at h
  split at h
  · rename_i r' v' hi
    simp only [codeBlockIndented, mapP] at hi
    split at hi
    · simp only [Option.some.injEq] at hi
      grind [blockKids]
    · cases hi
  · simp only [codeBlockFenced] at h
    split at h
    · cases h
    · split at h
      · cases h
      · grind [blockKids]

theorem lg_blockStep {rec : S Log (List Block)} (h : Lg rec blocksCalls) :
    Lg (blockStep x (logging a e) rec) blocksCalls := by
  refine lg_precededS (lg_lift _) <|
    lg_orElse (lg_logBlock lg_codeBlockP) <|
    lg_orElse (lg_logBlock lg_headingV1) <|
    lg_orElse (lg_logBlock (lg_headingV2OrParagraph h)) <|
    lg_orElse (lg_logBlock (lg_liftBlock _ _ (fun _ => Block.thematicBreak) (fun _ => rfl))) <|
    lg_orElse (lg_githubAlertP h) <|
    lg_orElse (lg_logBlock (lg_blockquoteP h)) <|
    lg_orElse (lg_logBlock (lg_listP h)) <|
    lg_orElse (lg_logBlock (lg_liftBlock _ _ _ (fun _ => rfl))) <|
    lg_orElse (lg_logBlock (lg_footnoteDefinitionP h)) <|
    lg_orElse (lg_logBlock lg_linkDefinitionP) <|
    lg_orElse (lg_logBlock lg_tableP) <|
    lg_orElse (lg_lift' _ _ (fun s r v h => by simp [failP] at h))
      (lg_logBlock (lg_mapS _ (lg_paragraphP h false) (fun y => by simp [blockKids])))

theorem lg_blockF (n : Nat) : Lg (blockF x (logging a e) n) blocksCalls := by
  induction n with
  | zero => exact lg_lift' _ _ (fun s r v h => by simp [failP] at h)
  | succ n ih => exact lg_blockStep ih

theorem logged (s : Str) (log : Log) :
    ∃ new, (parseMarkdown x (logging a e) s log).2 = log ++ new ∧
      ∀ d, (parseMarkdown x (logging a e) s log).1 = some d → (blocksCalls d.blocks).Sublist new := by
  obtain ⟨new, h1, h2⟩ := lg_terminatedS (lg_many0S (lg_blockF (x := x) (a := a) (e := e) (s.length + 1)))
    (lg_lift (seq (many0 (space1 <||> lineEnding)) eof)) s log
  simp only at h1 h2
  unfold parseMarkdown
  rcases hm : terminatedS (many0S (blockF x (logging a e) (s.length + 1)))
    (lift (seq (many0 (space1 <||> lineEnding)) eof)) s log with ⟨_ | ⟨r, bs⟩, st1⟩ <;> rw [hm] at h1 h2
  · exact ⟨new, h1, fun y hy => by cases hy⟩
  · refine ⟨new, h1, fun y hy => ?_⟩
    simp only [Option.some.injEq] at hy
    subst hy
    simp only [blocksCalls_flatten]
    exact h2 _ rfl

theorem logging_returns : (logging a e).Returns { PConfig.default e with allowNoSpaceInHeadings := a } := by
  constructor <;> first | rfl | trivial | exact fun _ _ => rfl

/-- **C93.** Parsing with closures that write down their calls always succeeds, gives the document that parsing without
closures gives, and the log contains, in this order, the calls that the elements of the document stand for: each element
has been passed to the closure of its kind, as it is in the document, after everything that it contains and before
everything that follows it. -/
theorem C93_calls (s : Str) : ∃ d log, parseMarkdown x (logging a e) s [] = (some d, log) ∧
    Verif.parseMarkdown x { PConfig.default e with allowNoSpaceInHeadings := a } s = some d ∧
    (blocksCalls d.blocks).Sublist log := by
  obtain ⟨d, hd⟩ := C91_total (x := x) (cfg := logging a e) rfl rfl rfl rfl s []
  obtain ⟨new, h1, h2⟩ := logged (x := x) (a := a) (e := e) s []
  refine ⟨d, new, Prod.ext hd (by simpa using h1), ?_, h2 d hd⟩
  rw [← hd]
  exact (C91_effects logging_returns s []).symm

/-- **C93**, for a log that has been begun: it is continued (also from one call of the parser to the next, so that parsing
several inputs with one configuration writes the calls for the first before those for the second). -/
theorem C93_continued (s t : Str) (log : Log) : ∃ d d' new new',
    parseMarkdown x (logging a e) s log = (some d, log ++ new) ∧ (blocksCalls d.blocks).Sublist new ∧
    parseMarkdown x (logging a e) t (log ++ new) = (some d', log ++ new ++ new') ∧ (blocksCalls d'.blocks).Sublist new' := by
  obtain ⟨d, hd⟩ := C91_total (x := x) (cfg := logging a e) rfl rfl rfl rfl s log
  obtain ⟨new, h1, h2⟩ := logged (x := x) (a := a) (e := e) s log
  obtain ⟨d', hd'⟩ := C91_total (x := x) (cfg := logging a e) rfl rfl rfl rfl t (log ++ new)
  obtain ⟨new', h3, h4⟩ := logged (x := x) (a := a) (e := e) t (log ++ new)
  exact ⟨d, d', new, new', Prod.ext hd h1, h2 d hd, Prod.ext hd' h3, h4 d' hd'⟩

end

/-- **C93**: the log of a heading and a quote with a code span: the calls for the paragraph in the quote come twice (the
first time from the test for a paragraph, C92); those of the document are among them, in their order. -/
theorem C93_example : let code := Call.inline .codeSpan (.code cs!"b")
    let quoted := Block.paragraph [.code cs!"b"]
    let d : Document := ⟨[.heading (.atx 1) [.text cs!"a"], .blockQuote [quoted]]⟩
    parseMarkdown PExt.ascii (logging false (fun _ => none)) cs!"# a\n> `b`" [] = (some d,
      [.block .headingV1 (.heading (.atx 1) [.text cs!"a"]), code, .block .headingV2OrParagraph quoted, code,
       .block .headingV2OrParagraph quoted, .block .blockquote (.blockQuote [quoted])]) ∧
    blocksCalls d.blocks = [.block .headingV1 (.heading (.atx 1) [.text cs!"a"]), code,
       .block .headingV2OrParagraph quoted, .block .blockquote (.blockQuote [quoted])] := by
  decide +kernel

end Fx
end Verif
