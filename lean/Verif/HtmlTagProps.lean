import Verif.HtmlBlockProps
import Verif.InlineGrammarProps
/-!
# Raw-text elements and complete tags are HTML blocks (C68)
-/
set_option linter.unusedVariables false
namespace Verif
open Nom

/-! ## Specification -/

/-- The elements whose content is raw text. -/
def rawTags : List Str := [cs!"script", cs!"pre", cs!"style"]

/-- A closing tag of a raw-text element, in any letter case. -/
def RawClose (s : Str) : Prop := ∃ w, w.map asciiLower ∈ rawTags ∧ s = cs!"</" ++ w ++ cs!">"

/-- What follows the name of a raw-text element. -/
def RawSep (s : Str) : Prop := s = [' '] ∨ s = ['>'] ∨ IsNewline s

/-- A tag name: a letter, then letters, digits and hyphens (all ASCII). -/
def TagName (s : Str) : Prop :=
  ∃ c t, s = c :: t ∧ isAlpha c = true ∧ ∀ d ∈ t, isAlnum d = true ∨ d = '-'

/-- An attribute name. -/
def AttrName (s : Str) : Prop :=
  ∃ c t, s = c :: t ∧ (isAlpha c = true ∨ c = '_' ∨ c = ':') ∧
    ∀ d ∈ t, isAlnum d = true ∨ d = '_' ∨ d = '.' ∨ d = ':' ∨ d = '-'

/-- An attribute value: bare, or one character in quotes. -/
inductive AttrValue : Str → Prop
  | bare {s : Str} : s ≠ [] → (∀ c ∈ s, c ∉ [' ', '\t', '"', '\'', '=', '<', '>', '`']) → AttrValue s
  | single {c : Char} : c ≠ '\'' → AttrValue ['\'', c, '\'']
  | double {c : Char} : c ≠ '"' → AttrValue ['"', c, '"']

/-- TagBlanks: spaces and tabs. -/
def TagBlanks (s : Str) : Prop := ∀ c ∈ s, c = ' ' ∨ c = '\t'

/-- An attribute with the blanks before it. -/
inductive Attr : Str → Prop
  | flag {sp n : Str} : TagBlanks sp → sp ≠ [] → AttrName n → Attr (sp ++ n)
  | value {sp n sp1 sp2 v : Str} : TagBlanks sp → sp ≠ [] → AttrName n → TagBlanks sp1 → TagBlanks sp2 →
      AttrValue v → Attr (sp ++ n ++ (sp1 ++ '=' :: (sp2 ++ v)))

/-- A complete opening or closing tag with the name `n`. -/
inductive CompleteTag : Str → Str → Prop
  | opening {n sp sl : Str} {as : List Str} : TagName n → n.map asciiLower ∉ rawTags →
      (∀ a ∈ as, Attr a) → TagBlanks sp → (sl = [] ∨ sl = ['/']) →
      CompleteTag n ('<' :: (n ++ (as.flatten ++ (sp ++ (sl ++ ['>'])))))
  | closing {n sp : Str} : TagName n → TagBlanks sp → CompleteTag n (cs!"</" ++ (n ++ (sp ++ ['>'])))

/-! ## Names -/

theorem takeWhile1_run {f : Char → Bool} {a t : Str} (ha : ∀ d ∈ a, f d = true) (hne : a ≠ [])
    (ht : ∀ c, t.head? = some c → f c = false) : takeWhile1 f (a ++ t) = some (t, a) := by
  obtain ⟨h1, h2⟩ := takeWhile_span' ha ht
  unfold takeWhile1
  rw [h1, h2]
  simp [hne]

theorem takeWhile1_stop {f : Char → Bool} {t : Str} (ht : ∀ c, t.head? = some c → f c = false) :
    takeWhile1 f t = none := by
  unfold takeWhile1
  cases t with
  | nil => rfl
  | cons c t => simp [ht c rfl]

theorem dropWhile_head {f : Char → Bool} {m t : Str} (ht : ∀ c, t.head? = some c → f c = false) :
    ∀ c, (m.dropWhile f ++ t).head? = some c → f c = false := by
  induction m with
  | nil => simpa using ht
  | cons d m ih =>
    rw [List.dropWhile_cons]
    split
    · exact ih
    · intro c hc
      simp at hc
      subst hc
      simp_all

theorem takeWhile1_span {f : Char → Bool} {c : Char} {m t : Str} (hc : f c = true)
    (ht : ∀ c, t.head? = some c → f c = false) :
    takeWhile1 f (c :: m ++ t) = some (m.dropWhile f ++ t, c :: m.takeWhile f) := by
  have h := takeWhile1_run (f := f) (a := c :: m.takeWhile f) (t := m.dropWhile f ++ t) (by
    intro d hd
    rcases List.mem_cons.1 hd with rfl | hd
    · exact hc
    · have := List.all_takeWhile (p := f) (l := m); exact List.all_eq_true.1 this d hd) (by simp) (dropWhile_head ht)
  rw [← h]
  simp [← List.append_assoc]

theorem many0_name {p : P Unit} {S : Str} (hp : ∀ c u, c ∈ S → p (c :: u) = some (u, ()))
    (hp' : ∀ s, (∀ c, s.head? = some c → c ∉ S) → p s = none) (hS : ∀ c ∈ S, isAlnum c = false)
    {t : Str} (ht : ∀ c, t.head? = some c → isAlnum c = false ∧ c ∉ S) :
    ∀ (n : Nat) (m : Str), m.length ≤ n → (∀ c ∈ m, isAlnum c = true ∨ c ∈ S) →
      ∃ l, many0 (p <||> value () alphanumeric1) (m ++ t) = some (t, l) := by
  intro n
  induction n with
  | zero =>
    intro m hm _
    have : m = [] := by simpa using hm
    subst this
    refine ⟨[], many0_of_none ?_⟩
    rw [orElse_none, value_none]
    exact ⟨hp' _ (fun c hc => (ht c hc).2), takeWhile1_stop (fun c hc => (ht c hc).1)⟩
  | succ n ih =>
    intro m hm hc
    cases m with
    | nil => exact ih [] (by simp) (by simp)
    | cons c m =>
      simp only [List.length_cons] at hm
      rcases hc c (by simp) with h | h
      · have h1 : p (c :: m ++ t) = none := hp' _ (by
          intro d hd hd'
          simp at hd
          subst hd
          rw [hS _ hd'] at h; cases h)
        have h2 := takeWhile1_span (m := m) h (fun c hc => (ht c hc).1)
        have hlen : (m.dropWhile isAlnum).length ≤ m.length := (List.dropWhile_suffix _).length_le
        obtain ⟨l, hl⟩ := ih (m.dropWhile isAlnum) (by omega)
          (fun c' hc' => hc c' (by simp [(List.dropWhile_suffix _).subset hc']))
        refine ⟨() :: l, many0_of_some (r := m.dropWhile isAlnum ++ t) ?_ (by simp; omega) hl⟩
        rw [orElse_of_none h1]
        exact value_some.2 ⟨_, h2, rfl⟩
      · obtain ⟨l, hl⟩ := ih m (by omega) (fun c' hc' => hc c' (by simp [hc']))
        exact ⟨() :: l, many0_of_some (r := m ++ t) (orElse_of_some (hp _ _ h)) (by simp) hl⟩

/-- What may follow a tag name. -/
def NameStop (t : Str) : Prop :=
  ∀ c, t.head? = some c → isAlnum c = false ∧ c ∉ ['-']

theorem isAlpha_alnum {c : Char} (h : isAlpha c = true) : isAlnum c = true := by simp [isAlnum, h]

theorem not_alpha_of {c : Char} (h : isAlnum c = false) : isAlpha c = false := by
  simp [isAlnum] at h; exact h.1

theorem htmlTagName_of {n t : Str} (h : TagName n) (ht : NameStop t) :
    htmlTagName (n ++ t) = some (t, n) := by
  obtain ⟨c, m, rfl, hc, hm⟩ := h
  unfold htmlTagName
  obtain ⟨l, hl⟩ := many0_name (p := value () (chr '-')) (S := ['-'])
    (by intro c u h; simp at h; subst h; rfl)
    (by
      intro s h
      rw [value_none]
      cases s with
      | nil => rfl
      | cons d s => exact chr_ne (by have := h d rfl; simpa using this))
    (by decide) ht _ (m.dropWhile isAlpha) (Nat.le_refl _)
    (fun c' hc' => by simpa using hm c' ((List.dropWhile_suffix _).subset hc'))
  refine recognize_of (v := (_, _)) (seq_some.2 ⟨_, takeWhile1_span (m := m) hc ?_, hl⟩)
  intro c hc
  exact not_alpha_of (ht c hc).1

/-- What may follow an attribute name. -/
def AttrStop (t : Str) : Prop :=
  ∀ c, t.head? = some c → isAlnum c = false ∧ c ∉ cs!"_.:-"

theorem oneOf_of {S : Str} {c : Char} (u : Str) (h : c ∈ S) : oneOf S (c :: u) = some (u, c) := by
  unfold oneOf
  exact satisfy_some.2 ⟨rfl, by simpa using h⟩

theorem oneOf_none {S s : Str} (h : ∀ c, s.head? = some c → c ∉ S) : oneOf S s = none := by
  unfold oneOf satisfy
  cases s with
  | nil => rfl
  | cons c s => simp [h c rfl]

theorem htmlTagAttributeName_of {n t : Str} (h : AttrName n) (ht : AttrStop t) :
    htmlTagAttributeName (n ++ t) = some (t, n) := by
  obtain ⟨c, m, rfl, hc, hm⟩ := h
  unfold htmlTagAttributeName
  have key : ∀ m', (∀ d ∈ m', isAlnum d = true ∨ d ∈ cs!"_.:-") →
      ∃ l, many0 (value () (oneOf cs!"_.:-") <||> value () alphanumeric1) (m' ++ t) = some (t, l) :=
    fun m' hm' => many0_name (p := value () (oneOf cs!"_.:-")) (S := cs!"_.:-")
      (fun c u h => value_some.2 ⟨_, oneOf_of u h, rfl⟩)
      (fun s h => value_none.2 (oneOf_none h)) (by decide) ht _ m' (Nat.le_refl _) hm'
  have hm : ∀ d ∈ m, isAlnum d = true ∨ d ∈ cs!"_.:-" := fun d hd => by
    have := hm d hd; grind
  have hna : ∀ c, t.head? = some c → isAlpha c = false := fun c hc => not_alpha_of (ht c hc).1
  rcases hc with hc | hc
  · obtain ⟨l, hl⟩ := key (m.dropWhile isAlpha)
      (fun c' hc' => hm c' ((List.dropWhile_suffix _).subset hc'))
    exact recognize_of (v := (_, _)) (seq_some.2 ⟨_, orElse_of_some (value_some.2
      ⟨_, takeWhile1_span (m := m) hc hna, rfl⟩), hl⟩)
  · obtain ⟨l, hl⟩ := key m hm
    refine recognize_of (v := ((), _)) (seq_some.2 ⟨m ++ t, ?_, hl⟩)
    rw [orElse_of_none]
    · exact value_some.2 ⟨c, oneOf_of _ (by rcases hc with rfl | rfl <;> decide), rfl⟩
    · rw [value_none]
      refine takeWhile1_stop ?_
      intro d hd
      simp at hd
      subst hd
      rcases hc with rfl | rfl <;> decide

/-! ## Attributes -/

theorem space1_of {sp t : Str} (h : TagBlanks sp) (hne : sp ≠ [])
    (ht : ∀ c, t.head? = some c → isSpace c = false) : space1 (sp ++ t) = some (t, sp) := by
  unfold space1
  refine takeWhile1_run (fun d hd => ?_) hne ht
  rcases h d hd with rfl | rfl <;> decide

theorem space0_tag {sp t : Str} (h : TagBlanks sp)
    (ht : ∀ c, t.head? = some c → isSpace c = false) : space0 (sp ++ t) = some (t, sp) := by
  obtain ⟨h1, h2⟩ := takeWhile_span' (f := isSpace) (a := sp) (t := t) (fun d hd => by
    rcases h d hd with rfl | rfl <;> decide) ht
  show some (_, _) = _
  rw [h1, h2]

/-- The parser of one character of an unquoted value. -/
def bareChar : P Char :=
  preceded (notP (value () space1 <||> value () (oneOf cs!"\"'=<>`"))) anychar

theorem bareChar_of {c : Char} {u : Str} (h : c ∉ [' ', '\t', '"', '\'', '=', '<', '>', '`']) :
    bareChar (c :: u) = some (u, c) := by
  refine preceded_some.2 ⟨c :: u, (), notP_some.2 ⟨?_, rfl⟩, rfl⟩
  rw [orElse_none, value_none, value_none]
  refine ⟨takeWhile1_stop ?_, oneOf_none ?_⟩
  · intro d hd; simp at hd; subst hd; simp at h; simp [isSpace, h]
  · intro d hd; simp at hd; subst hd; simp at h; simp [h]

theorem bareChar_none {s : Str} (h : ∀ c, s.head? = some c →
    c ∈ [' ', '\t', '"', '\'', '=', '<', '>', '`']) : bareChar s = none := by
  cases s with
  | nil => rfl
  | cons c s =>
    have h := h c rfl
    refine preceded_none ?_
    rw [notP_none]
    by_cases hs : isSpace c = true
    · have h1 := takeWhile1_span (m := s) (t := []) hs (by simp)
      rw [List.append_nil] at h1
      exact ⟨_, orElse_of_some (value_some.2 ⟨_, h1, rfl⟩)⟩
    · have h1 : space1 (c :: s) = none := takeWhile1_stop (by
        intro d hd; simp at hd; subst hd; simpa using hs)
      rw [orElse_of_none (value_none.2 h1)]
      refine ⟨_, value_some.2 ⟨_, oneOf_of s ?_, rfl⟩⟩
      simp [isSpace] at hs
      simp [hs] at h ⊢
      exact h

theorem many0_bare {v t : Str} (hv : ∀ c ∈ v, c ∉ [' ', '\t', '"', '\'', '=', '<', '>', '`'])
    (ht : bareChar t = none) : many0 bareChar (v ++ t) = some (t, v) := by
  induction v with
  | nil => exact many0_of_none ht
  | cons c v ih =>
    exact many0_of_some (r := v ++ t) (bareChar_of (hv c (by simp))) (by simp)
      (ih (fun c hc => hv c (by simp [hc])))

/-- What may follow an attribute: a blank or `>`. -/
def ValueStop (t : Str) : Prop := ∃ c u, t = c :: u ∧ c ∈ [' ', '\t', '>']

theorem htmlTagAttributeValue_bare {v t : Str} (hne : v ≠ [])
    (hv : ∀ c ∈ v, c ∉ [' ', '\t', '"', '\'', '=', '<', '>', '`']) (ht : ValueStop t) :
    htmlTagAttributeValue (v ++ t) = some (t, v) := by
  have hb : bareChar t = none := by
    obtain ⟨c, u, rfl, hc⟩ := ht
    refine bareChar_none ?_
    intro d hd; simp at hd; subst hd; simp at hc ⊢; grind
  refine orElse_of_some (recognize_of (v := v) ?_)
  show many1 bareChar _ = _
  cases v with
  | nil => exact absurd rfl hne
  | cons c v =>
    unfold many1
    rw [List.cons_append, bareChar_of (hv c (by simp))]
    simp only
    rw [many0_bare (fun c hc => hv c (by simp [hc])) hb]

theorem htmlTagAttributeValue_quoted {c : Char} (t : Str) :
    (c ≠ '\'' → htmlTagAttributeValue ('\'' :: c :: '\'' :: t) = some (t, ['\'', c, '\''])) ∧
    (c ≠ '"' → htmlTagAttributeValue ('"' :: c :: '"' :: t) = some (t, ['"', c, '"'])) := by
  have hn : ∀ q u, q ∈ ['\'', '"'] → htmlTagAttributeValueUnquoted (q :: u) = none := by
    intro q u hq
    unfold htmlTagAttributeValueUnquoted
    rw [recognize_none]
    refine many1_none_of (p := bareChar) (bareChar_none ?_)
    intro d hd; simp at hd; subst hd; simp at hq ⊢; grind
  constructor
  · intro hc
    unfold htmlTagAttributeValue
    rw [orElse_of_none (hn _ _ (by decide))]
    refine orElse_of_some ?_
    unfold htmlTagAttributeValueSingleQuoted
    refine recognize_of (a := ['\'', c, '\'']) (r := t) (v := c) ?_
    unfold delimited
    refine preceded_some.2 ⟨c :: '\'' :: t, _, rfl, ?_⟩
    refine terminated_some.2 ⟨'\'' :: t, _, ?_, rfl⟩
    exact preceded_some.2 ⟨c :: '\'' :: t, (), notP_some.2 ⟨chr_ne hc, rfl⟩, rfl⟩
  · intro hc
    unfold htmlTagAttributeValue
    rw [orElse_of_none (hn _ _ (by decide)), orElse_of_none]
    · unfold htmlTagAttributeValueDoubleQuoted
      refine recognize_of (a := ['"', c, '"']) (r := t) (v := c) ?_
      unfold delimited
      refine preceded_some.2 ⟨c :: '"' :: t, _, rfl, ?_⟩
      refine terminated_some.2 ⟨'"' :: t, _, ?_, rfl⟩
      exact preceded_some.2 ⟨c :: '"' :: t, (), notP_some.2 ⟨chr_ne hc, rfl⟩, rfl⟩
    · unfold htmlTagAttributeValueSingleQuoted
      rw [recognize_none]
      unfold delimited
      refine preceded_none ?_
      exact chr_ne (by decide)

theorem AttrValue.head {v : Str} (h : AttrValue v) : ∃ c u, v = c :: u ∧ isSpace c = false := by
  cases h with
  | bare hne hv =>
    cases v with
    | nil => exact absurd rfl hne
    | cons c s =>
      have := hv c (by simp)
      simp at this
      exact ⟨c, s, rfl, by simp [isSpace, this]⟩
  | single _ => exact ⟨_, _, rfl, by decide⟩
  | double _ => exact ⟨_, _, rfl, by decide⟩

theorem AttrName.head {v : Str} (h : AttrName v) : ∃ c u, v = c :: u ∧ isSpace c = false ∧ c ≠ '=' := by
  obtain ⟨c, t, rfl, hc, _⟩ := h
  refine ⟨c, t, rfl, ?_, ?_⟩
  · rcases hc with hc | rfl | rfl
    · cases e : isSpace c with
      | false => rfl
      | true =>
        simp [isSpace] at e
        rcases e with rfl | rfl <;> exact absurd hc (by decide)
    · decide
    · decide
  · rintro rfl; revert hc; decide

/-- TagBlanks or nothing, then `=`: an attribute name can be followed by them. -/
theorem attrStop_blanks {sp t : Str} {c : Char} (h : TagBlanks sp) (hc : isAlnum c = false ∧ c ∉ cs!"_.:-") :
    AttrStop (sp ++ c :: t) := by
  cases sp with
  | nil => intro d hd; simp at hd; subst hd; exact hc
  | cons b sp =>
    intro d hd
    simp at hd; subst hd
    rcases h b (by simp) with rfl | rfl <;> decide

theorem valueSpec_of {sp1 sp2 v t t' : Str} (h1 : TagBlanks sp1) (h2 : TagBlanks sp2) (hv : AttrValue v)
    (hp : ∃ w, htmlTagAttributeValue (v ++ t) = some (t', w)) :
    ∃ o, opt htmlTagAttributeValueSpecification (sp1 ++ '=' :: (sp2 ++ (v ++ t))) = some (t', o) := by
  obtain ⟨w, hw⟩ := hp
  obtain ⟨c, u, hcu, hc⟩ := hv.head
  have : ∃ o, htmlTagAttributeValueSpecification (sp1 ++ '=' :: (sp2 ++ (v ++ t))) = some (t', o) := by
    refine ⟨_, recognize_some.2 ⟨(_, _, _, _), seq_some.2 ⟨'=' :: (sp2 ++ (v ++ t)), space0_tag h1 ?_,
      seq_some.2 ⟨_, chr_cons _ _, seq_some.2 ⟨v ++ t, space0_tag h2 ?_, hw⟩⟩⟩, rfl⟩⟩
    · intro d hd; simp at hd; subst hd; decide
    · intro d hd; rw [hcu] at hd; simp at hd; subst hd; exact hc
  obtain ⟨o, ho⟩ := this
  exact ⟨some o, opt_some.2 (.inl ⟨o, ho, rfl⟩)⟩

/-- The rest of a tag after an attribute does not go on with `=`. -/
def NoEq (t : Str) : Prop := ∃ sp c u, t = sp ++ c :: u ∧ TagBlanks sp ∧ isSpace c = false ∧ c ≠ '='

theorem valueSpec_none {t : Str} (h : NoEq t) :
    opt htmlTagAttributeValueSpecification t = some (t, none) := by
  obtain ⟨sp, c, u, rfl, h1, h2, h3⟩ := h
  refine opt_some.2 (.inr ⟨?_, rfl, rfl⟩)
  unfold htmlTagAttributeValueSpecification
  rw [recognize_none]
  generalize hq : seq (chr '=') (seq space0 htmlTagAttributeValue) = q
  have hq' : q (c :: u) = none := by rw [← hq]; exact seq_none (chr_ne h3)
  unfold seq
  rw [space0_tag (t := c :: u) h1 (by intro d hd; simp at hd; subst hd; exact h2)]
  simp only
  rw [hq']

theorem htmlTagAttribute_parts {sp n t t' : Str} (hsp : TagBlanks sp) (hne : sp ≠ []) (hn : AttrName n)
    (ht : AttrStop t) (hp : ∃ o, opt htmlTagAttributeValueSpecification t = some (t', o)) :
    ∃ w, htmlTagAttribute (sp ++ (n ++ t)) = some (t', w) := by
  obtain ⟨o, ho⟩ := hp
  obtain ⟨c, u, hcu, hc⟩ := hn.head
  refine ⟨_, recognize_some.2 ⟨(_, _, _), seq_some.2 ⟨n ++ t, space1_of hsp hne ?_,
    seq_some.2 ⟨t, htmlTagAttributeName_of hn ht, ho⟩⟩, rfl⟩⟩
  intro d hd; rw [hcu] at hd; simp at hd; subst hd; exact hc.1

theorem attr_of {a t : Str} (h : Attr a) (ht : ValueStop t) (he : NoEq t) :
    ∃ w, htmlTagAttribute (a ++ t) = some (t, w) := by
  have hst : AttrStop t := by
    obtain ⟨c, u, rfl, hc⟩ := ht
    intro d hd
    simp at hd; subst hd
    simp at hc
    rcases hc with rfl | rfl | rfl <;> decide
  cases h with
  | flag h1 h2 h3 =>
    rw [List.append_assoc]
    exact htmlTagAttribute_parts h1 h2 h3 hst ⟨_, valueSpec_none he⟩
  | value h1 h2 h3 h4 h5 h6 =>
    simp only [List.append_assoc, List.cons_append]
    refine htmlTagAttribute_parts h1 h2 h3 (attrStop_blanks h4 (by decide)) (valueSpec_of h4 h5 h6 ?_)
    cases h6 with
    | bare hne hv => exact ⟨_, htmlTagAttributeValue_bare hne hv ht⟩
    | single hc => exact ⟨_, (htmlTagAttributeValue_quoted t).1 hc⟩
    | double hc => exact ⟨_, (htmlTagAttributeValue_quoted t).2 hc⟩

theorem attr_slash {a r : Str} (h : Attr a) :
    ∃ w, htmlTagAttribute (a ++ '/' :: '>' :: r) = some ('/' :: '>' :: r, w) ∨
      htmlTagAttribute (a ++ '/' :: '>' :: r) = some ('>' :: r, w) := by
  cases h with
  | flag h1 h2 h3 =>
    rw [List.append_assoc]
    obtain ⟨w, hw⟩ := htmlTagAttribute_parts (t := '/' :: '>' :: r) h1 h2 h3
      (attrStop_blanks (sp := []) (by simp [TagBlanks]) (by decide))
      ⟨_, valueSpec_none ⟨[], '/', _, rfl, by simp [TagBlanks], by decide, by decide⟩⟩
    exact ⟨w, .inl hw⟩
  | @value sp n sp1 sp2 v h1 h2 h3 h4 h5 h6 =>
    simp only [List.append_assoc, List.cons_append]
    cases h6 with
    | bare hne hv =>
      have := htmlTagAttribute_parts h1 h2 h3 (attrStop_blanks h4 (by decide))
        (valueSpec_of (v := v ++ ['/']) (t := '>' :: r) h4 h5 (.bare (by simp) (by
          intro c hc
          rcases List.mem_append.1 hc with hc | hc
          · exact hv c hc
          · simp at hc; subst hc; decide)) ⟨_, htmlTagAttributeValue_bare (by simp) (by
          intro c hc
          rcases List.mem_append.1 hc with hc | hc
          · exact hv c hc
          · simp at hc; subst hc; decide) ⟨_, _, rfl, by decide⟩⟩)
      obtain ⟨w, hw⟩ := this
      exact ⟨w, .inr (by simpa using hw)⟩
    | single hc =>
      obtain ⟨w, hw⟩ := htmlTagAttribute_parts h1 h2 h3 (attrStop_blanks h4 (by decide))
        (valueSpec_of (t := '/' :: '>' :: r) h4 h5 (.single hc) ⟨_, (htmlTagAttributeValue_quoted _).1 hc⟩)
      exact ⟨w, .inl hw⟩
    | double hc =>
      obtain ⟨w, hw⟩ := htmlTagAttribute_parts h1 h2 h3 (attrStop_blanks h4 (by decide))
        (valueSpec_of (t := '/' :: '>' :: r) h4 h5 (.double hc) ⟨_, (htmlTagAttributeValue_quoted _).2 hc⟩)
      exact ⟨w, .inl hw⟩

theorem Attr.blank {a : Str} (h : Attr a) : ∃ sp c u, a = sp ++ c :: u ∧ TagBlanks sp ∧ sp ≠ [] ∧
    isSpace c = false ∧ c ≠ '=' := by
  cases h with
  | flag h1 h2 h3 =>
    obtain ⟨c, u, rfl, h4⟩ := h3.head
    exact ⟨_, c, u, rfl, h1, h2, h4⟩
  | value h1 h2 h3 h4 h5 h6 =>
    obtain ⟨c, u, rfl, h4⟩ := h3.head
    exact ⟨_, c, _, by simp; rfl, h1, h2, h4⟩

/-- No attribute begins here. -/
theorem attr_none {sp u : Str} {c : Char} (h : TagBlanks sp) (hc : c = '/' ∨ c = '>') :
    htmlTagAttribute (sp ++ c :: u) = none := by
  unfold htmlTagAttribute
  rw [recognize_none]
  have hsc : isSpace c = false := by rcases hc with rfl | rfl <;> decide
  generalize hq : seq htmlTagAttributeName (opt htmlTagAttributeValueSpecification) = q
  have hq' : q (c :: u) = none := by
    rw [← hq]
    refine seq_none ?_
    unfold htmlTagAttributeName
    rw [recognize_none]
    refine seq_none ?_
    rw [orElse_none, value_none, value_none]
    refine ⟨takeWhile1_stop ?_, oneOf_none ?_⟩ <;>
    · intro d hd; simp at hd; subst hd; rcases hc with rfl | rfl <;> decide
  by_cases hsp : sp = []
  · subst hsp
    refine seq_none ?_
    exact takeWhile1_stop (by intro d hd; simp at hd; subst hd; exact hsc)
  · unfold seq
    rw [space1_of (t := c :: u) h hsp (by intro d hd; simp at hd; subst hd; exact hsc)]
    simp only
    rw [hq']

/-! ## Complete tags -/

/-- What follows the attributes. -/
def TagTail (s rest : Str) : Prop :=
  ∃ sp sl, s = sp ++ (sl ++ '>' :: rest) ∧ TagBlanks sp ∧ (sl = [] ∨ sl = ['/'])

theorem attrs_of {as : List Str} {sp sl rest : Str} (has : ∀ a ∈ as, Attr a) (hsp : TagBlanks sp)
    (hsl : sl = [] ∨ sl = ['/']) :
    ∃ l t, many0 htmlTagAttribute (as.flatten ++ (sp ++ (sl ++ '>' :: rest))) = some (t, l) ∧
      TagTail t rest := by
  have tail_none : ∀ sp sl : Str, TagBlanks sp → (sl = [] ∨ sl = ['/']) →
      many0 htmlTagAttribute (sp ++ (sl ++ '>' :: rest)) = some (sp ++ (sl ++ '>' :: rest), []) := by
    intro sp sl hsp hsl
    refine many0_of_none ?_
    rcases hsl with rfl | rfl
    · exact attr_none hsp (.inr rfl)
    · exact attr_none hsp (.inl rfl)
  induction as with
  | nil => exact ⟨[], _, tail_none sp sl hsp hsl, sp, sl, rfl, hsp, hsl⟩
  | cons a as ih =>
    obtain ⟨l, t, hl, ht⟩ := ih (fun a ha => has a (by simp [ha]))
    have ha := has a (by simp)
    have hab : ∃ b a', a = b :: a' := by
      obtain ⟨sp, c, u, rfl, _, h2, _⟩ := ha.blank
      cases sp with
      | nil => exact absurd rfl h2
      | cons b sp => exact ⟨b, _, rfl⟩
    have step : ∀ t', ValueStop t' → NoEq t' → t' = as.flatten ++ (sp ++ (sl ++ '>' :: rest)) →
        ∃ l t, many0 htmlTagAttribute ((a :: as).flatten ++ (sp ++ (sl ++ '>' :: rest))) = some (t, l) ∧
          TagTail t rest := by
      intro t' h1 h2 h3
      obtain ⟨w, hw⟩ := attr_of ha h1 h2
      refine ⟨w :: l, t, ?_, ht⟩
      rw [List.flatten_cons, List.append_assoc, ← h3]
      refine many0_of_some hw ?_ (by rw [h3]; exact hl)
      obtain ⟨b, a', rfl⟩ := hab
      simp; omega
    cases as with
    | cons a2 as2 =>
      obtain ⟨sp2, c, u, h0, h1, h2, h3, h4⟩ := (has a2 (by simp)).blank
      refine step _ ?_ ?_ rfl
      · cases sp2 with
        | nil => exact absurd rfl h2
        | cons b sp2 =>
          refine ⟨b, _, by simp [h0]; rfl, ?_⟩
          rcases h1 b (by simp) with rfl | rfl <;> decide
      · exact ⟨sp2, c, u ++ (as2.flatten ++ (sp ++ (sl ++ '>' :: rest))), by simp [h0], h1, h3, h4⟩
    | nil =>
      by_cases hs : sp = [] ∧ sl = ['/']
      · obtain ⟨rfl, rfl⟩ := hs
        obtain ⟨w, hw⟩ := attr_slash (r := rest) ha
        obtain ⟨b, a', rfl⟩ := hab
        rcases hw with hw | hw
        · refine ⟨[w], '/' :: '>' :: rest, ?_, [], ['/'], rfl, by simp [TagBlanks], .inr rfl⟩
          have h0 := tail_none [] ['/'] (by simp [TagBlanks]) (.inr rfl)
          simp only [List.flatten_cons, List.flatten_nil, List.append_nil, List.nil_append,
            List.cons_append] at h0 hw ⊢
          exact many0_of_some hw (by simp; omega) h0
        · refine ⟨[w], '>' :: rest, ?_, [], [], rfl, by simp [TagBlanks], .inl rfl⟩
          have h0 := tail_none [] [] (by simp [TagBlanks]) (.inl rfl)
          simp only [List.flatten_cons, List.flatten_nil, List.append_nil, List.nil_append,
            List.cons_append] at h0 hw ⊢
          exact many0_of_some hw (by simp; omega) h0
      · refine step (sp ++ (sl ++ '>' :: rest)) ?_ ?_ rfl
        · cases sp with
          | cons b sp =>
            refine ⟨b, _, rfl, ?_⟩
            rcases hsp b (by simp) with rfl | rfl <;> decide
          | nil =>
            rcases hsl with rfl | rfl
            · exact ⟨'>', _, rfl, by decide⟩
            · exact absurd ⟨rfl, rfl⟩ hs
        · rcases hsl with rfl | rfl
          · exact ⟨sp, '>', _, rfl, hsp, by decide, by decide⟩
          · exact ⟨sp, '/', _, rfl, hsp, by decide, by decide⟩

/-- After a tag name comes a blank, `/` or `>`. -/
theorem CompleteTag.shape {n s : Str} (h : CompleteTag n s) :
    TagName n ∧ ∃ lt c u, s = lt ++ (n ++ c :: u) ∧ c ∈ [' ', '\t', '/', '>'] ∧
      (lt = ['<'] ∧ n.map asciiLower ∉ rawTags ∨ lt = ['<', '/']) := by
  have tail : ∀ sp sl : Str, TagBlanks sp → (sl = [] ∨ sl = ['/']) →
      ∃ c u, sp ++ (sl ++ ['>']) = c :: u ∧ c ∈ [' ', '\t', '/', '>'] := by
    intro sp sl hsp hsl
    cases sp with
    | cons b sp => exact ⟨b, _, rfl, by rcases hsp b (by simp) with rfl | rfl <;> decide⟩
    | nil => rcases hsl with rfl | rfl <;> exact ⟨_, _, rfl, by decide⟩
  cases h with
  | @opening sp sl as h1 h2 h3 h4 h5 =>
    refine ⟨h1, ['<'], ?_⟩
    have : ∃ c u, as.flatten ++ (sp ++ (sl ++ ['>'])) = c :: u ∧ c ∈ [' ', '\t', '/', '>'] := by
      cases as with
      | nil => exact tail sp sl h4 h5
      | cons a as =>
        obtain ⟨sp2, c, u, h0, h1, h2, _⟩ := (h3 a (by simp)).blank
        cases sp2 with
        | nil => exact absurd rfl h2
        | cons b sp2 =>
          refine ⟨b, _, by simp [h0]; rfl, ?_⟩
          rcases h1 b (by simp) with rfl | rfl <;> decide
    obtain ⟨c, u, h6, h7⟩ := this
    exact ⟨c, u, by rw [h6]; rfl, h7, .inl ⟨rfl, h2⟩⟩
  | @closing sp h1 h2 =>
    obtain ⟨c, u, h6, h7⟩ := tail sp [] h2 (.inl rfl)
    exact ⟨h1, ['<', '/'], c, u, by simpa using h6, h7, .inr rfl⟩

theorem nameStop_of {c : Char} {u : Str} (h : c ∈ [' ', '\t', '/', '>']) : NameStop (c :: u) := by
  intro d hd
  simp at hd; subst hd
  revert h; revert c; decide

/-- A complete tag is read as such. -/
theorem CompleteTag.parse {n s : Str} (h : CompleteTag n s) (rest : Str) :
    (completeOpenHtmlTag [cs!"script", cs!"pre", cs!"style"] <||> completeClosingHtmlTag) (s ++ rest) =
      some (rest, s) := by
  obtain ⟨hn, lt, c, u, hs, hc, hlt⟩ := h.shape
  have hname : ∀ v, htmlTagName (n ++ c :: v) = some (c :: v, n) := fun v =>
    htmlTagName_of hn (nameStop_of hc)
  cases h with
  | @opening sp sl as h1 h2 h3 h4 h5 =>
    refine orElse_of_some ?_
    unfold completeOpenHtmlTag
    obtain ⟨l, t, hl, spt, slt, rfl, h6, h7⟩ := attrs_of (rest := rest) h3 h4 h5
    have hcu : as.flatten ++ (sp ++ (sl ++ ['>'])) = c :: u := by
      rcases hlt with ⟨rfl, _⟩ | rfl
      · simpa using hs
      · simp at hs
        obtain ⟨d, m, rfl, hd, _⟩ := hn
        simp at hs
        rw [hs.1] at hd; exact absurd hd (by decide)
    have hcu' : as.flatten ++ (sp ++ (sl ++ '>' :: rest)) = c :: (u ++ rest) := by
      rw [← List.cons_append, ← hcu]; simp
    have hend : ∃ v, seq (opt (chr '/')) (chr '>') (slt ++ '>' :: rest) = some (rest, v) := by
      rcases h7 with rfl | rfl
      · exact ⟨(_, _), seq_some.2 ⟨'>' :: rest, opt_some.2 (.inr ⟨chr_ne (by decide), rfl, rfl⟩),
          chr_cons _ _⟩⟩
      · exact ⟨(_, _), seq_some.2 ⟨'>' :: rest, opt_some.2 (.inl ⟨_, chr_cons _ _, rfl⟩), chr_cons _ _⟩⟩
    obtain ⟨v, hend⟩ := hend
    refine recognize_of (v := (_, _, _, _, v)) (seq_some.2 ⟨n ++ (as.flatten ++ (sp ++ (sl ++ '>' :: rest))),
      by rw [show '<' :: (n ++ (as.flatten ++ (sp ++ (sl ++ ['>'])))) ++ rest =
        '<' :: (n ++ (as.flatten ++ (sp ++ (sl ++ '>' :: rest)))) by simp]; exact chr_cons _ _,
      seq_some.2 ⟨as.flatten ++ (sp ++ (sl ++ '>' :: rest)),
        verify_some.2 ⟨by rw [hcu']; exact hname _, ?_⟩,
        seq_some.2 ⟨_, hl, seq_some.2 ⟨slt ++ '>' :: rest, space0_tag h6 ?_, hend⟩⟩⟩⟩)
    · rw [Bool.not_eq_true']
      rw [Bool.eq_false_iff]
      intro he
      obtain ⟨t, ht, he⟩ := List.any_eq_true.1 he
      rw [beq_iff_eq] at he
      exact h2 (by rw [← he]; exact ht)
    · intro d hd
      rcases h7 with rfl | rfl <;> (simp at hd; subst hd; decide)
  | @closing sp h1 h2 =>
    rw [orElse_of_none]
    · unfold completeClosingHtmlTag
      have hcu : sp ++ ['>'] = c :: u := by
        rcases hlt with ⟨rfl, _⟩ | rfl
        · simp at hs
          obtain ⟨d, m, rfl, hd, _⟩ := hn
          simp at hs
          rw [← hs.1] at hd; exact absurd hd (by decide)
        · simpa using hs
      have hcu' : sp ++ '>' :: rest = c :: (u ++ rest) := by
        rw [← List.cons_append, ← hcu]; simp
      refine recognize_of (v := (_, _, _, _)) (seq_some.2 ⟨n ++ (sp ++ '>' :: rest),
        tag_some.2 ⟨by simp, rfl⟩, seq_some.2 ⟨sp ++ '>' :: rest, by rw [hcu']; exact hname _,
          seq_some.2 ⟨'>' :: rest, space0_tag h2 ?_, chr_cons _ _⟩⟩⟩)
      intro d hd; simp at hd; subst hd; decide
    · unfold completeOpenHtmlTag
      rw [recognize_none]
      generalize hq : seq (verify htmlTagName _) _ = q
      have hq' : q ('/' :: (n ++ (sp ++ ['>']) ++ rest)) = none := by
        rw [← hq]
        refine seq_none ?_
        unfold verify htmlTagName
        have : recognize (seq alpha1 (many0 (value () (chr '-') <||> value () alphanumeric1)))
            ('/' :: (n ++ (sp ++ ['>']) ++ rest)) = none := by
          rw [recognize_none]
          exact seq_none (takeWhile1_stop (by intro d hd; simp at hd; subst hd; decide))
        rw [this]
      have hq2 : q ('/' :: (n ++ (sp ++ '>' :: rest))) = none := by
        rw [← hq']; simp
      have heq : cs!"</" ++ (n ++ (sp ++ ['>'])) ++ rest = '<' :: '/' :: (n ++ (sp ++ '>' :: rest)) := by
        simp
      rw [heq]
      unfold seq
      rw [chr_cons]
      simp only
      rw [hq2]

/-! ## Raw-text elements -/

theorem rawTags_tags : ∀ t ∈ rawTags, t ≠ [] ∧ (∀ c ∈ t, isAlpha c = true) ∧
    ∀ t' ∈ rawTags, t' <+: t → t' = t := by decide +kernel

theorem not_mem_rawTags {c : Char} (hc : asciiLower c = c) (ha : isAlpha c = false) {t : Str}
    (ht : t ∈ rawTags) : c ∉ t := by
  intro h
  rw [(rawTags_tags t ht).2.1 c h] at ha; cases ha

/-- `tagNoCase` of a raw-text name on a name and a character that is no letter. -/
theorem raw_prefix {t w u : Str} {c : Char} (hc : asciiLower c = c) (hca : isAlpha c = false)
    (ht : t ∈ rawTags) {r v : Str} (h : tagNoCase t (w ++ c :: u) = some (r, v)) :
    t <+: w.map asciiLower := by
  obtain ⟨h1, _, _⟩ := tagNoCase_some.1 h
  by_cases hl : t.length ≤ w.length
  · rw [List.take_append_of_le_length hl] at h1
    exact ⟨(w.drop t.length).map asciiLower, by
      conv => lhs; lhs; rw [h1]
      rw [← List.map_append, List.take_append_drop]⟩
  · exfalso
    apply not_mem_rawTags hc hca ht
    rw [h1]
    refine List.mem_map.2 ⟨c, ?_, hc⟩
    obtain ⟨n, hn⟩ : ∃ n, t.length = w.length + (n + 1) := ⟨t.length - w.length - 1, by omega⟩
    rw [hn, List.take_append]
    simp

theorem html1Tag_of {w u : Str} {c : Char} (hc : asciiLower c = c) (hca : isAlpha c = false)
    (hw : w.map asciiLower ∈ rawTags) : html1Tag (w ++ c :: u) = some (c :: u, w) := by
  have hit : tagNoCase (w.map asciiLower) (w ++ c :: u) = some (c :: u, w) := by
    refine tagNoCase_some.2 ?_
    simp
  have miss : ∀ t ∈ rawTags, t ≠ w.map asciiLower → tagNoCase t (w ++ c :: u) = none := by
    intro t ht hne
    cases e : tagNoCase t (w ++ c :: u) with
    | none => rfl
    | some y => exact absurd ((rawTags_tags _ hw).2.2 t ht (raw_prefix hc hca ht e)) hne
  unfold html1Tag
  have hw' := hw
  simp only [rawTags, List.mem_cons, List.not_mem_nil, or_false] at hw'
  rcases hw' with h | h | h
  · rw [h] at hit; exact orElse_of_some hit
  · rw [orElse_of_none (miss _ (by decide) (by rw [h]; decide))]
    rw [h] at hit; exact orElse_of_some hit
  · rw [orElse_of_none (miss _ (by decide) (by rw [h]; decide)),
      orElse_of_none (miss _ (by decide) (by rw [h]; decide))]
    rw [h] at hit; exact hit

/-- What `html1Tag` reads is a raw-text name. -/
theorem html1Tag_some {s r w : Str} (h : html1Tag s = some (r, w)) :
    s = w ++ r ∧ w.map asciiLower ∈ rawTags := by
  have key : ∀ t ∈ rawTags, tagNoCase t s = some (r, w) → s = w ++ r ∧ w.map asciiLower ∈ rawTags := by
    intro t ht h
    obtain ⟨h1, rfl, rfl⟩ := tagNoCase_some.1 h
    exact ⟨(List.take_append_drop _ _).symm, by rw [← h1]; exact ht⟩
  unfold html1Tag at h
  rcases orElse_some.1 h with h | ⟨_, h⟩
  · exact key _ (by decide) h
  · rcases orElse_some.1 h with h | ⟨_, h⟩
    · exact key _ (by decide) h
    · exact key _ (by decide) h

theorem html1End_of {w u : Str} (hw : w.map asciiLower ∈ rawTags) :
    html1End (cs!"</" ++ w ++ cs!">" ++ u) = some (u, w) := by
  unfold html1End delimited
  refine preceded_some.2 ⟨w ++ '>' :: u, _, tag_some.2 ⟨by simp, rfl⟩, ?_⟩
  exact terminated_some.2 ⟨'>' :: u, _, html1Tag_of (by decide) (by decide) hw, chr_cons _ _⟩

theorem html1End_some {s r w : Str} (h : html1End s = some (r, w)) :
    ∃ cl, RawClose cl ∧ s = cl ++ r := by
  unfold html1End delimited at h
  obtain ⟨s1, _, h1, h2⟩ := preceded_some.1 h
  obtain ⟨s2, _, h3, h4⟩ := terminated_some.1 h2
  obtain ⟨h5, h6⟩ := html1Tag_some h3
  obtain ⟨h7, _⟩ := tag_some.1 h1
  have h8 := chr_some.1 h4
  refine ⟨_, ⟨w, h6, rfl⟩, ?_⟩
  rw [h7, h5, h8.1]
  simp

theorem asciiLower_letter {c : Char} (h : isAlpha (asciiLower c) = true) : c ≠ '<' := by
  rintro rfl; revert h; decide

/-- A closing tag has `<` only at its beginning. -/
theorem RawClose.lt {cl : Str} (h : RawClose cl) : ∃ t, cl = '<' :: t ∧ '<' ∉ t := by
  obtain ⟨w, hw, rfl⟩ := h
  refine ⟨_, rfl, ?_⟩
  simp
  intro hm
  have := (rawTags_tags _ hw).2.1 _ (List.mem_map.2 ⟨'<', hm, rfl⟩)
  revert this; decide

theorem until_raw {body cl rest : Str} (hcl : RawClose cl)
    (hb : ∀ cl', RawClose cl' → ¬ cl' <:+: body) :
    until_ html1End (body ++ (cl ++ rest)) = some (cl ++ rest, body) := by
  refine until_of ?_ (.inr ?_)
  · intro a b hab hne
    cases e : html1End (b ++ (cl ++ rest)) with
    | none => rfl
    | some y =>
      exfalso
      obtain ⟨r, w⟩ := y
      obtain ⟨cl', h1, h2⟩ := html1End_some e
      rcases List.append_eq_append_iff.1 h2 with ⟨z, h3, h4⟩ | ⟨z, h3, h4⟩
      · -- the closing tag reaches into `cl`
        obtain ⟨t, ht, hlt⟩ := h1.lt
        obtain ⟨t', ht', _⟩ := hcl.lt
        cases z with
        | nil =>
          simp at h3
          exact hb cl' h1 ⟨a, [], by rw [hab, h3]; simp⟩
        | cons d z =>
          rw [ht'] at h4
          simp at h4
          cases b with
          | nil => exact hne rfl
          | cons b0 b =>
            rw [ht] at h3
            simp at h3
            apply hlt
            rw [h3.2, ← h4.1]
            simp
      · exact hb cl' h1 ⟨a, z, by rw [hab, h3]; simp⟩
  · obtain ⟨w, hw, rfl⟩ := hcl
    exact ⟨_, html1End_of hw⟩

theorem RawSep.shape {sep : Str} (h : RawSep sep) : ∃ c t, sep = c :: t ∧ asciiLower c = c ∧
    isAlpha c = false ∧ ∀ u, (value () (chr ' ') <||> value () (chr '>') <||> value () lineEnding)
      (sep ++ u) = some (u, ()) := by
  rcases h with rfl | rfl | rfl | rfl
  · exact ⟨_, _, rfl, by decide, by decide, fun u => rfl⟩
  · exact ⟨_, _, rfl, by decide, by decide, fun u => rfl⟩
  · exact ⟨_, _, rfl, by decide, by decide, fun u => rfl⟩
  · exact ⟨_, _, rfl, by decide, by decide, fun u => rfl⟩

/-- C68, raw-text elements: a line that starts (after at most three spaces) with `<script`, `<pre` or
`<style`, in any letter case, and a space, `>` or a line ending, begins an HTML block that ends with
the first closing tag of one of these elements, blank lines and markup included; the content is
exactly that text, and what follows is parsed on its own. -/
theorem C68_raw {x : PExt} {cfg : PConfig} (hc : cfg.CustomOk) (hh : cfg.htmlBlock = .parse)
    {k : Nat} {w sep body cl rest : Str} (hk : k ≤ 3) (hw : w.map asciiLower ∈ rawTags)
    (hs : RawSep sep) (hcl : RawClose cl) (hb : ∀ cl', RawClose cl' → ¬ cl' <:+: body) :
    parseMarkdown x cfg (List.replicate k ' ' ++ ('<' :: w ++ sep ++ body ++ cl ++ rest)) =
      (parseMarkdown x cfg rest).map (fun d => ⟨.htmlBlock ('<' :: w ++ sep ++ body ++ cl) :: d.blocks⟩) := by
  refine parseMarkdown_cons hc (bs := [_]) ?_
  have hp : htmlBlockP (List.replicate k ' ' ++ ('<' :: w ++ sep ++ body ++ cl ++ rest)) =
      some (rest, '<' :: w ++ sep ++ body ++ cl) := by
    unfold htmlBlockP
    refine orElse_of_some ?_
    unfold htmlBlock1
    rw [show ('<' :: w ++ sep ++ body ++ cl ++ rest) = '<' :: (w ++ sep ++ body ++ cl ++ rest) by rfl,
      preceded_indent_rep hk (by decide),
      show '<' :: (w ++ sep ++ body ++ cl ++ rest) = ('<' :: w ++ sep ++ body ++ cl) ++ rest by rfl]
    obtain ⟨c, t, rfl, h1, h2, h3⟩ := hs.shape
    have hend : ∃ v, html1End (cl ++ rest) = some (rest, v) := by
      obtain ⟨w', hw', rfl⟩ := hcl
      exact ⟨_, html1End_of hw'⟩
    obtain ⟨v, hend⟩ := hend
    refine recognize_of (v := ('<', w, (), body, v)) (seq_some.2 ⟨w ++ (c :: (t ++ (body ++ (cl ++ rest)))),
      ?_, seq_some.2 ⟨_, html1Tag_of h1 h2 hw, seq_some.2 ⟨body ++ (cl ++ rest), ?_,
        seq_some.2 ⟨cl ++ rest, until_raw hcl hb, hend⟩⟩⟩⟩)
    · simp [chr_cons]
    · have := h3 (body ++ (cl ++ rest))
      simpa using this
  exact htmlBlock_block hc hh hk hp

/-! ## Complete tags -/

/-- What ends the block: the end of the input, or a blank line (which belongs to the block). -/
def BlankEnd (e rest : Str) : Prop :=
  (e = [] ∧ rest = []) ∨
  ∃ nl sp nl', e = nl ++ sp ++ nl' ∧ IsNewline nl ∧ TagBlanks sp ∧ IsNewline nl'

theorem lineEnding_newl {nl : Str} (h : IsNewline nl) (u : Str) : lineEnding (nl ++ u) = some (u, nl) := by
  rcases h with rfl | rfl <;> rfl

theorem BlankEnd.stop {e rest : Str} (h : BlankEnd e rest) : blankLineOrEof (e ++ rest) = some (rest, ()) := by
  rcases h with ⟨rfl, rfl⟩ | ⟨nl, sp, nl', rfl, h1, h2, h3⟩
  · rfl
  · refine orElse_of_some (value_some.2 ⟨(_, _, _), seq_some.2 ⟨sp ++ (nl' ++ rest), by
      rw [List.append_assoc, List.append_assoc]; exact lineEnding_newl h1 _, seq_some.2 ⟨nl' ++ rest, space0_tag h2 ?_, lineEnding_newl h3 _⟩⟩, rfl⟩)
    intro d hd
    rcases h3 with rfl | rfl <;> (simp at hd; subst hd; decide)

/-- What may follow a tag name in a complete tag. -/
theorem tagStop {c : Char} (h : c ∈ [' ', '\t', '/', '>']) :
    asciiLower c = c ∧ isAlnum c = false ∧ c ≠ '-' := by
  revert h; revert c; decide

theorem alnum_blockTags {t : Str} (ht : t ∈ blockTags) {c : Char} (hc : isAlnum c = false) : c ∉ t := by
  intro h
  rw [(blockTags_letters t ht).2 c h] at hc; cases hc

theorem name_prefix {t w u : Str} {c : Char} (hc : asciiLower c = c) (ht : c ∉ t) {r v : Str}
    (h : tagNoCase t (w ++ c :: u) = some (r, v)) :
    t <+: w.map asciiLower ∧ r = w.drop t.length ++ c :: u := by
  obtain ⟨h1, h2, _⟩ := tagNoCase_some.1 h
  by_cases hl : t.length ≤ w.length
  · rw [List.drop_append_of_le_length hl] at h2
    rw [List.take_append_of_le_length hl] at h1
    exact ⟨⟨(w.drop t.length).map asciiLower, by
      conv => lhs; lhs; rw [h1]
      rw [← List.map_append, List.take_append_drop]⟩, h2⟩
  · exfalso
    apply ht
    rw [h1]
    refine List.mem_map.2 ⟨c, ?_, hc⟩
    obtain ⟨n, hn⟩ : ∃ n, t.length = w.length + (n + 1) := ⟨t.length - w.length - 1, by omega⟩
    rw [hn, List.take_append]
    simp

theorem anyTag_some {l : List Str} {w u r v : Str} {c : Char} (hc : asciiLower c = c)
    (hl : ∀ t ∈ l, c ∉ t) (h : anyTagNoCase l (w ++ c :: u) = some (r, v)) :
    ∃ pre t post, l = pre ++ t :: post ∧ t <+: w.map asciiLower ∧ r = w.drop t.length ++ c :: u ∧
      ∀ t' ∈ pre, ¬ t' <+: w.map asciiLower := by
  induction l with
  | nil => simp [anyTagNoCase, failP] at h
  | cons t l ih =>
    unfold anyTagNoCase at h
    rcases orElse_some.1 h with h | ⟨h0, h⟩
    · obtain ⟨h1, h2⟩ := name_prefix hc (hl t (by simp)) h
      exact ⟨[], t, l, rfl, h1, h2, by simp⟩
    · obtain ⟨pre, t1, post, h1, h2, h3, h4⟩ := ih (fun t ht => hl t (by simp [ht])) h
      refine ⟨t :: pre, t1, post, by rw [h1]; rfl, h2, h3, ?_⟩
      intro t' ht'
      rcases List.mem_cons.1 ht' with rfl | ht'
      · rintro ⟨z, hz⟩
        have hlen : t'.length ≤ w.length := by
          have := congrArg List.length hz
          simp at this; omega
        have : tagNoCase t' (w ++ c :: u) = some (w.drop t'.length ++ c :: u, w.take t'.length) := by
          refine tagNoCase_some.2 ⟨?_, ?_, ?_⟩
          · rw [List.take_append_of_le_length hlen, List.map_take, ← hz]; simp
          · rw [List.drop_append_of_le_length hlen]
          · rw [List.take_append_of_le_length hlen]
        rw [this] at h0; simp at h0
      · exact h4 t' ht'

/-- In the order of the program, a name is tried after the names it begins with. -/
theorem html6Names_shadow : ∀ pre t post, html6Names = pre ++ t :: post → ¬ Unshadowed t →
    ∃ t' ∈ pre, t' <+: t := by
  have key : ∀ n, n < html6Names.length → ∀ t, html6Names[n]? = some t →
      (∀ t' ∈ blockTags, t'.isPrefixOf t → t' = t) ∨ ∃ t' ∈ html6Names.take n, t'.isPrefixOf t := by
    decide +kernel
  intro pre t post h hs
  have hn : pre.length < html6Names.length := by rw [h]; simp
  have hget : html6Names[pre.length]? = some t := by rw [h]; simp
  rcases key pre.length hn t hget with h1 | ⟨t', h1, h2⟩
  · exact absurd (fun t' ht' hp => h1 t' ht' (List.isPrefixOf_iff_prefix.2 hp)) hs
  · refine ⟨t', ?_, List.isPrefixOf_iff_prefix.1 h2⟩
    rw [h] at h1
    simpa using h1

/-- A complete tag whose name is not an unshadowed block-level name begins no block of type 6. -/
theorem htmlBlock6_none {lt n u : Str} {c : Char} (hlt : lt = ['<'] ∨ lt = ['<', '/']) (hn : TagName n)
    (hc : c ∈ [' ', '\t', '/', '>']) (hb : ¬ (n.map asciiLower ∈ blockTags ∧ Unshadowed (n.map asciiLower)))
    {q : P (Str × Option Str)} :
    seq (value () (tag cs!"</") <||> value () (chr '<'))
      (seq (anyTagNoCase html6Names) (seq html6Sep q)) (lt ++ (n ++ c :: u)) = none := by
  obtain ⟨hc1, hc2, hc3⟩ := tagStop hc
  obtain ⟨d, m, hnd, hd, hm⟩ := hn
  have h1 : (value () (tag cs!"</") <||> value () (chr '<')) (lt ++ (n ++ c :: u)) =
      some (n ++ c :: u, ()) := by
    rcases hlt with rfl | rfl
    · rw [orElse_of_none]
      · exact value_some.2 ⟨_, chr_cons _ _, rfl⟩
      · rw [value_none, tag_none, hnd]
        rintro ⟨z, hz⟩
        simp at hz
        rw [← hz.1] at hd; exact absurd hd (by decide)
    · exact orElse_of_some (value_some.2 ⟨_, tag_some.2 ⟨by simp, rfl⟩, rfl⟩)
  have h2 : seq (anyTagNoCase html6Names) (seq html6Sep q) (n ++ c :: u) = none := by
    unfold seq
    cases e : anyTagNoCase html6Names (n ++ c :: u) with
    | none => rfl
    | some y =>
      obtain ⟨r, v⟩ := y
      simp only
      obtain ⟨pre, t, post, g1, g2, g3, g4⟩ := anyTag_some hc1
        (fun t ht => alnum_blockTags (html6Names_blockTags t ht) hc2) e
      have htm : t ∈ html6Names := by rw [g1]; simp
      have hne : t ≠ n.map asciiLower := by
        rintro rfl
        refine hb ⟨html6Names_blockTags _ htm, ?_⟩
        refine Classical.byContradiction fun hs => ?_
        obtain ⟨t', ht', hp⟩ := html6Names_shadow _ _ _ g1 hs
        exact g4 t' ht' hp
      -- the name goes on
      have hlen : t.length < n.length := by
        obtain ⟨z, hz⟩ := g2
        have h5 := congrArg List.length hz
        simp at h5
        cases z with
        | nil => simp at hz; exact absurd hz hne
        | cons z0 z => simp at h5; omega
      have htl : 0 < t.length := List.length_pos_iff.2 (blockTags_letters t (html6Names_blockTags t htm)).1
      have hr : ∃ a r', r = a :: r' ∧ (isAlnum a = true ∨ a = '-') := by
        cases e2 : n.drop t.length with
        | nil =>
          have := congrArg List.length e2
          simp at this; omega
        | cons a r' =>
          refine ⟨a, r' ++ c :: u, by rw [g3, e2]; rfl, ?_⟩
          have ha : a ∈ n.drop t.length := by rw [e2]; simp
          rw [hnd] at ha
          obtain ⟨k, hk⟩ : ∃ k, t.length = k + 1 := ⟨t.length - 1, by omega⟩
          rw [hk, List.drop_succ_cons] at ha
          exact hm a (List.mem_of_mem_drop ha)
      obtain ⟨a, r', rfl, ha⟩ := hr
      have hsep : html6Sep (a :: r') = none := by
        have hne : a ≠ ' ' ∧ a ≠ '\n' ∧ a ≠ '\r' ∧ a ≠ '/' ∧ a ≠ '>' := by
          refine ⟨?_, ?_, ?_, ?_, ?_⟩ <;> (rintro rfl; revert ha; decide)
        unfold html6Sep
        rw [orElse_none, orElse_none, orElse_none, value_none, value_none, value_none, value_none]
        refine ⟨chr_ne hne.1, ?_, tag_cons_ne hne.2.2.2.1, chr_ne hne.2.2.2.2⟩
        have := eofOrEol_cons (t := r') hne.2.1 hne.2.2.1
        unfold eofOrEol at this
        rw [orElse_none] at this
        exact this.1
      rw [hsep]
  generalize seq (anyTagNoCase html6Names) (seq html6Sep q) = q' at h2
  unfold seq
  rw [h1]
  simp only
  rw [h2]

/-- Nor a block of another type. -/
theorem htmlBlock15_none {k : Nat} {lt n u : Str} {c : Char} (hk : k ≤ 3) (hn : TagName n)
    (hc : c ∈ [' ', '\t', '/', '>']) (hlt : lt = ['<'] ∧ n.map asciiLower ∉ rawTags ∨ lt = ['<', '/']) :
    htmlBlock1 (List.replicate k ' ' ++ (lt ++ (n ++ c :: u))) = none ∧
    htmlBlock2 (List.replicate k ' ' ++ (lt ++ (n ++ c :: u))) = none ∧
    htmlBlock3 (List.replicate k ' ' ++ (lt ++ (n ++ c :: u))) = none ∧
    htmlBlock4 (List.replicate k ' ' ++ (lt ++ (n ++ c :: u))) = none ∧
    htmlBlock5 (List.replicate k ' ' ++ (lt ++ (n ++ c :: u))) = none := by
  obtain ⟨hc1, hc2, hc3⟩ := tagStop hc
  obtain ⟨d0, m, hnd, hd0, hm⟩ := hn
  have hd : ∃ d v, lt ++ (n ++ c :: u) = '<' :: d :: v ∧ d ≠ '!' ∧ d ≠ '?' := by
    rcases hlt with ⟨rfl, _⟩ | rfl
    · refine ⟨d0, _, by rw [hnd]; rfl, ?_, ?_⟩ <;> (rintro rfl; revert hd0; decide)
    · exact ⟨'/', _, rfl, by decide, by decide⟩
  have h1 : recognize (seq (chr '<') (seq html1Tag
      (seq (value () (chr ' ') <||> value () (chr '>') <||> value () lineEnding)
        (seq (until_ html1End) html1End)))) (lt ++ (n ++ c :: u)) = none := by
    rw [recognize_none]
    generalize seq (until_ html1End) html1End = q
    have h2 : ∀ v, lt ++ (n ++ c :: u) = '<' :: v → seq html1Tag
        (seq (value () (chr ' ') <||> value () (chr '>') <||> value () lineEnding) q) v = none := by
      intro v hv
      rcases hlt with ⟨rfl, hraw⟩ | rfl
      · simp at hv
        subst hv
        unfold seq
        cases e : html1Tag (n ++ c :: u) with
        | none => rfl
        | some y =>
          obtain ⟨r, w⟩ := y
          simp only
          obtain ⟨g1, g2⟩ := html1Tag_some e
          have hcw : c ∉ w := by
            intro h
            have := (rawTags_tags _ g2).2.1 _ (List.mem_map.2 ⟨c, h, rfl⟩)
            rw [hc1] at this
            rw [isAlpha_alnum this] at hc2; cases hc2
          rcases List.append_eq_append_iff.1 g1 with ⟨z, h3, h4⟩ | ⟨z, h3, h4⟩
          · cases z with
            | nil => simp at h3; subst h3; exact absurd g2 hraw
            | cons z0 z =>
              simp at h4
              exact absurd (by rw [h3, h4.1]; simp) hcw
          · cases z with
            | nil => simp at h3; subst h3; exact absurd g2 hraw
            | cons z0 z =>
              rw [h4]
              have hz : isAlnum z0 = true ∨ z0 = '-' := by
                have hz0 : z0 ∈ n := by rw [h3]; simp
                rw [hnd] at hz0
                rcases List.mem_cons.1 hz0 with rfl | h
                · exact .inl (isAlpha_alnum hd0)
                · exact hm z0 h
              have hne : z0 ≠ ' ' ∧ z0 ≠ '\n' ∧ z0 ≠ '\r' ∧ z0 ≠ '>' := by
                refine ⟨?_, ?_, ?_, ?_⟩ <;> (rintro rfl; revert hz; decide)
              have : (value () (chr ' ') <||> value () (chr '>') <||> value () lineEnding)
                  (z0 :: (z ++ c :: u)) = none := by
                rw [orElse_none, orElse_none, value_none, value_none, value_none]
                refine ⟨chr_ne hne.1, chr_ne hne.2.2.2, ?_⟩
                have := eofOrEol_cons (t := z ++ c :: u) hne.2.1 hne.2.2.1
                unfold eofOrEol at this
                rw [orElse_none] at this
                exact this.1
              rw [List.cons_append, this]
      · simp at hv
        subst hv
        refine seq_none ?_
        cases e : html1Tag ('/' :: (n ++ c :: u)) with
        | none => rfl
        | some y =>
          exfalso
          obtain ⟨r, w⟩ := y
          obtain ⟨g1, g2⟩ := html1Tag_some e
          cases w with
          | nil => exact (rawTags_tags _ g2).1 rfl
          | cons w0 w =>
            simp at g1
            have := (rawTags_tags _ g2).2.1 _ (List.mem_map.2 ⟨w0, by simp, rfl⟩)
            rw [← g1.1] at this
            revert this; decide
    obtain ⟨d, v, hs, _⟩ := hd
    have h3 := h2 _ hs
    rw [hs]
    generalize seq html1Tag (seq (value () (chr ' ') <||> value () (chr '>') <||> value () lineEnding) q) = q' at h3
    unfold seq
    rw [chr_cons]
    simp only
    rw [h3]
  obtain ⟨d, v, hs, hd1, hd2⟩ := hd
  unfold htmlBlock1 htmlBlock2 htmlBlock3 htmlBlock4 htmlBlock5
  rw [hs] at h1 ⊢
  simp only [preceded_indent_rep hk (show '<' ≠ ' ' by decide)]
  refine ⟨h1, ?_⟩
  simp only [recognize_none]
  exact ⟨seq_none (tag_cons_cons_ne hd1.symm), seq_none (tag_cons_cons_ne hd2.symm),
    seq_none (tag_cons_cons_ne hd1.symm), seq_none (tag_cons_cons_ne hd1.symm)⟩

/-- C68, complete tags: a complete opening tag (with attributes) or closing tag, of an element that
is not block-level (as the program recognises them) and, for opening tags, not a raw-text element,
followed by a line ending or a space, and by non-blank lines, is an HTML block up to the end of the
input or up to and including the next blank line; its content is exactly that text. -/
theorem C68_tag {x : PExt} {cfg : PConfig} (hc : cfg.CustomOk) (hh : cfg.htmlBlock = .parse)
    {k : Nat} {n tg sep nl l e rest : Str} {ls : List Str} (hk : k ≤ 3) (ht : CompleteTag n tg)
    (hb : ¬ (n.map asciiLower ∈ blockTags ∧ Unshadowed (n.map asciiLower)))
    (hs : sep = [' '] ∨ IsNewline sep) (hnl : IsNewline nl) (hl : OneLine l)
    (hls : ∀ y ∈ ls, VisibleLine y) (he : BlankEnd e rest) :
    parseMarkdown x cfg
        (List.replicate k ' ' ++ (tg ++ sep ++ l ++ (ls.map (nl ++ ·)).flatten ++ e ++ rest)) =
      (parseMarkdown x cfg rest).map
        (fun d => ⟨.htmlBlock (tg ++ sep ++ l ++ (ls.map (nl ++ ·)).flatten ++ e) :: d.blocks⟩) := by
  refine parseMarkdown_cons hc (bs := [_]) ?_
  obtain ⟨hn, lt, c, u, hs1, hc1, hlt⟩ := ht.shape
  have htext : tg ++ sep ++ l ++ (ls.map (nl ++ ·)).flatten ++ e =
      tg ++ (sep ++ (linesOf nl l ls ++ e)) := by simp [linesOf]
  rw [htext]
  have hshape : tg ++ (sep ++ (linesOf nl l ls ++ e)) ++ rest =
      lt ++ (n ++ c :: (u ++ (sep ++ (linesOf nl l ls ++ e)) ++ rest)) := by
    rw [hs1]; simp
  have hlt' : lt = ['<'] ∨ lt = ['<', '/'] := by rcases hlt with ⟨h, _⟩ | h <;> simp [h]
  have hv : ∃ v, tg ++ (sep ++ (linesOf nl l ls ++ e)) ++ rest = '<' :: v := by
    rw [hshape]
    rcases hlt' with rfl | rfl <;> exact ⟨_, rfl⟩
  obtain ⟨v, hv⟩ := hv
  have key : htmlBlockP (List.replicate k ' ' ++ (tg ++ (sep ++ (linesOf nl l ls ++ e)) ++ rest)) =
      some (rest, tg ++ (sep ++ (linesOf nl l ls ++ e))) := by
    obtain ⟨n1, n2, n3, n4, n5⟩ := htmlBlock15_none
      (u := u ++ (sep ++ (linesOf nl l ls ++ e)) ++ rest) hk hn hc1 hlt
    rw [← hshape] at n1 n2 n3 n4 n5
    unfold htmlBlockP
    rw [orElse_of_none n1, orElse_of_none n2, orElse_of_none n3, orElse_of_none n4, orElse_of_none n5,
      orElse_of_none (show htmlBlock6 _ = none from ?_)]
    · unfold htmlBlock7
      rw [hv, preceded_indent_rep hk (by decide), ← hv]
      refine recognize_of (v := (tg, (), linesOf nl l ls, ())) (seq_some.2
        ⟨sep ++ (linesOf nl l ls ++ (e ++ rest)), ?_, seq_some.2
        ⟨linesOf nl l ls ++ (e ++ rest), ?_, seq_some.2 ⟨e ++ rest,
          until_of (linesOf_noBlank hnl hl hls (e ++ rest)) (.inr ⟨_, he.stop⟩), he.stop⟩⟩⟩)
      · have := ht.parse (sep ++ (linesOf nl l ls ++ (e ++ rest)))
        simpa using this
      · rcases hs with rfl | h
        · rw [orElse_of_none]
          · exact value_some.2 ⟨_, chr_cons _ _, rfl⟩
          · rfl
        · exact orElse_of_some (value_some.2 ⟨_, lineEnding_newl h _, rfl⟩)
    · unfold htmlBlock6
      rw [hv, preceded_indent_rep hk (by decide), ← hv, recognize_none, hshape]
      exact htmlBlock6_none hlt' hn hc1 hb
  rw [hv] at key ⊢
  exact htmlBlock_block hc hh hk key

/-- A script with a blank line, markup and text after the closing tag. -/
example (x : PExt) (ent : Str → Option Str) :
    parseMarkdown x (PConfig.default ent) cs!" <Script a>\n\n*b* </b>\n</STYLE>c" =
      (parseMarkdown x (PConfig.default ent) cs!"c").map
        (fun d => ⟨.htmlBlock cs!"<Script a>\n\n*b* </b>\n</STYLE>" :: d.blocks⟩) := by
  refine C68_raw (default_customOk ent) rfl (k := 1) (w := cs!"Script") (sep := [' '])
    (body := cs!"a>\n\n*b* </b>\n") (cl := cs!"</STYLE>") (rest := cs!"c") (by decide) (by decide)
    (.inl rfl) ⟨cs!"STYLE", by decide, rfl⟩ ?_
  rintro cl' ⟨w, hw, rfl⟩ hi
  have hl : w.length = 6 ∨ w.length = 3 ∨ w.length = 5 := by
    have : ∀ t ∈ rawTags, t.length = 6 ∨ t.length = 3 ∨ t.length = 5 := by decide
    simpa using this _ hw
  have hwc : ∀ c ∈ w, isAlpha (asciiLower c) = true := fun c hc =>
    (rawTags_tags _ hw).2.1 _ (List.mem_map.2 ⟨c, hc, rfl⟩)
  obtain ⟨a, b, hab⟩ := hi
  rw [List.append_assoc, List.append_assoc] at hab
  have h1 : (cs!"a>\n\n*b* </b>\n").drop a.length = cs!"</" ++ (w ++ cs!">") ++ b := by
    rw [← hab]; simp
  have h2 : a.length < 12 := by
    have := congrArg List.length hab
    simp at this; omega
  have h3 : ∀ i, i < 12 → (cs!"a>\n\n*b* </b>\n").drop i = '<' :: '/' :: (cs!"b>\n") ∨
      ((cs!"a>\n\n*b* </b>\n").drop i).head? ≠ some '<' := by decide
  rcases h3 _ h2 with h3 | h3
  · rw [h3] at h1
    simp at h1
    have := congrArg List.length h1
    simp at this; omega
  · rw [h1] at h3; simp at h3

/-- An opening tag with two attributes, a line of markup, a blank line and a paragraph. -/
example (x : PExt) (ent : Str → Option Str) :
    parseMarkdown x (PConfig.default ent) cs!"<x-a href = b/c d/>\n*d*\n \t\ne" =
      (parseMarkdown x (PConfig.default ent) cs!"e").map
        (fun d => ⟨.htmlBlock cs!"<x-a href = b/c d/>\n*d*\n \t\n" :: d.blocks⟩) := by
  refine C68_tag (default_customOk ent) rfl (k := 0) (n := cs!"x-a") (tg := cs!"<x-a href = b/c d/>")
    (sep := ['\n']) (nl := ['\n']) (l := cs!"*d*") (ls := []) (e := cs!"\n \t\n") (rest := cs!"e")
    (by decide) ?_ ?_ (.inr (.inl rfl)) (.inl rfl) (by intro c hc; revert c; decide) (by simp)
    (.inr ⟨['\n'], cs!" \t", ['\n'], rfl, .inl rfl, by simp [TagBlanks], .inl rfl⟩)
  · refine .opening (n := cs!"x-a") (as := [cs!" href = b/c", cs!" d"]) (sp := []) (sl := ['/'])
      ⟨'x', cs!"-a", rfl, by decide, by decide⟩ (by decide) ?_ (by simp [TagBlanks]) (.inr rfl)
    intro a ha
    simp at ha
    rcases ha with rfl | rfl
    · exact .value (sp := [' ']) (n := cs!"href") (sp1 := [' ']) (sp2 := [' ']) (v := cs!"b/c")
        (by simp [TagBlanks]) (by simp) ⟨'h', cs!"ref", rfl, by decide, by decide⟩ (by simp [TagBlanks])
        (by simp [TagBlanks]) (.bare (by simp) (by decide))
    · exact .flag (sp := [' ']) (by simp [TagBlanks]) (by simp) ⟨'d', [], rfl, by decide, by decide⟩
  · exact fun h => absurd h.1 (by decide +kernel)

/-- The limits of C68: a quoted value is one character long; the text after the tag must be separated
by a space or a line ending; a blank line right after the line of the tag does not end the block. -/
theorem C68_boundaries :
    parseMarkdown PExt.ascii (PConfig.default fun _ => none) cs!"<a b=\"c\">\nd" =
      some ⟨[.htmlBlock cs!"<a b=\"c\">\nd"]⟩ ∧
    parseMarkdown PExt.ascii (PConfig.default fun _ => none) cs!"<a b='c'>\nd" =
      some ⟨[.htmlBlock cs!"<a b='c'>\nd"]⟩ ∧
    parseMarkdown PExt.ascii (PConfig.default fun _ => none) cs!"<a b=\"cd\">\nd" =
      some ⟨[.paragraph [.text cs!"<a b=\"cd\">\nd"]]⟩ ∧
    parseMarkdown PExt.ascii (PConfig.default fun _ => none) cs!"<a b=\"\">\nd" =
      some ⟨[.paragraph [.text cs!"<a b=\"\">\nd"]]⟩ ∧
    parseMarkdown PExt.ascii (PConfig.default fun _ => none) cs!"<a>d" =
      some ⟨[.paragraph [.text cs!"<a>d"]]⟩ ∧
    parseMarkdown PExt.ascii (PConfig.default fun _ => none) cs!"<a>\n\nd" =
      some ⟨[.htmlBlock cs!"<a>\n\nd"]⟩ ∧
    parseMarkdown PExt.ascii (PConfig.default fun _ => none) cs!"<a>\nb\n\nd" =
      some ⟨[.htmlBlock cs!"<a>\nb\n\n", .paragraph [.text cs!"d"]]⟩ ∧
    parseMarkdown PExt.ascii (PConfig.default fun _ => none) cs!"<pre>a" =
      some ⟨[.paragraph [.text cs!"<pre>a"]]⟩ := by decide +kernel

end Verif
