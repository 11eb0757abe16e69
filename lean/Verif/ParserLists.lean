import Verif.ParserDefs
/-!
# Lists (C66)
-/
set_option linter.unusedVariables false
set_option linter.unusedSimpArgs false
namespace Verif
open Nom

/-! ## Specification -/

/-- The markers of list items: `-`, `*`, `+`, and a decimal number below 2^64 with `.` or `)`. -/
inductive Marker : ListKind → Str → Prop
  | dash : Marker (.bullet .dash) ['-']
  | star : Marker (.bullet .star) ['*']
  | plus : Marker (.bullet .plus) ['+']
  | ordered {ds : Str} {d : Char} : ds ≠ [] → (∀ c ∈ ds, isDigit c = true) →
      numVal 10 ds < 2 ^ 64 → d = '.' ∨ d = ')' → Marker (.ordered (numVal 10 ds)) (ds ++ [d])

/-- Two markers of the same list: the same bullet, or two numbers. -/
def SameKind : ListKind → ListKind → Prop
  | .ordered _, .ordered _ => True
  | .bullet a, .bullet b => a = b
  | _, _ => False

/-- A task box. -/
inductive Box : TaskState → Str → Prop
  | x : Box .complete cs!"[x]"
  | X : Box .complete cs!"[X]"
  | space : Box .incomplete cs!"[ ]"

/-- A text that contains something else than spaces and tabs. -/
def Visible (l : Str) : Prop := ∃ c ∈ l, isSpace c = false

/-- A text that does not begin with a task box followed by a space or by nothing. -/
def NoBox (l : Str) : Prop := ∀ t b r, Box t b → (r = [] ∨ r.head? = some ' ') → l ≠ b ++ r

/-- The first line of a list item, the column at which the content of the item is indented, the task
state and the content of the first line. -/
inductive ItemStart (kind : ListKind) : Str → Nat → Option TaskState → Str → Prop
  /-- A marker, one to four spaces, and a text. -/
  | text {k n : Nat} {m first : Str} : k ≤ 3 → Marker kind m → 1 ≤ n → n ≤ 4 →
      (n = 4 ∨ first.head? ≠ some ' ') → OneLine first → Visible first → NoBox first →
      ItemStart kind (List.replicate k ' ' ++ (m ++ (List.replicate n ' ' ++ first)))
        (k + m.length + n) none first
  /-- A marker, one to four spaces, a task box, a space, and a text. -/
  | task {k n : Nat} {m b first : Str} {t : TaskState} : k ≤ 3 → Marker kind m → 1 ≤ n → n ≤ 4 →
      Box t b → OneLine first →
      ItemStart kind (List.replicate k ' ' ++ (m ++ (List.replicate n ' ' ++ (b ++ ' ' :: first))))
        (k + m.length + n) (some t) first
  /-- A marker on its own. -/
  | empty {k : Nat} {m b : Str} : k ≤ 3 → Marker kind m → Blanks b →
      ItemStart kind (List.replicate k ' ' ++ (m ++ b)) (k + m.length + 1) none []
  /-- A marker and a task box, at most three spaces (maybe none) between them, on their own. -/
  | box {k n : Nat} {m b : Str} {t : TaskState} : k ≤ 3 → Marker kind m → n ≤ 3 → Box t b →
      ItemStart kind (List.replicate k ' ' ++ (m ++ (List.replicate n ' ' ++ b)))
        (k + m.length + n + 1) (some t) []

/-- A thematic break without its line ending. -/
def ThematicLine (l : Str) : Prop :=
  ∃ k n a sp, k ≤ 3 ∧ 3 ≤ n ∧ (a = '-' ∨ a = '_' ∨ a = '*') ∧ Blanks sp ∧
    l = List.replicate k ' ' ++ (List.replicate n a ++ sp)

/-- The text begins with fewer than `pl` spaces and a marker of the list's kind. -/
def MarkerAt (kind : ListKind) (pl : Nat) (s : Str) : Prop :=
  ∃ j m k' r, j < pl ∧ SameKind kind k' ∧ Marker k' m ∧ s = List.replicate j ' ' ++ (m ++ r)

/-- The further lines of a list item whose content is indented by `pl` columns, up to `rest`, and
their contents. -/
inductive ItemLines (kind : ListKind) (pl : Nat) (rest : Str) : Str → List Str → Prop
  | nil : ItemLines kind pl rest rest []
  /-- A line, less up to `pl` spaces, that is no thematic break and begins no item of the same kind
  (it may be less indented, whatever the item contains). -/
  | text {j : Nat} {l e s : Str} {ls : List Str} : j ≤ pl → (j = pl ∨ l.head? ≠ some ' ') → l ≠ [] →
      OneLine l → ¬ ThematicLine (List.replicate j ' ' ++ l) →
      ¬ MarkerAt kind pl (List.replicate j ' ' ++ l) → LineEnd e s → ItemLines kind pl rest s ls →
      ItemLines kind pl rest (List.replicate j ' ' ++ (l ++ (e ++ s))) (l :: ls)
  /-- Blank lines in front of a line that is indented as the content. -/
  | blank {j : Nat} {nl b l e s : Str} {ls : List Str} : j ≤ pl → IsNewline nl → BlankLines b →
      Visible l → OneLine l → LineEnd e s → ItemLines kind pl rest s ls →
      ItemLines kind pl rest
        (List.replicate j ' ' ++ (nl ++ (b ++ (List.replicate pl ' ' ++ (l ++ (e ++ s))))))
        ((List.replicate j ' ' ++ (nl ++ (b ++ l))) :: ls)

/-- Where an item whose content is indented by `pl` columns ends. -/
inductive ItemStop (kind : ListKind) (pl : Nat) : Str → Prop
  | eof : ItemStop kind pl []
  | thematic {l e s : Str} : ThematicLine l → LineEnd e s → ItemStop kind pl (l ++ (e ++ s))
  | marker {s : Str} : MarkerAt kind pl s → ItemStop kind pl s
  /-- Blank lines at the end of the input. -/
  | blankEof {j : Nat} {nl b w : Str} : j ≤ pl → IsNewline nl → BlankLines b → Blanks w →
      ItemStop kind pl (List.replicate j ' ' ++ (nl ++ (b ++ w)))
  /-- Blank lines in front of a line that is indented less than the content. -/
  | blank {j i : Nat} {nl b l s : Str} : j ≤ pl → IsNewline nl → BlankLines b → i < pl →
      l.head? ≠ some ' ' → Visible l → OneLine l →
      ItemStop kind pl (List.replicate j ' ' ++ (nl ++ (b ++ (List.replicate i ' ' ++ (l ++ s)))))

/-- No item begins here: a marker, if there is one, is followed by something else than a blank, a line
ending and a bracket. -/
def NoItem (s : Str) : Prop :=
  ∀ k m kind r, k ≤ 3 → Marker kind m → s = List.replicate k ' ' ++ (m ++ r) →
    ∃ d r', r = d :: r' ∧ d ∉ cs!" \t\r\n["

/-- The items of a list, one after the other, up to `rest`: each item's blocks are those its content
(the first line and the further lines, without their indentation) parses to. -/
inductive Items (x : PExt) (cfg : PConfig) (rest : Str) : Str → ListKind → List ListItem → Prop
  | last {kind : ListKind} {line first e s : Str} {pl : Nat} {task : Option TaskState}
      {ls : List Str} {d : Document} : ItemStart kind line pl task first → LineEnd e s →
      ItemLines kind pl rest s ls → ItemStop kind pl rest → NoItem rest →
      parseMarkdown x cfg (joinWith ['\n'] (first :: ls)) = some d →
      Items x cfg rest (line ++ (e ++ s)) kind [.mk task d.blocks]
  | cons {kind kind' : ListKind} {line first e s s' : Str} {pl : Nat} {task : Option TaskState}
      {ls : List Str} {d : Document} {l : List ListItem} : ItemStart kind line pl task first →
      LineEnd e s → ItemLines kind pl s' s ls → MarkerAt kind pl s' →
      parseMarkdown x cfg (joinWith ['\n'] (first :: ls)) = some d →
      Items x cfg rest s' kind' l →
      Items x cfg rest (line ++ (e ++ s)) kind (.mk task d.blocks :: l)

/-! ## Markers -/

theorem Marker.head {kind : ListKind} {m : Str} (h : Marker kind m) :
    ∃ c t, m = c :: t ∧ c ∉ cs!" \t\r\n#`~>" := by
  cases h with
  | dash => exact ⟨_, _, rfl, by decide⟩
  | star => exact ⟨_, _, rfl, by decide⟩
  | plus => exact ⟨_, _, rfl, by decide⟩
  | @ordered ds d h1 h2 h3 h4 =>
    obtain ⟨c, ds, rfl⟩ := List.exists_cons_of_ne_nil h1
    refine ⟨c, ds ++ [d], rfl, ?_⟩
    intro hm
    have key : ∀ a ∈ cs!" \t\r\n#`~>", isDigit a = false := by decide
    have := key c hm
    rw [h2 c (by simp)] at this; simp at this

theorem Marker.head_ne {kind : ListKind} {m u : Str} (h : Marker kind m) :
    (m ++ u).head? ≠ some ' ' := by
  obtain ⟨c, t, rfl, hc⟩ := h.head
  intro h; simp at h; subst h; exact hc (by decide)

theorem digit_ne {c : Char} (h : isDigit c = true) {a : Char} (ha : isDigit a = false) : c ≠ a := by
  rintro rfl; rw [h] at ha; simp at ha

theorem listMarkerOrdered_of {ds u : Str} {d : Char} (h1 : ds ≠ []) (h2 : ∀ c ∈ ds, isDigit c = true)
    (h3 : numVal 10 ds < 2 ^ 64) (h4 : d = '.' ∨ d = ')') :
    listMarkerOrdered (ds ++ d :: u) = some (u, .ordered (numVal 10 ds)) := by
  unfold listMarkerOrdered
  refine mapP_some.2 ⟨numVal 10 ds, terminated_some.2 ⟨d :: u, d, ?_, ?_⟩, rfl⟩
  · unfold u64P
    have : digit1 (ds ++ d :: u) = some (d :: u, ds) :=
      takeWhile1_of h1 h2 (by rcases h4 with rfl | rfl <;> decide)
    rw [this]
    exact if_pos h3
  · exact satisfy_some.2 ⟨rfl, by rcases h4 with rfl | rfl <;> decide⟩

theorem listMarkerOrdered_none {c : Char} {t : Str} (h : isDigit c = false) :
    listMarkerOrdered (c :: t) = none := by
  unfold listMarkerOrdered
  rw [mapP_none]
  refine terminated_none ?_
  unfold u64P
  have : digit1 (c :: t) = none := takeWhile1_none_of h
  rw [this]

theorem listMarkerOrdered_some {s r : Str} {kind : ListKind}
    (h : listMarkerOrdered s = some (r, kind)) : ∃ m n, kind = .ordered n ∧ Marker kind m ∧ s = m ++ r := by
  unfold listMarkerOrdered at h
  obtain ⟨n, h', hk⟩ := mapP_some.1 h
  subst hk
  clear h
  obtain ⟨s1, d, h, hd⟩ := terminated_some.1 h'
  unfold u64P at h
  cases e : digit1 s with
  | none => simp [e] at h
  | some y =>
    obtain ⟨r', ds⟩ := y
    simp only [e] at h
    split at h
    · simp at h
      obtain ⟨rfl, rfl⟩ := h
      obtain ⟨rfl, hd2⟩ := satisfy_some.1 hd
      obtain ⟨e1, e3, e2⟩ := takeWhile1_some.1 e
      rename_i hlt
      refine ⟨ds ++ [d], _, rfl, .ordered ?_ ?_ hlt ?_, ?_⟩
      · simpa [e1] using e2
      · rw [e1]; intro c hc
        exact takeWhile_all c hc
      · simpa using hd2
      · rw [List.append_assoc, e1]
        simp only [List.singleton_append]
        rw [e3, List.takeWhile_append_dropWhile]
    · simp at h


theorem listMarker_of {kind : ListKind} {m u : Str} (h : Marker kind m) :
    listMarker (m ++ u) = some (u, kind) := by
  unfold listMarker
  cases h with
  | dash =>
    rw [List.singleton_append, orElse_of_none (listMarkerOrdered_none (by decide)), orElse_of_none, orElse_of_none]
    · exact value_some.2 ⟨_, chr_cons _ _, rfl⟩
    · exact value_none.2 (chr_ne (by decide))
    · exact value_none.2 (chr_ne (by decide))
  | star =>
    rw [List.singleton_append, orElse_of_none (listMarkerOrdered_none (by decide))]
    exact orElse_of_some (value_some.2 ⟨_, chr_cons _ _, rfl⟩)
  | plus =>
    rw [List.singleton_append, orElse_of_none (listMarkerOrdered_none (by decide)), orElse_of_none]
    · exact orElse_of_some (value_some.2 ⟨_, chr_cons _ _, rfl⟩)
    · exact value_none.2 (chr_ne (by decide))
  | ordered h1 h2 h3 h4 =>
    refine orElse_of_some ?_
    rw [List.append_assoc, List.singleton_append]
    exact listMarkerOrdered_of h1 h2 h3 h4

theorem listMarker_some {kind : ListKind} {s r : Str} (h : listMarker s = some (r, kind)) :
    ∃ m, Marker kind m ∧ s = m ++ r := by
  unfold listMarker at h
  rcases orElse_some.1 h with h | ⟨_, h⟩
  · obtain ⟨m, _, _, h1, h2⟩ := listMarkerOrdered_some h
    exact ⟨m, h1, h2⟩
  rcases orElse_some.1 h with h | ⟨_, h⟩
  · obtain ⟨_, h', rfl⟩ := value_some.1 h
    exact ⟨_, .star, (chr_some.1 h').1⟩
  rcases orElse_some.1 h with h | ⟨_, h⟩
  · obtain ⟨_, h', rfl⟩ := value_some.1 h
    exact ⟨_, .plus, (chr_some.1 h').1⟩
  · obtain ⟨_, h', rfl⟩ := value_some.1 h
    exact ⟨_, .dash, (chr_some.1 h').1⟩

theorem sameKindMarker_of {kind k' : ListKind} {m u : Str} (hs : SameKind kind k') (h : Marker k' m) :
    sameKindMarker kind (m ++ u) = some (u, k') := by
  cases h with
  | dash =>
    cases kind with
    | ordered n => exact hs.elim
    | bullet b =>
      cases hs
      show value (ListKind.bullet .dash) (chr '-') ('-' :: u) = _
      exact value_some.2 ⟨_, chr_cons _ _, rfl⟩
  | star =>
    cases kind with
    | ordered n => exact hs.elim
    | bullet b =>
      cases hs
      show value (ListKind.bullet .star) (chr '*') ('*' :: u) = _
      exact value_some.2 ⟨_, chr_cons _ _, rfl⟩
  | plus =>
    cases kind with
    | ordered n => exact hs.elim
    | bullet b =>
      cases hs
      show value (ListKind.bullet .plus) (chr '+') ('+' :: u) = _
      exact value_some.2 ⟨_, chr_cons _ _, rfl⟩
  | ordered h1 h2 h3 h4 =>
    cases kind with
    | bullet n => exact hs.elim
    | ordered n =>
      rw [List.append_assoc, List.singleton_append]
      exact listMarkerOrdered_of h1 h2 h3 h4

theorem sameKindMarker_some {kind k' : ListKind} {s r : Str} (h : sameKindMarker kind s = some (r, k')) :
    ∃ m, SameKind kind k' ∧ Marker k' m ∧ s = m ++ r := by
  cases kind with
  | ordered n =>
    obtain ⟨m, n', rfl, h1, h2⟩ := listMarkerOrdered_some h
    exact ⟨m, trivial, h1, h2⟩
  | bullet b =>
    cases b <;> (obtain ⟨_, h', rfl⟩ := value_some.1 h)
    · exact ⟨_, rfl, .dash, (chr_some.1 h').1⟩
    · exact ⟨_, rfl, .star, (chr_some.1 h').1⟩
    · exact ⟨_, rfl, .plus, (chr_some.1 h').1⟩

theorem listItemTaskState_of {t : TaskState} {b u : Str} (h : Box t b) :
    listItemTaskState (b ++ u) = some (u, t) := by
  cases h <;> rfl

theorem listItemTaskState_some {t : TaskState} {s r : Str} (h : listItemTaskState s = some (r, t)) :
    ∃ b, Box t b ∧ s = b ++ r := by
  unfold listItemTaskState at h
  obtain ⟨s1, _, s2, _, h1, h2, h3⟩ := delimited_some.1 h
  obtain ⟨rfl, _⟩ := chr_some.1 h1
  obtain ⟨rfl, _⟩ := chr_some.1 h3
  rcases orElse_some.1 h2 with h2 | ⟨_, h2⟩
  · obtain ⟨c, h2', rfl⟩ := value_some.1 h2
    obtain ⟨rfl, hc⟩ := satisfy_some.1 h2'
    have : c = 'x' ∨ c = 'X' := by simpa using hc
    rcases this with rfl | rfl
    · exact ⟨_, .x, rfl⟩
    · exact ⟨_, .X, rfl⟩
  · obtain ⟨c, h2', rfl⟩ := value_some.1 h2
    obtain ⟨rfl, _⟩ := chr_some.1 h2'
    exact ⟨_, .space, rfl⟩

/-! ## The first line of an item -/

theorem lineTerminated_space0_none {l t : Str} (hv : Visible l) (hl : OneLine l) :
    lineTerminated space0 (l ++ t) = none := by
  have h := visible_notBlankLine (t := t) hv hl
  cases e : lineTerminated space0 (l ++ t) with
  | none => rfl
  | some y =>
    exfalso
    obtain ⟨r, a⟩ := y
    obtain ⟨s1, b, h1, h2⟩ := terminated_some.1 e
    have : preceded space0 eofOrEol (l ++ t) = some (r, b) := preceded_some.2 ⟨_, _, h1, h2⟩
    rw [h] at this
    simp at this

theorem lineTerminated_space0_of {w e s : Str} (hw : Blanks w) (he : LineEnd e s) :
    lineTerminated space0 (w ++ (e ++ s)) = some (s, w) := by
  refine terminated_some.2 ⟨e ++ s, e, ?_, he.eofOrEol⟩
  refine space0_of hw ?_
  intro c hc
  rcases he with (rfl | rfl) | ⟨rfl, rfl⟩ <;> simp at hc <;> subst hc <;> decide

theorem Visible.pre {l a : Str} (h : Visible l) : Visible (a ++ l) := by
  obtain ⟨c, h1, h2⟩ := h
  exact ⟨c, by simp [h1], h2⟩

theorem Visible.post {l a : Str} (h : Visible l) : Visible (l ++ a) := by
  obtain ⟨c, h1, h2⟩ := h
  exact ⟨c, by simp [h1], h2⟩

theorem Box.visible {t : TaskState} {b : Str} (h : Box t b) : Visible b :=
  ⟨'[', by cases h <;> simp, by decide⟩

theorem Box.oneLine {t : TaskState} {b : Str} (h : Box t b) : OneLine b := by
  cases h <;> (intro c hc; simp at hc; rcases hc with rfl | rfl | rfl <;> decide)

theorem Box.head {t : TaskState} {b : Str} (h : Box t b) : ∃ c, b = ['[', c, ']'] := by
  cases h <;> exact ⟨_, rfl⟩

theorem dropSpaces_replicate (n j : Nat) (t : Str) :
    dropSpaces n (List.replicate j ' ' ++ t) =
      if j ≤ n then dropSpaces (n - j) t else List.replicate (j - n) ' ' ++ t := by
  induction n generalizing j with
  | zero =>
    cases j with
    | zero => simp
    | succ j => simp [dropSpaces]
  | succ n ih =>
    cases j with
    | zero => simp
    | succ j =>
      rw [List.replicate_succ, List.cons_append]
      simp only [dropSpaces, ih, Nat.add_le_add_iff_right, Nat.add_sub_add_right]

theorem dropSpaces_head {t : Str} (n : Nat) (h : t.head? ≠ some ' ') : dropSpaces n t = t := by
  cases t with
  | nil => cases n <;> rfl
  | cons c t => exact dropSpaces_ne n (by simpa using h)

theorem indent03_eq (s : Str) : ∃ l, indent03 s = some (dropSpaces 3 s, l) := by
  obtain ⟨l, h, _⟩ := manyMN_spaces 3 s
  exact ⟨l, h⟩

theorem manyMN_max {c : Char} {t : Str} {m n : Nat} (hm : m ≤ n) :
    manyMN (chr c) m n (List.replicate n c ++ t) = some (t, List.replicate n c) := by
  induction n generalizing m with
  | zero =>
    have : m = 0 := by omega
    subst this; rfl
  | succ n ih =>
    rw [List.replicate_succ, List.cons_append, manyMN, chr_cons]
    simp only [List.length_cons, Nat.lt_succ_self, if_true]
    rw [ih (by omega)]

theorem itemMarker_of {k : Nat} {kind : ListKind} {m u : Str} (hk : k ≤ 3) (hm : Marker kind m) :
    preceded indent03 listMarker (List.replicate k ' ' ++ (m ++ u)) = some (u, kind) :=
  preceded_some.2 ⟨_, _, indent03_replicate hk hm.head_ne, listMarker_of hm⟩

/-- What is after the marker, and the four ways it can go on. -/
theorem followedByNewline_eq {k : Nat} {kind : ListKind} {m u : Str} (hk : k ≤ 3) (hm : Marker kind m)
    (hu : lineTerminated space0 u = none) :
    listMarkerFollowedByNewline (List.replicate k ' ' ++ (m ++ u)) =
      mapP (lineTerminated listItemTaskState) (fun t => (kind,
        (List.replicate k ' ' ++ (m ++ u)).length - (dropSpaces 3 u).length + 1, some t))
        (dropSpaces 3 u) := by
  unfold listMarkerFollowedByNewline
  rw [itemMarker_of hk hm]
  obtain ⟨l, h⟩ := indent03_eq u
  simp only [hu, h]

theorem taskLine_none {first e s : Str} (h1 : OneLine first) (he : LineEnd e s) (hb : NoBox first) :
    lineTerminated listItemTaskState (first ++ (e ++ s)) = none := by
  cases h : lineTerminated listItemTaskState (first ++ (e ++ s)) with
  | none => rfl
  | some y =>
    exfalso
    obtain ⟨r, t⟩ := y
    obtain ⟨s1, e', h2, h3⟩ := terminated_some.1 h
    obtain ⟨b, hbx, h4⟩ := listItemTaskState_some h2
    obtain ⟨h5, h6⟩ := LineEnd.of_eofOrEol h3
    rw [h6] at h4
    have := (line_unique h1 hbx.oneLine he h5 h4).1
    exact hb t b [] hbx (.inl rfl) (by simpa using this)

theorem taskSpace_none {first e s : Str} (h1 : OneLine first) (he : LineEnd e s) (hb : NoBox first) :
    terminated listItemTaskState (chr ' ') (first ++ (e ++ s)) = none := by
  cases h : terminated listItemTaskState (chr ' ') (first ++ (e ++ s)) with
  | none => rfl
  | some y =>
    exfalso
    obtain ⟨r, t⟩ := y
    obtain ⟨s1, e', h2, h3⟩ := terminated_some.1 h
    obtain ⟨b, hbx, h4⟩ := listItemTaskState_some h2
    obtain ⟨rfl, _⟩ := chr_some.1 h3
    have h5 := congrArg (List.takeWhile notCrLf) h4
    rw [(span_oneLine h1).1, (span_oneLine hbx.oneLine).1, he.span.1] at h5
    rw [List.append_nil, List.takeWhile_cons] at h5
    exact hb t b _ hbx (.inr rfl) h5

theorem spacesMarker_of {k n : Nat} {kind : ListKind} {m u : Str} (hk : k ≤ 3) (hm : Marker kind m)
    (h1 : 1 ≤ n) (h4 : n ≤ 4) (hu : n = 4 ∨ u.head? ≠ some ' ') :
    listMarkerFollowedBySpaces (List.replicate k ' ' ++ (m ++ (List.replicate n ' ' ++ u))) =
      mapP (opt (terminated listItemTaskState (chr ' '))) (fun t => (kind, k + m.length + n, t)) u := by
  have : delimited indent03 listMarker (manyMN (chr ' ') 1 4)
      (List.replicate k ' ' ++ (m ++ (List.replicate n ' ' ++ u))) = some (u, kind) := by
    unfold delimited
    refine preceded_some.2 ⟨_, _, indent03_replicate hk hm.head_ne, ?_⟩
    refine terminated_some.2 ⟨_, List.replicate n ' ', listMarker_of hm, ?_⟩
    rcases hu with rfl | hu
    · exact manyMN_max (by omega)
    · exact manyMN_chr h1 h4 hu
  unfold listMarkerFollowedBySpaces
  rw [this]
  simp only
  have e : (List.replicate k ' ' ++ (m ++ (List.replicate n ' ' ++ u))).length - u.length =
      k + m.length + n := by simp; omega
  rw [e]

theorem Blanks.replicate (n : Nat) : Blanks (List.replicate n ' ') := by
  intro c hc; left; exact (List.mem_replicate.1 hc).2

theorem ItemStart.spanSize {kind : ListKind} {line first e s : Str} {pl : Nat}
    {task : Option TaskState} (h : ItemStart kind line pl task first) (he : LineEnd e s) :
    listMarkerWithSpanSize (line ++ (e ++ s)) = some (s, (kind, pl, task, first)) := by
  unfold listMarkerWithSpanSize
  have hsp : ∀ n, OneLine (List.replicate n ' ') := fun n => OneLine.replicate n (by decide) (by decide)
  cases h with
  | @text k n m first hk hm h1 h4 hf ho hv hb =>
    have e1 : List.replicate k ' ' ++ (m ++ (List.replicate n ' ' ++ first)) ++ (e ++ s) =
        List.replicate k ' ' ++ (m ++ (List.replicate n ' ' ++ (first ++ (e ++ s)))) := by simp
    have hu : n = 4 ∨ (first ++ (e ++ s)).head? ≠ some ' ' := by
      refine hf.imp id fun h => ?_
      cases first with
      | nil => obtain ⟨c, hc, _⟩ := hv; simp at hc
      | cons c t => exact h
    rw [e1, orElse_of_none]
    · refine mapP_some.2 ⟨((kind, k + m.length + n, none), first), ?_, rfl⟩
      refine seq_some.2 ⟨first ++ (e ++ s), ?_, line0 ho he⟩
      rw [spacesMarker_of hk hm h1 h4 hu]
      refine mapP_some.2 ⟨none, ?_, rfl⟩
      unfold opt
      rw [taskSpace_none ho he hb]
    · rw [mapP_none, followedByNewline_eq hk hm, mapP_none]
      · rw [dropSpaces_replicate]
        split
        · rename_i hn
          rw [dropSpaces_head _ (by rcases hu with h | h; · omega
                                    · exact h)]
          exact taskLine_none ho he hb
        · have : n - 3 = 1 := by omega
          rw [this]
          exact terminated_none (delimited_none (chr_ne (by decide)))
      · rw [← List.append_assoc]
        exact lineTerminated_space0_none hv.pre ((hsp n).append ho)
  | @task k n m b first t hk hm h1 h4 hb ho =>
    have e1 : List.replicate k ' ' ++ (m ++ (List.replicate n ' ' ++ (b ++ ' ' :: first))) ++ (e ++ s) =
        List.replicate k ' ' ++ (m ++ (List.replicate n ' ' ++ (b ++ ' ' :: (first ++ (e ++ s))))) := by
      simp
    have hu : (b ++ ' ' :: (first ++ (e ++ s))).head? ≠ some ' ' := by
      obtain ⟨c, rfl⟩ := hb.head; simp
    rw [e1, orElse_of_none]
    · refine mapP_some.2 ⟨((kind, k + m.length + n, some t), first), ?_, rfl⟩
      refine seq_some.2 ⟨first ++ (e ++ s), ?_, line0 ho he⟩
      rw [spacesMarker_of hk hm h1 h4 (.inr hu)]
      refine mapP_some.2 ⟨some t, ?_, rfl⟩
      unfold opt
      have : terminated listItemTaskState (chr ' ') (b ++ ' ' :: (first ++ (e ++ s))) =
          some (first ++ (e ++ s), t) :=
        terminated_some.2 ⟨_, _, listItemTaskState_of hb, chr_cons _ _⟩
      rw [this]
    · rw [mapP_none, followedByNewline_eq hk hm, mapP_none]
      · rw [dropSpaces_replicate]
        split
        · rw [dropSpaces_head _ hu]
          cases h : lineTerminated listItemTaskState (b ++ ' ' :: (first ++ (e ++ s))) with
          | none => rfl
          | some y =>
            exfalso
            obtain ⟨r, t'⟩ := y
            obtain ⟨s1, e', h2, h3⟩ := terminated_some.1 h
            rw [listItemTaskState_of hb] at h2
            simp at h2
            rw [← h2.1, eofOrEol_cons (by decide) (by decide)] at h3
            simp at h3
        · have : n - 3 = 1 := by omega
          rw [this]
          exact terminated_none (delimited_none (chr_ne (by decide)))
      · rw [← List.append_assoc]
        exact lineTerminated_space0_none hb.visible.pre ((hsp n).append hb.oneLine)
  | @empty k m b hk hm hb =>
    refine orElse_of_some ?_
    refine mapP_some.2 ⟨(kind, k + m.length + 1, none), ?_, rfl⟩
    unfold listMarkerFollowedByNewline
    have e1 : List.replicate k ' ' ++ (m ++ b) ++ (e ++ s) =
        List.replicate k ' ' ++ (m ++ (b ++ (e ++ s))) := by simp
    rw [e1, itemMarker_of hk hm]
    simp only
    rw [lineTerminated_space0_of hb he]
    have e2 : (List.replicate k ' ' ++ (m ++ (b ++ (e ++ s)))).length - (b ++ (e ++ s)).length =
        k + m.length := by simp; omega
    simp only [e2]
  | @box k n m b t hk hm hn hb =>
    refine orElse_of_some ?_
    refine mapP_some.2 ⟨(kind, k + m.length + n + 1, some t), ?_, rfl⟩
    have e1 : List.replicate k ' ' ++ (m ++ (List.replicate n ' ' ++ b)) ++ (e ++ s) =
        List.replicate k ' ' ++ (m ++ (List.replicate n ' ' ++ (b ++ (e ++ s)))) := by simp
    rw [e1, followedByNewline_eq hk hm]
    · have hu : (b ++ (e ++ s)).head? ≠ some ' ' := by
        obtain ⟨c, rfl⟩ := hb.head; simp
      rw [dropSpaces_replicate, if_pos hn, dropSpaces_head _ hu]
      refine mapP_some.2 ⟨t, terminated_some.2 ⟨_, _, listItemTaskState_of hb, he.eofOrEol⟩, ?_⟩
      have e2 : (List.replicate k ' ' ++ (m ++ (List.replicate n ' ' ++ (b ++ (e ++ s))))).length -
          (b ++ (e ++ s)).length = k + m.length + n := by simp; omega
      rw [e2]
    · rw [← List.append_assoc]
      exact lineTerminated_space0_none hb.visible.pre ((hsp n).append hb.oneLine)

/-! ## The further lines of an item -/

theorem manyMN_spaces_spec : ∀ (n : Nat) (s r : Str) (l : List Char),
    manyMN (chr ' ') 0 n s = some (r, l) → ∃ k, k ≤ n ∧ s = List.replicate k ' ' ++ r := by
  intro n
  induction n with
  | zero => intro s r l h; simp [manyMN] at h; exact ⟨0, by omega, by simp [h.1]⟩
  | succ n ih =>
    intro s r l h
    rw [manyMN] at h
    cases e : chr ' ' s with
    | none => simp [e] at h; exact ⟨0, by omega, by simp [h.1]⟩
    | some y =>
      obtain ⟨s1, c⟩ := y
      obtain ⟨rfl, rfl⟩ := chr_some.1 e
      simp only [e, List.length_cons, Nat.lt_succ_self, if_true, Nat.zero_sub] at h
      cases e2 : manyMN (chr ' ') 0 n s1 with
      | none => simp [e2] at h
      | some z =>
        obtain ⟨r', l'⟩ := z
        simp only [e2, Option.some.injEq, Prod.mk.injEq] at h
        obtain ⟨rfl, rfl⟩ := h
        obtain ⟨k, hk, rfl⟩ := ih _ _ _ e2
        exact ⟨k + 1, by omega, rfl⟩

/-- What must not be at the beginning of a further line. -/
def restGuard (kind : ListKind) (pl : Nat) : P Unit :=
  value () thematicBreakP <||>
    value () (seq (verify (recognize (manyMN (chr ' ') 0 pl)) (fun i => i.length < pl))
      (sameKindMarker kind))

theorem restGuard_none {kind : ListKind} {pl : Nat} {s : Str} (h1 : thematicBreakP s = none)
    (h2 : ¬ MarkerAt kind pl s) : restGuard kind pl s = none := by
  unfold restGuard
  rw [orElse_none, value_none, value_none]
  refine ⟨h1, ?_⟩
  cases e : seq (verify (recognize (manyMN (chr ' ') 0 pl)) (fun i => i.length < pl))
      (sameKindMarker kind) s with
  | none => rfl
  | some y =>
    exfalso
    obtain ⟨r, i, k'⟩ := y
    obtain ⟨r1, e1, e2⟩ := seq_some.1 e
    obtain ⟨e3, e4⟩ := verify_some.1 e1
    obtain ⟨_, e5, rfl⟩ := recognize_some.1 e3
    obtain ⟨k, hk, rfl⟩ := manyMN_spaces_spec _ _ _ _ e5
    obtain ⟨m, hs, hm, rfl⟩ := sameKindMarker_some e2
    refine h2 ⟨k, m, k', r, ?_, hs, hm, rfl⟩
    simpa using e4

theorem restGuard_marker {kind : ListKind} {pl : Nat} {s : Str} (h : MarkerAt kind pl s) :
    ∃ y, restGuard kind pl s = some y := by
  cases e : restGuard kind pl s with
  | some y => exact ⟨y, rfl⟩
  | none =>
    exfalso
    unfold restGuard at e
    rw [orElse_none, value_none, value_none] at e
    obtain ⟨j, m, k', r, hj, hs, hm, rfl⟩ := h
    have : seq (verify (recognize (manyMN (chr ' ') 0 pl)) (fun i => i.length < pl))
        (sameKindMarker kind) (List.replicate j ' ' ++ (m ++ r)) =
        some (r, List.replicate j ' ', k') := by
      refine seq_some.2 ⟨m ++ r, verify_some.2 ⟨recognize_of (manyMN_chr (by omega) (by omega) hm.head_ne),
        by simpa using hj⟩, sameKindMarker_of hs hm⟩
    rw [this] at e
    simp at e

theorem manyMin_chr_some {a : Char} {s r : Str} {l : List Char} {m : Nat}
    (h : manyMin m (chr a) s = some (r, l)) :
    ∃ n, m ≤ n ∧ s = List.replicate n a ++ r := by
  obtain ⟨h1, h2⟩ := verify_some.1 h
  obtain ⟨n, rfl, h3, _⟩ := many0_chr_some h1
  exact ⟨n, by simpa using h2, h3⟩

theorem thematicBreakP_some {s r : Str} (h : thematicBreakP s = some (r, ())) :
    ∃ l e, ThematicLine l ∧ LineEnd e r ∧ s = l ++ (e ++ r) := by
  unfold thematicBreakP at h
  obtain ⟨_, h1, _⟩ := value_some.1 h
  obtain ⟨s1, e, h2, h3⟩ := terminated_some.1 h1
  obtain ⟨h4, rfl⟩ := LineEnd.of_eofOrEol h3
  obtain ⟨s2, _, h5, h6⟩ := preceded_some.1 h2
  obtain ⟨k, hk, _, rfl⟩ := indent03_spec h5
  obtain ⟨s3, w, h7, h8⟩ := terminated_some.1 h6
  have h9 : ∃ a n, (a = '-' ∨ a = '_' ∨ a = '*') ∧ 3 ≤ n ∧ s2 = List.replicate n a ++ s3 := by
    rcases orElse_some.1 h7 with h7 | ⟨_, h7⟩
    · obtain ⟨n, h, h'⟩ := manyMin_chr_some h7; exact ⟨'-', n, .inl rfl, h, h'⟩
    rcases orElse_some.1 h7 with h7 | ⟨_, h7⟩
    · obtain ⟨n, h, h'⟩ := manyMin_chr_some h7; exact ⟨'_', n, .inr (.inl rfl), h, h'⟩
    · obtain ⟨n, h, h'⟩ := manyMin_chr_some h7; exact ⟨'*', n, .inr (.inr rfl), h, h'⟩
  obtain ⟨a, n, ha, hn, rfl⟩ := h9
  have h10 : s3.takeWhile isSpace = w ∧ s3.dropWhile isSpace = e ++ r := by
    have : some (s3.dropWhile isSpace, s3.takeWhile isSpace) = some (e ++ r, w) := h8
    simp at this
    exact ⟨this.2, this.1⟩
  refine ⟨List.replicate k ' ' ++ (List.replicate n a ++ w), e, ⟨k, n, a, w, hk, hn, ha, ?_, rfl⟩, h4, ?_⟩
  · intro c hc
    rw [← h10.1] at hc
    have := takeWhile_all c hc
    simpa [isSpace] using this
  · have := List.takeWhile_append_dropWhile (p := isSpace) (l := s3)
    rw [h10.1, h10.2] at this
    rw [← this]; simp

theorem ThematicLine.oneLine {l : Str} (h : ThematicLine l) : OneLine l := by
  obtain ⟨k, n, a, sp, _, _, ha, hs, rfl⟩ := h
  refine (OneLine.replicate _ (by decide) (by decide)).append (OneLine.append (OneLine.replicate _ ?_ ?_) ?_)
  · rcases ha with rfl | rfl | rfl <;> decide
  · rcases ha with rfl | rfl | rfl <;> decide
  · intro c hc
    rcases hs c hc with rfl | rfl <;> decide

theorem thematicBreakP_line {l e s : Str} (hl : ThematicLine l) (he : LineEnd e s) :
    thematicBreakP (l ++ (e ++ s)) = some (s, ()) := by
  obtain ⟨k, n, a, sp, hk, hn, ha, hs, rfl⟩ := hl
  have := thematicBreakP_of (rest := s) hk hn ha hs.space he
  simpa using this

theorem thematicBreakP_notLine {l e s : Str} (ho : OneLine l) (hl : ¬ ThematicLine l) (he : LineEnd e s) :
    thematicBreakP (l ++ (e ++ s)) = none := by
  cases h : thematicBreakP (l ++ (e ++ s)) with
  | none => rfl
  | some y =>
    exfalso
    obtain ⟨r, u⟩ := y
    obtain ⟨l', e', h1, h2, h3⟩ := thematicBreakP_some h
    rw [(line_unique ho h1.oneLine he h2 h3).1] at hl
    exact hl h1

theorem Marker.oneLine {kind : ListKind} {m : Str} (h : Marker kind m) : OneLine m := by
  cases h with
  | dash => intro c hc; simp at hc; subst hc; decide
  | star => intro c hc; simp at hc; subst hc; decide
  | plus => intro c hc; simp at hc; subst hc; decide
  | ordered h1 h2 h3 h4 =>
    refine OneLine.append (fun c hc => ?_) (fun c hc => ?_)
    · exact ⟨digit_ne (h2 c hc) (by decide), digit_ne (h2 c hc) (by decide)⟩
    · simp at hc; subst hc; rcases h4 with rfl | rfl <;> decide

theorem MarkerAt.line {kind : ListKind} {pl : Nat} {l e s : Str} (ho : OneLine l) (he : LineEnd e s)
    (h : MarkerAt kind pl (l ++ (e ++ s))) : MarkerAt kind pl l := by
  obtain ⟨j, m, k', r, hj, hs, hm, h4⟩ := h
  have h5 := congrArg (List.takeWhile notCrLf) h4
  rw [(span_oneLine ho).1, he.span.1, ← List.append_assoc,
    (span_oneLine ((OneLine.replicate _ (by decide) (by decide)).append hm.oneLine)).1] at h5
  exact ⟨j, m, k', r.takeWhile notCrLf, hj, hs, hm, by simpa using h5⟩

theorem restLine_text {kind : ListKind} {pl j : Nat} {l e s : Str} (hj : j ≤ pl)
    (hl : j = pl ∨ l.head? ≠ some ' ') (hne : l ≠ []) (ho : OneLine l)
    (ht : ¬ ThematicLine (List.replicate j ' ' ++ l))
    (hm : ¬ MarkerAt kind pl (List.replicate j ' ' ++ l)) (he : LineEnd e s) :
    listItemRestLine kind pl (List.replicate j ' ' ++ (l ++ (e ++ s))) = some (s, [l]) := by
  unfold listItemRestLine
  have h0 : (List.replicate j ' ' ++ (l ++ (e ++ s))).isEmpty = false := by
    cases l with
    | nil => simp at hne
    | cons c t => cases j <;> simp [List.replicate_succ]
  rw [h0]
  have ho' : OneLine (List.replicate j ' ' ++ l) := (OneLine.replicate _ (by decide) (by decide)).append ho
  have hg : restGuard kind pl (List.replicate j ' ' ++ (l ++ (e ++ s))) = none := by
    rw [← List.append_assoc]
    exact restGuard_none (thematicBreakP_notLine ho' ht he) (fun h => hm (h.line ho' he))
  refine terminated_some.2 ⟨e ++ s, e, ?_, he.eofOrEol⟩
  refine preceded_some.2 ⟨_, (), notP_some.2 ⟨hg, rfl⟩, ?_⟩
  refine orElse_of_some ?_
  refine preceded_some.2 ⟨l ++ (e ++ s), List.replicate j ' ', ?_, mapP_some.2 ⟨l, notEofOrEol1_line ho hne he, rfl⟩⟩
  rcases hl with rfl | hl
  · exact manyMN_max (by omega)
  · refine manyMN_chr (by omega) hj ?_
    cases l with
    | nil => simp at hne
    | cons c t => exact hl

theorem many0_blankLines {b u : Str} (hb : BlankLines b) (hu : lineTerminated space0 u = none) :
    ∃ l, many0 (lineTerminated space0) (b ++ u) = some (u, l) := by
  induction hb with
  | nil => exact ⟨[], many0_of_none hu⟩
  | @lf sp s h1 _ ih =>
    obtain ⟨l, hl⟩ := ih
    refine ⟨sp :: l, ?_⟩
    have e : sp ++ '\n' :: s ++ u = sp ++ (['\n'] ++ (s ++ u)) := by simp
    rw [e]
    exact many0_of_some (lineTerminated_space0_of h1 (.inl (.inl rfl))) (by simp; omega) hl
  | @crlf sp s h1 _ ih =>
    obtain ⟨l, hl⟩ := ih
    refine ⟨sp :: l, ?_⟩
    have e : sp ++ '\r' :: '\n' :: s ++ u = sp ++ (['\r', '\n'] ++ (s ++ u)) := by simp
    rw [e]
    exact many0_of_some (lineTerminated_space0_of h1 (.inl (.inr rfl))) (by simp; omega) hl

theorem many0_progress_none {α : Type} {p : P α} {s r : Str} {a : α} (h : p s = some (r, a))
    (hr : many0 p r = none) : many0 p s = none := by
  rw [many0_eq, h]
  simp only [hr]
  split <;> rfl

theorem many0_blankEof {b w : Str} (hb : BlankLines b) (hw : Blanks w) :
    many0 (lineTerminated space0) (b ++ w) = none := by
  have h0 : many0 (lineTerminated space0) [] = none := rfl
  induction hb with
  | nil =>
    have := lineTerminated_space0_of (e := []) (s := []) hw (.inr ⟨rfl, rfl⟩)
    simp only [List.append_nil] at this
    exact many0_progress_none this h0
  | @lf sp s h1 _ ih =>
    have e : sp ++ '\n' :: s ++ w = sp ++ (['\n'] ++ (s ++ w)) := by simp
    rw [e]
    exact many0_progress_none (lineTerminated_space0_of h1 (.inl (.inl rfl))) ih
  | @crlf sp s h1 _ ih =>
    have e : sp ++ '\r' :: '\n' :: s ++ w = sp ++ (['\r', '\n'] ++ (s ++ w)) := by simp
    rw [e]
    exact many0_progress_none (lineTerminated_space0_of h1 (.inl (.inr rfl))) ih

theorem BlankLines.cons {w nl b : Str} (h1 : Blanks w) (h2 : IsNewline nl) (h3 : BlankLines b) :
    BlankLines (w ++ (nl ++ b)) := by
  rcases h2 with rfl | rfl
  · exact .lf h1 h3
  · exact .crlf h1 h3

theorem not_thematic_spaces (j : Nat) : ¬ ThematicLine (List.replicate j ' ') := by
  rintro ⟨k, n, a, sp, _, hn, ha, _, h⟩
  have : a ∈ List.replicate j ' ' := by
    rw [h]; simp; omega
  have := (List.mem_replicate.1 this).2
  subst this
  simp at ha

theorem not_markerAt_spaces (kind : ListKind) (pl j : Nat) :
    ¬ MarkerAt kind pl (List.replicate j ' ') := by
  rintro ⟨k, m, k', r, _, _, hm, h⟩
  obtain ⟨c, t, rfl, hc⟩ := hm.head
  have : c ∈ List.replicate j ' ' := by
    rw [h]; simp
  have := (List.mem_replicate.1 this).2
  subst this
  exact hc (by decide)

theorem lineTerminated_congr' {α : Type} {p q : P α} {s : Str} (h : p s = q s) :
    lineTerminated p s = lineTerminated q s := by
  unfold lineTerminated terminated mapP seq
  rw [h]

theorem preceded_of_some {α β : Type} {p : P α} {q : P β} {s r : Str} {a : α} (h : p s = some (r, a)) :
    preceded p q s = q r := by
  unfold preceded
  rw [h]

/-- What happens at a blank line. -/
theorem restLine_blank_eq {kind : ListKind} {pl j : Nat} {nl t : Str} (hj : j ≤ pl) (hnl : IsNewline nl) :
    listItemRestLine kind pl (List.replicate j ' ' ++ (nl ++ t)) =
      lineTerminated (mapP (seq (recognize (many1 (lineTerminated space0)))
         (preceded (manyMN (chr ' ') pl pl) notEofOrEol1))
       (fun x => [x.1, x.2])) (List.replicate j ' ' ++ (nl ++ t)) := by
  have hl : LineEnd nl t := .inl hnl
  unfold listItemRestLine
  have h0 : (List.replicate j ' ' ++ (nl ++ t)).isEmpty = false := by
    rcases hnl with rfl | rfl <;> cases j <;> simp [List.replicate_succ]
  rw [h0]
  have hg : restGuard kind pl (List.replicate j ' ' ++ (nl ++ t)) = none :=
    restGuard_none (thematicBreakP_notLine (OneLine.replicate _ (by decide) (by decide))
      (not_thematic_spaces j) hl)
      (fun h => not_markerAt_spaces kind pl j (h.line (OneLine.replicate _ (by decide) (by decide)) hl))
  rw [if_neg (by simp)]
  refine lineTerminated_congr' ?_
  have hg' : notP (restGuard kind pl) (List.replicate j ' ' ++ (nl ++ t)) =
      some (List.replicate j ' ' ++ (nl ++ t), ()) := notP_some.2 ⟨hg, rfl⟩
  unfold restGuard at hg'
  rw [preceded_of_some hg']
  refine orElse_of_none ?_
  have h1 : manyMN (chr ' ') 0 pl (List.replicate j ' ' ++ (nl ++ t)) =
      some (nl ++ t, List.replicate j ' ') := manyMN_chr (by omega) hj hl.head
  rw [preceded_of_some h1]
  exact mapP_none.2 (notEofOrEol1_of_some hl.eofOrEol)

theorem restLine_blank {kind : ListKind} {pl j : Nat} {nl b l e s : Str} (hj : j ≤ pl)
    (hnl : IsNewline nl) (hb : BlankLines b) (hv : Visible l) (ho : OneLine l) (he : LineEnd e s) :
    listItemRestLine kind pl
        (List.replicate j ' ' ++ (nl ++ (b ++ (List.replicate pl ' ' ++ (l ++ (e ++ s)))))) =
      some (s, [List.replicate j ' ' ++ (nl ++ b), l]) := by
  rw [restLine_blank_eq hj hnl]
  refine terminated_some.2 ⟨e ++ s, e, ?_, he.eofOrEol⟩
  refine mapP_some.2 ⟨(List.replicate j ' ' ++ (nl ++ b), l), ?_, rfl⟩
  refine seq_some.2 ⟨List.replicate pl ' ' ++ (l ++ (e ++ s)), ?_, ?_⟩
  · have hu : lineTerminated space0 (List.replicate pl ' ' ++ (l ++ (e ++ s))) = none := by
      rw [← List.append_assoc]
      exact lineTerminated_space0_none hv.pre ((OneLine.replicate _ (by decide) (by decide)).append ho)
    have hb' : BlankLines (List.replicate j ' ' ++ (nl ++ b)) := .cons (Blanks.replicate j) hnl hb
    obtain ⟨ws, hws⟩ := many0_blankLines hb' hu
    have e1 : List.replicate j ' ' ++ (nl ++ (b ++ (List.replicate pl ' ' ++ (l ++ (e ++ s))))) =
        List.replicate j ' ' ++ (nl ++ b) ++ (List.replicate pl ' ' ++ (l ++ (e ++ s))) := by simp
    rw [e1]
    refine recognize_of (many1_of_many0 hws ?_)
    rintro rfl
    have h2 : lineTerminated space0 (List.replicate j ' ' ++ (nl ++ b) ++ (List.replicate pl ' ' ++ (l ++ (e ++ s)))) =
        some (b ++ (List.replicate pl ' ' ++ (l ++ (e ++ s))), List.replicate j ' ') := by
      have := lineTerminated_space0_of (s := b ++ (List.replicate pl ' ' ++ (l ++ (e ++ s))))
        (Blanks.replicate j) (.inl hnl)
      simpa using this
    rw [many0_eq, h2] at hws
    simp only at hws
    split at hws
    · split at hws <;> simp at hws
    · simp at hws
  · refine preceded_some.2 ⟨_, _, manyMN_max (by omega), notEofOrEol1_line ho ?_ he⟩
    obtain ⟨c, hc, _⟩ := hv
    rintro rfl
    simp at hc

theorem manyMN_short {c : Char} {t : Str} {i n : Nat} (hi : i < n) (ht : t.head? ≠ some c) :
    manyMN (chr c) n n (List.replicate i c ++ t) = none := by
  induction i generalizing n with
  | zero =>
    obtain ⟨n, rfl⟩ : ∃ m, n = m + 1 := ⟨n - 1, by omega⟩
    refine manyMN_pos_of_none ?_ n n
    cases t with
    | nil => rfl
    | cons d t => exact chr_ne (by simpa using ht)
  | succ i ih =>
    obtain ⟨n, rfl⟩ : ∃ m, n = m + 1 := ⟨n - 1, by omega⟩
    rw [List.replicate_succ, List.cons_append, manyMN, chr_cons]
    simp only [List.length_cons, Nat.lt_succ_self, if_true, Nat.add_sub_cancel]
    rw [ih (by omega)]

theorem ItemStop.restLine {kind : ListKind} {pl : Nat} {s : Str} (h : ItemStop kind pl s) :
    listItemRestLine kind pl s = none := by
  have key : ∀ s, (∃ y, restGuard kind pl s = some y) → listItemRestLine kind pl s = none := by
    intro s hs
    unfold listItemRestLine
    split
    · rfl
    · exact terminated_none (preceded_none (notP_none.2 hs))
  cases h with
  | eof => rfl
  | thematic h1 h2 =>
    refine key _ ⟨_, orElse_of_some (value_some.2 ⟨_, thematicBreakP_line h1 h2, rfl⟩)⟩
  | marker h => exact key _ (restGuard_marker h)
  | @blankEof j nl b w hj hnl hb hw =>
    rw [restLine_blank_eq hj hnl]
    refine terminated_none (mapP_none.2 (seq_none (recognize_none.2 ?_)))
    cases e : many1 (lineTerminated space0) (List.replicate j ' ' ++ (nl ++ (b ++ w))) with
    | none => rfl
    | some y =>
      exfalso
      obtain ⟨r, l⟩ := y
      obtain ⟨a, r1, l', h1, h2, h3⟩ := many1_some.1 e
      rw [lineTerminated_space0_of (Blanks.replicate j) (.inl hnl)] at h1
      simp at h1
      rw [← h1.1, many0_blankEof hb hw] at h2
      simp at h2
  | @blank j i nl b l s hj hnl hb hi hl hv ho =>
    rw [restLine_blank_eq hj hnl]
    refine terminated_none (mapP_none.2 ?_)
    cases e : seq (recognize (many1 (lineTerminated space0)))
        (preceded (manyMN (chr ' ') pl pl) notEofOrEol1)
        (List.replicate j ' ' ++ (nl ++ (b ++ (List.replicate i ' ' ++ (l ++ s))))) with
    | none => rfl
    | some y =>
      exfalso
      obtain ⟨r, u, v⟩ := y
      obtain ⟨r1, h1, h2⟩ := seq_some.1 e
      obtain ⟨ws, h3, _⟩ := recognize_some.1 h1
      have hu : lineTerminated space0 (List.replicate i ' ' ++ (l ++ s)) = none := by
        rw [← List.append_assoc]
        exact lineTerminated_space0_none hv.pre ((OneLine.replicate _ (by decide) (by decide)).append ho)
      obtain ⟨ws', hws⟩ := many0_blankLines (.cons (Blanks.replicate j) hnl hb) hu
      have e1 : List.replicate j ' ' ++ (nl ++ b) ++ (List.replicate i ' ' ++ (l ++ s)) =
          List.replicate j ' ' ++ (nl ++ (b ++ (List.replicate i ' ' ++ (l ++ s)))) := by simp
      rw [e1] at hws
      have h4 : ws' ≠ [] := by
        rintro rfl
        have h2 : lineTerminated space0 (List.replicate j ' ' ++ (nl ++ (b ++ (List.replicate i ' ' ++ (l ++ s))))) =
            some (b ++ (List.replicate i ' ' ++ (l ++ s)), List.replicate j ' ') :=
          lineTerminated_space0_of (Blanks.replicate j) (.inl hnl)
        rw [many0_eq, h2] at hws
        simp only at hws
        split at hws
        · split at hws <;> simp at hws
        · simp at hws
      rw [many1_of_many0 hws h4] at h3
      simp at h3
      obtain ⟨r2, _, h5, _⟩ := preceded_some.1 h2
      rw [← h3.1, manyMN_short hi ?_] at h5
      · simp at h5
      · cases l with
        | nil => obtain ⟨c, hc, _⟩ := hv; simp at hc
        | cons c t => exact hl

theorem ItemLines.lines {kind : ListKind} {pl : Nat} {rest s : Str} {ls : List Str}
    (h : ItemLines kind pl rest s ls) (hr : ItemStop kind pl rest) :
    ∃ l, listItemLines kind pl s = some (rest, l) ∧ l.map List.flatten = ls := by
  unfold listItemLines
  induction h with
  | nil => exact ⟨[], many0_of_none hr.restLine, rfl⟩
  | @text j l e s ls h1 h2 h3 h4 h5 h6 h7 _ ih =>
    obtain ⟨q, hq, rfl⟩ := ih
    refine ⟨[l] :: q, many0_of_some (restLine_text h1 h2 h3 h4 h5 h6 h7) ?_ hq, by simp⟩
    have : 0 < l.length := List.length_pos_iff.2 h3
    simp; omega
  | @blank j nl b l e s ls h1 h2 h3 h4 h5 h6 _ ih =>
    obtain ⟨q, hq, rfl⟩ := ih
    refine ⟨[_, l] :: q, many0_of_some (restLine_blank h1 h2 h3 h4 h5 h6) ?_ hq, by simp⟩
    rcases h2 with rfl | rfl <;> simp <;> omega

theorem itemContent_flatten (first : Str) (l : List (List Str)) :
    itemContent first l = joinWith ['\n'] (first :: l.map List.flatten) := by
  rw [joinWith_cons_flatten]
  unfold itemContent
  simp [Function.comp_def]

section
variable {x : PExt} {cfg : PConfig}

theorem listItemP_of (hc : cfg.CustomOk) {kind : ListKind} {line first e s rest : Str} {pl : Nat}
    {task : Option TaskState} {ls : List Str} {d : Document} (h1 : ItemStart kind line pl task first)
    (he : LineEnd e s) (h2 : ItemLines kind pl rest s ls) (h3 : ItemStop kind pl rest)
    (hd : parseMarkdown x cfg (joinWith ['\n'] (first :: ls)) = some d) :
    listItemP (blockP x cfg) (line ++ (e ++ s)) = some (rest, (kind, .mk task d.blocks)) := by
  unfold listItemP
  rw [h1.spanSize he]
  obtain ⟨l, hl, rfl⟩ := h2.lines h3
  simp only [hl]
  rw [itemContent_flatten, blocks0_of_parse hc hd]

theorem NoItem.none {rec : P (List Block)} {s : Str} (h : NoItem s) : listItemP rec s = Option.none := by
  have : listMarkerWithSpanSize s = Option.none := by
    unfold listMarkerWithSpanSize
    rw [orElse_none, mapP_none, mapP_none]
    have key : ∀ r kind, preceded indent03 listMarker s = some (r, kind) →
        ∃ d r', r = d :: r' ∧ d ∉ cs!" \t\r\n[" := by
      intro r kind e
      obtain ⟨s1, _, e1, e2⟩ := preceded_some.1 e
      obtain ⟨k, hk, _, rfl⟩ := indent03_spec e1
      obtain ⟨m, hm, rfl⟩ := listMarker_some e2
      exact h k m kind r hk hm rfl
    constructor
    · unfold listMarkerFollowedByNewline
      cases e : preceded indent03 listMarker s with
      | none => rfl
      | some y =>
        obtain ⟨r, kind⟩ := y
        obtain ⟨d, r, rfl, hd⟩ := key r kind e
        have hd' : d ≠ ' ' ∧ d ≠ '\t' ∧ d ≠ '\r' ∧ d ≠ '\n' ∧ d ≠ '[' := by
          refine ⟨?_, ?_, ?_, ?_, ?_⟩ <;> rintro rfl <;> exact hd (by decide)
        obtain ⟨d1, d2, d3, d4, d5⟩ := hd'
        simp only
        rw [(blankLine_head d1 d2 d4 d3).1]
        simp only
        rw [indent03_cons d1]
        simp only
        rw [mapP_none]
        exact terminated_none (delimited_none (chr_ne d5))
    · refine seq_none ?_
      unfold listMarkerFollowedBySpaces
      cases e : delimited indent03 listMarker (manyMN (chr ' ') 1 4) s with
      | none => rfl
      | some y =>
        exfalso
        obtain ⟨r, kind⟩ := y
        obtain ⟨s1, _, s2, _, e1, e2, e3⟩ := delimited_some.1 e
        obtain ⟨d, r, rfl, hd⟩ := key s2 kind (preceded_some.2 ⟨_, _, e1, e2⟩)
        have d1 : d ≠ ' ' := by rintro rfl; exact hd (by decide)
        rw [manyMN_pos_of_none (chr_ne d1) 0 3] at e3
        simp at e3
  unfold listItemP
  rw [this]

theorem ItemStart.pos {kind : ListKind} {line first : Str} {pl : Nat} {task : Option TaskState}
    (h : ItemStart kind line pl task first) :
    ∃ k c t, k ≤ 3 ∧ line = List.replicate k ' ' ++ c :: t ∧ c ∉ cs!" \t\r\n#`~>" := by
  cases h with
  | @text k n m _ hk hm => 
    obtain ⟨c, t, rfl, hc⟩ := hm.head
    exact ⟨k, c, _, hk, rfl, hc⟩
  | @task k n m b _ t hk hm => 
    obtain ⟨c, t, rfl, hc⟩ := hm.head
    exact ⟨k, c, _, hk, rfl, hc⟩
  | @empty k m b hk hm =>
    obtain ⟨c, t, rfl, hc⟩ := hm.head
    exact ⟨k, c, _, hk, rfl, hc⟩
  | @box k n m b t hk hm =>
    obtain ⟨c, t, rfl, hc⟩ := hm.head
    exact ⟨k, c, _, hk, rfl, hc⟩

theorem ItemLines.le {kind : ListKind} {pl : Nat} {rest s : Str} {ls : List Str}
    (h : ItemLines kind pl rest s ls) : rest.length ≤ s.length := by
  induction h with
  | nil => exact Nat.le_refl _
  | text _ _ _ _ _ _ _ _ ih => simp; omega
  | blank _ _ _ _ _ _ _ ih => simp; omega

theorem Items.many (hc : cfg.CustomOk) {rest s : Str} {kind : ListKind} {l : List ListItem}
    (h : Items x cfg rest s kind l) : ∃ i q, l = i :: q.map Prod.snd ∧
      many0 (listItemP (blockP x cfg)) s = some (rest, (kind, i) :: q) := by
  induction h with
  | @last kind line first e s pl task ls d h1 h2 h3 h4 h5 h6 =>
    refine ⟨.mk task d.blocks, [], rfl, ?_⟩
    refine many0_of_some (listItemP_of hc h1 h2 h3 h4 h6) ?_ (many0_of_none h5.none)
    obtain ⟨k, c, t, _, rfl, _⟩ := h1.pos
    have := h3.le
    simp; omega
  | @cons kind kind' line first e s s' pl task ls d l h1 h2 h3 h4 h5 _ ih =>
    obtain ⟨i, q, rfl, hq⟩ := ih
    refine ⟨.mk task d.blocks, (kind', i) :: q, rfl, ?_⟩
    refine many0_of_some (listItemP_of hc h1 h2 h3 (.marker h4) h5) ?_ hq
    obtain ⟨k, c, t, _, rfl, _⟩ := h1.pos
    have := h3.le
    simp; omega

theorem Items.listP (hc : cfg.CustomOk) {rest s : Str} {kind : ListKind} {l : List ListItem}
    (h : Items x cfg rest s kind l) : listP (blockP x cfg) s = some (rest, .list kind l) := by
  obtain ⟨i, q, rfl, hq⟩ := h.many hc
  unfold Verif.listP
  rw [many1_of_many0 hq (by simp)]

/-- After the marker of an item there is a blank, a line ending, a bracket or nothing. -/
theorem ItemStart.marker {kind : ListKind} {line first : Str} {pl : Nat} {task : Option TaskState}
    (h : ItemStart kind line pl task first) :
    ∃ k m u, k ≤ 3 ∧ Marker kind m ∧ line = List.replicate k ' ' ++ (m ++ u) ∧
      (u = [] ∨ ∃ d v, u = d :: v ∧ d ∈ cs!" \t[") := by
  cases h with
  | @text k n m _ hk hm h1 =>
    obtain ⟨j, rfl⟩ : ∃ j, n = j + 1 := ⟨n - 1, by omega⟩
    exact ⟨k, m, _, hk, hm, rfl, .inr ⟨' ', _, by rw [List.replicate_succ, List.cons_append], by decide⟩⟩
  | @task k n m b _ t hk hm h1 => 
    obtain ⟨j, rfl⟩ : ∃ j, n = j + 1 := ⟨n - 1, by omega⟩
    exact ⟨k, m, _, hk, hm, rfl, .inr ⟨' ', _, by rw [List.replicate_succ, List.cons_append], by decide⟩⟩
  | @empty k m b hk hm hb =>
    refine ⟨k, m, b, hk, hm, rfl, ?_⟩
    cases b with
    | nil => exact .inl rfl
    | cons c b => 
      refine .inr ⟨c, b, rfl, ?_⟩
      rcases hb c (by simp) with rfl | rfl <;> decide
  | @box k n m b t hk hm hn hb =>
    refine ⟨k, m, _, hk, hm, rfl, .inr ?_⟩
    cases n with
    | zero => obtain ⟨c, rfl⟩ := hb.head; exact ⟨'[', _, rfl, by decide⟩
    | succ n => exact ⟨' ', _, by rw [List.replicate_succ, List.cons_append], by decide⟩

theorem item_not_thematic {k : Nat} {kind : ListKind} {m u : Str} (hk : k ≤ 3) (hm : Marker kind m)
    (hu : ∀ d, u.head? = some d → d ≠ '-' ∧ d ≠ '*') :
    thematicBreakP (List.replicate k ' ' ++ (m ++ u)) = none := by
  cases h : thematicBreakP (List.replicate k ' ' ++ (m ++ u)) with
  | none => rfl
  | some y =>
    exfalso
    obtain ⟨c, t, hct, hcs⟩ := hm.head
    obtain ⟨r, _⟩ := y
    have hcs' : c ≠ ' ' := by rintro rfl; exact hcs (by decide)
    rw [hct, List.cons_append, thematicBreakP_indent hk hcs'] at h
    obtain ⟨l, e, ⟨k', n, a, sp, _, hn, ha, _, rfl⟩, _, h2⟩ := thematicBreakP_some h
    obtain ⟨n, rfl⟩ : ∃ j, n = j + 2 := ⟨n - 2, by omega⟩
    cases k' with
    | succ k' => simp [List.replicate_succ] at h2; exact hcs' h2.1
    | zero =>
      simp [List.replicate_succ] at h2
      obtain ⟨rfl, h2⟩ := h2
      cases hm with
      | dash =>
        simp at hct; obtain ⟨rfl, rfl⟩ := hct
        have := hu '-' (by simpa using congrArg List.head? h2)
        simp at this
      | star =>
        simp at hct; obtain ⟨rfl, rfl⟩ := hct
        have := hu '*' (by simpa using congrArg List.head? h2)
        simp at this
      | plus => simp at hct; obtain ⟨rfl, rfl⟩ := hct; simp at ha
      | @ordered ds d h1 h3 =>
        obtain ⟨b, ds, rfl⟩ := List.exists_cons_of_ne_nil h1
        simp at hct
        have := h3 b (by simp)
        rw [hct.1] at this
        rcases ha with rfl | rfl | rfl <;> revert this <;> decide

/-- C66: one or more list items, the first at the beginning of a block, are one list: its kind is that
of the first marker, and it has, in order, one item per marker line, with the task state of its box
and the blocks that the content of the item parses to; what follows the last item is parsed on its
own. -/
theorem C66_list (hc : cfg.CustomOk) (hl : cfg.list = .parse) {s rest : Str} {kind : ListKind}
    {items : List ListItem} (h : Items x cfg rest s kind items) :
    parseMarkdown x cfg s =
      (parseMarkdown x cfg rest).map (fun d => ⟨.list kind items :: d.blocks⟩) := by
  have hP := h.listP hc
  have hfirst : ∃ k m u, k ≤ 3 ∧ Marker kind m ∧ s = List.replicate k ' ' ++ (m ++ u) ∧
      (∀ d, u.head? = some d → d ≠ '-' ∧ d ≠ '*') ∧ ∃ y, listItemP (blockP x cfg) s = some y := by
    have key : ∀ {line e s' first : Str} {pl : Nat} {task : Option TaskState},
        ItemStart kind line pl task first → LineEnd e s' →
        ∃ k m u, k ≤ 3 ∧ Marker kind m ∧ line ++ (e ++ s') = List.replicate k ' ' ++ (m ++ u) ∧
          (∀ d, u.head? = some d → d ≠ '-' ∧ d ≠ '*') := by
      intro line e s' first pl task h1 he
      obtain ⟨k, m, u, hk, hm, rfl, hu⟩ := h1.marker
      refine ⟨k, m, u ++ (e ++ s'), hk, hm, by simp, ?_⟩
      intro d hd
      rcases hu with rfl | ⟨d', v, rfl, hd'⟩
      · rcases he with (rfl | rfl) | ⟨rfl, rfl⟩ <;> simp at hd <;> subst hd <;> decide
      · simp at hd; subst hd
        constructor <;> rintro rfl <;> revert hd' <;> decide
    cases h with
    | last h1 h2 h3 h4 h5 h6 =>
      obtain ⟨k, m, u, g1, g2, g3, g4⟩ := key h1 h2
      exact ⟨k, m, u, g1, g2, g3, g4, _, listItemP_of hc h1 h2 h3 h4 h6⟩
    | cons h1 h2 h3 h4 h5 h6 =>
      obtain ⟨k, m, u, g1, g2, g3, g4⟩ := key h1 h2
      exact ⟨k, m, u, g1, g2, g3, g4, _, listItemP_of hc h1 h2 h3 (.marker h4) h5⟩
  obtain ⟨k, m, u, hk, hm, rfl, hu, y, hy⟩ := hfirst
  have hth := item_not_thematic hk hm hu
  obtain ⟨c, t, rfl, hcs⟩ := hm.head
  have hn : ∃ z, notAParagraphLine x cfg (blockP x cfg) (List.replicate k ' ' ++ (c :: t ++ u)) = some z := by
    cases e : notAParagraphLine x cfg (blockP x cfg) (List.replicate k ' ' ++ (c :: t ++ u)) with
    | some z => exact ⟨z, rfl⟩
    | none =>
      exfalso
      unfold notAParagraphLine at e
      simp only [orElse_none, conditionalUnit_none] at e
      obtain ⟨_, _, _, _, h, _⟩ := e
      rw [hl, hy] at h
      simp at h
  obtain ⟨z, hn⟩ := hn
  have c1 : c ≠ ' ' := by rintro rfl; exact hcs (by decide)
  have c2 : c ≠ '>' := by rintro rfl; exact hcs (by decide)
  refine parseMarkdown_cons hc (bs := [_]) ?_
  rw [List.cons_append] at *
  rw [blockP_late hc hk (by intro h; apply hcs; revert h; simp; intro h; rcases h with h | h | h | h | h | h | h <;> simp [h]) hn]
  unfold lateAlts
  rw [orElse_of_none (conditionalBlock_none (value_none.2 hth)),
    orElse_of_none (conditionalBlockVec_none (githubAlertP_indent_none hk c1 c2)),
    orElse_of_none (conditionalBlock_none (blockquoteP_indent_none hk c1 c2))]
  refine orElse_of_some ?_
  rw [conditionalBlock_parse hl, hP]
  rfl

/-- C66, the limits: a blank line between two items makes two lists (CommonMark: one loose list); a
marker of another kind (CommonMark: another list), a heading or a quote on the next line is taken into
the item, however little it is indented; `1.` and `7)` are in one list (CommonMark: two); a task box
needs no space in front of it; a marker without a blank ends the item although it begins none. -/
theorem C66_boundaries :
    parseMarkdown PExt.ascii (PConfig.default fun _ => none) cs!"- a\n\n- b" =
      some ⟨[.list (.bullet .dash) [.mk none [.paragraph [.text ['a']]]],
        .list (.bullet .dash) [.mk none [.paragraph [.text ['b']]]]]⟩ ∧
    parseMarkdown PExt.ascii (PConfig.default fun _ => none) cs!"- a\n* b" =
      some ⟨[.list (.bullet .dash) [.mk none [.paragraph [.text ['a']],
        .list (.bullet .star) [.mk none [.paragraph [.text ['b']]]]]]]⟩ ∧
    parseMarkdown PExt.ascii (PConfig.default fun _ => none) cs!"- a\n# b" =
      some ⟨[.list (.bullet .dash) [.mk none [.paragraph [.text ['a']],
        .heading (.atx 1) [.text ['b']]]]]⟩ ∧
    parseMarkdown PExt.ascii (PConfig.default fun _ => none) cs!"1. a\n7) b" =
      some ⟨[.list (.ordered 1) [.mk none [.paragraph [.text ['a']]], .mk none [.paragraph [.text ['b']]]]]⟩ ∧
    parseMarkdown PExt.ascii (PConfig.default fun _ => none) cs!"-[x]" =
      some ⟨[.list (.bullet .dash) [.mk (some .complete) []]]⟩ ∧
    parseMarkdown PExt.ascii (PConfig.default fun _ => none) cs!"- a\n-b" =
      some ⟨[.list (.bullet .dash) [.mk none [.paragraph [.text ['a']]]], .paragraph [.text cs!"-b"]]⟩ := by
  decide +kernel

theorem digit_mem {c : Char} (h : isDigit c = true) : c ∈ cs!"0123456789" := by
  have : 48 ≤ c.toNat ∧ c.toNat ≤ 57 := by
    simp only [isDigit, Bool.and_eq_true, decide_eq_true_eq] at h
    exact ⟨h.1, h.2⟩
  have e : c = Char.ofNat c.toNat := (Char.ofNat_toNat c).symm
  obtain ⟨n, hn⟩ : ∃ n, n = c.toNat := ⟨_, rfl⟩
  rw [e, ← hn]
  rw [← hn] at this
  have h3 : n = 48 ∨ n = 49 ∨ n = 50 ∨ n = 51 ∨ n = 52 ∨ n = 53 ∨ n = 54 ∨ n = 55 ∨ n = 56 ∨ n = 57 := by
    omega
  rcases h3 with rfl | rfl | rfl | rfl | rfl | rfl | rfl | rfl | rfl | rfl <;> decide

theorem Marker.first {kind : ListKind} {m r : Str} {c : Char} {t : Str} (h : Marker kind m)
    (e : c :: t = m ++ r) : c ∈ cs!"*+-0123456789" := by
  cases h with
  | dash => simp at e; rw [e.1]; decide
  | star => simp at e; rw [e.1]; decide
  | plus => simp at e; rw [e.1]; decide
  | @ordered ds d h1 h2 =>
    obtain ⟨b, ds, rfl⟩ := List.exists_cons_of_ne_nil h1
    simp at e
    have := digit_mem (h2 b (by simp))
    rw [e.1]
    revert this
    simp
    intro h; simp [h]

theorem marker_head {kind : ListKind} {m r : Str} {c : Char} {t : Str} {k : Nat} (h : Marker kind m)
    (e : c :: t = List.replicate k ' ' ++ (m ++ r)) : c ∈ cs!" *+-0123456789" := by
  cases k with
  | succ k => simp [List.replicate_succ] at e; rw [e.1]; decide
  | zero =>
    have := h.first (r := r) (c := c) (t := t) (by simpa using e)
    exact List.mem_cons_of_mem _ this

theorem NoItem.of_head {c : Char} {t : Str} (h : c ∉ cs!" *+-0123456789") : NoItem (c :: t) :=
  fun _ _ _ _ _ hm e => absurd (marker_head hm e) h

theorem not_markerAt_head {c : Char} {t : Str} {kind : ListKind} {pl : Nat}
    (h : c ∉ cs!" *+-0123456789") : ¬ MarkerAt kind pl (c :: t) :=
  fun ⟨_, _, _, _, _, _, hm, e⟩ => h (marker_head hm e)

theorem not_thematic_head {c : Char} {t : Str} (h : c ∉ cs!" *-_") : ¬ ThematicLine (c :: t) := by
  rintro ⟨k, n, a, sp, _, hn, ha, _, e⟩
  cases k with
  | succ k => simp [List.replicate_succ] at e; rw [e.1] at h; exact h (by decide)
  | zero =>
    obtain ⟨n, rfl⟩ : ∃ j, n = j + 1 := ⟨n - 1, by omega⟩
    simp [List.replicate_succ] at e
    rw [e.1] at h
    rcases ha with rfl | rfl | rfl <;> exact h (by decide)

theorem NoItem.nil : NoItem [] := by
  intro k m kind r hk hm e
  obtain ⟨c, t, rfl, _⟩ := hm.head
  have := congrArg List.length e
  simp at this

theorem NoBox.of_head {l : Str} (h : l.head? ≠ some '[') : NoBox l := by
  rintro t b r hb _ rfl
  obtain ⟨c, rfl⟩ := hb.head
  simp at h

/-- A task item with a lazy line and, after a blank line, a nested list, then a second item, and then
a paragraph, meet the hypotheses. -/
example (ent : Str → Option Str) (d1 d2 d : Document)
    (h1 : parseMarkdown x (PConfig.default ent) cs!"a\nb\n\n* c" = some d1)
    (h2 : parseMarkdown x (PConfig.default ent) cs!"d" = some d2)
    (h : parseMarkdown x (PConfig.default ent) cs!"\ne" = some d) :
    parseMarkdown x (PConfig.default ent) cs!" 1. [x] a\nb\n\n    * c\n2)   d\n\ne" =
      some ⟨.list (.ordered 1) [.mk (some .complete) d1.blocks, .mk none d2.blocks] :: d.blocks⟩ := by
  have hm1 : Marker (.ordered 1) cs!"1." :=
    Marker.ordered (ds := ['1']) (d := '.') (by simp) (by decide) (by decide) (.inl rfl)
  have hm2 : Marker (.ordered 2) cs!"2)" :=
    Marker.ordered (ds := ['2']) (d := ')') (by simp) (by decide) (by decide) (.inr rfl)
  have one : ∀ l : Str, (l.all fun c => c != '\n' && c != '\r') = true → OneLine l := by
    intro l h c hc
    have := List.all_eq_true.1 h c hc
    simpa using this
  have hit : Items x (PConfig.default ent) cs!"\ne" cs!" 1. [x] a\nb\n\n    * c\n2)   d\n\ne"
      (.ordered 1) [.mk (some .complete) d1.blocks, .mk none d2.blocks] := by
    refine .cons (line := cs!" 1. [x] a") (first := ['a']) (e := ['\n'])
      (s := cs!"b\n\n    * c\n2)   d\n\ne") (s' := cs!"2)   d\n\ne") (pl := 4)
      (ls := [['b'], cs!"\n* c"]) (kind' := .ordered 2)
      (.task (k := 1) (n := 1) (m := cs!"1.") (by decide) hm1 (by decide) (by decide) .x (one _ (by decide)))
      (.inl (.inl rfl)) ?_ ⟨0, _, .ordered 2, cs!"   d\n\ne", by decide, trivial, hm2, rfl⟩ h1 ?_
    · refine .text (j := 0) (l := ['b']) (e := ['\n']) (s := cs!"\n    * c\n2)   d\n\ne") (by decide)
        (.inr (by decide)) (by simp) (one _ (by decide)) (not_thematic_head (by decide))
        (not_markerAt_head (by decide)) (.inl (.inl rfl)) ?_
      exact .blank (j := 0) (nl := ['\n']) (b := []) (l := cs!"* c") (e := ['\n']) (by decide) (.inl rfl)
        .nil ⟨'*', by simp, by decide⟩ (one _ (by decide)) (.inl (.inl rfl)) .nil
    · exact .last (line := cs!"2)   d") (first := ['d']) (e := ['\n']) (s := cs!"\ne") (pl := 5) (ls := [])
        (.text (k := 0) (n := 3) (m := cs!"2)") (by decide) hm2 (by decide) (by decide) (.inr (by decide))
          (one _ (by decide)) ⟨'d', by simp, by decide⟩ (NoBox.of_head (by decide)))
        (.inl (.inl rfl)) .nil
        (.blank (j := 0) (i := 0) (nl := ['\n']) (b := []) (l := ['e']) (s := []) (by decide) (.inl rfl) .nil
          (by decide) (by decide) ⟨'e', by simp, by decide⟩ (one _ (by decide)))
        (NoItem.of_head (by decide)) h2
  rw [C66_list (default_customOk _) rfl hit, h]
  rfl

end

end Verif
