import Verif.ProvenanceInline
/-!
# Blocks and documents lose only markup (C70)
-/
set_option linter.unusedVariables false
set_option linter.unusedSimpArgs false
namespace Verif
open Nom

theorem Er.length {s o : Str} (h : Er s o) : o.length ≤ s.length := h.loses.sub.length_le

theorem Er.mem {s o : Str} (h : Er s o) {c : Char} (hc : c ∈ o) : c ∈ s := h.loses.sub.subset hc

theorem Er.blank {s : Str} (h : BlankText s) : Er s [] := by
  induction h with
  | nil => exact .nil
  | space _ ih => exact .drop (by decide) ih
  | tab _ ih => exact .drop (by decide) ih
  | lf _ ih => exact .drop (by decide) ih
  | crlf _ ih => exact .drop (by decide) (.drop (by decide) ih)

theorem Er.trim (s : Str) : Er s (trim s) := by
  have h1 : ∀ s : Str, Er s (s.dropWhile isWs) := by
    intro s
    induction s with
    | nil => exact .nil
    | cons c s ih =>
      by_cases h : isWs c = true
      · rw [List.dropWhile_cons, if_pos h]; exact .drop (by simp [isMarkup, h]) ih
      · rw [List.dropWhile_cons, if_neg h]; exact .refl _
  have hr : ∀ a b : Str, Er a b → Er a.reverse b.reverse := by
    intro a b h
    induction h with
    | nil => exact .nil
    | keep c _ ih => simpa using ih.append (.refl [c])
    | drop hm _ ih => simpa using ih.append (.drop hm .nil)
  unfold Verif.trim trimEnd trimStart
  refine (h1 s).trans ?_
  have := hr _ _ (h1 (s.dropWhile isWs).reverse)
  simpa using this

/-! ## Lines -/

/-- The parser reads a line: what it returns spells the line and its end, unless it is the last. -/
def LineGives {α : Type} (p : P α) (E : α → Str → Prop) : Prop :=
  ∀ s r a, p s = some (r, a) → ∃ u o, s = u ++ r ∧ E a o ∧ (Er u (o ++ ['\n']) ∨ (r = [] ∧ Er u o))

section
variable {α β : Type}

theorem LineGives.of {p : P α} {E : α → Str → Prop} (h : Gives p E) : LineGives (lineTerminated p) E := by
  intro s r a hp
  obtain ⟨r1, e, h1, h2⟩ := terminated_some.1 hp
  obtain ⟨u, o, rfl, h3, h4⟩ := h _ _ _ h1
  rcases eofOrEol_some.1 h2 with ⟨rfl, _⟩ | ⟨rfl, _⟩ | ⟨rfl, rfl, _⟩
  · exact ⟨u ++ ['\n'], o, by simp, h3, .inl (h4.append (.refl _))⟩
  · exact ⟨u ++ ['\r', '\n'], o, by simp, h3, .inl (h4.append (.drop (by decide) (.refl _)))⟩
  · exact ⟨u, o, rfl, h3, .inr ⟨rfl, h4⟩⟩

theorem LineGives.preceded {p : P α} {q : P β} {E : β → Str → Prop} (h : Drops p) (h' : LineGives q E) :
    LineGives (preceded p q) E := by
  intro s r b hp
  obtain ⟨s1, _, hp, hq⟩ := preceded_some.1 hp
  obtain ⟨u1, o1, rfl, rfl, h2⟩ := h _ _ _ hp
  obtain ⟨u2, o2, rfl, h3, h4⟩ := h' _ _ _ hq
  refine ⟨u1 ++ u2, o2, by simp, h3, ?_⟩
  rcases h4 with h4 | ⟨rfl, h4⟩
  · exact .inl (by simpa using h2.append h4)
  · exact .inr ⟨rfl, by simpa using h2.append h4⟩

theorem LineGives.seq {p : P α} {q : P β} {E : α → Str → Prop} {E' : β → Str → Prop} (h : Gives p E)
    (h' : LineGives q E') :
    LineGives (seq p q) (fun y o => ∃ o1 o2, E y.1 o1 ∧ E' y.2 o2 ∧ o = o1 ++ o2) := by
  intro s r y hp
  obtain ⟨s1, hp, hq⟩ := seq_some.1 hp
  obtain ⟨u1, o1, rfl, h1, h2⟩ := h _ _ _ hp
  obtain ⟨u2, o2, rfl, h3, h4⟩ := h' _ _ _ hq
  refine ⟨u1 ++ u2, o1 ++ o2, by simp, ⟨_, _, h1, h3, rfl⟩, ?_⟩
  rcases h4 with h4 | ⟨rfl, h4⟩
  · exact .inl (by simpa using h2.append h4)
  · exact .inr ⟨rfl, h2.append h4⟩

theorem LineGives.mapP {p : P α} {E : β → Str → Prop} {f : α → β} (h : LineGives p (fun a o => E (f a) o)) :
    LineGives (mapP p f) E := by
  intro s r b hp
  obtain ⟨a, hp', rfl⟩ := mapP_some.1 hp
  exact h _ _ _ hp'

theorem LineGives.orElse {p q : P α} {E : α → Str → Prop} (h : LineGives p E) (h' : LineGives q E) :
    LineGives (p <||> q) E := by
  intro s r a hp
  rcases orElse_some.1 hp with hp | ⟨_, hp⟩
  · exact h _ _ _ hp
  · exact h' _ _ _ hp

theorem LineGives.mono {p : P α} {E E' : α → Str → Prop} (h : LineGives p E) (hE : ∀ a o, E a o → E' a o) :
    LineGives p E' := by
  intro s r a hp
  obtain ⟨u, o, h1, h2, h3⟩ := h s r a hp
  exact ⟨u, o, h1, hE _ _ h2, h3⟩

/-- Lines, the first of which was read as far as `o0`. -/
theorem LineGives.rest {p : P α} {f : α → Str} (h : LineGives p (fun a o => o = f a)) :
    ∀ s r l, many0 p s = some (r, l) → ∃ u, s = u ++ r ∧
      ∀ u0 o0, (Er u0 (o0 ++ ['\n']) ∨ (s = [] ∧ Er u0 o0)) →
        Er (u0 ++ u) (o0 ++ (l.map (fun a => '\n' :: f a)).flatten) := by
  refine many0_induction ?_ ?_
  · intro s _
    refine ⟨[], rfl, fun u0 o0 h0 => ?_⟩
    rcases h0 with h0 | ⟨_, h0⟩
    · simpa using h0.trans ((Er.refl o0).append (.drop (by decide) .nil))
    · simpa using h0
  · intro s r a r' l hp hlt hm ih
    obtain ⟨u1, o1, rfl, rfl, h1⟩ := h _ _ _ hp
    obtain ⟨u, rfl, h2⟩ := ih
    refine ⟨u1 ++ u, by simp, fun u0 o0 h0 => ?_⟩
    have h0 : Er u0 (o0 ++ ['\n']) := by
      rcases h0 with h0 | ⟨hs, _⟩
      · exact h0
      · have := congrArg List.length hs
        simp only [List.length_append, List.length_nil] at this hlt
        omega
    have h3 := h2 (u0 ++ u1) (o0 ++ '\n' :: f a) (by
      rcases h1 with h1 | ⟨h1, h1'⟩
      · exact .inl (by simpa using h0.append h1)
      · exact .inr ⟨h1, by simpa using h0.append h1'⟩)
    simpa using h3

theorem LineGives.many1 {p : P α} {f : α → Str} (h : LineGives p (fun a o => o = f a)) :
    Gives (many1 p) (fun l o => o = joinWith ['\n'] (l.map f)) := by
  intro s r l hp
  obtain ⟨r1, a, l', h1, h2, rfl⟩ := many1_some.1 hp
  obtain ⟨u, o, rfl, rfl, h3⟩ := h _ _ _ h1
  obtain ⟨u', rfl, h4⟩ := h.rest _ _ _ h2
  refine ⟨u ++ u', _, by simp, rfl, ?_⟩
  rw [List.map_cons, joinWith_cons_flatten]
  have := h4 u (f a) (by
    rcases h3 with h3 | ⟨h3, h3'⟩
    · exact .inl h3
    · exact .inr ⟨h3, h3'⟩)
  simpa [Function.comp_def] using this

theorem LineGives.many0 {p : P α} {f : α → Str} (h : LineGives p (fun a o => o = f a)) :
    Gives (many0 p) (fun l o => o = joinWith ['\n'] (l.map f)) := by
  intro s r l hp
  cases e : p s with
  | none => rw [many0_of_none e] at hp; simp at hp; obtain ⟨rfl, rfl⟩ := hp; exact ⟨[], [], rfl, rfl, .nil⟩
  | some y =>
    obtain ⟨r1, a⟩ := y
    rw [many0_eq, e] at hp
    simp only at hp
    split at hp
    · cases e2 : Nom.many0 p r1 with
      | none => simp [e2] at hp
      | some z =>
        obtain ⟨r2, l2⟩ := z
        simp [e2] at hp
        obtain ⟨rfl, rfl⟩ := hp
        exact h.many1 _ _ _ (many1_some.2 ⟨r1, a, l2, e, e2, rfl⟩)
    · simp at hp

end

/-! ## Leaf blocks -/

section
variable {x : PExt} {ent : Str → Option Str}

theorem line0_gives : LineGives (lineTerminated notEofOrEol0) (fun t o => o = id t) :=
  .of notEofOrEol0_copies
theorem line1_gives : LineGives (lineTerminated notEofOrEol1) (fun t o => o = id t) :=
  .of notEofOrEol1_copies

theorem codeBlockIndented_gives : Gives codeBlockIndented (SpellsBlock x ent) := by
  refine Gives.mapP ((LineGives.many1 (LineGives.preceded
    ((chr_drops (by decide)).manyMN.value.orElse (chr_drops (by decide)).value) line0_gives)).mono ?_)
  rintro l o rfl
  rw [List.map_id]
  exact .indented

theorem fence_markup {s r : Str} {sp : List Char} {fence : Str} {info : Option Str}
    (h : Nom.seq indent03 openingFence s = some (r, (sp, (fence, info)))) :
    ∀ c ∈ fence, isMarkup c = true := by
  obtain ⟨s1, h1, h2⟩ := seq_some.1 h
  obtain ⟨s2, _, h3, _⟩ := terminated_some.1 h2
  obtain ⟨s3, h4, _⟩ := seq_some.1 h3
  have hd : Drops (manyMin 3 (chr '`') <||> manyMin 3 (chr '~')) :=
    (chr_drops (by decide)).manyMin.orElse (chr_drops (by decide)).manyMin
  obtain ⟨l, h5, h6⟩ := recognize_some.1 h4
  obtain ⟨u, o, hu, rfl, h7⟩ := hd _ _ _ h5
  have hf : fence = u := by
    simp only at h6
    rw [h6, hu, List.length_append, Nat.add_sub_cancel, List.take_left' rfl]
  intro c hc
  have := h7.loses.letters
  rw [hf] at hc
  cases hm : isMarkup c with
  | true => rfl
  | false =>
    have : c ∈ u.filter (fun c => !isMarkup c) := List.mem_filter.2 ⟨hc, by simp [hm]⟩
    rw [← h7.loses.letters] at this
    simp at this

theorem endingFence_drops {fence : Str} (h : ∀ c ∈ fence, isMarkup c = true) : Drops (endingFence fence) := by
  refine Gives.lineTerminated (Drops.value (indent03_drops.seq ((tag_drops h).seq (Drops.many0 (chr_drops ?_)))))
  cases fence with
  | nil => decide
  | cons c f => exact h c (by simp)

theorem codeBlockFenced_gives : Gives codeBlockFenced (SpellsBlock x ent) := by
  intro s r b hp
  unfold codeBlockFenced at hp
  split at hp
  · simp at hp
  · rename_i s1 sp fence info e1
    split at hp
    · simp at hp
    · rename_i s2 lines e2
      simp at hp
      obtain ⟨rfl, rfl⟩ := hp
      have hm := fence_markup e1
      have hopen : Gives (Nom.seq indent03 openingFence) (fun y o => o = y.2.2.getD []) := by
        have hb : Drops (recognize (manyMin 3 (chr '`') <||> manyMin 3 (chr '~'))) :=
          ((chr_drops (by decide)).manyMin.orElse (chr_drops (by decide)).manyMin).recognize
        refine (Gives.seq indent03_drops (Gives.lineTerminated (Gives.seq hb
          (opt_copies (recognize_copies (p := notEofOrEol1)))))).mono ?_
        rintro ⟨a, b, c⟩ o ⟨o1, o2, h1, ⟨o3, o4, h2, h3, h4⟩, rfl⟩
        simp only at h1 h2 h3 h4 ⊢
        subst h1 h2 h3 h4
        rfl
      obtain ⟨u1, o1, rfl, h1, h2⟩ := hopen _ _ _ e1
      have hlines : Gives (terminated (fencedLines fence sp.length) (endingFence fence))
          (fun l o => o = joinWith ['\n'] (l.map id)) :=
        Gives.terminated (LineGives.many0 (.preceded Drops.notP (.preceded (chr_drops (by decide)).manyMN
          line0_gives))) (endingFence_drops hm)
      obtain ⟨u2, o2, rfl, h3, h4⟩ := hlines _ _ _ e2
      simp only [List.map_id] at h1 h3
      subst h1 h3
      exact ⟨u1 ++ u2, _, by simp, .fenced, h2.append h4⟩

theorem headingV1_gives {cfg : PConfig} (hk : cfg.Keeps) :
    Gives (headingV1 x cfg) (SpellsBlock x cfg.entities) := by
  intro s r b hp
  unfold headingV1 at hp
  split at hp
  · simp at hp
  · rename_i r1 hashes content e1
    split at hp
    · rename_i l e2
      simp at hp
      obtain ⟨rfl, rfl⟩ := hp
      have hg : Gives (Nom.seq (manyMN (chr '#') 1 6)
          (preceded (if cfg.allowNoSpaceInHeadings then space0 else space1)
            (lineTerminated notEofOrEol1))) (fun y o => o = y.2) := by
        refine (Gives.seq (Drops.manyMN (chr_drops (by decide))) (Gives.preceded ?_
          (Gives.lineTerminated notEofOrEol1_copies))).mono ?_
        · split
          · exact space0_drops
          · exact space1_drops
        · rintro ⟨a, b⟩ o ⟨o1, o2, h1, h2, rfl⟩
          simp only at h1 h2 ⊢; subst h1 h2; rfl
      obtain ⟨u, o, rfl, h1, h2⟩ := hg _ _ _ e1
      simp only at h1
      subst h1
      obtain ⟨o', h3, h4⟩ := parseInlines0_spells hk _ _ e2
      exact ⟨u, o', rfl, .heading h3, h2.trans h4⟩
    · simp at hp

theorem headingV2Level_drops : Drops headingV2Level :=
  Gives.lineTerminated (Drops.preceded indent03_drops (Drops.terminated
    ((Drops.value (chr_drops (by decide)).many1).orElse (Drops.value (chr_drops (by decide)).many1))
    space0_drops))

theorem thematicBreakP_drops : Drops thematicBreakP :=
  Drops.value (Gives.lineTerminated (Drops.preceded indent03_drops (Drops.terminated
    ((chr_drops (by decide)).manyMin.orElse ((chr_drops (by decide)).manyMin.orElse
      (chr_drops (by decide)).manyMin)) space0_drops)))

theorem htmlBlockP_copies : Copies htmlBlockP := by
  have h : ∀ {α : Type} {p : P α} [Suf p], Copies (preceded indent03 (recognize p)) :=
    fun {α p} _ => Gives.preceded indent03_drops recognize_copies
  exact .orElse h (.orElse h (.orElse h (.orElse h (.orElse h (.orElse h h)))))

theorem oneLineWhitespace1_drops : Drops oneLineWhitespace1 :=
  Drops.verify (Drops.recognize (Drops.many1 (lineEnding_drops.orElse space1_drops)))

theorem linkDefinitionP_gives {cfg : PConfig} (hk : cfg.Keeps) :
    Gives (linkDefinitionP x cfg) (SpellsBlock x cfg.entities) := by
  refine Gives.mapP ((Gives.terminated (Gives.seq
    (Gives.preceded indent03_drops (linkLabel_gives (parseInlines1_spells hk)))
    (Gives.preceded (chr_drops (by decide)) (Gives.preceded
      (space0_drops.seq ((Drops.opt lineEnding_drops).seq space0_drops))
      (Gives.seq linkDestination_copies (opt_copies
        (Gives.preceded oneLineWhitespace1_drops linkTitle_copies)))))) eofOrEol_drops).mono ?_)
  rintro ⟨l, d, t⟩ o ⟨o1, o2, h1, ⟨o3, o4, h3, h4, h2⟩, rfl⟩
  simp only at h1 h2 h3 h4 ⊢
  subst h2 h3 h4
  exact .definition h1

/-! ## Tables -/

theorem cellContent_gives {cfg : PConfig} (hk : cfg.Keeps) :
    Gives (cellContent x cfg) (fun l o => SpellsInlines cfg.entities l o ∧ '\n' ∉ o) := by
  have hc : Gives (preceded (notP (value () eofOrEol <||> value () (chr '|')))
      (value '|' (tag cs!"\\|") <||> anychar)) (fun c o => o = [c] ∧ c ≠ '\n') := by
    intro s r c hp
    obtain ⟨s1, _, h1, h2⟩ := preceded_some.1 hp
    obtain ⟨h1, rfl⟩ := notP_some.1 h1
    obtain ⟨u, o, rfl, rfl, h3⟩ := (escape_gives.orElse anychar_gives) _ _ _ h2
    refine ⟨u, [c], rfl, ⟨rfl, ?_⟩, h3⟩
    rintro rfl
    rcases orElse_some.1 h2 with h2 | ⟨_, h2⟩
    · obtain ⟨_, _, h⟩ := value_some.1 h2
      simp at h
    · rw [anychar_some.1 h2] at h1
      simp [orElse_none, value_none, eofOrEol, lineEnding] at h1
  refine Gives.mapOpt hc.many1 ?_
  intro a l o h1 h2
  have h3 : o = a ∧ '\n' ∉ a := by
    clear h1
    induction h2 with
    | nil => simp
    | @cons c l' o1 o2 h _ ih =>
      obtain ⟨rfl, h⟩ := h
      obtain ⟨rfl, ih⟩ := ih
      exact ⟨rfl, by simp [h.symm, ih]⟩
  obtain ⟨rfl, h3⟩ := h3
  obtain ⟨o', h4, h5⟩ := parseInlines0_spells hk _ _ h1
  have h6 := (Er.trim o).trans h5
  exact ⟨o', ⟨h4, fun hm => h3 (h6.mem hm)⟩, h6⟩

theorem cells_gives {cfg : PConfig} (hk : cfg.Keeps) :
    Gives (sepLoop (chr '|') (cellContent x cfg)) (SpellsCells cfg.entities) := by
  refine sepLoop_induction ?_ ?_
  · intro s _; exact ⟨[], [], rfl, .nil, .nil⟩
  · intro s r b r' a r'' l hsep hp _ _ ih
    obtain ⟨rfl, _⟩ := chr_some.1 hsep
    obtain ⟨u, o, rfl, h1, h2⟩ := cellContent_gives hk _ _ _ hp
    obtain ⟨u', o', rfl, h3, h4⟩ := ih
    exact ⟨'|' :: (u ++ u'), '|' :: (o ++ o'), by simp, .cons h1.1 h1.2 h3,
      .keep _ (h2.append h4)⟩

theorem tableRow_gives {cfg : PConfig} (hk : cfg.Keeps) : Gives (tableRow x cfg)
    (SpellsCells cfg.entities) := by
  refine Gives.lineTerminated (Gives.preceded indent03_drops ?_)
  intro s r l hp
  obtain ⟨s1, a, s2, b, h1, h2, h3⟩ := delimited_some.1 hp
  obtain ⟨rfl, _⟩ := chr_some.1 h1
  obtain ⟨r1, a, l', h4, h5, rfl⟩ := separatedList1_some.1 h2
  obtain ⟨u, o, rfl, h6, h7⟩ := cellContent_gives hk _ _ _ h4
  obtain ⟨u', o', rfl, h8, h9⟩ := cells_gives hk _ _ _ h5
  obtain ⟨u2, o2, rfl, rfl, h10⟩ := (Drops.opt (chr_drops (c := '|') (by decide))) _ _ _ h3
  exact ⟨'|' :: (u ++ (u' ++ u2)), '|' :: (o ++ o'), by simp, .cons h6.1 h6.2 h8,
    .keep _ (h7.append (by simpa using h9.append h10))⟩

theorem alignmentRow_drops : Drops alignmentRow := by
  have hc : Drops alignmentCell := by
    refine Drops.mapP (Drops.delimited space0_drops ?_ space0_drops)
    have h : Drops (many1 (chr '-')) := (chr_drops (by decide)).many1
    have h' : Drops (chr ':') := chr_drops (by decide)
    exact (Drops.delimited h' h h').recognize.orElse ((Drops.preceded h' h).recognize.orElse
      ((Drops.terminated h h').recognize.orElse h.recognize))
  exact Gives.lineTerminated (Drops.preceded indent03_drops (Drops.delimited (chr_drops (by decide))
    ((Gives.separatedList1 (chr_drops (by decide)) hc).mono fun _ _ => ListE.nothing)
    (Drops.opt (chr_drops (by decide)))))

theorem fitRow_eq {n : Nat} {l : List (List Inline)} :
    fitRow n l = l.take n ++ List.replicate (n - l.length) [.text []] := by
  unfold fitRow
  split
  · rw [List.take_of_length_le (by omega)]
  · have : n - l.length = 0 := by omega
    rw [this]
    split
    · simp
    · rw [List.take_of_length_le (by omega)]; simp

theorem tableP_gives {cfg : PConfig} (hk : cfg.Keeps) : Gives (tableP x cfg) (SpellsBlock x cfg.entities) := by
  intro s r b hp
  unfold tableP at hp
  split at hp
  · simp at hp
  · rename_i s1 header e1
    split at hp
    · simp at hp
    · rename_i s2 aligns e2
      split at hp
      · simp at hp
      · rename_i hlen
        split at hp
        · simp at hp
        · rename_i s3 rows e3
          simp at hp
          obtain ⟨rfl, rfl⟩ := hp
          obtain ⟨u1, o1, rfl, h1, h2⟩ := tableRow_gives hk _ _ _ e1
          obtain ⟨u2, o2, rfl, rfl, h3⟩ := alignmentRow_drops _ _ _ e2
          have hr : Gives (tableDataRows x cfg header.length) (SpellsRows cfg.entities header.length) := by
            have : Gives (mapP (tableRow x cfg) (fitRow header.length)) (fun l o => ∃ q,
                SpellsCells cfg.entities q o ∧
                l = q.take header.length ++ List.replicate (header.length - q.length) [.text []]) :=
              Gives.mapP ((tableRow_gives hk).mono fun l o h => ⟨l, h, fitRow_eq⟩)
            refine this.many0.mono ?_
            intro l o h
            induction h with
            | nil => exact .nil
            | cons h _ ih =>
              obtain ⟨q, h1, rfl⟩ := h
              exact .row h1 ih
          obtain ⟨u3, o3, rfl, h4, h5⟩ := hr _ _ _ e3
          simp only [ne_eq, Decidable.not_not] at hlen
          rw [← hlen] at h4
          exact ⟨u1 ++ (u2 ++ u3), o1 ++ o3, by simp, .table h1 hlen.symm h4,
            h2.append (h3.append h5)⟩

/-! ## Paragraphs -/

theorem sepLines_gives {p : P Str} (h : Copies p) :
    Gives (sepLoop lineEnding p) (fun l o => o = (l.map ('\n' :: ·)).flatten) := by
  refine sepLoop_induction ?_ ?_
  · intro s _; exact ⟨[], [], rfl, rfl, .nil⟩
  · intro s r b r' a r'' l hsep hp _ _ ih
    obtain ⟨u, o, rfl, rfl, h2⟩ := h _ _ _ hp
    obtain ⟨u', o', rfl, rfl, h4⟩ := ih
    rcases lineEnding_some.1 hsep with ⟨rfl, _⟩ | ⟨rfl, _⟩
    · exact ⟨'\n' :: (u ++ u'), _, by simp, rfl, .keep _ (h2.append h4)⟩
    · exact ⟨'\r' :: '\n' :: (u ++ u'), _, by simp, rfl, .drop (by decide) (.keep _ (h2.append h4))⟩

theorem paragraphLine_copies : Copies paragraphLine := Gives.preceded indent03_drops notEofOrEol1_copies

theorem paragraphLines_gives {cfg : PConfig} {rec : P (List Block)} :
    Gives (paragraphLines x cfg rec) (fun l o => o = joinWith ['\n'] l) := by
  refine Gives.lineTerminated ?_
  intro s r l hp
  have hc : Copies (preceded (notP (notAParagraphLine x cfg rec)) paragraphLine) :=
    Gives.preceded Drops.notP paragraphLine_copies
  rcases separatedList0_some.1 hp with ⟨_, rfl, rfl⟩ | ⟨r1, a, l', h1, h2, rfl⟩
  · exact ⟨[], [], rfl, rfl, .nil⟩
  · obtain ⟨u, o, rfl, rfl, h3⟩ := hc _ _ _ h1
    obtain ⟨u', o', rfl, rfl, h4⟩ := sepLines_gives hc _ _ _ h2
    exact ⟨u ++ u', _, by simp, rfl, by rw [joinWith_cons_flatten]; exact h3.append h4⟩

theorem paragraphP_gives {cfg : PConfig} (hk : cfg.Keeps) {rec : P (List Block)} {b : Bool} :
    Gives (paragraphP x cfg rec b) (SpellsInlines cfg.entities) := by
  refine Gives.mapOpt (E := fun l o => o = joinWith ['\n'] l) ?_ ?_
  · cases b
    · simp only [Bool.false_eq_true, if_false]
      intro s r l hp
      obtain ⟨⟨a, l'⟩, h1, rfl⟩ := mapP_some.1 hp
      obtain ⟨s1, h2, h3⟩ := seq_some.1 h1
      obtain ⟨u, o, rfl, rfl, h4⟩ := paragraphLine_copies _ _ _ h2
      obtain ⟨u', o', rfl, rfl, h5⟩ := paragraphLines_gives _ _ _ h3
      have hl : l' = [] := by
        obtain ⟨s2, e, h6, h7⟩ := terminated_some.1 h3
        rcases separatedList0_some.1 h6 with ⟨_, _, h⟩ | ⟨r1, a', l'', h8, _, _⟩
        · exact h
        · exfalso
          obtain ⟨s3, _, h9, h10⟩ := preceded_some.1 h8
          obtain ⟨_, rfl⟩ := notP_some.1 h9
          obtain ⟨s4, _, h11, h12⟩ := preceded_some.1 h2
          have h13 := notEofOrEol1_rest h12
          cases h14 : eofOrEol (u' ++ r) with
          | none => simp [h14] at h13
          | some y => rw [paragraphLine_of_eol h14] at h10; simp at h10
      subst hl
      exact ⟨u ++ u', _, by simp, rfl, by simpa [joinWith] using h4.append h5⟩
    · exact paragraphLines_gives
  · rintro a l o h rfl
    exact parseInlines1_spells hk _ _ h

theorem headingV2OrParagraph_gives {cfg : PConfig} (hk : cfg.Keeps) {rec : P (List Block)} :
    Gives (headingV2OrParagraph x cfg rec) (SpellsBlock x cfg.entities) := by
  refine Gives.mapP (((paragraphP_gives hk).seq (Drops.opt headingV2Level_drops)).mono ?_)
  rintro ⟨l, lev⟩ o ⟨o1, o2, h1, h2, rfl⟩
  simp only at h1 h2 ⊢
  subst h2
  rw [List.append_nil]
  split
  · exact .heading h1
  · exact .paragraph h1

end
end Verif
