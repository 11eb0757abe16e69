import Verif.ProvenanceBlock
/-!
# Documents lose only markup (C70)
-/
set_option linter.unusedVariables false
set_option linter.unusedSimpArgs false
namespace Verif
open Nom

section
variable {x : PExt} {ent : Str → Option Str}

/-! ## Markers of list items -/

theorem listMarker_gives : Gives listMarker FirstNumber := by
  have ho : Gives listMarkerOrdered FirstNumber := by
    refine Gives.mapP (Gives.terminated ?_ (oneOf_drops (by decide)))
    intro s r n hp
    unfold u64P at hp
    split at hp
    · simp at hp
    · rename_i r1 d e
      split at hp
      · simp at hp
        obtain ⟨rfl, rfl⟩ := hp
        obtain ⟨u, o, h1, ⟨rfl, h2, h3⟩, h4⟩ := takeWhile1_copies _ _ _ e
        exact ⟨u, o, h1, ⟨h2, h3, rfl⟩, h4⟩
      · simp at hp
  have hb : ∀ {b : BulletKind} {c : Char}, isMarkup c = true →
      Gives (value (ListKind.bullet b) (chr c)) FirstNumber := by
    intro b c hc
    exact Gives.value ((chr_drops hc).mono fun _ _ h => h)
  exact .orElse ho (.orElse (hb (by decide)) (.orElse (hb (by decide)) (hb (by decide))))

theorem FirstNumber.digits {k : ListKind} {d : Str} (h : FirstNumber k d) : ∀ c ∈ d, isDigit c = true := by
  cases k with
  | ordered n => exact h.2.1
  | bullet b => simp [FirstNumber] at h; simp [h]

theorem listItemTaskState_gives : Gives listItemTaskState (fun t o => TaskMark (some t) o) := by
  refine Gives.delimited (chr_drops (by decide)) (.orElse (Gives.value (satisfy_gives.mono ?_))
    (Gives.value ((chr_drops (by decide)).mono ?_))) (chr_drops (by decide))
  · rintro c o ⟨rfl, h⟩
    simp at h
    rcases h with rfl | rfl
    · exact .inl rfl
    · exact .inr rfl
  · intro _ _ h; exact h

/-- What a marker spells. -/
def MarkerSpells (k : ListKind) (t : Option TaskState) (o : Str) : Prop :=
  ∃ d m, FirstNumber k d ∧ TaskMark t m ∧ o = d ++ m

theorem spacesMarker_gives : Gives listMarkerFollowedBySpaces (fun y o => MarkerSpells y.1 y.2.2 o) := by
  intro s r y hp
  unfold listMarkerFollowedBySpaces at hp
  split at hp
  · simp at hp
  · rename_i r1 kind e
    obtain ⟨t, h1, rfl⟩ := mapP_some.1 hp
    obtain ⟨u1, o1, rfl, h2, h3⟩ := (Gives.delimited indent03_drops listMarker_gives
      (Drops.manyMN (chr_drops (by decide)))) _ _ _ e
    obtain ⟨u2, o2, rfl, h4, h5⟩ := (Gives.opt (Gives.terminated listItemTaskState_gives
      (chr_drops (c := ' ') (by decide)))) _ _ _ h1
    refine ⟨u1 ++ u2, o1 ++ o2, by simp, ⟨o1, o2, h2, ?_, rfl⟩, h3.append h5⟩
    cases t with
    | none => exact h4
    | some t => exact h4

theorem newlineMarker_gives : LineGives listMarkerFollowedByNewline (fun y o => MarkerSpells y.1 y.2.2 o) := by
  intro s r y hp
  unfold listMarkerFollowedByNewline at hp
  split at hp
  · simp at hp
  · rename_i r1 kind e
    obtain ⟨u1, o1, rfl, h2, h3⟩ := (Gives.preceded indent03_drops listMarker_gives) _ _ _ e
    split at hp
    · rename_i tail v e2
      simp at hp
      obtain ⟨rfl, rfl⟩ := hp
      obtain ⟨u2, o2, rfl, h4, h5⟩ := (LineGives.of space0_drops) _ _ _ e2
      subst h4
      refine ⟨u1 ++ u2, o1, by simp, ⟨o1, [], h2, rfl, by simp⟩, ?_⟩
      rcases h5 with h5 | ⟨rfl, h5⟩
      · exact .inl (h3.append h5)
      · exact .inr ⟨rfl, by simpa using h3.append h5⟩
    · split at hp
      · simp at hp
      · rename_i r2 v e3
        obtain ⟨t, h1, rfl⟩ := mapP_some.1 hp
        obtain ⟨u2, o2, rfl, rfl, h4⟩ := indent03_drops _ _ _ e3
        obtain ⟨u3, o3, rfl, h5, h6⟩ := (LineGives.of listItemTaskState_gives) _ _ _ h1
        refine ⟨u1 ++ (u2 ++ u3), o1 ++ o3, by simp, ⟨o1, o3, h2, h5, rfl⟩, ?_⟩
        rcases h6 with h6 | ⟨rfl, h6⟩
        · exact .inl (by simpa using h3.append (h4.append h6))
        · exact .inr ⟨rfl, by simpa using h3.append (h4.append h6)⟩

theorem listMarkerWithSpanSize_gives : LineGives listMarkerWithSpanSize
    (fun y o => ∃ o1, MarkerSpells y.1 y.2.2.1 o1 ∧ o = o1 ++ y.2.2.2) := by
  refine .orElse (LineGives.mapP (newlineMarker_gives.mono ?_))
    (LineGives.mapP ((LineGives.seq spacesMarker_gives line0_gives).mono ?_))
  · rintro ⟨k, n, t⟩ o h
    exact ⟨o, h, by simp⟩
  · rintro ⟨⟨k, n, t⟩, l⟩ o ⟨o1, o2, h1, h2, rfl⟩
    exact ⟨o1, h1, by rw [h2]; rfl⟩

theorem listItemRestLine_gives {k : ListKind} {pl : Nat} :
    LineGives (listItemRestLine k pl) (fun l o => o = l.flatten) := by
  intro s r l hp
  unfold listItemRestLine at hp
  split at hp
  · simp at hp
  · refine LineGives.of (E := fun (l : List Str) o => o = l.flatten)
      (Gives.preceded Drops.notP (.orElse ?_ (Gives.mapP ?_))) _ _ _ hp
    · refine Gives.preceded (Drops.manyMN (chr_drops (by decide))) (Gives.mapP (notEofOrEol1_copies.mono ?_))
      rintro t o rfl; simp
    · refine (Gives.seq (recognize_copies (p := many1 (lineTerminated space0)))
        (Gives.preceded (Drops.manyMN (chr_drops (by decide))) notEofOrEol1_copies)).mono ?_
      rintro ⟨a, b⟩ o ⟨o1, o2, h1, h2, rfl⟩
      simp only at h1 h2 ⊢
      subst h1 h2
      simp

/-! ## Containers -/

/-- The nested blocks of texts shorter than `n` lose only markup. -/
def BlocksKeep (x : PExt) (ent : Str → Option Str) (n : Nat) (rec : P (List Block)) : Prop :=
  ∀ s, s.length < n → ∀ r bs, rec s = some (r, bs) → ∃ u o, s = u ++ r ∧ SpellsBlocks x ent bs o ∧ Er u o

theorem SpellsBlocks.append {l l' : List Block} {o o' : Str} (h : SpellsBlocks x ent l o)
    (h' : SpellsBlocks x ent l' o') : SpellsBlocks x ent (l ++ l') (o ++ o') := by
  induction l generalizing o with
  | nil => cases h; exact h'
  | cons b l ih =>
    cases h with
    | cons h1 h2 => rw [List.append_assoc]; exact .cons h1 (ih h2)

variable {n : Nat} {rec : P (List Block)}

theorem many0_blocks_spell (hr : BlocksKeep x ent n rec) : ∀ s r l, many0 rec s = some (r, l) → s.length < n →
    ∃ u o, s = u ++ r ∧ SpellsBlocks x ent l.flatten o ∧ Er u o := by
  refine many0_induction ?_ ?_
  · intro s _ _; exact ⟨[], [], rfl, .nil, .nil⟩
  · intro s r a r' l hp hlt hm ih hs
    obtain ⟨u, o, rfl, h1, h2⟩ := hr _ hs _ _ hp
    obtain ⟨u', o', rfl, h3, h4⟩ := ih (by omega)
    exact ⟨u ++ u', o ++ o', by simp, h1.append h3, h2.append h4⟩

theorem blocks0_spells (hr : BlocksKeep x ent n rec) (hb : ∀ s, rec s = none → BlankText s) {s : Str}
    {bs : List Block} (hs : s.length < n) (h : blocks0 rec s = some bs) :
    ∃ o, SpellsBlocks x ent bs o ∧ Er s o := by
  unfold blocks0 at h
  simp only [Option.map_eq_some_iff] at h
  obtain ⟨⟨r, l⟩, h, rfl⟩ := h
  obtain ⟨u, o, rfl, h1, h2⟩ := many0_blocks_spell hr _ _ _ h hs
  exact ⟨o, h1, by simpa using h2.append (Er.blank (hb _ (many0_stop h)))⟩

theorem blocks1_spells (hr : BlocksKeep x ent n rec) (hb : ∀ s, rec s = none → BlankText s) {s : Str}
    {bs : List Block} (hs : s.length < n) (h : blocks1 rec s = some bs) :
    ∃ o, SpellsBlocks x ent bs o ∧ Er s o := by
  unfold blocks1 at h
  simp only [Option.map_eq_some_iff] at h
  obtain ⟨⟨r, l⟩, h, rfl⟩ := h
  obtain ⟨r1, a, l', h1, h2, rfl⟩ := many1_some.1 h
  obtain ⟨u, o, rfl, h3, h4⟩ := hr _ hs _ _ h1
  obtain ⟨u', o', rfl, h5, h6⟩ := many0_blocks_spell hr _ _ _ h2 (by simp at hs; omega)
  refine ⟨o ++ o', h3.append h5, ?_⟩
  simpa using h4.append (h6.append (Er.blank (hb _ (many0_stop h2))))

theorem quoteLines_gives : Gives quoteLines (fun l o => o = joinWith ['\n'] l) := by
  refine (LineGives.many1 (LineGives.preceded (Drops.preceded indent03_drops (chr_drops (by decide)))
    line0_gives)).mono ?_
  rintro l o rfl
  rw [List.map_id]

theorem blockquoteP_spells (hr : BlocksKeep x ent n rec) (hb : ∀ s, rec s = none → BlankText s)
    {s r : Str} {b : Block} (hs : s.length ≤ n) (h : blockquoteP rec s = some (r, b)) :
    ∃ u o, s = u ++ r ∧ SpellsBlock x ent b o ∧ Er u o := by
  obtain ⟨lines, h1, h2⟩ := mapOpt_some.1 h
  simp only [Option.map_eq_some_iff] at h2
  obtain ⟨bs, h2, rfl⟩ := h2
  have hl := quoteLines_length h1
  obtain ⟨u, o, rfl, rfl, h3⟩ := quoteLines_gives _ _ _ h1
  obtain ⟨o', h4, h5⟩ := blocks1_spells hr hb (by omega) h2
  exact ⟨u, o', rfl, .blockQuote h4, h3.trans h5⟩

theorem alertMarkerP_some {s : Str} {t : AlertType} (h : alertMarkerP s = some ([], t)) :
    s = cs!"[!" ++ (alertWord t ++ [']']) := by
  obtain ⟨s1, a, s2, b, h1, h2, h3⟩ := delimited_some.1 h
  obtain ⟨rfl, _⟩ := tag_some.1 h1
  obtain ⟨rfl, _⟩ := tag_some.1 h3
  simp only [List.append_nil] at h2
  have hv : ∀ {w : Str} {t0 : AlertType}, alertWord t0 = w → value t0 (tag w) s1 = some ([']'], t) →
      s1 = alertWord t ++ [']'] := by
    intro w t0 hw h
    obtain ⟨_, h', rfl⟩ := value_some.1 h
    rw [(tag_some.1 h').1, hw]
  have : s1 = alertWord t ++ [']'] := by
    rcases orElse_some.1 h2 with h | ⟨_, h⟩
    · exact hv rfl h
    rcases orElse_some.1 h with h | ⟨_, h⟩
    · exact hv rfl h
    rcases orElse_some.1 h with h | ⟨_, h⟩
    · exact hv rfl h
    rcases orElse_some.1 h with h | ⟨_, h⟩
    · exact hv rfl h
    rcases orElse_some.1 h with h | ⟨_, h⟩
    · exact hv rfl h
    obtain ⟨w, h', rfl⟩ := mapP_some.1 h
    exact (recognize_append h').symm
  rw [this]

theorem line0_space {t r l r' l' : Str} (h : lineTerminated notEofOrEol0 (' ' :: t) = some (r, l))
    (h' : lineTerminated notEofOrEol0 t = some (r', l')) : l = ' ' :: l' := by
  obtain ⟨r1, e, h1, h2⟩ := terminated_some.1 h
  obtain ⟨r1', e', h1', h2'⟩ := terminated_some.1 h'
  have hn : ∀ {s r t}, notEofOrEol0 s = some (r, t) → t = s.takeWhile notCrLf := by
    intro s r t h
    rcases orElse_some.1 h with h | ⟨_, h⟩
    · exact (notLineEnding_some h).2
    · obtain ⟨rfl, _, rfl⟩ := eof_some.1 h; rfl
  rw [hn h1, hn h1']
  rfl

theorem firstLine_er {s r1 r2 l first : Str}
    (h1 : preceded quotePrefix (lineTerminated notEofOrEol0) s = some (r1, l))
    (h2 : preceded (Nom.seq quotePrefix (Nom.opt (chr ' '))) (lineTerminated notEofOrEol0) s = some (r2, first)) :
    Er l first := by
  obtain ⟨s1, c, h3, h4⟩ := preceded_some.1 h1
  obtain ⟨s2, y, h5, h6⟩ := preceded_some.1 h2
  obtain ⟨s3, h7, h8⟩ := seq_some.1 h5
  rw [h3] at h7
  simp at h7
  obtain ⟨rfl, _⟩ := h7
  rcases opt_some.1 h8 with ⟨a, h9, _⟩ | ⟨_, rfl, _⟩
  · obtain ⟨rfl, rfl⟩ := chr_some.1 h9
    rw [line0_space h4 h6]
    exact .drop (by decide) (.refl _)
  · rw [h4] at h6
    simp at h6
    rw [h6.2]
    exact .refl _

theorem githubAlertP_spells (hr : BlocksKeep x ent n rec) (hb : ∀ s, rec s = none → BlankText s)
    {s r : Str} {bs : List Block} (hs : s.length ≤ n) (h : githubAlertP x rec s = some (r, bs)) :
    ∃ u o, s = u ++ r ∧ SpellsBlocks x ent bs o ∧ Er u o := by
  unfold githubAlertP at h
  split at h
  · simp at h
  · rename_i r1 first e1
    split at h
    · simp at h
    · rename_i t e2
      split at h
      · simp at h
      · rename_i r2 lines e3
        have hm : x.upperStr (trim (trim first)) = cs!"[!" ++ (alertWord t ++ [']']) := by
          unfold parseAlertMarker at e2
          split at e2
          · rename_i t' e
            simp at e2
            subst e2
            exact alertMarkerP_some e
          · simp at e2
        have hl := quoteLines_tail_length e3
        obtain ⟨u, o, hu, rfl, h3⟩ := quoteLines_gives _ _ _ e3
        obtain ⟨r3, l0, ls, e4, e5, rfl⟩ := many1_some.1 e3
        have hf : Er u (trim (trim first) ++ joinWith ['\n'] ls) := by
          have h4 : Er l0 (trim (trim first)) :=
            (firstLine_er e4 e1).trans ((Er.trim _).trans (Er.trim _))
          refine h3.trans ?_
          rw [joinWith_cons_flatten]
          refine h4.append ?_
          cases ls with
          | nil => exact .nil
          | cons a ls =>
            rw [joinWith_cons_flatten]
            exact .drop (by decide) (.refl _)
        simp only [List.drop_succ_cons, List.drop_zero] at h hl
        split at h
        · rename_i hi
          simp at h
          obtain ⟨rfl, rfl⟩ := h
          have hi' : joinWith ['\n'] ls = [] := by simpa using hi
          rw [hi'] at hf
          refine ⟨u, _, hu, ?_, hf⟩
          simpa using SpellsBlocks.cons (SpellsBlock.alert hm .nil) .nil
        · split at h
          · rename_i bs' e6
            simp at h
            obtain ⟨rfl, rfl⟩ := h
            obtain ⟨o', h5, h6⟩ := blocks1_spells hr hb (by omega) e6
            refine ⟨u, _, hu, ?_, hf.trans ((Er.refl _).append h6)⟩
            simpa using SpellsBlocks.cons (SpellsBlock.alert hm h5) .nil
          · simp at h

theorem listItemP_spells (hr : BlocksKeep x ent n rec) (hb : ∀ s, rec s = none → BlankText s)
    {s r : Str} {k : ListKind} {i : ListItem} (hs : s.length ≤ n) (h : listItemP rec s = some (r, (k, i))) :
    ∃ u d o, s = u ++ r ∧ FirstNumber k d ∧ SpellsItem x ent i o ∧ Er u (d ++ o) := by
  unfold listItemP at h
  split at h
  · simp at h
  · rename_i s1 kind pl task first e1
    split at h
    · simp at h
    · rename_i s2 rest e2
      split at h
      · simp at h
      · rename_i bs e3
        simp at h
        obtain ⟨rfl, rfl, rfl⟩ := h
        have hl := listItem_content_length e1 e2
        obtain ⟨u1, o1, rfl, ⟨o2, ⟨d, m, h1, h2, rfl⟩, rfl⟩, h3⟩ := listMarkerWithSpanSize_gives _ _ _ e1
        obtain ⟨u2, rfl, h4⟩ := listItemRestLine_gives.rest _ _ _ e2
        have h5 := h4 u1 _ h3
        obtain ⟨o', h6, h7⟩ := blocks0_spells hr hb (by omega) e3
        refine ⟨u1 ++ u2, d, m ++ o', by simp, h1, .mk h2 h6, ?_⟩
        have h8 : Er (u1 ++ u2) (d ++ (m ++ itemContent first rest)) := by
          simpa [itemContent] using h5
        exact h8.trans ((Er.refl d).append ((Er.refl m).append h7))

theorem many0_items (hr : BlocksKeep x ent n rec) (hb : ∀ s, rec s = none → BlankText s) :
    ∀ s r l, many0 (listItemP rec) s = some (r, l) → s.length ≤ n →
      ∃ u o, s = u ++ r ∧ SpellsItems x ent (l.map Prod.snd) o ∧ Er u o := by
  refine many0_induction ?_ ?_
  · intro s _ _; exact ⟨[], [], rfl, .nil, .nil⟩
  · intro s r a r' l hp hlt hm ih hs
    obtain ⟨k, i⟩ := a
    obtain ⟨u, d, o, rfl, h1, h2, h3⟩ := listItemP_spells hr hb hs hp
    obtain ⟨u', o', rfl, h4, h5⟩ := ih (by omega)
    exact ⟨u ++ u', _, by simp, .cons h1.digits h2 h4, by simpa using h3.append h5⟩

theorem listP_spells (hr : BlocksKeep x ent n rec) (hb : ∀ s, rec s = none → BlankText s)
    {s r : Str} {b : Block} (hs : s.length ≤ n) (h : listP rec s = some (r, b)) :
    ∃ u o, s = u ++ r ∧ SpellsBlock x ent b o ∧ Er u o := by
  unfold listP at h
  split at h
  · rename_i r1 k i l e
    simp at h
    obtain ⟨rfl, rfl⟩ := h
    obtain ⟨r2, a, l', h1, h2, h3⟩ := many1_some.1 e
    simp at h3
    obtain ⟨rfl, rfl⟩ := h3
    obtain ⟨u, d, o, rfl, h4, h5, h6⟩ := listItemP_spells hr hb hs h1
    obtain ⟨u', o', rfl, h7, h8⟩ := many0_items hr hb _ _ _ h2 (by simp at hs; omega)
    exact ⟨u ++ u', _, by simp, .list h4 h5 h7, by simpa using h6.append h8⟩
  · simp at h

theorem footnoteDefinitionP_spells (hr : BlocksKeep x ent n rec) (hb : ∀ s, rec s = none → BlankText s)
    {s r : Str} {b : Block} (hs : s.length ≤ n) (h : footnoteDefinitionP rec s = some (r, b)) :
    ∃ u o, s = u ++ r ∧ SpellsBlock x ent b o ∧ Er u o := by
  unfold footnoteDefinitionP at h
  split at h
  · simp at h
  · rename_i s1 label e1
    split at h
    · simp at h
    · rename_i s2 first e2
      split at h
      · simp at h
      · rename_i s3 rest e3
        split at h
        · simp at h
        · rename_i bs e4
          simp at h
          obtain ⟨rfl, rfl⟩ := h
          have hlt := Con.lt e1
          have hg : Copies (preceded indent03 (preceded (tag cs!"[^")
              (terminated (recognize (many1 (noneOf cs!"]"))) (tag cs!"]:")))) :=
            Gives.preceded indent03_drops (Gives.preceded (tag_drops (by decide))
              (Gives.terminated recognize_copies (tag_drops (by decide))))
          obtain ⟨u1, o1, rfl, rfl, h1⟩ := hg _ _ _ e1
          obtain ⟨u2, o2, rfl, h2, h3⟩ := (LineGives.preceded indent03_drops line1_gives) _ _ _ e2
          have hp := LineGives.preceded (Drops.manyMN (m := 3) (n := 3) (chr_drops (c := ' ') (by decide))) line1_gives
          obtain ⟨u3, rfl, h4⟩ := hp.rest _ _ _ e3
          simp only [id] at h2 h4
          subst h2
          have h5 := h4 u2 o2 h3
          have hc : itemContent o2 (rest.map (fun l => [l])) =
              o2 ++ (rest.map (fun a => '\n' :: a)).flatten := by
            simp [itemContent, Function.comp_def]
          rw [hc] at e4
          have h5' : Er (u2 ++ u3) (o2 ++ (rest.map (fun a => '\n' :: a)).flatten) := h5
          have hlen := h5'.length
          obtain ⟨o', h6, h7⟩ := blocks0_spells hr hb (by simp only [List.length_append] at hlen hlt hs ⊢; omega) e4
          exact ⟨u1 ++ (u2 ++ u3), o1 ++ o', by simp, .footnote h6, h1.append (h5'.trans h7)⟩

end

section
variable {x : PExt} {cfg : PConfig}

theorem conditionalBlock_spells {ent : Str → Option Str} {b : Behavior Block} {p : P Block}
    (hb : b = .parse ∨ b = .ignore) {s r : Str} {bs : List Block}
    (h : ∀ b, p s = some (r, b) → ∃ u o, s = u ++ r ∧ SpellsBlock x ent b o ∧ Er u o)
    (hc : conditionalBlock b p s = some (r, bs)) :
    ∃ u o, s = u ++ r ∧ SpellsBlocks x ent bs o ∧ Er u o := by
  rcases hb with rfl | rfl
  · obtain ⟨b, h1, rfl⟩ := mapP_some.1 hc
    obtain ⟨u, o, h2, h3, h4⟩ := h b h1
    exact ⟨u, o, h2, by simpa using SpellsBlocks.cons h3 .nil, h4⟩
  · simp [conditionalBlock, conditional, failP] at hc

theorem blockAlt_spells (hk : cfg.Keeps) {n : Nat} {rec : P (List Block)}
    (hr : BlocksKeep x cfg.entities n rec) (hb : ∀ s, rec s = none → BlankText s)
    {s r : Str} {bs : List Block} (hs : s.length ≤ n) (h : blockAlt x cfg rec s = some (r, bs)) :
    ∃ u o, s = u ++ r ∧ SpellsBlocks x cfg.entities bs o ∧ Er u o := by
  unfold blockAlt at h
  rcases orElse_some.1 h with h | ⟨_, h⟩
  · refine conditionalBlock_spells hk.codeBlock (fun b h => ?_) h
    exact (codeBlockIndented_gives.orElse codeBlockFenced_gives) _ _ _ h
  rcases orElse_some.1 h with h | ⟨_, h⟩
  · exact conditionalBlock_spells hk.headingV1 (fun b h => headingV1_gives hk _ _ _ h) h
  rcases orElse_some.1 h with h | ⟨_, h⟩
  · exact conditionalBlock_spells hk.headingV2 (fun b h => headingV2OrParagraph_gives hk _ _ _ h) h
  rcases orElse_some.1 h with h | ⟨_, h⟩
  · refine conditionalBlock_spells hk.thematicBreak (fun b h => ?_) h
    obtain ⟨_, h', rfl⟩ := value_some.1 h
    obtain ⟨u, o, h1, rfl, h2⟩ := thematicBreakP_drops _ _ _ h'
    exact ⟨u, [], h1, .thematicBreak, h2⟩
  rcases orElse_some.1 h with h | ⟨_, h⟩
  · rcases hk.githubAlert with e | e
    · rw [e] at h; exact githubAlertP_spells hr hb hs h
    · rw [e] at h; simp [conditionalBlockVec, failP] at h
  rcases orElse_some.1 h with h | ⟨_, h⟩
  · exact conditionalBlock_spells hk.blockquote (fun b h => blockquoteP_spells hr hb hs h) h
  rcases orElse_some.1 h with h | ⟨_, h⟩
  · exact conditionalBlock_spells hk.list (fun b h => listP_spells hr hb hs h) h
  rcases orElse_some.1 h with h | ⟨_, h⟩
  · refine conditionalBlock_spells hk.htmlBlock (fun b h => ?_) h
    obtain ⟨t, h', rfl⟩ := mapP_some.1 h
    obtain ⟨u, o, h1, rfl, h2⟩ := htmlBlockP_copies _ _ _ h'
    exact ⟨u, _, h1, .html, h2⟩
  rcases orElse_some.1 h with h | ⟨_, h⟩
  · exact conditionalBlock_spells hk.footnoteDefinition (fun b h => footnoteDefinitionP_spells hr hb hs h) h
  rcases orElse_some.1 h with h | ⟨_, h⟩
  · exact conditionalBlock_spells hk.linkDefinition (fun b h => linkDefinitionP_gives hk _ _ _ h) h
  rcases orElse_some.1 h with h | ⟨_, h⟩
  · exact conditionalBlock_spells hk.table (fun b h => tableP_gives hk _ _ _ h) h
  rcases orElse_some.1 h with h | ⟨_, h⟩
  · simp [customParser, hk.customBlock, failP] at h
  · refine conditionalBlock_spells (.inl hk.paragraph) (fun b h => ?_) h
    obtain ⟨l, h', rfl⟩ := mapP_some.1 h
    obtain ⟨u, o, h1, h2, h3⟩ := paragraphP_gives hk _ _ _ h'
    exact ⟨u, o, h1, .paragraph h2, h3⟩

theorem blockP_keeps (hk : cfg.Keeps) : ∀ n, BlocksKeep x cfg.entities n (blockP x cfg)
  | 0 => fun s hs => absurd hs (by omega)
  | n + 1 => by
    intro s hs r bs h
    rw [blockP_eq hk.customOk] at h
    obtain ⟨s1, _, h1, h2⟩ := preceded_some.1 h
    obtain ⟨u1, o1, rfl, rfl, h3⟩ := manyEmptyLines0_drops _ _ _ h1
    obtain ⟨u2, o2, rfl, h4, h5⟩ := blockAlt_spells hk (blockP_keeps hk n)
      (fun s h => (blockP_none hk.customOk (by rw [hk.text]; simp) (by rw [hk.paragraph]; simp)).1 h)
      (by simp only [List.length_append] at hs ⊢; omega) h2
    exact ⟨u1 ++ u2, o2, by simp, h4, h3.append h5⟩

/-- C70: whatever the input, with any configuration that parses or ignores each element (and parses
text and paragraphs), the document spells the input without some of its white space and punctuation:
no other character is lost, and nothing is invented, repeated or moved. -/
theorem C70_keeps_the_text (hk : cfg.Keeps) {s : Str} {d : Document}
    (h : parseMarkdown x cfg s = some d) :
    ∃ o, SpellsBlocks x cfg.entities d.blocks o ∧ LosesOnlyMarkup s o := by
  unfold parseMarkdown at h
  rw [parseMarkdownF_eq hk.customOk (by omega)] at h
  simp only [Option.map_eq_some_iff] at h
  obtain ⟨⟨r, l⟩, h, rfl⟩ := h
  obtain ⟨s1, _, h1, h2⟩ := terminated_some.1 h
  obtain ⟨u, o, rfl, h3, h4⟩ := many0_blocks_spell (blockP_keeps hk (s.length + 1)) _ _ _ h1 (by omega)
  have hd : Drops (Nom.seq (many0 (space1 <||> lineEnding)) eof) :=
    (Drops.many0 (space1_drops.orElse lineEnding_drops)).seq eof_drops
  obtain ⟨u2, o2, rfl, rfl, h5⟩ := hd _ _ _ h2
  obtain ⟨s2, _, h7⟩ := seq_some.1 h2
  obtain ⟨_, rfl, _⟩ := eof_some.1 h7
  refine ⟨o, h3, Er.loses ?_⟩
  simpa using h4.append h5

/-- The default configuration is such a configuration, and so is one that ignores tables. -/
theorem keeps_default (ent : Str → Option Str) : (PConfig.default ent).Keeps := by
  constructor <;> first | rfl | exact .inl rfl

example (ent : Str → Option Str) : { PConfig.default ent with table := .ignore }.Keeps := by
  constructor <;> first | rfl | exact .inl rfl | exact .inr rfl

/-- A document with a list, an escape, a character reference, a link, a quoted heading and a table
whose second row is too long and whose third row is too short. -/
theorem C70_example :
    let s := cs!"7. *a\\b* &#99; [d](/e \"f\")\n8. g\n\n># h\n\n|i|j|\n|-|-|\n|k|l|m|\n|n|\n"
    let bs : List Block := [.list (.ordered 7)
        [.mk none [.paragraph [.emphasis [.text cs!"a\\b"], .text cs!" c ",
          .link cs!"/e" (some cs!"f") [.text cs!"d"]]], .mk none [.paragraph [.text cs!"g"]]],
      .blockQuote [.heading (.atx 1) [.text cs!"h"]],
      .table [[[.text cs!"i"], [.text cs!"j"]], [[.text cs!"k"], [.text cs!"l"]], [[.text cs!"n"], [.text []]]]
        [.none, .none]]
    parseMarkdown PExt.ascii (PConfig.default fun _ => none) s = some ⟨bs⟩ ∧
    LosesOnlyMarkup s cs!"7a\\b &#99; d/ef8gh|i|j|k|l|m|n" := by
  refine ⟨by decide +kernel, by decide +kernel, by decide +kernel⟩

/-- What C70 allows to be lost, and why the configuration is restricted: a skipped element is lost
and so is what a function drops. -/
theorem C70_boundaries :
    parseMarkdown PExt.ascii (PConfig.default fun _ => none) cs!"1. a\n7. b" =
      some ⟨[.list (.ordered 1) [.mk none [.paragraph [.text cs!"a"]], .mk none [.paragraph [.text cs!"b"]]]]⟩ ∧
    parseMarkdown PExt.ascii (PConfig.default fun _ => none) cs!"|a|\n|-|\n|b|c|" =
      some ⟨[.table [[[.text cs!"a"]], [[.text cs!"b"]]] [.none]]⟩ ∧
    parseMarkdown PExt.ascii { PConfig.default fun _ => none with codeSpan := .skip } cs!"a`b`" =
      some ⟨[.paragraph [.text cs!"a", .empty]]⟩ ∧
    parseMarkdown PExt.ascii { PConfig.default fun _ => none with codeSpan := .map fun _ => .text [] } cs!"a`b`" =
      some ⟨[.paragraph [.text cs!"a"]]⟩ := by
  decide +kernel

end
end Verif
