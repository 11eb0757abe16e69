import Verif.RoundTripLeaf2
/-!
# Blocks with blocks inside are read back: helpers
-/
set_option linter.unusedVariables false
set_option linter.unusedSimpArgs false
namespace Verif
namespace Md
namespace Spec
open Nom

variable {x : PExt} {cfg : PConfig} {y : Style} {item : Bool} {p : Place} {l0 : Str} {ls ls' : List Str} {u rest : Str}

theorem spaces_cancel {c d : Char} {t v : Str} (hc : c ≠ ' ') (hd : d ≠ ' ') :
    ∀ {r k : Nat}, List.replicate r ' ' ++ c :: t = List.replicate k ' ' ++ d :: v → r = k ∧ c = d ∧ t = v
  | 0, 0, h => by simpa using h
  | 0, k + 1, h => by simp [List.replicate_succ] at h; exact absurd h.1 hc
  | r + 1, 0, h => by simp [List.replicate_succ] at h; exact absurd h.1.symm hd
  | r + 1, k + 1, h => by
    simp [List.replicate_succ] at h
    have := spaces_cancel (r := r) (k := k) hc hd (by simpa using h)
    exact ⟨by omega, this.2⟩

theorem Shown.next {ls ls' : List Str} (h : Shown item p ls ls') : Shown item p.next ls ls' := by
  induction h with
  | nil => exact .nil
  | @cons l l' _ _ h1 _ ih =>
    refine .cons ?_ ih
    cases h1 with
    | text => exact ShowLine.text (p := p.next) l
    | blank h => exact ShowLine.blank (p := p.next) h
    | zero h => exact ShowLine.zero (p := p.next) h

/-- What a printed block without blocks around it is read as. -/
def BlockBack (x : PExt) (cfg : PConfig) (y : Style) (b : Block) : Prop :=
  ∀ item (p : Place) l0 ls ls' u rest, p.first ≤ p.others → fitsBlock (isPunctuation x) y item b p = true →
    CanonB y b (l0 :: ls) → Shown item p ls ls' → After y p b u rest →
    ∃ b', keyBlock b' = keyBlock b ∧
      parseMarkdown x cfg (List.replicate p.first ' ' ++ (l0 ++ tailText ls' u)) =
        (parseMarkdown x cfg rest).map (fun d => ⟨b' :: d.blocks⟩)

/-- What the printed blocks of a container are read as. -/
def BlocksBack (x : PExt) (cfg : PConfig) (y : Style) (l : List Block) : Prop :=
  ∀ item (p : Place) l0 ls ls', p.first ≤ p.others → l ≠ [] → fitsBlocks (isPunctuation x) y item l p = true →
    CanonL y l (l0 :: ls) → Shown item p ls ls' →
    ∃ bs, keyBlocks bs = keyBlocks l ∧
      parseMarkdown x cfg (List.replicate p.first ' ' ++ (l0 ++ tailText ls' [])) = some ⟨bs⟩

theorem visible_first {bs : List Block} (hf : fitsBlocks (isPunctuation x) y item bs p = true)
    (hc : CanonL y bs (l0 :: ls)) (hs : Shape y item p bs l0 ls) : ∃ c ∈ l0, c ≠ ' ' := by
  cases h : codeFirst bs with
  | false =>
    obtain ⟨i, c, t, rfl, hw, _⟩ := hs.opens h
    exact ⟨c, by simp, by rintro rfl; exact absurd hw (by decide)⟩
  | true =>
    cases bs with
    | nil => simp [codeFirst] at h
    | cons b bs =>
      cases b with
      | codeBlock k t =>
        cases k with
        | fenced => simp [codeFirst] at h
        | indented =>
          simp only [fitsBlocks, fitsBlock, Bool.and_eq_true] at hf
          have ha := hf.1.1.1.2
          simp only [CanonL, CanonB] at hc
          obtain ⟨A, R, rfl, _, hL⟩ := hc
          obtain ⟨m, ms, hm⟩ := List.exists_cons_of_ne_nil (splitNl_ne t)
          rw [hm] at ha hL
          simp only [List.map_cons, List.cons_append] at hL
          injection hL with h1 h2
          subst h1
          simp only [List.headD_cons, List.any_eq_true] at ha
          obtain ⟨c, hc, hw⟩ := ha
          exact ⟨c, by simp [hc], by rintro rfl; exact absurd hw (by decide)⟩
      | _ => simp [codeFirst] at h

theorem blocks_nil : BlocksBack x cfg y [] := by
  intro item p l0 ls ls' _ h; exact absurd rfl h

theorem blocks_cons (hp : EveryParse cfg) {b : Block} {l : List Block} (hb : BlockBack x cfg y b)
    (hl : BlocksBack x cfg y l) : BlocksBack x cfg y (b :: l) := by
  intro item p l0 ls ls' hpp _ hf hc hs
  simp only [fitsBlocks, Bool.and_eq_true] at hf
  obtain ⟨⟨⟨f1, f2⟩, f3⟩, f4⟩ := hf
  simp only [CanonL] at hc
  obtain ⟨A, R, c1, c2, hL⟩ := hc
  obtain ⟨a0, as, rfl, hsh⟩ := (shape (isPunctuation x) y).1 b item p A f1 c1
  cases l with
  | nil =>
    simp at hL
    obtain ⟨rfl, rfl⟩ := hL
    obtain ⟨b', g1, g2⟩ := hb item p _ _ ls' [] [] hpp f1 c1 hs (.inl ⟨rfl, rfl⟩)
    exact ⟨[b'], by simp [keyBlocks, g1], by rw [g2, parseMarkdown_nil]; rfl⟩
  | cons b2 l =>
    obtain ⟨r0, rs, rfl, hshr⟩ := (shape (isPunctuation x) y).2.2.1 (b2 :: l) item p.next R (by simp) f4 c2
    simp only [List.isEmpty_cons, Bool.false_eq_true, if_false, List.cons_append] at hL
    injection hL with e1 e2
    subst e1; subst e2
    obtain ⟨as', B, rfl, s1, s2⟩ := hs.append_inv
    obtain ⟨sep, B, rfl, sp, s3⟩ := s2.cons_inv
    obtain ⟨r0', rs', rfl, s3, s4⟩ := s3.cons_inv
    obtain rfl := s3.of_visible (visible_first f4 c2 hshr)
    obtain ⟨r, rfl, hr⟩ : ∃ r, sep = List.replicate r ' ' ∧ (r ≤ p.blank ∨ r = p.others) := by
      rcases sp.inv with h | ⟨_, j, hj, h⟩ | ⟨_, k, _, h⟩
      · exact ⟨p.others, by simpa using h, .inr rfl⟩
      · exact ⟨j, h, .inl hj⟩
      · exact ⟨0, h, .inl (Nat.zero_le _)⟩
    obtain ⟨bs, q1, q2⟩ := hl item p.next r0 rs rs' (Nat.le_refl _) (by simp) f4 c2 s4.next
    have ha : After y p b ('\n' :: (List.replicate r ' ' ++ '\n' :: (List.replicate p.others ' ' ++ (r0 ++ tailText rs' []))))
        (List.replicate r ' ' ++ '\n' :: (List.replicate p.others ' ' ++ (r0 ++ tailText rs' []))) := by
      refine .inr ⟨r, _, rfl, rfl, hr, by simpa using f2, ?_⟩
      intro hlf
      rw [hlf] at f3
      obtain ⟨i, c, t, rfl, hw, hi, _⟩ := hshr.opens (by simpa using f3)
      refine ⟨p.others + i, c, t ++ tailText rs' [], ?_, hw, ?_⟩
      · rw [← List.replicate_append_replicate]; simp [-List.replicate_append_replicate]
      · have : i ≤ y.spaces := by split at hi <;> omega
        omega
    obtain ⟨b', g1, g2⟩ := hb item p _ _ as' _ _ hpp f1 c1 s1 ha
    refine ⟨b' :: bs, by simp only [keyBlocks] at q1 ⊢; rw [g1, q1], ?_⟩
    have hlead := C39_leading_blank_lines (x := x) hp.all.customOk (b := List.replicate r ' ' ++ '\n' :: [])
      (.lf (by intro c hc; exact .inl (List.eq_of_mem_replicate hc)) .nil)
      (List.replicate p.others ' ' ++ (r0 ++ tailText rs' []))
    rw [List.append_assoc, List.cons_append, List.nil_append] at hlead
    have q3 : parseMarkdown x cfg (List.replicate p.others ' ' ++ (r0 ++ tailText rs' [])) = some ⟨bs⟩ := q2
    rw [hlead, q3] at g2
    rw [tailText_append]
    simp only [tailText, List.append_assoc]
    rw [g2]; rfl

theorem not_blankText {s : Str} {c : Char} (hc : c ∈ s) (hw : isWs c = false) : ¬ BlankText s := by
  intro h
  induction h with
  | nil => simp at hc
  | space _ ih =>
    rcases List.mem_cons.1 hc with rfl | hc
    · exact absurd hw (by decide)
    · exact ih hc
  | tab _ ih =>
    rcases List.mem_cons.1 hc with rfl | hc
    · exact absurd hw (by decide)
    · exact ih hc
  | lf _ ih =>
    rcases List.mem_cons.1 hc with rfl | hc
    · exact absurd hw (by decide)
    · exact ih hc
  | crlf _ ih =>
    rcases List.mem_cons.1 hc with rfl | hc
    · exact absurd hw (by decide)
    rcases List.mem_cons.1 hc with rfl | hc
    · exact absurd hw (by decide)
    · exact ih hc

/-- Whitespace around a text does not hide how it begins. -/
theorem trim_prefix {w t : Str} {c : Char} (hw : ∀ a ∈ w, isWs a = true) (hc : isWs c = false) :
    trim (w ++ c :: t) <+: c :: t := by
  unfold trim trimStart trimEnd
  rw [List.dropWhile_append_of_pos hw, List.dropWhile_cons_of_neg (by simp [hc])]
  have := List.dropWhile_suffix (l := (c :: t).reverse) isWs
  rw [← List.reverse_prefix] at this
  simpa using this

/-- The first block of a quote is no indented code. -/
theorem not_codeFirst {bs : List Block} (hf : fitsBlocks (isPunctuation x) y item bs p = true) (h : p.first ≠ 0) :
    codeFirst bs = false := by
  cases bs with
  | nil => rfl
  | cons b bs =>
    cases b with
    | codeBlock k t =>
      cases k with
      | fenced => rfl
      | indented =>
        simp only [fitsBlocks, fitsBlock, Bool.and_eq_true, beq_iff_eq] at hf
        exact absurd hf.1.1.1.1.1.1.1.1.2 h
    | _ => rfl

theorem quote_back (hp : EveryParse cfg) {b : List Block} (ih : BlocksBack x cfg y b) :
    BlockBack x cfg y (.blockQuote b) := by
  intro item p l0 ls ls' u rest hpp hf hc hs ha
  have hnq : NotQuote rest := fun k t _ => ha.not_mark (a := '>') (by decide) k t
  obtain ⟨e, he, rfl⟩ := ha.lineEnd
  simp only [fitsBlock, Bool.and_eq_true, decide_eq_true_eq] at hf
  obtain ⟨⟨⟨⟨f1, f2⟩, f3⟩, f4⟩, f5⟩ := hf
  simp only [CanonB] at hc
  obtain ⟨M, hM, hL⟩ := hc
  have hne : b ≠ [] := by simpa using f3
  obtain ⟨m0, ms, rfl, hsh⟩ := (shape (isPunctuation x) y).2.2.1 b false ⟨1, 1, 1⟩ M hne f5 hM
  simp only [List.map_cons] at hL
  injection hL with e1 e2
  subst e1; subst e2
  obtain rfl := hs.of_visible (by
    intro l hl
    obtain ⟨m, _, rfl⟩ := List.mem_map.1 hl
    exact ⟨'>', by simp, by decide⟩)
  obtain ⟨i, c, t, hm0, hw, _, hal, _⟩ := hsh.opens (not_codeFirst f5 (by decide))
  obtain ⟨bs, h1, h2⟩ := ih false ⟨1, 1, 1⟩ m0 ms _ (by decide) hne f5 hM (.text false ⟨1, 1, 1⟩ ms)
  obtain ⟨init, last, h3, h4⟩ := unlines_tailText (p.first, ' ' :: m0) (ms.map fun m => (p.others, ' ' :: m))
  have hj : joinWith ['\n'] ((init ++ [last]).map Prod.snd) = ' ' :: (m0 ++ tailText (ms.map (' ' :: ·)) []) := by
    rw [← h3, List.map_cons, join_tailText_nil]
    simp [Function.comp_def]
  have := C55_quote (x := x) hp.all.customOk (by rw [hp.all.inlines.text]; simp) (by rw [hp.paragraph]; simp) hp.blockquote (nl := ['\n'])
    (ls := init) (last := last) (e := e) (rest := rest) (d := ⟨bs⟩) (.inl rfl) (by
      rw [← h3]
      intro z hz
      rcases List.mem_cons.1 hz with rfl | hz
      · exact ⟨f1, oneLine_cons.2 ⟨by decide, hsh.oneLine m0 (by simp)⟩⟩
      · obtain ⟨m, hm, rfl⟩ := List.mem_map.1 hz
        exact ⟨f2, oneLine_cons.2 ⟨by decide, hsh.oneLine m (by simp [hm])⟩⟩) he hnq (by
      rw [← h3]
      show ¬ cs!"[!" <+: trim (' ' :: m0)
      intro h
      rw [hm0, ← List.cons_append] at h
      refine hal (by simpa using f4) (h.trans (trim_prefix ?_ hw))
      intro a ha
      simp at ha
      rcases ha with rfl | ⟨_, rfl⟩ <;> decide) (by
      rw [hj]
      exact not_blankText (c := c) (by simp [hm0]) hw) (by
      rw [hj, ← h2]
      simp [tailText, Function.comp_def])
  refine ⟨.blockQuote bs, by simp [keyBlock, h1], ?_⟩
  have h5 := h4 quoteLine (e ++ rest)
  have h6 : unlines ['\n'] (init.map quoteLine) ++ (quoteLine last ++ e) ++ rest =
      unlines ['\n'] (init.map quoteLine) ++ (quoteLine last ++ (e ++ rest)) := by simp
  rw [← this, h6, h5]
  simp [quoteLine, Function.comp_def]

theorem alertNamed_back {t : AlertType} (h : fitsAlert y.upper t = true) :
    AlertName (alertName y.upper t) ∧ (alertName y.upper t).map Char.toUpper = alertName y.upper t ∧
      (∀ z ∈ standardAlerts, z.1 <+: alertName y.upper t → z.1 = alertName y.upper t) ∧
      alertNamed (alertName y.upper t) = t := by
  cases t with
  | custom name =>
    simp only [fitsAlert, Bool.and_eq_true, beq_iff_eq] at h
    obtain ⟨⟨⟨⟨h1, h2⟩, h3⟩, h4⟩, h5⟩ := h
    rw [alertName, h1]
    have h6 : ∀ z ∈ standardAlerts, ¬ z.1 <+: name := by
      intro z hz hpre
      simp at h5
      rw [← List.isPrefixOf_iff_prefix] at hpre
      simp only [standardAlerts, List.mem_cons, List.not_mem_nil, or_false] at hz
      rcases hz with rfl | rfl | rfl | rfl | rfl <;> simp_all
    refine ⟨?_, h2, fun z hz hpre => absurd hpre (h6 z hz), ?_⟩
    · cases name with
      | nil => simp at h3
      | cons c t =>
        refine ⟨c, t, rfl, by simpa using h3, ?_⟩
        intro d hd
        have := List.all_eq_true.1 h4 d (by simp [hd])
        simpa using this
    · unfold alertNamed
      have : standardAlerts.find? (fun z => z.1 == name) = none := by
        rw [List.find?_eq_none]
        intro z hz e
        have : z.1 = name := by simpa using e
        exact h6 z hz (this ▸ List.prefix_refl _)
      rw [this]; rfl
  | _ =>
    refine ⟨⟨_, _, rfl, by decide, by decide⟩, by simp only [alertName]; decide, by simp only [alertName]; decide, by simp only [alertName]; decide⟩

theorem alert_back (hp : EveryParse cfg) {t : AlertType} {b : List Block} (ih : BlocksBack x cfg y b) :
    BlockBack x cfg y (.githubAlert t b) := by
  intro item p l0 ls ls' u rest hpp hf hc hs ha
  have hnq : NotQuote rest := fun k t _ => ha.not_mark (a := '>') (by decide) k t
  obtain ⟨e, he, rfl⟩ := ha.lineEnd
  simp only [fitsBlock, Bool.and_eq_true, decide_eq_true_eq] at hf
  obtain ⟨⟨⟨f1, f2⟩, f3⟩, f5⟩ := hf
  simp only [CanonB] at hc
  obtain ⟨M, hM, hL⟩ := hc
  injection hL with e1 e2
  subst e1; subst e2
  obtain rfl := hs.of_visible (by
    intro l hl
    obtain ⟨m, _, rfl⟩ := List.mem_map.1 hl
    obtain ⟨t, ht⟩ := alertLine_head m
    exact ⟨'>', by simp [ht], by decide⟩)
  obtain ⟨n1, n2, n3, n4⟩ := alertNamed_back f3
  have hno := alertName_oneLine f3
  -- the content of a line
  generalize hg : (fun m : Str => if m.all isWs then [] else ' ' :: m) = g
  have hal : ∀ m, alertLine m = '>' :: g m := by
    intro m
    rw [← hg]
    unfold alertLine
    simp only
    split <;> rfl
  have hgo : ∀ m, OneLine m → OneLine (g m) := by
    intro m hm
    rw [← hg]
    simp only
    split
    · exact oneLine_nil
    · exact oneLine_cons.2 ⟨by decide, hm⟩
  have hbody : ∃ bs, keyBlocks bs = keyBlocks b ∧ (∀ m ∈ M, OneLine m) ∧
      ((joinWith ['\n'] (M.map g) = [] ∧ bs = []) ∨
      (¬ BlankText (joinWith ['\n'] (M.map g)) ∧ parseMarkdown x cfg (joinWith ['\n'] (M.map g)) = some ⟨bs⟩)) := by
    by_cases hne : b = []
    · subst hne
      simp only [CanonL] at hM
      subst hM
      exact ⟨[], rfl, by simp, .inl ⟨rfl, rfl⟩⟩
    · obtain ⟨m0, ms, rfl, hsh⟩ := (shape (isPunctuation x) y).2.2.1 b false ⟨1, 1, 0⟩ M hne f5 hM
      obtain ⟨i, c, t, hm0, hw, _, hal, _⟩ := hsh.opens (not_codeFirst f5 (by decide))
      have hshown : Shown false ⟨1, 1, 0⟩ ms (ms.map g) := by
        have : ∀ ms' : List Str, (∀ m ∈ ms', m ∈ ms) → Shown false ⟨1, 1, 0⟩ ms' (ms'.map g) := by
          intro ms'
          induction ms' with
          | nil => intro _; exact .nil
          | cons m ms' ih =>
            intro hm
            refine .cons ?_ (ih fun m h => hm m (by simp [h]))
            rw [← hg]
            simp only
            split
            · rename_i hall
              obtain ⟨k, rfl⟩ := hsh.blanks rfl (by decide) m (by simp [hm m]) hall
              exact .zero (.inr (by decide))
            · exact .text m
        exact this ms fun m h => h
      have hg0 : g m0 = ' ' :: m0 := by
        rw [← hg]
        simp only
        rw [if_neg]
        intro h
        have := List.all_eq_true.1 h c (by simp [hm0])
        rw [hw] at this; exact absurd this (by decide)
      obtain ⟨bs, h1, h2⟩ := ih false ⟨1, 1, 0⟩ m0 ms _ (by decide) hne f5 hM hshown
      have hj : joinWith ['\n'] ((m0 :: ms).map g) = ' ' :: (m0 ++ tailText (ms.map g) []) := by
        rw [List.map_cons, join_tailText_nil, hg0]; rfl
      refine ⟨bs, h1, hsh.oneLine, .inr ⟨?_, ?_⟩⟩
      · rw [hj]; exact not_blankText (c := c) (by simp [hm0]) hw
      · rw [hj, ← h2]; rfl
  obtain ⟨bs, h1, ho, h2⟩ := hbody
  obtain ⟨init, last, h3, h4⟩ := unlines_tailText (p.first, cs!" [!" ++ alertName y.upper t ++ cs!"]") (M.map fun m => (p.others, g m))
  have := C41_alert_partial (x := x) hp.all.customOk (by rw [hp.all.inlines.text]; simp) (by rw [hp.paragraph]; simp)
    (by rw [hp.blockquote]; simp) hp.githubAlert (nl := ['\n'])
    (ls := init) (last := last) (e := e) (rest := rest) (name := alertName y.upper t) (a := [' ']) (b := []) (bs := bs) (.inl rfl) (by
      rw [← h3]
      intro z hz
      rcases List.mem_cons.1 hz with rfl | hz
      · exact ⟨f1, oneLine_append.2 ⟨oneLine_append.2 ⟨by unfold OneLine; decide, hno⟩, by unfold OneLine; decide⟩⟩
      · obtain ⟨m, hm, rfl⟩ := List.mem_map.1 hz
        exact ⟨f2, hgo m (ho m hm)⟩) he hnq (by
      rw [← h3]
      simp) (by simp) (by simp) n1 (by rw [n2]; exact n3) (by
      rw [← h3]
      simpa [Function.comp_def] using h2)
  refine ⟨.githubAlert t bs, by simp [keyBlock, h1], ?_⟩
  rw [n2, n4] at this
  have h5 := h4 quoteLine (e ++ rest)
  have h6 : unlines ['\n'] (init.map quoteLine) ++ (quoteLine last ++ e) ++ rest =
      unlines ['\n'] (init.map quoteLine) ++ (quoteLine last ++ (e ++ rest)) := by simp
  rw [← this, h6, h5]
  simp [quoteLine, Function.comp_def, hal]

end Spec
end Md
end Verif
