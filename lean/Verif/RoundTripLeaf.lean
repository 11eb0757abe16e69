import Verif.RoundTripShow
/-!
# Blocks without blocks inside are read back
-/
set_option linter.unusedVariables false
set_option linter.unusedSimpArgs false
namespace Verif
namespace Md
namespace Spec
open Nom

/-- The parser configurations of the round trip: no user code, every construct is parsed. -/
structure EveryParse (cfg : PConfig) : Prop where
  all : AllParse cfg
  codeBlock : cfg.codeBlock = .parse
  thematicBreak : cfg.thematicBreak = .parse
  blockquote : cfg.blockquote = .parse
  githubAlert : cfg.githubAlert = .parse
  list : cfg.list = .parse
  table : cfg.table = .parse
  linkDefinition : cfg.linkDefinition = .parse
  footnoteDefinition : cfg.footnoteDefinition = .parse
  paragraph : cfg.paragraph = .parse
  htmlBlock : cfg.htmlBlock = .parse

theorem everyParse_default (ent : Str → Option Str) : EveryParse (PConfig.default ent) :=
  ⟨allParse_default ent, rfl, rfl, rfl, rfl, rfl, rfl, rfl, rfl, rfl, rfl⟩

/-- What follows a block: nothing, or a blank line and other blocks. -/
def After (y : Style) (p : Place) (b : Block) (u rest : Str) : Prop :=
  (u = [] ∧ rest = []) ∨
  ∃ r V, u = '\n' :: rest ∧ rest = List.replicate r ' ' ++ '\n' :: V ∧ (r ≤ p.blank ∨ r = p.others) ∧
    blockEnds y p b = true ∧
    (listFirst [b] = true → ∃ i c t, V = List.replicate i ' ' ++ c :: t ∧ isWs c = false ∧ i ≤ p.others + y.spaces)

theorem After.lineEnd {y : Style} {p : Place} {b : Block} {u rest : Str} (h : After y p b u rest) :
    ∃ e, LineEnd e rest ∧ u = e ++ rest := by
  rcases h with ⟨rfl, rfl⟩ | ⟨r, V, rfl, _⟩
  · exact ⟨[], .inr ⟨rfl, rfl⟩, rfl⟩
  · exact ⟨['\n'], .inl (.inl rfl), rfl⟩

theorem After.paraGap {y : Style} {p : Place} {b : Block} {u rest : Str} (h : After y p b u rest) :
    ParaGap u rest := by
  rcases h with ⟨rfl, rfl⟩ | ⟨r, V, rfl, rfl, _⟩
  · exact .inl ⟨rfl, rfl⟩
  · refine .inr ⟨['\n'], List.replicate r ' ', '\n' :: V, .inl rfl, ?_, rfl, rfl, .inr ⟨['\n'], V, .inl rfl, rfl⟩⟩
    intro c hc
    rw [List.eq_of_mem_replicate hc]; decide

/-- No mark follows. -/
theorem After.not_mark {y : Style} {p : Place} {b : Block} {u rest : Str} (h : After y p b u rest) {a : Char}
    (ha : a ≠ ' ' ∧ a ≠ '\n') (k : Nat) (t : Str) : rest ≠ List.replicate k ' ' ++ a :: t := by
  rcases h with ⟨rfl, rfl⟩ | ⟨r, V, rfl, rfl, _⟩
  · simp
  · have key : ∀ (r k : Nat), List.replicate r ' ' ++ '\n' :: V ≠ List.replicate k ' ' ++ a :: t := by
      intro r
      induction r with
      | zero =>
        intro k
        cases k with
        | zero => simpa using fun h => absurd h.symm ha.2
        | succ k => simp [List.replicate_succ]
      | succ r ih =>
        intro k
        cases k with
        | zero => simp [List.replicate_succ]; intro h; exact absurd h.symm ha.1
        | succ k => simp [List.replicate_succ]; simpa using ih k
    exact key r k

theorem visible_of_begins {l : Str} (h : Begins l) : ∃ c ∈ l, c ≠ ' ' := by
  obtain ⟨c, t, rfl, hw⟩ := h
  exact ⟨c, by simp, by rintro rfl; exact absurd hw (by decide)⟩

variable {x : PExt} {cfg : PConfig} {y : Style} {item : Bool} {p : Place} {l0 : Str} {ls ls' : List Str} {u rest : Str}

/-- The text of a paragraph. -/
theorem text_lines {c : List Inline} {item' : Bool} (hf : fitsLines (isPunctuation x) y item' c = true) {s : Str}
    (hs : Fill (inlinesToks y.digit c) s) (he : splitNl s = l0 :: ls) (h1 : p.first ≤ 3) (h2 : p.others ≤ 3)
    {v : List Str} (hv : Shown item p (ls ++ v) ls') :
    ∃ ys v' is, ls' = ls.map (List.replicate p.others ' ' ++ ·) ++ v' ∧ Shown item p v v' ∧ TextLines ys ∧
      Reads x cfg.entities (joinWith ['\n'] (ys.map Prod.snd)) is ∧ keyInlines is = keyInlines c ∧
      ∀ w, List.replicate p.first ' ' ++ (l0 ++ tailText ls' w) = indentedLines ys ++ tailText v' w := by
  obtain ⟨l, ls2, e1, e2, h4, h5, _⟩ := hs.firm_lines hf
  rw [he] at e1
  cases e1
  obtain ⟨is, hr, hsq⟩ := fitsLines_reads (ent := cfg.entities) hs hf
  obtain ⟨a', v', rfl, ha, hv'⟩ := hv.append_inv
  obtain rfl := ha.of_visible fun l hl => visible_of_begins (h4 l (by simp [hl])).2
  refine ⟨_, v', is, rfl, hv', h5 p.first p.others h1 h2, ?_, hsq, ?_⟩
  · have : (((p.first, l0) :: ls.map fun m => (p.others, m)).map Prod.snd) = l0 :: ls := by
      simp [Function.comp_def]
    rw [this, ← e2]
    exact hr
  · intro w
    rw [indentedLines_cons, tailText_append, ← flatten_tailText (List.map _ ls)]
    simp [Function.comp_def]

theorem paragraph_back (hp : EveryParse cfg) {c : List Inline}
    (hf : fitsBlock (isPunctuation x) y item (.paragraph c) p = true) (hc : CanonB y (.paragraph c) (l0 :: ls))
    (hs : Shown item p ls ls') (ha : After y p (.paragraph c) u rest) :
    ∃ b', keyBlock b' = keyBlock (.paragraph c) ∧
      parseMarkdown x cfg (List.replicate p.first ' ' ++ (l0 ++ tailText ls' u)) =
        (parseMarkdown x cfg rest).map (fun d => ⟨b' :: d.blocks⟩) := by
  simp only [fitsBlock, Bool.and_eq_true, decide_eq_true_eq] at hf
  simp only [CanonB] at hc
  obtain ⟨s, hfill, hL⟩ := hc
  obtain ⟨ys, v', is, rfl, hv, h1, h2, h3, h4⟩ := text_lines (cfg := cfg) (v := []) hf.2 hfill hL.symm hf.1.1 hf.1.2 (by simpa using hs)
  cases hv
  refine ⟨.paragraph is, by simp [keyBlock, h3], ?_⟩
  rw [h4 u, tailText, C56_paragraph_indented hp.all h1 ha.paraGap h2]

theorem flat_fill (t : Text) : Fill t (flat t) := by
  induction t with
  | nil => exact .nil
  | cons o t ih =>
    cases o with
    | none => exact .space ih
    | some c => exact .char c ih

theorem line_reads {c : List Inline} (h : clearInlines (isPunctuation x) c = true) :
    ∃ is, Reads x cfg.entities (lineSource c) is ∧ keyInlines is = keyInlines c := by
  obtain ⟨is, h1, h2, _⟩ := (clear_reads x cfg.entities (fun _ => false)).2 c
    (flat (inlinesToks (fun _ => false) c)) h (flat_fill _)
  rw [(flat_inlines (fun _ => false)).2] at h1
  exact ⟨is, h1, h2⟩

theorem heading_back (hp : EveryParse cfg) {k : HeadingKind} {c : List Inline}
    (hf : fitsBlock (isPunctuation x) y item (.heading k c) p = true) (hc : CanonB y (.heading k c) (l0 :: ls))
    (hs : Shown item p ls ls') (ha : After y p (.heading k c) u rest) :
    ∃ b', keyBlock b' = keyBlock (.heading k c) ∧
      parseMarkdown x cfg (List.replicate p.first ' ' ++ (l0 ++ tailText ls' u)) =
        (parseMarkdown x cfg rest).map (fun d => ⟨b' :: d.blocks⟩) := by
  obtain ⟨e, he, rfl⟩ := ha.lineEnd
  cases k with
  | atx n =>
    simp only [fitsBlock, Bool.and_eq_true, decide_eq_true_eq, beq_iff_eq] at hf
    obtain ⟨⟨⟨⟨h0, h1⟩, h2⟩, h3⟩, h4⟩ := hf
    simp only [CanonB] at hc
    cases hc
    cases hs
    obtain ⟨is, hr, hsq⟩ := line_reads (cfg := cfg) h3
    refine ⟨.heading (.atx n) is, by simp [keyBlock, hsq], ?_⟩
    obtain ⟨d, t, hdt⟩ : ∃ d t, lineSource c = d :: t := by
      cases h : lineSource c with
      | nil => rw [h] at h4; simp at h4
      | cons d t => exact ⟨d, t, rfl⟩
    have := C57_atx (x := x) hp.all (sp := [' ']) h1 h2 (by simp) (by simp; decide) (s := lineSource c) (by rw [hdt]; simp)
      ((clear_oneLine _).2 c h3) (by
        intro z hz
        rw [hz] at h4
        simpa using h4) he hr
    rw [← this, h0]
    simp [tailText]
  | setext v =>
    simp only [fitsBlock, Bool.and_eq_true, decide_eq_true_eq] at hf
    simp only [CanonB] at hc
    obtain ⟨s, hfill, hL⟩ := hc
    obtain ⟨m, ms, hm⟩ := List.exists_cons_of_ne_nil (splitNl_ne s)
    rw [hm, List.cons_append] at hL
    cases hL
    obtain ⟨ys, v', is, rfl, hv, h1, h2, h3, h4⟩ := text_lines hf.2 hfill hm hf.1.1.2 hf.1.2 hs
    obtain ⟨l', A, rfl, hu, hv⟩ := hv.cons_inv
    cases hv
    obtain rfl := hu.of_visible (by cases v <;> decide)
    refine ⟨.heading (.setext v) is, by simp [keyBlock, h3], ?_⟩
    rw [h4]
    have key : ∀ a, (a = '=' ∧ v = .level1 ∨ a = '-' ∧ v = .level2) → underline v = List.replicate 10 a →
        parseMarkdown x cfg (indentedLines ys ++ tailText [List.replicate p.others ' ' ++ underline v] (e ++ rest)) =
        (parseMarkdown x cfg rest).map (fun d => ⟨.heading (.setext v) is :: d.blocks⟩) := by
      intro a hav hu
      have := C57_setext_indented (x := x) hp.all h1 (nl := ['\n']) (.inl rfl) hf.1.2 (n := 10) (by decide) hav (sp := []) (by simp) he h2
      rw [← this]
      simp [tailText, hu]
    cases v with
    | level1 => exact key '=' (.inl ⟨rfl, rfl⟩) rfl
    | level2 => exact key '-' (.inr ⟨rfl, rfl⟩) rfl

theorem thematic_back (hp : EveryParse cfg)
    (hf : fitsBlock (isPunctuation x) y item .thematicBreak p = true) (hc : CanonB y .thematicBreak (l0 :: ls))
    (hs : Shown item p ls ls') (ha : After y p .thematicBreak u rest) :
    ∃ b', keyBlock b' = keyBlock .thematicBreak ∧
      parseMarkdown x cfg (List.replicate p.first ' ' ++ (l0 ++ tailText ls' u)) =
        (parseMarkdown x cfg rest).map (fun d => ⟨b' :: d.blocks⟩) := by
  simp only [fitsBlock, Bool.and_eq_true, decide_eq_true_eq] at hf
  simp only [CanonB] at hc
  cases hc
  cases hs
  obtain ⟨e, he, rfl⟩ := ha.lineEnd
  refine ⟨.thematicBreak, rfl, ?_⟩
  have := C62_thematic_break (x := x) hp.all.customOk hp.thematicBreak hf.2 (n := 3) (a := '-') (by decide) (by simp) (sp := []) (by simp) he
  rw [← this]
  rfl

theorem closesFence_of {o : Nat} {l : Str} (h : ClosesFence '`' 3 (List.replicate o ' ' ++ l)) : closesFence l = true := by
  obtain ⟨k, m, hk, hm, e⟩ := h
  have key : ∀ (o k : Nat), List.replicate o ' ' ++ l = List.replicate k ' ' ++ List.replicate m '`' →
      l = List.replicate (k - o) ' ' ++ List.replicate m '`' := by
    intro o
    induction o with
    | zero => intro k e; simpa using e
    | succ o ih =>
      intro k e
      cases k with
      | zero =>
        obtain ⟨m, rfl⟩ : ∃ j, m = j + 1 := ⟨m - 1, by omega⟩
        simp [List.replicate_succ] at e
      | succ k =>
        simp [List.replicate_succ] at e
        have := ih k e
        simpa using this
  have hl := key o k e
  have hd : l.dropWhile (· == ' ') = List.replicate m '`' := by
    rw [hl]
    obtain ⟨m, rfl⟩ : ∃ j, m = j + 1 := ⟨m - 1, by omega⟩
    rw [List.dropWhile_append_of_pos (by intro c hc; rw [List.eq_of_mem_replicate hc]; decide)]
    simp [List.replicate_succ]
  unfold closesFence
  simp only [hd, Bool.and_eq_true, decide_eq_true_eq]
  refine ⟨⟨?_, by simpa using hm⟩, by simp⟩
  rw [hl]; simp; omega

theorem fenced_back (hp : EveryParse cfg) {info : Option Str} {t : Str}
    (hf : fitsBlock (isPunctuation x) y item (.codeBlock (.fenced info) t) p = true)
    (hc : CanonB y (.codeBlock (.fenced info) t) (l0 :: ls))
    (hs : Shown item p ls ls') (ha : After y p (.codeBlock (.fenced info) t) u rest) :
    ∃ b', keyBlock b' = keyBlock (.codeBlock (.fenced info) t) ∧
      parseMarkdown x cfg (List.replicate p.first ' ' ++ (l0 ++ tailText ls' u)) =
        (parseMarkdown x cfg rest).map (fun d => ⟨b' :: d.blocks⟩) := by
  obtain ⟨e, he, rfl⟩ := ha.lineEnd
  simp only [fitsBlock, Bool.and_eq_true, beq_iff_eq, decide_eq_true_eq] at hf
  simp only [CanonB] at hc
  obtain ⟨⟨⟨⟨⟨⟨⟨⟨⟨h0, h1⟩, h2⟩, h3⟩, h4⟩, h5⟩, h6⟩, h7⟩, h8⟩, h9⟩ := hf
  cases hc
  have hit : item = false := by simpa using h0
  subst hit
  obtain ⟨T, v, rfl, hT, hv⟩ := hs.append_inv
  obtain ⟨l', A, rfl, hu, hv⟩ := hv.cons_inv
  cases hv
  obtain rfl := hu.of_visible (by decide)
  have hr : t.contains '\r' = false := by simpa using h8
  have hi : OneLine (info.getD []) := oneLine_of_all (bad := []) h7 (by decide)
  have hcl : ∀ l ∈ splitNl t, closesFence l = false := by
    intro l hl
    have := List.all_eq_true.1 h9 l hl
    simpa using this
  have hws : p.blank ≠ p.others → ∀ l ∈ splitNl t, l = [] ∨ ∃ c ∈ l, isWs c = false := by
    intro hne l hl
    simp only [Bool.or_eq_true, beq_iff_eq] at h4
    have := List.all_eq_true.1 (h4.resolve_left hne) l hl
    simpa using this
  have hlines : (∀ l ∈ T, OneLine l ∧ ¬ ClosesFence '`' 3 l) ∧ T.map (dropSpaces p.first) = splitNl t := by
    have ho := splitNl_lines hr
    generalize splitNl t = S at hT ho hcl hws
    clear h9 h8 h7 h6 h5 h4 hs
    induction hT with
    | nil => exact ⟨by simp, rfl⟩
    | @cons l l' ls ls' hl _ ih =>
      obtain ⟨g1, g2⟩ := ih (ho := fun l hl => ho l (by simp [hl])) (hcl := fun l hl => hcl l (by simp [hl])) (hws := fun hne l hl => hws hne l (by simp [hl]))
      have key : (OneLine l' ∧ ¬ ClosesFence '`' 3 l') ∧ dropSpaces p.first l' = l := by
        cases hl with
        | text =>
          refine ⟨⟨oneLine_append.2 ⟨oneLine_spaces _, ho l (by simp)⟩, ?_⟩, ?_⟩
          · intro hh
            have := closesFence_of hh
            rw [hcl l (by simp)] at this
            exact absurd this (by decide)
          · rw [h1, dropSpaces_replicate, if_pos (Nat.le_refl _), Nat.sub_self]
            cases l <;> rfl
        | @blank j hj =>
          refine ⟨⟨oneLine_spaces _, ?_⟩, ?_⟩
          · rintro ⟨k, m, _, hm, e⟩
            have : '`' ∈ List.replicate j ' ' := by rw [e]; simp; omega
            exact absurd (List.eq_of_mem_replicate this) (by decide)
          · have := dropSpaces_replicate p.first j []
            rw [List.append_nil, if_pos (by omega)] at this
            rw [this]
            cases (p.first - j) <;> rfl
        | @zero k hz =>
          have hne : p.blank ≠ p.others := by
            rcases hz with hz | hz
            · exact absurd hz (by decide)
            · exact hz
          have hk : List.replicate k ' ' = [] := by
            rcases hws hne (List.replicate k ' ') (by simp) with h | ⟨c, hc, hw⟩
            · exact h
            · rw [List.eq_of_mem_replicate hc] at hw; exact absurd hw (by decide)
          rw [hk]
          refine ⟨⟨oneLine_nil, ?_⟩, by cases p.first <;> rfl⟩
          rintro ⟨k, m, _, hm, e⟩
          have := congrArg List.length e
          simp at this; omega
      refine ⟨?_, by rw [List.map_cons, g2, key.2]⟩
      intro a ha
      rcases List.mem_cons.1 ha with rfl | ha
      · exact key.1
      · exact g1 a ha
  refine ⟨.codeBlock (.fenced info) t, rfl, ?_⟩
  have := C43_fenced (x := x) hp.all.customOk hp.codeBlock (f := '`') (n := 3) (m := 3) (k := p.first) (k' := p.others) (nl := ['\n'])
    (info := info.getD []) h2 (.inl rfl) (by decide) hi (by simpa using h6) (by omega) (by decide) (.inl rfl) hlines.1 he
  rw [hlines.2, join_splitNl] at this
  have hinfo : (if info.getD [] = [] then none else some (info.getD [])) = info := by
    cases info with
    | none => rfl
    | some i =>
      have : i ≠ [] := by simpa using h5
      simp [this]
  rw [hinfo] at this
  rw [← this, tailText_append]
  congr 1
  have tl : ∀ (T : List Str) (w : Str), tailText T ('\n' :: w) = '\n' :: (unlines ['\n'] T ++ w) := by
    intro T w
    induction T with
    | nil => rfl
    | cons l T ih => rw [tailText, ih]; simp [unlines]
  rw [tailText, tl]
  simp [tailText, List.replicate_succ]

theorem indented_back (hp : EveryParse cfg) {t : Str}
    (hf : fitsBlock (isPunctuation x) y item (.codeBlock .indented t) p = true)
    (hc : CanonB y (.codeBlock .indented t) (l0 :: ls))
    (hs : Shown item p ls ls') (ha : After y p (.codeBlock .indented t) u rest) :
    ∃ b', keyBlock b' = keyBlock (.codeBlock .indented t) ∧
      parseMarkdown x cfg (List.replicate p.first ' ' ++ (l0 ++ tailText ls' u)) =
        (parseMarkdown x cfg rest).map (fun d => ⟨b' :: d.blocks⟩) := by
  have hni : p.blank = 0 → p.others = 0 → NotIndented rest := by
    intro h1 h2
    rcases ha with ⟨_, rfl⟩ | ⟨r, V, _, rfl, hr, _⟩
    · exact ⟨by simp, by simp⟩
    · obtain rfl : r = 0 := by omega
      exact ⟨by simp [List.replicate_succ], by simp⟩
  obtain ⟨e, he, rfl⟩ := ha.lineEnd
  simp only [fitsBlock, Bool.and_eq_true, beq_iff_eq] at hf
  simp only [CanonB] at hc
  obtain ⟨⟨⟨⟨⟨⟨h0, h1⟩, h2⟩, h3⟩, h4⟩, h5⟩, h6⟩ := hf
  have hit : item = false := by simpa using h0
  subst hit
  have hr : t.contains '\r' = false := by simpa using h4
  have ho := splitNl_lines hr
  have hj := join_splitNl t
  obtain ⟨m, ms, hm⟩ := List.exists_cons_of_ne_nil (splitNl_ne t)
  rw [hm] at ho hj h6 hc
  cases hc
  have aux : ∀ (ms ls' : List Str), Shown false p (ms.map (cs!"    " ++ ·)) ls' → ls' = ms.map (cs!"    " ++ ·) := by
    intro ms
    induction ms with
    | nil => intro ls' hs; cases hs; rfl
    | cons a ms ih =>
      intro ls' hs
      obtain ⟨l', A, rfl, hl, hs⟩ := hs.cons_inv
      rw [List.map_cons, ← ih A hs]
      congr 1
      rcases hl.inv with h | ⟨h, _⟩ | ⟨hz | hz, _⟩
      · rw [h, h2]; rfl
      · simp at h
      · exact absurd hz (by decide)
      · exact absurd (h3.trans h2.symm) hz
  obtain rfl := aux ms ls' hs
  obtain ⟨init, last, hil, htext⟩ := unlines_tailText m ms
  have := C43_indented (x := x) hp.all.customOk hp.codeBlock (nl := ['\n']) (ls := init.map fun l => (false, l)) (tab := false) (l := last) (.inl rfl) (by
      intro z hz
      obtain ⟨l, hl, rfl⟩ := List.mem_map.1 hz
      exact ho l (by rw [hil]; simp [hl])) (ho last (by rw [hil]; simp)) (by
      have : (init.map fun l => (false, l)).map Prod.snd ++ [last] = m :: ms := by
        rw [hil]; simp [Function.comp_def]
      rw [this]
      have := h6
      simp [isSpace] at this ⊢
      exact this) he (hni h3 h2)
  have e1 : (init.map fun l => (false, l)).map Prod.snd ++ [last] = m :: ms := by
    rw [hil]; simp [Function.comp_def]
  rw [e1, hj] at this
  refine ⟨.codeBlock .indented t, rfl, ?_⟩
  rw [← this, h1]
  have e2 := htext (fun l => cs!"    " ++ l) (e ++ rest)
  simp only [List.replicate_zero, List.nil_append]
  rw [← List.append_assoc] at e2 ⊢
  rw [← e2]
  congr 2
  simp [Function.comp_def, codeIndent, List.replicate_succ]

/-- The text of an HTML block and what follows it. -/
theorem html_text (hp : EveryParse cfg) {k : Nat} {h : Str} (hk : k ≤ 3) (hr : h.contains '\r' = false) {b : Block}
    (ha : After y p b u rest)
    (hh : closedHtml h = true ∨ rawHtml h = true ∨ (k = 0 ∧ p.others = 0 ∧ p.blank = 0 ∧ blockHtml h = true)) :
    parseMarkdown x cfg (List.replicate k ' ' ++ (h ++ u)) =
      (parseMarkdown x cfg rest).map (fun d => ⟨.htmlBlock h :: d.blocks⟩) := by
  have hgap : parseMarkdown x cfg u = parseMarkdown x cfg rest := by
    rcases ha with ⟨rfl, rfl⟩ | ⟨r, V, rfl, rfl, _⟩
    · rfl
    · exact C39_leading_blank_lines hp.all.customOk (b := ['\n']) (BlankLines.lf (sp := []) (by simp) .nil) _
  rcases hh with hh | hh | ⟨rfl, h2, h3, hh⟩
  · obtain ⟨o, c, body, hm, rfl, hb⟩ := closedHtml_of hh
    rw [← hgap]
    exact C54_markers hp.all.customOk hp.htmlBlock hk hm hb
  · obtain ⟨w, sep, body, cl, h1, h2, h3, h4, rfl⟩ := rawHtml_of hh
    rw [← hgap]
    exact C68_raw hp.all.customOk hp.htmlBlock hk h1 h2 h3 h4
  · obtain ⟨lt, w, l, ls, h1, h4, h5, h6, h7, h8, rfl⟩ := blockHtml_of hr hh
    rcases ha with ⟨rfl, rfl⟩ | ⟨r, V, rfl, rfl, _⟩
    · rw [parseMarkdown_nil, List.append_nil]
      exact C54_tag_final hp.all.customOk hp.htmlBlock hk h1 h4 h5 (.inl rfl) h6 h7 h8 (.inl rfl)
    · rw [← hgap, ← List.append_assoc]
      refine C54_tag_partial hp.all.customOk hp.htmlBlock hk h1 h4 h5 (.inl rfl) h6 h7 h8 ?_
      exact .inr ⟨.inl rfl, [], ['\n'], _, rfl, by simp, .inl rfl⟩

theorem html_back (hp : EveryParse cfg) {h : Str}
    (hf : fitsBlock (isPunctuation x) y item (.htmlBlock h) p = true)
    (hc : CanonB y (.htmlBlock h) (l0 :: ls))
    (hs : Shown item p ls ls') (ha : After y p (.htmlBlock h) u rest) :
    ∃ b', keyBlock b' = keyBlock (.htmlBlock h) ∧
      parseMarkdown x cfg (List.replicate p.first ' ' ++ (l0 ++ tailText ls' u)) =
        (parseMarkdown x cfg rest).map (fun d => ⟨b' :: d.blocks⟩) := by
  simp only [fitsBlock, Bool.and_eq_true] at hf
  simp only [CanonB] at hc
  obtain ⟨hr, hk⟩ := hf
  have hr : h.contains '\r' = false := by simpa using hr
  refine ⟨.htmlBlock h, rfl, ?_⟩
  simp only [Bool.or_eq_true, Bool.and_eq_true, beq_iff_eq, decide_eq_true_eq] at hk
  rcases hk with ⟨⟨⟨⟨h0, h1⟩, h2⟩, h3⟩, hh⟩ | ⟨⟨h1, h2⟩, hh⟩
  · have hit : item = false := by simpa using h0
    subst hit
    have aux : ∀ (ms ls' : List Str), Shown false p ms ls' → ls' = ms := by
      intro ms
      induction ms with
      | nil => intro ls' hs; cases hs; rfl
      | cons a ms ih =>
        intro ls' hs
        obtain ⟨l', A, rfl, hl, hs⟩ := hs.cons_inv
        rw [← ih A hs]
        congr 1
        rcases hl.inv with h | ⟨h, j, hj, h'⟩ | ⟨hz | hz, _⟩
        · rw [h, h2]; rfl
        · rw [h, h', show j = 0 by omega]; rfl
        · exact absurd hz (by decide)
        · exact absurd (h3.trans h2.symm) hz
    obtain rfl := aux ls ls' hs
    rw [← join_tailText, hc, join_splitNl]
    refine html_text hp (by omega) hr ha ?_
    rcases hh with (hh | hh) | hh
    · exact .inl hh
    · exact .inr (.inl hh)
    · exact .inr (.inr ⟨h1, h2, h3, hh⟩)
  · have h4 : OneLine h := by
      intro c hc
      constructor
      · rintro rfl; simp [hc] at h2
      · rintro rfl; simp [hc] at hr
    rw [splitNl_oneLine h4] at hc
    cases hc
    cases hs
    refine html_text hp h1 hr ha ?_
    rcases hh with hh | hh
    · exact .inl hh
    · exact .inr (.inl hh)

end Spec
end Md
end Verif
