import Verif.RoundTripBreak
import Verif.RoundTripHtml
/-!
# The shape of the lines of a printed document, and the printed text as lines
-/
set_option linter.unusedVariables false
set_option linter.unusedSimpArgs false
namespace Verif
namespace Md
namespace Spec
open Nom

/-- The shape of the lines of the items of a list. -/
def ItemsShape (y : Style) (L : List Str) : Prop :=
  ∃ l0 ls, L = l0 :: ls ∧ Firm l0 ∧ Tail ls ∧
    ∃ c t, l0 = List.replicate y.spaces ' ' ++ c :: t ∧ isWs c = false ∧ c ≠ '['

theorem alertName_oneLine {upper : Str → Str} {t : AlertType} (h : fitsAlert upper t = true) :
    OneLine (alertName upper t) := by
  cases t with
  | custom name =>
    simp only [fitsAlert, Bool.and_eq_true, beq_iff_eq] at h
    rw [alertName, h.1.1.1.1]
    exact oneLine_of_all (bad := []) h.1.2 (by decide)
  | _ => unfold OneLine; simp only [alertName]; decide

/-- The shape of the lines of a document that passes the test. -/
theorem shape (punct : Char → Bool) (y : Style) :
    (∀ b item p L, fitsBlock punct y item b p = true → CanonB y b L →
      ∃ l0 ls, L = l0 :: ls ∧ ∀ l, Shape y item p (b :: l) l0 ls) ∧
    (∀ i p M, fitsItem punct y i p = true → CanonItem y i M → 
      M = [] ∨ ∃ l0 ls, M = l0 :: ls ∧ Firm l0 ∧ Tail ls) ∧
    (∀ l item p L, l ≠ [] → fitsBlocks punct y item l p = true → CanonL y l L →
      ∃ l0 ls, L = l0 :: ls ∧ Shape y item p l l0 ls) ∧
    (∀ items k n i p L, items ≠ [] → fitsItems punct y k n i items p = true → CanonItems y k n i items L →
      ItemsShape y L) := by
  have text : ∀ {b : Block} {l : List Block} {c : List Inline} {s : Str} {item : Bool}, fitsLines punct y item c = true →
      Fill (inlinesToks y.digit c) s → (∀ ws, beginsWith ws (b :: l) = ws.any (·.isPrefixOf (lineSource c))) →
      ∃ l0 ls, splitNl s = l0 :: ls ∧ (∀ m ∈ l0 :: ls, Firm m) ∧ Opens y (b :: l) l0 := by
    intro b l c s item hf hs hb
    obtain ⟨l0, ls, e, e2, h4, _, h5⟩ := hs.firm_lines hf
    exact ⟨l0, ls, e, fun m hm => (h4 m hm).1, opens_text h5 (h4 l0 (by simp)).2 hb⟩
  refine Block.ind ?_ ?_ ?_ ?_ ?_ ?_ ?_ ?_ ?_ ?_ ?_ ?_ ?_ ?_ ?_ ?_ ?_
  · -- paragraph
    intro c item p L hf hc
    simp only [fitsBlock, Bool.and_eq_true] at hf
    simp only [CanonB] at hc
    obtain ⟨s, hs, rfl⟩ := hc
    obtain ⟨l0, ls, e, hm, _⟩ := text (b := .paragraph c) (l := []) hf.2 hs (fun ws => rfl)
    refine ⟨l0, ls, e, fun l => .of_firm hm ?_⟩
    obtain ⟨l0', ls', e', _, ho⟩ := text (b := .paragraph c) (l := l) hf.2 hs (fun ws => rfl)
    rw [e] at e'; cases e'
    exact ho
  · -- heading
    intro k c item p L hf hc
    cases k with
    | atx n =>
      simp only [fitsBlock, Bool.and_eq_true, decide_eq_true_eq] at hf
      simp only [CanonB] at hc
      subst hc
      obtain ⟨⟨⟨⟨_, h1⟩, _⟩, h2⟩, _⟩ := hf
      obtain ⟨n, rfl⟩ : ∃ m, n = m + 1 := ⟨n - 1, by omega⟩
      refine ⟨_, _, rfl, fun l => .of_firm ?_ (opens_of_head (c := '#') (by decide) (by decide))⟩
      intro m hm
      rw [List.mem_singleton] at hm
      subst hm
      refine firm_of_head ?_ (by decide) (by decide)
      refine oneLine_cons.2 ⟨by decide, oneLine_append.2 ⟨oneLine_append.2 ⟨oneLine_replicate (by decide), ?_⟩, (clear_oneLine punct).2 c h2⟩⟩
      unfold OneLine; decide
    | setext v =>
      simp only [fitsBlock, Bool.and_eq_true] at hf
      simp only [CanonB] at hc
      obtain ⟨s, hs, rfl⟩ := hc
      obtain ⟨l0, ls, e, hm, _⟩ := text (b := .heading (.setext v) c) (l := []) hf.2 hs (fun ws => rfl)
      have hit : item = false := by simpa using hf.1.1.1
      refine ⟨l0, ls ++ [underline v], by rw [e]; rfl, fun l => ?_⟩
      obtain ⟨l0', ls', e', _, ho⟩ := text (b := .heading (.setext v) c) (l := l) hf.2 hs (fun ws => rfl)
      rw [e] at e'; cases e'
      have hu : OneLine (underline v) ∧ underline v ≠ [] ∧ (underline v).all isWs = false := by
        unfold OneLine; cases v <;> decide
      constructor
      · intro m hm'
        rw [← List.cons_append, List.mem_append, List.mem_singleton] at hm'
        rcases hm' with h | rfl
        · exact (hm m h).1
        · exact hu.1
      · exact (hm l0 (by simp)).ne
      · intro _; rw [← List.cons_append, getLast_append_cons]; simpa using hu.2.1
      · rw [hit]; intro h; exact absurd h (by decide)
      · intro _ _ m hm' hw
        rw [← List.cons_append, List.mem_append, List.mem_singleton] at hm'
        rcases hm' with h | rfl
        · rw [(hm m h).not_ws] at hw; exact absurd hw (by decide)
        · rw [hu.2.2] at hw; exact absurd hw (by decide)
      · exact fun _ => ho
  · -- thematic break
    intro item p L hf hc
    simp only [fitsBlock, Bool.and_eq_true] at hf
    simp only [CanonB] at hc
    have hit : item = false := by simpa using hf.1
    subst hc
    refine ⟨_, _, rfl, fun l => ⟨?_, by decide, fun _ => by decide, ?_, ?_, fun _ => opens_of_head (by decide) (by decide)⟩⟩
    · unfold OneLine; decide
    · rw [hit]; intro h; exact absurd h (by decide)
    · intro _ _ m hm hw
      rw [List.mem_singleton] at hm
      subst hm
      exact absurd hw (by decide)
  · -- quote
    intro b ih item p L hf hc
    simp only [fitsBlock, Bool.and_eq_true] at hf
    simp only [CanonB] at hc
    obtain ⟨M, hM, rfl⟩ := hc
    have hb : b ≠ [] := by simpa using hf.1.1.2
    obtain ⟨l0, ls, rfl, hs⟩ := ih false ⟨1, 1, 1⟩ M hb hf.2 hM
    refine ⟨_, _, rfl, fun l => .of_firm ?_ (opens_of_head (c := '>') (by decide) (by decide))⟩
    intro m hm
    rw [← List.map_cons] at hm
    obtain ⟨a, ha, rfl⟩ := List.mem_map.1 hm
    exact quoteMark_firm (hs.oneLine a ha)
  · -- list
    intro k items ih item p L hf hc
    simp only [fitsBlock, Bool.and_eq_true] at hf
    simp only [CanonB] at hc
    have hne : items ≠ [] := by simpa using hf.1.1.2
    obtain ⟨l0, ls, rfl, h1, h2, c, t, h3, h4, h5⟩ := ih k _ 0 p L hne hf.2 hc
    refine ⟨l0, ls, rfl, fun l => ⟨?_, h1.ne, fun _ => h2.last h1, fun _ => ⟨h1, h2⟩, fun _ _ => ?_, fun _ => ?_⟩⟩
    · exact (Tail.firm h1 h2).oneLine
    · exact (Tail.firm h1 h2).blanks
    · refine ⟨y.spaces, c, t, h3, h4, by simp [listFirst], fun _ hp => ?_, fun _ => NoBox.of_head (by simpa using h5)⟩
      obtain ⟨u, hu⟩ := hp
      simp at hu; exact h5 hu.1.symm
  · -- code
    intro k t item p L hf hc
    cases k with
    | indented =>
      simp only [fitsBlock, Bool.and_eq_true, beq_iff_eq] at hf
      simp only [CanonB] at hc
      obtain ⟨⟨⟨⟨⟨⟨h0, h1⟩, h2⟩, h3⟩, h4⟩, h5⟩, h6⟩ := hf
      have hit : item = false := by simpa using h0
      have hr : t.contains '\r' = false := by simpa using h4
      obtain ⟨m, ms, hm⟩ := List.exists_cons_of_ne_nil (splitNl_ne t)
      have ho := splitNl_lines hr
      rw [hm] at hc ho
      subst hc
      refine ⟨_, _, rfl, fun l => ⟨?_, by simp, ?_, ?_, ?_, ?_⟩⟩
      · intro a ha
        rw [← List.map_cons (f := (cs!"    " ++ ·))] at ha
        obtain ⟨a, ha', rfl⟩ := List.mem_map.1 ha
        exact oneLine_append.2 ⟨by unfold OneLine; decide, ho a ha'⟩
      · intro _ hl
        have := List.mem_of_getLast? hl
        rw [← List.map_cons (f := (cs!"    " ++ ·))] at this
        obtain ⟨a, ha, he⟩ := List.mem_map.1 this
        simp at he
      · rw [hit]; intro h; exact absurd h (by decide)
      · rw [h2, h3]; intro _ h; exact absurd rfl h
      · intro h; simp [codeFirst] at h
    | fenced info =>
      simp only [fitsBlock, Bool.and_eq_true, beq_iff_eq] at hf
      simp only [CanonB] at hc
      obtain ⟨⟨⟨⟨⟨⟨⟨⟨⟨h0, h1⟩, h2⟩, h3⟩, h4⟩, h5⟩, h6⟩, h7⟩, h8⟩, h9⟩ := hf
      have hit : item = false := by simpa using h0
      have hr : t.contains '\r' = false := by simpa using h8
      have ho := splitNl_lines hr
      have hi : OneLine (info.getD []) := oneLine_of_all (bad := []) h7 (by decide)
      subst hc
      refine ⟨_, _, rfl, fun l => ⟨?_, by simp, ?_, ?_, ?_, fun _ => opens_of_head (c := '`') (by decide) (by decide)⟩⟩
      · intro a ha
        simp only [List.mem_cons, List.mem_append, List.not_mem_nil, or_false] at ha
        rcases ha with rfl | ha | rfl
        · exact oneLine_append.2 ⟨by unfold OneLine; decide, hi⟩
        · exact ho a ha
        · unfold OneLine; decide
      · intro _; rw [← List.cons_append, getLast_append_cons]; decide
      · rw [hit]; intro h; exact absurd h (by decide)
      · intro _ hpo a ha hw
        simp only [List.mem_cons, List.mem_append, List.not_mem_nil, or_false] at ha
        rcases ha with rfl | ha | rfl
        · simp at hw
          exact absurd hw.1 (by decide)
        · simp only [Bool.or_eq_true, beq_iff_eq] at h4
          rcases h4 with h4 | h4
          · exact absurd h4 hpo
          · have := List.all_eq_true.1 h4 a ha
            simp at this
            rcases this with rfl | ⟨c, hc, hcw⟩
            · exact ⟨0, rfl⟩
            · rw [List.all_eq_true.1 hw c hc] at hcw; exact absurd hcw (by decide)
        · exact absurd hw (by decide)
  · -- HTML block
    intro h item p L hf hc
    simp only [fitsBlock, Bool.and_eq_true] at hf
    simp only [CanonB] at hc
    obtain ⟨hr, hk⟩ := hf
    have hr : h.contains '\r' = false := by simpa using hr
    have hh : closedHtml h = true ∨ rawHtml h = true ∨ blockHtml h = true := by
      simp only [Bool.or_eq_true, Bool.and_eq_true] at hk
      rcases hk with ⟨_, (h | h) | h⟩ | ⟨_, h | h⟩ <;> simp [h]
    obtain ⟨t, rfl⟩ := html_head hh hr
    have hls := splitNl_lines hr
    subst hc
    by_cases h1 : OneLine ('<' :: t)
    · rw [splitNl_oneLine h1]
      refine ⟨_, _, rfl, fun l => .of_firm ?_ (opens_of_head (c := '<') (by decide) (by decide))⟩
      intro m hm
      rw [List.mem_singleton] at hm
      subst hm
      exact firm_of_head h1 (by decide) (by decide)
    · have hn : t.contains '\n' = true := by
        cases hn : t.contains '\n' with
        | true => rfl
        | false =>
          refine absurd (oneLine_cons.2 ⟨by decide, fun c hc => ⟨?_, ?_⟩⟩) h1
          · rintro rfl; simp [hc] at hn
          · rintro rfl; simp [hc] at hr
      simp only [Bool.or_eq_true, Bool.and_eq_true, beq_iff_eq] at hk
      rcases hk with hk | hk
      · obtain ⟨⟨⟨⟨h0, h2⟩, h3⟩, h4⟩, _⟩ := hk
        have hit : item = false := by simpa using h0
        obtain ⟨m, ms, hm⟩ := List.exists_cons_of_ne_nil (splitNl_ne t)
        have e : splitNl ('<' :: t) = ('<' :: m) :: ms := by
          rw [splitNl, if_neg (by decide), hm]
        rw [e] at hls ⊢
        refine ⟨_, _, rfl, fun l => ⟨hls, by simp, ?_, ?_, ?_, fun _ => opens_of_head (c := '<') (by decide) (by decide)⟩⟩
        · intro h; exact absurd h3 h
        · rw [hit]; intro h; exact absurd h (by decide)
        · rw [h3, h4]; intro _ h; exact absurd rfl h
      · have := hk.1.2
        simp at this hn
        exact absurd hn this
  · -- definition
    intro lb d t item p L hf hc
    simp only [fitsBlock, Bool.and_eq_true, decide_eq_true_eq, bne_iff_ne] at hf
    simp only [CanonB] at hc
    obtain ⟨⟨⟨⟨⟨⟨h1, h2⟩, h3⟩, h4⟩, h5⟩, h6⟩, h7⟩ := hf
    subst hc
    refine ⟨_, _, rfl, fun l => .of_firm ?_ ?_⟩
    · intro m hm
      rw [List.mem_singleton] at hm
      subst hm
      have hd := plainDest_oneLine h7
      refine firm_of_head (oneLine_cons.2 ⟨by decide, oneLine_append.2 ⟨(clear_oneLine punct).2 lb h2,
        oneLine_append.2 ⟨oneLine_append.2 ⟨?_, hd.1⟩, hd.2⟩⟩⟩) (by decide) (by decide)
      unfold OneLine; decide
    · have hb : ']' ∉ lineSource lb := by
        simp only [plainLabel, Bool.and_eq_true] at h4
        simpa using h4.1.1.1
      refine ⟨0, '[', _, rfl, by decide, by omega, ?_, ?_⟩
      · rintro - ⟨u, hu⟩
        revert h6 hu
        cases lineSource lb with
        | nil => simp
        | cons a s => intro h6 hu; simp at hu h6; exact h6 hu.1.symm
      · intro _ t b r hb' hr e
        revert hb e
        cases lineSource lb with
        | nil => intro _ e; cases hb' <;> simp at e
        | cons a s =>
          cases s with
          | nil =>
            intro _ e
            have : r.head? = some ':' := by cases hb' <;> simp at e <;> simp [← e.2]
            rw [this] at hr
            rcases hr with rfl | hr
            · simp at this
            · exact absurd hr (by decide)
          | cons a' s =>
            intro hb e
            cases hb' <;> simp at e <;> simp [e.2.1] at hb
  · -- table
    intro rows al item p L hf hc
    simp only [fitsBlock, Bool.and_eq_true, decide_eq_true_eq] at hf
    simp only [CanonB] at hc
    obtain ⟨⟨⟨⟨⟨⟨⟨h1, h2⟩, h3⟩, h4⟩, h5⟩, h6⟩, h7⟩, h8⟩ := hf
    subst hc
    have ht := table_firm (al := al) (rows := rows.map (·.map lineSource)) (by
      intro r hr c hc
      obtain ⟨r', hr', rfl⟩ := List.mem_map.1 hr
      obtain ⟨c', hc', rfl⟩ := List.mem_map.1 hc
      have := List.all_eq_true.1 (List.all_eq_true.1 h8 r' hr') c' hc'
      simp only [fitsCell, Bool.and_eq_true] at this
      exact (clear_oneLine punct).2 c' this.1.1.1)
    obtain ⟨r0, rs, rfl⟩ := List.exists_cons_of_ne_nil (l := rows) (by simpa using h4)
    refine ⟨_, _, rfl, fun l => .of_firm (fun m hm => (ht m hm).1) ?_⟩
    exact opens_of_head (c := '|') (by decide) (by decide)
  · -- footnote
    intro lb b ih item p L hf hc
    simp only [fitsBlock, Bool.and_eq_true, decide_eq_true_eq] at hf
    simp only [CanonB] at hc
    obtain ⟨c, rfl, rfl⟩ := hc
    obtain ⟨⟨⟨h1, h2⟩, h3⟩, h4⟩ := hf
    simp only [Bool.and_eq_true, fitsText] at h4
    refine ⟨_, _, rfl, fun l => .of_firm ?_ ?_⟩
    · intro m hm
      rw [List.mem_singleton] at hm
      subst hm
      refine firm_of_head ?_ (by decide) (by decide)
      have hlb : OneLine lb := oneLine_of_all (bad := []) h3 (by decide)
      refine oneLine_cons.2 ⟨by decide, oneLine_append.2 ⟨oneLine_append.2 ⟨oneLine_cons.2 ⟨by decide, hlb⟩, ?_⟩,
        (clear_oneLine punct).2 c h4.1.1.1⟩⟩
      unfold OneLine; decide
    · refine ⟨0, '[', _, rfl, by decide, by omega, ?_, ?_⟩
      · rintro - ⟨u, hu⟩
        simp at hu
      · intro _ t b r hb _ e
        cases hb <;> simp at e
  · -- alert
    intro t b ih item p L hf hc
    simp only [fitsBlock, Bool.and_eq_true, decide_eq_true_eq] at hf
    simp only [CanonB] at hc
    obtain ⟨M, hM, rfl⟩ := hc
    refine ⟨_, _, rfl, fun l => .of_firm ?_ (opens_of_head (c := '>') (by decide) (by decide))⟩
    intro m hm
    rcases List.mem_cons.1 hm with rfl | hm
    · refine firm_of_head (oneLine_cons.2 ⟨by decide, oneLine_append.2 ⟨oneLine_append (a := cs!" [!").2 ⟨?_, ?_⟩, ?_⟩⟩) (by decide) (by decide)
      · unfold OneLine; decide
      · exact alertName_oneLine hf.1.2
      · unfold OneLine; decide
    · obtain ⟨a, ha, rfl⟩ := List.mem_map.1 hm
      refine alertLine_firm ?_
      cases b with
      | nil => simp only [CanonL] at hM; subst hM; simp at ha
      | cons b' l' =>
        obtain ⟨l0, ls, rfl, hs⟩ := ih false ⟨1, 1, 0⟩ M (by simp) hf.2 hM
        exact hs.oneLine a ha
  · intro item p L hf hc; simp [fitsBlock] at hf
  · -- item
    intro t b ih p M hf hc
    simp only [fitsItem, Bool.and_eq_true] at hf
    simp only [CanonItem] at hc
    cases b with
    | nil => simp only [CanonL] at hc; exact .inl hc
    | cons b' l' =>
      obtain ⟨l0, ls, rfl, hs⟩ := ih true p M (by simp) hf.2 hc
      exact .inr ⟨l0, ls, rfl, hs.body rfl⟩
  · intro item p L hne; exact absurd rfl hne
  · -- blocks
    intro b l ihb ihl item p L _ hf hc
    simp only [fitsBlocks, Bool.and_eq_true] at hf
    simp only [CanonL] at hc
    obtain ⟨A, R, hA, hR, rfl⟩ := hc
    obtain ⟨l0, ls, rfl, hs⟩ := ihb item p A hf.1.1.1 hA
    cases l with
    | nil => exact ⟨l0, ls, by simp, hs []⟩
    | cons b' l' =>
      obtain ⟨r0, rs, rfl, hr⟩ := ihl item p.next R (by simp) hf.2 hR
      have hs := hs (b' :: l')
      refine ⟨l0, ls ++ [] :: r0 :: rs, by simp, ?_, hs.ne, ?_, ?_, ?_, hs.opens⟩
      · intro m hm
        rw [← List.cons_append] at hm
        rcases (List.mem_append.1 hm).imp_right List.mem_cons.1 with h | h | h
        · exact hs.oneLine m h
        · rw [h]; exact oneLine_nil
        · exact hr.oneLine m h
      · rw [← List.cons_append, getLast_append_cons, List.getLast?_cons_cons]; exact hr.last
      · intro hi
        have h1 := hs.body hi
        have h2 := hr.body hi
        exact ⟨h1.1, h1.2.append (.blank (k := 0) h2.1 h2.2)⟩
      · intro hi hp m hm hw
        rw [← List.cons_append] at hm
        rcases (List.mem_append.1 hm).imp_right List.mem_cons.1 with h | h | h
        · exact hs.blanks hi hp m h hw
        · exact ⟨0, h⟩
        · exact hr.blanks hi hp m h hw
  · intro k n i p L hne; exact absurd rfl hne
  · -- items
    intro it l ihi ihl k n i p L _ hf hc
    simp only [fitsItems, Bool.and_eq_true] at hf
    simp only [CanonItems] at hc
    obtain ⟨M, R, hM, hR, rfl⟩ := hc
    have hRT : Tail R := by
      cases l with
      | nil => simp only [CanonItems] at hR; subst hR; exact .nil
      | cons it' l' =>
        obtain ⟨r0, rs, rfl, h1, h2, _⟩ := ihl k n (i + 1) p R (by simp) hf.2 hR
        exact .firm h1 h2
    have hm := ihi _ M hf.1.1.2 hM
    have hm0 : OneLine (M.headD []) := by
      rcases hm with rfl | ⟨m0, ms, rfl, h, _⟩
      · exact oneLine_nil
      · exact h.1
    have hms : Tail (M.drop 1) := by
      rcases hm with rfl | ⟨m0, ms, rfl, _, h⟩
      · exact .nil
      · exact h
    obtain ⟨h1, h2⟩ := itemText_firm y.spaces k i it.task hm0
    exact ⟨_, _, rfl, h1, (hms.indent _).append hRT, h2⟩

/-! ## The printed text as lines -/

theorem rustLinesAux_append {l : Str} (h : OneLine l) (s acc : Str) :
    rustLinesAux (l ++ s) acc = rustLinesAux s (acc ++ l) := by
  induction l generalizing acc with
  | nil => simp
  | cons c l ih =>
    obtain ⟨h1, h2⟩ := oneLine_cons.1 h
    rw [List.cons_append, rustLinesAux, ih h2]
    · simp
    · intro h; exact h1.1 h

theorem rustLines_join {l : Str} {ls : List Str} (h : ∀ m ∈ l :: ls, OneLine m) (hl : (l :: ls).getLast? ≠ some []) :
    rustLines (joinWith ['\n'] (l :: ls)) = l :: ls := by
  unfold rustLines
  induction ls generalizing l with
  | nil =>
    have := rustLinesAux_append (h l (by simp)) [] []
    simp only [List.append_nil, List.nil_append] at this
    rw [joinWith, this, rustLinesAux, if_neg]
    simpa using hl
  | cons m ls ih =>
    rw [joinWith, List.append_assoc, rustLinesAux_append (h l (by simp)), List.singleton_append, rustLinesAux,
      ih (fun a ha => h a (by simp at ha ⊢; exact .inr ha)) (by rwa [List.getLast?_cons_cons] at hl)]
    rw [if_neg]
    · simp
    · intro hr
      exact (h l (by simp) _ (List.mem_of_getLast? (by simpa using hr))).2 rfl

theorem Laid.oneLine {n : Nat} {t : Text} {s : Str} (h : Laid n t s) (ho : t.all (·.isSome) = true) : s = flat t := by
  induction h with
  | nil => rfl
  | char c _ ih => simp at ho; simp [flat]; exact ih (by simpa using ho)
  | space _ _ => simp at ho
  | «break» _ _ => simp at ho
  | last _ => simp at ho

theorem lit_some (s : Str) : (lit s).all (·.isSome) = true := by simp [lit]

theorem newline_append (n m : Nat) (l : Str) : newline (n + m) ++ l = newline n ++ (List.replicate m ' ' ++ l) := by
  simp [newline, ← List.replicate_append_replicate]

theorem fill_join {punct : Char → Bool} {y : Style} {item : Bool} {c : List Inline} {n : Nat} {s : Str}
    (hn : item = false → n = 0) (hf : fitsLines punct y item c = true) (h : Laid n (inlinesToks y.digit c) s) :
    ∃ s0, Fill (inlinesToks y.digit c) s0 ∧ s = joinWith (newline n) (splitNl s0) ∧ splitNl s0 ≠ [] := by
  obtain ⟨s0, hs, rfl⟩ := fill_lines hn hf h
  obtain ⟨l, ls, e1, e2, h4, _⟩ := hs.firm_lines hf
  refine ⟨s0, hs, ?_, splitNl_ne s0⟩
  rw [e1]
  conv => lhs; rw [e2]
  exact indentText_lines n fun m hm => (h4 m hm).1.1

theorem join_snoc (sep : Str) {L : List Str} (h : L ≠ []) (l : Str) :
    joinWith sep (L ++ [l]) = joinWith sep L ++ sep ++ l := by
  cases L with
  | nil => exact absurd rfl h
  | cons a L => rw [List.cons_append, joinWith_cons_sep, joinWith_cons_sep]; simp

theorem join_append (sep : Str) {A B : List Str} (ha : A ≠ []) (hb : B ≠ []) :
    joinWith sep (A ++ B) = joinWith sep A ++ sep ++ joinWith sep B := by
  cases A with
  | nil => exact absurd rfl ha
  | cons a A =>
    cases B with
    | nil => exact absurd rfl hb
    | cons b B =>
      rw [List.cons_append, joinWith_cons_sep, joinWith_cons_sep, joinWith_cons_sep]; simp

theorem join_ne {sep : Str} {l : Str} {ls : List Str} (h : l ≠ []) : joinWith sep (l :: ls) ≠ [] := by
  rw [joinWith_cons_sep]; simp [h]

/-- The printed text is the lines, joined with newlines and the indentation. -/
theorem printed_lines (punct : Char → Bool) (y : Style) :
    (∀ b item p n s, (item = false → n = 0) → fitsBlock punct y item b p = true → Printed y n b s →
      ∃ L, CanonB y b L ∧ s = joinWith (newline n) L) ∧
    (∀ i p n s, fitsItem punct y i p = true → PrintedItem y n i s →
      ∃ L, CanonItem y i L ∧ s = joinWith (newline n) L) ∧
    (∀ l item p n s first, (item = false → n = 0) → fitsBlocks punct y item l p = true →
      PrintedL y n first l s → ∃ L, CanonL y l L ∧
        s = (if first || l.isEmpty then [] else newline n ++ newline n) ++ joinWith (newline n) L) ∧
    (∀ items k m i p n s, fitsItems punct y k m i items p = true → PrintedItems y k m n i items s →
      ∃ L, CanonItems y k m i items L ∧
        s = (if i = 0 ∨ items = [] then [] else newline n) ++ joinWith (newline n) L) := by
  have hshape := shape punct y
  refine Block.ind ?_ ?_ ?_ ?_ ?_ ?_ ?_ ?_ ?_ ?_ ?_ ?_ ?_ ?_ ?_ ?_ ?_
  · -- paragraph
    intro c item p n s hn hf hp
    simp only [fitsBlock, Bool.and_eq_true] at hf
    simp only [Printed] at hp
    obtain ⟨s0, h1, h2, _⟩ := fill_join hn hf.2 hp
    exact ⟨_, by simp only [CanonB]; exact ⟨s0, h1, rfl⟩, h2⟩
  · -- heading
    intro k c item p n s hn hf hp
    cases k with
    | atx j =>
      simp only [Printed] at hp
      refine ⟨_, by simp only [CanonB]; rfl, ?_⟩
      rw [hp]; rfl
    | setext v =>
      simp only [fitsBlock, Bool.and_eq_true] at hf
      simp only [Printed] at hp
      obtain ⟨a, ha, rfl⟩ := hp
      obtain ⟨s0, h1, rfl, h3⟩ := fill_join hn hf.2 ha
      refine ⟨_, by simp only [CanonB]; exact ⟨s0, h1, rfl⟩, ?_⟩
      rw [join_snoc _ h3]
  · intro item p n s hn hf hp
    simp only [Printed] at hp
    refine ⟨_, by simp only [CanonB]; rfl, ?_⟩
    rw [hp]; rfl
  · -- quote
    intro b ih item p n s hn hf hp
    simp only [fitsBlock, Bool.and_eq_true] at hf
    simp only [Printed] at hp
    obtain ⟨inner, hi, rfl⟩ := hp
    obtain ⟨M, hM, rfl⟩ := ih false ⟨1, 1, 1⟩ 0 inner true (fun _ => rfl) hf.2 hi
    have hb : b ≠ [] := by simpa using hf.1.1.2
    obtain ⟨l0, ls, rfl, hs⟩ := hshape.2.2.1 b false ⟨1, 1, 1⟩ M hb hf.2 hM
    refine ⟨_, by simp only [CanonB]; exact ⟨_, hM, rfl⟩, ?_⟩
    simp only [Bool.true_or, if_true, List.nil_append, newline_zero]
    rw [rustLines_join hs.oneLine (hs.last (by simp))]
  · -- list
    intro k items ih item p n s hn hf hp
    simp only [fitsBlock, Bool.and_eq_true] at hf
    simp only [Printed] at hp
    obtain ⟨L, hL, rfl⟩ := ih k _ 0 p n s hf.2 hp
    exact ⟨L, by simp only [CanonB]; exact hL, by simp⟩
  · -- code
    intro k t item p n s hn hf hp
    cases k with
    | indented =>
      simp only [fitsBlock, Bool.and_eq_true, beq_iff_eq] at hf
      simp only [Printed] at hp
      obtain ⟨⟨⟨⟨⟨⟨h0, h1⟩, h2⟩, h3⟩, h4⟩, h5⟩, h6⟩ := hf
      obtain rfl := hn (by simpa using h0)
      refine ⟨_, by simp only [CanonB]; rfl, ?_⟩
      rw [hp, newline_zero]
      congr 2
      have hr : t.contains '\r' = false := by simpa using h4
      obtain ⟨m, ms, hm⟩ := List.exists_cons_of_ne_nil (splitNl_ne t)
      have ho := splitNl_lines hr
      have hj := join_splitNl t
      rw [hm] at ho hj h6 ⊢
      rw [← hj]
      refine rustLines_join ho ?_
      intro hl
      rcases List.eq_nil_or_concat ms with rfl | ⟨ms', z, rfl⟩
      · simp at hl; subst hl; simp at h6
      · rw [List.concat_eq_append, ← List.cons_append, getLast_append_cons] at hl
        simp at hl; subst hl
        rw [List.concat_eq_append, ← List.cons_append, join_snoc _ (by simp)] at hj
        rw [← hj] at h5
        simp at h5
    | fenced info =>
      simp only [fitsBlock, Bool.and_eq_true, beq_iff_eq] at hf
      simp only [Printed] at hp
      obtain ⟨⟨⟨⟨⟨⟨⟨⟨⟨h0, h1⟩, h2⟩, h3⟩, h4⟩, h5⟩, h6⟩, h7⟩, h8⟩, h9⟩ := hf
      obtain rfl := hn (by simpa using h0)
      refine ⟨_, by simp only [CanonB]; rfl, ?_⟩
      rw [hp, newline_zero, ← List.singleton_append (l := splitNl t ++ _), join_append _ (by simp) (by simp), join_snoc _ (splitNl_ne t), join_splitNl]
      simp [joinWith]
  · -- HTML block
    intro h item p n s hn hf hp
    simp only [fitsBlock, Bool.and_eq_true] at hf
    simp only [Printed] at hp
    subst hp
    refine ⟨_, by simp only [CanonB]; rfl, ?_⟩
    obtain ⟨hr, hk⟩ := hf
    have hr : s.contains '\r' = false := by simpa using hr
    simp only [Bool.or_eq_true, Bool.and_eq_true, beq_iff_eq] at hk
    rcases hk with hk | hk
    · obtain rfl := hn (by simpa using hk.1.1.1.1)
      rw [newline_zero, join_splitNl]
    · have h1 : OneLine s := by
        have h2 := hk.1.2
        intro c hc
        constructor
        · rintro rfl; simp [hc] at h2
        · rintro rfl; simp [hc] at hr
      rw [splitNl_oneLine h1]
      rfl
  · -- definition
    intro lb d t item p n s hn hf hp
    simp only [fitsBlock, Bool.and_eq_true, decide_eq_true_eq, bne_iff_ne] at hf
    simp only [Printed] at hp
    refine ⟨_, by simp only [CanonB]; rfl, ?_⟩
    rw [hp.oneLine (by
      rw [List.all_append, List.all_append, lit_some, lit_some]
      simpa [oneLine] using hf.1.1.1.1.2)]
    simp [flat_append, flat_lit, (flat_inlines y.digit).2, joinWith]
  · -- table
    intro rows al item p n s hn hf hp
    simp only [fitsBlock, Bool.and_eq_true, decide_eq_true_eq] at hf
    simp only [Printed] at hp
    obtain ⟨⟨⟨⟨⟨⟨⟨h1, h2⟩, h3⟩, h4⟩, h5⟩, h6⟩, h7⟩, h8⟩ := hf
    obtain rfl := hn (by simpa using h1)
    refine ⟨_, by simp only [CanonB]; rfl, ?_⟩
    rw [newline_zero]
    refine hp ?_
    intro r hr
    have := List.all_eq_true.1 h7 r hr
    simpa using this
  · -- footnote
    intro lb b ih item p n s hn hf hp
    simp only [fitsBlock, Bool.and_eq_true, decide_eq_true_eq] at hf
    simp only [Printed] at hp
    obtain ⟨inner, hi, rfl⟩ := hp
    have hb : ∃ c, b = [.paragraph c] := by
      revert hf
      split
      · rename_i c; exact fun _ => ⟨c, rfl⟩
      · intro h; exact absurd h.2 (by decide)
    obtain ⟨c, rfl⟩ := hb
    simp only [Bool.and_eq_true] at hf
    simp only [PrintedL, Printed, if_true] at hi
    obtain ⟨sep, a, rest, rfl, ha, rfl, rfl⟩ := hi
    refine ⟨_, by simp only [CanonB]; exact ⟨c, rfl, rfl⟩, ?_⟩
    rw [ha.oneLine (by simpa [oneLine] using hf.2.2), (flat_inlines y.digit).2]
    simp [joinWith]
  · -- alert
    intro t b ih item p n s hn hf hp
    simp only [fitsBlock, Bool.and_eq_true, decide_eq_true_eq] at hf
    simp only [Printed] at hp
    obtain ⟨inner, hi, rfl⟩ := hp
    obtain ⟨M, hM, rfl⟩ := ih false ⟨1, 1, 0⟩ 0 inner true (fun _ => rfl) hf.2 hi
    refine ⟨_, by simp only [CanonB]; exact ⟨_, hM, rfl⟩, ?_⟩
    congr 3
    simp only [Bool.true_or, if_true, List.nil_append, newline_zero]
    cases b with
    | nil => simp only [CanonL] at hM; subst hM; rfl
    | cons b' l' =>
      obtain ⟨l0, ls, rfl, hs⟩ := hshape.2.2.1 _ false ⟨1, 1, 0⟩ M (by simp) hf.2 hM
      exact rustLines_join hs.oneLine (hs.last (by simp))
  · intro item p n s hn hf; simp [fitsBlock] at hf
  · -- item
    intro t b ih p n s hf hp
    simp only [fitsItem, Bool.and_eq_true] at hf
    simp only [PrintedItem] at hp
    obtain ⟨L, hL, rfl⟩ := ih true p n s true (by simp) hf.2 hp
    exact ⟨L, by simp only [CanonItem]; exact hL, by simp⟩
  · intro item p n s first hn hf hp
    simp only [PrintedL] at hp
    exact ⟨[], by simp only [CanonL], by simp [hp, joinWith]⟩
  · -- blocks
    intro b l ihb ihl item p n s first hn hf hp
    simp only [fitsBlocks, Bool.and_eq_true] at hf
    simp only [PrintedL] at hp
    obtain ⟨sep, a, rest, hsep, ha, hr, rfl⟩ := hp
    obtain ⟨A, hA, rfl⟩ := ihb item p n a hn hf.1.1.1 ha
    obtain ⟨R, hR, rfl⟩ := ihl item p.next n rest false hn hf.2 hr
    obtain ⟨l0, ls, rfl, hs⟩ := hshape.1 b item p A hf.1.1.1 hA
    refine ⟨_, by simp only [CanonL]; exact ⟨_, R, hA, hR, rfl⟩, ?_⟩
    have hsep' : sep = if first then [] else newline n ++ newline n := by
      cases first with
      | true => simpa using hsep
      | false =>
        simp only [Bool.false_eq_true, if_false] at hsep ⊢
        obtain ⟨j, hj, hsep⟩ := hsep
        obtain rfl : j = n := by
          rcases hj with h | ⟨_, h⟩
          · exact h
          · exact absurd (List.append_eq_nil_iff.1 h).1 (join_ne (hs l).ne)
        have hbl : listFirst [b] = true → y.blankBeforeList = true := by
          intro hlf
          cases b <;> simp [listFirst] at hlf
          have := hf.1.1.1
          simp only [fitsBlock, Bool.and_eq_true] at this
          exact this.1.2
        cases b <;> simp_all [listFirst]
    rw [hsep']
    cases l with
    | nil =>
      simp only [CanonL] at hR
      subst hR
      cases first <;> simp [joinWith]
    | cons b' l' =>
      have := (hshape.2.2.1 (b' :: l') item p.next R (by simp) hf.2 hR)
      obtain ⟨r0, rs, rfl, hr'⟩ := this
      simp only [Bool.or_false, List.isEmpty_cons, Bool.false_eq_true, if_false]
      rw [join_append _ (by simp) (by simp)]
      cases first <;> simp [joinWith]
  · intro k m i p n s hf hp
    simp only [PrintedItems] at hp
    exact ⟨[], by simp only [CanonItems], by simp [hp, joinWith]⟩
  · -- items
    intro it l ihi ihl k m i p n s hf hp
    simp only [fitsItems, Bool.and_eq_true] at hf
    simp only [PrintedItems] at hp
    obtain ⟨body, rest, hb, hr, rfl⟩ := hp
    obtain ⟨M, hM, rfl⟩ := ihi _ _ body hf.1.1.2 hb
    obtain ⟨R, hR, rfl⟩ := ihl k m (i + 1) p n rest hf.2 hr
    refine ⟨_, by simp only [CanonItems]; exact ⟨M, R, hM, hR, rfl⟩, ?_⟩
    have hbody : itemText y.spaces k i it.task (joinWith (newline (n + contentIndent y.spaces k m)) M) =
        joinWith (newline n) (itemText y.spaces k i it.task (M.headD []) ::
          (M.drop 1).map (List.replicate (contentIndent y.spaces k m) ' ' ++ ·)) := by
      cases M with
      | nil => simp [joinWith]
      | cons m0 ms =>
        rw [joinWith_cons_sep, joinWith_cons_sep]
        simp only [itemText, List.headD_cons, List.drop_succ_cons, List.drop_zero, List.map_map, List.append_assoc]
        congr 7
        funext l
        simp [newline_append]
    rw [hbody]
    cases l with
    | nil =>
      simp only [CanonItems] at hR
      subst hR
      simp [joinWith]
    | cons it' l' =>
      obtain ⟨r0, rs, rfl, _⟩ := hshape.2.2.2 (it' :: l') k m (i + 1) p R (by simp) hf.2 hR
      rw [← List.cons_append, join_append _ (by simp) (by simp)]
      simp

end Spec
end Md
end Verif
