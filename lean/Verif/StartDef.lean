import Verif.StartBlock
/-!
# Definitions and tables begin exactly where the specification says (for C80 and C81)
-/
set_option autoImplicit false
set_option linter.unusedVariables false
set_option linter.unusedSimpArgs false
namespace Verif
open Nom

/-! ## Texts with an escaped end character -/

theorem unescapes_head {e : Char} (he : e ≠ '\\') {w t : Str} (h : Unescapes e w t) : w.head? ≠ some e := by
  cases h with
  | nil => simp
  | char hc _ => simpa using hc
  | esc _ => simpa using he.symm

theorem escLoop_of {e : Char} (he : e ≠ '\\') {α : Type} {stop : P α} {r : Str} (hr : ∃ y, stop r = some y)
    {w t : Str} (h : Unescapes e w t) (hl : r.head? = some e → w.getLast? ≠ some '\\')
    (hs : ∀ u c v, w = u ++ c :: v → c ≠ e → stop (c :: (v ++ r)) = none) :
    many0 (preceded (notP stop) (value e (tag ['\\', e]) <||> anychar)) (w ++ r) = some (r, t) := by
  induction h with
  | nil => exact many0_of_none (preceded_none (notP_none.2 hr))
  | @char c w t hc h ih =>
    have h0 : stop (c :: (w ++ r)) = none := hs [] c w rfl hc
    refine many0_of_some (r := w ++ r) ?_ (by simp) (ih ?_ ?_)
    · refine preceded_some.2 ⟨c :: (w ++ r), (), notP_some.2 ⟨h0, rfl⟩, ?_⟩
      rw [orElse_of_none]
      · rfl
      · rw [value_none, tag_none]
        rintro ⟨v, hv⟩
        simp at hv
        obtain ⟨rfl, hv⟩ := hv
        cases w with
        | nil => exact hl (by simp at hv; rw [← hv]; rfl) rfl
        | cons d w => simp at hv; exact unescapes_head he h (by rw [← hv.1]; rfl)
    · intro hh hw
      refine hl hh ?_
      rw [List.getLast?_cons, hw]; rfl
    · intro u d v hw hd
      exact hs (c :: u) d v (by rw [hw]; rfl) hd
  | @esc w t h ih =>
    refine many0_of_some (r := w ++ r) ?_ (by simp; omega) (ih ?_ ?_)
    · refine preceded_some.2 ⟨'\\' :: e :: (w ++ r), (), notP_some.2 ⟨hs [] '\\' (e :: w) rfl he.symm, rfl⟩, ?_⟩
      exact orElse_of_some (value_some.2 ⟨_, tag_append ['\\', e] (w ++ r), rfl⟩)
    · intro hh hw
      refine hl hh ?_
      rw [List.getLast?_cons, List.getLast?_cons, hw]; rfl
    · intro u d v hw hd
      exact hs ('\\' :: e :: u) d v (by rw [hw]; rfl) hd

theorem escLoop_last {e : Char} (he : e ≠ '\\') {α : Type} {stop : P α} (hstop : ∀ s, stop (e :: s) ≠ none) :
    ∀ s r l, many0 (preceded (notP stop) (value e (tag ['\\', e]) <||> anychar)) s = some (r, l) →
      ∃ w, s = w ++ r ∧ Unescapes e w l ∧ (r.head? = some e → w.getLast? ≠ some '\\') ∧
        ∀ u c v, w = u ++ c :: v → c ≠ e → stop (c :: (v ++ r)) = none := by
  refine many0_induction ?_ ?_
  · intro s _; exact ⟨[], rfl, .nil, by simp, by simp⟩
  · intro s r c r' l hp hlt hm ih
    obtain ⟨s1, _, h1, h2⟩ := preceded_some.1 hp
    obtain ⟨h1, rfl⟩ := notP_some.1 h1
    obtain ⟨w, rfl, ih, hl, hs⟩ := ih
    rcases orElse_some.1 h2 with h2 | ⟨hn, h2⟩
    · obtain ⟨_, h3, rfl⟩ := value_some.1 h2
      have h4 := (tag_some.1 h3).1
      refine ⟨'\\' :: e :: w, by simp [h4], .esc ih, ?_, ?_⟩
      · intro hh
        rw [List.getLast?_cons, List.getLast?_cons]
        cases hw : w.getLast? with
        | none => simpa using he
        | some d => intro hd; simp at hd; exact hl hh (by rw [hw, hd])
      · intro u c v hw hce
        cases u with
        | nil =>
          simp at hw
          obtain ⟨rfl, rfl⟩ := hw
          rw [h4] at h1
          simpa using h1
        | cons d u =>
          simp at hw
          cases u with
          | nil => simp at hw; exact absurd hw.2.1.symm hce
          | cons d u => simp at hw; exact hs u c v hw.2.2 hce
    · have h4 := anychar_some.1 h2
      subst h4
      refine ⟨c :: w, rfl, .char ?_ ih, ?_, ?_⟩
      · rintro rfl; exact hstop _ h1
      · intro hh
        rw [List.getLast?_cons]
        cases hw : w.getLast? with
        | some d => intro hd; simp at hd; exact hl hh (by rw [hw, hd])
        | none =>
          intro hd
          simp at hd
          subst hd
          have hw : w = [] := by simpa using hw
          subst hw
          rw [value_none, tag_none] at hn
          cases r' with
          | nil => simp at hh
          | cons d r' =>
            simp at hh
            subst hh
            exact hn ⟨r', rfl⟩
      · intro u d v hw hde
        cases u with
        | nil =>
          simp at hw
          obtain ⟨rfl, rfl⟩ := hw
          exact h1
        | cons d u => simp at hw; exact hs u _ v hw.2 hde

theorem escLoop1_last {e : Char} (he : e ≠ '\\') {α : Type} {stop : P α} (hstop : ∀ s, stop (e :: s) ≠ none)
    {s r l : Str} (h : many1 (preceded (notP stop) (value e (tag ['\\', e]) <||> anychar)) s = some (r, l)) :
    ∃ w, s = w ++ r ∧ w ≠ [] ∧ Unescapes e w l ∧ (r.head? = some e → w.getLast? ≠ some '\\') ∧
      ∀ u c v, w = u ++ c :: v → c ≠ e → stop (c :: (v ++ r)) = none := by
  obtain ⟨s1, a, l', h1, h2, rfl⟩ := many1_some.1 h
  have hlt : s1.length < s.length := by
    obtain ⟨s2, _, h3, h4⟩ := preceded_some.1 h1
    obtain ⟨_, rfl⟩ := notP_some.1 h3
    rcases orElse_some.1 h4 with h4 | ⟨_, h4⟩
    · obtain ⟨_, h3, rfl⟩ := value_some.1 h4
      rw [(tag_some.1 h3).1]; simp; omega
    · rw [anychar_some.1 h4]; simp
  obtain ⟨w, rfl, h3, h4⟩ := escLoop_last he hstop _ _ _ (many0_of_some h1 hlt h2)
  refine ⟨w, rfl, ?_, h3, h4⟩
  rintro rfl
  cases h3

/-! ## Definitions -/

section
variable {x : PExt} {cfg : PConfig}

theorem blankText_gap {w : Str} (h : BlankText w) :
    (w.count '\n' = 0 → Blanks w) ∧ (w.count '\n' ≤ 1 → Gap w) := by
  have cons : ∀ {c : Char} {w : Str}, (c = ' ' ∨ c = '\t') → Blanks w → Blanks (c :: w) := by
    intro c w hc hw d hd
    rcases List.mem_cons.1 hd with rfl | hd
    · exact hc
    · exact hw d hd
  have gcons : ∀ {c : Char} {w : Str}, (c = ' ' ∨ c = '\t') → Gap w → Gap (c :: w) := by
    intro c w hc hw
    rcases hw with hw | ⟨b1, nl, b2, h1, h2, h3, rfl⟩
    · exact .inl (cons hc hw)
    · exact .inr ⟨c :: b1, nl, b2, cons hc h1, h2, h3, rfl⟩
  induction h with
  | nil => exact ⟨fun _ c hc => by simp at hc, fun _ => .inl (fun c hc => by simp at hc)⟩
  | space _ ih => exact ⟨fun h => cons (.inl rfl) (ih.1 (by simpa using h)), fun h => gcons (.inl rfl) (ih.2 (by simpa using h))⟩
  | tab _ ih => exact ⟨fun h => cons (.inr rfl) (ih.1 (by simpa using h)), fun h => gcons (.inr rfl) (ih.2 (by simpa using h))⟩
  | @lf s _ ih =>
    refine ⟨fun h => by simp at h, fun h => .inr ⟨[], ['\n'], s, fun c hc => by simp at hc, .inl rfl, ih.1 ?_, rfl⟩⟩
    simp at h; simpa using h
  | @crlf s _ ih =>
    refine ⟨fun h => by simp at h, fun h => .inr ⟨[], ['\r', '\n'], s, fun c hc => by simp at hc, .inr rfl, ih.1 ?_, rfl⟩⟩
    simp at h; simpa using h

theorem TitleGap.gap {w : Str} (h : TitleGap w) : Gap w := (blankText_gap h.2.1).2 h.2.2

theorem defEnd_stop {v : Str} (h : DefEnd v) : DestStop v := by
  rcases h with ⟨g, w, t, e, r, hg, hw, he, rfl⟩ | ⟨⟨e, r, he, rfl⟩, _⟩
  · exact hg.gap.white.destStop (fun h => absurd h hg.1)
  · rcases he with (rfl | rfl) | ⟨rfl, rfl⟩ <;> intro c hc <;> simp at hc <;> subst hc <;> exact .inl (by decide)

theorem destAt_first {w v : Str} (h : DestAt w v) : ∀ c, (w ++ v).head? = some c → isMultispace c = false := by
  rcases h with ⟨d, hd⟩ | ⟨d, hd, rfl, rfl⟩
  · obtain ⟨c, r, hcr, hms⟩ := hd.first
    rw [hcr]; intro d hd; simp at hd; subst hd; exact hms
  · cases d with
    | nil => intro c hc; simp at hc; subst hc; decide
    | cons a d =>
      obtain ⟨c, t, hct, _, _, h⟩ := hd.first (by simp)
      rw [hct]; intro d hd; simp at hd; subst hd; exact h

theorem bareBack_many {s : Str} (h : BareDest s) : ∃ l,
    many0 (value () linkEscapedChar <||> balancedParens <||>
      value () (satisfy (fun c => isValidChar c && c != '(' && c != ')'))) (s ++ ['\\']) = some ([], l) ∧ l ≠ [] := by
  induction h with
  | nil => exact ⟨[()], by decide +kernel, by simp⟩
  | @chr c s h1 h2 _ ih =>
    obtain ⟨l, hl, _⟩ := ih
    obtain ⟨_, _, k3, _⟩ := destChar ⟨h1, h2⟩
    exact ⟨() :: l, many0_of_some (barePart_chr (balancedParens_head k3) ⟨h1, h2⟩) (by simp) hl, by simp⟩
  | @esc c s _ ih =>
    obtain ⟨l, hl, _⟩ := ih
    exact ⟨() :: l, many0_of_some barePart_esc (by simp <;> omega) hl, by simp⟩
  | @parens a b ha _ _ ihb =>
    obtain ⟨l, hl, _⟩ := ihb
    generalize hu : ['\\'] = u at *
    obtain ⟨l', hl'⟩ := bareDest_manyF ha ('(' :: (a ++ ')' :: (b ++ u))).length (by simp; omega) (b ++ u)
    refine ⟨() :: l, many0_of_some (r := b ++ u) ?_ (by simp <;> omega) hl, by simp⟩
    have hs : '(' :: (a ++ ')' :: b) ++ u = '(' :: (a ++ ')' :: (b ++ u)) := by simp
    rw [hs, orElse_of_none (value_none.2 (linkEscapedChar_head (by decide)))]
    refine orElse_of_some ?_
    unfold balancedParens
    rw [balancedParensF]
    exact delimited_some.2 ⟨a ++ ')' :: (b ++ u), ['('], ')' :: (b ++ u), [')'],
      tag_append ['('] _, value_some.2 ⟨_, hl', rfl⟩, tag_append [')'] _⟩

theorem dest_ok {w v : Str} (h : DestAt w v) (hv : DestStop v) : ∃ d, linkDestination (w ++ v) = some (v, d) := by
  rcases h with ⟨d, hd⟩ | ⟨d, hd, rfl, rfl⟩
  · exact ⟨d, linkDestination_of hd (.inr hv)⟩
  · obtain ⟨l, h1, h2⟩ := bareBack_many hd
    refine ⟨d ++ ['\\'], ?_⟩
    obtain ⟨c, t, hct, k1, k2⟩ : ∃ c t, d ++ ['\\'] = c :: t ∧ isValidChar c = true ∧ c ≠ '<' := by
      cases d with
      | nil => exact ⟨_, _, rfl, by decide, by decide⟩
      | cons a d =>
        obtain ⟨c, t, hct, h1, h2, _⟩ := hd.first (by simp)
        exact ⟨c, t ++ ['\\'], by rw [hct]; rfl, h1, h2⟩
    have h1' : many0 (value () linkEscapedChar <||> balancedParens <||>
      value () (satisfy (fun c => isValidChar c && c != '(' && c != ')'))) ((d ++ ['\\']) ++ []) = some ([], l) := by
      rw [List.append_nil]; exact h1
    have hrec := recognize_of (many1_of_many0 h1' h2)
    rw [List.append_nil] at hrec ⊢
    unfold linkDestination
    rw [orElse_of_none (by
      unfold linkDestination1
      rw [hct]
      exact delimited_none (chr_ne k2))]
    unfold linkDestination2
    have : satisfy (fun c => isValidChar c && c != '<') (d ++ ['\\']) = some (t, c) := by
      rw [hct]; exact satisfy_some.2 ⟨rfl, by simp [k1, k2]⟩
    rw [this]
    exact hrec

theorem label_ok (hc : cfg.CustomOk) (ht : cfg.text ≠ .ignore) {w t u : Str} (h : BracketText w t)
    (hl : w.getLast? ≠ some '\\') : ∃ l, linkLabel (parseInlines1 x cfg) ('[' :: (w ++ (']' :: u))) = some (u, l) := by
  have hm := escLoop_of (e := ']') (by decide) (stop := chr ']') (r := ']' :: u) ⟨_, chr_cons _ _⟩ h.text
    (fun _ => hl) (by intro a c v _ hne; exact chr_ne hne)
  obtain ⟨c, hcm, h1, h2⟩ := h.visible
  have hne : t ≠ [] := by rintro rfl; simp at hcm
  obtain ⟨l, hil⟩ := parseInlines1_ok (x := x) hc ht hne
  refine ⟨l, delimited_some.2 ⟨w ++ (']' :: u), ['['], ']' :: u, [']'], rfl, ?_, rfl⟩⟩
  unfold linkLabelInner
  have hv : verify (many1 (preceded (notP (chr ']')) (value ']' (tag cs!"\\]") <||> anychar)))
      (fun cs => cs.any (fun c => c != ' ' && c != '\n') && cs.length < 1000) (w ++ (']' :: u)) = some (']' :: u, t) := by
    refine verify_some.2 ⟨many1_of_many0 hm hne, ?_⟩
    simp only [Bool.and_eq_true, List.any_eq_true, decide_eq_true_eq]
    exact ⟨⟨c, hcm, by simp [h1, h2]⟩, h.short⟩
  rw [hv]
  simp only
  rw [hil]

theorem definition_of_at (hc : cfg.CustomOk) (ht : cfg.text ≠ .ignore) {s : Str} (h : DefAt s) :
    ∃ r l d t, linkDefinitionP x cfg s = some (r, .definition l d t) := by
  obtain ⟨k, w, t, g, d, v, hk, hb, hl, hg, hd, hv, rfl⟩ := h
  obtain ⟨l, h1⟩ := label_ok (x := x) (u := ':' :: (g ++ (d ++ v))) hc ht hb hl
  obtain ⟨y, h2⟩ := gap_space (u := d ++ v) hg (destAt_first hd)
  obtain ⟨d', h3⟩ := dest_ok hd (defEnd_stop hv)
  have h4 : ∃ e r o, LineEnd e r ∧ opt (preceded oneLineWhitespace1 linkTitle) v = some (e ++ r, o) := by
    rcases hv with ⟨g, w, t, e, r, hg, hw, he, rfl⟩ | ⟨⟨e, r, he, rfl⟩, hn⟩
    · obtain ⟨c, r', hcr, hms⟩ := hw.first
      exact ⟨e, r, some t, he, opt_some.2 (.inl ⟨t, preceded_some.2 ⟨w ++ (e ++ r), g, ows_of hg.gap hg.1
        (by rw [hcr]; intro d hd; simp at hd; subst hd; exact hms), linkTitle_of hw⟩, rfl⟩)⟩
    · refine ⟨e, r, none, he, opt_some.2 (.inr ⟨?_, rfl, rfl⟩)⟩
      cases hp : preceded oneLineWhitespace1 linkTitle (e ++ r) with
      | none => rfl
      | some y =>
        exfalso
        obtain ⟨r', t⟩ := y
        obtain ⟨s1, a, h1, h2⟩ := preceded_some.1 hp
        obtain ⟨g, h3, hg⟩ := oneLineWhitespace1_writes _ _ _ h1
        obtain ⟨w, rfl, hw⟩ := linkTitle_writes _ _ _ h2
        exact hn ⟨g, w, t, r', hg, hw, h3⟩
  obtain ⟨e, r, o, he, h4⟩ := h4
  refine ⟨r, l, d', o, ?_⟩
  unfold sp
  rw [linkDefinitionP_indent hk (by decide)]
  unfold linkDefinitionP
  refine mapP_some.2 ⟨(l, d', o), terminated_some.2 ⟨e ++ r, e, ?_, he.eofOrEol⟩, rfl⟩
  refine seq_some.2 ⟨':' :: (g ++ (d ++ v)), ?_, ?_⟩
  · rw [preceded_indent (by decide)]
    exact h1
  · exact preceded_some.2 ⟨_, _, chr_cons _ _, preceded_some.2 ⟨_, _, h2, seq_some.2 ⟨v, h3, h4⟩⟩⟩

/-- A destination that is read is one that is written. -/
theorem destAt_of {s5 s6 d : Str} (h14 : linkDestination s5 = some (s6, d)) : ∃ w, s5 = w ++ s6 ∧ DestAt w s6 := by
  obtain ⟨w, hw, h'⟩ := linkDestination_writes _ _ _ h14
  cases h' with
  | bare h1 h2 => exact ⟨_, hw, .inl ⟨_, .bare h1 h2⟩⟩
  | angle h1 => exact ⟨_, hw, .inl ⟨_, .angle h1⟩⟩
  | @back d hbd =>
    refine ⟨_, hw, ?_⟩
    have hd1 : linkDestination1 s5 = none := by
      obtain ⟨c, v, hcv, hc⟩ : ∃ c v, s5 = c :: v ∧ c ≠ '<' := by
        cases d with
        | nil => exact ⟨_, _, hw, by decide⟩
        | cons a d =>
          obtain ⟨c, t, hct, _, h2, _⟩ := hbd.first (by simp)
          exact ⟨c, t ++ ['\\'] ++ s6, by rw [hw, hct]; rfl, h2⟩
      rw [hcv]
      exact delimited_none (chr_ne hc)
    have hd2 : linkDestination2 s5 = some (s6, d ++ ['\\']) := by
      rcases orElse_some.1 h14 with h | ⟨_, h⟩
      · rw [hd1] at h; simp at h
      · exact h
    unfold linkDestination2 at hd2
    split at hd2
    · simp at hd2
    · obtain ⟨l, h2, _⟩ := recognize_some.1 hd2
      obtain ⟨s1, a, l', h3, h4, _⟩ := many1_some.1 h2
      obtain ⟨d1, e1, h5⟩ := barePart_step balancedParens_writes h3
      obtain ⟨d2, e2, h6⟩ := barePart_loop balancedParens_writes _ _ _ h4
      have hd : d ++ ['\\'] = d1 ++ d2 := by
        have : d ++ ['\\'] ++ s6 = (d1 ++ d2) ++ s6 := by rw [← hw, e1, e2]; simp
        exact List.append_cancel_right this
      have key : BarePart (d1 ++ d2) s6 := by
        rcases h5 with h5 | ⟨d', rfl, h5, h7⟩
        · rcases h6 with h6 | ⟨d3, rfl, h6, h7⟩
          · exact .inl (h5.append h6)
          · exact .inr ⟨d1 ++ d3, by simp, h5.append h6, h7⟩
        · rw [h7] at e2
          obtain ⟨rfl, rfl⟩ := List.append_eq_nil_iff.1 e2.symm
          exact .inr ⟨d', by simp, h5, rfl⟩
      rw [hd]
      rcases key with h | ⟨d', h6, h7, h8⟩
      · exact .inl ⟨_, .bare (by rw [← hd]; simp) h⟩
      · exact .inr ⟨d', h7, h6, h8⟩

/-- A label that is read is one that is written. -/
theorem label_at {rec : Str → Option (List Inline)} {s3 s2 : Str} {l : List Inline} (h7 : linkLabel rec s3 = some (s2, l)) :
    ∃ w t, s3 = '[' :: (w ++ ']' :: s2) ∧ BracketText w t ∧ w.getLast? ≠ some '\\' := by
  obtain ⟨s1, _, s2, _, h1, h2, h3⟩ := delimited_some.1 h7
  obtain ⟨rfl, _⟩ := tag_some.1 h1
  obtain ⟨rfl, _⟩ := tag_some.1 h3
  unfold linkLabelInner at h2
  split at h2
  · simp at h2
  · rename_i r1 label e
    split at h2
    · rename_i l' e2
      simp at h2
      obtain ⟨rfl, rfl⟩ := h2
      obtain ⟨e3, e4⟩ := verify_some.1 e
      obtain ⟨w, rfl, hne, h4, h5, _⟩ := escLoop1_last (by decide) (by simp [chr_cons]) e3
      refine ⟨w, label, by simp, ⟨h4, ?_, ?_⟩, h5 rfl⟩
      · simp at e4
        obtain ⟨⟨c, hc, h5⟩, _⟩ := e4
        exact ⟨c, hc, h5⟩
      · simp at e4; exact e4.2
    · simp at h2

theorem definition_at {s r : Str} {b : Block} (hp : linkDefinitionP x cfg s = some (r, b)) :
    DefAt s ∧ ∃ l d t, b = .definition l d t := by
  obtain ⟨⟨l, d, t⟩, h1, rfl⟩ := mapP_some.1 hp
  refine ⟨?_, _, _, _, rfl⟩
  obtain ⟨s1, e, h2, h3⟩ := terminated_some.1 h1
  obtain ⟨hend, rfl⟩ := LineEnd.of_eofOrEol h3
  obtain ⟨s2, h4, h5⟩ := seq_some.1 h2
  obtain ⟨s3, _, h6, h7⟩ := preceded_some.1 h4
  obtain ⟨k, hk', _, rfl, _⟩ := indent03_written h6
  have hlab := label_at h7
  obtain ⟨w', v, rfl, h8, h9⟩ := hlab
  obtain ⟨s4, _, h10, h11⟩ := preceded_some.1 h5
  obtain ⟨rfl, _⟩ := chr_some.1 h10
  obtain ⟨s5, _, h12, h13⟩ := preceded_some.1 h11
  have hg : ∃ g, s4 = g ++ s5 ∧ Gap g := by
    obtain ⟨s6, h14, h15⟩ := seq_some.1 h12
    obtain ⟨s7, h16, h17⟩ := seq_some.1 h15
    obtain ⟨b1, rfl, hb1⟩ := space0_writes _ _ _ h14
    obtain ⟨b2, rfl, hb2⟩ := space0_writes _ _ _ h17
    rcases opt_some.1 h16 with ⟨_, h18, _⟩ | ⟨_, rfl, _⟩
    · obtain ⟨nl, rfl, hnl⟩ := lineEnding_writes _ _ _ h18
      exact ⟨b1 ++ (nl ++ b2), by simp, .inr ⟨b1, nl, b2, hb1, hnl, hb2, rfl⟩⟩
    · exact ⟨b1 ++ b2, by simp, .inl (by intro c hc; simp at hc; exact hc.elim (hb1 c) (hb2 c))⟩
  obtain ⟨g, rfl, hg⟩ := hg
  obtain ⟨s6, h14, h15⟩ := seq_some.1 h13
  have hd := destAt_of h14
  obtain ⟨wd, rfl, hd⟩ := hd
  have hv : DefEnd s6 := by
    rcases opt_some.1 h15 with ⟨a, h16, h17⟩ | ⟨hn, h16, h17⟩
    · obtain ⟨s7, _, h18, h19⟩ := preceded_some.1 h16
      obtain ⟨g', rfl, hg'⟩ := oneLineWhitespace1_writes _ _ _ h18
      obtain ⟨wt, rfl, hwt⟩ := linkTitle_writes _ _ _ h19
      exact .inl ⟨g', wt, _, e, r, hg', hwt, hend, by simp⟩
    · subst h16
      refine .inr ⟨⟨e, r, hend, rfl⟩, ?_⟩
      rintro ⟨g, w, t, r', hg, hw, hs⟩
      obtain ⟨c, r'', hcr, hms⟩ := hw.first
      rw [hs, preceded_some.2 ⟨w ++ r', g, ows_of hg.gap hg.1
        (by rw [hcr]; intro d hd; simp at hd; subst hd; exact hms), linkTitle_of hw⟩] at hn
      simp at hn
  exact ⟨k, w', v, g, wd, s6, hk', h8, h9, hg, hd, hv, by simp [sp]⟩

theorem definition_iff (hc : cfg.CustomOk) (ht : cfg.text ≠ .ignore) {s : Str} :
    (∃ y, linkDefinitionP x cfg s = some y) ↔ DefAt s := by
  constructor
  · rintro ⟨⟨r, b⟩, h⟩; exact (definition_at h).1
  · intro h; obtain ⟨r, l, d, t, h⟩ := definition_of_at (x := x) hc ht h; exact ⟨_, h⟩

/-! ## Tables -/

theorem eofOrEol_cr {d : Char} {u : Str} (h : d ≠ '\n') : eofOrEol ('\r' :: d :: u) = none := by
  unfold eofOrEol
  rw [orElse_none]
  refine ⟨?_, rfl⟩
  unfold lineEnding
  split
  · rename_i h'; simp at h'
  · rename_i h'; simp at h'; exact absurd h'.1 h
  · rfl

theorem cell_ok (hc : cfg.CustomOk) {w t u : Str} (hne : w ≠ []) (h : Unescapes '|' w t) (hn : '\n' ∉ w)
    (hu : CellStop u) (hl : u.head? = some '|' → w.getLast? ≠ some '\\')
    (hr : u.head? = some '\n' → w.getLast? ≠ some '\r') :
    ∃ c, cellContent x cfg (w ++ u) = some (u, c) := by
  have hstop : ∃ y, (value () eofOrEol <||> value () (chr '|')) u = some y := by
    rcases hu with ⟨v, rfl⟩ | ⟨e, rest, he, rfl⟩
    · refine ⟨(v, ()), ?_⟩
      rw [orElse_of_none (value_none.2 (eofOrEol_cons (by decide) (by decide)))]
      exact value_some.2 ⟨_, chr_cons _ _, rfl⟩
    · exact ⟨_, orElse_of_some (value_some.2 ⟨_, he.eofOrEol, rfl⟩)⟩
  have hm := escLoop_of (e := '|') (by decide) hstop h hl (by
    intro a c v hw hc
    rw [orElse_none, value_none, value_none]
    refine ⟨?_, chr_ne hc⟩
    have hcn : c ≠ '\n' := by rintro rfl; exact hn (by rw [hw]; simp)
    by_cases hcr : c = '\r'
    · subst hcr
      cases v with
      | nil =>
        have hlast : w.getLast? = some '\r' := by rw [hw]; simp
        cases u with
        | nil => rfl
        | cons d u =>
          exact eofOrEol_cr (by rintro rfl; exact hr rfl hlast)
      | cons d v =>
        exact eofOrEol_cr (by rintro rfl; exact hn (by rw [hw]; simp))
    · exact eofOrEol_cons hcn hcr)
  have htne : t ≠ [] := by rintro rfl; cases h; exact hne rfl
  obtain ⟨l, hil⟩ := parseInlines0_ok (x := x) hc (trim t)
  exact ⟨l, mapOpt_some.2 ⟨t, many1_of_many0 hm htne, hil⟩⟩

theorem cellStop_end {e r : Str} (he : LineEnd e r) : CellStop (e ++ r) := .inr ⟨e, r, he, rfl⟩

theorem lineEnd_bar {e r : Str} (he : LineEnd e r) : chr '|' (e ++ r) = none := by
  rcases he with (rfl | rfl) | ⟨rfl, rfl⟩ <;> rfl

theorem lineEnd_headBar {e r : Str} (he : LineEnd e r) : (e ++ r).head? ≠ some '|' := by
  rcases he with (rfl | rfl) | ⟨rfl, rfl⟩ <;> simp

theorem lineEnd_headLf {e r : Str} (he : LineEnd e r) : (e ++ r).head? = some '\n' ↔ e = ['\n'] := by
  rcases he with (rfl | rfl) | ⟨rfl, rfl⟩ <;> simp

theorem cells_ok (hc : cfg.CustomOk) {e r : Str} (he : LineEnd e r) {n : Nat} {u : Str} (h : CellsAt e n u) :
    ∃ c cs v last, u = '|' :: v ∧ (c :: cs).length = n ∧ (last = [] ∨ last = ['|']) ∧
      sepLoop (chr '|') (cellContent x cfg) (u ++ (e ++ r)) = some (last ++ (e ++ r), c :: cs) := by
  have stop : sepLoop (chr '|') (cellContent x cfg) (e ++ r) = some (e ++ r, []) := by
    rw [sepLoop_eq, lineEnd_bar he]
  have stop' : sepLoop (chr '|') (cellContent x cfg) ('|' :: (e ++ r)) = some ('|' :: (e ++ r), []) := by
    rw [sepLoop_eq, chr_cons]
    simp [cellContent_stop (cellStop_end he)]
  have step : ∀ {w q : Str} {c : List Inline} {z}, cellContent x cfg (w ++ q) = some (q, c) →
      sepLoop (chr '|') (cellContent x cfg) q = some z →
      sepLoop (chr '|') (cellContent x cfg) ('|' :: (w ++ q)) = some (z.1, c :: z.2) := by
    intro w q c z h1 h2
    rw [sepLoop_eq, chr_cons]
    simp only [h1, h2]
    rw [if_pos (by simp; omega)]
  induction h with
  | @last w t hne hw hn hcr =>
    obtain ⟨c, h1⟩ := cell_ok (x := x) hc (u := e ++ r) hne hw hn (cellStop_end he)
      (fun h => absurd h (lineEnd_headBar he)) (fun h => hcr ((lineEnd_headLf he).1 h))
    exact ⟨c, [], w, [], rfl, rfl, .inl rfl, step h1 stop⟩
  | @closed w t hne hw hn hb =>
    obtain ⟨c, h1⟩ := cell_ok (x := x) hc (u := '|' :: (e ++ r)) hne hw hn (.inl ⟨_, rfl⟩) (fun _ => hb) (by simp)
    refine ⟨c, [], w ++ ['|'], ['|'], rfl, rfl, .inr rfl, ?_⟩
    have := step h1 stop'
    simpa using this
  | @cons n w t u hne hw hn hb hcs ih =>
    obtain ⟨c', cs, v, last, h2, h3, h4, h5⟩ := ih
    obtain ⟨c, h1⟩ := cell_ok (x := x) hc (u := '|' :: u ++ (e ++ r)) hne hw hn (.inl ⟨_, rfl⟩) (fun _ => hb) (by simp)
    refine ⟨c, c' :: cs, _, last, rfl, by simp at h3 ⊢; exact h3, h4, ?_⟩
    have := step h1 h5
    simpa using this

theorem row_ok (hc : cfg.CustomOk) {n : Nat} {s r : Str} (h : RowAt n s r) :
    ∃ cs, tableRow x cfg s = some (r, cs) ∧ cs.length = n := by
  obtain ⟨k, u, e, hk, hu, he, rfl⟩ := h
  obtain ⟨c, cs, v, last, rfl, h1, h2, h3⟩ := cells_ok (x := x) hc he hu
  refine ⟨c :: cs, ?_, h1⟩
  unfold sp
  refine terminated_some.2 ⟨e ++ r, e, ?_, he.eofOrEol⟩
  show preceded indent03 _ (List.replicate k ' ' ++ '|' :: (v ++ (e ++ r))) = _
  rw [preceded_indent_replicate hk (by decide)]
  refine delimited_some.2 ⟨v ++ (e ++ r), '|', last ++ (e ++ r), (if last = [] then none else some '|'),
    chr_cons _ _, ?_, ?_⟩
  · have h3 : sepLoop (chr '|') (cellContent x cfg) ('|' :: (v ++ (e ++ r))) = some (last ++ (e ++ r), c :: cs) := h3
    rw [sepLoop_eq, chr_cons] at h3
    unfold separatedList1
    simp only at h3
    split at h3
    · simp at h3
    · rename_i r' a h4
      split at h3
      · split at h3
        · rename_i h5
          simp at h3
          obtain ⟨rfl, rfl, rfl⟩ := h3
          rw [h4]; simp only; rw [h5]
        · simp at h3
      · simp at h3
  · rcases h2 with rfl | rfl
    · refine opt_some.2 (.inr ⟨?_, rfl, rfl⟩)
      simpa using lineEnd_bar he
    · exact opt_some.2 (.inl ⟨_, chr_cons _ _, rfl⟩)

theorem cellContent_at {s r : Str} {c : List Inline} (h : cellContent x cfg s = some (r, c)) :
    ∃ w t, s = w ++ r ∧ w ≠ [] ∧ Unescapes '|' w t ∧ '\n' ∉ w ∧ (r.head? = some '|' → w.getLast? ≠ some '\\') ∧
      (r.head? = some '\n' → w.getLast? ≠ some '\r') := by
  obtain ⟨t, h1, _⟩ := mapOpt_some.1 h
  obtain ⟨w, rfl, h2, h3, h4, h5⟩ := escLoop1_last (by decide) (by
    intro s; simp [orElse_none, value_none, chr, satisfy]) h1
  refine ⟨w, t, rfl, h2, h3, ?_, h4, ?_⟩
  · intro hm
    obtain ⟨u, v, rfl⟩ := List.append_of_mem hm
    have := h5 u '\n' v rfl (by decide)
    simp [orElse_none, value_none, eofOrEol, lineEnding] at this
  · intro hh hl
    obtain ⟨u, rfl⟩ := List.getLast?_eq_some_iff.1 hl
    have := h5 u '\r' [] rfl (by decide)
    cases r with
    | nil => simp at hh
    | cons d r =>
      simp at hh
      subst hh
      simp [orElse_none, value_none, eofOrEol, lineEnding] at this

theorem cellsLoop_at {e rest : Str} (he : LineEnd e rest) : ∀ s r cs,
    sepLoop (chr '|') (cellContent x cfg) s = some (r, cs) → ∀ last, last = [] ∨ last = ['|'] → r = last ++ (e ++ rest) →
      (cs = [] ∧ s = last ++ (e ++ rest)) ∨ ∃ u, CellsAt e cs.length ('|' :: u) ∧ s = '|' :: (u ++ (e ++ rest)) := by
  refine sepLoop_induction ?_ ?_
  · intro s _ last _ h; exact .inl ⟨rfl, h⟩
  · intro s r b r' a r'' l hsep h1 _ _ ih last hl hr
    right
    obtain ⟨rfl, _⟩ := chr_some.1 hsep
    obtain ⟨w, t, rfl, h2, h3, h4, h5, h6⟩ := cellContent_at h1
    rcases ih last hl hr with ⟨rfl, rfl⟩ | ⟨u, h7, rfl⟩
    · rcases hl with rfl | rfl
      · refine ⟨w, .last h2 h3 h4 ?_, by simp⟩
        intro hen
        exact h6 (by simpa using (lineEnd_headLf he).2 hen)
      · exact ⟨w ++ ['|'], .closed h2 h3 h4 (h5 rfl), by simp⟩
    · exact ⟨w ++ '|' :: u, .cons h2 h3 h4 (h5 rfl) h7, by simp⟩

theorem row_at {s r : Str} {cs : List (List Inline)} (h : tableRow x cfg s = some (r, cs)) : RowAt cs.length s r := by
  obtain ⟨s1, e, h1, h2⟩ := terminated_some.1 h
  obtain ⟨hend, rfl⟩ := LineEnd.of_eofOrEol h2
  obtain ⟨s2, _, h3, h4⟩ := preceded_some.1 h1
  obtain ⟨k, hk', _, rfl, _⟩ := indent03_written h3
  obtain ⟨s3, _, s4, _, h5, h6, h7⟩ := delimited_some.1 h4
  obtain ⟨rfl, _⟩ := chr_some.1 h5
  obtain ⟨r1, a, l', h8, h9, rfl⟩ := separatedList1_some.1 h6
  obtain ⟨last, rfl, h15⟩ := lastBar h7
  have hlt : r1.length < ('|' :: s3).length := by
    obtain ⟨w, t, rfl, _⟩ := cellContent_at h8
    simp; omega
  have hs : sepLoop (chr '|') (cellContent x cfg) ('|' :: s3) = some (last ++ (e ++ r), a :: l') := by
    rw [sepLoop_eq, chr_cons]
    simp only [h8, h9]
    rw [if_pos hlt]
  rcases cellsLoop_at hend _ _ _ hs last h15 rfl with ⟨h, _⟩ | ⟨u, h10, h11⟩
  · simp at h
  · exact ⟨k, '|' :: u, e, hk', h10, hend, by simp [h11, sp]⟩

/-! ## The delimiter row -/

theorem aligns_ok {e r last : Str} (he : LineEnd e r) (hl : last = [] ∨ last = ['|']) {as : List Alignment} {a : Str}
    (h : AlignsWritten as a) : CellStop (a ++ (last ++ (e ++ r))) ∧
      sepLoop (chr '|') alignmentCell (a ++ (last ++ (e ++ r))) = some (last ++ (e ++ r), as) := by
  induction h with
  | nil =>
    rcases hl with rfl | rfl
    · refine ⟨(show CellStop (e ++ r) from cellStop_end he), ?_⟩
      show sepLoop _ _ (e ++ r) = some (e ++ r, [])
      rw [sepLoop_eq, lineEnd_bar he]
    · refine ⟨.inl ⟨_, rfl⟩, ?_⟩
      show sepLoop _ _ ('|' :: (e ++ r)) = some ('|' :: (e ++ r), [])
      rw [sepLoop_eq, chr_cons]
      simp [alignmentCell_stop he]
  | @cons a as w o hw ho ih =>
    refine ⟨.inl ⟨_, rfl⟩, ?_⟩
    have h1 := alignmentCell_of hw ih.1
    have hs : ('|' :: (w ++ o)) ++ (last ++ (e ++ r)) = '|' :: (w ++ (o ++ (last ++ (e ++ r)))) := by simp
    rw [hs, sepLoop_eq, chr_cons]
    simp only [h1, ih.2]
    rw [if_pos (by simp; omega)]

theorem alignmentRow_ok {e r last a : Str} {k : Nat} {as : List Alignment} (hk : k ≤ 3) (he : LineEnd e r)
    (hl : last = [] ∨ last = ['|']) (hne : as ≠ []) (h : AlignsWritten as a) :
    alignmentRow (sp k ++ (a ++ (last ++ (e ++ r)))) = some (r, as) := by
  cases h with
  | nil => exact absurd rfl hne
  | @cons a as w o hw ho =>
    obtain ⟨h1, h2⟩ := aligns_ok he hl ho
    refine terminated_some.2 ⟨e ++ r, e, ?_, he.eofOrEol⟩
    have hs : sp k ++ (('|' :: (w ++ o)) ++ (last ++ (e ++ r))) =
        List.replicate k ' ' ++ '|' :: (w ++ (o ++ (last ++ (e ++ r)))) := by simp [sp]
    rw [hs, preceded_indent_replicate hk (by decide)]
    refine delimited_some.2 ⟨_, '|', last ++ (e ++ r), (if last = [] then none else some '|'), chr_cons _ _, ?_, ?_⟩
    · exact separatedList1_some.2 ⟨_, _, _, alignmentCell_of hw h1, h2, rfl⟩
    · rcases hl with rfl | rfl
      · refine opt_some.2 (.inr ⟨?_, rfl, rfl⟩)
        simpa using lineEnd_bar he
      · exact opt_some.2 (.inl ⟨_, chr_cons _ _, rfl⟩)

theorem row_lt {s r : Str} {n : Nat} (h : RowAt n s r) : r.length < s.length := by
  obtain ⟨k, u, e, hk, hu, he, rfl⟩ := h
  have : 0 < u.length := by cases hu <;> simp
  simp; omega

theorem table_of_at (hc : cfg.CustomOk) {s : Str} (h : TableAt s) :
    ∃ r rows as, tableP x cfg s = some (r, .table rows as) := by
  obtain ⟨as, a, last, k, e, r, t, h1, h2, h3, h4, h5, h6, rfl⟩ := h
  obtain ⟨cs, h7, h8⟩ := row_ok (x := x) hc h1
  have h9 := alignmentRow_ok h5 h6 h4 h2 h3
  have h10 : tableDataRows x cfg cs.length r ≠ none := by
    refine many0_ne_none ?_ r
    intro s r' a h
    obtain ⟨_, h, _⟩ := mapP_some.1 h
    exact row_lt (row_at h)
  obtain ⟨⟨r', rows⟩, h10⟩ := Option.ne_none_iff_exists'.1 h10
  refine ⟨r', cs :: rows, as, ?_⟩
  unfold tableP
  rw [h7]
  simp only
  rw [h9]
  simp only
  rw [if_neg (by simp [h8]), h10]

theorem table_at {s r : Str} {b : Block} (hp : tableP x cfg s = some (r, b)) :
    TableAt s ∧ ∃ rows as, b = .table rows as := by
  unfold tableP at hp
  split at hp
  · simp at hp
  · rename_i s1 header e1
    split at hp
    · simp at hp
    · rename_i s2 aligns e2
      split at hp
      · simp at hp
      · rename_i hlen
        split at hp
        · simp at hp
        · rename_i s3 rows e3
          simp at hp
          obtain ⟨rfl, rfl⟩ := hp
          refine ⟨?_, _, _, rfl⟩
          have h1 := row_at e1
          obtain ⟨s4, e, h2, h3⟩ := terminated_some.1 e2
          obtain ⟨hend, rfl⟩ := LineEnd.of_eofOrEol h3
          obtain ⟨s5, _, h4, h5⟩ := preceded_some.1 h2
          obtain ⟨k, hk', _, rfl, _⟩ := indent03_written h4
          obtain ⟨s6, _, s7, _, h6, h7, h8⟩ := delimited_some.1 h5
          obtain ⟨rfl, _⟩ := chr_some.1 h6
          obtain ⟨r1, a, l', h9, h10, rfl⟩ := separatedList1_some.1 h7
          obtain ⟨w2, rfl, h11⟩ := alignmentCell_writes _ _ _ h9
          obtain ⟨o, rfl, h12⟩ := alignsLoop _ _ _ h10
          obtain ⟨last, rfl, h13⟩ := lastBar h8
          simp only [ne_eq, Decidable.not_not] at hlen
          exact ⟨a :: l', '|' :: (w2 ++ o), last, k, e, s2, _, by rw [hlen]; exact h1, by simp, .cons h11 h12, h13, hk',
            hend, by simp [sp]⟩

theorem table_iff (hc : cfg.CustomOk) {s : Str} : (∃ y, tableP x cfg s = some y) ↔ TableAt s := by
  constructor
  · rintro ⟨⟨r, b⟩, h⟩; exact (table_at h).1
  · intro h; obtain ⟨r, rows, as, h⟩ := table_of_at (x := x) hc h; exact ⟨_, h⟩

end
end Verif
