import Verif.StartDef
/-!
# Which block a text begins with (C80), and how far a paragraph goes (C81)
-/
set_option autoImplicit false
set_option linter.unusedVariables false
set_option linter.unusedSimpArgs false
namespace Verif
open Nom

section
variable {x : PExt} {cfg : PConfig}

/-! ## Alerts -/

theorem customAlertName_name {s r n : Str} (h : customAlertName s = some (r, n)) : AlertName n := by
  have hs := recognize_append h
  obtain ⟨y, h1, _⟩ := recognize_some.1 h
  obtain ⟨s1, h2, h3⟩ := seq_some.1 h1
  obtain ⟨w, h4, h5, h6⟩ := takeWhile1_writes _ _ _ h2
  have hloop : ∀ s r l, many0 (satisfy (fun c => isAlnum c || c == '_')) s = some (r, l) →
      ∃ w, s = w ++ r ∧ ∀ c ∈ w, isAlnum c = true ∨ c = '_' := by
    refine many0_induction ?_ ?_
    · intro s _; exact ⟨[], rfl, by simp⟩
    · intro s r a r' l hp _ _ ih
      obtain ⟨rfl, ha⟩ := satisfy_some.1 hp
      obtain ⟨w, rfl, hw⟩ := ih
      refine ⟨a :: w, rfl, ?_⟩
      intro c hc
      rcases List.mem_cons.1 hc with rfl | hc
      · simpa using ha
      · exact hw c hc
  obtain ⟨w', h7, h8⟩ := hloop _ _ _ h3
  have hn : n = w ++ w' := List.append_cancel_right (by rw [hs, h4, h7]; simp)
  subst hn
  cases w with
  | nil => exact absurd rfl h6.1
  | cons c w =>
    refine ⟨c, w ++ w', rfl, h6.2 c (by simp), ?_⟩
    intro d hd
    rcases List.mem_append.1 hd with hd | hd
    · left
      have := h6.2 d (by simp [hd])
      unfold isAlnum; simp [this]
    · exact h8 d hd

theorem alertMarkerP_iff {s : Str} {t : AlertType} : alertMarkerP s = some ([], t) ↔
    s = cs!"[!" ++ (alertWord t ++ [']']) ∧ ∀ n, t = .custom n → AlertName n ∧ ∀ y ∈ standardAlerts, ¬ y.1 <+: n := by
  constructor
  · intro h
    refine ⟨alertMarkerP_some h, ?_⟩
    rintro n rfl
    have hs := alertMarkerP_some h
    obtain ⟨s1, a, s2, b, h1, h2, h3⟩ := delimited_some.1 h
    have hs1 : s1 = n ++ [']'] := by
      have := (tag_some.1 h1).1
      rw [hs] at this
      simpa [alertWord] using this.symm
    have hno : ∀ {w : Str} {t0 : AlertType}, value t0 (tag w) s1 = none → ¬ w <+: n := by
      intro w t0 h hp
      rw [value_none, tag_none, hs1] at h
      exact h (hp.trans (List.prefix_append _ _))
    have hv : ∀ {w : Str} {t0 : AlertType}, (∀ n, t0 ≠ .custom n) → value t0 (tag w) s1 ≠ some (s2, .custom n) := by
      intro w t0 ht h
      obtain ⟨_, _, h⟩ := value_some.1 h
      exact ht n h
    rcases orElse_some.1 h2 with h | ⟨n1, h⟩
    · exact absurd h (hv (by simp))
    rcases orElse_some.1 h with h | ⟨n2, h⟩
    · exact absurd h (hv (by simp))
    rcases orElse_some.1 h with h | ⟨n3, h⟩
    · exact absurd h (hv (by simp))
    rcases orElse_some.1 h with h | ⟨n4, h⟩
    · exact absurd h (hv (by simp))
    rcases orElse_some.1 h with h | ⟨n5, h⟩
    · exact absurd h (hv (by simp))
    obtain ⟨m, h6, h7⟩ := mapP_some.1 h
    simp at h7
    subst h7
    refine ⟨customAlertName_name h6, ?_⟩
    intro y hy
    simp only [standardAlerts, List.mem_cons, List.not_mem_nil, or_false] at hy
    rcases hy with rfl | rfl | rfl | rfl | rfl
    · exact hno n1
    · exact hno n2
    · exact hno n3
    · exact hno n4
    · exact hno n5
  · rintro ⟨rfl, h⟩
    cases t with
    | custom n =>
      obtain ⟨h1, h2⟩ := h n rfl
      have h3 := alertMarkerP_of h1 (fun y hy hp => absurd hp (h2 y hy))
      have : alertNamed n = .custom n := by
        have : standardAlerts.find? (fun y => y.1 == n) = none := by
          rw [List.find?_eq_none]
          intro y hy hyn
          have hyn : y.1 = n := by simpa using hyn
          exact h2 y hy (by rw [hyn]; exact List.prefix_refl _)
        unfold alertNamed
        rw [this]; rfl
      rw [this] at h3
      exact h3
    | _ => decide +kernel

theorem quoteEnds_iff {r : Str} : QuoteEnds r ↔ preceded quotePrefix (lineTerminated notEofOrEol0) r = none := by
  constructor
  · intro h
    cases e : preceded quotePrefix (lineTerminated notEofOrEol0) r with
    | none => rfl
    | some y =>
      obtain ⟨r', l⟩ := y
      obtain ⟨q, e, h1, h2, h3⟩ := quoteLine_oneLine _ _ _ e
      exact absurd ⟨q, l, e, r', h2, h3.ends, h1⟩ h
  · rintro h ⟨p, l, e, r', h1, h2, rfl⟩
    rw [quotedLine_of h1 h2] at h
    simp at h

theorem quoteLines_all {r : Str} (hr : QuoteEnds r) {ls : List Str} {w : Str} (h : LinesWritten QuotedLine r ls w) :
    many0 (preceded quotePrefix (lineTerminated notEofOrEol0)) (w ++ r) = some (r, ls) := by
  induction h with
  | nil => exact many0_of_none (quoteEnds_iff.1 hr)
  | @cons p l e w ls h1 h2 h3 ih =>
    have hq := quotedLine_of h1 h2.ends
    have : p ++ (l ++ (e ++ w)) ++ r = p ++ (l ++ (e ++ (w ++ r))) := by simp
    rw [this]
    exact many0_of_some hq (Con.lt hq) ih

theorem join_nil {ls : List Str} : joinWith ['\n'] ls = [] ↔ ls = [] ∨ ls = [[]] := by
  cases ls with
  | nil => simp [joinWith]
  | cons l ls =>
    cases ls with
    | nil => simp [joinWith]
    | cons l' ls => simp [joinWith]

theorem alert_iff (hc : cfg.CustomOk) (ht : cfg.text ≠ .ignore) (hp : cfg.paragraph ≠ .ignore) {s : Str} {t : AlertType} :
    (∃ r bs, githubAlertP x (blockP x cfg) s = some (r, [.githubAlert t bs])) ↔ AlertAt x t s := by
  have := blockP_con (x := x) hc
  constructor
  · rintro ⟨r, bs, h⟩
    unfold githubAlertP at h
    split at h
    · simp at h
    · rename_i r1 first e1
      split at h
      · simp at h
      · rename_i t' e2
        split at h
        · simp at h
        · rename_i r2 lines e3
          obtain ⟨w, rfl, h3, h4⟩ := linesLoop1 quoteLine_oneLine _ _ _ e3
          obtain ⟨r3, l0, ls, e4, e5, rfl⟩ := many1_some.1 e3
          have hend := many0_stop e5
          have hm : AlertLine x t' l0 := by
            unfold parseAlertMarker at e2
            split at e2
            · rename_i t' e
              simp at e2
              subst e2
              unfold AlertLine
              rw [← trim_first e4 e1, ← trim_trim]
              exact alertMarkerP_iff.1 e
            · simp at e2
          simp only [List.drop_succ_cons, List.drop_zero] at h
          split at h
          · rename_i hi
            simp at h
            obtain ⟨rfl, rfl, rfl⟩ := h
            have hi' : joinWith ['\n'] ls = [] := by simpa using hi
            refine ⟨l0, ls, w, r2, h4, quoteEnds_iff.2 hend, hm, ?_, rfl⟩
            rcases join_nil.1 hi' with h | h
            · exact .inl h
            · exact .inr (.inl h)
          · split at h
            · rename_i bs' e6
              simp at h
              obtain ⟨rfl, rfl, rfl⟩ := h
              refine ⟨l0, ls, w, r2, h4, quoteEnds_iff.2 hend, hm, .inr (.inr ?_), rfl⟩
              have hnb : ¬ BlankText (joinWith ['\n'] ls) := by
                intro hb
                have := (blockP_none (x := x) hc ht hp).2 hb
                unfold blocks1 at e6
                rw [many1_none_of this] at e6
                simp at e6
              rw [blankText_join (fun l hl => linesWritten_all (fun _ _ h => h.2) h4 l (by simp [hl]))] at hnb
              simpa using hnb
            · simp at h
  · rintro ⟨l, ls, w, r, h1, h2, h3, h4, rfl⟩
    have hall := quoteLines_all h2 h1
    have hq : quoteLines (w ++ r) = some (r, l :: ls) := many1_of_many0 hall (by simp)
    obtain ⟨r3, l0, ls0, e4, e5, e6⟩ := many1_some.1 hq
    simp at e6
    obtain ⟨rfl, rfl⟩ := e6
    have hfirst : ∃ r1 first, preceded (Nom.seq quotePrefix (Nom.opt (chr ' '))) (lineTerminated notEofOrEol0) (w ++ r) =
        some (r1, first) := by
      obtain ⟨s1, c, h5, h6⟩ := preceded_some.1 e4
      have hl := line0_oneLine h6
      obtain ⟨e, rfl, hl1, hl2⟩ := hl
      by_cases hsp : l.head? = some ' '
      · obtain ⟨l', rfl⟩ : ∃ l', l = ' ' :: l' := by
          cases l with
          | nil => simp at hsp
          | cons d l => simp at hsp; exact ⟨l, by rw [hsp]⟩
        refine ⟨r3, l', preceded_some.2 ⟨l' ++ (e ++ r3), (c, some ' '), seq_some.2 ⟨_, h5, ?_⟩, line0 ?_ hl2⟩⟩
        · exact opt_some.2 (.inl ⟨_, chr_cons _ _, rfl⟩)
        · intro d hd; exact hl1 d (by simp [hd])
      · refine ⟨r3, l, preceded_some.2 ⟨l ++ (e ++ r3), (c, none), seq_some.2 ⟨_, h5, ?_⟩, line0 hl1 hl2⟩⟩
        refine opt_some.2 (.inr ⟨?_, rfl, rfl⟩)
        cases l with
        | nil => rcases hl2 with (rfl | rfl) | ⟨rfl, rfl⟩ <;> rfl
        | cons d l => simp at hsp; exact chr_ne hsp
    obtain ⟨r1, first, hfirst⟩ := hfirst
    have hmark : parseAlertMarker x (trim first) = some t := by
      unfold parseAlertMarker
      rw [trim_trim, trim_first e4 hfirst, alertMarkerP_iff.2 h3]
    unfold githubAlertP
    rw [hfirst]
    simp only
    rw [hmark]
    simp only
    rw [hq]
    simp only [List.drop_succ_cons, List.drop_zero]
    by_cases hj : joinWith ['\n'] ls = []
    · rw [if_pos (by simp [hj])]
      exact ⟨_, _, rfl⟩
    · rw [if_neg (by simpa using hj)]
      have hnb : ∃ l ∈ ls, ¬ Blanks l := by
        rcases h4 with h4 | h4 | h4
        · exact absurd (join_nil.2 (.inl h4)) hj
        · exact absurd (join_nil.2 (.inr h4)) hj
        · exact h4
      have hb : ¬ BlankText (joinWith ['\n'] ls) := by
        rw [blankText_join (fun l hl => linesWritten_all (fun _ _ h => h.2) h1 l (by simp [hl]))]
        intro hh
        obtain ⟨l, hl, hl'⟩ := hnb
        exact hl' (hh l hl)
      have hs : ∃ y, blockP x cfg (joinWith ['\n'] ls) = some y := by
        cases hh : blockP x cfg (joinWith ['\n'] ls) with
        | some y => exact ⟨y, rfl⟩
        | none => exact absurd ((blockP_none hc ht hp).1 hh) hb
      obtain ⟨⟨r2, bs⟩, hs⟩ := hs
      obtain ⟨r4, l3, hm⟩ := many0_ex (p := blockP x cfg) r2
      unfold blocks1
      rw [many1_some.2 ⟨_, _, _, hs, hm, rfl⟩]
      exact ⟨_, _, rfl⟩

theorem alert_shape {rec : P (List Block)} {s r : Str} {bs : List Block} (h : githubAlertP x rec s = some (r, bs)) :
    ∃ t l, bs = [.githubAlert t l] := by
  unfold githubAlertP at h
  split at h
  · simp at h
  · split at h
    · simp at h
    · split at h
      · simp at h
      · simp only at h
        split at h
        · simp at h; exact ⟨_, _, h.2.symm⟩
        · split at h
          · simp at h; exact ⟨_, _, h.2.symm⟩
          · simp at h

theorem AlertAt.quote (hc : cfg.CustomOk) (ht : cfg.text ≠ .ignore) (hp : cfg.paragraph ≠ .ignore) {s : Str} {t : AlertType}
    (h : AlertAt x t s) : QuoteAt s := by
  obtain ⟨r, bs, h⟩ := (alert_iff (cfg := cfg) hc ht hp).2 h
  exact alert_quote (cfg := cfg) hc h

/-! ## The kinds exclude each other -/

/-- Classes of the first characters of blocks. -/
def charClass (c : Char) : Nat :=
  if c = '`' ∨ c = '~' then 1 else if c = '#' then 2 else if c = '>' then 3 else if c = '<' then 4
  else if c = '[' then 5 else if c = '|' then 6
  else if c = '-' ∨ c = '*' ∨ c = '_' ∨ c = '+' ∨ isDigit c = true then 7 else 0

def kindClass : StartKind → Nat
  | .indented => 8
  | .fenced => 1
  | .atx _ => 2
  | .alert _ | .quote => 3
  | .html => 4
  | .footnote | .definition => 5
  | .table => 6
  | .thematic | .list _ => 7
  | .text => 9
  | .other => 10

def FirstAt (n : Nat) (s : Str) : Prop := ∃ k c t, k ≤ 3 ∧ charClass c = n ∧ s = sp k ++ c :: t

theorem charClass_blank {c : Char} (h : charClass c ≠ 0) : c ≠ ' ' ∧ c ≠ '\t' := by
  constructor <;> rintro rfl <;> exact h (by decide)

theorem sp_split : ∀ {k k' : Nat} {c c' : Char} {t t' : Str}, c ≠ ' ' → c' ≠ ' ' → sp k ++ c :: t = sp k' ++ c' :: t' →
    c = c'
  | 0, 0, _, _, _, _, _, _, h => by simp [sp] at h; exact h.1
  | 0, k' + 1, _, _, _, _, h1, _, h => by simp [sp, List.replicate] at h; exact absurd h.1 h1
  | k + 1, 0, _, _, _, _, _, h2, h => by simp [sp, List.replicate] at h; exact absurd h.1.symm h2
  | k + 1, k' + 1, c, c', t, t', h1, h2, h => by
    simp only [sp, List.replicate, List.cons_append, List.cons.injEq, true_and] at h
    exact sp_split (k := k) (k' := k') h1 h2 h

theorem sp_split' : ∀ {k k' : Nat} {c c' : Char} {t t' : Str}, c ≠ ' ' → c' ≠ ' ' → sp k ++ c :: t = sp k' ++ c' :: t' →
    c = c' ∧ t = t'
  | 0, 0, _, _, _, _, _, _, h => by simp [sp] at h; exact h
  | 0, k' + 1, _, _, _, _, h1, _, h => by simp [sp, List.replicate] at h; exact absurd h.1 h1
  | k + 1, 0, _, _, _, _, _, h2, h => by simp [sp, List.replicate] at h; exact absurd h.1.symm h2
  | k + 1, k' + 1, c, c', t, t', h1, h2, h => by
    simp only [sp, List.replicate, List.cons_append, List.cons.injEq, true_and] at h
    exact sp_split' (k := k) (k' := k') h1 h2 h

theorem firstAt_eq {n m : Nat} {s : Str} (hn : n ≠ 0) (hm : m ≠ 0) (h1 : FirstAt n s) (h2 : FirstAt m s) : n = m := by
  obtain ⟨k, c, t, _, rfl, rfl⟩ := h1
  obtain ⟨k', c', t', _, rfl, h⟩ := h2
  rw [sp_split (charClass_blank hn).1 (charClass_blank hm).1 h]

theorem firstAt_indented {n : Nat} {s : Str} (hn : n ≠ 0) (h1 : FirstAt n s) : ¬ IndentedAt s := by
  obtain ⟨k, c, t, hk, rfl, rfl⟩ := h1
  rintro ⟨p, l, e, r, hp, _, _, h⟩
  obtain ⟨h1, h2⟩ := charClass_blank hn
  rcases hp with rfl | rfl
  · have : ∀ k k' u, k < k' → sp k ++ c :: t ≠ sp k' ++ u := by
      intro k
      induction k with
      | zero =>
        intro k' u hlt h
        cases k' with
        | zero => omega
        | succ k' => simp [sp, List.replicate] at h; exact h1 h.1
      | succ k ih =>
        intro k' u hlt h
        cases k' with
        | zero => omega
        | succ k' =>
          simp only [sp, List.replicate, List.cons_append, List.cons.injEq, true_and] at h
          exact ih k' u (by omega) h
    exact this k 4 _ (by omega) h
  · cases k with
    | zero => simp [sp] at h; exact h2 h.1
    | succ k => simp [sp, List.replicate] at h

theorem FencedAt.first {s : Str} (h : FencedAt s) : FirstAt 1 s := by
  obtain ⟨k, n, f, info, e, w, c, e', r, hk, hn, hf, _, _, _, _, _, _, rfl⟩ := h
  obtain ⟨n, rfl⟩ : ∃ m, n = m + 1 := ⟨n - 1, by omega⟩
  exact ⟨k, f, _, hk, by rcases hf with rfl | rfl <;> decide, by simp only [List.replicate, List.cons_append]; rfl⟩

theorem AtxAt.first {n : Nat} {s : Str} (h : AtxAt cfg n s) : FirstAt 2 s := by
  obtain ⟨m, t, e, r, ⟨h1, _, b, _, _, _, _, _, rfl⟩, _, _, rfl⟩ := h
  obtain ⟨n, rfl⟩ : ∃ m, n = m + 1 := ⟨n - 1, by omega⟩
  exact ⟨0, '#', _, by omega, by decide, by simp only [sp, List.replicate, List.nil_append, List.cons_append]; rfl⟩

theorem ThematicAt.first {s : Str} (h : ThematicAt s) : FirstAt 7 s := by
  obtain ⟨l, e, r, ⟨k, n, a, b, hk, hn, ha, _, rfl⟩, _, rfl⟩ := h
  obtain ⟨n, rfl⟩ : ∃ m, n = m + 1 := ⟨n - 1, by omega⟩
  refine ⟨k, a, List.replicate n a ++ b ++ (e ++ r), hk, by rcases ha with rfl | rfl | rfl <;> decide, ?_⟩
  simp [sp, List.replicate]

theorem QuoteAt.first {s : Str} (h : QuoteAt s) : FirstAt 3 s := by
  obtain ⟨ls, w, r, h1, ⟨l, hl, _⟩, rfl⟩ := h
  cases h1 with
  | nil => simp at hl
  | @cons p l e w ls h1 h2 h3 =>
    obtain ⟨⟨k, hk, rfl⟩, _⟩ := h1
    exact ⟨k, '>', l ++ (e ++ (w ++ r)), hk, by decide, by simp⟩

theorem ItemAt.first {kind : ListKind} {s : Str} (h : ItemAt kind s) : FirstAt 7 s := by
  obtain ⟨k, m, u, hk, hm, rfl, _⟩ := h
  cases hm with
  | dash => exact ⟨k, '-', _, hk, by decide, rfl⟩
  | star => exact ⟨k, '*', _, hk, by decide, rfl⟩
  | plus => exact ⟨k, '+', _, hk, by decide, rfl⟩
  | @ordered ds d h1 h2 _ _ =>
    cases ds with
    | nil => exact absurd rfl h1
    | cons c ds =>
      refine ⟨k, c, ds ++ [d] ++ u, hk, ?_, by simp⟩
      have hc := h2 c (by simp)
      have hd : c ≠ '`' ∧ c ≠ '~' ∧ c ≠ '#' ∧ c ≠ '>' ∧ c ≠ '<' ∧ c ≠ '[' ∧ c ≠ '|' := by
        refine ⟨?_, ?_, ?_, ?_, ?_, ?_, ?_⟩ <;> rintro rfl <;> revert hc <;> decide
      unfold charClass
      simp [hd, hc]

theorem HtmlAt.first {s : Str} (h : HtmlAt s) : FirstAt 4 s := by
  obtain ⟨k, u, hk, hu, rfl⟩ := h
  suffices ∃ t, u = '<' :: t by
    obtain ⟨t, rfl⟩ := this
    exact ⟨k, '<', t, hk, by decide, rfl⟩
  cases hu with
  | raw _ _ _ => exact ⟨_, rfl⟩
  | marked h => cases h <;> exact ⟨_, rfl⟩
  | block h _ _ _ => rcases h with rfl | rfl <;> exact ⟨_, rfl⟩
  | tag h _ => cases h <;> exact ⟨_, rfl⟩

theorem FootnoteAt.first {s : Str} (h : FootnoteAt s) : FirstAt 5 s := by
  obtain ⟨k, label, l, e, r, hk, _, _, _, _, rfl⟩ := h
  exact ⟨k, '[', _, hk, by decide, rfl⟩

theorem DefAt.first {s : Str} (h : DefAt s) : FirstAt 5 s := by
  obtain ⟨k, w, t, g, d, v, hk, _, _, _, _, _, rfl⟩ := h
  exact ⟨k, '[', _, hk, by decide, rfl⟩

theorem TableAt.first {s : Str} (h : TableAt s) : FirstAt 6 s := by
  obtain ⟨as, a, last, k, e, r, t, ⟨k', u, e', hk, hu, _, rfl⟩, _⟩ := h
  generalize as.length = n at hu
  have : ∃ v, u = '|' :: v := by cases hu <;> exact ⟨_, rfl⟩
  obtain ⟨v, rfl⟩ := this
  exact ⟨k', '|', _, hk, by decide, rfl⟩

theorem thematic_item {kind : ListKind} {s : Str} (h : ThematicAt s) (h' : ItemAt kind s) : False := by
  obtain ⟨l, e, r, ⟨k, n, a, b, hk, hn, ha, _, rfl⟩, _, rfl⟩ := h
  obtain ⟨k', m, u, hk', hm, hs, hu⟩ := h'
  obtain ⟨n, rfl⟩ : ∃ m, n = m + 2 := ⟨n - 2, by omega⟩
  have ha' : a ≠ ' ' ∧ isDigit a = false ∧ a ≠ '\n' ∧ a ≠ '\r' ∧ a ≠ '[' ∧ a ≠ '\t' := by
    rcases ha with rfl | rfl | rfl <;> decide
  have hs' : sp k ++ a :: (a :: (List.replicate n a ++ (b ++ (e ++ r)))) = sp k' ++ (m ++ u) := by
    rw [← hs]; simp [List.replicate]
  have hu' : u.head? = some a := by
    cases hm with
    | dash => exact congrArg List.head? (sp_split' ha'.1 (by decide) hs').2.symm
    | star => exact congrArg List.head? (sp_split' ha'.1 (by decide) hs').2.symm
    | plus => exact congrArg List.head? (sp_split' ha'.1 (by decide) hs').2.symm
    | @ordered ds d h1 h2 _ _ =>
      cases ds with
      | nil => exact absurd rfl h1
      | cons c ds =>
        have hc := h2 c (by simp)
        have := (sp_split' (k' := k') (c' := c) (t' := ds ++ [d] ++ u) ha'.1 (by rintro rfl; revert hc; decide)
          (by rw [hs']; simp)).1
        have h3 := ha'.2.1
        rw [this, hc] at h3
        exact absurd h3 (by decide)
  rcases hu with ⟨b, e, r, hb, he, rfl⟩ | ⟨l, e, r, _, _, rfl⟩ | ⟨n, t, b, e, r, _, hb, _, rfl⟩
  · cases b with
    | cons c b =>
      simp at hu'
      have := hb c (by simp)
      grind
    | nil =>
      rcases he with (rfl | rfl) | ⟨rfl, rfl⟩ <;> grind
  · simp at hu'; exact ha'.1 hu'.symm
  · cases n with
    | succ n => simp [sp, List.replicate] at hu'; exact ha'.1 hu'.symm
    | zero => cases hb <;> simp [sp] at hu' <;> exact ha'.2.2.2.2.1 hu'.symm

/-- The kinds of which a text begins with a block. -/
theorem starts_class (hc : cfg.CustomOk) (ht : cfg.text ≠ .ignore) (hp : cfg.paragraph ≠ .ignore) {s : Str} {k : StartKind}
    (h : StartsWith x cfg s k) : (k = .indented ∧ IndentedAt s) ∨ (k = .text ∧ ¬ SpecialAt cfg s) ∨
      (1 ≤ kindClass k ∧ FirstAt (kindClass k) s ∧ SpecialAt cfg s) := by
  cases k with
  | indented => exact .inl ⟨rfl, h⟩
  | text => exact .inr (.inl ⟨rfl, h⟩)
  | other => exact absurd h id
  | fenced => exact .inr (.inr ⟨by decide, FencedAt.first h, .inr (.inl h)⟩)
  | atx n => exact .inr (.inr ⟨by show 1 ≤ 2; omega, AtxAt.first h, .inr (.inr (.inl ⟨_, h⟩))⟩)
  | thematic => exact .inr (.inr ⟨by decide, ThematicAt.first h, .inr (.inr (.inr (.inl h)))⟩)
  | alert t =>
    have := AlertAt.quote (cfg := cfg) hc ht hp h
    exact .inr (.inr ⟨by show 1 ≤ 3; omega, QuoteAt.first this, .inr (.inr (.inr (.inr (.inl this))))⟩)
  | quote => exact .inr (.inr ⟨by decide, QuoteAt.first h.1, .inr (.inr (.inr (.inr (.inl h.1))))⟩)
  | list kind => exact .inr (.inr ⟨by show 1 ≤ 7; omega, ItemAt.first h, .inr (.inr (.inr (.inr (.inr (.inl ⟨_, h⟩)))))⟩)
  | html => exact .inr (.inr ⟨by decide, HtmlAt.first h, .inr (.inr (.inr (.inr (.inr (.inr (.inl h))))))⟩)
  | footnote => exact .inr (.inr ⟨by decide, FootnoteAt.first h, .inr (.inr (.inr (.inr (.inr (.inr (.inr (.inl h)))))))⟩)
  | definition => exact .inr (.inr ⟨by decide, DefAt.first h.1, .inr (.inr (.inr (.inr (.inr (.inr (.inr (.inr (.inl h.1))))))))⟩)
  | table => exact .inr (.inr ⟨by decide, TableAt.first h, .inr (.inr (.inr (.inr (.inr (.inr (.inr (.inr (.inr h))))))))⟩)

theorem starts_unique (hc : cfg.CustomOk) (ht : cfg.text ≠ .ignore) (hp : cfg.paragraph ≠ .ignore) {s : Str}
    {k1 k2 : StartKind} (h1 : StartsWith x cfg s k1) (h2 : StartsWith x cfg s k2) : k1 = k2 := by
  rcases starts_class hc ht hp h1 with ⟨rfl, a1⟩ | ⟨rfl, a1⟩ | ⟨b1, a1, c1⟩ <;>
  rcases starts_class hc ht hp h2 with ⟨rfl, a2⟩ | ⟨rfl, a2⟩ | ⟨b2, a2, c2⟩
  · rfl
  · exact absurd (.inl a1) a2
  · exact absurd a1 (firstAt_indented (by omega) a2)
  · exact absurd (.inl a2) a1
  · rfl
  · exact absurd c2 a1
  · exact absurd a2 (firstAt_indented (by omega) a1)
  · exact absurd c1 a2
  · have he := firstAt_eq (by omega) (by omega) a1 a2
    cases k1 <;> cases k2 <;> first | rfl | (exfalso; revert he; simp [kindClass]; done) | skip
    all_goals simp only [StartsWith] at h1 h2
    · obtain ⟨r, l, e1⟩ := headingV1_of_at (x := x) hc h1
      obtain ⟨r', l', e2⟩ := headingV1_of_at (x := x) hc h2
      rw [e1] at e2; simp at e2; rw [e2.2.1]
    · exact absurd h2 (thematic_item h1)
    · rename_i t1 t2
      obtain ⟨r, bs, e1⟩ := (alert_iff (cfg := cfg) hc ht hp).2 h1
      obtain ⟨r', bs', e2⟩ := (alert_iff (cfg := cfg) hc ht hp).2 h2
      rw [e1] at e2; simp at e2; rw [e2.2.1]
    · exact absurd ⟨_, h1⟩ h2.2
    · exact absurd ⟨_, h2⟩ h1.2
    · exact absurd h1 (thematic_item h2)
    · obtain ⟨r, l, e1⟩ := listItemP_of_at (x := x) hc h1
      obtain ⟨r', l', e2⟩ := listItemP_of_at (x := x) hc h2
      rw [e1] at e2; simp at e2; rw [e2.2.1]
    · exact absurd h1 h2.2
    · exact absurd h2 h1.2

/-! ## What interrupts a paragraph -/

theorem ne_none_iff {α : Type} {o : Option α} : o ≠ none ↔ ∃ y, o = some y := by cases o <;> simp

theorem unit_iff {α β : Type} {b : Behavior α} {p : P β} {s : Str} (hb : b = .parse) :
    conditionalUnit b p s ≠ none ↔ ∃ y, p s = some y := by
  rw [ne_eq, conditionalUnit_none, hb, ← ne_none_iff]
  simp

theorem notAPara_iff (ha : cfg.AllBlocks) {s : Str} :
    notAParagraphLine x cfg (blockP x cfg) s ≠ none ↔ Interrupts cfg s := by
  have hc := ha.keeps.customOk
  have ht : cfg.text ≠ .ignore := by rw [ha.keeps.text]; simp
  have hp : cfg.paragraph ≠ .ignore := by rw [ha.keeps.paragraph]; simp
  have h1 : (conditionalUnit cfg.headingV1 (headingV1 x cfg) s ≠ none) ↔ ∃ n, AtxAt cfg n s := by
    rw [unit_iff ha.headingV1]
    constructor
    · rintro ⟨⟨r, b⟩, h⟩; obtain ⟨n, l, _, h⟩ := headingV1_at h; exact ⟨n, h⟩
    · rintro ⟨n, h⟩; obtain ⟨r, l, h⟩ := headingV1_of_at (x := x) hc h; exact ⟨_, h⟩
  have h2 : (conditionalUnit cfg.headingV2 headingV2Level s ≠ none) ↔ ∃ k, UnderlineAt k s := by
    rw [unit_iff ha.headingV2]
    constructor
    · rintro ⟨⟨r, b⟩, h⟩; exact ⟨b, underline_iff.1 ⟨r, h⟩⟩
    · rintro ⟨n, h⟩; obtain ⟨r, h⟩ := underline_iff.2 h; exact ⟨_, h⟩
  have h3 : (conditionalUnit cfg.list (listItemP (blockP x cfg)) s ≠ none) ↔ ∃ k, ItemAt k s := by
    rw [unit_iff ha.list]
    constructor
    · rintro ⟨⟨r, k, i⟩, h⟩; exact ⟨k, listItemP_kind h⟩
    · rintro ⟨n, h⟩; obtain ⟨r, i, h⟩ := listItemP_of_at (x := x) hc h; exact ⟨_, h⟩
  have h4 : (value () (customParser cfg.customBlock) s ≠ none) ↔ False := by
    rw [ha.keeps.customBlock]; simp [customParser, value_none, failP]
  have h5 : (value () (lineTerminated space0) s ≠ none) ↔ BlankLineAt s := by
    rw [ne_eq, value_none, ← blankLine_iff, ← ne_none_iff]
  have key : ∀ (p q : P Unit), (p <||> q) s ≠ none ↔ p s ≠ none ∨ q s ≠ none := by
    intro p q
    rw [ne_eq, orElse_none]
    by_cases h : p s = none <;> by_cases h' : q s = none <;> simp [h, h']
  unfold notAParagraphLine
  simp only [key, h1, h2, h3, h4, h5, unit_iff ha.thematicBreak, unit_iff ha.blockquote, unit_iff ha.codeBlock,
    unit_iff ha.htmlBlock, unit_iff ha.linkDefinition, unit_iff ha.footnoteDefinition, unit_iff ha.table,
    thematic_iff, blockquote_iff hc ht hp, fenced_iff, html_iff, definition_iff hc ht, footnote_iff hc, table_iff hc]
  unfold Interrupts
  grind

/-! ## The first block -/

theorem block_iff {b : Behavior Block} {p : P Block} {s r : Str} {bs : List Block} (hb : b = .parse) :
    conditionalBlock b p s = some (r, bs) ↔ ∃ v, p s = some (r, v) ∧ bs = [v] := by
  subst hb
  constructor
  · intro h; obtain ⟨v, h1, h2⟩ := mapP_some.1 h; exact ⟨v, h1, h2.symm⟩
  · rintro ⟨v, h1, rfl⟩; exact mapP_some.2 ⟨v, h1, rfl⟩

theorem block_none {b : Behavior Block} {p : P Block} {s : Str} (hb : b = .parse) :
    conditionalBlock b p s = none ↔ p s = none := by
  unfold conditionalBlock
  rw [conditional_none, hb]; simp

theorem BlankLineAt.of_blank {s : Str} (h : BlankText s) : BlankLineAt s := by
  induction h with
  | nil => exact ⟨[], [], [], by simp [Blanks], .inr ⟨rfl, rfl⟩, rfl⟩
  | space h ih =>
    obtain ⟨b, e, r, h1, h2, rfl⟩ := ih
    exact ⟨' ' :: b, e, r, by intro c hc; rcases List.mem_cons.1 hc with h | hc; exact .inl h; exact h1 c hc, h2, rfl⟩
  | tab h ih =>
    obtain ⟨b, e, r, h1, h2, rfl⟩ := ih
    exact ⟨'\t' :: b, e, r, by intro c hc; rcases List.mem_cons.1 hc with h | hc; exact .inr h; exact h1 c hc, h2, rfl⟩
  | @lf s _ _ => exact ⟨[], ['\n'], s, by simp [Blanks], .inl (.inl rfl), rfl⟩
  | @crlf s _ _ => exact ⟨[], ['\r', '\n'], s, by simp [Blanks], .inl (.inr rfl), rfl⟩

theorem first_block (ha : cfg.AllBlocks) {s : Str} (hs : ¬ BlankLineAt s) :
    ∃ r b, blockP x cfg s = some (r, [b]) ∧ StartsWith x cfg s (startKind b) := by
  have hc := ha.keeps.customOk
  have ht : cfg.text ≠ .ignore := by rw [ha.keeps.text]; simp
  have hp : cfg.paragraph ≠ .ignore := by rw [ha.keeps.paragraph]; simp
  cases he : blockP x cfg s with
  | none =>
    exact absurd (BlankLineAt.of_blank ((blockP_none hc ht hp).1 he)) hs
  | some y =>
    obtain ⟨r, bs⟩ := y
    rw [blockP_alt hc (emptyLine_iff.2 hs)] at he
    unfold blockAlt at he
    have hcust : ∀ s, customParser cfg.customBlock s = none := by
      intro s; rw [ha.keeps.customBlock]; rfl
    simp only [orElse_some, block_iff ha.codeBlock, block_iff ha.headingV1, block_iff ha.headingV2,
      block_iff ha.thematicBreak, block_iff ha.blockquote, block_iff ha.list, block_iff ha.htmlBlock,
      block_iff ha.footnoteDefinition, block_iff ha.linkDefinition, block_iff ha.table,
      block_iff ha.keeps.paragraph,
      block_none ha.codeBlock, block_none ha.headingV1, block_none ha.headingV2,
      block_none ha.thematicBreak, block_none ha.blockquote, block_none ha.list, block_none ha.htmlBlock,
      block_none ha.footnoteDefinition, block_none ha.linkDefinition, block_none ha.table, ha.githubAlert,
      conditionalBlockVec, codeBlockP, orElse_none, mapP_none, value_none, hcust] at he
    rcases he with ⟨v, h1 | ⟨n1, h1⟩, rfl⟩ | ⟨⟨n1, n2⟩, ⟨v, h1, rfl⟩ | ⟨n3, ⟨v, h1, rfl⟩ | ⟨n4, ⟨v, h1, rfl⟩ | ⟨n5, h1 |
      ⟨n6, ⟨v, h1, rfl⟩ | ⟨n7, ⟨v, h1, rfl⟩ | ⟨n8, ⟨v, h1, rfl⟩ | ⟨n9, ⟨v, h1, rfl⟩ | ⟨n10, ⟨v, h1, rfl⟩ |
      ⟨n11, ⟨v, h1, rfl⟩ | ⟨n12, h1 | ⟨_, v, h1, rfl⟩⟩⟩⟩⟩⟩⟩⟩⟩⟩⟩⟩
    · refine ⟨r, v, rfl, ?_⟩
      obtain ⟨ls, _, rfl⟩ := mapP_some.1 h1
      exact indented_iff.1 ⟨_, h1⟩
    · refine ⟨r, v, rfl, ?_⟩
      have hk : startKind v = .fenced := by
        unfold codeBlockFenced at h1
        split at h1
        · simp at h1
        · split at h1 <;> grind [startKind]
      rw [hk]
      exact fenced_iff.1 ⟨_, h1⟩
    · obtain ⟨n, l, rfl, h⟩ := headingV1_at h1
      exact ⟨r, _, rfl, h⟩
    · refine ⟨r, v, rfl, ?_⟩
      have hk : startKind v = .text := by
        obtain ⟨⟨l, o⟩, _, rfl⟩ := mapP_some.1 h1
        cases o <;> rfl
      rw [hk]
      show ¬ SpecialAt cfg s
      have hn : ¬ Interrupts cfg s := by
        rw [← notAPara_iff (x := x) ha]
        intro hne
        obtain ⟨y, hy⟩ := ne_none_iff.1 hne
        rw [headingV2OrParagraph_none hc hy] at h1
        simp at h1
      have hi : ¬ IndentedAt s := by rw [← indented_iff, n1]; simp
      unfold SpecialAt
      unfold Interrupts at hn
      grind
    · obtain ⟨_, h2, rfl⟩ := value_some.1 h1
      exact ⟨r, _, rfl, thematic_iff.1 ⟨_, h2⟩⟩
    · obtain ⟨t, l, rfl⟩ := alert_shape h1
      exact ⟨r, _, rfl, (alert_iff hc ht hp).1 ⟨_, _, h1⟩⟩
    all_goals
      have hal : ¬ ∃ t, AlertAt x t s := by
        rintro ⟨t, h⟩
        obtain ⟨r, bs, h⟩ := (alert_iff (cfg := cfg) hc ht hp).2 h
        rw [n6] at h; simp at h
    · have hq := (blockquote_iff (x := x) hc ht hp).1 ⟨_, h1⟩
      refine ⟨r, v, rfl, ?_⟩
      have hk : startKind v = .quote := by
        unfold blockquoteP at h1
        obtain ⟨ls, _, h2⟩ := mapOpt_some.1 h1
        obtain ⟨bs, _, rfl⟩ := Option.map_eq_some_iff.1 h2
        rfl
      rw [hk]
      exact ⟨hq, hal⟩
    · obtain ⟨kind, l, rfl, h⟩ := listP_at h1
      exact ⟨r, _, rfl, h⟩
    · obtain ⟨t, h2, rfl⟩ := mapP_some.1 h1
      exact ⟨r, _, rfl, html_iff.1 ⟨_, h2⟩⟩
    · refine ⟨r, v, rfl, ?_⟩
      have hk : startKind v = .footnote := by
        unfold footnoteDefinitionP at h1
        split at h1
        · simp at h1
        · split at h1
          · simp at h1
          · split at h1
            · simp at h1
            · split at h1
              · simp at h1
              · simp at h1; rw [← h1.2]; rfl
      rw [hk]
      exact (footnote_iff (x := x) hc).1 ⟨_, h1⟩
    · obtain ⟨h, l, d, t, rfl⟩ := definition_at h1
      refine ⟨r, _, rfl, h, ?_⟩
      rw [← footnote_iff (x := x) hc, n10]; simp
    · obtain ⟨h, rows, as, rfl⟩ := table_at h1
      exact ⟨r, _, rfl, h⟩
    · simp at h1
    · obtain ⟨l, _, rfl⟩ := mapP_some.1 h1
      refine ⟨r, _, rfl, ?_⟩
      show ¬ SpecialAt cfg s
      have hlist : ¬ ∃ k, ItemAt k s := by
        rintro ⟨k, h⟩
        obtain ⟨r, l, h⟩ := listP_of_at (x := x) hc h
        rw [n8] at h; simp at h
      have hatx : ¬ ∃ n, AtxAt cfg n s := by
        rintro ⟨k, h⟩
        obtain ⟨r, l, h⟩ := headingV1_of_at (x := x) hc h
        rw [n3] at h; simp at h
      unfold SpecialAt
      rw [← indented_iff, ← fenced_iff, ← thematic_iff, ← blockquote_iff (x := x) hc ht hp, ← html_iff,
        ← footnote_iff (x := x) hc, ← definition_iff (x := x) hc ht, ← table_iff (x := x) hc, n1, n2, n5, n7, n9, n10, n11, n12]
      simp [hlist, hatx]

theorem everyDoc (ha : cfg.AllBlocks) (s : Str) : ∃ d, parseMarkdown x cfg s = some d :=
  C32_parse_total_of_config ha.keeps.customOk (by rw [ha.keeps.text]; simp) (by rw [ha.keeps.paragraph]; simp) s

/-- **C80**: the first block of a document is of a kind if and only if the text begins with a block of that
kind; every text whose first line is not blank begins with a block of exactly one kind. -/
theorem C80_first_block (ha : cfg.AllBlocks) {s : Str} (hs : ¬ BlankLineAt s) :
    ∃ b bs, parseMarkdown x cfg s = some ⟨b :: bs⟩ ∧ ∀ k, StartsWith x cfg s k ↔ startKind b = k := by
  have hc := ha.keeps.customOk
  obtain ⟨r, b, h1, h2⟩ := first_block (x := x) ha hs
  obtain ⟨d, hd⟩ := everyDoc (x := x) ha r
  refine ⟨b, d.blocks, ?_, ?_⟩
  · rw [parseMarkdown_cons hc h1, hd]; rfl
  · intro k
    constructor
    · intro h
      exact starts_unique hc (by rw [ha.keeps.text]; simp) (by rw [ha.keeps.paragraph]; simp) h2 h
    · rintro rfl; exact h2

/-! ## The extent of a paragraph -/

theorem paragraphSep_run (ha : cfg.AllBlocks) :
    ∀ s r ls, sepLoop lineEnding (preceded (notP (notAParagraphLine x cfg (blockP x cfg))) paragraphLine) s = some (r, ls) →
      ∀ y, eofOrEol s = some y → ∃ r2 e, eofOrEol r = some (r2, e) ∧ ∃ e0 w, s = e0 ++ (w ++ r2) ∧ LineEnd e0 (w ++ r2) ∧
        Interrupts cfg r2 ∧ ((ls = [] ∧ w = []) ∨ (TextRun cfg r2 ls w ∧ ¬ Interrupts cfg (w ++ r2))) := by
  refine sepLoop_induction ?_ ?_
  · intro s hs ⟨r2, e⟩ he
    obtain ⟨h1, rfl⟩ := LineEnd.of_eofOrEol he
    refine ⟨r2, e, he, e, [], rfl, h1, ?_, .inl ⟨rfl, rfl⟩⟩
    rcases orElse_some.1 he with h | ⟨hn, h⟩
    · rcases hs with hs | ⟨r, b, hs, hs2⟩
      · rw [hs] at h; simp at h
      · rw [hs] at h; simp at h
        obtain ⟨rfl, rfl⟩ := h
        by_cases hb : BlankLineAt r
        · exact .inl hb
        · rw [← notAPara_iff (x := x) ha]
          intro hna
          obtain ⟨r', t, h2, _⟩ := paragraphLine_ne_none (emptyLine_iff.2 hb)
          rw [preceded_some.2 ⟨r, (), notP_some.2 ⟨hna, rfl⟩, h2⟩] at hs2
          simp at hs2
    · obtain ⟨h2, rfl, _⟩ := eof_some.1 h
      exact .inl ⟨[], [], [], by simp [Blanks], .inr ⟨rfl, rfl⟩, by simp⟩
  · intro s r b r' a r'' l hsep h1 _ _ ih y hy
    obtain ⟨s3, _, h2, h3⟩ := preceded_some.1 h1
    obtain ⟨hna, rfl⟩ := notP_some.1 h2
    have hni : ¬ Interrupts cfg s3 := by rw [← notAPara_iff (x := x) ha, hna]; simp
    obtain ⟨_, _, _, h4⟩ := preceded_some.1 h3
    obtain ⟨z, hz⟩ := Option.ne_none_iff_exists'.1 (notEofOrEol1_rest h4)
    obtain ⟨r2, e, h5, e0, w, rfl, h6, h7, h8⟩ := ih z hz
    obtain ⟨q, rfl, ⟨g1, g2⟩, g3, g4⟩ := paragraphLine_some h3
    obtain ⟨nl, rfl, g5⟩ := lineEnding_writes _ _ _ hsep
    have g6 : LineWritten a e0 (w ++ r2) := ⟨g3, fun h => g4 (by rw [h]; rfl), h6⟩
    refine ⟨r2, e, h5, nl, q ++ (a ++ (e0 ++ w)), by simp, .inl g5, h7, .inr ⟨?_, by simpa using hni⟩⟩
    rcases h8 with ⟨rfl, rfl⟩ | ⟨h8, h9⟩
    · simp at g6 ⊢
      exact .last g2 g1 g6
    · exact .cons g2 g1 g6 h9 h8

theorem paragraphLines_run (ha : cfg.AllBlocks) {s : Str} (hs : ¬ Interrupts cfg s) :
    ∃ rest ls w, paragraphLines x cfg (blockP x cfg) s = some (rest, ls) ∧ s = w ++ rest ∧ TextRun cfg rest ls w ∧
      Interrupts cfg rest := by
  have hb : ¬ BlankLineAt s := fun h => hs (.inl h)
  obtain ⟨r, t, h1, h2⟩ := paragraphLine_ne_none (emptyLine_iff.2 hb)
  have hna : notAParagraphLine x cfg (blockP x cfg) s = none := by
    cases h : notAParagraphLine x cfg (blockP x cfg) s with
    | none => rfl
    | some y => exact absurd ((notAPara_iff (x := x) ha).1 (by rw [h]; simp)) hs
  have h3 : preceded (notP (notAParagraphLine x cfg (blockP x cfg))) paragraphLine s = some (r, t) :=
    preceded_some.2 ⟨s, (), notP_some.2 ⟨hna, rfl⟩, h1⟩
  obtain ⟨_, _, _, h4⟩ := preceded_some.1 h1
  obtain ⟨z, hz⟩ := Option.ne_none_iff_exists'.1 (notEofOrEol1_rest h4)
  have hsuf : Suf (preceded (notP (notAParagraphLine x cfg (blockP x cfg))) paragraphLine) := by
    have : Suf paragraphLine := by unfold paragraphLine; infer_instance
    infer_instance
  obtain ⟨⟨r1, l⟩, hl⟩ := Option.ne_none_iff_exists'.1
    (sepLoop_ne_none (sep := lineEnding) (p := preceded (notP (notAParagraphLine x cfg (blockP x cfg))) paragraphLine) r)
  obtain ⟨r2, e, h5, e0, w, rfl, h6, h7, h8⟩ := paragraphSep_run ha _ _ _ hl z hz
  obtain ⟨q, rfl, ⟨g1, g2⟩, g3, g4⟩ := paragraphLine_some h1
  have g6 : LineWritten t e0 (w ++ r2) := ⟨g3, fun h => g4 (by rw [h]; rfl), h6⟩
  refine ⟨r2, t :: l, q ++ (t ++ (e0 ++ w)), ?_, by simp, ?_, h7⟩
  · exact terminated_some.2 ⟨r1, e, separatedList0_some.2 (.inr ⟨_, _, _, h3, hl, rfl⟩), h5⟩
  · rcases h8 with ⟨rfl, rfl⟩ | ⟨h8, h9⟩
    · simp at g6 ⊢
      exact .last g2 g1 g6
    · exact .cons g2 g1 g6 h9 h8

theorem TextRun.join_ne {r : Str} {ls : List Str} {w : Str} (h : TextRun cfg r ls w) : joinWith ['\n'] ls ≠ [] := by
  cases h with
  | last _ h _ => simpa [joinWith] using h
  | @cons p l e w ls _ h _ _ _ =>
    cases ls with
    | nil => simpa [joinWith] using h
    | cons => simp [joinWith, h]

theorem not_special_none (ha : cfg.AllBlocks) {s : Str} (hn : ¬ SpecialAt cfg s) :
    codeBlockP s = none ∧ headingV1 x cfg s = none ∧ thematicBreakP s = none ∧ githubAlertP x (blockP x cfg) s = none ∧
    blockquoteP (blockP x cfg) s = none ∧ listP (blockP x cfg) s = none ∧ htmlBlockP s = none ∧
    footnoteDefinitionP (blockP x cfg) s = none ∧ linkDefinitionP x cfg s = none ∧ tableP x cfg s = none := by
  have hc := ha.keeps.customOk
  have ht : cfg.text ≠ .ignore := by rw [ha.keeps.text]; simp
  have hp : cfg.paragraph ≠ .ignore := by rw [ha.keeps.paragraph]; simp
  have key : ∀ {α : Type} (o : Option α) {q : Prop}, (∀ y, o = some y → q) → ¬ q → o = none := by
    intro α o q h hq
    cases o with
    | none => rfl
    | some y => exact absurd (h y rfl) hq
  unfold SpecialAt at hn
  simp only [not_or] at hn
  obtain ⟨k1, k2, k3, k4, k5, k6, k7, k8, k9, k10⟩ := hn
  refine ⟨orElse_none.2 ⟨key _ (fun y h => indented_iff.1 ⟨y, h⟩) k1, key _ (fun y h => fenced_iff.1 ⟨y, h⟩) k2⟩,
    key _ (fun y h => ?_) k3, key _ (fun y h => thematic_iff.1 ⟨y, h⟩) k4, key _ (fun y h => alert_quote (cfg := cfg) hc h) k5,
    key _ (fun y h => (blockquote_iff hc ht hp).1 ⟨y, h⟩) k5, key _ (fun y h => ?_) k6,
    key _ (fun y h => html_iff.1 ⟨y, h⟩) k7, key _ (fun y h => (footnote_iff hc).1 ⟨y, h⟩) k8,
    key _ (fun y h => (definition_iff hc ht).1 ⟨y, h⟩) k9, key _ (fun y h => (table_iff hc).1 ⟨y, h⟩) k10⟩
  · obtain ⟨n, l, _, h⟩ := headingV1_at h; exact ⟨n, h⟩
  · obtain ⟨n, l, _, h⟩ := listP_at h; exact ⟨n, h⟩

/-- `C81_text`, with the parser of inlines. -/
theorem text_extent (ha : cfg.AllBlocks) {s : Str} (hs : ¬ BlankLineAt s) (hn : ¬ SpecialAt cfg s) :
    ∃ ls w rest is, s = w ++ rest ∧ TextRun cfg rest ls w ∧ parseInlines1 x cfg (joinWith ['\n'] ls) = some is ∧
      ((∃ k, UnderlineAt k s) → ls.length = 1 ∧
        parseMarkdown x cfg s = (parseMarkdown x cfg rest).map (fun d => ⟨.paragraph is :: d.blocks⟩)) ∧
      ((¬ ∃ k, UnderlineAt k s) → Interrupts cfg rest ∧
        (∀ k u e r, Underline k u → LineEnd e r → rest = u ++ (e ++ r) →
          parseMarkdown x cfg s = (parseMarkdown x cfg r).map (fun d => ⟨.heading (.setext k) is :: d.blocks⟩)) ∧
        ((¬ ∃ k, UnderlineAt k rest) →
          parseMarkdown x cfg s = (parseMarkdown x cfg rest).map (fun d => ⟨.paragraph is :: d.blocks⟩))) := by
  have hc := ha.keeps.customOk
  have ht : cfg.text ≠ .ignore := by rw [ha.keeps.text]; simp
  obtain ⟨n1, n2, n3, n4, n5, n6, n7, n8, n9, n10⟩ := not_special_none (x := x) ha hn
  by_cases hu : ∃ k, UnderlineAt k s
  · obtain ⟨r, t, h1, h2⟩ := paragraphLine_ne_none (emptyLine_iff.2 hs)
    obtain ⟨_, _, _, h4⟩ := preceded_some.1 h1
    obtain ⟨⟨rest, e⟩, hz⟩ := Option.ne_none_iff_exists'.1 (notEofOrEol1_rest h4)
    have h5 : preceded (notP (notAParagraphLine x cfg (blockP x cfg))) paragraphLine r = none := by
      cases e : preceded (notP (notAParagraphLine x cfg (blockP x cfg))) paragraphLine r with
      | none => rfl
      | some z =>
        obtain ⟨_, _, h6, h7⟩ := preceded_some.1 e
        rw [(notP_some.1 h6).2, paragraphLine_of_eol hz] at h7; simp at h7
    have h6 : paragraphLines x cfg (blockP x cfg) r = some (rest, []) :=
      terminated_some.2 ⟨r, e, separatedList0_some.2 (.inl ⟨h5, rfl, rfl⟩), hz⟩
    obtain ⟨l, h7⟩ := parseInlines1_ne_none (x := x) hc ht h2
    have h8 : paragraphP x cfg (blockP x cfg) false s = some (rest, l) :=
      mapOpt_some.2 ⟨[t], mapP_some.2 ⟨(t, []), seq_some.2 ⟨r, h1, h6⟩, rfl⟩, h7⟩
    have hna : ∃ y, notAParagraphLine x cfg (blockP x cfg) s = some y := by
      rw [← ne_none_iff, notAPara_iff ha]; exact .inr (.inr (.inl hu))
    obtain ⟨_, hna⟩ := hna
    have h9 : blockP x cfg s = some (rest, [.paragraph l]) := by
      rw [blockP_alt hc (emptyLine_iff.2 hs)]
      unfold blockAlt
      have hv : value Block.thematicBreak thematicBreakP s = none := value_none.2 n3
      have hh : mapP htmlBlockP Block.htmlBlock s = none := mapP_none.2 n7
      have hcu : customParser cfg.customBlock s = none := by rw [ha.keeps.customBlock]; rfl
      simp only [orElse_some, block_iff ha.codeBlock, block_iff ha.headingV1, block_iff ha.headingV2,
        block_iff ha.thematicBreak, block_iff ha.blockquote, block_iff ha.list, block_iff ha.htmlBlock,
        block_iff ha.footnoteDefinition, block_iff ha.linkDefinition, block_iff ha.table,
        block_iff ha.keeps.paragraph, block_none ha.codeBlock, block_none ha.headingV1, block_none ha.headingV2,
        block_none ha.thematicBreak, block_none ha.blockquote, block_none ha.list, block_none ha.htmlBlock,
        block_none ha.footnoteDefinition, block_none ha.linkDefinition, block_none ha.table, ha.githubAlert,
        conditionalBlockVec, n1, n2, n4, n5, n6, n8, n9, n10, hv, hh, hcu, headingV2OrParagraph_none hc hna]
      simp [mapP, h8]
    obtain ⟨q, rfl, ⟨g1, g2⟩, g3, g4⟩ := paragraphLine_some h1
    obtain ⟨rfl, g5⟩ := LineWritten.mk' (u := []) g3 g4 hz
    refine ⟨[t], q ++ (t ++ e), rest, l, by simp, .last g2 g1 g5, ?_, fun _ => ⟨rfl, ?_⟩, fun h => absurd hu h⟩
    · simpa [joinWith] using h7
    · rw [parseMarkdown_cons hc h9]; rfl
  · have hi : ¬ Interrupts cfg s := by
      unfold Interrupts
      unfold SpecialAt at hn
      grind
    obtain ⟨rest, ls, w, h1, rfl, h2, h3⟩ := paragraphLines_run (x := x) ha hi
    obtain ⟨l, h7⟩ := parseInlines1_ne_none (x := x) hc ht h2.join_ne
    have h8 : paragraphP x cfg (blockP x cfg) true (w ++ rest) = some (rest, l) := mapOpt_some.2 ⟨ls, h1, h7⟩
    have key : ∀ r b, headingV2OrParagraph x cfg (blockP x cfg) (w ++ rest) = some (r, b) →
        blockP x cfg (w ++ rest) = some (r, [b]) := by
      intro r b h
      rw [blockP_alt hc (emptyLine_iff.2 hs)]
      unfold blockAlt
      simp only [orElse_some, block_iff ha.codeBlock, block_iff ha.headingV1, block_iff ha.headingV2,
        block_none ha.codeBlock, block_none ha.headingV1, n1, n2]
      simp [h]
    refine ⟨ls, w, rest, l, rfl, h2, h7, fun h => absurd h hu, fun _ => ⟨h3, ?_, ?_⟩⟩
    · rintro k u e r hk he rfl
      have h9 : headingV2Level (u ++ (e ++ r)) = some (r, k) := by
        cases hk with
        | @one j n b hj hm hb =>
          have := headingV2Level_of (k := j) (a := '=') hj hm (.inl ⟨rfl, rfl⟩) (fun d hd => isSpace_iff.2 (hb d hd)) he
          simpa [sp] using this
        | @two j n b hj hm hb =>
          have := headingV2Level_of (k := j) (a := '-') hj hm (.inr ⟨rfl, rfl⟩) (fun d hd => isSpace_iff.2 (hb d hd)) he
          simpa [sp] using this
      rw [parseMarkdown_cons hc (key r _ (mapP_some.2 ⟨(l, some k), seq_some.2 ⟨_, h8, opt_some.2 (.inl ⟨k, h9, rfl⟩)⟩, rfl⟩))]
      rfl
    · intro hnu
      have h9 : headingV2Level rest = none := by
        cases h : headingV2Level rest with
        | none => rfl
        | some y => exact absurd ⟨y.2, underline_iff.1 ⟨y.1, h⟩⟩ hnu
      rw [parseMarkdown_cons hc (key rest _ (mapP_some.2 ⟨(l, none), seq_some.2 ⟨_, h8, opt_some.2 (.inr ⟨h9, rfl, rfl⟩)⟩, rfl⟩))]
      rfl

/-- **C81**: a text that does not begin with another block begins with a paragraph or an underlined
heading, made of the longest run of lines that nothing interrupts; a text that begins like an underline gives a
paragraph of that line. -/
theorem C81_text (ha : cfg.AllBlocks) {s : Str} (hs : ¬ BlankLineAt s) (hn : ¬ SpecialAt cfg s) :
    ∃ ls w rest is, s = w ++ rest ∧ TextRun cfg rest ls w ∧ InlinesWritten x cfg.entities is (joinWith ['\n'] ls) ∧
      ((∃ k, UnderlineAt k s) → ls.length = 1 ∧
        parseMarkdown x cfg s = (parseMarkdown x cfg rest).map (fun d => ⟨.paragraph is :: d.blocks⟩)) ∧
      ((¬ ∃ k, UnderlineAt k s) → Interrupts cfg rest ∧
        (∀ k u e r, Underline k u → LineEnd e r → rest = u ++ (e ++ r) →
          parseMarkdown x cfg s = (parseMarkdown x cfg r).map (fun d => ⟨.heading (.setext k) is :: d.blocks⟩)) ∧
        ((¬ ∃ k, UnderlineAt k rest) →
          parseMarkdown x cfg s = (parseMarkdown x cfg rest).map (fun d => ⟨.paragraph is :: d.blocks⟩))) := by
  obtain ⟨ls, w, rest, is, h1, h2, h3, h4⟩ := text_extent (x := x) ha hs hn
  exact ⟨ls, w, rest, is, h1, h2, parseInlines1_reads (x := x) ha.keeps _ _ h3, h4⟩

/-! ## Concrete cases -/

theorem allBlocks_default (ent : Str → Option Str) : (PConfig.default ent).AllBlocks := by
  constructor <;> first | rfl | exact keeps_default ent

/-- A text whose first character, after at most three spaces, is none of those that begin other blocks, begins
with a paragraph or an underlined heading. -/
theorem C80_plain (hc : cfg.AllBlocks) {k : Nat} {c : Char} {t : Str} (hk : k ≤ 3) (h0 : charClass c = 0)
    (hb : c ≠ ' ' ∧ c ≠ '\t') : ¬ SpecialAt cfg (sp k ++ c :: t) := by
  have key : ∀ n, n ≠ 0 → ¬ FirstAt n (sp k ++ c :: t) := by
    rintro n hn ⟨k', c', t', _, rfl, h⟩
    exact hn ((sp_split hb.1 (charClass_blank hn).1 h) ▸ h0)
  rintro (h | h | ⟨n, h⟩ | h | h | ⟨kind, h⟩ | h | h | h | h)
  · obtain ⟨p, l, e, r, hp, _, _, h⟩ := h
    rcases hp with rfl | rfl
    · have : ∀ k k' u, k < k' → sp k ++ c :: t ≠ sp k' ++ u := by
        intro k
        induction k with
        | zero =>
          intro k' u hlt h
          cases k' with
          | zero => omega
          | succ k' => simp [sp, List.replicate] at h; exact hb.1 h.1
        | succ k ih =>
          intro k' u hlt h
          cases k' with
          | zero => omega
          | succ k' =>
            simp only [sp, List.replicate, List.cons_append, List.cons.injEq, true_and] at h
            exact ih k' u (by omega) h
      exact this k 4 _ (by omega) h
    · cases k with
      | zero => simp [sp] at h; exact hb.2 h.1
      | succ k => simp [sp, List.replicate] at h
  · exact key 1 (by decide) h.first
  · exact key 2 (by decide) h.first
  · exact key 7 (by decide) (ThematicAt.first h)
  · exact key 3 (by decide) h.first
  · exact key 7 (by decide) h.first
  · exact key 4 (by decide) h.first
  · exact key 5 (by decide) h.first
  · exact key 5 (by decide) h.first
  · exact key 6 (by decide) h.first

theorem not_blank_of_first {k : Nat} {c : Char} {t : Str} (hc : c ≠ ' ' ∧ c ≠ '\t' ∧ c ≠ '\n' ∧ c ≠ '\r') :
    ¬ BlankLineAt (sp k ++ c :: t) := by
  rintro ⟨b, e, r, hb, he, h⟩
  induction k generalizing b with
  | zero =>
    cases b with
    | nil => rcases he with (rfl | rfl) | ⟨rfl, rfl⟩ <;> simp [sp] at h <;> grind
    | cons d b => simp [sp] at h; have := hb d (by simp); grind
  | succ k ih =>
    cases b with
    | nil => rcases he with (rfl | rfl) | ⟨rfl, rfl⟩ <;> simp [sp, List.replicate] at h
    | cons d b =>
      simp only [sp, List.replicate, List.cons_append, List.cons.injEq] at h
      exact ih b (fun c hc => hb c (by simp [hc])) h.2

/-- `1. x` begins a list that starts at one. -/
example (ent : Str → Option Str) : ∃ b bs, parseMarkdown x (PConfig.default ent) cs!"1. x\n- y" = some ⟨b :: bs⟩ ∧
    startKind b = .list (.ordered 1) := by
  obtain ⟨b, bs, h1, h2⟩ := C80_first_block (x := x) (allBlocks_default ent) (s := cs!"1. x\n- y")
    (not_blank_of_first (k := 0) (c := '1') (by decide))
  refine ⟨b, bs, h1, (h2 _).1 ?_⟩
  refine ⟨0, cs!"1.", cs!" x\n- y", by omega, ?_, rfl, .inr (.inl ⟨['x'], ['\n'], cs!"- y", ?_, .inl (.inl rfl), rfl⟩)⟩
  · exact Marker.ordered (ds := ['1']) (by simp) (by intro c hc; revert c; decide) (by decide) (.inl rfl)
  · intro c hc; revert c; decide

/-- A quote whose first line names an alert, with a body, begins an alert. -/
example (ent : Str → Option Str) (hx : x.upperStr cs!"[!tip]" = cs!"[!TIP]") :
    ∃ b bs, parseMarkdown x (PConfig.default ent) cs!">[!tip]\n>a" = some ⟨b :: bs⟩ ∧ startKind b = .alert .tip := by
  obtain ⟨b, bs, h1, h2⟩ := C80_first_block (x := x) (allBlocks_default ent) (s := cs!">[!tip]\n>a")
    (not_blank_of_first (k := 0) (c := '>') (by decide))
  refine ⟨b, bs, h1, (h2 _).1 ?_⟩
  have hq : ∀ l, OneLine l → QuotedLine ['>'] l := fun l hl => ⟨⟨0, by omega, rfl⟩, hl⟩
  refine ⟨cs!"[!tip]", [['a']], cs!">[!tip]\n>a", [], ?_, ?_, ?_, .inr (.inr ⟨['a'], by simp, ?_⟩), rfl⟩
  · refine LinesWritten.cons (p := ['>']) (l := cs!"[!tip]") (e := ['\n']) (w := cs!">a") (hq _ (by intro c hc; revert c; decide))
      ⟨by decide, by intro _; decide, .inl (.inl rfl)⟩ ?_
    exact LinesWritten.cons (p := ['>']) (l := ['a']) (e := []) (w := []) (hq _ (by intro c hc; revert c; decide))
      ⟨by decide, by intro _; decide, .inr ⟨rfl, rfl⟩⟩ .nil
  · rintro ⟨p, l, e, r, ⟨⟨k, _, rfl⟩, _⟩, _, h⟩
    simp at h
  · refine ⟨?_, by simp⟩
    have : trim cs!"[!tip]" = cs!"[!tip]" := by decide
    rw [this, hx]; rfl
  · intro h; have := h 'a' (by simp); simp at this

/-- A line of letters begins a paragraph or an underlined heading. -/
example (ent : Str → Option Str) (t : Str) :
    ∃ b bs, parseMarkdown x (PConfig.default ent) ('a' :: t) = some ⟨b :: bs⟩ ∧ startKind b = .text := by
  obtain ⟨b, bs, h1, h2⟩ := C80_first_block (x := x) (allBlocks_default ent) (s := 'a' :: t)
    (not_blank_of_first (k := 0) (c := 'a') (by decide))
  exact ⟨b, bs, h1, (h2 _).1 (C80_plain (k := 0) (allBlocks_default ent) (by omega) (by decide) (by decide))⟩

/-- The hypotheses of C81 hold of the two lines `a` and `===`, and its conclusion is a heading. -/
example (ent : Str → Option Str) : ∃ is, parseMarkdown x (PConfig.default ent) cs!"a\n===" = some ⟨[.heading (.setext .level1) is]⟩ := by
  have hnb : ¬ BlankLineAt cs!"a\n===" := not_blank_of_first (k := 0) (c := 'a') (by decide)
  have hns : ¬ SpecialAt (PConfig.default ent) cs!"a\n===" :=
    C80_plain (k := 0) (c := 'a') (allBlocks_default ent) (by omega) (by decide) (by decide)
  have hnu : ¬ ∃ k, UnderlineAt k cs!"a\n===" := by
    rintro ⟨k, u, e, r, hu, _, h⟩
    cases hu with
    | @one j n b _ hn _ =>
      obtain ⟨n, rfl⟩ : ∃ m, n = m + 1 := ⟨n - 1, by omega⟩
      cases j <;> simp [sp, List.replicate] at h
    | @two j n b _ hn _ =>
      obtain ⟨n, rfl⟩ : ∃ m, n = m + 1 := ⟨n - 1, by omega⟩
      cases j <;> simp [sp, List.replicate] at h
  obtain ⟨ls, w, rest, is, h1, h2, h3, _, h4⟩ := C81_text (x := x) (allBlocks_default ent) hnb hns
  obtain ⟨_, h5, _⟩ := h4 hnu
  have hrun : rest = cs!"===" := by
    have hint : Interrupts (PConfig.default ent) cs!"===" :=
      .inr (.inr (.inl ⟨.level1, cs!"===", [], [], Underline.one (k := 0) (n := 3) (b := []) (by omega) (by omega) (by simp [Blanks]),
        .inr ⟨rfl, rfl⟩, rfl⟩))
    have hline : ∀ {p l e v : Str}, Indented 3 p l → l ≠ [] → LineWritten l e v → cs!"a\n===" = p ++ (l ++ (e ++ v)) →
        v = cs!"===" := by
      intro p l e v hp hl hw h
      obtain ⟨j, _, rfl, _⟩ := hp
      cases j with
      | succ j => simp [sp, List.replicate] at h
      | zero =>
        cases l with
        | nil => exact absurd rfl hl
        | cons c l =>
          simp [sp] at h
          obtain ⟨rfl, h⟩ := h
          cases l with
          | cons d l => simp at h; exact absurd (by simp [← h.1]) hw.one
          | nil => rcases hw.ends with (rfl | rfl) | ⟨rfl, rfl⟩ <;> simp at h <;> exact h.symm
    cases h2 with
    | last g1 g2 g3 => exact hline g1 g2 g3 (by simpa using h1)
    | cons g1 g2 g3 g4 g5 =>
      exact absurd (hline g1 g2 g3 (by simpa using h1) ▸ hint) g4
  subst hrun
  refine ⟨is, ?_⟩
  rw [h5 .level1 cs!"===" [] [] (Underline.one (k := 0) (n := 3) (b := []) (by omega) (by omega) (by simp [Blanks])) (.inr ⟨rfl, rfl⟩) rfl,
    parseMarkdown_nil]
  rfl

end
end Verif
