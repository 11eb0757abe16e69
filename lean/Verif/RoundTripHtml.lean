import Verif.RoundTripCanon
/-!
# The HTML blocks that are read back

What the executable tests of `RoundTripSpec` say about the text of an HTML block.
-/
set_option autoImplicit false
set_option linter.unusedVariables false
set_option linter.unusedSimpArgs false
namespace Verif
namespace Md
namespace Spec
open Nom

theorem enclosed_iff {o c h : Str} (hc : c ≠ []) : enclosed o c h = true ↔
    ∃ body, h = o ++ body ++ c ∧ ¬ c <:+: body ++ c.dropLast := by
  simp only [enclosed, Bool.and_eq_true, List.isPrefixOf_iff_prefix, List.isSuffixOf_iff_suffix, decide_eq_true_eq]
  constructor
  · rintro ⟨⟨⟨t, rfl⟩, h1⟩, h2⟩
    rw [List.drop_left] at h1 h2
    obtain ⟨body, rfl⟩ := h1
    rw [List.dropLast_append_of_ne_nil hc] at h2
    exact ⟨body, by simp, h2⟩
  · rintro ⟨body, rfl, h⟩
    rw [List.append_assoc, List.drop_left, List.dropLast_append_of_ne_nil hc]
    exact ⟨⟨⟨_, rfl⟩, ⟨_, rfl⟩⟩, h⟩

theorem closedHtml_of {h : Str} (hh : closedHtml h = true) :
    ∃ o c body, HtmlMarkers o c ∧ h = o ++ body ++ c ∧ ¬ c <:+: body ++ c.dropLast := by
  simp only [closedHtml, Bool.or_eq_true] at hh
  rcases hh with ((h1 | h1) | h1) | h1
  · obtain ⟨b, h2⟩ := (enclosed_iff (by simp)).1 h1; exact ⟨_, _, b, .comment, h2⟩
  · obtain ⟨b, h2⟩ := (enclosed_iff (by simp)).1 h1; exact ⟨_, _, b, .instruction, h2⟩
  · obtain ⟨b, h2⟩ := (enclosed_iff (by simp)).1 h1; exact ⟨_, _, b, .cdata, h2⟩
  · split at h1
    · simp only [Bool.and_eq_true] at h1
      obtain ⟨b, h2⟩ := (enclosed_iff (by simp)).1 h1.2
      exact ⟨_, _, b, .declaration h1.1, h2⟩
    · simp at h1

theorem asciiLower_eq {c d : Char} (hd : ¬ (97 ≤ d.toNat ∧ d.toNat ≤ 122)) (h : asciiLower c = d) : c = d := by
  unfold asciiLower at h
  split at h
  · rename_i hc
    exfalso
    apply hd
    subst h
    simp only [isAsciiUpper, Bool.and_eq_true, decide_eq_true_eq, Char.le_def, UInt32.le_iff_toNat_le] at hc
    have h1 : 65 ≤ c.toNat ∧ c.toNat ≤ 90 := hc
    have h2 : (c.toNat + 32).isValidChar := by left; omega
    have h3 : (Char.ofNat (c.toNat + 32)).toNat = c.toNat + 32 := by
      rw [Char.ofNat, dif_pos h2]; rfl
    rw [h3]
    omega
  · exact h

theorem lower_eq {a : Str} {d : Char} {t : Str} (hd : ¬ (97 ≤ d.toNat ∧ d.toNat ≤ 122))
    (h : a.map asciiLower = d :: t) : ∃ a', a = d :: a' ∧ a'.map asciiLower = t := by
  cases a with
  | nil => simp at h
  | cons c a =>
    simp at h
    exact ⟨a, by rw [asciiLower_eq hd h.1], h.2⟩

theorem rawHtml_of {h : Str} (hh : rawHtml h = true) :
    ∃ w sep body cl, w.map asciiLower ∈ rawTags ∧ RawSep sep ∧ RawClose cl ∧
      (∀ cl', RawClose cl' → ¬ cl' <:+: body) ∧ h = '<' :: w ++ sep ++ body ++ cl := by
  simp only [rawHtml, List.any_eq_true, Bool.and_eq_true, List.isPrefixOf_iff_prefix,
    List.isSuffixOf_iff_suffix, List.all_eq_true, decide_eq_true_eq] at hh
  obtain ⟨n, hn, m, hm, ⟨⟨⟨t, ht⟩, h2⟩, h3⟩, h4⟩ := hh
  obtain ⟨a, b, rfl, ha, hb⟩ := List.map_eq_append_iff.1 ht.symm
  obtain ⟨w, rfl, hw⟩ := lower_eq (by decide) ha
  rw [← ht, show n.length + 1 = ('<' :: n).length from rfl, List.drop_left] at h2 h3 h4
  subst hb
  cases b with
  | nil => simp at h2
  | cons s b =>
    simp only [List.map_cons, List.head?_cons, Option.any_some, List.drop_one, List.tail_cons, List.length_cons,
      List.length_map, Nat.add_sub_cancel] at h2 h3 h4
    obtain ⟨t, h3⟩ := h3
    obtain ⟨body, cl, rfl, hbd, hcl⟩ := List.map_eq_append_iff.1 h3.symm
    have hlen : cl.length = m.length + 3 := by
      have := congrArg List.length hcl
      simp at this; omega
    have hbody : List.take ((body ++ cl).length - (m.length + 3)) (List.map asciiLower (body ++ cl)) = t := by
      rw [← hlen, List.length_append, Nat.add_sub_cancel, List.map_append, ← hbd,
        show body.length = (body.map asciiLower).length by simp, List.take_left]
    rw [hbody] at h4
    obtain ⟨c1, rfl, hcl1⟩ := lower_eq (by decide) hcl
    obtain ⟨c2, rfl, hcl2⟩ := lower_eq (by decide) hcl1
    obtain ⟨v, g, rfl, hv, hg⟩ := List.map_eq_append_iff.1 hcl2
    obtain ⟨g', rfl, hg'⟩ := lower_eq (by decide) hg
    have : g' = [] := by simpa using hg'
    subst this
    refine ⟨w, [s], body, '<' :: '/' :: (v ++ ['>']), by rwa [hw], ?_, ⟨v, by rwa [hv], rfl⟩, ?_, by simp⟩
    · simp at h2
      rcases h2 with h | h | h
      · exact .inl (by rw [asciiLower_eq (by decide) h])
      · exact .inr (.inl (by rw [asciiLower_eq (by decide) h]))
      · exact .inr (.inr (.inl (by rw [asciiLower_eq (by decide) h])))
    · rintro _ ⟨k, hk, rfl⟩ ⟨p, q, e⟩
      refine h4 _ hk ⟨p.map asciiLower, q.map asciiLower, ?_⟩
      rw [← hbd, ← e]
      simp
      decide

theorem blockHtml_of {h : Str} (hr : h.contains '\r' = false) (hh : blockHtml h = true) :
    ∃ lt w l ls, (lt = ['<'] ∨ lt = ['<', '/']) ∧ w.map asciiLower ∈ blockTags ∧ Unshadowed (w.map asciiLower) ∧
      OneLine l ∧ (∀ y ∈ ls, VisibleLine y) ∧ TagEnd l ls ∧
      h = lt ++ w ++ l ++ (ls.map (['\n'] ++ ·)).flatten ++ ['\n'] := by
  have hls := splitNl_lines hr
  have hj := join_splitNl h
  unfold blockHtml at hh
  split at hh
  · cases hh
  rename_i first others e
  rw [e] at hls hj
  simp only [List.any_eq_true, Bool.and_eq_true, List.isPrefixOf_iff_prefix, beq_iff_eq, Bool.or_eq_true,
    List.all_eq_true, List.mem_cons, List.not_mem_nil, or_false] at hh
  obtain ⟨⟨h1, h2⟩, o, ho, n, hn, ⟨h3, ⟨t, h4⟩⟩, h5⟩ := hh
  obtain ⟨ls, rfl⟩ := List.getLast?_eq_some_iff.1 h1
  obtain ⟨a, l, rfl, ha, hl⟩ := List.map_eq_append_iff.1 h4.symm
  have hlen : a.length = (o ++ n).length := by rw [← ha]; simp
  rw [← hlen, List.drop_left] at h5
  obtain ⟨lt, w, rfl, hlt, hw⟩ := List.map_eq_append_iff.1 ha
  have hlt' : lt = ['<'] ∨ lt = ['<', '/'] := by
    rcases ho with rfl | rfl
    · obtain ⟨x, rfl, hx⟩ := lower_eq (by decide) hlt
      left; simpa using hx
    · obtain ⟨x, rfl, hx⟩ := lower_eq (by decide) hlt
      obtain ⟨x', rfl, hx'⟩ := lower_eq (by decide) hx
      right; simpa using hx'
  subst hw
  refine ⟨lt, w, l, ls, hlt', hn, ?_, ?_, ?_, ?_, ?_⟩
  · intro t ht hp
    have := h3 t ht
    simpa [List.isPrefixOf_iff_prefix.2 hp] using this
  · have := hls _ (List.mem_cons_self)
    exact (oneLine_append.1 this).2
  · intro y hy
    refine ⟨hls y (by simp [hy]), ?_⟩
    have := h2 y (by simpa using hy)
    simpa using this
  · rcases h5 with (h5 | ⟨t, h5⟩) | h5
    · cases l with
      | nil => simp at h5
      | cons c l => exact .inl ⟨c, l, rfl, by simpa using h5⟩
    · exact .inr (.inl ⟨t, h5.symm⟩)
    · exact .inr (.inr (by simpa using h5))
  · rw [← hj, joinWith_cons_sep]
    simp

theorem html_head {h : Str} (hh : closedHtml h = true ∨ rawHtml h = true ∨ blockHtml h = true)
    (hr : h.contains '\r' = false) : ∃ t, h = '<' :: t := by
  rcases hh with hh | hh | hh
  · obtain ⟨o, c, b, hm, rfl, _⟩ := closedHtml_of hh
    cases hm <;> exact ⟨_, rfl⟩
  · obtain ⟨w, s, b, c, _, _, _, _, rfl⟩ := rawHtml_of hh
    exact ⟨_, rfl⟩
  · obtain ⟨o, w, l, ls, h1, _, _, _, _, _, rfl⟩ := blockHtml_of hr hh
    rcases h1 with rfl | rfl <;> exact ⟨_, rfl⟩

end Spec
end Md
end Verif
