import Verif.PrinterDoc
/-!
# Markdown printer: lists (C48)
-/
set_option linter.unusedVariables false
namespace Verif

namespace Doc

theorem bestE_app_inv {dw : Str → Nat} {w : Nat} {d e : Doc} {i : Nat} {m : Mode} {p : Nat}
    {n : Option Nat} {k : Nat → Option Bool} {s : Str} {q : Nat}
    (h : bestE dw w (d.app e) i m p n k = some (s, q)) :
    ∃ a b p' n' k', s = a ++ b ∧ bestE dw w d i m p n' k' = some (a, p') ∧
      bestE dw w e i m p' n k = some (b, q) ∧ (n' = some i ∨ n' = n) := by
  unfold app at h
  split at h
  · exact ⟨[], s, p, n, k, rfl, rfl, h, .inr rfl⟩
  · exact ⟨s, [], q, n, k, by simp, h, rfl, .inr rfl⟩
  · simp only [bestE] at h
    split at h
    · cases h
    · rename_i a ha
      split at h
      · cases h
      · rename_i b hb
        cases h
        exact ⟨_, _, _, _, _, rfl, ha, hb, .inl rfl⟩

theorem bestE_lines {dw : Str → Nat} {w : Nat} (l : List Doc) : ∀ {d : Doc} {m : Mode} {p : Nat}
    {n : Option Nat} {k : Nat → Option Bool} {s : Str} {q : Nat}, n.getD 0 = 0 →
    bestE dw w (l.foldl (fun acc e => (acc.app .hardline).app e) d) 0 m p n k = some (s, q) →
    ∃ a as p' n' k', s = a ++ (as.map ('\n' :: ·)).flatten ∧
      bestE dw w d 0 m p n' k' = some (a, p') ∧ n'.getD 0 = 0 ∧ Md.LayL l as := by
  induction l with
  | nil =>
    intro d m p n k s q hn h
    exact ⟨s, [], q, n, k, by simp, h, hn, .nil⟩
  | cons e l ih =>
    intro d m p n k s q hn h
    obtain ⟨a, as, p1, n1, k1, rfl, h1, hn1, hl⟩ := ih hn h
    obtain ⟨b, c, p2, n2, k2, rfl, h2, h3, hn2⟩ := bestE_app_inv h1
    obtain ⟨b', g, p3, n3, k3, rfl, h4, h5, hn3⟩ := bestE_app_inv h2
    have e2 : n2.getD 0 = 0 := by rcases hn2 with rfl | rfl <;> simp_all
    have e3 : n3.getD 0 = 0 := by rcases hn3 with rfl | rfl <;> simp_all
    simp only [bestE, e2, Option.some.injEq, Prod.mk.injEq] at h5
    refine ⟨b', c :: as, p3, n3, k3, ?_, h4, e3, .cons (bestE_lay _ _ _ _ _ _ _ _ _ _ h3) hl⟩
    rw [← h5.1]
    simp

end Doc

namespace Md
open Spec

theorem itemDocs_layL {x : Ext} {cfg : Config} {k : ListKind} {pl : Nat} {items : List ListItem} :
    ∀ n ds as, itemDocs x cfg k pl (firstCounter k + n) items = some ds → LayL ds as →
    ∃ bodies : List Str, bodies.length = items.length ∧
      as = (items.zip bodies).mapIdx (fun i p =>
        itemText cfg.spacesBeforeListItem k (n + i) p.1.task p.2) ∧
      ∀ (i : Nat) it body, items[i]? = some it → bodies[i]? = some body →
        ∃ d, itemBlocksDoc x cfg it = some d ∧ d.Lay body := by
  induction items with
  | nil => intro n ds as h has; cases h; cases has; exact ⟨[], rfl, rfl, by simp⟩
  | cons i l ihl =>
    intro n ds as h has
    simp only [itemDocs] at h
    split at h
    · cases h
    · rename_i d hd
      split at h
      · cases h
      · rename_i c hc
        split at h
        · cases h
        · rename_i ds' hds'
          cases h
          cases has with
          | cons h1 h2 =>
            rename_i a as
            have hc' : itemDocs x cfg k pl (firstCounter k + (n + 1)) l = some ds' := by
              rcases k with start | b
              · simp only [nextCounter] at hc
                split at hc
                · cases hc; exact hds'
                · cases hc
              · cases hc
                rw [itemDocs_bullet x cfg b pl l _ (firstCounter (.bullet b) + n)]; exact hds'
            obtain ⟨bodies, hlen, has, hb⟩ := ihl (n + 1) ds' as hc' h2
            obtain ⟨p, body, rfl, hp, hbody⟩ := Doc.lay_app.1 h1
            obtain ⟨p2, tk, rfl, hp2, htk⟩ := Doc.lay_app.1 hp
            obtain ⟨p3, sp, rfl, hp3, hsp⟩ := Doc.lay_app.1 hp2
            obtain ⟨ind, mk, rfl, hind, hmk⟩ := Doc.lay_app.1 hp3
            cases (hind : ind = _)
            cases (hmk : mk = _)
            cases (hsp : sp = _)
            refine ⟨body :: bodies, by simp [hlen], ?_, ?_⟩
            · rw [taskDoc_lay htk, marker_eq, has]
              have : ∀ j, n + 1 + j = n + (j + 1) := by intro j; omega
              simp [List.mapIdx_cons, itemText, this]
            · intro j it bd h3 h4
              cases j with
              | zero => cases h3; cases h4; exact ⟨d, hd, hbody⟩
              | succ j => exact hb j it bd (by simpa using h3) (by simpa using h4)

theorem joinWith_nl_cons (a : Str) (as : List Str) :
    joinWith ['\n'] (a :: as) = a ++ (as.map ('\n' :: ·)).flatten := joinWith_cons _ _ _

/-- **C48.** A list is printed one item after another, each on a new line: the configured
indentation, the marker of its position (for an ordered list `start`, `start + 1`, ...), a space,
the task box and the content of the item. -/
theorem C48_list (x : Ext) (cfg : Config) (k : ListKind) (items : List ListItem) (s : Str)
    (h : renderMarkdown x cfg ⟨[.list k items]⟩ = some s) :
    ∃ bodies : List Str, bodies.length = items.length ∧
      s = joinWith ['\n'] ((items.zip bodies).mapIdx fun i p =>
        itemText cfg.spacesBeforeListItem k i p.1.task p.2) ∧
      ∀ (i : Nat) it body, items[i]? = some it → bodies[i]? = some body →
        (UnquotedItem it → splitWs body = blocksWords x.toPExt.upperStr it.blocks) ∧
        (RectTablesItem it → (splitWs body).filter (fun w => w ≠ cs!">") =
          (blocksWords x.toPExt.upperStr it.blocks).filter (fun w => w ≠ cs!">")) := by
  simp only [renderMarkdown, blocksDoc, blockDoc, if_true, app_nil_left] at h
  cases hpl : prefixLength cfg k items.length with
  | none => rw [hpl] at h; cases h
  | some pl =>
    rw [hpl] at h
    simp only at h
    cases hds : itemDocs x cfg k pl (firstCounter k) items with
    | none => rw [hds] at h; cases h
    | some ds =>
      rw [hds] at h
      simp only at h
      have hlay : ∃ as, LayL ds as ∧ s = joinWith ['\n'] as := by
        cases ds with
        | nil => cases h; exact ⟨[], .nil, rfl⟩
        | cons d ds =>
          simp only [Doc.renderE, Option.map_eq_some_iff] at h
          obtain ⟨⟨t, q⟩, h, rfl⟩ := h
          obtain ⟨a, as, p', n', k', rfl, h1, -, h2⟩ := Doc.bestE_lines ds (by rfl) h
          exact ⟨a :: as, .cons (Doc.bestE_lay _ _ _ _ _ _ _ _ _ _ h1) h2,
            (joinWith_nl_cons a as).symm⟩
      obtain ⟨as, has, rfl⟩ := hlay
      obtain ⟨bodies, h1, h2, h3⟩ := itemDocs_layL (x := x) (cfg := cfg) (pl := pl) 0 ds as hds has
      refine ⟨bodies, h1, by rw [h2]; simp, ?_⟩
      intro i it body hit hbd
      obtain ⟨d, hd, hl⟩ := h3 i it body hit hbd
      refine ⟨fun hu => ?_, fun hr => ?_⟩
      · have := (block_words x cfg (fun _ => true) false (by simp)).2.1 it
          (unquoted_rect.2.1 it hu) (fun _ => hu) d body hd hl
        rwa [SameWords, List.filter_eq_self.2 (fun _ _ => rfl),
          List.filter_eq_self.2 (fun _ _ => rfl)] at this
      · exact (block_words x cfg (fun w => decide (w ≠ cs!">")) true (by simp)).2.1 it hr
          (by simp) d body hd hl

example : renderMarkdown Ext.ascii Config.default ⟨[.list (.ordered 99)
    [.mk (some .complete) [.paragraph [.text cs!"a"], .paragraph [.text cs!"b"]],
     .mk none [.list (.bullet .star) [.mk (some .incomplete) [.paragraph [.text cs!"c"]]]]]]⟩ =
    some cs!" 99. [X] a\n      \n      b\n 100.  * [ ] c" := by decide +kernel

end Md
end Verif
