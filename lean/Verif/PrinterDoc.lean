import Verif.PrinterTable
/-!
# Markdown printer: words of whole documents (C44)
-/
set_option linter.unusedVariables false
namespace Verif

namespace Doc

/-- `s` is the output of some layout of the document, whatever the width, the columns and the
indentation. -/
def Lay : Doc → Str → Prop
  | .nil, s => s = []
  | .append l r, s => ∃ a b, s = a ++ b ∧ l.Lay a ∧ r.Lay b
  | .text t, s => s = t
  | .hardline, s => ∃ n, s = '\n' :: List.replicate n ' '
  | .flatAlt b f, s => b.Lay s ∨ f.Lay s
  | .group d, s => d.Lay s
  | .nest _ d, s => d.Lay s
  | .column f, s => ∃ c, (f c).Lay s
  | .panic, _ => False

theorem bestE_lay (dw : Str → Nat) (w : Nat) : ∀ (d : Doc) i m p n k s q,
    bestE dw w d i m p n k = some (s, q) → d.Lay s := by
  intro d
  induction d with
  | nil => intro i m p n k s q h; cases h; rfl
  | append l r hl hr =>
    intro i m p n k s q h
    simp only [bestE] at h
    split at h
    · cases h
    · rename_i a ha
      split at h
      · cases h
      · rename_i b hb
        cases h
        exact ⟨_, _, rfl, hl _ _ _ _ _ _ _ ha, hr _ _ _ _ _ _ _ hb⟩
  | text t => intro i m p n k s q h; cases h; rfl
  | hardline => intro i m p n k s q h; cases h; exact ⟨_, rfl⟩
  | flatAlt b f hb hf =>
    intro i m p n k s q h
    cases m
    · exact .inr (hf _ _ _ _ _ _ _ h)
    · exact .inl (hb _ _ _ _ _ _ _ h)
  | group d ih =>
    intro i m p n k s q h
    cases m
    · exact ih _ _ _ _ _ _ _ h
    · simp only [bestE] at h
      split at h
      · cases h
      · exact ih _ _ _ _ _ _ _ h
      · exact ih _ _ _ _ _ _ _ h
  | nest o d ih => intro i m p n k s q h; exact ih _ _ _ _ _ _ _ h
  | column f ih => intro i m p n k s q h; exact ⟨p, ih _ _ _ _ _ _ _ _ h⟩
  | panic => intro i m p n k s q h; cases h

theorem renderE_lay {d : Doc} {dw : Str → Nat} {w : Nat} {s : Str}
    (h : d.renderE dw w = some s) : d.Lay s := by
  simp only [renderE, Option.map_eq_some_iff] at h
  obtain ⟨⟨t, q⟩, h, rfl⟩ := h
  exact bestE_lay dw w d _ _ _ _ _ _ _ h

theorem lay_app {d e : Doc} {s : Str} :
    (d.app e).Lay s ↔ ∃ a b, s = a ++ b ∧ d.Lay a ∧ e.Lay b := by
  unfold app
  split
  · constructor
    · intro h; exact ⟨[], s, rfl, rfl, h⟩
    · rintro ⟨a, b, rfl, ha, hb⟩; cases (ha : a = []); exact hb
  · constructor
    · intro h; exact ⟨s, [], by simp, h, rfl⟩
    · rintro ⟨a, b, rfl, ha, hb⟩; cases (hb : b = []); simpa using ha
  · rfl

end Doc

namespace Md
open Spec

/-! ## Words of texts separated by whitespace -/

theorem splitWsAux_append_ws (g b : Str) (hn : g ≠ []) (hg : ∀ c ∈ g, isWs c = true) :
    ∀ (a acc : Str), splitWsAux (a ++ (g ++ b)) acc = splitWsAux a acc ++ splitWs b := by
  intro a
  induction a with
  | nil =>
    intro acc
    rw [List.nil_append, splitWsAux_ws g b acc hn hg]
    simp only [splitWsAux, splitWs]
    split <;> simp
  | cons c a ih =>
    intro acc
    simp only [List.cons_append, splitWsAux, ih]
    split
    · split <;> simp
    · rfl

theorem splitWs_sep (a g b : Str) (hn : g ≠ []) (hg : ∀ c ∈ g, isWs c = true) :
    splitWs (a ++ g ++ b) = splitWs a ++ splitWs b := by
  rw [List.append_assoc]
  exact splitWsAux_append_ws g b hn hg a []

theorem splitWs_ws (g b : Str) (hg : ∀ c ∈ g, isWs c = true) : splitWs (g ++ b) = splitWs b :=
  splitWsAux_ws_nil g b hg

theorem splitWs_ws_end (a g : Str) (hg : ∀ c ∈ g, isWs c = true) : splitWs (a ++ g) = splitWs a := by
  cases g with
  | nil => simp
  | cons c g =>
    have := splitWs_sep a (c :: g) [] (by simp) hg
    simpa [splitWs, splitWsAux] using this

theorem splitWsAux_solid (w : Str) : ∀ acc : Str, (∀ c ∈ w, isWs c = false) →
    splitWsAux w acc = if (acc ++ w).isEmpty then [] else [acc ++ w] := by
  induction w with
  | nil => intro acc _; simp [splitWsAux]
  | cons c w ih =>
    intro acc h
    simp only [splitWsAux, h c (by simp), Bool.false_eq_true, if_false]
    rw [ih _ fun d hd => h d (by simp [hd])]
    simp

theorem splitWs_word {w : Str} (hn : w ≠ []) (h : ∀ c ∈ w, isWs c = false) : splitWs w = [w] := by
  rw [splitWs, splitWsAux_solid w [] h]
  simp [hn]

/-! ## Layouts of simple documents -/

theorem replicate_ws (n : Nat) : ∀ c ∈ List.replicate n ' ', isWs c = true := by
  intro c hc
  rw [(List.mem_replicate.1 hc).2]; decide

theorem nl_ws (n : Nat) : ∀ c ∈ '\n' :: List.replicate n ' ', isWs c = true := by
  intro c hc
  rcases List.mem_cons.1 hc with rfl | hc
  · decide
  · exact replicate_ws n c hc

theorem simple_lay : ∀ {d : Doc}, d.Simple → ∀ {s : Str}, d.Lay s →
    ∃ t, Fills d.skel t ∧ Spaced t s := by
  intro d
  induction d with
  | nil => intro _ s h; cases (h : s = []); exact ⟨[], .nil, .nil⟩
  | append l r hl hr =>
    rintro h s ⟨a, b, rfl, ha, hb⟩
    obtain ⟨t, h1, h2⟩ := hl h.1 ha
    obtain ⟨u, h3, h4⟩ := hr h.2 hb
    exact ⟨t ++ u, h1.append h3, h2.append h4⟩
  | text t => intro _ s h; cases (h : s = t); exact ⟨t, Fills.some_iff.2 rfl, .refl t⟩
  | hardline =>
    rintro _ s ⟨n, rfl⟩
    refine ⟨['\n'], .char _ .nil, ?_⟩
    simpa using Spaced.space (g := ['\n']) (by simp) (by simp) (by simp [isWs_nl]) (nl_ws n) .nil
  | group d _ =>
    intro h s hs
    cases (h : d = Doc.line)
    rcases hs with ⟨n, rfl⟩ | hs
    · refine ⟨[' '], .space .nil, ?_⟩
      simpa using Spaced.space (g := [' ']) (by simp) (by simp) (by simp [isWs_sp]) (nl_ws n) .nil
    · cases (hs : s = [' '])
      exact ⟨[' '], .space .nil, .refl _⟩
  | flatAlt => intro h; exact h.elim
  | nest => intro h; exact h.elim
  | column => intro h; exact h.elim
  | panic => intro h; exact h.elim

theorem wrapped_spaced {a b : Str} (h : Wrapped a b) : Spaced a b := by
  induction h with
  | nil => exact .nil
  | keep c _ ih => exact .keep c ih
  | wrap _ ih =>
    exact .space (g := [' ']) (h := ['\n']) (by simp) (by simp) (by simp [isWs_sp])
      (by simp [isWs_nl]) ih

/-- Every layout of inlines has the words of the source, in any context `p` before and `q` after. -/
theorem inlines_lay_words {x : Ext} {nl : Bool} {l : List Inline} {s : Str}
    (h : (inlinesDoc x nl l).Lay s) (p q : Str) :
    splitWs (p ++ s ++ q) = splitWs (p ++ rawSource l ++ q) := by
  obtain ⟨t, ht, hs⟩ := simple_lay (inlines_lays x nl l).simple h
  have h1 := wrapped_spaced ((inlines_lays x nl l).wrapped t ht)
  have h2 := source_spaced.2 l
  have r := Spaced.refl
  rw [← (((r p).append hs).append (r q)).words, ← (((r p).append h1).append (r q)).words,
    ← (((r p).append h2).append (r q)).words]

/-! ## Lines -/

theorem rustLinesAux_words (s : Str) : ∀ acc : Str,
    (rustLinesAux s acc).flatMap splitWs = splitWs (acc ++ s) := by
  induction s with
  | nil =>
    intro acc
    simp only [rustLinesAux, List.append_nil]
    split
    · rename_i h; simp [List.isEmpty_iff.1 h, splitWs, splitWsAux]
    · simp
  | cons c s ih =>
    intro acc
    by_cases hc : c = '\n'
    · subst hc
      simp only [rustLinesAux, List.flatMap_cons, ih, List.nil_append]
      have h1 := splitWs_sep acc ['\n'] s (by simp) (by simp [isWs_nl])
      simp only [List.append_assoc, List.singleton_append] at h1
      rw [h1]
      congr 1
      split
      · rename_i h
        have e : acc = acc.dropLast ++ ['\r'] := by
          obtain ⟨l, rfl⟩ := List.getLast?_eq_some_iff.1 h
          simp
        have h2 := splitWs_ws_end acc.dropLast ['\r'] (by decide)
        rw [← e] at h2
        exact h2.symm
      · rfl
    · have : rustLinesAux (c :: s) acc = rustLinesAux s (acc ++ [c]) := by
        rw [rustLinesAux]; exact hc
      rw [this, ih]
      simp

theorem rustLines_words (s : Str) : (rustLines s).flatMap splitWs = splitWs s := by
  exact rustLinesAux_words s []

theorem joinWith_nl_words (l : List Str) :
    splitWs (joinWith ['\n'] l) = l.flatMap splitWs := by
  induction l with
  | nil => rfl
  | cons a l ih =>
    cases l with
    | nil => simp [joinWith]
    | cons b l =>
      simp only [joinWith]
      rw [splitWs_sep _ _ _ (by simp) (by simp [isWs_nl]), ih]
      simp

/-- Layouts of documents, one by one. -/
inductive LayL : List Doc → List Str → Prop
  | nil : LayL [] []
  | cons {d : Doc} {l : List Doc} {a : Str} {as : List Str} :
      d.Lay a → LayL l as → LayL (d :: l) (a :: as)

theorem lay_foldl (l : List Doc) : ∀ {d : Doc} {s : Str},
    (l.foldl (fun acc e => (acc.app .hardline).app e) d).Lay s →
    ∃ a as, d.Lay a ∧ LayL l as ∧ splitWs s = splitWs a ++ as.flatMap splitWs := by
  induction l with
  | nil => intro d s h; exact ⟨s, [], h, .nil, by simp⟩
  | cons e l ih =>
    intro d s h
    obtain ⟨a, as, h1, h2, h3⟩ := ih h
    obtain ⟨b, c, rfl, h4, h5⟩ := Doc.lay_app.1 h1
    obtain ⟨b', g, rfl, h6, n, rfl⟩ := Doc.lay_app.1 h4
    refine ⟨b', c :: as, h6, .cons h5 h2, ?_⟩
    rw [h3, splitWs_sep _ _ _ (by simp) (nl_ws n)]
    simp

theorem lay_intersperse {l : List Doc} {s : Str} (h : (Doc.intersperse l .hardline).Lay s) :
    ∃ as, LayL l as ∧ splitWs s = as.flatMap splitWs := by
  cases l with
  | nil => cases (h : s = []); exact ⟨[], .nil, rfl⟩
  | cons d l =>
    obtain ⟨a, as, h1, h2, h3⟩ := lay_foldl l h
    exact ⟨a :: as, .cons h1 h2, by simpa using h3⟩

/-! ## Blocks -/

theorem natStr_solid (n : Nat) : natStr n ≠ [] ∧ ∀ c ∈ natStr n, isWs c = false := by
  refine ⟨?_, fun c hc => ?_⟩
  · intro h
    have := Nat.length_toDigits_pos (b := 10) (n := n)
    rw [natStr] at h
    rw [h] at this
    exact absurd this (by simp)
  · exact isDigit_not_ws c (by
      have := Nat.isDigit_of_mem_toDigits (b := 10) (by omega) (by omega) hc
      simpa [Char.isDigit, Nom.isDigit, Char.le_def] using this)

theorem marker_eq (k : ListKind) (n : Nat) :
    Md.marker k (firstCounter k + n) = Spec.marker k n := by
  rcases k with ⟨start⟩ | b
  · rfl
  · cases b <;> rfl

theorem marker_word (k : ListKind) (c : Nat) : splitWs (Md.marker k c) = [Md.marker k c] := by
  rcases k with start | b
  · have h := natStr_solid c
    refine splitWs_word (by simp [Md.marker]) ?_
    intro d hd
    simp only [Md.marker, List.mem_append, List.mem_singleton] at hd
    rcases hd with hd | rfl
    · exact h.2 d hd
    · decide
  · cases b <;> (revert c; intro c; rfl)

theorem taskDoc_lay {t : Option TaskState} {s : Str} (h : (taskDoc t).Lay s) : s = taskBox t := by
  rcases t with _ | ⟨⟨⟩⟩
  · exact h
  · simp only [taskDoc] at h
    obtain ⟨a, b, rfl, ha, hb⟩ := Doc.lay_app.1 h
    cases (ha : a = _); cases (hb : b = _); rfl
  · simp only [taskDoc] at h
    obtain ⟨a, b, rfl, ha, hb⟩ := Doc.lay_app.1 h
    cases (ha : a = _); cases (hb : b = _); rfl

theorem taskBox_words (t : Option TaskState) (s : Str) :
    splitWs (taskBox t ++ s) = taskWords t ++ splitWs s := by
  rcases t with _ | ⟨⟨⟩⟩
  · rfl
  · have := splitWs_sep cs!"[ ]" cs!" " s (by simp) (by decide)
    simpa [taskBox, taskWords, show splitWs cs!"[ ]" = [cs!"[", cs!"]"] by decide] using this
  · have := splitWs_sep cs!"[X]" cs!" " s (by simp) (by decide)
    simpa [taskBox, taskWords, splitWs_word (w := cs!"[X]") (by simp) (by decide)] using this

theorem upper_name (x : Ext) (t : AlertType) :
    x.toPExt.upperStr (Md.alertName t) = Spec.alertName x.toPExt.upperStr t := by
  cases t <;> simp [Md.alertName, Spec.alertName, PExt.upperStr, x.upper_ascii]

theorem alertLine_words (l : Str) : splitWs (alertLine l) = cs!">" :: splitWs l := by
  unfold alertLine
  split
  · rename_i h; rw [List.isEmpty_iff.1 h]; decide
  · split
    · rename_i _ h
      have := splitWs_ws l [] (by simpa using h)
      rw [List.append_nil] at this
      rw [this]; decide
    · have := splitWs_sep cs!">" cs!" " l (by simp) (by decide)
      simpa [splitWs_word (w := cs!">") (by simp) (by decide)] using this

theorem layL_texts {l : List Str} {as : List Str} (h : LayL (l.map Doc.text) as) : as = l := by
  induction l generalizing as with
  | nil => cases h; rfl
  | cons a l ih =>
    cases h with
    | cons h1 h2 => rw [ih h2, show _ = a from h1]

theorem layL_prefixed {l : List Str} {as : List Str}
    (h : LayL (l.map fun l => (Doc.text cs!"> ").app (.text l)) as) :
    as = l.map (cs!"> " ++ ·) := by
  induction l generalizing as with
  | nil => cases h; rfl
  | cons a l ih =>
    cases h with
    | cons h1 h2 =>
      obtain ⟨u, v, rfl, hu, hv⟩ := Doc.lay_app.1 h1
      cases (hu : u = _)
      cases (hv : v = a)
      rw [ih h2]; rfl

/-- The relation between the layouts of blocks and their words; `P` selects the words that are
compared. -/
abbrev SameWords (P : Str → Bool) (s : Str) (ws : List Str) : Prop :=
  (splitWs s).filter P = ws.filter P

section
variable (x : Ext) (cfg : Config) (P : Str → Bool) (quotes : Bool)

theorem prefixed_words (hP : P cs!">" = false) (l : List Str) :
    ((l.map (cs!"> " ++ ·)).flatMap splitWs).filter P = (l.flatMap splitWs).filter P := by
  induction l with
  | nil => rfl
  | cons a l ih =>
    have e := splitWs_sep cs!">" cs!" " a (by simp) (by decide)
    rw [splitWs_word (w := cs!">") (by simp) (by decide)] at e
    simp only [List.map_cons, List.flatMap_cons, List.filter_append, ih]
    congr 1
    rw [show cs!"> " ++ a = cs!">" ++ cs!" " ++ a from rfl, e, List.filter_append]
    simp [hP]

theorem alertLines_words (hP : P cs!">" = false) (l : List Str) :
    ((l.map alertLine).flatMap splitWs).filter P = (l.flatMap splitWs).filter P := by
  induction l with
  | nil => rfl
  | cons a l ih =>
    simp only [List.map_cons, List.flatMap_cons, List.filter_append, ih, alertLine_words]
    simp [hP]

theorem lay_separate {acc : Doc} {b : Block} {s : Str} (h : (separate cfg acc b).Lay s) :
    ∃ a g, s = a ++ g ∧ acc.Lay a ∧ g ≠ [] ∧ ∀ c ∈ g, isWs c = true := by
  have one : ∀ {d : Doc} {s : Str}, (d.app .hardline).Lay s →
      ∃ a g, s = a ++ g ∧ d.Lay a ∧ g ≠ [] ∧ ∀ c ∈ g, isWs c = true := by
    intro d s h
    obtain ⟨a, g, rfl, ha, n, rfl⟩ := Doc.lay_app.1 h
    exact ⟨a, _, rfl, ha, by simp, nl_ws n⟩
  have two : ∀ {d : Doc} {s : Str}, ((d.app .hardline).app .hardline).Lay s →
      ∃ a g, s = a ++ g ∧ d.Lay a ∧ g ≠ [] ∧ ∀ c ∈ g, isWs c = true := by
    intro d s h
    obtain ⟨a, g, rfl, ha, hn, hg⟩ := one h
    obtain ⟨b, g', rfl, hb, hn', hg'⟩ := one ha
    refine ⟨b, g' ++ g, by simp, hb, by simp [hn], ?_⟩
    intro c hc
    rcases List.mem_append.1 hc with h | h
    · exact hg' c h
    · exact hg c h
  unfold separate at h
  simp only at h
  split at h
  · split at h
    · exact two h
    · exact one h
  · exact two h

theorem blocks_words_false {l : List Block}
    (ih : ∀ b ∈ l, ∀ d s, blockDoc x cfg b = some d → d.Lay s →
      SameWords P s (blockWords x.toPExt.upperStr b)) :
    ∀ acc d s, blocksDoc x cfg false acc l = some d → d.Lay s →
      ∃ a, acc.Lay a ∧ (splitWs s).filter P =
        (splitWs a).filter P ++ (blocksWords x.toPExt.upperStr l).filter P := by
  induction l with
  | nil =>
    intro acc d s h hs
    cases h
    exact ⟨s, hs, by simp [blocksWords]⟩
  | cons b l ihl =>
    intro acc d s h hs
    simp only [blocksDoc] at h
    split at h
    · cases h
    · rename_i e he
      obtain ⟨a, ha, hw⟩ := ihl (fun b hb => ih b (by simp [hb])) _ d s h hs
      simp only [Bool.false_eq_true, if_false] at ha
      obtain ⟨p, q, rfl, hp, hq⟩ := Doc.lay_app.1 ha
      obtain ⟨p', g, rfl, hp', hn, hg⟩ := lay_separate cfg hp
      refine ⟨p', hp', ?_⟩
      have hb := ih b (by simp) e q he hq
      rw [hw, splitWs_sep _ _ _ hn hg, List.filter_append, hb]
      simp [blocksWords]

theorem blocks_words {l : List Block}
    (ih : ∀ b ∈ l, ∀ d s, blockDoc x cfg b = some d → d.Lay s →
      SameWords P s (blockWords x.toPExt.upperStr b)) :
    ∀ d s, blocksDoc x cfg true .nil l = some d → d.Lay s →
      SameWords P s (blocksWords x.toPExt.upperStr l) := by
  cases l with
  | nil =>
    intro d s h hs
    cases h
    cases (hs : s = [])
    rfl
  | cons b l =>
    intro d s h hs
    simp only [blocksDoc] at h
    split at h
    · cases h
    · rename_i e he
      simp only [if_true, app_nil_left] at h
      obtain ⟨a, ha, hw⟩ := blocks_words_false x cfg P (fun b hb => ih b (by simp [hb])) _ d s h hs
      have := ih b (by simp) e a he ha
      rw [SameWords, hw, this]
      simp [blocksWords]

theorem itemDocs_bullet (b : BulletKind) (pl : Nat) (l : List ListItem) : ∀ c c',
    itemDocs x cfg (.bullet b) pl c l = itemDocs x cfg (.bullet b) pl c' l := by
  induction l with
  | nil => intros; rfl
  | cons i l ih =>
    intro c c'
    simp only [itemDocs, nextCounter]
    rw [ih c c']
    have : ∀ t d, itemDoc cfg (.bullet b) pl c t d =
      itemDoc cfg (.bullet b) pl c' t d := by
      intros; simp only [itemDoc]; cases b <;> rfl
    simp only [this]

theorem items_words {items : List ListItem} (k : ListKind) (pl : Nat)
    (ih : ∀ i ∈ items, ∀ d s, itemBlocksDoc x cfg i = some d → d.Lay s →
      SameWords P s (blocksWords x.toPExt.upperStr i.blocks)) :
    ∀ n ds as, itemDocs x cfg k pl (firstCounter k + n) items = some ds → LayL ds as →
      (as.flatMap splitWs).filter P = (itemsWords x.toPExt.upperStr k n items).filter P := by
  induction items with
  | nil => intro n ds as h has; cases h; cases has; rfl
  | cons i l ihl =>
    intro n ds as h has
    simp only [itemDocs] at h
    split at h
    · cases h
    · rename_i d hd
      split at h
      · cases h
      · rename_i c hc
        split at h
        · cases h
        · rename_i ds' hds'
          cases h
          cases has with
          | cons h1 h2 =>
            rename_i a as
            have hc' : itemDocs x cfg k pl (firstCounter k + (n + 1)) l = some ds' := by
              rcases k with start | b
              · simp only [nextCounter] at hc
                split at hc
                · cases hc; exact hds'
                · cases hc
              · cases hc
                rw [itemDocs_bullet x cfg b pl l _ (firstCounter (.bullet b) + n)]; exact hds'
            have hrest := ihl (fun i hi => ih i (by simp [hi])) (n + 1) ds' as hc' h2
            obtain ⟨p, body, rfl, hp, hb⟩ := Doc.lay_app.1 h1
            obtain ⟨p2, tk, rfl, hp2, htk⟩ := Doc.lay_app.1 hp
            obtain ⟨p3, sp, rfl, hp3, hsp⟩ := Doc.lay_app.1 hp2
            obtain ⟨ind, mk, rfl, hind, hmk⟩ := Doc.lay_app.1 hp3
            cases (hind : ind = _)
            cases (hmk : mk = _)
            cases (hsp : sp = _)
            rw [taskDoc_lay htk]
            have hbody := ih i (by simp) d body hd hb
            obtain ⟨task, bl⟩ := i
            simp only [itemsWords, itemWords, List.flatMap_cons, List.filter_append, hrest]
            rw [show List.replicate cfg.spacesBeforeListItem ' ' ++ Md.marker k (firstCounter k + n)
                ++ [' '] ++ taskBox (ListItem.mk task bl).task ++ body =
              List.replicate cfg.spacesBeforeListItem ' ' ++
                (Md.marker k (firstCounter k + n) ++ [' '] ++ (taskBox task ++ body)) by
                  simp [ListItem.task]]
            rw [splitWs_ws _ _ (replicate_ws _), splitWs_sep _ _ _ (by simp) (by simp [isWs_sp]),
              marker_word, taskBox_words, marker_eq]
            simp only [List.filter_append, List.filter_cons]
            have hb2 : (splitWs body).filter P =
              (blocksWords x.toPExt.upperStr bl).filter P := hbody
            rw [hb2]
            split <;> simp

theorem block_words (hq : quotes = true → P cs!">" = false) :
    (∀ b : Block, RectTables b → (quotes = false → Unquoted b) →
      ∀ d s, blockDoc x cfg b = some d → d.Lay s →
        SameWords P s (blockWords x.toPExt.upperStr b)) ∧
    (∀ i : ListItem, RectTablesItem i → (quotes = false → UnquotedItem i) →
      ∀ d s, itemBlocksDoc x cfg i = some d → d.Lay s →
        SameWords P s (blocksWords x.toPExt.upperStr i.blocks)) ∧
    (∀ l : List Block, RectTablesL l → (quotes = false → UnquotedBlocks l) → ∀ b ∈ l,
      ∀ d s, blockDoc x cfg b = some d → d.Lay s →
        SameWords P s (blockWords x.toPExt.upperStr b)) ∧
    (∀ l : List ListItem, RectTablesItems l → (quotes = false → UnquotedItems l) → ∀ i ∈ l,
      ∀ d s, itemBlocksDoc x cfg i = some d → d.Lay s →
        SameWords P s (blocksWords x.toPExt.upperStr i.blocks)) := by
  apply Block.ind
  case paragraph =>
    intro c _ _ d s h hs
    cases h
    have := inlines_lay_words hs [] []
    simp only [List.nil_append, List.append_nil] at this
    rw [SameWords, this]; rfl
  case heading =>
    intro k c _ _ d s h hs
    cases h
    rcases k with n | ⟨⟨⟩⟩
    · obtain ⟨a, b, rfl, ha, hb⟩ := Doc.lay_app.1 hs
      obtain ⟨a1, a2, rfl, h1, h2⟩ := Doc.lay_app.1 ha
      cases (h1 : a1 = _); cases (h2 : a2 = _)
      have := inlines_lay_words hb [] []
      simp only [List.nil_append, List.append_nil] at this
      rw [SameWords, splitWs_sep _ _ _ (by simp) (by simp [isWs_sp]), this]; rfl
    · obtain ⟨a, b, rfl, ha, hb⟩ := Doc.lay_app.1 hs
      obtain ⟨a1, a2, rfl, h1, n, rfl⟩ := Doc.lay_app.1 ha
      cases (hb : b = _)
      have := inlines_lay_words h1 [] []
      simp only [List.nil_append, List.append_nil] at this
      rw [SameWords, splitWs_sep _ _ _ (by simp) (nl_ws n), this]; rfl
    · obtain ⟨a, b, rfl, ha, hb⟩ := Doc.lay_app.1 hs
      obtain ⟨a1, a2, rfl, h1, n, rfl⟩ := Doc.lay_app.1 ha
      cases (hb : b = _)
      have := inlines_lay_words h1 [] []
      simp only [List.nil_append, List.append_nil] at this
      rw [SameWords, splitWs_sep _ _ _ (by simp) (nl_ws n), this]; rfl
  case thematicBreak =>
    intro _ _ d s h hs
    cases h
    cases (hs : s = _)
    rfl
  case blockQuote =>
    intro b ih hr hu d s h hs
    cases h
    have hqt : quotes = true := by
      cases hq' : quotes with
      | true => rfl
      | false => exact (hu hq').elim
    obtain ⟨c, hs⟩ := hs
    unfold quoteDoc at hs
    split at hs
    · exact hs.elim
    · rename_i d hd
      split at hs
      · split at hs
        · exact hs.elim
        · rename_i t ht
          obtain ⟨as, h1, h2⟩ := lay_intersperse hs
          rw [layL_prefixed h1] at h2
          have hw := blocks_words x cfg P (l := b) (ih hr (fun h => by rw [hqt] at h; cases h)) d t hd
            (Doc.renderE_lay ht)
          simp only [SameWords, blockWords] at hw ⊢
          rw [h2, ← hw, ← rustLines_words t]
          exact prefixed_words P (hq hqt) _
      · exact hs.elim
  case list =>
    intro k items ih hr hu d s h hs
    simp only [blockDoc] at h
    split at h
    · cases h
    · rename_i pl hpl
      split at h
      · cases h
      · rename_i ds hds
        cases h
        obtain ⟨as, h1, h2⟩ := lay_intersperse hs
        rw [SameWords, h2]
        exact items_words x cfg P k pl (ih hr hu) 0 ds as hds h1
  case codeBlock =>
    intro k lit _ _ d s h hs
    cases h
    rcases k with ⟨⟩ | info
    · cases (hs : s = _)
      rw [SameWords, joinWith_nl_words]
      simp only [blockWords]
      rw [← rustLines_words lit]
      congr 1
      induction rustLines lit with
      | nil => rfl
      | cons a l ih =>
        simp only [List.map_cons, List.flatMap_cons, ih]
        rw [splitWs_ws cs!"    " a (by decide)]
    · simp only [codeBlockDoc] at hs
      obtain ⟨a, b, rfl, ha, hb⟩ := Doc.lay_app.1 hs
      obtain ⟨a1, a2, rfl, h1, h2⟩ := Doc.lay_app.1 ha
      cases (h1 : a1 = _); cases (h2 : a2 = _); cases (hb : b = _)
      simp only [SameWords, blockWords]
      rw [show cs!"```" ++ info.getD [] ++ cs!"\n" ++ lit ++ cs!"\n```" =
        (cs!"```" ++ info.getD [] ++ cs!"\n" ++ lit) ++ cs!"\n" ++ cs!"```" by simp,
        splitWs_sep _ _ _ (by simp) (by decide), splitWs_sep _ _ _ (by simp) (by decide)]
      rfl
  case htmlBlock =>
    intro t _ _ d s h hs
    cases h
    cases (hs : s = _)
    rfl
  case definition =>
    intro l dest t _ _ d s h hs
    cases h
    obtain ⟨a, b, rfl, ha, hb⟩ := Doc.lay_app.1 hs
    obtain ⟨a1, a2, rfl, h1, h2⟩ := Doc.lay_app.1 ha
    obtain ⟨a3, a4, rfl, h3, h4⟩ := Doc.lay_app.1 h1
    cases (hb : b = _); cases (h2 : a2 = _); cases (h3 : a3 = _)
    simp only [SameWords, blockWords]
    rw [show cs!"[" ++ a4 ++ cs!"]: " ++ (dest ++ titlePart t) =
      (cs!"[" ++ a4 ++ cs!"]:") ++ cs!" " ++ (dest ++ titlePart t) by simp,
      splitWs_sep _ _ _ (by simp) (by decide), inlines_lay_words h4, titlePart_title]
  case table =>
    intro rows al hr _ d s h hs
    simp only [blockDoc, tableDoc_eq x (show Rectangular rows al from hr)] at h
    simp only [SameWords, blockWords]
    cases rows with
    | nil => cases h; cases (hs : s = _); rfl
    | cons r rows =>
      cases h
      cases (hs : s = _)
      rw [joinWith_nl_words]
  case footnoteDefinition =>
    intro l b ih hr hu d s h hs
    simp only [blockDoc] at h
    split at h
    · cases h
    · rename_i e he
      cases h
      obtain ⟨a, t, rfl, ha, ht⟩ := Doc.lay_app.1 hs
      cases (ha : a = _)
      have hw := blocks_words x cfg P (l := b) (ih hr hu) e t he ht
      simp only [SameWords, blockWords] at hw ⊢
      rw [show cs!"[^" ++ l ++ cs!"]: " ++ t = (cs!"[^" ++ l ++ cs!"]:") ++ cs!" " ++ t by simp,
        splitWs_sep _ _ _ (by simp) (by decide), List.filter_append, hw, List.filter_append]
  case githubAlert =>
    intro t b ih hr hu d s h hs
    have hqt : quotes = true := by
      cases hq' : quotes with
      | true => rfl
      | false => exact (hu hq').elim
    simp only [blockDoc] at h
    split at h
    · cases h
    · rename_i e he
      have hP : P cs!">" = false := hq hqt
      have hmark : (splitWs (cs!"> [!" ++ x.toPExt.upperStr (Md.alertName t) ++ cs!"]")).filter P =
          (splitWs (cs!"[!" ++ Spec.alertName x.toPExt.upperStr t ++ cs!"]")).filter P := by
        have := splitWs_sep cs!">" cs!" " (cs!"[!" ++ Spec.alertName x.toPExt.upperStr t ++ cs!"]")
          (by simp) (by decide)
        rw [upper_name]
        rw [show cs!"> [!" ++ Spec.alertName x.toPExt.upperStr t ++ cs!"]" =
          cs!">" ++ cs!" " ++ (cs!"[!" ++ Spec.alertName x.toPExt.upperStr t ++ cs!"]") by simp,
          this, List.filter_append, splitWs_word (w := cs!">") (by simp) (by decide)]
        simp [hP]
      by_cases hb : b = []
      · subst hb
        simp only [List.isEmpty_nil, if_true, alertDoc, Option.bind_eq_bind, Option.bind_some,
          Option.some.injEq] at h
        subst h
        obtain ⟨as, h1, h2⟩ := lay_intersperse hs
        rw [layL_texts h1] at h2
        simp only [SameWords, h2, List.flatMap_cons, List.flatMap_nil, List.append_nil, hmark,
          blockWords, blocksWords]
      · have : b.isEmpty = false := by simpa using hb
        simp only [this, Bool.false_eq_true, if_false, alertDoc, Option.bind_eq_bind] at h
        cases hren : e.renderE x.dw 80 with
        | none => rw [hren] at h; cases h
        | some txt =>
          rw [hren] at h
          simp only [Option.map_some, Option.bind_some, Option.some.injEq] at h
          subst h
          obtain ⟨as, h1, h2⟩ := lay_intersperse hs
          rw [layL_texts h1] at h2
          have hw := blocks_words x cfg P (l := b) (ih hr (fun h => by rw [hqt] at h; cases h)) e txt
            he (Doc.renderE_lay hren)
          simp only [SameWords, h2, List.flatMap_cons, List.filter_append, hmark, blockWords]
          congr 1
          rw [← show (splitWs txt).filter P = _ from hw, ← rustLines_words txt]
          exact alertLines_words P hP _
  case empty =>
    intro _ _ d s h hs
    cases h
    cases (hs : s = _)
    rfl
  case item =>
    intro t b ih hr hu d s h hs
    exact blocks_words x cfg P (ih hr hu) d s h hs
  case nilB => intro _ _ b hb; exact absurd hb (by simp)
  case consB =>
    intro b l hb hl hr hu c hc
    rcases List.mem_cons.1 hc with rfl | hc
    · exact hb hr.1 fun h => (hu h).1
    · exact hl hr.2 (fun h => (hu h).2) c hc
  case nilI => intro _ _ b hb; exact absurd hb (by simp)
  case consI =>
    intro b l hb hl hr hu c hc
    rcases List.mem_cons.1 hc with rfl | hc
    · exact hb hr.1 fun h => (hu h).1
    · exact hl hr.2 (fun h => (hu h).2) c hc

end

theorem unquoted_rect : (∀ b : Block, Unquoted b → RectTables b) ∧
    (∀ i : ListItem, UnquotedItem i → RectTablesItem i) ∧
    (∀ l : List Block, UnquotedBlocks l → RectTablesL l) ∧
    (∀ l : List ListItem, UnquotedItems l → RectTablesItems l) := by
  apply Block.ind
  case blockQuote => intro b _ h; exact h.elim
  case githubAlert => intro t b _ h; exact h.elim
  case list => intro k i ih h; exact ih h
  case table => intro r a h; exact h
  case footnoteDefinition => intro l b ih h; exact ih h
  case item => intro t b ih h; exact ih h
  case consB => intro b l hb hl h; exact ⟨hb h.1, hl h.2⟩
  case consI => intro b l hb hl h; exact ⟨hb h.1, hl h.2⟩
  all_goals intros; trivial

/-- **C44.** The words of a printed document without quotes are the words of its source, whatever
the width. -/
theorem C44_document (x : Ext) (cfg : Config) (ast : Document) (s : Str)
    (hu : UnquotedBlocks ast.blocks) (h : renderMarkdown x cfg ast = some s) :
    splitWs s = blocksWords x.toPExt.upperStr ast.blocks := by
  simp only [renderMarkdown] at h
  split at h
  · cases h
  · rename_i d hd
    have := blocks_words x cfg (fun _ => true)
      ((block_words x cfg (fun _ => true) false (by simp)).2.2.1 _ (unquoted_rect.2.2.1 _ hu)
        fun _ => hu) d s hd (Doc.renderE_lay h)
    rwa [SameWords, List.filter_eq_self.2 (fun _ _ => rfl),
      List.filter_eq_self.2 (fun _ _ => rfl)] at this

/-- **C44.** The words of a printed document are the words of its source, apart from the `>` at
the beginning of the lines of quotes and alerts. -/
theorem C44_document_quotes (x : Ext) (cfg : Config) (ast : Document) (s : Str)
    (hr : RectTablesL ast.blocks) (h : renderMarkdown x cfg ast = some s) :
    (splitWs s).filter (fun w => w ≠ cs!">") =
      (blocksWords x.toPExt.upperStr ast.blocks).filter (fun w => w ≠ cs!">") := by
  simp only [renderMarkdown] at h
  split at h
  · cases h
  · rename_i d hd
    exact blocks_words x cfg _
      ((block_words x cfg (fun w => decide (w ≠ cs!">")) true (by simp)).2.2.1 _ hr (by simp)) d s hd
      (Doc.renderE_lay h)

example : renderMarkdown Ext.ascii ⟨10, 1, true⟩
    ⟨[.heading (.atx 2) [.text cs!"a title that is long"],
      .blockQuote [.paragraph [.text cs!"one two three"]],
      .list (.ordered 9) [.mk none [.paragraph [.text cs!"four five"]],
        .mk (some .incomplete) [.paragraph [.text cs!"six"]]]]⟩ =
    some cs!"## a title that is long\n\n> one two\n> three\n\n 9. four\n     five\n 10. [ ] six" := by
  decide +kernel

end Md
end Verif
