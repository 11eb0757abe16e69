import Verif.EffectsQuote
import Verif.ParserLists
import Verif.StartProps
/-!
# The first item of a list is parsed twice

As with quotes, the paragraph alternative parses the first item of a list to see whether there is one.
-/
set_option autoImplicit false
namespace Verif
namespace Fx
open Nom

section
variable {σ : Type} {x : PExt} {cfg : Config σ} {d : PConfig}

/-- The items of a list, one after the other, up to `rest`, each with the state in which its content is parsed and the
state after it: `Items` of C66 with effects. -/
inductive ItemsFx (x : PExt) (cfg : Config σ) (rest : Str) : Str → ListKind → σ → List ListItem → σ → Prop
  | last {kind : ListKind} {line first e s : Str} {pl : Nat} {task : Option TaskState} {ls : List Str} {d : Document}
      {st st1 : σ} : ItemStart kind line pl task first → LineEnd e s → ItemLines kind pl rest s ls →
      ItemStop kind pl rest → NoItem rest →
      parseMarkdown x cfg (joinWith ['\n'] (first :: ls)) st = (some d, st1) →
      ItemsFx x cfg rest (line ++ (e ++ s)) kind st [.mk task d.blocks] st1
  | cons {kind kind' : ListKind} {line first e s s' : Str} {pl : Nat} {task : Option TaskState} {ls : List Str}
      {d : Document} {l : List ListItem} {st st1 st2 : σ} : ItemStart kind line pl task first → LineEnd e s →
      ItemLines kind pl s' s ls → MarkerAt kind pl s' →
      parseMarkdown x cfg (joinWith ['\n'] (first :: ls)) st = (some d, st1) →
      ItemsFx x cfg rest s' kind' st1 l st2 →
      ItemsFx x cfg rest (line ++ (e ++ s)) kind st (.mk task d.blocks :: l) st2

theorem listItemP_of (hf : cfg.Follows d) (hc : d.CustomOk) {kind : ListKind} {line first e s rest : Str} {pl : Nat}
    {task : Option TaskState} {ls : List Str} {doc : Document} {st st1 : σ} (h1 : ItemStart kind line pl task first)
    (he : LineEnd e s) (h2 : ItemLines kind pl rest s ls) (h3 : ItemStop kind pl rest)
    (hd : parseMarkdown x cfg (joinWith ['\n'] (first :: ls)) st = (some doc, st1)) :
    listItemP (blockP x cfg) (line ++ (e ++ s)) st = (some (rest, (kind, .mk task doc.blocks)), st1) := by
  obtain ⟨l, h4, h5⟩ := h2.lines h3
  unfold listItemP
  rw [h1.spanSize he]
  simp only [h4]
  rw [itemContent_flatten, h5, blocks0_of_parse hf hc hd]

theorem noItem_none {rec : S σ (List Block)} {s : Str} (h : NoItem s) (st : σ) : listItemP rec s st = (none, st) := by
  have h1 := h.none (rec := failP)
  unfold Verif.listItemP at h1
  unfold listItemP
  split
  · rfl
  · rename_i s1 k pl t f e1
    split
    · rfl
    · rename_i s2 rest e2
      rw [e1] at h1
      simp only [e2] at h1
      have : Verif.blocks0 failP (itemContent f rest) = some [] := by
        unfold Verif.blocks0; rw [many0_of_none rfl]; rfl
      rw [this] at h1
      simp at h1

theorem many0S_of_some {α : Type} {p : S σ α} {s r r' : Str} {a : α} {l : List α} {st st1 st2 : σ}
    (h : p s st = (some (r, a), st1)) (hlt : r.length < s.length) (h' : many0S p r st1 = (some (r', l), st2)) :
    many0S p s st = (some (r', a :: l), st2) := by
  rw [many0S_eq, h]; simp only [hlt, if_true, h']

theorem many0S_of_none {α : Type} {p : S σ α} {s : Str} {st st1 : σ} (h : p s st = (none, st1)) :
    many0S p s st = (some (s, []), st1) := by
  rw [many0S_eq, h]

theorem ItemsFx.many (hf : cfg.Follows d) (hc : d.CustomOk) {rest s : Str} {kind : ListKind} {l : List ListItem}
    {st st1 : σ} (h : ItemsFx x cfg rest s kind st l st1) : ∃ i q, l = i :: q.map Prod.snd ∧
      many0S (listItemP (blockP x cfg)) s st = (some (rest, (kind, i) :: q), st1) := by
  induction h with
  | @last kind line first e s pl task ls d st st1 h1 h2 h3 h4 h5 h6 =>
    refine ⟨.mk task d.blocks, [], rfl, ?_⟩
    refine many0S_of_some (listItemP_of hf hc h1 h2 h3 h4 h6) ?_ (many0S_of_none (noItem_none h5 _))
    obtain ⟨k, c, t, _, rfl, _⟩ := h1.pos
    have := h3.le
    simp; omega
  | @cons kind kind' line first e s s' pl task ls d l st st1 st2 h1 h2 h3 h4 h5 _ ih =>
    obtain ⟨i, q, rfl, hq⟩ := ih
    refine ⟨.mk task d.blocks, (kind', i) :: q, rfl, ?_⟩
    refine many0S_of_some (listItemP_of hf hc h1 h2 h3 (.marker h4) h5) ?_ hq
    obtain ⟨k, c, t, _, rfl, _⟩ := h1.pos
    have := h3.le
    simp; omega

theorem ItemsFx.listP (hf : cfg.Follows d) (hc : d.CustomOk) {rest s : Str} {kind : ListKind} {l : List ListItem}
    {st st1 : σ} (h : ItemsFx x cfg rest s kind st l st1) :
    listP (blockP x cfg) s st = (some (rest, .list kind l), st1) := by
  obtain ⟨i, q, rfl, hq⟩ := h.many hf hc
  unfold Fx.listP
  have : many1S (listItemP (blockP x cfg)) s st = many0S (listItemP (blockP x cfg)) s st := by
    rw [many0S_eq] at hq ⊢
    unfold many1S
    rcases hx : listItemP (blockP x cfg) s st with ⟨_ | ⟨r, a⟩, st2⟩
    · rw [hx] at hq; simp at hq
    · rw [hx] at hq
      simp only at hq ⊢
      by_cases hlt : r.length < s.length
      · simp only [hlt, if_true]
        rcases many0S (listItemP (blockP x cfg)) r st2 with ⟨_ | ⟨r2, l2⟩, st3⟩ <;> rfl
      · simp [hlt] at hq
  rw [this, hq]

theorem ItemsFx.lt {rest s : Str} {kind : ListKind} {l : List ListItem} {st st1 : σ}
    (h : ItemsFx x cfg rest s kind st l st1) : rest.length < s.length := by
  induction h with
  | @last kind line first e s pl task ls d st st1 h1 h2 h3 h4 h5 h6 =>
    obtain ⟨k, c, t, _, rfl, _⟩ := h1.pos
    have := h3.le
    simp; omega
  | @cons kind kind' line first e s s' pl task ls d l st st1 st2 h1 h2 h3 h4 h5 _ ih =>
    obtain ⟨k, c, t, _, rfl, _⟩ := h1.pos
    have := h3.le
    simp; omega

/-- **C92.** The content of the first item of a list is parsed twice: once to see that there is no paragraph, then, with
those of the other items, to get the list. -/
theorem C92_list (ht : cfg.text.ignored = false) (hp : cfg.paragraph.ignored = false) (hb : cfg.customBlock = none)
    (hi : cfg.customInline = none) (hl : cfg.list = .parse) (hh2 : cfg.headingV2.ignored = false)
    {kind : ListKind} {line first e s s' rest : Str} {pl : Nat} {task : Option TaskState} {ls : List Str}
    {items : List ListItem} {st st1 st2 st3 : σ} {d1 d3 : Document} (h1 : ItemStart kind line pl task first)
    (he : LineEnd e s) (h2 : ItemLines kind pl s' s ls) (h3 : ItemStop kind pl s')
    (hu : ¬ ∃ k, UnderlineAt k (line ++ (e ++ s)))
    (hd : parseMarkdown x cfg (joinWith ['\n'] (first :: ls)) st = (some d1, st1))
    (h : ItemsFx x cfg rest (line ++ (e ++ s)) kind st1 items st2) (hr : parseMarkdown x cfg rest st2 = (some d3, st3)) :
    parseMarkdown x cfg (line ++ (e ++ s)) st = (some ⟨.list kind items :: d3.blocks⟩, st3) := by
  obtain ⟨d, hf, hc, g1, g2, _⟩ := exists_follows ht hp hb hi
  refine parseMarkdown_cons hf hc (bs := [_]) ?_ h.lt hr
  have hP := h.listP hf hc
  have hI := listItemP_of hf hc h1 he h2 h3 hd
  have hlev : headingV2Level (line ++ (e ++ s)) = none := by
    rcases hx : headingV2Level (line ++ (e ++ s)) with _ | ⟨r, k⟩
    · rfl
    · exact absurd ⟨k, underline_iff.1 ⟨r, hx⟩⟩ hu
  have hm : ∃ k m u, k ≤ 3 ∧ Marker kind m ∧ line ++ (e ++ s) = List.replicate k ' ' ++ (m ++ u) ∧
      (∀ d, u.head? = some d → d ≠ '-' ∧ d ≠ '*') := by
    obtain ⟨k, m, u, hk, hm, rfl, hv⟩ := h1.marker
    refine ⟨k, m, u ++ (e ++ s), hk, hm, by simp, ?_⟩
    intro d hd
    rcases hv with rfl | ⟨d', v, rfl, hd'⟩
    · rcases he with (rfl | rfl) | ⟨rfl, rfl⟩ <;> simp at hd <;> subst hd <;> decide
    · simp at hd; subst hd
      constructor <;> rintro rfl <;> revert hd' <;> decide
  obtain ⟨k, m, u, hk, hm, hs, hu'⟩ := hm
  rw [hs] at hP hI hlev ⊢
  have hth := item_not_thematic hk hm hu'
  obtain ⟨c, t, rfl, hcs⟩ := hm.head
  have hcs' : c ≠ ' ' ∧ c ≠ '\t' ∧ c ≠ '\r' ∧ c ≠ '\n' ∧ c ≠ '#' ∧ c ≠ '`' ∧ c ≠ '~' ∧ c ≠ '>' := by
    refine ⟨?_, ?_, ?_, ?_, ?_, ?_, ?_, ?_⟩ <;> rintro rfl <;> exact hcs (by decide)
  obtain ⟨c1, c2, c3, c4, c5, c6, c7, c8⟩ := hcs'
  rw [List.cons_append] at *
  generalize t ++ u = w at *
  have hh : ∀ st : σ, headingV1 x cfg (List.replicate k ' ' ++ c :: w) st = (none, st) := by
    intro st
    apply headingV1_none
    cases k <;> simp [List.replicate_succ, c5]
  have hqp : quotePrefix (List.replicate k ' ' ++ c :: w) = none := (quotePrefix_indent hk c1).trans (quotePrefix_head c1 c8)
  have hbq : ∀ st : σ, blockquoteP (blockP x cfg) (List.replicate k ' ' ++ c :: w) st = (none, st) := by
    intro st
    have : quoteLines (List.replicate k ' ' ++ c :: w) = none := many1_none_of (preceded_none hqp)
    unfold blockquoteP mapS bindS lift
    rw [this]
  have hga : ∀ st : σ, githubAlertP x (blockP x cfg) (List.replicate k ' ' ++ c :: w) st = (none, st) := by
    intro st
    unfold githubAlertP
    rw [preceded_none (seq_none hqp)]
  have hn : notAParagraphLine x cfg (blockP x cfg) (List.replicate k ' ' ++ c :: w) st = (some (s', ()), st1) := by
    unfold notAParagraphLine
    rw [orElse_none (conditionalUnit_none _ (hh st)), orElse_none (conditionalUnit_none _ (lift_none hlev)),
      orElse_none (conditionalUnit_none _ (lift_none hth)), orElse_none (conditionalUnit_none _ (hbq st))]
    exact orElse_some (conditionalUnit_some (by rw [hl]; rfl) hI)
  have heof : eofOrEol (List.replicate k ' ' ++ c :: w) = none := by
    cases k
    · exact eofOrEol_cons c4 c3
    · exact eofOrEol_cons (by decide) (by decide)
  rw [blockP_eq hf hc]
  have hm : manyEmptyLines0 (List.replicate k ' ' ++ c :: w) = some (List.replicate k ' ' ++ c :: w, []) :=
    many0_of_none (notBlankLine (by simp [isSpace, c1, c2]) c4 c3)
  unfold blockStep
  simp only [precededS, lift, hm]
  unfold blockAlt conditionalBlock
  rw [orElse_none (conditional_none _ _ (lift_none (codeBlockP_indent_none hk c1 c6 c7 c2)) (.inr rfl)),
    orElse_none (conditional_none _ _ (hh st) (.inr rfl)),
    orElse_none (conditional_none _ _ (headingV2OrParagraph_none hn heof) (.inl hh2)),
    orElse_none (conditional_none _ _ (lift_none (value_none.2 hth)) (.inr rfl)),
    orElse_none (st1 := st1), orElse_none (conditional_none _ _ (hbq st1) (.inr rfl))]
  · refine orElse_some ?_
    rw [hl]
    unfold conditional
    simp only [mapS, hP]
  · unfold conditionalBlockVec
    cases cfg.githubAlert
    case ignore => rfl
    case skip => simp only [mapS, hga]
    all_goals simp only [hga]

/-- A text in `n` nested items of one line: `- - text`. -/
def itemsDeep : Nat → Str → Str
  | 0, a => a
  | n + 1, a => '-' :: ' ' :: itemsDeep n a

/-- Blocks in `n` nested lists of one item. -/
def inItems : Nat → List Block → List Block
  | 0, bs => bs
  | n + 1, bs => [.list (.bullet .dash) [.mk none (inItems n bs)]]

theorem itemsDeep_mem {n : Nat} {a : Str} {c : Char} (h : c ∈ itemsDeep n a) : c = '-' ∨ c = ' ' ∨ c ∈ a := by
  induction n with
  | zero => exact .inr (.inr h)
  | succ n ih => simp only [itemsDeep, List.mem_cons] at h; grind

theorem mem_itemsDeep {n : Nat} {a : Str} {c : Char} (h : c ∈ a) : c ∈ itemsDeep n a := by
  induction n with
  | zero => exact h
  | succ n ih => simp [itemsDeep, ih]

theorem not_underline {w : Str} (ho : OneLine w) (hv : Visible w) (k : SetextHeading) :
    ¬ UnderlineAt k ('-' :: ' ' :: w) := by
  rintro ⟨u, e, r, hu, he, h⟩
  cases hu with
  | @one k n b hk hn hb =>
    obtain ⟨n, rfl⟩ : ∃ m, n = m + 1 := ⟨n - 1, by omega⟩
    cases k <;> simp [sp, List.replicate_succ] at h
  | @two k n b hk hn hb =>
    obtain ⟨n, rfl⟩ : ∃ m, n = m + 1 := ⟨n - 1, by omega⟩
    cases k with
    | succ k => simp [sp, List.replicate_succ] at h
    | zero =>
      cases n with
      | succ n => simp [sp, List.replicate_succ] at h
      | zero =>
        simp only [sp, List.replicate_zero, List.nil_append, List.replicate_succ, List.cons_append, List.cons.injEq,
          true_and] at h
        rcases he with he | ⟨rfl, rfl⟩
        · have hm : '\n' ∈ ' ' :: w := by
            rw [h]; rcases he with rfl | rfl <;> simp
          simp only [List.mem_cons] at hm
          rcases hm with hm | hm
          · exact absurd hm (by decide)
          · exact (ho _ hm).1 rfl
        · simp only [List.append_nil] at h
          obtain ⟨c, hc, hs⟩ := hv
          have := hb c (by rw [← h]; simp [hc])
          rcases this with rfl | rfl <;> simp [isSpace] at hs

/-- **C92.** The effects of parsing a line of text in `n` nested items are those of parsing the text `2 ^ n` times; what
the document contains is what the last of these returns. -/
theorem C92_items (ht : cfg.text.ignored = false) (hp : cfg.paragraph.ignored = false) (hb : cfg.customBlock = none)
    (hi : cfg.customInline = none) (hl : cfg.list = .parse) (hh2 : cfg.headingV2.ignored = false)
    {a : Str} (ho : OneLine a) (hv : Visible a) (hd : a.head? ≠ some ' ') (hnb : NoBox a) (n : Nat) (st : σ) :
    ∃ doc, parseMarkdown x cfg a (times (fun st => (parseMarkdown x cfg a st).2) (2 ^ n - 1) st) =
          (some doc, times (fun st => (parseMarkdown x cfg a st).2) (2 ^ n) st) ∧
      parseMarkdown x cfg (itemsDeep n a) st =
        (some ⟨inItems n doc.blocks⟩, times (fun st => (parseMarkdown x cfg a st).2) (2 ^ n) st) := by
  induction n generalizing st with
  | zero =>
    obtain ⟨doc, hd⟩ := C91_total (x := x) ht hp hb hi a st
    have h0 : parseMarkdown x cfg a st = (some doc, (parseMarkdown x cfg a st).2) := by rw [← hd]
    exact ⟨doc, h0, h0⟩
  | succ n ih =>
    obtain ⟨d1, _, h1⟩ := ih st
    obtain ⟨d2, h2', h2⟩ := ih (times (fun st => (parseMarkdown x cfg a st).2) (2 ^ n) st)
    have hpos : 0 < 2 ^ n := Nat.two_pow_pos n
    rw [← times_add, ← times_add] at h2'
    rw [← times_add] at h2
    have e1 : 2 ^ n + (2 ^ n - 1) = 2 ^ (n + 1) - 1 := by rw [Nat.pow_succ]; omega
    have e2 : 2 ^ n + 2 ^ n = 2 ^ (n + 1) := by rw [Nat.pow_succ]; omega
    rw [e1, e2] at h2'
    rw [e2] at h2
    refine ⟨d2, h2', ?_⟩
    have hO : OneLine (itemsDeep n a) := by
      intro c hc
      rcases itemsDeep_mem hc with rfl | rfl | hc
      · decide
      · decide
      · exact ho c hc
    have hV : Visible (itemsDeep n a) := by
      obtain ⟨c, hc, hs⟩ := hv
      exact ⟨c, mem_itemsDeep hc, hs⟩
    have hH : (itemsDeep n a).head? ≠ some ' ' := by
      cases n with
      | zero => exact hd
      | succ n => simp [itemsDeep]
    have hN : NoBox (itemsDeep n a) := by
      cases n with
      | zero => exact hnb
      | succ n =>
        refine NoBox.of_head ?_
        simp [itemsDeep]
    have hS : ItemStart (.bullet .dash) ('-' :: ' ' :: itemsDeep n a) 2 none (itemsDeep n a) :=
      ItemStart.text (k := 0) (n := 1) (m := ['-']) (by omega) Marker.dash (by omega) (by omega) (.inr hH) hO hV hN
    have := C92_list (x := x) (cfg := cfg) ht hp hb hi hl hh2 hS (e := []) (s := []) (s' := []) (rest := []) (ls := [])
      (d3 := ⟨[]⟩) (.inr ⟨rfl, rfl⟩) .nil .eof (by rintro ⟨k, h⟩; exact not_underline hO hV k (by simpa using h)) h1
      (ItemsFx.last hS (.inr ⟨rfl, rfl⟩) .nil .eof NoItem.nil h2) rfl
    simpa [itemsDeep, inItems] using this

/-- **C92.** The state after parsing a line of text in `n` nested items is that after parsing the text `2 ^ n` times. -/
theorem C92_items_exponential (ht : cfg.text.ignored = false) (hp : cfg.paragraph.ignored = false)
    (hb : cfg.customBlock = none) (hi : cfg.customInline = none) (hl : cfg.list = .parse)
    (hh2 : cfg.headingV2.ignored = false) {a : Str} (ho : OneLine a) (hv : Visible a) (hd : a.head? ≠ some ' ')
    (hnb : NoBox a) (n : Nat) (st : σ) : (parseMarkdown x cfg (itemsDeep n a) st).2 =
      times (fun st => (parseMarkdown x cfg a st).2) (2 ^ n) st := by
  obtain ⟨doc, _, h⟩ := C92_items (x := x) ht hp hb hi hl hh2 ho hv hd hnb n st
  rw [h]

end

/-- A configuration whose closures count and number: texts and paragraphs are counted, headings are counted and get the
count. -/
def numbering : Config Nat := { entities := fun _ => none, text := .map (fun i n => (i, n + 1)), headingV2 := .flatMap (fun b n => ([b], n + 1)), headingV1 := .map (fun b n => (match b with | .heading k is => .heading k (.text (toString n).toList :: is) | b => b, n + 1)) }

/-- **C91** is about such closures: counting paragraphs does not influence the document. -/
theorem C91_example (s : Str) (n : Nat) :
    (parseMarkdown PExt.ascii counting s n).1 = Verif.parseMarkdown PExt.ascii (PConfig.default fun _ => none) s := by
  refine C91_effects ?_ s n
  constructor <;> first | rfl | trivial | exact fun _ _ => rfl

/-- **C91**, `C91_total`: closures whose results depend on the state do not make a parse fail. -/
theorem C91_numbering_total (s : Str) (n : Nat) : ∃ doc, (parseMarkdown PExt.ascii numbering s n).1 = some doc :=
  C91_total rfl rfl rfl rfl s n

/-- **C91**: what closures return, however, can depend on the calls made before, also on those whose results are dropped:
the first heading is numbered 1 and the second 3, as their texts were counted as well; in a quote the heading that is kept
is the second that was made. -/
theorem C91_numbers : parseMarkdown PExt.ascii numbering cs!"# a\n# b" 0 =
      (some ⟨[.heading (.atx 1) [.text cs!"1", .text cs!"a"], .heading (.atx 1) [.text cs!"3", .text cs!"b"]]⟩, 4) ∧
    parseMarkdown PExt.ascii { entities := fun _ => none, headingV1 := numbering.headingV1 } cs!"># a" 1 =
      (some ⟨[.blockQuote [.heading (.atx 1) [.text cs!"2", .text cs!"a"]]]⟩, 3) := by
  decide +kernel

/-- **C92.** How often a closure for paragraphs is called: for the content of the first item twice, for the others once;
in an alert twice; in a quote that interrupts a paragraph three times; for a footnote definition once (the test for a
paragraph takes it for a link definition). -/
theorem C92_examples : (parseMarkdown PExt.ascii counting cs!"- - - a" 0).2 = 8 ∧
    (parseMarkdown PExt.ascii counting cs!"- a\n- b\n- c" 0).2 = 4 ∧
    (parseMarkdown PExt.ascii counting cs!"1. > a" 0).2 = 4 ∧
    (parseMarkdown PExt.ascii counting cs!"> [!NOTE]\n> b" 0).2 = 2 ∧
    (parseMarkdown PExt.ascii counting cs!"a\n> b" 0).2 = 4 ∧
    (parseMarkdown PExt.ascii counting cs!"[^a]: b" 0).2 = 1 := by
  decide +kernel

end Fx
end Verif
