import Verif.DocSize
import Verif.LatexProps2
import Verif.EndToEnd

/-!
# From text to LaTeX, with code blocks (C53)

The code of a document comes from lines of the text, so that a text without `\end{` gives code that stays in its
environment.
-/

set_option autoImplicit false

namespace Verif
open Nom

/-! ## Words inside texts -/

section
variable {m : Str}

theorem infix_after {b l : Str} (hb : ∀ c ∈ b, c ∉ m) (hm : m ≠ []) (h : m <:+: b ++ l) : m <:+: l := by
  induction b with
  | nil => exact h
  | cons c b ih =>
    rw [List.cons_append, List.infix_cons_iff] at h
    rcases h with h | h
    · cases m with
      | nil => exact absurd rfl hm
      | cons a m =>
        rw [List.cons_prefix_cons] at h
        exact absurd (by rw [h.1]; exact List.mem_cons_self) (hb c List.mem_cons_self)
    · exact ih (fun d hd => hb d (List.mem_cons_of_mem _ hd)) h

theorem prefix_before {c : Char} {r : Str} (hc : c ∉ m) : ∀ {l : Str}, m <+: l ++ c :: r → m <+: l := by
  induction m with
  | nil => intro l _; exact List.nil_prefix
  | cons a m ih =>
    intro l h
    cases l with
    | nil =>
      rw [List.nil_append, List.cons_prefix_cons] at h
      exact absurd (by rw [h.1]; exact List.mem_cons_self) hc
    | cons d l =>
      rw [List.cons_append, List.cons_prefix_cons] at h
      rw [List.cons_prefix_cons]
      exact ⟨h.1, ih (fun hn => hc (List.mem_cons_of_mem _ hn)) h.2⟩

theorem infix_split {c : Char} {l r : Str} (hc : c ∉ m) (hm : m ≠ []) (h : m <:+: l ++ c :: r) : m <:+: l ∨ m <:+: r := by
  induction l with
  | nil => exact .inr (infix_after (b := [c]) (by simpa using hc) hm h)
  | cons a l ih =>
    rw [List.cons_append, List.infix_cons_iff] at h
    rcases h with h | h
    · exact .inl (prefix_before (l := a :: l) hc h).isInfix
    · exact (ih h).imp (fun h => h.trans (List.suffix_cons _ _).isInfix) id

theorem infix_join {ls : List Str} (hn : '\n' ∉ m) (hm : m ≠ []) (h : m <:+: joinWith ['\n'] ls) : ∃ l ∈ ls, m <:+: l := by
  induction ls with
  | nil => exact absurd (List.eq_nil_of_infix_nil h) hm
  | cons l ls ih =>
    cases ls with
    | nil => exact ⟨l, by simp, by simpa [joinWith] using h⟩
    | cons k ls =>
      have : joinWith ['\n'] (l :: k :: ls) = l ++ ('\n' :: joinWith ['\n'] (k :: ls)) := by simp [joinWith]
      rw [this] at h
      rcases infix_split hn hm h with h | h
      · exact ⟨l, by simp, h⟩
      · obtain ⟨a, ha, hi⟩ := ih h
        exact ⟨a, List.mem_cons_of_mem _ ha, hi⟩

theorem BlankLines.blank {b : Str} (h : BlankLines b) : ∀ c ∈ b, c = ' ' ∨ c = '\t' ∨ c = '\n' ∨ c = '\r' := by
  induction h with
  | nil => simp
  | lf hs _ ih =>
    intro c hc
    simp only [List.mem_append, List.mem_cons] at hc
    rcases hc with hc | rfl | hc
    · rcases hs _ hc with h | h <;> simp [h]
    · simp
    · exact ih c hc
  | crlf hs _ ih =>
    intro c hc
    simp only [List.mem_append, List.mem_cons] at hc
    rcases hc with hc | rfl | rfl | hc
    · rcases hs _ hc with h | h <;> simp [h]
    · simp
    · simp
    · exact ih c hc

/-- A word without blanks and line ends. -/
structure Solid (m : Str) : Prop where
  ne : m ≠ []
  blank : ∀ c ∈ m, c ≠ ' ' ∧ c ≠ '\t' ∧ c ≠ '\n' ∧ c ≠ '\r'

theorem Solid.noNl (h : Solid m) : '\n' ∉ m := fun hm => (h.blank _ hm).2.2.1 rfl

theorem item_word {kind : ListKind} {pl : Nat} {s : Str} {ls : List Str} {w : Str} (hm : Solid m)
    (h : ItemRest kind pl s ls w) : ∀ l ∈ ls, m <:+: l → m <:+: w := by
  induction h with
  | nil => simp
  | @text p l e w ls _ _ _ _ _ _ ih =>
    intro k hk hi
    rcases List.mem_cons.1 hk with rfl | hk
    · exact hi.trans ⟨p, e ++ w, by simp⟩
    · exact (ih k hk hi).trans ⟨p ++ (l ++ e), [], by simp⟩
  | @blank b l e w ls hb _ _ _ _ ih =>
    intro k hk hi
    rcases List.mem_cons.1 hk with rfl | hk
    · have : m <:+: l := infix_after (fun c hc hcm => by
        have := hm.blank c hcm
        rcases hb.blank c hc with h | h | h | h <;> simp [h] at this) hm.ne hi
      exact this.trans ⟨b ++ sp pl, e ++ w, by simp⟩
    · exact (ih k hk hi).trans ⟨b ++ (sp pl ++ (l ++ e)), [], by simp⟩

variable {x : PExt} {cfg : PConfig}

/-- The words of the code of the blocks are words of the text. -/
def CodeFrom (m : Str) (bs : List Block) (s : Str) : Prop := ∀ k t, .codeBlock k t ∈ bs → m <:+: t → m <:+: s

theorem CodeFrom.mono {bs : List Block} {s t : Str} (h : CodeFrom m bs s) (hs : s <:+: t) : CodeFrom m bs t :=
  fun k c hc hm => (h k c hc hm).trans hs

theorem CodeFrom.append {a b : List Block} {s : Str} (ha : CodeFrom m a s) (hb : CodeFrom m b s) : CodeFrom m (a ++ b) s :=
  fun k c hc hm => (List.mem_append.1 hc).elim (fun h => ha k c h hm) (fun h => hb k c h hm)

theorem CodeFrom.cons {b : Block} {l : List Block} {s : Str} (hb : ∀ k t, b ≠ .codeBlock k t) (h : CodeFrom m l s) : CodeFrom m (b :: l) s :=
  fun k c hc hm => (List.mem_cons.1 hc).elim (fun h => absurd h.symm (hb k c)) (fun hc => h k c hc hm)

theorem CodeFrom.join {bs : List Block} {ls : List Str} {w : Str} (hm : Solid m) (h : CodeFrom m bs (joinWith ['\n'] ls))
    (hl : ∀ l ∈ ls, m <:+: l → m <:+: w) : CodeFrom m bs w := fun k c hc hi => by
  obtain ⟨l, h1, h2⟩ := infix_join hm.noNl hm.ne (h k c hc hi)
  exact hl l h1 h2

theorem code_from (hm : Solid m) {bs : List Block} {s : Str} (h : BlocksWritten x cfg bs s) : CodeFrom m (Block.preL bs) s := by
  refine BlocksWritten.rec (motive_1 := fun b w _ _ => CodeFrom m b.pre w)
    (motive_2 := fun bs s _ => CodeFrom m (Block.preL bs) s)
    (motive_3 := fun _ i w _ _ => CodeFrom m i.pre w)
    (motive_4 := fun is w _ _ => CodeFrom m (ListItem.preL is) w)
    ?_ ?_ ?_ ?_ ?_ ?_ ?_ ?_ ?_ ?_ ?_ ?_ ?_ ?_ ?_ ?_ ?_ ?_ h
  · intros; intro k c hc; simp [Block.pre] at hc
  · intros; intro k c hc; simp [Block.pre] at hc
  · intros; intro k c hc; simp [Block.pre] at hc
  · intros; intro k c hc; simp [Block.pre] at hc
  · intro ls bs w s hne hl _ ih
    rw [Block.pre]
    exact (ih.join hm fun l h1 h2 => h2.trans (lines_infix hl l h1)).cons (by simp)
  · intro t l ls bs w s hl _ _ ih
    rw [Block.pre]
    exact (ih.join hm fun k h1 h2 => h2.trans (lines_infix hl k (List.mem_cons_of_mem _ h1))).cons (by simp)
  · intro k i l w w' s _ _ ih1 ih2
    rw [Block.pre, ListItem.preL]
    exact ((ih1.mono ⟨[], w', by simp⟩).append (ih2.mono ⟨w, [], by simp⟩)).cons (by simp)
  · intro ls w s hne hl k c hc hi
    simp only [Block.pre, List.mem_cons, List.not_mem_nil, or_false, Block.codeBlock.injEq] at hc
    rw [hc.2] at hi
    obtain ⟨l, h1, h2⟩ := infix_join hm.noNl hm.ne hi
    exact h2.trans (lines_infix hl l h1)
  · intro f k n info ls e w c e' s _ _ hn _ _ _ hl _ _ k' t hc hi
    simp only [Block.pre, List.mem_cons, List.not_mem_nil, or_false, Block.codeBlock.injEq] at hc
    rw [hc.2] at hi
    obtain ⟨l, h1, h2⟩ := infix_join hm.noNl hm.ne hi
    exact (h2.trans (lines_infix hl l h1)).trans
      ⟨sp k ++ (List.replicate n f ++ (info.getD [] ++ e)), c ++ e', by simp⟩
  · intros; intro k c hc; simp [Block.pre] at hc
  · intros; intro k c hc; simp [Block.pre] at hc
  · intro k label p first e w s ls bs _ _ _ _ _ hl _ ih
    rw [Block.pre]
    refine (ih.join hm fun l h1 h2 => ?_).cons (by simp)
    rcases List.mem_cons.1 h1 with rfl | h1
    · exact h2.trans ⟨sp k ++ (cs!"[^" ++ (label ++ (cs!"]:" ++ p))), e ++ w, by simp⟩
    · exact (h2.trans (lines_infix hl l h1)).trans ⟨sp k ++ (cs!"[^" ++ (label ++ (cs!"]:" ++ (p ++ (first ++ e))))), [], by simp⟩
  · intros; intro k c hc; simp [Block.pre] at hc
  · intro s _ k c hc; simp [Block.preL] at hc
  · intro b bs g w s _ _ _ ih1 ih2
    rw [Block.preL]
    exact (ih1.mono ⟨g, s, by simp⟩).append (ih2.mono ⟨g ++ w, [], by simp⟩)
  · intro k pl t bs f first e w s ls hf hle hr _ ih
    rw [ListItem.pre]
    refine ih.join hm fun l h1 h2 => ?_
    rcases List.mem_cons.1 h1 with rfl | h1
    · exact (h2.trans (item_first hf)).trans ⟨[], e ++ w, by simp⟩
    · exact (item_word hm hr l h1 h2).trans ⟨f ++ e, [], by simp⟩
  · intro s k c hc; simp [ListItem.preL] at hc
  · intro k i l w w' s _ _ ih1 ih2
    rw [ListItem.preL]
    exact (ih1.mono ⟨[], w', by simp⟩).append (ih2.mono ⟨w, [], by simp⟩)

/-- **C53**, with code blocks: if the text does not contain `\end{`, its LaTeX is well formed, with every code block inside
its environment, whatever else the text contains; provided that custom alert names have no underscore and languages of code
blocks no special characters. -/
theorem C53_code (hk : cfg.Keeps) {s : Str} {d : Document} (h : parseMarkdown x cfg s = some d) (hs : ¬ cs!"\\end{" <:+: s)
    (ha : ∀ name b, d.HasBlock (.githubAlert (.custom name) b) → '_' ∉ name)
    (hl : ∀ lang t, d.HasBlock (.codeBlock (.fenced (some lang)) t) → ∀ c ∈ lang, c ∉ Latex.special)
    (dw : Str → Nat) (lc : Latex.Config) : Latex.Tex ['^'] true false (Latex.renderLatex dw lc d) := by
  refine Latex.C29_well_formed dw lc d ?_ ?_
  · intro name b hb
    obtain ⟨c, r, rfl, h1, h2⟩ := C40_alert_names hk.plain h hb
    intro e he
    have key : isAlnum e = true := by
      rcases List.mem_cons.1 he with rfl | hr
      · exact isAlnum_of_isAlpha h1
      · rcases h2 e hr with h | h
        · exact h
        · exact absurd (h ▸ he) (ha _ b hb)
    intro hsp
    simp only [Latex.special, List.mem_cons, List.not_mem_nil, or_false] at hsp
    rcases hsp with rfl | rfl | rfl | rfl | rfl | rfl | rfl | rfl | rfl | rfl <;> exact absurd key (by decide)
  · intro k t hb
    refine ⟨fun name hn hi => hs ?_, fun lang e => hl lang t (e ▸ hb)⟩
    have hw : Solid cs!"\\end{" := ⟨by simp, by decide⟩
    refine code_from hw (C71_reads hk h) k t ((Document.mem_allBlocks d _).2 hb) (List.IsInfix.trans ?_ hi)
    exact ⟨[], name ++ ['}'], by simp [Latex.endEnv]⟩

end

/-- The hypotheses are met by a text with code, an alert, and special characters of LaTeX everywhere. -/
theorem C53_code_example :
    let s := cs!"# 5 % of {x}\n\n```rust\nfn f() { a_b \\ }\n```\n\n> [!FOO]\n> ~~~\n> }\n> ~~~\n\n- $x_1$ & \\end\n"
    let d : Document := ⟨[.heading (.atx 1) [.text cs!"5 % of {x}"], .codeBlock (.fenced (some cs!"rust")) cs!"fn f() { a_b \\ }",
      .githubAlert (.custom cs!"FOO") [.codeBlock (.fenced none) ['}']],
      .list (.bullet .dash) [.mk none [.paragraph [.text cs!"$x_1$ & \\end"]]]]⟩
    parseMarkdown PExt.ascii (PConfig.default fun _ => none) s = some d ∧
    Latex.Tex ['^'] true false (Latex.renderLatex List.length Latex.Config.default d) := by
  intro s d
  have h : parseMarkdown PExt.ascii (PConfig.default fun _ => none) s = some d := by decide +kernel
  have hd : ∀ b, d.HasBlock b → b ∈ d.allBlocks := fun b => (Document.mem_allBlocks d b).2
  refine ⟨h, C53_code (keeps_default _) h (by decide +kernel) ?_ ?_ _ _⟩
  · intro name b hb
    have := hd _ hb
    simp [d, Document.allBlocks, Block.pre, Block.preL, ListItem.pre, ListItem.preL] at this
    simp [this.1]
  · intro lang t hb
    have := hd _ hb
    simp [d, Document.allBlocks, Block.pre, Block.preL, ListItem.pre, ListItem.preL] at this
    simp [this.1, Latex.special]

/-- Without the hypothesis on the text it fails: code can leave its environment. -/
theorem C53_code_needs_end :
    (parseMarkdown PExt.ascii (PConfig.default fun _ => none) cs!"~~~\n\\end{verbatim}\\input{secret}\n~~~").map
      (Latex.renderLatex List.length Latex.Config.default) =
    some cs!"\\begin{verbatim}\n\\end{verbatim}\\input{secret}\n\\end{verbatim}" := by decide +kernel

end Verif
