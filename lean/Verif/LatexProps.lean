import Verif.Latex
import Verif.LatexSpec
import Verif.PrettySkeleton
import Verif.TraverseProps
/-!
# LaTeX renderer: C28, C29, C30
-/
namespace Verif
namespace Latex

/-! ## C28: escaping -/

theorem escapeChar_plain {c : Char} (h : c ∉ special) : escapeChar c = [c] := by
  simp only [special, List.mem_cons, List.not_mem_nil, or_false, not_or] at h
  unfold escapeChar
  split <;> simp_all

theorem escapeChar_special {c : Char} (h : c ∈ special) : (c, escapeChar c) ∈ spelling := by
  simp only [special, List.mem_cons, List.not_mem_nil, or_false] at h
  rcases h with rfl | rfl | rfl | rfl | rfl | rfl | rfl | rfl | rfl | rfl <;> decide

theorem decodeAux_drop (n : Nat) (s : Str) : decodeAux n s = decodeAux 0 (s.drop n) := by
  induction s generalizing n with
  | nil => cases n <;> simp [decodeAux]
  | cons c s ih =>
    cases n with
    | zero => rfl
    | succ n => simp [decodeAux, ih n]

theorem decode_cons_plain {c : Char} (h : c ≠ '\\') (s : Str) :
    decode (c :: s) = c :: decode s := by
  have : (spelling.find? fun e => e.2.isPrefixOf (c :: s)) = none := by
    rw [List.find?_eq_none]
    intro e he
    simp only [spelling, List.mem_cons, List.not_mem_nil, or_false] at he
    rcases he with rfl | rfl | rfl | rfl | rfl | rfl | rfl | rfl | rfl | rfl <;>
      simp [List.isPrefixOf, Ne.symm h]
  simp only [decode, decodeAux, this]

theorem decode_spelling {e : Char × Str} (h : e ∈ spelling) (s : Str) :
    decode (e.2 ++ s) = e.1 :: decode s := by
  simp only [spelling, List.mem_cons, List.not_mem_nil, or_false] at h
  rcases h with rfl | rfl | rfl | rfl | rfl | rfl | rfl | rfl | rfl | rfl <;>
    simp [decode, decodeAux, spelling, List.find?, List.isPrefixOf]

theorem decode_escapeChar (c : Char) (s : Str) : decode (escapeChar c ++ s) = c :: decode s := by
  by_cases h : c ∈ special
  · exact decode_spelling (escapeChar_special h) s
  · rw [escapeChar_plain h]
    refine decode_cons_plain ?_ s
    rintro rfl
    exact h (by decide)

/-- **C28.** Decoding an escaped text gives the text back, whatever follows. -/
theorem C28_decode_escape (s t : Str) : decode (escape s ++ t) = s ++ decode t := by
  induction s with
  | nil => rfl
  | cons c s ih =>
    show decode ((escapeChar c ++ escape s) ++ t) = _
    rw [List.append_assoc, decode_escapeChar, ih]
    rfl

/-- **C28.** Different texts have different escaped forms. -/
theorem C28_injective (s t : Str) (h : escape s = escape t) : s = t := by
  have hs := C28_decode_escape s []
  have ht := C28_decode_escape t []
  rw [h, ht] at hs
  simpa [decode, decodeAux] using hs.symm

/-- **C28.** The escaped text is a sequence of units, one per character: a character without
meaning in LaTeX stands for itself, and a special character is replaced by its spelling. -/
theorem C28_units (s : Str) : ∃ units : List Str, escape s = units.flatten ∧
    units.length = s.length ∧
    ∀ i (h : i < units.length) (h' : i < s.length),
      (s[i] ∉ special ∧ units[i] = [s[i]]) ∨ (s[i], units[i]) ∈ spelling := by
  refine ⟨s.map escapeChar, by simp [escape, List.flatMap], by simp, ?_⟩
  intro i h h'
  by_cases hs : s[i] ∈ special
  · exact .inr (by simpa using escapeChar_special hs)
  · exact .inl ⟨hs, by simpa using escapeChar_plain hs⟩

example : escape cs!"50% of {a_b}^2 \\ ~" =
    cs!"50\\% of \\{a\\_b\\}\\textasciicircum{}2 \\textbackslash{} \\textasciitilde{}" := by
  decide +kernel
example : decode cs!"50\\% of \\{a\\_b\\}\\textasciicircum{}2 \\textbackslash{} \\textasciitilde{}"
    = cs!"50% of {a_b}^2 \\ ~" := by decide +kernel

/-! ## Documents are simple -/

theorem textDoc_simple (t : Str) : (textDoc t).Simple := by
  unfold textDoc
  simp only
  split
  · trivial
  · refine Doc.simple_concat ?_
    simp only [List.mem_map]
    rintro d ⟨o, -, rfl⟩
    cases o <;> simp [Doc.Simple, Doc.softline]

theorem command_simple {name : Str} {d : Doc} (h : d.Simple) : (command name d).Simple :=
  Doc.simple_app (Doc.simple_app (Doc.simple_app trivial trivial) h) trivial

theorem environment_simple {name : Str} {o : Option Str} {d : Doc} (h : d.Simple) :
    (environment name o d).Simple := by
  unfold environment
  refine Doc.simple_app (Doc.simple_app (Doc.simple_app (Doc.simple_app ?_ trivial) h) trivial)
    trivial
  cases o <;> trivial

theorem hrefDoc_simple {u : Str} {d : Doc} (h : d.Simple) : (hrefDoc u d).Simple :=
  Doc.simple_app (Doc.simple_app (Doc.simple_app (command_simple trivial) trivial) h) trivial

theorem inline_simple (st : State) :
    (∀ i, (inlineDoc st i).Simple) ∧ (∀ l, ∀ d ∈ inlineDocs st l, Doc.Simple d) := by
  apply Inline.ind
  case text => intro s; exact textDoc_simple s
  case lineBreak => exact Doc.simple_app (a := .text _) (b := .hardline) trivial trivial
  case code => intro s; exact command_simple trivial
  case html => intro s; trivial
  case link =>
    intro d t c ih
    cases t with
    | none => exact hrefDoc_simple (Doc.simple_concat ih)
    | some t => exact Doc.simple_app (hrefDoc_simple (Doc.simple_concat ih)) (command_simple trivial)
  case linkReference =>
    intro l t hl ht
    simp only [inlineDoc]
    split
    · exact hrefDoc_simple (Doc.simple_concat ht)
    · exact Doc.simple_app (Doc.simple_app (Doc.simple_app (Doc.simple_app trivial
        (Doc.simple_concat ht)) trivial) (Doc.simple_concat hl)) trivial
  case image =>
    intro d t a
    simp only [inlineDoc]
    have : ((((command cs!"includegraphics" .nil).app (.text cs!"{")).app
      (.text (escape d))).app (.text cs!"}")).Simple :=
      Doc.simple_app (Doc.simple_app (Doc.simple_app (command_simple trivial) trivial) trivial) trivial
    split
    · exact this
    · exact Doc.simple_app this (command_simple trivial)
  case emphasis => intro c ih; exact command_simple (Doc.simple_concat ih)
  case strong => intro c ih; exact command_simple (Doc.simple_concat ih)
  case strikethrough => intro c ih; exact command_simple (Doc.simple_concat ih)
  case autolink => intro s; exact command_simple trivial
  case footnoteReference =>
    intro s
    simp only [inlineDoc]
    split
    · exact command_simple trivial
    · exact Doc.simple_app (Doc.simple_app trivial trivial) trivial
  case empty => trivial
  case nil => simp [inlineDocs]
  case cons => intro i l hi hl; simpa [inlineDocs] using ⟨hi, hl⟩

theorem inlines_simple (st : State) (l : List Inline) : (inlinesDoc st l).Simple :=
  Doc.simple_concat ((inline_simple st).2 l)

theorem rowCells_simple (st : State) (row : List (List Inline)) : ∀ first acc, acc.Simple →
    (rowCells st first acc row).Simple := by
  induction row with
  | nil => intro _ _ h; exact h
  | cons c row ih =>
    intro first acc h
    refine ih _ _ (Doc.simple_app ?_ (inlines_simple st c))
    cases first
    · exact Doc.simple_app h trivial
    · exact h

theorem tableRow_simple (st : State) (row : List (List Inline)) : (tableRowDoc st row).Simple :=
  Doc.simple_app (rowCells_simple st row _ _ trivial) trivial

theorem dataRows_simple (st : State) {sep : Doc} (hs : sep.Simple) (rows : List (List (List Inline))) :
    ∀ acc, acc.Simple → (dataRows st sep acc rows).Simple := by
  induction rows with
  | nil => intro _ h; exact h
  | cons r rows ih =>
    intro acc h
    exact ih _ (Doc.simple_app (Doc.simple_app (Doc.simple_app h (tableRow_simple st r)) hs) trivial)

theorem headerRow_simple (st : State) (rule : Str) {acc : Doc} (h : acc.Simple)
    (rows : List (List (List Inline))) : (headerRow st rule acc rows).Simple := by
  unfold headerRow
  split
  · exact Doc.simple_app (Doc.simple_app (Doc.simple_app (Doc.simple_app h
      (tableRow_simple st _)) trivial) trivial) trivial
  · exact h

theorem table_simple (st : State) (rows : List (List (List Inline))) (al : List Alignment) :
    (tableDoc st rows al).Simple := by
  unfold tableDoc
  split
  · unfold tabularDoc
    exact environment_simple (dataRows_simple st (sep := .nil) trivial _ _
      (headerRow_simple st _ (acc := .nil) trivial _))
  · unfold longtabuDoc
    exact environment_simple (dataRows_simple st (sep := .text _) trivial _ _
      (headerRow_simple st _ (acc := .nil) trivial _))
  · unfold booktabsDoc
    exact environment_simple (Doc.simple_app (dataRows_simple st (sep := .nil) trivial _ _
      (headerRow_simple st _ (Doc.simple_app (a := .text _) (b := .hardline) trivial trivial) _))
      (b := .text _) trivial)

theorem codeBlock_simple (st : State) (k : CodeBlockKind) (s : Str) :
    (codeBlockDoc st k s).Simple := by
  unfold codeBlockDoc
  split
  · exact environment_simple trivial
  · exact environment_simple trivial
  · exact Doc.simple_app (Doc.simple_app (Doc.simple_app (Doc.simple_app trivial trivial) trivial)
      trivial) trivial

theorem block_simple (st : State) :
    (∀ b, (blockDoc st b).Simple) ∧ (∀ i, (itemDoc st i).Simple) ∧
    (∀ l, ∀ first acc, acc.Simple → (blocksDoc st first acc l).Simple) ∧
    (∀ l, ∀ acc, acc.Simple → (itemsDoc st acc l).Simple) := by
  apply Block.ind
  case paragraph => intro c; exact inlines_simple st c
  case heading => intro k c; exact command_simple (inlines_simple st c)
  case thematicBreak => exact command_simple trivial
  case blockQuote => intro b ih; simp only [blockDoc]; exact environment_simple (ih _ .nil trivial)
  case list => intro k i ih; simp only [blockDoc]; exact environment_simple (ih .nil trivial)
  case codeBlock => exact codeBlock_simple st
  case htmlBlock => intro s; trivial
  case definition => intro _ _ _; trivial
  case table => exact table_simple st
  case footnoteDefinition =>
    intro l b ih
    simp only [blockDoc]
    split
    · exact command_simple (Doc.simple_app trivial (ih _ _ trivial))
    · trivial
  case githubAlert => intro t b ih; exact command_simple (Doc.simple_app trivial (ih _ _ trivial))
  case empty => trivial
  case item =>
    intro t b ih
    refine Doc.simple_app (Doc.simple_app ?_ (ih _ _ trivial)) trivial
    unfold checkbox
    split
    · exact Doc.simple_app trivial trivial
    · exact Doc.simple_app trivial trivial
    · trivial
  case nilB => intro _ _ h; exact h
  case consB =>
    intro b l hb hl first acc h
    refine hl _ _ (Doc.simple_app ?_ hb)
    cases first
    · exact Doc.simple_app (Doc.simple_app h trivial) trivial
    · exact h
  case nilI => intro _ h; exact h
  case consI => intro i l hi hl acc h; exact hl _ (Doc.simple_app h hi)

/-- The skeleton of the rendered document. -/
def docSkel (cfg : Config) (d : Document) : List (Option Char) :=
  (blocksDoc (State.new cfg d) true .nil d.blocks).skel

theorem render_fills (dw : Str → Nat) (cfg : Config) (d : Document) :
    Fills (docSkel cfg d) (renderLatex dw cfg d) :=
  Doc.render_simple ((block_simple _).2.2.1 d.blocks true .nil trivial) dw cfg.width

/-! ## C29: well-formedness -/

theorem Tex.append {raw : List Char} {code t : Bool} {a b : Str} (ha : Tex raw code t a)
    (hb : Tex raw code t b) : Tex raw code t (a ++ b) := by
  induction ha with
  | nil => exact hb
  | char t c s hc _ ih => exact .char t c _ hc (ih hb)
  | symbol t c s hc _ ih => exact .symbol t c _ hc (ih hb)
  | ampersand s _ ih => exact .ampersand _ (ih hb)
  | math t name s hn _ ih =>
    have := Tex.math t name _ hn (ih hb)
    simpa using this
  | word t name c s hn hc _ ih =>
    have := Tex.word t name c _ hn hc (ih hb)
    simpa using this
  | command t name inner s hn hi _ _ ih =>
    rw [List.append_assoc]
    exact .command t name inner _ hn hi (ih hb)
  | group t inner s hi _ _ ih =>
    rw [List.append_assoc]
    exact .group t inner _ hi (ih hb)
  | env t name inner s hn hi _ _ ih =>
    rw [List.append_assoc]
    exact .env t name inner _ hn hi (ih hb)
  | code t name inner s hc hn hi _ ih =>
    rw [List.append_assoc]
    exact .code t name inner _ hc hn hi (ih hb)

/-- In a table, everything allowed outside is allowed. -/
theorem Tex.inTable {raw : List Char} {code t : Bool} {a : Str} (ha : Tex raw code t a) :
    Tex raw code true a := by
  induction ha with
  | nil => exact .nil _
  | char t c s hc _ ih => exact .char _ c _ hc ih
  | symbol t c s hc _ ih => exact .symbol _ c _ hc ih
  | ampersand s _ ih => exact .ampersand _ ih
  | math t name s hn _ ih => exact .math _ name _ hn ih
  | word t name c s hn hc _ ih => exact .word _ name c _ hn hc ih
  | command t name inner s hn hi _ _ ih => exact .command _ name inner _ hn hi ih
  | group t inner s hi _ _ ih => exact .group _ inner _ hi ih
  | env t name inner s hn hi _ _ ih => exact .env _ name inner _ hn hi ih
  | code t name inner s hc hn hi _ ih => exact .code _ name inner _ hc hn hi ih

theorem Tex.plain {raw : List Char} {code t : Bool} {s : Str} (h : ∀ c ∈ s, c ∉ special ∨ c ∈ raw) :
    Tex raw code t s := by
  induction s with
  | nil => exact .nil _
  | cons c s ih => exact .char _ _ _ (h c (by simp)) (ih fun x hx => h x (by simp [hx]))

theorem Tex.escapeChar (raw : List Char) (code t : Bool) (c : Char) :
    Tex raw code t (escapeChar c) := by
  by_cases h : c ∈ special
  · have h' := escapeChar_special h
    have call : ∀ name ∈ commandNames, Tex raw code t ('\\' :: name ++ cs!"{" ++ [] ++ cs!"}" ++ []) :=
      fun name hn => .command t name [] [] hn (.nil _) (.nil _)
    have sym : ∀ c ∈ controlSymbols, Tex raw code t ['\\', c] :=
      fun c hc => .symbol t c [] hc (.nil _)
    simp only [special, List.mem_cons, List.not_mem_nil, or_false] at h
    rcases h with rfl | rfl | rfl | rfl | rfl | rfl | rfl | rfl | rfl | rfl
    · exact call cs!"textbackslash" (by decide)
    · exact sym _ (by decide)
    · exact sym _ (by decide)
    · exact sym _ (by decide)
    · exact sym _ (by decide)
    · exact sym _ (by decide)
    · exact sym _ (by decide)
    · exact call cs!"textasciicircum" (by decide)
    · exact sym _ (by decide)
    · exact call cs!"textasciitilde" (by decide)
  · rw [escapeChar_plain h]
    exact .char _ _ _ (.inl h) (.nil _)

theorem Tex.escape (raw : List Char) (code t : Bool) (s : Str) : Tex raw code t (escape s) := by
  induction s with
  | nil => exact .nil _
  | cons c s ih => exact (Tex.escapeChar raw code t c).append ih

/-- Every layout of the document is well-formed. -/
def TexDoc (raw : List Char) (code t : Bool) (d : Doc) : Prop :=
  ∀ s, Fills d.skel s → Tex raw code t s

variable {raw : List Char} {code t : Bool}

theorem TexDoc.nil : TexDoc raw code t .nil := by
  intro s h; cases h; exact .nil _

theorem TexDoc.app {a b : Doc} (ha : TexDoc raw code t a) (hb : TexDoc raw code t b) :
    TexDoc raw code t (a.app b) := by
  intro s h
  rw [Doc.skel_app] at h
  obtain ⟨x, y, rfl, hx, hy⟩ := h.split
  exact (ha x hx).append (hb y hy)

theorem TexDoc.text {s : Str} (h : Tex raw code t s) : TexDoc raw code t (.text s) := by
  intro x hx
  rw [Fills.some_iff.1 hx]
  exact h

theorem TexDoc.hardline : TexDoc raw code t .hardline := by
  intro x hx
  rw [(Fills.some_iff (a := ['\n'])).1 hx]
  exact .char _ _ _ (.inl (by decide)) (.nil _)

theorem TexDoc.softline : TexDoc raw code t Doc.softline := by
  intro x hx
  cases hx with
  | space h => cases h; exact .char _ _ _ (.inl (by decide)) (.nil _)
  | newline h => cases h; exact .char _ _ _ (.inl (by decide)) (.nil _)

theorem TexDoc.foldl (l : List Doc) : ∀ a : Doc, TexDoc raw code t a →
    (∀ d ∈ l, TexDoc raw code t d) → TexDoc raw code t (l.foldl Doc.app a) := by
  induction l with
  | nil => intro a h _; exact h
  | cons d l ih =>
    intro a h hl
    exact ih _ (h.app (hl d (by simp))) fun e he => hl e (by simp [he])

theorem TexDoc.concat {l : List Doc} (h : ∀ d ∈ l, TexDoc raw code t d) :
    TexDoc raw code t (Doc.concat l) := TexDoc.foldl l _ .nil h

theorem TexDoc.inTable {d : Doc} (h : TexDoc raw code t d) : TexDoc raw code true d :=
  fun s hs => (h s hs).inTable

theorem TexDoc.group {d : Doc} (h : TexDoc raw code false d) :
    TexDoc raw code t (((Doc.text cs!"{").app d).app (.text cs!"}")) := by
  intro s hs
  rw [Doc.skel_app, Doc.skel_app] at hs
  obtain ⟨x, z, rfl, hx, hz⟩ := hs.split
  obtain ⟨x, y, rfl, hx, hy⟩ := hx.split
  rw [Fills.some_iff.1 hx, Fills.some_iff.1 hz]
  simpa using Tex.group t y [] (h y hy) (.nil _)

theorem TexDoc.command {name : Str} {d : Doc} (hn : name ∈ commandNames)
    (h : TexDoc raw code false d) : TexDoc raw code t (command name d) := by
  intro s hs
  simp only [Latex.command, Doc.skel_app] at hs
  obtain ⟨x, z, rfl, hx, hz⟩ := hs.split
  obtain ⟨x, y, rfl, hx, hy⟩ := hx.split
  obtain ⟨x, w, rfl, hx, hw⟩ := hx.split
  rw [Fills.some_iff.1 hx, Fills.some_iff.1 hz, Fills.some_iff.1 hw]
  simpa using Tex.command t name y [] hn (h y hy) (.nil _)

theorem app_assoc_skel (a b c : Doc) : ((a.app b).app c).skel = (a.app (b.app c)).skel := by
  simp [Doc.skel_app]

theorem TexDoc.congr {a b : Doc} (e : a.skel = b.skel) (h : TexDoc raw code t a) :
    TexDoc raw code t b := fun s hs => h s (e ▸ hs)

theorem TexDoc.environment {name : Str} {o : Option Str} {d : Doc} (hn : name ∈ environmentNames)
    (ho : ∀ x ∈ o, Tex raw code (decide (name ∈ tableNames)) x)
    (h : TexDoc raw code (decide (name ∈ tableNames)) (d.app .hardline)) :
    TexDoc raw code t (environment name o d) := by
  intro s hs
  simp only [Latex.environment, Doc.skel_app] at hs
  obtain ⟨x, z, rfl, hx, hz⟩ := hs.split
  obtain ⟨x, y, rfl, hx, hy⟩ := hx.split
  obtain ⟨x, w, rfl, hx, hw⟩ := hx.split
  obtain ⟨x, v, rfl, hx, hv⟩ := hx.split
  rw [Fills.some_iff.1 hz, (Fills.some_iff (a := ['\n'])).1 hy, (Fills.some_iff (a := ['\n'])).1 hv]
  have nl : Tex raw code (decide (name ∈ tableNames)) ['\n'] :=
    .char _ _ _ (.inl (by decide)) (.nil _)
  have hin := nl.append (h (w ++ ['\n']) (by
    rw [Doc.skel_app]; exact hw.append (Fills.some_iff (a := ['\n']) |>.2 rfl)))
  cases o with
  | none =>
    rw [Fills.some_iff.1 hx]
    have := Tex.env t name _ [] hn hin (.nil _)
    simpa [beginEnv, endEnv] using this
  | some o =>
    rw [Fills.some_iff.1 hx]
    have l : Tex raw code (decide (name ∈ tableNames)) ['['] :=
      .char _ _ _ (.inl (by decide)) (.nil _)
    have r : Tex raw code (decide (name ∈ tableNames)) [']'] :=
      .char _ _ _ (.inl (by decide)) (.nil _)
    have := Tex.env t name _ [] hn (((l.append (ho o rfl)).append r).append hin) (.nil _)
    simpa [beginEnv, endEnv] using this

/-- Occurrences of a pattern whose first character does not occur in `a`. -/
theorem infix_skip {x : Char} {p a b : Str} (hx : x ∉ a) (h : (x :: p) <:+: a ++ b) :
    (x :: p) <:+: b := by
  induction a with
  | nil => exact h
  | cons y a ih =>
    rcases List.infix_cons_iff.1 h with h | h
    · replace h : x :: p <+: y :: (a ++ b) := h
      rw [List.cons_prefix_cons] at h
      exact absurd h.1 (by simp at hx; exact hx.1)
    · exact ih (by simp at hx; exact hx.2) h

/-- A pattern without `y` cannot straddle a `y`. -/
theorem infix_split {y : Char} {p a b : Str} (hy : y ∉ p) (hp : p ≠ [])
    (h : p <:+: a ++ y :: b) : p <:+: a ∨ p <:+: b := by
  induction a with
  | nil =>
    rcases List.infix_cons_iff.1 h with h | h
    · cases p with
      | nil => exact absurd rfl hp
      | cons z p =>
        rw [List.cons_prefix_cons] at h
        simp [h.1] at hy
    · exact .inr h
  | cons z a ih =>
    rcases List.infix_cons_iff.1 h with h | h
    · left
      obtain ⟨post, e⟩ := h
      rcases List.append_eq_append_iff.1 (show p ++ post = (z :: a) ++ (y :: b) from e) with
        ⟨c, e1, -⟩ | ⟨c, e1, e2⟩
      · rw [e1]; exact (List.prefix_append p c).isInfix
      · cases c with
        | nil => simp at e1; exact e1 ▸ List.infix_rfl
        | cons w c =>
          simp only [List.cons_append, List.cons.injEq] at e2
          exact absurd (by rw [e1, e2.1]; simp) hy
    · rcases ih h with h | h
      · exact .inl (List.infix_cons h)
      · exact .inr h

/-- If the first `\end{name}` of `inner ++ \end{name}` were not the one at the end, `inner`
followed by the pattern without its last character would contain the pattern. -/
theorem ends_at_end {name inner : Str} (hb : '\n' ∉ name)
    (h : ¬ endEnv name <:+: inner) (pre post : Str)
    (e : inner ++ '\n' :: endEnv name = pre ++ endEnv name ++ post) : post = [] := by
  refine Classical.byContradiction fun hp => ?_
  obtain ⟨post', x, rfl⟩ : ∃ p x, post = p ++ [x] := ⟨post.dropLast, post.getLast hp,
    (List.dropLast_concat_getLast hp).symm⟩
  have e' : inner ++ '\n' :: (cs!"\\end{" ++ name) = pre ++ endEnv name ++ post' := by
    have h1 : inner ++ '\n' :: endEnv name = (inner ++ '\n' :: (cs!"\\end{" ++ name)) ++ ['}'] := by
      simp [endEnv]
    rw [h1, ← List.append_assoc (pre ++ endEnv name)] at e
    exact (List.append_inj' e rfl).1
  have hi : endEnv name <:+: inner ++ '\n' :: (cs!"\\end{" ++ name) := ⟨pre, post', e'.symm⟩
  have hnl : '\n' ∉ endEnv name := by simp [endEnv, hb]
  rcases infix_split hnl (by simp [endEnv]) hi with hi | hi
  · exact h hi
  · have := hi.length_le
    simp [endEnv] at this
    omega

theorem TexDoc.textDoc (s : Str) : TexDoc raw code t (textDoc s) := by
  unfold Latex.textDoc
  simp only
  split
  · exact .text (Tex.escape ..)
  · refine .concat ?_
    simp only [List.mem_map]
    rintro d ⟨o, -, rfl⟩
    cases o with
    | none => exact .softline
    | some w => exact .text (Tex.escape ..)

theorem TexDoc.hrefDoc {u : Str} {d : Doc} (h : TexDoc raw code false d) :
    TexDoc raw code t (hrefDoc u d) := by
  refine TexDoc.congr (a := (Latex.command cs!"href" (.text (escape u))).app
    (((Doc.text cs!"{").app d).app (.text cs!"}"))) (by simp [Latex.hrefDoc, Doc.skel_app]) ?_
  exact (TexDoc.command (by decide) (.text (Tex.escape ..))).app (.group h)

theorem Tex.natStr (n : Nat) : Tex raw code t (natStr n) := by
  refine Tex.plain fun c hc => .inl ?_
  have := Nat.isDigit_of_mem_toDigits (by decide) (by decide) hc
  intro h
  simp only [special, List.mem_cons, List.not_mem_nil, or_false] at h
  rcases h with rfl | rfl | rfl | rfl | rfl | rfl | rfl | rfl | rfl | rfl <;>
    exact absurd this (by decide)

theorem Tex.lit {s : Str} (h : ∀ c ∈ s, c ∉ special) : Tex raw code t s :=
  Tex.plain fun c hc => .inl (h c hc)

/-- `^` is tolerated, or every footnote reference among `l` has a number. -/
def Refs (raw : List Char) (st : State) (l : List Inline) : Prop :=
  '^' ∈ raw ∨ ∀ x, .footnoteReference x ∈ l → st.getFootnoteIndex x ≠ none

theorem Refs.mono {st : State} {l m : List Inline} (h : Refs raw st m) (hs : ∀ i ∈ l, i ∈ m) :
    Refs raw st l := h.imp_right fun h x hx => h x (hs _ hx)

/-- Inlines are well-formed in every layout, provided `^` is tolerated or every footnote reference
shown has a number. -/
theorem inline_tex (st : State) (code : Bool) :
    (∀ i, Refs raw st i.pre →
      ∀ t, TexDoc raw code t (inlineDoc st i)) ∧
    (∀ l, Refs raw st (Inline.preL l) →
      ∀ t, ∀ d ∈ inlineDocs st l, TexDoc raw code t d) := by
  apply Inline.ind
  case text => intro s _ t; exact .textDoc s
  case lineBreak =>
    intro _ t
    exact .app (.text (.symbol _ _ _ (by decide) (.nil _))) .hardline
  case code => intro s _ t; exact .command (by decide) (.text (Tex.escape ..))
  case html => intro s _ t; exact .text (Tex.escape ..)
  case link =>
    intro d t c ih hr tb
    have hr' : Refs raw st (Inline.preL c) := hr.mono fun x hx => by simp [Inline.pre, hx]
    cases t with
    | none => exact .hrefDoc (.concat (ih hr' _))
    | some t => exact .app (.hrefDoc (.concat (ih hr' _))) (.command (by decide) (.text (Tex.escape ..)))
  case linkReference =>
    intro l t hl ht hr tb
    have h1 : Refs raw st (Inline.preL l) := hr.mono fun x hx => by simp [Inline.pre, hx]
    have h2 : Refs raw st (Inline.preL t) := hr.mono fun x hx => by simp [Inline.pre, hx]
    simp only [inlineDoc]
    split
    · exact .hrefDoc (.concat (ht h2 _))
    · refine .app (.app (.app (.app (.text (.lit (by decide))) (.concat (ht h2 _)))
        (.text (.lit (by decide)))) (.concat (hl h1 _))) (.text (.lit (by decide)))
  case image =>
    intro d t a _ tb
    simp only [inlineDoc]
    have : TexDoc raw code tb ((((command cs!"includegraphics" .nil).app (.text cs!"{")).app
        (.text (escape d))).app (.text cs!"}")) := by
      refine TexDoc.congr (a := (command cs!"includegraphics" .nil).app
        (((Doc.text cs!"{").app (.text (escape d))).app (.text cs!"}")))
        (by simp [Doc.skel_app]) ?_
      exact (TexDoc.command (by decide) .nil).app (.group (.text (Tex.escape ..)))
    split
    · exact this
    · exact this.app (.command (by decide) (.text (Tex.escape ..)))
  case emphasis =>
    intro c ih hr t
    exact .command (by decide) (.concat (ih (hr.mono fun x hx => by simp [Inline.pre, hx]) _))
  case strong =>
    intro c ih hr t
    exact .command (by decide) (.concat (ih (hr.mono fun x hx => by simp [Inline.pre, hx]) _))
  case strikethrough =>
    intro c ih hr t
    exact .command (by decide) (.concat (ih (hr.mono fun x hx => by simp [Inline.pre, hx]) _))
  case autolink => intro s _ t; exact .command (by decide) (.text (Tex.escape ..))
  case footnoteReference =>
    intro s hr t
    simp only [inlineDoc]
    split
    · exact .command (by decide) (.text (((Tex.lit (s := cs!"[") (by decide)).append
        (Tex.natStr _)).append (Tex.lit (by decide))))
    · rename_i h
      refine .app (.app (.text ?_) (.text (Tex.escape ..))) (.text (Tex.lit (by decide)))
      rcases hr with hr | hr
      · exact .char _ _ _ (.inl (by decide)) (.char _ _ _ (.inr hr) (.nil _))
      · exact absurd h (hr s (by simp [Inline.pre]))
  case empty => intro _ t; exact .nil
  case nil => intro _ t; simp [inlineDocs]
  case cons =>
    intro i l hi hl hr t
    simp only [inlineDocs, List.mem_cons, forall_eq_or_imp]
    exact ⟨hi (hr.mono fun x hx => by simp [Inline.preL, hx]) t,
      hl (hr.mono fun x hx => by simp [Inline.preL, hx]) t⟩

theorem inlines_tex {st : State} {l : List Inline}
    (h : Refs raw st (Inline.preL l)) :
    TexDoc raw code t (inlinesDoc st l) := .concat ((inline_tex st code).2 l h t)

/-! ### Tables -/

theorem rowCells_tex {st : State} (row : List (List Inline))
    (hr : Refs raw st (Inline.preL row.flatten)) : ∀ first acc, TexDoc raw code true acc →
    TexDoc raw code true (rowCells st first acc row) := by
  induction row with
  | nil => intro _ _ h; exact h
  | cons c row ih =>
    intro first acc h
    have e : Inline.preL (c :: row).flatten = Inline.preL c ++ Inline.preL row.flatten := by
      simp [Inline.preL_eq_flatMap]
    rw [e] at hr
    refine ih (hr.mono fun x hx => by simp [hx]) _ _ (.app ?_
      (inlines_tex (hr.mono fun x hx => by simp [hx])))
    cases first
    · refine h.app (.text ?_)
      exact .char _ _ _ (.inl (by decide)) (.ampersand _ (.char _ _ _ (.inl (by decide)) (.nil _)))
    · exact h

theorem rowEnd_tex : Tex raw code t cs!" \\\\" :=
  .char _ _ _ (.inl (by decide)) (.symbol _ _ _ (by decide) (.nil _))

theorem tableRow_tex {st : State} {row : List (List Inline)}
    (hr : Refs raw st (Inline.preL row.flatten)) : TexDoc raw code true (tableRowDoc st row) :=
  (rowCells_tex row hr _ _ .nil).app (.text rowEnd_tex)

theorem preL_flatten_cons (r : List (List Inline)) (rows : List (List (List Inline))) :
    Inline.preL (r :: rows).flatten.flatten =
      Inline.preL r.flatten ++ Inline.preL rows.flatten.flatten := by
  simp [Inline.preL_eq_flatMap]

theorem dataRows_tex {st : State} {sep : Doc} (hs : TexDoc raw code true sep)
    (rows : List (List (List Inline))) (hr : Refs raw st (Inline.preL rows.flatten.flatten)) :
    ∀ acc, TexDoc raw code true acc → TexDoc raw code true (dataRows st sep acc rows) := by
  induction rows with
  | nil => intro _ h; exact h
  | cons r rows ih =>
    intro acc h
    rw [preL_flatten_cons] at hr
    exact ih (hr.mono fun x hx => by simp [hx]) _
      (((h.app (tableRow_tex (hr.mono fun x hx => by simp [hx]))).app hs).app .hardline)

theorem headerRow_tex {st : State} {rule : Str} (hrule : Tex raw code true (rule ++ ['\n']))
    {acc : Doc} (h : TexDoc raw code true acc) {rows : List (List (List Inline))}
    (hr : Refs raw st (Inline.preL rows.flatten.flatten)) :
    TexDoc raw code true (headerRow st rule acc rows) := by
  cases rows with
  | nil => exact h
  | cons r rows =>
    rw [preL_flatten_cons] at hr
    refine TexDoc.congr (a := ((acc.app (tableRowDoc st r)).app .hardline).app
      (.text (rule ++ ['\n']))) (by simp [headerRow, Doc.skel_app, Doc.skel]) ?_
    exact ((h.app (tableRow_tex (hr.mono fun x hx => by simp [hx]))).app .hardline).app (.text hrule)

theorem columnSpec_tex (al : List Alignment) : Tex raw code t (columnSpec al) := by
  refine Tex.lit fun c hc => ?_
  simp only [columnSpec, List.mem_map] at hc
  obtain ⟨a, -, rfl⟩ := hc
  cases a <;> decide

theorem word_tex {name : Str} (hn : name ∈ wordNames) : Tex raw code t (('\\' :: name) ++ ['\n']) :=
  .word t name '\n' [] hn (.inr rfl) (.nil _)

theorem table_tex {st : State} {rows : List (List (List Inline))} {al : List Alignment}
    (hr : Refs raw st (Inline.preL rows.flatten.flatten)) :
    TexDoc raw code t (tableDoc st rows al) := by
  have hd : Refs raw st (Inline.preL (rows.drop 1).flatten.flatten) := by
    cases rows with
    | nil => exact hr
    | cons r rows =>
      rw [preL_flatten_cons] at hr
      exact hr.mono fun x hx => by simp at hx; simp [hx]
  have hline : Tex raw code true (cs!"\\hline" ++ ['\n']) := word_tex (by decide)
  have midrule : Tex raw code true (cs!"\\midrule" ++ ['\n']) := word_tex (by decide)
  have toprule : Tex raw code true (cs!"\\toprule" ++ ['\n']) := word_tex (by decide)
  have bottomrule : Tex raw code true (cs!"\\bottomrule" ++ ['\n']) := word_tex (by decide)
  have hline2 : Tex raw code true (cs!"\\\\ \\hline" ++ ['\n']) :=
    .symbol _ _ _ (by decide) (.char _ _ _ (.inl (by decide)) hline)
  unfold tableDoc
  split
  · unfold tabularDoc
    refine .environment (by decide) ?_ (.app ?_ .hardline)
    · rintro x ⟨⟩; exact columnSpec_tex al
    · exact dataRows_tex .nil _ hd _ (headerRow_tex hline .nil hr)
  · unfold longtabuDoc
    refine .environment (by decide) ?_ (.app ?_ .hardline)
    · rintro x ⟨⟩
      have a : Tex raw code true cs!"X[l] to " := Tex.lit (by decide)
      have b : Tex raw code true (('\\' :: cs!"textwidth") ++ ' ' :: (cs!"{" ++ columnSpec al ++
          cs!"}" ++ [])) :=
        .word _ cs!"textwidth" ' ' _ (by decide) (.inl rfl) (.group _ _ _ (columnSpec_tex al) (.nil _))
      have := a.append b
      rw [List.append_nil] at this
      exact this
    · exact dataRows_tex (.text rowEnd_tex) _ hd _ (headerRow_tex hline2 .nil hr)
  · unfold booktabsDoc
    refine .environment (by decide) ?_ ?_
    · rintro x ⟨⟩; exact columnSpec_tex al
    · refine TexDoc.congr (a := (dataRows st .nil (headerRow st cs!"\\midrule"
        ((Doc.text cs!"\\toprule").app .hardline) rows) (rows.drop 1)).app
        (.text (cs!"\\bottomrule" ++ ['\n']))) (by simp [Doc.skel_app, Doc.skel]) ?_
      refine .app (dataRows_tex .nil _ hd _ (headerRow_tex midrule ?_ hr)) (.text bottomrule)
      exact TexDoc.congr (a := .text (cs!"\\toprule" ++ ['\n']))
        (by simp [Doc.skel_app, Doc.skel]) (.text toprule)

/-! ### Code blocks -/

theorem code_tex {name pre' literal : Str} (hc : code = true) (hn : name ∈ codeNames)
    (hp : '\\' ∉ pre') (hl : ¬ endEnv name <:+: literal) :
    Tex raw code t (beginEnv name ++ (pre' ++ '\n' :: (literal ++ ['\n'])) ++ endEnv name) := by
  have hnl : '\n' ∉ name := by
    simp only [codeNames, List.mem_cons, List.not_mem_nil, or_false] at hn
    rcases hn with rfl | rfl | rfl <;> decide
  have := Tex.code (raw := raw) (code := code) t name (pre' ++ '\n' :: (literal ++ ['\n'])) [] hc hn
    ?_ (.nil _)
  · simpa using this
  · intro a b e
    refine ends_at_end (inner := pre' ++ '\n' :: literal) hnl ?_ a b (by simpa using e)
    intro hi
    have hx : ∀ s : Str, endEnv name <:+: pre' ++ s → endEnv name <:+: s := by
      intro s hs
      exact infix_skip (x := '\\') (p := cs!"end{" ++ name ++ cs!"}") hp hs
    have := hx _ hi
    rcases infix_split (a := []) (by simp [endEnv, hnl]) (by simp [endEnv]) this with h | h
    · have := h.length_le
      simp [endEnv] at this
    · exact hl h

theorem codeBlock_tex {st : State} {k : CodeBlockKind} {s : Str} (hc : code = true)
    (hs : ∀ name ∈ codeNames, ¬ endEnv name <:+: s)
    (hl : ∀ lang, k = .fenced (some lang) → Plain lang) :
    TexDoc raw code t (codeBlockDoc st k s) := by
  have noOpt : ∀ name ∈ codeNames, TexDoc raw code t (environment name none (.text s)) := by
    intro name hn
    refine TexDoc.congr (a := .text (beginEnv name ++ ([] ++ '\n' :: (s ++ ['\n'])) ++ endEnv name))
      (by simp [environment, Doc.skel_app, Doc.skel, beginEnv, endEnv]) (.text ?_)
    exact code_tex hc hn (by simp) (hs name hn)
  unfold codeBlockDoc
  split
  · exact noOpt _ (by decide)
  · simp only
    split
    · rename_i lang
      refine TexDoc.congr (a := .text (beginEnv cs!"lstlisting" ++ ((cs!"[language=" ++ lang ++ cs!"]")
        ++ '\n' :: (s ++ ['\n'])) ++ endEnv cs!"lstlisting"))
        (by simp [environment, Doc.skel_app, Doc.skel, beginEnv, endEnv]) (.text ?_)
      refine code_tex hc (by decide) ?_ (hs _ (by decide))
      intro hc'
      simp only [List.mem_append] at hc'
      rcases hc' with (hc' | hc') | hc'
      · exact absurd hc' (by decide)
      · exact hl lang rfl _ hc' (by decide)
      · exact absurd hc' (by decide)
    · exact noOpt _ (by decide)
  · have h : ∀ lang, Plain lang → TexDoc raw code t
        (((((Doc.text (cs!"\\begin{minted}{" ++ lang ++ cs!"}")).app .hardline).app
          (.text s)).app .hardline).app (.text cs!"\\end{minted}")) := by
      intro lang hp
      refine TexDoc.congr (a := .text (beginEnv cs!"minted" ++ ((cs!"{" ++ lang ++ cs!"}")
        ++ '\n' :: (s ++ ['\n'])) ++ endEnv cs!"minted"))
        (by simp [Doc.skel_app, Doc.skel, beginEnv, endEnv]) (.text ?_)
      refine code_tex hc (by decide) ?_ (hs _ (by decide))
      intro hc'
      simp only [List.mem_append] at hc'
      rcases hc' with (hc' | hc') | hc'
      · exact absurd hc' (by decide)
      · exact hp _ hc' (by decide)
      · exact absurd hc' (by decide)
    simp only
    split
    · exact h _ (hl _ rfl)
    · exact h _ (by unfold Plain; decide)

end Latex
end Verif
