import Verif.LatexSource
import Verif.ParserProps
import Verif.Needs
/-!
# C103: what the LaTeX of a text can do

Which control sequences and environments the LaTeX of a document can have, as TeX's own lexer finds them.  None of them
reads or writes files, runs programs, or defines anything.
-/
set_option autoImplicit false
namespace Verif
open Nom
namespace Latex

/-! ## Specification -/

/-- What follows a backslash in a LaTeX text. -/
inductive Control
  /-- A character other than a letter. -/
  | symbol (c : Char)
  /-- A word. -/
  | word (name : Str)
  /-- `begin`, with the name of the environment. -/
  | environment (name : Str)
  /-- Nothing: the text ends. -/
  | nothing
  deriving DecidableEq, Repr

/-- The control sequences of a text, as TeX reads it: the longest word after the backslash, or else one character.
In an environment for code everything is literal, up to the first mark of its end.  `skip` is the number of characters
that have been read already, `code` the environment for code. -/
def controlsFrom (skip : Nat) (code : Option Str) : Str → List Control
  | [] => []
  | c :: s =>
    match skip, code with
    | n + 1, e => controlsFrom n e s
    | 0, some name =>
      if (endEnv name).isPrefixOf (c :: s) then .word cs!"end" :: controlsFrom ((endEnv name).length - 1) none s
      else controlsFrom 0 (some name) s
    | 0, none =>
      if c = '\\' then
        if s.takeWhile Char.isAlpha = [] then
          match s with
          | [] => [.nothing]
          | d :: _ => .symbol d :: controlsFrom 1 none s
        else if s.take 6 = cs!"begin{" then
          let name := (s.drop 6).takeWhile (· ≠ '}')
          if name ∈ codeNames then .environment name :: controlsFrom (name.length + 7) (some name) s
          else .environment name :: controlsFrom (name.length + 7) none s
        else .word (s.takeWhile Char.isAlpha) :: controlsFrom (s.takeWhile Char.isAlpha).length none s
      else controlsFrom 0 none s

/-- The control sequences of a text. -/
def controls (s : Str) : List Control := controlsFrom 0 none s

/-- The control sequences that a document may use. -/
def Control.Harmless : Control → Prop
  | .symbol c => c ∈ controlSymbols
  | .word n => n ∈ commandNames ++ wordNames ++ mathNames ++ [cs!"end"]
  | .environment n => n ∈ environmentNames ++ codeNames
  | .nothing => False

/-- None of them reads or writes files, runs programs, defines commands or changes the meaning of characters. -/
example : (∀ n ∈ [cs!"input", cs!"include", cs!"openin", cs!"openout", cs!"write", cs!"immediate", cs!"read", cs!"usepackage",
      cs!"def", cs!"let", cs!"newcommand", cs!"csname", cs!"catcode", cs!"directlua", cs!"verb", cs!"special"],
      ¬ (Control.word n).Harmless) ∧
    ∀ n ∈ [cs!"filecontents", cs!"document", cs!"luacode"], ¬ (Control.environment n).Harmless := by
  simp only [Control.Harmless]; decide +kernel

example : controls cs!"\\section{a\\_b} \\begin{verbatim}\n\\x\\end{verbatim}\\input{f}" =
    [.word cs!"section", .symbol '_', .environment cs!"verbatim", .word cs!"end", .word cs!"input"] := by decide +kernel

/-! ## Proof -/

theorem controls_skip {code : Option Str} (a r : Str) : controlsFrom a.length code (a ++ r) = controlsFrom 0 code r := by
  induction a with
  | nil => rfl
  | cons c a ih => simp only [List.cons_append, List.length_cons, controlsFrom]; exact ih

theorem controls_char {c : Char} (h : c ≠ '\\') (s : Str) : controlsFrom 0 none (c :: s) = controlsFrom 0 none s := by
  simp only [controlsFrom]; rw [if_neg h]

theorem controls_symbol {c : Char} (h : c.isAlpha = false) (s : Str) :
    controlsFrom 0 none ('\\' :: c :: s) = .symbol c :: controlsFrom 0 none s := by
  rw [controlsFrom]
  simp only [if_true]
  rw [if_pos (by simp [List.takeWhile, h])]
  rfl

theorem takeWhile_word {p : Char → Bool} {name : Str} (h : name.all p = true) {c : Char} (hc : p c = false) (s : Str) :
    (name ++ c :: s).takeWhile p = name := by
  rw [List.takeWhile_append_of_pos (by simpa using h)]
  simp [List.takeWhile, hc]

theorem controls_word {name : Str} (h : name.all Char.isAlpha = true) (h0 : name ≠ []) (hb : name ≠ cs!"begin") {c : Char}
    (hc : c.isAlpha = false) (s : Str) :
    controlsFrom 0 none ('\\' :: (name ++ c :: s)) = .word name :: controlsFrom 0 none (c :: s) := by
  have e := takeWhile_word h hc s
  rw [controlsFrom.eq_def]
  simp only [if_true]
  rw [e, if_neg h0, if_neg, controls_skip]
  intro h6
  have h7 : (name ++ c :: s).takeWhile Char.isAlpha = cs!"begin" := by
    rw [← List.take_append_drop 6 (name ++ c :: s), h6]
    exact takeWhile_word (name := cs!"begin") (by decide) (by decide) _
  exact hb (e.symm.trans h7)

theorem controls_begin {name : Str} (h : '}' ∉ name) (s : Str) : controlsFrom 0 none (beginEnv name ++ s) =
    .environment name :: controlsFrom 0 (if name ∈ codeNames then some name else none) s := by
  have e : beginEnv name ++ s = '\\' :: (cs!"begin" ++ '{' :: (name ++ '}' :: s)) := by simp [beginEnv]
  have e6 : ((cs!"begin" ++ '{' :: (name ++ '}' :: s)).drop 6).takeWhile (· ≠ '}') = name := by
    show (name ++ '}' :: s).takeWhile _ = name
    exact takeWhile_word (by simpa using fun c hc => by rintro rfl; exact h hc) (by decide) s
  have skip : ∀ code, controlsFrom (name.length + 7) code (cs!"begin" ++ '{' :: (name ++ '}' :: s)) =
      controlsFrom 0 code s := by
    intro code
    have := controls_skip (code := code) (cs!"begin{" ++ name ++ cs!"}") s
    simp only [List.append_assoc, List.length_append] at this
    rw [← this]
    simp; congr 1; omega
  rw [e, controlsFrom.eq_def]
  simp only [if_true]
  rw [takeWhile_word (name := cs!"begin") (by decide) (by decide), if_neg (by decide), if_pos (by rfl), e6]
  split
  · rw [skip]
  · rw [skip]

theorem controls_code {name : Str} {inner : Str}
    (h : ∀ pre post, inner ++ endEnv name = pre ++ endEnv name ++ post → post = []) (r : Str) :
    controlsFrom 0 (some name) (inner ++ endEnv name ++ r) = .word cs!"end" :: controlsFrom 0 none r := by
  induction inner with
  | nil =>
    have e : endEnv name = '\\' :: (endEnv name).drop 1 := rfl
    have l : (endEnv name).length - 1 = ((endEnv name).drop 1).length := by simp
    have hp : (endEnv name).isPrefixOf (endEnv name ++ r) = true := by
      rw [List.isPrefixOf_iff_prefix]; exact List.prefix_append _ _
    rw [List.nil_append]
    have e2 : endEnv name ++ r = '\\' :: ((endEnv name).drop 1 ++ r) := rfl
    rw [e2] at hp ⊢
    rw [controlsFrom]
    rw [if_pos hp, l, controls_skip]
  | cons c inner ih =>
    simp only [List.cons_append, controlsFrom]
    rw [if_neg, ih]
    · intro pre post e
      exact h (c :: pre) post (by simp only [List.cons_append, e])
    · intro hp
      rw [List.isPrefixOf_iff_prefix] at hp
      have h1 : endEnv name <+: (c :: inner) ++ endEnv name := by
        refine List.prefix_of_prefix_length_le hp (l₃ := c :: (inner ++ endEnv name ++ r)) ?_ (by simp; omega)
        exact ⟨r, by simp⟩
      obtain ⟨post, e⟩ := h1
      have := h [] post (by simpa using e.symm)
      subst this
      have := congrArg List.length e
      simp at this
      omega

/-- All control sequences are harmless. -/
def AllHarmless (l : List Control) : Prop := ∀ c ∈ l, c.Harmless

theorem AllHarmless.cons {c : Control} {l : List Control} (h : c.Harmless) (hl : AllHarmless l) : AllHarmless (c :: l) := by
  intro a ha
  rcases List.mem_cons.1 ha with rfl | ha
  · exact h
  · exact hl a ha

theorem Tex.harmless {raw : List Char} {code t : Bool} (hr : '\\' ∉ raw) {s : Str} (h : Tex raw code t s) (r : Str)
    (hh : AllHarmless (controlsFrom 0 none r)) : AllHarmless (controlsFrom 0 none (s ++ r)) := by
  have call : ∀ n ∈ commandNames ++ wordNames ++ mathNames, n.all Char.isAlpha = true ∧ n ≠ [] ∧ n ≠ cs!"begin" := by
    decide
  have word : ∀ n ∈ commandNames ++ wordNames ++ mathNames, ∀ c s, c.isAlpha = false → c ≠ '\\' →
      AllHarmless (controlsFrom 0 none s) → AllHarmless (controlsFrom 0 none ('\\' :: (n ++ c :: s))) := by
    intro n hn c s hc hc' hs
    rw [controls_word (call n hn).1 (call n hn).2.1 (call n hn).2.2 hc, controls_char hc']
    exact .cons (by simp only [Control.Harmless]; exact List.mem_append_left _ hn) hs
  have brace : ∀ s, AllHarmless (controlsFrom 0 none s) → AllHarmless (controlsFrom 0 none ('}' :: s)) := by
    intro s hs; rw [controls_char (by decide)]; exact hs
  have envs : ∀ n ∈ environmentNames ++ codeNames, '}' ∉ n := by decide
  have plain : ∀ n ∈ environmentNames, n ∉ codeNames := by decide
  have ends : ∀ n ∈ environmentNames, ∀ s, AllHarmless (controlsFrom 0 none s) →
      AllHarmless (controlsFrom 0 none (endEnv n ++ s)) := by
    intro n hn s hs
    have e : endEnv n ++ s = '\\' :: (cs!"end" ++ '{' :: (n ++ '}' :: s)) := by simp [endEnv]
    rw [e, controls_word (by decide) (by decide) (by decide) (by decide), controls_char (by decide)]
    refine .cons (by simp only [Control.Harmless]; decide) ?_
    have : ∀ n ∈ environmentNames, '\\' ∉ n := by decide
    have hb := this n hn
    clear e hn
    induction n with
    | nil => exact brace s hs
    | cons c n ih =>
      rw [List.cons_append, controls_char (by rintro rfl; exact hb (by simp))]
      exact ih (fun hm => hb (by simp [hm]))
  induction h generalizing r with
  | nil => exact hh
  | char t c s hc _ ih =>
    rw [List.cons_append, controls_char]
    · exact ih r hh
    · rintro rfl
      rcases hc with hc | hc
      · exact hc (by decide)
      · exact hr hc
  | symbol t c s hc _ ih =>
    have : ∀ c ∈ controlSymbols, c.isAlpha = false := by decide
    rw [List.cons_append, List.cons_append, controls_symbol (this c hc)]
    exact .cons hc (ih r hh)
  | ampersand s _ ih =>
    rw [List.cons_append, controls_char (by decide)]
    exact ih r hh
  | math t name s hn _ ih =>
    have e : ('$' :: '\\' :: name ++ '$' :: s) ++ r = '$' :: '\\' :: (name ++ '$' :: (s ++ r)) := by simp
    rw [e, controls_char (by decide)]
    exact word name (by simp [hn]) _ _ (by decide) (by decide) (ih r hh)
  | word t name c s hn hc _ ih =>
    have e : ('\\' :: name ++ c :: s) ++ r = '\\' :: (name ++ c :: (s ++ r)) := by simp
    rw [e]
    rcases hc with rfl | rfl
    · exact word name (by simp [hn]) _ _ (by decide) (by decide) (ih r hh)
    · exact word name (by simp [hn]) _ _ (by decide) (by decide) (ih r hh)
  | command t name inner s hn _ _ ih1 ih2 =>
    have e : ('\\' :: name ++ cs!"{" ++ inner ++ cs!"}" ++ s) ++ r =
        '\\' :: (name ++ '{' :: (inner ++ '}' :: (s ++ r))) := by simp
    rw [e]
    exact word name (by simp [hn]) _ _ (by decide) (by decide) (ih1 _ (brace _ (ih2 r hh)))
  | group t inner s _ _ ih1 ih2 =>
    have e : (cs!"{" ++ inner ++ cs!"}" ++ s) ++ r = '{' :: (inner ++ '}' :: (s ++ r)) := by simp
    rw [e, controls_char (by decide)]
    exact ih1 _ (brace _ (ih2 r hh))
  | env t name inner s hn _ _ ih1 ih2 =>
    have e : (beginEnv name ++ inner ++ endEnv name ++ s) ++ r =
      beginEnv name ++ (inner ++ (endEnv name ++ (s ++ r))) := by simp
    rw [e, controls_begin (envs name (by simp [hn])), if_neg (plain name hn)]
    exact .cons (by simp only [Control.Harmless]; simp [hn]) (ih1 _ (ends name hn _ (ih2 r hh)))
  | code t name inner s _ hn hi _ ih =>
    have e : (beginEnv name ++ inner ++ endEnv name ++ s) ++ r =
      beginEnv name ++ (inner ++ endEnv name ++ (s ++ r)) := by simp
    rw [e, controls_begin (envs name (by simp [hn])), if_pos hn, controls_code hi]
    exact .cons (by simp only [Control.Harmless]; simp [hn]) (.cons (by simp only [Control.Harmless]; decide) (ih r hh))

/-- **C103.** The control sequences in the LaTeX of a document are harmless, for every configuration and width.
Neither names of custom alerts nor code are escaped: the names must be without backslashes and braces, and code without
the mark of its end. -/
theorem C103_harmless (dw : Str → Nat) (cfg : Config) (d : Document)
    (ha : ∀ name b, d.HasBlock (.githubAlert (.custom name) b) → '\\' ∉ name ∧ '{' ∉ name ∧ '}' ∉ name)
    (hc : SafeCode d) : ∀ c ∈ controls (renderLatex dw cfg d), c.Harmless := by
  have h : Tex rawOk true false (renderLatex dw cfg d) := by
    refine render_tex dw cfg d fun b hb => ⟨?_, ?_, fun _ => .inl (by decide)⟩
    · rintro name bs rfl c hc
      obtain ⟨h1, h2, h3⟩ := ha name bs hb
      by_cases hs : c ∈ special
      · right
        simp only [special, List.mem_cons, List.not_mem_nil, or_false] at hs
        rcases hs with rfl | rfl | rfl | rfl | rfl | rfl | rfl | rfl | rfl | rfl
        · exact absurd hc h1
        · exact absurd hc h2
        · exact absurd hc h3
        all_goals decide
      · exact .inl hs
    · rintro k s rfl
      exact ⟨rfl, hc k s hb⟩
  have := h.harmless (by decide) [] (by intro c hc; simp [controlsFrom] at hc)
  rwa [List.append_nil] at this

/-- **C103.** So for every input, whatever it has in it, if code blocks are not parsed, or have no marks of their end. -/
theorem C103_text {x : PExt} {pc : PConfig} (hp : pc.Plain) {s : Str} {d : Document}
    (h : parseMarkdown x pc s = some d) (hc : pc.codeBlock = .parse → SafeCode d) (dw : Str → Nat) (cfg : Config) :
    ∀ c ∈ controls (renderLatex dw cfg d), c.Harmless := by
  refine C103_harmless dw cfg d (fun n b hb => ?_) ?_
  · obtain ⟨c, r, rfl, h1, h2⟩ := C40_alert_names hp h hb
    have key : ∀ e ∈ c :: r, isAlnum e = true ∨ e = '_' := by
      intro e he
      rcases List.mem_cons.1 he with rfl | he
      · exact .inl (isAlnum_of_isAlpha h1)
      · exact h2 e he
    have no : ∀ e, isAlnum e = false → e ≠ '_' → e ∉ c :: r := by
      intro e h3 h4 he
      rcases key e he with h | h
      · rw [h] at h3; cases h3
      · exact h4 h
    exact ⟨no _ (by decide) (by decide), no _ (by decide) (by decide), no _ (by decide) (by decide)⟩
  · by_cases e : pc.codeBlock = .parse
    · exact hc e
    · intro k t hk
      exact absurd hk ((C38_blocks_removed hp h).2.2.2.2.2.2.2.1 e k t)

/-- **C103**, a case: commands and code in a text are just text. -/
theorem C103_example : (parseMarkdown PExt.ascii (PConfig.default fun _ => none)
      cs!"\\input{a} `\\b` ^^5c\n\n> [!A_B]\n> c\n\n```rust\n\\write18\n```").map
      (fun d => (renderLatex List.length Config.default d, controls (renderLatex List.length Config.default d))) =
    some (cs!"\\textbackslash{}input\\{a\\} \\texttt{\\textbackslash{}b}\n\\textasciicircum{}\\textasciicircum{}5c\n\n\\footnote{A_B: c}\n\n\\begin{verbatim}\n\\write18\n\\end{verbatim}",
      [.word cs!"textbackslash", .symbol '{', .symbol '}', .word cs!"texttt", .word cs!"textbackslash",
       .word cs!"textasciicircum", .word cs!"textasciicircum", .word cs!"footnote", .environment cs!"verbatim",
       .word cs!"end"]) := by
  decide +kernel

/-- **C103**: without the condition on code it does not hold. -/
theorem C103_code : (parseMarkdown PExt.ascii (PConfig.default fun _ => none)
      cs!"```\n\\end{verbatim}\\input{a}\n```").map (fun d => controls (renderLatex List.length Config.default d)) =
    some [.environment cs!"verbatim", .word cs!"end", .word cs!"input", .word cs!"end"] ∧
    ¬ (Control.word cs!"input").Harmless := by
  refine ⟨by decide +kernel, ?_⟩
  simp only [Control.Harmless]; decide +kernel

/-! ### Carets: `^^5c` is a backslash for TeX -/

section Carets
open Source

/-- Each caret comes after a bracket. -/
def Careted (t : Text) : Prop := ∀ pre post, t = pre ++ some '^' :: post → pre.getLast? = some (some '[')

theorem Careted.without {t : Text} (h : some '^' ∉ t) : Careted t := by
  rintro pre post rfl
  exact absurd (by simp) h

theorem Careted.append {l r : Text} (hl : Careted l) (hr : Careted r) : Careted (l ++ r) := by
  intro pre post h
  rcases List.append_eq_append_iff.1 h with ⟨a, rfl, h2⟩ | ⟨a, h1, h2⟩
  · have := hr a post h2
    rw [List.getLast?_append, this]; rfl
  · cases a with
    | nil =>
      simp only [List.append_nil, List.nil_append] at h1 h2
      have := hr [] post h2.symm
      simp at this
    | cons c a =>
      simp only [List.cons_append, List.cons.injEq] at h2
      rw [← h2.1] at h1
      exact hl pre a h1

theorem Careted.lit {s : Str} (h : '^' ∉ s) : Careted (lit s) := .without (by simpa [Source.lit] using h)

theorem spelled_no_caret (s : Str) : some '^' ∉ spelled s := by
  simp only [spelled, spell, Source.lit, List.mem_map, List.mem_flatMap, not_exists, not_and]
  rintro c ⟨d, _, hd⟩ e
  cases e
  by_cases h : d ∈ spelling.map Prod.fst
  · have : ∀ d ∈ spelling.map Prod.fst, '^' ∉ (spelling.lookup d).getD [d] := by decide
    exact this d h hd
  · have e : spelling.lookup d = none := by
      rw [List.lookup_eq_none_iff]
      intro p hp
      simp only [List.mem_map, not_exists, not_and] at h
      simpa using fun e => h p hp e.symm
    rw [e] at hd
    simp only [Option.getD_none, List.mem_singleton] at hd
    rw [← hd] at h
    exact h (by decide)

theorem Careted.spelled (s : Str) : Careted (spelled s) := .without (spelled_no_caret s)

theorem running_no_caret (a : Bool) (s : Str) : some '^' ∉ running a s := by
  induction s generalizing a with
  | nil => simp [running]
  | cons c s ih =>
    simp only [running]
    split
    · split
      · exact ih _
      · simpa using ih _
    · rw [List.mem_append, not_or]; exact ⟨spelled_no_caret _, ih _⟩

theorem Careted.braces {t : Text} (h : Careted t) : Careted (braces t) :=
  ((Careted.lit (by decide)).append h).append (.lit (by decide))

theorem Careted.call {name : Str} {t : Text} (hn : '^' ∉ name) (h : Careted t) : Careted (call name t) :=
  (Careted.lit (by simpa using hn)).append h.braces

theorem digits_no_caret (n : Nat) : '^' ∉ digits n := by
  intro h
  have : ∀ c ∈ Nat.toDigits 10 n, c.isDigit := fun c hc => Nat.isDigit_of_mem_toDigits (by decide) (by decide) hc
  exact absurd (this _ h) (by decide)

theorem inline_careted (x : Context) :
    (∀ i, Careted (inlineText x i)) ∧ ∀ l, Careted (inlineTexts x l) := by
  apply Inline.ind
  case text =>
    intro s
    simp only [inlineText, textNode]
    split
    · exact .spelled _
    · exact .without (running_no_caret _ _)
  case lineBreak => exact .lit (by decide)
  case code => intro s; exact .call (by decide) (.spelled _)
  case html => intro s; exact .spelled _
  case link =>
    intro d t c ih
    cases t with
    | none => exact (Careted.call (by decide) (.spelled _)).append ih.braces
    | some t => exact ((Careted.call (by decide) (.spelled _)).append ih.braces).append (.call (by decide) (.spelled _))
  case linkReference =>
    intro l t hl ht
    simp only [inlineText]
    split
    · exact (Careted.call (by decide) (.spelled _)).append ht.braces
    · exact ((((Careted.lit (by decide)).append ht).append (.lit (by decide))).append hl).append (.lit (by decide))
  case image =>
    intro d t a
    simp only [inlineText]
    refine ((Careted.call (by decide) (.without (by simp))).append (Careted.spelled _).braces).append ?_
    split
    · exact .without (by simp)
    · exact .call (by decide) (.spelled _)
  case emphasis => intro c ih; exact .call (by decide) ih
  case strong => intro c ih; exact .call (by decide) ih
  case strikethrough => intro c ih; exact .call (by decide) ih
  case autolink => intro u; exact .call (by decide) (.spelled _)
  case footnoteReference =>
    intro l
    simp only [inlineText]
    split
    · refine .call (by decide) (.lit ?_)
      simp only [List.mem_append, not_or]
      exact ⟨⟨by decide, digits_no_caret _⟩, by decide⟩
    · refine (Careted.append ?_ (.spelled _)).append (.lit (by decide))
      intro pre post h
      rcases pre with _ | ⟨a, _ | ⟨b, pre⟩⟩
      · simp [lit] at h
      · simp only [lit, List.map_cons, List.map_nil, List.cons_append, List.nil_append, List.cons.injEq] at h
        rw [← h.1]; rfl
      · simp [lit] at h
  case empty => exact .without (by simp [inlineText])
  case nil => exact .without (by simp [inlineTexts])
  case cons => intro i l hi hl; exact hi.append hl

theorem Careted.joined {sep : Text} (hs : Careted sep) {l : List Text} (h : ∀ t ∈ l, Careted t) : Careted (joined sep l) := by
  induction l with
  | nil => exact .without (by simp [Source.joined])
  | cons a l ih =>
    cases l with
    | nil => exact h a (by simp)
    | cons b l => exact ((h a (by simp)).append hs).append (ih fun t ht => h t (by simp [ht]))

theorem Careted.flatten {l : List Text} (h : ∀ t ∈ l, Careted t) : Careted l.flatten := by
  induction l with
  | nil => exact .without (by simp)
  | cons a l ih => rw [List.flatten_cons]; exact (h a (by simp)).append (ih fun t ht => h t (by simp [ht]))

theorem Careted.env {name opts : Str} {t : Text} (hn : '^' ∉ name) (ho : '^' ∉ opts) (h : Careted t) :
    Careted (env name opts t) := by
  refine ((Careted.lit ?_).append h).append (.lit ?_)
  · simp only [beginEnv, List.mem_append, not_or]
    exact ⟨⟨⟨⟨by decide, hn⟩, by decide⟩, ho⟩, by decide⟩
  · simp only [endEnv, List.mem_append, not_or]
    exact ⟨by decide, ⟨by decide, hn⟩, by decide⟩

theorem careted_rows (x : Context) {rule last : Str} (h1 : '^' ∉ rule) (h2 : '^' ∉ last) (rows : List (List (List Inline))) :
    Careted (rowsText x rule last rows) := by
  have hr : ∀ r, Careted (row x r) := by
    intro r
    refine (Careted.joined (.lit (by decide)) ?_).append (.lit (by decide))
    intro t ht
    obtain ⟨c, _, rfl⟩ := List.mem_map.1 ht
    exact (inline_careted x).2 c
  cases rows with
  | nil => exact .without (by simp [rowsText])
  | cons h l =>
    refine ((hr h).append (.lit ?_)).append (.flatten ?_)
    · simp only [List.mem_append, not_or]; exact ⟨⟨by decide, h1⟩, by decide⟩
    · intro t ht
      obtain ⟨r, _, rfl⟩ := List.mem_map.1 ht
      refine (hr r).append (.lit ?_)
      simp only [List.mem_append, not_or]; exact ⟨h2, by decide⟩

theorem columns_no_caret (al : List Alignment) : '^' ∉ al.map column := by
  intro h
  obtain ⟨a, _, h⟩ := List.mem_map.1 h
  cases a <;> exact absurd h (by decide)

/-- No code, and no carets in the names of alerts. -/
def Fine : Block → Prop
  | .codeBlock _ _ => False
  | .githubAlert (.custom n) _ => '^' ∉ n
  | _ => True

theorem block_careted (cfg : Config) (x : Context) :
    (∀ b, (∀ c ∈ Block.pre b, Fine c) → Careted (blockText cfg x b)) ∧
    (∀ i, (∀ c ∈ ListItem.pre i, Fine c) → Careted (itemText cfg x i)) ∧
    (∀ l, (∀ c ∈ Block.preL l, Fine c) → ∀ t ∈ blockTexts cfg x l, Careted t) ∧
    (∀ l, (∀ c ∈ ListItem.preL l, Fine c) → Careted (itemsText cfg x l)) := by
  have sep : Careted (lit cs!"\n\n") := .lit (by decide)
  apply Block.ind
  case paragraph => intro c _; exact (inline_careted x).2 c
  case heading =>
    intro k c _
    refine .call ?_ ((inline_careted x).2 c)
    unfold sectioning
    split <;> decide
  case thematicBreak => intro _; exact .call (by decide) (.without (by simp))
  case blockQuote =>
    intro b ih h
    exact .env (by decide) (by decide) (.joined sep (ih fun c hc => h c (by simp [Block.pre, hc])))
  case list =>
    intro k i ih h
    exact .env (by cases k <;> (show '^' ∉ _; simp [listName])) (by decide) (ih fun c hc => h c (by simp [Block.pre, hc]))
  case codeBlock => intro k s h; exact (h (.codeBlock k s) (by simp [Block.pre])).elim
  case htmlBlock => intro s _; exact .spelled _
  case definition => intro l d t _; exact .without (by simp [blockText])
  case table =>
    intro rows al _
    simp only [blockText]
    have hc : ∀ a b : Str, '^' ∉ a → '^' ∉ b → '^' ∉ a ++ al.map column ++ b := by
      intro a b ha hb
      simp only [List.mem_append, not_or]
      exact ⟨⟨ha, columns_no_caret al⟩, hb⟩
    cases cfg.tableStyle with
    | tabular => exact .env (by decide) (hc _ _ (by decide) (by decide)) (careted_rows x (by decide) (by decide) rows)
    | longtabu => exact .env (by decide) (hc _ _ (by decide) (by decide)) (careted_rows x (by decide) (by decide) rows)
    | booktabs =>
      exact .env (by decide) (hc _ _ (by decide) (by decide))
        (((Careted.lit (by decide)).append (careted_rows x (by decide) (by decide) rows)).append (.lit (by decide)))
  case footnoteDefinition =>
    intro l b ih h
    simp only [blockText]
    split
    · refine .call (by decide) ((Careted.lit ?_).append (.joined sep (ih fun c hc => h c (by simp [Block.pre, hc]))))
      simp only [List.mem_append, not_or]
      exact ⟨⟨by decide, digits_no_caret _⟩, by decide⟩
    · exact .without (by simp)
  case githubAlert =>
    intro t b ih h
    refine .call (by decide) ((Careted.lit ?_).append (.joined sep (ih fun c hc => h c (by simp [Block.pre, hc]))))
    rw [List.mem_append, not_or]
    refine ⟨?_, by decide⟩
    cases t with
    | custom n => exact h (.githubAlert (.custom n) b) (by simp [Block.pre])
    | _ => decide
  case empty => intro _; exact .without (by simp [blockText])
  case item =>
    intro t b ih h
    refine ((Careted.lit ?_).append (.joined sep (ih fun c hc => h c (by simp [ListItem.pre, hc])))).append (.lit (by decide))
    rcases t with _ | _ | _ <;> decide
  case nilB => intro _ t ht; simp [blockTexts] at ht
  case consB =>
    intro b l hb hl h t ht
    simp only [blockTexts, List.mem_cons] at ht
    rcases ht with rfl | ht
    · exact hb fun c hc => h c (by simp [Block.preL, hc])
    · exact hl (fun c hc => h c (by simp [Block.preL, hc])) t ht
  case nilI => intro _; exact .without (by simp [itemsText])
  case consI =>
    intro i l hi hl h
    exact (hi fun c hc => h c (by simp [ListItem.preL, hc])).append (hl fun c hc => h c (by simp [ListItem.preL, hc]))

theorem fills_split {t : Text} {pre post : Str} {c : Char} (h : Fills t (pre ++ c :: post)) (hc : c ≠ ' ' ∧ c ≠ '\n') :
    ∃ p q, t = p ++ some c :: q ∧ Fills p pre := by
  induction pre generalizing t with
  | nil =>
    cases h with
    | char _ h => exact ⟨[], _, rfl, .nil⟩
    | space h => exact absurd rfl hc.1
    | newline h => exact absurd rfl hc.2
  | cons a pre ih =>
    cases h with
    | char _ h => obtain ⟨p, q, rfl, hp⟩ := ih h; exact ⟨_ :: p, q, rfl, .char _ hp⟩
    | space h => obtain ⟨p, q, rfl, hp⟩ := ih h; exact ⟨_ :: p, q, rfl, .space hp⟩
    | newline h => obtain ⟨p, q, rfl, hp⟩ := ih h; exact ⟨_ :: p, q, rfl, .newline hp⟩

theorem fills_last {t : Text} {s : Str} (h : Fills t s) {c : Char} (hl : t.getLast? = some (some c)) :
    s.getLast? = some c := by
  induction h with
  | nil => simp at hl
  | @char d sk s h ih =>
    cases h with
    | nil => simpa using hl
    | _ => simpa [List.getLast?_cons_cons] using ih (by simpa [List.getLast?_cons_cons] using hl)
  | @space sk s h ih =>
    cases h with
    | nil => simp at hl
    | _ => simpa [List.getLast?_cons_cons] using ih (by simpa [List.getLast?_cons_cons] using hl)
  | @newline sk s h ih =>
    cases h with
    | nil => simp at hl
    | _ => simpa [List.getLast?_cons_cons] using ih (by simpa [List.getLast?_cons_cons] using hl)

/-- **C103.** There are no two carets in a row, with which TeX would read any character, outside of code: each caret comes
after a bracket. -/
theorem C103_carets (dw : Str → Nat) (cfg : Config) (d : Document) (hc : ∀ k s, ¬ d.HasBlock (.codeBlock k s))
    (ha : ∀ name b, d.HasBlock (.githubAlert (.custom name) b) → '^' ∉ name) :
    (∀ pre post, renderLatex dw cfg d = pre ++ '^' :: post → pre.getLast? = some '[') ∧
    ¬ cs!"^^" <:+: renderLatex dw cfg d := by
  have key : ∀ pre post, renderLatex dw cfg d = pre ++ '^' :: post → pre.getLast? = some '[' := by
    intro pre post h
    have hf := C59_source dw cfg d
    rw [h] at hf
    obtain ⟨p, q, h1, h2⟩ := fills_split hf (by decide)
    refine fills_last h2 (Careted.joined (.lit (by decide)) ((block_careted cfg _).2.2.1 d.blocks ?_) p q h1)
    intro b hb
    have hb := (Document.mem_allBlocks d b).1 hb
    match b, hb with
    | .codeBlock k s, hb => exact absurd hb (hc k s)
    | .githubAlert (.custom n) b, hb => exact ha n b hb
    | .githubAlert .note _, _ | .githubAlert .tip _, _ | .githubAlert .important _, _ | .githubAlert .warning _, _
    | .githubAlert .caution _, _ | .paragraph _, _ | .heading _ _, _ | .thematicBreak, _ | .blockQuote _, _ | .list _ _, _
    | .htmlBlock _, _ | .definition _ _ _, _ | .table _ _, _ | .footnoteDefinition _ _, _ | .empty, _ => trivial
  refine ⟨key, ?_⟩
  rintro ⟨pre, post, h⟩
  have := key (pre ++ cs!"^") post (by rw [← h]; simp)
  simp at this

/-- **C103.** So for every input, if code blocks are not parsed. -/
theorem C103_text_carets {x : PExt} {pc : PConfig} (hp : pc.Plain) (hc : pc.codeBlock ≠ .parse) {s : Str} {d : Document}
    (h : parseMarkdown x pc s = some d) (dw : Str → Nat) (cfg : Config) : ¬ cs!"^^" <:+: renderLatex dw cfg d := by
  refine (C103_carets dw cfg d ((C38_blocks_removed hp h).2.2.2.2.2.2.2.1 hc) fun n b hb => ?_).2
  obtain ⟨c, r, rfl, h1, h2⟩ := C40_alert_names hp h hb
  intro he
  rcases List.mem_cons.1 he with rfl | he
  · exact absurd h1 (by decide)
  · exact absurd (h2 _ he) (by decide)

end Carets

end Latex
end Verif
