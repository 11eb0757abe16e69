import Verif.ParserHead
/-!
# What given texts parse to: lines, blocks one after the other, code blocks (C43)
-/
set_option linter.unusedVariables false
namespace Verif
open Nom

/-! ## Specification: lines -/

/-- A text without line endings (nor carriage returns). -/
def OneLine (l : Str) : Prop := ∀ c ∈ l, c ≠ '\n' ∧ c ≠ '\r'

/-- A line ending. -/
def IsNewline (nl : Str) : Prop := nl = ['\n'] ∨ nl = ['\r', '\n']

/-- `e` ends a line in front of `rest`: a line ending, or the end of the input. -/
def LineEnd (e rest : Str) : Prop := IsNewline e ∨ (e = [] ∧ rest = [])

/-- Lines, each followed by the line ending `nl`. -/
def unlines (nl : Str) (ls : List Str) : Str := (ls.map (· ++ nl)).flatten

/-- Up to `n` leading spaces removed. -/
def dropSpaces : Nat → Str → Str
  | n + 1, ' ' :: s => dropSpaces n s
  | _, s => s

/-! ## Lemmas on lines -/

theorem LineEnd.eofOrEol {e rest : Str} (h : LineEnd e rest) :
    eofOrEol (e ++ rest) = some (rest, e) := by
  rcases h with (rfl | rfl) | ⟨rfl, rfl⟩ <;> rfl

theorem span_oneLine {l t : Str} (hl : OneLine l) :
    (l ++ t).takeWhile notCrLf = l ++ t.takeWhile notCrLf ∧
    (l ++ t).dropWhile notCrLf = t.dropWhile notCrLf := by
  induction l with
  | nil => exact ⟨rfl, rfl⟩
  | cons c l ih =>
    have hc : notCrLf c = true := by
      have := hl c (by simp); simp [notCrLf, this.1, this.2]
    have := ih (fun d hd => hl d (by simp [hd]))
    simp only [List.cons_append, List.takeWhile_cons, List.dropWhile_cons, hc, if_true]
    exact ⟨by rw [this.1], this.2⟩

theorem LineEnd.span {e rest : Str} (h : LineEnd e rest) :
    (e ++ rest).takeWhile notCrLf = [] ∧ (e ++ rest).dropWhile notCrLf = e ++ rest := by
  rcases h with (rfl | rfl) | ⟨rfl, rfl⟩ <;> exact ⟨rfl, rfl⟩

theorem notEofOrEol0_line {l e rest : Str} (hl : OneLine l) (h : LineEnd e rest) :
    notEofOrEol0 (l ++ (e ++ rest)) = some (e ++ rest, l) := by
  unfold notEofOrEol0
  apply orElse_of_some
  unfold notLineEnding
  rw [(span_oneLine hl).1, (span_oneLine hl).2, h.span.1, h.span.2, List.append_nil]
  rcases h with (rfl | rfl) | ⟨rfl, rfl⟩ <;> rfl

theorem line0 {l e rest : Str} (hl : OneLine l) (h : LineEnd e rest) :
    lineTerminated notEofOrEol0 (l ++ (e ++ rest)) = some (rest, l) :=
  terminated_some.2 ⟨_, _, notEofOrEol0_line hl h, h.eofOrEol⟩

theorem eofOrEol_cons {c : Char} {t : Str} (h1 : c ≠ '\n') (h2 : c ≠ '\r') :
    eofOrEol (c :: t) = none := by
  cases e : eofOrEol (c :: t) with
  | none => rfl
  | some y =>
    obtain ⟨a, b⟩ := y
    rcases eofOrEol_some.1 e with ⟨h, _⟩ | ⟨h, _⟩ | ⟨h, _⟩ <;> simp at h
    · exact absurd h.1 h1
    · exact absurd h.1 h2

theorem notEol_many0 {l e rest : Str} (hl : OneLine l) (h : LineEnd e rest) :
    many0 (preceded (notP eofOrEol) anychar) (l ++ (e ++ rest)) = some (e ++ rest, l) := by
  induction l with
  | nil =>
    refine many0_of_none ?_
    cases ep : preceded (notP eofOrEol) anychar ([] ++ (e ++ rest)) with
    | none => rfl
    | some y =>
      obtain ⟨_, _, h1, _⟩ := preceded_some.1 ep
      have := (notP_some.1 h1).1
      rw [List.nil_append, h.eofOrEol] at this; simp at this
  | cons c l ih =>
    have hc := hl c (by simp)
    exact many0_of_some (preceded_not_anychar (eofOrEol_cons hc.1 hc.2)) (by simp)
      (ih (fun d hd => hl d (by simp [hd])))

theorem notEofOrEol1_line {l e rest : Str} (hl : OneLine l) (hne : l ≠ []) (h : LineEnd e rest) :
    notEofOrEol1 (l ++ (e ++ rest)) = some (e ++ rest, l) := by
  unfold notEofOrEol1
  cases l with
  | nil => exact absurd rfl hne
  | cons c l =>
    have hc := hl c (by simp)
    refine recognize_some.2 ⟨c :: l, ?_, ?_⟩
    · exact many1_some.2 ⟨_, _, _, preceded_not_anychar (eofOrEol_cons hc.1 hc.2),
        notEol_many0 (fun d hd => hl d (by simp [hd])) h, rfl⟩
    · simp only [List.length_append]
      rw [show (c :: l).length + (e.length + rest.length) - (e.length + rest.length) =
        (c :: l).length by omega]
      simp

theorem line1 {l e rest : Str} (hl : OneLine l) (hne : l ≠ []) (h : LineEnd e rest) :
    lineTerminated notEofOrEol1 (l ++ (e ++ rest)) = some (rest, l) :=
  terminated_some.2 ⟨_, _, notEofOrEol1_line hl hne h, h.eofOrEol⟩

theorem dropSpaces_ne {c : Char} {s : Str} (n : Nat) (h : c ≠ ' ') :
    dropSpaces n (c :: s) = c :: s := by
  unfold dropSpaces
  split
  · rename_i h'; simp at h'; exact absurd h'.1 h
  · rfl

theorem manyMN_spaces (n : Nat) (s : Str) :
    ∃ l, manyMN (chr ' ') 0 n s = some (dropSpaces n s, l) ∧ l ++ dropSpaces n s = s := by
  induction n generalizing s with
  | zero => exact ⟨[], rfl, by simp [dropSpaces]⟩
  | succ n ih =>
    cases s with
    | nil => exact ⟨[], rfl, rfl⟩
    | cons c s =>
      by_cases hc : c = ' '
      · subst hc
        obtain ⟨l, h1, h2⟩ := ih s
        refine ⟨' ' :: l, ?_, ?_⟩
        · rw [manyMN, chr_cons]
          simp only [List.length_cons, Nat.lt_succ_self, if_true, Nat.zero_sub, h1]
          rfl
        · simp only [dropSpaces, List.cons_append, h2]
      · refine ⟨[], ?_, ?_⟩
        · rw [manyMN_zero_of_none (chr_ne hc)]
          rw [dropSpaces_ne _ hc]
        · rw [dropSpaces_ne _ hc, List.nil_append]

theorem dropSpaces_append {l t : Str} (n : Nat) (ht : t.head? ≠ some ' ') :
    dropSpaces n (l ++ t) = dropSpaces n l ++ t := by
  induction n generalizing l with
  | zero => simp [dropSpaces]
  | succ n ih =>
    cases l with
    | nil =>
      cases t with
      | nil => rfl
      | cons c t =>
        have hc : c ≠ ' ' := by rintro rfl; simp at ht
        rw [List.nil_append, dropSpaces_ne _ hc]; rfl
    | cons c l =>
      by_cases hc : c = ' '
      · subst hc; simp only [List.cons_append, dropSpaces]; exact ih
      · rw [List.cons_append, dropSpaces_ne _ hc, dropSpaces_ne _ hc, List.cons_append]

theorem LineEnd.head {e rest : Str} (h : LineEnd e rest) : (e ++ rest).head? ≠ some ' ' := by
  rcases h with (rfl | rfl) | ⟨rfl, rfl⟩ <;> simp

theorem OneLine.dropSpaces {l : Str} (h : OneLine l) (n : Nat) : OneLine (dropSpaces n l) := by
  obtain ⟨p, _, hp⟩ := manyMN_spaces n l
  intro c hc
  exact h c (by rw [← hp]; simp [hc])

theorem OneLine.append {a b : Str} (ha : OneLine a) (hb : OneLine b) : OneLine (a ++ b) := by
  intro c hc
  rcases List.mem_append.1 hc with h | h
  · exact ha c h
  · exact hb c h

theorem OneLine.replicate {c : Char} (n : Nat) (h1 : c ≠ '\n') (h2 : c ≠ '\r') :
    OneLine (List.replicate n c) := by
  intro d hd
  rw [(List.mem_replicate.1 hd).2]; exact ⟨h1, h2⟩

/-- A line and its ending are determined by the text. -/
theorem line_unique {a b e f r q : Str} (ha : OneLine a) (hb : OneLine b) (he : LineEnd e r)
    (hf : LineEnd f q) (h : a ++ (e ++ r) = b ++ (f ++ q)) : a = b ∧ e ++ r = f ++ q := by
  have h1 := congrArg (List.takeWhile notCrLf) h
  rw [(span_oneLine ha).1, (span_oneLine hb).1, he.span.1, hf.span.1] at h1
  simp only [List.append_nil] at h1
  subst h1
  exact ⟨rfl, List.append_cancel_left h⟩

theorem LineEnd.of_eofOrEol {s r u : Str} (h : Verif.eofOrEol s = some (r, u)) :
    LineEnd u r ∧ s = u ++ r := by
  rcases eofOrEol_some.1 h with ⟨rfl, rfl⟩ | ⟨rfl, rfl⟩ | ⟨rfl, rfl, rfl⟩
  · exact ⟨.inl (.inl rfl), rfl⟩
  · exact ⟨.inl (.inr rfl), rfl⟩
  · exact ⟨.inr ⟨rfl, rfl⟩, rfl⟩

theorem many0_chr {c : Char} {t : Str} (n : Nat) (ht : t.head? ≠ some c) :
    many0 (chr c) (List.replicate n c ++ t) = some (t, List.replicate n c) := by
  induction n with
  | zero =>
    refine many0_of_none ?_
    cases t with
    | nil => rfl
    | cons d t => exact chr_ne (by rintro rfl; simp at ht)
  | succ n ih => exact many0_of_some (chr_cons _ _) (by simp) ih

theorem many0_chr_some {c : Char} {s r : Str} {l : List Char} (h : many0 (chr c) s = some (r, l)) :
    ∃ n, l = List.replicate n c ∧ s = List.replicate n c ++ r ∧ r.head? ≠ some c := by
  refine many0_induction (M := fun s r l => ∃ n, l = List.replicate n c ∧
    s = List.replicate n c ++ r ∧ r.head? ≠ some c) ?_ ?_ s r l h
  · intro s hs
    refine ⟨0, rfl, rfl, ?_⟩
    cases s with
    | nil => simp
    | cons d s => intro hd; simp at hd; subst hd; rw [chr_cons] at hs; simp at hs
  · rintro s r a r' l h1 _ _ ⟨n, rfl, rfl, h4⟩
    obtain ⟨rfl, rfl⟩ := chr_some.1 h1
    exact ⟨n + 1, rfl, rfl, h4⟩

theorem indent03_replicate {k : Nat} {t : Str} (hk : k ≤ 3) (ht : t.head? ≠ some ' ') :
    indent03 (List.replicate k ' ' ++ t) = some (t, List.replicate k ' ') := by
  have key : ∀ k n, k ≤ n → manyMN (chr ' ') 0 n (List.replicate k ' ' ++ t) =
      some (t, List.replicate k ' ') := by
    intro k
    induction k with
    | zero =>
      intro n _
      refine manyMN_zero_of_none ?_ n
      cases t with
      | nil => rfl
      | cons d t => exact chr_ne (by rintro rfl; simp at ht)
    | succ k ih =>
      intro n hn
      obtain ⟨n, rfl⟩ : ∃ m, n = m + 1 := ⟨n - 1, by omega⟩
      rw [List.replicate_succ, List.cons_append, manyMN, chr_cons]
      simp only [List.length_cons, Nat.lt_succ_self, if_true, Nat.zero_sub,
        ih n (by omega)]
  exact key k 3 hk

theorem indent03_spec {s r : Str} {l : List Char} (h : indent03 s = some (r, l)) :
    ∃ k, k ≤ 3 ∧ l = List.replicate k ' ' ∧ s = List.replicate k ' ' ++ r := by
  have key : ∀ n s r l, manyMN (chr ' ') 0 n s = some (r, l) →
      ∃ k, k ≤ n ∧ l = List.replicate k ' ' ∧ s = List.replicate k ' ' ++ r := by
    intro n
    induction n with
    | zero => intro s r l h; simp [manyMN] at h; exact ⟨0, by omega, by simp [h.2], by simp [h.1]⟩
    | succ n ih =>
      intro s r l h
      rw [manyMN] at h
      cases e : chr ' ' s with
      | none => simp [e] at h; exact ⟨0, by omega, by simp [h.2], by simp [h.1]⟩
      | some y =>
        obtain ⟨s1, c⟩ := y
        obtain ⟨rfl, rfl⟩ := chr_some.1 e
        simp only [e, List.length_cons, Nat.lt_succ_self, if_true, Nat.zero_sub] at h
        cases e2 : manyMN (chr ' ') 0 n s1 with
        | none => simp [e2] at h
        | some z =>
          obtain ⟨r', l'⟩ := z
          simp only [e2, Option.some.injEq, Prod.mk.injEq] at h
          obtain ⟨rfl, rfl⟩ := h
          obtain ⟨k, hk, rfl, rfl⟩ := ih _ _ _ e2
          exact ⟨k + 1, by omega, rfl, rfl⟩
  exact key 3 s r l h

/-! ## Blocks one after the other -/

section
variable {x : PExt} {cfg : PConfig}

/-- A document is its first block followed by the document that starts after it. -/
theorem parseMarkdown_cons (hc : cfg.CustomOk) {s r : Str} {bs : List Block}
    (h : blockP x cfg s = some (r, bs)) :
    parseMarkdown x cfg s = (parseMarkdown x cfg r).map (fun d => ⟨bs ++ d.blocks⟩) := by
  have := blockP_con (x := x) hc
  unfold parseMarkdown
  rw [parseMarkdownF_eq hc (by omega), parseMarkdownF_eq hc (by omega)]
  obtain ⟨r', l, hm⟩ := many0_ex (p := blockP x cfg) r
  have hm' := many0_of_some h (Con.lt h) hm
  have key : ∀ l' t, many0 (blockP x cfg) t = some (r', l') →
      terminated (many0 (blockP x cfg)) (seq (many0 (space1 <||> lineEnding)) eof) t =
        (seq (many0 (space1 <||> lineEnding)) eof r').map (fun y => (y.1, l')) := by
    intro l' t ht
    generalize seq (many0 (space1 <||> lineEnding)) eof = q
    unfold terminated mapP seq
    rw [ht]
    cases h : q r' with
    | none => simp [h]
    | some y => simp [h]
  rw [key _ _ hm, key _ _ hm']
  cases seq (many0 (space1 <||> lineEnding)) eof r' with
  | none => rfl
  | some y => simp

theorem parseMarkdown_nil : parseMarkdown x cfg [] = some ⟨[]⟩ := C39_blank x cfg .nil

/-- A document that is one block. -/
theorem parseMarkdown_one (hc : cfg.CustomOk) {s : Str} {bs : List Block}
    (h : blockP x cfg s = some ([], bs)) : parseMarkdown x cfg s = some ⟨bs⟩ := by
  rw [parseMarkdown_cons hc h, parseMarkdown_nil]; simp

/-- No blank line in front: `block` goes to its alternatives. -/
theorem blockP_alt (hc : cfg.CustomOk) {s : Str} (h : preceded space0 eofOrEol s = none) :
    blockP x cfg s = blockAlt x cfg (blockP x cfg) s := by
  rw [blockP_eq hc]
  unfold blockStep manyEmptyLines0
  generalize blockAlt x cfg (blockP x cfg) = q
  unfold preceded at *
  rw [many0_of_none h]

/-- A line that starts with spaces and then a visible character. -/
theorem notBlankLine {k : Nat} {c : Char} {t : Str} (h1 : isSpace c = false) (h3 : c ≠ '\n')
    (h4 : c ≠ '\r') : preceded space0 eofOrEol (List.replicate k ' ' ++ c :: t) = none := by
  have : preceded space0 eofOrEol (List.replicate k ' ' ++ c :: t) =
      eofOrEol ((List.replicate k ' ' ++ c :: t).dropWhile isSpace) := rfl
  rw [this, (dropWhile_isSpace_append (fun d hd => .inl (List.mem_replicate.1 hd).2) h1).1]
  exact eofOrEol_cons h3 h4

theorem conditionalBlock_parse {b : Behavior Block} {p : P Block} {s : Str} (hb : b = .parse) :
    conditionalBlock b p s = (p s).map (fun y => (y.1, [y.2])) := by
  subst hb
  show mapP p (fun v => [v]) s = _
  unfold mapP
  cases p s with
  | none => rfl
  | some y => rfl

theorem conditionalBlock_none {b : Behavior Block} {p : P Block} {s : Str} (h : p s = none) :
    conditionalBlock b p s = none := conditional_none.2 (.inr h)

/-! ## Code blocks -/

/-- Indented code needs four spaces or a tab. -/
theorem codeBlockIndented_indent {k : Nat} {c : Char} {t : Str} (hk : k ≤ 3) (h1 : c ≠ ' ')
    (h2 : c ≠ '\t') : codeBlockIndented (List.replicate k ' ' ++ c :: t) = none := by
  unfold codeBlockIndented
  rw [mapP_none]
  refine many1_none_of (preceded_none ?_)
  rw [orElse_none, value_none, value_none]
  constructor
  · have : k = 0 ∨ k = 1 ∨ k = 2 ∨ k = 3 := by omega
    rcases this with rfl | rfl | rfl | rfl <;>
      simp [List.replicate, manyMN, chr_cons, chr_ne h1]
  · cases k with
    | zero => exact chr_ne h2
    | succ k => exact chr_ne (by decide)

end

/-! ### Specification of fenced code -/

/-- A line that closes a fence of `n` characters `f`: at most three spaces and at least `n` times
the character. -/
def ClosesFence (f : Char) (n : Nat) (l : Str) : Prop :=
  ∃ k m, k ≤ 3 ∧ n ≤ m ∧ l = List.replicate k ' ' ++ List.replicate m f

section
variable {x : PExt} {cfg : PConfig}

theorem endingFence_of {f : Char} {k n m : Nat} {e rest : Str} (hf : f = '`' ∨ f = '~')
    (hk : k ≤ 3) (hn : 1 ≤ n) (hm : n ≤ m) (he : LineEnd e rest) :
    endingFence (List.replicate n f)
      (List.replicate k ' ' ++ (List.replicate m f ++ (e ++ rest))) = some (rest, ()) := by
  have hfs : f ≠ ' ' := by rcases hf with rfl | rfl <;> decide
  have hee : (e ++ rest).head? ≠ some f := by
    rcases hf with rfl | rfl <;> rcases he with (rfl | rfl) | ⟨rfl, rfl⟩ <;> simp
  unfold endingFence
  refine terminated_some.2 ⟨e ++ rest, e, ?_, he.eofOrEol⟩
  refine value_some.2 ⟨(List.replicate k ' ', List.replicate n f, List.replicate (m - n) f), ?_, rfl⟩
  refine seq_some.2 ⟨List.replicate m f ++ (e ++ rest), ?_, ?_⟩
  · refine indent03_replicate hk ?_
    obtain ⟨m, rfl⟩ : ∃ j, m = j + 1 := ⟨m - 1, by omega⟩
    simpa [List.replicate_succ] using hfs
  · refine seq_some.2 ⟨List.replicate (m - n) f ++ (e ++ rest), ?_, ?_⟩
    · refine tag_some.2 ⟨?_, rfl⟩
      rw [← List.append_assoc (List.replicate n f), List.replicate_append_replicate,
        show n + (m - n) = m by omega]
    · have : (List.replicate n f).headD '`' = f := by
        obtain ⟨n, rfl⟩ : ∃ j, n = j + 1 := ⟨n - 1, by omega⟩
        rfl
      rw [this]
      exact many0_chr _ hee

theorem endingFence_closes {f : Char} {n : Nat} {l e rest r : Str} {u : Unit}
    (hf : f = '`' ∨ f = '~') (hn : 1 ≤ n) (hl : OneLine l) (he : LineEnd e rest)
    (h : endingFence (List.replicate n f) (l ++ (e ++ rest)) = some (r, u)) :
    ClosesFence f n l := by
  have hfn : f ≠ '\n' ∧ f ≠ '\r' := by rcases hf with rfl | rfl <;> decide
  unfold endingFence at h
  obtain ⟨s1, e1, h1, h2⟩ := terminated_some.1 h
  obtain ⟨⟨a, b, c⟩, h3, _⟩ := value_some.1 h1
  obtain ⟨s2, h4, h5⟩ := seq_some.1 h3
  obtain ⟨s3, h6, h7⟩ := seq_some.1 h5
  obtain ⟨k, hk, _, hk2⟩ := indent03_spec h4
  obtain ⟨h8, _⟩ := tag_some.1 h6
  have hd : (List.replicate n f).headD '`' = f := by
    obtain ⟨n, rfl⟩ : ∃ j, n = j + 1 := ⟨n - 1, by omega⟩
    rfl
  rw [hd] at h7
  obtain ⟨j, _, hj2, _⟩ := many0_chr_some h7
  obtain ⟨hle, hs1⟩ := LineEnd.of_eofOrEol h2
  refine ⟨k, n + j, hk, by omega, ?_⟩
  have heq : l ++ (e ++ rest) =
      (List.replicate k ' ' ++ List.replicate (n + j) f) ++ (e1 ++ r) := by
    rw [hk2, h8, hj2, hs1, ← List.replicate_append_replicate]
    simp only [List.append_assoc]
  exact (line_unique hl ((OneLine.replicate k (by decide) (by decide)).append
    (OneLine.replicate _ hfn.1 hfn.2)) he hle heq).1

theorem fencedLines_of {f : Char} {n k k' m : Nat} {nl : Str} {ls : List Str} {e rest : Str}
    (hf : f = '`' ∨ f = '~') (hn : 1 ≤ n) (hk' : k' ≤ 3) (hm : n ≤ m) (hnl : IsNewline nl)
    (hls : ∀ l ∈ ls, OneLine l ∧ ¬ ClosesFence f n l) (he : LineEnd e rest) :
    fencedLines (List.replicate n f) k
      (unlines nl ls ++ (List.replicate k' ' ' ++ (List.replicate m f ++ (e ++ rest)))) =
      some (List.replicate k' ' ' ++ (List.replicate m f ++ (e ++ rest)),
        ls.map (dropSpaces k)) := by
  unfold fencedLines
  induction ls with
  | nil =>
    refine many0_of_none (preceded_none ?_)
    rw [notP_none]
    exact ⟨_, endingFence_of hf hk' hn hm he⟩
  | cons l ls ih =>
    have hl := hls l (by simp)
    have ih := ih (fun l' h' => hls l' (by simp [h']))
    generalize hrest : unlines nl ls ++ (List.replicate k' ' ' ++ (List.replicate m f ++ (e ++ rest))) =
      more at ih
    have heq : unlines nl (l :: ls) ++ (List.replicate k' ' ' ++ (List.replicate m f ++ (e ++ rest))) =
        l ++ (nl ++ more) := by
      rw [← hrest]; simp [unlines]
    have hle : LineEnd nl more := .inl hnl
    rw [heq, List.map_cons]
    refine many0_of_some (r := more) ?_ ?_ ih
    · refine preceded_some.2 ⟨l ++ (nl ++ more), (), notP_some.2 ⟨?_, rfl⟩, ?_⟩
      · cases e2 : endingFence (List.replicate n f) (l ++ (nl ++ more)) with
        | none => rfl
        | some y => exact absurd (endingFence_closes hf hn hl.1 hle e2) hl.2
      · obtain ⟨p, hp, _⟩ := manyMN_spaces k (l ++ (nl ++ more))
        refine preceded_some.2 ⟨_, _, hp, ?_⟩
        rw [dropSpaces_append k hle.head]
        exact line0 (hl.1.dropSpaces k) hle
    · rcases hnl with rfl | rfl <;> simp <;> omega

theorem recognize_of {α : Type} {p : P α} {a r : Str} {v : α} (h : p (a ++ r) = some (r, v)) :
    recognize p (a ++ r) = some (r, a) := by
  refine recognize_some.2 ⟨v, h, ?_⟩
  simp

theorem manyMin_chr {c : Char} {t : Str} {n m : Nat} (hn : m ≤ n) (ht : t.head? ≠ some c) :
    manyMin m (chr c) (List.replicate n c ++ t) = some (t, List.replicate n c) := by
  unfold manyMin
  refine verify_some.2 ⟨many0_chr n ht, ?_⟩
  simpa using hn

theorem openingFence_of {f : Char} {n : Nat} {info e rest : Str} (hf : f = '`' ∨ f = '~')
    (hn : 3 ≤ n) (hi : OneLine info) (hi2 : info.head? ≠ some f) (he : LineEnd e rest) :
    openingFence (List.replicate n f ++ (info ++ (e ++ rest))) =
      some (rest, (List.replicate n f, if info = [] then none else some info)) := by
  have hee : (info ++ (e ++ rest)).head? ≠ some f := by
    cases info with
    | nil => rcases hf with rfl | rfl <;> rcases he with (rfl | rfl) | ⟨rfl, rfl⟩ <;> simp
    | cons c i => simpa using hi2
  unfold openingFence
  refine terminated_some.2 ⟨e ++ rest, e, ?_, he.eofOrEol⟩
  refine seq_some.2 ⟨info ++ (e ++ rest), ?_, ?_⟩
  · refine recognize_of (v := List.replicate n f) ?_
    rcases hf with rfl | rfl
    · exact orElse_of_some (manyMin_chr hn hee)
    · rw [orElse_of_none]
      · exact manyMin_chr hn hee
      · obtain ⟨n, rfl⟩ : ∃ j, n = j + 1 := ⟨n - 1, by omega⟩
        exact manyMin_none_of (chr_ne (by decide)) 2
  · by_cases h : info = []
    · subst h
      simp only [if_true, List.nil_append]
      refine opt_some.2 (.inr ⟨?_, rfl, rfl⟩)
      rw [recognize_none]
      exact notEofOrEol1_of_some he.eofOrEol
    · rw [if_neg h]
      refine opt_some.2 (.inl ⟨_, ?_, rfl⟩)
      exact recognize_of (notEofOrEol1_line hi h he)

theorem codeBlockFenced_of {f : Char} {k n k' m : Nat} {nl info : Str} {ls : List Str}
    {e rest : Str} (hk : k ≤ 3)
    (hf : f = '`' ∨ f = '~') (hn : 3 ≤ n) (hi : OneLine info) (hi2 : info.head? ≠ some f)
    (hk' : k' ≤ 3) (hm : n ≤ m) (hnl : IsNewline nl)
    (hls : ∀ l ∈ ls, OneLine l ∧ ¬ ClosesFence f n l) (he : LineEnd e rest) :
    codeBlockFenced (List.replicate k ' ' ++ (List.replicate n f ++ (info ++ (nl ++
        (unlines nl ls ++ (List.replicate k' ' ' ++ (List.replicate m f ++ (e ++ rest)))))))) =
      some (rest, .codeBlock (.fenced (if info = [] then none else some info))
        (joinWith ['\n'] (ls.map (dropSpaces k)))) := by
  have hfs : f ≠ ' ' := by rcases hf with rfl | rfl <;> decide
  unfold codeBlockFenced
  have h1 : seq indent03 openingFence (List.replicate k ' ' ++ (List.replicate n f ++ (info ++ (nl ++
        (unlines nl ls ++ (List.replicate k' ' ' ++ (List.replicate m f ++ (e ++ rest)))))))) =
      some (unlines nl ls ++ (List.replicate k' ' ' ++ (List.replicate m f ++ (e ++ rest))),
        (List.replicate k ' ', (List.replicate n f, if info = [] then none else some info))) := by
    refine seq_some.2 ⟨_, indent03_replicate hk ?_, openingFence_of hf hn hi hi2 (.inl hnl)⟩
    obtain ⟨n, rfl⟩ : ∃ j, n = j + 1 := ⟨n - 1, by omega⟩
    simpa [List.replicate_succ] using hfs
  rw [h1]
  simp only [List.length_replicate]
  have h2 := terminated_some.2 ⟨_, _, fencedLines_of (k := k) hf (by omega) hk' hm hnl hls he,
    endingFence_of hf hk' (by omega) hm he⟩
  rw [h2]

/-- C43, fenced code: an opening line of at most three spaces, a fence of at least three backticks
or tildes and an info string, lines none of which closes the fence, and a closing line, parse to one
fenced code block; its content is the lines between, each without up to as many leading spaces as
the fence has; its info is the info string (absent when empty); what follows is parsed on its
own. -/
theorem C43_fenced (hc : cfg.CustomOk) (hcb : cfg.codeBlock = .parse) {f : Char} {k n k' m : Nat}
    {nl info : Str} {ls : List Str} {e rest : Str} (hk : k ≤ 3)
    (hf : f = '`' ∨ f = '~') (hn : 3 ≤ n) (hi : OneLine info) (hi2 : info.head? ≠ some f)
    (hk' : k' ≤ 3) (hm : n ≤ m) (hnl : IsNewline nl)
    (hls : ∀ l ∈ ls, OneLine l ∧ ¬ ClosesFence f n l) (he : LineEnd e rest) :
    parseMarkdown x cfg (List.replicate k ' ' ++ (List.replicate n f ++ (info ++ (nl ++
        (unlines nl ls ++ (List.replicate k' ' ' ++ (List.replicate m f ++ (e ++ rest)))))))) =
      (parseMarkdown x cfg rest).map (fun d =>
        ⟨.codeBlock (.fenced (if info = [] then none else some info))
          (joinWith ['\n'] (ls.map (dropSpaces k))) :: d.blocks⟩) := by
  have hfs : f ≠ ' ' ∧ f ≠ '\t' ∧ f ≠ '\n' ∧ f ≠ '\r' := by
    rcases hf with rfl | rfl <;> decide
  refine parseMarkdown_cons hc (bs := [_]) ?_
  have hcode := codeBlockFenced_of hk hf hn hi hi2 hk' hm hnl hls he
  obtain ⟨t, ht⟩ : ∃ t, List.replicate n f ++ (info ++ (nl ++
        (unlines nl ls ++ (List.replicate k' ' ' ++ (List.replicate m f ++ (e ++ rest)))))) =
      f :: t := by
    obtain ⟨n, rfl⟩ : ∃ j, n = j + 1 := ⟨n - 1, by omega⟩
    exact ⟨_, rfl⟩
  rw [ht] at hcode ⊢
  rw [blockP_alt hc (notBlankLine (by simp [isSpace, hfs]) hfs.2.2.1 hfs.2.2.2)]
  unfold blockAlt
  refine orElse_of_some ?_
  rw [conditionalBlock_parse hcb]
  unfold codeBlockP
  rw [orElse_of_none (codeBlockIndented_indent hk hfs.1 hfs.2.1), hcode]
  rfl

/-! ### Specification of indented code -/

/-- Text that does not start with the indentation of a code line. -/
def NotIndented (s : Str) : Prop := ¬ List.replicate 4 ' ' <+: s ∧ s.head? ≠ some '\t'

/-- The indentation of a code line: a tab or four spaces. -/
def codeIndent (tab : Bool) : Str := if tab then ['\t'] else List.replicate 4 ' '

theorem codeLine {tab : Bool} {l e rest : Str} (hl : OneLine l) (he : LineEnd e rest) :
    preceded (value () (manyMN (chr ' ') 4 4) <||> value () (chr '\t'))
      (lineTerminated notEofOrEol0) (codeIndent tab ++ l ++ (e ++ rest)) = some (rest, l) := by
  refine preceded_some.2 ⟨l ++ (e ++ rest), (), ?_, line0 hl he⟩
  cases tab with
  | true =>
    rw [orElse_of_none]
    · exact value_some.2 ⟨'\t', chr_cons _ _, rfl⟩
    · rw [value_none]; exact manyMN_pos_of_none (chr_ne (by decide)) 3 3
  | false =>
    refine orElse_of_some (value_some.2 ⟨List.replicate 4 ' ', ?_, rfl⟩)
    simp [codeIndent, List.replicate, manyMN, chr_cons]

theorem notIndented_none {s : Str} (h : NotIndented s) :
    preceded (value () (manyMN (chr ' ') 4 4) <||> value () (chr '\t'))
      (lineTerminated notEofOrEol0) s = none := by
  refine preceded_none ?_
  rw [orElse_none, value_none, value_none]
  constructor
  · cases e : manyMN (chr ' ') 4 4 s with
    | none => rfl
    | some y =>
      exfalso
      apply h.1
      have key : ∀ n s r l, manyMN (chr ' ') n n s = some (r, l) → s = List.replicate n ' ' ++ r := by
        intro n
        induction n with
        | zero => intro s r l h; simp [manyMN] at h; simp [h.1]
        | succ n ih =>
          intro s r l h
          rw [manyMN] at h
          cases e : chr ' ' s with
          | none => simp [e] at h
          | some y =>
            obtain ⟨s1, c⟩ := y
            obtain ⟨rfl, rfl⟩ := chr_some.1 e
            simp only [e, List.length_cons, Nat.lt_succ_self, if_true, Nat.add_sub_cancel] at h
            cases e2 : manyMN (chr ' ') n n s1 with
            | none => simp [e2] at h
            | some z =>
              obtain ⟨r', l'⟩ := z
              simp only [e2, Option.some.injEq, Prod.mk.injEq] at h
              obtain ⟨rfl, rfl⟩ := h
              rw [ih _ _ _ e2]; rfl
      rw [key 4 s y.1 y.2 e]
      exact List.prefix_append _ _
  · cases s with
    | nil => rfl
    | cons c s => exact chr_ne (by rintro rfl; exact h.2 rfl)

theorem codeLines_of {nl : Str} {ls : List (Bool × Str)} {tab : Bool} {l e rest : Str}
    (hnl : IsNewline nl) (hls : ∀ y ∈ ls, OneLine y.2) (hl : OneLine l) (he : LineEnd e rest)
    (hr : NotIndented rest) :
    many0 (preceded (value () (manyMN (chr ' ') 4 4) <||> value () (chr '\t'))
      (lineTerminated notEofOrEol0))
      (unlines nl (ls.map (fun y => codeIndent y.1 ++ y.2)) ++ (codeIndent tab ++ l ++ (e ++ rest))) =
      some (rest, ls.map Prod.snd ++ [l]) := by
  induction ls with
  | nil =>
    refine many0_of_some (codeLine hl he) ?_ (many0_of_none (notIndented_none hr))
    cases tab <;> simp [codeIndent] <;> omega
  | cons y ls ih =>
    have ih := ih (fun l' h' => hls l' (by simp [h']))
    generalize hm : unlines nl (ls.map (fun y => codeIndent y.1 ++ y.2)) ++
      (codeIndent tab ++ l ++ (e ++ rest)) = more at ih
    have heq : unlines nl ((y :: ls).map (fun y => codeIndent y.1 ++ y.2)) ++
        (codeIndent tab ++ l ++ (e ++ rest)) = codeIndent y.1 ++ y.2 ++ (nl ++ more) := by
      rw [← hm]; simp [unlines]
    rw [heq]
    refine many0_of_some (codeLine (hls y (by simp)) (.inl hnl)) ?_ ih
    rcases hnl with rfl | rfl <;> simp <;> omega

theorem visible_notBlankLine {l t : Str} (hv : ∃ c ∈ l, isSpace c = false) (hl : OneLine l) :
    preceded space0 eofOrEol (l ++ t) = none := by
  have : preceded space0 eofOrEol (l ++ t) = eofOrEol ((l ++ t).dropWhile isSpace) := rfl
  rw [this]
  induction l with
  | nil => simp at hv
  | cons c l ih =>
    cases hc : isSpace c with
    | false =>
      rw [List.cons_append, List.dropWhile_cons, hc]
      have := hl c (by simp)
      exact eofOrEol_cons this.1 this.2
    | true =>
      rw [List.cons_append, List.dropWhile_cons, hc]
      refine ih ?_ (fun d hd => hl d (by simp [hd])) rfl
      obtain ⟨d, hd, hd2⟩ := hv
      rcases List.mem_cons.1 hd with rfl | hd
      · rw [hc] at hd2; simp at hd2
      · exact ⟨d, hd, hd2⟩

/-- C43, indented code: lines that each start with four spaces or a tab, the first one not blank,
followed by text that does not, parse to one indented code block whose content is the lines
without that indentation; what follows is parsed on its own. -/
theorem C43_indented (hc : cfg.CustomOk) (hcb : cfg.codeBlock = .parse) {nl : Str}
    {ls : List (Bool × Str)} {tab : Bool} {l e rest : Str}
    (hnl : IsNewline nl) (hls : ∀ y ∈ ls, OneLine y.2) (hl : OneLine l)
    (hv : ∃ c ∈ ((ls.map Prod.snd ++ [l]).headD []), c ≠ ' ' ∧ c ≠ '\t') (he : LineEnd e rest)
    (hr : NotIndented rest) :
    parseMarkdown x cfg (unlines nl (ls.map (fun y => codeIndent y.1 ++ y.2)) ++
        (codeIndent tab ++ l ++ (e ++ rest))) =
      (parseMarkdown x cfg rest).map (fun d =>
        ⟨.codeBlock .indented (joinWith ['\n'] (ls.map Prod.snd ++ [l])) :: d.blocks⟩) := by
  refine parseMarkdown_cons hc (bs := [_]) ?_
  have hm := codeLines_of (tab := tab) hnl hls hl he hr
  have hb : preceded space0 eofOrEol (unlines nl (ls.map (fun y => codeIndent y.1 ++ y.2)) ++
        (codeIndent tab ++ l ++ (e ++ rest))) = none := by
    have hci : ∀ tab, OneLine (codeIndent tab) := by
      intro tab; cases tab
      · exact OneLine.replicate 4 (by decide) (by decide)
      · intro c hc; simp [codeIndent] at hc; subst hc; decide
    obtain ⟨c, hc1, hc2⟩ := hv
    have hcs : isSpace c = false := by simp [isSpace, hc2]
    cases ls with
    | nil =>
      refine visible_notBlankLine (l := codeIndent tab ++ l) ⟨c, ?_, hcs⟩ ((hci _).append hl)
      simp at hc1; simp [hc1]
    | cons y ls =>
      simp only [List.map_cons, unlines, List.flatten_cons, List.append_assoc]
      rw [← List.append_assoc]
      refine visible_notBlankLine (l := codeIndent y.1 ++ y.2) ⟨c, ?_, hcs⟩
        ((hci _).append (hls y (by simp)))
      simp at hc1; simp [hc1]
  rw [blockP_alt hc hb]
  unfold blockAlt
  refine orElse_of_some ?_
  rw [conditionalBlock_parse hcb]
  have : codeBlockP (unlines nl (ls.map (fun y => codeIndent y.1 ++ y.2)) ++
        (codeIndent tab ++ l ++ (e ++ rest))) =
      some (rest, .codeBlock .indented (joinWith ['\n'] (ls.map Prod.snd ++ [l]))) := by
    unfold codeBlockP
    refine orElse_of_some ?_
    unfold codeBlockIndented
    refine mapP_some.2 ⟨ls.map Prod.snd ++ [l], ?_, rfl⟩
    rw [many0_eq] at hm
    unfold many1
    generalize preceded (value () (manyMN (chr ' ') 4 4) <||> value () (chr '\t'))
      (lineTerminated notEofOrEol0) = p at hm ⊢
    cases ep : p (unlines nl (ls.map (fun y => codeIndent y.1 ++ y.2)) ++
        (codeIndent tab ++ l ++ (e ++ rest))) with
    | none => rw [ep] at hm; simp at hm
    | some y =>
      obtain ⟨r, a⟩ := y
      simp only [ep] at hm ⊢
      split at hm
      · cases em : many0 p r with
        | none => rw [em] at hm; simp at hm
        | some z => rw [em] at hm; simpa using hm
      · simp at hm
  rw [this]; rfl

end

/-- A fenced block in the middle of a document meets the hypotheses: an indented fence, an info
string, a line that looks like a shorter fence, a longer closing fence. -/
example (x : PExt) (ent : Str → Option Str) :
    parseMarkdown x (PConfig.default ent) cs!" ```` rust\n  let x;\n```\n\n  `````\n" =
      some ⟨[.codeBlock (.fenced (some cs!" rust")) cs!" let x;\n```\n"]⟩ := by
  have := C43_fenced (x := x) (cfg := PConfig.default ent) (default_customOk _) rfl (f := '`')
    (k := 1) (n := 4) (k' := 2) (m := 5) (nl := ['\n']) (info := cs!" rust")
    (ls := [cs!"  let x;", cs!"```", []]) (e := ['\n']) (rest := []) (by decide) (.inl rfl)
    (by decide) (by intro c hc; revert c; decide) (by decide) (by decide) (by decide) (.inl rfl)
    (by
      intro l hl
      constructor
      · intro c hc; revert c; revert l; decide
      · rintro ⟨k, m, h1, h2, h3⟩
        have hc : l.count '`' = m := by
          rw [h3, List.count_append, List.count_replicate, List.count_replicate]; simp
        revert hc; revert l
        simp only [List.forall_mem_cons]
        refine ⟨?_, ?_, ?_, ?_⟩ <;> simp <;> omega)
    (.inl (.inl rfl))
  rw [parseMarkdown_nil] at this
  exact this

/-- An indented block meets the hypotheses. -/
example (x : PExt) (ent : Str → Option Str) :
    parseMarkdown x (PConfig.default ent) cs!"    a\n\t  b\n" =
      some ⟨[.codeBlock .indented cs!"a\n  b"]⟩ := by
  have := C43_indented (x := x) (cfg := PConfig.default ent) (default_customOk _) rfl
    (nl := ['\n']) (ls := [(false, cs!"a")]) (tab := true) (l := cs!"  b") (e := ['\n'])
    (rest := []) (.inl rfl) (by intro y hy c hc; revert c; revert y; decide)
    (by intro c hc; revert c; decide) ⟨'a', by decide, by decide⟩ (.inl (.inl rfl))
    ⟨by decide, by decide⟩
  rw [parseMarkdown_nil] at this
  exact this

/-- Finding: a fence that is never closed does not start a code block (CommonMark lets it run to
the end of the document); it is read as a paragraph. -/
theorem C43_unclosed_fence :
    parseMarkdown PExt.ascii (PConfig.default fun _ => none) cs!"```\na" =
      some ⟨[.paragraph [.text cs!"```\na"]]⟩ := by decide +kernel

end Verif
