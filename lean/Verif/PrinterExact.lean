import Verif.PrinterExactSpec
import Verif.PrinterLayout
/-!
# Markdown printer: documents as pieces (C86)
-/
set_option autoImplicit false
set_option linter.unusedVariables false
set_option linter.unusedSimpArgs false
namespace Verif
namespace Md
namespace Exact
open Spec

section
variable (dw : Str → Nat) (w : Nat)

/-- `lay` of `T` in front of `R`, and the column after it. -/
def layGo (R : Pieces) : Nat → Pieces → Str × Nat
  | p, [] => ([], p)
  | p, (_, .word s) :: t => (s ++ (layGo R (p + dw s) t).1, (layGo R (p + dw s) t).2)
  | p, (i, .gap) :: t =>
    if p + 1 + ahead dw (t ++ R) ≤ w then (' ' :: (layGo R (p + 1) t).1, (layGo R (p + 1) t).2)
    else (newline (nextIndent i (t ++ R)) ++ (layGo R (nextIndent i (t ++ R)) t).1, (layGo R (nextIndent i (t ++ R)) t).2)
  | _, (i, .newline) :: t =>
    (newline (nextIndent i (t ++ R)) ++ (layGo R (nextIndent i (t ++ R)) t).1, (layGo R (nextIndent i (t ++ R)) t).2)

/-- The columns in which `T` may end if it begins in the column `p`, `R` following. -/
def Pos (R : Pieces) : Nat → Pieces → Nat → Prop
  | p, [], q => q = p
  | p, (_, .word s) :: t, q => Pos R (p + dw s) t q
  | _, (_, .gap) :: t, q => ∃ p', Pos R p' t q
  | _, (i, .newline) :: t, q => Pos R (nextIndent i (t ++ R)) t q

/-- `T` on one line. -/
def flatStr : Pieces → Str
  | [] => []
  | (_, .word s) :: t => s ++ flatStr t
  | (_, .gap) :: t => ' ' :: flatStr t
  | (_, .newline) :: t => flatStr t

/-- The width of `T` on one line. -/
def wid : Pieces → Nat
  | [] => 0
  | (_, .word s) :: t => dw s + wid t
  | (_, .gap) :: t => 1 + wid t
  | (_, .newline) :: t => wid t

/-- No line break. -/
def NoNl (T : Pieces) : Prop := ∀ i, (i, Piece.newline) ∉ T

/-- A gap. -/
def HasGap (T : Pieces) : Prop := ∃ i, (i, Piece.gap) ∈ T

/-- The last piece may be a line break. -/
def EndsBreak (T : Pieces) : Prop := ∃ i, T.getLast? = some (i, .gap) ∨ T.getLast? = some (i, .newline)

/-- The first piece is at the indentation. -/
def StartsAt (i : Nat) (T : Pieces) : Prop := ∃ p t, T = (i, p) :: t

/-- The indentation of the pending commands is that of `R`, if it matters. -/
def NextOk (T : Pieces) (n : Option Nat) (R : Pieces) : Prop := EndsBreak T → ∀ i, n.getD i = nextIndent i R

/-- The pending commands fit as `R` does. -/
def RestOk (k : Nat → Option Bool) (R : Pieces) (p : Nat) (T : Pieces) : Prop :=
  ∀ q, Pos dw R p T q → q ≤ w → ∀ b, k q = some b → b = decide (q + ahead dw R ≤ w)

/-- From column `p` at indentation `i` the document is printed as the pieces `T`. -/
structure Sem (d : Doc) (i p : Nat) (T : Pieces) : Prop where
  flat : ∀ k, Doc.fitsE dw w d .flat p k = some true → k (p + wid dw T) = some true ∧ NoNl T ∧
    (p ≤ w ∨ HasGap T → p + wid dw T ≤ w) ∧
    ∀ n k' r, Doc.bestE dw w d i .flat p n k' = some r → r = (flatStr T, p + wid dw T)
  fit : ∀ k R, RestOk dw w k R p T → p ≤ w → ∀ b, Doc.fitsE dw w d .brk p k = some b →
    b = decide (p + ahead dw (T ++ R) ≤ w)
  best : ∀ k R n, RestOk dw w k R p T → NextOk T n R → ∀ r, Doc.bestE dw w d i .brk p n k = some r →
    r = layGo dw w R p T

variable {dw w}

theorem layGo_lay (T : Pieces) : ∀ p, (layGo dw w [] p T).1 = lay dw w p T := by
  induction T with
  | nil => intro p; rfl
  | cons a T ih =>
    intro p
    obtain ⟨i, a⟩ := a
    cases a <;> simp only [layGo, lay, ih, List.append_nil]
    split <;> simp

theorem layGo_append (R b : Pieces) (a : Pieces) : ∀ p, layGo dw w R p (a ++ b) =
    ((layGo dw w (b ++ R) p a).1 ++ (layGo dw w R (layGo dw w (b ++ R) p a).2 b).1,
      (layGo dw w R (layGo dw w (b ++ R) p a).2 b).2) := by
  induction a with
  | nil => intro p; rfl
  | cons o a ih =>
    intro p
    obtain ⟨i, o⟩ := o
    cases o <;> simp only [List.cons_append, layGo, ih, List.append_assoc]
    split <;> simp

theorem layGo_pos (R : Pieces) (T : Pieces) : ∀ p, Pos dw R p T (layGo dw w R p T).2 := by
  induction T with
  | nil => intro p; rfl
  | cons o T ih =>
    intro p
    obtain ⟨i, o⟩ := o
    cases o
    · exact ih _
    · simp only [Pos, layGo]
      split
      · exact ⟨_, ih _⟩
      · exact ⟨_, ih _⟩
    · exact ih _

theorem Pos.append {R b : Pieces} {a : Pieces} : ∀ {p q r : Nat}, Pos dw (b ++ R) p a q → Pos dw R q b r → Pos dw R p (a ++ b) r := by
  induction a with
  | nil => intro p q r h h'; cases h; exact h'
  | cons o a ih =>
    intro p q r h h'
    obtain ⟨i, o⟩ := o
    cases o
    · exact ih (p := p + dw _) h h'
    · obtain ⟨p', h⟩ := h
      exact ⟨p', ih h h'⟩
    · simp only [List.cons_append, Pos, List.append_assoc] at h ⊢
      exact ih h h'

theorem pos_flat {R T : Pieces} (hn : NoNl T) : ∀ p, Pos dw R p T (p + wid dw T) := by
  induction T with
  | nil => intro p; rfl
  | cons o T ih =>
    intro p
    obtain ⟨i, o⟩ := o
    have ih := ih fun j hj => hn j (List.mem_cons_of_mem _ hj)
    cases o
    · simp only [Pos, wid, ← Nat.add_assoc]; exact ih _
    · refine ⟨p + 1, ?_⟩
      simp only [wid, ← Nat.add_assoc]; exact ih _
    · exact absurd (List.mem_cons_self) (hn i)

theorem ahead_le (T R : Pieces) (hn : NoNl T) : ahead dw (T ++ R) ≤ wid dw T + ahead dw R := by
  induction T with
  | nil => simp [wid]
  | cons o T ih =>
    obtain ⟨i, o⟩ := o
    have ih := ih fun j hj => hn j (List.mem_cons_of_mem _ hj)
    cases o
    · simp only [List.cons_append, ahead, wid]; omega
    · simp [ahead]
    · simp [ahead]

/-- What fits on the line stays on it. -/
theorem layGo_flat {R : Pieces} (T : Pieces) (hn : NoNl T) : ∀ p, (HasGap T → p + wid dw T + ahead dw R ≤ w) →
    layGo dw w R p T = (flatStr T, p + wid dw T) := by
  induction T with
  | nil => intro p _; rfl
  | cons o T ih =>
    intro p hg
    obtain ⟨i, o⟩ := o
    have hn' : NoNl T := fun j hj => hn j (List.mem_cons_of_mem _ hj)
    cases o with
    | word s =>
      have := ih hn' (p + dw s) (by
        rintro ⟨j, hj⟩
        have := hg ⟨j, List.mem_cons_of_mem _ hj⟩
        simp only [wid] at this; omega)
      simp only [layGo, this, flatStr, wid, Nat.add_assoc]
    | gap =>
      have hw := hg ⟨i, List.mem_cons_self⟩
      have ha := ahead_le (dw := dw) T R hn'
      simp only [wid] at hw
      have := ih hn' (p + 1) (by intro _; omega)
      simp only [layGo, flatStr, wid]
      rw [if_pos (by omega), this]
      simp [Nat.add_assoc]
    | newline => exact absurd (List.mem_cons_self) (hn i)

/-! ## Documents -/

theorem Sem.nil {i p : Nat} : Sem dw w .nil i p [] where
  flat k h := by
    refine ⟨h, by simp [NoNl], ?_, fun n k' r hr => by cases hr; rfl⟩
    rintro (h | ⟨i, h⟩)
    · exact h
    · cases h
  fit k R hk hp b h := hk p rfl hp b h
  best k R n hk hn r h := by cases h; rfl

/-- Nothing is an empty word. -/
theorem Sem.nil' (h0 : dw [] = 0) {i p : Nat} : Sem dw w .nil i p [(i, .word [])] where
  flat k h := ⟨by simpa [wid, h0, Doc.fitsE] using h, by simp [NoNl], by
    rintro (h | ⟨i, h⟩)
    · simpa [wid, h0] using h
    · simp at h, fun n k' r hr => by cases hr; simp [wid, flatStr, h0]⟩
  fit k R hk hp b h := by
    have := hk p (by simp [Pos, h0]) hp b h
    simpa [ahead, h0] using this
  best k R n hk hn r h := by cases h; simp [layGo, h0]

theorem Sem.text (s : Str) {i p : Nat} : Sem dw w (.text s) i p [(i, .word s)] where
  flat k h := by
    simp only [Doc.fitsE] at h
    split at h
    case isTrue hle =>
      refine ⟨by simpa [wid] using h, by simp [NoNl], fun _ => by simpa [wid] using hle, fun n k' r hr => ?_⟩
      simp only [Doc.bestE, Option.some.injEq] at hr
      simp [← hr, flatStr, wid]
    case isFalse => simp at h
  fit k R hk hp b h := by
    simp only [Doc.fitsE] at h
    split at h
    case isTrue hle =>
      have := hk (p + dw s) (by simp [Pos]) hle b h
      simpa [ahead, Nat.add_assoc] using this
    case isFalse hle =>
      simp only [Option.some.injEq] at h
      subst h
      simp [ahead]; omega
  best k R n hk hn r h := by
    simp only [Doc.bestE, Option.some.injEq] at h
    simp [← h, layGo]

theorem Sem.hardline {i p : Nat} : Sem dw w .hardline i p [(i, .newline)] where
  flat k h := by simp [Doc.fitsE] at h
  fit k R hk hp b h := by
    simp only [Doc.fitsE, Option.some.injEq] at h
    subst h
    simp [ahead, hp]
  best k R n hk hn r h := by
    have := hn ⟨i, by simp⟩ i
    simp only [Doc.bestE, Option.some.injEq] at h
    simp [← h, layGo, this, newline]

theorem Sem.softline (h1 : dw [' '] = 1) {i p : Nat} : Sem dw w Doc.softline i p [(i, .gap)] where
  flat k h := by
    simp only [Doc.softline, Doc.line, Doc.fitsE, h1] at h
    split at h
    case isTrue hle =>
      refine ⟨by simpa [wid] using h, by simp [NoNl], fun _ => by simpa [wid] using hle, fun n k' r hr => ?_⟩
      simp only [Doc.softline, Doc.line, Doc.bestE, Option.some.injEq] at hr
      simp [← hr, flatStr, wid, h1]
    case isFalse => simp at h
  fit k R hk hp b h := by
    simp only [Doc.softline, Doc.line, Doc.fitsE, Option.some.injEq] at h
    subst h
    simp [ahead, hp]
  best k R n hk hn r h := by
    have hi := hn ⟨i, by simp⟩ i
    simp only [Doc.softline, Doc.line, Doc.bestE, Doc.fitsE, h1] at h
    simp only [layGo, List.nil_append]
    by_cases hle : p + 1 ≤ w
    · simp only [hle, if_true] at h
      cases hk' : k (p + 1) with
      | none => rw [hk'] at h; cases h
      | some b =>
        have hb := hk (p + 1) ⟨_, rfl⟩ hle b hk'
        rw [hk'] at h
        by_cases hf : p + 1 + ahead dw R ≤ w
        · rw [decide_eq_true hf] at hb
          subst hb
          simp only [Option.some.injEq] at h
          rw [if_pos hf, ← h]
        · rw [decide_eq_false hf] at hb
          subst hb
          simp only [Option.some.injEq] at h
          rw [if_neg hf, ← h, hi]
          simp [newline]
    · have hf : ¬ p + 1 + ahead dw R ≤ w := by omega
      simp only [hle, if_false, Option.some.injEq] at h
      rw [if_neg hf, ← h, hi]
      simp [newline]

theorem Sem.nest {d : Doc} {i o p : Nat} {T : Pieces} (h : Sem dw w d (i + o) p T) : Sem dw w (.nest o d) i p T where
  flat k h' := h.flat k h'
  fit k R hk hp b h' := h.fit k R hk hp b h'
  best k R n hk hn r h' := h.best k R n hk hn r h'

theorem Sem.column {f : Nat → Doc} {i p : Nat} {T : Pieces} (h : Sem dw w (f p) i p T) : Sem dw w (.column f) i p T where
  flat k h' := h.flat k h'
  fit k R hk hp b h' := h.fit k R hk hp b h'
  best k R n hk hn r h' := h.best k R n hk hn r h'

/-- A document that fits on the line is printed as it would be if each gap were decided on its own. -/
theorem Sem.group {d : Doc} {i p : Nat} {T : Pieces} (h : Sem dw w d i p T) : Sem dw w (.group d) i p T where
  flat k h' := h.flat k h'
  fit k R hk hp b h' := h.fit k R hk hp b h'
  best k R n hk hn r h' := by
    simp only [Doc.bestE] at h'
    split at h'
    · cases h'
    · rename_i e
      obtain ⟨h1, h2, h3, h4⟩ := h.flat k e
      rw [h4 _ _ _ h', layGo_flat T h2]
      intro hg
      have hw := h3 (.inr hg)
      have := hk _ (pos_flat h2 p) hw _ h1
      simpa using this.symm
    · exact h.best k R n hk hn r h'

theorem EndsBreak.append {a b : Pieces} (hb : b ≠ []) : EndsBreak (a ++ b) ↔ EndsBreak b := by
  unfold EndsBreak
  rw [List.getLast?_append]
  cases e : b.getLast? with
  | none => exact absurd (List.getLast?_eq_none_iff.1 e) hb
  | some c => simp

theorem Sem.append {d e : Doc} {i p : Nat} {a b : Pieces} (h : Sem dw w d i p a)
    (h' : ∀ R q, Pos dw (b ++ R) p a q → Sem dw w e i q b) (hb : EndsBreak a → StartsAt i b) :
    Sem dw w (.append d e) i p (a ++ b) where
  flat k hf := by
    have wa : wid dw (a ++ b) = wid dw a + wid dw b := by
      clear h h' hb
      induction a with
      | nil => simp [wid]
      | cons o a ih => obtain ⟨i, o⟩ := o; cases o <;> simp [wid, ih] <;> omega
    have fa : flatStr (a ++ b) = flatStr a ++ flatStr b := by
      clear h h' hb wa
      induction a with
      | nil => rfl
      | cons o a ih => obtain ⟨i, o⟩ := o; cases o <;> simp [flatStr, ih]
    obtain ⟨h1, h2, h3, h4⟩ := h.flat _ hf
    obtain ⟨g1, g2, g3, g4⟩ := (h' [] _ (pos_flat h2 p)).flat k h1
    rw [wa, ← Nat.add_assoc]
    refine ⟨g1, ?_, ?_, ?_⟩
    · intro j hj
      rcases List.mem_append.1 hj with hj | hj
      · exact h2 j hj
      · exact g2 j hj
    · rintro (hp | ⟨j, hj⟩)
      · exact g3 (.inl (h3 (.inl hp)))
      · rcases List.mem_append.1 hj with hj | hj
        · exact g3 (.inl (h3 (.inr ⟨j, hj⟩)))
        · exact g3 (.inr ⟨j, hj⟩)
    · intro n k' r hr
      simp only [Doc.bestE] at hr
      split at hr
      · cases hr
      · rename_i r1 e1
        have := h4 _ _ _ e1
        subst this
        split at hr
        · cases hr
        · rename_i r2 e2
          have := g4 _ _ _ e2
          subst this
          simp only [Option.some.injEq] at hr
          rw [← hr, fa]
  fit k R hk hp c hf := by
    have hk' : RestOk dw w (fun p' => Doc.fitsE dw w e .brk p' k) (b ++ R) p a := by
      intro q hq hqw c hc
      exact (h' R q hq).fit k R (fun r hr => hk r (Pos.append hq hr)) hqw c hc
    have := h.fit _ _ hk' hp c hf
    rwa [List.append_assoc]
  best k R n hk hn r hf := by
    have hk' : RestOk dw w (fun p' => Doc.fitsE dw w e .brk p' k) (b ++ R) p a := by
      intro q hq hqw c hc
      exact (h' R q hq).fit k R (fun r hr => hk r (Pos.append hq hr)) hqw c hc
    simp only [Doc.bestE] at hf
    split at hf
    · cases hf
    · rename_i r1 e1
      have h1 := h.best _ (b ++ R) (some i) hk' (by
        intro he j
        obtain ⟨o, t, rfl⟩ := hb he
        rfl) _ e1
      subst h1
      split at hf
      · cases hf
      · rename_i r2 e2
        have hq := layGo_pos (dw := dw) (w := w) (b ++ R) a p
        have h2 := (h' R _ hq).best k R n (fun r hr => hk r (Pos.append hq hr)) (by
          intro he
          refine hn ?_
          cases b with
          | nil => obtain ⟨j, hj⟩ := he; simp at hj
          | cons o t => exact (EndsBreak.append (by simp)).2 he) _ e2
        subst h2
        simp only [Option.some.injEq] at hf
        rw [← hf, layGo_append]

/-- As `append`; the empty document leaves no trace. -/
theorem Sem.app {d e : Doc} {i p : Nat} {a b : Pieces} (h : Sem dw w d i p a) (ha : d = .nil → a = [])
    (h' : ∀ R q, Pos dw (b ++ R) p a q → Sem dw w e i q b) (hb' : e = .nil → b = [])
    (hb : e ≠ .nil → EndsBreak a → StartsAt i b) : Sem dw w (d.app e) i p (a ++ b) := by
  unfold Doc.app
  split
  · rw [ha rfl] at h' ⊢; exact h' [] p rfl
  · rw [hb' rfl, List.append_nil]; exact h
  · rename_i hne; exact h.append h' (hb (by simpa using hne))

end

end Exact
end Md
end Verif
