import Verif.StartProps
/-!
# Documents can be put together (specification for C82)

Specification only.
-/
set_option autoImplicit false
namespace Verif
open Nom

/-- `r` is what is left of `s` from the beginning of a line on. -/
def LineOf (r s : Str) : Prop := r = s ∨ ∃ a, s = a ++ '\n' :: r

/-- `v` is what follows `[label]: destination` and white space at the beginning of `r`, and it begins like
the title of a link definition. -/
def OpensTitle (r v : Str) : Prop :=
  ∃ k w l g d b, k ≤ 3 ∧ BracketText w l ∧ w.getLast? ≠ some '\\' ∧ Gap g ∧ (∃ d', LinkDest d d') ∧ TitleGap b ∧
    (v.head? = some '"' ∨ v.head? = some '\'' ∨ v.head? = some '(') ∧
    r = sp k ++ ('[' :: (w ++ (cs!"]:" ++ (g ++ (d ++ (b ++ v))))))

/-- The text is complete: it ends with a line end that is not escaped, and nothing that begins at one of
its lines could be completed by what follows a blank line: a fence is closed, no HTML block begins, a
bracket is closed, the title of a definition is closed. -/
structure Complete (s : Str) : Prop where
  lines : WholeLines s
  backslash : ¬ cs!"\\\n" <:+ s
  fence : ∀ r t, LineOf r s → FencedAt (r ++ '\n' :: t) → FencedAt r
  html : ∀ r t, LineOf r s → ¬ HtmlAt (r ++ '\n' :: t)
  label : ∀ r k l, LineOf r s → k ≤ 3 → r = sp k ++ '[' :: l → labelCloses l = true
  title : ∀ r v, LineOf r s → OpensTitle r v → ∃ w t r', LinkTitle w t ∧ v = w ++ r'

/-- The text is empty or begins with a character that is not white space. -/
def FlushLeft (t : Str) : Prop := ∀ c, t.head? = some c → c ≠ ' ' ∧ c ≠ '\t' ∧ c ≠ '\n' ∧ c ≠ '\r'

/-- The text is a document of its own: whatever text follows it after a blank line (not indented), the blocks
are those of the one and then those of the other. -/
def Standalone (x : PExt) (cfg : PConfig) (s : Str) : Prop :=
  ∀ t, FlushLeft t → ∃ bs bt, parseMarkdown x cfg s = some ⟨bs⟩ ∧ parseMarkdown x cfg t = some ⟨bt⟩ ∧
    parseMarkdown x cfg (s ++ '\n' :: t) = some ⟨bs ++ bt⟩

end Verif
