import Verif.PrinterLayoutSpec
/-!
# Greedy filling

How a paragraph is laid out in a given width.  Nothing here refers to the printer.
-/
namespace Verif
namespace Md
namespace Spec

/-- The unbreakable pieces of a text. -/
def pieces : Text → List Str
  | [] => [[]]
  | none :: t => [] :: pieces t
  | some c :: t => match pieces t with
    | [] => [[c]]
    | p :: l => (c :: p) :: l

/-- The lines of an output. -/
def lines (s : Str) : List Str := pieces (s.map fun c => if c = '\n' then none else some c)

/-- Greedy filling from column `col`: at a break opportunity the line goes on if the next piece
still ends within the width `w`. -/
def fill (w : Nat) (col : Nat) : Text → Str
  | [] => []
  | some c :: t => c :: fill w (col + 1) t
  | none :: t =>
    if col + 1 + ((pieces t).headD []).length ≤ w then ' ' :: fill w (col + 1) t
    else '\n' :: fill w 0 t

end Spec
end Md
end Verif
