/-!
# Strings

A Rust `String`/`&str` is modelled as the list of its `char`s.  Lean's `Char` and Rust's `char`
are both "a Unicode scalar value".
-/
namespace Verif

/-- Rust `String` / `&str`. -/
abbrev Str := List Char

open Lean in
/-- `cs!"abc"` is the literal `['a', 'b', 'c']` (reduces in the kernel, unlike `String.toList`). -/
syntax:max (name := csLit) "cs!" str : term

open Lean in
macro_rules (kind := csLit)
  | `(cs! $s:str) => do
    let cs : Array (TSyntax `term) :=
      (s.getString.toList.map fun c => ⟨Syntax.mkCharLit c⟩).toArray
    `(([$cs,*] : List Char))

/-- Rust `char::is_whitespace`: the Unicode `White_Space` property (core library, UAX #44). -/
def isWs (c : Char) : Bool :=
  let n := c.toNat
  (9 ≤ n && n ≤ 13) || n == 32 || n == 0x85 || n == 0xA0 || n == 0x1680 ||
  (0x2000 ≤ n && n ≤ 0x200A) || n == 0x2028 || n == 0x2029 || n == 0x202F || n == 0x205F ||
  n == 0x3000

/-- Rust `str::trim_start`. -/
def trimStart (s : Str) : Str := s.dropWhile isWs

/-- Rust `str::trim_end`. -/
def trimEnd (s : Str) : Str := (s.reverse.dropWhile isWs).reverse

/-- Rust `str::trim`. -/
def trim (s : Str) : Str := trimEnd (trimStart s)

/-- Rust `u64::MAX + 1`. -/
def u64Bound : Nat := 2 ^ 64

/-- Join strings with a separator: Rust `[String]::join`. -/
def joinWith (sep : Str) : List Str → Str
  | [] => []
  | [x] => x
  | x :: y :: l => x ++ sep ++ joinWith sep (y :: l)

/-- `str::split_whitespace`, worker with the word read so far. -/
def splitWsAux : Str → Str → List Str
  | [], acc => if acc.isEmpty then [] else [acc]
  | c :: s, acc =>
    if isWs c then (if acc.isEmpty then splitWsAux s [] else acc :: splitWsAux s [])
    else splitWsAux s (acc ++ [c])

/-- Rust `str::split_whitespace`: maximal runs of non-whitespace characters. -/
def splitWs (s : Str) : List Str := splitWsAux s []

/-- `str::lines` on a string, worker with the current line. -/
def rustLinesAux : Str → Str → List Str
  | [], acc => if acc.isEmpty then [] else [acc]
  | '\n' :: s, acc =>
    (if acc.getLast? = some '\r' then acc.dropLast else acc) :: rustLinesAux s []
  | c :: s, acc => rustLinesAux s (acc ++ [c])

/-- Rust `str::lines`: split at `\n`, dropping one `\r` before it; a final line ending does not
open another line; the last line without `\n` keeps its `\r`. -/
def rustLines (s : Str) : List Str := rustLinesAux s []

end Verif
