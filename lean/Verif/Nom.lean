import Verif.Basic
/-!
# The `nom` 8 combinators used by the parser (library semantics, `DESIGN.md` section 4)

A parser takes the input and returns the rest of the input and a value; `none` is
`Err(nom::Err::Error(_))`.  Which error is reported is not modelled, only that there is one.
-/
namespace Verif
namespace Nom

/-- `impl Parser<&str, Output = α>` / `fn(&str) -> IResult<&str, α>`. -/
abbrev P (α : Type) := Str → Option (Str × α)

/-- `nom::combinator::fail`. -/
def failP {α : Type} : P α := fun _ => none

/-- `nom::bytes::complete::tag`. -/
def tag (t : Str) : P Str := fun s =>
  if t.isPrefixOf s then some (s.drop t.length, t) else none

/-- `nom::character::complete::satisfy`. -/
def satisfy (f : Char → Bool) : P Char
  | [] => none
  | c :: r => if f c then some (r, c) else none

/-- `nom::character::complete::char`. -/
def chr (c : Char) : P Char := satisfy (fun d => d == c)

/-- `nom::character::complete::anychar`. -/
def anychar : P Char := satisfy (fun _ => true)

/-- `nom::character::complete::one_of`. -/
def oneOf (l : Str) : P Char := satisfy (fun c => l.contains c)

/-- `nom::character::complete::none_of`. -/
def noneOf (l : Str) : P Char := satisfy (fun c => !l.contains c)

/-- `nom::combinator::eof`. -/
def eof : P Str := fun s => if s.isEmpty then some (s, s) else none

/-- `nom::bytes::complete::take_while`. -/
def takeWhile (f : Char → Bool) : P Str := fun s => some (s.dropWhile f, s.takeWhile f)

/-- `nom::bytes::complete::take_while1`. -/
def takeWhile1 (f : Char → Bool) : P Str := fun s =>
  if (s.takeWhile f).isEmpty then none else some (s.dropWhile f, s.takeWhile f)

/-- `nom::character::complete::line_ending`: `\n` or `\r\n`. -/
def lineEnding : P Str
  | '\n' :: r => some (r, ['\n'])
  | '\r' :: '\n' :: r => some (r, ['\r', '\n'])
  | _ => none

/-- The characters at which `not_line_ending` stops. -/
def notCrLf (c : Char) : Bool := c != '\r' && c != '\n'

/-- `nom::character::complete::not_line_ending`: everything before the first `\r` or `\n`; an
error when that character is a `\r` not followed by `\n`. -/
def notLineEnding : P Str := fun s =>
  match s.dropWhile notCrLf with
  | '\r' :: r => match r with
    | '\n' :: _ => some (s.dropWhile notCrLf, s.takeWhile notCrLf)
    | _ => none
  | _ => some (s.dropWhile notCrLf, s.takeWhile notCrLf)

/-- The characters of `space0`/`space1`. -/
def isSpace (c : Char) : Bool := c == ' ' || c == '\t'
/-- The characters of `multispace0`. -/
def isMultispace (c : Char) : Bool := c == ' ' || c == '\t' || c == '\r' || c == '\n'
/-- `char::is_ascii_alphabetic`. -/
def isAlpha (c : Char) : Bool := ('a' ≤ c && c ≤ 'z') || ('A' ≤ c && c ≤ 'Z')
/-- `char::is_ascii_digit`. -/
def isDigit (c : Char) : Bool := '0' ≤ c && c ≤ '9'
/-- `char::is_ascii_alphanumeric`. -/
def isAlnum (c : Char) : Bool := isAlpha c || isDigit c
/-- `char::is_ascii_hexdigit`. -/
def isHexDigit (c : Char) : Bool := isDigit c || ('a' ≤ c && c ≤ 'f') || ('A' ≤ c && c ≤ 'F')
/-- `char::is_ascii_control`. -/
def isAsciiControl (c : Char) : Bool := c.toNat < 32 || c.toNat == 127
/-- `char::is_ascii_whitespace`: space, tab, line feed, form feed, carriage return. -/
def isAsciiWs (c : Char) : Bool :=
  c == ' ' || c == '\t' || c == '\n' || c.toNat == 12 || c == '\r'
/-- `char::is_ascii_uppercase`. -/
def isAsciiUpper (c : Char) : Bool := 'A' ≤ c && c ≤ 'Z'
/-- `char::is_ascii_punctuation`. -/
def isAsciiPunct (c : Char) : Bool :=
  (33 ≤ c.toNat && c.toNat ≤ 47) || (58 ≤ c.toNat && c.toNat ≤ 64) ||
  (91 ≤ c.toNat && c.toNat ≤ 96) || (123 ≤ c.toNat && c.toNat ≤ 126)

/-- `nom::character::complete::space0`. -/
def space0 : P Str := takeWhile isSpace
/-- `nom::character::complete::space1`. -/
def space1 : P Str := takeWhile1 isSpace
/-- `nom::character::complete::multispace0`. -/
def multispace0 : P Str := takeWhile isMultispace
/-- `nom::character::complete::alpha1`. -/
def alpha1 : P Str := takeWhile1 isAlpha
/-- `nom::character::complete::alphanumeric1`. -/
def alphanumeric1 : P Str := takeWhile1 isAlnum
/-- `nom::character::complete::digit1`. -/
def digit1 : P Str := takeWhile1 isDigit
/-- `nom::character::complete::hex_digit1`. -/
def hexDigit1 : P Str := takeWhile1 isHexDigit

/-- Value of a digit character in base 16 (`char::to_digit`). -/
def hexVal (c : Char) : Nat :=
  if isDigit c then c.toNat - 48 else if 'a' ≤ c && c ≤ 'f' then c.toNat - 87 else c.toNat - 55

/-- Value of a digit string (`from_str_radix` without its overflow check). -/
def numVal (base : Nat) (s : Str) : Nat := s.foldl (fun v c => base * v + hexVal c) 0

/-- `nom::character::complete::u64`: ASCII digits, an error on overflow. -/
def u64P : P Nat := fun s =>
  match digit1 s with
  | none => none
  | some (r, d) => if numVal 10 d < u64Bound then some (r, numVal 10 d) else none

/-- `alt((p, q))`. -/
def orElse {α : Type} (p q : P α) : P α := fun s =>
  match p s with
  | some x => some x
  | none => q s

@[inherit_doc] infixr:20 " <||> " => orElse

/-- `nom::combinator::opt`. -/
def opt {α : Type} (p : P α) : P (Option α) := fun s =>
  match p s with
  | some (r, a) => some (r, some a)
  | none => some (s, none)

/-- `nom::combinator::map`. -/
def mapP {α β : Type} (p : P α) (f : α → β) : P β := fun s =>
  match p s with
  | some (r, a) => some (r, f a)
  | none => none

/-- `nom::combinator::map_opt`. -/
def mapOpt {α β : Type} (p : P α) (f : α → Option β) : P β := fun s =>
  match p s with
  | some (r, a) => match f a with
    | some b => some (r, b)
    | none => none
  | none => none

/-- `nom::combinator::value`. -/
def value {α β : Type} (b : β) (p : P α) : P β := mapP p (fun _ => b)

/-- `nom::combinator::verify`. -/
def verify {α : Type} (p : P α) (f : α → Bool) : P α := fun s =>
  match p s with
  | some (r, a) => if f a then some (r, a) else none
  | none => none

/-- `not(p)`, also `peek(not(p))`: succeeds without consuming exactly when `p` fails. -/
def notP {α : Type} (p : P α) : P Unit := fun s =>
  match p s with
  | some _ => none
  | none => some (s, ())

/-- `nom::combinator::recognize`: the consumed part of the input. -/
def recognize {α : Type} (p : P α) : P Str := fun s =>
  match p s with
  | some (r, _) => some (r, s.take (s.length - r.length))
  | none => none

/-- A pair of parsers in sequence: `(p, q)`, `pair(p, q)`. -/
def seq {α β : Type} (p : P α) (q : P β) : P (α × β) := fun s =>
  match p s with
  | some (r, a) => match q r with
    | some (r', b) => some (r', (a, b))
    | none => none
  | none => none

/-- `nom::sequence::preceded`. -/
def preceded {α β : Type} (p : P α) (q : P β) : P β := fun s =>
  match p s with
  | some (r, _) => q r
  | none => none

/-- `nom::sequence::terminated`. -/
def terminated {α β : Type} (p : P α) (q : P β) : P α := mapP (seq p q) Prod.fst

/-- `nom::sequence::delimited`. -/
def delimited {α β γ : Type} (p : P α) (q : P β) (t : P γ) : P β := preceded p (terminated q t)

/-- `many0`, worker with the number of rounds left. -/
def many0F {α : Type} (p : P α) : Nat → P (List α)
  | 0, _ => none
  | n + 1, s => match p s with
    | none => some (s, [])
    | some (r, a) =>
      if r.length < s.length then
        match many0F p n r with
        | some (r', l) => some (r', a :: l)
        | none => none
      else none

/-- `nom::multi::many0`: applies `p` until it fails; an error if `p` succeeds without consuming.
(nom compares the lengths with `==`; a parser returns a part of its input, so "not shorter" and
"equal" coincide.)  `many0_eq` shows that the bound on the number of rounds is never reached. -/
def many0 {α : Type} (p : P α) : P (List α) := fun s => many0F p (s.length + 1) s

/-- `nom::multi::many1`: like `many0` after a first mandatory, unchecked, round. -/
def many1 {α : Type} (p : P α) : P (List α) := fun s =>
  match p s with
  | none => none
  | some (r, a) => match many0 p r with
    | some (r', l) => some (r', a :: l)
    | none => none

/-- `nom::multi::many_m_n(m, n, p)` with `m ≤ n`. -/
def manyMN {α : Type} (p : P α) : Nat → Nat → P (List α)
  | _, 0, s => some (s, [])
  | m, n + 1, s => match p s with
    | some (r, a) =>
      if r.length < s.length then
        match manyMN p (m - 1) n r with
        | some (r', l) => some (r', a :: l)
        | none => none
      else none
    | none => if m = 0 then some (s, []) else none

/-- `many_m_n(m, usize::MAX, p)` and `many(m.., p)`: `many0` with at least `m` results. -/
def manyMin {α : Type} (m : Nat) (p : P α) : P (List α) := verify (many0 p) (fun l => m ≤ l.length)

/-- The loop of `separated_list0`/`separated_list1` after the first element, with the number of
rounds left. -/
def sepLoopF {α β : Type} (sep : P β) (p : P α) : Nat → P (List α)
  | 0, _ => none
  | n + 1, s => match sep s with
    | none => some (s, [])
    | some (r, _) => match p r with
      | none => some (s, [])
      | some (r', a) =>
        if r'.length < s.length then
          match sepLoopF sep p n r' with
          | some (r'', l) => some (r'', a :: l)
          | none => none
        else none

/-- The loop of `separated_list0`/`separated_list1` after the first element. -/
def sepLoop {α β : Type} (sep : P β) (p : P α) : P (List α) := fun s =>
  sepLoopF sep p (s.length + 1) s

/-- `nom::multi::separated_list1`. -/
def separatedList1 {α β : Type} (sep : P β) (p : P α) : P (List α) := fun s =>
  match p s with
  | none => none
  | some (r, a) => match sepLoop sep p r with
    | some (r', l) => some (r', a :: l)
    | none => none

/-- `nom::multi::separated_list0`. -/
def separatedList0 {α β : Type} (sep : P β) (p : P α) : P (List α) := fun s =>
  match p s with
  | none => some (s, [])
  | some (r, a) => match sepLoop sep p r with
    | some (r', l) => some (r', a :: l)
    | none => none

/-- `many_m_n(0, 3, char(' '))`: up to three spaces of indentation. -/
def indent03 : P (List Char) := manyMN (chr ' ') 0 3

/-- ASCII lower case of a character. -/
def asciiLower (c : Char) : Char := if isAsciiUpper c then Char.ofNat (c.toNat + 32) else c

/-- `nom::bytes::complete::tag_no_case` for an ASCII lower-case tag.  nom compares the Unicode
lower-case forms; the only non-ASCII character whose lower case is an ASCII letter is U+212A
(KELVIN SIGN, `k`).  In this code base that can only affect `blockquote` (the tags `link` and
`track` are never reached, `li` and `tr` are tried first), where nom then splits at the byte length
of the tag, leaving `te`, and the following parser fails: the enclosing parser fails either way. -/
def tagNoCase (t : Str) : P Str := fun s =>
  if t == (s.take t.length).map asciiLower then some (s.drop t.length, s.take t.length) else none

end Nom

open Nom in
/-- `eof_or_eol`, `parser/util.rs:11-13` -/
def eofOrEol : P Str := lineEnding <||> eof

open Nom in
/-- `many_empty_lines0`, `parser/util.rs:15-17` -/
def manyEmptyLines0 : P (List Str) := many0 (preceded space0 eofOrEol)

open Nom in
/-- `not_eof_or_eol1`, `parser/util.rs:19-21` -/
def notEofOrEol1 : P Str := recognize (many1 (preceded (notP eofOrEol) anychar))

open Nom in
/-- `not_eof_or_eol0`, `parser/util.rs:23-25` -/
def notEofOrEol0 : P Str := notLineEnding <||> eof

open Nom in
/-- `line_terminated`, `parser/util.rs:27-34` -/
def lineTerminated {α : Type} (p : P α) : P α := terminated p eofOrEol

end Verif
