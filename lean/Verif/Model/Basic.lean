/-!
# Strings, characters and panics

Rust `String`/`&str` values are modelled as lists of Unicode scalar values.
-/
namespace Rustla

/-- Rust `String`, `&str`: a sequence of `char`s.  Models the string type used throughout `/repo/src`.
Simplification: the UTF-8 byte representation is only visible through `utf8Len`. -/
abbrev Str := List Char

open Lean in
/-- `str! "abc"` is the list of characters `['a', 'b', 'c']`, built when the file is elaborated. -/
macro:max "str!" s:str : term => do
  let cs := s.getString.toList.toArray.map fun c => Syntax.mkCharLit c
  `(([$cs,*] : List Char))

/-- Number of bytes of the UTF-8 encoding: Rust `str::len`.
(`/repo/src/parser/state_machine/bullet_list.rs` l.25-25) -/
def utf8Len (s : Str) : Nat := (s.map Char.utf8Size).foldr (· + ·) 0

/-- Why the Rust program would stop with a panic.
(`/repo/src/parser/mod.rs` l.94-303, `/repo/src/doctree/larst_writer.rs` l.133-165) -/
inductive Panic where
  | unwrapNone (at_ : String)
  | underflow (at_ : String)
  | explicit (at_ : String)
  | todo (at_ : String)
  | unreachable (at_ : String)
  | indexOutOfBounds (at_ : String)
  /-- Not a panic of the program: the bound on the number of rounds given to the model was too small. -/
  | outOfFuel
  deriving DecidableEq, Repr

/-- A computation that may panic.
(`/repo/src/parser/mod.rs` l.94-303) -/
abbrev Run (α : Type) := Except Panic α

deriving instance DecidableEq for Except

/-- Rust `char::is_whitespace`: the Unicode `White_Space` property (25 code points); also `\s` of the
`regex` crate, used in `/repo/src/parser/regex_patterns.rs`. -/
def isWs (c : Char) : Bool :=
  let n := c.toNat
  (9 ≤ n && n ≤ 13) || n == 0x20 || n == 0x85 || n == 0xA0 || n == 0x1680 ||
  (0x2000 ≤ n && n ≤ 0x200A) || n == 0x2028 || n == 0x2029 || n == 0x202F || n == 0x205F || n == 0x3000

/-- Rust `char::is_ascii_alphabetic`.
(`/repo/src/utf8_to_latex.rs` l.56-56) -/
def isAsciiAlpha (c : Char) : Bool :=
  (0x41 ≤ c.toNat && c.toNat ≤ 0x5A) || (0x61 ≤ c.toNat && c.toNat ≤ 0x7A)

/-- Rust `str::trim_start`.
(`/repo/src/parser/mod.rs` l.598-598, `/repo/src/parser/state_machine/literal_block.rs` l.170-170) -/
def trimStart (s : Str) : Str := s.dropWhile isWs

/-- Rust `str::trim_end`.
(`/repo/src/parser/state_machine/body.rs` l.1832-1832, l.1889-1891, l.2188-2188) -/
def trimEnd (s : Str) : Str := (s.reverse.dropWhile isWs).reverse

/-- Rust `str::trim`.
(`/repo/src/parser/state_machine/body.rs` l.1535-1535, `/repo/src/parser/state_machine/block_quote.rs` l.67-67) -/
def trim (s : Str) : Str := trimEnd (trimStart s)

/-- `s.trim().is_empty()`, the blank-line test used all over `/repo/src/parser`. -/
def isBlank (s : Str) : Bool := (trim s).isEmpty

/-- Number of leading whitespace characters:
`line.chars().take_while(|c| c.is_whitespace()).count()`.
(`/repo/src/parser/mod.rs` l.582-586, l.673-677, l.843-847, `/repo/src/parser/state_machine/body.rs` l.566-566, l.1513-1513) -/
def indentOf (s : Str) : Nat := (s.takeWhile isWs).length

/-- Worker of `splitWs`: `cur` is the current word, reversed.
(`/repo/src/common.rs` l.41-41, `/repo/src/parser/directive_parsers.rs` l.773-773, l.2648-2648) -/
def splitWsAux : Str → Str → List Str
  | [], cur => if cur.isEmpty then [] else [cur.reverse]
  | c :: cs, cur =>
    if isWs c then
      if cur.isEmpty then splitWsAux cs [] else cur.reverse :: splitWsAux cs []
    else splitWsAux cs (c :: cur)

/-- Rust `str::split_whitespace().collect()`.
(`/repo/src/common.rs` l.41-41, `/repo/src/parser/directive_parsers.rs` l.773-773, l.2648-2648) -/
def splitWs (s : Str) : List Str := splitWsAux s []

/-- Rust `[..].join(sep)`.
(`/repo/src/common.rs` l.43-43, `/repo/src/parser/state_machine/body.rs` l.593-593, `/repo/src/parser/directive_parsers.rs` l.204-204, l.268-268) -/
def joinWith (sep : Str) : List Str → Str
  | [] => []
  | [x] => x
  | x :: y :: ys => x ++ sep ++ joinWith sep (y :: ys)

/-- Remove one trailing carriage return, as `str::lines` does with every line.
(`/repo/src/doctree/larst_writer.rs` l.264-264) -/
def dropCr (s : Str) : Str := if s.getLast? = some '\r' then s.dropLast else s

/-- Worker of `strLines`: `cur` is the current line, reversed.
(`/repo/src/doctree/larst_writer.rs` l.264-264) -/
def strLinesAux : Str → Str → List Str
  | [], cur => if cur.isEmpty then [] else [cur.reverse]
  | c :: cs, cur =>
    if c = '\n' then dropCr cur.reverse :: strLinesAux cs [] else strLinesAux cs (c :: cur)

/-- Rust `str::lines().collect()`; also `str_to_lines`, `/repo/src/common.rs` l.15-22.
A last line without line feed keeps its carriage return. -/
def strLines (s : Str) : List Str := strLinesAux s []

/-- Decimal representation of a number: Rust `to_string` / `format!("{}", n)` of an unsigned integer.
(`/repo/src/doctree/mod.rs` l.628-635) -/
def decimal (n : Nat) : Str := Nat.toDigits 10 n

end Rustla
