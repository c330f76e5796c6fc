import Verif.Model.NodeData
import Verif.Model.Patterns
import Verif.Model.Lines
/-! # Converters (`/repo/src/parser/converters.rs`) and the look-ahead for enumerated lists -/
namespace Rustla

/-- The arms of the `match` in `alpha_to_usize`, `/repo/src/parser/converters.rs` l.211-237. -/
def alphaTable : List (Char × Char × Nat) :=
  [('A', 'a', 1), ('B', 'b', 2), ('C', 'c', 3), ('D', 'd', 4), ('E', 'e', 5), ('F', 'f', 6), ('G',
   'g', 7), ('H', 'h', 8), ('I', 'i', 9), ('J', 'j', 10), ('K', 'k', 11), ('L', 'l', 12), ('M', 'm',
   13), ('N', 'n', 14), ('O', 'o', 15), ('P', 'p', 16), ('Q', 'q', 17), ('R', 'r', 18), ('S', 's',
   19), ('T', 't', 20), ('U', 'u', 21), ('V', 'v', 22), ('W', 'w', 23), ('X', 'x', 24), ('Y', 'y',
   25), ('Z', 'z', 26)]

/-- `alpha_to_usize`, `/repo/src/parser/converters.rs` l.211-247. -/
def alphaToUsize (s : Str) : Option Nat :=
  match s with
  | [c] => (alphaTable.find? fun e => e.1 == c || e.2.1 == c).map fun e => e.2.2
  | _ => none

/-- `ROMAN_MAX`, `/repo/src/parser/converters.rs` l.256-256 and l.326. -/
def romanMax : Nat := 4999

/-- The look-ahead of the upper-case reader, `/repo/src/parser/converters.rs` l.258-287: does the second
character belong to the token started by the first? -/
def upperRomanPair (c1 c2 : Char) : Bool :=
  (c1 == 'C' && (c2 == 'M' || c2 == 'D')) || (c1 == 'X' && (c2 == 'C' || c2 == 'L')) ||
  (c1 == 'I' && (c2 == 'X' || c2 == 'V'))

/-- The token values of the upper-case reader, `/repo/src/parser/converters.rs` l.290-311. -/
def upperRomanToken (buffer : Str) : Option Nat :=
  match buffer with
  | ['M'] => some 1000
  | ['C', 'M'] => some 900
  | ['D'] => some 500
  | ['C', 'D'] => some 400
  | ['C'] => some 100
  | ['X', 'C'] => some 90
  | ['L'] => some 50
  | ['X', 'L'] => some 40
  | ['X'] => some 10
  | ['I', 'X'] => some 9
  | ['V'] => some 5
  | ['I', 'V'] => some 4
  | ['I'] => some 1
  | _ => none

/-- The look-ahead of the lower-case reader, `/repo/src/parser/converters.rs` l.340-368. -/
def lowerRomanPair (c1 c2 : Char) : Bool :=
  (c1 == 'c' && (c2 == 'm' || c2 == 'd')) || (c1 == 'x' && (c2 == 'c' || c2 == 'l')) ||
  (c1 == 'i' && (c2 == 'x' || c2 == 'v'))

/-- The token values of the lower-case reader, `/repo/src/parser/converters.rs` l.371-392. -/
def lowerRomanToken (buffer : Str) : Option Nat :=
  match buffer with
  | ['m'] => some 1000
  | ['c', 'm'] => some 900
  | ['d'] => some 500
  | ['c', 'd'] => some 400
  | ['c'] => some 100
  | ['x', 'c'] => some 90
  | ['l'] => some 50
  | ['x', 'l'] => some 40
  | ['x'] => some 10
  | ['i', 'x'] => some 9
  | ['v'] => some 5
  | ['i', 'v'] => some 4
  | ['i'] => some 1
  | _ => none

/-- The `while` loop shared by `upper_roman_to_usize` and `lower_roman_to_usize`,
`/repo/src/parser/converters.rs` l.258-323 and l.337-402. -/
def romanLoop (pair : Char → Char → Bool) (token : Str → Option Nat) : Nat → Str → Option Nat
  | v, [] => some v
  | v, [c] =>
    match token [c] with
    | none => none
    | some t => if v + t > romanMax then none else some (v + t)
  | v, c :: d :: rest =>
    if pair c d then
      match token [c, d] with
      | none => none
      | some t => if v + t > romanMax then none else romanLoop pair token (v + t) rest
    else
      match token [c] with
      | none => none
      | some t => if v + t > romanMax then none else romanLoop pair token (v + t) (d :: rest)
termination_by _ s => s.length

/-- `upper_roman_to_usize`, `/repo/src/parser/converters.rs` l.251-325. -/
def upperRomanToUsize (s : Str) : Option Nat := romanLoop upperRomanPair upperRomanToken 0 s

/-- `lower_roman_to_usize`, `/repo/src/parser/converters.rs` l.329-403. -/
def lowerRomanToUsize (s : Str) : Option Nat := romanLoop lowerRomanPair lowerRomanToken 0 s

/-- Value of a string of decimal digits.
(`/repo/src/parser/converters.rs` l.35-35) -/
def digitsVal (s : Str) : Nat := s.foldl (fun a c => 10 * a + (c.toNat - 48)) 0

/-- Rust `str::parse::<usize>()` on a non-empty string of ASCII digits (64 bit): `none` is the overflow error;
`none` also for other strings.
(`/repo/src/parser/converters.rs` l.35-35, l.91-91, l.126-126, l.161-161) -/
def parseUsize (s : Str) : Option Nat :=
  if s.isEmpty || !s.all clsDigit then none
  else if digitsVal s < 2 ^ 64 then some (digitsVal s) else none

/-- Number of an automatic enumerator and its kind, `/repo/src/parser/converters.rs` l.113-122 (and the two
copies at l.149-158, l.185-194). -/
def autoEnumerator (listKind : Option EnumKind) (inListItem : Bool) (itemNumber startIndex : Nat) :
    Option Nat × EnumKind :=
  (some (itemNumber + startIndex),
    if itemNumber == 0 && !inListItem then .Arabic else listKind.getD .Arabic)

/-- `enum_captures_to_int_kind_and_delims`, `/repo/src/parser/converters.rs` l.79-207.  Note the comparison
with a lower-case `i` in the upper-case Roman branches at l.137 and l.173.  `.error` is the final `panic!`. -/
def enumCaptures (m : Match) (listKind : Option EnumKind) (inListItem observingNext : Bool)
    (itemNumber startIndex : Nat) : Run (Option (Nat × EnumKind × EnumDelims)) :=
  let done (r : Option Nat × EnumKind × EnumDelims) : Run (Option (Nat × EnumKind × EnumDelims)) :=
    .ok (match r.1 with
      | none => none
      | some n => some (if observingNext then n + 1 else n, r.2.1, r.2.2))
  let auto (d : EnumDelims) :=
    let a := autoEnumerator listKind inListItem itemNumber startIndex
    done (a.1, a.2, d)
  let roman (read : Str → Option Nat) (k : EnumKind) (d : EnumDelims) (one : Str) (s : Str) :=
    if s == one && itemNumber == 0 then .ok (some (1, k, d)) else done (read s, k, d)
  let lowI := str! "i"
  let upI := str! "I"
  match m.get .arabicParens with
  | some s => done (parseUsize s, .Arabic, .Parens)
  | none => match m.get .lowerRomanParens with
  | some s => roman lowerRomanToUsize .LowerRoman .Parens lowI s
  | none => match m.get .upperRomanParens with
  | some s => roman upperRomanToUsize .UpperRoman .Parens upI s
  | none => match m.get .lowerAlphaParens with
  | some s => done (alphaToUsize s, .LowerAlpha, .Parens)
  | none => match m.get .upperAlphaParens with
  | some s => done (alphaToUsize s, .UpperAlpha, .Parens)
  | none => match m.get .autoEnumeratorParens with
  | some _ => auto .Parens
  | none => match m.get .arabicRparen with
  | some s => done (parseUsize s, .Arabic, .RParen)
  | none => match m.get .lowerRomanRparen with
  | some s => roman lowerRomanToUsize .LowerRoman .RParen lowI s
  | none => match m.get .upperRomanRparen with
  | some s => roman upperRomanToUsize .UpperRoman .RParen lowI s
  | none => match m.get .lowerAlphaRparen with
  | some s => done (alphaToUsize s, .LowerAlpha, .RParen)
  | none => match m.get .upperAlphaRparen with
  | some s => done (alphaToUsize s, .UpperAlpha, .RParen)
  | none => match m.get .autoEnumeratorRparen with
  | some _ => auto .RParen
  | none => match m.get .arabicPeriod with
  | some s => done (parseUsize s, .Arabic, .Period)
  | none => match m.get .lowerRomanPeriod with
  | some s => roman lowerRomanToUsize .LowerRoman .Period lowI s
  | none => match m.get .upperRomanPeriod with
  | some s => roman upperRomanToUsize .UpperRoman .Period lowI s
  | none => match m.get .lowerAlphaPeriod with
  | some s => done (alphaToUsize s, .LowerAlpha, .Period)
  | none => match m.get .upperAlphaPeriod with
  | some s => done (alphaToUsize s, .UpperAlpha, .Period)
  | none => match m.get .autoEnumeratorPeriod with
  | some _ => auto .Period
  | none => .error (.explicit "converters.rs enum_captures_to_int_kind_and_delims")

/-- `is_enumerated_list_item`, `/repo/src/parser/state_machine/mod.rs` l.291-350 (the parameters that the
function does not use are left out). -/
def isEnumeratedListItem (src : List Str) (cursor : LineCursor) (baseIndent enumeratorIndent number : Nat)
    (kind : EnumKind) (delims : EnumDelims) (listKind : EnumKind) (inListItem : Bool)
    (itemNumber startIndex : Nat) : Run Bool :=
  match src[cursor.relativeOffset + 1]? with
  | none => .ok true
  | some nextLine =>
    let nextIndent := indentOf nextLine + baseIndent
    if isBlank nextLine || decide (nextIndent > enumeratorIndent) then .ok true
    else if nextIndent = enumeratorIndent then
      match reEnumerator.captures nextLine with
      | none => .ok false
      | some m =>
        match enumCaptures m (some listKind) inListItem true itemNumber startIndex with
        | .error p => .error p
        | .ok none => .ok false
        | .ok (some (n, k, d)) => .ok (n == number + 1 && k == kind && d == delims)
    else .ok true

/-- Rust `str::parse::<f64>()` on the numbers accepted by the length and percentage patterns.
Simplification: exact rational instead of the nearest `f64`.
(`/repo/src/parser/converters.rs` l.469-469) -/
def parseF64 (s : Str) : F64 :=
  let ip := s.takeWhile (· != '.')
  let fp := (s.dropWhile (· != '.')).drop 1
  ⟨digitsVal ip * 10 ^ fp.length + digitsVal fp, 10 ^ fp.length⟩

/-- `str_to_length`, `/repo/src/parser/converters.rs` l.407-449. -/
def strToLength (s : Str) : Option Length :=
  match reValidLength.captures (trim s) with
  | none => none
  | some m =>
    match m.get .number, m.get .unit with
    | some n, some u =>
      let x := parseF64 n
      if u = str! "em" then some (.Em x)
      else if u = str! "ex" then some (.Ex x)
      else if u = str! "mm" then some (.Mm x)
      else if u = str! "cm" then some (.Cm x)
      else if u = str! "in" then some (.In x)
      else if u = str! "px" then some (.Px x)
      else if u = str! "pt" then some (.Pt x)
      else if u = str! "pc" then some (.Pc x)
      else none
    | _, _ => none

/-- `str_to_percentage`, `/repo/src/parser/converters.rs` l.453-479. -/
def strToPercentage (s : Str) : Option F64 :=
  match reValidPercentage.captures (trim s) with
  | none => none
  | some m => (m.get .number).map parseF64

/-- `str_to_html_alignment`, `/repo/src/parser/converters.rs` l.484-494. -/
def strToHtmlAlignment (s : Str) : Option HTMLAlignment :=
  let t := trim s
  if t = str! "top" then some .Top
  else if t = str! "middle" then some .Middle
  else if t = str! "bottom" then some .Bottom
  else if t = str! "left" then some .Left
  else if t = str! "center" then some .Center
  else if t = str! "right" then some .Right
  else none

/-- `str_to_horizontal_alignment`, `/repo/src/parser/converters.rs` l.499-506. -/
def strToHorizontalAlignment (s : Str) : Option HorizontalAlignment :=
  let t := trim s
  if t = str! "left" then some .Left
  else if t = str! "center" then some .Center
  else if t = str! "right" then some .Right
  else none

end Rustla
