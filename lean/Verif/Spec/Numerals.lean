import Verif.Model.Basic
/-! # Specification of Roman numerals -/
namespace Rustla

/-- One decimal digit in Roman notation, with the symbols for one, five and ten. -/
def romanDigit (one five ten : Char) : Nat → Str
  | 0 => []
  | 1 => [one]
  | 2 => [one, one]
  | 3 => [one, one, one]
  | 4 => [one, five]
  | 5 => [five]
  | 6 => [five, one]
  | 7 => [five, one, one]
  | 8 => [five, one, one, one]
  | _ => [one, ten]

/-- The canonical Roman numeral of a number. -/
def romanNumeral (n : Nat) : Str :=
  List.replicate (n / 1000) 'M' ++ romanDigit 'C' 'D' 'M' (n / 100 % 10) ++
    romanDigit 'X' 'L' 'C' (n / 10 % 10) ++ romanDigit 'I' 'V' 'X' (n % 10)

/-- Lower case. -/
def romanLower (s : Str) : Str := s.map lowerRomanChar where
  lowerRomanChar (c : Char) : Char :=
    if c = 'M' then 'm' else if c = 'D' then 'd' else if c = 'C' then 'c' else if c = 'L' then 'l'
    else if c = 'X' then 'x' else if c = 'V' then 'v' else if c = 'I' then 'i' else c

end Rustla
