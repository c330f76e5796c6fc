import Verif.Spec.Tables
/-!
# Specification of the values of options

Numbers with a decimal point, lengths, percentages, numbers that have to fit into a given number of bits, and the names of alignments.
-/
namespace Rustla.Spec

/-- A number as it can be written as an option: some digits, and maybe a point and more digits. -/
structure Amount where
  whole : Str
  point : Bool
  fraction : Str
  deriving DecidableEq

/-- How the number is written. -/
def Amount.text (a : Amount) : Str := a.whole ++ (if a.point then '.' :: a.fraction else [])

/-- The value of the number: all of its digits, divided by a power of ten. -/
def Amount.value (a : Amount) : F64 := ⟨readDigits a.whole * 10 ^ a.fraction.length + readDigits a.fraction, 10 ^ a.fraction.length⟩

/-- Well-formed numbers: there is a digit, and there are no digits behind the point without a point. -/
structure Amount.Ok (a : Amount) : Prop where
  whole : ∀ c ∈ a.whole, c.isDigit = true
  fraction : ∀ c ∈ a.fraction, c.isDigit = true
  pointless : a.point = false → a.fraction = []
  digit : a.whole ≠ [] ∨ a.fraction ≠ []

/-- The units of lengths: their names, and the lengths that they make of numbers. -/
def units : List (Str × (F64 → Length)) :=
  [(str! "em", .Em), (str! "ex", .Ex), (str! "mm", .Mm), (str! "cm", .Cm), (str! "in", .In), (str! "px", .Px), (str! "pt", .Pt), (str! "pc", .Pc)]

/-- The text is the given one with white space around it. -/
def Around (s t : Str) : Prop := ∃ l r, (∀ c ∈ l, isWs c = true) ∧ (∀ c ∈ r, isWs c = true) ∧ s = l ++ t ++ r

/-- The names of the alignments of images. -/
def imageAlignments : List (Str × HTMLAlignment) :=
  [(str! "top", .Top), (str! "middle", .Middle), (str! "bottom", .Bottom), (str! "left", .Left), (str! "center", .Center), (str! "right", .Right)]

end Rustla.Spec
