import Verif.Spec.Explicit
import Verif.Model.Common
/-!
# Specification of internal hyperlink targets
-/
namespace Rustla.Spec

/-- A hyperlink target: its name, in pieces between separators, and the blank lines behind it. -/
structure Target where
  first : Str
  rest : List (Char × Str)
  gap : List Str
  deriving DecidableEq

/-- The name of a target. -/
def Target.name (t : Target) : Str := t.first ++ (t.rest.map fun p => p.1 :: p.2).flatten

/-- The last piece of the name. -/
def Target.final (t : Target) : Str := ((t.rest.getLast?).map (·.2)).getD t.first

/-- The line of a target. -/
def Target.line (t : Target) : Str := str! ".. _" ++ t.name ++ str! ":"

/-- The lines of a target. -/
def Target.lines (t : Target) : List Str := t.line :: t.gap

/-- The label that the next node gets from the target. -/
def Target.label (t : Target) : Str := normalizeRefname t.name

/-- A letter, a digit or a space. -/
def nameChar (c : Char) : Prop := c.isAlphanum = true ∨ c = ' '

/-- The name starts and ends with a letter or a digit, and consists of letters, digits, spaces and separators that follow each other only
with something between them.  A colon is not followed by a space.  The piece behind the last separator has at least two characters. -/
structure Target.Ok (t : Target) : Prop where
  start : ∃ c w, t.first = c :: w ∧ c.isAlphanum = true
  first : ∀ c ∈ t.first, nameChar c
  rest : ∀ p ∈ t.rest, p.1 ∈ separators ∧ p.2 ≠ [] ∧ ∀ c ∈ p.2, nameChar c
  colon : ∀ p ∈ t.rest, p.1 = ':' → p.2.head? ≠ some ' '
  final : 2 ≤ t.final.length ∧ ∃ c, t.final.getLast? = some c ∧ c.isAlphanum = true
  gap : ∀ l ∈ t.gap, isBlank l = true

/-- The lines of some targets. -/
def targetLines (ts : List Target) : List Str := (ts.map Target.lines).flatten

/-- The lines of some targets at an indentation. -/
def targetsAt (i : Nat) (ts : List Target) : List Str := (ts.map fun t => indentLine i t.line :: t.gap).flatten

/-- The first of some nodes gets labels, in front of those that it has. -/
def labelFirst (labels : List Str) : List Shape → List Shape
  | .labelled d own ks :: rest => .labelled d (labels ++ own) ks :: rest
  | [] => []

end Rustla.Spec
