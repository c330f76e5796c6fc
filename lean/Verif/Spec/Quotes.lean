import Verif.Spec.Questions
/-!
# Specification of the attributions of block quotes
-/
namespace Rustla.Spec

/-- The attribution at the end of a block quote: two hyphens or a dash, spaces, the text, the number of additional spaces in
front of the other lines, the other lines, and the blank lines behind it. -/
structure Signature where
  dash : Str
  space : Nat
  text : Str
  deep : Nat
  more : List Str
  after : List Str

/-- The first line of an attribution without its indentation. -/
def Signature.first (s : Signature) : Str := s.dash ++ (List.replicate s.space ' ' ++ s.text)

/-- The lines of an attribution at an indentation. -/
def Signature.lines (i : Nat) (s : Signature) : List Str :=
  indentLine i s.first :: (s.more.map (indentLine (i + s.deep)) ++ s.after)

/-- The text of an attribution. -/
def Signature.author (s : Signature) : Str := trim (joinWith [' '] (s.text :: s.more))

/-- Well-formed attributions: a third hyphen would be part of the text. -/
structure Signature.Ok (s : Signature) : Prop where
  dash : s.dash = str! "--" ∨ s.dash = str! "—"
  start : ∃ c, s.text.head? = some c ∧ isWs c = false
  two : s.dash = str! "--" → s.space = 0 → s.text.head? ≠ some '-'
  oneLine : '\n' ∉ s.text
  more : ∀ l ∈ s.more, TextLine l
  blank : ∀ l ∈ s.after, isBlank l = true

/-- The lines of the attribution of a block quote, if it has one. -/
def signLines (i : Nat) : Option Signature → List Str
  | none => []
  | some s => s.lines i

/-- The node of the attribution of a block quote, if it has one. -/
def signShapes : Option Signature → List Shape
  | none => []
  | some s => [.node (.Attribution s.author) []]

/-- The attribution of a block quote in the output. -/
def signLatex : Option Signature → Str
  | none => []
  | some s => str! "-- " ++ s.author ++ str! "\n"

/-- A paragraph does not start like an attribution. -/
def UndashedLines (g : List Str) : Prop := ∀ l, g.head? = some l → ¬ Dashed l

/-- A part does not start like an attribution. -/
def Part.Undashed : Part → Prop
  | .quiz .. => True
  | .literal g _ _ _ => UndashedLines g
  | .bare .. => True
  | .table _ => True
  | .anchored .. => True
  | .anchoredText _ g _ _ => UndashedLines g
  | .columns .. => True

end Rustla.Spec
