import Verif.Spec.Plain
import Verif.Spec.Explicit
import Verif.Model.Common
/-!
# Specification of footnotes with numbers and of citations
-/
namespace Rustla.Spec

/-- A footnote with a number, or a citation: its label, and by how many columns its further lines are indented. -/
structure Note where
  foot : Bool
  label : Str
  wide : Nat

/-- The marker in front of the text. -/
def Note.text (N : Note) : Str := str! ".. [" ++ N.label ++ str! "] "

/-- The lines of the first paragraph at an indentation. -/
def Note.lines (i : Nat) (N : Note) : List Str → List Str
  | [] => []
  | l :: ls => indentLine i (N.text ++ l) :: ls.map (indentLine (i + N.wide))

/-- The label of a footnote consists of digits; that of a citation starts with a letter and goes on with letters, digits and single separators
between them.  If the paragraph has one line and nothing else belongs to the note, then there is no other indentation than that of the text behind the marker. -/
structure Note.Ok (N : Note) (alone : Prop) : Prop where
  foot : N.foot = true → N.label ≠ [] ∧ ∀ c ∈ N.label, c.isDigit = true
  cite : N.foot = false → ∃ a t, N.label = a :: t ∧ a.isAlpha = true ∧ NameTail t
  wide : 0 < N.wide
  alone : alone → N.wide = N.text.length

/-- The node of a note at an indentation. -/
def Note.node (i : Nat) (N : Note) : NodeType :=
  if N.foot then .Footnote (i + N.wide) .Manual N.label N.label else .Citation (i + N.wide) N.label

/-- The name under which a note is referred to. -/
def Note.name (N : Note) : Str := normalizeRefname N.label

/-- The text in front of a note in the output. -/
def Note.opening (N : Note) : Str := if N.foot then str! "\\footnote{\n" else str! "\\bibitem{" ++ N.label ++ str! "}\n"

/-- The text behind a note in the output. -/
def Note.closing (N : Note) : Str := if N.foot then str! "}\n\n" else str! "\n"

end Rustla.Spec
