import Verif.Spec.Plain
import Verif.Spec.Explicit
/-!
# Specification of the terms of definition lists
-/
namespace Rustla.Spec

/-- A term with its classifiers, and by how many columns its definition is indented (less one). -/
structure Term where
  name : Str
  classes : List Str
  deep : Nat

/-- The line of a term: the classifiers stand behind colons between spaces. -/
def Term.text (t : Term) : Str := t.name ++ (t.classes.map fun c => str! " : " ++ c).flatten

/-- A text that is not split by colons between spaces, whatever stands in front of it and behind it. -/
def Unsplit (p : Str) : Prop := ¬ str! " : " <:+: ' ' :: (p ++ [' '])

/-- Well-formed terms: the line is one with which a paragraph may start, and the classifiers are not blank. -/
structure Term.Ok (t : Term) : Prop where
  line : FirstLine t.text
  noBreak : ¬ str! "::newcol" <+: t.text
  name : Unsplit t.name
  classes : ∀ c ∈ t.classes, Unsplit c ∧ isBlank c = false

/-- The node of a term: the spaces in front of the line of the term are part of the term. -/
def Term.node (i : Nat) (t : Term) : NodeType := .DefinitionListItem (List.replicate i ' ' ++ t.name) t.classes (i + (t.deep + 1))

/-- The text of a term in the output. -/
def Term.latex (i : Nat) (t : Term) : Str :=
  str! "\\item \\textbf{" ++ (List.replicate i ' ' ++ t.name) ++ str! "}" ++
    (if t.classes = [] then [] else str! ": " ++ joinWith (str! ", ") t.classes) ++ str! "\n\n"

end Rustla.Spec
