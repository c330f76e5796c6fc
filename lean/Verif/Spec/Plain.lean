import Verif.Spec.Inline
import Verif.Model.Tree
/-!
# Specification of markup-free documents
-/
namespace Rustla.Spec

/-- Characters that underline titles. -/
def adornments : List Char :=
  ['!', '"', '#', '$', '%', '&', '\'', '(', ')', '*', '+', ',', '-', '.', '/', ':', ';', '<', '=', '>', '?', '@', '[',
    '\\', ']', '^', '_', '`', '{', '|', '}', '~']

/-- Characters that start the items of a bullet list. -/
def bullets : List Char := ['*', '+', '-', '\u2022', '\u2023', '\u2043']

/-- What follows the marker of a construct: nothing or a space. -/
def Gap (rest : Str) : Prop := rest = [] ∨ rest.head? = some ' '

/-- A line that starts with a bullet. -/
def Bulleted (l : Str) : Prop := ∃ b rest, l = b :: rest ∧ b ∈ bullets ∧ Gap rest

/-- The text of an enumerator: digits, Roman digits of one case, one letter or a number sign. -/
def EnumeratorText (e : Str) : Prop :=
  e = ['#'] ∨ e ≠ [] ∧ ((∀ c ∈ e, c.isDigit = true) ∨ (∀ c ∈ e, c ∈ str! "ivxlcdm") ∨ (∀ c ∈ e, c ∈ str! "IVXLCDM") ∨
    (e.length = 1 ∧ ∀ c ∈ e, c.isAlpha = true))

/-- A line that starts with an enumerator such as `12.`, `b)` or `(iv)`. -/
def Enumerated (l : Str) : Prop :=
  ∃ e d rest, (l = e ++ d :: rest ∧ d ∈ ['.', ')'] ∨ l = '(' :: (e ++ d :: rest) ∧ d = ')') ∧ EnumeratorText e ∧ Gap rest

/-- A line that starts with the marker of a field, such as `:name:`. -/
def FieldMarked (l : Str) : Prop := ∃ name rest, l = ':' :: (name ++ ':' :: rest) ∧ name ≠ [] ∧ Gap rest

/-- A line that starts explicit markup: a directive, a footnote, a citation, a target or a comment. -/
def Explicit (l : Str) : Prop := ∃ rest, l = '.' :: '.' :: rest ∧ Gap rest

/-- A line below or above a title. -/
def Ruled (l : Str) : Prop := ∃ a n m, a ∈ adornments ∧ l = List.replicate (n + 1) a ++ List.replicate m ' '

/-- A line that starts like the attribution of a block quote. -/
def Dashed (l : Str) : Prop := str! "--" <+: l ∨ str! "—" <+: l

/-- A line of a paragraph, which starts in the first column and does not underline anything. -/
structure TextLine (l : Str) : Prop where
  start : ∃ c, l.head? = some c ∧ isWs c = false
  notRuled : ¬ Ruled l
  oneLine : '\n' ∉ l

/-- The first line of a paragraph, which does not start any other construct. -/
structure FirstLine (l : Str) : Prop extends TextLine l where
  notBulleted : ¬ Bulleted l
  notEnumerated : ¬ Enumerated l
  notField : ¬ FieldMarked l
  notExplicit : ¬ Explicit l

/-- The lines of a paragraph. -/
def TextLines : List Str → Prop
  | [] => True
  | l :: ls => FirstLine l ∧ ∀ x ∈ ls, TextLine x

/-- The first line of a paragraph without inline markup. -/
structure PlainLine (l : Str) : Prop extends FirstLine l where
  noMarkup : markupFree l

/-- A document tree without identifiers and classes. -/
inductive Shape where
  | labelled (data : NodeType) (labels : List Str) (children : List Shape)

/-- A tree whose topmost node has no labels. -/
abbrev Shape.node (data : NodeType) (children : List Shape) : Shape := .labelled data [] children

mutual
/-- The shape of a tree. -/
def shapeOf : TreeNode → Shape
  | .mk _ labels _ data children => .labelled data (labels.getD []) (match children with
    | none => []
    | some cs => shapesOf cs)
/-- The shapes of a list of trees. -/
def shapesOf : List TreeNode → List Shape
  | [] => []
  | t :: ts => shapeOf t :: shapesOf ts
end

/-- The text of the paragraph made of a group of lines. -/
def groupText (g : List Str) : Str := trimEnd (joinWith ['\n'] g)

/-- The shape of the paragraph made of a group of lines without markup: its words and the white space between them. -/
def plainShape (indent : Nat) (g : List Str) : Shape :=
  .node (.Paragraph indent) ((runs (groupText g)).map fun r => .node (runNode r) [])

end Rustla.Spec
