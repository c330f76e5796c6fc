import Verif.Spec.Plain
import Verif.Spec.Markup
import Verif.Spec.Leaves
/-!
# Specification of literal blocks

A paragraph that ends with two colons announces a literal block: lines that are indented, or lines that start with the same
character.
-/
namespace Rustla.Spec

/-- What is left of a text that ends with two colons: one of them, or nothing if there is white space in front of them. -/
inductive Announced (text left : Str) : Prop
  /-- `Example::` -/
  | colon (h : text = left ++ [':']) (h1 : left.getLast? = some ':') (h2 : ∃ c, left.dropLast.getLast? = some c ∧ isWs c = false)
  /-- `Example ::` -/
  | space (h : text = left ++ [':', ':']) (h1 : ∃ c, left.getLast? = some c ∧ isWs c = true)

/-- The lines of a paragraph that announces a literal block, and the pieces of its text. -/
structure Announces (g : List Str) (ps : List Piece) : Prop where
  notEmpty : g ≠ []
  lines : TextLines g
  pieces : Pieces ps
  text : Announced (groupText g) (piecesSource ps)
  noBreak : ∀ l, g.head? = some l → ¬ str! "::newcol" <+: l

/-- The lines of a literal block. -/
inductive Verbatim where
  /-- Lines that are indented by `k + 1` more spaces than the paragraph. -/
  | indented (k : Nat) (ls : List Str)
  /-- Lines that start with the same character, and the blank lines behind them. -/
  | quoted (q : Char) (ls after : List Str)

/-- The lines of a literal block below a paragraph at an indentation. -/
def Verbatim.lines (i : Nat) : Verbatim → List Str
  | .indented k ls => ls.map (contentLine (i + (k + 1)))
  | .quoted q ls after => ls.map (fun l => indentLine i (q :: l)) ++ after

/-- Text without the white space at its start. -/
def skipSpace : Str → Str
  | [] => []
  | c :: t => if isWs c then skipSpace t else c :: t

/-- The text of a literal block: the indentation is removed, or the first character of each line and the white space behind
it. -/
def Verbatim.text : Verbatim → Str
  | .indented _ ls => unlines ls
  | .quoted _ ls _ => unlines (ls.map skipSpace)

/-- Well-formed literal blocks.  The first line of an indented block determines its indentation. -/
def Verbatim.Ok : Verbatim → Prop
  | .indented _ ls => ContentLines ls ∧ ∃ l, ls.head? = some l ∧ ∃ c, l.head? = some c ∧ isWs c = false
  | .quoted q ls after => q ∈ adornments ∧ ls ≠ [] ∧ after ≠ [] ∧ ∀ l ∈ after, isBlank l = true

/-- The node of a literal block. -/
def Verbatim.shape (V : Verbatim) : Shape := .node (.LiteralBlock V.text) []

/-- The text of a literal block in the output. -/
def Verbatim.latex (V : Verbatim) : Str := str! "\\begin{codeblock}\n" ++ escapeText V.text ++ str! "\n\\end{codeblock}\n\n"

end Rustla.Spec
