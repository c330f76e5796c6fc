import Verif.Spec.Plain
import Verif.Spec.Markup
/-!
# Specification of paragraphs
-/
namespace Rustla.Spec

/-- The tree that a piece stands for. -/
def Piece.shape (p : Piece) : Shape := .labelled p.node p.labels []

/-- The node that a paragraph made of pieces stands for. -/
def paragraphShape (indent : Nat) (ps : List Piece) : Shape :=
  .node (.Paragraph indent) (ps.map Piece.shape)

/-- The text of a paragraph in the output. -/
def paragraphLatex (ps : List Piece) : Str := (ps.map Piece.latex).flatten ++ str! "\n\n"

/-- The text of a caption in the output. -/
def captionLatex (ps : List Piece) : Str := str! "\\captionof{figure}{" ++ (ps.map Piece.latex).flatten ++ str! "}\n"

/-- The lines of a paragraph and the pieces of its text.  A paragraph does not start with the text of a column break. -/
structure Para (g : List Str) (ps : List Piece) : Prop where
  notEmpty : g ≠ []
  lines : TextLines g
  pieces : Pieces ps
  text : groupText g = piecesSource ps
  noBreak : ∀ l, g.head? = some l → ¬ str! "::newcol" <+: l

end Rustla.Spec
