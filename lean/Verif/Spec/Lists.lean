import Verif.Spec.Documents
/-!
# Specification of numbered lists and of field lists

The lists are given by what stands behind the marks of their items; the marks themselves are computed.
-/
namespace Rustla.Spec

/-- What belongs to an item of a list: the lines of its first paragraph and the pieces they are made of, the blank lines behind it, and the
other blocks of the item. -/
structure Point where
  lines : List Str
  pieces : List Piece
  gap : List Str
  body : Blocks

/-- The lines of an item behind a mark that is `w` columns wide. -/
def Point.source (x : Point) (mark : Str) (w : Nat) : List Str :=
  (match x.lines with
    | [] => []
    | l :: ls => (mark ++ l) :: ls.map (indentLine w)) ++ x.gap ++ x.body.lines w

/-- The node of a point. -/
def Point.shape (x : Point) (node : NodeType) (w : Nat) : Shape := .node node (paragraphShape w x.pieces :: x.body.shapes w)

/-- The lines of a list whose items are counted from `n` in one of the systems: `n. `, `n) ` or `(n) ` stands in front of an item, or a number
sign instead of the number if the item is marked so, and the other lines of the item are aligned with its text. -/
def countedLines (d : EnumDelims) (k : EnumKind) (n : Nat) : List (Bool × Point) → List Str
  | [] => []
  | (sign, x) :: xs => x.source (numeral d ⟨k, n, sign⟩ ++ [' ']) ((numeral d ⟨k, n, sign⟩).length + 1) ++ countedLines d k (n + 1) xs

/-- The nodes of its items. -/
def countedShapes (d : EnumDelims) (k : EnumKind) (n : Nat) : List (Bool × Point) → List Shape
  | [] => []
  | (sign, x) :: xs => x.shape (.EnumeratedListItem d k n 0 ((numeral d ⟨k, n, sign⟩).length + 1)) ((numeral d ⟨k, n, sign⟩).length + 1) ::
      countedShapes d k (n + 1) xs

/-- Items that are counted from `n` are well counted. -/
def Counted (k : EnumKind) (n : Nat) : List (Bool × Point) → Prop
  | [] => True
  | (sign, _) :: xs => Counter.Ok ⟨k, n, sign⟩ ∧ Counted k (n + 1) xs

/-- The lines of a list whose items are numbered from `n`: `n. `, `n) ` or `(n) ` stands in front of an item, and the other lines of the
item are aligned with its text. -/
def numberedLines (d : EnumDelims) (n : Nat) : List Point → List Str
  | [] => []
  | x :: xs => x.source (numeral d ⟨.Arabic, n, false⟩ ++ [' ']) ((numeral d ⟨.Arabic, n, false⟩).length + 1) ++ numberedLines d (n + 1) xs

/-- The nodes of its items. -/
def numberedShapes (d : EnumDelims) (n : Nat) : List Point → List Shape
  | [] => []
  | x :: xs =>
    x.shape (.EnumeratedListItem d .Arabic n 0 ((numeral d ⟨.Arabic, n, false⟩).length + 1)) ((numeral d ⟨.Arabic, n, false⟩).length + 1) :: numberedShapes d (n + 1) xs

/-- The text of its items in the output. -/
def pointsLatex (w : WriterEnv) : List Point → Str
  | [] => []
  | x :: xs => str! "\\item " ++ paragraphLatex x.pieces ++ x.body.latex w 0 ++ pointsLatex w xs

/-- An item is well formed: its first paragraph is separated from its other blocks by a blank line. -/
structure Point.Ok (x : Point) : Prop where
  para : Para x.lines x.pieces
  blank : ∀ l ∈ x.gap, isBlank l = true
  apart : x.gap = [] → x.body = .nil
  body : x.body.Ok
  height : x.body.height ≤ 6

/-- All items but the last one have a blank line behind their first paragraph, if it has one line. -/
def Separated : List Point → Prop
  | [] => True
  | x :: xs => (x.gap = [] → x.lines.length = 1 → xs = []) ∧ Separated xs

/-- The same for items some of which have a number sign: an item of one line has a blank line behind it, unless it and the next item both have
number signs. -/
def Spaced : List (Bool × Point) → Prop
  | [] => True
  | x :: xs => (x.2.gap = [] → x.2.lines.length = 1 → ∀ y ∈ xs.head?, x.1 = true ∧ y.1 = true) ∧ Spaced xs

/-- A field: its name, by how many columns its lines are indented, and what stands in it. -/
structure FieldEntry where
  name : List Piece
  width : Nat
  point : Point

/-- The lines of a list of fields. -/
def fieldLines : List FieldEntry → List Str
  | [] => []
  | x :: xs => x.point.source (':' :: (piecesSource x.name ++ [':', ' '])) x.width ++ fieldLines xs

/-- The nodes of fields. -/
def fieldShapes : List FieldEntry → List Shape
  | [] => []
  | x :: xs => x.point.shape (.FieldListItem (piecesSource x.name) 0 x.width) x.width :: fieldShapes xs

/-- The text of fields in the output. -/
def fieldsLatex (w : WriterEnv) : List FieldEntry → Str
  | [] => []
  | x :: xs => str! "\\item \\textbf{" ++ piecesSource x.name ++ str! "}\n\n" ++ paragraphLatex x.point.pieces ++ x.point.body.latex w x.width ++ str! "\n" ++
      fieldsLatex w xs

/-- A field is well formed: its name has neither colons nor backslashes in it, and does not start or end with white space.  If its first
paragraph has one line, then its other lines are aligned with the text; else they are indented like the second line, by at least one space. -/
structure FieldEntry.Ok (x : FieldEntry) : Prop where
  name : Pieces x.name
  snug : Snug (piecesSource x.name)
  plain : ':' ∉ piecesSource x.name ∧ '\\' ∉ piecesSource x.name
  width : 0 < x.width ∧ (x.point.lines.length ≤ 1 → x.width = (piecesSource x.name).length + 3)
  point : x.point.Ok

end Rustla.Spec
