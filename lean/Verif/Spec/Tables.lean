import Verif.Spec.Paragraphs
import Verif.Spec.Leaves
import Verif.Spec.Marks
/-!
# Specification of list tables

A list table is a directive that contains a bullet list.  The items of this list are the rows of the table: each of them contains a
bullet list whose items are the cells.
-/
namespace Rustla.Spec

/-- A number without a sign: what stands in front of the point and the digits behind it, if there is a point. -/
structure Number where
  whole : Nat
  fraction : Str
  deriving DecidableEq

/-- How a number is written. -/
def Number.text (n : Number) : Str := decimal n.whole ++ (if n.fraction = [] then [] else '.' :: n.fraction)

/-- The number that some digits stand for. -/
def readDigits (ds : Str) : Nat := ds.foldl (fun v c => 10 * v + (c.toNat - 48)) 0

/-- The value of a number. -/
def Number.value (n : Number) : F64 := ⟨n.whole * 10 ^ n.fraction.length + readDigits n.fraction, 10 ^ n.fraction.length⟩

/-- Well-formed numbers. -/
def Number.Ok (n : Number) : Prop := ∀ c ∈ n.fraction, c.isDigit = true

/-- The widths of the columns: the same for all of them, left to the reader of the output, or given. -/
inductive Widths where
  | same | auto
  | given (first : Number) (others : List Number)

/-- The value of the option `widths`, if there is one. -/
def Widths.text : Widths → Option Str
  | .same => none
  | .auto => some (str! "auto")
  | .given n ns => some (n.text ++ (ns.map fun n => ' ' :: n.text).flatten)

/-- The widths of the columns of a table. -/
def Widths.columns (count : Nat) : Widths → TableColWidths
  | .same => .Columns (List.replicate count ⟨1, count⟩)
  | .auto => .Auto
  | .given n ns => .Columns (n.value :: ns.map Number.value)

/-- Well-formed widths. -/
def Widths.Ok : Widths → Prop
  | .given n ns => n.Ok ∧ ∀ n ∈ ns, n.Ok
  | _ => True

/-- A cell of a table: the lines of a paragraph and the pieces of its text. -/
structure Cell where
  lines : List Str
  pieces : List Piece

/-- A row of a table: the bullet of its cells, the cells, and the blank lines behind it. -/
structure Row where
  bullet : Char
  cells : List Cell
  gap : List Str

/-- The lines of the cells of a row, without the indentation of the row. -/
def Row.inner (r : Row) : List Str := r.cells.flatMap fun c => (Tag.bullet r.bullet).lines 0 c.lines

/-- The lines of a row: the first cell stands behind the bullet of the row. -/
def Row.lines (b : Char) (i : Nat) (r : Row) : List Str := (Tag.bullet b).lines i r.inner ++ r.gap

/-- Well-formed rows. -/
structure Row.Ok (r : Row) : Prop where
  bullet : r.bullet ∈ ['*', '+', '-']
  notEmpty : r.cells ≠ []
  cells : ∀ c ∈ r.cells, Para c.lines c.pieces
  gap : ∀ l ∈ r.gap, isBlank l = true

/-- A list table: the directive, the widths of its columns, the blank lines behind the options, the bullet of the rows, and the rows. -/
structure Table where
  dir : Dir
  widths : Widths
  gap : List Str
  bullet : Char
  rows : List Row

/-- The lines of a table. -/
def Table.lines (i : Nat) (T : Table) : List Str := T.dir.lines i ++ (T.gap ++ T.rows.flatMap (Row.lines T.bullet (i + 3)))

/-- The number of columns of a table: the number of cells of its longest row. -/
def Table.columns (T : Table) : Nat := (T.rows.map fun r => r.cells.length).foldr max 0

/-- Well-formed tables. -/
structure Table.Ok (T : Table) : Prop where
  dir : T.dir.Ok
  key : T.dir.key = str! "list-table"
  option : T.dir.get (str! "widths") = T.widths.text
  widths : T.widths.Ok
  gap : T.gap ≠ [] ∧ ∀ l ∈ T.gap, isBlank l = true
  bullet : T.bullet ∈ ['*', '+', '-']
  notEmpty : T.rows ≠ []
  rows : ∀ r ∈ T.rows, r.Ok

/-! ## The nodes -/

/-- The ways to align a table. -/
def tableSides : List (Str × HorizontalAlignment) := [(str! "left", .Left), (str! "center", .Center), (str! "right", .Right)]

/-- The width of a table: a length or a percentage. -/
def Dir.extent (d : Dir) : Option MetricType :=
  match d.length (str! "width") with
  | some l => some (.Lenght l)
  | none => ((d.get (str! "width")).bind strToPercentage).map .Percentage

/-- The data of the node of a table whose contents are indented by `k` columns. -/
def Table.node (T : Table) (k : Nat) : NodeType :=
  .ListTable k (if T.dir.arg = [] then none else some T.dir.arg) (some (T.widths.columns T.columns)) T.dir.extent
    (T.dir.number 32 (str! "header-rows")) (T.dir.number 32 (str! "stub-columns")) ((T.dir.get (str! "align")).bind (fromTable tableSides))

/-- The node of a cell. -/
def Cell.shape (b : Char) (k : Nat) (c : Cell) : Shape := .node (.BulletListItem b k (k + 2)) [paragraphShape (k + 2) c.pieces]

/-- The node of a row. -/
def Row.shape (b : Char) (k : Nat) (r : Row) : Shape :=
  .node (.BulletListItem b k (k + 2)) [.node (.BulletList r.bullet (k + 2) (k + 4)) (r.cells.map (Cell.shape r.bullet (k + 2)))]

/-- The node of a table. -/
def Table.shape (i : Nat) (T : Table) : Shape :=
  .node (T.node (i + 3)) [.node (.BulletList T.bullet (i + 3) (i + 5)) (T.rows.map (Row.shape T.bullet (i + 3)))]

/-! ## The output -/

/-- The text of the cells of a row in the output: there is a separator between them. -/
def cellsLatex : List Cell → Str
  | [] => []
  | [c] => paragraphLatex c.pieces
  | c :: cs => paragraphLatex c.pieces ++ str! "&\n" ++ cellsLatex cs

/-- The text of a row in the output. -/
def Row.latex (r : Row) : Str := cellsLatex r.cells ++ str! "\\\\\n"

/-- The column of a table with this width. -/
def columnLatex (w : WriterEnv) (x : F64) : Str := str! "p{" ++ w.twoDecimals x ++ str! "\\textwidth}"

/-- The columns of a table in the output. -/
def Widths.latex (w : WriterEnv) (count : Nat) : Widths → Str
  | .same => (List.replicate count (columnLatex w ⟨1, count⟩)).flatten
  | .auto => []
  | .given n ns => ((n :: ns).map fun n => columnLatex w n.value).flatten

/-- The text of a table in the output. -/
def Table.latex (w : WriterEnv) (T : Table) : Str :=
  str! "\\begin{tabular}" ++ (if T.dir.arg = [] then [] else str! "[title=" ++ T.dir.arg ++ str! "]") ++ str! "{" ++
  T.widths.latex w T.columns ++ str! "}\n" ++ (T.rows.map Row.latex).flatten ++ str! "\n\\end{tabular}\n\n"

end Rustla.Spec
