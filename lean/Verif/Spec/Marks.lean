import Verif.Spec.Explicit
import Verif.Spec.Markup
import Verif.Spec.Numerals
/-!
# Specification of the marks of list items
-/
namespace Rustla.Spec

/-- What counts an item: its number in one of the systems, or a number sign that stands for it. -/
structure Counter where
  kind : EnumKind
  value : Nat
  auto : Bool := false
  deriving DecidableEq

/-- The letters of a numeral. -/
def Counter.text (c : Counter) : Str :=
  if c.auto then ['#'] else
  match c.kind with
  | .Arabic => decimal c.value
  | .LowerAlpha => [Char.ofNat (96 + c.value)]
  | .UpperAlpha => [Char.ofNat (64 + c.value)]
  | .LowerRoman => romanLower (romanNumeral c.value)
  | .UpperRoman => romanNumeral c.value
  | .Automatic => ['#']

/-- A well-formed counter.  Letters that are also Roman numerals are read as such: `c` is the third letter, but means a hundred. -/
def Counter.Ok (c : Counter) : Prop :=
  c.auto = false →
  match c.kind with
  | .Arabic => c.value < 2 ^ 64
  | .LowerAlpha | .UpperAlpha => c.value ∈ [1, 2, 5, 6, 7, 8, 10, 11, 14, 15, 16, 17, 18, 19, 20, 21, 23, 25, 26]
  | .LowerRoman | .UpperRoman => 0 < c.value ∧ c.value ≤ 4999
  | .Automatic => False

/-- What stands in front of the text of an item of a list: a bullet, a counter with its delimiters, or the name of a field with the number of
columns by which the other lines of the field are indented. -/
inductive Tag where
  | bullet (b : Char)
  | number (d : EnumDelims) (c : Counter)
  | field (name : List Piece) (w : Nat)

/-- A counter with its delimiters. -/
def numeral (d : EnumDelims) (c : Counter) : Str :=
  match d with
  | .Parens => '(' :: (c.text ++ [')'])
  | .RParen => c.text ++ [')']
  | .Period => c.text ++ ['.']

/-- The mark in the source, with a space behind it. -/
def Tag.text : Tag → Str
  | .bullet b => [b, ' ']
  | .number d c => numeral d c ++ [' ']
  | .field name _ => ':' :: (piecesSource name ++ [':', ' '])

/-- By how many columns the blocks of an item are indented. -/
def Tag.width : Tag → Nat
  | .bullet _ => 2
  | .number d c => (numeral d c).length + 1
  | .field _ w => w

/-- The first paragraph of an item: its first line stands behind the mark, the others are aligned. -/
def Tag.lines (m : Tag) (i : Nat) : List Str → List Str
  | [] => []
  | l :: ls => indentLine i (m.text ++ l) :: ls.map (indentLine (i + m.width))

/-- The second mark is the one of the next item of the list. -/
def Tag.next : Tag → Tag → Prop
  | .bullet b, .bullet b' => b' = b
  | .number d c, .number d' c' => d' = d ∧ c'.kind = c.kind ∧ c'.value = c.value + 1
  | .field .., .field .. => True
  | _, _ => False

/-- An item with the second mark would be taken for the next item of the list: it has the next mark, or a number sign that may stand for it. -/
def Tag.joins : Tag → Tag → Prop
  | .number d c, .number d' c' => d' = d ∧ (c'.auto = true ∨ c'.kind = c.kind ∧ c'.value = c.value + 1)
  | m, m' => m.next m'

/-- Number signs with the same delimiters: the second item may follow the first one without a blank line. -/
def Tag.signs : Tag → Tag → Prop
  | .number d c, .number d' c' => d' = d ∧ c.auto = true ∧ c'.auto = true
  | _, _ => False

/-- A list may start with this mark: a number sign stands for one. -/
def Tag.opens : Tag → Prop
  | .number _ c => c.auto = true → c.kind = .Arabic ∧ c.value = 1
  | _ => True

/-- A number. -/
def Tag.numbered : Tag → Prop
  | .number .. => True
  | _ => False

/-- The mark of an item whose first paragraph has these lines is well formed.  The lines of a field are aligned with its text unless
the second line is indented in another way. -/
def Tag.Ok (g : List Str) : Tag → Prop
  | .bullet b => b ∈ ['*', '+', '-']
  | .number _ c => c.Ok
  | .field name w => Pieces name ∧ Snug (piecesSource name) ∧ (':' ∉ piecesSource name ∧ '\\' ∉ piecesSource name) ∧
      0 < w ∧ (g.length ≤ 1 → w = (piecesSource name).length + 3)

/-- The node of a list that starts with this mark and has this number of items. -/
def Tag.list (i count : Nat) : Tag → NodeType
  | .bullet b => .BulletList b i (i + 2)
  | .number d c => .EnumeratedList d c.kind c.value count i
  | .field .. => .FieldList i

/-- The node of an item with this mark. -/
def Tag.item (i : Nat) : Tag → NodeType
  | .bullet b => .BulletListItem b i (i + 2)
  | .number d c => .EnumeratedListItem d c.kind c.value i (i + (Tag.number d c).width)
  | .field name w => .FieldListItem (piecesSource name) i (i + w)

/-- The environment of a list in the output. -/
def Tag.environment : Tag → Str
  | .number .. => str! "enumerate"
  | _ => str! "itemize"

/-- What the output for an item starts with. -/
def Tag.opening : Tag → Str
  | .field name _ => str! "\\item \\textbf{" ++ piecesSource name ++ str! "}\n\n"
  | _ => str! "\\item "

/-- What the output for an item ends with. -/
def Tag.closing : Tag → Str
  | .field .. => str! "\n"
  | _ => []

end Rustla.Spec
