import Verif.Spec.Explicit
import Verif.Model.Directives
import Verif.Model.Writer
/-!
# Specification of comments and directives

`Leaf` are the blocks that contain no other blocks, `Box` are the directives that contain blocks.  Their lines, the nodes
they stand for and their text in the output are given here.
-/
namespace Rustla.Spec

/-- A line of the content of a directive or comment: empty lines are not indented. -/
def contentLine (k : Nat) (l : Str) : Str := if l = [] then [] else indentLine k l

/-- Lines of a content: empty, or with something visible on them. -/
def ContentLines (ls : List Str) : Prop := ∀ l ∈ ls, l = [] ∨ isBlank l = false

/-- A group of lines of a formula. -/
structure Group (g : List Str) : Prop where
  first : ∃ l, g.head? = some l ∧ ∃ c, l.head? = some c ∧ isWs c = false
  visible : ∀ l ∈ g, isBlank l = false
  last : ∃ l, g.getLast? = some l ∧ ∃ c, l.getLast? = some c ∧ isWs c = false

/-- Blocks without blocks in them. -/
inductive Leaf where
  /-- A comment: its first line and its other lines. -/
  | comment (l : Str) (ls : List Str)
  /-- An image. -/
  | image (d : Dir)
  /-- Code: the empty lines behind the options and the lines of the code. -/
  | code (d : Dir) (gap : List Str) (ls : List Str)
  /-- The directive `code`: the empty lines behind the options, the lines of the code, and the empty lines behind them. -/
  | listing (d : Dir) (gap : List Str) (ls : List Str) (tail : List Str)
  /-- A formula behind the marker. -/
  | formula (d : Dir)
  /-- Formulas: the blank lines behind the options, the first formula, and the other formulas, each with the blank lines in
  front of it. -/
  | formulas (d : Dir) (gap : List Str) (g : List Str) (more : List (List Str × List Str))
  /-- An active element input. -/
  | input (d : Dir)
  /-- An active element output. -/
  | output (d : Dir)

/-- The lines of a block. -/
def Leaf.lines (i : Nat) : Leaf → List Str
  | .comment l ls => indentLine i (str! ".. " ++ l) :: ls.map (contentLine (i + 3))
  | .image d | .formula d | .input d | .output d => d.lines i
  | .code d gap ls | .listing d gap ls _ => d.lines i ++ gap ++ ls.map (contentLine (i + 3))
  | .formulas d gap g more =>
    d.lines i ++ gap ++ g.map (indentLine (i + 3)) ++ (more.map fun x => x.1 ++ x.2.map (indentLine (i + 3))).flatten

/-- Lines joined by line breaks. -/
def unlines : List Str → Str
  | [] => []
  | [l] => l
  | l :: ls => l ++ '\n' :: unlines ls

/-- The lower case name of a directive. -/
def Dir.key (d : Dir) : Str := toLower d.name

/-- An option that is a whole number that fits into some bits. -/
def Dir.number (d : Dir) (bits : Nat) (key : Str) : Option Nat := (d.get key).bind (parseUint bits)

/-- An option that is a length. -/
def Dir.length (d : Dir) (key : Str) : Option Length := (d.get key).bind strToLength

/-- The option is there. -/
def Dir.has (d : Dir) (key : Str) : Bool := (d.get key).isSome

/-- The sides of the option `clear`. -/
def sides : List (Str × AplusActiveElementClear) := [(str! "both", .Both), (str! "left", .Left), (str! "right", .Right)]

/-- The value of a text in a table. -/
def fromTable {α : Type} (table : List (Str × α)) (t : Str) : Option α := (table.find? fun x => x.1 = t).map (·.2)

/-- The states of an exercise. -/
def statuses : List (Str × AplusExerciseStatus) :=
  [(str! "ready", .Ready), (str! "unlisted", .Unlisted), (str! "hidden", .Hidden), (str! "enrollment", .Enrollment),
   (str! "enrollment_ext", .EnrollmentExt), (str! "maintenance", .Maintenance)]

/-- The types of an active element input: `dropdown:` is followed by the list of choices. -/
def InputType (t : Str) : Prop := t = str! "file" ∨ t = str! "clickable" ∨ ∃ x, t = str! "dropdown:" ++ x ∧ ':' ∉ x

/-- The meaning of a type of an active element input. -/
def inputKind (t : Str) : AplusActiveElementInputType :=
  if t = str! "file" then .File else if t = str! "clickable" then .Clickable else .Dropdown (t.drop 9)

/-- The nodes for some formulas: if there are several of them, their names are numbered from one. -/
def formulaNodes (d : Dir) (gs : List (List Str)) : List NodeType :=
  gs.mapIdx fun k g => .MathBlock (unlines g)
    ((d.get (str! "name")).map fun n => if gs.length = 1 then n else n ++ decimal (k + 1)) (d.get (str! "class"))

/-- The nodes that a block stands for; they have no children. -/
def Leaf.nodes : Leaf → List NodeType
  | .comment l ls => [.Comment (some (unlines (l :: ls)))]
  | .image d => [.Image d.arg (d.get (str! "alt")) (d.length (str! "height")) (d.length (str! "width"))
      ((d.get (str! "scale")).bind strToPercentage) ((d.get (str! "align")).bind strToHtmlAlignment) (d.get (str! "target"))
      (d.get (str! "name")) (d.get (str! "class")) false]
  | .code d _ ls => [.SphinxCodeBlock (if d.arg = [] then str! "python" else d.arg)
      (d.has (str! "linenos") || (d.number 64 (str! "lineno-start")).isSome) (d.number 64 (str! "lineno-start"))
      ((d.get (str! "emphasize-lines")).map emphasizeLines) (d.get (str! "caption"))
      ((d.get (str! "name")).map normalizeRefname) (d.number 64 (str! "dedent")) (d.has (str! "force"))
      (unlines ls ++ ['\n'])]
  | .listing d gap ls tail => [.Code (unlines ((if d.opts = [] then gap else gap.tail) ++ ls ++ tail))
      (if d.arg = [] then none else some d.arg) (d.get (str! "name")) (d.get (str! "class")) (d.get (str! "number-lines"))]
  | .formula d => [.MathBlock d.arg (d.get (str! "name")) (d.get (str! "class"))]
  | .formulas d _ g more => formulaNodes d (g :: more.map (·.2))
  | .input d => [.AplusActiveElementInput d.arg (d.get (str! "title")) (d.get (str! "default")) (d.get (str! "class"))
      (d.length (str! "width")) (d.length (str! "height")) ((d.get (str! "clear")).bind (fromTable sides))
      ((d.get (str! "type")).map inputKind)
      (if d.get (str! "type") = some (str! "clickable") then d.get (str! "file") else none)]
  | .output d => [.AplusActiveElementOutput d.arg ((d.get (str! "config")).getD []) ((d.get (str! "inputs")).getD [])
      (d.get (str! "title")) (d.get (str! "class")) (d.length (str! "width")) (d.length (str! "height"))
      ((d.get (str! "clear")).bind (fromTable sides))
      (if d.get (str! "type") = some (str! "image") then .Image else .Text) (d.number 32 (str! "submissions"))
      (d.has (str! "scale-size")) (((d.get (str! "status")).bind (fromTable statuses)).getD .Unlisted)]

/-- Well-formed blocks. -/
def Leaf.Ok : Leaf → Prop
  | .comment l ls => Inset l ∧ l.head? ≠ some '[' ∧ l.head? ≠ some '_' ∧ ¬ str! "::" <:+: l ∧ ContentLines ls ∧
      (∀ x, ls.head? = some x → ∀ c, x.head? = some c → isWs c = false) ∧
      (∀ x ∈ l :: ls, '\n' ∉ x ∧ '\r' ∉ x) ∧ ∃ x, (l :: ls).getLast? = some x ∧ ∃ c, x.getLast? = some c ∧ isWs c = false
  | .image d => d.Ok ∧ d.key = str! "image" ∧ d.arg ≠ []
  | .code d gap ls => d.Ok ∧ (d.key = str! "code-block" ∨ d.key = str! "sourcecode") ∧ gap ≠ [] ∧ (∀ l ∈ gap, l = []) ∧
      ContentLines ls ∧ (∃ l, ls.head? = some l ∧ ∃ c, l.head? = some c ∧ isWs c = false) ∧ ls.getLast? ≠ some []
  | .listing d gap ls tail => d.Ok ∧ d.key = str! "code" ∧ gap ≠ [] ∧ (∀ l ∈ gap ++ tail, l = []) ∧
      ContentLines ls ∧ (∃ l, ls.head? = some l ∧ ∃ c, l.head? = some c ∧ isWs c = false) ∧ ls.getLast? ≠ some []
  | .formula d => d.Ok ∧ d.key = str! "math" ∧ d.arg ≠ []
  | .formulas d gap g more => d.Ok ∧ d.key = str! "math" ∧ d.arg = [] ∧ gap ≠ [] ∧ (∀ l ∈ gap, isBlank l = true) ∧ Group g ∧
      ∀ x ∈ more, x.1 ≠ [] ∧ (∀ l ∈ x.1, isBlank l = true) ∧ Group x.2
  | .input d => d.Ok ∧ d.key = str! "ae-input" ∧ d.arg ≠ [] ∧ (∀ t, d.get (str! "clear") = some t → (fromTable sides t).isSome) ∧
      ∀ t, d.get (str! "type") = some t → InputType t
  | .output d => d.Ok ∧ d.key = str! "ae-output" ∧ d.arg ≠ [] ∧ d.has (str! "config") = true ∧ d.has (str! "inputs") = true

/-- All blank lines in the block are empty. -/
def Leaf.Tidy : Leaf → Prop
  | .formulas _ gap _ more => (∀ l ∈ gap, l = []) ∧ ∀ x ∈ more, ∀ l ∈ x.1, l = []
  | _ => True

/-- The lines that may stand behind a block: at least one blank line; behind code they are empty. -/
def Leaf.GapOk (L : Leaf) (gap : List Str) : Prop :=
  gap ≠ [] ∧ match L with
    | .code .. => ∀ l ∈ gap, l = []
    | .listing _ _ _ tail => gap = tail ∧ ∀ l ∈ gap, l = []
    | _ => ∀ l ∈ gap, isBlank l = true

/-! ## The output -/

/-- Options in brackets, or nothing if there are none. -/
def brackets (t : Str) : Str := if t = [] then [] else '[' :: t ++ [']']

/-- An option that is written if it is given. -/
def setting (key : Str) (v : Option Str) : Str :=
  match v with
  | none => []
  | some v => key ++ '=' :: v ++ [',']

/-- A length in the output: a number and a unit. -/
def lengthText (w : WriterEnv) : Length → Str
  | .Em n => w.shortest n ++ str! "em"
  | .Ex n => w.shortest n ++ str! "ex"
  | .Mm n => w.shortest n ++ str! "mm"
  | .Cm n => w.shortest n ++ str! "cm"
  | .In n => w.shortest n ++ str! "in"
  | .Px n => w.shortest n ++ str! "px"
  | .Pt n => w.shortest n ++ str! "pt"
  | .Pc n => w.shortest n ++ str! "pc"

/-- The names of alignments. -/
def alignText : HTMLAlignment → Str
  | .Top => str! "top" | .Middle => str! "middle" | .Bottom => str! "bottom"
  | .Left => str! "left" | .Center => str! "center" | .Right => str! "right"

/-- The options of an image in the output. -/
def imageText (w : WriterEnv) (d : Dir) : List Str :=
  (d.get (str! "alt")).toList ++ ((d.length (str! "height")).map fun x => str! "height=" ++ lengthText w x).toList ++
  ((d.length (str! "width")).map fun x => str! "width=" ++ lengthText w x).toList ++
  (((d.get (str! "scale")).bind strToPercentage).map fun x => str! "scale=" ++ w.twoDecimals x ++ str! "%").toList ++
  (((d.get (str! "align")).bind strToHtmlAlignment).map fun x => str! "align=" ++ alignText x).toList

/-- The text of a formula in the output: a label if it has a name, then the equation. -/
def formulaText (name : Option Str) (t : Str) : Str :=
  (match name with
    | none => []
    | some n => str! "\\rstlabel{" ++ n ++ str! "}\n") ++
  str! "\\begin{equation}\n" ++ mathToLatex t ++ str! "\n\\end{equation}\n\n"

/-- The text of a state in the output of an active element. -/
def statusText : AplusExerciseStatus → Str
  | .Ready => str! "ready" | .Unlisted => str! "unlisted" | .Hidden => str! "hidden"
  | .Enrollment => str! "enrollment" | .EnrollmentExt => str! "enrollment-ext" | .Maintenance => str! "maintenance"

/-- The text of a type in the output of an active element. -/
def inputText (d : Dir) : Str :=
  match d.get (str! "type") with
  | none => []
  | some t => str! "type=" ++ t ++ str! "," ++
    (if t = str! "clickable" then setting (str! "file") (d.get (str! "file")) else [])

/-- The text of a block in the output. -/
def Leaf.latex (w : WriterEnv) : Leaf → Str
  | .comment l ls => ((l :: ls).map fun x => str! "% " ++ x ++ str! "\n").flatten ++ str! "\n"
  | .image d => str! "\\includegraphics" ++ brackets (joinWith (str! ",") (imageText w d)) ++ str! "{" ++ d.arg ++ str! "}\n"
  | .code d _ ls => str! "\\begin{codeblock}[" ++ (if d.arg = [] then str! "python" else d.arg) ++ str! "]\n" ++
      unlines ls ++ str! "\n\\end{codeblock}\n\n"
  | .listing d _ _ _ => str! "\\begin{codeblock}" ++ (if d.arg = [] then [] else '[' :: d.arg ++ str! "]") ++
      str! "\n\\end{codeblock}\n\n"
  | .formula d => formulaText (d.get (str! "name")) d.arg
  | .formulas d _ g more => ((g :: more.map (·.2)).mapIdx fun k x =>
      formulaText ((d.get (str! "name")).map fun n => if more = [] then n else n ++ decimal (k + 1)) (unlines x)).flatten
  | .input d => str! "\\aeinput" ++ brackets (setting (str! "default") (d.get (str! "default")) ++
      setting (str! "class") (d.get (str! "class")) ++
      setting (str! "width") ((d.length (str! "width")).map (lengthText w)) ++
      setting (str! "height") ((d.length (str! "height")).map (lengthText w)) ++
      setting (str! "clear") (d.get (str! "clear")) ++ inputText d) ++
      str! "{" ++ d.arg ++ str! "}{" ++ (d.get (str! "title")).getD [] ++ str! "}\n\n"
  | .output d => str! "\\aeoutput" ++ brackets (setting (str! "config") (d.get (str! "config")) ++
      setting (str! "class") (d.get (str! "class")) ++
      setting (str! "width") ((d.length (str! "width")).map (lengthText w)) ++
      setting (str! "height") ((d.length (str! "height")).map (lengthText w)) ++
      setting (str! "clear") ((d.get (str! "clear")).filter fun t => (fromTable sides t).isSome) ++
      str! "type=" ++ (if d.get (str! "type") = some (str! "image") then str! "image" else str! "text") ++ str! "," ++
      setting (str! "submissions") ((d.number 32 (str! "submissions")).map decimal) ++
      (if d.has (str! "scale-size") then str! "scale-size," else []) ++
      str! "status=" ++ statusText (((d.get (str! "status")).bind (fromTable statuses)).getD .Unlisted) ++ str! ",") ++
      str! "{" ++ d.arg ++ str! "}{" ++ (d.get (str! "inputs")).getD [] ++ str! "}{" ++ (d.get (str! "title")).getD [] ++ str! "}\n\n"

/-- The text of a formula with targets before it: its name and the labels of the targets, then the equation. -/
def anchoredFormula (name : Option Str) (labels : List Str) (t : Str) : Str :=
  ((name.toList ++ labels).map fun n => str! "\\rstlabel{" ++ n ++ str! "}\n").flatten ++
  str! "\\begin{equation}\n" ++ mathToLatex t ++ str! "\n\\end{equation}\n\n"

/-- The text of a block with targets before it: a formula gets their labels, and the labels of other blocks are not written. -/
def Leaf.anchoredLatex (w : WriterEnv) (labels : List Str) : Leaf → Str
  | .formula d => anchoredFormula (d.get (str! "name")) labels d.arg
  | .formulas d _ g more => ((g :: more.map (·.2)).mapIdx fun k x =>
      anchoredFormula ((d.get (str! "name")).map fun n => if more = [] then n else n ++ decimal (k + 1)) (if k = 0 then labels else []) (unlines x)).flatten
  | L => L.latex w

/-! ## Directives that contain blocks -/

/-- The directives that the parser knows by name. -/
def knownNames : List Str :=
  [str! "attention", str! "caution", str! "danger", str! "error", str! "hint", str! "important", str! "note", str! "tip",
   str! "warning", str! "admonition", str! "image", str! "figure", str! "code", str! "math", str! "list-table",
   str! "footnotes", str! "citations", str! "class", str! "code-block", str! "sourcecode", str! "only",
   str! "questionnaire", str! "submit", str! "ae-input", str! "ae-output", str! "point-of-interest"]

/-- The argument of an exercise: its key, some spaces, a letter for the difficulty, and the maximum of points. -/
structure Exercise where
  key : Str
  gap : Nat
  level : Str
  points : Str

/-- The text of the argument. -/
def Exercise.text (a : Exercise) : Str := a.key ++ List.replicate a.gap ' ' ++ a.level ++ a.points

/-- Well-formed arguments: the key consists of letters and digits. -/
structure Exercise.Ok (a : Exercise) : Prop where
  key : a.key ≠ [] ∧ ∀ c ∈ a.key, c.isAlphanum = true
  level : a.level = [] ∨ ∃ c, a.level = [c] ∧ c.isUpper = true
  points : ∀ c ∈ a.points, c.isDigit = true
  gap : a.gap = 0 → a.level = [] ∧ a.points = []

/-- The value of the points, if there are any and they fit into 32 bits. -/
def Exercise.max (a : Exercise) : Option Nat := parseUint 32 a.points

/-- What any text says about an exercise: the letters and digits at the front are the key; behind some spaces, one upper case
letter is the difficulty, and the digits behind it are the points.  The rest of the text is ignored. -/
def exerciseParts (t : Str) : Str × Str × Str :=
  let rest := (t.dropWhile Char.isAlphanum).dropWhile (· == ' ')
  let level := (rest.take 1).filter Char.isUpper
  (t.takeWhile Char.isAlphanum, level, (rest.drop level.length).takeWhile Char.isDigit)

/-- The programming languages of a plagiarism check. -/
def tokenizers : List (Str × AplusRadarTokenizer) :=
  [(str! "python", .Python3), (str! "scala", .Scala), (str! "javascript", .JavaScript), (str! "css", .CSS), (str! "html", .HTML)]

/-- The alignments of figures. -/
def alignments : List (Str × HorizontalAlignment) := [(str! "left", .Left), (str! "center", .Center), (str! "right", .Right)]

/-- Directives that contain blocks. -/
inductive Box where
  | admonition (d : Dir)
  | only (d : Dir)
  /-- A directive that the parser does not know. -/
  | unknown (d : Dir)
  /-- An admonition with a fixed title, like `note` or `warning`. -/
  | note (d : Dir)
  /-- A point of interest. -/
  | poi (d : Dir)
  /-- An exercise that is submitted. -/
  | submit (d : Dir) (a : Exercise)
  /-- A figure: an image with blocks below it. -/
  | figure (d : Dir)

/-- The admonitions with fixed titles. -/
def notes : List (Str × AdmonitionType) :=
  [(str! "attention", .Attention), (str! "caution", .Caution), (str! "danger", .Danger), (str! "error", .Error),
   (str! "hint", .Hint), (str! "important", .Important), (str! "note", .Note), (str! "tip", .Tip), (str! "warning", .Warning)]

/-- The blocks in the directive are read by a parser of their own. -/
def Box.apart : Box → Bool
  | .note _ => true
  | _ => false

/-- The directive is a figure. -/
def Box.isFigure : Box → Bool
  | .figure _ => true
  | _ => false

/-- The directive itself. -/
def Box.dir : Box → Dir
  | .admonition d | .only d | .unknown d | .note d | .poi d | .submit d _ | .figure d => d

/-- The data of the node. -/
def Box.node (i : Nat) : Box → NodeType
  | .admonition d => .Admonition (i + 3) (d.get (str! "class")) (d.get (str! "name")) (.Admonition d.arg)
  | .only d => .SphinxOnly d.arg (i + 3)
  | .unknown d => .UnknownDirective d.key d.arg d.opts (i + 3)
  | .note d => .Admonition (i + 3) (d.get (str! "class")) (d.get (str! "name")) ((fromTable notes d.key).getD .Note)
  | .poi d => .AplusPOI d.arg (i + 3) (d.get (str! "id")) (d.get (str! "previous")) (d.get (str! "next")) (d.get (str! "hidden"))
      (d.get (str! "class")) (d.length (str! "height")) (d.get (str! "columns")) (d.get (str! "bgimg"))
      (d.get (str! "not_in_slides")) (d.get (str! "not_in_book")) (d.get (str! "no_poi_box"))
  | .submit d a => .AplusSubmit (i + 3) a.key a.level (a.max.getD 10) ((d.get (str! "config")).getD [])
      ((d.number 32 (str! "submissions")).getD 10) ((d.number 32 (str! "points-to-pass")).getD 0)
      ((d.get (str! "class")).getD []) ((d.get (str! "title")).getD []) ((d.get (str! "category")).getD (str! "submit"))
      (((d.get (str! "status")).bind (fromTable statuses)).getD .Unlisted) (d.has (str! "ajax"))
      (d.has (str! "allow-assistant-viewing")) (d.has (str! "allow-assistant-grading")) (d.has (str! "quiz"))
      ((d.get (str! "url")).getD []) (((d.get (str! "radar-tokenizer")).bind (fromTable tokenizers)).getD .None)
      (if d.has (str! "radar-tokenizer") then d.number 32 (str! "radar_minimum_match_tokens") else none)
      ((d.get (str! "lti")).getD []) ((d.get (str! "lti_resource_link_id")).getD []) (d.has (str! "lti_open_in_iframe"))
      (d.has (str! "lti_aplus_get_and_post"))
  | .figure d => .Figure (i + 3) ((d.get (str! "align")).bind (fromTable alignments)) (d.length (str! "figwidth"))
      (d.get (str! "figclass")) ((d.get (str! "name")).map normalizeRefname)

/-- The data of the image of a figure. -/
def figureImage (d : Dir) : NodeType :=
  .Image d.arg (d.get (str! "alt")) (d.length (str! "height")) (d.length (str! "width"))
    ((d.get (str! "scale")).bind strToPercentage) none (d.get (str! "target")) none (d.get (str! "class")) false

/-- The nodes in front of the blocks: a figure contains its image. -/
def Box.kids : Box → List NodeType
  | .figure d => [figureImage d]
  | _ => []

/-- Well-formed boxes. -/
def Box.Ok : Box → Prop
  | .admonition d => d.Ok ∧ d.key = str! "admonition" ∧ d.arg ≠ []
  | .only d => d.Ok ∧ d.key = str! "only" ∧ d.arg ≠ [] ∧ d.opts = []
  | .unknown d => d.Ok ∧ d.key ∉ knownNames ∧ (d.arg = [] ∨ Snug d.arg) ∧ (d.opts.map (·.1)).Nodup
  | .note d => d.Ok ∧ (fromTable notes d.key).isSome ∧ d.arg = []
  | .poi d => d.Ok ∧ d.key = str! "point-of-interest"
  | .submit d a => d.Ok ∧ d.key = str! "submit" ∧ d.arg = a.text ∧ a.Ok ∧ d.has (str! "config") = true ∧
      ∀ t, d.get (str! "radar-tokenizer") = some t → (fromTable tokenizers t).isSome
  | .figure d => d.Ok ∧ d.key = str! "figure" ∧ d.arg ≠ []

/-- The flag is written if the option is given. -/
def Dir.switch (d : Dir) (key : Str) : Str := if d.has key then key ++ str! "," else []

/-- An item of a list of options that is written if it is not empty. -/
def itemText (key value : Str) : List Str := if value = [] then [] else [key ++ '=' :: value]

/-- An item of a list of options that is written if the option is given. -/
def Dir.switchItem (d : Dir) (key : Str) : List Str := if d.has key then [key] else []

/-- The text of a state in the output of an exercise. -/
def submitStatusText : AplusExerciseStatus → Str
  | .Ready => str! "ready" | .Unlisted => str! "unlisted" | .Hidden => str! "hidden"
  | .Enrollment => str! "enrollment" | .EnrollmentExt => str! "enrollment_ext" | .Maintenance => str! "maintenance"

/-- The options of an exercise in the output. -/
def submitText (d : Dir) : List Str :=
  itemText (str! "config") ((d.get (str! "config")).getD []) ++
  [str! "submissions=" ++ decimal ((d.number 32 (str! "submissions")).getD 10)] ++
  [str! "points-to-pass=" ++ decimal ((d.number 32 (str! "points-to-pass")).getD 0)] ++
  itemText (str! "class") ((d.get (str! "class")).getD []) ++ itemText (str! "title") ((d.get (str! "title")).getD []) ++
  itemText (str! "category") ((d.get (str! "category")).getD (str! "submit")) ++
  [str! "status=" ++ submitStatusText (((d.get (str! "status")).bind (fromTable statuses)).getD .Unlisted)] ++
  d.switchItem (str! "ajax") ++ d.switchItem (str! "allow-assistant-viewing") ++ d.switchItem (str! "allow-assistant-grading") ++
  d.switchItem (str! "quiz") ++ (if (d.get (str! "lti")).getD [] = [] then [] else [str! "lti"]) ++
  itemText (str! "resource_link_id") ((d.get (str! "lti_resource_link_id")).getD []) ++
  d.switchItem (str! "lti_open_in_iframe") ++ d.switchItem (str! "lti_aplus_get_and_post")

/-- The options of the image of a figure in the output. -/
def figureText (w : WriterEnv) (d : Dir) : List Str :=
  (d.get (str! "alt")).toList ++ ((d.length (str! "height")).map fun x => str! "height=" ++ lengthText w x).toList ++
  ((d.length (str! "width")).map fun x => str! "width=" ++ lengthText w x).toList ++
  (((d.get (str! "scale")).bind strToPercentage).map fun x => str! "scale=" ++ w.twoDecimals x ++ str! "%").toList

/-- The text in front of the blocks in the output. -/
def Box.opening (w : WriterEnv) : Box → Str
  | .admonition d => str! "\\begin{admonition}{" ++ d.arg ++ str! "}\n"
  | .only d => str! "\\begin{only}[" ++ d.arg ++ str! "]\n"
  | .unknown d => str! "\\begin{" ++ d.key ++ str! "}" ++
      (if w.order d.opts = [] then [] else
        str! "[" ++ joinWith (str! ",") ((w.order d.opts).map fun o => o.1 ++ '=' :: o.2) ++ str! "]") ++
      (if d.arg = [] then [] else str! "{" ++ d.arg ++ str! "}") ++ str! "\n"
  | .note d => str! "\\begin{" ++ d.key ++ str! "}\n"
  | .poi d => str! "\\begin{poi}" ++ brackets (setting (str! "id") (d.get (str! "id")) ++
      setting (str! "previous") (d.get (str! "previous")) ++ setting (str! "next") (d.get (str! "next")) ++
      d.switch (str! "hidden") ++ setting (str! "class") (d.get (str! "class")) ++
      setting (str! "height") ((d.length (str! "height")).map (lengthText w)) ++
      setting (str! "columns") (d.get (str! "columns")) ++ setting (str! "bgimg") (d.get (str! "bgimg")) ++
      d.switch (str! "not_in_slides") ++ d.switch (str! "not_in_book") ++ d.switch (str! "no_poi_box")) ++
      str! "{" ++ d.arg ++ str! "}\n\n"
  | .submit d a => str! "\\begin{submit}[" ++ joinWith (str! ",") (submitText d) ++ str! "]{" ++ a.key ++ str! "}{" ++
      decimal (a.max.getD 10) ++ str! "}\n"
  | .figure d => str! "\\begin{center}\n\\includegraphics" ++ brackets (joinWith (str! ",") (figureText w d)) ++
      str! "{" ++ d.arg ++ str! "}\n"

/-- The text behind the blocks in the output. -/
def Box.closing : Box → Str
  | .admonition _ => str! "\\end{admonition}\n\n"
  | .only _ => str! "\\end{only}\n\n"
  | .unknown d => str! "\\end{" ++ d.key ++ str! "}\n\n"
  | .note d => str! "\\end{" ++ d.key ++ str! "}\n\n"
  | .poi _ => str! "\\end{poi}\n\n"
  | .submit .. => str! "\\end{submit}\n\n"
  | .figure d => (match d.get (str! "name") with
      | none => []
      | some n => str! "\\label{" ++ normalizeRefname n ++ str! "}\n") ++ str! "\\end{center}\n\n"

/-- The text behind the blocks of a directive with targets before it: a figure gets their labels, and the labels of other directives are
not written. -/
def Box.anchoredClosing (labels : List Str) : Box → Str
  | .figure d => (((d.get (str! "name")).map normalizeRefname).toList ++ labels).flatMap (fun n => str! "\\label{" ++ n ++ str! "}\n") ++
      str! "\\end{center}\n\n"
  | X => X.closing

/-! ## Admonitions whose text starts behind the marker -/

/-- The lines of an admonition up to the end of its first paragraph, which starts behind the marker. -/
def asideLines (i : Nat) (name : Str) : List Str → List Str
  | [] => []
  | l :: ls => indentLine i (str! ".. " ++ name ++ str! ":: " ++ l) :: ls.map (indentLine (i + 3))

/-- Well-formed first lines: the admonition is one with a fixed title; the other lines of the paragraph start and end with something visible
and do not look like options. -/
structure AsideOk (name : Str) (g : List Str) : Prop where
  known : (fromTable notes (toLower name)).isSome = true
  named : DirName name
  lines : ∀ l ∈ g.tail, Snug l ∧ ¬ FieldMarked l

/-- The data of the node. -/
def asideNode (i : Nat) (name : Str) : NodeType :=
  .Admonition (i + 3) none none ((fromTable notes (toLower name)).getD .Note)

end Rustla.Spec
