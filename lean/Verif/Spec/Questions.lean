import Verif.Spec.Plain
import Verif.Spec.Markup
import Verif.Spec.Leaves
import Verif.Spec.Paragraphs
import Verif.Spec.Literals
import Verif.Spec.Tables
import Verif.Spec.Targets
import Verif.Model.Common
import Verif.Model.Latex
/-!
# Specification of questionnaires

A questionnaire is a directive that contains questions and paragraphs.  The lines of a question, the node it stands for and
its text in the output are given here.
-/
namespace Rustla.Spec

/-- The lines of a text in a questionnaire and the pieces it is made of. -/
structure Prose (g : List Str) (ps : List Piece) : Prop where
  notEmpty : g ≠ []
  lines : ∀ l ∈ g, Inset l
  pieces : Pieces ps
  text : unlines g = piecesSource ps

/-- The mark of a choice: it is right, or neither right nor wrong. -/
inductive Mark where
  | right | neutral
  deriving DecidableEq

/-- How a mark is written. -/
def Mark.text : Mark → Str
  | .right => ['*']
  | .neutral => ['?']

/-- A choice of a question: it may be selected from the start, it may have a mark, and it has a label and an answer. -/
structure Choice where
  selected : Bool
  mark : Option Mark
  label : Str
  answer : List Piece

/-- The line of a choice, for instance `+*a. the answer`. -/
def Choice.text (c : Choice) : Str :=
  (if c.selected then ['+'] else []) ++ (c.mark.map Mark.text).getD [] ++ c.label ++ str! ". " ++ piecesSource c.answer

/-- Well-formed choices: only a question with several right choices has neutral ones. -/
structure Choice.Ok (any : Bool) (c : Choice) : Prop where
  label : c.label ≠ [] ∧ ∀ x ∈ c.label, isWs x = false
  start : c.label.head? ≠ some '+' ∧ c.label.head? ≠ some '*' ∧ c.label.head? ≠ some '?'
  mark : any = false → c.mark ≠ some .neutral
  pieces : Pieces c.answer
  answer : Inset (piecesSource c.answer)

/-- The node of a choice. -/
def Choice.shape (c : Choice) : Shape :=
  .node (.AplusPickChoice c.label (c.mark == some .right) c.selected (c.mark == some .neutral))
    (c.answer.map Piece.shape)

/-- A hint: it is shown if the choice was selected, or if it was not selected. -/
structure Hint where
  missing : Bool
  label : Str
  text : List Piece

/-- The line of a hint, for instance `!a § the hint`. -/
def Hint.line (h : Hint) : Str := (if h.missing then ['!'] else []) ++ h.label ++ str! " § " ++ piecesSource h.text

/-- Well-formed hints: the label of a choice contains no white space, the text behind `§` contains no other `§` if the hint
is about an answer in words. -/
structure Hint.Ok (type : AplusQuestionnaireType) (h : Hint) : Prop where
  label : Snug h.label ∧ h.label.head? ≠ some '!'
  word : type ≠ .FreeText → ∀ x ∈ h.label, isWs x = false
  pieces : Pieces h.text
  snug : Snug (piecesSource h.text)
  last : type = .FreeText → '§' ∉ piecesSource h.text

/-- The node of a hint. -/
def Hint.shape (type : AplusQuestionnaireType) (h : Hint) : Shape :=
  .node (.AplusQuestionnaireHint h.label h.missing type) (h.text.map Piece.shape)

/-- The assignment of a question: its lines, their pieces and the blank lines behind them. -/
structure Task where
  lines : List Str
  pieces : List Piece
  gap : List Str

/-- The first line would be a choice. -/
def ChoiceMarked (l : Str) : Prop := ∃ w t, l = w ++ '.' :: ' ' :: t ∧ ∀ c ∈ w, isWs c = false

/-- The hints of a question, with the blank lines in front of them and behind them. -/
structure Hints where
  gap : List Str
  hints : List Hint
  after : List Str

/-- Well-formed hints of a question. -/
structure Hints.Ok (type : AplusQuestionnaireType) (h : Hints) : Prop where
  gap : ∀ l ∈ h.gap, isBlank l = true
  apart : h.gap ≠ []
  hints : ∀ x ∈ h.hints, x.Ok type
  after : ∀ l ∈ h.after, isBlank l = true
  ends : h.hints ≠ [] → h.after ≠ []

/-- The lines of the hints of a question. -/
def Hints.lines (k : Nat) (h : Hints) : List Str := h.gap ++ h.hints.map (fun x => indentLine k x.line) ++ h.after

/-- The node of the hints of a question. -/
def Hints.shape (type : AplusQuestionnaireType) (k : Nat) (h : Hints) : Shape :=
  .node (.AplusQuestionnaireHints k) (h.hints.map (Hint.shape type))

/-- What a questionnaire contains. -/
inductive Entry where
  /-- A paragraph and the blank lines behind it. -/
  | text (g : List Str) (ps : List Piece) (gap : List Str)
  /-- A question with choices, of which one or several are right: the directive, the blank lines behind its options, the
  assignment if there is one, the choices, and the hints. -/
  | pick (any : Bool) (d : Dir) (gap : List Str) (task : Option Task) (choices : List Choice) (hints : Hints)
  /-- A question that is answered in words: the directive with the points and the method of comparison, the blank lines behind
  its options, the assignment, the right answer, and the hints. -/
  | free (d : Dir) (points method : Str) (gap : List Str) (task : Task) (answer : Str) (hints : Hints)

/-- The lines of the assignment. -/
def Task.source (k : Nat) (t : Task) : List Str := t.lines.map (indentLine k) ++ t.gap

/-- The lines of the assignment if there is one. -/
def taskSource (k : Nat) : Option Task → List Str
  | none => []
  | some t => t.source k

/-- The lines of an entry. -/
def Entry.lines (i : Nat) : Entry → List Str
  | .text g _ gap => g.map (indentLine i) ++ gap
  | .pick _ d gap task choices hints =>
    d.lines i ++ (gap ++ (taskSource (i + 3) task ++ (choices.map (fun c => indentLine (i + 3) c.text) ++ hints.lines (i + 3))))
  | .free d _ _ gap task answer hints =>
    d.lines i ++ (gap ++ (task.source (i + 3) ++ (indentLine (i + 3) answer :: hints.lines (i + 3))))

/-- Well-formed assignments. -/
structure Task.Ok (t : Task) : Prop where
  prose : Prose t.lines t.pieces
  gap : t.gap ≠ [] ∧ ∀ l ∈ t.gap, isBlank l = true

/-- The type of a question with choices. -/
def pickType (any : Bool) : AplusQuestionnaireType := if any then .PickAny else .PickOne

/-- Well-formed entries: a paragraph does not look like a directive, an assignment does not look like a choice. -/
def Entry.Ok : Entry → Prop
  | .text g ps gap => Prose g ps ∧ (∀ l, g.head? = some l → ¬ str! ".." <+: l) ∧ gap ≠ [] ∧ ∀ l ∈ gap, isBlank l = true
  | .pick any d gap task choices hints => d.Ok ∧ d.name = (if any then str! "pick-any" else str! "pick-one") ∧
      (parseUint 32 d.arg).isSome = true ∧
      (any = true → d.has (str! "randomized") = true → d.has (str! "correct-count") = true →
        (d.number 32 (str! "correct-count")).isSome = true) ∧
      gap ≠ [] ∧ (∀ l ∈ gap, isBlank l = true) ∧
      (∀ t, task = some t → t.Ok ∧ ∀ l, t.lines.head? = some l → ¬ ChoiceMarked l) ∧
      choices ≠ [] ∧ (∀ c ∈ choices, c.Ok any) ∧ hints.Ok (pickType any)
  | .free d points method gap task answer hints => d.Ok ∧ d.name = str! "freetext" ∧ d.arg = points ++ behind method ∧
      (parseUint 32 points).isSome = true ∧ (∀ c ∈ points, isWs c = false) ∧ (∀ c ∈ method, isWs c = false) ∧
      gap ≠ [] ∧ (∀ l ∈ gap, isBlank l = true) ∧ task.Ok ∧ Snug answer ∧ hints.Ok .FreeText

/-- The points of an entry. -/
def Entry.points : Entry → Nat
  | .text .. => 0
  | .pick _ d .. => (parseUint 32 d.arg).getD 0
  | .free _ points .. => (parseUint 32 points).getD 0

/-- The data of the node of a question with choices. -/
def pickNode (any : Bool) (d : Dir) (k : Nat) : NodeType :=
  let points := (parseUint 32 d.arg).getD 0
  if any then
    .AplusPickAny k points (d.get (str! "class")) (d.has (str! "required")) (d.get (str! "key")) (d.has (str! "partial-points"))
      (d.has (str! "randomized") && d.has (str! "correct-count"))
      (if d.has (str! "randomized") && d.has (str! "correct-count") then d.number 32 (str! "correct-count") else none)
      (d.has (str! "preserve-questions-between-attempts"))
  else
    .AplusPickOne k points (d.get (str! "class")) (d.has (str! "required")) (d.get (str! "key")) (d.has (str! "dropdown"))

/-- The data of the node of a question that is answered in words. -/
def freeNode (d : Dir) (points method answer : Str) (k : Nat) : NodeType :=
  .AplusFreeText k ((parseUint 32 points).getD 0) method answer (d.get (str! "class")) (d.get (str! "required"))
    (d.get (str! "key")) (d.get (str! "length")) (d.get (str! "height"))

/-- The node of an entry. -/
def Entry.shape (i : Nat) : Entry → Shape
  | .text _ ps _ => paragraphShape i ps
  | .pick any d _ task choices hints => .node (pickNode any d (i + 3))
      ((task.map fun t => paragraphShape (i + 3) t.pieces).toList ++
        [.node (.AplusPickChoices (i + 3)) (choices.map Choice.shape), hints.shape (pickType any) (i + 3)])
  | .free d points method _ task answer hints => .node (freeNode d points method answer (i + 3))
      [paragraphShape (i + 3) task.pieces, hints.shape .FreeText (i + 3)]

/-- The node of a questionnaire: the points of its questions are added up. -/
def quizNode (d : Dir) (a : Exercise) (points k : Nat) : NodeType :=
  .AplusQuestionnaire k points a.key a.max (if a.level = [] then none else some a.level)
    (d.get (str! "submissions")) (d.get (str! "points-to-pass")) (d.get (str! "feedback")) (d.get (str! "title"))
    (d.get (str! "no_override")) (d.get (str! "pick_randomly")) (d.get (str! "preserve-questions-between-attempts"))
    (d.get (str! "category")) (d.get (str! "status")) (d.get (str! "reveal-model-at-max-submissions")) (d.get (str! "show-model"))
    (d.get (str! "allow-assistant-viewing")) (d.get (str! "allow-assistant-grading"))

/-! ## The output -/

/-- The command for a choice that is right, neither right nor wrong, or wrong. -/
def markLatex : Option Mark → Str
  | some .right => str! "\\right "
  | some .neutral => str! "\\undet "
  | none => str! "\\wrong "

/-- The text of a choice in the output. -/
def Choice.latex (c : Choice) : Str :=
  markLatex c.mark ++ (c.answer.map Piece.latex).flatten ++ str! " \\label{" ++ c.label ++ str! "}\n"

/-- The text of a hint in the output: it refers to a choice, unless the question is answered in words. -/
def Hint.latex (type : AplusQuestionnaireType) (h : Hint) : Str :=
  str! "\\feedback{" ++ (if h.missing then [] else str! "!") ++
  (if type = .FreeText then [] else str! "\\ref{" ++ h.label ++ str! "}") ++ str! "}{" ++ (h.text.map Piece.latex).flatten ++ str! "}\n"

/-- The text of the hints of a question in the output. -/
def Hints.latex (type : AplusQuestionnaireType) (h : Hints) : Str := (h.hints.map (Hint.latex type)).flatten ++ str! "\n"

/-- The options of a question with choices in the output. -/
def pickText (any : Bool) (d : Dir) : Str :=
  setting (str! "id") (d.get (str! "class")) ++ d.switch (str! "required") ++ setting (str! "key") (d.get (str! "key")) ++
  (if any then d.switch (str! "partial-points") ++
    (if d.has (str! "randomized") && d.has (str! "correct-count") then
      str! "randomized," ++ setting (str! "correct-count") ((d.number 32 (str! "correct-count")).map decimal) else []) ++
    d.switch (str! "preserve-questions-between-attempts") else [])

/-- The text of an entry in the output. -/
def Entry.latex : Entry → Str
  | .text _ ps _ => paragraphLatex ps
  | .pick any d _ task choices hints => str! "\\begin{pick}" ++ brackets (pickText any d) ++
      (if any then str! "{any}{" else str! "{one}{") ++ decimal ((parseUint 32 d.arg).getD 0) ++ str! "}\n" ++
      ((task.map fun t => paragraphLatex t.pieces).getD []) ++
      str! "\\begin{answers}\n" ++ (choices.map Choice.latex).flatten ++ str! "\\end{answers}\n\n" ++
      hints.latex (pickType any) ++ str! "\\end{pick}\n\n"
  | .free _ points method _ task answer hints => str! "\\begin{freetext}{" ++ method ++ str! "}{" ++
      decimal ((parseUint 32 points).getD 0) ++ str! "}{" ++ answer ++ str! "}\n" ++ paragraphLatex task.pieces ++
      hints.latex .FreeText ++ str! "\\end{freetext}\n\n"

/-! ## Points of interest with columns -/

/-- What a point of interest with columns contains. -/
inductive Flow where
  /-- A paragraph and the blank lines behind it. -/
  | text (g : List Str) (ps : List Piece) (gap : List Str)
  /-- A comment or a directive without blocks, and the blank lines behind it. -/
  | leaf (L : Leaf) (gap : List Str)
  /-- The line behind which the next column starts, and the blank lines behind it. -/
  | column (gap : List Str)

/-- The line behind which a column starts. -/
def columnLine : Str := str! "::newcol"

/-- The lines of the contents. -/
def Flow.lines (i : Nat) : Flow → List Str
  | .text g _ gap => g.map (indentLine i) ++ gap
  | .leaf L gap => L.lines i ++ gap
  | .column gap => indentLine i columnLine :: gap

/-- The nodes of the contents. -/
def Flow.shapes (i : Nat) : Flow → List Shape
  | .text _ ps _ => [paragraphShape i ps]
  | .leaf L _ => L.nodes.map (.node · [])
  | .column _ => [.node .AplusColBreak []]

/-- Well-formed contents: only the line between columns need not be followed by a blank line. -/
def Flow.Ok : Flow → Prop
  | .text g ps gap => Para g ps ∧ gap ≠ [] ∧ ∀ l ∈ gap, isBlank l = true
  | .leaf L gap => L.Ok ∧ L.GapOk gap
  | .column gap => ∀ l ∈ gap, isBlank l = true

/-- The contents in the output. -/
def Flow.latex (w : WriterEnv) : Flow → Str
  | .text _ ps _ => paragraphLatex ps
  | .leaf L _ => L.latex w
  | .column _ => str! "\\newcol\n\n"

/-! ## Parts of documents with contents of their own -/

/-- A part of a document whose contents are not blocks. -/
inductive Part where
  /-- A questionnaire: the directive and its argument, the blank lines behind its options, and its entries. -/
  | quiz (d : Dir) (a : Exercise) (gap : List Str) (entries : List Entry)
  /-- A paragraph that announces a literal block: its lines, its pieces, the blank lines behind it, and the literal block. -/
  | literal (g : List Str) (ps : List Piece) (gap : List Str) (V : Verbatim)
  /-- A line that consists of two colons, the blank lines behind it, and the literal block that it announces. -/
  | bare (gap : List Str) (V : Verbatim)
  /-- A list table: the directive, the blank lines behind its options, the bullet of its rows, and its rows. -/
  | table (T : Table)
  /-- Hyperlink targets, a comment or a directive without blocks, and the blank lines behind it. -/
  | anchored (ts : List Target) (L : Leaf) (gap : List Str)
  /-- Hyperlink targets, a paragraph, and the blank lines behind it. -/
  | anchoredText (ts : List Target) (g : List Str) (ps : List Piece) (gap : List Str)
  /-- A point of interest with columns: the directive, the blank lines behind its options, and its contents. -/
  | columns (d : Dir) (gap : List Str) (contents : List Flow)

/-- The lines of a part. -/
def Part.lines (i : Nat) : Part → List Str
  | .quiz d _ gap entries => d.lines i ++ (gap ++ entries.flatMap (Entry.lines (i + 3)))
  | .literal g _ gap V => g.map (indentLine i) ++ (gap ++ V.lines i)
  | .bare gap V => indentLine i (str! "::") :: (gap ++ V.lines i)
  | .table T => T.lines i
  | .anchored ts L gap => targetsAt i ts ++ (L.lines i ++ gap)
  | .anchoredText ts g _ gap => targetsAt i ts ++ (g.map (indentLine i) ++ gap)
  | .columns d gap contents => d.lines i ++ (gap ++ contents.flatMap (Flow.lines (i + 3)))

/-- The nodes of a part. -/
def Part.shapes (i : Nat) : Part → List Shape
  | .quiz d a _ entries => [.node (quizNode d a (entries.map Entry.points).sum (i + 3)) (entries.map (Entry.shape (i + 3)))]
  | .literal _ ps _ V => [paragraphShape i ps, V.shape]
  | .bare _ V => [V.shape]
  | .table T => [T.shape i]
  | .anchored ts L _ => labelFirst (ts.map Target.label) (L.nodes.map (.node · []))
  | .anchoredText ts _ ps _ => labelFirst (ts.map Target.label) [paragraphShape i ps]
  | .columns d _ contents => [.node ((Box.poi d).node i) (contents.flatMap (Flow.shapes (i + 3)))]

/-- How many nodes are open behind the part. -/
def Part.cost : Part → Nat
  | .quiz .. => 1
  | .literal .. => 0
  | .bare .. => 0
  | .table _ => 1
  | .anchored .. => 0
  | .anchoredText .. => 0
  | .columns .. => 1

/-- The part is a literal block with an announcement of its own. -/
def Part.Bare : Part → Prop
  | .bare .. => True
  | _ => False

/-- Parts that may be read by a parser of its own, in which all blank lines are empty. -/
def Part.Tidy : Part → Prop
  | .quiz .. => False
  | .literal .. => False
  | .bare .. => False
  | .table _ => False
  | .anchored .. => False
  | .anchoredText .. => False
  | .columns .. => False

/-- Well-formed parts: a questionnaire has at least one entry, and a point of interest with columns has contents. -/
def Part.Ok : Part → Prop
  | .quiz d a gap entries => d.Ok ∧ d.key = str! "questionnaire" ∧ d.arg = a.text ∧ a.Ok ∧ gap ≠ [] ∧
      (∀ l ∈ gap, isBlank l = true) ∧ entries ≠ [] ∧ ∀ e ∈ entries, e.Ok
  | .literal g ps gap V => Announces g ps ∧ gap ≠ [] ∧ (∀ l ∈ gap, isBlank l = true) ∧ V.Ok
  | .bare gap V => gap ≠ [] ∧ (∀ l ∈ gap, isBlank l = true) ∧ V.Ok
  | .table T => T.Ok
  | .anchored ts L gap => ts ≠ [] ∧ (∀ t ∈ ts, t.Ok) ∧ L.Ok ∧ L.GapOk gap
  | .anchoredText ts g ps gap => ts ≠ [] ∧ (∀ t ∈ ts, t.Ok) ∧ Para g ps ∧ gap ≠ [] ∧ ∀ l ∈ gap, isBlank l = true
  | .columns d gap contents => d.Ok ∧ d.key = str! "point-of-interest" ∧ gap ≠ [] ∧ (∀ l ∈ gap, isBlank l = true) ∧
      contents ≠ [] ∧ ∀ x ∈ contents, x.Ok

/-- The text of a part in the output: the points of a questionnaire are those of its argument, or those of its questions; the
paragraph in front of a literal block may be the caption of a figure. -/
def Part.latex (w : WriterEnv) (figure : Bool) : Part → Str
  | .table T => T.latex w
  | .anchored ts L _ => L.anchoredLatex w (ts.map Target.label)
  | .anchoredText _ _ ps _ => if figure then captionLatex ps else paragraphLatex ps
  | .columns d _ contents => (Box.poi d).opening w ++ (contents.map (Flow.latex w)).flatten ++ (Box.poi d).closing
  | .literal _ ps _ V => (if figure then captionLatex ps else paragraphLatex ps) ++ V.latex
  | .bare _ V => V.latex
  | .quiz _ a _ entries => str! "\\begin{quiz}{" ++ a.key ++ str! "}{" ++ decimal (a.max.getD (entries.map Entry.points).sum) ++
      str! "}\n" ++ (entries.map Entry.latex).flatten ++ str! "\\end{quiz}\n\n"

end Rustla.Spec
