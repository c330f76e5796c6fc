import Verif.Model.ParserPrims
import Verif.Model.Converters
/-!
# Directive parsers (`/repo/src/parser/directive_parsers.rs`)
-/
namespace Rustla

/-! ## Number parsing -/

/-- Rust `str::parse` into an unsigned integer of the given number of bits: an optional plus sign and ASCII digits;
`none` stands for `Err`.
(`/repo/src/parser/directive_parsers.rs` l.811-811, l.824-824, l.1101-1164, l.1413-1442, l.1788-1788) -/
def parseUint (bits : Nat) (s : Str) : Option Nat :=
  let t := if s.head? == some '+' then s.drop 1 else s
  if t.isEmpty || !t.all clsDigit then none
  else if digitsVal t < 2 ^ bits then some (digitsVal t) else none

/-- Rust `str::parse::<f64>()`.  Simplification: only an optional plus sign, digits and at most one point are
understood; signs, exponents, `inf` and `nan` are taken for errors.
(`/repo/src/parser/directive_parsers.rs` l.779-779) -/
def parseFloat (s : Str) : Option F64 :=
  let t := if s.head? == some '+' then s.drop 1 else s
  if t.all (fun c => clsDigit c || c == '.') && decide (t.count '.' ≤ 1) && t.any clsDigit then some (parseF64 t)
  else none

/-! ## Arguments and options -/

/-- The `while` loop of `scan_directive_arguments` after the marker line, `/repo/src/parser/directive_parsers.rs`
l.3765-3792, on the lines that are left. -/
def argumentLines (bodyIndent : Nat) : List Str → List Str
  | [] => []
  | line :: rest =>
    if indentOf line ≠ bodyIndent then []
    else
      let t := trim line
      if isBlank t || reFieldMarker.isMatch t then [] else t :: argumentLines bodyIndent rest

/-- `scan_directive_arguments`, `/repo/src/parser/directive_parsers.rs` l.3744-3803: the argument lines, if there are
any, and the moved cursor. -/
def scanDirectiveArguments (src : List Str) (c : LineCursor) (bodyIndent firstIndent : Nat) (emptyAfterMarker : Bool) :
    Option (List Str) × LineCursor :=
  let wrap (ls : List Str) : Option (List Str) := if ls.isEmpty then none else some ls
  if emptyAfterMarker then
    let ls := argumentLines bodyIndent (src.drop (c.relativeOffset + 1))
    (wrap ls, (c.incrementBy 1).incrementBy ls.length)
  else
    match src.drop c.relativeOffset with
    | [] => (none, c)
    | line :: rest =>
      let t := line.drop firstIndent
      if isBlank t || reFieldMarker.isMatch t then (none, c)
      else
        let ls := t :: argumentLines bodyIndent rest
        (wrap ls, c.incrementBy ls.length)

/-- The `while` loop of `scan_directive_options`, `/repo/src/parser/directive_parsers.rs` l.3825-3853, on the lines that
are left: the options in source order and whether a blank line ended them. -/
def optionLines (bodyIndent : Nat) : List Str → List (Str × Str) × Bool
  | [] => ([], false)
  | line :: rest =>
    if isBlank line then ([], true)
    else
      match reFieldMarker.captures line with
      | none => ([], false)
      | some m =>
        if (m.getD .g1).length ≠ bodyIndent then ([], false)
        else
          let r := optionLines bodyIndent rest
          ((trim (m.getD .g2), trim (line.drop m.whole.length)) :: r.1, r.2)

/-- `scan_directive_options`, `/repo/src/parser/directive_parsers.rs` l.3814-3863: the options, if there are any, and the
moved cursor. -/
def scanDirectiveOptions (src : List Str) (c : LineCursor) (bodyIndent : Nat) : Option (List (Str × Str)) × LineCursor :=
  let r := optionLines bodyIndent (src.drop c.relativeOffset)
  if r.1.isEmpty then (none, c)
  else
    let c' := c.incrementBy r.1.length
    (some (r.1.foldl (fun m kv => mapInsert m kv.1 kv.2) []), if r.2 then c'.incrementBy 1 else c')

/-- `options.remove("..")`, or `None` if there are no options at all.
(`/repo/src/parser/directive_parsers.rs` l.74-84, l.188-198) -/
def optionOf (o : Option (List (Str × Str))) (key : Str) : Option Str := o.bind fun m => mapGet m key

/-- `scan_directive_arguments` as a step of a transition.
(`/repo/src/parser/directive_parsers.rs` l.3744-3804) -/
def P.arguments (E : Env) (bodyIndent firstIndent : Nat) (emptyAfterMarker : Bool) : P (Option (List Str)) := fun s =>
  let r := scanDirectiveArguments E.src s.cursor bodyIndent firstIndent emptyAfterMarker
  .ok r.1 { s with cursor := r.2 }

/-- `scan_directive_options` as a step of a transition.
(`/repo/src/parser/directive_parsers.rs` l.3814-3863) -/
def P.options (E : Env) (bodyIndent : Nat) : P (Option (List (Str × Str))) := fun s =>
  let r := scanDirectiveOptions E.src s.cursor bodyIndent
  .ok r.1 { s with cursor := r.2 }

/-- An optional value that must be there: else the transition fails.
(`/repo/src/parser/directive_parsers.rs` l.1788-1797, l.2206-2215) -/
def P.required {α : Type} (x : Option α) : P α :=
  match x with
  | some a => pure a
  | none => P.failed

/-- `aplus_key_difficulty_and_max_points`, `/repo/src/parser/directive_parsers.rs` l.3868-3901. -/
def keyDifficultyPoints (arg : Str) : Str × Str × Str :=
  match reExerciseArgs.captures arg with
  | some m => (m.getD .key, m.getD .difficulty, m.getD .maxPoints)
  | none => ([], [], [])

/-! ## Admonitions, images, figures, code -/

/-- The name table of `parse_standard_admonition`, `/repo/src/parser/directive_parsers.rs` l.44-59. -/
def standardAdmonition (label : Str) : Option AdmonitionType :=
  if label = str! "attention" then some .Attention
  else if label = str! "caution" then some .Caution
  else if label = str! "danger" then some .Danger
  else if label = str! "error" then some .Error
  else if label = str! "hint" then some .Hint
  else if label = str! "important" then some .Important
  else if label = str! "note" then some .Note
  else if label = str! "tip" then some .Tip
  else if label = str! "warning" then some .Warning
  else none

/-- `parse_standard_admonition`, `/repo/src/parser/directive_parsers.rs` l.32-161. -/
def parseStandardAdmonition (E : Env) (variant : AdmonitionType) (body first : Nat) (empty : Bool) : P Moves := do
  let args ← P.arguments E body first empty
  let opts ← P.options E body
  let (lines, offset) ← P.indentedBlock E false (some body) (some body) false
  P.pushFocus (.Admonition body (optionOf opts (str! "class")) (optionOf opts (str! "name")) variant)
  let stack ← P.nest E (args.getD [] ++ lines) body .Admonition
  pure (.push stack, some offset)

/-- `parse_generic_admonition`, `/repo/src/parser/directive_parsers.rs` l.167-226. -/
def parseGenericAdmonition (E : Env) (body first : Nat) (empty : Bool) : P Moves := do
  let args ← P.required (← P.arguments E body first empty)
  let opts ← P.options E body
  P.pushFocus (.Admonition body (optionOf opts (str! "class")) (optionOf opts (str! "name"))
    (.Admonition (joinWith [' '] args)))
  pure (.push [.Admonition], none)

/-- `parse_image`, `/repo/src/parser/directive_parsers.rs` l.228-314. -/
def parseImage (E : Env) (body first : Nat) (empty : Bool) : P Moves := do
  let args ← P.required (← P.arguments E body first empty)
  let opts ← P.options E body
  P.push (.Image args.flatten (optionOf opts (str! "alt")) ((optionOf opts (str! "height")).bind strToLength)
    ((optionOf opts (str! "width")).bind strToLength) ((optionOf opts (str! "scale")).bind strToPercentage)
    ((optionOf opts (str! "align")).bind strToHtmlAlignment) (optionOf opts (str! "target"))
    (optionOf opts (str! "name")) (optionOf opts (str! "class")) false)
  pure (.neither, none)

/-- `parse_figure`, `/repo/src/parser/directive_parsers.rs` l.316-437. -/
def parseFigure (E : Env) (body first : Nat) (empty : Bool) : P Moves := do
  let args ← P.required (← P.arguments E body first empty)
  let opts ← P.options E body
  P.pushFocus (.Figure body ((optionOf opts (str! "align")).bind strToHorizontalAlignment)
    ((optionOf opts (str! "figwidth")).bind strToLength) (optionOf opts (str! "figclass"))
    ((optionOf opts (str! "name")).map normalizeRefname))
  P.push (.Image args.flatten (optionOf opts (str! "alt")) ((optionOf opts (str! "height")).bind strToLength)
    ((optionOf opts (str! "width")).bind strToLength) ((optionOf opts (str! "scale")).bind strToPercentage)
    none (optionOf opts (str! "target")) none (optionOf opts (str! "class")) false)
  pure (.push [.Figure], none)

/-- `parse_code`, `/repo/src/parser/directive_parsers.rs` l.456-534. -/
def parseCode (E : Env) (body first : Nat) (empty : Bool) : P Moves := do
  let args ← P.arguments E body first empty
  let opts ← P.options E body
  let (lines, offset) ← P.indentedBlock E false (some body) none false
  P.push (.Code (joinWith ['\n'] lines) (args.map List.flatten) (optionOf opts (str! "name"))
    (optionOf opts (str! "class")) (optionOf opts (str! "number-lines")))
  pure (.neither, some offset)

/-! ## Math -/

/-- The loop that splits the content of a math directive, `/repo/src/parser/directive_parsers.rs` l.612-630; `block` is
the block that is being built. -/
def mathBlocksFrom (block : Str) : List Str → List Str
  | [] => if isBlank block then [] else [block]
  | line :: rest =>
    if !isBlank line then mathBlocksFrom (block ++ ['\n'] ++ line) rest
    else if !isBlank block then block :: mathBlocksFrom [] rest
    else mathBlocksFrom block rest

/-- The blocks of a math directive, `/repo/src/parser/directive_parsers.rs` l.608-637. -/
def mathBlocks (lines : List Str) : List Str := mathBlocksFrom [] lines

/-- The nodes made of the blocks, `/repo/src/parser/directive_parsers.rs` l.646-680; `counter` is the number of blocks
before, if there is more than one block. -/
def mathNodes (name cls : Option Str) (counter : Option Nat) : List Str → List NodeType
  | [] => []
  | block :: rest =>
    .MathBlock (trim block)
      (name.map fun n => match counter with
        | some k => n ++ decimal (k + 1)
        | none => n) cls ::
    mathNodes name cls (counter.map (· + 1)) rest

/-- `parse_math_block`, `/repo/src/parser/directive_parsers.rs` l.537-687. -/
def parseMathBlock (E : Env) (body first : Nat) (empty : Bool) : P Moves := do
  let args ← P.arguments E body first empty
  let opts ← P.options E body
  let name := optionOf opts (str! "name")
  let cls := optionOf opts (str! "class")
  match args with
  | some math => do
    P.push (.MathBlock (joinWith ['\n'] math) name cls)
    pure (.neither, none)
  | none => do
    let (lines, offset) ← P.indentedBlock E false (some body) (some body) false
    let blocks := mathBlocks lines
    if blocks.isEmpty then P.failed else
    P.pushAll (mathNodes name cls (if blocks.length = 1 then none else some 0) blocks)
    pure (.neither, some offset)

/-! ## List tables -/

/-- The column widths of a list table, `/repo/src/parser/directive_parsers.rs` l.770-804. -/
def tableWidths (w : Option Str) : Run (Option TableColWidths) :=
  match w with
  | none => .ok none
  | some w =>
    if trim w = str! "auto" then .ok (some .Auto)
    else
      match (splitWs w).mapM parseFloat with
      | none => .error (.explicit "directive_parsers.rs parse_list_table widths")
      | some [] => .ok none
      | some ws => .ok (some (.Columns ws))

/-- The width of a list table, `/repo/src/parser/directive_parsers.rs` l.805-816. -/
def tableWidth (w : Option Str) : Option MetricType :=
  w.bind fun w =>
    match strToLength w with
    | some l => some (.Lenght l)
    | none => (strToPercentage w).map .Percentage

/-- The alignment of a list table, `/repo/src/parser/directive_parsers.rs` l.841-853. -/
def tableAlign (a : Option Str) : Option HorizontalAlignment :=
  a.bind fun a =>
    if a = str! "left" then some .Left
    else if a = str! "center" then some .Center
    else if a = str! "right" then some .Right
    else none

/-- Leave one node for each state above the first one, `/repo/src/parser/directive_parsers.rs` l.910-914. -/
def leaveNested : Nat → P Unit
  | 0 => pure ()
  | n + 1 => do P.parent; leaveNested n

/-- Number of entries of one row of a list table, `/repo/src/parser/directive_parsers.rs` l.940-958; `none` if the row is
not a list item that starts with a bullet list. -/
def rowEntries (item : TreeNode) : Option Nat :=
  match item.children with
  | some (nested :: _) =>
    if nested.data.kind = .BulletList then
      nested.children.map fun items => (items.filter fun i => i.data.kind = .BulletListItem).length
    else none
  | _ => none

/-- Number of columns of a list table, `/repo/src/parser/directive_parsers.rs` l.929-1008; `none` if the content is not
a list of lists. -/
def tableColumns (children : Option (List TreeNode)) : Option Nat :=
  match children with
  | some (list :: _) =>
    if list.data.kind = .BulletList then
      match list.children with
      | some items => (items.mapM rowEntries).map fun ns => ns.foldl max 0
      | none => none
    else none
  | _ => none

/-- Setting the column widths, `/repo/src/parser/directive_parsers.rs` l.1012-1028. -/
def setWidths (n : Nat) : NodeType → NodeType
  | .ListTable bi t none w h s a => .ListTable bi t (some (.Columns (List.replicate n ⟨1, n⟩))) w h s a
  | x => x

/-- `parse_list_table`, `/repo/src/parser/directive_parsers.rs` l.719-1036. -/
def parseListTable (E : Env) (body first : Nat) (empty : Bool) : P Moves := do
  let args ← P.arguments E body first empty
  let opts ← P.options E body
  let title := (args.map (joinWith [' '])).getD []
  let widths ← P.lift (tableWidths (optionOf opts (str! "widths")))
  let u32 (k : Str) : Option Nat := (optionOf opts k).bind (parseUint 32)
  P.skipEmpty E.src
  P.pushFocus (.ListTable body (if title.isEmpty then none else some title) widths
    (tableWidth (optionOf opts (str! "width"))) (u32 (str! "header-rows")) (u32 (str! "stub-columns"))
    (tableAlign (optionOf opts (str! "align"))))
  let (lines, offset) ← P.indentedBlock E false (some body) none false
  let stack ← P.nest E lines body .ListTable
  leaveNested (stack.length - 1)
  let d ← P.doc
  if d.sharedData.kind ≠ .ListTable then P.failed else
  let n ← P.required (tableColumns d.sharedChildren)
  P.mapData (setWidths n)
  pure (.push [.ListTable], some offset)

/-! ## Class, Sphinx directives -/

/-- `parse_class`, `/repo/src/parser/directive_parsers.rs` l.1222-1324. -/
def parseClass (E : Env) (body first : Nat) (empty : Bool) : P Moves := do
  let args ← P.required (← P.arguments E body first empty)
  P.pushFocus (.Class body (args.filter fun s => !s.isEmpty))
  let (lines, _) ← P.indentedBlock E false (some body) none false
  let stack ← P.nest E lines body .Body
  pure (.push stack, none)

/-- Rust `str::split(",")`; `cur` is the current part, reversed.
(`/repo/src/parser/directive_parsers.rs` l.1425-1425) -/
def splitCommaAux : Str → Str → List Str
  | [], cur => [cur.reverse]
  | c :: cs, cur => if c = ',' then cur.reverse :: splitCommaAux cs [] else splitCommaAux cs (c :: cur)

/-- The line numbers of `:emphasize-lines:`, `/repo/src/parser/directive_parsers.rs` l.1414-1426. -/
def emphasizeLines (s : Str) : List Nat :=
  (((splitCommaAux s []).filter fun p => !isBlank p).map trim).filterMap (parseUint 64)

/-- The code text of a `code-block` directive, `/repo/src/parser/directive_parsers.rs` l.1480-1499. -/
def codeText (lines : List Str) : Str :=
  joinWith ['\n'] (((lines.dropWhile List.isEmpty).reverse.dropWhile List.isEmpty).reverse) ++ ['\n']

/-- `parse_sphinx_code_block`, `/repo/src/parser/directive_parsers.rs` l.1380-1540. -/
def parseSphinxCodeBlock (E : Env) (body first : Nat) (empty : Bool) : P Moves := do
  let args ← P.arguments E body first empty
  let opts ← P.options E body
  let start := (optionOf opts (str! "lineno-start")).bind (parseUint 64)
  let linenos := (optionOf opts (str! "linenos")).isSome || start.isSome
  let (lines, offset) ← P.indentedBlock E false (some body) none false
  P.push (.SphinxCodeBlock ((args.map List.flatten).getD (str! "python")) linenos start
    ((optionOf opts (str! "emphasize-lines")).map emphasizeLines) (optionOf opts (str! "caption"))
    ((optionOf opts (str! "name")).map normalizeRefname) ((optionOf opts (str! "dedent")).bind (parseUint 64))
    (optionOf opts (str! "force")).isSome (codeText lines))
  pure (.neither, some offset)

/-- `parse_sphinx_only`, `/repo/src/parser/directive_parsers.rs` l.1562-1617. -/
def parseSphinxOnly (E : Env) (body first : Nat) (empty : Bool) : P Moves := do
  let args ← P.arguments E body first empty
  let expression := (args.map (joinWith [' '])).getD []
  if expression.isEmpty then P.failed else
  P.pushFocus (.SphinxOnly expression body)
  pure (.push [.Body], some 1)

/-! ## A+ questionnaires -/

/-- `parse_aplus_questionnaire`, `/repo/src/parser/directive_parsers.rs` l.1635-1746. -/
def parseQuestionnaire (E : Env) (body first : Nat) (empty : Bool) : P Moves := do
  let args ← P.required (← P.arguments E body first empty)
  let (key, difficulty, maxPoints) := keyDifficultyPoints (joinWith [' '] args)
  let opts ← P.options E body
  P.pushFocus (.AplusQuestionnaire body 0 key (parseUint 32 maxPoints)
    (if difficulty.isEmpty then none else some difficulty)
    (optionOf opts (str! "submissions")) (optionOf opts (str! "points-to-pass")) (optionOf opts (str! "feedback"))
    (optionOf opts (str! "title")) (optionOf opts (str! "no_override")) (optionOf opts (str! "pick_randomly"))
    (optionOf opts (str! "preserve-questions-between-attempts")) (optionOf opts (str! "category"))
    (optionOf opts (str! "status")) (optionOf opts (str! "reveal-model-at-max-submissions"))
    (optionOf opts (str! "show-model")) (optionOf opts (str! "allow-assistant-viewing"))
    (optionOf opts (str! "allow-assistant-grading")))
  pure (.push [.AplusQuestionnaire], none)

/-- `*points_from_children += points`, e.g. `/repo/src/parser/directive_parsers.rs` l.1806-1811.  Simplification: the
overflow of 32 bits is not modelled. -/
def addPoints (points : Nat) : NodeType → NodeType
  | .AplusQuestionnaire bi n a b c d e f g h i j k l m o p q =>
    .AplusQuestionnaire bi (n + points) a b c d e f g h i j k l m o p q
  | x => x

/-- The assignment text of a question, `/repo/src/parser/directive_parsers.rs` l.1874-1897: the inline nodes. -/
def assignmentNodes (E : Env) (body : Nat) : P (List NodeType) := do
  let (lines, _) ← P.textBlock E (some body)
  let nodes ← P.inlineNone (joinWith ['\n'] lines)
  if nodes.isEmpty then P.failed else
  P.advance 1
  pure nodes

/-- The assignment paragraph, `/repo/src/parser/directive_parsers.rs` l.1903-1933. -/
def pushParagraph (indent : Nat) (nodes : List NodeType) : P Unit := do
  P.pushFocus (.Paragraph indent)
  P.pushAll nodes
  P.parent

/-- The assignment of a question with choices: none if the choices start at once,
`/repo/src/parser/directive_parsers.rs` l.1859-1898. -/
def startNodes (E : Env) (choice : Re) (body : Nat) (start : Str) : P (List NodeType) :=
  if choice.isMatch start then pure [] else assignmentNodes E body

/-- The assignment paragraph if there is one, `/repo/src/parser/directive_parsers.rs` l.1902-1936. -/
def optionalParagraph (body : Nat) (nodes : List NodeType) : P Unit :=
  if nodes.isEmpty then pure () else pushParagraph body nodes

/-- One choice of a `pick-one` or `pick-any` question, `/repo/src/parser/directive_parsers.rs` l.1954-2023. -/
def pushChoice (m : Match) : P Unit := do
  let answer := m.getD .answer
  if isBlank answer then P.failed else
  let nodes ← P.inlineNone answer
  if nodes.isEmpty then P.failed else
  P.pushFocus (.AplusPickChoice (m.getD .label) (m.get .correct).isSome (m.get .preSelected).isSome
    (m.get .neutral).isSome)
  P.pushAll nodes
  P.parent
  P.advance 1

/-- The `while` loop over the choices, `/repo/src/parser/directive_parsers.rs` l.1954-2023.  `fuel` is the number of
lines of the source: each round goes on by at least one line. -/
def choices (E : Env) (choice : Re) (body : Nat) : Nat → P Unit
  | 0 => pure ()
  | fuel + 1 => do
    match E.src[← P.offset]? with
    | none => pure ()
    | some line =>
      if indentOf line ≠ body then pure () else
      match choice.captures line with
      | none => pure ()
      | some m => do
        pushChoice m
        choices E choice body fuel

/-- One hint, `/repo/src/parser/directive_parsers.rs` l.2075-2153. -/
def pushHint (kind : AplusQuestionnaireType) (label : Str) (m : Match) : P Unit := do
  let hint := trim (m.getD .hint)
  if hint.isEmpty then P.failed else
  let nodes ← P.inlineNone hint
  if nodes.isEmpty then P.failed else
  P.pushFocus (.AplusQuestionnaireHint label (m.get .showNotAnswered).isSome kind)
  P.pushAll nodes
  P.parent
  P.advance 1

/-- The indentation of a line in the loop over hints: `pick-one` questions treat empty lines as aligned,
`/repo/src/parser/directive_parsers.rs` l.2060-2067. -/
def hintIndent (kind : AplusQuestionnaireType) (body : Nat) (line : Str) : Nat :=
  if kind = .PickOne ∧ line.isEmpty then body else indentOf line

/-- The label of a hint: free text questions trim it, `/repo/src/parser/directive_parsers.rs` l.2871-2872. -/
def hintLabel (kind : AplusQuestionnaireType) (m : Match) : Str :=
  if kind = .FreeText then trim (m.getD .label) else m.getD .label

/-- The `while` loop over the hints, `/repo/src/parser/directive_parsers.rs` l.2059-2153 (and l.2485-2567,
l.2850-2944).  `fuel` is the number of lines of the source: each round goes on by at least one line. -/
def hints (E : Env) (kind : AplusQuestionnaireType) (hint : Re) (body : Nat) : Nat → P Unit
  | 0 => pure ()
  | fuel + 1 => do
    match E.src[← P.offset]? with
    | none => pure ()
    | some line =>
      if hintIndent kind body line ≠ body then pure () else
      match hint.captures line with
      | none => pure ()
      | some m => do
        pushHint kind (hintLabel kind m) m
        hints E kind hint body fuel

/-- The end of a question, `/repo/src/parser/directive_parsers.rs` l.2039-2175: hints, then back to the
questionnaire. -/
def finishQuestion (E : Env) (kind : AplusQuestionnaireType) (hint : Re) (body : Nat) : P Moves := do
  P.skipEmpty E.src
  P.pushFocus (.AplusQuestionnaireHints body)
  hints E kind hint body E.src.length
  P.skipEmpty E.src
  P.parent
  P.parent
  pure (.neither, none)

/-- The choices of a question with their surrounding node, `/repo/src/parser/directive_parsers.rs` l.1939-2035. -/
def allChoices (E : Env) (choice : Re) (body : Nat) : P Unit := do
  P.pushFocus (.AplusPickChoices body)
  choices E choice body E.src.length
  let d ← P.doc
  if (d.sharedChildren.getD []).isEmpty then P.failed else
  P.parent

/-- `parse_aplus_pick_one`, `/repo/src/parser/directive_parsers.rs` l.1749-2178. -/
def parsePickOne (E : Env) (body first : Nat) (empty : Bool) : P Moves := do
  let args ← P.required (← P.arguments E body first empty)
  let points ← P.required (parseUint 32 (joinWith [' '] args))
  P.mapData (addPoints points)
  let opts ← P.options E body
  P.skipEmpty E.src
  P.pushFocus (.AplusPickOne body points (optionOf opts (str! "class")) (optionOf opts (str! "required")).isSome
    (optionOf opts (str! "key")) (optionOf opts (str! "dropdown")).isSome)
  P.skipEmpty E.src
  let start ← P.required E.src[← P.offset]?
  let nodes ← startNodes E reAplusPickOneChoice body start
  P.skipEmpty E.src
  optionalParagraph body nodes
  P.skipEmpty E.src
  allChoices E reAplusPickOneChoice body
  finishQuestion E .PickOne reAplusPickHint body

/-- The number of correct answers of a randomized question, `/repo/src/parser/directive_parsers.rs` l.2265-2276: `none`
stands for a failure. -/
def correctCount (randomized count : Option Str) : Option (Option Nat) :=
  match randomized, count with
  | some _, some c => (parseUint 32 c).map some
  | _, _ => some none

/-- `parse_aplus_pick_any`, `/repo/src/parser/directive_parsers.rs` l.2181-2625. -/
def parsePickAny (E : Env) (body first : Nat) (empty : Bool) : P Moves := do
  let args ← P.required (← P.arguments E body first empty)
  let points ← P.required (parseUint 32 (joinWith [' '] args))
  P.mapData (addPoints points)
  let opts ← P.options E body
  let randomized := optionOf opts (str! "randomized")
  let count := optionOf opts (str! "correct-count")
  let correct ← P.required (correctCount randomized count)
  P.pushFocus (.AplusPickAny body points (optionOf opts (str! "class")) (optionOf opts (str! "required")).isSome
    (optionOf opts (str! "key")) (optionOf opts (str! "partial-points")).isSome
    (randomized.isSome && count.isSome) correct (optionOf opts (str! "preserve-questions-between-attempts")).isSome)
  P.skipEmpty E.src
  let start ← P.required E.src[← P.offset]?
  let nodes ← startNodes E reAplusPickAnyChoice body start
  optionalParagraph body nodes
  P.skipEmpty E.src
  allChoices E reAplusPickAnyChoice body
  finishQuestion E .PickAny reAplusPickHint body

/-- `model_answer.push_str(answer.trim())`, `/repo/src/parser/directive_parsers.rs` l.2800-2807. -/
def addAnswer (answer : Str) : NodeType → NodeType
  | .AplusFreeText bi p c m cl r k l h => .AplusFreeText bi p c (m ++ answer) cl r k l h
  | x => x

/-- `parse_aplus_freetext`, `/repo/src/parser/directive_parsers.rs` l.2628-2964. -/
def parseFreetext (E : Env) (body first : Nat) (empty : Bool) : P Moves := do
  let args ← P.required (← P.arguments E body first empty)
  let words := splitWs (joinWith [' '] args)
  let pointsText ← P.required words[0]?
  let points ← P.required (parseUint 32 pointsText)
  P.mapData (addPoints points)
  let opts ← P.options E body
  P.pushFocus (.AplusFreeText body points (words[1]?.getD []) [] (optionOf opts (str! "class"))
    (optionOf opts (str! "required")) (optionOf opts (str! "key")) (optionOf opts (str! "length"))
    (optionOf opts (str! "height")))
  P.skipEmpty E.src
  let nodes ← assignmentNodes E body
  pushParagraph body nodes
  P.skipEmpty E.src
  let answer ← P.required E.src[← P.offset]?
  if indentOf answer ≠ body then P.failed else
  let d ← P.doc
  if d.sharedData.kind ≠ .AplusFreeText then P.failed else
  P.mapData (addAnswer (trim answer))
  P.advance 1
  finishQuestion E .FreeText reAplusFreetextHint body

/-! ## Other A+ directives -/

/-- The exercise status, `/repo/src/parser/directive_parsers.rs` l.3065-3079 (and l.3456-3468). -/
def exerciseStatus (s : Option Str) : AplusExerciseStatus :=
  match s with
  | none => .Unlisted
  | some s =>
    let t := trim s
    if t = str! "ready" then .Ready
    else if t = str! "unlisted" then .Unlisted
    else if t = str! "hidden" then .Hidden
    else if t = str! "enrollment" then .Enrollment
    else if t = str! "enrollment_ext" then .EnrollmentExt
    else if t = str! "maintenance" then .Maintenance
    else .Unlisted

/-- The tokenizer, `/repo/src/parser/directive_parsers.rs` l.3081-3101: `none` stands for a failure. -/
def radarTokenizer (s : Option Str) : Option AplusRadarTokenizer :=
  match s with
  | none => some .None
  | some s =>
    let t := trim s
    if t = str! "python" then some .Python3
    else if t = str! "scala" then some .Scala
    else if t = str! "javascript" then some .JavaScript
    else if t = str! "css" then some .CSS
    else if t = str! "html" then some .HTML
    else none

/-- `parse_aplus_submit`, `/repo/src/parser/directive_parsers.rs` l.2966-3195. -/
def parseSubmit (E : Env) (body first : Nat) (empty : Bool) : P Moves := do
  let args ← P.required (← P.arguments E body first empty)
  let (key, difficulty, maxPoints) := keyDifficultyPoints (joinWith [' '] args)
  P.skipEmpty E.src
  let opts ← P.options E body
  let o (k : Str) : Option Str := optionOf opts k
  let config ← P.required (o (str! "config"))
  let tokenizer ← P.required (radarTokenizer (o (str! "radar-tokenizer")))
  let minTokens := if tokenizer = .None then none else (o (str! "radar_minimum_match_tokens")).bind (parseUint 32)
  P.pushFocus (.AplusSubmit body key difficulty ((parseUint 32 maxPoints).getD 10) config
    (((o (str! "submissions")).bind (parseUint 32)).getD 10) (((o (str! "points-to-pass")).bind (parseUint 32)).getD 0)
    ((o (str! "class")).getD []) ((o (str! "title")).getD []) ((o (str! "category")).getD (str! "submit"))
    (exerciseStatus (o (str! "status"))) (o (str! "ajax")).isSome (o (str! "allow-assistant-viewing")).isSome
    (o (str! "allow-assistant-grading")).isSome (o (str! "quiz")).isSome ((o (str! "url")).getD []) tokenizer minTokens
    ((o (str! "lti")).getD []) ((o (str! "lti_resource_link_id")).getD []) (o (str! "lti_open_in_iframe")).isSome
    (o (str! "lti_aplus_get_and_post")).isSome)
  pure (.push [.Body], none)

/-- The `:clear:` option, `/repo/src/parser/directive_parsers.rs` l.3269-3282: `none` for an unknown value. -/
def clearOf (s : Str) : Option AplusActiveElementClear :=
  if s = str! "both" then some .Both
  else if s = str! "left" then some .Left
  else if s = str! "right" then some .Right
  else none

/-- The `:clear:` option of an input: `none` stands for a failure, `/repo/src/parser/directive_parsers.rs` l.3269-3282. -/
def inputClear (s : Option Str) : Option (Option AplusActiveElementClear) :=
  match s with
  | none => some none
  | some s => (clearOf s).map some

/-- The part of a string behind the last colon: `split(":").last()`.
(`/repo/src/parser/directive_parsers.rs` l.3279-3279) -/
def afterLastColon (s : Str) : Str := (s.reverse.takeWhile (· != ':')).reverse

/-- The `:type:` option of an input, `/repo/src/parser/directive_parsers.rs` l.3283-3311: `none` stands for a failure. -/
def inputType (s : Option Str) : Option (Option AplusActiveElementInputType) :=
  match s with
  | none => some none
  | some s =>
    if s = str! "file" then some (some .File)
    else if s = str! "clickable" then some (some .Clickable)
    else if (str! "dropdown:").isPrefixOf s then some (some (.Dropdown (afterLastColon s)))
    else none

/-- The `:file:` option of an input, `/repo/src/parser/directive_parsers.rs` l.3312-3320. -/
def inputFile (type file : Option Str) : Option Str :=
  match type, file with
  | some t, some f => if t = str! "clickable" then some f else none
  | _, _ => none

/-- `parse_aplus_active_element_input`, `/repo/src/parser/directive_parsers.rs` l.3201-3328. -/
def parseActiveInput (E : Env) (body first : Nat) (empty : Bool) : P Moves := do
  let args ← P.required (← P.arguments E body first empty)
  let opts ← P.options E body
  let clear ← P.required (inputClear (optionOf opts (str! "clear")))
  let type ← P.required (inputType (optionOf opts (str! "type")))
  P.push (.AplusActiveElementInput (joinWith [' '] args) (optionOf opts (str! "title"))
    (optionOf opts (str! "default")) (optionOf opts (str! "class"))
    ((optionOf opts (str! "width")).bind strToLength) ((optionOf opts (str! "height")).bind strToLength) clear type
    (inputFile (optionOf opts (str! "type")) (optionOf opts (str! "file"))))
  pure (.neither, none)

/-- The `:type:` option of an output, `/repo/src/parser/directive_parsers.rs` l.3436-3444. -/
def outputType (s : Option Str) : AplusActiveElementOutputType :=
  if s = some (str! "image") then .Image else .Text

/-- `parse_aplus_active_element_output`, `/repo/src/parser/directive_parsers.rs` l.3331-3492. -/
def parseActiveOutput (E : Env) (body first : Nat) (empty : Bool) : P Moves := do
  let args ← P.required (← P.arguments E body first empty)
  let opts ← P.options E body
  let config ← P.required (optionOf opts (str! "config"))
  let inputs ← P.required (optionOf opts (str! "inputs"))
  P.push (.AplusActiveElementOutput (joinWith [' '] args) config inputs (optionOf opts (str! "title"))
    (optionOf opts (str! "class")) ((optionOf opts (str! "width")).bind strToLength)
    ((optionOf opts (str! "height")).bind strToLength) ((optionOf opts (str! "clear")).bind clearOf)
    (outputType (optionOf opts (str! "type"))) ((optionOf opts (str! "submissions")).bind (parseUint 32))
    (optionOf opts (str! "scale-size")).isSome (exerciseStatus (optionOf opts (str! "status"))))
  pure (.neither, none)

/-- `parse_aplus_point_of_interest`, `/repo/src/parser/directive_parsers.rs` l.3502-3600. -/
def parsePointOfInterest (E : Env) (body first : Nat) (empty : Bool) : P Moves := do
  let args ← P.arguments E body first empty
  let opts ← P.options E body
  P.pushFocus (.AplusPOI ((args.map (joinWith [' '])).getD []) body (optionOf opts (str! "id"))
    (optionOf opts (str! "previous")) (optionOf opts (str! "next")) (optionOf opts (str! "hidden"))
    (optionOf opts (str! "class")) ((optionOf opts (str! "height")).bind strToLength)
    (optionOf opts (str! "columns")) (optionOf opts (str! "bgimg")) (optionOf opts (str! "not_in_slides"))
    (optionOf opts (str! "not_in_book")) (optionOf opts (str! "no_poi_box")))
  pure (.push [.AplusMultiCol], none)

/-- `parse_unknown_directive`, `/repo/src/parser/directive_parsers.rs` l.3647-3729. -/
def parseUnknownDirective (E : Env) (name : Str) (body first : Nat) (empty : Bool) : P Moves := do
  let args ← P.arguments E body first empty
  let opts ← P.options E body
  P.pushFocus (.UnknownDirective name (trim ((args.map (joinWith [' '])).getD [])) (opts.getD []) body)
  pure (.push [.Body], none)

end Rustla
