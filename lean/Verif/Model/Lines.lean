import Verif.Model.Basic
/-! # Line cursor and line readers (`/repo/src/parser/line_cursor.rs`, `/repo/src/parser/mod.rs`) -/
namespace Rustla

/-- `LineCursor`, `/repo/src/parser/line_cursor.rs` l.13-21. -/
structure LineCursor where
  offset : Nat
  baseline : Nat
  deriving DecidableEq, Repr, Inhabited

/-- `LineCursor::relative_offset`, `/repo/src/parser/line_cursor.rs` l.34-36. -/
def LineCursor.relativeOffset (c : LineCursor) : Nat := c.offset

/-- `LineCursor::increment_by`, `/repo/src/parser/line_cursor.rs` l.44-52 (overflow is not modelled). -/
def LineCursor.incrementBy (c : LineCursor) (amount : Nat) : LineCursor := { c with offset := c.offset + amount }

/-- `LineCursor::sum_total`, `/repo/src/parser/line_cursor.rs` l.55-57. -/
def LineCursor.sumTotal (c : LineCursor) : Nat := c.offset + c.baseline

/-- The loop of `skip_empty_lines` and `skip_to_next_block` on the lines at and after the cursor: the
number of blank lines at the front.
(`/repo/src/parser/mod.rs` l.526-541, l.809-828) -/
def countBlank : List Str → Nat
  | [] => 0
  | l :: ls => if isBlank l then countBlank ls + 1 else 0

/-- `skip_empty_lines`, `/repo/src/parser/mod.rs` l.809-822: the moved cursor and the number of lines skipped. -/
def skipEmptyLines (src : List Str) (c : LineCursor) : LineCursor × Nat :=
  let n := countBlank (src.drop c.relativeOffset)
  (c.incrementBy n, n)

/-- `skip_to_next_block`, `/repo/src/parser/mod.rs` l.526-538: the moved cursor and whether a non-blank
line was found. -/
def skipToNextBlock (src : List Str) (c : LineCursor) : LineCursor × Option Unit :=
  let n := countBlank (src.drop c.relativeOffset)
  let c' := c.incrementBy n
  (c', if c'.relativeOffset < src.length then some () else none)

/-- The alignment test of `read_text_block`, `/repo/src/parser/mod.rs` l.587-591. -/
def misaligned (alignment : Option Nat) (lineIndent : Nat) : Bool :=
  match alignment with
  | some a => decide (a ≠ lineIndent)
  | none => false

/-- The `while` loop of `read_text_block`, `/repo/src/parser/mod.rs` l.559-601, on the lines that are left. -/
def readTextLoop (indentAllowed removeIndent : Bool) (alignment : Option Nat) (untilBlank : Bool) :
    List Str → List Str
  | [] => []
  | line :: rest =>
    if isBlank line then
      if untilBlank then []
      else trim line :: readTextLoop indentAllowed removeIndent alignment untilBlank rest
    else
      let lineIndent := indentOf line
      if !indentAllowed && decide (lineIndent > 0) then []
      else if misaligned alignment lineIndent then []
      else
        let line' := if removeIndent then trimStart line else line
        line' :: readTextLoop indentAllowed removeIndent alignment untilBlank rest

/-- `read_text_block`, `/repo/src/parser/mod.rs` l.546-611: the lines and the offset.  The function never
returns `Err`; `last_line - start_line` underflows when the start lies behind the end of the source. -/
def readTextBlock (src : List Str) (startLine : Nat) (indentAllowed removeIndent : Bool)
    (alignment : Option Nat) (untilBlank : Bool) : Run (List Str × Nat) :=
  if src.length < startLine then .error (.underflow "mod.rs read_text_block")
  else
    let lines := readTextLoop indentAllowed removeIndent alignment untilBlank (src.drop startLine)
    .ok (lines, lines.length)

/-- What the `while` loop of `read_indented_block` leaves behind.
(`/repo/src/parser/mod.rs` l.616-720) -/
structure IndentLoop where
  lines : List Str
  minimal : Option Nat
  blankFinish : Bool
  loopBroken : Bool
  deriving DecidableEq, Repr

/-- `break_when_not_aligned` of `read_indented_block`, `/repo/src/parser/mod.rs` l.677-683. -/
def breakWhenNotAligned (blockIndent : Option Nat) (force : Bool) (lineIndent : Nat) : Bool :=
  match blockIndent with
  | some b => if force then decide (lineIndent ≠ b) else decide (lineIndent < b)
  | none => false

/-- The update of the minimal indentation in `read_indented_block`, `/repo/src/parser/mod.rs` l.698-704. -/
def updateMinimal (blockIndent minimal : Option Nat) (lineIndent : Nat) : Option Nat :=
  match blockIndent with
  | some _ => minimal
  | none => match minimal with
    | none => some lineIndent
    | some m => if lineIndent > 0 then some (min m lineIndent) else some m

/-- The `while` loop of `read_indented_block`, `/repo/src/parser/mod.rs` l.659-711, on the lines that are
left.  `prev` is the line before the current one if the current one is not the start line. -/
def readIndentedLoop (untilBlank : Bool) (blockIndent : Option Nat) (force : Bool) :
    List Str → Option Str → Option Nat → IndentLoop
  | [], _, minimal => ⟨[], minimal, false, false⟩
  | line :: rest, prev, minimal =>
    let lineIsEmpty := isBlank line
    let lineIndent := indentOf line
    if !lineIsEmpty && (decide (lineIndent < 1) || breakWhenNotAligned blockIndent force lineIndent) then
      ⟨[], minimal, (prev.map isBlank).getD false, true⟩
    else if lineIsEmpty && untilBlank then ⟨[], minimal, true, false⟩
    else
      let r := readIndentedLoop untilBlank blockIndent force rest (some line)
        (updateMinimal blockIndent minimal lineIndent)
      { r with lines := line :: r.lines }

/-- `IndentedBlockResult`, `/repo/src/parser/types_and_aliases.rs` l.123-140. -/
inductive IndentedBlock where
  | ok (lines : List Str) (minimumIndent : Nat) (offset : Nat) (blankFinish : Bool)
  | emptyLinesErr
  deriving DecidableEq, Repr

/-- The stripping of `read_indented_block`, `/repo/src/parser/mod.rs` l.717-730. -/
def stripBlock (firstIndent : Option Nat) (minIndent : Nat) (lines : List Str) : List Str :=
  match firstIndent, lines with
  | some f, l :: ls => l.drop f :: ls.map (·.drop minIndent)
  | _, ls => ls.map (·.drop minIndent)

/-- `read_indented_block`, `/repo/src/parser/mod.rs` l.616-738.  Panics: start behind the end of the source,
no first line although a first indentation is known, no minimal indentation found. -/
def readIndentedBlock (src : List Str) (startLine : Nat) (untilBlank stripInd : Bool)
    (blockIndent firstIndent : Option Nat) (force : Bool) : Run IndentedBlock :=
  if src.isEmpty then .ok .emptyLinesErr
  else if src.length < startLine then .error (.underflow "mod.rs read_indented_block")
  else
    let first := firstIndent.or blockIndent
    let finish (r : IndentLoop) : Run IndentedBlock :=
      let blankFinish := if r.loopBroken then r.blankFinish else true
      match r.minimal with
      | none => .error (.unwrapNone "mod.rs read_indented_block minimal_indent")
      | some m =>
        let lines := if stripInd then stripBlock first m r.lines else r.lines
        .ok (.ok lines m lines.length blankFinish)
    match first, src.drop startLine with
    | some _, [] => .error (.unwrapNone "mod.rs read_indented_block first line")
    | some _, l :: rest =>
      let r := readIndentedLoop untilBlank blockIndent force rest (some l) blockIndent
      finish { r with lines := l :: r.lines }
    | none, rest => finish (readIndentedLoop untilBlank blockIndent force rest none blockIndent)

/-- `IndentationMatch`, `/repo/src/parser/types_and_aliases.rs`. -/
inductive IndentationMatch where
  | tooMuch | justRight | tooLittle
  deriving DecidableEq, Repr

/-- `indent_on_subsequent_lines`, `/repo/src/parser/mod.rs` l.759-778: the indentation of the first
non-blank line after the current one (the second component, always 0, is dropped). -/
def indentOnSubsequentLines (src : List Str) (current : Nat) : Option Nat :=
  ((src.drop (current + 1)).find? (fun l => !isBlank l)).map indentOf

/-- `indent_from_next_line`, `/repo/src/parser/mod.rs` l.832-855. -/
def indentFromNextLine (src : List Str) (baseIndent markerIndent indentAfterMarker : Nat)
    (c : LineCursor) : Nat :=
  match src[c.relativeOffset + 1]? with
  | none => indentAfterMarker
  | some line =>
    if isBlank line then indentAfterMarker
    else
      let indent := indentOf line + baseIndent
      if indent < markerIndent + 1 then indentAfterMarker else indent

end Rustla
