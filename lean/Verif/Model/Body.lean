import Verif.Model.Directives
/-!
# Transition functions (`/repo/src/parser/state_machine`)
-/
namespace Rustla

/-! ## What the focused node is -/

/-- `TreeNodeType::BulletList { .. }`, `/repo/src/parser/state_machine/bullet_list.rs` l.27-28. -/
def asBulletList : NodeType → Option (Char × Nat × Nat)
  | .BulletList b bi ti => some (b, bi, ti)
  | _ => none

/-- `TreeNodeType::EnumeratedList { .. }`, `/repo/src/parser/state_machine/enumerated_list.rs` l.20-26: delimiters, kind,
start index, number of items, indentation. -/
def asEnumList : NodeType → Option (EnumDelims × EnumKind × Nat × Nat × Nat)
  | .EnumeratedList d k s n i => some (d, k, s, n, i)
  | _ => none

/-- `TreeNodeType::FieldList { .. }`, `/repo/src/parser/state_machine/field_list.rs` l.34. -/
def asFieldList : NodeType → Option Nat
  | .FieldList i => some i
  | _ => none

/-- `TreeNodeType::Section { level, .. }`, `/repo/src/parser/state_machine/body.rs` l.1652. -/
def asSection : NodeType → Option Nat
  | .Section _ l _ => some l
  | _ => none

/-! ## Common to all states -/

/-- `empty_line`, `/repo/src/parser/state_machine/common.rs` l.10-25. -/
def emptyLine : Transition := fun _ => pure (.neither, some 1)

/-- `back_up`, `/repo/src/parser/state_machine/unknown_transitions.rs` l.19-34: the focus does not move. -/
def backUp : Transition := fun _ => pure (.pop, none)

/-! ## Paragraphs and sections -/

/-- The literal block indicator, `/repo/src/parser/state_machine/body.rs` l.2203-2233: the text without it if the text
ends with two colons (the pattern `(\s{0,1}|\S)::$`). -/
def literalIndicator (block : Str) : Option Str :=
  match block.reverse with
  | ':' :: ':' :: [] => some []
  | ':' :: ':' :: c :: rest =>
    if isWs c then some (rest.reverse ++ [c]) else some (rest.reverse ++ [c, ':'])
  | _ => none

/-- The block of text of a paragraph, `/repo/src/parser/state_machine/body.rs` l.2178-2198. -/
def paragraphText (E : Env) (indent : Nat) : P Str := do
  let rel ← P.lift (checkedSub indent E.baseIndent "body.rs parse_paragraph")
  let (lines, _) ← P.textBlock E (some rel)
  pure (trimEnd (joinWith ['\n'] lines))

/-- Filling the paragraph, `/repo/src/parser/state_machine/body.rs` l.2249-2285. -/
def fillParagraph (text : Str) : P Unit := do
  let nodes ← P.inlineDoc text
  if nodes.isEmpty then do
    P.parent
    P.popChild
  else do
    P.pushAll nodes
    P.parent

/-- `parse_paragraph`, `/repo/src/parser/state_machine/body.rs` l.2168-2326. -/
def parseParagraph (E : Env) (indent : Nat) : P Moves := atIndent indent do
  let block ← paragraphText E indent
  P.pushFocus (.Paragraph indent)
  fillParagraph ((literalIndicator block).getD block)
  if (literalIndicator block).isSome then pure (.push [.LiteralBlock], some 1) else pure (.neither, some 1)

/-- Leave the focused node for a section title, `/repo/src/parser/state_machine/body.rs` l.1682-1694. -/
def leaveForSection : P Moves := do
  P.parent
  let d ← P.doc
  P.setLevel ((asSection d.sharedData).getD (← P.level))
  pure (.pop, none)

/-- Open a section or leave the focused node, `/repo/src/parser/state_machine/body.rs` l.1632-1700 (and l.1894-1943,
l.1994-2045). -/
def openSection (title : Str) (style : SectionLineStyle) (lines : Nat) : P Moves := do
  let d ← P.doc
  let data := d.newSectionData title style
  let detected := d.sections.levelOf style
  if d.sharedData.kind = .Document then do
    P.pushFocus data
    P.setLevel detected
    pure (.push [.Section], some lines)
  else
    match asSection d.sharedData with
    | some l =>
      if detected ≤ l then do
        P.setLevel l
        leave
      else do
        P.setLevel detected
        P.pushFocus data
        pure (.push [.Section], some lines)
    | none => leaveForSection

/-- `text`, `/repo/src/parser/state_machine/body.rs` l.1608-1812.  `indent` is the length of group 1. -/
def textAt (E : Env) (groupIndent : Nat) : P Moves := do
  let indent := groupIndent + E.baseIndent
  let offset ← P.offset
  match E.src[offset + 1]? with
  | none => parseParagraph E indent
  | some next =>
    if reLine.isMatch next then
      if indent > 0 then P.failed
      else do
        let char ← P.lift (match next with
          | c :: _ => .ok c
          | [] => .error (.unwrapNone "body.rs text"))
        let line ← currentLine E "body.rs text"
        openSection (trim line) (.Under char) 2
    else
      match reText.captures next with
      | none => parseParagraph E indent
      | some m =>
        if (m.getD .g1).length + E.baseIndent > indent then
          atIndent indent do
            P.pushFocus (.DefinitionList indent)
            pure (.push [.DefinitionList], none)
        else parseParagraph E indent

/-- `text`, `/repo/src/parser/state_machine/body.rs` l.1608-1812. -/
def bodyText (E : Env) : Transition := fun m => textAt E (m.getD .g1).length

/-- A section title with an overline, `/repo/src/parser/state_machine/body.rs` l.1879-1966 (and l.1980-2070); the next
line is the title. -/
def overlined (E : Env) (char : Char) (len : Nat) (title : Str) : P Moves := do
  let under ← P.required E.src[(← P.offset) + 2]?
  if !reLine.isMatch under then P.failed
  else if (trimEnd under).head? = some char ∧ len = (trimEnd under).length ∧ (trimEnd title).length ≤ len then
    openSection (trim title) (.OverAndUnder char) 3
  else P.failed

/-- `line`, `/repo/src/parser/state_machine/body.rs` l.1815-2103. -/
def bodyLine (E : Env) : Transition := fun m => do
  let line := m.getD .g1
  let char ← P.lift (match line with
    | c :: _ => .ok c
    | [] => .error (.unwrapNone "body.rs line"))
  let len := (trimEnd line).length
  let offset ← P.offset
  let next ← P.required E.src[offset + 1]?
  let afterBlank := if offset = 0 then false else ((E.src[offset - 1]?).map isBlank).getD false
  if afterBlank && isBlank next && decide (len ≥ 4) then do
    if ← P.tryPush .Transition then pure (.neither, some 2) else leave
  else if reText.isMatch next then overlined E char len next
  else if trim m.whole = str! "::" then parseParagraph E 0
  else P.failed

/-! ## Lists -/

/-- `bullet`, `/repo/src/parser/state_machine/body.rs` l.14-84. -/
def bodyBullet (E : Env) : Transition := fun m => do
  let char ← P.lift (match m.getD .g2 with
    | c :: _ => .ok c
    | [] => .error (.unwrapNone "body.rs bullet"))
  let indent := (m.getD .g1).length + E.baseIndent
  atIndent indent do
    P.pushFocus (.BulletList char indent (m.whole.length + E.baseIndent))
    pure (.push [.BulletList], none)

/-- `bullet`, `/repo/src/parser/state_machine/bullet_list.rs` l.13-85; `end()` is an offset in bytes. -/
def listBullet (E : Env) : Transition := fun m => do
  let char ← P.lift (match m.getD .g2 with
    | c :: _ => .ok c
    | [] => .error (.unwrapNone "bullet_list.rs bullet"))
  let indent := (m.getD .g1).length + E.baseIndent
  let textIndent := utf8Len m.whole + E.baseIndent
  let d ← P.doc
  let (b, bi, ti) ← P.lift (match asBulletList d.sharedData with
    | some x => .ok x
    | none => .error (.explicit "bullet_list.rs bullet"))
  if b = char ∧ bi = indent ∧ ti = textIndent then do
    P.pushFocus (.BulletListItem b indent textIndent)
    let (stack, offset) ← parseFirstNodeBlock E textIndent none .ListItem
    pure (.push stack, some offset)
  else leave

/-- `enumerator`, `/repo/src/parser/state_machine/body.rs` l.94-207. -/
def bodyEnumerator (E : Env) : Transition := fun m => do
  let indent := (m.getD .indent).length + E.baseIndent
  let (number, kind, delims) ← P.required (← P.lift (enumCaptures m none false false 0 1))
  let valid ← P.lift (isEnumeratedListItem E.src (← P.cursor) E.baseIndent indent number kind delims kind false 0 1)
  if !valid then textAt E (m.getD .indent).length
  else atIndent indent do
    P.pushFocus (.EnumeratedList delims kind number 0 indent)
    pure (.push [.EnumeratedList], none)

/-- `*n_of_items += 1`, `/repo/src/parser/state_machine/enumerated_list.rs` l.80-83. -/
def addItem : NodeType → NodeType
  | .EnumeratedList d k s n i => .EnumeratedList d k s (n + 1) i
  | x => x

/-- `enumerator`, `/repo/src/parser/state_machine/enumerated_list.rs` l.10-149. -/
def listEnumerator (E : Env) : Transition := fun m => do
  let (listDelims, listKind, start, count, listIndent) ← P.required (asEnumList (← P.doc).sharedData)
  let indent := (m.getD .indent).length + E.baseIndent
  let textIndent := m.whole.length + E.baseIndent
  let (number, kind, delims) ← P.required (← P.lift (enumCaptures m (some listKind) true false count start))
  let valid ← P.lift
    (isEnumeratedListItem E.src (← P.cursor) E.baseIndent indent number kind delims listKind true count start)
  if !valid then textAt E (m.getD .indent).length
  else if listDelims = delims ∧ kind = listKind ∧ listIndent = indent ∧ number = count + start then do
    P.mapData addItem
    P.pushFocus (.EnumeratedListItem listDelims kind number indent textIndent)
    let rel := m.whole.length
    let (lines, offset) ← P.indentedBlock E false (some rel) (some rel) false
    let stack ← P.nest E lines textIndent .ListItem
    pure (.push stack, some offset)
  else leave

/-- `field_marker`, `/repo/src/parser/state_machine/body.rs` l.210-280. -/
def bodyFieldMarker (E : Env) : Transition := fun m => do
  let indent := (m.getD .g1).length + E.baseIndent
  atIndent indent do
    P.pushFocus (.FieldList indent)
    pure (.push [.FieldList], none)

/-- `field_marker`, `/repo/src/parser/state_machine/field_list.rs` l.9-109. -/
def listFieldMarker (E : Env) : Transition := fun m => do
  let after := m.whole.length + E.baseIndent
  let indent := (m.getD .g1).length + E.baseIndent
  let body := indentFromNextLine E.src E.baseIndent indent after (← P.cursor)
  let markerIndent ← P.required (asFieldList (← P.doc).sharedData)
  if markerIndent = indent then do
    let nodes ← P.inlineNone (m.getD .g2)
    if nodes.isEmpty then P.failed else
    P.pushFocus (.FieldListItem (m.getD .g2) indent body)
    let (stack, offset) ← parseFirstNodeBlock E body (some after) .ListItem
    pure (.push stack, some offset)
  else leave

/-- The parts of a line between the separators ` : `, Rust `str::split(" : ")`; `cur` is the current part, reversed.
(`/repo/src/parser/state_machine/definition_list.rs` l.44-44) -/
def splitColonAux : Str → Str → List Str
  | ' ' :: ':' :: ' ' :: rest, cur => cur.reverse :: splitColonAux rest []
  | c :: rest, cur => splitColonAux rest (c :: cur)
  | [], cur => [cur.reverse]

/-- `text`, `/repo/src/parser/state_machine/definition_list.rs` l.11-104. -/
def definitionText (E : Env) : Transition := fun m => do
  let indent := (m.getD .g1).length + E.baseIndent
  let offset ← P.offset
  match E.src[offset + 1]? with
  | none => leave
  | some next =>
    let nextIndent := indentOf next + E.baseIndent
    if nextIndent ≤ indent then leave
    else do
      let line ← P.required E.src[offset]?
      let parts := splitColonAux line []
      P.pushFocus (.DefinitionListItem (parts.head?.getD []) ((parts.drop 1).filter fun p => !isBlank p) nextIndent)
      pure (.push [.ListItem], some 1)

/-! ## Explicit markup -/

/-- The kind and the label of a footnote marker, `/repo/src/parser/state_machine/body.rs` l.303-316. -/
def footnoteKind (m : Match) : Option (FootnoteKind × Str) :=
  match m.get .manual, m.get .autonumbered, m.get .simplename, m.get .autosymbol with
  | some l, _, _, _ => some (.Manual, l)
  | none, some l, _, _ => some (.AutoNumbered, l)
  | none, none, some l, _ => some (.SimpleRefName, l)
  | none, none, none, some l => some (.AutoSymbol, l)
  | none, none, none, none => none

/-- `detected_footnote_label_to_ref_label`, `/repo/src/parser/state_machine/body.rs` l.2111-2165: label and target. -/
def noteLabels (d : DocTree) (kind : FootnoteKind) (label : Str) : Option (Str × Str) :=
  match kind with
  | .Manual => some (normalizeRefname label, normalizeRefname label)
  | .AutoNumbered => d.newAutonumberFootnoteLabel.map fun n => (n, n)
  | .SimpleRefName => d.newAutonumberFootnoteLabel.map fun n => (n, normalizeRefname label)
  | .AutoSymbol => d.newSymbolicFootnoteLabel.map fun s => (s, s)

/-- The body indentation of a footnote or citation, `/repo/src/parser/state_machine/body.rs` l.317-330: the base
indentation is not added to the indentation of the following line. -/
def noteIndent (E : Env) (marker after offset : Nat) : Nat :=
  match indentOnSubsequentLines E.src offset with
  | some i => if i > marker then i else after
  | none => after

/-- `footnote`, `/repo/src/parser/state_machine/body.rs` l.283-424. -/
def bodyFootnote (E : Env) : Transition := fun m => do
  let after := m.whole.length + E.baseIndent
  let marker := (m.getD .indent).length + E.baseIndent
  let (kind, text) ← P.required (footnoteKind m)
  let body := noteIndent E marker after (← P.offset)
  let (label, target) ← P.required (noteLabels (← P.doc) kind text)
  atIndent marker do
    P.pushFocus (.Footnote body kind label target)
    let (stack, offset) ← parseFirstNodeBlock E body (some after) .Footnote
    pure (.push stack, some offset)

/-- `citation`, `/repo/src/parser/state_machine/body.rs` l.427-534. -/
def bodyCitation (E : Env) : Transition := fun m => do
  let after := m.whole.length + E.baseIndent
  let marker := (m.getD .g1).length + E.baseIndent
  let body := noteIndent E marker after (← P.offset)
  atIndent marker do
    P.pushFocus (.Citation body (trim (m.getD .g2)))
    let (stack, offset) ← parseFirstNodeBlock E body (some after) .Citation
    pure (.push stack, some offset)

/-- The body indentation of a hyperlink target, `/repo/src/parser/state_machine/body.rs` l.540-556. -/
def targetIndent (E : Env) (marker text offset : Nat) : Nat :=
  match E.src[offset + 1]? with
  | none => text
  | some line =>
    if isBlank line then text
    else if indentOf line + E.baseIndent < marker + 3 then text else indentOf line + E.baseIndent

/-- The node made of a target with content, `/repo/src/parser/state_machine/body.rs` l.630-670; `none` is a failure. -/
def targetNode (marker : Nat) (label : Str) : List NodeType → Option NodeType
  | [.Reference _ (.Internal r)] => some (.IndirectHyperlinkTarget marker label r)
  | [.Reference _ (.URI r)] => some (.ExternalHyperlinkTarget marker label r)
  | [.Reference _ (.EMail r)] => some (.ExternalHyperlinkTarget marker label r)
  | _ => none

/-- The node that a target with content stands for, `/repo/src/parser/state_machine/body.rs` l.612-675. -/
def targetContent (marker : Nat) (label block : Str) : P NodeType := do
  let nodes ← P.inlineDoc block
  if nodes.isEmpty then P.lift (.error (.explicit "body.rs hyperlink_target")) else
  P.required (targetNode marker label nodes)

/-- The label of a hyperlink target, `/repo/src/parser/state_machine/body.rs` l.555-559: an anonymous target takes the
next anonymous label. -/
def targetLabel (name : Str) : P Str :=
  if name = str! "_" then P.anonTarget else pure (normalizeRefname name)

/-- `hyperlink_target`, `/repo/src/parser/state_machine/body.rs` l.537-734: the label of an anonymous target is taken
before the indentation is checked. -/
def bodyHyperlinkTarget (E : Env) : Transition := fun m => do
  let marker := (m.getD .g1).length
  let text := m.whole.length
  let label ← targetLabel (m.getD .g2)
  let body := targetIndent E marker text (← P.offset)
  atIndent marker do
    let (lines, _) ← P.indentedBlock E true (some body) (some text) false
    let block := (joinWith ['\n'] lines).filter fun c => !isWs c
    if block.isEmpty then do
      P.internalTarget label
      pure (.neither, some 1)
    else do
      let node ← targetContent marker label block
      P.pushNode node
      pure (.neither, some 1)

/-- The `match` on the name of a directive, `/repo/src/parser/state_machine/body.rs` l.776-1455; the names that are
listed there with `parse_unknown_directive` are not repeated. -/
def dispatchDirective (E : Env) (label : Str) (body first : Nat) (empty : Bool) : P Moves :=
  match standardAdmonition label with
  | some variant => parseStandardAdmonition E variant body first empty
  | none =>
    if label = str! "admonition" then parseGenericAdmonition E body first empty
    else if label = str! "image" then parseImage E body first empty
    else if label = str! "figure" then parseFigure E body first empty
    else if label = str! "code" then parseCode E body first empty
    else if label = str! "math" then parseMathBlock E body first empty
    else if label = str! "list-table" then parseListTable E body first empty
    else if label = str! "footnotes" ∨ label = str! "citations" then
      P.lift (.error (.todo "body.rs directive"))
    else if label = str! "class" then parseClass E body first empty
    else if label = str! "code-block" ∨ label = str! "sourcecode" then parseSphinxCodeBlock E body first empty
    else if label = str! "only" then parseSphinxOnly E body first empty
    else if label = str! "questionnaire" then parseQuestionnaire E body first empty
    else if label = str! "submit" then parseSubmit E body first empty
    else if label = str! "ae-input" then parseActiveInput E body first empty
    else if label = str! "ae-output" then parseActiveOutput E body first empty
    else if label = str! "point-of-interest" then parsePointOfInterest E body first empty
    else parseUnknownDirective E label body first empty

/-- The name of a directive, `/repo/src/parser/state_machine/body.rs` l.749-756. -/
def directiveLabel (s : Str) : Str := toLower ((splitWs (toLower s)).flatten)

/-- `directive`, `/repo/src/parser/state_machine/body.rs` l.737-1493. -/
def bodyDirective (E : Env) : Transition := fun m => do
  let marker := (m.getD .g1).length + E.baseIndent
  let first := m.whole.length
  let line ← currentLine E "body.rs directive"
  let empty := isBlank (line.drop first)
  let body := (indentOnSubsequentLines E.src (← P.offset)).getD first
  atIndent marker (dispatchDirective E (directiveLabel (m.getD .g2)) body first empty)

/-- The indentation of the lines after a comment marker, `/repo/src/parser/state_machine/body.rs` l.1516-1532. -/
def commentIndent (E : Env) (marker matchLen offset : Nat) : Nat :=
  match E.src[offset + 1]? with
  | none => matchLen
  | some line =>
    if isBlank line then matchLen
    else if indentOf line + E.baseIndent < marker + 1 then matchLen else indentOf line + E.baseIndent

/-- `comment`, `/repo/src/parser/state_machine/body.rs` l.1496-1603. -/
def bodyComment (E : Env) : Transition := fun m => do
  let matchLen := m.whole.length + E.baseIndent
  let marker := (m.getD .g1).length + E.baseIndent
  let next := commentIndent E marker matchLen (← P.offset)
  atIndent marker do
    let (lines, offset) ← P.indentedBlock E false (some (next - E.baseIndent)) (some (matchLen - E.baseIndent)) false
    let text := trim (joinWith ['\n'] lines)
    P.push (.Comment (if text.isEmpty then none else some text))
    pure (.neither, some offset)

/-! ## Block quotes, literal blocks -/

/-- The indentation of the lines of an attribution, `/repo/src/parser/state_machine/block_quote.rs` l.46-58. -/
def attributionIndent (E : Env) (indent matchLen offset : Nat) : Nat :=
  match indentOnSubsequentLines E.src offset with
  | some i => if i ≥ indent then i else matchLen
  | none => matchLen

/-- `attribution`, `/repo/src/parser/state_machine/block_quote.rs` l.12-133. -/
def attribution (E : Env) : Transition := fun m => do
  let matchLen := m.whole.length + E.baseIndent
  let indent := (m.getD .g1).length + E.baseIndent
  atIndent indent do
    let line ← currentLine E "block_quote.rs attribution"
    let _ ← P.lift (checkedSub m.whole.length 1 "mod.rs line_suffix")
    let first := if isBlank (line.drop m.whole.length) then none else some matchLen
    let next := attributionIndent E indent matchLen (← P.offset)
    let offset ← P.offset
    let (lines, n) ← P.lift (match readIndentedBlock E.src offset true true (some next) first true with
      | .ok (.ok lines _ n _) => .ok (lines, n)
      | .ok .emptyLinesErr => .error (.explicit "block_quote.rs attribution")
      | .error p => .error p)
    P.push (.Attribution (trim (joinWith [' '] lines)))
    P.parent
    pure (.pop, some n)

/-- `parse_indented_literal`, `/repo/src/parser/state_machine/literal_block.rs` l.57-108. -/
def indentedLiteral (E : Env) (indent : Nat) : P Moves := do
  let (lines, offset) ← P.indentedBlock E false (some indent) none false
  P.push (.LiteralBlock (joinWith ['\n'] lines))
  pure (.pop, some offset)

/-- `SECTION_AND_QUOTING_CHARS`, `/repo/src/common.rs` l.494-497. -/
def quotingChars : List Char :=
  ['!', '"', '#', '$', '%', '&', '\'', '(', ')', '*', '+', ',', '-', '.', '/', ':', ';', '<', '=', '>', '?', '@', '[',
    '\\', ']', '^', '_', '`', '{', '|', '}', '~']

/-- One line of a quoted literal block without its quote character,
`/repo/src/parser/state_machine/literal_block.rs` l.164-179; `none` is a failure. -/
def unquote (q : Char) : Str → Option Str
  | [] => some []
  | c :: rest => if c = q then some (trimStart rest) else none

/-- `parse_quoted_literal`, `/repo/src/parser/state_machine/literal_block.rs` l.111-215. -/
def quotedLiteral (E : Env) (indent : Nat) (m : Match) : P Moves := do
  let q ← P.required ((m.getD .g2).head?)
  if !quotingChars.contains q then P.failed else
  let (lines, offset) ← P.textBlock E (some indent)
  let lines ← P.required (lines.mapM (unquote q))
  P.push (.LiteralBlock (joinWith ['\n'] lines))
  pure (.pop, some offset)

/-- `literal_block`, `/repo/src/parser/state_machine/literal_block.rs` l.18-54, for the pattern with or without quote
character. -/
def literalBlock (E : Env) (quoted : Bool) : Transition := fun m => do
  let indent := (m.getD .g1).length + E.baseIndent
  let body ← P.required (← P.doc).sharedData.bodyIndent
  if indent > body then indentedLiteral E indent
  else if quoted ∧ indent = body then quotedLiteral E indent m
  else P.failed

/-! ## A+ -/

/-- `aplus_col_break`, `/repo/src/parser/state_machine/aplus.rs` l.10-78. -/
def colBreak : Transition := fun m =>
  atIndent (m.getD .g1).length do
    P.push .AplusColBreak
    pure (.neither, some 1)

/-- Act if the indentation is that of the focused node, else leave it,
`/repo/src/parser/state_machine/aplus_questionnaire.rs` l.21-93. -/
def atIndentOrLeave (indent : Nat) (action : P Moves) : P Moves := do
  let d ← P.doc
  match ← P.lift (parentIndentMatches d.sharedData indent) with
  | .justRight => action
  | _ => leave

/-- `parse_aplus_questionnaire_text`, `/repo/src/parser/state_machine/aplus_questionnaire.rs` l.10-94. -/
def questionnaireText (E : Env) : Transition := fun m =>
  let indent := (m.getD .g1).length
  atIndentOrLeave indent do
    let (lines, _) ← P.textBlock E (some indent)
    let nodes ← P.inlineNone (joinWith ['\n'] lines)
    if nodes.isEmpty then P.lift (.error (.explicit "aplus_questionnaire.rs text")) else
    pushParagraph indent nodes
    pure (.neither, some 1)

/-- The questions of a questionnaire, `/repo/src/parser/state_machine/aplus_questionnaire.rs` l.134-168. -/
def dispatchQuestion (E : Env) (label : Str) (body first : Nat) (empty : Bool) : P Moves :=
  if label = str! "pick-one" then parsePickOne E body first empty
  else if label = str! "pick-any" then parsePickAny E body first empty
  else if label = str! "freetext" then parseFreetext E body first empty
  else leave

/-- `parse_aplus_questionnaire_directive`, `/repo/src/parser/state_machine/aplus_questionnaire.rs` l.98-177. -/
def questionnaireDirective (E : Env) : Transition := fun m => do
  let marker := (m.getD .g1).length + E.baseIndent
  let first := m.whole.length + E.baseIndent
  let line ← currentLine E "aplus_questionnaire.rs directive"
  let empty := isBlank (line.drop first)
  let body := ((indentOnSubsequentLines E.src ((← P.offset) + 1)).map (· + E.baseIndent)).getD first
  atIndentOrLeave marker (dispatchQuestion E (toLower (splitWs (m.getD .g2)).flatten) body first empty)

end Rustla
