import Verif.Model.Body
/-!
# The parser: transition tables and the nested parsers
-/
namespace Rustla

/-- The transitions behind `EmptyLine` in `BODY_TRANSITIONS`, `/repo/src/parser/state_machine/transitions.rs`; the tables
of block quotes and of points of interest end with the same transitions. -/
def bodyRest (E : Env) : List (Re × Transition) :=
  [(reBullet, bodyBullet E), (reEnumerator, bodyEnumerator E), (reFieldMarker, bodyFieldMarker E),
   (reFootnote, bodyFootnote E), (reCitation, bodyCitation E), (reHyperlinkTarget, bodyHyperlinkTarget E),
   (reDirective, bodyDirective E), (reComment, bodyComment E), (reLine, bodyLine E), (reText, bodyText E)]

/-- `BODY_TRANSITIONS`, `/repo/src/parser/state_machine/transitions.rs` l.16-67. -/
def bodyTable (E : Env) : List (Re × Transition) := (reBlankLine, emptyLine) :: bodyRest E

/-- `DEFINITION_LIST_TRANSITIONS`, `/repo/src/parser/state_machine/transitions.rs` l.148-204. -/
def definitionTable (E : Env) : List (Re × Transition) :=
  [(reBlankLine, emptyLine), (reBullet, backUp), (reEnumerator, backUp), (reFieldMarker, backUp), (reFootnote, backUp),
   (reCitation, backUp), (reHyperlinkTarget, backUp), (reDirective, backUp), (reComment, backUp), (reLine, backUp),
   (reText, definitionText E)]

/-- `get_transitions` and `TRANSITION_MAP`, `/repo/src/parser/state_machine/mod.rs` l.160-262: the states without a table
panic. -/
def tableOf (E : Env) : State → Run (List (Re × Transition))
  | .Section | .ListItem | .Footnote | .Citation | .Admonition | .Figure | .Body => .ok (bodyTable E)
  | .BlockQuote => .ok ((reBlankLine, emptyLine) :: (reAttribution, attribution E) :: bodyRest E)
  | .BulletList => .ok [(reBlankLine, emptyLine), (reBullet, listBullet E)]
  | .DefinitionList => .ok (definitionTable E)
  | .EnumeratedList => .ok [(reBlankLine, emptyLine), (reEnumerator, listEnumerator E)]
  | .FieldList => .ok [(reBlankLine, emptyLine), (reFieldMarker, listFieldMarker E)]
  | .LiteralBlock =>
    .ok [(reBlankLine, emptyLine), (reQuotedLiteralBlock, literalBlock E true),
      (reIndentedLiteralBlock, literalBlock E false)]
  | .ListTable => .ok [(reBlankLine, emptyLine), (reBullet, bodyBullet E)]
  | .AplusMultiCol => .ok ((reBlankLine, emptyLine) :: (reAplusColBreak, colBreak) :: bodyRest E)
  | .AplusQuestionnaire =>
    .ok [(reBlankLine, emptyLine), (reAplusQuestionnaireDirective, questionnaireDirective E),
      (reText, questionnaireText E)]
  | .OptionList | .LineBlock | .ExtensionOptions | .Line => .ok []
  | .AplusPickOne | .AplusPickAny | .HyperlinkTarget | .InternalHyperlinkTarget | .Failure | .EOF =>
    .error (.explicit "state_machine/mod.rs get_transitions")

/-- The unchanging parts of a parser.
(`/repo/src/parser/mod.rs` l.40-92, `/repo/src/parser/state_machine/mod.rs` l.217-270) -/
def machineOf (E : Env) : Machine := { src := E.src, table := tableOf E }

/-- `Parser::new(lines, doctree, base_indent, base_line, state, section_level).parse()`, `/repo/src/parser/mod.rs`
l.74-303.  `fuel` bounds both the number of rounds of the loop and the depth of nested parsers. -/
def parserOf : Nat → NestedParser
  | 0 => fun _ _ _ _ _ _ => .error .outOfFuel
  | fuel + 1 => fun lines doc baseIndent baseLine st sectionLevel =>
    parseLoop (machineOf { src := lines, baseIndent := baseIndent, nested := parserOf fuel }) (fuel + 1)
      (LoopState.init doc baseLine st sectionLevel)

/-- The parser run by `run`, `/repo/src/lib.rs` l.96-96, on a new document. -/
def parseDocument (fuel : Nat) (stem folder : Str) (lines : List Str) : Run ParsingResult :=
  parserOf fuel lines (DocTree.new stem folder) 0 0 .Body 0

end Rustla
