import Verif.Model.NodeTypes
/-! # All kinds of nodes, for proofs over the whole table -/
namespace Rustla

/-- All kinds of nodes. -/
def allKinds : List Kind :=
  [.Abbreviation, .AbsoluteURI, .Acronym, .Address, .Admonition, .Attribution, .Author, .Authors,
   .AutomaticSectionNumbering, .BlockQuote, .BulletList, .BulletListItem, .Caption, .Citation, .CitationReference, .Class,
   .Classifier, .Code, .ColSpec, .Comment, .CompoundParagraph, .Contact, .Container, .Copyright,
   .CSVTable, .Date, .Decoration, .Definition, .DefinitionList, .DefinitionListItem, .Description, .DocInfo,
   .DoctestBlock, .Document, .Emphasis, .EmptyLine, .Entry, .EnumeratedList, .EnumeratedListItem, .ExternalHyperlinkTarget,
   .Field, .FieldBody, .FieldList, .FieldListItem, .Figure, .Footer, .Footnote, .FootnoteReference,
   .Generated, .Header, .Image, .Include, .IndirectHyperlinkTarget, .Inline, .InlineTarget, .InterpretedText,
   .Label, .Legend, .Line, .LineBlock, .ListTable, .Literal, .LiteralBlock, .Math,
   .MathBlock, .OptionList, .OptionListItem, .OptionString, .Organization, .Paragraph, .ParsedLiteralBlock, .Pending,
   .Problematic, .Raw, .Reference, .Revision, .Row, .Rubric, .Section, .Sidebar,
   .Status, .StrongEmphasis, .Subscript, .SubstitutionDefinition, .SubstitutionReference, .Subtitle, .Superscript, .SystemMessage,
   .Table, .Target, .TBody, .Term, .Text, .TGroup, .THead, .TRow,
   .Title, .TitleReference, .Topic, .Transition, .UnknownDirective, .Version, .WhiteSpace, .SphinxOnly,
   .SphinxCodeBlock, .AplusPOI, .AplusColBreak, .AplusQuestionnaire, .AplusPickOne, .AplusPickAny, .AplusFreeText, .AplusPickChoices,
   .AplusPickChoice, .AplusQuestionnaireHints, .AplusQuestionnaireHint, .AplusSubmit, .AplusActiveElementInput, .AplusActiveElementOutput]

theorem mem_allKinds (k : Kind) : k ∈ allKinds := by cases k <;> decide +kernel

/-- A decidable statement about pairs of kinds holds if it holds on the whole table. -/
theorem forall_kinds {P : Kind → Kind → Prop} [∀ a b, Decidable (P a b)]
    (h : (allKinds.all fun a => allKinds.all fun b => decide (P a b)) = true) (a b : Kind) : P a b := by
  simp only [List.all_eq_true, decide_eq_true_eq] at h
  exact h a (mem_allKinds a) b (mem_allKinds b)

/-- A decidable statement about kinds holds if it holds on the whole table. -/
theorem forall_kind {P : Kind → Prop} [∀ a, Decidable (P a)]
    (h : (allKinds.all fun a => decide (P a)) = true) (a : Kind) : P a := by
  simp only [List.all_eq_true, decide_eq_true_eq] at h
  exact h a (mem_allKinds a)

end Rustla
