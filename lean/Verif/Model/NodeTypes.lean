import Verif.Model.NodeData
/-!
# Node types, their categories and the permitted parent/child pairs

Generated from `/repo/src/doctree/tree_node_types.rs`, `/repo/src/doctree/node_categories.rs` and
`/repo/src/doctree/tree_node.rs` by reading these files as text.
-/
namespace Rustla

/-- The variants of `TreeNodeType`, without payload: `/repo/src/doctree/tree_node_types.rs` l.23-921. -/
inductive Kind where
  | Abbreviation
  | AbsoluteURI
  | Acronym
  | Address
  | Admonition
  | Attribution
  | Author
  | Authors
  | AutomaticSectionNumbering
  | BlockQuote
  | BulletList
  | BulletListItem
  | Caption
  | Citation
  | CitationReference
  | Class
  | Classifier
  | Code
  | ColSpec
  | Comment
  | CompoundParagraph
  | Contact
  | Container
  | Copyright
  | CSVTable
  | Date
  | Decoration
  | Definition
  | DefinitionList
  | DefinitionListItem
  | Description
  | DocInfo
  | DoctestBlock
  | Document
  | Emphasis
  | EmptyLine
  | Entry
  | EnumeratedList
  | EnumeratedListItem
  | ExternalHyperlinkTarget
  | Field
  | FieldBody
  | FieldList
  | FieldListItem
  | Figure
  | Footer
  | Footnote
  | FootnoteReference
  | Generated
  | Header
  | Image
  | Include
  | IndirectHyperlinkTarget
  | Inline
  | InlineTarget
  | InterpretedText
  | Label
  | Legend
  | Line
  | LineBlock
  | ListTable
  | Literal
  | LiteralBlock
  | Math
  | MathBlock
  | OptionList
  | OptionListItem
  | OptionString
  | Organization
  | Paragraph
  | ParsedLiteralBlock
  | Pending
  | Problematic
  | Raw
  | Reference
  | Revision
  | Row
  | Rubric
  | Section
  | Sidebar
  | Status
  | StrongEmphasis
  | Subscript
  | SubstitutionDefinition
  | SubstitutionReference
  | Subtitle
  | Superscript
  | SystemMessage
  | Table
  | Target
  | TBody
  | Term
  | Text
  | TGroup
  | THead
  | TRow
  | Title
  | TitleReference
  | Topic
  | Transition
  | UnknownDirective
  | Version
  | WhiteSpace
  | SphinxOnly
  | SphinxCodeBlock
  | AplusPOI
  | AplusColBreak
  | AplusQuestionnaire
  | AplusPickOne
  | AplusPickAny
  | AplusFreeText
  | AplusPickChoices
  | AplusPickChoice
  | AplusQuestionnaireHints
  | AplusQuestionnaireHint
  | AplusSubmit
  | AplusActiveElementInput
  | AplusActiveElementOutput
  deriving DecidableEq, Repr

/-- `TreeNodeType`, `/repo/src/doctree/tree_node_types.rs` l.23-921.
Simplification: the field `marker_name_as_inline_nodes` of `FieldListItem` is left out (nothing reads it). -/
inductive NodeType where
  | Abbreviation (name : Option Str) (classes : Option Str)
  | AbsoluteURI (text : Str)
  | Acronym
  | Address
  | Admonition (content_indent : Nat) (classes : Option Str) (name : Option Str) (variant : AdmonitionType)
  | Attribution (raw_text : Str)
  | Author
  | Authors
  | AutomaticSectionNumbering (depth : Option Nat) (prefix_ : Option Str) (suffix : Option Str) (start : Option Nat)
  | BlockQuote (body_indent : Nat)
  | BulletList (bullet : Char) (bullet_indent : Nat) (text_indent : Nat)
  | BulletListItem (bullet : Char) (bullet_indent : Nat) (text_indent : Nat)
  | Caption (indent : Nat)
  | Citation (body_indent : Nat) (label : Str)
  | CitationReference (displayed_text : Str) (target_label : Str)
  | Class (body_indent : Nat) (classes : List Str)
  | Classifier
  | Code (text : Str) (language : Option Str) (name : Option Str) (class_ : Option Str) (number_lines : Option Str)
  | ColSpec
  | Comment (text : Option Str)
  | CompoundParagraph (body_indent : Nat) (name : Option Str) (class_ : Option Str)
  | Contact
  | Container (body_indent : Nat) (class_names : Option (List Str)) (name : Option Str)
  | Copyright
  | CSVTable (name : Option Str) (class_ : Option Str) (widths : Option TableColWidths) (width : Option MetricType) (header_rows : Option Nat) (stub_columns : Option Nat) (header : Option (List Str)) (file : Option Str) (url : Option Str) (encoding : Option Str) (delim : Option Char) (quote : Option Char) (keepspace : Option Bool) (escape : Option Char) (align : Option HorizontalAlignment)
  | Date
  | Decoration
  | Definition
  | DefinitionList (term_indent : Nat)
  | DefinitionListItem (term : Str) (classifiers : List Str) (body_indent : Nat)
  | Description
  | DocInfo
  | DoctestBlock
  | Document
  | Emphasis (text : Str)
  | EmptyLine
  | Entry (is_last : Bool)
  | EnumeratedList (delims : EnumDelims) (kind : EnumKind) (start_index : Nat) (n_of_items : Nat) (enumerator_indent : Nat)
  | EnumeratedListItem (delims : EnumDelims) (kind : EnumKind) (index_in_list : Nat) (enumerator_indent : Nat) (text_indent : Nat)
  | ExternalHyperlinkTarget (marker_indent : Nat) (target : Str) (uri : Str)
  | Field
  | FieldBody (indentation : Nat)
  | FieldList (marker_indent : Nat)
  | FieldListItem (raw_marker_name : Str) (marker_indent : Nat) (body_indent : Nat)
  | Figure (body_indent : Nat) (align : Option HorizontalAlignment) (figwidth : Option Length) (figclass : Option Str) (name : Option Str)
  | Footer (body_indent : Nat)
  | Footnote (body_indent : Nat) (kind : FootnoteKind) (label : Str) (target : Str)
  | FootnoteReference (displayed_text : Str) (target_label : Str) (kind : FootnoteKind)
  | Generated
  | Header (body_indent : Nat)
  | Image (uri : Str) (alt : Option Str) (height : Option Length) (width : Option Length) (scale : Option F64) (align : Option HTMLAlignment) (target : Option Str) (name : Option Str) (class_ : Option Str) (inline_ : Bool)
  | Include (uri : Str) (start_line : Option Nat) (end_line : Option Nat) (start_after : Option Nat) (end_before : Option Nat) (literal : Bool) (code : Option (Option Str)) (number_lines : Option (Option Nat)) (encoding : Option Str) (tab_width : Option Nat) (name : Option Str) (class_ : Option Str)
  | IndirectHyperlinkTarget (marker_indent : Nat) (target : Str) (indirect_target : Str)
  | Inline
  | InlineTarget (target_label : Str)
  | InterpretedText (role : Str) (content : Str)
  | Label
  | Legend (body_indent : Nat)
  | Line
  | LineBlock
  | ListTable (body_indent : Nat) (title : Option Str) (widths : Option TableColWidths) (width : Option MetricType) (header_rows : Option Nat) (stub_columns : Option Nat) (align : Option HorizontalAlignment)
  | Literal (text : Str)
  | LiteralBlock (text : Str)
  | Math (text : Str) (name : Option Str) (class_ : Option Str)
  | MathBlock (math_block : Str) (name : Option Str) (class_ : Option Str)
  | OptionList (option_indent : Nat)
  | OptionListItem (body_indent : Nat)
  | OptionString
  | Organization
  | Paragraph (indent : Nat)
  | ParsedLiteralBlock
  | Pending
  | Problematic
  | Raw
  | Reference (displayed_text : Option Str) (reference : Reference)
  | Revision
  | Row
  | Rubric (name : Option Str) (class_ : Option Str)
  | Section (title_text : Str) (level : Nat) (line_style : SectionLineStyle)
  | Sidebar (body_indent : Nat)
  | Status
  | StrongEmphasis (text : Str)
  | Subscript (text : Str)
  | SubstitutionDefinition
  | SubstitutionReference (substitution_label : Str) (target_label : Option Str)
  | Subtitle
  | Superscript (text : Str)
  | SystemMessage
  | Table (name : Option Str) (class_ : Option Str) (align : Option HorizontalAlignment) (widths : Option (List Nat)) (width : Option Length)
  | Target
  | TBody
  | Term
  | Text (text : Str)
  | TGroup
  | THead
  | TRow
  | Title
  | TitleReference (displayed_text : Str) (target_label : Str)
  | Topic (title : Str) (depth : Option Nat) (local_ : Option Bool) (backlinks : Option ToCBacklinks) (class_ : Option Str)
  | Transition
  | UnknownDirective (directive_name : Str) (argument : Str) (options : List (Str × Str)) (body_indent : Nat)
  | Version
  | WhiteSpace (text : Str)
  | SphinxOnly (expression : Str) (body_indent : Nat)
  | SphinxCodeBlock (language : Str) (linenos : Bool) (lineno_start : Option Nat) (emphasize_lines : Option (List Nat)) (caption : Option Str) (name : Option Str) (dedent : Option Nat) (force : Bool) (code_text : Str)
  | AplusPOI (title : Str) (body_indent : Nat) (id : Option Str) (previous : Option Str) (next : Option Str) (hidden : Option Str) (class_ : Option Str) (height : Option Length) (columns : Option Str) (bgimg : Option Str) (not_in_slides : Option Str) (not_in_book : Option Str) (no_poi_box : Option Str)
  | AplusColBreak
  | AplusQuestionnaire (body_indent : Nat) (points_from_children : Nat) (key : Str) (max_points : Option Nat) (difficulty : Option Str) (submissions : Option Str) (points_to_pass : Option Str) (feedback : Option Str) (title : Option Str) (no_override : Option Str) (pick_randomly : Option Str) (preserve_questions_between_attempts : Option Str) (category : Option Str) (status : Option Str) (reveal_model_at_max_submissions : Option Str) (show_model : Option Str) (allow_assistant_viewing : Option Str) (allow_assistant_grading : Option Str)
  | AplusPickOne (body_indent : Nat) (points : Nat) (class_ : Option Str) (required : Bool) (key : Option Str) (dropdown : Bool)
  | AplusPickAny (body_indent : Nat) (points : Nat) (class_ : Option Str) (required : Bool) (key : Option Str) (partial_points : Bool) (randomized : Bool) (correct_count : Option Nat) (preserve_questions_between_attempts : Bool)
  | AplusFreeText (body_indent : Nat) (points : Nat) (compare_method : Str) (model_answer : Str) (class_ : Option Str) (required : Option Str) (key : Option Str) (length : Option Str) (height : Option Str)
  | AplusPickChoices (body_indent : Nat)
  | AplusPickChoice (label : Str) (is_correct : Bool) (is_pre_selected : Bool) (is_neutral : Bool)
  | AplusQuestionnaireHints (body_indent : Nat)
  | AplusQuestionnaireHint (label : Str) (show_when_not_selected : Bool) (question_type : AplusQuestionnaireType)
  | AplusSubmit (body_indent : Nat) (key : Str) (difficulty : Str) (max_points : Nat) (config : Str) (submissions : Nat) (points_to_pass : Nat) (class_ : Str) (title : Str) (category : Str) (status : AplusExerciseStatus) (ajax : Bool) (allow_assistant_viewing : Bool) (allow_assistant_grading : Bool) (quiz : Bool) (url : Str) (radar_tokenizer : AplusRadarTokenizer) (radar_minimum_match_tokens : Option Nat) (lti : Str) (lti_resource_link_id : Str) (lti_open_in_iframe : Bool) (lti_aplus_get_and_post : Bool)
  | AplusActiveElementInput (key_for_input : Str) (title : Option Str) (default : Option Str) (class_ : Option Str) (width : Option Length) (height : Option Length) (clear : Option AplusActiveElementClear) (input_type : Option AplusActiveElementInputType) (file : Option Str)
  | AplusActiveElementOutput (key_for_output : Str) (config : Str) (inputs : Str) (title : Option Str) (class_ : Option Str) (width : Option Length) (height : Option Length) (clear : Option AplusActiveElementClear) (output_type : AplusActiveElementOutputType) (submissions : Option Nat) (scale_size : Bool) (status : AplusExerciseStatus)
  deriving DecidableEq, Repr

/-- Which variant a node is.
(`/repo/src/doctree/tree_node_types.rs` l.23-921) -/
def NodeType.kind : NodeType → Kind
  | .Abbreviation .. => .Abbreviation
  | .AbsoluteURI .. => .AbsoluteURI
  | .Acronym => .Acronym
  | .Address => .Address
  | .Admonition .. => .Admonition
  | .Attribution .. => .Attribution
  | .Author => .Author
  | .Authors => .Authors
  | .AutomaticSectionNumbering .. => .AutomaticSectionNumbering
  | .BlockQuote .. => .BlockQuote
  | .BulletList .. => .BulletList
  | .BulletListItem .. => .BulletListItem
  | .Caption .. => .Caption
  | .Citation .. => .Citation
  | .CitationReference .. => .CitationReference
  | .Class .. => .Class
  | .Classifier => .Classifier
  | .Code .. => .Code
  | .ColSpec => .ColSpec
  | .Comment .. => .Comment
  | .CompoundParagraph .. => .CompoundParagraph
  | .Contact => .Contact
  | .Container .. => .Container
  | .Copyright => .Copyright
  | .CSVTable .. => .CSVTable
  | .Date => .Date
  | .Decoration => .Decoration
  | .Definition => .Definition
  | .DefinitionList .. => .DefinitionList
  | .DefinitionListItem .. => .DefinitionListItem
  | .Description => .Description
  | .DocInfo => .DocInfo
  | .DoctestBlock => .DoctestBlock
  | .Document => .Document
  | .Emphasis .. => .Emphasis
  | .EmptyLine => .EmptyLine
  | .Entry .. => .Entry
  | .EnumeratedList .. => .EnumeratedList
  | .EnumeratedListItem .. => .EnumeratedListItem
  | .ExternalHyperlinkTarget .. => .ExternalHyperlinkTarget
  | .Field => .Field
  | .FieldBody .. => .FieldBody
  | .FieldList .. => .FieldList
  | .FieldListItem .. => .FieldListItem
  | .Figure .. => .Figure
  | .Footer .. => .Footer
  | .Footnote .. => .Footnote
  | .FootnoteReference .. => .FootnoteReference
  | .Generated => .Generated
  | .Header .. => .Header
  | .Image .. => .Image
  | .Include .. => .Include
  | .IndirectHyperlinkTarget .. => .IndirectHyperlinkTarget
  | .Inline => .Inline
  | .InlineTarget .. => .InlineTarget
  | .InterpretedText .. => .InterpretedText
  | .Label => .Label
  | .Legend .. => .Legend
  | .Line => .Line
  | .LineBlock => .LineBlock
  | .ListTable .. => .ListTable
  | .Literal .. => .Literal
  | .LiteralBlock .. => .LiteralBlock
  | .Math .. => .Math
  | .MathBlock .. => .MathBlock
  | .OptionList .. => .OptionList
  | .OptionListItem .. => .OptionListItem
  | .OptionString => .OptionString
  | .Organization => .Organization
  | .Paragraph .. => .Paragraph
  | .ParsedLiteralBlock => .ParsedLiteralBlock
  | .Pending => .Pending
  | .Problematic => .Problematic
  | .Raw => .Raw
  | .Reference .. => .Reference
  | .Revision => .Revision
  | .Row => .Row
  | .Rubric .. => .Rubric
  | .Section .. => .Section
  | .Sidebar .. => .Sidebar
  | .Status => .Status
  | .StrongEmphasis .. => .StrongEmphasis
  | .Subscript .. => .Subscript
  | .SubstitutionDefinition => .SubstitutionDefinition
  | .SubstitutionReference .. => .SubstitutionReference
  | .Subtitle => .Subtitle
  | .Superscript .. => .Superscript
  | .SystemMessage => .SystemMessage
  | .Table .. => .Table
  | .Target => .Target
  | .TBody => .TBody
  | .Term => .Term
  | .Text .. => .Text
  | .TGroup => .TGroup
  | .THead => .THead
  | .TRow => .TRow
  | .Title => .Title
  | .TitleReference .. => .TitleReference
  | .Topic .. => .Topic
  | .Transition => .Transition
  | .UnknownDirective .. => .UnknownDirective
  | .Version => .Version
  | .WhiteSpace .. => .WhiteSpace
  | .SphinxOnly .. => .SphinxOnly
  | .SphinxCodeBlock .. => .SphinxCodeBlock
  | .AplusPOI .. => .AplusPOI
  | .AplusColBreak => .AplusColBreak
  | .AplusQuestionnaire .. => .AplusQuestionnaire
  | .AplusPickOne .. => .AplusPickOne
  | .AplusPickAny .. => .AplusPickAny
  | .AplusFreeText .. => .AplusFreeText
  | .AplusPickChoices .. => .AplusPickChoices
  | .AplusPickChoice .. => .AplusPickChoice
  | .AplusQuestionnaireHints .. => .AplusQuestionnaireHints
  | .AplusQuestionnaireHint .. => .AplusQuestionnaireHint
  | .AplusSubmit .. => .AplusSubmit
  | .AplusActiveElementInput .. => .AplusActiveElementInput
  | .AplusActiveElementOutput .. => .AplusActiveElementOutput

/-- `NodeCategory`, `/repo/src/doctree/node_categories.rs` l.11-83. -/
inductive NodeCategory where
  | Root
  | Titular
  | PreBibliographic
  | Bibliographic
  | Decorative
  | Structural
  | CompoundStructural
  | SimpleStructural
  | SubStructural
  | Body
  | SubBody
  | SimpleSubBody
  | CompoundSubBody
  | SimpleBody
  | CompoundBody
  | Sequential
  | Special
  | Inline
  | Referential
  | Raw
  deriving DecidableEq, Repr

/-- `node_categories`, `/repo/src/doctree/tree_node_types.rs` l.1066-1197 with the constants of
`/repo/src/doctree/node_categories.rs`. -/
def Kind.categories : Kind → List NodeCategory
  | .Abbreviation => [.Inline]
  | .AbsoluteURI => [.Inline]
  | .Acronym => [.Inline]
  | .Address => [.Bibliographic]
  | .Admonition => [.Body, .CompoundBody]
  | .Attribution => [.SubBody, .SimpleSubBody]
  | .Author => [.Bibliographic]
  | .Authors => [.Bibliographic]
  | .AutomaticSectionNumbering => [.Inline]
  | .BlockQuote => [.Body, .CompoundBody]
  | .BulletList => [.Body, .CompoundBody]
  | .BulletListItem => [.SubBody, .CompoundSubBody]
  | .Caption => [.SubBody, .SimpleSubBody]
  | .Citation => [.Body, .CompoundBody]
  | .CitationReference => [.Inline]
  | .Class => [.Body, .CompoundBody]
  | .Classifier => [.SubBody, .SimpleSubBody]
  | .Code => [.Body, .SimpleBody]
  | .ColSpec => [.SubBody, .SimpleSubBody]
  | .Comment => [.Body, .SimpleBody]
  | .CompoundParagraph => [.Body, .CompoundBody]
  | .Contact => [.Bibliographic]
  | .Container => [.Body, .CompoundBody]
  | .Copyright => [.Bibliographic]
  | .CSVTable => []
  | .Date => [.Bibliographic]
  | .Decoration => [.SubStructural]
  | .Definition => [.SubBody, .CompoundSubBody]
  | .DefinitionList => [.Body, .CompoundBody]
  | .DefinitionListItem => [.SubBody, .CompoundSubBody]
  | .Description => [.SubBody, .CompoundSubBody]
  | .DocInfo => [.SubStructural]
  | .DoctestBlock => [.Body, .SimpleBody]
  | .Document => [.Root, .Structural, .CompoundStructural]
  | .Emphasis => [.Inline]
  | .EmptyLine => [.Structural, .SimpleStructural, .Body, .SimpleBody, .SubBody, .SimpleSubBody]
  | .Entry => [.SubBody, .CompoundSubBody]
  | .EnumeratedList => [.Body, .CompoundBody]
  | .EnumeratedListItem => [.SubBody, .CompoundSubBody]
  | .ExternalHyperlinkTarget => [.Body, .SimpleBody]
  | .Field => [.Bibliographic, .SubBody, .CompoundSubBody]
  | .FieldBody => [.SubBody, .CompoundSubBody]
  | .FieldList => [.Body, .CompoundBody]
  | .FieldListItem => [.SubBody, .CompoundSubBody]
  | .Figure => [.Body, .CompoundBody]
  | .Footer => [.Decorative]
  | .Footnote => [.Body, .CompoundBody]
  | .FootnoteReference => [.Inline]
  | .Generated => [.Inline]
  | .Header => [.Decorative]
  | .Image => [.Body, .SimpleBody, .Inline]
  | .Include => [.Body, .SimpleBody]
  | .IndirectHyperlinkTarget => [.Body, .SimpleBody]
  | .Inline => [.Inline]
  | .InlineTarget => []
  | .InterpretedText => [.Inline]
  | .Label => [.SubBody, .SimpleSubBody]
  | .Legend => [.SubBody, .CompoundSubBody]
  | .Line => [.SubBody, .SimpleSubBody]
  | .LineBlock => [.Body, .CompoundBody]
  | .ListTable => [.Body, .CompoundBody]
  | .Literal => [.Inline]
  | .LiteralBlock => [.Body, .SimpleBody]
  | .Math => [.Inline]
  | .MathBlock => [.Body, .SimpleBody]
  | .OptionList => [.Body, .CompoundBody]
  | .OptionListItem => [.SubBody, .CompoundSubBody]
  | .OptionString => [.SubBody, .SimpleSubBody]
  | .Organization => [.Bibliographic]
  | .Paragraph => [.Body, .SimpleBody]
  | .ParsedLiteralBlock => [.Body, .CompoundBody]
  | .Pending => [.Body, .SimpleBody]
  | .Problematic => [.Inline]
  | .Raw => [.Body, .SimpleBody]
  | .Reference => [.Inline, .Referential]
  | .Revision => [.Bibliographic]
  | .Row => [.SubBody, .CompoundSubBody]
  | .Rubric => [.Body, .SimpleBody]
  | .Section => [.Structural, .CompoundStructural, .Titular]
  | .Sidebar => [.Structural, .CompoundStructural]
  | .Status => [.Bibliographic]
  | .StrongEmphasis => [.Inline]
  | .Subscript => [.Inline]
  | .SubstitutionDefinition => [.Body, .SimpleBody]
  | .SubstitutionReference => [.Inline]
  | .Subtitle => [.SubStructural]
  | .Superscript => [.Inline]
  | .SystemMessage => [.Body, .CompoundBody]
  | .Table => [.Body, .CompoundBody]
  | .Target => [.Inline]
  | .TBody => [.SubBody, .CompoundSubBody]
  | .Term => [.SubBody, .SimpleSubBody]
  | .Text => [.Inline]
  | .TGroup => [.SubBody, .CompoundSubBody]
  | .THead => [.SubBody, .CompoundSubBody]
  | .TRow => [.SubBody, .CompoundSubBody]
  | .Title => [.SubStructural]
  | .TitleReference => [.Inline]
  | .Topic => [.Structural]
  | .Transition => [.Structural]
  | .UnknownDirective => [.Body, .CompoundBody]
  | .Version => [.Bibliographic]
  | .WhiteSpace => [.Inline]
  | .SphinxOnly => [.Body, .CompoundBody]
  | .SphinxCodeBlock => [.Body, .SimpleBody]
  | .AplusPOI => [.Body, .CompoundBody]
  | .AplusColBreak => []
  | .AplusQuestionnaire => [.Body, .CompoundBody]
  | .AplusPickOne => [.SubBody, .CompoundSubBody]
  | .AplusPickAny => [.SubBody, .CompoundSubBody]
  | .AplusFreeText => [.SubBody, .CompoundSubBody]
  | .AplusPickChoices => [.SubBody, .CompoundSubBody]
  | .AplusPickChoice => [.SubBody, .SimpleSubBody]
  | .AplusQuestionnaireHints => [.SubBody, .CompoundSubBody]
  | .AplusQuestionnaireHint => [.SubBody, .SimpleSubBody]
  | .AplusSubmit => [.Body, .CompoundBody]
  | .AplusActiveElementInput => [.Body, .SimpleBody]
  | .AplusActiveElementOutput => [.Body, .SimpleBody]

/-- `body_indent`, `/repo/src/doctree/tree_node_types.rs` l.930-1061. -/
def NodeType.bodyIndent : NodeType → Option Nat
  | .Admonition (content_indent := n) .. => some n
  | .BlockQuote (body_indent := n) .. => some n
  | .BulletList (bullet_indent := n) .. => some n
  | .BulletListItem (text_indent := n) .. => some n
  | .Citation (body_indent := n) .. => some n
  | .Class (body_indent := n) .. => some n
  | .CompoundParagraph (body_indent := n) .. => some n
  | .Container (body_indent := n) .. => some n
  | .DefinitionList (term_indent := n) .. => some n
  | .DefinitionListItem (body_indent := n) .. => some n
  | .Document => some 0
  | .EnumeratedList (enumerator_indent := n) .. => some n
  | .EnumeratedListItem (text_indent := n) .. => some n
  | .FieldList (marker_indent := n) .. => some n
  | .FieldListItem (body_indent := n) .. => some n
  | .Figure (body_indent := n) .. => some n
  | .Footer (body_indent := n) .. => some n
  | .Footnote (body_indent := n) .. => some n
  | .Header (body_indent := n) .. => some n
  | .Legend (body_indent := n) .. => some n
  | .ListTable (body_indent := n) .. => some n
  | .OptionList (option_indent := n) .. => some n
  | .OptionListItem (body_indent := n) .. => some n
  | .Paragraph (indent := n) .. => some n
  | .Section .. => some 0
  | .Sidebar (body_indent := n) .. => some n
  | .UnknownDirective (body_indent := n) .. => some n
  | .SphinxOnly (body_indent := n) .. => some n
  | .AplusPOI (body_indent := n) .. => some n
  | .AplusQuestionnaire (body_indent := n) .. => some n
  | .AplusPickOne (body_indent := n) .. => some n
  | .AplusPickAny (body_indent := n) .. => some n
  | .AplusFreeText (body_indent := n) .. => some n
  | .AplusPickChoices (body_indent := n) .. => some n
  | .AplusQuestionnaireHints (body_indent := n) .. => some n
  | .AplusSubmit (body_indent := n) .. => some n
  | _ => none

/-- What `child_is_allowed` answers for a parent: a list of categories and of kinds that are accepted, or a
`todo!()` panic.  `/repo/src/doctree/tree_node.rs` l.155-998. -/
inductive ChildRule where
  | accept (cats : List NodeCategory) (kinds : List Kind)
  | todo

/-- The match of `child_is_allowed`, `/repo/src/doctree/tree_node.rs` l.152-999. -/
def Kind.childRule : Kind → ChildRule
  | .Abbreviation => .accept [.Inline] []
  | .AbsoluteURI => .accept [] []
  | .Acronym => .accept [] []
  | .Address => .accept [.Inline] []
  | .Admonition => .accept [.Body] []
  | .Attribution => .accept [.Inline] []
  | .Author => .accept [.Inline] []
  | .Authors => .accept [.Inline] []
  | .AutomaticSectionNumbering => .accept [] []
  | .BlockQuote => .accept [.Body] [.Attribution]
  | .BulletList => .accept [] [.EmptyLine, .BulletListItem]
  | .BulletListItem => .accept [.Body] []
  | .Caption => .accept [.Inline] []
  | .Citation => .accept [.Body] []
  | .CitationReference => .accept [] []
  | .Class => .accept [.Body] []
  | .Classifier => .accept [.Inline] []
  | .Code => .accept [.Inline] []
  | .ColSpec => .accept [] []
  | .Comment => .accept [.Body] []
  | .CompoundParagraph => .accept [.Body] []
  | .Contact => .accept [] []
  | .Container => .accept [.Body] []
  | .Copyright => .accept [.Inline] []
  | .CSVTable => .todo
  | .Date => .accept [.Inline] []
  | .Decoration => .accept [] [.Footer, .Header]
  | .Definition => .accept [.Body] []
  | .DefinitionList => .accept [] [.EmptyLine, .DefinitionListItem]
  | .DefinitionListItem => .accept [.Body] []
  | .Description => .accept [.Body] []
  | .DocInfo => .accept [.Bibliographic] []
  | .DoctestBlock => .accept [.Inline] []
  | .Document => .accept [.Structural, .SubStructural, .Body] []
  | .Emphasis => .accept [] []
  | .EmptyLine => .accept [] []
  | .Entry => .accept [.Body] []
  | .EnumeratedList => .accept [] [.EmptyLine, .EnumeratedListItem]
  | .EnumeratedListItem => .accept [.Body] []
  | .ExternalHyperlinkTarget => .accept [] []
  | .Field => .todo
  | .FieldBody => .todo
  | .FieldList => .accept [] [.EmptyLine, .FieldListItem]
  | .FieldListItem => .accept [.Body] []
  | .Figure => .accept [.Body] [.Caption, .Legend]
  | .Footer => .accept [.Body] []
  | .Footnote => .accept [.Body] []
  | .FootnoteReference => .todo
  | .Generated => .todo
  | .Header => .accept [.Body] []
  | .Image => .accept [] []
  | .Include => .accept [] []
  | .IndirectHyperlinkTarget => .accept [] []
  | .Inline => .accept [] []
  | .InlineTarget => .accept [] []
  | .InterpretedText => .accept [] []
  | .Label => .todo
  | .Legend => .accept [.Body] []
  | .Line => .accept [.Inline] []
  | .LineBlock => .accept [] [.EmptyLine, .Line]
  | .ListTable => .accept [] [.BulletList]
  | .Literal => .accept [] []
  | .LiteralBlock => .accept [.Inline] []
  | .Math => .accept [] []
  | .MathBlock => .accept [] []
  | .OptionList => .accept [] [.EmptyLine, .OptionListItem]
  | .OptionListItem => .accept [.Body] []
  | .OptionString => .todo
  | .Organization => .accept [.Inline] []
  | .Paragraph => .accept [.Inline] []
  | .ParsedLiteralBlock => .accept [.Inline] []
  | .Pending => .todo
  | .Problematic => .todo
  | .Raw => .todo
  | .Reference => .accept [] []
  | .Revision => .accept [.Inline] []
  | .Row => .todo
  | .Rubric => .accept [] []
  | .Section => .accept [.Body] [.Transition, .Section, .Topic, .Sidebar]
  | .Sidebar => .accept [.Body] [.Topic]
  | .Status => .accept [.Inline] []
  | .StrongEmphasis => .accept [] []
  | .Subscript => .accept [.Inline] []
  | .SubstitutionDefinition => .accept [] []
  | .SubstitutionReference => .accept [] []
  | .Subtitle => .accept [.Inline] []
  | .Superscript => .accept [.Inline] []
  | .SystemMessage => .todo
  | .Table => .todo
  | .Target => .accept [] []
  | .TBody => .todo
  | .Term => .todo
  | .Text => .accept [] []
  | .TGroup => .todo
  | .THead => .todo
  | .TRow => .accept [] [.Entry]
  | .Title => .accept [.Inline] []
  | .TitleReference => .accept [] []
  | .Topic => .accept [.Inline] []
  | .Transition => .todo
  | .UnknownDirective => .accept [.Body] []
  | .Version => .accept [] []
  | .WhiteSpace => .accept [] []
  | .SphinxOnly => .accept [.Body] []
  | .SphinxCodeBlock => .accept [] []
  | .AplusPOI => .accept [.Body] [.AplusColBreak]
  | .AplusColBreak => .accept [] []
  | .AplusQuestionnaire => .accept [] [.EmptyLine, .Paragraph, .AplusPickOne, .AplusPickAny, .AplusFreeText]
  | .AplusPickOne => .accept [] [.Paragraph, .AplusPickChoices, .AplusQuestionnaireHints]
  | .AplusPickAny => .accept [] [.Paragraph, .AplusPickChoices, .AplusQuestionnaireHints]
  | .AplusFreeText => .accept [] [.Paragraph, .AplusPickChoices, .AplusQuestionnaireHints]
  | .AplusPickChoices => .accept [] [.AplusPickChoice]
  | .AplusPickChoice => .accept [.Inline] []
  | .AplusQuestionnaireHints => .accept [] [.AplusQuestionnaireHint]
  | .AplusQuestionnaireHint => .accept [.Inline] []
  | .AplusSubmit => .accept [.Body] []
  | .AplusActiveElementInput => .accept [] []
  | .AplusActiveElementOutput => .accept [] []

/-- `child_is_allowed`, `/repo/src/doctree/tree_node.rs` l.152-999. -/
def childIsAllowed (parent child : Kind) : Run Bool :=
  match parent.childRule with
  | .todo => .error (.todo "tree_node.rs child_is_allowed")
  | .accept cats kinds => .ok (child.categories.any (cats.contains ·) || kinds.contains child)

/-- `children_or_none`, `/repo/src/doctree/tree_node.rs` l.40-60: may a node of this kind have children at all? -/
def Kind.hasChildren (k : Kind) : Bool :=
  k.categories.any (fun c => c == .CompoundStructural || c == .CompoundBody || c == .CompoundSubBody) ||
  k == .Paragraph || k == .AplusPickChoice || k == .AplusQuestionnaireHint

end Rustla
