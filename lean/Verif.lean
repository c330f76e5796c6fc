import Verif.Model.Basic
import Verif.Model.Options
import Verif.Model.Latex
import Verif.Model.Common
import Verif.Model.DocTree
import Verif.Props.Options
import Verif.Props.Latex
import Verif.Props.Names
import Verif.Props.Zipper
import Verif.Props.Structure
import Verif.Props.Labels
import Verif.Props.Pending
import Verif.Model.Lines
import Verif.Model.Unicode
import Verif.Model.Regex
import Verif.Model.Patterns
import Verif.Model.Converters
import Verif.Props.Lines
import Verif.Props.Converters
import Verif.Props.Enumerated
import Verif.Model.Inline
import Verif.Props.Inline
import Verif.Model.ParserLoop
import Verif.Model.ParserPrims
import Verif.Props.Loop
import Verif.Props.References
import Verif.Model.Directives
import Verif.Model.Body
import Verif.Model.Parser
import Verif.Spec.Outline
import Verif.Props.Parsed
import Verif.Props.Counts
import Verif.Props.ParserLoop
import Verif.Model.Writer
import Verif.Model.Transforms
import Verif.Model.Program
import Verif.Spec.Tour
import Verif.Props.MadeKinds
import Verif.Props.Writer
import Verif.Props.Transforms
import Verif.Spec.Environments
import Verif.Lemmas.Environments
import Verif.Props.WriterText
import Verif.Props.Writable
import Verif.Props.Environments
import Verif.Spec.Fields
import Verif.Spec.Blocks
import Verif.Lemmas.Fields
import Verif.Props.Scanners
import Verif.Spec.Inline
import Verif.Spec.Plain
import Verif.Lemmas.Forward
import Verif.Lemmas.PlainLines
import Verif.Lemmas.Paragraphs
import Verif.Props.Paragraphs
import Verif.Spec.Crashes
import Verif.Lemmas.Safe
import Verif.Lemmas.Sizes
import Verif.Lemmas.SafeDirectives
import Verif.Lemmas.SafeNested
import Verif.Lemmas.SafeBody
import Verif.Lemmas.Refines
import Verif.Lemmas.SafeLoop
import Verif.Lemmas.TransformErrors
import Verif.Props.Termination
import Verif.Spec.Documents
import Verif.Lemmas.IndentedLines
import Verif.Lemmas.Frames
import Verif.Lemmas.Items
import Verif.Lemmas.Runs
import Verif.Lemmas.Widths
import Verif.Lemmas.Tables
import Verif.Lemmas.Anchors
import Verif.Lemmas.Unwind
import Verif.Lemmas.Rules
import Verif.Lemmas.Headings
import Verif.Lemmas.Forests
import Verif.Props.Documents
import Verif.Spec.Markup
import Verif.Lemmas.Spans
import Verif.Lemmas.Calm
import Verif.Lemmas.Roles
import Verif.Lemmas.Refs
import Verif.Lemmas.Urls
import Verif.Lemmas.Mails
import Verif.Lemmas.Behind
import Verif.Props.Markup
import Verif.Spec.Checks
import Verif.Props.Formulas
import Verif.Model.Driver
import Verif.Spec.Driver
import Verif.Lemmas.Driver
import Verif.Props.Driver
import Verif.Spec.Explicit
import Verif.Lemmas.Rel
import Verif.Lemmas.Explicit
import Verif.Lemmas.Scan
import Verif.Spec.Leaves
import Verif.Spec.Bare
import Verif.Spec.Literals
import Verif.Lemmas.Leaves
import Verif.Lemmas.Nested
import Verif.Lemmas.First
import Verif.Lemmas.Boxes
import Verif.Lemmas.Asides
import Verif.Lemmas.Classes
import Verif.Lemmas.Layout
import Verif.Lemmas.Marks
import Verif.Lemmas.Marked
import Verif.Lemmas.Terms
import Verif.Lemmas.Notes
import Verif.Props.Directives
import Verif.Spec.Paragraphs
import Verif.Spec.Tables
import Verif.Spec.Questions
import Verif.Lemmas.Back
import Verif.Lemmas.Columns
import Verif.Lemmas.Empty
import Verif.Lemmas.Separators
import Verif.Lemmas.Questions
import Verif.Lemmas.Quizzes
import Verif.Lemmas.Literals
import Verif.Props.Questionnaires
import Verif.Props.Literals
import Verif.Spec.Quotes
import Verif.Lemmas.Quotes
import Verif.Props.Quotes
import Verif.Spec.Lists
import Verif.Spec.Terms
import Verif.Spec.Notes
import Verif.Props.Lists
import Verif.Props.Definitions
import Verif.Props.Notes
import Verif.Props.Rules
import Verif.Spec.Targets
import Verif.Lemmas.Targets
import Verif.Props.Targets
import Verif.Props.Tables
import Verif.Spec.Numerals
import Verif.Lemmas.Counters
import Verif.Props.Program
import Verif.Props.Asides
import Verif.Props.Listings
import Verif.Props.Classes
import Verif.Props.Columns
import Verif.Props.Empty
import Verif.Props.Separators
import Verif.Props.Hidden
import Verif.Props.Aimed
import Verif.Props.DefinitionEnds
import Verif.Spec.Values
import Verif.Props.Values
import Verif.Spec.Unlisted
import Verif.Props.Unlisted
