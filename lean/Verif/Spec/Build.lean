import Verif.Spec.History
import Verif.Model.Body
import Mathlib.Logic.Relation
/-!
# How the parser builds documents

`Build d d'`: one step of document building as the parser makes them when a transition succeeds.  A step consists of the
operations that belong together: a question is added together with its points, an item of an enumerated list together with
the number of items, an empty paragraph is added and removed again.  `Loose d d'` are the smaller steps at which a
transition may fail.
-/
namespace Rustla

/-- Kinds of the nodes that inline parsing yields. -/
def inlineOutput : Kind → Bool
  | .Text | .WhiteSpace | .StrongEmphasis | .Emphasis | .Literal | .Math | .Reference | .Subscript | .Superscript
  | .TitleReference | .InterpretedText | .FootnoteReference | .CitationReference | .SubstitutionReference => true
  | _ => false

/-- Kinds of the nodes that the parser adds, other than sections, questions and items of enumerated lists. -/
def plainKind (k : Kind) : Bool :=
  inlineOutput k || match k with
  | .BlockQuote | .Paragraph | .BulletList | .BulletListItem | .EnumeratedList | .FieldList | .FieldListItem
  | .DefinitionList | .DefinitionListItem | .Footnote | .Citation | .Comment | .Transition | .Attribution | .LiteralBlock
  | .AplusColBreak | .Admonition | .Image | .Figure | .Code | .MathBlock | .ListTable | .Class | .SphinxCodeBlock
  | .SphinxOnly | .AplusQuestionnaire | .AplusPickChoices | .AplusPickChoice | .AplusQuestionnaireHints
  | .AplusQuestionnaireHint | .AplusSubmit | .AplusActiveElementInput | .AplusActiveElementOutput | .AplusPOI
  | .UnknownDirective => true
  | _ => false

/-- The counters of a new node are zero. -/
def newData : NodeType → Bool
  | .AplusQuestionnaire (points_from_children := n) .. => n == 0
  | .EnumeratedList (n_of_items := n) .. => n == 0
  | _ => true

/-- A new node, other than sections, questions and items of enumerated lists. -/
def plainData (data : NodeType) : Bool := plainKind data.kind && newData data

/-- The points of a question. -/
def questionPoints : NodeType → Option Nat
  | .AplusPickOne _ p _ _ _ _ => some p
  | .AplusPickAny _ p _ _ _ _ _ _ _ => some p
  | .AplusFreeText _ p _ _ _ _ _ _ _ => some p
  | _ => none

/-- A section with this title style may be opened in the focused node: it is the document or a section of a smaller
level. -/
def SectionFits (d : DocTree) (style : SectionLineStyle) : Prop :=
  d.sharedData.kind = .Document ∨ ∃ l, asSection d.sharedData = some l ∧ l < d.sections.levelOf style

/-- Changes of the bookkeeping that leave the tree alone. -/
inductive Quiet : DocTree → DocTree → Prop
  | internalTarget (d : DocTree) (l : Str) : Quiet d (d.pushInternalTarget l)
  | anonReference (d : DocTree) : Quiet d d.nextAnonReferenceLabel.2

/-- One step of document building. -/
inductive Build : DocTree → DocTree → Prop
  | quiet {d d' : DocTree} (h : Quiet d d') : Build d d'
  | anonTarget (d : DocTree) : Build d d.nextAnonTargetLabel.2
  | push {d d' : DocTree} {b : Bool} (data : NodeType) (hk : plainData data = true)
      (h : d.pushData data = .ok (b, d')) : Build d d'
  | pushFocus {d d' : DocTree} (data : NodeType) (hk : plainData data = true)
      (h : d.pushDataAndFocus data = .ok (true, d')) : Build d d'
  | pushNode {d d' : DocTree} (data : NodeType)
      (hk : data.kind = .ExternalHyperlinkTarget ∨ data.kind = .IndirectHyperlinkTarget)
      (h : d.pushChild (TreeNode.new data d.nodeCount none none) = .ok (true, d')) : Build d d'
  | parent {d d' : DocTree} (h : d.focusOnParent = .ok d') : Build d d'
  | openSection {d d' : DocTree} (title : Str) (style : SectionLineStyle) (hf : SectionFits d style)
      (h : d.pushDataAndFocus (d.newSectionData title style) = .ok (true, d')) : Build d d'
  | question {d d' : DocTree} (p : Nat) (data : NodeType) (hq : questionPoints data = some p)
      (h : (d.setNodeData (addPoints p d.sharedData)).pushDataAndFocus data = .ok (true, d')) : Build d d'
  | enumItem {d d' : DocTree} (data : NodeType) (hk : data.kind = .EnumeratedListItem)
      (h : (d.setNodeData (addItem d.sharedData)).pushDataAndFocus data = .ok (true, d')) : Build d d'
  | answer (d : DocTree) (a : Str) : Build d (d.setNodeData (addAnswer a d.sharedData))
  | widths (d : DocTree) (n : Nat) : Build d (d.setNodeData (setWidths n d.sharedData))
  | emptied {d d1 d2 d3 : DocTree} (i : Nat) (h1 : d.pushDataAndFocus (.Paragraph i) = .ok (true, d1))
      (h2 : Relation.ReflTransGen Quiet d1 d2) (h3 : d2.focusOnParent = .ok d3) : Build d d3.popChild.2

/-- Any number of steps of document building. -/
def Steps : DocTree → DocTree → Prop := Relation.ReflTransGen Build

/-- One step of document building, or a part of one. -/
inductive Loose : DocTree → DocTree → Prop
  | build {d d' : DocTree} (h : Build d d') : Loose d d'
  | refused {d d' : DocTree} (data : NodeType) (hk : data.kind ≠ .Section)
      (h : d.pushDataAndFocus data = .ok (false, d')) : Loose d d'
  | refusedNode {d d' : DocTree} (data : NodeType) (hk : data.kind ≠ .Section)
      (h : d.pushChild (TreeNode.new data d.nodeCount none none) = .ok (false, d')) : Loose d d'
  | refusedSection {d d' : DocTree} (title : Str) (style : SectionLineStyle)
      (h : d.pushDataAndFocus (d.newSectionData title style) = .ok (false, d')) : Loose d d'
  | fields (d : DocTree) (data : NodeType) (hk : data.kind = d.sharedData.kind)
      (hs : data.kind = .Section → data = d.sharedData) :
      Loose d (d.setNodeData data)

/-- Any number of loose steps. -/
def LooseSteps : DocTree → DocTree → Prop := Relation.ReflTransGen Loose

end Rustla
