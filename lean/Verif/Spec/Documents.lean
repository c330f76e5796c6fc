import Verif.Spec.Plain
import Verif.Spec.Explicit
import Verif.Spec.Markup
import Verif.Spec.Leaves
import Verif.Spec.Questions
import Verif.Spec.Quotes
import Verif.Spec.Marks
import Verif.Spec.Terms
import Verif.Spec.Notes
import Verif.Spec.Targets
import Verif.Model.Common
import Verif.Model.Latex
/-!
# Specification of documents made of paragraphs, lists, block quotes, comments, directives and sections

The documents are given by their structure; `Blocks.lines` and `Paper.lines` write them down as lines of text, and
`Blocks.shapes` and `Paper.shape` are the trees they stand for.
-/
namespace Rustla.Spec

mutual
/-- A sequence of paragraphs, lists, block quotes, comments and directives. -/
inductive Blocks where
  | nil
  /-- A paragraph with its lines, the pieces they are made of, the blank lines behind it, and the rest. -/
  | para (g : List Str) (ps : List Piece) (gap : List Str) (rest : Blocks)
  /-- A list with its items, and the rest. -/
  | list (items : Items) (rest : Blocks)
  /-- A comment or a directive without blocks in it, the blank lines behind it, and the rest. -/
  | leaf (L : Leaf) (gap : List Str) (rest : Blocks)
  /-- A directive with the blank lines behind its options, the blocks in it, and the rest. -/
  | box (X : Box) (gap : List Str) (body : Blocks) (rest : Blocks)
  /-- A part with contents of its own, and the rest. -/
  | part (X : Part) (rest : Blocks)
  /-- A block quote, whose blocks are indented by `k + 1` more spaces, its attribution, and the rest. -/
  | quote (k : Nat) (body : Blocks) (sign : Option Signature) (rest : Blocks)
  /-- A definition list, and the rest. -/
  | defs (D : Defs) (rest : Blocks)
  /-- A footnote with a number or a citation, with its first paragraph, the blank lines behind it and its other blocks, and the rest. -/
  | note (N : Note) (g : List Str) (ps : List Piece) (gap : List Str) (body rest : Blocks)
  /-- An admonition with a fixed title whose first paragraph starts behind the marker, the blank lines behind the paragraph, the other
  blocks of the admonition, and the rest. -/
  | aside (name : Str) (g : List Str) (ps : List Piece) (gap : List Str) (body rest : Blocks)
  /-- Hyperlink targets and a directive with blocks, with the blank lines behind its options, the blocks in it, and the rest. -/
  | anchor (ts : List Target) (X : Box) (gap : List Str) (body rest : Blocks)
  /-- The directive `class` with the blank lines behind it, the blocks in it, and the rest. -/
  | classed (d : Dir) (gap : List Str) (body rest : Blocks)
/-- The items of a list. -/
inductive Items where
  | nil
  /-- An item with its mark, its first paragraph, the blank lines behind it and the other blocks of the item, and the other
  items. -/
  | item (m : Tag) (g : List Str) (ps : List Piece) (gap : List Str) (body : Blocks) (rest : Items)
/-- The terms of a definition list. -/
inductive Defs where
  | nil
  /-- A term with the blocks of its definition, and the other terms. -/
  | term (t : Term) (body : Blocks) (rest : Defs)
end

/-- The mark of the first item. -/
def Items.first : Items → Option Tag
  | .nil => none
  | .item m _ _ _ _ _ => some m

/-- The mark of the last item. -/
def Items.last : Items → Option Tag
  | .nil => none
  | .item m _ _ _ _ rest => rest.last.or (some m)

/-- The number of items. -/
def Items.count : Items → Nat
  | .nil => 0
  | .item _ _ _ _ _ rest => rest.count + 1

mutual
/-- The lines of a sequence of blocks at an indentation. -/
def Blocks.lines (i : Nat) : Blocks → List Str
  | .nil => []
  | .para g _ gap rest => g.map (indentLine i) ++ gap ++ rest.lines i
  | .list items rest => items.lines i ++ rest.lines i
  | .leaf L gap rest => L.lines i ++ gap ++ rest.lines i
  | .box X gap body rest => X.dir.lines i ++ gap ++ body.lines (i + 3) ++ rest.lines i
  | .classed d gap body rest => d.lines i ++ gap ++ body.lines (i + 3) ++ rest.lines i
  | .anchor ts X gap body rest => targetsAt i ts ++ X.dir.lines i ++ gap ++ body.lines (i + 3) ++ rest.lines i
  | .part X rest => X.lines i ++ rest.lines i
  | .quote k body sign rest => body.lines (i + (k + 1)) ++ signLines (i + (k + 1)) sign ++ rest.lines i
  | .defs D rest => D.lines i ++ rest.lines i
  | .note N g _ gap body rest => N.lines i g ++ gap ++ body.lines (i + N.wide) ++ rest.lines i
  | .aside name g _ gap body rest => asideLines i name g ++ gap ++ body.lines (i + 3) ++ rest.lines i
/-- The lines of the items of a list at an indentation. -/
def Items.lines (i : Nat) : Items → List Str
  | .nil => []
  | .item m g _ gap body rest => m.lines i g ++ gap ++ body.lines (i + m.width) ++ rest.lines i
/-- The lines of a definition list at an indentation: a definition starts on the line behind its term. -/
def Defs.lines (i : Nat) : Defs → List Str
  | .nil => []
  | .term t body rest => indentLine i t.text :: (body.lines (i + (t.deep + 1)) ++ rest.lines i)
end

/-- The node of a list with its first mark, the number of its items and their nodes. -/
def listShapes (i : Nat) (first : Option Tag) (count : Nat) (items : List Shape) : List Shape :=
  (first.map fun m => .node (m.list i count) items).toList

mutual
/-- The nodes that a sequence of blocks at an indentation stands for. -/
def Blocks.shapes (i : Nat) : Blocks → List Shape
  | .nil => []
  | .para _ ps _ rest => paragraphShape i ps :: rest.shapes i
  | .list items rest => listShapes i items.first items.count (items.shapes i) ++ rest.shapes i
  | .leaf L _ rest => (L.nodes.map fun n => .node n []) ++ rest.shapes i
  | .classed d _ body rest => .node (.Class (i + 3) [d.arg]) (body.shapes (i + 3) ++ body.shapes (i + 3)) :: rest.shapes i
  | .box X _ body rest => .node (X.node i) (X.kids.map (.node · []) ++ body.shapes (i + 3)) :: rest.shapes i
  | .anchor ts X _ body rest =>
    .labelled (X.node i) (ts.map Target.label) (X.kids.map (.node · []) ++ body.shapes (i + 3)) :: rest.shapes i
  | .part X rest => X.shapes i ++ rest.shapes i
  | .quote k body sign rest =>
    .node (.BlockQuote (i + (k + 1))) (body.shapes (i + (k + 1)) ++ signShapes sign) :: rest.shapes i
  | .defs D rest => .node (.DefinitionList i) (D.shapes i) :: rest.shapes i
  | .note N _ ps _ body rest =>
    .labelled (N.node i) [N.name] (paragraphShape (i + N.wide) ps :: body.shapes (i + N.wide)) :: rest.shapes i
  | .aside name _ ps _ body rest =>
    .node (asideNode i name) (paragraphShape (i + 3) ps :: body.shapes (i + 3)) :: rest.shapes i
/-- The nodes that the items of a list stand for. -/
def Items.shapes (i : Nat) : Items → List Shape
  | .nil => []
  | .item m _ ps _ body rest =>
    .node (m.item i) (paragraphShape (i + m.width) ps :: body.shapes (i + m.width)) :: rest.shapes i
/-- The nodes that the terms of a definition list stand for. -/
def Defs.shapes (i : Nat) : Defs → List Shape
  | .nil => []
  | .term t body rest => .node (t.node i) (body.shapes (i + (t.deep + 1))) :: rest.shapes i
end

mutual
/-- How deeply blocks are nested: how many lists, items, quotes, directives and notes contain each other. -/
def Blocks.height : Blocks → Nat
  | .nil => 0
  | .para _ _ _ rest => rest.height
  | .list items rest => max (items.height + 1) rest.height
  | .leaf _ _ rest => rest.height
  | .box _ _ body rest => max (body.height + 1) rest.height
  | .classed _ _ body rest => max (body.height + 1) rest.height
  | .anchor _ _ _ body rest => max (body.height + 1) rest.height
  | .part X rest => max X.cost rest.height
  | .quote _ body _ rest => max (body.height + 1) rest.height
  | .defs D rest => max (D.height + 1) rest.height
  | .note _ _ _ _ body rest => max (body.height + 1) rest.height
  | .aside _ _ _ _ body rest => max (body.height + 1) rest.height
/-- How deeply blocks are nested in items. -/
def Items.height : Items → Nat
  | .nil => 0
  | .item _ _ _ _ body rest => max (body.height + 1) rest.height
/-- How deeply blocks are nested in definitions. -/
def Defs.height : Defs → Nat
  | .nil => 0
  | .term _ body rest => max (body.height + 1) rest.height
end

mutual
/-- How many items, quotes, directives and notes contain each other, except in definition lists. -/
def Blocks.cost : Blocks → Nat
  | .nil => 0
  | .para _ _ _ rest => rest.cost
  | .list items rest => max items.cost rest.cost
  | .leaf _ _ rest => rest.cost
  | .box _ _ body rest => max (body.cost + 1) rest.cost
  | .classed _ _ body rest => max (body.cost + 1) rest.cost
  | .anchor _ _ _ body rest => max (body.cost + 1) rest.cost
  | .part X rest => max X.cost rest.cost
  | .quote _ body _ rest => max (body.cost + 1) rest.cost
  | .defs _ rest => rest.cost
  | .note _ _ _ _ body rest => max (body.cost + 1) rest.cost
  | .aside _ _ _ _ body rest => max (body.cost + 1) rest.cost
/-- How many items, quotes and directives contain each other in items. -/
def Items.cost : Items → Nat
  | .nil => 0
  | .item _ _ _ _ body rest => max (body.cost + 1) rest.cost
end

mutual
/-- Blocks without directives that contain blocks, without attributions, definition lists and notes, in which all blank lines are empty. -/
def Blocks.Tidy : Blocks → Prop
  | .nil => True
  | .para _ _ gap rest => (∀ l ∈ gap, l = []) ∧ rest.Tidy
  | .list items rest => items.Tidy ∧ rest.Tidy
  | .leaf L gap rest => L.Tidy ∧ (∀ l ∈ gap, l = []) ∧ rest.Tidy
  | .box .. => False
  | .classed .. => False
  | .anchor .. => False
  | .part X rest => X.Tidy ∧ rest.Tidy
  | .quote _ body sign rest => body.Tidy ∧ sign = none ∧ rest.Tidy
  | .defs .. => False
  | .note .. => False
  | .aside .. => False
/-- Items without directives that contain blocks, without attributions, definition lists and notes, in which all blank lines are empty. -/
def Items.Tidy : Items → Prop
  | .nil => True
  | .item _ _ _ gap body rest => (∀ l ∈ gap, l = []) ∧ body.Tidy ∧ rest.Tidy
end

/-- The mark of the first item if the blocks start with a list. -/
def Blocks.first : Blocks → Option Tag
  | .list items _ => items.first
  | _ => none

/-- A mark is not taken for the one of the next item. -/
def parted (last first : Option Tag) : Prop := ∀ m m', last = some m → first = some m' → ¬ m.joins m'

/-- Every item has the mark that follows the one before it. -/
def Items.chained : Items → Prop
  | .nil => True
  | .item m _ _ _ _ rest => (∀ m', rest.first = some m' → m.next m') ∧ rest.chained

/-- The last item has a number. -/
def Items.numbered (I : Items) : Prop := ∃ m, I.last = some m ∧ m.numbered

/-- The blocks start with a block quote, or with a line of two colons. -/
def Blocks.quoted : Blocks → Prop
  | .quote .. => True
  | .part X _ => X.Bare
  | _ => False

/-- The blocks start with a paragraph, and the line behind it is empty. -/
def Blocks.spaced : Blocks → Prop
  | .para _ _ gap _ => gap.head? = some []
  | _ => False

/-- The first term does not start like an attribution. -/
def Defs.Undashed : Defs → Prop
  | .nil => True
  | .term t _ _ => ¬ Dashed t.text

/-- No paragraph and no definition list of the sequence starts like an attribution. -/
def Blocks.Undashed : Blocks → Prop
  | .nil => True
  | .para g _ _ rest => UndashedLines g ∧ rest.Undashed
  | .list _ rest => rest.Undashed
  | .leaf _ _ rest => rest.Undashed
  | .box _ _ _ rest => rest.Undashed
  | .classed _ _ _ rest => rest.Undashed
  | .anchor _ _ _ _ rest => rest.Undashed
  | .part X rest => X.Undashed ∧ rest.Undashed
  | .quote _ _ _ rest => rest.Undashed
  | .defs D rest => D.Undashed ∧ rest.Undashed
  | .note _ _ _ _ _ rest => rest.Undashed
  | .aside _ _ _ _ _ rest => rest.Undashed

/-- The last line, if there is one, is blank. -/
def BlankLast (ls : List Str) : Prop := ∀ l, ls.getLast? = some l → isBlank l = true

mutual
/-- Well-formed blocks: paragraphs are separated from what follows them by a blank line; lists have
at least one item, the marks of their items follow each other, and a list does not continue the one before it; numbered items of one line are
separated by blank lines from what follows them, unless number signs follow each other; a comment or directive
is followed by a blank line, and a directive with blocks has options or contains at least one block; blocks that are read by a parser of their
own are tidy.  A block quote, or a line of two colons, follows a paragraph or a block quote with an attribution, or it is the first block of an item or
of a section; an attribution is surrounded by blank lines.  A definition list is followed by a paragraph.  The first
paragraph of a note is separated from its other blocks by a blank line.  An admonition whose text starts behind the marker has a second line
or a second block, which tells the indentation of its contents.  The directive `class` contains blocks and does not start with a list. -/
def Blocks.Ok : Blocks → Prop
  | .nil => True
  | .para g ps gap rest => Para g ps ∧ (∀ l ∈ gap, isBlank l = true) ∧ (gap = [] → rest = .nil) ∧ rest.Ok
  | .list items rest => items ≠ .nil ∧ items.Ok ∧ (items.chained ∧ ∀ m, items.first = some m → m.opens) ∧ parted items.last rest.first ∧
      (items.numbered → rest = .nil ∨ BlankLast (items.lines 0)) ∧ ¬ rest.quoted ∧ rest.Ok
  | .leaf L gap rest => L.Ok ∧ L.GapOk gap ∧ ¬ rest.quoted ∧ rest.Ok
  | .box X gap body rest => X.Ok ∧ gap ≠ [] ∧ (∀ l ∈ gap, isBlank l = true) ∧
      (body = .nil → X.apart = false ∧ X.dir.opts ≠ []) ∧ (X.apart = true → body.Tidy) ∧
      ¬ body.quoted ∧ body.Ok ∧ ¬ rest.quoted ∧ rest.Ok
  | .classed d gap body rest => d.Ok ∧ d.key = str! "class" ∧ d.arg ≠ [] ∧ d.opts = [] ∧ gap ≠ [] ∧ (∀ l ∈ gap, isBlank l = true) ∧
      body ≠ .nil ∧ body.Tidy ∧ body.first = none ∧ ¬ body.quoted ∧ body.Ok ∧ ¬ rest.quoted ∧ rest.Ok
  | .anchor ts X gap body rest => (ts ≠ [] ∧ ∀ t ∈ ts, t.Ok) ∧ X.Ok ∧ X.apart = false ∧ gap ≠ [] ∧ (∀ l ∈ gap, isBlank l = true) ∧
      (body = .nil → X.dir.opts ≠ []) ∧ ¬ body.quoted ∧ body.Ok ∧ ¬ rest.quoted ∧ rest.Ok
  | .part X rest => X.Ok ∧ ¬ rest.quoted ∧ rest.Ok
  | .quote _ body sign rest => body ≠ .nil ∧ ¬ body.quoted ∧ body.Undashed ∧ body.Ok ∧
      (sign = none → ¬ rest.quoted) ∧
      (∀ s, sign = some s → s.Ok ∧ BlankLast (body.lines 0) ∧ (s.after = [] → rest = .nil)) ∧ rest.Ok
  | .defs D rest => D ≠ .nil ∧ D.Ok ∧ rest.spaced ∧ rest.Ok
  | .note N g ps gap body rest => N.Ok (g.length = 1 ∧ body = .nil) ∧ Para g ps ∧ (∀ l ∈ gap, isBlank l = true) ∧ (gap = [] → body = .nil) ∧
      ¬ body.quoted ∧ body.Ok ∧ ¬ rest.quoted ∧ rest.Ok
  | .aside name g ps gap body rest => AsideOk name g ∧ Para g ps ∧ gap ≠ [] ∧ (∀ l ∈ gap, l = []) ∧ (g.length = 1 → body ≠ .nil) ∧
      body.Tidy ∧ ¬ body.quoted ∧ body.Ok ∧ ¬ rest.quoted ∧ rest.Ok
/-- Well-formed items: the first paragraph of an item is separated from its other blocks by a blank line.  Numbered items are read by a
parser of their own. -/
def Items.Ok : Items → Prop
  | .nil => True
  | .item m g ps gap body rest => m.Ok g ∧ Para g ps ∧ (∀ l ∈ gap, isBlank l = true) ∧ (gap = [] → body = .nil) ∧
      (m.numbered → (gap = [] → g.length = 1 → ∀ m', rest.first = some m' → m.signs m') ∧ body.Tidy) ∧ body.Ok ∧ rest.Ok
/-- Well-formed definition lists: every term has a definition. -/
def Defs.Ok : Defs → Prop
  | .nil => True
  | .term t body rest => t.Ok ∧ body ≠ .nil ∧ ¬ body.quoted ∧ body.Ok ∧ rest.Ok
end

/-! ## Transitions -/

/-- A transition: a line of equal characters, and the blank lines behind it. -/
structure Rule where
  char : Char
  len : Nat
  gap : List Str

/-- The line of a transition. -/
def Rule.line (r : Rule) : Str := List.replicate r.len r.char

/-- The lines of some transitions and of the blocks behind them. -/
def ruledLines (more : List (Rule × Blocks)) : List Str := (more.map fun x => x.1.line :: (x.1.gap ++ x.2.lines 0)).flatten

/-- The nodes of some transitions and of the blocks behind them: every transition becomes a node, and its blocks follow it. -/
def ruledShapes (more : List (Rule × Blocks)) : List Shape := (more.map fun x => .node .Transition [] :: x.2.shapes 0).flatten

/-- The lines behind the last title or transition, of which the given ones are behind the title. -/
def tailLines : List Str → List (Rule × Blocks) → List Str
  | before, [] => before
  | _, x :: more => tailLines (x.1.gap ++ x.2.lines 0) more

/-- There is a last line, and it is blank. -/
def BlankBefore (ls : List Str) : Prop := ∃ l, ls.getLast? = some l ∧ isBlank l = true

/-- Well-formed transitions behind some lines: at least four characters between blank lines.  They do not consist of colons, which
would be a field list. -/
def ruledOk : List Str → List (Rule × Blocks) → Prop
  | _, [] => True
  | before, x :: more => BlankBefore before ∧ (x.1.char ∈ adornments ∧ x.1.char ≠ ':' ∧ 4 ≤ x.1.len) ∧
      (x.1.gap ≠ [] ∧ ∀ l ∈ x.1.gap, isBlank l = true) ∧ x.2.Ok ∧ ruledOk (x.1.gap ++ x.2.lines 0) more

/-! ## Sections -/

/-- A section: its title, the character of the lines below (and above) the title and their length, the blank lines behind
the title, the blocks of the section up to the next title or transition, the transitions in it with the blocks behind them, and the hyperlink
targets before the title. -/
structure Sec where
  title : Str
  char : Char
  over : Bool
  len : Nat
  gap : List Str
  body : Blocks
  more : List (Rule × Blocks) := []
  targets : List Target := []

/-- The style of the title of a section. -/
def Sec.style (s : Sec) : SectionLineStyle := if s.over then .OverAndUnder s.char else .Under s.char

/-- The lines of the title of a section. -/
def Sec.heading (s : Sec) : List Str :=
  (if s.over then [List.replicate s.len s.char] else []) ++ [s.title, List.replicate s.len s.char]

/-- The lines of a section. -/
def Sec.lines (s : Sec) : List Str :=
  targetLines s.targets ++ s.heading ++ s.gap ++ s.body.lines 0 ++ ruledLines s.more

/-- The labels of a section: those of the targets before it, and its title. -/
def Sec.labels (s : Sec) : List Str := s.targets.map Target.label ++ [normalizeRefname (trim s.title)]

/-- The blocks of a section, in pieces between its transitions. -/
def Sec.bodies (s : Sec) : List Blocks := s.body :: s.more.map (·.2)

/-- Well-formed sections; a line above the title is at least as long as the title and at least three characters long, and
does not consist of colons, which would be a field list. -/
def Sec.Ok (s : Sec) : Prop :=
  FirstLine s.title ∧ s.char ∈ adornments ∧ 1 ≤ s.len ∧
  (s.over = true → s.char ≠ ':' ∧ 3 ≤ s.len ∧ (trimEnd s.title).length ≤ s.len) ∧
  (∀ l ∈ s.gap, isBlank l = true) ∧ s.body.Ok ∧ ruledOk (s.gap ++ s.body.lines 0) s.more ∧
  ∀ t ∈ s.targets, t.Ok

/-- Every section with the level of its style: the position of the style in the order of first appearance.  The first
argument is the list of the styles that have appeared already. -/
def withLevels : List SectionLineStyle → List Sec → List (Nat × Sec)
  | _, [] => []
  | seen, s :: secs =>
    (seen.idxOf s.style + 1, s) :: withLevels (if s.style ∈ seen then seen else seen ++ [s.style]) secs

theorem length_dropWhile_le {α : Type} (p : α → Bool) (l : List α) : (l.dropWhile p).length ≤ l.length := by
  induction l with
  | nil => simp
  | cons a l ih => rw [List.dropWhile_cons]; split <;> simp <;> omega

/-- The nodes of a list of sections with levels: a section contains its blocks and the sections behind it up to the next one
whose level is not greater than its own. -/
def forest : List (Nat × Sec) → List Shape
  | [] => []
  | (l, s) :: rest =>
    .labelled (.Section (trim s.title) l s.style) s.labels
      (s.body.shapes 0 ++ ruledShapes s.more ++ forest (rest.takeWhile fun r => decide (l < r.1))) ::
      forest (rest.dropWhile fun r => decide (l < r.1))
termination_by secs => secs.length
decreasing_by
  · have := (List.takeWhile_sublist (fun r : Nat × Sec => decide (l < r.1)) (l := rest)).length_le
    simp only [List.length_cons]; omega
  · have := length_dropWhile_le (fun r : Nat × Sec => decide (l < r.1)) rest
    simp only [List.length_cons]; omega

/-- A document: blank lines, the blocks before the first title or transition, the sections, and the transitions before the first
title with the blocks behind them. -/
structure Paper where
  lead : List Str
  pre : Blocks
  secs : List Sec
  more : List (Rule × Blocks) := []

/-- The lines of a document. -/
def Paper.lines (p : Paper) : List Str := p.lead ++ p.pre.lines 0 ++ ruledLines p.more ++ (p.secs.map Sec.lines).flatten

/-- The blocks of a document, in pieces between its titles and transitions. -/
def Paper.bodies (p : Paper) : List Blocks := p.pre :: p.more.map (·.2) ++ (p.secs.map Sec.bodies).flatten

/-- The tree that a document stands for. -/
def Paper.shape (p : Paper) : Shape := .node .Document (p.pre.shapes 0 ++ ruledShapes p.more ++ forest (withLevels [] p.secs))

/-- How deeply blocks are nested in a document. -/
def Paper.height (p : Paper) : Nat := (p.bodies.map Blocks.height).foldr max 0

/-- How many items, quotes and directives contain each other in a document. -/
def Paper.cost (p : Paper) : Nat := (p.bodies.map Blocks.cost).foldr max 0

/-- The number of different title styles. -/
def Paper.styles (p : Paper) : Nat := ((p.secs.map Sec.style).foldl (fun seen x => if x ∈ seen then seen else seen ++ [x]) []).length

/-- The blocks before every title end with a blank line. -/
def gapsBefore : List Str → List Sec → Prop
  | _, [] => True
  | before, s :: secs => BlankLast before ∧ gapsBefore (tailLines (s.body.lines 0) s.more) secs

/-- Well-formed documents.  The parser gives up after ten rounds without progress, which limits how deeply blocks and sections
can be nested. -/
def Paper.Ok (p : Paper) : Prop :=
  (∀ l ∈ p.lead, isBlank l = true) ∧ p.pre.Ok ∧ ruledOk (p.lead ++ p.pre.lines 0) p.more ∧ (∀ s ∈ p.secs, s.Ok) ∧
  gapsBefore (tailLines (p.pre.lines 0) p.more) p.secs ∧
  p.height ≤ 8 ∧ p.cost + p.styles ≤ 9

/-! ## The output -/

/-- The text of a list in the output. -/
def listLatex (first : Option Tag) (items : Str) : Str :=
  match first with
  | none => []
  | some m => str! "\\begin{" ++ m.environment ++ str! "}\n" ++ items ++ str! "\\end{" ++ m.environment ++ str! "}\n\n"

mutual
/-- The text of a sequence of blocks at an indentation in the output; if it is the body of a figure and starts with a paragraph, then that
paragraph is the caption. -/
def Blocks.text (w : WriterEnv) (i : Nat) (figure : Bool) : Blocks → Str
  | .nil => []
  | .para _ ps _ rest => (if figure then captionLatex ps else paragraphLatex ps) ++ rest.text w i false
  | .list items rest => listLatex items.first (items.latex w i) ++ rest.text w i false
  | .leaf L _ rest => L.latex w ++ rest.text w i false
  | .box X _ body rest => X.opening w ++ body.text w (i + 3) X.isFigure ++ X.closing ++ rest.text w i false
  | .classed _ _ body rest => body.text w (i + 3) false ++ body.text w (i + 3) false ++ rest.text w i false
  | .anchor ts X _ body rest => X.opening w ++ body.text w (i + 3) X.isFigure ++ X.anchoredClosing (ts.map Target.label) ++ rest.text w i false
  | .part X rest => X.latex w figure ++ rest.text w i false
  | .quote k body sign rest => str! "\\begin{quotation}\n" ++ body.text w (i + (k + 1)) false ++ signLatex sign ++
      str! "\\end{quotation}\n\n" ++ rest.text w i false
  | .defs D rest => str! "\\begin{itemize}\n" ++ D.latex w i ++ str! "\\end{itemize}\n\n" ++ rest.text w i false
  | .note N _ ps _ body rest => N.opening ++ paragraphLatex ps ++ body.text w (i + N.wide) false ++
      N.closing ++ rest.text w i false
  | .aside name _ ps _ body rest => str! "\\begin{" ++ toLower name ++ str! "}\n" ++ paragraphLatex ps ++ body.text w (i + 3) false ++
      str! "\\end{" ++ toLower name ++ str! "}\n\n" ++ rest.text w i false
/-- The text of the items of a list in the output. -/
def Items.latex (w : WriterEnv) (i : Nat) : Items → Str
  | .nil => []
  | .item m _ ps _ body rest => m.opening ++ paragraphLatex ps ++ body.text w (i + m.width) false ++ m.closing ++ rest.latex w i
/-- The text of the terms of a definition list in the output. -/
def Defs.latex (w : WriterEnv) (i : Nat) : Defs → Str
  | .nil => []
  | .term t body rest => t.latex i ++ body.text w (i + (t.deep + 1)) false ++ str! "\n" ++ rest.latex w i
end

/-- The text of a sequence of blocks that is not the body of a figure. -/
abbrev Blocks.latex (w : WriterEnv) (i : Nat) (B : Blocks) : Str := B.text w i false

/-- The text of some transitions and of the blocks behind them in the output. -/
def ruledLatex (w : WriterEnv) (more : List (Rule × Blocks)) : Str :=
  (more.map fun x => str! "\\hrulefill\n\n" ++ x.2.latex w 0).flatten

/-- The command for the title of a section of a level. -/
def titleCommand : Nat → Str
  | 1 => str! "chapter"
  | 2 => str! "section"
  | 3 => str! "subsection"
  | _ => str! "subsubsection"

/-- The text of a section with a level up to the next title in the output: its labels, the title and the blocks. -/
def Sec.latex (w : WriterEnv) (level : Nat) (s : Sec) : Str :=
  (s.labels.map fun l => str! "\\rstlabel{" ++ l ++ str! "}\n").flatten ++
  str! "\\" ++ titleCommand level ++ str! "{" ++ trim s.title ++ str! "}\n\n" ++ s.body.latex w 0 ++ ruledLatex w s.more

/-- The output for a document: everything in the order of the source. -/
def Paper.latex (w : WriterEnv) (p : Paper) : Str :=
  p.pre.latex w 0 ++ ruledLatex w p.more ++ ((withLevels [] p.secs).map fun r => r.2.latex w r.1).flatten

end Rustla.Spec
