import Verif.Props.Counts
/-!
# C29, C30, C31 for the transition tables of the program

The hypotheses of `Verif.Props.Loop` are discharged for the tables of `Verif.Model.Parser` with the nested parsers that the
program uses.
-/
namespace Rustla
open Spec Relation

/-- The parser of `/repo/src/parser/mod.rs` for given lines; its nested parsers may nest `depth` levels deep. -/
def concreteMachine (depth : Nat) (src : List Str) (base : Nat) : Machine :=
  machineOf { src := src, baseIndent := base, nested := parserOf depth }

theorem concrete_forward (depth : Nat) (src : List Str) (base : Nat) : (concreteMachine depth src base).Each Forward := by
  intro st ts ht r f hm m s v s' h
  obtain ⟨e, _⟩ := (table_good (parserOf_nestOk depth src base) ht (r, f) hm m s).1 v s' h
  exact ⟨e.offset, e.baseline⟩

theorem concrete_noEof (depth : Nat) (src : List Str) (base : Nat) : (concreteMachine depth src base).Each NoEof := by
  intro st ts ht r f hm m s l adv s' h hmem
  obtain ⟨_, e⟩ := (table_good (parserOf_nestOk depth src base) ht (r, f) hm m s).1 _ s' h
  have := e l rfl _ hmem
  cases this

/-- **C29 for the program.** The main loop of the parser, with the transition tables of the program, cannot go on for
ever, whatever the source, the state it starts in and the nesting of the source. -/
theorem C29_concrete_no_infinite_run (depth : Nat) (src : List Str) (base : Nat) :
    WellFounded (fun s' s => LoopStep (concreteMachine depth src base) s s') :=
  C29_no_infinite_run _ (concrete_forward depth src base)

/-- **C30 for the program (monotonicity).** -/
theorem C30_concrete_monotone (depth : Nat) (src : List Str) (base : Nat) {n : Nat} {s s' : LoopState}
    (h : LoopSteps (concreteMachine depth src base) n s s') : s.ps.cursor.sumTotal ≤ s'.ps.cursor.sumTotal :=
  C30_cursor_monotone _ (concrete_forward depth src base) h

/-- **C30 for the program (end of input).** If the parse of a document reports the end of its input, then all lines have
been consumed: the cursor is at or past the last line. -/
theorem C30_concrete_eof (fuel : Nat) (stem folder : Str) (lines : List Str) {d : DocTree} {stack : List State}
    (h : parseDocument (fuel + 1) stem folder lines = .ok (.eof d stack)) :
    ∃ k s, LoopSteps (concreteMachine fuel lines 0) k (LoopState.init (DocTree.new stem folder) 0 .Body 0) s ∧
      s.ps.doc = d ∧ lines.length ≤ s.ps.cursor.relativeOffset ∧ State.EOF ∉ stack :=
  C30_eof_only_at_end (concreteMachine fuel lines 0) (concrete_noEof fuel lines 0) _ 0 .Body (by simp) 0 h

/-- A document with a section, a list and a paragraph. -/
def sampleDocument : List Str :=
  [str! "Title", str! "=====", [], str! "- one", [], str! "- two", [], str! "text", []]

/-- The hypotheses of the theorems are met: the document is read to its end. -/
example : (match parseDocument 40 (str! "f") (str! "d") sampleDocument with
    | .ok (.eof _ stack) => some stack
    | _ => none) = some [.Body, .Section] ∧
    outlineOf (parseDocument 40 (str! "f") (str! "d") sampleDocument) = some (true,
      [(0, .Document), (1, .Section), (2, .BulletList), (3, .BulletListItem), (4, .Paragraph), (5, .Text),
       (3, .BulletListItem), (4, .Paragraph), (5, .Text), (2, .Paragraph), (3, .Text)]) := by
  decide +kernel

/-- **C53 is violated (1).** Two paragraphs below a section title belong to the section, but if the first one ends in two
colons and no literal block follows, then the second one is put outside the section: the state for the literal block is
pushed without a node and leaving it leaves the section. -/
theorem C53_violated_literal_block :
    outlineOf (parseDocument 40 (str! "f") (str! "d")
      [str! "Title", str! "=====", [], str! "para", [], str! "more", []]) = some (true,
        [(0, .Document), (1, .Section), (2, .Paragraph), (3, .Text), (2, .Paragraph), (3, .Text)]) ∧
    outlineOf (parseDocument 40 (str! "f") (str! "d")
      [str! "Title", str! "=====", [], str! "para::", [], str! "more", []]) = some (true,
        [(0, .Document), (1, .Section), (2, .Paragraph), (3, .Text), (1, .Paragraph), (2, .Text)]) := by
  decide +kernel

/-- **C53 is violated (2).** A bullet list directly behind a definition list makes the parse fail. -/
theorem C53_violated_definition_list :
    (outlineOf (parseDocument 40 (str! "f") (str! "d")
      [str! "term", str! "  def", [], str! "- item", []])).map (·.1) = some false := by
  decide +kernel

/-- The labels of the anonymous references and targets of a parsed document, in document order; targets are marked
with `true`. -/
def anonymousLabels (r : Run ParsingResult) : Option (Bool × List (Bool × Str)) :=
  parsedValues (fun d => match d with
    | .Reference _ (.Internal l) => some (false, l)
    | .ExternalHyperlinkTarget _ l _ => some (true, l)
    | _ => none) r

/-- **C25 is violated by the parser.** The only anonymous reference of this document stands in a list and the only
anonymous target behind the list: the target is looked at twice, once by the list and once by the body, and gets the label
of a second target. -/
theorem C25_violated :
    anonymousLabels (parseDocument 40 (str! "f") (str! "d")
      [str! "see `x y`__", [], str! ".. __: https://www.address.fi//", []]) =
        some (true, [(false, DocTree.anonLabel 1), (true, DocTree.anonLabel 1)]) ∧
    anonymousLabels (parseDocument 40 (str! "f") (str! "d")
      [str! "- see `x y`__", [], str! ".. __: https://www.address.fi//", []]) =
        some (true, [(false, DocTree.anonLabel 1), (true, DocTree.anonLabel 2)]) := by
  decide +kernel

end Rustla
