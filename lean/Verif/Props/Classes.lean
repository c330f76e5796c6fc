import Verif.Props.Targets
/-!
# The directive `class` (C81)

The blocks in the directive `class` are read by a parser of their own, but the lines are not passed over, so that the blocks are read and
written a second time.
-/
namespace Rustla
open Spec

/-- A document that begins with the directive `class` and goes on with any blocks. -/
def classBlocks (names : Str) (gap : List Str) (body rest : Blocks) : Blocks := .classed ⟨str! "class", names, []⟩ gap body rest

/-- The lines of such a document. -/
def classLines (names : Str) (gap : List Str) (body rest : Blocks) : List Str :=
  (str! ".. class:: " ++ names) :: (gap ++ body.lines 3 ++ rest.lines 0)

theorem classBlocks_lines {names : Str} (h : names ≠ []) (gap : List Str) (body rest : Blocks) :
    (classBlocks names gap body rest).lines 0 = classLines names gap body rest := by
  simp [classBlocks, classLines, Blocks.lines, Dir.lines, Dir.marker, behind, h, indentLine]

/-- The names of classes: a line that starts with something visible and does not look like an option. -/
structure ClassNames (t : Str) : Prop where
  inset : Inset t
  notField : ¬ FieldMarked t

theorem ClassNames.dir {names : Str} (h : ClassNames names) : (Dir.mk (str! "class") names []).Ok :=
  ⟨(by decide : DirName (str! "class")), .inr ⟨h.inset, h.notField⟩, by simp⟩

theorem classBlocks_ok {names : Str} {gap : List Str} {body rest : Blocks} (hn : ClassNames names) (hg : gap ≠ []) (hb : ∀ l ∈ gap, isBlank l = true)
    (hne : body ≠ .nil) (ht : body.Tidy) (hl : body.first = none) (hq : ¬ body.quoted) (hok : body.Ok) (hq' : ¬ rest.quoted) (hr : rest.Ok) :
    names ≠ [] ∧ (classBlocks names gap body rest).Ok := by
  have h : names ≠ [] := by rintro rfl; obtain ⟨c, h, _⟩ := hn.inset.1; cases h
  exact ⟨h, hn.dir, rfl, h, rfl, hg, hb, hne, ht, hl, hq, hok, hq', hr⟩

/-- **C81.** The directive `class` becomes one node with the names of the classes, which contains nothing but the blocks indented below it,
in order; but it contains them twice.  What follows the directive is not part of it. -/
theorem C81_nodes_partial (fuel : Nat) (stem folder : Str) (names : Str) (gap : List Str) (body rest : Blocks) (hn : ClassNames names) (hg : gap ≠ [])
    (hb : ∀ l ∈ gap, isBlank l = true) (hne : body ≠ .nil) (ht : body.Tidy) (hl : body.first = none) (hq : ¬ body.quoted) (hok : body.Ok)
    (hq' : ¬ rest.quoted) (hr : rest.Ok) (hh : body.height ≤ 7 ∧ rest.height ≤ 8)
    (hfuel : roundsBound (textSize (classLines names gap body rest)) ≤ fuel) :
    ∃ d stack t, parseDocument fuel stem folder (classLines names gap body rest) = .ok (.eof d stack) ∧ IsDoc d.tree t ∧
      shapeOf t = .node .Document (.node (.Class 3 [names]) (body.shapes 3 ++ body.shapes 3) :: rest.shapes 0) := by
  obtain ⟨hn', hB⟩ := classBlocks_ok hn hg hb hne ht hl hq hok hq' hr
  have h1 := cost_height body
  have h2 := cost_height rest
  have := blocks_nodes fuel stem folder (classBlocks names gap body rest) hB (by rw [classBlocks_lines hn']; simp [classLines])
    (by simp only [classBlocks, Blocks.height]; omega) (by simp only [classBlocks, Blocks.cost]; omega) (by rw [classBlocks_lines hn']; exact hfuel)
  rw [classBlocks_lines hn'] at this
  exact this

/-- **C81 is false of the program:** everything in the directive `class` is in the output twice, whatever it is. -/
theorem C81_violated (fuel : Nat) (w : WriterEnv) (stem folder : Str) (names : Str) (gap : List Str) (body rest : Blocks) (hn : ClassNames names)
    (hg : gap ≠ []) (hb : ∀ l ∈ gap, isBlank l = true) (hne : body ≠ .nil) (ht : body.Tidy) (hl : body.first = none) (hq : ¬ body.quoted)
    (hok : body.Ok) (hq' : ¬ rest.quoted) (hr : rest.Ok) (hh : body.height ≤ 7 ∧ rest.height ≤ 8)
    (hfuel : roundsBound (textSize (classLines names gap body rest)) ≤ fuel) (hfull : w.fullDocument = false) :
    (transpile fuel w stem folder (classLines names gap body rest)).panic = none ∧
      (transpile fuel w stem folder (classLines names gap body rest)).text = body.latex w 3 ++ body.latex w 3 ++ rest.latex w 0 := by
  obtain ⟨hn', hB⟩ := classBlocks_ok hn hg hb hne ht hl hq hok hq' hr
  have h1 := cost_height body
  have h2 := cost_height rest
  have := blocks_output fuel w stem folder (classBlocks names gap body rest) hB (by rw [classBlocks_lines hn']; simp [classLines])
    (by simp only [classBlocks, Blocks.height]; omega) (by simp only [classBlocks, Blocks.cost]; omega) (by rw [classBlocks_lines hn']; exact hfuel) hfull
  rw [classBlocks_lines hn'] at this
  exact this

/-- The blocks of an example: a paragraph and a list. -/
def sampleClassed : Blocks :=
  .para [str! "Sit"] [.word (str! "Sit")] [[]]
    (.list (.item (.bullet '*') [str! "a"] [.word (str! "a")] [] .nil (.item (.bullet '*') [str! "b"] [.word (str! "b")] [[]] .nil .nil)) .nil)

/-- The hypotheses are met by a paragraph and a list in a class, before a paragraph. -/
example : (transpile (roundsBound (textSize (classLines (str! "big") [[]] sampleClassed (.para [str! "x"] [.word (str! "x")] [[]] .nil)))) sampleWriter [] []
      [str! ".. class:: big", [], str! "   Sit", [], str! "   * a", str! "   * b", [], str! "x", []]).text =
    str! "Sit\n\n\\begin{itemize}\n\\item a\n\n\\item b\n\n\\end{itemize}\n\nSit\n\n\\begin{itemize}\n\\item a\n\n\\item b\n\n\\end{itemize}\n\nx\n\n" :=
  ((C81_violated _ sampleWriter [] [] (str! "big") [[]] sampleClassed (.para [str! "x"] [.word (str! "x")] [[]] .nil) ⟨by decide, by decide +kernel⟩
    (by decide) (by decide) (by decide +kernel) (by decide +kernel) rfl (by decide +kernel) (by decide +kernel) (by decide +kernel) (by decide +kernel)
    (by decide +kernel) (Nat.le_refl _) rfl).2).trans (by decide +kernel)

end Rustla
