import Verif.Props.Targets
/-!
# Points of interest with columns (C83)

A line `::newcol` in a point of interest starts a new column.
-/
namespace Rustla
open Spec

/-- The lines of a document that begins with a point of interest with columns and goes on with any blocks. -/
def columnLines (d : Dir) (gap : List Str) (contents : List Flow) (rest : Blocks) : List Str :=
  d.lines 0 ++ gap ++ contents.flatMap (Flow.lines 3) ++ rest.lines 0

theorem columnBlocks_lines (d : Dir) (gap : List Str) (contents : List Flow) (rest : Blocks) :
    (Blocks.part (.columns d gap contents) rest).lines 0 = columnLines d gap contents rest := by
  simp [columnLines, Blocks.lines, Part.lines]

/-- **C83.** A point of interest becomes one node, which contains what is indented below the directive, in order: each line `::newcol` becomes a
column break between the nodes for what stands in front of it and what stands behind it.  What follows the point of interest is not part of it. -/
theorem C83_nodes_partial (fuel : Nat) (stem folder : Str) (d : Dir) (gap : List Str) (contents : List Flow) (rest : Blocks) (hd : d.Ok)
    (hk : d.key = str! "point-of-interest") (hg : gap ≠ [] ∧ ∀ l ∈ gap, isBlank l = true) (hne : contents ≠ []) (hc : ∀ x ∈ contents, x.Ok)
    (hq : ¬ rest.quoted) (hr : rest.Ok) (hh : rest.height ≤ 8) (hfuel : roundsBound (textSize (columnLines d gap contents rest)) ≤ fuel) :
    ∃ doc stack t, parseDocument fuel stem folder (columnLines d gap contents rest) = .ok (.eof doc stack) ∧ IsDoc doc.tree t ∧
      shapeOf t = .node .Document (.node ((Box.poi d).node 0) (contents.flatMap (Flow.shapes 3)) :: rest.shapes 0) := by
  have hB : (Blocks.part (.columns d gap contents) rest).Ok := ⟨⟨hd, hk, hg.1, hg.2, hne, hc⟩, hq, hr⟩
  have h := cost_height rest
  have := blocks_nodes fuel stem folder _ hB (by rw [columnBlocks_lines]; simp [columnLines, hg.1]) (by simp only [Blocks.height, Part.cost]; omega)
    (by simp [Blocks.cost, Part.cost]; omega) (by rwa [columnBlocks_lines])
  rw [columnBlocks_lines] at this
  simpa [Blocks.shapes, Part.shapes] using this

/-- **C83, in the output.** The text of the contents stands in the environment of the point of interest, in order, with `\newcol` where the lines
`::newcol` were. -/
theorem C83_output_partial (fuel : Nat) (w : WriterEnv) (stem folder : Str) (d : Dir) (gap : List Str) (contents : List Flow) (rest : Blocks) (hd : d.Ok)
    (hk : d.key = str! "point-of-interest") (hg : gap ≠ [] ∧ ∀ l ∈ gap, isBlank l = true) (hne : contents ≠ []) (hc : ∀ x ∈ contents, x.Ok)
    (hq : ¬ rest.quoted) (hr : rest.Ok) (hh : rest.height ≤ 8) (hfuel : roundsBound (textSize (columnLines d gap contents rest)) ≤ fuel)
    (hfull : w.fullDocument = false) :
    (transpile fuel w stem folder (columnLines d gap contents rest)).panic = none ∧
      (transpile fuel w stem folder (columnLines d gap contents rest)).text =
        (Box.poi d).opening w ++ (contents.map (Flow.latex w)).flatten ++ (Box.poi d).closing ++ rest.latex w 0 := by
  have hB : (Blocks.part (.columns d gap contents) rest).Ok := ⟨⟨hd, hk, hg.1, hg.2, hne, hc⟩, hq, hr⟩
  have h := cost_height rest
  have := blocks_output fuel w stem folder _ hB (by rw [columnBlocks_lines]; simp [columnLines, hg.1]) (by simp only [Blocks.height, Part.cost]; omega)
    (by simp [Blocks.cost, Part.cost]; omega) (by rwa [columnBlocks_lines]) hfull
  rw [columnBlocks_lines] at this
  simpa [Blocks.latex, Blocks.text, Part.latex] using this

/-- A paragraph of one word, and a blank line. -/
def sampleFlow (w : Str) : Flow := .text [w] [.word w] [[]]

/-- The hypotheses are met by two breaks between paragraphs and a comment, with and without blank lines behind them. -/
example : (transpile (roundsBound (textSize (columnLines ⟨str! "point-of-interest", str! "T", []⟩ [[]]
        [sampleFlow (str! "ab"), .column [[]], sampleFlow (str! "cd"), .column [], sampleFlow (str! "ef")] (.para [str! "x"] [.word (str! "x")] [[]] .nil))))
      sampleWriter [] []
      [str! ".. point-of-interest:: T", [], str! "   ab", [], str! "   ::newcol", [], str! "   cd", [], str! "   ::newcol", str! "   ef", [], str! "x", []]).text =
    str! "\\begin{poi}{T}\n\nab\n\n\\newcol\n\ncd\n\n\\newcol\n\nef\n\n\\end{poi}\n\nx\n\n" :=
  (C83_output_partial _ sampleWriter [] [] ⟨str! "point-of-interest", str! "T", []⟩ [[]]
    [sampleFlow (str! "ab"), .column [[]], sampleFlow (str! "cd"), .column [], sampleFlow (str! "ef")] (.para [str! "x"] [.word (str! "x")] [[]] .nil)
    (by decide +kernel) rfl (by decide) (by decide) (by decide +kernel) (by decide +kernel) (by decide +kernel) (by decide +kernel) (Nat.le_refl _) rfl).2.trans
    (by decide +kernel)

/-- **C83 is false of the program:** directly below a paragraph, the line belongs to the paragraph; in a list or an admonition in a point of interest it
is a paragraph; and whatever stands behind it in the same line is dropped. -/
theorem C83_violated :
    (transpile 100 sampleWriter [] [] [str! ".. point-of-interest:: T", [], str! "   a b", str! "   ::newcol", str! "   c", []]).text =
      str! "\\begin{poi}{T}\n\na b\n::newcol\nc\n\n\\end{poi}\n\n" ∧
    (transpile 100 sampleWriter [] [] [str! ".. point-of-interest:: T", [], str! "   * a", [], str! "     ::newcol", [], str! "     c", []]).text =
      str! "\\begin{poi}{T}\n\n\\begin{itemize}\n\\item a\n\n::newcol\n\nc\n\n\\end{itemize}\n\n\\end{poi}\n\n" ∧
    (transpile 100 sampleWriter [] [] [str! ".. point-of-interest:: T", [], str! "   ab", [], str! "   ::newcol lost", [], str! "   c", []]).text =
      str! "\\begin{poi}{T}\n\nab\n\n\\newcol\n\nc\n\n\\end{poi}\n\n" := by decide +kernel

end Rustla
