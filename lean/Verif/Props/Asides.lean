import Verif.Props.Lists
/-!
# Admonitions whose text starts behind the marker (C78)

`Spec.asideLines` are the lines of such an admonition up to the end of its first paragraph, `Spec.AsideOk` says which of them are meant.
-/
namespace Rustla
open Spec

/-- A document that consists of an admonition and the blocks behind it. -/
def asidePaper (name : Str) (g : List Str) (ps : List Piece) (gap : List Str) (body rest : Blocks) : Paper :=
  ⟨[], .aside name g ps gap body rest, [], []⟩

theorem asidePaper_lines (name : Str) (g : List Str) (ps : List Piece) (gap : List Str) (body rest : Blocks) :
    (asidePaper name g ps gap body rest).lines = asideLines 0 name g ++ gap ++ body.lines 3 ++ rest.lines 0 := by
  simp [Paper.lines, asidePaper, Blocks.lines]

/-- The paragraph starts behind the marker and is followed by empty lines; it has a second line, or other blocks follow it in the admonition. -/
structure Aside (name : Str) (g : List Str) (ps : List Piece) (gap : List Str) (body rest : Blocks) : Prop where
  lines : AsideOk name g
  text : Para g ps
  gap : gap ≠ [] ∧ ∀ l ∈ gap, l = []
  more : g.length = 1 → body ≠ .nil
  body : body.Ok ∧ body.Tidy ∧ ¬ body.quoted ∧ body.height ≤ 7
  rest : rest.Ok ∧ ¬ rest.quoted ∧ rest.height ≤ 8

theorem Aside.paper {name : Str} {g : List Str} {ps : List Piece} {gap : List Str} {body rest : Blocks} (h : Aside name g ps gap body rest) :
    (asidePaper name g ps gap body rest).Ok ∧ (asidePaper name g ps gap body rest).lines ≠ [] := by
  obtain ⟨h1, h2, ⟨h3, h4⟩, h5, ⟨h6, h7, h8, h9⟩, h10, h11, h12⟩ := h
  have c1 := cost_height body
  have c2 := cost_height rest
  refine ⟨⟨by simp [asidePaper], ⟨h1, h2, h3, h4, h5, h7, h8, h6, h11, h10⟩, trivial, by simp [asidePaper], trivial,
    by simp [Paper.height, Paper.bodies, asidePaper, Blocks.height]; omega,
    by simp [Paper.cost, Paper.bodies, Paper.styles, asidePaper, Blocks.cost]; omega⟩, ?_⟩
  rw [asidePaper_lines]
  cases gap with
  | nil => exact absurd rfl h3
  | cons => simp

/-- **C78.** An admonition with a fixed title becomes one node that contains exactly the paragraph that starts behind the marker and the
blocks indented below it; what is not indented follows the node. -/
theorem C78_nodes (fuel : Nat) (stem folder name : Str) (g : List Str) (ps : List Piece) (gap : List Str) (body rest : Blocks)
    (h : Aside name g ps gap body rest)
    (hfuel : roundsBound (textSize (asideLines 0 name g ++ gap ++ body.lines 3 ++ rest.lines 0)) ≤ fuel) :
    ∃ doc stack t, parseDocument fuel stem folder (asideLines 0 name g ++ gap ++ body.lines 3 ++ rest.lines 0) = .ok (.eof doc stack) ∧
      IsDoc doc.tree t ∧ shapeOf t = .node .Document
        (.node (asideNode 0 name) (paragraphShape 3 ps :: body.shapes 3) :: rest.shapes 0) := by
  have := C56_documents fuel stem folder (asidePaper name g ps gap body rest) h.paper.1 h.paper.2 (by rw [asidePaper_lines]; exact hfuel)
  rw [asidePaper_lines] at this
  simpa [Paper.shape, asidePaper, Blocks.shapes, withLevels, forest] using this

/-- **C78.** The output for it: an environment named like the directive around the text of the paragraph and of the blocks. -/
theorem C78_output (fuel : Nat) (w : WriterEnv) (stem folder name : Str) (g : List Str) (ps : List Piece) (gap : List Str) (body rest : Blocks)
    (h : Aside name g ps gap body rest)
    (hfuel : roundsBound (textSize (asideLines 0 name g ++ gap ++ body.lines 3 ++ rest.lines 0)) ≤ fuel) (hfull : w.fullDocument = false) :
    (transpile fuel w stem folder (asideLines 0 name g ++ gap ++ body.lines 3 ++ rest.lines 0)).panic = none ∧
      (transpile fuel w stem folder (asideLines 0 name g ++ gap ++ body.lines 3 ++ rest.lines 0)).text =
        str! "\\begin{" ++ toLower name ++ str! "}\n" ++ paragraphLatex ps ++ body.latex w 3 ++ str! "\\end{" ++ toLower name ++ str! "}\n\n" ++
          rest.latex w 0 := by
  have := C56_output fuel w stem folder (asidePaper name g ps gap body rest) h.paper.1 h.paper.2 (by rw [asidePaper_lines]; exact hfuel) hfull
  rw [asidePaper_lines] at this
  simpa [Paper.latex, asidePaper, Blocks.text, withLevels] using this

/-- The paragraph of the example. -/
def asideText : List Piece := [.emph (str! "Sit"), .space (str! "\n"), .word (str! "amet.")]

/-- The blocks in the admonition of the example. -/
def asideBody : Blocks := .list (.item (.bullet '-') [str! "amet."] [.word (str! "amet.")] [[]] .nil .nil) .nil

/-- The blocks behind the admonition of the example: another one, whose text has one line, and a paragraph. -/
def asideRest : Blocks :=
  .aside (str! "hint") [str! "amet."] [.word (str! "amet.")] [[]] (.para [str! "Sit"] [.word (str! "Sit")] [[]] .nil)
    (.para [str! "amet."] [.word (str! "amet.")] [] .nil)

/-- The lines of the example. -/
example : asideLines 0 (str! "Note") [str! "*Sit*", str! "amet."] ++ [[], []] ++ asideBody.lines 3 ++ asideRest.lines 0 =
    [str! ".. Note:: *Sit*", str! "   amet.", [], [], str! "   - amet.", [], str! ".. hint:: amet.", [], str! "   Sit", [], str! "amet."] := by
  decide +kernel

theorem aside_sample : Aside (str! "Note") [str! "*Sit*", str! "amet."] asideText [[], []] asideBody asideRest :=
  ⟨by decide +kernel, by decide +kernel, by decide +kernel, by decide, by decide +kernel, by decide +kernel⟩

/-- The hypotheses are met. -/
example : (transpile (roundsBound (textSize (asideLines 0 (str! "Note") [str! "*Sit*", str! "amet."] ++ [[], []] ++ asideBody.lines 3 ++ asideRest.lines 0)))
      sampleWriter [] [] (asideLines 0 (str! "Note") [str! "*Sit*", str! "amet."] ++ [[], []] ++ asideBody.lines 3 ++ asideRest.lines 0)).text =
    str! "\\begin{note}\n\\textit{Sit}\namet.\n\n\\begin{itemize}\n\\item amet.\n\n\\end{itemize}\n\n\\end{note}\n\n\\begin{hint}\namet.\n\nSit\n\n\\end{hint}\n\namet.\n\n" :=
  (C78_output _ sampleWriter [] [] (str! "Note") [str! "*Sit*", str! "amet."] asideText [[], []] asideBody asideRest aside_sample
    (Nat.le_refl _) rfl).2.trans (by decide +kernel)

/-! ## Findings -/

/-- Finding: an admonition with one line of text takes the paragraphs behind it, although they are not indented. -/
theorem C78_one_line_violated :
    (transpile 60 sampleWriter [] [] [str! ".. note:: Sit", [], str! "amet."]).text = str! "\\begin{note}\nSit\n\namet.\n\n\\end{note}\n\n" := by
  decide +kernel

/-- Finding: without a blank line behind the text, the next line belongs to it, and its first three characters are lost. -/
theorem C78_cut_violated :
    (transpile 60 sampleWriter [] [] [str! ".. note:: Sit", str! "   amet", str! "dolor"]).text =
      str! "\\begin{note}\nSit\namet\nor\n\n\\end{note}\n\n" := by
  decide +kernel

/-- Finding: the program panics if nothing follows the text, not even an empty line. -/
theorem C78_end_violated :
    (transpile 60 sampleWriter [] [] [str! ".. note:: Sit"]).panic = some (.unwrapNone "mod.rs read_indented_block first line") ∧
    (transpile 60 sampleWriter [] [] [str! ".. note:: Sit", str! "   amet"]).panic = some (.unwrapNone "mod.rs read_indented_block first line") := by
  decide +kernel

/-- Finding: if there are options, then the next paragraph is joined to the text behind the marker. -/
theorem C78_options_violated :
    (transpile 60 sampleWriter [] [] [str! ".. note:: Sit", str! "   :class: a", [], str! "   amet", [], str! "dolor"]).text =
      str! "\\begin{note}\nSit\namet\n\n\\end{note}\n\ndolor\n\n" := by
  decide +kernel

/-- Finding: the text of a `code` directive is not in the output. -/
theorem C63_code_lost :
    (transpile 60 sampleWriter [] [] [str! ".. code:: python", [], str! "   sit", [], str! "amet"]).text =
      str! "\\begin{codeblock}[python]\n\\end{codeblock}\n\namet\n\n" := by
  decide +kernel

/-- Finding: the content of a `class` directive is in the output twice. -/
theorem C64_class_doubled :
    (transpile 60 sampleWriter [] [] [str! ".. class:: a", [], str! "   sit", [], str! "amet"]).text = str! "sit\n\nsit\n\namet\n\n" := by
  decide +kernel

end Rustla
