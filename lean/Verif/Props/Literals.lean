import Verif.Props.Questionnaires
/-!
# Literal blocks (C67)

`Spec.Announces` is a paragraph that ends with two colons, `Spec.Verbatim` is the literal block behind it.
-/
namespace Rustla
open Spec

/-- The lines of a document that consists of a paragraph, blank lines and a literal block. -/
def literalSource (g gap : List Str) (V : Verbatim) : List Str := g ++ gap ++ V.lines 0

theorem literalSource_eq (g : List Str) (ps : List Piece) (gap : List Str) (V : Verbatim) :
    (Part.literal g ps gap V).lines 0 = literalSource g gap V := by
  simp only [literalSource, Part.lines, indentLine_zero, List.append_assoc]

/-- **C67.** A paragraph that ends with two colons becomes a paragraph with one of them, or with none of them if there is white
space in front of them; the lines behind it that are indented, or that start with the same quoting character, become one literal
block, whatever is on these lines: their text is the lines without the indentation, or without the quoting character and the white space
behind it. -/
theorem C67_nodes (fuel : Nat) (stem folder : Str) (g : List Str) (ps : List Piece) (gap : List Str) (V : Verbatim)
    (h : Announces g ps) (hg : gap ≠ [] ∧ ∀ l ∈ gap, isBlank l = true) (hV : V.Ok)
    (hfuel : roundsBound (textSize (literalSource g gap V)) ≤ fuel) :
    ∃ doc stack t, parseDocument fuel stem folder (literalSource g gap V) = .ok (.eof doc stack) ∧ IsDoc doc.tree t ∧
      shapeOf t = .node .Document [paragraphShape 0 ps, .node (.LiteralBlock V.text) []] := by
  have e := literalSource_eq g ps gap V
  have := C56_documents fuel stem folder (partPaper (.literal g ps gap V)) (partPaper_ok ⟨h, hg.1, hg.2, hV⟩ (by simp [Part.cost]))
    (by rw [partPaper_lines, e]; simp [literalSource, hg.1]) (by rw [partPaper_lines, e]; exact hfuel)
  rw [partPaper_lines, e] at this
  simpa [Paper.shape, partPaper, Blocks.shapes, Part.shapes, withLevels, forest, Verbatim.shape] using this

/-- **C67.** The output for it: special characters in the literal block are escaped, and its lines are not wrapped or joined. -/
theorem C67_output (fuel : Nat) (w : WriterEnv) (stem folder : Str) (g : List Str) (ps : List Piece) (gap : List Str) (V : Verbatim)
    (h : Announces g ps) (hg : gap ≠ [] ∧ ∀ l ∈ gap, isBlank l = true) (hV : V.Ok)
    (hfuel : roundsBound (textSize (literalSource g gap V)) ≤ fuel) (hfull : w.fullDocument = false) :
    (transpile fuel w stem folder (literalSource g gap V)).panic = none ∧
      (transpile fuel w stem folder (literalSource g gap V)).text =
        paragraphLatex ps ++ str! "\\begin{codeblock}\n" ++ escapeText V.text ++ str! "\n\\end{codeblock}\n\n" := by
  have e := literalSource_eq g ps gap V
  have := C56_output fuel w stem folder (partPaper (.literal g ps gap V)) (partPaper_ok ⟨h, hg.1, hg.2, hV⟩ (by simp [Part.cost]))
    (by rw [partPaper_lines, e]; simp [literalSource, hg.1]) (by rw [partPaper_lines, e]; exact hfuel) hfull
  rw [partPaper_lines, e] at this
  simpa [Paper.latex, partPaper, Blocks.text, Part.latex, withLevels, Blocks.latex, Verbatim.latex] using this

/-- An indented literal block with lines that would be markup elsewhere. -/
def sampleVerbatim : Verbatim := .indented 1 [str! "x = *1* & 2", str! "  .. image:: a", [], str! "=====", []]

/-- Its lines. -/
example : literalSource [str! "amet", str! "a::"] [[]] sampleVerbatim =
    [str! "amet", str! "a::", [], str! "  x = *1* & 2", str! "    .. image:: a", [], str! "  =====", []] := by decide +kernel

theorem sampleAnnounces : Announces [str! "amet", str! "a::"] [.word (str! "amet"), .space (str! "\n"), .lead (str! "a")] := by
  decide +kernel

theorem sampleAnnounces_space : Announces [str! "*amet*  ::"] [.emph (str! "amet"), .space (str! "  ")] := by decide +kernel

/-- The hypotheses are met. -/
example : (transpile (roundsBound (textSize (literalSource [str! "amet", str! "a::"] [[]] sampleVerbatim))) sampleWriter [] []
      (literalSource [str! "amet", str! "a::"] [[]] sampleVerbatim)).text =
    str! "amet\na:\n\n\\begin{codeblock}\nx = *1* \\& 2\n  .. image:: a\n\n=====\n\n\\end{codeblock}\n\n" :=
  (C67_output _ sampleWriter [] [] _ _ _ sampleVerbatim sampleAnnounces (by decide) (by decide +kernel) (Nat.le_refl _) rfl).2.trans
    (by decide +kernel)

/-- The lines of a quoted literal block start with the same character. -/
example : (transpile (roundsBound (textSize (literalSource [str! "*amet*  ::"] [str! " "] (.quoted '>' [str! " a", str! "b%", []] [[]]))))
      sampleWriter [] [] (literalSource [str! "*amet*  ::"] [str! " "] (.quoted '>' [str! " a", str! "b%", []] [[]]))).text =
    str! "\\textit{amet}  \n\n\\begin{codeblock}\na\nb\\%\n\n\\end{codeblock}\n\n" :=
  (C67_output _ sampleWriter [] [] _ _ _ (.quoted '>' [str! " a", str! "b%", []] [[]]) sampleAnnounces_space (by decide) (by decide +kernel)
    (Nat.le_refl _) rfl).2.trans (by decide +kernel)

/-- **C67 fails in a note.** The blocks of a note are read by a parser of its own, which removes the indentation of the note a second
time: the line `x = 1` loses three characters, and the line behind it becomes a quotation. -/
theorem C67_nested_violated :
    (transpile 60 sampleWriter [] [] [str! ".. note::", [], str! "   a::", [], str! "     x = 1", str! "       y", [], str! "b"]).text =
      str! "\\begin{note}\na:\n\n\\begin{codeblock}\n 1\n\\end{codeblock}\n\n\\begin{quotation}\ny\n\n\\end{quotation}\n\n\\end{note}\n\nb\n\n" := by
  decide +kernel

/-- If the announced literal block is missing, then a following item of a list ends the document: the rest is lost, and so it is behind
a quoted literal block with a line that does not start with the quoting character. -/
theorem C67_rest_lost :
    (transpile 60 sampleWriter [] [] [str! "* a", [], str! "  b::", [], str! "* c", [], str! "d"]).text =
      str! "\\begin{itemize}\n\\item a\n\nb:\n\n\\end{itemize}\n\n" ∧
    (transpile 60 sampleWriter [] [] [str! "a::", [], str! "> b", str! "c", [], str! "d"]).text = str! "a:\n\n" := by
  decide +kernel

/-! ## Literal blocks with an announcement of their own -/

/-- A document that consists of a paragraph, a line of two colons, a literal block and other blocks. -/
def barePaper (g : List Str) (ps : List Piece) (gap gap' : List Str) (V : Verbatim) (rest : Blocks) : Paper :=
  ⟨[], .para g ps gap (.part (.bare gap' V) rest), [], []⟩

/-- The lines of the document. -/
def bareSource (g gap gap' : List Str) (V : Verbatim) (rest : Blocks) : List Str :=
  g ++ gap ++ [str! "::"] ++ gap' ++ V.lines 0 ++ rest.lines 0

theorem barePaper_lines (g : List Str) (ps : List Piece) (gap gap' : List Str) (V : Verbatim) (rest : Blocks) :
    (barePaper g ps gap gap' V rest).lines = bareSource g gap gap' V rest := by
  simp [Paper.lines, barePaper, Blocks.lines, Part.lines, bareSource, indentLine_zero]
  rfl

/-- The line of two colons is surrounded by blank lines. -/
structure BareLiteral (g : List Str) (ps : List Piece) (gap gap' : List Str) (V : Verbatim) (rest : Blocks) : Prop where
  text : Para g ps
  before : gap ≠ [] ∧ ∀ l ∈ gap, isBlank l = true
  after : gap' ≠ [] ∧ ∀ l ∈ gap', isBlank l = true
  literal : V.Ok
  rest : rest.Ok ∧ ¬ rest.quoted ∧ rest.height ≤ 8

theorem BareLiteral.paper {g : List Str} {ps : List Piece} {gap gap' : List Str} {V : Verbatim} {rest : Blocks}
    (h : BareLiteral g ps gap gap' V rest) : (barePaper g ps gap gap' V rest).Ok ∧ (barePaper g ps gap gap' V rest).lines ≠ [] := by
  obtain ⟨h1, ⟨h2, h3⟩, ⟨h4, h5⟩, h6, h7, h8, h9⟩ := h
  have c2 := cost_height rest
  refine ⟨⟨by simp [barePaper], ⟨h1, h3, fun e => absurd e h2, ⟨h4, h5, h6⟩, h8, h7⟩, trivial, by simp [barePaper], trivial,
    by simp [Paper.height, Paper.bodies, barePaper, Blocks.height, Part.cost]; omega,
    by simp [Paper.cost, Paper.bodies, Paper.styles, barePaper, Blocks.cost, Part.cost]; omega⟩, ?_⟩
  rw [barePaper_lines]
  simp [bareSource]

/-- **C67.** A line that consists of two colons announces a literal block, too, and nothing is left of it. -/
theorem C67_bare_nodes (fuel : Nat) (stem folder : Str) (g : List Str) (ps : List Piece) (gap gap' : List Str) (V : Verbatim) (rest : Blocks)
    (h : BareLiteral g ps gap gap' V rest) (hfuel : roundsBound (textSize (bareSource g gap gap' V rest)) ≤ fuel) :
    ∃ doc stack t, parseDocument fuel stem folder (bareSource g gap gap' V rest) = .ok (.eof doc stack) ∧ IsDoc doc.tree t ∧
      shapeOf t = .node .Document (paragraphShape 0 ps :: .node (.LiteralBlock V.text) [] :: rest.shapes 0) := by
  have := C56_documents fuel stem folder (barePaper g ps gap gap' V rest) h.paper.1 h.paper.2 (by rw [barePaper_lines]; exact hfuel)
  rw [barePaper_lines] at this
  simpa [Paper.shape, barePaper, Blocks.shapes, Part.shapes, withLevels, forest, Verbatim.shape] using this

/-- **C67.** The output for it. -/
theorem C67_bare_output (fuel : Nat) (w : WriterEnv) (stem folder : Str) (g : List Str) (ps : List Piece) (gap gap' : List Str) (V : Verbatim)
    (rest : Blocks) (h : BareLiteral g ps gap gap' V rest) (hfuel : roundsBound (textSize (bareSource g gap gap' V rest)) ≤ fuel)
    (hfull : w.fullDocument = false) :
    (transpile fuel w stem folder (bareSource g gap gap' V rest)).panic = none ∧
      (transpile fuel w stem folder (bareSource g gap gap' V rest)).text =
        paragraphLatex ps ++ str! "\\begin{codeblock}\n" ++ escapeText V.text ++ str! "\n\\end{codeblock}\n\n" ++ rest.latex w 0 := by
  have := C56_output fuel w stem folder (barePaper g ps gap gap' V rest) h.paper.1 h.paper.2 (by rw [barePaper_lines]; exact hfuel) hfull
  rw [barePaper_lines] at this
  simpa [Paper.latex, barePaper, Blocks.text, Part.latex, withLevels, Blocks.latex, Verbatim.latex] using this

/-- A paragraph behind the literal block, and an item of a list with a literal block of its own. -/
def bareRest : Blocks :=
  .para [str! "amet."] [.word (str! "amet.")] [[]]
    (.list (.item (.bullet '*') [str! "amet."] [.word (str! "amet.")] [[]] (.part (.bare [[]] (.indented 1 [str! "x & 1", []])) .nil) .nil) .nil)

/-- The lines of the example. -/
example : bareSource [str! "amet."] [[]] [[]] sampleVerbatim bareRest =
    [str! "amet.", [], str! "::", [], str! "  x = *1* & 2", str! "    .. image:: a", [], str! "  =====", [],
     str! "amet.", [], str! "* amet.", [], str! "  ::", [], str! "    x & 1", []] := by decide +kernel

theorem bare_hypotheses : BareLiteral [str! "amet."] [.word (str! "amet.")] [[]] [[]] sampleVerbatim bareRest :=
  ⟨by decide +kernel, by decide, by decide, by decide +kernel, by decide +kernel, by decide +kernel, by decide +kernel⟩

/-- The hypotheses are met. -/
example : (transpile (roundsBound (textSize (bareSource [str! "amet."] [[]] [[]] sampleVerbatim bareRest))) sampleWriter [] []
      (bareSource [str! "amet."] [[]] [[]] sampleVerbatim bareRest)).text =
    str! "amet.\n\n\\begin{codeblock}\nx = *1* \\& 2\n  .. image:: a\n\n=====\n\n\\end{codeblock}\n\namet.\n\n\\begin{itemize}\n\\item amet.\n\n\\begin{codeblock}\nx \\& 1\n\n\\end{codeblock}\n\n\\end{itemize}\n\n" :=
  (C67_bare_output _ sampleWriter [] [] _ _ _ _ _ _ bare_hypotheses (Nat.le_refl _) rfl).2.trans (by decide +kernel)

/-- The blank line in front of the two colons matters: without it, the line above them is a title. -/
theorem C67_title_instead :
    (transpile 60 sampleWriter [] [] [str! "a", str! "::", [], str! "  b", [], str! "d"]).text =
      str! "\\rstlabel{a}\n\\chapter{a}\n\n\\begin{quotation}\nb\n\n\\end{quotation}\n\nd\n\n" := by
  decide +kernel

end Rustla
