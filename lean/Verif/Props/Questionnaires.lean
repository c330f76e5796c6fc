import Verif.Props.Directives
/-!
# Questionnaires (C66)

`Spec.Entry` are the questions and paragraphs of a questionnaire.
-/
namespace Rustla
open Spec

/-- A document that consists of one part. -/
def partPaper (X : Part) : Paper := ⟨[], .part X .nil, [], []⟩

theorem partPaper_ok {X : Part} (hX : X.Ok) (hc : X.cost ≤ 7) : (partPaper X).Ok :=
  ⟨by simp [partPaper], ⟨hX, id, trivial⟩, trivial, by simp [partPaper], trivial,
    by simp [Paper.height, Paper.bodies, partPaper, Blocks.height]; omega, by simp [Paper.cost, Paper.bodies, Paper.styles, partPaper, Blocks.cost]; omega⟩

theorem partPaper_lines (X : Part) : (partPaper X).lines = X.lines 0 := by simp [partPaper, Paper.lines, Blocks.lines]

theorem quiz_lines_ne (d : Dir) (a : Exercise) (gap : List Str) (entries : List Entry) (hg : gap ≠ []) :
    (Part.quiz d a gap entries).lines 0 ≠ [] := by
  simp [Part.lines, hg]

/-- The lines of a document that consists of one questionnaire: the directive with its options, blank lines, and the entries,
which are indented by three spaces. -/
def quizSource (d : Dir) (gap : List Str) (entries : List Entry) : List Str := d.lines 0 ++ gap ++ entries.flatMap (Entry.lines 3)

theorem quizSource_eq (d : Dir) (a : Exercise) (gap : List Str) (entries : List Entry) :
    (Part.quiz d a gap entries).lines 0 = quizSource d gap entries := by simp [quizSource, Part.lines]

/-- **C66.** A questionnaire becomes one node whose children are its paragraphs and questions, in order: a question contains its
assignment, its choices with their marks and labels, and its hints.  The points of the questions are added up in the node of
the questionnaire. -/
theorem C66_nodes (fuel : Nat) (stem folder : Str) (d : Dir) (a : Exercise) (gap : List Str) (entries : List Entry)
    (h : (Part.quiz d a gap entries).Ok) (hfuel : roundsBound (textSize (quizSource d gap entries)) ≤ fuel) :
    ∃ doc stack t, parseDocument fuel stem folder (quizSource d gap entries) = .ok (.eof doc stack) ∧ IsDoc doc.tree t ∧
      shapeOf t = .node .Document [.node (quizNode d a (entries.map Entry.points).sum 3) (entries.map (Entry.shape 3))] := by
  have e := quizSource_eq d a gap entries
  have := C56_documents fuel stem folder (partPaper (.quiz d a gap entries)) (partPaper_ok h (by simp [Part.cost]))
    (by rw [partPaper_lines]; exact quiz_lines_ne d a gap entries h.2.2.2.2.1) (by rw [partPaper_lines, e]; exact hfuel)
  rw [partPaper_lines, e] at this
  simpa [Paper.shape, partPaper, Blocks.shapes, Part.shapes, withLevels, forest] using this

/-- **C66.** The text of a questionnaire in the output. -/
theorem C66_output (fuel : Nat) (w : WriterEnv) (stem folder : Str) (d : Dir) (a : Exercise) (gap : List Str) (entries : List Entry)
    (h : (Part.quiz d a gap entries).Ok) (hfuel : roundsBound (textSize (quizSource d gap entries)) ≤ fuel)
    (hfull : w.fullDocument = false) :
    (transpile fuel w stem folder (quizSource d gap entries)).panic = none ∧
      (transpile fuel w stem folder (quizSource d gap entries)).text =
        str! "\\begin{quiz}{" ++ a.key ++ str! "}{" ++ decimal (a.max.getD (entries.map Entry.points).sum) ++ str! "}\n" ++
          (entries.map Entry.latex).flatten ++ str! "\\end{quiz}\n\n" := by
  have e := quizSource_eq d a gap entries
  have := C56_output fuel w stem folder (partPaper (.quiz d a gap entries)) (partPaper_ok h (by simp [Part.cost]))
    (by rw [partPaper_lines]; exact quiz_lines_ne d a gap entries h.2.2.2.2.1) (by rw [partPaper_lines, e]; exact hfuel) hfull
  rw [partPaper_lines, e] at this
  simpa [Paper.latex, partPaper, Blocks.text, Part.latex, withLevels, Blocks.latex] using this

/-- A questionnaire with a paragraph, a question with one right choice, one with several right choices and one that is answered in
words. -/
def sampleEntries : List Entry :=
  [.text [str! "amet."] [.word (str! "amet.")] [[]],
   .pick false ⟨str! "pick-one", str! "10", [(str! "required", [])]⟩ [[]] (some ⟨[str! "sit?"], [.word (str! "sit?")], [[]]⟩)
     [⟨false, some .right, str! "a", [.word (str! "yes")]⟩, ⟨true, none, str! "b", [.word (str! "no")]⟩]
     ⟨[[]], [⟨true, str! "a", [.word (str! "hm")]⟩], [[]]⟩,
   .pick true ⟨str! "pick-any", str! "5", [(str! "randomized", []), (str! "correct-count", str! "1")]⟩ [[]] none
     [⟨true, some .neutral, str! "a", [.word (str! "x")]⟩, ⟨false, some .right, str! "b", [.word (str! "y")]⟩]
     ⟨[[]], [], []⟩,
   .free ⟨str! "freetext", str! "7 string", []⟩ (str! "7") (str! "string") [[]] ⟨[str! "why?"], [.word (str! "why?")], [[]]⟩ (str! "so")
     ⟨[[]], [⟨false, str! "so", [.word (str! "right")]⟩], [[]]⟩]

/-- Its lines. -/
example : quizSource ⟨str! "questionnaire", str! "q1", []⟩ [[]] sampleEntries =
    [str! ".. questionnaire:: q1", [], str! "   amet.", [],
     str! "   .. pick-one:: 10", str! "      :required:", [], str! "      sit?", [], str! "      *a. yes", str! "      +b. no", [],
     str! "      !a § hm", [],
     str! "   .. pick-any:: 5", str! "      :randomized:", str! "      :correct-count: 1", [], str! "      +?a. x", str! "      *b. y", [],
     str! "   .. freetext:: 7 string", [], str! "      why?", [], str! "      so", [], str! "      so § right", []] := by
  decide +kernel

theorem sampleEntries_ok : (Part.quiz ⟨str! "questionnaire", str! "q1", []⟩ ⟨str! "q1", 0, [], []⟩ [[]] sampleEntries).Ok := by
  decide +kernel

/-- The hypotheses are met by it, and this is its output. -/
example : (transpile (roundsBound (textSize (quizSource ⟨str! "questionnaire", str! "q1", []⟩ [[]] sampleEntries))) sampleWriter [] []
      (quizSource ⟨str! "questionnaire", str! "q1", []⟩ [[]] sampleEntries)).text =
    str! "\\begin{quiz}{q1}{22}\namet.\n\n\\begin{pick}[required,]{one}{10}\nsit?\n\n\\begin{answers}\n\\right yes \\label{a}\n\\wrong no \\label{b}\n\\end{answers}\n\n\\feedback{\\ref{a}}{hm}\n\n\\end{pick}\n\n\\begin{pick}[randomized,correct-count=1,]{any}{5}\n\\begin{answers}\n\\undet x \\label{a}\n\\right y \\label{b}\n\\end{answers}\n\n\n\\end{pick}\n\n\\begin{freetext}{string}{7}{so}\nwhy?\n\n\\feedback{!}{right}\n\n\\end{freetext}\n\n\\end{quiz}\n\n" :=
  (C66_output _ sampleWriter [] [] _ _ _ _ sampleEntries_ok (Nat.le_refl _) rfl).2.trans (by decide +kernel)

end Rustla
