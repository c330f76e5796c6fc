import Verif.Props.Lists
/-!
# Footnotes with numbers and citations (C72)

`Spec.Note` is the marker of a note with its label, `NoteEntry` a note with its paragraph and blocks.
-/
namespace Rustla
open Spec

/-- A note, the lines of its first paragraph and what they stand for, the blank lines behind it and its other blocks. -/
structure NoteEntry where
  note : Note
  lines : List Str
  pieces : List Piece
  gap : List Str
  body : Blocks

/-- The lines of a note. -/
def NoteEntry.source (x : NoteEntry) : List Str := x.note.lines 0 x.lines ++ x.gap ++ x.body.lines x.note.wide

/-- Well-formed notes: see `Note.Ok`; the first paragraph is separated from the other blocks by a blank line. -/
def NoteEntry.Ok (x : NoteEntry) : Prop :=
  x.note.Ok (x.lines.length = 1 ∧ x.body = .nil) ∧ Para x.lines x.pieces ∧ (∀ l ∈ x.gap, isBlank l = true) ∧ (x.gap = [] → x.body = .nil) ∧
    ¬ x.body.quoted ∧ x.body.Ok ∧ x.body.height ≤ 6

/-- The node of a note: it is named by its label and contains its paragraph and its blocks. -/
def NoteEntry.shape (x : NoteEntry) : Shape :=
  .labelled (x.note.node 0) [x.note.name] (paragraphShape x.note.wide x.pieces :: x.body.shapes x.note.wide)

/-- The text of a note in the output. -/
def NoteEntry.latex (w : WriterEnv) (x : NoteEntry) : Str :=
  x.note.opening ++ paragraphLatex x.pieces ++ x.body.latex w x.note.wide ++ x.note.closing

/-- Notes as blocks. -/
def noteBlocks (rest : Blocks) : List NoteEntry → Blocks
  | [] => rest
  | x :: xs => .note x.note x.lines x.pieces x.gap x.body (noteBlocks rest xs)

theorem note_lines (rest : Blocks) : ∀ xs : List NoteEntry, (noteBlocks rest xs).lines 0 = xs.flatMap NoteEntry.source ++ rest.lines 0
  | [] => rfl
  | x :: xs => by
    simp only [noteBlocks, Blocks.lines, Nat.zero_add, note_lines rest xs, List.flatMap_cons, NoteEntry.source, List.append_assoc]

theorem note_shapes (rest : Blocks) : ∀ xs : List NoteEntry, (noteBlocks rest xs).shapes 0 = xs.map NoteEntry.shape ++ rest.shapes 0
  | [] => rfl
  | x :: xs => by
    simp only [noteBlocks, Blocks.shapes, Nat.zero_add, note_shapes rest xs, NoteEntry.shape, List.map_cons, List.cons_append]

theorem note_latex (w : WriterEnv) (rest : Blocks) : ∀ xs : List NoteEntry,
    (noteBlocks rest xs).text w 0 false = xs.flatMap (NoteEntry.latex w) ++ rest.latex w 0
  | [] => rfl
  | x :: xs => by
    simp only [noteBlocks, Blocks.text, Nat.zero_add, note_latex w rest xs, NoteEntry.latex, Blocks.latex, List.flatMap_cons, List.append_assoc]

theorem note_quoted {rest : Blocks} (h : ¬ rest.quoted) : ∀ xs : List NoteEntry, ¬ (noteBlocks rest xs).quoted
  | [] => h
  | _ :: _ => id

theorem note_ok {rest : Blocks} (hq : ¬ rest.quoted) (hr : rest.Ok) (hh : rest.height ≤ 7) : ∀ xs : List NoteEntry, (∀ x ∈ xs, x.Ok) →
    (noteBlocks rest xs).Ok ∧ (noteBlocks rest xs).height ≤ 7
  | [], _ => ⟨hr, hh⟩
  | x :: xs, h => by
    obtain ⟨k1, k2⟩ := note_ok hq hr hh xs fun y hy => h y (by simp [hy])
    obtain ⟨h1, h2, h3, h4, h5, h6, h7⟩ := h x (by simp)
    exact ⟨⟨h1, h2, h3, h4, h5, h6, note_quoted hq xs, k1⟩, by simp only [noteBlocks, Blocks.height]; omega⟩

/-- A document that consists of notes and other blocks. -/
def notePaper (xs : List NoteEntry) (rest : Blocks) : Paper := ⟨[], noteBlocks rest xs, [], []⟩

theorem notePaper_lines (xs : List NoteEntry) (rest : Blocks) : (notePaper xs rest).lines = xs.flatMap NoteEntry.source ++ rest.lines 0 := by
  simp [Paper.lines, notePaper, note_lines]

theorem notePaper_ok {xs : List NoteEntry} {rest : Blocks} (h : ∀ x ∈ xs, x.Ok) (hq : ¬ rest.quoted) (hr : rest.Ok) (hh : rest.height ≤ 7) :
    (notePaper xs rest).Ok := by
  obtain ⟨k1, k2⟩ := note_ok hq hr hh xs h
  have := cost_height (noteBlocks rest xs)
  exact ⟨by simp [notePaper], k1, trivial, by simp [notePaper], trivial, by simp [Paper.height, Paper.bodies, notePaper]; omega,
    by simp [Paper.cost, Paper.bodies, Paper.styles, notePaper]; omega⟩

/-- **C72.** Footnotes with numbers and citations become one node each, in order, named by their labels, with exactly the paragraph behind the
marker and the blocks that are indented like its second line; what is not indented is not part of them. -/
theorem C72_nodes (fuel : Nat) (stem folder : Str) (xs : List NoteEntry) (rest : Blocks) (h : ∀ x ∈ xs, x.Ok) (hne : xs ≠ []) (hq : ¬ rest.quoted)
    (hr : rest.Ok) (hh : rest.height ≤ 7) (hfuel : roundsBound (textSize (xs.flatMap NoteEntry.source ++ rest.lines 0)) ≤ fuel) :
    ∃ doc stack t, parseDocument fuel stem folder (xs.flatMap NoteEntry.source ++ rest.lines 0) = .ok (.eof doc stack) ∧ IsDoc doc.tree t ∧
      shapeOf t = .node .Document (xs.map NoteEntry.shape ++ rest.shapes 0) := by
  have hl : (notePaper xs rest).lines ≠ [] := by
    rw [notePaper_lines]
    cases xs with
    | nil => exact absurd rfl hne
    | cons x xs =>
      obtain ⟨_, hp, _⟩ := h x (by simp)
      match e : x.lines, hp.notEmpty with
      | l :: ls, _ => simp [NoteEntry.source, e, Note.lines]
  have := C56_documents fuel stem folder (notePaper xs rest) (notePaper_ok h hq hr hh) hl (by rw [notePaper_lines]; exact hfuel)
  rw [notePaper_lines] at this
  simpa [Paper.shape, notePaper, note_shapes, withLevels, forest] using this

/-- **C72.** The output for them: footnotes and entries of a bibliography around the text of their paragraph and blocks. -/
theorem C72_output (fuel : Nat) (w : WriterEnv) (stem folder : Str) (xs : List NoteEntry) (rest : Blocks) (h : ∀ x ∈ xs, x.Ok) (hne : xs ≠ [])
    (hq : ¬ rest.quoted) (hr : rest.Ok) (hh : rest.height ≤ 7) (hfuel : roundsBound (textSize (xs.flatMap NoteEntry.source ++ rest.lines 0)) ≤ fuel)
    (hfull : w.fullDocument = false) :
    (transpile fuel w stem folder (xs.flatMap NoteEntry.source ++ rest.lines 0)).panic = none ∧
      (transpile fuel w stem folder (xs.flatMap NoteEntry.source ++ rest.lines 0)).text = xs.flatMap (NoteEntry.latex w) ++ rest.latex w 0 := by
  have hl : (notePaper xs rest).lines ≠ [] := by
    rw [notePaper_lines]
    cases xs with
    | nil => exact absurd rfl hne
    | cons x xs =>
      obtain ⟨_, hp, _⟩ := h x (by simp)
      match e : x.lines, hp.notEmpty with
      | l :: ls, _ => simp [NoteEntry.source, e, Note.lines]
  have := C56_output fuel w stem folder (notePaper xs rest) (notePaper_ok h hq hr hh) hl (by rw [notePaper_lines]; exact hfuel) hfull
  rw [notePaper_lines] at this
  simpa [Paper.latex, notePaper, note_latex, withLevels] using this

/-- A footnote with two lines and a list, a footnote with one line directly followed by a citation with one line and a paragraph further to the right. -/
def sampleNotes : List NoteEntry :=
  [⟨⟨true, str! "12", 3⟩, [str! "*Sit*", str! "amet."], [.emph (str! "Sit"), .space (str! "\n"), .word (str! "amet.")], [[]],
    .list (.item (.bullet '-') [str! "amet."] [.word (str! "amet.")] [[]] .nil .nil) .nil⟩,
   ⟨⟨true, str! "7", 7⟩, [str! "amet."], [.word (str! "amet.")], [], .nil⟩,
   ⟨⟨false, str! "Sit.A-b", 5⟩, [str! "amet."], [.word (str! "amet.")], [[], str! "  "], .para [str! "amet."] [.word (str! "amet.")] [] .nil⟩]

/-- The lines. -/
example : sampleNotes.flatMap NoteEntry.source =
    [str! ".. [12] *Sit*", str! "   amet.", [], str! "   - amet.", [], str! ".. [7] amet.", str! ".. [Sit.A-b] amet.", [], str! "  ", str! "     amet."] := by
  decide +kernel

/-- Paragraphs behind them. -/
def behindNotes : Blocks := .para [str! "amet."] [.word (str! "amet.")] [] .nil

/-- The names. -/
example : sampleNotes.map (·.note.name) = [str! "12", str! "7", str! "sit.a-b"] := by decide +kernel

instance (x : NoteEntry) : Decidable x.Ok := by unfold NoteEntry.Ok; infer_instance

/-- The hypotheses are met. -/
example : (transpile (roundsBound (textSize (sampleNotes.flatMap NoteEntry.source ++ behindNotes.lines 0))) sampleWriter [] []
      (sampleNotes.flatMap NoteEntry.source ++ behindNotes.lines 0)).text =
    str! "\\footnote{\n\\textit{Sit}\namet.\n\n\\begin{itemize}\n\\item amet.\n\n\\end{itemize}\n\n}\n\n\\footnote{\namet.\n\n}\n\n\\bibitem{Sit.A-b}\namet.\n\namet.\n\n\namet.\n\n" :=
  (C72_output _ sampleWriter [] [] sampleNotes behindNotes (by decide +kernel) (by simp [sampleNotes]) (by decide +kernel) (by decide +kernel)
    (by decide) (Nat.le_refl _) rfl).2.trans (by decide +kernel)

/-- Notes in an item of a list, in a note, and in a section. -/
def notesPaper : Paper where
  lead := []
  pre := .list (.item (.bullet '*') [str! "amet."] [.word (str! "amet.")] [[]]
    (.note ⟨true, str! "1", 4⟩ [str! "amet."] [.word (str! "amet.")] [[]]
      (.note ⟨false, str! "A1", 8⟩ [str! "amet."] [.word (str! "amet.")] [[]] .nil .nil) .nil) .nil) .nil
  secs := [
    { title := str! "Sit", char := '=', over := false, len := 3, gap := [],
      body := .note ⟨true, str! "2", 7⟩ [str! "amet."] [.word (str! "amet.")] [[]] .nil .nil }]

/-- The hypotheses of C56 are met by them. -/
example : (transpile (roundsBound (textSize notesPaper.lines)) sampleWriter [] [] notesPaper.lines).panic = none :=
  (C56_output _ sampleWriter [] [] notesPaper (by decide +kernel) (by decide) (Nat.le_refl _) rfl).1

/-- **Finding.** The label of a footnote is not in the output, and a reference to it does not name it either. -/
theorem C72_label_lost :
    (transpile 60 sampleWriter [] [] [str! ".. [7] a", [], str! ".. [8] b", [], str! "c [8]_"]).text =
      str! "\\footnote{\na\n\n}\n\n\\footnote{\nb\n\n}\n\nc \\footnotemark\n\n" := by
  decide +kernel

/-- **C72 fails in numbered items**, which are read by a parser of their own: the base indentation is not taken into account for the second line,
so that it becomes a block quote behind the footnote. -/
theorem C72_nested_violated :
    (transpile 60 sampleWriter [] [] [str! "1. x", [], str! "   .. [1] a", str! "      b"]).text =
      str! "\\begin{enumerate}\n\\item x\n\n\\footnote{\na\n\n}\n\n\\begin{quotation}\nb\n\n\\end{quotation}\n\n\\end{enumerate}\n\n" := by
  decide +kernel

/-- **Finding.** A footnote whose name has only one letter becomes a comment. -/
theorem C72_short_name_violated :
    (transpile 60 sampleWriter [] [] [str! ".. [#x] a", [], str! ".. [#xy] a"]).text = str! "% [#x] a\n\n\\footnote{\na\n\n}\n\n" := by
  decide +kernel

end Rustla
