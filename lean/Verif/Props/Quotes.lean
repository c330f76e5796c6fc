import Verif.Props.Literals
/-!
# Block quotes (C68)

`Spec.Signature` is the attribution at the end of a block quote.
-/
namespace Rustla
open Spec

/-- The lines of a document that consists of a paragraph, blank lines, and blocks that are indented by `k + 1` spaces, with an
attribution or without one. -/
def quoteSource (g gap : List Str) (k : Nat) (body : Blocks) (sign : Option Signature) : List Str :=
  g ++ gap ++ body.lines (k + 1) ++ signLines (k + 1) sign

/-- The document. -/
def quotePaper (g : List Str) (ps : List Piece) (gap : List Str) (k : Nat) (body : Blocks) (sign : Option Signature) : Paper :=
  ⟨[], .para g ps gap (.quote k body sign .nil), [], []⟩

theorem quotePaper_lines (g : List Str) (ps : List Piece) (gap : List Str) (k : Nat) (body : Blocks) (sign : Option Signature) :
    (quotePaper g ps gap k body sign).lines = quoteSource g gap k body sign := by
  simp [quotePaper, quoteSource, Paper.lines, Blocks.lines, indentLine_zero]

theorem quotePaper_ok {g : List Str} {ps : List Piece} {gap : List Str} {k : Nat} {body : Blocks} {sign : Option Signature}
    (hp : Para g ps) (hg : gap ≠ [] ∧ ∀ l ∈ gap, isBlank l = true) (hne : body ≠ .nil) (hq : ¬ body.quoted) (hd : body.Undashed)
    (hb : body.Ok) (hs : ∀ s, sign = some s → s.Ok ∧ BlankLast (body.lines 0)) (hh : body.height ≤ 7) :
    (quotePaper g ps gap k body sign).Ok :=
  ⟨by simp [quotePaper],
    ⟨hp, hg.2, fun e => absurd e hg.1, hne, hq, hd, hb, fun _ => id, fun s e => ⟨(hs s e).1, (hs s e).2, fun _ => rfl⟩, trivial⟩,
    trivial, by simp [quotePaper], trivial, by simp [Paper.height, Paper.bodies, quotePaper, Blocks.height]; omega,
    by have := cost_height body; simp [Paper.cost, Paper.bodies, Paper.styles, quotePaper, Blocks.cost]; omega⟩

/-- **C68.** Blocks behind a paragraph that are indented further than the paragraph become the children of one block quote, however far
they are indented; two hyphens or a dash at the end start the attribution, whose lines are joined by spaces. -/
theorem C68_nodes (fuel : Nat) (stem folder : Str) (g : List Str) (ps : List Piece) (gap : List Str) (k : Nat) (body : Blocks)
    (sign : Option Signature) (hp : Para g ps) (hg : gap ≠ [] ∧ ∀ l ∈ gap, isBlank l = true) (hne : body ≠ .nil) (hq : ¬ body.quoted)
    (hd : body.Undashed) (hb : body.Ok) (hs : ∀ s, sign = some s → s.Ok ∧ BlankLast (body.lines 0)) (hh : body.height ≤ 7)
    (hfuel : roundsBound (textSize (quoteSource g gap k body sign)) ≤ fuel) :
    ∃ doc stack t, parseDocument fuel stem folder (quoteSource g gap k body sign) = .ok (.eof doc stack) ∧ IsDoc doc.tree t ∧
      shapeOf t = .node .Document [paragraphShape 0 ps, .node (.BlockQuote (k + 1)) (body.shapes (k + 1) ++ signShapes sign)] := by
  have e := quotePaper_lines g ps gap k body sign
  have := C56_documents fuel stem folder (quotePaper g ps gap k body sign) (quotePaper_ok hp hg hne hq hd hb hs hh)
    (by rw [e]; simp [quoteSource, hg.1]) (by rw [e]; exact hfuel)
  rw [e] at this
  simpa [Paper.shape, quotePaper, Blocks.shapes, withLevels, forest] using this

/-- **C68.** The output for it. -/
theorem C68_output (fuel : Nat) (w : WriterEnv) (stem folder : Str) (g : List Str) (ps : List Piece) (gap : List Str) (k : Nat) (body : Blocks)
    (sign : Option Signature) (hp : Para g ps) (hg : gap ≠ [] ∧ ∀ l ∈ gap, isBlank l = true) (hne : body ≠ .nil) (hq : ¬ body.quoted)
    (hd : body.Undashed) (hb : body.Ok) (hs : ∀ s, sign = some s → s.Ok ∧ BlankLast (body.lines 0)) (hh : body.height ≤ 7)
    (hfuel : roundsBound (textSize (quoteSource g gap k body sign)) ≤ fuel) (hfull : w.fullDocument = false) :
    (transpile fuel w stem folder (quoteSource g gap k body sign)).panic = none ∧
      (transpile fuel w stem folder (quoteSource g gap k body sign)).text =
        paragraphLatex ps ++ str! "\\begin{quotation}\n" ++ body.latex w (k + 1) ++ signLatex sign ++ str! "\\end{quotation}\n\n" := by
  have e := quotePaper_lines g ps gap k body sign
  have := C56_output fuel w stem folder (quotePaper g ps gap k body sign) (quotePaper_ok hp hg hne hq hd hb hs hh)
    (by rw [e]; simp [quoteSource, hg.1]) (by rw [e]; exact hfuel) hfull
  rw [e] at this
  simpa [Paper.latex, quotePaper, Blocks.text, withLevels, Blocks.latex, Nat.zero_add] using this

/-- A block quote with a list and an attribution on two lines. -/
def sampleQuote : Blocks :=
  .para [str! "*Sit*", str! "amet."] [.emph (str! "Sit"), .space (str! "\n"), .word (str! "amet.")] [[]]
    (.list (.item (.bullet '-') [str! "amet."] [.word (str! "amet.")] [[]] .nil .nil) .nil)

/-- Its attribution. -/
def sampleSignature : Signature := ⟨str! "--", 1, str! "Lorem I.,", 3, [str! "Dolor"], [[]]⟩

/-- Their lines. -/
example : quoteSource [str! "amet."] [[]] 1 sampleQuote (some sampleSignature) =
    [str! "amet.", [], str! "  *Sit*", str! "  amet.", [], str! "  - amet.", [], str! "  -- Lorem I.,", str! "     Dolor", []] := by
  decide +kernel

/-- The hypotheses are met. -/
example : (transpile (roundsBound (textSize (quoteSource [str! "amet."] [[]] 1 sampleQuote (some sampleSignature)))) sampleWriter [] []
      (quoteSource [str! "amet."] [[]] 1 sampleQuote (some sampleSignature))).text =
    str! "amet.\n\n\\begin{quotation}\n\\textit{Sit}\namet.\n\n\\begin{itemize}\n\\item amet.\n\n\\end{itemize}\n\n-- Lorem I., Dolor\n\\end{quotation}\n\n" :=
  (C68_output _ sampleWriter [] [] _ [.word (str! "amet.")] _ 1 sampleQuote (some sampleSignature) (by decide +kernel) (by decide) (by simp [sampleQuote])
    (by decide) (by decide +kernel) (by decide +kernel) (by intro s hs; cases hs; decide +kernel) (by decide) (Nat.le_refl _) rfl).2.trans (by decide +kernel)

/-- A block quote in a block quote, which is in an item of a list, and two block quotes that are separated by an attribution. -/
def quotedPaper : Paper where
  lead := []
  pre := .list (.item (.bullet '*') [str! "amet."] [.word (str! "amet.")] [[]]
      (.quote 1 (.para [str! "amet."] [.word (str! "amet.")] [[]]
        (.quote 3 (.para [str! "amet."] [.word (str! "amet.")] [[], []] .nil) none .nil))
        (some ⟨str! "—", 0, str! "- sit  ", 0, [], [str! " "]⟩)
      (.quote 0 (.para [str! "amet."] [.word (str! "amet.")] [[]] .nil) none .nil)) .nil)
    (.para [str! "-- sit"] [.word (str! "--"), .space (str! " "), .word (str! "sit")] [[]] .nil)
  secs := [
    { title := str! "-- Sit", char := '=', over := false, len := 6, gap := [],
      body := .quote 2 (.para [str! "amet."] [.word (str! "amet.")] [[]] .nil) none .nil },
    { title := str! "Sit", char := '-', over := true, len := 5, gap := [], body := .nil }]

/-- The lines of the document. -/
example : quotedPaper.lines =
    [str! "* amet.", [], str! "    amet.", [], str! "        amet.", [], [], str! "    —- sit  ", str! " ", str! "   amet.", [],
     str! "-- sit", [], str! "-- Sit", str! "======", str! "   amet.", [], str! "-----", str! "Sit", str! "-----"] := by decide +kernel

/-- The hypotheses of C56 are met by it. -/
example : (transpile (roundsBound (textSize quotedPaper.lines)) sampleWriter [] [] quotedPaper.lines).text =
      str! "\\begin{itemize}\n\\item amet.\n\n\\begin{quotation}\namet.\n\n\\begin{quotation}\namet.\n\n\\end{quotation}\n\n-- - sit\n\\end{quotation}\n\n\\begin{quotation}\namet.\n\n\\end{quotation}\n\n\\end{itemize}\n\n-- sit\n\n\\rstlabel{-- sit}\n\\chapter{-- Sit}\n\n\\begin{quotation}\namet.\n\n\\end{quotation}\n\n\\rstlabel{sit}\n\\section{Sit}\n\n" :=
  (C56_output _ sampleWriter [] [] quotedPaper (by decide +kernel) (by decide) (Nat.le_refl _) rfl).2.trans (by decide +kernel)

/-- **C68 fails for three hyphens.** The third one becomes part of the attribution. -/
theorem C68_hyphens_violated :
    (transpile 60 sampleWriter [] [] [str! "a", [], str! "  b", [], str! "  --- C"]).text =
      str! "a\n\n\\begin{quotation}\nb\n\n-- - C\n\\end{quotation}\n\n" := by
  decide +kernel

/-- **C68 fails in a note.** The blocks of a note are read by a parser of its own, which removes the indentation of the note from the
attribution a second time, and three characters are lost; a second line of the attribution becomes a block quote. -/
theorem C68_nested_violated :
    (transpile 60 sampleWriter [] [] [str! ".. note::", [], str! "   a", [], str! "     b", [], str! "     -- Author", str! "       more", [], str! "   c"]).text =
      str! "\\begin{note}\na\n\n\\begin{quotation}\nb\n\n-- hor\n\\end{quotation}\n\n\\begin{quotation}\nmore\n\n\\end{quotation}\n\nc\n\n\\end{note}\n\n" := by
  decide +kernel

end Rustla
