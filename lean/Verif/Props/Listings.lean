import Verif.Props.Targets
/-!
# The text of code (C80)

The directives `code-block` and `sourcecode` write the lines of the code between `\begin{codeblock}` and `\end{codeblock}`.  The
directive `code` keeps them in its node, but they are not in the output.
-/
namespace Rustla
open Spec

/-- A document that begins with code and goes on with any blocks. -/
def listingBlocks (d : Dir) (gap ls tail : List Str) (rest : Blocks) : Blocks := .leaf (.listing d gap ls tail) tail rest

/-- The lines of such a document. -/
theorem listingBlocks_lines (d : Dir) (gap ls tail : List Str) (rest : Blocks) :
    (listingBlocks d gap ls tail rest).lines 0 = d.lines 0 ++ gap ++ ls.map (contentLine 3) ++ tail ++ rest.lines 0 := by
  simp [listingBlocks, Blocks.lines, Leaf.lines]

theorem listingBlocks_ok {d : Dir} {gap ls tail : List Str} {rest : Blocks} (h : (Leaf.listing d gap ls tail).Ok) (ht : tail ≠ [])
    (hq : ¬ rest.quoted) (hr : rest.Ok) : (listingBlocks d gap ls tail rest).Ok :=
  ⟨h, ⟨ht, rfl, fun l hl => h.2.2.2.1 l (by simp [hl])⟩, hq, hr⟩

theorem unlines_infix : ∀ (a b c : List Str), b ≠ [] → unlines b <:+: unlines (a ++ b ++ c)
  | [], b, c, hb => by
    have : ∀ b : List Str, b ≠ [] → unlines b <+: unlines (b ++ c) := by
      intro b
      induction b with
      | nil => intro h; exact absurd rfl h
      | cons x b ih =>
        intro _
        cases b with
        | nil =>
          cases c with
          | nil => exact List.prefix_rfl
          | cons y c => exact List.prefix_append _ _
        | cons y b =>
          have := ih (by simp)
          simpa [unlines] using this
    simpa using (this b hb).isInfix
  | x :: a, b, c, hb => by
    refine (unlines_infix a b c hb).trans ?_
    cases h : a ++ b ++ c with
    | nil => simp at h; exact absurd h.2.1 hb
    | cons y z =>
      simp only [List.cons_append, h, unlines]
      exact ((List.suffix_cons '\n' _).trans (List.suffix_append x _)).isInfix

/-- **C80.** The lines of the code, with line breaks between them, are a part of the text of the node that the directive `code`
becomes, which has the language and the options of the directive. -/
theorem C80_node_partial (fuel : Nat) (stem folder : Str) (d : Dir) (gap ls tail : List Str) (rest : Blocks)
    (hok : (Leaf.listing d gap ls tail).Ok) (ht : tail ≠ []) (hq : ¬ rest.quoted) (hr : rest.Ok) (hh : rest.height ≤ 8)
    (hfuel : roundsBound (textSize (d.lines 0 ++ gap ++ ls.map (contentLine 3) ++ tail ++ rest.lines 0)) ≤ fuel) :
    ∃ doc stack t text, parseDocument fuel stem folder (d.lines 0 ++ gap ++ ls.map (contentLine 3) ++ tail ++ rest.lines 0) = .ok (.eof doc stack) ∧
      IsDoc doc.tree t ∧ unlines ls <:+: text ∧
      shapeOf t = .node .Document (.node (.Code text (if d.arg = [] then none else some d.arg) (d.get (str! "name")) (d.get (str! "class"))
        (d.get (str! "number-lines"))) [] :: rest.shapes 0) := by
  have hne : (listingBlocks d gap ls tail rest).lines 0 ≠ [] := by rw [listingBlocks_lines]; simp [ht]
  have hc := cost_height rest
  obtain ⟨doc, stack, t, h1, h2, h3⟩ := blocks_nodes fuel stem folder (listingBlocks d gap ls tail rest) (listingBlocks_ok hok ht hq hr) hne
    hh (by show rest.cost ≤ 8; omega) (by rw [listingBlocks_lines]; exact hfuel)
  rw [listingBlocks_lines] at h1
  have hls : ls ≠ [] := by obtain ⟨_, _, _, _, _, ⟨l, hl, _⟩, _⟩ := hok; rintro rfl; cases hl
  exact ⟨doc, stack, t, _, h1, h2, unlines_infix (if d.opts = [] then gap else gap.tail) ls tail hls, h3⟩

/-- **C80.** The output for the directive `code` is an empty environment, whatever the code is. -/
theorem C80_output_partial (fuel : Nat) (w : WriterEnv) (stem folder : Str) (d : Dir) (gap ls tail : List Str) (rest : Blocks)
    (hok : (Leaf.listing d gap ls tail).Ok) (ht : tail ≠ []) (hq : ¬ rest.quoted) (hr : rest.Ok) (hh : rest.height ≤ 8)
    (hfuel : roundsBound (textSize (d.lines 0 ++ gap ++ ls.map (contentLine 3) ++ tail ++ rest.lines 0)) ≤ fuel) (hfull : w.fullDocument = false) :
    (transpile fuel w stem folder (d.lines 0 ++ gap ++ ls.map (contentLine 3) ++ tail ++ rest.lines 0)).panic = none ∧
      (transpile fuel w stem folder (d.lines 0 ++ gap ++ ls.map (contentLine 3) ++ tail ++ rest.lines 0)).text =
        str! "\\begin{codeblock}" ++ (if d.arg = [] then [] else '[' :: d.arg ++ str! "]") ++ str! "\n\\end{codeblock}\n\n" ++ rest.latex w 0 := by
  have hne : (listingBlocks d gap ls tail rest).lines 0 ≠ [] := by rw [listingBlocks_lines]; simp [ht]
  have hc := cost_height rest
  have := blocks_output fuel w stem folder (listingBlocks d gap ls tail rest) (listingBlocks_ok hok ht hq hr) hne
    hh (by show rest.cost ≤ 8; omega) (by rw [listingBlocks_lines]; exact hfuel) hfull
  rw [listingBlocks_lines] at this
  exact this

/-- **C80 is false of the program:** two documents that differ in the code of a directive `code` only, with whatever code, have the
same output. -/
theorem C80_violated (f1 f2 : Nat) (w : WriterEnv) (stem folder : Str) (d : Dir) (gap ls ls' tail : List Str) (rest : Blocks)
    (hok : (Leaf.listing d gap ls tail).Ok) (hok' : (Leaf.listing d gap ls' tail).Ok) (ht : tail ≠ []) (hq : ¬ rest.quoted) (hr : rest.Ok)
    (hh : rest.height ≤ 8) (h1 : roundsBound (textSize (d.lines 0 ++ gap ++ ls.map (contentLine 3) ++ tail ++ rest.lines 0)) ≤ f1)
    (h2 : roundsBound (textSize (d.lines 0 ++ gap ++ ls'.map (contentLine 3) ++ tail ++ rest.lines 0)) ≤ f2) (hfull : w.fullDocument = false) :
    (transpile f1 w stem folder (d.lines 0 ++ gap ++ ls.map (contentLine 3) ++ tail ++ rest.lines 0)).text =
      (transpile f2 w stem folder (d.lines 0 ++ gap ++ ls'.map (contentLine 3) ++ tail ++ rest.lines 0)).text := by
  rw [(C80_output_partial f1 w stem folder d gap ls tail rest hok ht hq hr hh h1 hfull).2,
    (C80_output_partial f2 w stem folder d gap ls' tail rest hok' ht hq hr hh h2 hfull).2]

/-- **C80.** The directives `code-block` and `sourcecode`: the lines of the code stand in the output as they are. -/
theorem C80_blocks (fuel : Nat) (w : WriterEnv) (stem folder : Str) (d : Dir) (gap ls tail : List Str) (rest : Blocks)
    (hok : (Leaf.code d gap ls).Ok) (ht : tail ≠ []) (hte : ∀ l ∈ tail, l = []) (hq : ¬ rest.quoted) (hr : rest.Ok) (hh : rest.height ≤ 8)
    (hfuel : roundsBound (textSize (d.lines 0 ++ gap ++ ls.map (contentLine 3) ++ tail ++ rest.lines 0)) ≤ fuel) (hfull : w.fullDocument = false) :
    (transpile fuel w stem folder (d.lines 0 ++ gap ++ ls.map (contentLine 3) ++ tail ++ rest.lines 0)).panic = none ∧
      (transpile fuel w stem folder (d.lines 0 ++ gap ++ ls.map (contentLine 3) ++ tail ++ rest.lines 0)).text =
        str! "\\begin{codeblock}[" ++ (if d.arg = [] then str! "python" else d.arg) ++ str! "]\n" ++ unlines ls ++
          str! "\n\\end{codeblock}\n\n" ++ rest.latex w 0 := by
  have e : (Blocks.leaf (.code d gap ls) tail rest).lines 0 = d.lines 0 ++ gap ++ ls.map (contentLine 3) ++ tail ++ rest.lines 0 := by
    simp [Blocks.lines, Leaf.lines]
  have hne : (Blocks.leaf (.code d gap ls) tail rest).lines 0 ≠ [] := by rw [e]; simp [ht]
  have hc := cost_height rest
  have := blocks_output fuel w stem folder (.leaf (.code d gap ls) tail rest) ⟨hok, ⟨ht, hte⟩, hq, hr⟩ hne
    hh (by show rest.cost ≤ 8; omega) (by rw [e]; exact hfuel) hfull
  rw [e] at this
  exact this

/-- The code of an example. -/
def sampleListing : List Str := [str! ".. code:: c", str! "   :number-lines: 1", [], str! "   int a;", [], str! "     a++;", [], str! "b", []]

/-- The hypotheses are met by code with an option before a paragraph: the code is lost. -/
example : (transpile (roundsBound (textSize sampleListing)) sampleWriter [] [] sampleListing).text =
    str! "\\begin{codeblock}[c]\n\\end{codeblock}\n\nb\n\n" :=
  ((C80_output_partial _ sampleWriter [] [] ⟨str! "code", str! "c", [(str! "number-lines", str! "1")]⟩ [[]] [str! "int a;", [], str! "  a++;"] [[]]
    (.para [str! "b"] [.word (str! "b")] [[]] .nil) (by decide +kernel) (by decide) (by decide +kernel) (by decide +kernel) (by decide +kernel)
    (Nat.le_refl _) rfl).2).trans (by decide +kernel)

/-- The same code with `code-block`. -/
example : (transpile (roundsBound (textSize [str! ".. code-block:: c", [], str! "   int a;", [], str! "     a++;", [], str! "b", []])) sampleWriter [] []
      [str! ".. code-block:: c", [], str! "   int a;", [], str! "     a++;", [], str! "b", []]).text =
    str! "\\begin{codeblock}[c]\nint a;\n\n  a++;\n\\end{codeblock}\n\nb\n\n" :=
  ((C80_blocks _ sampleWriter [] [] ⟨str! "code-block", str! "c", []⟩ [[]] [str! "int a;", [], str! "  a++;"] [[]]
    (.para [str! "b"] [.word (str! "b")] [[]] .nil) (by decide +kernel) (by decide) (by decide) (by decide +kernel) (by decide +kernel) (by decide +kernel)
    (Nat.le_refl _) rfl).2).trans (by decide +kernel)

end Rustla
