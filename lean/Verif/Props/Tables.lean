import Verif.Props.Questionnaires
/-!
# List tables (C76)

`Spec.Table` is a list table: a directive with a list of rows in it, each of them a list of cells.
-/
namespace Rustla
open Spec

/-- The lines of a document that consists of one list table: the directive with its options, blank lines, and the rows, which are indented
by three spaces. -/
def tableSource (T : Table) : List Str := T.dir.lines 0 ++ T.gap ++ T.rows.flatMap (Row.lines T.bullet 3)

theorem tableSource_eq (T : Table) : (Part.table T).lines 0 = tableSource T := by simp [tableSource, Part.lines, Table.lines]

theorem tableSource_ne {T : Table} (h : T.Ok) : tableSource T ≠ [] := by simp [tableSource, h.gap.1]

/-- **C76.** A list table becomes one node that records its title, the widths of its columns, its own width, the numbers of header rows
and stub columns, and its alignment as they are given in the source; if the widths of the columns are not given, then all columns of the
longest row have the same width and together that of the text.  The node contains one list with an item for each row, and each row contains one list
with an item for each cell, in order and with exactly the text of the cell. -/
theorem C76_nodes (fuel : Nat) (stem folder : Str) (T : Table) (h : T.Ok) (hfuel : roundsBound (textSize (tableSource T)) ≤ fuel) :
    ∃ doc stack t, parseDocument fuel stem folder (tableSource T) = .ok (.eof doc stack) ∧ IsDoc doc.tree t ∧
      shapeOf t = .node .Document [.node (T.node 3) [.node (.BulletList T.bullet 3 5) (T.rows.map (Row.shape T.bullet 3))]] := by
  have e := tableSource_eq T
  have := C56_documents fuel stem folder (partPaper (.table T)) (partPaper_ok h (by simp [Part.cost]))
    (by rw [partPaper_lines, e]; exact tableSource_ne h) (by rw [partPaper_lines, e]; exact hfuel)
  rw [partPaper_lines, e] at this
  simpa [Paper.shape, partPaper, Blocks.shapes, Part.shapes, withLevels, forest, Table.shape] using this

/-- **C76.** The output for it: one environment with the title, one column for each width, and in each row the texts of its cells with
separators between them. -/
theorem C76_output (fuel : Nat) (w : WriterEnv) (stem folder : Str) (T : Table) (h : T.Ok)
    (hfuel : roundsBound (textSize (tableSource T)) ≤ fuel) (hfull : w.fullDocument = false) :
    (transpile fuel w stem folder (tableSource T)).panic = none ∧
      (transpile fuel w stem folder (tableSource T)).text =
        str! "\\begin{tabular}" ++ (if T.dir.arg = [] then [] else str! "[title=" ++ T.dir.arg ++ str! "]") ++ str! "{" ++
        T.widths.latex w T.columns ++ str! "}\n" ++ (T.rows.map Row.latex).flatten ++ str! "\n\\end{tabular}\n\n" := by
  have e := tableSource_eq T
  have := C56_output fuel w stem folder (partPaper (.table T)) (partPaper_ok h (by simp [Part.cost]))
    (by rw [partPaper_lines, e]; exact tableSource_ne h) (by rw [partPaper_lines, e]; exact hfuel) hfull
  rw [partPaper_lines, e] at this
  simpa [Paper.latex, partPaper, Blocks.text, Part.latex, withLevels, Blocks.latex, Table.latex, List.append_assoc] using this

/-- **C76.** A number that is given as an option of a directive is read if it can be stored, with or without a plus sign; nothing else than
digits is read as a number. -/
theorem C76_numbers (bits n : Nat) (t : Str) :
    parseUint bits (decimal n) = (if n < 2 ^ bits then some n else none) ∧
    parseUint bits ('+' :: decimal n) = (if n < 2 ^ bits then some n else none) ∧
    ((∃ c ∈ t, c ≠ '+' ∧ ¬ ('0' ≤ c ∧ c ≤ '9')) → parseUint bits t = none) := by
  have hd := decimal_clsDigit n
  have hne := decimal_ne_nil n
  have hall : (decimal n).all clsDigit = true := by rw [List.all_eq_true]; exact hd
  have hempty : (decimal n).isEmpty = false := by cases h : decimal n with
    | nil => exact absurd h hne
    | cons => rfl
  refine ⟨?_, ?_, ?_⟩
  · have hplus : ¬ ((decimal n).head? == some '+') = true := by
      obtain ⟨c, cs, e⟩ := List.exists_cons_of_ne_nil hne
      have hc := hd c (by rw [e]; simp)
      rw [e]
      simp only [List.head?_cons, beq_iff_eq, Option.some.injEq]
      rintro rfl
      revert hc; decide
    simp [parseUint, hplus, hall, hempty, digitsVal_decimal]
  · simp only [parseUint, List.head?_cons, beq_self_eq_true, if_true, List.drop_succ_cons, List.drop_zero, hall, hempty, digitsVal_decimal]
    rfl
  · rintro ⟨c, hc, hp, hn⟩
    have hx : ∀ s : Str, c ∈ s → s.all clsDigit = false := by
      intro s hs
      rw [List.all_eq_false]
      refine ⟨c, hs, ?_⟩
      simpa [clsDigit, Char.isDigit] using hn
    have hc' : c ∈ (if t.head? == some '+' then t.drop 1 else t) := by
      split
      · rename_i e
        cases t with
        | nil => cases hc
        | cons a t =>
          rcases List.mem_cons.mp hc with rfl | hc
          · simp at e; exact absurd e hp
          · simpa using hc
      · exact hc
    simp only [parseUint, hx _ hc', Bool.not_false, Bool.or_true, if_true]

/-- A cell with one word. -/
def cell (t : Str) : Cell := ⟨[t], [.word t]⟩

/-- A list table with two rows of different lengths. -/
def sampleListTable : Table :=
  ⟨⟨str! "list-table", str! "Sit amet", [(str! "header-rows", str! "1"), (str! "align", str! "center"), (str! "width", str! "50%")]⟩, .same, [[]], '*',
    [⟨'-', [⟨[str! "*a*", str! "b."], [.emph (str! "a"), .space (str! "\n"), .word (str! "b.")]⟩, cell (str! "amet.")], [[], []]⟩,
     ⟨'+', [cell (str! "c"), cell (str! "5%"), cell (str! "d")], []⟩]⟩

/-- Its lines. -/
example : tableSource sampleListTable =
    [str! ".. list-table:: Sit amet", str! "   :header-rows: 1", str! "   :align: center", str! "   :width: 50%", [], str! "   * - *a*", str! "       b.",
     str! "     - amet.", [], [], str! "   * + c", str! "     + 5%", str! "     + d"] := by decide +kernel

theorem sampleListTable_ok : sampleListTable.Ok :=
  ⟨by decide +kernel, by decide +kernel, by decide +kernel, trivial, by decide, by decide, by decide, by
    intro r hr
    rcases List.mem_cons.mp hr with rfl | hr
    · exact ⟨by decide, by decide, by decide +kernel, by decide⟩
    · obtain rfl := List.mem_singleton.mp hr
      exact ⟨by decide, by decide, by decide +kernel, by decide⟩⟩

/-- The hypotheses are met. -/
example : (transpile (roundsBound (textSize (tableSource sampleListTable))) { sampleWriter with twoDecimals := fun x => decimal x.num ++ str! "/" ++ decimal x.den } [] []
      (tableSource sampleListTable)).text =
    str! "\\begin{tabular}[title=Sit amet]{p{1/3\\textwidth}p{1/3\\textwidth}p{1/3\\textwidth}}\n\\textit{a}\nb.\n\n&\namet.\n\n\\\\\nc\n\n&\n5\\%\n\n&\nd\n\n\\\\\n\n\\end{tabular}\n\n" :=
  (C76_output _ { sampleWriter with twoDecimals := fun x => decimal x.num ++ str! "/" ++ decimal x.den } [] [] sampleListTable sampleListTable_ok
    (Nat.le_refl _) rfl).2.trans (by decide +kernel)

example : ∃ doc stack t, parseDocument (roundsBound (textSize (tableSource sampleListTable))) [] [] (tableSource sampleListTable) = .ok (.eof doc stack) ∧
    IsDoc doc.tree t ∧ shapeOf t = .node .Document [.node (.ListTable 3 (some (str! "Sit amet")) (some (.Columns [⟨1, 3⟩, ⟨1, 3⟩, ⟨1, 3⟩]))
      (some (.Percentage ⟨50, 1⟩)) (some 1) none (some .Center)) [.node (.BulletList '*' 3 5) (sampleListTable.rows.map (Row.shape '*' 3))]] :=
  C76_nodes _ [] [] sampleListTable sampleListTable_ok (Nat.le_refl _)

/-- A table with given widths. -/
def wideTable : Table := ⟨⟨str! "list-table", [], [(str! "widths", str! "30 70.5")]⟩, .given ⟨30, []⟩ [⟨70, str! "5"⟩], [[]], '*',
  [⟨'-', [cell (str! "a"), cell (str! "b")], []⟩]⟩

theorem wideTable_ok : wideTable.Ok :=
  ⟨by decide +kernel, by decide +kernel, by decide +kernel, by decide, by decide, by decide, by decide, by
    intro r hr
    obtain rfl := List.mem_singleton.mp hr
    exact ⟨by decide, by decide, by decide +kernel, by decide⟩⟩

/-- **Widths are not shares.** Widths that are given are not divided by their sum, as they should be: columns with the widths 30 and 70.5
are thirty and seventy times as wide as the text, whatever the format of the numbers. -/
theorem C76_widths_violated (fuel : Nat) (w : WriterEnv) (hw : w.fullDocument = false)
    (hfuel : roundsBound (textSize [str! ".. list-table::", str! "   :widths: 30 70.5", [], str! "   * - a", str! "     - b"]) ≤ fuel) :
    (transpile fuel w [] [] [str! ".. list-table::", str! "   :widths: 30 70.5", [], str! "   * - a", str! "     - b"]).text =
      str! "\\begin{tabular}{p{" ++ w.twoDecimals ⟨30, 1⟩ ++ str! "\\textwidth}p{" ++ w.twoDecimals ⟨705, 10⟩ ++
        str! "\\textwidth}}\na\n\n&\nb\n\n\\\\\n\n\\end{tabular}\n\n" := by
  have e : tableSource wideTable = [str! ".. list-table::", str! "   :widths: 30 70.5", [], str! "   * - a", str! "     - b"] := by decide +kernel
  rw [← e] at hfuel ⊢
  rw [(C76_output fuel w [] [] wideTable wideTable_ok hfuel hw).2]
  have e1 : Number.value ⟨30, []⟩ = ⟨30, 1⟩ := by decide
  have e2 : Number.value ⟨70, str! "5"⟩ = ⟨705, 10⟩ := by decide
  have e3 : (wideTable.rows.map Row.latex).flatten = str! "a\n\n&\nb\n\n\\\\\n" := by decide +kernel
  rw [e3]
  simp [wideTable, Widths.latex, columnLatex, e1, e2]

end Rustla
