import Verif.Props.Lists
/-!
# Definition lists (C71)

`Spec.Term` is the line of a term, `Spec.Defs` a definition list with the blocks of its definitions.
-/
namespace Rustla
open Spec

/-- The run of the loop over blocks and a definition list behind them. -/
theorem defs_run (stem folder : Str) (B : Blocks) (D : Defs) (hB : B.Ok) (hb : B = .nil ∨ BlankLast (B.lines 0)) (hD : D.Ok) (hne : D ≠ .nil)
    (hh : B.height ≤ 7) (hk : D.height ≤ 7) :
    ∃ n d stack t, parseDocument n stem folder (B.lines 0 ++ D.lines 0) = .ok (.eof d stack) ∧ IsDoc d.tree t ∧
      shapeOf t = .node .Document (B.shapes 0 ++ [.node (.DefinitionList 0) (D.shapes 0)]) := by
  let n0 := roundsBound (textSize (B.lines 0 ++ D.lines 0))
  let E : Env := { src := B.lines 0 ++ D.lines 0, baseIndent := 0, nested := parserOf n0 }
  let f : Frame := ⟨.Body, .Document, [], []⟩
  have hf : f.Body E 0 := ⟨.of rfl, .inl rfl, rfl, fun _ => takes_body rfl (by decide)⟩
  have hDl : D.lines 0 ≠ [] := by
    cases D with
    | nil => exact absurd rfl hne
    | term t body rest => simp [Defs.lines]
  have hinit : At E {} [] (LoopState.init (DocTree.new stem folder) 0 .Body 0) [f] (B.lines 0 ++ D.lines 0) 0 := by
    refine ⟨rfl, .mk (cs := []) ⟨rfl, rfl, rfl, rfl, rfl⟩ .nil, ?_, Nat.le_refl _, rfl⟩
    have : (B.lines 0 ++ D.lines 0).isEmpty = false := by
      cases h : B.lines 0 ++ D.lines 0 with
      | nil => exact absurd (List.append_eq_nil_iff.mp h).2 hDl
      | cons => rfl
    simp [stackFor, this, LoopState.init, f]
  have hstart : Starts E 0 none (D.lines 0 ++ []) := starts_defs hD hne
  have hlow : Low 1 (D.lines 0 ++ []) := low_defs hD (fun x hx => by simp at hx)
  obtain ⟨ex, ss, ⟨s1, k1, k2⟩, k3, k4, k5, k6⟩ : ∃ ex ss, Leads E {} [] (LoopState.init (DocTree.new stem folder) 0 .Body 0) (ex ++ [f.add ss]) (D.lines 0 ++ []) 0 ∧
      ss ++ shut [] ex = B.shapes 0 ∧ ex.length ≤ 7 ∧ (∀ e ∈ ex, Deep 0 e) ∧ headCost ex ≤ B.cost := by
    rcases hb with rfl | hb
    · refine ⟨[], [], ?_, rfl, by simp, by simp, by simp [headCost]⟩
      rw [List.nil_append, Frame.add_nil, List.append_nil]
      exact hinit.leads
    · have hinit' : At E {} [] (LoopState.init (DocTree.new stem folder) 0 .Body 0) ([] ++ [f]) (B.lines 0 ++ (D.lines 0 ++ [])) 0 := by
        rw [List.append_nil]; exact hinit
      obtain ⟨ex, ss, k1, k2, k3, k4, k5⟩ := runs_blocks B (E := E) (n := n0) (i := 0) (j := 0) (H := 7) (C := B.cost) (f := f) (fs := []) (ex := [])
        ⟨rfl, rfl⟩ hB (roundsBound_mono (by simp only [textSize_append]; omega)) (.inl rfl) (.inl hb) hlow hh (by omega) (Nat.le_refl _) hf
        (fun e => by cases e) (by simp) (by simp) (fun _ => ⟨rfl, rfl⟩) (by simp) (by simp [headCost]) (by simp) (fun _ => rfl) hinit'
      exact ⟨ex, ss, k1, by simpa [shut] using k2, k3, k4, k5⟩
  obtain ⟨s2, k7, k8⟩ := k2.unwind (i := 0) (j := 0) rfl hstart ex.length ex rfl (fun e he => (k5 e he).shuts_para) (by omega)
  have hopen : Leads E {} [] s2 [defsFrame 0 [], (f.add ss).add (shut [] ex)] (D.lines 0 ++ []) (0 + ex.length + 1) := by
    cases D with
    | nil => exact absurd rfl hne
    | term t body more =>
      obtain ⟨ht, hbne, hbq, hbody, _⟩ := hD
      obtain ⟨l, ls, e, hl⟩ := blocks_front hbody hbne hbq (0 + (t.deep + 1))
      have e2 : Defs.lines 0 (.term t body more) ++ [] = indentLine 0 t.text :: l :: (ls ++ more.lines 0) := by
        rw [List.append_nil, Defs.lines, e]; simp
      rw [e2] at k8 ⊢
      exact AtL.open_defs rfl k8 (by omega) ((hf.add _).add _) ht.line ht.noBreak (fun e => by cases e) hl
  obtain ⟨s3, k9, k10⟩ := hopen
  obtain ⟨ex1, ss1, ⟨s4, k11, k12⟩, k13, k14, k15⟩ := runs_defs D (E := E) (n := n0) (i := 0) (H := 7) (ss0 := []) (ex := []) (after := [])
    ⟨rfl, rfl⟩ hD (roundsBound_mono (by simp only [textSize_append]; omega)) rfl (.inr fun x hx => by simp at hx) (fun x hx => by simp at hx) hk (by omega)
    (by simp) (by simp) (by simp; omega) (fun e => absurd e hne) k10
  obtain ⟨m, d, stack, t, q1, q2, q3⟩ := run_end (f := (f.add ss).add (shut [] ex)) (ex := ex1 ++ [defsFrame 0 ss1]) (stem := stem) (folder := folder)
    (E := E) (lines := B.lines 0 ++ D.lines 0) rfl rfl rfl (((k1.trans k7).trans k9).trans k11) (by rw [List.append_assoc]; exact k12)
  refine ⟨m, d, stack, t, q1, q2, ?_⟩
  have hshut : shut [] (ex1 ++ [defsFrame 0 ss1]) = [.node (.DefinitionList 0) (D.shapes 0)] := by
    rw [shut_append]
    simp only [shut]
    rw [k13]
    simp [ownLabels, shut]
  rw [q3, hshut]
  simp only [Frame.add, f, List.nil_append, k3]
  rfl

/-- **C71.** Lines of text that are each directly followed by lines with a larger indentation become the terms of one definition list, with the
classifiers behind the colons, and every term contains exactly the blocks that are indented below it, each indented as it likes. -/
theorem C71_nodes (fuel : Nat) (stem folder : Str) (B : Blocks) (D : Defs) (hB : B.Ok) (hb : B = .nil ∨ BlankLast (B.lines 0)) (hD : D.Ok) (hne : D ≠ .nil)
    (hh : B.height ≤ 7) (hk : D.height ≤ 7) (hfuel : roundsBound (textSize (B.lines 0 ++ D.lines 0)) ≤ fuel) :
    ∃ doc stack t, parseDocument fuel stem folder (B.lines 0 ++ D.lines 0) = .ok (.eof doc stack) ∧ IsDoc doc.tree t ∧
      shapeOf t = .node .Document (B.shapes 0 ++ [.node (.DefinitionList 0) (D.shapes 0)]) := by
  obtain ⟨n, d, stack, t, h1, h2, h3⟩ := defs_run stem folder B D hB hb hD hne hh hk
  exact ⟨d, stack, t, run_fuel h1 hfuel, h2, h3⟩

/-- **C71.** The output for it. -/
theorem C71_output (fuel : Nat) (w : WriterEnv) (stem folder : Str) (B : Blocks) (D : Defs) (hB : B.Ok) (hb : B = .nil ∨ BlankLast (B.lines 0))
    (hD : D.Ok) (hne : D ≠ .nil) (hh : B.height ≤ 7) (hk : D.height ≤ 7) (hfuel : roundsBound (textSize (B.lines 0 ++ D.lines 0)) ≤ fuel)
    (hfull : w.fullDocument = false) :
    (transpile fuel w stem folder (B.lines 0 ++ D.lines 0)).panic = none ∧
      (transpile fuel w stem folder (B.lines 0 ++ D.lines 0)).text =
        B.latex w 0 ++ str! "\\begin{itemize}\n" ++ D.latex w 0 ++ str! "\\end{itemize}\n\n" := by
  obtain ⟨d, stack, t, h1, h2, h3⟩ := C71_nodes fuel stem folder B D hB hb hD hne hh hk hfuel
  refine run_output h1 h2 h3 ?_
  have hy := Yields.node (d := .DefinitionList 0) (ls := []) (a := str! "\\begin{itemize}\n") (b := str! "\\end{itemize}\n\n")
    (yields_defs w D 0 hD) (fun _ _ => ⟨rfl, rfl⟩) (by simp [NodeType.kind]) (by simp [NodeType.kind])
  have := Yields.node (d := .Document) (ls := []) (a := []) (b := [])
    ((show Yields w (B.shapes 0) (B.text w 0 false) from yields_blocks w B 0 false hB).append hy)
    (fun r _ => ⟨by simp [preString, flag, hfull], by simp [postString, flag, hfull]⟩) (by simp [NodeType.kind]) (by simp [NodeType.kind])
  simpa [Blocks.latex, List.append_assoc] using this

/-- A definition list with three terms, of which the second has classifiers and a list, and the third a definition list in its definition. -/
def sampleDefs : Defs :=
  .term ⟨str! "Sit", [], 1⟩ (.para [str! "*Sit*", str! "amet."] [.emph (str! "Sit"), .space (str! "\n"), .word (str! "amet.")] [] .nil)
  (.term ⟨str! "a: b", [str! "c", str! "d :e"], 3⟩ (.para [str! "amet."] [.word (str! "amet.")] [[]]
      (.list (.item (.bullet '-') [str! "amet."] [.word (str! "amet.")] [[]] .nil .nil) .nil))
  (.term ⟨str! "x & y", [], 0⟩ (.defs (.term ⟨str! "in", [str! "c"], 1⟩ (.para [str! "amet."] [.word (str! "amet.")] [[]] .nil) .nil)
    (.para [str! "amet."] [.word (str! "amet.")] [[]] .nil)) .nil))

/-- Its lines. -/
example : sampleDefs.lines 0 =
    [str! "Sit", str! "  *Sit*", str! "  amet.", str! "a: b : c : d :e", str! "    amet.", [], str! "    - amet.", [],
     str! "x & y", str! " in : c", str! "   amet.", [], str! " amet.", []] := by decide +kernel

/-- The blocks in front of it. -/
def beforeDefs : Blocks := .list (.item (.bullet '*') [str! "amet."] [.word (str! "amet.")] [[]] .nil .nil) .nil

/-- The hypotheses are met. -/
example : (transpile (roundsBound (textSize (beforeDefs.lines 0 ++ sampleDefs.lines 0))) sampleWriter [] [] (beforeDefs.lines 0 ++ sampleDefs.lines 0)).text =
    str! "\\begin{itemize}\n\\item amet.\n\n\\end{itemize}\n\n\\begin{itemize}\n\\item \\textbf{Sit}\n\n\\textit{Sit}\namet.\n\n\n\\item \\textbf{a: b}: c, d :e\n\namet.\n\n\\begin{itemize}\n\\item amet.\n\n\\end{itemize}\n\n\n\\item \\textbf{x & y}\n\n\\begin{itemize}\n\\item \\textbf{ in}: c\n\namet.\n\n\n\\end{itemize}\n\namet.\n\n\n\\end{itemize}\n\n" :=
  (C71_output _ sampleWriter [] [] beforeDefs sampleDefs (by decide +kernel) (by decide +kernel) (by decide +kernel) (by simp [sampleDefs])
    (by decide) (by decide) (Nat.le_refl _) rfl).2.trans (by decide +kernel)

/-- A definition list between paragraphs, in an item of a list in a section. -/
def definitionPaper : Paper where
  lead := []
  pre := .para [str! "amet."] [.word (str! "amet.")] [[]]
    (.defs sampleDefs (.para [str! "amet."] [.word (str! "amet.")] [[]] .nil))
  secs := [
    { title := str! "Sit", char := '=', over := false, len := 3, gap := [],
      body := .list (.item (.bullet '*') [str! "amet."] [.word (str! "amet.")] [[]]
        (.defs (.term ⟨str! "Sit", [str! "c"], 1⟩ (.para [str! "amet."] [.word (str! "amet.")] [[]] .nil) .nil)
          (.para [str! "amet."] [.word (str! "amet.")] [[]] .nil)) .nil) .nil }]

/-- The hypotheses of C56 are met by it. -/
example : (transpile (roundsBound (textSize definitionPaper.lines)) sampleWriter [] [] definitionPaper.lines).panic = none :=
  (C56_output _ sampleWriter [] [] definitionPaper (by decide +kernel) (by decide) (Nat.le_refl _) rfl).1

/-- **C71 fails in front of other blocks.** A list behind a definition list is not read, and everything behind it is lost, without an error message
on the output. -/
theorem C71_rest_lost :
    (transpile 60 sampleWriter [] [] [str! "a", str! "  b", [], str! "* x", [], str! "y"]).text =
      str! "\\begin{itemize}\n\\item \\textbf{a}\n\nb\n\n\n\\end{itemize}\n\n" := by
  decide +kernel

/-- **C71 fails for nested definition lists.** A term behind a definition that ends with a definition list becomes a term of the inner list. -/
theorem C71_nested_violated :
    (transpile 60 sampleWriter [] [] [str! "a", str! "  b", str! "    c", str! "d", str! "  e"]).text =
      str! "\\begin{itemize}\n\\item \\textbf{a}\n\n\\begin{itemize}\n\\item \\textbf{  b}\n\nc\n\n\n\\item \\textbf{d}\n\ne\n\n\n\\end{itemize}\n\n\n\\end{itemize}\n\n" := by
  decide +kernel

/-- **C71 fails if a blank line contains spaces.** A paragraph behind a definition list that is followed by such a line becomes a term. -/
theorem C71_blank_violated :
    (transpile 60 sampleWriter [] [] [str! "a", str! "  b", [], str! "para", str! "   ", str! "next"]).text =
      str! "\\begin{itemize}\n\\item \\textbf{a}\n\nb\n\n\n\\item \\textbf{para}\n\n\n\\end{itemize}\n\nnext\n\n" := by
  decide +kernel

end Rustla
