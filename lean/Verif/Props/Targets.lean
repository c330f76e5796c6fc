import Verif.Props.Rules
import Verif.Props.Directives
/-!
# Hyperlink targets (C74)

The targets before a title become labels of its section, and those before a formula or a figure become labels of the formula or of the
figure.  The labels of all other nodes are not written.
-/
namespace Rustla
open Spec

/-- Blocks, targets and a section. -/
def targetPaper (lead : List Str) (B : Blocks) (ts : List Target) (s : Sec) : Paper := ⟨lead, B, [{ s with targets := ts }], []⟩

theorem targetPaper_lines (lead : List Str) (B : Blocks) (ts : List Target) (s : Sec) :
    (targetPaper lead B ts s).lines = lead ++ B.lines 0 ++ targetLines ts ++ s.heading ++ s.gap ++ s.body.lines 0 ++ ruledLines s.more := by
  simp [Paper.lines, targetPaper, ruledLines, Sec.lines, Sec.heading]

theorem targetPaper_ok {lead : List Str} {B : Blocks} {ts : List Target} {s : Sec} (hl : ∀ l ∈ lead, isBlank l = true) (hB : B.Ok)
    (hb : BlankLast (B.lines 0)) (ht : ∀ t ∈ ts, t.Ok) (hs : s.Ok) (hd : ∀ b ∈ B :: s.bodies, b.height ≤ 8 ∧ b.cost ≤ 8) :
    (targetPaper lead B ts s).Ok := by
  have hbo : (targetPaper lead B ts s).bodies = B :: s.bodies := by simp [Paper.bodies, targetPaper, Sec.bodies]
  refine ⟨hl, hB, trivial, ?_, ⟨hb, trivial⟩, ?_, ?_⟩
  · intro x hx
    obtain rfl := List.mem_singleton.mp hx
    exact ⟨hs.1, hs.2.1, hs.2.2.1, hs.2.2.2.1, hs.2.2.2.2.1, hs.2.2.2.2.2.1, hs.2.2.2.2.2.2.1, ht⟩
  · rw [Paper.height, hbo]
    refine foldr_max_le fun x hx => ?_
    obtain ⟨b, h1, rfl⟩ := List.mem_map.mp hx
    exact (hd b h1).1
  · have hst : (targetPaper lead B ts s).styles = 1 := rfl
    have : (targetPaper lead B ts s).cost ≤ 8 := by
      rw [Paper.cost, hbo]
      refine foldr_max_le fun x hx => ?_
      obtain ⟨b, h1, rfl⟩ := List.mem_map.mp hx
      exact (hd b h1).2
    omega

/-- **C74.** Hyperlink targets without content before a title, between blank lines or directly below each other, become no nodes: they
close all lists, quotes, directives and notes that are open before them, and the section has their names as labels, in order and with
normalised case and white space, before the label that stands for the title. -/
theorem C74_nodes (fuel : Nat) (stem folder : Str) (lead : List Str) (B : Blocks) (ts : List Target) (s : Sec) (hl : ∀ l ∈ lead, isBlank l = true)
    (hB : B.Ok) (hb : BlankLast (B.lines 0)) (ht : ∀ t ∈ ts, t.Ok) (hs : s.Ok) (hd : ∀ b ∈ B :: s.bodies, b.height ≤ 8 ∧ b.cost ≤ 8)
    (hfuel : roundsBound (textSize (lead ++ B.lines 0 ++ targetLines ts ++ s.heading ++ s.gap ++ s.body.lines 0 ++ ruledLines s.more)) ≤ fuel) :
    ∃ d stack t, parseDocument fuel stem folder (lead ++ B.lines 0 ++ targetLines ts ++ s.heading ++ s.gap ++ s.body.lines 0 ++ ruledLines s.more) =
        .ok (.eof d stack) ∧ IsDoc d.tree t ∧
      shapeOf t = .node .Document (B.shapes 0 ++ [.labelled (.Section (trim s.title) 1 s.style)
        (ts.map (fun t => normalizeRefname t.name) ++ [normalizeRefname (trim s.title)]) (s.body.shapes 0 ++ ruledShapes s.more)]) := by
  have := C56_documents fuel stem folder (targetPaper lead B ts s) (targetPaper_ok hl hB hb ht hs hd)
    (by rw [targetPaper_lines]; simp [Sec.heading]) (by rw [targetPaper_lines]; exact hfuel)
  rw [targetPaper_lines] at this
  obtain ⟨d, stack, t, h1, h2, h3⟩ := this
  refine ⟨d, stack, t, h1, h2, h3.trans ?_⟩
  simp only [Paper.shape, targetPaper, withLevels, List.idxOf_nil, forest, List.takeWhile_nil, List.dropWhile_nil, ruledShapes, List.map_nil,
    List.flatten_nil, List.append_nil]
  rfl

/-- **C74.** In the output, the section starts with an anchor for every target before its title, in order, and then one for the title. -/
theorem C74_output (fuel : Nat) (w : WriterEnv) (stem folder : Str) (lead : List Str) (B : Blocks) (ts : List Target) (s : Sec)
    (hl : ∀ l ∈ lead, isBlank l = true) (hB : B.Ok) (hb : BlankLast (B.lines 0)) (ht : ∀ t ∈ ts, t.Ok) (hs : s.Ok)
    (hd : ∀ b ∈ B :: s.bodies, b.height ≤ 8 ∧ b.cost ≤ 8)
    (hfuel : roundsBound (textSize (lead ++ B.lines 0 ++ targetLines ts ++ s.heading ++ s.gap ++ s.body.lines 0 ++ ruledLines s.more)) ≤ fuel)
    (hfull : w.fullDocument = false) :
    (transpile fuel w stem folder (lead ++ B.lines 0 ++ targetLines ts ++ s.heading ++ s.gap ++ s.body.lines 0 ++ ruledLines s.more)).panic = none ∧
    (transpile fuel w stem folder (lead ++ B.lines 0 ++ targetLines ts ++ s.heading ++ s.gap ++ s.body.lines 0 ++ ruledLines s.more)).text =
      B.latex w 0 ++ (ts.map fun t => str! "\\rstlabel{" ++ normalizeRefname t.name ++ str! "}\n").flatten ++
      str! "\\rstlabel{" ++ normalizeRefname (trim s.title) ++ str! "}\n\\chapter{" ++ trim s.title ++ str! "}\n\n" ++
      s.body.latex w 0 ++ ruledLatex w s.more := by
  have := C56_output fuel w stem folder (targetPaper lead B ts s) (targetPaper_ok hl hB hb ht hs hd)
    (by rw [targetPaper_lines]; simp [Sec.heading]) (by rw [targetPaper_lines]; exact hfuel) hfull
  rw [targetPaper_lines] at this
  refine ⟨this.1, this.2.trans ?_⟩
  simp [Paper.latex, targetPaper, withLevels, ruledLatex, Sec.latex, Sec.labels, titleCommand, Target.label, Function.comp_def]

/-- A list, three targets and a section. -/
def sampleTargets : Blocks × List Target × Sec :=
  (.list (.item (.bullet '*') [str! "amet."] [.word (str! "amet.")] [[]] .nil .nil) .nil,
   [⟨str! "My  Label", [], []⟩, ⟨str! "dolor", [('-', str! "Sit")], [[], str! "  "]⟩, ⟨str! "x", [(':', str! "42")], []⟩],
   { title := str! "Lorem ipsum", char := '=', over := false, len := 11, gap := [[]],
     body := .para [str! "dolor"] [.word (str! "dolor")] [] .nil })

/-- The hypotheses are met by the sample, and this is the output for it. -/
example : ([] : List Str) ++ sampleTargets.1.lines 0 ++ targetLines sampleTargets.2.1 ++ sampleTargets.2.2.heading ++ sampleTargets.2.2.gap ++
        sampleTargets.2.2.body.lines 0 ++ ruledLines sampleTargets.2.2.more =
      [str! "* amet.", [], str! ".. _My  Label:", str! ".. _dolor-Sit:", [], str! "  ", str! ".. _x:42:", str! "Lorem ipsum", str! "===========", [],
        str! "dolor"] ∧
    (transpile (roundsBound (textSize (([] : List Str) ++ sampleTargets.1.lines 0 ++ targetLines sampleTargets.2.1 ++ sampleTargets.2.2.heading ++
        sampleTargets.2.2.gap ++ sampleTargets.2.2.body.lines 0 ++ ruledLines sampleTargets.2.2.more))) sampleWriter [] []
      (([] : List Str) ++ sampleTargets.1.lines 0 ++ targetLines sampleTargets.2.1 ++ sampleTargets.2.2.heading ++ sampleTargets.2.2.gap ++
        sampleTargets.2.2.body.lines 0 ++ ruledLines sampleTargets.2.2.more)).text =
      str! "\\begin{itemize}\n\\item amet.\n\n\\end{itemize}\n\n\\rstlabel{my label}\n\\rstlabel{dolor-sit}\n\\rstlabel{x:42}\n\\rstlabel{lorem ipsum}\n\\chapter{Lorem ipsum}\n\ndolor\n\n" :=
  ⟨by decide, (C74_output _ sampleWriter [] [] [] sampleTargets.1 sampleTargets.2.1 sampleTargets.2.2 (by simp) (by decide) (by decide) (by decide)
    (by decide) (by decide) (Nat.le_refl _) rfl).2.trans (by decide +kernel)⟩

/-- A document that is a sequence of blocks. -/
def blocksPaper (B : Blocks) : Paper := ⟨[], B, [], []⟩

theorem blocksPaper_lines (B : Blocks) : (blocksPaper B).lines = B.lines 0 := by simp [blocksPaper, Paper.lines]

theorem blocksPaper_ok {B : Blocks} (hB : B.Ok) (hh : B.height ≤ 8) (hc : B.cost ≤ 8) : (blocksPaper B).Ok :=
  ⟨by simp [blocksPaper], hB, trivial, by simp [blocksPaper], trivial, by simp [Paper.height, Paper.bodies, blocksPaper]; omega,
    by simp [Paper.cost, Paper.bodies, Paper.styles, blocksPaper]; omega⟩

theorem blocks_nodes (fuel : Nat) (stem folder : Str) (B : Blocks) (hB : B.Ok) (hne : B.lines 0 ≠ []) (hh : B.height ≤ 8) (hc : B.cost ≤ 8)
    (hfuel : roundsBound (textSize (B.lines 0)) ≤ fuel) :
    ∃ d stack t, parseDocument fuel stem folder (B.lines 0) = .ok (.eof d stack) ∧ IsDoc d.tree t ∧ shapeOf t = .node .Document (B.shapes 0) := by
  have := C56_documents fuel stem folder (blocksPaper B) (blocksPaper_ok hB hh hc) (by rwa [blocksPaper_lines]) (by rwa [blocksPaper_lines])
  rw [blocksPaper_lines] at this
  simpa [Paper.shape, blocksPaper, withLevels, forest] using this

theorem blocks_output (fuel : Nat) (w : WriterEnv) (stem folder : Str) (B : Blocks) (hB : B.Ok) (hne : B.lines 0 ≠ []) (hh : B.height ≤ 8)
    (hc : B.cost ≤ 8) (hfuel : roundsBound (textSize (B.lines 0)) ≤ fuel) (hfull : w.fullDocument = false) :
    (transpile fuel w stem folder (B.lines 0)).panic = none ∧ (transpile fuel w stem folder (B.lines 0)).text = B.latex w 0 := by
  have := C56_output fuel w stem folder (blocksPaper B) (blocksPaper_ok hB hh hc) (by rwa [blocksPaper_lines]) (by rwa [blocksPaper_lines]) hfull
  rw [blocksPaper_lines] at this
  simpa [Paper.latex, blocksPaper, withLevels] using this
theorem labels_eq (ts : List Target) : ts.map Target.label = ts.map fun t => normalizeRefname t.name := rfl

/-- **C74.** Targets before a formula, in a document that goes on with any blocks: the formula has their labels. -/
theorem C74_formula_nodes (fuel : Nat) (stem folder : Str) (ts : List Target) (d : Dir) (gap : List Str) (rest : Blocks) (hts : ts ≠ [])
    (ht : ∀ t ∈ ts, t.Ok) (hd : (Leaf.formula d).Ok) (hg : gap ≠ [] ∧ ∀ l ∈ gap, isBlank l = true) (hq : ¬ rest.quoted) (hr : rest.Ok)
    (hh : rest.height ≤ 8) (hfuel : roundsBound (textSize (targetLines ts ++ d.lines 0 ++ gap ++ rest.lines 0)) ≤ fuel) :
    ∃ doc stack t, parseDocument fuel stem folder (targetLines ts ++ d.lines 0 ++ gap ++ rest.lines 0) = .ok (.eof doc stack) ∧ IsDoc doc.tree t ∧
      shapeOf t = .node .Document (.labelled (.MathBlock d.arg (d.get (str! "name")) (d.get (str! "class"))) (ts.map fun t => normalizeRefname t.name) [] ::
        rest.shapes 0) := by
  have hB : (Blocks.part (.anchored ts (.formula d) gap) rest).Ok := ⟨⟨hts, ht, hd, hg⟩, hq, hr⟩
  have e : (Blocks.part (.anchored ts (.formula d) gap) rest).lines 0 = targetLines ts ++ d.lines 0 ++ gap ++ rest.lines 0 := by
    simp [Blocks.lines, Part.lines, targetsAt_zero, Leaf.lines]
  have hc := cost_height rest
  have := blocks_nodes fuel stem folder _ hB (by rw [e]; simp [hg.1]) (by simp [Blocks.height, Part.cost, hh]) (by simp [Blocks.cost, Part.cost]; omega)
    (by rwa [e])
  rw [e] at this
  simpa [Blocks.shapes, Part.shapes, labelFirst, Leaf.nodes, Shape.node, labels_eq] using this

/-- **C74.** In the output, a formula with targets before it starts with its own anchor, if it has a name, and one for every target, in order. -/
theorem C74_formula_output (fuel : Nat) (w : WriterEnv) (stem folder : Str) (ts : List Target) (d : Dir) (gap : List Str) (rest : Blocks)
    (hts : ts ≠ []) (ht : ∀ t ∈ ts, t.Ok) (hd : (Leaf.formula d).Ok) (hg : gap ≠ [] ∧ ∀ l ∈ gap, isBlank l = true) (hq : ¬ rest.quoted) (hr : rest.Ok)
    (hh : rest.height ≤ 8) (hfuel : roundsBound (textSize (targetLines ts ++ d.lines 0 ++ gap ++ rest.lines 0)) ≤ fuel)
    (hfull : w.fullDocument = false) :
    (transpile fuel w stem folder (targetLines ts ++ d.lines 0 ++ gap ++ rest.lines 0)).panic = none ∧
    (transpile fuel w stem folder (targetLines ts ++ d.lines 0 ++ gap ++ rest.lines 0)).text =
      (((d.get (str! "name")).toList ++ ts.map fun t => normalizeRefname t.name).map fun n => str! "\\rstlabel{" ++ n ++ str! "}\n").flatten ++
      str! "\\begin{equation}\n" ++ mathToLatex d.arg ++ str! "\n\\end{equation}\n\n" ++ rest.latex w 0 := by
  have hB : (Blocks.part (.anchored ts (.formula d) gap) rest).Ok := ⟨⟨hts, ht, hd, hg⟩, hq, hr⟩
  have e : (Blocks.part (.anchored ts (.formula d) gap) rest).lines 0 = targetLines ts ++ d.lines 0 ++ gap ++ rest.lines 0 := by
    simp [Blocks.lines, Part.lines, targetsAt_zero, Leaf.lines]
  have hc := cost_height rest
  have := blocks_output fuel w stem folder _ hB (by rw [e]; simp [hg.1]) (by simp [Blocks.height, Part.cost, hh]) (by simp [Blocks.cost, Part.cost]; omega)
    (by rwa [e]) hfull
  rw [e] at this
  refine ⟨this.1, this.2.trans ?_⟩
  simp only [Blocks.latex, Blocks.text, Part.latex, Leaf.anchoredLatex, anchoredFormula, List.append_assoc]
  rfl

/-- **C74.** Targets before a figure, with any blocks in it and behind it: the figure has their labels. -/
theorem C74_figure_nodes (fuel : Nat) (stem folder : Str) (ts : List Target) (d : Dir) (gap : List Str) (body rest : Blocks) (hts : ts ≠ [])
    (ht : ∀ t ∈ ts, t.Ok) (hd : (Box.figure d).Ok) (hg : gap ≠ [] ∧ ∀ l ∈ gap, isBlank l = true) (hne : body = .nil → d.opts ≠ [])
    (hbq : ¬ body.quoted) (hb : body.Ok) (hq : ¬ rest.quoted) (hr : rest.Ok) (hbh : body.height ≤ 7) (hh : rest.height ≤ 8)
    (hfuel : roundsBound (textSize (targetLines ts ++ d.lines 0 ++ gap ++ body.lines 3 ++ rest.lines 0)) ≤ fuel) :
    ∃ doc stack t, parseDocument fuel stem folder (targetLines ts ++ d.lines 0 ++ gap ++ body.lines 3 ++ rest.lines 0) = .ok (.eof doc stack) ∧
      IsDoc doc.tree t ∧
      shapeOf t = .node .Document (.labelled ((Box.figure d).node 0) (ts.map fun t => normalizeRefname t.name) (.node (figureImage d) [] :: body.shapes 3) ::
        rest.shapes 0) := by
  have hB : (Blocks.anchor ts (.figure d) gap body rest).Ok := ⟨⟨hts, ht⟩, hd, rfl, hg.1, hg.2, hne, hbq, hb, hq, hr⟩
  have e : (Blocks.anchor ts (.figure d) gap body rest).lines 0 = targetLines ts ++ d.lines 0 ++ gap ++ body.lines 3 ++ rest.lines 0 := by
    simp [Blocks.lines, targetsAt_zero, Box.dir]
  have hc := cost_height rest
  have hc' := cost_height body
  have := blocks_nodes fuel stem folder _ hB (by rw [e]; simp [hg.1]) (by simp [Blocks.height]; omega) (by simp [Blocks.cost]; omega) (by rwa [e])
  rw [e] at this
  simpa [Blocks.shapes, Box.kids, labels_eq] using this

/-- **C74.** In the output, a figure with targets before it ends with its own label, if it has a name, and one for every target, in order. -/
theorem C74_figure_output (fuel : Nat) (w : WriterEnv) (stem folder : Str) (ts : List Target) (d : Dir) (gap : List Str) (body rest : Blocks) (hts : ts ≠ [])
    (ht : ∀ t ∈ ts, t.Ok) (hd : (Box.figure d).Ok) (hg : gap ≠ [] ∧ ∀ l ∈ gap, isBlank l = true) (hne : body = .nil → d.opts ≠ [])
    (hbq : ¬ body.quoted) (hb : body.Ok) (hq : ¬ rest.quoted) (hr : rest.Ok) (hbh : body.height ≤ 7) (hh : rest.height ≤ 8)
    (hfuel : roundsBound (textSize (targetLines ts ++ d.lines 0 ++ gap ++ body.lines 3 ++ rest.lines 0)) ≤ fuel) (hfull : w.fullDocument = false) :
    (transpile fuel w stem folder (targetLines ts ++ d.lines 0 ++ gap ++ body.lines 3 ++ rest.lines 0)).panic = none ∧
    (transpile fuel w stem folder (targetLines ts ++ d.lines 0 ++ gap ++ body.lines 3 ++ rest.lines 0)).text =
      str! "\\begin{center}\n\\includegraphics" ++ brackets (joinWith (str! ",") (figureText w d)) ++ str! "{" ++ d.arg ++ str! "}\n" ++ body.text w 3 true ++
      (((d.get (str! "name")).toList.map normalizeRefname ++ ts.map fun t => normalizeRefname t.name).map fun n => str! "\\label{" ++ n ++ str! "}\n").flatten ++
      str! "\\end{center}\n\n" ++ rest.latex w 0 := by
  have hB : (Blocks.anchor ts (.figure d) gap body rest).Ok := ⟨⟨hts, ht⟩, hd, rfl, hg.1, hg.2, hne, hbq, hb, hq, hr⟩
  have e : (Blocks.anchor ts (.figure d) gap body rest).lines 0 = targetLines ts ++ d.lines 0 ++ gap ++ body.lines 3 ++ rest.lines 0 := by
    simp [Blocks.lines, targetsAt_zero, Box.dir]
  have hc := cost_height rest
  have hc' := cost_height body
  have := blocks_output fuel w stem folder _ hB (by rw [e]; simp [hg.1]) (by simp [Blocks.height]; omega) (by simp [Blocks.cost]; omega) (by rwa [e]) hfull
  rw [e] at this
  refine ⟨this.1, this.2.trans ?_⟩
  have e2 : ((d.get (str! "name")).map normalizeRefname).toList = (d.get (str! "name")).toList.map normalizeRefname := by
    cases d.get (str! "name") <;> rfl
  simp only [Blocks.latex, Blocks.text, Box.opening, Box.isFigure, Box.anchoredClosing, labels_eq, List.append_assoc, List.flatMap, e2]

/-- Targets before a formula and before a figure. -/
def sampleAnchors : List Target × Dir × Dir × Blocks × Blocks :=
  ([⟨str! "Eq One", [], []⟩, ⟨str! "eq", [('-', str! "two")], [[]]⟩], ⟨str! "math", str! "x = 1", [(str! "label", str! "e")]⟩,
   ⟨str! "figure", str! "a.png", [(str! "name", str! "Fig A")]⟩, .para [str! "Sit amet."] [.word (str! "Sit"), .space (str! " "), .word (str! "amet.")] [[]] .nil,
   .para [str! "dolor"] [.word (str! "dolor")] [] .nil)

/-- The hypotheses of the theorems about formulas are met by the sample, and this is the output for it. -/
example : targetLines sampleAnchors.1 ++ sampleAnchors.2.1.lines 0 ++ [[]] ++ sampleAnchors.2.2.2.2.lines 0 =
      [str! ".. _Eq One:", str! ".. _eq-two:", [], str! ".. math:: x = 1", str! "   :label: e", [], str! "dolor"] ∧
    (transpile (roundsBound (textSize (targetLines sampleAnchors.1 ++ sampleAnchors.2.1.lines 0 ++ [[]] ++ sampleAnchors.2.2.2.2.lines 0))) sampleWriter [] []
      (targetLines sampleAnchors.1 ++ sampleAnchors.2.1.lines 0 ++ [[]] ++ sampleAnchors.2.2.2.2.lines 0)).text =
      str! "\\rstlabel{eq one}\n\\rstlabel{eq-two}\n\\begin{equation}\nx = 1\n\\end{equation}\n\ndolor\n\n" :=
  ⟨by decide, (C74_formula_output _ sampleWriter [] [] sampleAnchors.1 sampleAnchors.2.1 [[]] sampleAnchors.2.2.2.2 (by decide) (by decide) (by decide)
    (by decide) (by decide) (by decide) (by decide) (Nat.le_refl _) rfl).2.trans (by decide +kernel)⟩

/-- The hypotheses of the theorems about figures are met by the sample, and this is the output for it. -/
example : targetLines sampleAnchors.1 ++ sampleAnchors.2.2.1.lines 0 ++ [[]] ++ sampleAnchors.2.2.2.1.lines 3 ++ sampleAnchors.2.2.2.2.lines 0 =
      [str! ".. _Eq One:", str! ".. _eq-two:", [], str! ".. figure:: a.png", str! "   :name: Fig A", [], str! "   Sit amet.", [], str! "dolor"] ∧
    (transpile (roundsBound (textSize (targetLines sampleAnchors.1 ++ sampleAnchors.2.2.1.lines 0 ++ [[]] ++ sampleAnchors.2.2.2.1.lines 3 ++
        sampleAnchors.2.2.2.2.lines 0))) sampleWriter [] []
      (targetLines sampleAnchors.1 ++ sampleAnchors.2.2.1.lines 0 ++ [[]] ++ sampleAnchors.2.2.2.1.lines 3 ++ sampleAnchors.2.2.2.2.lines 0)).text =
      str! "\\begin{center}\n\\includegraphics{a.png}\n\\captionof{figure}{Sit amet.}\n\\label{fig a}\n\\label{eq one}\n\\label{eq-two}\n\\end{center}\n\ndolor\n\n" :=
  ⟨by decide, (C74_figure_output _ sampleWriter [] [] sampleAnchors.1 sampleAnchors.2.2.1 [[]] sampleAnchors.2.2.2.1 sampleAnchors.2.2.2.2 (by decide)
    (by decide) (by decide) (by decide) (by decide) (by decide) (by decide) (by decide) (by decide) (by decide) (by decide) (Nat.le_refl _) rfl).2.trans
    (by decide +kernel)⟩

/-- **C74, where labels are written.** The text for a node depends on its labels only if the node is a section, a formula or a figure. -/
theorem C74_elsewhere (w : WriterEnv) (i : Nat) (r r' c : Option (List Str)) (d : NodeType) (ch : Option (List TreeNode))
    (h1 : d.kind ≠ .Section) (h2 : d.kind ≠ .MathBlock) (h3 : d.kind ≠ .Figure) :
    writeNode w (.mk i r c d ch) = writeNode w (.mk i r' c d ch) := by
  have e1 : preString w r d = preString w r' d := by
    unfold preString
    split <;> first | rfl | (exfalso; simp_all [NodeType.kind])
  have e2 : postString w r d = postString w r' d := by
    unfold postString
    split <;> first | rfl | (exfalso; simp_all [NodeType.kind])
  cases ch <;> simp only [writeNode, e1, e2]

/-- **C74 fails for paragraphs.** The targets before a paragraph become labels of the paragraph, but the output is the one without the targets: a
reference to them leads nowhere. -/
theorem C74_text_lost (fuel fuel' : Nat) (w : WriterEnv) (stem folder : Str) (ts : List Target) (g : List Str) (ps : List Piece) (gap : List Str)
    (rest : Blocks) (hts : ts ≠ []) (ht : ∀ t ∈ ts, t.Ok) (hp : Para g ps) (hg : gap ≠ [] ∧ ∀ l ∈ gap, isBlank l = true) (hq : ¬ rest.quoted)
    (hr : rest.Ok) (hh : rest.height ≤ 8) (hfuel : roundsBound (textSize (targetLines ts ++ g ++ gap ++ rest.lines 0)) ≤ fuel)
    (hfuel' : roundsBound (textSize (g ++ gap ++ rest.lines 0)) ≤ fuel') (hfull : w.fullDocument = false) :
    (∃ doc stack t, parseDocument fuel stem folder (targetLines ts ++ g ++ gap ++ rest.lines 0) = .ok (.eof doc stack) ∧ IsDoc doc.tree t ∧
      shapeOf t = .node .Document (.labelled (.Paragraph 0) (ts.map fun t => normalizeRefname t.name) (ps.map Piece.shape) :: rest.shapes 0)) ∧
    (transpile fuel w stem folder (targetLines ts ++ g ++ gap ++ rest.lines 0)).text = (transpile fuel' w stem folder (g ++ gap ++ rest.lines 0)).text := by
  have hB : (Blocks.part (.anchoredText ts g ps gap) rest).Ok := ⟨⟨hts, ht, hp, hg⟩, hq, hr⟩
  have e : (Blocks.part (.anchoredText ts g ps gap) rest).lines 0 = targetLines ts ++ g ++ gap ++ rest.lines 0 := by
    have : g.map (indentLine 0) = g := by simp [indentLine_zero]
    simp [Blocks.lines, Part.lines, targetsAt_zero, this]
  have hB' : (Blocks.para g ps gap rest).Ok := ⟨hp, hg.2, fun h => absurd h hg.1, hr⟩
  have e' : (Blocks.para g ps gap rest).lines 0 = g ++ gap ++ rest.lines 0 := by
    have : g.map (indentLine 0) = g := by simp [indentLine_zero]
    simp [Blocks.lines, this]
  have hc := cost_height rest
  have h1 := blocks_nodes fuel stem folder _ hB (by rw [e]; simp [hg.1]) (by simp [Blocks.height, Part.cost, hh]) (by simp [Blocks.cost, Part.cost]; omega)
    (by rwa [e])
  have h2 := blocks_output fuel w stem folder _ hB (by rw [e]; simp [hg.1]) (by simp [Blocks.height, Part.cost, hh]) (by simp [Blocks.cost, Part.cost]; omega)
    (by rwa [e]) hfull
  have h3 := blocks_output fuel' w stem folder _ hB' (by rw [e']; simp [hg.1]) hh (by simp [Blocks.cost]; omega) (by rwa [e']) hfull
  rw [e] at h1 h2
  rw [e'] at h3
  refine ⟨?_, h2.2.trans (Eq.trans ?_ h3.2.symm)⟩
  · simpa [Blocks.shapes, Part.shapes, labelFirst, paragraphShape, Shape.node, labels_eq] using h1
  · simp [Blocks.latex, Blocks.text, Part.latex]

/-- The hypotheses are met by the sample. -/
example : (transpile (roundsBound (textSize (targetLines sampleAnchors.1 ++ [str! "Sit"] ++ [[]] ++ sampleAnchors.2.2.2.2.lines 0))) sampleWriter [] []
      (targetLines sampleAnchors.1 ++ [str! "Sit"] ++ [[]] ++ sampleAnchors.2.2.2.2.lines 0)).text =
    (transpile (roundsBound (textSize ([str! "Sit"] ++ [[]] ++ sampleAnchors.2.2.2.2.lines 0))) sampleWriter [] []
      ([str! "Sit"] ++ [[]] ++ sampleAnchors.2.2.2.2.lines 0)).text :=
  (C74_text_lost _ _ sampleWriter [] [] sampleAnchors.1 [str! "Sit"] [.word (str! "Sit")] [[]] sampleAnchors.2.2.2.2 (by decide) (by decide) (by decide)
    (by decide) (by decide) (by decide) (by decide) (Nat.le_refl _) (Nat.le_refl _) rfl).2

/-- **C74 fails in admonitions.** In an admonition with a fixed title, a target lets the program drop the rest of the admonition. -/
theorem C74_nested_violated :
    (transpile 100 sampleWriter [] [] [str! ".. note::", [], str! "   First.", [], str! "   .. _fig a:", [], str! "   Para text", [], str! "After."]).text =
      str! "\\begin{note}\nFirst.\n\n\\end{note}\n\nAfter.\n\n" := by decide +kernel

/-- **C74 fails for other blocks than sections, figures and formulas.** The label of a target before a paragraph, a list or an image is
lost: the output is the same as without the target. -/
theorem C74_lost_violated :
    ∀ block ∈ [[str! "b", []], [str! "* b", []], [str! ".. image:: b", []]],
      (transpile 60 sampleWriter [] [] ([str! "a", [], str! ".. _label:", []] ++ block)).text =
        (transpile 60 sampleWriter [] [] ([str! "a", []] ++ block)).text := by decide +kernel

/-- **C74 fails for short names.** A target whose name has a single letter, or a single letter behind the last hyphen, is read as a
comment. -/
theorem C74_short_violated :
    (transpile 60 sampleWriter [] [] [str! ".. _a:", [], str! "T", str! "="]).text = str! "% _a:\n\n\\rstlabel{t}\n\\chapter{T}\n\n" ∧
    (transpile 60 sampleWriter [] [] [str! ".. _ab-c:", [], str! "T", str! "="]).text = str! "% _ab-c:\n\n\\rstlabel{t}\n\\chapter{T}\n\n" := by
  decide +kernel

/-- **C74 fails for targets with content.** A target that stands for another target or for an address lets the program crash, and
what follows is lost. -/
theorem C74_content_violated :
    ∀ line ∈ [str! ".. _label: other_", str! ".. _label: http://example.org"],
      (transpile 60 sampleWriter [] [] [str! "a", [], line, [], str! "b"]).panic = some (.todo "larst_writer.rs larst_pre_order_string") ∧
      (transpile 60 sampleWriter [] [] [str! "a", [], line, [], str! "b"]).text = str! "a\n\n" := by decide +kernel

/-- **C74 fails for anonymous targets:** the parse fails, and everything behind the target is lost without a message on the output. -/
theorem C74_anonymous_violated :
    (transpile 60 sampleWriter [] [] [str! "a", [], str! ".. __: foo", [], str! "d"]).panic = none ∧
    (transpile 60 sampleWriter [] [] [str! "a", [], str! ".. __: foo", [], str! "d"]).text = str! "a\n\n" := by decide +kernel

end Rustla
