import Verif.Lemmas.Empty
import Verif.Props.Targets
/-!
# Directives without content (C84)

A directive below which nothing is indented has no content, and the blocks behind it are not part of it.  The program, however, takes the
indentation of the next line that is not blank for that of the content, whatever it is.
-/
namespace Rustla
open Spec

/-- The text of a directive without options and content. -/
theorem yields_bare (w : WriterEnv) (X : Box) (j : Nat) (hX : X.Ok) (hb : X.bare) (ho : X.dir.opts = []) {ss : List Shape} {txt : Str}
    (h : Yields w (if X.isFigure then captionFirst ss else ss) txt) : Yields w [X.bareShape j ss] (X.opening w ++ txt ++ X.closing) := by
  cases X with
  | unknown d =>
    have ho' : d.opts = [] := ho
    refine h.node (d := .UnknownDirective d.key d.arg [] j) (ls := []) (a := (Box.unknown d).opening w) (b := (Box.unknown d).closing)
      (fun _ _ => ⟨?_, ?_⟩) (by simp [NodeType.kind]) (by simp [NodeType.kind])
    · have harg : (trim d.arg).isEmpty = d.arg.isEmpty := by
        rcases hX.2.2.1 with e | e
        · rw [e]; rfl
        · rw [e.trim]
      simp only [Box.opening, preString, key_lower, unknownOptions, harg, ho']
      simp
    · simp only [Box.closing, postString, key_lower]
  | admonition d =>
    have hg : ∀ k, d.get k = none := Dir.get_nil ho
    exact h.node (d := .Admonition j none none (.Admonition d.arg)) (ls := []) (a := (Box.admonition d).opening w) (b := (Box.admonition d).closing)
      (fun _ _ => ⟨by simp [Box.opening, preString, hg], rfl⟩) (by simp [NodeType.kind]) (by simp [NodeType.kind])
  | poi d =>
    have hg : ∀ k, d.get k = none := Dir.get_nil ho
    refine h.node (d := .AplusPOI d.arg j none none none none none none none none none none none) (ls := []) (a := (Box.poi d).opening w) (b := (Box.poi d).closing)
      (fun _ _ => ⟨?_, rfl⟩) (by simp [NodeType.kind]) (by simp [NodeType.kind])
    simp [Box.opening, preString, bracketed_eq, hg, Dir.length, Dir.switch, Dir.has, flag, setting, given]
  | figure d =>
    have hg : ∀ k, d.get k = none := Dir.get_nil ho
    have e1 : lengthStr w = lengthText w := funext (lengthStr_text w)
    have hi : Yields w [.node (figureImage d) []] (str! "\\includegraphics" ++ brackets (joinWith (str! ",") (figureText w d)) ++
        str! "{" ++ d.arg ++ str! "}\n") := by
      refine yields_one (fun r hr => ⟨rfl, rfl⟩) (by simp [figureImage, NodeType.kind]) (by simp [figureImage, NodeType.kind]) ?_
      simp [bracketed_eq, imageOptions, figureText, e1]
    have := Yields.figure (ls := []) (d := .Figure j none none none none) (a := str! "\\begin{center}\n") (b := (Box.figure d).closing) (ss := ss) hi
      (by simpa [Box.isFigure] using h) rfl (fun r hr => ⟨rfl, by simp [Box.closing, postString, anchorString, anchorKind, hr, given, hg]⟩)
    simpa [Box.kids, Box.opening, Box.bareShape, Box.bareNode] using this
  | _ => exact hb.elim

/-- A directive without options and content, with some blocks before it, and some behind it at the same indentation. -/
structure EmptyDirective where
  before : Blocks
  box : Box
  gap : List Str
  behind : Blocks

/-- The lines of the document. -/
def EmptyDirective.lines (D : EmptyDirective) : List Str := D.before.lines 0 ++ D.box.dir.marker :: (D.gap ++ D.behind.lines 0)

/-- The directive is a figure, an admonition with a title, a point of interest or one that the program does not know, and a blank line is behind it. -/
structure EmptyDirective.Ok (D : EmptyDirective) : Prop where
  before : D.before.Ok
  blank : BlankLast (D.before.lines 0)
  box : D.box.Ok
  bare : D.box.bare
  options : D.box.dir.opts = []
  gap : D.gap ≠ []
  gapBlank : ∀ l ∈ D.gap, isBlank l = true
  behind : D.behind.Ok
  some : D.behind ≠ .nil
  quoted : ¬ D.behind.quoted
  depth : D.before.height ≤ 8 ∧ D.behind.height ≤ 7

theorem emptyDirective_run (stem folder : Str) (D : EmptyDirective) (hD : D.Ok) :
    ∃ n d stack t, parseDocument n stem folder D.lines = .ok (.eof d stack) ∧ IsDoc d.tree t ∧
      shapeOf t = .node .Document (D.before.shapes 0 ++ [D.box.bareShape 0 (D.behind.shapes 0)]) := by
  obtain ⟨B, X, gap, C⟩ := D
  obtain ⟨hB, hblank, hX, hbare, ho, hg, hb, hC, hne, hq, hhB, hhC⟩ := hD
  simp only at hB hblank hX hbare ho hg hb hC hne hq hhB hhC
  have hd : X.dir.Ok := by cases X <;> exact hX.1
  have hcB := cost_height B
  have hcC := cost_height C
  have hlines : EmptyDirective.lines ⟨B, X, gap, C⟩ = B.lines 0 ++ (X.dir.lines 0 ++ (gap ++ C.lines 0)) := by
    simp [EmptyDirective.lines, Dir.lines, ho, indentLine]
  simp only
  rw [hlines]
  let n0 := roundsBound (textSize (B.lines 0 ++ (X.dir.lines 0 ++ (gap ++ C.lines 0))))
  let E : Env := { src := B.lines 0 ++ (X.dir.lines 0 ++ (gap ++ C.lines 0)), baseIndent := 0, nested := parserOf n0 }
  let f : Frame := ⟨.Body, .Document, [], []⟩
  have hf : f.Body E 0 := ⟨.of rfl, .inl rfl, rfl, fun _ => takes_body rfl (by decide)⟩
  have hinit : At E {} [] (LoopState.init (DocTree.new stem folder) 0 .Body 0) ([] ++ f :: []) (B.lines 0 ++ (X.dir.lines 0 ++ (gap ++ C.lines 0))) 0 := by
    refine ⟨rfl, .mk (cs := []) ⟨rfl, rfl, rfl, rfl, rfl⟩ .nil, ?_, Nat.le_refl _, rfl⟩
    have : (B.lines 0 ++ (X.dir.lines 0 ++ (gap ++ C.lines 0))).isEmpty = false := by
      cases h : (B.lines 0 ++ (X.dir.lines 0 ++ (gap ++ C.lines 0))) with
      | nil => exact absurd h (by simp [Dir.lines])
      | cons => rfl
    simp [stackFor, this, LoopState.init, f]
  have hlow : Low 1 (X.dir.lines 0 ++ (gap ++ C.lines 0)) := (front_dir hd 0).low (by omega)
  obtain ⟨ex1, ss1, ⟨s1, k1, k2⟩, k3, k4, k5, k6⟩ := runs_blocks B (H := 8) (C := 8) (i := 0) (j := 0) (n := n0) (f := f) (fs := []) (ex := []) ⟨by rfl, rfl⟩ hB
    (roundsBound_mono (by simp only [textSize_append]; omega)) (.inl rfl) (.inl hblank) hlow hhB (by omega) (by omega) hf (fun e => by cases e) (by simp) (by simp)
    (fun _ => ⟨rfl, rfl⟩) (by simp) (by simp [headCost]) (by simp) (fun _ => rfl) hinit
  obtain ⟨s2, k7, k8⟩ := k2.unwind (E := E) (i := 0) (j := 0) rfl (starts_dir hd 0 _) ex1.length ex1 rfl (fun e he => (k5 e he).shuts_para) (by omega)
  obtain ⟨l, ls, e, hl⟩ := blocks_front hC hne hq 0
  rw [e] at k8
  obtain ⟨s3, k9, k10⟩ := k8.empty rfl (by omega) ((hf.add _).add _) hX hbare ho hg hb hl.not_blank hl.indent
  rw [← e, ← List.append_nil (C.lines 0)] at k10
  obtain ⟨ex2, ss2, ⟨s4, m1, m2⟩, m3, m4, m5, m6⟩ := runs_blocks C (H := 8) (C := 8) (i := 0) (j := 0) (n := n0) (f := bareFrame X 0)
    (fs := [(f.add ss1).add (shut [] ex1)]) (ex := []) ⟨by rfl, rfl⟩ hC
    (roundsBound_mono (by simp only [textSize_append]; omega)) (.inl rfl) (.inr fun x hx => by simp at hx) (fun x hx => by simp at hx) (by omega) (by omega) (by omega)
    (bareFrame_body E hbare 0) (fun e => by cases X <;> cases e) (by simp) (by simp)
    (fun _ => ⟨rfl, rfl⟩) (by simp) (by simp [headCost]) (by simp) (fun _ => rfl) k10
  have e3 : ex2 ++ (bareFrame X 0).add ss2 :: [(f.add ss1).add (shut [] ex1)] = (ex2 ++ [(bareFrame X 0).add ss2]) ++ [(f.add ss1).add (shut [] ex1)] := by simp
  rw [e3] at m2
  obtain ⟨m, doc, stack, t, q1, q2, q3⟩ := run_end (stem := stem) (folder := folder) rfl rfl rfl (((k1.trans k7).trans k9).trans m1) m2
  refine ⟨m, doc, stack, t, q1, q2, ?_⟩
  rw [q3, shut_append]
  have m3' : ss2 ++ shut [] ex2 = C.shapes 0 := by simpa [shut] using m3
  have k3' : ss1 ++ shut [] ex1 = B.shapes 0 := by simpa [shut] using k3
  have hown : ownLabels (X.bareNode 0) = [] := by cases X <;> rfl
  simp only [Frame.add, f, List.nil_append, List.append_assoc, m3', Frame.labels, hown]
  rw [← List.append_assoc, k3']; rfl

/-- **C84 is false of the program:** a directive that the program does not know, without options and content, contains everything that follows it at the
same indentation. -/
theorem C84_nodes_violated (fuel : Nat) (stem folder : Str) (D : EmptyDirective) (hD : D.Ok) (hfuel : roundsBound (textSize D.lines) ≤ fuel) :
    ∃ d stack t, parseDocument fuel stem folder D.lines = .ok (.eof d stack) ∧ IsDoc d.tree t ∧
      shapeOf t = .node .Document (D.before.shapes 0 ++ [D.box.bareShape 0 (D.behind.shapes 0)]) := by
  obtain ⟨n, d, stack, t, h1, h2, h3⟩ := emptyDirective_run stem folder D hD
  exact ⟨d, stack, t, run_fuel h1 hfuel, h2, h3⟩

/-- **C84 is false of the program, in the output:** the environment of the directive is around everything that follows it. -/
theorem C84_violated (fuel : Nat) (w : WriterEnv) (stem folder : Str) (D : EmptyDirective) (hD : D.Ok) (hfuel : roundsBound (textSize D.lines) ≤ fuel)
    (hfull : w.fullDocument = false) :
    (transpile fuel w stem folder D.lines).panic = none ∧
      (transpile fuel w stem folder D.lines).text =
        D.before.latex w 0 ++ (D.box.opening w ++ D.behind.text w 0 D.box.isFigure ++ D.box.closing) := by
  obtain ⟨d, stack, t, h1, h2, h3⟩ := C84_nodes_violated fuel stem folder D hD hfuel
  have hp : Yields w (D.before.shapes 0) (D.before.latex w 0) := yields_blocks w D.before 0 false hD.before
  have hn := yields_bare w D.box 0 hD.box hD.bare hD.options (yields_blocks w D.behind 0 D.box.isFigure hD.behind)
  have hy := (hp.append hn).node (d := .Document) (ls := []) (a := []) (b := []) (fun r _ => ⟨by simp [preString, hfull, flag], by simp [postString, hfull, flag]⟩)
    (by simp [NodeType.kind]) (by simp [NodeType.kind])
  obtain ⟨k1, k2⟩ := run_output h1 h2 h3 hy
  exact ⟨k1, k2.trans (by simp)⟩

/-- **C84, an example:** the directive `rst-class` of Docutils, which has no content here, contains the paragraph and the list behind it, while the
paragraph before it is spared.  The hypotheses of the theorems are met. -/
def sampleEmpty : EmptyDirective where
  before := .para [str! "a"] [.word (str! "a")] [[]] .nil
  box := .unknown ⟨str! "rst-class", str! "big", []⟩
  gap := [[]]
  behind := .para [str! "b"] [.word (str! "b")] [[]] (.list (.item (.bullet '*') [str! "c"] [.word (str! "c")] [[]] .nil .nil)
    (.para [str! "d"] [.word (str! "d")] [[]] .nil))

instance (ls : List Str) : Decidable (BlankLast ls) :=
  decidable_of_iff (∀ l ∈ ls.getLast?, isBlank l = true) (by simp [BlankLast])

theorem sampleEmpty_ok : sampleEmpty.Ok :=
  ⟨by decide +kernel, by decide +kernel, by decide +kernel, trivial, rfl, by decide, by decide, by decide +kernel, by decide, by decide +kernel, by decide +kernel⟩

example : (transpile (roundsBound (textSize sampleEmpty.lines)) sampleWriter [] []
      [str! "a", [], str! ".. rst-class:: big", [], str! "b", [], str! "* c", [], str! "d", []]).text =
    str! "a\n\n\\begin{rst-class}{big}\nb\n\n\\begin{itemize}\n\\item c\n\n\\end{itemize}\n\nd\n\n\\end{rst-class}\n\n" :=
  (C84_violated _ sampleWriter [] [] sampleEmpty sampleEmpty_ok (Nat.le_refl _) rfl).2.trans (by decide +kernel)

/-- **C84, an example:** the paragraph behind a figure without caption becomes the caption, and the rest is centered. -/
def sampleCaption : EmptyDirective where
  before := .nil
  box := .figure ⟨str! "figure", str! "cat.png", []⟩
  gap := [[]]
  behind := .para [str! "We go on."] [.word (str! "We"), .space (str! " "), .word (str! "go"), .space (str! " "), .word (str! "on.")] [[]] (.para [str! "d"] [.word (str! "d")] [[]] .nil)

theorem sampleCaption_ok : sampleCaption.Ok :=
  ⟨by decide +kernel, by decide +kernel, by decide +kernel, trivial, rfl, by decide, by decide, by decide +kernel, by decide, by decide +kernel, by decide +kernel⟩

example : (transpile (roundsBound (textSize sampleCaption.lines)) sampleWriter [] []
      [str! ".. figure:: cat.png", [], str! "We go on.", [], str! "d", []]).text =
    str! "\\begin{center}\n\\includegraphics{cat.png}\n\\captionof{figure}{We go on.}\nd\n\n\\end{center}\n\n" :=
  (C84_violated _ sampleWriter [] [] sampleCaption sampleCaption_ok (Nat.le_refl _) rfl).2.trans (by decide +kernel)

/-! ## At the end of a document -/

/-- A directive without options and content at the end of a document, with some blocks before it and nothing but blank lines behind it. -/
structure LastDirective where
  before : Blocks
  box : Box
  gap : List Str

/-- The lines of the document. -/
def LastDirective.lines (D : LastDirective) : List Str := D.before.lines 0 ++ D.box.dir.marker :: D.gap

/-- The directive is a figure, an admonition with a title, a point of interest or one that the program does not know. -/
structure LastDirective.Ok (D : LastDirective) : Prop where
  before : D.before.Ok
  blank : BlankLast (D.before.lines 0)
  box : D.box.Ok
  bare : D.box.bare
  options : D.box.dir.opts = []
  gapBlank : ∀ l ∈ D.gap, isBlank l = true
  depth : D.before.height ≤ 8

theorem lastDirective_run (stem folder : Str) (D : LastDirective) (hD : D.Ok) :
    ∃ n d stack t, parseDocument n stem folder D.lines = .ok (.eof d stack) ∧ IsDoc d.tree t ∧
      shapeOf t = .node .Document (D.before.shapes 0 ++ [D.box.bareShape D.box.dir.head.length []]) := by
  obtain ⟨B, X, gap⟩ := D
  obtain ⟨hB, hblank, hX, hbare, ho, hb, hhB⟩ := hD
  simp only at hB hblank hX hbare ho hb hhB
  have hd : X.dir.Ok := by cases X <;> exact hX.1
  have hcB := cost_height B
  have hlines : LastDirective.lines ⟨B, X, gap⟩ = B.lines 0 ++ (X.dir.lines 0 ++ gap) := by
    simp [LastDirective.lines, Dir.lines, ho, indentLine]
  simp only
  rw [hlines]
  let n0 := roundsBound (textSize (B.lines 0 ++ (X.dir.lines 0 ++ gap)))
  let E : Env := { src := B.lines 0 ++ (X.dir.lines 0 ++ gap), baseIndent := 0, nested := parserOf n0 }
  let f : Frame := ⟨.Body, .Document, [], []⟩
  have hf : f.Body E 0 := ⟨.of rfl, .inl rfl, rfl, fun _ => takes_body rfl (by decide)⟩
  have hinit : At E {} [] (LoopState.init (DocTree.new stem folder) 0 .Body 0) ([] ++ f :: []) (B.lines 0 ++ (X.dir.lines 0 ++ gap)) 0 := by
    refine ⟨rfl, .mk (cs := []) ⟨rfl, rfl, rfl, rfl, rfl⟩ .nil, ?_, Nat.le_refl _, rfl⟩
    have : (B.lines 0 ++ (X.dir.lines 0 ++ gap)).isEmpty = false := by
      cases h : (B.lines 0 ++ (X.dir.lines 0 ++ gap)) with
      | nil => exact absurd h (by simp [Dir.lines])
      | cons => rfl
    simp [stackFor, this, LoopState.init, f]
  have hlow : Low 1 (X.dir.lines 0 ++ gap) := (front_dir hd 0).low (by omega)
  obtain ⟨ex1, ss1, ⟨s1, k1, k2⟩, k3, k4, k5, k6⟩ := runs_blocks B (H := 8) (C := 8) (i := 0) (j := 0) (n := n0) (f := f) (fs := []) (ex := []) ⟨by rfl, rfl⟩ hB
    (roundsBound_mono (by simp only [textSize_append]; omega)) (.inl rfl) (.inl hblank) hlow hhB (by omega) (by omega) hf (fun e => by cases e) (by simp) (by simp)
    (fun _ => ⟨rfl, rfl⟩) (by simp) (by simp [headCost]) (by simp) (fun _ => rfl) hinit
  obtain ⟨s2, k7, k8⟩ := k2.unwind (E := E) (i := 0) (j := 0) rfl (starts_dir hd 0 _) ex1.length ex1 rfl (fun e he => (k5 e he).shuts_para) (by omega)
  obtain ⟨s3, k9, k10⟩ := k8.empty_end rfl (by omega) ((hf.add _).add _) hX hbare ho hb
  obtain ⟨m, doc, stack, t, q1, q2, q3⟩ := run_end (stem := stem) (folder := folder) (ex := [bareFrame X (spaces 0 ++ X.dir.head).length]) rfl rfl rfl ((k1.trans k7).trans k9) k10
  refine ⟨m, doc, stack, t, q1, q2, ?_⟩
  rw [q3]
  have k3' : ss1 ++ shut [] ex1 = B.shapes 0 := by simpa [shut] using k3
  have hown : ownLabels (X.bareNode (spaces 0 ++ X.dir.head).length) = [] := by cases X <;> rfl
  simp only [shut, Frame.add, f, List.nil_append, Frame.labels, hown]
  rw [k3']; simp [spaces, Box.bareShape, ownLabels, Shape.node]

/-- **C84 at the end of a document:** a directive that the program does not know, without options and content, at the end of a document, has no
content, and the blocks before it are not part of it. -/
theorem C84_end_nodes_partial (fuel : Nat) (stem folder : Str) (D : LastDirective) (hD : D.Ok) (hfuel : roundsBound (textSize D.lines) ≤ fuel) :
    ∃ d stack t, parseDocument fuel stem folder D.lines = .ok (.eof d stack) ∧ IsDoc d.tree t ∧
      shapeOf t = .node .Document (D.before.shapes 0 ++ [D.box.bareShape D.box.dir.head.length []]) := by
  obtain ⟨n, d, stack, t, h1, h2, h3⟩ := lastDirective_run stem folder D hD
  exact ⟨d, stack, t, run_fuel h1 hfuel, h2, h3⟩

/-- **C84 at the end of a document, in the output:** an empty environment is behind the output of the blocks before the directive. -/
theorem C84_end_partial (fuel : Nat) (w : WriterEnv) (stem folder : Str) (D : LastDirective) (hD : D.Ok) (hfuel : roundsBound (textSize D.lines) ≤ fuel)
    (hfull : w.fullDocument = false) :
    (transpile fuel w stem folder D.lines).panic = none ∧
      (transpile fuel w stem folder D.lines).text = D.before.latex w 0 ++ (D.box.opening w ++ D.box.closing) := by
  obtain ⟨d, stack, t, h1, h2, h3⟩ := C84_end_nodes_partial fuel stem folder D hD hfuel
  have hp : Yields w (D.before.shapes 0) (D.before.latex w 0) := yields_blocks w D.before 0 false hD.before
  have hn := yields_bare w D.box D.box.dir.head.length hD.box hD.bare hD.options (ss := []) (txt := []) (by cases D.box.isFigure <;> exact .nil w)
  have hy := (hp.append hn).node (d := .Document) (ls := []) (a := []) (b := []) (fun r _ => ⟨by simp [preString, hfull, flag], by simp [postString, hfull, flag]⟩)
    (by simp [NodeType.kind]) (by simp [NodeType.kind])
  obtain ⟨k1, k2⟩ := run_output h1 h2 h3 hy
  exact ⟨k1, k2.trans (by simp)⟩

/-- **C84 at the end of a document, an example:** the directive `sectnum` of Docutils, behind a list.  The hypotheses of the theorems are met. -/
def sampleLast : LastDirective where
  before := .list (.item (.bullet '*') [str! "c"] [.word (str! "c")] [[]] .nil .nil) .nil
  box := .unknown ⟨str! "sectnum", [], []⟩
  gap := [[]]

theorem sampleLast_ok : sampleLast.Ok :=
  ⟨by decide +kernel, by decide +kernel, by decide +kernel, trivial, rfl, by decide, by decide +kernel⟩

example : (transpile (roundsBound (textSize sampleLast.lines)) sampleWriter [] [] [str! "* c", [], str! ".. sectnum::", []]).text =
    str! "\\begin{itemize}\n\\item c\n\n\\end{itemize}\n\n\\begin{sectnum}\n\\end{sectnum}\n\n" :=
  (C84_end_partial _ sampleWriter [] [] sampleLast sampleLast_ok (Nat.le_refl _) rfl).2.trans (by decide +kernel)

end Rustla
