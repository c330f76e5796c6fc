import Verif.Props.Documents
/-!
# Comments and directives (C63, C64)

`Spec.Leaf` are comments and the directives without blocks in them, `Spec.Box` the directives that contain blocks.
-/
namespace Rustla
open Spec

/-- A document that consists of one comment or directive. -/
def leafPaper (L : Leaf) (gap : List Str) : Paper := ⟨[], .leaf L gap .nil, [], []⟩

/-- A document that consists of one directive with blocks in it. -/
def boxPaper (X : Box) (gap : List Str) (body : Blocks) : Paper := ⟨[], .box X gap body .nil, [], []⟩

theorem leafPaper_ok {L : Leaf} {gap : List Str} (hL : L.Ok) (hg : L.GapOk gap) : (leafPaper L gap).Ok :=
  ⟨by simp [leafPaper], ⟨hL, hg, id, trivial⟩, trivial, by simp [leafPaper], trivial,
    by simp [Paper.height, Paper.bodies, leafPaper, Blocks.height], by simp [Paper.cost, Paper.bodies, Paper.styles, leafPaper, Blocks.cost]⟩

theorem lines_ne_nil {L : Leaf} {gap : List Str} (hg : L.GapOk gap) : L.lines 0 ++ gap ≠ [] := by
  intro h
  exact hg.1 (List.append_eq_nil_iff.mp h).2

/-- **C63.** A comment, an image, code, one or several formulas and an active element become exactly the nodes they stand for, with
the argument and the options as they are given in the source. -/
theorem C63_nodes (fuel : Nat) (stem folder : Str) (L : Leaf) (gap : List Str) (hL : L.Ok) (hg : L.GapOk gap)
    (hfuel : roundsBound (textSize (L.lines 0 ++ gap)) ≤ fuel) :
    ∃ d stack t, parseDocument fuel stem folder (L.lines 0 ++ gap) = .ok (.eof d stack) ∧ IsDoc d.tree t ∧
      shapeOf t = .node .Document (L.nodes.map fun n => .node n []) := by
  have e : (leafPaper L gap).lines = L.lines 0 ++ gap := by simp [leafPaper, Paper.lines, Blocks.lines]
  have := C56_documents fuel stem folder (leafPaper L gap) (leafPaper_ok hL hg) (by rw [e]; exact lines_ne_nil hg) (by rw [e]; exact hfuel)
  rw [e] at this
  simpa [Paper.shape, leafPaper, Blocks.shapes, withLevels, forest] using this

/-- **C63.** Their text in the output. -/
theorem C63_output (fuel : Nat) (w : WriterEnv) (stem folder : Str) (L : Leaf) (gap : List Str) (hL : L.Ok) (hg : L.GapOk gap)
    (hfuel : roundsBound (textSize (L.lines 0 ++ gap)) ≤ fuel) (hfull : w.fullDocument = false) :
    (transpile fuel w stem folder (L.lines 0 ++ gap)).panic = none ∧
      (transpile fuel w stem folder (L.lines 0 ++ gap)).text = L.latex w := by
  have e : (leafPaper L gap).lines = L.lines 0 ++ gap := by simp [leafPaper, Paper.lines, Blocks.lines]
  have := C56_output fuel w stem folder (leafPaper L gap) (leafPaper_ok hL hg) (by rw [e]; exact lines_ne_nil hg) (by rw [e]; exact hfuel) hfull
  rw [e] at this
  simpa [Paper.latex, leafPaper, Blocks.text, withLevels] using this

mutual
theorem cost_height : ∀ B : Blocks, B.cost ≤ B.height
  | .nil => Nat.le_refl _
  | .para _ _ _ rest => cost_height rest
  | .list items rest => by
    have h1 := cost_height_items items
    have h2 := cost_height rest
    simp only [Blocks.cost, Blocks.height]; omega
  | .leaf _ _ rest => cost_height rest
  | .part _ rest => by
    have h2 := cost_height rest
    simp only [Blocks.cost, Blocks.height]; omega
  | .box _ _ body rest => by
    have h1 := cost_height body
    have h2 := cost_height rest
    simp only [Blocks.cost, Blocks.height]; omega
  | .classed _ _ body rest => by
    have h1 := cost_height body
    have h2 := cost_height rest
    simp only [Blocks.cost, Blocks.height]; omega
  | .anchor _ _ _ body rest => by
    have h1 := cost_height body
    have h2 := cost_height rest
    simp only [Blocks.cost, Blocks.height]; omega
  | .quote _ body _ rest => by
    have h1 := cost_height body
    have h2 := cost_height rest
    simp only [Blocks.cost, Blocks.height]; omega
  | .defs _ rest => by
    have h2 := cost_height rest
    simp only [Blocks.cost, Blocks.height]; omega
  | .note _ _ _ _ body rest => by
    have h1 := cost_height body
    have h2 := cost_height rest
    simp only [Blocks.cost, Blocks.height]; omega
  | .aside _ _ _ _ body rest => by
    have h1 := cost_height body
    have h2 := cost_height rest
    simp only [Blocks.cost, Blocks.height]; omega
theorem cost_height_items : ∀ I : Items, I.cost ≤ I.height
  | .nil => Nat.le_refl _
  | .item _ _ _ _ body rest => by
    have h1 := cost_height body
    have h2 := cost_height_items rest
    simp only [Items.cost, Items.height]; omega
end

/-- Code with options: the hypotheses are met, and this is its output. -/
example : (transpile (roundsBound (textSize [str! ".. Code-Block:: c", str! "   :caption: sit", [], str! "   int a;", [], str! "     a++;", []])) sampleWriter [] [] [str! ".. Code-Block:: c", str! "   :caption: sit", [], str! "   int a;", [], str! "     a++;", []]).text =
    str! "\\begin{codeblock}[c]\nint a;\n\n  a++;\n\\end{codeblock}\n\n" :=
  (C63_output _ sampleWriter [] [] (.code ⟨str! "Code-Block", str! "c", [(str! "caption", str! "sit")]⟩ [[]] [str! "int a;", [], str! "  a++;"])
    [[]] (by decide +kernel) (by decide +kernel) (Nat.le_refl _) rfl).2

/-- **C64.** An admonition, a directive `only`, a point of interest, a submitted exercise, a figure or a directive the parser does
not know becomes one node with the argument and the options given in the source, and contains exactly the blocks that are
indented below it, a figure behind its image. -/
theorem C64_nodes (fuel : Nat) (stem folder : Str) (X : Box) (gap : List Str) (body : Blocks) (hX : X.Ok) (hg : gap ≠ [])
    (hb : ∀ l ∈ gap, isBlank l = true) (hne : body = .nil → X.apart = false ∧ X.dir.opts ≠ []) (htidy : X.apart = true → body.Tidy) (hq : ¬ body.quoted) (hok : body.Ok)
    (hh : body.height ≤ 7) (hfuel : roundsBound (textSize (X.dir.lines 0 ++ gap ++ body.lines 3)) ≤ fuel) :
    ∃ d stack t, parseDocument fuel stem folder (X.dir.lines 0 ++ gap ++ body.lines 3) = .ok (.eof d stack) ∧ IsDoc d.tree t ∧
      shapeOf t = .node .Document [.node (X.node 0) (X.kids.map (.node · []) ++ body.shapes 3)] := by
  have e : (boxPaper X gap body).lines = X.dir.lines 0 ++ gap ++ body.lines 3 := by simp [boxPaper, Paper.lines, Blocks.lines]
  have hcost : body.cost ≤ body.height := cost_height body
  have := C56_documents fuel stem folder (boxPaper X gap body)
    ⟨by simp [boxPaper], ⟨hX, hg, hb, hne, htidy, hq, hok, id, trivial⟩, trivial, by simp [boxPaper], trivial,
      by simp [Paper.height, Paper.bodies, boxPaper, Blocks.height]; omega, by simp [Paper.cost, Paper.bodies, Paper.styles, boxPaper, Blocks.cost]; omega⟩
    (by rw [e]; simp [hg]) (by rw [e]; exact hfuel)
  rw [e] at this
  simpa [Paper.shape, boxPaper, Blocks.shapes, withLevels, forest] using this

/-- **C64.** The output for such a directive: its environment with the output of its blocks in it; the first paragraph of a
figure is its caption. -/
theorem C64_output (fuel : Nat) (w : WriterEnv) (stem folder : Str) (X : Box) (gap : List Str) (body : Blocks) (hX : X.Ok) (hg : gap ≠ [])
    (hb : ∀ l ∈ gap, isBlank l = true) (hne : body = .nil → X.apart = false ∧ X.dir.opts ≠ []) (htidy : X.apart = true → body.Tidy) (hq : ¬ body.quoted) (hok : body.Ok)
    (hh : body.height ≤ 7) (hfuel : roundsBound (textSize (X.dir.lines 0 ++ gap ++ body.lines 3)) ≤ fuel) (hfull : w.fullDocument = false) :
    (transpile fuel w stem folder (X.dir.lines 0 ++ gap ++ body.lines 3)).panic = none ∧
      (transpile fuel w stem folder (X.dir.lines 0 ++ gap ++ body.lines 3)).text = X.opening w ++ body.text w 3 X.isFigure ++ X.closing := by
  have e : (boxPaper X gap body).lines = X.dir.lines 0 ++ gap ++ body.lines 3 := by simp [boxPaper, Paper.lines, Blocks.lines]
  have hcost : body.cost ≤ body.height := cost_height body
  have := C56_output fuel w stem folder (boxPaper X gap body)
    ⟨by simp [boxPaper], ⟨hX, hg, hb, hne, htidy, hq, hok, id, trivial⟩, trivial, by simp [boxPaper], trivial,
      by simp [Paper.height, Paper.bodies, boxPaper, Blocks.height]; omega, by simp [Paper.cost, Paper.bodies, Paper.styles, boxPaper, Blocks.cost]; omega⟩
    (by rw [e]; simp [hg]) (by rw [e]; exact hfuel) hfull
  rw [e] at this
  simpa [Paper.latex, boxPaper, Blocks.text, withLevels] using this

/-- A directive with a paragraph and a comment in it: the hypotheses are met, and this is its output. -/
example : (transpile (roundsBound (textSize [str! ".. only:: html", [], str! "   amet.", [], str! "   .. sit", [], []])) sampleWriter [] [] [str! ".. only:: html", [], str! "   amet.", [], str! "   .. sit", [], []]).text =
    str! "\\begin{only}[html]\namet.\n\n% sit\n\n\\end{only}\n\n" :=
  (C64_output _ sampleWriter [] [] (.only ⟨str! "only", str! "html", []⟩) [[]]
    (.para [str! "amet."] [.word (str! "amet.")] [[]] (.leaf (.comment (str! "sit") []) [[], []] .nil)) (by decide +kernel) (by decide) (by decide)
    (by simp) (by decide) (by decide) (by decide +kernel) (by decide) (Nat.le_refl _) rfl).2

/-- A figure with a caption: the hypotheses are met, and this is its output. -/
example : (transpile (roundsBound (textSize [str! ".. figure:: a.png", str! "   :name: Fig", [], str! "   amet.", []])) sampleWriter [] []
      [str! ".. figure:: a.png", str! "   :name: Fig", [], str! "   amet.", []]).text =
    str! "\\begin{center}\n\\includegraphics{a.png}\n\\captionof{figure}{amet.}\n\\label{fig}\n\\end{center}\n\n" :=
  (C64_output _ sampleWriter [] [] (.figure ⟨str! "figure", str! "a.png", [(str! "name", str! "Fig")]⟩) [[]]
    (.para [str! "amet."] [.word (str! "amet.")] [[]] .nil) (by decide +kernel) (by decide) (by decide)
    (by simp) (by decide) (by decide) (by decide +kernel) (by decide) (Nat.le_refl _) rfl).2

/-- An exercise without blocks: the hypotheses are met, and this is its output. -/
example : (transpile (roundsBound (textSize [str! ".. submit:: ex B5", str! "   :config: c", []])) sampleWriter [] []
      [str! ".. submit:: ex B5", str! "   :config: c", []]).text =
    str! "\\begin{submit}[config=c,submissions=10,points-to-pass=0,category=submit,status=unlisted]{ex}{5}\n\\end{submit}\n\n" :=
  (C64_output _ sampleWriter [] [] (.submit ⟨str! "submit", str! "ex B5", [(str! "config", str! "c")]⟩ ⟨str! "ex", 1, str! "B", str! "5"⟩) [[]]
    .nil (by decide +kernel) (by decide) (by decide)
    (by decide) (by decide) (by decide) (by decide +kernel) (by decide) (Nat.le_refl _) rfl).2

/-! ## The arguments of exercises -/

/-- **C65.** Whatever the argument of an exercise is, its key consists of the letters and digits in front; behind some spaces, one
upper case letter is the difficulty and the digits behind it are the points.  Everything behind them is ignored. -/
theorem C65_exercise (t : Str) : keyDifficultyPoints t = exerciseParts t := exercise_parts t

/-- **C65.** The parts of an argument are a key, spaces, a difficulty and points, in this order, in front of the text, and each of
them is as long as possible. -/
theorem C65_parts (t : Str) : ∃ gap rest, t = (exerciseParts t).1 ++ List.replicate gap ' ' ++ (exerciseParts t).2.1 ++ (exerciseParts t).2.2 ++ rest ∧
    (∀ c ∈ (exerciseParts t).1, c.isAlphanum = true) ∧ (exerciseParts t).2.1.length ≤ 1 ∧ (∀ c ∈ (exerciseParts t).2.1, c.isUpper = true) ∧
    (∀ c ∈ (exerciseParts t).2.2, c.isDigit = true) ∧ (∀ c, rest.head? = some c → c.isDigit = false) ∧
    (gap = 0 → ∀ c, ((exerciseParts t).2.1 ++ (exerciseParts t).2.2 ++ rest).head? = some c → c.isAlphanum = false) := by
  have hb : ∀ (p : Char → Bool) (l : Str), ∀ c ∈ l.takeWhile p, p c = true := fun p l c hc => List.mem_takeWhile_imp hc
  have hd : ∀ (p : Char → Bool) (l : Str) (c : Char), (l.dropWhile p).head? = some c → p c = false := by
    intro p l c h
    have := List.head?_dropWhile_not p l
    rw [h] at this
    simpa using this
  have hspaces : ∀ l : Str, l.takeWhile (· == ' ') = List.replicate (l.takeWhile (· == ' ')).length ' ' := by
    intro l
    refine List.eq_replicate_of_mem fun c hc => ?_
    simpa using hb _ _ c hc
  let r := t.dropWhile Char.isAlphanum
  let s := r.dropWhile (· == ' ')
  let u := (s.take 1).filter Char.isUpper
  have hu : s = u ++ s.drop u.length := by
    show s = _
    cases h : s with
    | nil => simp [u, h]
    | cons c s' => by_cases hc : c.isUpper <;> simp [u, h, hc]
  refine ⟨(r.takeWhile (· == ' ')).length, (s.drop u.length).dropWhile Char.isDigit, ?_, hb _ _, ?_, ?_, hb _ _, hd _ _, ?_⟩
  · show t = t.takeWhile Char.isAlphanum ++ List.replicate (r.takeWhile (· == ' ')).length ' ' ++ u ++
      (s.drop u.length).takeWhile Char.isDigit ++ (s.drop u.length).dropWhile Char.isDigit
    rw [← hspaces, List.append_assoc, List.takeWhile_append_dropWhile, List.append_assoc, ← hu, List.append_assoc,
      List.takeWhile_append_dropWhile, List.takeWhile_append_dropWhile]
  · show u.length ≤ 1
    exact Nat.le_trans (List.length_filter_le Char.isUpper (s.take 1)) (List.length_take_le 1 s)
  · exact fun c hc => (List.mem_filter.mp hc).2
  · intro h0 c hc
    replace hc : (u ++ (s.drop u.length).takeWhile Char.isDigit ++ (s.drop u.length).dropWhile Char.isDigit).head? = some c := hc
    rw [List.append_assoc, List.takeWhile_append_dropWhile, ← hu] at hc
    have hr : r = s := by
      have := List.takeWhile_append_dropWhile (p := fun c : Char => c == ' ') (l := r)
      rw [List.length_eq_zero_iff.mp h0] at this
      exact this.symm
    rw [← hr] at hc
    exact hd _ _ c hc

/-- An argument with all parts, and one with a key the parser does not read completely: then the default points are used. -/
example : keyDifficultyPoints (str! "ex1  B20 x") = (str! "ex1", str! "B", str! "20") ∧
    keyDifficultyPoints (str! "my_key 10") = (str! "my", [], []) :=
  ⟨(C65_exercise _).trans (by decide), (C65_exercise _).trans (by decide)⟩

/-- **C63 needs the blank line behind an image:** text directly below it is joined to the address of the image. -/
theorem C63_image_violated :
    (transpile 60 sampleWriter [] [] [str! ".. image:: a.png", str! "b c", [], str! "d"]).text = str! "\\includegraphics{a.pngb c}\nd\n\n" := by
  decide +kernel

/-- **C64 needs the option `config` of an exercise:** without it, the parse fails, and everything behind the directive is lost without a message on
the output. -/
theorem C64_submit_violated :
    (transpile 60 sampleWriter [] [] [str! "a", [], str! ".. submit:: x", [], str! "d"]).panic = none ∧
    (transpile 60 sampleWriter [] [] [str! "a", [], str! ".. submit:: x", [], str! "d"]).text = str! "a\n\n" := by decide +kernel

end Rustla
