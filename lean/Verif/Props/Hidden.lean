import Verif.Props.Separators
/-!
# Text below two dots (C86)

Lines that are indented below two dots are a comment, whatever is in them: nothing in them is a directive, a list or a target.
-/
namespace Rustla
open Spec

/-- Any blocks, two dots, lines with a common indentation (at least that of the first line), and other blocks. -/
structure Hidden where
  before : Blocks
  more : Nat
  line : Str
  lines' : List Str
  gap : List Str
  behind : Blocks

/-- The lines of the comment, without their common indentation. -/
def Hidden.text (D : Hidden) : List Str := D.line :: D.lines'

/-- The lines of the document. -/
def Hidden.lines (D : Hidden) : List Str :=
  D.before.lines 0 ++ str! ".." :: ((D.text.map (contentLine (D.more + 1)) ++ D.gap) ++ D.behind.lines 0)

/-- The text starts and ends with something visible. -/
structure Hidden.Text (D : Hidden) : Prop where
  before : D.before.Ok
  blank : BlankLast (D.before.lines 0)
  first : ∃ c, D.line.head? = some c ∧ isWs c = false
  last : ∃ x, D.text.getLast? = some x ∧ ∃ c, x.getLast? = some c ∧ isWs c = false
  oneLine : ∀ x ∈ D.text, '\n' ∉ x ∧ '\r' ∉ x
  gapBlank : ∀ l ∈ D.gap, isBlank l = true
  behind : D.behind.Ok
  depth : D.before.height ≤ 8 ∧ D.behind.height ≤ 8

/-- What is behind the text is not indented. -/
structure Hidden.Ok (D : Hidden) : Prop where
  text : D.Text
  quoted : ¬ D.behind.quoted

/-- What is behind the text is indented, but less than the first line of the text. -/
structure Hidden.Outdented (D : Hidden) : Prop where
  text : D.Text
  less : ∃ k body sign rest, D.behind = .quote k body sign rest ∧ k < D.more

theorem Hidden.run (fuel : Nat) (stem folder : Str) (D : Hidden) (h : D.Text) (hlow : Low (D.more + 1) (D.behind.lines 0))
    (hfuel : roundsBound (textSize D.lines) ≤ fuel) :
    ∃ d stack t, parseDocument fuel stem folder D.lines = .ok (.eof d stack) ∧ IsDoc d.tree t ∧
      shapeOf t = .node .Document (D.before.shapes 0 ++ .node (.Comment (some (unlines D.text))) [] :: D.behind.shapes 0) := by
  obtain ⟨hB, hl, ⟨a, ha, hwa⟩, ⟨x, hx, b, hxb, hwb⟩, _, hg, hC, h1, h2⟩ := h
  have hne : D.line ≠ [] := by intro e; rw [e] at ha; cases ha
  have hid : D.lines'.map (contentLine 0) = D.lines' := by
    conv => rhs; rw [← List.map_id D.lines']
    refine List.map_congr_left fun z _ => ?_
    unfold contentLine indentLine
    split
    · simp_all
    · simp
  obtain ⟨c, t, hct⟩ : ∃ c t, D.line = c :: t := by
    cases e : D.line with
    | nil => exact absurd e hne
    | cons c t => exact ⟨c, t, rfl⟩
  have hwc : isWs c = false := by rw [hct] at ha; cases ha; exact hwa
  have hfirst : contentLine (D.more + 1) D.line = indentLine (D.more + 1) (c :: t) := by
    unfold contentLine; rw [if_neg hne, hct]
  have hk : dotsIndent 0 ((D.text.map (contentLine (D.more + 1)) ++ D.gap) ++ D.behind.lines 0) = D.more + 1 := by
    unfold Hidden.text
    rw [List.map_cons, List.cons_append, List.cons_append, hfirst]
    show (if isBlank (indentLine (D.more + 1) (c :: t)) = true then _ else if indentOf (indentLine (D.more + 1) (c :: t)) < 0 + 1 then _ else _) = _
    have e1 : isBlank (indentLine (D.more + 1) (c :: t)) = false := indented_not_blank hwc _
    have e2 : indentOf (indentLine (D.more + 1) (c :: t)) = D.more + 1 := indentOf_indented hwc _
    rw [e1, e2, if_neg (by decide), if_neg (by omega)]
  obtain ⟨n, d, stack, t, k1, k2, k3⟩ := dotsComment_run stem folder D.before D.behind (D.text.map (contentLine (D.more + 1)) ++ D.gap) hB hl hC h1 h2 hk (by
    intro l hl
    rcases List.mem_append.mp hl with hl | hl
    · obtain ⟨z, _, rfl⟩ := List.mem_map.mp hl
      exact content_indent _ z
    · exact .inl (hg l hl)) hlow
  have htext : takenText (D.more + 1) (D.text.map (contentLine (D.more + 1)) ++ D.gap) = some (unlines D.text) := by
    have := takenText_lines (k := D.more + 1) (m := 0) (gap := []) (ls := D.lines') (x := x) (by simp) hg ha hwa (by rw [hid]; exact hx) hxb hwb
    rw [hid] at this
    exact this
  rw [htext] at k3
  exact ⟨d, stack, t, run_fuel k1 hfuel, k2, k3⟩

theorem Hidden.yields {fuel : Nat} {w : WriterEnv} {stem folder : Str} {D : Hidden} (h : D.Text) (hfull : w.fullDocument = false)
    (hrun : ∃ d stack t, parseDocument fuel stem folder D.lines = .ok (.eof d stack) ∧ IsDoc d.tree t ∧
      shapeOf t = .node .Document (D.before.shapes 0 ++ .node (.Comment (some (unlines D.text))) [] :: D.behind.shapes 0)) :
    (transpile fuel w stem folder D.lines).panic = none ∧
      (transpile fuel w stem folder D.lines).text = D.before.latex w 0 ++
        ((D.text.map fun x => str! "% " ++ x ++ str! "\n").flatten ++ str! "\n") ++ D.behind.latex w 0 := by
  obtain ⟨d, stack, t, h1, h2, h3⟩ := hrun
  have hb : Yields w (D.behind.shapes 0) (D.behind.latex w 0) := yields_blocks w D.behind 0 false h.behind
  have hp : Yields w (D.before.shapes 0) (D.before.latex w 0) := yields_blocks w D.before 0 false h.before
  have hlines : strLines (unlines D.text) = D.text := by
    obtain ⟨x, hx, c, hxc, _⟩ := h.last
    refine strLines_unlines h.oneLine fun y hy => ?_
    rw [hx] at hy
    cases hy
    rintro rfl
    simp at hxc
  have hn : Yields w [.node (.Comment (some (unlines D.text))) []] ((D.text.map fun x => str! "% " ++ x ++ str! "\n").flatten ++ str! "\n") :=
    yields_one (fun r hr => ⟨rfl, rfl⟩) (by simp [NodeType.kind]) (by simp [NodeType.kind]) (by simp [commentStr, given, hlines])
  have hy := (hp.append (hn.append hb)).node (d := .Document) (ls := []) (a := []) (b := []) (fun r _ => ⟨by simp [preString, hfull, flag], by simp [postString, hfull, flag]⟩)
    (by simp [NodeType.kind]) (by simp [NodeType.kind])
  obtain ⟨k1, k2⟩ := run_output h1 h2 h3 hy
  exact ⟨k1, k2.trans (by simp)⟩

/-- **C86.** Lines indented below two dots, none of them less than the first one: they are one comment with exactly these lines, whatever is in them, and
what is before and behind keeps its structure. -/
theorem C86_nodes_partial (fuel : Nat) (stem folder : Str) (D : Hidden) (hD : D.Ok) (hfuel : roundsBound (textSize D.lines) ≤ fuel) :
    ∃ d stack t, parseDocument fuel stem folder D.lines = .ok (.eof d stack) ∧ IsDoc d.tree t ∧
      shapeOf t = .node .Document (D.before.shapes 0 ++ .node (.Comment (some (unlines D.text))) [] :: D.behind.shapes 0) := by
  refine D.run fuel stem folder hD.text ?_ hfuel
  by_cases hn : D.behind = .nil
  · rw [hn]; intro x hx; simp [Blocks.lines] at hx
  · obtain ⟨l, ls, e, hl⟩ := blocks_front hD.text.behind hn hD.quoted 0
    rw [e]
    intro x hx
    obtain rfl : l = x := by simpa using hx
    exact ⟨hl.not_blank, by rw [hl.indent]; omega⟩

/-- **C86.** In the output every line of the text is behind a percent sign. -/
theorem C86_output_partial (fuel : Nat) (w : WriterEnv) (stem folder : Str) (D : Hidden) (hD : D.Ok) (hfuel : roundsBound (textSize D.lines) ≤ fuel)
    (hfull : w.fullDocument = false) :
    (transpile fuel w stem folder D.lines).panic = none ∧
      (transpile fuel w stem folder D.lines).text = D.before.latex w 0 ++
        ((D.text.map fun x => str! "% " ++ x ++ str! "\n").flatten ++ str! "\n") ++ D.behind.latex w 0 :=
  Hidden.yields hD.text hfull (C86_nodes_partial fuel stem folder D hD hfuel)

/-- **C86 is false of the program:** indented lines below the first ones that are less indented than these are not in the comment, but a block quote. -/
theorem C86_nodes_violated (fuel : Nat) (stem folder : Str) (D : Hidden) (hD : D.Outdented) (hfuel : roundsBound (textSize D.lines) ≤ fuel) :
    ∃ d stack t, parseDocument fuel stem folder D.lines = .ok (.eof d stack) ∧ IsDoc d.tree t ∧
      shapeOf t = .node .Document (D.before.shapes 0 ++ .node (.Comment (some (unlines D.text))) [] :: D.behind.shapes 0) := by
  refine D.run fuel stem folder hD.text ?_ hfuel
  obtain ⟨k, body, sign, rest, e, hlt⟩ := hD.less
  have hOk := hD.text.behind
  rw [e] at hOk ⊢
  obtain ⟨hn, hq, _, hb, _⟩ := hOk
  obtain ⟨l, ls, e', hl⟩ := blocks_front hb hn hq (0 + (k + 1))
  simp only [Blocks.lines, e']
  intro x hx
  obtain rfl : l = x := by simpa using hx
  exact ⟨hl.not_blank, by rw [hl.indent]; omega⟩

/-- **C86 is false of the program, in the output:** these lines are visible. -/
theorem C86_violated (fuel : Nat) (w : WriterEnv) (stem folder : Str) (D : Hidden) (hD : D.Outdented) (hfuel : roundsBound (textSize D.lines) ≤ fuel)
    (hfull : w.fullDocument = false) :
    (transpile fuel w stem folder D.lines).panic = none ∧
      (transpile fuel w stem folder D.lines).text = D.before.latex w 0 ++
        ((D.text.map fun x => str! "% " ++ x ++ str! "\n").flatten ++ str! "\n") ++ D.behind.latex w 0 :=
  Hidden.yields hD.text hfull (C86_nodes_violated fuel stem folder D hD hfuel)

/-- **C86, an example:** a figure that is commented out.  The hypotheses of the theorems are met. -/
def sampleHidden : Hidden where
  before := .para [str! "a"] [.word (str! "a")] [[]] .nil
  more := 2
  line := str! ".. figure:: x.png"
  lines' := [[], str! "   * The caption"]
  gap := [[]]
  behind := .para [str! "b"] [.word (str! "b")] [[]] .nil

theorem sampleHidden_text : sampleHidden.Text :=
  ⟨by decide +kernel, by decide +kernel, ⟨'.', rfl, by decide⟩, ⟨str! "   * The caption", rfl, 'n', rfl, by decide⟩, by decide, by decide, by decide +kernel, by decide +kernel⟩

theorem sampleHidden_ok : sampleHidden.Ok := ⟨sampleHidden_text, by decide +kernel⟩

example : (transpile (roundsBound (textSize sampleHidden.lines)) sampleWriter [] []
      [str! "a", [], str! "..", str! "   .. figure:: x.png", [], str! "      * The caption", [], str! "b", []]).text =
    str! "a\n\n% .. figure:: x.png\n% \n%    * The caption\n\nb\n\n" :=
  (C86_output_partial _ sampleWriter [] [] sampleHidden sampleHidden_ok (Nat.le_refl _) rfl).2.trans (by decide +kernel)

/-- **C86, an example:** the second line of the text is less indented than the first one, and is not hidden. -/
def sampleOutdented : Hidden where
  before := .para [str! "a"] [.word (str! "a")] [[]] .nil
  more := 3
  line := str! "b"
  lines' := []
  gap := []
  behind := .quote 1 (.para [str! "c"] [.word (str! "c")] [[]] .nil) none .nil

theorem sampleOutdented_ok : sampleOutdented.Outdented :=
  ⟨⟨by decide +kernel, by decide +kernel, ⟨'b', rfl, by decide⟩, ⟨str! "b", rfl, 'b', rfl, by decide⟩, by decide, by decide, by decide +kernel, by decide +kernel⟩,
    ⟨1, _, none, .nil, rfl, by decide⟩⟩

example : (transpile (roundsBound (textSize sampleOutdented.lines)) sampleWriter [] []
      [str! "a", [], str! "..", str! "    b", str! "  c", []]).text =
    str! "a\n\n% b\n\n\\begin{quotation}\nc\n\n\\end{quotation}\n\n" :=
  (C86_violated _ sampleWriter [] [] sampleOutdented sampleOutdented_ok (Nat.le_refl _) rfl).2.trans (by decide +kernel)

end Rustla
