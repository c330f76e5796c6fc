import Verif.Lemmas.Separators
import Verif.Props.Targets
/-!
# Empty comments (C85)

Two dots alone on a line, with a blank line below them, are an empty comment: it separates what is before it from what is behind it, and contains
nothing, not even an indented block behind it.
-/
namespace Rustla
open Spec

theorem dotsComment_run {k : Nat} (stem folder : Str) (B C : Blocks) (taken : List Str) (hB : B.Ok) (hblank : BlankLast (B.lines 0)) (hC : C.Ok)
    (hhB : B.height ≤ 8) (hhC : C.height ≤ 8) (hk : dotsIndent 0 (taken ++ C.lines 0) = k)
    (ht : ∀ l ∈ taken, isBlank l = true ∨ k ≤ indentOf l) (hlowC : Low k (C.lines 0)) :
    ∃ n d stack t, parseDocument n stem folder (B.lines 0 ++ str! ".." :: (taken ++ C.lines 0)) = .ok (.eof d stack) ∧ IsDoc d.tree t ∧
      shapeOf t = .node .Document (B.shapes 0 ++ .node (.Comment (takenText k taken)) [] :: C.shapes 0) := by
  have hcB := cost_height B
  have hcC := cost_height C
  have hd : indentLine 0 (str! "..") = str! ".." := rfl
  let n0 := roundsBound (textSize (B.lines 0 ++ str! ".." :: (taken ++ C.lines 0)))
  let E : Env := { src := B.lines 0 ++ str! ".." :: (taken ++ C.lines 0), baseIndent := 0, nested := parserOf n0 }
  let f : Frame := ⟨.Body, .Document, [], []⟩
  have hsz : textSize (C.lines 0) ≤ textSize (B.lines 0 ++ str! ".." :: (taken ++ C.lines 0)) := by
    have : B.lines 0 ++ str! ".." :: (taken ++ C.lines 0) = (B.lines 0 ++ str! ".." :: taken) ++ C.lines 0 := by simp
    rw [this, textSize_append]; omega
  have hf : f.Body E 0 := ⟨.of rfl, .inl rfl, rfl, fun _ => takes_body rfl (by decide)⟩
  have hinit : At E {} [] (LoopState.init (DocTree.new stem folder) 0 .Body 0) ([] ++ f :: []) (B.lines 0 ++ str! ".." :: (taken ++ C.lines 0)) 0 := by
    refine ⟨rfl, .mk (cs := []) ⟨rfl, rfl, rfl, rfl, rfl⟩ .nil, ?_, Nat.le_refl _, rfl⟩
    have : (B.lines 0 ++ str! ".." :: (taken ++ C.lines 0)).isEmpty = false := by
      cases h : (B.lines 0 ++ str! ".." :: (taken ++ C.lines 0)) with
      | nil => exact absurd h (by simp)
      | cons => rfl
    simp [stackFor, this, LoopState.init, f]
  have hlow : Low 1 (str! ".." :: (taken ++ C.lines 0)) := by
    intro x hx
    obtain rfl : str! ".." = x := by simpa using hx
    exact ⟨rfl, by decide⟩
  obtain ⟨ex1, ss1, ⟨s1, k1, k2⟩, k3, k4, k5, k6⟩ := runs_blocks B (H := 8) (C := 8) (i := 0) (j := 0) (n := n0) (f := f) (fs := []) (ex := []) ⟨by rfl, rfl⟩ hB
    (roundsBound_mono (by simp only [textSize_append]; omega)) (.inl rfl) (.inl hblank) hlow hhB (by omega) (by omega) hf (fun e => by cases e) (by simp) (by simp)
    (fun _ => ⟨rfl, rfl⟩) (by simp) (by simp [headCost]) (by simp) (fun _ => rfl) hinit
  obtain ⟨s2, k7, k8⟩ := k2.unwind (E := E) (i := 0) (j := 0) rfl (starts_dots 0 _) ex1.length ex1 rfl (fun e he => (k5 e he).shuts_para) (by omega)
  rw [← hd] at k8
  obtain ⟨s3, k9, k10⟩ := k8.dots rfl (by omega) ((hf.add _).add _) hk ht hlowC
  rw [← List.append_nil (C.lines 0)] at k10
  obtain ⟨ex2, ss2, ⟨s4, m1, m2⟩, m3, m4, m5, m6⟩ := runs_blocks C (H := 8) (C := 8) (i := 0) (j := 0) (n := n0)
    (f := ((f.add ss1).add (shut [] ex1)).add [.node (.Comment (takenText k taken)) []])
    (fs := []) (ex := []) ⟨by rfl, rfl⟩ hC
    (roundsBound_mono hsz) (.inl rfl) (.inr fun x hx => by simp at hx) (fun x hx => by simp at hx) (by omega) (by omega) (by omega)
    (((hf.add _).add _).add _) (fun e => by cases e) (by simp) (by simp)
    (fun _ => ⟨rfl, rfl⟩) (by simp) (by simp [headCost]) (by simp) (fun _ => rfl) k10
  obtain ⟨m, doc, stack, t, q1, q2, q3⟩ := run_end (stem := stem) (folder := folder) rfl rfl rfl (((k1.trans k7).trans k9).trans m1) m2
  refine ⟨m, doc, stack, t, q1, q2, ?_⟩
  rw [q3]
  have m3' : ss2 ++ shut [] ex2 = C.shapes 0 := by simpa [shut] using m3
  have k3' : ss1 ++ shut [] ex1 = B.shapes 0 := by simpa [shut] using k3
  have : ss1 ++ (shut [] ex1 ++ ([.node (.Comment (takenText k taken)) []] ++ (ss2 ++ shut [] ex2))) =
      B.shapes 0 ++ .node (.Comment (takenText k taken)) [] :: C.shapes 0 := by rw [m3', ← k3']; simp
  simp only [Frame.add, f, List.nil_append, Frame.labels, ownLabels, List.append_assoc]
  rw [← this]

theorem emptyComment_run (stem folder : Str) (B C : Blocks) (taken : List Str) (hB : B.Ok) (hblank : BlankLast (B.lines 0)) (hC : C.Ok) (hq : ¬ C.quoted)
    (hhB : B.height ≤ 8) (hhC : C.height ≤ 8) (hh : ∀ l, (taken ++ C.lines 0).head? = some l → isBlank l = true)
    (ht : ∀ l ∈ taken, isBlank l = true ∨ 2 ≤ indentOf l) :
    ∃ n d stack t, parseDocument n stem folder (B.lines 0 ++ str! ".." :: (taken ++ C.lines 0)) = .ok (.eof d stack) ∧ IsDoc d.tree t ∧
      shapeOf t = .node .Document (B.shapes 0 ++ .node (.Comment (takenText 2 taken)) [] :: C.shapes 0) := by
  refine dotsComment_run stem folder B C taken hB hblank hC hhB hhC ?_ ht ?_
  · unfold dotsIndent
    cases h : (taken ++ C.lines 0).head? with
    | none => rfl
    | some l => simp [hh l h]
  · by_cases hn : C = .nil
    · subst hn; intro x hx; simp [Blocks.lines] at hx
    · obtain ⟨l, ls, e, hl⟩ := blocks_front hC hn hq 0
      rw [e]
      intro x hx
      obtain rfl : l = x := by simpa using hx
      exact ⟨hl.not_blank, by rw [hl.indent]; omega⟩

/-- Any blocks, an empty comment, and other blocks. -/
structure Separated where
  before : Blocks
  gap : List Str
  behind : Blocks

/-- The lines of the document. -/
def Separated.lines (D : Separated) : List Str := D.before.lines 0 ++ str! ".." :: (D.gap ++ D.behind.lines 0)

/-- The blocks behind the comment are not indented. -/
structure Separated.Ok (D : Separated) : Prop where
  before : D.before.Ok
  blank : BlankLast (D.before.lines 0)
  gap : D.gap = [] → D.behind = .nil
  gapBlank : ∀ l ∈ D.gap, isBlank l = true
  behind : D.behind.Ok
  quoted : ¬ D.behind.quoted
  depth : D.before.height ≤ 8 ∧ D.behind.height ≤ 8

/-- **C85.** An empty comment between blocks that are not indented: the blocks before it and the blocks behind it keep their structure, and are separate,
whatever they are; the comment is one node without text. -/
theorem C85_nodes_partial (fuel : Nat) (stem folder : Str) (D : Separated) (hD : D.Ok) (hfuel : roundsBound (textSize D.lines) ≤ fuel) :
    ∃ d stack t, parseDocument fuel stem folder D.lines = .ok (.eof d stack) ∧ IsDoc d.tree t ∧
      shapeOf t = .node .Document (D.before.shapes 0 ++ .node (.Comment none) [] :: D.behind.shapes 0) := by
  obtain ⟨hB, hl, hg, hb, hC, hq, h1, h2⟩ := hD
  obtain ⟨n, d, stack, t, k1, k2, k3⟩ := emptyComment_run stem folder D.before D.behind D.gap hB hl hC hq h1 h2 (by
    intro l hl
    cases hgap : D.gap with
    | nil => rw [hgap, hg hgap] at hl; simp [Blocks.lines] at hl
    | cons g gs =>
      rw [hgap] at hl
      obtain rfl : g = l := by simpa using hl
      exact hb g (by simp [hgap])) fun l hl => .inl (hb l hl)
  rw [takenText_blank hb] at k3
  exact ⟨d, stack, t, run_fuel k1 hfuel, k2, k3⟩

/-- **C85.** In the output there is nothing at the place of the comment. -/
theorem C85_output_partial (fuel : Nat) (w : WriterEnv) (stem folder : Str) (D : Separated) (hD : D.Ok) (hfuel : roundsBound (textSize D.lines) ≤ fuel)
    (hfull : w.fullDocument = false) :
    (transpile fuel w stem folder D.lines).panic = none ∧
      (transpile fuel w stem folder D.lines).text = D.before.latex w 0 ++ D.behind.latex w 0 := by
  obtain ⟨d, stack, t, h1, h2, h3⟩ := C85_nodes_partial fuel stem folder D hD hfuel
  have hb : Yields w (D.behind.shapes 0) (D.behind.latex w 0) := yields_blocks w D.behind 0 false hD.behind
  have hp : Yields w (D.before.shapes 0) (D.before.latex w 0) := yields_blocks w D.before 0 false hD.before
  have hn : Yields w [.node (.Comment none) []] [] :=
    yields_one (fun r hr => ⟨rfl, rfl⟩) (by simp [NodeType.kind]) (by simp [NodeType.kind]) rfl
  have hy := (hp.append (hn.append hb)).node (d := .Document) (ls := []) (a := []) (b := []) (fun r _ => ⟨by simp [preString, hfull, flag], by simp [postString, hfull, flag]⟩)
    (by simp [NodeType.kind]) (by simp [NodeType.kind])
  obtain ⟨k1, k2⟩ := run_output h1 h2 h3 hy
  exact ⟨k1, k2.trans (by simp)⟩

/-- Any blocks, an empty comment, an indented block of lines, and other blocks. -/
structure Swallowed where
  before : Blocks
  gap : List Str
  more : Nat
  line : Str
  lines' : List Str
  gap2 : List Str
  behind : Blocks

/-- The lines of the indented block, without the first two places. -/
def Swallowed.quote (D : Swallowed) : List Str := (D.line :: D.lines').map (contentLine (2 + D.more))

/-- The lines of the document. -/
def Swallowed.lines (D : Swallowed) : List Str := D.before.lines 0 ++ str! ".." :: (D.gap ++ (D.quote ++ D.gap2) ++ D.behind.lines 0)

/-- The lines of the comment. -/
def Swallowed.text (D : Swallowed) : List Str := D.line :: D.lines'.map (contentLine D.more)

/-- A blank line is below the dots, and the block starts and ends with something visible. -/
structure Swallowed.Ok (D : Swallowed) : Prop where
  before : D.before.Ok
  blank : BlankLast (D.before.lines 0)
  gap : D.gap ≠ []
  gapBlank : ∀ l ∈ D.gap, isBlank l = true
  first : ∃ c, D.line.head? = some c ∧ isWs c = false
  last : ∃ x, D.text.getLast? = some x ∧ ∃ c, x.getLast? = some c ∧ isWs c = false
  oneLine : ∀ x ∈ D.line :: D.lines', '\n' ∉ x ∧ '\r' ∉ x
  gap2Blank : ∀ l ∈ D.gap2, isBlank l = true
  behind : D.behind.Ok
  quoted : ¬ D.behind.quoted
  depth : D.before.height ≤ 8 ∧ D.behind.height ≤ 8

/-- **C85 is false of the program:** the lines of a block that is indented by two or more places are in the comment. -/
theorem C85_nodes_violated (fuel : Nat) (stem folder : Str) (D : Swallowed) (hD : D.Ok) (hfuel : roundsBound (textSize D.lines) ≤ fuel) :
    ∃ d stack t, parseDocument fuel stem folder D.lines = .ok (.eof d stack) ∧ IsDoc d.tree t ∧
      shapeOf t = .node .Document (D.before.shapes 0 ++ .node (.Comment (some (unlines D.text))) [] :: D.behind.shapes 0) := by
  obtain ⟨hB, hl, hg, hb, ⟨a, ha, hwa⟩, ⟨x, hx, b, hxb, hwb⟩, _, hb2, hC, hq, h1, h2⟩ := hD
  obtain ⟨n, d, stack, t, k1, k2, k3⟩ := emptyComment_run stem folder D.before D.behind (D.gap ++ (D.quote ++ D.gap2)) hB hl hC hq h1 h2 (by
    intro l hl
    cases hgap : D.gap with
    | nil => exact absurd hgap hg
    | cons g gs =>
      rw [hgap] at hl
      obtain rfl : g = l := by simpa using hl
      exact hb g (by simp [hgap])) (by
    intro l hl
    rcases List.mem_append.mp hl with hl | hl
    · exact .inl (hb l hl)
    · rcases List.mem_append.mp hl with hl | hl
      · obtain ⟨z, _, rfl⟩ := List.mem_map.mp hl
        rcases content_indent (2 + D.more) z with h | h
        · exact .inl h
        · exact .inr (by omega)
      · exact .inl (hb2 l hl))
  unfold Swallowed.quote at k3
  rw [takenText_lines hb hb2 ha hwa hx hxb hwb] at k3
  exact ⟨d, stack, t, run_fuel k1 hfuel, k2, k3⟩

/-- **C85 is false of the program, in the output:** the block is commented out. -/
theorem C85_violated (fuel : Nat) (w : WriterEnv) (stem folder : Str) (D : Swallowed) (hD : D.Ok) (hfuel : roundsBound (textSize D.lines) ≤ fuel)
    (hfull : w.fullDocument = false) :
    (transpile fuel w stem folder D.lines).panic = none ∧
      (transpile fuel w stem folder D.lines).text = D.before.latex w 0 ++
        ((D.text.map fun x => str! "% " ++ x ++ str! "\n").flatten ++ str! "\n") ++ D.behind.latex w 0 := by
  obtain ⟨d, stack, t, h1, h2, h3⟩ := C85_nodes_violated fuel stem folder D hD hfuel
  have hb : Yields w (D.behind.shapes 0) (D.behind.latex w 0) := yields_blocks w D.behind 0 false hD.behind
  have hp : Yields w (D.before.shapes 0) (D.before.latex w 0) := yields_blocks w D.before 0 false hD.before
  have hlines : strLines (unlines D.text) = D.text := by
    obtain ⟨x, hx, c, hxc, _⟩ := hD.last
    refine strLines_unlines (fun y hy => ?_) fun y hy => ?_
    · rcases List.mem_cons.mp hy with rfl | hy
      · exact hD.oneLine _ (by simp)
      · obtain ⟨z, hz, rfl⟩ := List.mem_map.mp hy
        have := hD.oneLine z (by simp [hz])
        unfold contentLine indentLine
        split
        · simp
        · constructor
          · intro hm
            rcases List.mem_append.mp hm with hm | hm
            · exact absurd (List.eq_of_mem_replicate hm) (by decide)
            · exact this.1 hm
          · intro hm
            rcases List.mem_append.mp hm with hm | hm
            · exact absurd (List.eq_of_mem_replicate hm) (by decide)
            · exact this.2 hm
    · rw [hx] at hy
      cases hy
      rintro rfl
      simp at hxc
  have hn : Yields w [.node (.Comment (some (unlines D.text))) []] ((D.text.map fun x => str! "% " ++ x ++ str! "\n").flatten ++ str! "\n") :=
    yields_one (fun r hr => ⟨rfl, rfl⟩) (by simp [NodeType.kind]) (by simp [NodeType.kind]) (by simp [commentStr, given, hlines])
  have hy := (hp.append (hn.append hb)).node (d := .Document) (ls := []) (a := []) (b := []) (fun r _ => ⟨by simp [preString, hfull, flag], by simp [postString, hfull, flag]⟩)
    (by simp [NodeType.kind]) (by simp [NodeType.kind])
  obtain ⟨k1, k2⟩ := run_output h1 h2 h3 hy
  exact ⟨k1, k2.trans (by simp)⟩

/-- **C85, an example:** two lists with the same bullets are separated by an empty comment.  The hypotheses of the theorems are met. -/
def sampleSeparated : Separated where
  before := .list (.item (.bullet '*') [str! "a"] [.word (str! "a")] [[]] .nil .nil) .nil
  gap := [[]]
  behind := .list (.item (.bullet '*') [str! "b"] [.word (str! "b")] [[]] .nil .nil) .nil

theorem sampleSeparated_ok : sampleSeparated.Ok :=
  ⟨by decide +kernel, by decide +kernel, by decide, by decide, by decide +kernel, by decide +kernel, by decide +kernel⟩

example : (transpile (roundsBound (textSize sampleSeparated.lines)) sampleWriter [] [] [str! "* a", [], str! "..", [], str! "* b", []]).text =
    str! "\\begin{itemize}\n\\item a\n\n\\end{itemize}\n\n\\begin{itemize}\n\\item b\n\n\\end{itemize}\n\n" :=
  (C85_output_partial _ sampleWriter [] [] sampleSeparated sampleSeparated_ok (Nat.le_refl _) rfl).2.trans (by decide +kernel)

/-- **C85, an example:** the empty comment that shall separate a list from a block quote hides the block quote. -/
def sampleSwallowed : Swallowed where
  before := .list (.item (.bullet '*') [str! "a"] [.word (str! "a")] [[]] .nil .nil) .nil
  gap := [[]]
  more := 1
  line := str! "To be, or not"
  lines' := [str! "to be."]
  gap2 := [[]]
  behind := .para [str! "b"] [.word (str! "b")] [[]] .nil

theorem sampleSwallowed_ok : sampleSwallowed.Ok :=
  ⟨by decide +kernel, by decide +kernel, by decide, by decide, ⟨'T', rfl, by decide⟩, ⟨str! " to be.", rfl, '.', rfl, by decide⟩, by decide, by decide,
    by decide +kernel, by decide +kernel, by decide +kernel⟩

example : (transpile (roundsBound (textSize sampleSwallowed.lines)) sampleWriter [] []
      [str! "* a", [], str! "..", [], str! "   To be, or not", str! "   to be.", [], str! "b", []]).text =
    str! "\\begin{itemize}\n\\item a\n\n\\end{itemize}\n\n% To be, or not\n%  to be.\n\nb\n\n" :=
  (C85_violated _ sampleWriter [] [] sampleSwallowed sampleSwallowed_ok (Nat.le_refl _) rfl).2.trans (by decide +kernel)

end Rustla
