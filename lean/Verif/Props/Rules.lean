import Verif.Props.Documents
/-!
# Transitions (C73)

A line of at least four equal punctuation characters between blank lines separates the blocks before it from those behind it.
-/
namespace Rustla
open Spec

/-- Blocks with transitions between them, without titles. -/
def ruledPaper (lead : List Str) (B : Blocks) (more : List (Rule × Blocks)) : Paper := ⟨lead, B, [], more⟩

theorem ruledPaper_lines (lead : List Str) (B : Blocks) (more : List (Rule × Blocks)) :
    (ruledPaper lead B more).lines = lead ++ B.lines 0 ++ ruledLines more := by simp [Paper.lines, ruledPaper]

theorem foldr_max_le {n : Nat} : ∀ {l : List Nat}, (∀ x ∈ l, x ≤ n) → l.foldr max 0 ≤ n
  | [], _ => Nat.zero_le _
  | a :: l, h => by
    have h1 := h a (by simp)
    have h2 := foldr_max_le (l := l) fun x hx => h x (by simp [hx])
    rw [List.foldr_cons]; omega

theorem ruledPaper_ok {lead : List Str} {B : Blocks} {more : List (Rule × Blocks)} (hl : ∀ l ∈ lead, isBlank l = true) (hB : B.Ok)
    (hm : ruledOk (lead ++ B.lines 0) more) (hd : ∀ b ∈ B :: more.map (·.2), b.height ≤ 8 ∧ b.cost ≤ 9) : (ruledPaper lead B more).Ok := by
  have hb : (ruledPaper lead B more).bodies = B :: more.map (·.2) := by simp [Paper.bodies, ruledPaper]
  refine ⟨hl, hB, hm, by simp [ruledPaper], trivial, ?_, ?_⟩
  · rw [Paper.height, hb]
    refine foldr_max_le fun x hx => ?_
    obtain ⟨b, h1, rfl⟩ := List.mem_map.mp hx
    exact (hd b h1).1
  · have hs : (ruledPaper lead B more).styles = 0 := rfl
    rw [hs, Paper.cost, hb]
    refine foldr_max_le fun x hx => ?_
    obtain ⟨b, h1, rfl⟩ := List.mem_map.mp hx
    exact (hd b h1).2

/-- **C73.** Every line of at least four equal punctuation characters between blank lines becomes a transition: it closes all lists, quotes,
directives and notes that are open before it, and the document consists of the blocks before it, the transition and the blocks
behind it. -/
theorem C73_nodes (fuel : Nat) (stem folder : Str) (lead : List Str) (B : Blocks) (more : List (Rule × Blocks)) (hl : ∀ l ∈ lead, isBlank l = true)
    (hB : B.Ok) (hm : ruledOk (lead ++ B.lines 0) more) (hd : ∀ b ∈ B :: more.map (·.2), b.height ≤ 8 ∧ b.cost ≤ 9)
    (hne : lead ++ B.lines 0 ++ ruledLines more ≠ []) (hfuel : roundsBound (textSize (lead ++ B.lines 0 ++ ruledLines more)) ≤ fuel) :
    ∃ d stack t, parseDocument fuel stem folder (lead ++ B.lines 0 ++ ruledLines more) = .ok (.eof d stack) ∧ IsDoc d.tree t ∧
      shapeOf t = .node .Document (B.shapes 0 ++ (more.map fun x => Shape.node .Transition [] :: x.2.shapes 0).flatten) := by
  have := C56_documents fuel stem folder (ruledPaper lead B more) (ruledPaper_ok hl hB hm hd) (by rw [ruledPaper_lines]; exact hne)
    (by rw [ruledPaper_lines]; exact hfuel)
  rw [ruledPaper_lines] at this
  obtain ⟨d, stack, t, h1, h2, h3⟩ := this
  refine ⟨d, stack, t, h1, h2, ?_⟩
  rw [h3]
  simp [Paper.shape, ruledPaper, withLevels, forest, ruledShapes]

/-- **C73.** In the output, every transition becomes a horizontal line between what is written for the blocks before it and behind it. -/
theorem C73_output (fuel : Nat) (w : WriterEnv) (stem folder : Str) (lead : List Str) (B : Blocks) (more : List (Rule × Blocks))
    (hl : ∀ l ∈ lead, isBlank l = true) (hB : B.Ok) (hm : ruledOk (lead ++ B.lines 0) more)
    (hd : ∀ b ∈ B :: more.map (·.2), b.height ≤ 8 ∧ b.cost ≤ 9) (hne : lead ++ B.lines 0 ++ ruledLines more ≠ [])
    (hfuel : roundsBound (textSize (lead ++ B.lines 0 ++ ruledLines more)) ≤ fuel) (hfull : w.fullDocument = false) :
    (transpile fuel w stem folder (lead ++ B.lines 0 ++ ruledLines more)).panic = none ∧
    (transpile fuel w stem folder (lead ++ B.lines 0 ++ ruledLines more)).text =
      B.latex w 0 ++ (more.map fun x => str! "\\hrulefill\n\n" ++ x.2.latex w 0).flatten := by
  have := C56_output fuel w stem folder (ruledPaper lead B more) (ruledPaper_ok hl hB hm hd) (by rw [ruledPaper_lines]; exact hne)
    (by rw [ruledPaper_lines]; exact hfuel) hfull
  rw [ruledPaper_lines] at this
  refine ⟨this.1, this.2.trans ?_⟩
  simp [Paper.latex, ruledPaper, withLevels, ruledLatex]

/-- A list in an admonition, a transition, a quote, and two more transitions. -/
def sampleRules : Blocks × List (Rule × Blocks) :=
  (.box (.note ⟨str! "Warning", [], [(str! "class", str! "big")]⟩) [[]]
      (.list (.item (.bullet '*') [str! "amet."] [.word (str! "amet.")] [[]] .nil .nil) .nil) .nil,
   [(⟨'-', 4, [[]]⟩, .para [str! "dolor"] [.word (str! "dolor")] [[]]
      (.quote 1 (.para [str! "sit"] [.word (str! "sit")] [str! "  "] .nil) none .nil)),
    (⟨'=', 9, [[], str! "\t"]⟩, .nil), (⟨'.', 5, [[]]⟩, .para [str! "dolor"] [.word (str! "dolor")] [] .nil)])

/-- The hypotheses are met by the sample, and this is the output for it. -/
example : ([] : List Str) ++ sampleRules.1.lines 0 ++ ruledLines sampleRules.2 =
      [str! ".. Warning::", str! "   :class: big", [], str! "   * amet.", [], str! "----", [], str! "dolor", [], str! "  sit", str! "  ", str! "=========", [], str! "\t",
        str! ".....", [], str! "dolor"] ∧
    (transpile (roundsBound (textSize (([] : List Str) ++ sampleRules.1.lines 0 ++ ruledLines sampleRules.2))) sampleWriter [] []
      (([] : List Str) ++ sampleRules.1.lines 0 ++ ruledLines sampleRules.2)).text =
      str! "\\begin{warning}\n\\begin{itemize}\n\\item amet.\n\n\\end{itemize}\n\n\\end{warning}\n\n\\hrulefill\n\ndolor\n\n\\begin{quotation}\nsit\n\n\\end{quotation}\n\n\\hrulefill\n\n\\hrulefill\n\ndolor\n\n" :=
  ⟨by decide, (C73_output _ sampleWriter [] [] [] sampleRules.1 sampleRules.2 (by simp) (by decide) (by decide) (by decide) (by decide)
    (Nat.le_refl _) rfl).2.trans (by decide +kernel)⟩

/-- A section with a transition in it. -/
def ruledSection : Paper where
  lead := []
  pre := .nil
  secs := [
    { title := str! "Dolor", char := '=', over := false, len := 5, gap := [[]],
      body := .list (.item (.bullet '*') [str! "amet."] [.word (str! "amet.")] [[]] .nil .nil) .nil,
      more := [(⟨'-', 4, [[]]⟩, .para [str! "dolor"] [.word (str! "dolor")] [[]] .nil)] },
    { title := str! "Sit", char := '=', over := false, len := 5, gap := [], body := .nil }]

/-- In a section, the transition and what follows it belong to the section. -/
example : ∃ d stack t, parseDocument (roundsBound (textSize ruledSection.lines)) [] [] ruledSection.lines = .ok (.eof d stack) ∧ IsDoc d.tree t ∧
    shapeOf t = .node .Document [
      .labelled (.Section (str! "Dolor") 1 (.Under '=')) [str! "dolor"] [
        .node (.BulletList '*' 0 2) [.node (.BulletListItem '*' 0 2) [.node (.Paragraph 2) [.node (.Text (str! "amet.")) []]]],
        .node .Transition [], .node (.Paragraph 0) [.node (.Text (str! "dolor")) []]],
      .labelled (.Section (str! "Sit") 1 (.Under '=')) [str! "sit"] []] := by
  obtain ⟨d, stack, t, h1, h2, h3⟩ := C56_documents (roundsBound (textSize ruledSection.lines)) [] [] ruledSection (by decide +kernel) (by decide) (Nat.le_refl _)
  refine ⟨d, stack, t, h1, h2, h3.trans ?_⟩
  simp only [Paper.shape, ruledSection, withLevels, Sec.style, Bool.false_eq_true, if_false, List.not_mem_nil, List.nil_append,
    List.idxOf_nil, List.idxOf_cons_self, forest, List.takeWhile_cons, List.dropWhile_cons, Nat.lt_irrefl, decide_false, List.takeWhile_nil, List.dropWhile_nil]
  rfl

/-- **C73 fails for shorter lines, at the start and at the end of the text.** A line of three characters between blank lines, a
line of four characters that is the first line, and one that is the last line stop the parser, and what follows is lost. -/
theorem C73_ends_violated :
    (∀ lines ∈ [[str! "a", [], str! "---", [], str! "b"], [str! "----", [], str! "b"], [str! "a", [], str! "----"]],
      (match parseDocument 60 [] [] lines with | .ok (.failure _) => true | _ => false) = true) ∧
    (transpile 60 sampleWriter [] [] [str! "a", [], str! "---", [], str! "b"]).text = str! "a\n\n" ∧
    (transpile 60 sampleWriter [] [] [str! "----", [], str! "b"]).text = [] := by decide +kernel

/-- **A transition needs a blank line before it.** Whatever has been read so far: at a line of punctuation characters that directly follows a line that
is not blank (or is the first one) and is followed by a blank line, the parser gives up with the document as it is. -/
theorem C73_needs_blank (E : Env) (r : Rule) (hr : r.char ∈ adornments ∧ r.char ≠ ':' ∧ 3 ≤ r.len) :
    ∃ m t, firstTransition r.line (bodyTable E) = some (m, t) ∧
      ∀ ps : PS, (∀ l, ps.cursor.relativeOffset ≠ 0 → E.src[ps.cursor.relativeOffset - 1]? = some l → isBlank l = false) →
        (∀ l, E.src[ps.cursor.relativeOffset + 1]? = some l → isBlank l = true) → t m ps = .fail ps.doc := by
  obtain ⟨hc, hcolon, hlen⟩ := hr
  obtain ⟨n, hn⟩ : ∃ n, r.len = n + 3 := ⟨r.len - 3, by omega⟩
  have hline : r.line = List.replicate (n + 3) r.char := by rw [Rule.line, hn]
  have hw := adornment_not_ws hc
  obtain ⟨k1, -⟩ := over_transition E hc hcolon n
  rw [← hline] at k1
  refine ⟨_, _, k1, fun ps hprev hnext => ?_⟩
  have hgD : Match.getD ⟨r.line, [], [(.g1, r.line)]⟩ .g1 = r.char :: List.replicate (n + 2) r.char := by
    show r.line = _
    rw [hline, List.replicate_succ]
  have hblank : (if ps.cursor.relativeOffset = 0 then false else (Option.map isBlank E.src[ps.cursor.relativeOffset - 1]?).getD false) = false := by
    by_cases ho : ps.cursor.relativeOffset = 0
    · simp [ho]
    · rw [if_neg ho]
      cases hl : E.src[ps.cursor.relativeOffset - 1]? with
      | none => rfl
      | some l => simpa using hprev l ho hl
  unfold bodyLine
  simp only [hgD, bind, P.bind, P.offset, P.required, pure, P.lift]
  cases h2 : E.src[ps.cursor.relativeOffset + 1]? with
  | none => rfl
  | some g =>
    have hg := hnext g h2
    have ht : reText.isMatch g = false := by
      unfold Re.isMatch
      rw [(Re.captures_none_iff _ _).mp (blank_not_text hg)]; rfl
    have hcc : trim r.line ≠ str! "::" := by
      rw [hline]
      intro e
      have : r.char ∈ trim (List.replicate (n + 3) r.char) := by
        rw [show trim (List.replicate (n + 3) r.char) = List.replicate (n + 3) r.char from by
          unfold trim
          rw [show trimStart (List.replicate (n + 3) r.char) = List.replicate (n + 3) r.char by
            rw [List.replicate_succ]; simp [trimStart, List.dropWhile_cons, hw], trimEnd_replicate hw]]
        simp
      rw [e] at this
      simp at this
      exact hcolon this
    simp only [P.pure, hblank, Bool.false_and, Bool.false_eq_true, if_false, ht, hcc]
    rfl

/-- Finding: a transition directly behind a list ends the parse, and everything behind it is lost. -/
theorem C73_after_list :
    (match parseDocument 60 [] [] [str! "* a", str! "----", [], str! "b"] with | .ok (.failure _) => true | _ => false) = true ∧
    (transpile 60 sampleWriter [] [] [str! "* a", str! "----", [], str! "b"]).text = str! "\\begin{itemize}\n\\item a\n\n\\end{itemize}\n\n" := by decide +kernel

end Rustla
