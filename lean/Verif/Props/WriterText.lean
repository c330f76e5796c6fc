import Verif.Props.Writer
import Verif.Props.Transforms
import Verif.Props.Counts
import Verif.Model.Program
/-!
# C39, C45, C48, C49: points, the output stream, comments and code
-/
namespace Rustla
open Spec

/-! ## C45 -/

/-- **C45.** The stream receives the complete output exactly if it accepts every chunk as a whole: what it does not accept
at once is not offered again. -/
theorem C45_partial (accept : Nat → Nat) (chunks : List Str) :
    received accept chunks = chunks.flatten ↔ ∀ i c, chunks[i]? = some c → c.length ≤ accept i := by
  have hle : ∀ (chunks : List Str) (accept : Nat → Nat), (received accept chunks).length ≤ chunks.flatten.length := by
    intro chunks
    induction chunks with
    | nil => intro a; simp [received]
    | cons c cs ih =>
      intro a
      have := ih fun k => a (k + 1)
      simp only [received, List.length_append, List.length_take, List.flatten_cons]; omega
  induction chunks generalizing accept with
  | nil => simp [received]
  | cons c cs ih =>
    have h0 := hle cs fun k => accept (k + 1)
    constructor
    · intro h
      have hl := congrArg List.length h
      simp only [received, List.length_append, List.length_take, List.flatten_cons] at hl
      have hc : c.length ≤ accept 0 := by omega
      simp only [received, List.take_of_length_le hc, List.flatten_cons, List.append_cancel_left_eq] at h
      intro i d hi
      cases i with
      | zero => simp only [List.getElem?_cons_zero, Option.some.injEq] at hi; subst hi; exact hc
      | succ i => exact (ih _).1 h i d (by simpa using hi)
    · intro h
      have hc := h 0 c rfl
      simp only [received, List.take_of_length_le hc, List.flatten_cons, List.append_cancel_left_eq]
      exact (ih _).2 fun i d hi => h (i + 1) d (by simpa using hi)

/-- **C45 is violated.** There is a document (a section with a title) whose output is not complete on a stream that accepts
at least one character per call. -/
theorem C45_violated (w : WriterEnv) : ∃ t, (writeNode w t).panic = none ∧
    received (fun _ => 1) (writeNode w t).chunks ≠ (writeNode w t).text := by
  let n : TreeNode := .mk 1 none none (.Section (str! "T") 2 (.Under '-')) (some [])
  refine ⟨n, rfl, ?_⟩
  unfold Written.text
  rw [Ne, C45_partial]
  intro h
  have := h 0 _ rfl
  exact absurd this (by decide)

/-! ## C48 -/

/-- The lines of a text, without the line ends. -/
def linesOf : Str → List Str
  | [] => [[]]
  | c :: cs => if c = '\n' then [] :: linesOf cs else
    match linesOf cs with
    | [] => [[c]]
    | l :: ls => (c :: l) :: ls

theorem linesOf_append_line (l rest : Str) (h : '\n' ∉ l) : linesOf (l ++ '\n' :: rest) = l :: linesOf rest := by
  induction l with
  | nil => simp [linesOf]
  | cons c l ih =>
    have hc : c ≠ '\n' := fun e => h (by simp [e])
    have hl : '\n' ∉ l := fun e => h (by simp [e])
    simp [linesOf, hc, ih hl]

theorem dropCr_noNewline {l : Str} (h : '\n' ∉ l) : '\n' ∉ dropCr l := by
  unfold dropCr
  split
  · exact fun e => h (List.dropLast_subset _ e)
  · exact h

theorem strLinesAux_noNewline (s cur : Str) (h : '\n' ∉ cur) : ∀ l ∈ strLinesAux s cur, '\n' ∉ l := by
  induction s generalizing cur with
  | nil =>
    intro l hl
    unfold strLinesAux at hl
    split at hl
    · cases hl
    · simp only [List.mem_singleton] at hl; subst hl; simpa using h
  | cons c s ih =>
    intro l hl
    unfold strLinesAux at hl
    split at hl
    · rcases List.mem_cons.1 hl with rfl | hl
      · exact dropCr_noNewline (by simpa using h)
      · exact ih [] (by simp) l hl
    · rename_i hc
      exact ih (c :: cur) (by simp [h, Ne.symm hc]) l hl

/-- **C48.** The lines written for a comment are the lines of its text, each with a percent sign and a space in front, and
two empty lines. -/
theorem C48_comment_lines (text : Str) :
    linesOf (commentStr text) = ((strLines text).map fun l => str! "% " ++ l) ++ [[], []] := by
  unfold commentStr
  have key : ∀ ls : List Str, (∀ l ∈ ls, '\n' ∉ l) →
      linesOf ((ls.map fun l => str! "% " ++ l ++ str! "\n").flatten ++ str! "\n") =
        (ls.map fun l => str! "% " ++ l) ++ [[], []] := by
    intro ls
    induction ls with
    | nil => intro _; rfl
    | cons l ls ih =>
      intro h
      have h1 : '\n' ∉ str! "% " ++ l := by
        simp only [List.mem_append, not_or]
        exact ⟨by decide, h l (by simp)⟩
      have h2 := linesOf_append_line _ ((ls.map fun l => str! "% " ++ l ++ str! "\n").flatten ++ str! "\n") h1
      rw [ih fun x hx => h x (by simp [hx])] at h2
      refine Eq.trans (congrArg linesOf ?_) h2
      simp
  exact key _ (strLinesAux_noNewline _ _ (by simp))

/-- **C48.** No line written for a comment is outside of a LaTeX comment: it is empty or begins with a percent sign. -/
theorem C48_comments (w : WriterEnv) (labels : Option (List Str)) (text : Option Str) :
    ∃ s s', preString w labels (.Comment text) = .ok s ∧ postString w labels (.Comment text) = .ok s' ∧
      ∀ l ∈ linesOf (s ++ s'), l = [] ∨ l.head? = some '%' := by
  refine ⟨_, _, rfl, rfl, ?_⟩
  rw [List.append_nil]
  cases text with
  | none => intro l hl; simp [given, linesOf] at hl; exact .inl hl
  | some t =>
    intro l hl
    rw [show given (some t) commentStr = commentStr t from rfl, C48_comment_lines] at hl
    rcases List.mem_append.1 hl with hl | hl
    · obtain ⟨x, _, rfl⟩ := List.mem_map.1 hl; exact .inr rfl
    · simp only [List.mem_cons, List.not_mem_nil, or_false, or_self] at hl; exact .inl hl

example : linesOf (commentStr (str! "a\n\\input{b}\n\n%")) =
    [str! "% a", str! "% \\input{b}", str! "% ", str! "% %", [], []] := by decide +kernel

/-! ## C49 -/

/-- **C49 (the code-block directive, and literal blocks up to escaping).** In the output of a document that is written
without a panic, the text of every code block is written verbatim, after the beginning of the code environment. -/
theorem C49_code_block_partial (w : WriterEnv) (t n : TreeNode) (hp : (writeNode w t).panic = none)
    (hn : n ∈ preorder t) (language code : Str) (linenos force : Bool) (start dedent : Option Nat)
    (emphasized : Option (List Nat)) (caption name : Option Str)
    (hd : n.data = .SphinxCodeBlock language linenos start emphasized caption name dedent force code) :
    (str! "\\begin{codeblock}[" ++ language ++ str! "]\n" ++ code) <:+: (writeNode w t).text :=
  opening_written hp hn (by rw [hd]; rfl)

/-- **C49 (literal blocks).** -/
theorem C49_literal_block_partial (w : WriterEnv) (t n : TreeNode) (hp : (writeNode w t).panic = none)
    (hn : n ∈ preorder t) (text : Str) (hd : n.data = .LiteralBlock text) :
    (str! "\\begin{codeblock}\n" ++ escapeText text) <:+: (writeNode w t).text :=
  opening_written hp hn (by rw [hd]; rfl)

/-- **C49 is violated by the code directive.** What is written for the node of a `code` directive does not depend on its
text. -/
theorem C49_violated (w : WriterEnv) (labels : Option (List Str)) (text text' : Str)
    (language name class_ lines : Option Str) :
    preString w labels (.Code text language name class_ lines) = preString w labels (.Code text' language name class_ lines) ∧
    postString w labels (.Code text language name class_ lines) =
      postString w labels (.Code text' language name class_ lines) := ⟨rfl, rfl⟩

/-- A writer environment for examples. -/
def sampleEnv (full : Bool) : WriterEnv :=
  { fullDocument := full, shortest := fun _ => str! "1", twoDecimals := fun _ => str! "1.00", order := id }

/-- The text that the program writes, unless it panics. -/
def Written.output (r : Written) : Option Str := if r.panic = none then some r.text else none

/-- The complete output for a code directive: the code is not in it. -/
example : (transpile 40 (sampleEnv false) (str! "f") (str! "d")
    [str! ".. code:: c", [], str! "  x = 1", [], []]).output = some (str! "\\begin{codeblock}[c]\n\\end{codeblock}\n\n") := by
  decide +kernel

/-- The complete output for a code-block directive. -/
example : (transpile 40 (sampleEnv false) (str! "f") (str! "d")
    [str! ".. code-block:: c", [], str! "  x = 1", [], []]).output =
      some (str! "\\begin{codeblock}[c]\nx = 1\n\\end{codeblock}\n\n") := by
  decide +kernel

/-! ## C39 and C52 after the transforms -/

/-- The tree that is written, for an input that parses and whose document can be transformed. -/
theorem transpile_written {fuel : Nat} {w : WriterEnv} {stem folder : Str} {lines : List Str} {r : ParsingResult}
    {d : DocTree} (h : parseDocument fuel stem folder lines = .ok r) (ht : r.doc.transform = .ok d) :
    ∃ t t', IsDoc r.doc.tree t ∧ transformTree t = .ok t' ∧ IsDoc d.tree t' ∧
      transpile fuel w stem folder lines = writeNode w t' := by
  have hd := ht
  unfold DocTree.transform at hd
  cases hz : r.doc.tree.walkToRoot with
  | error e => rw [hz] at hd; cases hd
  | ok z =>
    rw [hz] at hd
    simp only [bind, Except.bind] at hd
    cases hn : transformTree z.node with
    | error e => rw [hn] at hd; cases hd
    | ok t' =>
      rw [hn] at hd
      cases hd
      refine ⟨z.node, t', ?_, hn, rfl, ?_⟩
      · obtain ⟨t, h1⟩ := C42_made_kinds fuel stem folder lines r h
        have h2 : z = ⟨t, []⟩ := by
          have := h1.1; unfold IsDoc at this; rw [hz] at this; cases this; rfl
        unfold IsDoc; rw [hz, h2]
      · unfold transpile; rw [h]; simp only [ht]; rfl

/-- A local property kept by the parser and the transforms holds for the document that is written. -/
theorem written_local {V : Type} {v : NodeType → V} {L : NodeType → List V → Prop} (hst : Stable v L)
    (hdoc : L .Document []) (hL : ∀ d vs, touchedKind d.kind = true → L d vs)
    {fuel : Nat} {w : WriterEnv} {stem folder : Str} {lines : List Str} {r : ParsingResult}
    {d : DocTree} (h : parseDocument fuel stem folder lines = .ok r) (hs : r.succeeded = true)
    (ht : r.doc.transform = .ok d) :
    ∃ t, IsDoc d.tree t ∧ transpile fuel w stem folder lines = writeNode w t ∧ AllNodes (LocalOk v L) t := by
  obtain ⟨t, h1, h2⟩ := local_steps (stem := stem) (folder := folder) hst hdoc (parsed_steps h hs)
  obtain ⟨t0, t', k1, k2, k3, k4⟩ := transpile_written (w := w) h ht
  have := Zipper.isDoc_unique h1 k1
  subst this
  exact ⟨t', k3, k4, transform_local hL k2 h2⟩

/-- The key, the points given to a questionnaire, if any, and the points added up in it. -/
def questionnaireOf : NodeType → Option (Str × Option Nat × Nat)
  | .AplusQuestionnaire (key := key) (max_points := m) (points_from_children := n) .. => some (key, m, n)
  | _ => none

/-- **C39 (what is written).** For every input that parses, can be transformed and is written without a panic: for every
questionnaire of the document that is written, the output has the beginning of a quiz with its key and its points: the
points given to the questionnaire if there are any, and otherwise the sum of the points of its questions. -/
theorem C39_written_points (fuel : Nat) (w : WriterEnv) (stem folder : Str) (lines : List Str) (r : ParsingResult)
    (d : DocTree) (h : parseDocument fuel stem folder lines = .ok r) (hs : r.succeeded = true)
    (ht : r.doc.transform = .ok d) (hp : (transpile fuel w stem folder lines).panic = none) :
    ∃ t, IsDoc d.tree t ∧ ∀ n ∈ preorder t, ∀ key maxPoints pts, questionnaireOf n.data = some (key, maxPoints, pts) →
      (str! "\\begin{quiz}{" ++ key ++ str! "}{" ++ decimal (maxPoints.getD (childPoints n)) ++ str! "}\n") <:+:
        (transpile fuel w stem folder lines).text := by
  obtain ⟨t, h1, h2, h3⟩ := written_local (w := w) points_stable (fun n hn => by cases hn)
    (fun d vs hk n hn => by rw [recordedPoints_kind hn] at hk; cases hk) h hs ht
  rw [h2] at hp ⊢
  refine ⟨t, h1, fun n hn key m pts hq => ?_⟩
  have hl := h3 n hn pts
  unfold questionnaireOf at hq
  split at hq
  · rename_i hd
    cases hq
    have hpts := hl (by rw [hd]; rfl)
    refine opening_written hp hn ?_
    rw [hd]
    simp only [preString]
    rw [hpts]
    congr 5
    simp [childPoints, List.map_map, Function.comp_def]
  · cases hq

/-- **C52 (what is written).** The same for the number of items of enumerated lists: the transforms keep it right. -/
theorem C52_written_items (fuel : Nat) (stem folder : Str) (lines : List Str) (r : ParsingResult)
    (d : DocTree) (h : parseDocument fuel stem folder lines = .ok r) (hs : r.succeeded = true)
    (ht : r.doc.transform = .ok d) :
    ∃ t, IsDoc d.tree t ∧ ∀ n ∈ preorder t, ∀ k, recordedItems n.data = some k →
      k = ((n.children.getD []).map TreeNode.kind).count .EnumeratedListItem := by
  obtain ⟨t, h1, _, h3⟩ := written_local (w := sampleEnv false) items_stable (fun n hn => by cases hn)
    (fun d vs hk n hn => by rw [recordedItems_kind hn] at hk; cases hk) h hs ht
  exact ⟨t, h1, fun n hn k hk => h3 n hn k hk⟩

/-- The complete output for a questionnaire of 30 points, and for one without points and with two questions for ten and
five. -/
example : (transpile 40 (sampleEnv false) (str! "f") (str! "d") sampleQuestionnaire).output = some (
    str! "\\begin{quiz}{k}{30}\n\\begin{pick}{one}{10}\nWhat?\n\n\\begin{answers}\n\\wrong one \\label{a}\n" ++
    str! "\\right two \\label{b}\n\\end{answers}\n\n\n\\end{pick}\n\n\\begin{freetext}{string}{5}{no}\n" ++
    str! "Say it\n\n\n\\end{freetext}\n\n\\end{quiz}\n\n") ∧
    (transpile 40 (sampleEnv false) (str! "f") (str! "d")
      (str! ".. questionnaire:: k" :: sampleQuestionnaire.drop 1)).output.map (List.take 23) =
      some (str! "\\begin{quiz}{k}{15}\n\\be") := by
  decide +kernel

end Rustla
