import Verif.Props.Separators
/-!
# Targets with relative addresses (C87)

A hyperlink target may have its address on the line below, and the address may be relative.  Such a target is no reason to lose anything: but the
program stops there, and drops all that is behind it, without a message.
-/
namespace Rustla
open Spec

/-- A transition fails. -/
theorem step_failed {E : Env} {s : LoopState} {st : State} {l : Str} {ls : List Str} {ts : List (Re × Transition)}
    (h : Stands E s st (l :: ls)) (ht : tableOf E st = .ok ts) (hst : st ≠ .EOF ∧ st ≠ .Failure)
    {m : Match} {f : Transition} (hf : firstTransition l ts = some (m, f)) {d : DocTree} (hr : f m s.ps = .fail d) :
    parseStep (machineOf E) s = .ok (.done (.failure d)) := by
  have hget : E.src[s.ps.cursor.relativeOffset]? = some l := by
    have := congrArg (·[0]?) h.here
    simpa using this
  unfold parseStep
  rw [if_neg (by rintro ⟨_, h2⟩; have := h.fresh; omega), h.top]
  have hgo : (do runTable (machineOf E) s (← (machineOf E).table st)) = Except.ok (Round.done (.failure d)) := by
    have e1 : (machineOf E).table st = .ok ts := ht
    have e2 : (machineOf E).src[s.ps.cursor.relativeOffset]? = some l := hget
    simp only [e1, bind, Except.bind]
    cases ts with
    | nil => simp [firstTransition] at hf
    | cons t ts => simp only [runTable, e2, hf, hr]
  cases st with
  | EOF => exact absurd rfl hst.1
  | Failure => exact absurd rfl hst.2
  | _ => exact hgo

/-- A run that fails while some nodes are open. -/
theorem run_failed {E : Env} {n0 : Nat} {stem folder : Str} {lines : List Str} {s : LoopState} {ex : List Frame} {f : Frame}
    (hsrc : E.src = lines) (hbase : E.baseIndent = 0) (hn : E.nested = parserOf n0)
    {doc : DocTree} (hg : Goes E (LoopState.init (DocTree.new stem folder) 0 .Body 0) s) (hsp : Spine doc.tree (ex ++ [f]))
    (hstep : parseStep (machineOf E) s = .ok (.done (.failure doc))) :
    ∃ n d t, parseDocument n stem folder lines = .ok (.failure d) ∧ IsDoc d.tree t ∧
      shapeOf t = .labelled f.data f.labels (f.done ++ shut [] ex) := by
  obtain ⟨k, hk⟩ := hg
  have hloop : parseLoop (machineOf E) (1 + k) (LoopState.init (DocTree.new stem folder) 0 .Body 0) = .ok (.failure doc) := by
    rw [hk]
    simp only [parseLoop, hstep, bind, Except.bind, pure, Except.pure]
  refine ⟨n0 + (1 + k) + 1, doc, ?_⟩
  have hdoc : parseDocument (n0 + (1 + k) + 1) stem folder lines = .ok (.failure doc) := by
    have e1 : ({ src := lines, baseIndent := 0, nested := parserOf (n0 + (1 + k)) } : Env) = E.with (parserOf (n0 + (1 + k))) := by
      simp only [Env.with, hsrc, hbase]
    show parseLoop (machineOf { src := lines, baseIndent := 0, nested := parserOf (n0 + (1 + k)) }) (n0 + (1 + k) + 1) _ = _
    rw [e1]
    have e : n0 + (1 + k) + 1 = (1 + k) + (n0 + 1) := by omega
    rw [e]
    refine loop_more (M := machineOf E) (fun s => step_refines (E := E) (hn ▸ parserOf_mono (by omega)) s) (n0 + 1) (1 + k) _ hloop (by simp)
  cases hz : doc.tree with
  | mk node path =>
    rw [hz] at hsp
    obtain ⟨g, es, hge⟩ : ∃ g es, ex ++ f :: [] = g :: es := by
      cases ex with
      | nil => exact ⟨_, _, rfl⟩
      | cons e ex => exact ⟨_, _, rfl⟩
    rw [hge] at hsp
    obtain ⟨t, w1, w2⟩ := walk_spine hsp rfl hge.symm
    refine ⟨t, hdoc, ?_, w2⟩
    show ((Zipper.walkToRootAux node path).bind fun n => .ok (⟨n, []⟩ : Zipper)) = _
    rw [w1]; rfl

/-- The result does not depend on the fuel, if there is enough. -/
theorem run_fuel_any {fuel n : Nat} {stem folder : Str} {lines : List Str} {r : ParsingResult}
    (h : parseDocument n stem folder lines = .ok r) (hfuel : roundsBound (textSize lines) ≤ fuel) :
    parseDocument fuel stem folder lines = .ok r := by
  rcases C54_any_bound n stem folder lines with e | e
  · rw [h] at e; cases e
  · rcases C54_any_bound fuel stem folder lines with e' | e'
    · exact absurd e' (bound_enough hfuel)
    · rw [e', ← e, h]

/-- The output after a failure: what has been read is written. -/
theorem failed_output {fuel : Nat} {w : WriterEnv} {stem folder : Str} {lines : List Str} {d : DocTree} {t : TreeNode}
    {sh : Shape} {txt : Str} (h1 : parseDocument fuel stem folder lines = .ok (.failure d)) (h2 : IsDoc d.tree t) (h3 : shapeOf t = sh)
    (hy : Yields w [sh] txt) :
    (transpile fuel w stem folder lines).panic = none ∧ (transpile fuel w stem folder lines).text = txt := by
  obtain ⟨cs', k3, k1, k2⟩ := hy [t] (by simp [shapesOf, h3])
  obtain ⟨t', rfl, ht⟩ : ∃ t', cs' = [t'] ∧ transformTree t = .ok t' := by
    cases k3 with
    | cons h1 h2 => cases h2; exact ⟨_, rfl, h1⟩
  have hw : transpile fuel w stem folder lines = writeNode w t' := by
    unfold transpile
    rw [h1]
    have : d.transform = .ok { d with tree := { node := t', path := [] } } := by
      unfold DocTree.transform
      rw [show d.tree.walkToRoot = .ok ⟨t, []⟩ from h2]
      simp only [bind, Except.bind, ht, pure, Except.pure]
    simp only [ParsingResult.doc, this]
    rfl
  rw [hw]
  simp only [writeNodes] at k1 k2
  have hn : (writeNode w t').panic = none := by
    cases hx : (writeNode w t').panic with
    | none => rfl
    | some e => simp [Written.andThen, hx] at k1
  refine ⟨hn, ?_⟩
  rw [(andThen_text hn).2] at k2
  simpa [Written.text] using k2

/-- A target with a word on the next line fails. -/
theorem target_word_fails {E : Env} (h0 : E.baseIndent = 0) {t : Target} {i k : Nat} {ps : PS} {w : Str} {rest : List Str} (hk : i + 3 ≤ k)
    (hw : Piece.Ok (.word w)) (hsrc : E.src.drop ps.cursor.relativeOffset = indentLine i t.line :: indentLine k w :: rest)
    (hr : ∀ l, rest.head? = some l → isBlank l = true) :
    targetAct E t i (targetIndent E i (indentLine i t.line).length ps.cursor.relativeOffset) ps = .fail ps.doc := by
  have hword := hw
  obtain ⟨hne, hws, _⟩ := hw
  obtain ⟨c, u, rfl⟩ : ∃ c u, w = c :: u := by
    cases w with
    | nil => exact absurd rfl hne
    | cons c u => exact ⟨c, u, rfl⟩
  have hc : isWs c = false := hws c (by simp)
  have v1 : isBlank (indentLine k (c :: u)) = false := indented_not_blank hc k
  have v2 : indentOf (indentLine k (c :: u)) = k := indentOf_indented hc k
  have hnext : E.src[ps.cursor.relativeOffset + 1]? = some (indentLine k (c :: u)) := by
    have := congrArg (·[1]?) hsrc
    simpa using this
  have hind : targetIndent E i (indentLine i t.line).length ps.cursor.relativeOffset = k := by
    unfold targetIndent
    rw [hnext]
    simp only [v1, v2, h0, Bool.false_eq_true, if_false, Nat.add_zero]
    rw [if_neg (by omega)]
  generalize hn : (indentLine i t.line).length = n at hind ⊢
  have hneE : E.src.isEmpty = false := by
    cases hE : E.src with
    | nil => rw [hE] at hsrc; simp at hsrc
    | cons => rfl
  have hlen : ¬ E.src.length < ps.cursor.relativeOffset := by
    intro hlt
    rw [List.drop_eq_nil_of_le (by omega)] at hsrc
    simp at hsrc
  have hloop0 : ∀ p : Option Str, (readIndentedLoop true (some k) false rest p (some k)).lines = [] ∧ (readIndentedLoop true (some k) false rest p (some k)).minimal = some k := by
    intro p
    cases rest with
    | nil => exact ⟨rfl, rfl⟩
    | cons l rest =>
      have hb : isBlank l = true := hr l rfl
      simp [readIndentedLoop, hb]
  have hloop : (readIndentedLoop true (some k) false (indentLine k (c :: u) :: rest) (some (indentLine i t.line)) (some k)).lines = [indentLine k (c :: u)] ∧
      (readIndentedLoop true (some k) false (indentLine k (c :: u) :: rest) (some (indentLine i t.line)) (some k)).minimal = some k := by
    have hal : (decide (k < 1) || breakWhenNotAligned (some k) false k) = false := by
      have : ¬ k < 1 := by omega
      simp [breakWhenNotAligned, this]
    obtain ⟨q1, q2⟩ := hloop0 (some (indentLine k (c :: u)))
    rw [readIndentedLoop]
    simp only [v1, v2, hal, Bool.not_false, Bool.and_false, Bool.false_and, Bool.false_eq_true, if_false, updateMinimal, q1, q2, and_self]
  have hblock : P.indentedBlock E true (some k) (some n) false ps = .ok ([[], c :: u], 2) ps := by
    have hd : (indentLine i t.line).drop n = [] := List.drop_eq_nil_of_le (by omega)
    have hd2 : (indentLine k (c :: u)).drop k = c :: u := drop_indentLine k _
    simp only [P.indentedBlock, readIndentedBlock, hneE, Bool.false_eq_true, if_false, hlen, Option.or, hsrc, hloop.1, hloop.2, if_true, stripBlock,
      hd, hd2, List.map_cons, List.map_nil, List.length_cons, List.length_nil]
  have hfilter : (joinWith ['\n'] [[], c :: u]).filter (fun c => !isWs c) = c :: u := by
    have e : joinWith ['\n'] [[], c :: u] = '\n' :: c :: u := by simp [joinWith]
    rw [e, List.filter_cons_of_neg (by decide)]
    exact List.filter_eq_self.mpr fun a ha => by simp [hws a ha]
  have hin := C57_markup (some ps.doc) ps.cursor [.word (c :: u)] ⟨hword, trivial, trivial⟩
  have hs : piecesSource [.word (c :: u)] = c :: u := by simp [piecesSource, Piece.source]
  rw [hs] at hin
  rw [hind]
  unfold targetAct
  simp only [bind, P.bind, hn, hblock, hfilter, List.isEmpty_cons, Bool.false_eq_true, if_false, targetContent, P.inlineDoc, hin, List.map_cons, List.map_nil,
    Piece.node, targetNode, P.required, P.failed, Option.getD_some]

/-- Any blocks, a target, a relative address on the next line, and any lines whatever behind a blank line. -/
structure Aimed where
  before : Blocks
  target : Target
  more : Nat
  address : Str
  gap : Str
  behind : List Str

/-- The lines of the document. -/
def Aimed.lines (D : Aimed) : List Str :=
  D.before.lines 0 ++ D.target.line :: indentLine (3 + D.more) D.address :: D.gap :: D.behind

/-- The address is one word, which is not read as markup. -/
structure Aimed.Ok (D : Aimed) : Prop where
  before : D.before.Ok
  blank : BlankLast (D.before.lines 0)
  depth : D.before.height ≤ 8
  target : D.target.Ok
  address : Piece.Ok (.word D.address)
  gap : isBlank D.gap = true

/-- **C87 is false of the program:** the parse fails at the target, and only the blocks before it are in the document, whatever is behind it. -/
theorem C87_nodes_violated (fuel : Nat) (stem folder : Str) (D : Aimed) (hD : D.Ok) (hfuel : roundsBound (textSize D.lines) ≤ fuel) :
    ∃ d t, parseDocument fuel stem folder D.lines = .ok (.failure d) ∧ IsDoc d.tree t ∧ shapeOf t = .node .Document (D.before.shapes 0) := by
  obtain ⟨hB, hblank, hh, ht, ha, hgap⟩ := hD
  have hcB := cost_height D.before
  have hd : indentLine 0 D.target.line = D.target.line := by simp [indentLine]
  let n0 := roundsBound (textSize D.lines)
  let E : Env := { src := D.lines, baseIndent := 0, nested := parserOf n0 }
  let f : Frame := ⟨.Body, .Document, [], []⟩
  have hf : f.Body E 0 := ⟨.of rfl, .inl rfl, rfl, fun _ => takes_body rfl (by decide)⟩
  have hinit : At E {} [] (LoopState.init (DocTree.new stem folder) 0 .Body 0) ([] ++ f :: []) D.lines 0 := by
    refine ⟨rfl, .mk (cs := []) ⟨rfl, rfl, rfl, rfl, rfl⟩ .nil, ?_, Nat.le_refl _, rfl⟩
    have : D.lines.isEmpty = false := by
      cases h : D.lines with
      | nil => exact absurd h (by simp [Aimed.lines])
      | cons => rfl
    simp [stackFor, this, LoopState.init, f]
  have hlow : Low 1 (D.target.line :: indentLine (3 + D.more) D.address :: D.gap :: D.behind) := by
    intro x hx
    obtain rfl : D.target.line = x := by simpa using hx
    have := front_target D.target 0
    rw [hd] at this
    exact ⟨this.not_blank, by rw [this.indent]; omega⟩
  obtain ⟨ex1, ss1, ⟨s1, k1, k2⟩, k3, k4, k5, k6⟩ := runs_blocks D.before (H := 8) (C := 8) (i := 0) (j := 0) (n := n0) (f := f) (fs := []) (ex := []) ⟨by rfl, rfl⟩ hB
    (roundsBound_mono (by simp only [Aimed.lines, textSize_append]; omega)) (.inl rfl) (.inl hblank) hlow hh (by omega) (by omega) hf (fun e => by cases e) (by simp) (by simp)
    (fun _ => ⟨rfl, rfl⟩) (by simp) (by simp [headCost]) (by simp) (fun _ => rfl) hinit
  rw [← hd] at k2
  obtain ⟨s2, k7, k8⟩ := k2.unwind (E := E) (i := 0) (j := 0) rfl (starts_target rfl ht 0 _) ex1.length ex1 rfl (fun e he => (k5 e he).shuts_para) (by omega)
  have hf' := (hf.add ss1).add (shut [] ex1)
  obtain ⟨_, e3⟩ := target_transition E ht 0
  obtain ⟨ts, hts, hts'⟩ := hf'.table
  have hmove : bodyHyperlinkTarget E (targetMatch D.target 0) s2.ps = .fail s2.ps.doc := by
    rw [target_acts E ht, atIndent_right k8.spine hf'.indent]
    exact target_word_fails rfl (by omega) ha k8.here (by
      intro l hl
      obtain rfl : D.gap = l := by simpa using hl
      exact hgap)
  have hstep := step_failed (k8.stands (by omega)) hts hf'.notEnd ((hts' _ (target_noBreak D.target 0 _)).trans e3) hmove
  obtain ⟨n, d, t, q1, q2, q3⟩ := run_failed (stem := stem) (folder := folder) (ex := []) rfl rfl rfl (k1.trans k7) k8.spine hstep
  refine ⟨d, t, run_fuel_any q1 hfuel, q2, ?_⟩
  have k3' : ss1 ++ shut [] ex1 = D.before.shapes 0 := by simpa [shut] using k3
  rw [q3]
  simp only [Frame.add, f, List.nil_append, Frame.labels, ownLabels, shut, List.append_nil]
  rw [← k3']

/-- **C87 is false of the program, in the output:** everything behind the target is lost without a message. -/
theorem C87_violated (fuel : Nat) (w : WriterEnv) (stem folder : Str) (D : Aimed) (hD : D.Ok) (hfuel : roundsBound (textSize D.lines) ≤ fuel)
    (hfull : w.fullDocument = false) :
    (transpile fuel w stem folder D.lines).panic = none ∧ (transpile fuel w stem folder D.lines).text = D.before.latex w 0 := by
  obtain ⟨d, t, h1, h2, h3⟩ := C87_nodes_violated fuel stem folder D hD hfuel
  have hp : Yields w (D.before.shapes 0) (D.before.latex w 0) := yields_blocks w D.before 0 false hD.before
  have hy := hp.node (d := .Document) (ls := []) (a := []) (b := []) (fun r _ => ⟨by simp [preString, hfull, flag], by simp [postString, hfull, flag]⟩)
    (by simp [NodeType.kind]) (by simp [NodeType.kind])
  obtain ⟨k1, k2⟩ := failed_output h1 h2 h3 hy
  exact ⟨k1, k2.trans (by simp)⟩

/-- **C87, an example:** a manual that refers to another page.  The hypotheses of the theorems are met. -/
def sampleAimed : Aimed where
  before := .para [str! "a"] [.word (str! "a")] [[]] .nil
  target := ⟨str! "the page", [], []⟩
  more := 0
  address := str! "docs/index"
  gap := []
  behind := [str! "b", [], str! "c"]

theorem sampleAimed_ok : sampleAimed.Ok :=
  ⟨by decide +kernel, by decide +kernel, by decide +kernel, by decide +kernel, by decide +kernel, by decide⟩

example : (transpile (roundsBound (textSize sampleAimed.lines)) sampleWriter [] []
      [str! "a", [], str! ".. _the page:", str! "   docs/index", [], str! "b", [], str! "c"]).text = str! "a\n\n" :=
  (C87_violated _ sampleWriter [] [] sampleAimed sampleAimed_ok (Nat.le_refl _) rfl).2.trans (by decide +kernel)

end Rustla
