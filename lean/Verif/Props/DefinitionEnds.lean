import Verif.Props.Aimed
/-!
# What is behind a definition list (C71)

A definition list is only left at a paragraph or a heading.  At a line that starts with two dots the parse fails.
-/
namespace Rustla
open Spec

/-- Explicit markup in a definition list: the state is left, but the focus stays. -/
theorem definition_backs (E : Env) {l : Str} {m : Match} (hb : isBlank l = false) (hc : reComment.captures l = some m) :
    ∃ m', firstTransition l (definitionTable E) = some (m', backUp) := by
  simp only [definitionTable, firstTransition, blankLine_dead hb, hc]
  repeat (split <;> first | exact ⟨_, rfl⟩ | skip)

/-- The same for the marks of lists. -/
theorem definition_backs_tag (E : Env) {l : Str} {m : Match} (hb : isBlank l = false)
    (hc : reBullet.captures l = some m ∨ reEnumerator.captures l = some m ∨ reFieldMarker.captures l = some m) :
    ∃ m', firstTransition l (definitionTable E) = some (m', backUp) := by
  rcases hc with hc | hc | hc <;> simp only [definitionTable, firstTransition, blankLine_dead hb, hc]
  all_goals repeat (split <;> first | exact ⟨_, rfl⟩ | skip)
  all_goals exact ⟨_, rfl⟩

theorem loop_minimal {ub fo : Bool} {k : Nat} : ∀ (ls : List Str) (p : Option Str), (readIndentedLoop ub (some k) fo ls p (some k)).minimal = some k
  | [], _ => rfl
  | l :: ls, p => by
    rw [readIndentedLoop]
    dsimp only
    split
    · rfl
    · split
      · rfl
      · simp only [updateMinimal]
        exact loop_minimal ls _

/-- A block with known indentations is always read. -/
theorem block_reads {E : Env} {s : PS} {k n : Nat} {l : Str} {rest : List Str} (h : E.src.drop s.cursor.relativeOffset = l :: rest) :
    ∃ ls m, P.indentedBlock E false (some k) (some n) false s = .ok (ls, m) s := by
  have hne : E.src.isEmpty = false := by
    cases hs : E.src with
    | nil => rw [hs] at h; simp at h
    | cons => rfl
  have hlen : ¬ E.src.length < s.cursor.relativeOffset := by
    intro hlt
    rw [List.drop_eq_nil_of_le (by omega)] at h
    simp at h
  have hmin := loop_minimal (ub := false) (fo := false) (k := k) rest (some l)
  simp only [P.indentedBlock, readIndentedBlock, hne, Bool.false_eq_true, if_false, hlen, Option.or, h, hmin, if_true]
  exact ⟨_, _, rfl⟩

/-- Two dots in a definition list. -/
theorem dots_refused {E : Env} {ps : PS} {i : Nat} {ss : List Shape} {fs : List Frame} {rest : List Str} (h0 : E.baseIndent = 0)
    (h : Spine ps.doc.tree (defsFrame i ss :: fs)) (hq : ps.doc.hyperref.accumulated = []) (hsrc : E.src.drop ps.cursor.relativeOffset = indentLine i (str! "..") :: rest) :
    ∃ d', bodyComment E (dotsMatch i) ps = .fail d' ∧ Spine d'.tree (defsFrame i ss :: fs) := by
  have e1 : (dotsMatch i).whole.length = i + 2 := by simp [dotsMatch]
  have e2 : ((dotsMatch i).getD .g1).length = i := by
    show (spaces i).length = i
    simp
  obtain ⟨ls, m, hread⟩ := block_reads (k := commentIndent E (i + E.baseIndent) (i + 2 + E.baseIndent) ps.cursor.relativeOffset - E.baseIndent)
    (n := i + 2) hsrc
  have hp : parentIndentMatches ps.doc.sharedData (i + E.baseIndent) = .ok .justRight := by
    unfold parentIndentMatches
    have : ps.doc.sharedData.bodyIndent = some i := by
      show ps.doc.tree.node.data.bodyIndent = _; rw [h.data]; rfl
    rw [this, h0]; simp
  obtain ⟨d', h1, h2, _⟩ := h.refused (data := .Comment (if (trim (joinWith ['\n'] ls)).isEmpty then none else some (trim (joinWith ['\n'] ls)))) (by show childIsAllowed .DefinitionList .Comment = _; decide) simple_comment hq
  have hpush : P.push (.Comment (if (trim (joinWith ['\n'] ls)).isEmpty then none else some (trim (joinWith ['\n'] ls)))) ps = .fail d' := by
    unfold P.tryPush at h1
    unfold P.push P.orFail
    revert h1
    cases ps.doc.pushData _ with
    | error e => intro h1; cases h1
    | ok r =>
      obtain ⟨b, d⟩ := r
      intro h1
      simp only [Out.ok.injEq] at h1
      obtain ⟨rfl, h1⟩ := h1
      have := congrArg PS.doc h1
      dsimp only at this
      subst this
      rfl
  refine ⟨d', ?_, h2⟩
  unfold bodyComment
  simp only [e1, e2, bind, P.bind, P.offset, Nat.add_sub_cancel, atIndent, P.doc, P.lift, hp, hread, hpush]

/-- Definition lists, with what is known about the nodes that are still open: every block at the indentation of the list closes them. -/
def RunsInner (D : Defs) : Prop :=
  ∀ {E : Env} {S : SectionData} {os : List Frame} {n i H : Nat} {ss0 : List Shape} {fs ex : List Frame} {after : List Str} {s : LoopState} {c : Nat},
    Fits E n i i → D.Ok → roundsBound (textSize (D.lines i)) ≤ n → E.baseIndent = 0 → BlankLast (D.lines i) ∨ Ends (i + 1) after →
    Low (i + 1) after → D.height ≤ H → H ≤ 7 → (∀ e ∈ ex, Inner i e) → ex.length ≤ H → c + ex.length ≤ 9 → (D = .nil → c = 0) →
    At E S os s (ex ++ defsFrame i ss0 :: fs) (D.lines i ++ after) c →
    ∃ ex' ss, Leads E S os s (ex' ++ defsFrame i ss :: fs) after 0 ∧
      ss ++ shut [] ex' = ss0 ++ shut [] ex ++ D.shapes i ∧ ex'.length ≤ H ∧ ∀ e ∈ ex', Inner i e

theorem inner_nil : RunsInner .nil := by
  intro E S os n i H ss0 fs ex after s c _ _ _ _ _ _ _ _ hdeep hex _ hc h
  obtain rfl := hc rfl
  exact ⟨ex, ss0, h.leads, by simp [Defs.shapes], hex, hdeep⟩

theorem inner_term {t : Term} {body : Blocks} {rest : Defs} (hrun : RunsInner rest) : RunsInner (.term t body rest) := by
  intro E S os n i H ss0 fs ex after s c hE hD hsz h0 ha hlow hh hH hdeep hex hc _ h
  have hstart := starts_defs (E := E) (i := i) (after := after) hD (by simp)
  obtain ⟨ht, hne, hq, hbody, hrest⟩ := hD
  have hhI : body.height + 1 ≤ H ∧ rest.height ≤ H := by simp only [Defs.height] at hh; omega
  obtain ⟨s1, k1, k2⟩ := h.unwind hE.shift hstart ex.length ex rfl (fun e he => (hdeep e he).2 none) (by omega)
  obtain ⟨l, ls, e, hl⟩ := blocks_front hbody hne hq (i + (t.deep + 1))
  have e1 : Defs.lines i (.term t body rest) ++ after = indentLine i t.text :: (body.lines (i + (t.deep + 1)) ++ (rest.lines i ++ after)) := by
    simp [Defs.lines]
  rw [e1] at k2
  have e4 : body.lines (i + (t.deep + 1)) ++ (rest.lines i ++ after) = l :: (ls ++ (rest.lines i ++ after)) := by rw [e]; rfl
  rw [e4] at k2
  obtain ⟨s2, k3, k4⟩ := AtL.term h0 k2 (by omega) ht hl
  rw [← e4] at k4
  have hends : BlankLast (body.lines (i + (t.deep + 1))) ∨ Ends (i + (t.deep + 1)) (rest.lines i ++ after) := by
    by_cases hr : rest = .nil
    · subst hr
      refine ha.imp (fun h => ?_) (fun h => h.mono (by omega))
      rw [Defs.lines, Defs.lines, List.append_nil, ← List.singleton_append] at h
      exact BlankLast.right h
    · exact .inr (ends_defs (by omega) hrest hr)
  obtain ⟨ex1, ss1, ⟨s3, k5, k6⟩, k7, k8, k9, _⟩ := runs_blocks body (H := H - 1) (C := body.cost) (ex := []) (hE.more (t.deep + 1)) hbody
    (rounds_part hsz (by simp only [Defs.lines, textSize_cons, textSize_append]; omega)) (.inl h0) hends ((low_defs hrest hlow).mono (by omega)) (by omega)
    (by omega) (Nat.le_refl _) (termFrame_body E t i []) (fun e => by cases e) (by simp) (by simp) (fun e => absurd e hq) (by simp) (by simp [headCost])
    (by simp) (fun _ => rfl) k4
  have e2 : (termFrame t i []).add ss1 = termFrame t i ss1 := by simp [Frame.add]
  rw [e2] at k6
  have e3 : ex1 ++ termFrame t i ss1 :: defsFrame i ((defsFrame i ss0).done ++ shut [] ex) :: fs =
      (ex1 ++ [termFrame t i ss1]) ++ defsFrame i (ss0 ++ shut [] ex) :: fs := by
    simp
  rw [e3] at k6
  have hdeep2 : ∀ e ∈ ex1 ++ [termFrame t i ss1], Inner i e := by
    intro e he
    rcases List.mem_append.mp he with he | he
    · exact (k9 e he).inner (by omega)
    · obtain rfl := List.mem_singleton.mp he
      exact ⟨.inl ⟨.inl (.inl rfl), i + (t.deep + 1), rfl, by omega⟩, fun _ => .inl ⟨.inl (.inl rfl), i + (t.deep + 1), rfl, by omega⟩⟩
  obtain ⟨ex', ss, m1, m2, m3, m4⟩ := hrun (H := H) hE hrest (rounds_part hsz (by simp only [Defs.lines, textSize_cons, textSize_append]; omega)) h0
    (ha.imp (fun h => by
      rw [Defs.lines, ← List.cons_append] at h
      exact BlankLast.right h) id) hlow hhI.2 hH hdeep2
    (by simp only [List.length_append, List.length_cons, List.length_nil]; omega)
    (by simp only [List.length_append, List.length_cons, List.length_nil]; omega) (fun _ => rfl) k6
  refine ⟨ex', ss, ((k1.trans k3).trans k5).leads m1, ?_, m3, m4⟩
  rw [m2, shut_append]
  simp only [shut, List.nil_append] at k7
  simp only [k7, Defs.shapes, List.append_assoc, List.singleton_append]
  rfl

theorem runs_inner : ∀ D : Defs, RunsInner D
  | .nil => inner_nil
  | .term _ _ rest => inner_term (runs_inner rest)

/-- A block that no definition list takes: its first line, at the left margin, is read as a block by its own rule, and its node is refused. -/
structure Refused (E : Env) (b : Option Tag) (l : Str) (behind : List Str) : Prop where
  starts : Starts E 0 b (l :: behind)
  visible : isBlank l = false ∧ indentOf l = 0
  leaves : ∃ m, firstTransition l (definitionTable E) = some (m, backUp)
  fails : ∀ {ps : PS} {ss : List Shape} {fs : List Frame}, Spine ps.doc.tree (defsFrame 0 ss :: fs) → ps.doc.hyperref.accumulated = [] →
    E.src.drop ps.cursor.relativeOffset = l :: behind →
    ∃ m tr d', firstTransition l (bodyTable E) = some (m, tr) ∧ tr m ps = .fail d' ∧ Spine d'.tree (defsFrame 0 ss :: fs)

/-- The parse fails at a block that no definition list takes. -/
theorem definitions_fail (fuel : Nat) (stem folder : Str) (B : Blocks) (L : Defs) (lines : List Str) (b : Option Tag) (l : Str) (behind : List Str)
    (hlines : lines = B.lines 0 ++ (L.lines 0 ++ l :: behind)) (hB : B.Ok) (hblank : BlankLast (B.lines 0)) (hL : L.Ok) (hne : L ≠ .nil)
    (hlast : BlankLast (L.lines 0)) (hh : B.height ≤ 8) (hh2 : L.height ≤ 7)
    (hr : ∀ n, Refused { src := lines, baseIndent := 0, nested := parserOf n } b l behind) (hfuel : roundsBound (textSize lines) ≤ fuel) :
    ∃ d t, parseDocument fuel stem folder lines = .ok (.failure d) ∧ IsDoc d.tree t ∧
      shapeOf t = .node .Document (B.shapes 0 ++ [.node (.DefinitionList 0) (L.shapes 0)]) := by
  have hcB := cost_height B
  let n0 := roundsBound (textSize lines)
  let E : Env := { src := lines, baseIndent := 0, nested := parserOf n0 }
  obtain ⟨hstarts, hvis, ⟨m', hm'⟩, hfails⟩ := hr n0
  have hsz : textSize (B.lines 0) ≤ textSize lines ∧ textSize (L.lines 0) ≤ textSize lines := by
    rw [hlines]; simp only [textSize_append]; omega
  let f : Frame := ⟨.Body, .Document, [], []⟩
  have hf : f.Body E 0 := ⟨.of rfl, .inl rfl, rfl, fun _ => takes_body rfl (by decide)⟩
  have hinit : At E {} [] (LoopState.init (DocTree.new stem folder) 0 .Body 0) ([] ++ f :: []) lines 0 := by
    refine ⟨rfl, .mk (cs := []) ⟨rfl, rfl, rfl, rfl, rfl⟩ .nil, ?_, Nat.le_refl _, rfl⟩
    have : lines.isEmpty = false := by
      rw [hlines]
      cases B.lines 0 <;> cases L.lines 0 <;> rfl
    simp [stackFor, this, LoopState.init, f]
  rw [hlines] at hinit
  have hlow : Low 1 (l :: behind) := by
    intro x hx
    obtain rfl : l = x := by simpa using hx
    exact ⟨hvis.1, by rw [hvis.2]; decide⟩
  obtain ⟨ex1, ss1, ⟨s1, k1, k2⟩, k3, k4, k5, k6⟩ := runs_blocks B (H := 8) (C := 8) (i := 0) (j := 0) (n := n0) (f := f) (fs := []) (ex := []) ⟨by rfl, rfl⟩ hB
    (roundsBound_mono hsz.1) (.inl rfl) (.inl hblank) (low_defs hL hlow) hh (by omega) (by omega) hf (fun e => by cases e) (by simp) (by simp)
    (fun _ => ⟨rfl, rfl⟩) (by simp) (by simp [headCost]) (by simp) (fun _ => rfl) hinit
  obtain ⟨s2, k7, k8⟩ := k2.unwind (E := E) (i := 0) (j := 0) rfl (starts_defs hL hne) ex1.length ex1 rfl (fun e he => (k5 e he).shuts_para) (by omega)
  have hf' := (hf.add ss1).add (shut [] ex1)
  have hopen : Leads E {} [] s2 (defsFrame 0 [] :: (f.add ss1).add (shut [] ex1) :: []) (L.lines 0 ++ l :: behind) (0 + ex1.length + 1) := by
    cases hcase : L with
    | nil => exact absurd hcase hne
    | term t body more =>
      rw [hcase] at hL k8
      obtain ⟨ht, hbne, hbq, hbody, _⟩ := hL
      obtain ⟨l1, ls, e, hl⟩ := blocks_front hbody hbne hbq (0 + (t.deep + 1))
      have e2 : Defs.lines 0 (.term t body more) ++ l :: behind =
          indentLine 0 t.text :: l1 :: (ls ++ (more.lines 0 ++ l :: behind)) := by
        rw [Nat.zero_add] at e
        simp [Defs.lines, e]
      rw [e2] at k8 ⊢
      exact AtL.open_defs rfl k8 (by omega) hf' ht.line ht.noBreak (fun e => by cases e) hl
  obtain ⟨s3, k9, k10⟩ := hopen
  obtain ⟨ex2, ss2, ⟨s4, m1, m2⟩, m3, m4, m5⟩ := runs_inner L (H := 7) (n := n0) (ss0 := []) (ex := []) ⟨by rfl, rfl⟩ hL
    (roundsBound_mono hsz.2) rfl (.inl hlast) hlow hh2 (by omega) (by simp) (by simp) (by simp; omega)
    (fun e => absurd e hne) k10
  obtain ⟨s5, m6, m7⟩ := m2.unwind (E := E) (i := 0) (j := 0) rfl hstarts ex2.length ex2 rfl (fun e he => (m5 e he).2 b) (by omega)
  -- the state is left, the focus stays
  have hstack : s5.stack = [.Body] ++ [.DefinitionList] := m7.stack_cons
  have hlen : ex2.length ≤ 7 := by omega
  have hstep := step_stays (m7.stands (by omega)) (ts := definitionTable E) rfl ⟨by show State.DefinitionList ≠ _; simp, by show State.DefinitionList ≠ _; simp⟩ hm' (pp := .pop) (ps := s5.ps) rfl rfl
    (stack := [.Body]) (by rw [hstack]; rfl)
  have hcount := m7.count
  have hst : Stands E { ps := s5.ps, stack := [.Body], changed := false, count := s5.count + 1 } .Body (l :: behind) :=
    ⟨m7.here, by simp, rfl, by show s5.count + 1 < 10; omega⟩
  obtain ⟨m2', tr, d', r0, r1, r2⟩ := hfails m7.spine m7.pending m7.here
  have hfail := step_failed hst (ts := bodyTable E) rfl (by simp) r0 r1
  have hgo := ((((k1.trans k7).trans k9).trans m1).trans m6).trans (.step hstep)
  obtain ⟨n, d, t, q1, q2, q3⟩ := run_failed (stem := stem) (folder := folder) (ex := [_]) rfl rfl rfl hgo r2 hfail
  refine ⟨d, t, run_fuel_any q1 hfuel, q2, ?_⟩
  have k3' : ss1 ++ shut [] ex1 = B.shapes 0 := by simpa [shut] using k3
  have m3' : ss2 ++ shut [] ex2 = L.shapes 0 := by simpa [shut] using m3
  rw [q3]
  simp [Frame.add, f, Frame.labels, ownLabels, shut, ← k3', ← m3']

/-- The output after such a failure. -/
theorem definitions_output {fuel : Nat} {w : WriterEnv} {stem folder : Str} {lines : List Str} {B : Blocks} {L : Defs} {d : DocTree} {t : TreeNode}
    (hB : B.Ok) (hL : L.Ok) (h1 : parseDocument fuel stem folder lines = .ok (.failure d)) (h2 : IsDoc d.tree t)
    (h3 : shapeOf t = .node .Document (B.shapes 0 ++ [.node (.DefinitionList 0) (L.shapes 0)])) (hfull : w.fullDocument = false) :
    (transpile fuel w stem folder lines).panic = none ∧ (transpile fuel w stem folder lines).text =
      B.latex w 0 ++ str! "\\begin{itemize}\n" ++ L.latex w 0 ++ str! "\\end{itemize}\n\n" := by
  have hp : Yields w (B.shapes 0) (B.latex w 0) := yields_blocks w B 0 false hB
  have hl := Yields.node (d := .DefinitionList 0) (ls := []) (a := str! "\\begin{itemize}\n") (b := str! "\\end{itemize}\n\n")
    (yields_defs w L 0 hL) (fun _ _ => ⟨rfl, rfl⟩) (by simp [NodeType.kind]) (by simp [NodeType.kind])
  have hy := (hp.append hl).node (d := .Document) (ls := []) (a := []) (b := []) (fun r _ => ⟨by simp [preString, hfull, flag], by simp [postString, hfull, flag]⟩)
    (by simp [NodeType.kind]) (by simp [NodeType.kind])
  obtain ⟨k1, k2⟩ := failed_output h1 h2 h3 hy
  exact ⟨k1, k2.trans (by simp [List.append_assoc])⟩

/-- Any blocks, a definition list, a line of two dots, and any lines whatever. -/
structure Dotted where
  before : Blocks
  list : Defs
  behind : List Str

/-- The lines of the document. -/
def Dotted.lines (D : Dotted) : List Str := D.before.lines 0 ++ (D.list.lines 0 ++ str! ".." :: D.behind)

/-- There is a blank line between the definitions and the dots. -/
structure Dotted.Ok (D : Dotted) : Prop where
  before : D.before.Ok
  blank : BlankLast (D.before.lines 0)
  list : D.list.Ok
  notEmpty : D.list ≠ .nil
  listBlank : BlankLast (D.list.lines 0)
  depth : D.before.height ≤ 8 ∧ D.list.height ≤ 7

/-- **C71 fails in front of explicit markup:** the parse fails, and only the definition list and the blocks before it are in the document, whatever is
behind it. -/
theorem C71_rest_nodes_violated (fuel : Nat) (stem folder : Str) (D : Dotted) (hD : D.Ok) (hfuel : roundsBound (textSize D.lines) ≤ fuel) :
    ∃ d t, parseDocument fuel stem folder D.lines = .ok (.failure d) ∧ IsDoc d.tree t ∧
      shapeOf t = .node .Document (D.before.shapes 0 ++ [.node (.DefinitionList 0) (D.list.shapes 0)]) := by
  obtain ⟨hB, hblank, hL, hne, hlast, hh, hh2⟩ := hD
  refine definitions_fail fuel stem folder D.before D.list D.lines none (str! "..") D.behind rfl hB hblank hL hne hlast hh hh2 (fun n => ⟨starts_dots 0 _, dots_visible 0, ?_, ?_⟩) hfuel
  · exact definition_backs _ (dots_visible 0).1 (dots_captures 0)
  · intro ps ss fs hs hq hsrc
    obtain ⟨d', h1, h2⟩ := dots_refused (i := 0) rfl hs hq hsrc
    exact ⟨_, _, d', dots_first _ 0, h1, h2⟩

/-- **C71 fails in front of explicit markup, in the output:** everything behind the definition list is lost without a message. -/
theorem C71_rest_violated (fuel : Nat) (w : WriterEnv) (stem folder : Str) (D : Dotted) (hD : D.Ok) (hfuel : roundsBound (textSize D.lines) ≤ fuel)
    (hfull : w.fullDocument = false) :
    (transpile fuel w stem folder D.lines).panic = none ∧ (transpile fuel w stem folder D.lines).text =
      D.before.latex w 0 ++ str! "\\begin{itemize}\n" ++ D.list.latex w 0 ++ str! "\\end{itemize}\n\n" := by
  obtain ⟨d, t, h1, h2, h3⟩ := C71_rest_nodes_violated fuel stem folder D hD hfuel
  exact definitions_output hD.before hD.list h1 h2 h3 hfull

/-- An example: a comment behind a definition list.  The hypotheses of the theorems are met. -/
def sampleDotted : Dotted where
  before := .para [str! "a"] [.word (str! "a")] [[]] .nil
  list := .term ⟨str! "b", [], 0⟩ (.para [str! "c"] [.word (str! "c")] [[]] .nil) .nil
  behind := [[], str! "d"]

theorem sampleDotted_ok : sampleDotted.Ok :=
  ⟨by decide +kernel, by decide +kernel, by decide +kernel, by simp [sampleDotted], by decide +kernel, by decide +kernel⟩

example : (transpile (roundsBound (textSize sampleDotted.lines)) sampleWriter [] []
      [str! "a", [], str! "b", str! " c", [], str! "..", [], str! "d"]).text =
    str! "a\n\n\\begin{itemize}\n\\item \\textbf{b}\n\nc\n\n\n\\end{itemize}\n\n" :=
  (C71_rest_violated _ sampleWriter [] [] sampleDotted sampleDotted_ok (Nat.le_refl _) rfl).2.trans (by decide +kernel)


/-! ## Lists -/

/-- A node with no room for another one that is to be read into. -/
theorem Spine.refused_focus {s : PS} {f : Frame} {fs : List Frame} (h : Spine s.doc.tree (f :: fs)) {data : NodeType}
    (ha : childIsAllowed f.data.kind data.kind = .ok false) (hs : Simple data.kind) (hq : s.doc.hyperref.accumulated = []) :
    ∃ d', P.pushFocus data s = .fail d' ∧ Spine d'.tree (f :: fs) := by
  have hk : childIsAllowed s.doc.tree.node.kind data.kind = .ok false := by
    show childIsAllowed s.doc.tree.node.data.kind _ = _
    rw [h.data]; exact ha
  have e0 := hyperref_data s.doc data hs.1 hs.2.1
  unfold P.pushFocus P.orFail DocTree.pushDataAndFocus
  rcases hh : s.doc.hyperrefActions data with ⟨ls, data', d1⟩
  rw [hh] at e0
  simp only at e0
  subst e0
  have e1 : d1.tree = s.doc.tree := by have := DocTree.hyperref_tree s.doc data'; rw [hh] at this; exact this
  rcases hc : d1.takeClasses with ⟨cl, d2⟩
  have e2 : d2.tree = d1.tree := by have := DocTree.takeClasses_tree d1; rw [hc] at this; exact this
  have hnew : (TreeNode.new data' d2.nodeCount ls cl).kind = data'.kind := rfl
  refine ⟨d2, ?_, by rw [e2, e1]; exact h⟩
  simp only [bind, Except.bind, hc]
  simp only [Zipper.pushDataAndFocus, Zipper.pushChild, TreeNode.pushChild, e2, e1, hnew, hk, bind, Except.bind, pure, Except.pure,
    Bool.false_eq_true, if_false]

/-- Any blocks, a definition list, the first line of a list of bullets, numbers or fields, and any lines whatever. -/
structure ListEnd where
  before : Blocks
  list : Defs
  mark : Tag
  text : Str
  behind : List Str

/-- The lines of the document. -/
def ListEnd.lines (D : ListEnd) : List Str := D.before.lines 0 ++ (D.list.lines 0 ++ (D.mark.text ++ D.text) :: D.behind)

/-- There is a blank line between the definitions and the list, and behind the first line of a numbered list. -/
structure ListEnd.Ok (D : ListEnd) : Prop where
  before : D.before.Ok
  blank : BlankLast (D.before.lines 0)
  list : D.list.Ok
  notEmpty : D.list ≠ .nil
  listBlank : BlankLast (D.list.lines 0)
  depth : D.before.height ≤ 8 ∧ D.list.height ≤ 7
  mark : D.mark.Ok [D.text]
  opens : D.mark.opens
  text : TextLine D.text
  clear : D.mark.numbered → ∀ l, D.behind.head? = some l → isBlank l = true

/-- A mark is no term. -/
theorem tag_backs (E : Env) {m : Tag} {l : Str} (hm : m.Ok [l]) (hl : TextLine l) (hb : isBlank (indentLine 0 (m.text ++ l)) = false) :
    ∃ m', firstTransition (indentLine 0 (m.text ++ l)) (definitionTable E) = some (m', backUp) := by
  cases m with
  | bullet b =>
    obtain ⟨hc, hw⟩ := bullet_cls hm
    exact definition_backs_tag E hb (.inl (bullet_captures hc hw 0 hl))
  | number d n =>
    obtain ⟨m, _, h, _⟩ := number_captures hl 0 d hm
    exact definition_backs_tag E hb (.inr (.inl h))
  | field name w => exact definition_backs_tag E hb (.inr (.inr (fieldMark_captures hm hl 0)))

/-- A mark is read as an own block, and refused. -/
theorem tag_refused {E : Env} (h0 : E.baseIndent = 0) {m : Tag} {l : Str} {behind : List Str} (hm : m.Ok [l]) (ho : m.opens) (hl : TextLine l)
    (hc : m.numbered → ∀ x, behind.head? = some x → isBlank x = true) : Refused E (some m) (m.text ++ l) behind := by
  have hd : indentLine 0 (m.text ++ l) = m.text ++ l := by simp [indentLine]
  have hf : m.numbered → Follows m 0 behind := fun h => .inl fun x hx => .inl (hc h x hx)
  have hstart : Starts E 0 (some m) ((m.text ++ l) :: behind) := by
    have := Starts.tag (E := E) (i := 0) (ls := behind) hm hl hf
    rwa [hd] at this
  have hvis : isBlank (indentLine 0 (m.text ++ l)) = false ∧ indentOf (indentLine 0 (m.text ++ l)) = 0 :=
    ⟨(front_tag hm hl 0).not_blank, (front_tag hm hl 0).indent⟩
  have hleave := tag_backs E hm hl hvis.1
  rw [hd] at hvis hleave
  refine ⟨hstart, hvis, hleave, ?_⟩
  intro ps ss fs hs hq hsrc
  rw [← hd] at hsrc
  obtain ⟨x, tr, k1, k2⟩ := tag_acts hsrc hm ho hl hf
  rw [hd] at k1
  obtain ⟨d', h1, h2⟩ := hs.refused_focus (data := m.list 0 0) (by cases m <;> (show childIsAllowed .DefinitionList _ = _; rfl)) (tag_simple m 0 0) hq
  refine ⟨x, tr, d', k1, ?_, h2⟩
  rw [h0, atIndent_right hs rfl] at k2
  rw [k2]
  simp only [bind, P.bind, Nat.add_zero, h1]

/-- **C71 fails in front of lists:** the parse fails, and only the definition list and the blocks before it are in the document, whatever is behind it. -/
theorem C71_list_nodes_violated (fuel : Nat) (stem folder : Str) (D : ListEnd) (hD : D.Ok) (hfuel : roundsBound (textSize D.lines) ≤ fuel) :
    ∃ d t, parseDocument fuel stem folder D.lines = .ok (.failure d) ∧ IsDoc d.tree t ∧
      shapeOf t = .node .Document (D.before.shapes 0 ++ [.node (.DefinitionList 0) (D.list.shapes 0)]) :=
  definitions_fail fuel stem folder D.before D.list D.lines (some D.mark) (D.mark.text ++ D.text) D.behind rfl hD.before hD.blank hD.list hD.notEmpty
    hD.listBlank hD.depth.1 hD.depth.2 (fun _ => tag_refused rfl hD.mark hD.opens hD.text hD.clear) hfuel

/-- **C71 fails in front of lists, in the output:** everything behind the definition list is lost without a message. -/
theorem C71_list_violated (fuel : Nat) (w : WriterEnv) (stem folder : Str) (D : ListEnd) (hD : D.Ok) (hfuel : roundsBound (textSize D.lines) ≤ fuel)
    (hfull : w.fullDocument = false) :
    (transpile fuel w stem folder D.lines).panic = none ∧ (transpile fuel w stem folder D.lines).text =
      D.before.latex w 0 ++ str! "\\begin{itemize}\n" ++ D.list.latex w 0 ++ str! "\\end{itemize}\n\n" := by
  obtain ⟨d, t, h1, h2, h3⟩ := C71_list_nodes_violated fuel stem folder D hD hfuel
  exact definitions_output hD.before hD.list h1 h2 h3 hfull

/-- An example: a bullet list behind a definition list.  The hypotheses of the theorems are met. -/
def sampleListEnd : ListEnd where
  before := .para [str! "a"] [.word (str! "a")] [[]] .nil
  list := .term ⟨str! "b", [], 0⟩ (.para [str! "c"] [.word (str! "c")] [[]] .nil) .nil
  mark := .bullet '*'
  text := str! "d"
  behind := [str! "* e", [], str! "f"]

theorem sampleListEnd_ok : sampleListEnd.Ok :=
  ⟨by decide +kernel, by decide +kernel, by decide +kernel, by simp [sampleListEnd], by decide +kernel, by decide +kernel, by decide, trivial, by decide +kernel,
    fun h => h.elim⟩

example : (transpile (roundsBound (textSize sampleListEnd.lines)) sampleWriter [] []
      [str! "a", [], str! "b", str! " c", [], str! "* d", str! "* e", [], str! "f"]).text =
    str! "a\n\n\\begin{itemize}\n\\item \\textbf{b}\n\nc\n\n\n\\end{itemize}\n\n" :=
  (C71_list_violated _ sampleWriter [] [] sampleListEnd sampleListEnd_ok (Nat.le_refl _) rfl).2.trans (by decide +kernel)

end Rustla
