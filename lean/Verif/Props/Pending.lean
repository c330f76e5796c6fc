import Verif.Props.Labels
/-!
# C26-C28: pending labels, indirect targets and pending classes
-/
namespace Rustla
open Spec DocTree

/-! ## C26 -/

/-- The nodes on which pending labels are not spent. -/
def keepsPending : NodeType → Bool
  | .EmptyLine => true
  | .WhiteSpace .. => true
  | _ => false

/-- The nodes for which the code does not register the labels as targets although it attaches them. -/
def forgetsTargets (k : Kind) : Bool := k == .Citation || k == .CitationReference || k == .FootnoteReference

/-- What a node of the given data is given when it is added: the pending labels followed by its own. -/
theorem hyperref_labels (d : DocTree) (data : NodeType) :
    (keepsPending data = true → (d.hyperrefActions data).1 = none ∧
      (d.hyperrefActions data).2.2.hyperref = d.hyperref) ∧
    (keepsPending data = false → (d.hyperrefActions data).2.2.hyperref.accumulated = []) ∧
    (keepsPending data = false → data.kind ≠ .FootnoteReference →
      ∃ own, (d.hyperrefActions data).1.getD [] = d.hyperref.accumulated ++ own) ∧
    (keepsPending data = false → forgetsTargets data.kind = false →
      ∀ l ∈ (d.hyperrefActions data).1.getD [],
        mapGet (d.hyperrefActions data).2.2.hyperref.targets l = some d.nodeCount) := by
  have wrap : ∀ ls : List Str, (if ls.isEmpty = true then none else some ls).getD [] = ls := by
    intro ls; cases ls <;> simp
  have incT : ∀ d : DocTree, d.incrementSymbolicFootnotes.hyperref.targets = d.hyperref.targets := fun _ => rfl
  have incA : ∀ d : DocTree, d.incrementSymbolicFootnotes.hyperref.accumulated = d.hyperref.accumulated := fun _ => rfl
  by_cases hk : keepsPending data = true
  · refine ⟨fun _ => ?_, by simp [hk], by simp [hk], by simp [hk]⟩
    cases data <;> simp [keepsPending] at hk <;> simp [hyperrefActions, takeLabels, addTargets]
  · simp only [Bool.not_eq_true] at hk
    have ht : ∀ (a : List Str × DocTree), d.takeLabels data = a →
        a = (d.hyperref.accumulated, { d with hyperref := { d.hyperref with accumulated := [] } }) := by
      rintro a rfl
      unfold takeLabels
      split
      · simp [keepsPending] at hk
      · simp [keepsPending] at hk
      · rfl
    have ht' := ht _ rfl
    refine ⟨by simp [hk], ?_, ?_, ?_⟩
    · intro _
      unfold hyperrefActions
      simp only [ht']
      split
      · rfl
      · rfl
      · cases ‹FootnoteKind› <;> simp [addTargets_sym, incA]
      · split
        · simp [addReferences_sym]
        · split <;> simp [addReferences_sym]
        · split <;> simp [addReferences_sym]
        · split <;> simp [addReferences_sym]
      · simp [addTargets_sym]
      · show ((DocTree.addTargets _ _).addReference _ _).hyperref.accumulated = []
        show (DocTree.addTargets _ _).hyperref.accumulated = []
        simp [addTargets_sym]
      · simp [addTargets_sym]
      · simp [addTargets_sym]
    · intro _ hf
      unfold hyperrefActions
      simp only [ht']
      split
      · exact ⟨_, wrap _⟩
      · exact ⟨[], by rw [wrap]; simp⟩
      · rw [wrap]
        split
        · exact ⟨_, rfl⟩
        · exact ⟨_, rfl⟩
        · exact ⟨[], by simp⟩
      · exact absurd rfl hf
      · exact ⟨_, wrap _⟩
      · exact ⟨[], by rw [wrap]; simp⟩
      · exact ⟨_, wrap _⟩
      · exact ⟨[], by rw [wrap]; simp⟩
    · intro _ hf
      unfold hyperrefActions
      simp only [ht']
      split
      · simp [forgetsTargets, NodeType.kind] at hf
      · simp [forgetsTargets, NodeType.kind] at hf
      · intro l hl
        rw [wrap] at hl
        cases ‹FootnoteKind› <;> simp only [incT] <;> rw [addTargets_get, if_pos hl]
      · simp [forgetsTargets, NodeType.kind] at hf
      · intro l hl
        rw [wrap] at hl
        rw [addTargets_get, if_pos hl]
      · intro l hl
        rw [wrap] at hl
        show mapGet (DocTree.addTargets _ _).hyperref.targets l = _
        rw [addTargets_get, if_pos hl]
      · intro l hl
        rw [wrap] at hl
        show mapGet (DocTree.addTargets _ _).hyperref.targets l = _
        rw [addTargets_get, if_pos hl]
      · intro l hl
        rw [wrap] at hl
        rw [addTargets_get, if_pos hl]

/-- What an accepted `push_data` does, in terms of `hyperref_actions`. -/
theorem pushData_accepted {d d' : DocTree} {data : NodeType} (h : d.pushData data = .ok (true, d')) :
    ∃ cs n, d'.tree.node.children = some (cs ++ [n]) ∧ d.tree.node.children = some cs ∧ n.id = d.nodeCount ∧
      n.refnames = (d.hyperrefActions data).1 ∧ n.data = (d.hyperrefActions data).2.1 ∧
      n.classes = (if d.classes.isEmpty then none else some d.classes) ∧
      d'.hyperref = (d.hyperrefActions data).2.2.hyperref ∧ d'.classes = [] := by
  unfold DocTree.pushData at h
  have hcl := hyperref_classes d data
  have htr := hyperref_tree d data
  have hnc := hyperref_nodeCount d data
  generalize hh : d.hyperrefActions data = ha at *
  obtain ⟨ls, data', d1⟩ := ha
  simp only at hcl htr hnc
  simp only [Zipper.pushData] at h
  cases hp : d1.takeClasses.2.tree.pushChild (TreeNode.new data' d1.takeClasses.2.nodeCount ls d1.takeClasses.1) with
  | error e => simp only [hp, bind, Except.bind, reduceCtorEq] at h
  | ok o =>
    cases o with
    | none => simp only [hp, bind, Except.bind, pure, Except.pure, Except.ok.injEq, Prod.mk.injEq, Bool.false_eq_true, false_and] at h
    | some z =>
      simp only [hp, bind, Except.bind, pure, Except.pure, Except.ok.injEq, Prod.mk.injEq, true_and] at h
      subst h
      obtain ⟨_, cs, hc, rfl⟩ := childIsAllowed_ok_of_push hp
      rw [takeClasses_tree, htr] at hc
      refine ⟨cs, TreeNode.new data' d1.takeClasses.2.nodeCount ls d1.takeClasses.1, ?_, hc, ?_, rfl, rfl, ?_, by simp, by simp⟩
      · simp
      · simp [TreeNode.new, TreeNode.id, hnc]
      · show d1.takeClasses.1 = _
        unfold takeClasses
        rw [hcl]
        split <;> simp_all

/-- **C26 (part one).** Registering internal target labels appends them to the pending ones. -/
theorem C26_labels_accumulate (d d' : DocTree) (ls : List Str)
    (h : DocOp.runAll d (ls.map .internalTarget) = .ok d') :
    d'.hyperref.accumulated = d.hyperref.accumulated ++ ls ∧ d'.tree = d.tree ∧ d'.nodeCount = d.nodeCount := by
  induction ls generalizing d with
  | nil => simp [DocOp.runAll, pure, Except.pure] at h; subst h; simp
  | cons l ls ih =>
    simp only [List.map_cons, DocOp.runAll, DocOp.run, pure, Except.pure, bind, Except.bind] at h
    have := ih _ h
    simp [pushInternalTarget] at this
    simpa using this

/-- **C26 (part two).** An empty line or white space that is added gets no labels and leaves the pending ones alone. -/
theorem C26_blank_keeps_pending (d d' : DocTree) (data : NodeType) (hk : keepsPending data = true)
    (h : d.pushData data = .ok (true, d')) :
    d'.hyperref.accumulated = d.hyperref.accumulated ∧
    ∃ cs n, d'.tree.node.children = some (cs ++ [n]) ∧ n.refnames = none := by
  obtain ⟨cs, n, h1, _, _, h2, _, _, h3, _⟩ := pushData_accepted h
  obtain ⟨k1, _⟩ := hyperref_labels d data
  obtain ⟨k1, k2⟩ := k1 hk
  exact ⟨by rw [h3, k2], cs, n, h1, by rw [h2, k1]⟩

/-- **C26 (part three).** Any other node that is added gets all pending labels, in order and before its own, every one
of its labels is registered as a target of this node, and nothing is pending afterwards.  Missing: footnote references,
citation references and citations (`C26_citation_forgets_targets`). -/
theorem C26_labels_attach_partial (d d' : DocTree) (data : NodeType) (hk : keepsPending data = false)
    (hf : forgetsTargets data.kind = false) (h : d.pushData data = .ok (true, d')) :
    ∃ cs n own, d'.tree.node.children = some (cs ++ [n]) ∧ n.refnames.getD [] = d.hyperref.accumulated ++ own ∧
      (∀ l ∈ n.refnames.getD [], mapGet d'.hyperref.targets l = some n.id) ∧
      d'.hyperref.accumulated = [] := by
  obtain ⟨cs, n, h1, _, hid, h2, _, _, h3, _⟩ := pushData_accepted h
  obtain ⟨_, k1, k2, k3⟩ := hyperref_labels d data
  obtain ⟨own, k2⟩ := k2 hk (by intro e; rw [e] at hf; exact absurd hf (by decide))
  refine ⟨cs, n, own, h1, by rw [h2, k2], ?_, by rw [h3, k1 hk]⟩
  intro l hl
  rw [h3, hid]
  exact k3 hk hf l (by rw [← h2]; exact hl)

/-- **C26, violation.** A citation takes a pending label without registering it as a target. -/
theorem C26_citation_forgets_targets :
    (match DocOp.runAll (DocTree.new [] []) [.internalTarget (str! "here"), .push (.Citation 4 (str! "CIT"))] with
      | .ok d => ((d.tree.node.children.getD []).map TreeNode.refnames, mapGet d.hyperref.targets (str! "here"))
      | .error _ => ([], some 0)) = ([some [str! "here", str! "cit"]], none) := by decide +kernel

/-- **C26, violation.** A refused node swallows the pending labels: the next node does not get them. -/
theorem C26_refused_push_loses_labels :
    (match DocOp.runAll (DocTree.new [] []) [.internalTarget (str! "here"), .push (.Text (str! "refused")),
        .push (.Paragraph 0)] with
      | .ok d => (d.tree.node.children.getD []).map TreeNode.refnames
      | .error _ => []) = [none] := by decide +kernel

example : (match DocOp.runAll (DocTree.new [] []) [.internalTarget (str! "one"), .internalTarget (str! "two"),
      .push .EmptyLine, .push (.Section (str! "A  Title") 1 (.Under '=')), .push (.Paragraph 0)] with
    | .ok d => (d.tree.node.children.getD []).map TreeNode.refnames
    | .error _ => []) = [none, some [str! "one", str! "two", str! "a title"], none] := by decide +kernel

/-! ## C27 -/

/-- **C27 is violated.** For every indirect target whose own name differs from the name it points to, the name it
points to is not recorded as referenced: the reference is recorded for the target's own name instead. -/
theorem C27_violated (d : DocTree) (indent : Nat) (target pointsTo : Str)
    (hne : normalizeRefname (normalizeRefname target) ≠ normalizeRefname pointsTo)
    (hnew : mapGet d.hyperref.references (normalizeRefname pointsTo) = none) :
    mapGet (d.hyperrefActions (.IndirectHyperlinkTarget indent target pointsTo)).2.2.hyperref.references
      (normalizeRefname pointsTo) = none := by
  have hr : ∀ (d : DocTree) (ls : List Str), (d.addTargets ls).hyperref.references = d.hyperref.references := by
    intro d ls
    unfold addTargets
    induction ls generalizing d with
    | nil => rfl
    | cons l ls ih => rw [List.foldl_cons, ih]; rfl
  simp only [hyperrefActions, takeLabels, addReference, hr]
  rw [mapGet_insert, if_neg hne]
  exact hnew

example : normalizeRefname (normalizeRefname (str! "One")) ≠ normalizeRefname (str! "Two") ∧
    mapGet (DocTree.new [] []).hyperref.references (normalizeRefname (str! "Two")) = none := by decide +kernel

/-! ## C28 -/

/-- **C28.** The next node added by `push_data` gets all pending classes, in order, and nothing is pending afterwards. -/
theorem C28_classes_to_next_node (d d' : DocTree) (data : NodeType) (h : d.pushData data = .ok (true, d')) :
    (∃ cs n, d'.tree.node.children = some (cs ++ [n]) ∧ n.classes.getD [] = d.classes) ∧ d'.classes = [] := by
  obtain ⟨cs, n, h1, _, _, _, _, h2, _, h3⟩ := pushData_accepted h
  refine ⟨⟨cs, n, h1, ?_⟩, h3⟩
  rw [h2]
  cases d.classes <;> simp

/-- **C28.** The same for `push_data_and_focus`: the node in focus afterwards has the classes. -/
theorem C28_classes_to_next_focus (d d' : DocTree) (data : NodeType) (h : d.pushDataAndFocus data = .ok (true, d')) :
    d'.tree.node.classes.getD [] = d.classes ∧ d'.classes = [] := by
  unfold DocTree.pushDataAndFocus at h
  have hcl := hyperref_classes d data
  generalize hh : d.hyperrefActions data = ha at *
  obtain ⟨ls, data', d1⟩ := ha
  simp only at hcl h
  cases hp : d1.takeClasses.2.tree.pushDataAndFocus data' d1.takeClasses.2.nodeCount ls d1.takeClasses.1 with
  | error e => simp only [hp, bind, Except.bind, reduceCtorEq] at h
  | ok o =>
    cases o with
    | none => simp only [hp, bind, Except.bind, pure, Except.pure, Except.ok.injEq, Prod.mk.injEq, Bool.false_eq_true, false_and] at h
    | some z =>
      simp only [hp, bind, Except.bind, pure, Except.pure, Except.ok.injEq, Prod.mk.injEq, true_and] at h
      subst h
      refine ⟨?_, by simp⟩
      have hz : z.node = TreeNode.new data' d1.takeClasses.2.nodeCount ls d1.takeClasses.1 := by
        unfold Zipper.pushDataAndFocus at hp
        cases hq : d1.takeClasses.2.tree.pushChild (TreeNode.new data' d1.takeClasses.2.nodeCount ls d1.takeClasses.1) with
        | error e => simp only [hq, bind, Except.bind, reduceCtorEq] at hp
        | ok o =>
          cases o with
          | none => simp only [hq, bind, Except.bind, pure, Except.pure, Except.ok.injEq, reduceCtorEq] at hp
          | some z1 =>
            simp only [hq, bind, Except.bind] at hp
            obtain ⟨_, cs, hc, rfl⟩ := childIsAllowed_ok_of_push hq
            unfold Zipper.focusOnLastChild at hp
            simp only [TreeNode.children_setChildren] at hp
            cases hcs : cs ++ [TreeNode.new data' d1.takeClasses.2.nodeCount ls d1.takeClasses.1] with
            | nil => simp at hcs
            | cons x xs =>
              rw [hcs] at hp
              simp only [Except.ok.injEq] at hp
              obtain ⟨cs2, hi, e1, e2, _⟩ := Zipper.focusOnChild_some hp
              simp only [TreeNode.children_setChildren, Option.some.injEq] at e1
              subst e1
              rw [e2]
              have hl : xs.length = cs.length := by
                have := congrArg List.length hcs
                simp at this; omega
              simp only [← hcs, hl, List.getElem_concat_length]
      show z.node.classes.getD [] = _
      rw [hz]
      show (d1.takeClasses.1).getD [] = _
      unfold takeClasses
      rw [hcl]
      cases d.classes <;> simp

/-- **C28, violation.** A node added with `push_child` (hyperlink targets are) does not get the pending classes. -/
theorem C28_push_child_ignores_classes :
    (match DocOp.runAll (DocTree.new [] []) [.addClass (str! "c"), .pushNode (.ExternalHyperlinkTarget 0 (str! "t") (str! "u"))] with
      | .ok d => ((d.tree.node.children.getD []).map TreeNode.classes, d.classes)
      | .error _ => ([], [])) = ([none], [str! "c"]) := by decide +kernel

example : (match DocOp.runAll (DocTree.new [] []) [.addClass (str! "a"), .addClass (str! "b"), .push (.Paragraph 0),
      .push (.Paragraph 0)] with
    | .ok d => (d.tree.node.children.getD []).map TreeNode.classes
    | .error _ => []) = [some [str! "a", str! "b"], none] := by decide +kernel

end Rustla
